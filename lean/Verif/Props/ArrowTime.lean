import Verif.Proofs.ArrowTime
import Verif.Props.ArrowArity
/-! C105: sums and differences of dates, timestamps, durations and intervals. -/
namespace Verif
namespace Arrow

/-- C105, for dates that can be moved, under nulls too: which operations there are, of which type the result is, and
what is in its slots, for all pairs of types.  What is missing are dates that panic. -/
theorem C105_partial (sh : Moves) (parse : String → Option (Int → Int)) (op : Op) {l r : Temporal} {ls rs : Bool}
    (hl : ScalarOk l ls) (hr : ScalarOk r rs) (hc : Calm sh l r) (hc' : Calm sh r l) :
    Does (timeOp sh parse op l ls r rs) l.slots ls r.slots rs (outcome sh parse op l.kind r.kind) :=
  timeOp_ok sh parse op hl hr hc hc'

/-- Months of thirty days, whose end is not watched but in one place. -/
def demoMoves : Moves where
  stamp s _ _ x d :=
    match d with
    | .yearMonth m => if x = 13 then none else some (s.exact x (m * 2592000))
    | _ => none
  date32 s x d :=
    match d with
    | .yearMonth m => if x = 2147483647 then .panic else .ok (s.exact x (m * 30))
    | .dayTime v => .ok (s.exact x v.days)
    | .monthDayNano v => .ok (s.exact x v.days)
  date64 s x d :=
    match d with
    | .yearMonth m => .ok (s.exact x (m * 2592000000))
    | .dayTime v => .ok (s.exact x (v.days * 86400000 + v.ms))
    | .monthDayNano _ => .panic

theorem demoCalm (v : List (Option Int)) (hv : some 2147483647 ∉ v) (b : Prim Int) :
    Calm demoMoves (.date32 (demo v)) (.yearMonth b) := by
  refine ⟨fun _ s x d hx hd => ?_, fun h => by cases h⟩
  obtain ⟨y, hy, rfl⟩ := List.mem_map.1 hd
  simp only [Temporal.stored, demo, List.mem_map] at hx
  obtain ⟨z, ⟨o, ho, hz⟩, hx⟩ := hx
  injection hx with hx
  subst hx
  simp only [demoMoves, Val.delta]
  rw [if_neg]
  · intro h; cases h
  · intro e
    subst e
    cases o with
    | none => simp at hz
    | some w => simp at hz; subst hz; exact hv ho

/-- What the result of an operation shows. -/
def shown (r : Rs (Except ArrowErr Temporal)) : Rs (Option (Kind × List (Option Val))) :=
  r.map' fun e => e.toOption.map fun t => (t.kind, t.slots)

example (b : Prim Int) : Calm demoMoves (.date32 (demo [some 10, none])) (.yearMonth b) ∧
    Calm demoMoves (.yearMonth b) (.date32 (demo [some 10, none])) :=
  ⟨demoCalm _ (by decide) b, (fun h => nomatch h), (fun h => nomatch h)⟩
example : ScalarOk (.date32 (demo [some 10, none])) false ∧ ScalarOk (.yearMonth (demo [some 2])) true ∧
    shown (timeOp demoMoves (fun _ => none) .sub (.date32 (demo [some 10, none])) false (.yearMonth (demo [some 2])) true) =
      .ok (some (.date32, [some (.num (-50)), none])) ∧
    shown (timeOp demoMoves (fun _ => none) .add (.yearMonth (demo [some 2])) true (.date32 (demo [some 10, none])) false) =
      .ok (some (.date32, [some (.num 70), none])) := by
  refine ⟨⟨⟨demo_ok _, ?_⟩, fun h => by cases h⟩, ⟨demo_ok _, fun _ => rfl⟩, rfl, rfl⟩
  intro v hv
  have : v = 10 := by
    have h : (demo [some 10, none]).slots = [some 10, none] := by decide
    rw [h] at hv
    simpa using hv
  subst this
  decide
example : shown (timeOp demoMoves (fun _ => some id) .sub (.timestamp .second (some "x") (demo [some 10, none, some 7])) false
    (.timestamp .second none (demo [some 4, some 5, some 10])) false) =
      .ok (some (.duration .second, [some (.num 6), none, some (.num (-3))])) ∧
    shown (timeOp demoMoves (fun _ => some id) .add (.duration .second (demo [some 4])) true
      (.timestamp .second (some "x") (demo [some 10, none])) false) =
      .ok (some (.timestamp .second (some "x"), [some (.num 14), none])) ∧
    shown (timeOp demoMoves (fun _ => some id) .add (.timestamp .second (some "x") (demo [some 13])) false
      (.yearMonth (demo [some 1])) false) = .ok none ∧
    shown (timeOp demoMoves (fun _ => some id) .sub (.date32 (demo [some 3])) false (.date32 (demo [some 5])) false) =
      .ok (some (.duration .second, [some (.num (-172800))])) := by
  refine ⟨?_, ?_, ?_, ?_⟩ <;> decide +kernel
example : shown (timeOp demoMoves (fun _ => none) .add (.dayTime ⟨[⟨1, 2⟩], none⟩) false (.dayTime ⟨[⟨10, -5⟩], none⟩) false) =
      .ok (some (.dayTime, [some (.dayTime ⟨11, -3⟩)])) ∧
    shown (timeOp demoMoves (fun _ => none) .add (.dayTime ⟨[⟨1, 2⟩], none⟩) false
      (.dayTime ⟨[⟨10, 2147483646⟩], none⟩) false) = .ok none := by
  refine ⟨?_, ?_⟩ <;> decide +kernel

/-- C105: a sum is the same either way round. -/
theorem C105_commutes (sh : Moves) (parse : String → Option (Int → Int)) {op : Op} (hop : op = .add ∨ op = .addWrapping)
    {l r : Temporal} {ls rs : Bool} (hl : ScalarOk l ls) (hr : ScalarOk r rs) (hc : Calm sh l r) (hc' : Calm sh r l)
    {k : Kind} {f : Val → Val → Except ArrowErr Val}
    (h : outcome sh parse op l.kind r.kind = .each k f) (hp : l.kind.point ≠ r.kind.point) :
    Gives (timeOp sh parse op l ls r rs) k (want l.slots ls r.slots rs f) ∧
      Gives (timeOp sh parse op r rs l ls) k (want l.slots ls r.slots rs f) := by
  have h1 := C105_partial sh parse op hl hr hc hc'
  have h2 := C105_partial sh parse op hr hl hc' hc
  rw [h] at h1
  refine ⟨h1, ?_⟩
  have hs : signOf op = some .plus := by rcases hop with rfl | rfl <;> rfl
  have e : outcome sh parse op r.kind l.kind = (Outcome.each k f).flip := by
    rw [← h]
    simp only [outcome, hs]
    cases l <;> cases r <;>
      first
      | exact absurd rfl hp
      | rfl
      | (simp only [Temporal.kind, Kind.point, if_true, Bool.false_eq_true, if_false, reduceCtorEq]
         cases pointOutcome sh parse (some Sign.plus) _ _ <;> rfl)
      | (exfalso
         simp only [outcome, hs, Temporal.kind, Kind.point, if_true, Bool.false_eq_true, if_false, pointOutcome] at h
         split at h <;> cases h)
      | (exfalso
         simp only [outcome, hs, Temporal.kind, Kind.point, if_true, Bool.false_eq_true, if_false, pointOutcome] at h
         cases h)
  rw [e] at h2
  change Gives _ k (want r.slots rs l.slots ls fun x y => f y x) at h2
  rw [want_flip] at h2
  exact h2

example : outcome demoMoves (fun _ => none) .add (.yearMonth) .date32 =
    .each .date32 (fun x y => movedDate demoMoves.date32 .plus y x) ∧ Kind.yearMonth.point ≠ Kind.date32.point := ⟨rfl, by decide⟩

/-- C105: the negative of a duration or an interval is exact or an error; nothing else has one. -/
theorem C105_neg {t : Temporal} (h : t.Ok) :
    match negated t.kind with
    | none => timeNeg t = .ok (.error .invalid)
    | some f => Gives (timeNeg t) t.kind (collect (t.slots.map (strictTry f))) := timeNeg_ok h

example : shown (timeNeg (.monthDayNano ⟨[⟨1, -2, 3⟩], none⟩)) =
      .ok (some (.monthDayNano, [some (.monthDayNano ⟨-1, 2, -3⟩)])) ∧
    shown (timeNeg (.duration .second (demo [some 5, none]))) = .ok (some (.duration .second, [some (.num (-5)), none])) ∧
    shown (timeNeg (.yearMonth (demo [some (-2147483648)]))) = .ok none := by
  refine ⟨?_, ?_, ?_⟩ <;> decide +kernel

/-- C105 does not hold of dates under nulls: if moving a date panics, as it does beyond the end of the calendar, it also
does so under a null, where there is nothing to move. -/
theorem C105_violated_null (sh : Moves) (parse : String → Option (Int → Int)) {x m : Int}
    (h : sh.date32 .plus x (.yearMonth m) = .panic) :
    ∃ l r : Prim Int, l.Ok ∧ r.Ok ∧ l.slots = [none] ∧ r.slots = [some m] ∧
      timeOp sh parse .add (.date32 l) false (.yearMonth r) false = .panic := by
  refine ⟨⟨[x], some ⟨[false], 0, 1⟩⟩, ⟨[m], none⟩, ?_, ?_, rfl, rfl, ?_⟩
  · intro n hn
    injection hn with hn
    subst hn
    exact ⟨by simp, rfl⟩
  · intro n hn; cases hn
  · change asArray _ (opForced 0 _ _ fun x y => sh.date32 .plus x (.yearMonth y)) = .panic
    have e : binary (⟨[x], some ⟨[false], 0, 1⟩⟩ : Prim Int) ⟨[m], none⟩ (fun x y => sh.date32 .plus x (.yearMonth y)) =
        .ok (.ok ⟨[sh.date32 .plus x (.yearMonth m)], some ⟨[false], 0, 1⟩⟩) := rfl
    simp only [opForced, opMacro, e, h]
    rfl

example : demoMoves.date32 .plus 2147483647 (.yearMonth 1) = .panic := rfl

/-- C100: arithmetic on floats never fails on arrays that go together, and on others is an error. -/
theorem C100_float {F : Type} (fl : Floats F) (op : Op) {l r : Datum F} (hl : l.Ok) (hr : r.Ok) :
    (Match l r → result (floatOp fl op l r) =
      .ok (collect (List.zipWith (strictTry₂ fun x y => .ok (fl.op op x y)) (l.spread (lengthOf l r)) (r.spread (lengthOf l r))))) ∧
    (l.scalar = r.scalar → l.array.slots.length ≠ r.array.slots.length → floatOp fl op l r = .ok (.error .compute)) ∧
    result (floatNeg fl l.array) = .ok (.ok (l.array.slots.map (Option.map fl.neg))) := by
  refine ⟨fun hm => ?_, fun hs h => ?_, ?_⟩
  · cases op <;> exact op_ok fl.zero hl hr hm _
  · cases op <;> exact op_lengths fl.zero hl hr hs h _
  · obtain ⟨b, hb, _, he⟩ := unary_ok hl.1 fl.neg
    simp only [floatNeg, hb, Rs.map', result, he, Except.map]

example : (floatOp ⟨0, (· + ·), (· - ·), (· * ·), (· / ·), (· % ·), fun x : Int => -x⟩ .sub
    ⟨demo [some 3, none], false⟩ ⟨demo [some 5], true⟩).map' (fun e => e.toOption.map Prim.slots) =
    .ok (some [some (-2), none]) := rfl

end Arrow
end Verif
