import Verif.Spec.ArrowTime
import Verif.Proofs.ArrowParts
namespace Verif
namespace Arrow
variable {A B O : Type}

theorem collect_map {iA : A → Val} {iB : B → Val} {iO : O → Val} {op : A → B → Except ArrowErr O}
    {f : Val → Val → Except ArrowErr Val} (l : List (Option A)) (r : List (Option B))
    (h : ∀ x y, some x ∈ l → some y ∈ r → f (iA x) (iB y) = (op x y).map iO) :
    collect (List.zipWith (strictTry₂ f) (l.map (Option.map iA)) (r.map (Option.map iB))) =
      (collect (List.zipWith (strictTry₂ op) l r)).map (List.map (Option.map iO)) := by
  induction l generalizing r with
  | nil => rfl
  | cons a l ih =>
    cases r with
    | nil => rfl
    | cons b r =>
      have ih := ih r fun x y hx hy => h x y (List.mem_cons_of_mem _ hx) (List.mem_cons_of_mem _ hy)
      simp only [List.map_cons, List.zipWith_cons_cons]
      have head : strictTry₂ f (a.map iA) (b.map iB) = (strictTry₂ op a b).map (Option.map iO) := by
        cases a with
        | none => rfl
        | some a =>
          cases b with
          | none => rfl
          | some b =>
            simp only [Option.map_some, strictTry₂, h a b (List.mem_cons_self ..) (List.mem_cons_self ..)]
            cases op a b <;> rfl
      rw [head]
      cases hx : strictTry₂ op a b with
      | error e => rfl
      | ok v =>
        simp only [Except.map, collect, ih]
        cases collect (List.zipWith (strictTry₂ op) l r) <;> rfl

/-- The slots of the elements of an array. -/
def valSlots (i : A → Val) (a : Prim A) : List (Option Val) := a.slots.map (Option.map i)

theorem spread_map (i : A → Val) (a : Prim A) (s : Bool) (n : Nat) :
    spreadOut s (valSlots i a) n = ((⟨a, s⟩ : Datum A).spread n).map (Option.map i) := by
  unfold spreadOut Datum.spread valSlots
  cases s
  · rfl
  · simp only [if_true, List.map_replicate]
    congr 1
    cases a.slots <;> rfl

theorem mem_spread {d : Datum A} (h : d.Ok) {n : Nat} {x : A} (hx : some x ∈ d.spread n) : some x ∈ d.array.slots := by
  unfold Datum.spread at hx
  split at hx
  · rename_i hs
    have hl := h.2 hs
    have he := List.eq_of_mem_replicate hx
    rw [he]
    cases ha : d.array.slots with
    | nil => rw [ha] at hl; simp at hl
    | cons y l => exact List.mem_cons_self ..
  · exact hx

theorem tryOp_lengths [Inhabited A] [Inhabited B] (zero : O) {l : Datum A} {r : Datum B} (hl : l.Ok) (hr : r.Ok)
    (hs : l.scalar = r.scalar) (h : l.array.slots.length ≠ r.array.slots.length) (op : A → B → Except ArrowErr O) :
    tryOpMacro zero l r op = .ok (.error .compute) := by
  have e : l.array.values.length ≠ r.array.values.length := by
    rw [← slots_length hl.1, ← slots_length hr.1]; exact h
  unfold tryOpMacro
  rw [← hs]
  cases l.scalar <;> exact if_pos e

theorem op_lengths (zero : O) {l : Datum A} {r : Datum B} (hl : l.Ok) (hr : r.Ok)
    (hs : l.scalar = r.scalar) (h : l.array.slots.length ≠ r.array.slots.length) (op : A → B → O) :
    opMacro zero l r op = .ok (.error .compute) := by
  have e : l.array.values.length ≠ r.array.values.length := by
    rw [← slots_length hl.1, ← slots_length hr.1]; exact h
  unfold opMacro
  rw [← hs]
  cases l.scalar <;> exact if_pos e

/-- From the slots of the result to those of its elements. -/
theorem gives_of {K : Prim O → Temporal} {k : Kind} {iO : O → Val} (hK : ∀ c, (K c).kind = k ∧ (K c).slots = valSlots iO c)
    {m : Rs (Except ArrowErr (Prim O))} {w : Except ArrowErr (List (Option O))} (h : result m = .ok w) :
    Gives (asArray K m) k (w.map (List.map (Option.map iO))) := by
  cases m with
  | panic => exact absurd h (by simp [result, Rs.map'])
  | ok e =>
    cases e with
    | error e =>
      have : w = .error e := by injection h with h; exact h.symm
      subst this
      rfl
    | ok c =>
      have : w = .ok c.slots := by injection h with h; exact h.symm
      subst this
      exact ⟨K c, rfl, (hK c).1, (hK c).2⟩

theorem gives_result {a : Prim A} {b : Prim B} {ls rs : Bool} (hl : (⟨a, ls⟩ : Datum A).Ok) (hr : (⟨b, rs⟩ : Datum B).Ok)
    {K : Prim O → Temporal} {k : Kind} {iA : A → Val} {iB : B → Val} {iO : O → Val}
    (hK : ∀ c, (K c).kind = k ∧ (K c).slots = valSlots iO c) {op : A → B → Except ArrowErr O}
    {f : Val → Val → Except ArrowErr Val}
    (hf : ∀ x y, some x ∈ a.slots → some y ∈ b.slots → f (iA x) (iB y) = (op x y).map iO)
    {m : Rs (Except ArrowErr (Prim O))}
    (h1 : Match (⟨a, ls⟩ : Datum A) (⟨b, rs⟩ : Datum B) → result m = .ok (collect (List.zipWith (strictTry₂ op)
      ((⟨a, ls⟩ : Datum A).spread (lengthOf (⟨a, ls⟩ : Datum A) (⟨b, rs⟩ : Datum B)))
      ((⟨b, rs⟩ : Datum B).spread (lengthOf (⟨a, ls⟩ : Datum A) (⟨b, rs⟩ : Datum B))))))
    (h2 : ls = rs → a.slots.length ≠ b.slots.length → m = .ok (.error .compute)) :
    Gives (asArray K m) k (want (valSlots iA a) ls (valSlots iB b) rs f) := by
  have la : (valSlots iA a).length = a.slots.length := by simp [valSlots]
  have lb : (valSlots iB b).length = b.slots.length := by simp [valSlots]
  unfold want
  rw [la, lb]
  by_cases hc : ls = rs ∧ a.slots.length ≠ b.slots.length
  · rw [if_pos hc, h2 hc.1 hc.2]
    rfl
  · rw [if_neg hc]
    have hm : Match (⟨a, ls⟩ : Datum A) (⟨b, rs⟩ : Datum B) := by
      intro he
      by_cases hn : a.slots.length = b.slots.length
      · exact hn
      · exact absurd ⟨he, hn⟩ hc
    have := gives_of hK (h1 hm)
    simp only [spread_map]
    rw [collect_map (op := op) (iO := iO)]
    · exact this
    · intro x y hx hy
      exact hf x y (mem_spread hl hx) (mem_spread hr hy)

theorem gives_try [Inhabited A] [Inhabited B] (zero : O) {a : Prim A} {b : Prim B} {ls rs : Bool}
    (hl : (⟨a, ls⟩ : Datum A).Ok) (hr : (⟨b, rs⟩ : Datum B).Ok)
    {K : Prim O → Temporal} {k : Kind} {iA : A → Val} {iB : B → Val} {iO : O → Val}
    (hK : ∀ c, (K c).kind = k ∧ (K c).slots = valSlots iO c) {op : A → B → Except ArrowErr O}
    {f : Val → Val → Except ArrowErr Val}
    (hf : ∀ x y, some x ∈ a.slots → some y ∈ b.slots → f (iA x) (iB y) = (op x y).map iO) :
    Gives (asArray K (tryOpMacro zero ⟨a, ls⟩ ⟨b, rs⟩ op)) k (want (valSlots iA a) ls (valSlots iB b) rs f) :=
  gives_result hl hr hK hf (fun hm => tryOp_ok zero hl hr hm op) (fun hs h => tryOp_lengths zero hl hr hs h op)

theorem gives_op (zero : O) {a : Prim A} {b : Prim B} {ls rs : Bool}
    (hl : (⟨a, ls⟩ : Datum A).Ok) (hr : (⟨b, rs⟩ : Datum B).Ok)
    {K : Prim O → Temporal} {k : Kind} {iA : A → Val} {iB : B → Val} {iO : O → Val}
    (hK : ∀ c, (K c).kind = k ∧ (K c).slots = valSlots iO c) {op : A → B → O}
    {f : Val → Val → Except ArrowErr Val}
    (hf : ∀ x y, some x ∈ a.slots → some y ∈ b.slots → f (iA x) (iB y) = .ok (iO (op x y))) :
    Gives (asArray K (opMacro zero ⟨a, ls⟩ ⟨b, rs⟩ op)) k (want (valSlots iA a) ls (valSlots iB b) rs f) :=
  gives_result (op := fun x y => .ok (op x y)) hl hr hK hf (fun hm => op_ok zero hl hr hm op)
    (fun hs h => op_lengths zero hl hr hs h op)

/-! ### operations that can panic -/

theorem force_ok (l : List O) : force (l.map Rs.ok) = .ok l := by
  induction l with
  | nil => rfl
  | cons v l ih => simp [force, ih, Rs.map']

theorem zip_calm {op : A → B → Rs O} {g : A → B → O} (a : List A) (b : List B)
    (h : ∀ x y, x ∈ a → y ∈ b → op x y = .ok (g x y)) :
    List.zipWith op a b = (List.zipWith g a b).map Rs.ok := by
  induction a generalizing b with
  | nil => rfl
  | cons x a ih =>
    cases b with
    | nil => rfl
    | cons y b =>
      simp only [List.zipWith_cons_cons, List.map_cons]
      rw [h x y (List.mem_cons_self ..) (List.mem_cons_self ..),
        ih b fun x y hx hy => h x y (List.mem_cons_of_mem _ hx) (List.mem_cons_of_mem _ hy)]

theorem new_map (f : A → O) (values : List A) (nulls : Option BoolBuf) :
    Prim.new (values.map f) nulls = (Prim.new values nulls).map' fun p => ⟨p.values.map f, p.nulls⟩ := by
  unfold Prim.new
  cases nulls with
  | none => rfl
  | some n =>
    simp only [List.length_map]
    split <;> rfl

theorem forced_new (values : List O) (nulls : Option BoolBuf) :
    (match (Prim.new (values.map Rs.ok) nulls).map' (Except.ok (ε := ArrowErr)) with
      | .panic => .panic
      | .ok (.error e) => .ok (.error e)
      | .ok (.ok c) => (force c.values).map' fun v => (.ok ⟨v, c.nulls⟩ : Except ArrowErr (Prim O))) =
    (Prim.new values nulls).map' Except.ok := by
  rw [new_map]
  cases hp : Prim.new values nulls with
  | panic => rfl
  | ok p => simp [Rs.map', force_ok]

theorem forced_calm (zero : O) {l : Datum A} {r : Datum B} {op : A → B → Rs O} {g : A → B → O}
    (h : ∀ x y, x ∈ l.array.values → y ∈ r.array.values → op x y = .ok (g x y)) :
    opForced zero l r op = opMacro zero l r g := by
  have hb : (match binary l.array r.array op with
      | .panic => .panic
      | .ok (.error e) => .ok (.error e)
      | .ok (.ok c) => (force c.values).map' fun v => (.ok ⟨v, c.nulls⟩ : Except ArrowErr (Prim O))) =
      binary l.array r.array g := by
    by_cases h1 : l.array.values.length ≠ r.array.values.length
    · simp only [binary, if_pos h1]
    · by_cases h2 : l.array.values.length = 0
      · simp only [binary, if_neg h1, if_pos h2]
        rfl
      · simp only [binary, if_neg h1, if_neg h2]
        cases unionNulls l.array.nulls r.array.nulls with
        | panic => rfl
        | ok n =>
          simp only
          rw [zip_calm _ _ h]
          exact forced_new _ _
  have hnull : ∀ n, (force (Prim.newNull (Rs.ok zero) n).values).map'
      (fun v => (.ok ⟨v, (Prim.newNull (Rs.ok zero) n).nulls⟩ : Except ArrowErr (Prim O))) = .ok (.ok (Prim.newNull zero n)) := by
    intro n
    simp only [Prim.newNull]
    rw [show List.replicate n (Rs.ok zero) = (List.replicate n zero).map Rs.ok by simp, force_ok]
    rfl
  have one_mem : ∀ {T : Type} (d : Datum T) v, d.one = .ok (some v) → v ∈ d.array.values := by
    intro T d v hv
    unfold Datum.one at hv
    split at hv
    · split at hv
      · cases hv
      · rename_i x xs e
        injection hv with hv
        injection hv with hv
        subst hv
        rw [e]
        exact List.mem_cons_self ..
    · cases hv
  unfold opForced opMacro
  cases l.scalar <;> cases r.scalar
  · exact hb
  · cases ho : r.one with
    | panic => rfl
    | ok y =>
      cases y with
      | none => exact hnull _
      | some y =>
        have hm := one_mem r y ho
        have e : l.array.values.map (fun x => op x y) = (l.array.values.map fun x => g x y).map Rs.ok := by
          rw [List.map_map]
          apply List.map_congr_left
          intro x hx
          exact h x y hx hm
        simp only [unary]
        rw [e]
        exact forced_new _ _
  · cases ho : l.one with
    | panic => rfl
    | ok x =>
      cases x with
      | none => exact hnull _
      | some x =>
        have hm := one_mem l x ho
        have e : r.array.values.map (fun y => op x y) = (r.array.values.map fun y => g x y).map Rs.ok := by
          rw [List.map_map]
          apply List.map_congr_left
          intro y hy
          exact h x y hm hy
        simp only [unary]
        rw [e]
        exact forced_new _ _
  · exact hb

/-- What lies in a slot that is not null is stored. -/
theorem mem_values {a : Prim A} {x : A} (hx : some x ∈ a.slots) : x ∈ a.values := by
  unfold Prim.slots slots at hx
  split at hx
  · simpa using hx
  · rename_i valid hv
    clear hv
    generalize a.values = vs at *
    induction vs generalizing valid with
    | nil => simp at hx
    | cons v vs ih =>
      cases valid with
      | nil => simp at hx
      | cons b bs =>
        simp only [List.zipWith_cons_cons, List.mem_cons] at hx
        rcases hx with hx | hx
        · cases b
          · simp [slot] at hx
          · simp [slot] at hx; simp [hx]
        · exact List.mem_cons_of_mem _ (ih bs hx)

theorem gives_forced {a : Prim Int} {b : Prim B} {ls rs : Bool}
    (hl : (⟨a, ls⟩ : Datum Int).Ok) (hr : (⟨b, rs⟩ : Datum B).Ok)
    {K : Prim Int → Temporal} {k : Kind} {iB : B → Val}
    (hK : ∀ c, (K c).kind = k ∧ (K c).slots = valSlots .num c) {shift : Sign → Int → Delta → Rs Int} {s : Sign}
    {d : B → Delta} (hd : ∀ y, (iB y).delta = d y)
    (hc : ∀ x y, x ∈ a.values → y ∈ b.values → shift s x (d y) ≠ .panic) :
    Gives (asArray K (opForced 0 ⟨a, ls⟩ ⟨b, rs⟩ fun x y => shift s x (d y))) k
      (want (valSlots .num a) ls (valSlots iB b) rs (movedDate shift s)) := by
  let g : Int → B → Int := fun x y => match shift s x (d y) with | .panic => 0 | .ok v => v
  rw [forced_calm (g := g)]
  · refine gives_op 0 hl hr hK ?_
    intro x y hx hy
    have := hc x y (mem_values hx) (mem_values hy)
    simp only [movedDate, hd, g]
    cases hv : shift s x (d y) with
    | panic => exact absurd hv this
    | ok v => rfl
  · intro x y hx hy
    have := hc x y hx hy
    simp only [g]
    cases hv : shift s x (d y) with
    | panic => exact absurd hv this
    | ok v => rfl

/-! ### checked arithmetic -/

theorem check_fit {N : Native} (hs : N.signed = true) (hb : 0 < N.bits) (x : Int) : N.check x = fit N.bits x := by
  unfold Native.check fit
  by_cases h : N.has x = true
  · rw [if_pos h, if_pos]
    have := (has_iff hb x).1 h
    simpa [Native.Holds, hs] using this
  · rw [if_neg h, if_neg]
    intro hc
    apply h
    apply (has_iff hb x).2
    simpa [Native.Holds, hs] using hc

theorem check64 (x : Int) : i64.check x = fit 64 x := check_fit rfl (by decide) x
theorem check32 (x : Int) : Arrow.i32.check x = fit 32 x := check_fit rfl (by decide) x

theorem sign64 (s : Sign) (x y : Int) : s.check i64 x y = fit 64 (s.exact x y) := by cases s <;> exact check64 _
theorem sign32 (s : Sign) (x y : Int) : s.check Arrow.i32 x y = fit 32 (s.exact x y) := by cases s <;> exact check32 _

theorem dayTime_fields (s : Sign) (x y : DayTime) :
    fields s (.dayTime x) (.dayTime y) = (s.dayTime x y).map .dayTime := by
  simp only [fields, Sign.dayTime, sign32]
  cases fit 32 (s.exact x.days y.days) with
  | error e => rfl
  | ok d => cases fit 32 (s.exact x.ms y.ms) <;> rfl

theorem monthDayNano_fields (s : Sign) (x y : MonthDayNano) :
    fields s (.monthDayNano x) (.monthDayNano y) = (s.monthDayNano x y).map .monthDayNano := by
  simp only [fields, Sign.monthDayNano, sign32, sign64]
  cases fit 32 (s.exact x.months y.months) with
  | error e => rfl
  | ok m =>
    cases fit 32 (s.exact x.days y.days) with
    | error e => rfl
    | ok d => cases fit 64 (s.exact x.nanos y.nanos) <;> rfl

theorem sign_eq (op : Op) : op.sign = signOf op := by cases op <;> rfl


theorem orCompute_eq (sh : Moves) (s : Sign) (u : TimeUnit) (z : Int → Int) (x : Int) (d : Val) :
    movedStamp sh s u z (.num x) d = (orCompute (sh.stamp s u z x d.delta)).map .num := by
  simp only [movedStamp]
  cases sh.stamp s u z x d.delta <;> rfl

theorem wrap_days {x y : Int} (hx : -2 ^ 31 ≤ x ∧ x < 2 ^ 31) (hy : -2 ^ 31 ≤ y ∧ y < 2 ^ 31) :
    i64.wrap ((x - y) * 86400) = (x - y) * 86400 := by
  have h := wrap_ok (N := i64) (by decide) ((x - y) * 86400)
  generalize i64.wrap ((x - y) * 86400) = w at *
  simp [Native.Holds, i64] at h
  omega

theorem datum_of {a : Prim A} {i : A → Val} {s : Bool} (h : a.Ok) (hs : s = true → (valSlots i a).length = 1) :
    (⟨a, s⟩ : Datum A).Ok := ⟨h, fun e => by have := hs e; simpa [valSlots] using this⟩

theorem gives_num64 (s : Sign) {a b : Prim Int} {ls rs : Bool} (hl : (⟨a, ls⟩ : Datum Int).Ok) (hr : (⟨b, rs⟩ : Datum Int).Ok)
    {K : Prim Int → Temporal} {k : Kind} (hK : ∀ c, (K c).kind = k ∧ (K c).slots = valSlots .num c) :
    Gives (asArray K (tryOpMacro 0 ⟨a, ls⟩ ⟨b, rs⟩ fun x y => i64.check (s.exact x y))) k
      (want (valSlots .num a) ls (valSlots .num b) rs (numbers 64 s)) :=
  gives_try (iA := .num) (iB := .num) (iO := .num) 0 hl hr hK fun x y _ _ => by rw [check64]; rfl

theorem gives_stamp (sh : Moves) (s : Sign) (u : TimeUnit) (z : Int → Int) [Inhabited B] {a : Prim Int} {b : Prim B}
    {ls rs : Bool} (hl : (⟨a, ls⟩ : Datum Int).Ok)
    (hr : (⟨b, rs⟩ : Datum B).Ok) (tz : Option String) {iB : B → Val} {d : B → Delta} (hd : ∀ y, (iB y).delta = d y) :
    Gives (asArray (.timestamp u tz) (tryOpMacro 0 ⟨a, ls⟩ ⟨b, rs⟩ fun x y => orCompute (sh.stamp s u z x (d y))))
      (.timestamp u tz) (want (valSlots .num a) ls (valSlots iB b) rs (movedStamp sh s u z)) :=
  gives_try (K := .timestamp u tz) (f := movedStamp sh s u z) (op := fun x y => orCompute (sh.stamp s u z x (d y)))
    (iA := .num) (iB := iB) (iO := .num) 0 hl hr (fun c => ⟨rfl, rfl⟩) fun x y _ _ => by
    rw [orCompute_eq, hd]

theorem timestampOp_ok (sh : Moves) (parse : String → Option (Int → Int)) (op : Op) (u : TimeUnit) (tz : Option String)
    {a : Prim Int} {ls : Bool} {r : Temporal} {rs : Bool} (hl : (⟨a, ls⟩ : Datum Int).Ok) (hr : ScalarOk r rs) :
    Does (timestampOp sh parse op u tz a ls r rs) (valSlots .num a) ls r.slots rs
      (pointOutcome sh parse (signOf op) (.timestamp u tz) r.kind) := by
  unfold timestampOp pointOutcome
  rw [sign_eq]
  simp only
  cases parse (tz.getD "+00:00") with
  | none => rfl
  | some z =>
    simp only
    cases signOf op with
    | none => cases r <;> rfl
    | some s =>
      cases r with
      | date32 b => cases s <;> rfl
      | date64 b => cases s <;> rfl
      | time u' b => cases s <;> rfl
      | timestamp u' tz' b =>
        cases s with
        | plus => rfl
        | minus =>
          simp only [Temporal.kind]
          split
          · exact gives_num64 .minus hl (datum_of (i := .num) hr.1 hr.2) (K := .duration u) fun c => ⟨rfl, rfl⟩
          · rfl
      | duration u' b =>
        cases s with
        | plus =>
          simp only [Temporal.kind]
          split
          · exact gives_num64 .plus hl (datum_of (i := .num) hr.1 hr.2) (K := .timestamp u tz) fun c => ⟨rfl, rfl⟩
          · rfl
        | minus =>
          simp only [Temporal.kind]
          split
          · exact gives_num64 .minus hl (datum_of (i := .num) hr.1 hr.2) (K := .timestamp u tz) fun c => ⟨rfl, rfl⟩
          · rfl
      | yearMonth b =>
        cases s <;> exact gives_stamp sh _ u z hl (datum_of (i := .num) hr.1 hr.2) tz (iB := .num) (d := .yearMonth) fun y => rfl
      | dayTime b =>
        cases s <;> exact gives_stamp sh _ u z hl (datum_of (i := .dayTime) hr.1 hr.2) tz (iB := .dayTime) (d := .dayTime) fun y => rfl
      | monthDayNano b =>
        cases s <;> exact gives_stamp sh _ u z hl (datum_of (i := .monthDayNano) hr.1 hr.2) tz (iB := .monthDayNano) (d := .monthDayNano) fun y => rfl

theorem date32Op_ok (sh : Moves) (parse : String → Option (Int → Int)) (op : Op)
    {a : Prim Int} {ls : Bool} {r : Temporal} {rs : Bool} (hl : ScalarOk (.date32 a) ls) (hr : ScalarOk r rs)
    (hc : ∀ s x d, Val.num x ∈ (Temporal.date32 a).stored → d ∈ r.stored → sh.date32 s x d.delta ≠ .panic) :
    Does (date32Op sh op a ls r rs) (valSlots .num a) ls r.slots rs
      (pointOutcome sh parse (signOf op) .date32 r.kind) := by
  have da : (⟨a, ls⟩ : Datum Int).Ok := datum_of hl.1.1 hl.2
  unfold date32Op dateShift pointOutcome
  rw [sign_eq]
  cases signOf op with
  | none => cases r <;> rfl
  | some s =>
    cases r with
    | date32 b =>
      cases s with
      | plus => rfl
      | minus =>
        refine gives_op (K := .duration .second) (iA := .num) (iB := .num) (iO := .num) 0 da (datum_of (i := .num) hr.1.1 hr.2) (fun c => ⟨rfl, rfl⟩) fun x y hx hy => ?_
        rw [wrap_days (hl.1.2 x hx) (hr.1.2 y hy)]
        rfl
    | date64 b => cases s <;> rfl
    | time u' b => cases s <;> rfl
    | timestamp u' tz' b => cases s <;> rfl
    | duration u' b => cases s <;> rfl
    | yearMonth b =>
      cases s <;>
      exact gives_forced (K := .date32) (iB := .num) (d := .yearMonth) da (datum_of (i := .num) hr.1 hr.2)
        (fun c => ⟨rfl, rfl⟩) (fun y => rfl) fun x y hx hy =>
        hc _ x (.num y) (List.mem_map_of_mem hx) (List.mem_map_of_mem hy)
    | dayTime b =>
      cases s <;>
      exact gives_forced (K := .date32) (iB := .dayTime) (d := .dayTime) da (datum_of (i := .dayTime) hr.1 hr.2)
        (fun c => ⟨rfl, rfl⟩) (fun y => rfl) fun x y hx hy =>
        hc _ x (.dayTime y) (List.mem_map_of_mem hx) (List.mem_map_of_mem hy)
    | monthDayNano b =>
      cases s <;>
      exact gives_forced (K := .date32) (iB := .monthDayNano) (d := .monthDayNano) da (datum_of (i := .monthDayNano) hr.1 hr.2)
        (fun c => ⟨rfl, rfl⟩) (fun y => rfl) fun x y hx hy =>
        hc _ x (.monthDayNano y) (List.mem_map_of_mem hx) (List.mem_map_of_mem hy)

theorem date64Op_ok (sh : Moves) (parse : String → Option (Int → Int)) (op : Op)
    {a : Prim Int} {ls : Bool} {r : Temporal} {rs : Bool} (hl : ScalarOk (.date64 a) ls) (hr : ScalarOk r rs)
    (hc : ∀ s x d, Val.num x ∈ (Temporal.date64 a).stored → d ∈ r.stored → sh.date64 s x d.delta ≠ .panic) :
    Does (date64Op sh op a ls r rs) (valSlots .num a) ls r.slots rs
      (pointOutcome sh parse (signOf op) .date64 r.kind) := by
  have da : (⟨a, ls⟩ : Datum Int).Ok := datum_of hl.1 hl.2
  unfold date64Op dateShift pointOutcome
  rw [sign_eq]
  cases signOf op with
  | none => cases r <;> rfl
  | some s =>
    cases r with
    | date64 b =>
      cases s with
      | plus => rfl
      | minus =>
        exact gives_num64 .minus da (datum_of (i := .num) hr.1 hr.2) (K := .duration .millisecond) fun c => ⟨rfl, rfl⟩
    | date32 b => cases s <;> rfl
    | time u' b => cases s <;> rfl
    | timestamp u' tz' b => cases s <;> rfl
    | duration u' b => cases s <;> rfl
    | yearMonth b =>
      cases s <;>
      exact gives_forced (K := .date64) (iB := .num) (d := .yearMonth) da (datum_of (i := .num) hr.1 hr.2)
        (fun c => ⟨rfl, rfl⟩) (fun y => rfl) fun x y hx hy =>
        hc _ x (.num y) (List.mem_map_of_mem hx) (List.mem_map_of_mem hy)
    | dayTime b =>
      cases s <;>
      exact gives_forced (K := .date64) (iB := .dayTime) (d := .dayTime) da (datum_of (i := .dayTime) hr.1 hr.2)
        (fun c => ⟨rfl, rfl⟩) (fun y => rfl) fun x y hx hy =>
        hc _ x (.dayTime y) (List.mem_map_of_mem hx) (List.mem_map_of_mem hy)
    | monthDayNano b =>
      cases s <;>
      exact gives_forced (K := .date64) (iB := .monthDayNano) (d := .monthDayNano) da (datum_of (i := .monthDayNano) hr.1 hr.2)
        (fun c => ⟨rfl, rfl⟩) (fun y => rfl) fun x y hx hy =>
        hc _ x (.monthDayNano y) (List.mem_map_of_mem hx) (List.mem_map_of_mem hy)

theorem pointOp_ok (sh : Moves) (parse : String → Option (Int → Int)) (op : Op) {l r : Temporal} {ls rs : Bool}
    (hl : ScalarOk l ls) (hr : ScalarOk r rs) (hc : Calm sh l r) :
    Does (pointOp sh parse op l ls r rs) l.slots ls r.slots rs (pointOutcome sh parse (signOf op) l.kind r.kind) := by
  cases l with
  | timestamp u tz a => exact timestampOp_ok sh parse op u tz (datum_of hl.1 hl.2) hr
  | date32 a => exact date32Op_ok sh parse op hl hr (hc.1 rfl)
  | date64 a => exact date64Op_ok sh parse op hl hr (hc.2 rfl)
  | time u a => rfl
  | duration u a => rfl
  | yearMonth a => rfl
  | dayTime a => rfl
  | monthDayNano a => rfl

theorem zip_flip (f : Val → Val → Except ArrowErr Val) (l r : List (Option Val)) :
    List.zipWith (strictTry₂ fun x y => f y x) l r = List.zipWith (strictTry₂ f) r l := by
  induction l generalizing r with
  | nil => cases r <;> rfl
  | cons a l ih =>
    cases r with
    | nil => rfl
    | cons b r =>
      simp only [List.zipWith_cons_cons, ih]
      congr 1
      cases a <;> cases b <;> rfl

theorem want_flip (l : List (Option Val)) (ls : Bool) (r : List (Option Val)) (rs : Bool)
    (f : Val → Val → Except ArrowErr Val) : want l ls r rs (fun x y => f y x) = want r rs l ls f := by
  unfold want
  by_cases h : ls = rs ∧ l.length ≠ r.length
  · rw [if_pos h, if_pos ⟨h.1.symm, fun e => h.2 e.symm⟩]
  · have h' : ¬ (rs = ls ∧ r.length ≠ l.length) := fun k => h ⟨k.1.symm, fun e => k.2 e.symm⟩
    rw [if_neg h, if_neg h']
    have hn : (if ls = true then r.length else l.length) = if rs = true then l.length else r.length := by
      cases ls <;> cases rs
      · simp at h; simpa using h
      · rfl
      · rfl
      · simp at h; simpa using h.symm
    simp only [hn]
    rw [zip_flip]

theorem does_flip {m : Rs (Except ArrowErr Temporal)} {l r : List (Option Val)} {ls rs : Bool} {o : Outcome}
    (h : Does m r rs l ls o) : Does m l ls r rs o.flip := by
  cases o with
  | refused e => exact h
  | each k f =>
    change Gives m k (want l ls r rs fun x y => f y x)
    rw [want_flip]
    exact h

theorem spanOp_ok (sh : Moves) (parse : String → Option (Int → Int)) (op : Op) {l r : Temporal} {ls rs : Bool}
    (hs : l.isSpan = true) (hp : r.isPoint = true) (hl : ScalarOk l ls) (hr : ScalarOk r rs) (hc : Calm sh r l) :
    Does (if l.isSpan = true ∧ r.isPoint = true ∧ op.commutative = true then pointOp sh parse op r rs l ls else refuse)
      l.slots ls r.slots rs
      (match signOf op with
        | some .plus => (pointOutcome sh parse (some .plus) r.kind l.kind).flip
        | _ => .refused .invalid) := by
  have h := pointOp_ok sh parse op hr hl hc
  cases op with
  | add => rw [if_pos ⟨hs, hp, rfl⟩]; exact does_flip h
  | addWrapping => rw [if_pos ⟨hs, hp, rfl⟩]; exact does_flip h
  | _ => rw [if_neg (fun k => by simpa [Op.commutative] using k.2.2)]; rfl

theorem signedOp_ok [Inhabited A] {zero : A} {K : Prim A → Temporal} {k : Kind} {i : A → Val} {op : Op}
    {f : Sign → A → A → Except ArrowErr A} {g : Sign → Val → Val → Except ArrowErr Val}
    {a b : Prim A} {ls rs : Bool} (ha : (⟨a, ls⟩ : Datum A).Ok) (hb : (⟨b, rs⟩ : Datum A).Ok)
    (hK : ∀ c, (K c).kind = k ∧ (K c).slots = valSlots i c) (hg : ∀ s x y, g s (i x) (i y) = (f s x y).map i) :
    Does (signedOp zero K op f a ls b rs) (valSlots i a) ls (valSlots i b) rs
      (match signOf op with
        | some s => .each k (g s)
        | none => .refused .invalid) := by
  unfold signedOp
  rw [sign_eq]
  cases signOf op with
  | none => rfl
  | some s => exact gives_try zero ha hb hK fun x y _ _ => hg s x y

theorem timeOp_ok (sh : Moves) (parse : String → Option (Int → Int)) (op : Op) {l r : Temporal} {ls rs : Bool}
    (hl : ScalarOk l ls) (hr : ScalarOk r rs) (hc : Calm sh l r) (hc' : Calm sh r l) :
    Does (timeOp sh parse op l ls r rs) l.slots ls r.slots rs (outcome sh parse op l.kind r.kind) := by
  by_cases hp : l.isPoint = true
  · have hk : l.kind.point = true := by cases l <;> first | rfl | cases hp
    simp only [timeOp, outcome, if_pos hp, if_pos hk]
    exact pointOp_ok sh parse op hl hr hc
  · have hk : ¬ l.kind.point = true := by
      cases l <;> first | exact absurd rfl hp | (intro h; cases h)
    simp only [timeOp, outcome, if_neg hp, if_neg hk]
    by_cases hrp : r.isPoint = true
    · by_cases hs : l.isSpan = true
      · have h := spanOp_ok sh parse op hs hrp hl hr hc'
        cases l <;> first | cases hs | skip
        all_goals (cases r <;> first | cases hrp | skip)
        all_goals (cases hso : signOf op with
          | none => rw [hso] at h; exact h
          | some s => cases s <;> (rw [hso] at h; exact h))
      · cases l with
        | time u a =>
          cases r <;> first | cases hrp | skip
          all_goals (cases signOf op with
            | none => rfl
            | some s => cases s <;> rfl)
        | date32 a => exact absurd rfl hp
        | date64 a => exact absurd rfl hp
        | timestamp u z a => exact absurd rfl hp
        | _ => exact absurd rfl hs
    · cases l with
      | date32 a => exact absurd rfl hp
      | date64 a => exact absurd rfl hp
      | timestamp u z a => exact absurd rfl hp
      | time u a =>
        cases r <;> first | exact absurd rfl hrp | skip
        all_goals (cases signOf op with
          | none => rfl
          | some s => cases s <;> rfl)
      | duration u a =>
        cases r with
        | duration u' b =>
          simp only [Temporal.kind]
          by_cases hu : u = u'
          · rw [if_pos hu]
            subst hu
            have := signedOp_ok (zero := 0) (K := .duration u) (k := .duration u) (i := .num) (op := op)
              (f := fun s => s.check i64) (g := numbers 64)
              (datum_of hl.1 hl.2) (datum_of hr.1 hr.2) (fun c => ⟨rfl, rfl⟩) (fun s x y => by rw [sign64]; rfl)
            cases hso : signOf op with
            | none => rw [hso] at this; exact this
            | some s => rw [hso] at this; simp only [if_true]; exact this
          · rw [if_neg hu]
            cases signOf op with
            | none => rfl
            | some s => simp only [if_neg hu]; rfl
        | _ =>
          first
          | exact absurd rfl hrp
          | (cases signOf op with
            | none => rfl
            | some s => cases s <;> rfl)
      | yearMonth a =>
        cases r with
        | yearMonth b =>
          have := signedOp_ok (zero := 0) (K := .yearMonth) (k := .yearMonth) (i := .num) (op := op)
            (f := fun s => s.check Arrow.i32) (g := numbers 32)
            (datum_of hl.1 hl.2) (datum_of hr.1 hr.2) (fun c => ⟨rfl, rfl⟩) (fun s x y => by rw [sign32]; rfl)
          cases hso : signOf op with
          | none => rw [hso] at this; exact this
          | some s => rw [hso] at this; exact this
        | _ =>
          first
          | exact absurd rfl hrp
          | (cases signOf op with
            | none => rfl
            | some s => cases s <;> rfl)
      | dayTime a =>
        cases r with
        | dayTime b =>
          have := signedOp_ok (zero := ⟨0, 0⟩) (K := .dayTime) (k := .dayTime) (i := .dayTime) (op := op)
            (f := Sign.dayTime) (g := fields)
            (datum_of hl.1 hl.2) (datum_of hr.1 hr.2) (fun c => ⟨rfl, rfl⟩) dayTime_fields
          cases hso : signOf op with
          | none => rw [hso] at this; exact this
          | some s => rw [hso] at this; exact this
        | _ =>
          first
          | exact absurd rfl hrp
          | (cases signOf op with
            | none => rfl
            | some s => cases s <;> rfl)
      | monthDayNano a =>
        cases r with
        | monthDayNano b =>
          have := signedOp_ok (zero := ⟨0, 0, 0⟩) (K := .monthDayNano) (k := .monthDayNano) (i := .monthDayNano) (op := op)
            (f := Sign.monthDayNano) (g := fields)
            (datum_of hl.1 hl.2) (datum_of hr.1 hr.2) (fun c => ⟨rfl, rfl⟩) monthDayNano_fields
          cases hso : signOf op with
          | none => rw [hso] at this; exact this
          | some s => rw [hso] at this; exact this
        | _ =>
          first
          | exact absurd rfl hrp
          | (cases signOf op with
            | none => rfl
            | some s => cases s <;> rfl)

/-! ### negation -/

theorem collect_map₁ {i : A → Val} {iO : O → Val} {op : A → Except ArrowErr O} {f : Val → Except ArrowErr Val}
    (l : List (Option A)) (h : ∀ x, f (i x) = (op x).map iO) :
    collect ((l.map (Option.map i)).map (strictTry f)) =
      (collect (l.map (strictTry op))).map (List.map (Option.map iO)) := by
  induction l with
  | nil => rfl
  | cons a l ih =>
    simp only [List.map_cons]
    have head : strictTry f (a.map i) = (strictTry op a).map (Option.map iO) := by
      cases a with
      | none => rfl
      | some a =>
        simp only [Option.map_some, strictTry, h]
        cases op a <;> rfl
    rw [head]
    cases hx : strictTry op a with
    | error e => rfl
    | ok v =>
      simp only [Except.map, collect, ih]
      cases collect (l.map (strictTry op)) <;> rfl

theorem gives_unary [Inhabited A] (zero : O) {a : Prim A} (ha : a.Ok) {K : Prim O → Temporal} {k : Kind} {i : A → Val}
    {iO : O → Val} (hK : ∀ c, (K c).kind = k ∧ (K c).slots = valSlots iO c) {op : A → Except ArrowErr O}
    {f : Val → Except ArrowErr Val} (hf : ∀ x, f (i x) = (op x).map iO) :
    Gives (asArray K (tryUnary zero a op)) k (collect ((valSlots i a).map (strictTry f))) := by
  unfold valSlots
  rw [collect_map₁ a.slots hf]
  exact gives_of hK (tryUnary_ok zero ha op)

theorem timeNeg_ok {t : Temporal} (h : t.Ok) :
    match negated t.kind with
    | none => timeNeg t = .ok (.error .invalid)
    | some f => Gives (timeNeg t) t.kind (collect (t.slots.map (strictTry f))) := by
  cases t with
  | date32 a => rfl
  | date64 a => rfl
  | time u a => rfl
  | timestamp u z a => rfl
  | duration u a =>
    exact gives_unary (K := .duration u) (i := .num) (iO := .num) 0 h (fun c => ⟨rfl, rfl⟩) fun x => by
      rw [check64, ← Int.zero_sub]; rfl
  | yearMonth a =>
    exact gives_unary (K := .yearMonth) (i := .num) (iO := .num) 0 h (fun c => ⟨rfl, rfl⟩) fun x => by
      rw [check32, ← Int.zero_sub]; rfl
  | dayTime a => exact gives_unary (K := .dayTime) (i := .dayTime) (iO := .dayTime) ⟨0, 0⟩ h (fun c => ⟨rfl, rfl⟩) fun x => dayTime_fields ..
  | monthDayNano a => exact gives_unary (K := .monthDayNano) (i := .monthDayNano) (iO := .monthDayNano) ⟨0, 0, 0⟩ h (fun c => ⟨rfl, rfl⟩) fun x => monthDayNano_fields ..

end Arrow
end Verif
