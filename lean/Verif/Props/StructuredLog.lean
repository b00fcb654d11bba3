import Verif.Proofs.Intern
import Verif.Proofs.LogLine
import Verif.Proofs.ValueEq
/-!
Properties C30 to C34: interned strings, dynamic values, structured log entries and log lines.
The vocabulary is in `Verif/Spec/Value.lean` and `Verif/Spec/LogLine.lean`.
-/
namespace Verif
open Bincode

/-! ### C30 Interned strings -/

namespace Intern

/-- Several compilers that begin with an empty store. -/
def begin (n : Nat) : World := ⟨.empty, List.replicate n none⟩

/-- Any schedule of any number of compilers, from an empty store: an index is given to one string
only and is not 0; the table read back, in whatever order its entries come, has the string at its
index.  When no compiler looks up a string another one is about to write, a string gets one index
only.  Missing: a string gets one index also in the presence of such races, see `C30_violated`. -/
theorem C30_interning_partial (n : Nat) (schedule : List Step) :
    let w := ((begin n).run schedule).1
    let given := ((begin n).run schedule).2
    (∀ s t i, (s, i) ∈ given → (t, i) ∈ given → s = t) ∧
    (∀ s i, (s, i) ∈ given → i ≠ 0 ∧ i < 4294967296) ∧
    (∀ entries, entries.Perm w.store.toString → ∀ s i, (s, i) ∈ given →
      (readTable entries)[i]? = some s) ∧
    (NoRace (begin n) schedule → ∀ s i j, (s, i) ∈ given → (s, j) ∈ given → i = j) := by
  intro w given
  obtain ⟨h1, _, h3⟩ := run_good (w := begin n) good_empty schedule
  refine ⟨?_, ?_, ?_, ?_⟩
  · intro s t i hs ht
    exact fst_inj h1.nodup (h3 s i hs) (h3 t i ht)
  · intro s i hs
    have := h1.bound (h3 s i hs)
    have := h1.small
    omega
  · intro entries hp s i hs
    refine readTable_get ?_ (hp.mem_iff.2 (h3 s i hs))
    exact (hp.map Prod.fst).nodup_iff.2 h1.nodup
  · intro hr s i j hi hj
    have hq : Quiet (begin n) := by
      refine ⟨good_empty, ?_, ?_⟩
      · intro p s h
        simp only [begin, List.getElem?_replicate] at h
        split at h <;> simp at h
      · intro p q s h
        simp only [begin, List.getElem?_replicate] at h
        split at h <;> simp at h
    have h := (run_quiet hq hr).2
    have := (h s i hi).symm.trans (h s j hj)
    exact Option.some.inj this

/-- One compiler, then another one that sees what the first one stored. -/
def demoSchedule : List Step :=
  [.lookup 0 "started {}", .write 0, .lookup 0 "x", .write 0, .lookup 0 "started {}",
   .lookup 1 "x", .lookup 1 "done", .write 1, .lookup 1 "started {}"]

example : ((begin 2).run demoSchedule).2 =
      [("started {}", 1), ("x", 2), ("started {}", 1), ("x", 2), ("done", 3), ("started {}", 1)] ∧
    readTable ((begin 2).run demoSchedule).1.store.toString = ["", "started {}", "x", "done"] := by
  decide +kernel

example : NoRace (begin 2) demoSchedule := by
  simp only [demoSchedule, NoRace]
  refine ⟨?_, ?_, ?_, ?_, ?_, ?_, ?_, ?_, ?_, trivial⟩ <;>
    (intro p s h; first | (cases h; decide +kernel) | (exact absurd h (by simp)))

/-- In a request without interference a string that can be a key gets an index. -/
theorem C30_total_partial {n : Nat} {schedule : List Step} {s : String}
    (hs : 0 < s.utf8ByteSize ∧ s.utf8ByteSize ≤ 511)
    (hc : ((begin n).run schedule).1.store.counter < 4294967295) :
    ∃ st i, ((begin n).run schedule).1.store.intern s = .ok (st, i) := by
  obtain ⟨h1, _, _⟩ := run_good (w := begin n) good_empty schedule
  generalize ((begin n).run schedule).1.store = st at *
  unfold Store.intern
  split
  · exact ⟨_, _, rfl⟩
  · unfold Store.insert
    simp only [Nat.mod_eq_of_lt h1.small, keyOk]
    rw [if_neg (by omega), if_neg (by simp [hs])]
    exact ⟨_, _, rfl⟩

example : ∃ st i, ((begin 2).run demoSchedule).1.store.intern "more" = .ok (st, i) ∧ i = 4 := by
  exact ⟨_, _, rfl, by decide +kernel⟩

/-- The lookup and the write are not in one transaction: two compilers that miss the same string
both insert it, and use different indices for it (index.rs:73-94). -/
theorem C30_violated : ∃ schedule, ("a", 1) ∈ ((begin 2).run schedule).2 ∧
    ("a", 2) ∈ ((begin 2).run schedule).2 :=
  ⟨[.lookup 0 "a", .lookup 1 "a", .write 0, .write 1], by decide +kernel, by decide +kernel⟩

/-- An empty string, or one of more than 511 bytes, makes the macro panic. -/
example : Store.empty.intern "" = .panic := by decide +kernel

end Intern

/-! ### C31 Structured log entries -/

/-- An entry is decoded as it was encoded, and the decoder stops exactly at its end; a stream of
entries is decoded as it was written, up to the end of the data. -/
theorem C31_entries {entries : List LogEntry} (h : ∀ e ∈ entries, e.Legal) :
    (∀ e ∈ entries, ∀ rest, (dec : Dec LogEntry) (enc e ++ rest) = .ok (e, rest)) ∧
    decodeStream (dec : Dec LogEntry) ((encAll entries).length + 1) (encAll entries)
      = (entries, .unexpectedEnd) := by
  refine ⟨fun e he rest => rt_entry (h e he) rest, ?_⟩
  have := decodeStream_encAll (fun e he => rt_entry (h e he)) [] entry_end
    (fuel := (encAll entries).length + 1)
    (by have := encAll_length_ge (l := entries) (fun e _ => entry_pos e); omega)
  simpa using this

/-- What is after the last entry does not disturb the entries before it. -/
theorem C31_prefix {entries : List LogEntry} (h : ∀ e ∈ entries, e.Legal) {tail : Bytes}
    {err : DecodeError} (ht : (dec : Dec LogEntry) tail = .error err) :
    decodeStream (dec : Dec LogEntry) ((encAll entries ++ tail).length + 1) (encAll entries ++ tail)
      = (entries, err) :=
  decodeStream_encAll (fun e he => rt_entry (h e he)) tail ht
    (by have := encAll_length_ge (l := entries) (fun e _ => entry_pos e)
        simp only [List.length_append]; omega)

/-- Two entries with nested values. -/
def demoEntries : List LogEntry :=
  [⟨1000, 3, [0, 5], [.map [(.str "k", .seq [.u8 1, .opt (some (.f64 ⟨0x7ff8000000000000⟩))]),
      (.bytes [1, 2], .unit)], .i64 (-7)]⟩,
   ⟨70000, 1, [], []⟩]

theorem demoEntries_legal : ∀ e ∈ demoEntries, e.Legal := by
  intro e he
  simp only [demoEntries, List.mem_cons, List.not_mem_nil, or_false] at he
  rcases he with rfl | rfl
  · refine ⟨by decide, by decide, ?_⟩
    intro v hv
    simp only [List.mem_cons, List.not_mem_nil, or_false] at hv
    rcases hv with rfl | rfl
    · simp only [Value.Legal, Value.LegalMap, Value.LegalSeq, Value.LegalOpt]
      refine ⟨by decide, ?_, by decide +kernel, ⟨by decide, trivial, trivial, trivial⟩, by decide,
        trivial, trivial⟩
      simp only [List.pairwise_cons, List.mem_cons, List.not_mem_nil, or_false]
      refine ⟨?_, by simp⟩
      rintro _ rfl
      decide +kernel
    · trivial
  · exact ⟨by decide, by decide, by simp⟩

example : (encAll demoEntries).length = 43 := by decide +kernel

/-! ### C32 Both value decoders -/

/-- The owning decoder gives back every value. -/
theorem C32_owned_partial {v : Value} (h : v.Legal) (rest : Bytes) :
    (dec : Dec Value) (enc v ++ rest) = .ok (v, rest) :=
  Value.rt_value h rest

namespace Value

theorem bind_pure_ok {α : Type} {d : Dec α} {f : α → Value} {bs r : Bytes} {v : Value}
    (h : (do let x ← d; pure (f x) : Dec Value) bs = .ok (v, r)) : ∃ x, v = f x := by
  rw [Dec.bind_apply] at h
  split at h
  · exact absurd h (by simp)
  · rename_i x _ _
    simp only [Dec.pure_apply, Except.ok.injEq, Prod.mk.injEq] at h
    exact ⟨x, h.1.symm⟩

end Value

/-- The borrowing decoder gives back exactly the characters and the strings; any other value is
read as another kind of value or refused (bdec.rs:42-72 has another table of tags). -/
theorem C32_borrowing_partial {v : Value} (h : v.Legal) (rest : Bytes) :
    Value.borrow (enc v ++ rest) = .ok (v, rest) ↔ (∃ c, v = .char c) ∨ (∃ s, v = .str s) := by
  constructor
  · intro hb
    cases v with
    | char c => exact .inl ⟨c, rfl⟩
    | str s => exact .inr ⟨s, rfl⟩
    | bool a =>
      have hb' : (do let x ← (dec : Dec UInt8); pure (.u8 x) : Dec Value) (enc a ++ rest)
        = .ok (.bool a, rest) := hb
      obtain ⟨x, hx⟩ := Value.bind_pure_ok hb'; cases hx
    | u8 a => obtain ⟨x, hx⟩ := Value.bind_pure_ok (d := (dec : Dec UInt16)) (f := .u16) hb; cases hx
    | u16 a => obtain ⟨x, hx⟩ := Value.bind_pure_ok (d := (dec : Dec UInt32)) (f := .u32) hb; cases hx
    | u32 a => obtain ⟨x, hx⟩ := Value.bind_pure_ok (d := (dec : Dec UInt64)) (f := .u64) hb; cases hx
    | u64 a => obtain ⟨x, hx⟩ := Value.bind_pure_ok (d := (dec : Dec Int8)) (f := .i8) hb; cases hx
    | i8 a => obtain ⟨x, hx⟩ := Value.bind_pure_ok (d := (dec : Dec Int16)) (f := .i16) hb; cases hx
    | i16 a => obtain ⟨x, hx⟩ := Value.bind_pure_ok (d := (dec : Dec Int32)) (f := .i32) hb; cases hx
    | i32 a => obtain ⟨x, hx⟩ := Value.bind_pure_ok (d := (dec : Dec Int64)) (f := .i64) hb; cases hx
    | i64 a => obtain ⟨x, hx⟩ := Value.bind_pure_ok (d := (dec : Dec F32)) (f := .f32) hb; cases hx
    | f32 a => obtain ⟨x, hx⟩ := Value.bind_pure_ok (d := (dec : Dec F64)) (f := .f64) hb; cases hx
    | f64 a => obtain ⟨x, hx⟩ := Value.bind_pure_ok (d := (dec : Dec Bool)) (f := .bool) hb; cases hx
    | unit => obtain ⟨x, hx⟩ := Value.bind_pure_ok (d := (dec : Dec Bytes)) (f := .bytes) hb; cases hx
    | opt o =>
      exfalso
      have : ∃ bs, (pure .unit : Dec Value) bs = .ok (.opt o, rest) := by
        cases o with
        | none => exact ⟨_, hb⟩
        | some a => exact ⟨(enc (Value.opt (some a)) ++ rest).tail, hb⟩
      obtain ⟨bs, h⟩ := this
      simp at h
    | newtype a =>
      obtain ⟨x, hx⟩ := Value.bind_pure_ok (d := Value.decodeSeq (Value.borrowFuel _)) (f := .seq) hb
      cases hx
    | seq l =>
      simp only [Value.borrow] at hb
      exfalso
      have : (do let n ← decVar 8
                 let v ← Value.decodeMap (Value.borrowFuel (enc (Value.seq l) ++ rest).length) n []
                 pure (.map v) : Dec Value) (enc (Value.seq l) ++ rest).tail
          = .ok (.seq l, rest) := hb
      rw [Dec.bind_apply] at this
      split at this
      · exact absurd this (by simp)
      · obtain ⟨x, hx⟩ := Value.bind_pure_ok (f := .map) this; cases hx
    | map l =>
      obtain ⟨x, hx⟩ := Value.bind_pure_ok (d := Value.decodeOpt (Value.borrowFuel _)) (f := .opt) hb
      cases hx
    | bytes l =>
      obtain ⟨x, hx⟩ := Value.bind_pure_ok (d := Value.borrowFuel _) (f := .newtype) hb
      cases hx
    | time a =>
      have : (Except.error DecodeError.other : Except DecodeError (Value × Bytes))
        = .ok (.time a, rest) := hb
      exact absurd this (by simp)
  · rintro (⟨c, rfl⟩ | ⟨s, rfl⟩)
    · show (do let v ← dec; pure (.char v) : Dec Value) (enc c ++ rest) = _
      rw [Dec.bind_ok (rt_char c rest)]; rfl
    · simp only [Value.Legal] at h
      show (do let v ← dec; pure (.str v) : Dec Value) (enc s ++ rest) = _
      rw [Dec.bind_ok (rt_string h rest)]; rfl

/-- The byte 5 is read back as a 16 bit 5, a boolean as a byte, a time is refused. -/
theorem C32_violated :
    Value.borrow (enc (Value.u8 5)) = .ok (.u16 5, []) ∧
    Value.borrow (enc (Value.bool true)) = .ok (.u8 1, []) ∧
    Value.borrow (enc (Value.time 7)) = .error .other :=
  ⟨rfl, rfl, rfl⟩

example : (Value.seq [.u8 1, .map [(.char 'a', .time 3)]]).Legal := by
  simp [Value.Legal, Value.LegalSeq, Value.LegalMap]

/-! ### C33 Order of dynamic values -/

/-- The comparison of values is a total order: every value equals itself, exchanging the values
reverses the result, and it is transitive.  Equality holds exactly when the comparison says equal,
and equal values feed a hasher alike.  Floats are ordered by the numbers they stand for, NaN equal to
NaN and after every number; so both zeros are equal. -/
theorem C33_total_order (a b c : Value) :
    a.cmp a = .eq ∧
    b.cmp a = (a.cmp b).swap ∧
    (a.cmp b ≠ .gt → b.cmp c ≠ .gt → a.cmp c ≠ .gt) ∧
    (a.eqv b = true ↔ a.cmp b = .eq) ∧
    (a.eqv b = true → a.hashed = b.hashed) ∧
    (∀ x y, (Value.f32 x).cmp (.f32 y) = floatOrder (F32num x) (F32num y)) ∧
    (∀ x y, (Value.f64 x).cmp (.f64 y) = floatOrder (F64num x) (F64num y)) := by
  refine ⟨Value.cmp_self a, Value.cmp_swap a b, Value.cmp_trans, ?_, Value.hashed_eq a b, ?_, ?_⟩
  · rw [Value.eqv_eq, Ordering.isEq_iff_eq_eq]
  · intro x y
    have : (Value.f32 x).cmp (.f32 y) = compare (Value.f32Key x) (Value.f32Key y) := by
      simp only [Value.cmp]
    rw [this, Value.f32_order]
  · intro x y
    have : (Value.f64 x).cmp (.f64 y) = compare (Value.f64Key x) (Value.f64Key y) := by
      simp only [Value.cmp]
    rw [this, Value.f64_order]

/-- Equal values can be put for each other in any comparison. -/
theorem C33_congruence (a b c : Value) (h : a.cmp b = .eq) : a.cmp c = b.cmp c := by
  rw [Value.cmp_eq_lex] at h
  rw [Value.cmp_eq_lex, Value.cmp_eq_lex, Value.eq_of_lex h]

/-- A map keeps its entries sorted and a key finds the entry last put for an equal key. -/
theorem C33_map_keys {m : List (Value × Value)} {k v : Value}
    (h : m.Pairwise (fun p q => p.1.cmp q.1 = .lt)) :
    (Value.insertKey k v m).Pairwise (fun p q => p.1.cmp q.1 = .lt) ∧
      ∃ k', (k', v) ∈ Value.insertKey k v m ∧ k'.cmp k = .eq := by
  have heq : ∀ {a b c : Value}, a.cmp b = .eq → b.cmp c = .lt → a.cmp c = .lt := fun h1 h2 => by
    rw [C33_congruence _ _ _ h1]; exact h2
  have hlt : ∀ {a b c : Value}, a.cmp b = .lt → b.cmp c = .lt → a.cmp c = .lt := by
    intro a b c h1 h2
    have h3 : a.cmp c ≠ .gt := Value.cmp_trans (by rw [h1]; simp) (by rw [h2]; simp)
    rcases hac : a.cmp c with _ | _ | _
    · rfl
    · exfalso
      have : c.cmp b = .lt := by
        rw [← C33_congruence a c b hac]; exact h1
      rw [Value.cmp_swap b c, h2] at this
      exact absurd this (by simp [Ordering.swap])
    · exact absurd hac h3
  have hmem : ∀ {m : List (Value × Value)} {p : Value × Value}, p ∈ Value.insertKey k v m →
      p.1 = k ∨ ∃ q ∈ m, p.1 = q.1 := by
    intro m
    induction m with
    | nil => intro p hp; simp [Value.insertKey] at hp; left; rw [hp]
    | cons q m ih =>
      obtain ⟨k', v'⟩ := q
      intro p hp
      simp only [Value.insertKey] at hp
      split at hp
      · rcases List.mem_cons.1 hp with rfl | hp
        · exact .inl rfl
        · exact .inr ⟨p, hp, rfl⟩
      · rcases List.mem_cons.1 hp with rfl | hp
        · exact .inr ⟨(k', v'), by simp, rfl⟩
        · exact .inr ⟨p, by simp [hp], rfl⟩
      · rcases List.mem_cons.1 hp with rfl | hp
        · exact .inr ⟨(k', v'), by simp, rfl⟩
        · rcases ih hp with h | ⟨q, hq, h⟩
          · exact .inl h
          · exact .inr ⟨q, by simp [hq], h⟩
  induction m with
  | nil => exact ⟨by simp [Value.insertKey], k, by simp [Value.insertKey], Value.cmp_self k⟩
  | cons q m ih =>
    obtain ⟨k', v'⟩ := q
    rw [List.pairwise_cons] at h
    obtain ⟨ih1, k2, ih2, ih3⟩ := ih h.2
    simp only [Value.insertKey]
    split
    · rename_i hc
      refine ⟨?_, k, by simp, Value.cmp_self k⟩
      rw [List.pairwise_cons, List.pairwise_cons]
      refine ⟨?_, h.1, h.2⟩
      intro p hp
      rcases List.mem_cons.1 hp with rfl | hp
      · exact hc
      · exact hlt hc (h.1 p hp)
    · rename_i hc
      refine ⟨?_, k', by simp, ?_⟩
      · rw [List.pairwise_cons]; exact ⟨h.1, h.2⟩
      · rw [Value.cmp_swap k k', hc]; rfl
    · rename_i hc
      refine ⟨?_, k2, by simp [ih2], ih3⟩
      rw [List.pairwise_cons]
      refine ⟨?_, ih1⟩
      intro p hp
      rcases hmem hp with e | ⟨q, hq, e⟩
      · show k'.cmp p.1 = .lt
        rw [e, Value.cmp_swap k k', hc]; rfl
      · show k'.cmp p.1 = .lt
        rw [e]; exact h.1 q hq

example : (Value.f32 ⟨0x7fc00000⟩).cmp (.f32 ⟨0x7fc00000⟩) = .eq ∧
    (Value.f32 ⟨0x7f800000⟩).cmp (.f32 ⟨0xffc00001⟩) = .lt ∧
    (Value.f64 ⟨0⟩).cmp (.f64 ⟨0x8000000000000000⟩) = .eq ∧
    (Value.f32 ⟨0xbf800000⟩).cmp (.f32 ⟨0x3f800000⟩) = .lt ∧
    F32num ⟨0x3f800000⟩ = some (2 ^ 149) ∧
    (Value.u8 200).cmp (.u16 1) = .lt ∧
    (Value.seq [.u8 1, .u8 2]).cmp (.seq [.u8 1]) = .gt := by
  decide +kernel

/-! ### C34 Log lines -/

/-- Any format string, arguments without names: the k-th `{}` holds the k-th argument, when the text
of an argument has no `{}` and no opening brace at its end, is not empty and does not begin with a closing brace.
Missing: other texts, see `C34_violated`. -/
theorem C34_holes_partial {shw : Value → Text} {showTime : UInt64 → Text} {intern : Text → UInt32}
    {strings : List Text} (time : UInt64) {fmt : Text} {vs : List Value}
    (ht : TableOk intern strings fmt (vs.map .anon))
    (hv : ∀ v ∈ vs, Shut (shw v) ∧ shw v ≠ [] ∧ (shw v).head? ≠ some '}') :
    rebuildLogline shw showTime strings (debugEntry intern time fmt (vs.map .anon))
      = .ok (some (fillHoles fmt (vs.map shw))) := by
  have h1 : anonTexts shw (vs.map .anon) = vs.map shw := by
    induction vs with
    | nil => rfl
    | cons v vs ih => simp [anonTexts, ih ⟨ht.fmt, fun n hn => ht.names n (by simpa [argNames] using hn)⟩
        (fun w hw => hv w (by simp [hw]))]
  have h2 : argNames (vs.map LogArg.anon) = [] := by
    clear ht hv h1
    induction vs with
    | nil => rfl
    | cons v vs ih => simpa [argNames] using ih
  rw [rebuild_args ht, h1]
  unfold formatLogline
  rw [namedBindings_isEmpty, h2, if_pos (by rfl), foldl_replaceFirst]
  intro p hp
  obtain ⟨v, hv', rfl⟩ := List.mem_map.1 hp
  obtain ⟨a, b, c⟩ := hv v hv'
  exact ⟨a, b, c⟩

/-- A format string of plain text, holes `{}` and placeholders `{name}`; as many arguments without a
name as holes, an argument for each placeholder, in any order; texts of arguments without braces: the
rebuilt line has each argument in its place (behind the time, when there are named arguments).
Missing: a named argument in a `{}` hole, as the documentation of `debug!` shows, and texts with
braces; see `C34_violated`. -/
theorem C34_pieces_partial {shw : Value → Text} {showTime : UInt64 → Text} {intern : Text → UInt32}
    {strings : List Text} (time : UInt64) {ps : List Piece} {args : List LogArg} {line : Text}
    (ht : TableOk intern strings (Piece.render ps) args)
    (hp : ∀ q ∈ ps, q.Plain) (hd : (argNames args).Nodup)
    (hv : ∀ a ∈ anonTexts shw args, Braceless a)
    (hl : Piece.fill (fun n => namedText shw n args) ps (anonTexts shw args) = some line) :
    rebuildLogline shw showTime strings (debugEntry intern time (Piece.render ps) args)
      = .ok (some ((if argNames args = [] then [] else showTime time ++ [':', ' ']) ++ line)) := by
  rw [rebuild_args ht]
  unfold formatLogline
  obtain ⟨h1, h2⟩ := foldl_render hv hp
  simp only [h1]
  rw [namedBindings_isEmpty]
  by_cases hn : argNames args = []
  · rw [hn, if_pos (by rfl), if_pos rfl]
    have hnone : ∀ {l : List LogArg}, argNames l = [] → ∀ n, namedText shw n l = none := by
      intro l
      induction l with
      | nil => intro _ n; rfl
      | cons a l ih =>
        intro h n
        cases a with
        | anon v => exact ih h n
        | named m v => simp [argNames] at h
    have hl' : Piece.fill (fun _ => none) ps (anonTexts shw args) = some line := by
      rw [← hl]; congr 1; funext n; exact (hnone hn n).symm
    rw [render_fill hl']; rfl
  · rw [if_neg (by simpa using hn), if_neg hn]
    obtain ⟨h3, h4⟩ := plugAll_fill hl
    rw [strfmt_render h2 h3]
    have : (namedBindings shw args []).get = fun n => namedText shw n args := by
      funext n
      rw [namedBindings_get hd n []]
      cases namedText shw n args <;> rfl
    rw [this, h4]
    simp

/-- The text dump of a stream of entries, each from a `debug!` call as in `C34_pieces_partial` with a
non zero index for its format string, prints the line of each call, behind its time. -/
theorem C34_dump_partial {shw : Value → Text} {showTime : UInt64 → Text} {intern : Text → UInt32}
    {strings : List Text} (calls : List (UInt64 × List Piece × List LogArg × Text))
    (hc : ∀ time ps args line, (time, ps, args, line) ∈ calls →
      TableOk intern strings (Piece.render ps) args ∧ intern (Piece.render ps) ≠ 0 ∧
      (∀ q ∈ ps, q.Plain) ∧ (argNames args).Nodup ∧ (∀ a ∈ anonTexts shw args, Braceless a) ∧
      Piece.fill (fun n => namedText shw n args) ps (anonTexts shw args) = some line ∧
      (debugEntry intern time (Piece.render ps) args).Legal) :
    ∃ lines, textlogDump shw showTime strings
        (encAll (calls.map (fun c => debugEntry intern c.1 (Piece.render c.2.1) c.2.2.1)))
        = .done lines true ∧
      lines = calls.map (fun c => showTime c.1 ++ [':', ' '] ++
        ((if argNames c.2.2.1 = [] then [] else showTime c.1 ++ [':', ' ']) ++ c.2.2.2)) := by
  refine ⟨_, ?_, rfl⟩
  have hstream := (C31_entries (entries := calls.map (fun c =>
    debugEntry intern c.1 (Piece.render c.2.1) c.2.2.1)) (by
      intro e he
      obtain ⟨⟨time, ps, args, line⟩, hm, rfl⟩ := List.mem_map.1 he
      exact (hc time ps args line hm).2.2.2.2.2.2)).2
  unfold textlogDump
  rw [hstream]
  show textLines shw showTime strings true _ = _
  clear hstream
  induction calls with
  | nil => rfl
  | cons c calls ih =>
    obtain ⟨time, ps, args, line⟩ := c
    obtain ⟨h1, h2, h3, h4, h5, h6, _⟩ := hc time ps args line (by simp)
    have ih := ih (fun t p a l h => hc t p a l (by simp [h]))
    have hm : (debugEntry intern time (Piece.render ps) args).msgIndex ≠ 0 := by
      rw [debugEntry_eq]; exact h2
    have ht : (debugEntry intern time (Piece.render ps) args).time = time := by rw [debugEntry_eq]
    simp only [List.map_cons, textLines, if_neg hm, ht]
    rw [C34_pieces_partial time h1 h3 h4 h5 h6]
    simp only [ih, TextDump.cons]

/-- The `Display` of the demonstrations: booleans and strings as they are. -/
def demoShow : Value → Text
  | .str s => s.toList
  | .bool true => "true".toList
  | .bool false => "false".toList
  | _ => "?".toList

def demoTime (_ : UInt64) : Text := "12 s".toList

/-- The strings of the demonstrations: index 1 to 5. -/
def demoStrings : List Text :=
  ["", "go {} to {}", "{} at {place}, {}", "place", "a = {}, b = {}", "my_value"].map String.toList

def demoIntern (t : Text) : UInt32 := UInt32.ofNat (demoStrings.idxOf t)

/-- Two arguments in two holes. -/
example : rebuildLogline demoShow demoTime demoStrings
      (debugEntry demoIntern 0 "go {} to {}".toList [.anon (.str "left"), .anon (.bool true)])
    = .ok (some "go left to true".toList) := by decide +kernel

/-- The hypotheses of `C34_pieces_partial` with a named argument between two others. -/
example : ∃ ps args line, ps = [.hole, .text " at ".toList, .name "place".toList, .text ", ".toList, .hole]
    ∧ args = [.anon (.str "x"), .named "place".toList (.str "home"), .anon (.bool false)] ∧
    TableOk demoIntern demoStrings (Piece.render ps) args ∧ (∀ q ∈ ps, q.Plain) ∧
    (argNames args).Nodup ∧ (∀ a ∈ anonTexts demoShow args, Braceless a) ∧
    Piece.fill (fun n => namedText demoShow n args) ps (anonTexts demoShow args) = some line ∧
    line = "x at home, false".toList := by
  refine ⟨_, _, _, rfl, rfl, ⟨by decide +kernel, ?_⟩, ?_, by decide, ?_, rfl, by decide +kernel⟩
  · intro n hn
    simp only [argNames, List.mem_cons, List.not_mem_nil, or_false] at hn
    subst hn
    decide +kernel
  · simp only [List.mem_cons, List.not_mem_nil, or_false]
    rintro q (rfl | rfl | rfl | rfl | rfl) <;> simp [Piece.Plain, Braceless]
  · simp only [anonTexts, List.mem_cons, List.not_mem_nil, or_false]
    rintro a (rfl | rfl) <;> (unfold Braceless; decide +kernel)

/-- An argument whose text contains `{}` takes the place of the next argument.
The example of the documentation of `debug!`, with a named argument in a `{}` hole, cannot be rebuilt.
A debug build gives a named argument the value of an argument without a name. -/
theorem C34_violated :
    rebuildLogline demoShow demoTime demoStrings
        (debugEntry demoIntern 0 "go {} to {}".toList [.anon (.str "{}"), .anon (.str "b")])
      = .ok (some "go b to {}".toList) ∧
    fillHoles "go {} to {}".toList ["{}".toList, "b".toList] = "go {} to b".toList ∧
    rebuildLogline demoShow demoTime demoStrings
        (debugEntry demoIntern 0 "a = {}, b = {}".toList
          [.named "my_value".toList (.str "a"), .anon (.str "b")]) = .ok none ∧
    debugLine demoShow demoTime
        (debugEntry demoIntern 0 "{} at {place}, {}".toList
          [.anon (.str "x"), .named "place".toList (.str "home"), .anon (.str "y")])
        "{} at {place}, {}".toList ["place".toList]
      = some "12 s: x at x, y".toList := by
  refine ⟨by decide +kernel, by decide +kernel, by decide +kernel, by decide +kernel⟩

end Verif
