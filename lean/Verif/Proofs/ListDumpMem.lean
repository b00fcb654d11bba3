import Verif.Spec.ListDumpMem
import Verif.Proofs.Wire
/-! The decoder of copper lists with the memory it asks for. -/
namespace Verif
namespace Wire
open Bincode Clock CopperList
variable {P α β : Type}

/-- `Slot.Sound.same` of any decoder. -/
def Same (m : MDec α) (d : Dec α) : Prop := ∀ bs, m bs = .panic ∨ ∃ k, m bs = .ok (d bs, k)

theorem same_lift (d : Dec α) : Same (MDec.lift d) d := fun _ => .inr ⟨0, rfl⟩

theorem same_bind {m : MDec α} {d : Dec α} {f : α → MDec β} {g : α → Dec β} (h : Same m d)
    (hf : ∀ a, Same (f a) (g a)) : Same (m.bind f) (d >>= g) := by
  intro bs
  unfold MDec.bind
  rw [Dec.bind_apply]
  rcases h bs with h | ⟨k, h⟩
  · left; rw [h]
  · rw [h]
    rcases hd : d bs with e | ⟨a, rest⟩
    · right; exact ⟨k, rfl⟩
    · simp only
      rcases hf a rest with h' | ⟨k', h'⟩
      · left; rw [h']
      · right; rw [h']; exact ⟨_, rfl⟩

/-- When one after another panics. -/
theorem bind_panic {m : MDec α} {f : α → MDec β} {bs : Bytes} :
    m.bind f bs = .panic ↔ m bs = .panic ∨ ∃ a rest k, m bs = .ok (.ok (a, rest), k) ∧ f a rest = .panic := by
  unfold MDec.bind
  constructor
  · intro h
    split at h
    · rename_i h'; exact .inl h'
    · cases h
    · rename_i a rest k h'
      split at h
      · rename_i h''; exact .inr ⟨a, rest, k, h', h''⟩
      · cases h
  · rintro (h | ⟨a, rest, k, h, h'⟩)
    · rw [h]
    · rw [h]; simp only; rw [h']

theorem lift_bind_panic {d : Dec α} {f : α → MDec β} {bs : Bytes} :
    (MDec.lift d).bind f bs = .panic ↔ ∃ a rest, d bs = .ok (a, rest) ∧ f a rest = .panic := by
  rw [bind_panic]
  constructor
  · rintro (h | ⟨a, rest, k, h, h'⟩)
    · cases h
    · unfold MDec.lift at h
      simp only [Rs.ok.injEq, Prod.mk.injEq] at h
      exact ⟨a, rest, h.1, h'⟩
  · rintro ⟨a, rest, h, h'⟩
    exact .inr ⟨a, rest, 0, by unfold MDec.lift; rw [h], h'⟩

theorem bind_lift_panic {m : MDec α} {d : α → Dec β} {bs : Bytes} :
    (m.bind fun a => MDec.lift (d a)) bs = .panic ↔ m bs = .panic := by
  rw [bind_panic]
  constructor
  · rintro (h | ⟨_, _, _, _, h⟩)
    · exact h
    · cases h
  · exact .inl

/-- What a decoder that agrees with one without memory returned. -/
theorem same_ok {m : MDec α} {d : Dec α} (h : Same m d) {bs : Bytes} {r : Except DecodeError (α × Bytes)} {k : Nat}
    (hm : m bs = .ok (r, k)) : d bs = r := by
  rcases h bs with h | ⟨_, h⟩
  · rw [h] at hm; cases hm
  · rw [h] at hm
    simp only [Rs.ok.injEq, Prod.mk.injEq] at hm
    exact hm.1

theorem same_of_ok {m : MDec α} {d : Dec α} (h : Same m d) {bs rest : Bytes} {a : α}
    (hd : d bs = .ok (a, rest)) : m bs = .panic ∨ ∃ k, m bs = .ok (.ok (a, rest), k) := by
  rcases h bs with h | ⟨k, h⟩
  · exact .inl h
  · rw [hd] at h; exact .inr ⟨k, h⟩

theorem same_bytes : Same bytesMem (dec : Dec (List UInt8)) := by
  refine same_bind (d := decVar 8) (same_lift _) fun n bs => ?_
  unfold roomMem
  by_cases h : n ≤ 9223372036854775807
  · right; exact ⟨n, by rw [if_pos h]⟩
  · left; rw [if_neg h]

theorem same_status : Same statusMem decStatus := same_bind same_bytes fun b => by
  cases bytesToStr? b <;> exact same_lift _

theorem same_meta : Same metaMem decMeta :=
  same_bind (same_lift _) fun _ => same_bind (same_lift _) fun _ => same_bind same_status fun _ => same_lift _

theorem same_msg {s : Slot P} (h : s.Sound) : Same (msgMem s) (decMsg s.codec) := by
  refine same_bind (same_lift _) fun b => ?_
  by_cases h0 : b = 0
  · simp only [if_pos h0]
    exact same_bind same_meta fun _ => same_lift _
  · simp only [if_neg h0]
    by_cases h1 : b = 1
    · simp only [if_pos h1]
      exact same_bind h.same fun _ => same_bind same_meta fun _ => same_lift _
    · simp only [if_neg h1]
      exact same_lift _

theorem same_msgs {slots : List (Slot P)} (h : ∀ s ∈ slots, s.Sound) : Same (msgsMem slots) (decMsgs (codecs slots)) := by
  induction slots with
  | nil => exact same_lift _
  | cons s ss ih =>
    exact same_bind (same_msg (h s (by simp))) fun _ => same_bind (ih fun s hs => h s (by simp [hs])) fun _ => same_lift _

theorem same_cl {slots : List (Slot P)} (h : ∀ s ∈ slots, s.Sound) :
    Same (clMem slots) (clCodec (codecs slots)).dec :=
  same_bind (same_lift _) fun _ => same_bind (same_lift _) fun _ => same_bind (same_msgs h) fun _ => same_lift _

/-! When it panics. -/

theorem bytes_panic {bs : Bytes} : bytesMem bs = .panic ↔ ∃ n r, decVar 8 bs = .ok (n, r) ∧ 9223372036854775807 < n := by
  unfold bytesMem
  rw [lift_bind_panic]
  constructor
  · rintro ⟨n, r, h, h'⟩
    refine ⟨n, r, h, ?_⟩
    unfold roomMem at h'
    by_cases hn : n ≤ 9223372036854775807
    · rw [if_pos hn] at h'; cases h'
    · omega
  · rintro ⟨n, r, h, h'⟩
    exact ⟨n, r, h, by unfold roomMem; rw [if_neg (by omega)]⟩

theorem meta_panic {bs : Bytes} : metaMem bs = .panic ↔ ∃ n, StatusSaid bs n ∧ 9223372036854775807 < n := by
  unfold metaMem
  rw [lift_bind_panic]
  constructor
  · rintro ⟨p, r1, h1, h⟩
    rw [lift_bind_panic] at h
    obtain ⟨t, r2, h2, h⟩ := h
    rw [bind_lift_panic] at h
    unfold statusMem at h
    rw [bind_lift_panic, bytes_panic] at h
    obtain ⟨n, r, h3, hn⟩ := h
    exact ⟨n, ⟨p, t, r1, r2, r, h1, h2, h3⟩, hn⟩
  · rintro ⟨n, ⟨p, t, r1, r2, r, h1, h2, h3⟩, hn⟩
    refine ⟨p, r1, h1, ?_⟩
    rw [lift_bind_panic]
    refine ⟨t, r2, h2, ?_⟩
    rw [bind_lift_panic]
    unfold statusMem
    rw [bind_lift_panic, bytes_panic]
    exact ⟨n, r, h3, hn⟩

theorem byte_ok {bs r : Bytes} {b : UInt8} : byte bs = .ok (b, r) ↔ bs = b :: r := by
  cases bs with
  | nil => constructor <;> intro h <;> cases h
  | cons c cs =>
    constructor
    · intro h; rw [byte_cons] at h; cases h; rfl
    · intro h; cases h; exact byte_cons _ _

theorem msg_panic {s : Slot P} (hs : s.Sound) {bs : Bytes} : msgMem s bs = .panic ↔ Greedy s bs := by
  unfold msgMem
  rw [lift_bind_panic]
  constructor
  · rintro ⟨b, r, h, h'⟩
    cases byte_ok.1 h
    by_cases h0 : b = 0
    · subst h0
      rw [if_pos rfl, bind_lift_panic, meta_panic] at h'
      obtain ⟨n, h1, h2⟩ := h'
      exact .bare h1 h2
    · rw [if_neg h0] at h'
      by_cases h1 : b = 1
      · subst h1
        rw [if_pos rfl, bind_panic] at h'
        rcases h' with h' | ⟨p, r', k, hm, h'⟩
        · exact .payload h'
        · rw [bind_lift_panic, meta_panic] at h'
          obtain ⟨n, h1, h2⟩ := h'
          exact .behind (same_ok hs.same hm) h1 h2
      · rw [if_neg h1] at h'; cases h'
  · intro h
    cases h with
    | bare h hn =>
      refine ⟨0, _, byte_cons _ _, ?_⟩
      rw [if_pos rfl, bind_lift_panic, meta_panic]
      exact ⟨_, h, hn⟩
    | behind hp h hn =>
      refine ⟨1, _, byte_cons _ _, ?_⟩
      rw [if_neg (by decide), if_pos rfl, bind_panic]
      rcases same_of_ok hs.same hp with h' | ⟨k, h'⟩
      · exact .inl h'
      · refine .inr ⟨_, _, _, h', ?_⟩
        rw [bind_lift_panic, meta_panic]
        exact ⟨_, h, hn⟩
    | payload h =>
      refine ⟨1, _, byte_cons _ _, ?_⟩
      rw [if_neg (by decide), if_pos rfl, bind_panic]
      exact .inl h

theorem msgs_panic {slots : List (Slot P)} (hs : ∀ s ∈ slots, s.Sound) {bs : Bytes} : msgsMem slots bs = .panic ↔
    ∃ pre s post ms r, slots = pre ++ s :: post ∧ decMsgs (codecs pre) bs = .ok (ms, r) ∧ Greedy s r := by
  induction slots generalizing bs with
  | nil =>
    constructor
    · intro h; cases h
    · rintro ⟨pre, s, post, ms, r, h, _⟩
      simp at h
  | cons s ss ih =>
    have hs0 := hs s (by simp)
    have ih := @ih fun s hs' => hs s (by simp [hs'])
    rw [msgsMem, bind_panic, msg_panic hs0]
    constructor
    · rintro (h | ⟨m, r, k, hm, h⟩)
      · exact ⟨[], s, ss, [], bs, rfl, rfl, h⟩
      · rw [bind_lift_panic, ih] at h
        obtain ⟨pre, s', post, ms, r', h1, h2, h3⟩ := h
        refine ⟨s :: pre, s', post, m :: ms, r', by rw [h1]; rfl, ?_, h3⟩
        show decMsgs (s.codec :: codecs pre) bs = _
        unfold decMsgs
        rw [Dec.bind_ok (same_ok (same_msg hs0) hm), Dec.bind_ok h2]
        rfl
    · rintro ⟨pre, s', post, ms, r, h1, h2, h3⟩
      cases pre with
      | nil =>
        simp only [List.nil_append, List.cons.injEq] at h1
        obtain ⟨rfl, rfl⟩ := h1
        cases h2
        exact .inl h3
      | cons s0 pre =>
        simp only [List.cons_append, List.cons.injEq] at h1
        obtain ⟨rfl, h1⟩ := h1
        replace h2 : decMsgs (s.codec :: codecs pre) bs = .ok (ms, r) := h2
        unfold decMsgs at h2
        rw [Dec.bind_apply] at h2
        rcases hd : decMsg s.codec bs with e | ⟨m, r1⟩
        · rw [hd] at h2; cases h2
        · rw [hd] at h2
          simp only at h2
          rw [Dec.bind_apply] at h2
          rcases hd2 : decMsgs (codecs pre) r1 with e | ⟨ms', r2⟩
          · rw [hd2] at h2; cases h2
          · rw [hd2] at h2
            cases h2
            rcases same_of_ok (same_msg hs0) hd with h' | ⟨k, h'⟩
            · exact .inl ((msg_panic hs0).1 h')
            · refine .inr ⟨m, r1, k, h', ?_⟩
              rw [bind_lift_panic, ih]
              exact ⟨pre, s', post, ms', r, h1, hd2, h3⟩

theorem cl_panic {slots : List (Slot P)} (hs : ∀ s ∈ slots, s.Sound) {bs : Bytes} :
    clMem slots bs = .panic ↔ GreedyList slots bs := by
  unfold clMem
  rw [lift_bind_panic]
  constructor
  · rintro ⟨id, r1, h1, h⟩
    rw [lift_bind_panic] at h
    obtain ⟨st, r2, h2, h⟩ := h
    rw [bind_lift_panic, msgs_panic hs] at h
    obtain ⟨pre, s, post, ms, r, h3, h4, h5⟩ := h
    exact ⟨id, st, r1, r2, pre, s, post, ms, r, h1, h2, h3, h4, h5⟩
  · rintro ⟨id, st, r1, r2, pre, s, post, ms, r, h1, h2, h3, h4, h5⟩
    refine ⟨id, r1, h1, ?_⟩
    rw [lift_bind_panic]
    refine ⟨st, r2, h2, ?_⟩
    rw [bind_lift_panic, msgs_panic hs]
    exact ⟨pre, s, post, ms, r, h3, h4, h5⟩

/-! What was written. -/

/-- `Slot.Frugal` of any decoder: `w` is read as `a`. -/
def Cheap (m : MDec α) (w : Bytes) (a : α) : Prop := ∀ rest, ∃ k, m (w ++ rest) = .ok (.ok (a, rest), k) ∧ k ≤ w.length

theorem cheap_lift {d : Dec α} {w : Bytes} {a : α} (h : ∀ rest, d (w ++ rest) = .ok (a, rest)) :
    Cheap (MDec.lift d) w a := fun rest => ⟨0, by unfold MDec.lift; rw [h], Nat.zero_le _⟩

theorem cheap_pure (a : α) : Cheap (MDec.lift (pure a)) [] a := cheap_lift fun _ => rfl

theorem cheap_bind {m : MDec α} {f : α → MDec β} {w v : Bytes} {a : α} {b : β} (h : Cheap m w a) (h' : Cheap (f a) v b) :
    Cheap (m.bind f) (w ++ v) b := by
  intro rest
  obtain ⟨k, h1, h2⟩ := h (v ++ rest)
  obtain ⟨k', h3, h4⟩ := h' rest
  refine ⟨k + k', ?_, by rw [List.length_append]; omega⟩
  unfold MDec.bind
  rw [List.append_assoc, h1]
  simp only
  rw [h3]

theorem cheap_bytes {b : List UInt8} (h : b.length < 9223372036854775808) : Cheap bytesMem (enc b) b := by
  show Cheap bytesMem (encVar b.length ++ encAll b) b
  refine cheap_bind (cheap_lift fun rest => decVar_encVar8 _ (by omega) rest) fun rest => ?_
  refine ⟨b.length, ?_, encAll_length_ge fun a _ => Nat.zero_lt_one⟩
  unfold roomMem
  rw [if_pos (by omega), decN_encAll _ (fun a _ => rt_u8 a) _]

theorem cheap_status {s : String} (h : s.utf8ByteSize < 9223372036854775808) : Cheap statusMem (encStatus s) s := by
  have := cheap_bind (f := fun b => MDec.lift (match bytesToStr? b with
    | some s => pure s
    | none => Dec.fail .utf8)) (cheap_bytes (b := strBytes s) (by rw [strBytes_length]; exact h))
    (v := []) (b := s) (cheap_lift fun rest => by rw [bytesToStr_strBytes]; rfl)
  rw [List.append_nil] at this
  exact this

theorem cheap_then {m : MDec α} {f : α → β} {w : Bytes} {a : α} (h : Cheap m w a) :
    Cheap (m.bind fun a => MDec.lift (pure (f a))) w (f a) := by
  have := cheap_bind h (cheap_pure (f a)) (f := fun a => MDec.lift (pure (f a)))
  rwa [List.append_nil] at this

theorem cheap_meta {m : MsgMeta} (h : m.statusTxt.utf8ByteSize < 9223372036854775808) : Cheap metaMem (encMeta m) m :=
  cheap_bind (cheap_lift (rt_partialTimeRange _)) (cheap_bind (cheap_lift (rt_tov _)) (cheap_then (cheap_status h)))

theorem cheap_msg {s : Slot P} {m : Msg P} (hp : ∀ p, m.payload = some p → s.Frugal p)
    (h : m.md.statusTxt.utf8ByteSize < 9223372036854775808) : Cheap (msgMem s) (encMsg s.codec m) m := by
  obtain ⟨o, md⟩ := m
  cases o with
  | none =>
    refine cheap_bind (a := (0 : UInt8)) (w := [0]) (cheap_lift fun rest => byte_cons _ _) ?_
    simp only
    exact cheap_then (f := fun md => (⟨none, md⟩ : Msg P)) (cheap_meta h)
  | some p =>
    refine cheap_bind (a := (1 : UInt8)) (w := [1]) (v := s.codec.enc p ++ encMeta md)
      (cheap_lift fun rest => byte_cons _ _) ?_
    simp only [if_neg (show ¬ (1 : UInt8) = 0 by decide)]
    exact cheap_bind (hp p rfl) (cheap_then (f := fun md => (⟨some p, md⟩ : Msg P)) (cheap_meta h))

theorem cheap_msgs {slots : List (Slot P)} {ms : List (Msg P)}
    (h : Pointwise (fun s m => (∀ p, m.payload = some p → s.Frugal p) ∧ m.md.statusTxt.utf8ByteSize < 9223372036854775808)
      slots ms) : Cheap (msgsMem slots) (encMsgs (codecs slots) ms) ms := by
  induction h with
  | nil => exact cheap_pure _
  | cons h1 _ ih => exact cheap_bind (cheap_msg h1.1 h1.2) (cheap_then (f := fun ms => _ :: ms) ih)

theorem cheap_cl {slots : List (Slot P)} {cl : CL (List (Msg P))} (h : Fits slots cl) :
    Cheap (clMem slots) ((clCodec (codecs slots)).enc cl) cl :=
  cheap_bind (cheap_lift (rt_u32 _)) (cheap_bind (cheap_lift (rt_state _)) (cheap_then
    (f := fun ms => (⟨cl.id, cl.state, ms⟩ : CL (List (Msg P)))) (cheap_msgs h)))

/-! The loop. -/

theorem written_length {slots : List (Slot P)} (l : List (CL (List (Msg P)))) : l.length ≤ (written slots l).length := by
  induction l with
  | nil => exact Nat.zero_le _
  | cons cl l ih =>
    have := cl_pos (codecs slots) cl
    unfold written at *
    rw [List.flatMap_cons, List.length_append, List.length_cons]
    omega

theorem loop_written {slots : List (Slot P)} {l : List (CL (List (Msg P)))} (hl : ∀ cl ∈ l, Fits slots cl)
    (tail : Bytes) (fuel : Nat) : listLoop (clMem slots) (l.length + fuel) (written slots l ++ tail) =
      (l ++ (listLoop (clMem slots) fuel tail).1, (listLoop (clMem slots) fuel tail).2) := by
  induction l with
  | nil => simp [written]
  | cons cl l ih =>
    have ih := ih fun c hc => hl c (by simp [hc])
    obtain ⟨k, hk, _⟩ := cheap_cl (hl cl (by simp)) (written slots l ++ tail)
    rw [show (cl :: l).length + fuel = (l.length + fuel) + 1 by simp; omega,
      show written slots (cl :: l) ++ tail = (clCodec (codecs slots)).enc cl ++ (written slots l ++ tail) by
        unfold written; rw [List.flatMap_cons, List.append_assoc]]
    rw [listLoop, hk]
    simp only
    rw [ih]
    rfl

theorem loop_ended {m : MDec α} {d : Dec α} (h : Same m d) {fuel : Nat} {bs : Bytes}
    (he : (listLoop m fuel bs).2 = true) : (listLoop m fuel bs).1 = (decodeStream d fuel bs).1 := by
  induction fuel generalizing bs with
  | zero => rfl
  | succ fuel ih =>
    unfold listLoop at he ⊢
    unfold decodeStream
    rcases h bs with h' | ⟨k, h'⟩
    · rw [h'] at he; cases he
    · rw [h'] at he ⊢
      rcases hd : d bs with e | ⟨a, rest⟩
      · rfl
      · rw [hd] at he
        simp only at he ⊢
        rw [ih he]

theorem loop_cause {slots : List (Slot P)} (hs : ∀ s ∈ slots, s.Sound) {fuel : Nat} {bs : Bytes}
    (he : (listLoop (clMem slots) fuel bs).2 = false) :
    ∃ rest, Lists slots bs (listLoop (clMem slots) fuel bs).1 rest ∧ GreedyList slots rest := by
  induction fuel generalizing bs with
  | zero => cases he
  | succ fuel ih =>
    unfold listLoop at he ⊢
    rcases same_cl hs bs with h' | ⟨k, h'⟩
    · rw [h']
      exact ⟨bs, .nil, (cl_panic hs).1 h'⟩
    · rw [h'] at he ⊢
      rcases hd : (clCodec (codecs slots)).dec bs with e | ⟨a, rest⟩
      · rw [hd] at he; cases he
      · rw [hd] at he
        simp only at he ⊢
        obtain ⟨rest', h1, h2⟩ := ih he
        exact ⟨rest', .cons hd h1, h2⟩

/-- And behind lists that are read such a one makes it panic. -/
theorem loop_greedy {slots : List (Slot P)} (hs : ∀ s ∈ slots, s.Sound) {bs rest : Bytes} {l : List (CL (List (Msg P)))}
    (h : Lists slots bs l rest) (hg : GreedyList slots rest) {fuel : Nat} (hf : l.length < fuel) :
    (listLoop (clMem slots) fuel bs).2 = false := by
  induction h generalizing fuel with
  | nil =>
    obtain ⟨f, rfl⟩ : ∃ f, fuel = f + 1 := ⟨fuel - 1, by simp at hf; omega⟩
    unfold listLoop
    rw [(cl_panic hs).2 hg]
  | cons h _ ih =>
    obtain ⟨f, rfl⟩ : ∃ f, fuel = f + 1 := ⟨fuel - 1, by simp at hf; omega⟩
    unfold listLoop
    rcases same_of_ok (same_cl hs) h with h' | ⟨k, h'⟩
    · rw [h']
    · rw [h']
      exact ih hg (by simp at hf; omega)

/-! Decoders go forward. -/

def Fwd (d : Dec α) : Prop := ∀ bs a rest, d bs = .ok (a, rest) → rest.length ≤ bs.length

theorem fwd_pure (a : α) : Fwd (pure a : Dec α) := by
  intro bs b rest h
  cases h
  exact Nat.le_refl _

theorem fwd_fail (e : DecodeError) : Fwd (Dec.fail e : Dec α) := by
  intro bs b rest h
  cases h

theorem fwd_bind {d : Dec α} {f : α → Dec β} (h : Fwd d) (hf : ∀ a, Fwd (f a)) : Fwd (d >>= f) := by
  intro bs b rest hb
  rw [Dec.bind_apply] at hb
  rcases hd : d bs with e | ⟨a, r⟩
  · rw [hd] at hb; cases hb
  · rw [hd] at hb
    exact Nat.le_trans (hf a _ _ _ hb) (h _ _ _ hd)

theorem fwd_ite {c : Prop} [Decidable c] {d d' : Dec α} (h : Fwd d) (h' : Fwd d') : Fwd (if c then d else d') := by
  split
  · exact h
  · exact h'

theorem fwd_byte : Fwd byte := by
  intro bs b rest h
  cases byte_ok.1 h
  simp

theorem fwd_fixed (k : Nat) : Fwd (fixed k) := by
  refine fwd_bind (fun bs b rest h => ?_) fun _ => fwd_pure _
  unfold takeBytes at h
  split at h
  · cases h
  · cases h
    simp

theorem fwd_tail (w : Nat) (b : UInt8) : Fwd (if b.toNat < 251 then pure b.toNat
    else if b = 251 then fixed 2
    else if b = 252 ∧ 4 ≤ w then fixed 4
    else if b = 253 ∧ 8 ≤ w then fixed 8
    else Dec.fail .invalidIntegerType : Dec Nat) :=
  fwd_ite (fwd_pure _) (fwd_ite (fwd_fixed _) (fwd_ite (fwd_fixed _) (fwd_ite (fwd_fixed _) (fwd_fail _))))

theorem fwd_var (w : Nat) : Fwd (decVar w) := fwd_bind fwd_byte fun b => fwd_tail w b

/-- A number takes at least one byte. -/
theorem var_shorter {w : Nat} {bs rest : Bytes} {n : Nat} (h : decVar w bs = .ok (n, rest)) : rest.length < bs.length := by
  cases bs with
  | nil => cases h
  | cons b bs =>
    have := fwd_tail w b bs n rest h
    simp only [List.length_cons]
    omega

theorem fwd_u32 : Fwd (dec : Dec UInt32) := fwd_bind (fwd_var _) fun _ => fwd_pure _
theorem fwd_u64 : Fwd (dec : Dec UInt64) := fwd_bind (fwd_var _) fun _ => fwd_pure _
theorem fwd_u8 : Fwd (dec : Dec UInt8) := fwd_byte

theorem fwd_pair [Codec α] [Codec β] (h : Fwd (dec : Dec α)) (h' : Fwd (dec : Dec β)) : Fwd (dec : Dec (α × β)) :=
  fwd_bind h fun _ => fwd_bind h' fun _ => fwd_pure _

theorem fwd_decN {d : Dec α} (h : Fwd d) (n : Nat) : Fwd (decN d n) := by
  induction n with
  | zero => exact fwd_pure _
  | succ n ih => exact fwd_bind h fun _ => fwd_bind ih fun _ => fwd_pure _

theorem fwd_bytes : Fwd (dec : Dec (List UInt8)) := fwd_bind (fwd_var _) fun n => fwd_decN fwd_u8 n

theorem fwd_duration : Fwd (dec : Dec CuDuration) := fwd_bind fwd_u64 fun _ => fwd_pure _
theorem fwd_option : Fwd (dec : Dec OptionCuTime) := fwd_bind fwd_duration fun _ => fwd_pure _

theorem fwd_tov : Fwd (dec : Dec Tov) :=
  fwd_bind (fwd_var _) fun _ => fwd_ite (fwd_pure _) (fwd_ite (fwd_bind fwd_duration fun _ => fwd_pure _)
    (fwd_ite (fwd_bind (fwd_bind fwd_duration fun _ => fwd_bind fwd_duration fun _ => fwd_pure _) fun _ => fwd_pure _)
      (fwd_fail _)))

theorem fwd_meta : Fwd decMeta :=
  fwd_bind (fwd_bind fwd_option fun _ => fwd_bind fwd_option fun _ => fwd_pure _) fun _ => fwd_bind fwd_tov fun _ =>
    fwd_bind (fwd_bind fwd_bytes fun b => by cases bytesToStr? b <;> first | exact fwd_fail _ | exact fwd_pure _) fun _ =>
      fwd_pure _

theorem fwd_msg {s : Slot P} (h : s.Sound) : Fwd (decMsg s.codec) :=
  fwd_bind fwd_byte fun _ => fwd_ite (fwd_bind fwd_meta fun _ => fwd_pure _)
    (fwd_ite (fwd_bind h.forward fun _ => fwd_bind fwd_meta fun _ => fwd_pure _) (fwd_fail _))

theorem fwd_msgs {slots : List (Slot P)} (h : ∀ s ∈ slots, s.Sound) : Fwd (decMsgs (codecs slots)) := by
  induction slots with
  | nil => exact fwd_pure _
  | cons s ss ih =>
    exact fwd_bind (fwd_msg (h s (by simp))) fun _ => fwd_bind (ih fun s hs => h s (by simp [hs])) fun _ => fwd_pure _

theorem fwd_state : Fwd decState :=
  fwd_bind (fwd_var _) fun _ => fwd_ite (fwd_pure _) (fwd_ite (fwd_pure _) (fwd_ite (fwd_pure _) (fwd_ite (fwd_pure _)
    (fwd_ite (fwd_pure _) (fwd_fail _)))))

/-- A list takes at least one byte. -/
theorem cl_shrinks {slots : List (Slot P)} (hs : ∀ s ∈ slots, s.Sound) {bs rest : Bytes} {cl : CL (List (Msg P))}
    (h : (clCodec (codecs slots)).dec bs = .ok (cl, rest)) : rest.length < bs.length := by
  unfold clCodec at h
  simp only at h
  rw [Dec.bind_apply] at h
  rcases hd : (dec : Dec UInt32) bs with e | ⟨a, r⟩
  · rw [hd] at h; cases h
  · rw [hd] at h
    have h1 : r.length < bs.length := by
      rcases hv : decVar 4 bs with e | ⟨n, r'⟩
      · have : (dec : Dec UInt32) bs = .error e := by
          show (decVar 4 >>= fun n => pure (UInt32.ofNat n) : Dec UInt32) bs = _
          rw [Dec.bind_apply, hv]
        rw [this] at hd; cases hd
      · have h0 : (dec : Dec UInt32) bs = .ok (UInt32.ofNat n, r') := by
          show (decVar 4 >>= fun n => pure (UInt32.ofNat n) : Dec UInt32) bs = _
          rw [Dec.bind_apply, hv]
          rfl
        rw [h0] at hd
        cases hd
        exact var_shorter hv
    have h2 := (fwd_bind fwd_state fun st => fwd_bind (fwd_msgs hs) fun ms =>
      fwd_pure (⟨a, st, ms⟩ : CL (List (Msg P)))) _ _ _ h
    omega

theorem plain_sound {c : Codec P} (h : ∀ bs p rest, c.dec bs = .ok (p, rest) → rest.length ≤ bs.length) :
    (Slot.plain c).Sound := ⟨same_lift _, h⟩

theorem plain_frugal {c : Codec P} {p : P} (h : @RoundTrips _ c p) : (Slot.plain c).Frugal p := cheap_lift h

theorem image_sound : Slot.image.Sound :=
  ⟨same_bind (same_lift _) fun _ => same_bind (same_lift _) fun _ => same_bind same_bytes fun _ => same_lift _,
    fwd_bind fwd_u64 fun _ => fwd_bind (fwd_bind fwd_u32 fun _ => fwd_bind fwd_u32 fun _ => fwd_bind fwd_u32 fun _ =>
      fwd_bind (fwd_pair fwd_u8 (fwd_pair fwd_u8 (fwd_pair fwd_u8 fwd_u8))) fun _ => fwd_pure _) fun _ =>
        fwd_bind fwd_bytes fun _ => fwd_pure _⟩

theorem image_panic {bs : Bytes} : imageMem bs = .panic ↔ ∃ n, BufferSaid bs n ∧ 9223372036854775807 < n := by
  unfold imageMem
  rw [lift_bind_panic]
  constructor
  · rintro ⟨p, r1, h1, h⟩
    rw [lift_bind_panic] at h
    obtain ⟨t, r2, h2, h⟩ := h
    rw [bind_lift_panic, bytes_panic] at h
    obtain ⟨n, r, h3, hn⟩ := h
    exact ⟨n, ⟨p, t, r1, r2, r, h1, h2, h3⟩, hn⟩
  · rintro ⟨n, ⟨p, t, r1, r2, r, h1, h2, h3⟩, hn⟩
    refine ⟨p, r1, h1, ?_⟩
    rw [lift_bind_panic]
    refine ⟨t, r2, h2, ?_⟩
    rw [bind_lift_panic, bytes_panic]
    exact ⟨n, r, h3, hn⟩

theorem image_frugal {seq : UInt64} {format : Image.Format} {data : List UInt8} (h : data.length < 9223372036854775808) :
    Slot.image.Frugal ⟨seq, format, .detached data⟩ := by
  have hf : ∀ rest, Image.decFormat (Image.encFormat format ++ rest) = .ok (format, rest) := by
    intro rest
    unfold Image.encFormat Image.decFormat
    simp only [List.append_assoc]
    rw [Dec.bind_ok (rt_u32 _ _), Dec.bind_ok (rt_u32 _ _), Dec.bind_ok (rt_u32 _ _),
      Dec.bind_ok (rt_pair (rt_u8 _) (rt_pair (rt_u8 _) (rt_pair (rt_u8 _) (rt_u8 _))) _)]
    rfl
  exact cheap_bind (cheap_lift (rt_u64 _)) (cheap_bind (cheap_lift hf) (cheap_then
    (f := fun b => (⟨seq, format, .detached b⟩ : Image.CuImage)) (cheap_bytes h)))

/-- There are no more lists than bytes. -/
theorem lists_length {slots : List (Slot P)} (hs : ∀ s ∈ slots, s.Sound) {bs rest : Bytes} {l : List (CL (List (Msg P)))}
    (h : Lists slots bs l rest) : rest.length + l.length ≤ bs.length := by
  induction h with
  | nil => simp
  | cons h _ ih =>
    have := cl_shrinks hs h
    simp only [List.length_cons]
    omega

end Wire
end Verif
