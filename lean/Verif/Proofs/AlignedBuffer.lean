import Verif.Spec.AlignedBuffer
namespace Verif.AlignedBuffer
open Spec

theorem isPow2_iff (n : Nat) : isPow2 n = true ↔ ∃ k, n = 2 ^ k := by
  simp only [isPow2, beq_iff_eq]
  constructor
  · intro h; exact ⟨_, h⟩
  · rintro ⟨k, rfl⟩; rw [Nat.log2_two_pow]

theorem fromSizeAlign_eq {s a : Nat} {L : Layout} (h : Layout.fromSizeAlign s a = some L) : L = ⟨s, a⟩ := by
  unfold Layout.fromSizeAlign at h
  split at h
  · exact (Option.some.inj h).symm
  · cases h

theorem mulUsize_small (ov : Overflow) {a b : Nat} (h : a * b < 2 ^ 64) : mulUsize ov a b = .ok (a * b) := by
  unfold mulUsize; rw [if_pos h]

theorem new_ok {ov : Overflow} {ty : Ty} {n align : Nat} {ans : Layout → Option Nat} {b : Buf}
    (hn : n * ty.size < 2 ^ 64) (h : Buf.new ov ty n align ans = .ok b) :
    b.size = n ∧ b.layout = ⟨n * ty.size, align⟩ ∧ ans ⟨n * ty.size, align⟩ = some b.ptr := by
  unfold Buf.new at h
  rw [mulUsize_small ov hn, Rs.ok_bind] at h
  cases hl : Layout.fromSizeAlign (n * ty.size) align with
  | none => rw [hl] at h; cases h
  | some L =>
    rw [hl] at h
    have hL := fromSizeAlign_eq hl
    subst hL
    cases ha : ans ⟨n * ty.size, align⟩ with
    | none => simp [ha] at h
    | some q => simp [ha] at h; subst h; exact ⟨rfl, rfl, rfl⟩

theorem load_store_same (w : World) (a : Nat) (v : List UInt8) : (w.store a v).load a v.length = v := by
  unfold World.load World.store
  apply List.ext_getElem
  · simp
  · intro i h1 h2
    simp [h2]

theorem load_store_other (w : World) (a b n : Nat) (v : List UInt8) (h : a + v.length ≤ b ∨ b + n ≤ a) :
    (w.store a v).load b n = w.load b n := by
  unfold World.load World.store
  apply List.map_congr_left
  intro i hi
  have := List.mem_range.1 hi
  have hh : ¬ (a ≤ b + i ∧ b + i < a + v.length) := by omega
  simp only [hh, if_false]

/-- A buffer and the array it stands for. -/
def Rel (ty : Ty) (w : World) : Option (Option Buf) → Option (Option (List (Option (List UInt8)))) → Prop
  | none, none => True
  | some none, some none => True
  | some (some b), some (some a) =>
    a.length = b.size ∧ b.layout.size = b.size * ty.size ∧ 0 < b.layout.size ∧ b.layout.align ∣ b.ptr ∧
      ∀ i v, a[i]? = some (some v) → w.load (b.ptr + i * ty.size) ty.size = v
  | _, _ => False

def Apart (b c : Buf) : Prop := b.ptr + b.layout.size ≤ c.ptr ∨ c.ptr + c.layout.size ≤ b.ptr

def blocks (l : List (Option Buf)) : List (Nat × Nat) := (l.filterMap id).map Buf.freed

structure Inv (ty : Ty) (p : Prog) (s : Arrays) : Prop where
  live : p.w.live.Perm (blocks p.bufs)
  apart : ∀ (j k : Nat) b c, j ≠ k → p.bufs[j]? = some (some b) → p.bufs[k]? = some (some c) → Apart b c
  rel : ∀ k : Nat, Rel ty p.w p.bufs[k]? s[k]?

theorem mem_blocks {l : List (Option Buf)} {k : Nat} {b : Buf} (h : l[k]? = some (some b)) : b.freed ∈ blocks l := by
  unfold blocks
  refine List.mem_map.2 ⟨b, List.mem_filterMap.2 ⟨some b, List.mem_of_getElem? h, rfl⟩, rfl⟩

theorem blocks_set {l : List (Option Buf)} {k : Nat} {b : Buf} (h : l[k]? = some (some b)) :
    (blocks l).Perm (b.freed :: blocks (l.set k none)) := by
  induction l generalizing k with
  | nil => cases h
  | cons x xs ih =>
    cases k with
    | zero =>
      simp only [List.getElem?_cons_zero, Option.some.injEq] at h
      subst h
      simp [blocks]
    | succ k =>
      simp only [List.getElem?_cons_succ] at h
      have := ih h
      cases x with
      | none => simpa [blocks] using this
      | some c =>
        simp only [List.set_cons_succ]
        show (c.freed :: blocks xs).Perm (b.freed :: c.freed :: blocks (xs.set k none))
        exact (List.Perm.cons _ this).trans (List.Perm.swap ..)

theorem Rel.length {ty : Ty} {p : Prog} {s : Arrays} (h : ∀ k : Nat, Rel ty p.w p.bufs[k]? s[k]?) :
    p.bufs.length = s.length := by
  have h1 := h p.bufs.length
  have h2 := h s.length
  rw [List.getElem?_eq_none (Nat.le_refl _)] at h1 h2
  have a : s[p.bufs.length]? = none := by
    cases hs : s[p.bufs.length]? with
    | none => rfl
    | some x => rw [hs] at h1; cases h1
  have b : p.bufs[s.length]? = none := by
    cases hs : p.bufs[s.length]? with
    | none => rfl
    | some x => rw [hs] at h2; cases x <;> cases h2
  have := List.getElem?_eq_none_iff.1 a
  have := List.getElem?_eq_none_iff.1 b
  omega

theorem Rel.some_some {ty : Ty} {w : World} {b : Buf} {o} (h : Rel ty w (some (some b)) o) :
    ∃ a, o = some (some a) ∧ a.length = b.size ∧ b.layout.size = b.size * ty.size ∧ 0 < b.layout.size ∧
      b.layout.align ∣ b.ptr ∧ ∀ i v, a[i]? = some (some v) → w.load (b.ptr + i * ty.size) ty.size = v := by
  match o, h with
  | some (some a), h => exact ⟨a, rfl, h⟩

theorem Rel.world {ty : Ty} {w : World} {o} (h : Rel ty w (some none) o) (w' : World) :
    Rel ty w' (some none) o := by
  cases o with
  | none => exact h
  | some x => cases x <;> exact h

theorem Rel.not_live {ty : Ty} {w : World} {x o} (h : Rel ty w x o) (hx : ∀ b, x ≠ some (some b)) :
    ∀ a, o ≠ some (some a) := by
  intro a ho
  subst ho
  match x, h with
  | some (some b), _ => exact hx b rfl

theorem elem_inside (n i sz : Nat) (h : i < n) : i * sz + sz ≤ n * sz := by
  have := Nat.mul_le_mul_right sz (show i + 1 ≤ n by omega)
  rw [Nat.add_mul, Nat.one_mul] at this
  exact this

theorem elem_apart (i j sz : Nat) (h : i ≠ j) : i * sz + sz ≤ j * sz ∨ j * sz + sz ≤ i * sz := by
  rcases Nat.lt_or_gt_of_ne h with h | h
  · exact .inl (elem_inside j i sz h)
  · exact .inr (elem_inside i j sz h)

theorem step_inv {ov : Overflow} {ty : Ty} {al : Allocator} (hal : Sound al) {p p' : Prog} {s : Arrays} {o : Op}
    {r : Option (List UInt8)} (hi : Inv ty p s) (ho : Sane ty o) (h : p.step ov ty al o = .ok (p', r)) :
    ∃ s' r', Spec.step s o = some (s', r') ∧ Inv ty p' s' ∧ Pointwise Agrees r'.toList r.toList := by
  cases o with
  | create n align =>
    obtain ⟨hpos, hlt⟩ := ho
    simp only [Prog.step] at h
    obtain ⟨b, hb, h⟩ := Rs.bind_eq_ok.1 h
    obtain ⟨rfl, rfl⟩ : _ = p' ∧ none = r := by simpa using h
    obtain ⟨h1, h2, h3⟩ := new_ok hlt hb
    obtain ⟨hdiv, hfree⟩ := hal _ _ ⟨n * ty.size, align⟩ _ hpos h3
    have hlen := Rel.length hi.rel
    refine ⟨_, _, rfl, ⟨?_, ?_, ?_⟩, .nil⟩
    · show (b.freed :: p.w.live).Perm (blocks (p.bufs ++ [some b]))
      have : blocks (p.bufs ++ [some b]) = blocks p.bufs ++ [b.freed] := by simp [blocks]
      rw [this]
      exact (List.Perm.cons _ hi.live).trans (List.perm_append_comm (l₁ := [b.freed]))
    · have key : ∀ j c, j < p.bufs.length → p.bufs[j]? = some (some c) → Apart b c := by
        intro j c _ hc
        have := hfree _ (hi.live.mem_iff.2 (mem_blocks hc))
        unfold Apart
        rw [h2]
        exact this
      intro j k c d hne hc hd
      by_cases hj : j < p.bufs.length
      · rw [List.getElem?_append_left hj] at hc
        by_cases hk : k < p.bufs.length
        · rw [List.getElem?_append_left hk] at hd
          exact hi.apart j k c d hne hc hd
        · rw [List.getElem?_append_right (by omega)] at hd
          have hk' : k - p.bufs.length = 0 := by
            cases hq : k - p.bufs.length with
            | zero => rfl
            | succ q => rw [hq] at hd; simp at hd
          rw [hk'] at hd
          simp at hd
          subst hd
          exact (key j c hj hc).symm
      · rw [List.getElem?_append_right (by omega)] at hc
        have hj' : j - p.bufs.length = 0 := by
          cases hq : j - p.bufs.length with
          | zero => rfl
          | succ q => rw [hq] at hc; simp at hc
        rw [hj'] at hc
        simp at hc
        subst hc
        by_cases hk : k < p.bufs.length
        · rw [List.getElem?_append_left hk] at hd
          exact key k d hk hd
        · rw [List.getElem?_append_right (by omega)] at hd
          cases hq : k - p.bufs.length with
          | zero => omega
          | succ q => rw [hq] at hd; simp at hd
    · intro k
      by_cases hk : k < p.bufs.length
      · show Rel ty _ (p.bufs ++ [some b])[k]? (s ++ [_])[k]?
        rw [List.getElem?_append_left hk, List.getElem?_append_left (by omega)]
        exact hi.rel k
      · show Rel ty _ (p.bufs ++ [some b])[k]? (s ++ [_])[k]?
        rw [List.getElem?_append_right (by omega), List.getElem?_append_right (by omega), ← hlen]
        cases hq : k - p.bufs.length with
        | zero =>
          simp only [List.getElem?_cons_zero]
          refine ⟨by simp [h1], by rw [h2, h1], by rw [h2]; exact hpos, by rw [h2]; exact hdiv, ?_⟩
          intro i v hv
          rw [List.getElem?_replicate] at hv
          split at hv <;> simp at hv
        | succ q => simp [Rel]
  | write k i v =>
    have hv : v.length = ty.size := ho
    simp only [Prog.step] at h
    split at h
    · rename_i b hb
      obtain ⟨w, hw, h⟩ := Rs.bind_eq_ok.1 h
      obtain ⟨rfl, rfl⟩ : _ = p' ∧ none = r := by simpa using h
      unfold Buf.set at hw
      by_cases hib : i < b.size
      case neg => rw [if_neg hib] at hw; cases hw
      rw [if_pos hib] at hw
      cases hw
      have hr := hi.rel k
      rw [hb] at hr
      obtain ⟨a, ha, hal', hsz, hpos, hdiv, hld⟩ := hr.some_some
      have hia : i < a.length := by omega
      have hks : k < s.length := (List.getElem?_eq_some_iff.1 ha).1
      refine ⟨s.set k (some (a.set i (some v))), none, by simp [Spec.step, ha, hia], ⟨hi.live, hi.apart, ?_⟩, .nil⟩
      intro j
      by_cases hj : j = k
      · subst hj
        show Rel ty _ p.bufs[j]? (s.set j _)[j]?
        rw [hb, List.getElem?_set_self hks]
        refine ⟨by simpa using hal', hsz, hpos, hdiv, ?_⟩
        intro q u hu
        by_cases hq : q = i
        · subst hq
          rw [List.getElem?_set_self hia] at hu
          simp at hu
          subst hu
          rw [← hv]
          exact load_store_same ..
        · rw [List.getElem?_set_ne (fun e => hq e.symm)] at hu
          rw [load_store_other]
          · exact hld q u hu
          · rw [hv]
            have := elem_apart i q ty.size (fun e => hq e.symm)
            omega
      · show Rel ty _ p.bufs[j]? (s.set k _)[j]?
        rw [List.getElem?_set_ne (fun e => hj e.symm)]
        have hrj := hi.rel j
        cases hc : p.bufs[j]? with
        | none => rw [hc] at hrj; match s[j]?, hrj with | none, _ => trivial
        | some x =>
          cases x with
          | none => rw [hc] at hrj; exact Rel.world hrj _
          | some c =>
            rw [hc] at hrj
            obtain ⟨a', ha', g1, g2, g3, g4, g5⟩ := hrj.some_some
            rw [ha']
            refine ⟨g1, g2, g3, g4, ?_⟩
            intro q u hu
            rw [load_store_other]
            · exact g5 q u hu
            · have hqlt : q < c.size := by
                have := (List.getElem?_eq_some_iff.1 hu).1; omega
              have e1 := elem_inside _ _ ty.size hib
              have e2 := elem_inside _ _ ty.size hqlt
              have := hi.apart k j b c (fun e => hj e.symm) hb hc
              unfold Apart at this
              rw [hv]
              omega
    · rename_i hx
      obtain ⟨rfl, rfl⟩ : p = p' ∧ none = r := by simpa using h
      refine ⟨s, none, ?_, hi, .nil⟩
      have := (hi.rel k).not_live (fun b e => hx b e)
      simp only [Spec.step]
  | read k i =>
    simp only [Prog.step] at h
    split at h
    · rename_i b hb
      obtain ⟨v, hv, h⟩ := Rs.bind_eq_ok.1 h
      obtain ⟨rfl, rfl⟩ : p = p' ∧ some v = r := by simpa using h
      unfold Buf.get at hv
      by_cases hib : i < b.size
      case neg => rw [if_neg hib] at hv; cases hv
      rw [if_pos hib] at hv
      have hr := hi.rel k
      rw [hb] at hr
      obtain ⟨a, ha, hal', hsz, hpos, hdiv, hld⟩ := hr.some_some
      have hia : i < a.length := by omega
      refine ⟨s, some a[i], by simp [Spec.step, ha, hia], hi, .cons ?_ .nil⟩
      intro u hu
      have := hld i u (by rw [List.getElem?_eq_getElem hia, hu])
      rw [← this]
      cases hv; rfl
    · rename_i hx
      obtain ⟨rfl, rfl⟩ : p = p' ∧ none = r := by simpa using h
      refine ⟨s, none, ?_, hi, .nil⟩
      have := (hi.rel k).not_live (fun b e => hx b e)
      simp only [Spec.step]
  | drop k =>
    simp only [Prog.step] at h
    split at h
    · rename_i b hb
      obtain ⟨rfl, rfl⟩ : _ = p' ∧ none = r := by simpa using h
      have hr := hi.rel k
      rw [hb] at hr
      obtain ⟨a, ha, -⟩ := hr.some_some
      have hks : k < s.length := (List.getElem?_eq_some_iff.1 ha).1
      have hkp : k < p.bufs.length := (List.getElem?_eq_some_iff.1 hb).1
      refine ⟨_, _, rfl, ⟨?_, ?_, ?_⟩, .nil⟩
      · have := (hi.live.trans (blocks_set hb)).erase b.freed
        simpa using this
      · intro i j c d hne hc hd
        by_cases e1 : i = k
        · subst e1; simp [List.getElem?_set_self hkp] at hc
        by_cases e2 : j = k
        · subst e2; simp [List.getElem?_set_self hkp] at hd
        simp only [List.getElem?_set_ne (fun e => e1 e.symm : k ≠ i)] at hc
        simp only [List.getElem?_set_ne (fun e => e2 e.symm : k ≠ j)] at hd
        exact hi.apart i j c d hne hc hd
      · intro j
        show Rel ty _ (p.bufs.set k none)[j]? (s.set k none)[j]?
        by_cases e : j = k
        · subst e
          rw [List.getElem?_set_self hkp, List.getElem?_set_self hks]
          trivial
        · rw [List.getElem?_set_ne (fun x => e x.symm), List.getElem?_set_ne (fun x => e x.symm)]
          exact hi.rel j
    · rename_i hx
      obtain ⟨rfl, rfl⟩ : p = p' ∧ none = r := by simpa using h
      have hr := hi.rel k
      have hs : s.set k none = s := by
        cases hc : p.bufs[k]? with
        | none =>
          have := Rel.length hi.rel
          have := List.getElem?_eq_none_iff.1 hc
          exact List.set_eq_of_length_le (by omega)
        | some x =>
          cases x with
          | some b => exact absurd hc (hx b)
          | none =>
            rw [hc] at hr
            have : s[k]? = some none := by
              match hq : s[k]?, hr with
              | some none, _ => rfl
              | some (some _), hr => exact hr.elim
              | none, hr => exact hr.elim
            apply List.ext_getElem?
            intro j
            by_cases e : k = j
            · subst e
              rw [List.getElem?_set_self (List.getElem?_eq_some_iff.1 this).1, this]
            · rw [List.getElem?_set_ne e]
      exact ⟨s, none, by simp [Spec.step, hs], hi, .nil⟩

theorem pointwise_append {α β : Type} {R : α → β → Prop} {a b : List α} {c d : List β} (h : Pointwise R a c)
    (g : Pointwise R b d) : Pointwise R (a ++ b) (c ++ d) := by
  induction h with
  | nil => exact g
  | cons h _ ih => exact .cons h ih

theorem run_inv {ov : Overflow} {ty : Ty} {al : Allocator} (hal : Sound al) (ops : List Op) :
    ∀ {p q : Prog} {s : Arrays} {rs}, Inv ty p s → (∀ o ∈ ops, Sane ty o) → p.run ov ty al ops = .ok (q, rs) →
      ∃ s' rs', Spec.run s ops = some (s', rs') ∧ Inv ty q s' ∧ Pointwise Agrees rs' rs := by
  induction ops with
  | nil =>
    intro p q s rs hi _ h
    obtain ⟨rfl, rfl⟩ : p = q ∧ [] = rs := by simpa [Prog.run] using h
    exact ⟨s, [], rfl, hi, .nil⟩
  | cons o os ih =>
    intro p q s rs hi ho h
    simp only [Prog.run] at h
    obtain ⟨⟨p1, r⟩, h1, h⟩ := Rs.bind_eq_ok.1 h
    obtain ⟨⟨q1, rs1⟩, h2, h⟩ := Rs.bind_eq_ok.1 h
    obtain ⟨rfl, rfl⟩ : q1 = q ∧ r.toList ++ rs1 = rs := by simpa using h
    obtain ⟨s1, r', e1, i1, a1⟩ := step_inv hal hi (ho o (List.mem_cons_self ..)) h1
    obtain ⟨s2, rs', e2, i2, a2⟩ := ih i1 (fun o h => ho o (List.mem_cons_of_mem _ h)) h2
    exact ⟨s2, r'.toList ++ rs', by simp [Spec.run, e1, e2], i2, pointwise_append a1 a2⟩

theorem inv_init (ty : Ty) (mem) : Inv ty (Prog.init mem) [] :=
  ⟨.refl _, fun _ _ _ _ _ h => by simp [Prog.init] at h, fun k => by simp [Prog.init, Rel]⟩

end Verif.AlignedBuffer
