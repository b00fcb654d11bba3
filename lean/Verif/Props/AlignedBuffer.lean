import Verif.Proofs.AlignedBuffer
/-!
C77: an aligned buffer is an array of its own.
-/
namespace Verif.AlignedBuffer
open Spec

/-- Buffers are arrays: for every program and every allocator, what is read from an element is what was last
written to that element of that buffer, an index out of bounds does not get through, and every buffer that is not
dropped owns exactly its block: at the end the blocks in use are those of the buffers left.
Missing: sizes the machine cannot count (see `C77_overflow_violated`) and buffers without bytes (`C77_zero_violated`). -/
theorem C77_arrays_partial (ov : Overflow) (ty : Ty) (al : Allocator) (hal : Sound al) (mem : Nat → UInt8)
    (ops : List Op) (hops : ∀ o ∈ ops, Sane ty o) (q : Prog) (reads : List (List UInt8))
    (h : (Prog.init mem).run ov ty al ops = .ok (q, reads)) :
    ∃ arrays expected, Spec.run [] ops = some (arrays, expected) ∧ Pointwise Agrees expected reads ∧
      q.w.live.Perm ((q.bufs.filterMap id).map fun b => (b.ptr, b.size * ty.size)) := by
  obtain ⟨s, rs, h1, hi, h2⟩ := run_inv hal ops (inv_init ty mem) hops h
  refine ⟨s, rs, h1, h2, ?_⟩
  have : blocks q.bufs = (q.bufs.filterMap id).map fun b => (b.ptr, b.size * ty.size) := by
    unfold blocks
    apply List.map_congr_left
    intro b hb
    obtain ⟨x, hx, hxb⟩ := List.mem_filterMap.1 hb
    obtain ⟨k, hk⟩ := List.getElem?_of_mem hx
    have hxb' : x = some b := hxb
    subst hxb'
    have hr := hi.rel k
    rw [hk] at hr
    obtain ⟨a, -, -, hsz, -⟩ := hr.some_some
    simp [Buf.freed, hsz]
  rw [← this]
  exact hi.live

/-- Every element of a buffer, at every moment of every program, lies inside the block of that buffer, which the
allocator gave out and which is still in use, and its address suits the type if the alignment asked for does. -/
theorem C77_inside_partial (ov : Overflow) (ty : Ty) (al : Allocator) (hal : Sound al) (mem : Nat → UInt8)
    (ops : List Op) (hops : ∀ o ∈ ops, Sane ty o) (q : Prog) (reads : List (List UInt8))
    (h : (Prog.init mem).run ov ty al ops = .ok (q, reads)) (k : Nat) (b : Buf) (hb : q.bufs[k]? = some (some b))
    (i : Nat) (hi : i < b.size) :
    (∃ n, (b.ptr, n) ∈ q.w.live ∧ b.ptr + i * ty.size + ty.size ≤ b.ptr + n) ∧
      (ty.align ∣ ty.size → ty.align ∣ b.layout.align → ty.align ∣ b.ptr + i * ty.size) := by
  obtain ⟨s, rs, -, inv, -⟩ := run_inv hal ops (inv_init ty mem) hops h
  have hr := inv.rel k
  rw [hb] at hr
  obtain ⟨a, -, -, hsz, -, hdiv, -⟩ := hr.some_some
  refine ⟨⟨b.layout.size, inv.live.mem_iff.2 (mem_blocks hb), ?_⟩, ?_⟩
  · have := elem_inside _ _ ty.size hi
    omega
  · intro h1 h2
    exact Nat.dvd_add (Nat.dvd_trans h2 hdiv) (Nat.dvd_trans h1 (Nat.dvd_mul_left ..))

/-- Two buffers of a program never share a byte. -/
theorem C77_apart_partial (ov : Overflow) (ty : Ty) (al : Allocator) (hal : Sound al) (mem : Nat → UInt8)
    (ops : List Op) (hops : ∀ o ∈ ops, Sane ty o) (q : Prog) (reads : List (List UInt8))
    (h : (Prog.init mem).run ov ty al ops = .ok (q, reads)) (j k : Nat) (hjk : j ≠ k) (b c : Buf)
    (hb : q.bufs[j]? = some (some b)) (hc : q.bufs[k]? = some (some c)) :
    b.ptr + b.size * ty.size ≤ c.ptr ∨ c.ptr + c.size * ty.size ≤ b.ptr := by
  obtain ⟨s, rs, -, inv, -⟩ := run_inv hal ops (inv_init ty mem) hops h
  have hr := inv.rel j
  rw [hb] at hr
  obtain ⟨-, -, -, h1, -⟩ := hr.some_some
  have hr := inv.rel k
  rw [hc] at hr
  obtain ⟨-, -, -, h2, -⟩ := hr.some_some
  have := inv.apart j k b c hjk hb hc
  unfold Apart at this
  omega

/-- Creating a buffer succeeds exactly if the alignment is a power of two, the bytes, rounded up, are less than
half of the address space, and there is memory; otherwise it panics. -/
theorem C77_new (ov : Overflow) (ty : Ty) (n align : Nat) (answer : Layout → Option Nat) (h : n * ty.size < 2 ^ 64)
    (b : Buf) :
    Buf.new ov ty n align answer = .ok b ↔
      (∃ k, align = 2 ^ k) ∧ n * ty.size + (align - 1) < 2 ^ 63 ∧
        answer ⟨n * ty.size, align⟩ = some b.ptr ∧ b = ⟨b.ptr, n, n * ty.size, align⟩ := by
  unfold Buf.new
  rw [mulUsize_small ov h, Rs.ok_bind]
  unfold Layout.fromSizeAlign
  by_cases h1 : isPow2 align = true
  · by_cases h2 : n * ty.size + (align - 1) < 2 ^ 63
    · simp only [h1, h2, decide_true, Bool.and_self, if_true, Rs.ofOption_some, Rs.ok_bind, true_and, (isPow2_iff _).1 h1]
      cases answer ⟨n * ty.size, align⟩ with
      | none => simp
      | some q =>
        simp only [Rs.ofOption_some, Rs.ok_bind, Rs.pure_eq, Rs.ok.injEq, Option.some.injEq]
        constructor
        · rintro rfl; exact ⟨rfl, rfl⟩
        · rintro ⟨rfl, hb⟩; exact hb.symm
    · simp [h2]
  · have : ¬ ∃ k, align = 2 ^ k := fun e => h1 ((isPow2_iff _).2 e)
    simp [h1, this]

example := (C77_new .wrapping ⟨2, 2⟩ 3 4 (fun _ => some 64) (by decide) ⟨64, 3, 6, 4⟩).2
  ⟨⟨2, rfl⟩, by decide, rfl, rfl⟩

/-- With overflow checks a buffer whose bytes cannot be counted is refused. -/
theorem C77_checked (ty : Ty) (n align : Nat) (answer : Layout → Option Nat) (h : 2 ^ 64 ≤ n * ty.size) :
    Buf.new .checked ty n align answer = .panic := by
  unfold Buf.new mulUsize
  rw [if_neg (by omega)]
  rfl

example := C77_checked ⟨2, 2⟩ (2 ^ 63) 4 (fun _ => some 64) (by decide)

/-! ### A case -/

/-- An allocator that puts each block behind all the others. -/
def bump : Allocator := fun _ live L =>
  if L.align = 0 then none else some (L.align * ((live.map fun b => b.1 + b.2).foldr max 0 + 1))

theorem le_foldr_max (l : List Nat) (x : Nat) (h : x ∈ l) : x ≤ l.foldr max 0 := by
  induction l with
  | nil => cases h
  | cons a l ih =>
    rcases List.mem_cons.1 h with rfl | h
    · exact Nat.le_max_left ..
    · exact Nat.le_trans (ih h) (Nat.le_max_right ..)

theorem bump_sound : Sound bump := by
  intro k live L a _ ha
  unfold bump at ha
  split at ha
  · cases ha
  rename_i hz
  simp only [Option.some.injEq] at ha
  subst ha
  refine ⟨Nat.dvd_mul_right .., fun b hb => .inr ?_⟩
  have h1 := le_foldr_max _ _ (List.mem_map_of_mem (f := fun b : Nat × Nat => b.1 + b.2) hb)
  generalize (live.map fun b => b.1 + b.2).foldr max 0 = m at h1
  exact Nat.le_trans h1 (Nat.le_trans (Nat.le_succ m) (Nat.le_mul_of_pos_left _ (by omega)))

def u16 : Ty := ⟨2, 2⟩
def someOps : List Op :=
  [.create 3 4, .create 2 2, .write 0 2 [7, 7], .write 1 0 [9, 9], .read 0 2, .read 1 0, .drop 0, .read 1 0]

example : (∀ o ∈ someOps, Sane u16 o) ∧
    ((Prog.init fun _ => 0).run .wrapping u16 bump someOps).map' Prod.snd = .ok [[7, 7], [9, 9], [9, 9]] ∧
    ((Prog.init fun _ => 0).run .wrapping u16 bump someOps).map' (fun r => r.1.w.live) = .ok [(22, 4)] := by
  refine ⟨?_, by decide, by decide⟩
  intro o ho
  simp only [someOps, List.mem_cons, List.not_mem_nil, or_false] at ho
  rcases ho with rfl | rfl | rfl | rfl | rfl | rfl | rfl | rfl <;> simp [Sane, u16]

/-- Two buffers at a time. -/
example : ((Prog.init fun _ => 0).run .wrapping u16 bump (someOps.take 6)).map' (fun r => r.1.bufs) =
    .ok [some ⟨4, 3, 6, 4⟩, some ⟨22, 2, 4, 2⟩] := by decide

/-! ### Negations -/

def tooLarge : List Op :=
  [.create (2 ^ 63 + 1) 2, .create 1 2, .write 1 0 [7, 7], .write 0 1 [9, 9], .read 1 0]

/-- An allocator that wastes no memory, for alignments one and two. -/
def tight : Allocator := fun k _ L => if L.size = 2 ∧ L.align = 2 ∧ k < 2 then some (2 + 2 * k) else none

/-- Negation: without overflow checks the number of bytes wraps: a buffer of 2⁶³+1 elements of two bytes owns two
bytes, and writing to its second element changes another buffer. -/
theorem C77_overflow_violated :
    ((Prog.init fun _ => 0).run .wrapping u16 tight tooLarge).map' (fun r => (r.1.w.live, r.2)) =
      .ok ([(4, 2), (2, 2)], [[9, 9]]) := by
  decide +kernel

/-- Negation: the alignment asked for may be less than what the elements need: for eight-byte integers aligned to
eight, alignment one is accepted, and an address that is right for the allocator is wrong for the elements. -/
theorem C77_alignment_violated (ov : Overflow) :
    ∃ al b, Sound al ∧ Buf.new ov ⟨8, 8⟩ 4 1 (al 0 []) = .ok b ∧ ¬ 8 ∣ b.ptr :=
  ⟨bump, ⟨1, 4, 32, 1⟩, bump_sound, by cases ov <;> decide, by decide⟩

/-- Negation: a buffer of no elements asks the allocator for a block of zero bytes, which allocators do not
allow, for every alignment. -/
theorem C77_zero_violated (ov : Overflow) (ty : Ty) (k : Nat) (hk : k < 63) (answer : Layout → Option Nat) (a : Nat)
    (ha : answer ⟨0, 2 ^ k⟩ = some a) : Buf.new ov ty 0 (2 ^ k) answer = .ok ⟨a, 0, 0, 2 ^ k⟩ := by
  refine (C77_new ov ty 0 (2 ^ k) answer (by simp) _).2 ⟨⟨k, rfl⟩, ?_, by simpa using ha, by simp⟩
  have : 2 ^ k < 2 ^ 63 := Nat.pow_lt_pow_right (by decide) hk
  omega

end Verif.AlignedBuffer
