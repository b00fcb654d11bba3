import Verif.Proofs.PowerCut
/-!
C83: what a power failure leaves of a log.
-/
namespace Verif
namespace ULog
open Bincode

/-- The power fails at any moment, in the middle of an operation or not, the kernel having written back any
bytes of the maps on its own.  If what the program asked to be flushed is on the disk, then a reader of the
disk gets every section up to any one such that neither it nor any before it was still open, with exactly the
data written to each.  Missing: sections of slabs after the oldest one mapped, see `C07_violated`, and
sections closed after one that is still open, see `C83_order_violated`. -/
theorem C83_power_partial {page slabSize : Nat} (hp : 13 < page) (hpx : page < 65536) (hpz : page ≤ slabSize)
    {s : SecSys} {disk : List Bytes} (h : Powered true page slabSize s disk)
    {op : SecOp} {files' disk' : List Bytes} (hc : CrashDuring s.lg.files (opEffects s op) files')
    (hl : PowerLost files' disk disk')
    {n : Nat} {e : Issued} (hn : s.issued[n]? = some e) (hslab : e.h.slab ≤ s.lg.oldestMapped)
    (hclosed : ∀ x ∈ s.issued.take (n + 1), x.isOpen = false)
    (htypes : ∀ x ∈ s.issued.take (n + 1), x.h.header.entryType ≠ .lastEntry)
    {t : EntryType} (ht : t ≠ .lastEntry) (ht' : t ≠ .empty) :
    ∃ r, Reader.new disk' = .ok r ∧
      readSome disk' t ((s.issued.take (n + 1)).filter (·.h.header.entryType == t)).length r =
        .ok (((s.issued.take (n + 1)).filter (·.h.header.entryType == t)).map (·.data)) := by
  have hr := powered_reachable h
  obtain ⟨lay, hi⟩ := reachable_inv hp (by omega) hr
  have hk := lost_kept hp hpz hi (powered_disk hp hpz h) op hc hl
  obtain ⟨lay', hh, hflat⟩ := holds_disk hp hpx hi hk hn hslab (prefix_flushed hp (by omega) hr hn hclosed)
  obtain ⟨r, hnew, hat⟩ := reader_new hh
  have hfuel := holds_fuel hh
  rw [hflat] at hat hfuel
  rw [← List.append_nil ((s.issued.take (n + 1)).mapIdx secOf)] at hat
  have hspec := readSome_spec hh ht (L := (s.issued.take (n + 1)).mapIdx secOf) (B := []) (by
      intro x hx
      obtain ⟨i, hi'⟩ := List.getElem?_of_mem hx
      rw [List.getElem?_mapIdx] at hi'
      obtain ⟨y, hy, rfl⟩ := Option.map_eq_some_iff.1 hi'
      exact htypes y (List.mem_of_getElem? hy)) hat hfuel
  rw [visible_eq ht'] at hspec
  have hcount : (((s.issued.take (n + 1)).mapIdx secOf).filter (·.et == t)).length =
      ((s.issued.take (n + 1)).filter (·.h.header.entryType == t)).length := by
    have := congrArg List.length (visible_eq (l := s.issued.take (n + 1)) ht')
    simpa [visibleOf] using this
  have hdata : visibleOf t (s.issued.take (n + 1)) =
      ((s.issued.take (n + 1)).filter (·.h.header.entryType == t)).map (·.data) := by
    refine List.map_congr_left (fun x hx => ?_)
    rw [Issued.visible, hclosed x (List.mem_filter.1 hx).1]; rfl
  rw [hcount, hdata] at hspec
  exact ⟨r, hnew, hspec⟩

/-! ### Demonstrations -/

/-- Operations on a log, the kernel writing nothing back on its own. -/
def runDisk (durable : Bool) : List SecOp → SecSys × List Bytes → Rs (SecSys × List Bytes)
  | [], x => .ok x
  | op :: ops, x =>
    match x.1.step op with
    | .panic => .panic
    | .ok s' => runDisk durable ops (s', diskAfter durable x.1.lg s'.lg x.2)

theorem runDisk_powered {durable : Bool} {page slabSize : Nat} {ops : List SecOp} {x y : SecSys × List Bytes}
    (hx : Powered durable page slabSize x.1 x.2) (hops : ∀ op ∈ ops, SecOpOk page slabSize op)
    (h : runDisk durable ops x = .ok y) : Powered durable page slabSize y.1 y.2 := by
  induction ops generalizing x with
  | nil => obtain rfl := Rs.ok.inj h; exact hx
  | cons op ops ih =>
    unfold runDisk at h
    split at h
    · cases h
    · rename_i s' hs
      exact ih (.step hx (hops op (by simp)) hs) (fun o ho => hops o (List.mem_cons_of_mem _ ho)) h

/-- A log of pages of 16 bytes and slabs of 128, and its disk, after these operations. -/
def diskRun (durable : Bool) (ops : List SecOp) : SecSys × List Bytes :=
  match Logger.new 128 16 with
  | .panic => (⟨⟨0, 0, [], ⟨0, 0, [], 0⟩, []⟩, []⟩, [])
  | .ok lg =>
    match runDisk durable ops (⟨lg, []⟩, [List.replicate 128 0]) with
    | .panic => (⟨lg, []⟩, [List.replicate 128 0])
    | .ok y => y

theorem diskRun_powered {durable : Bool} {ops : List SecOp} (hops : ∀ op ∈ ops, SecOpOk 16 128 op) :
    Powered durable 16 128 (diskRun durable ops).1 (diskRun durable ops).2 := by
  unfold diskRun
  split
  · rename_i h
    exact absurd h (by decide +kernel)
  · rename_i lg hl
    split
    · exact .new hl
    · rename_i y hy
      exact runDisk_powered (x := (⟨lg, []⟩, _)) (.new hl) hops hy

/-- All bytes of the disk are as they were, or as in the maps. -/
def lostB (files disk disk' : List Bytes) : Bool :=
  disk'.length == files.length && (List.range files.length).all fun k =>
    match files[k]?, disk'[k]? with
    | some f, some d' => d'.length == f.length && (List.range f.length).all fun i =>
        d'[i]? == f[i]? || d'[i]? == some ((((disk[k]?).getD [])[i]?).getD 0)
    | _, _ => true

theorem powerLost_of {files disk disk' : List Bytes} (h : lostB files disk disk' = true) :
    PowerLost files disk disk' := by
  simp only [lostB, Bool.and_eq_true, beq_iff_eq, List.all_eq_true, List.mem_range] at h
  refine ⟨h.1, fun k f d' hf hd => ?_⟩
  have := h.2 k (List.getElem?_eq_some_iff.1 hf).1
  rw [hf, hd] at this
  simp only [Bool.and_eq_true, beq_iff_eq, List.all_eq_true, List.mem_range, Bool.or_eq_true] at this
  exact this

/-- Two closed sections and an open one. -/
def closedFirst : List SecOp :=
  [.add .copperList 32, .write 0 [[1, 2, 3]], .close 0, .add .structuredLogLine 20, .write 1 [[4]], .close 1,
   .add .copperList 32, .write 2 [[5, 6]]]

/-- The power fails with nothing written back but what was flushed: the third section, open, is not on the
disk, the two others are. -/
example : Powered true 16 128 (diskRun true closedFirst).1 (diskRun true closedFirst).2 ∧
    CrashDuring (diskRun true closedFirst).1.lg.files (opEffects (diskRun true closedFirst).1 (.close 7))
      (diskRun true closedFirst).1.lg.files ∧
    PowerLost (diskRun true closedFirst).1.lg.files (diskRun true closedFirst).2 (diskRun true closedFirst).2 ∧
    (∃ e, (diskRun true closedFirst).1.issued[1]? = some e ∧ e.h.slab ≤ (diskRun true closedFirst).1.lg.oldestMapped ∧
      (∀ x ∈ (diskRun true closedFirst).1.issued.take 2, x.isOpen = false)) ∧
    (diskRun true closedFirst).2 ≠ (diskRun true closedFirst).1.lg.files ∧
    readSome (diskRun true closedFirst).2 .structuredLogLine 1 ⟨0, 16⟩ = .ok [[4]] ∧
    readSome (diskRun true closedFirst).2 .copperList 1 ⟨0, 16⟩ = .ok [[1, 2, 3]] := by
  refine ⟨diskRun_powered (by decide), ?_, powerLost_of (by decide +kernel), ?_, by decide +kernel,
    by decide +kernel, by decide +kernel⟩
  · have : opEffects (diskRun true closedFirst).1 (.close 7) = [] := by decide +kernel
    rw [this]; exact .done
  · refine ⟨((diskRun true closedFirst).1.issued[1]?).getD ⟨⟨0, 0, 0, mkHeader .empty 0 0, 0⟩, false, []⟩, ?_⟩
    decide +kernel

/-- A section closed while an earlier one is open. -/
def closedSecond : List SecOp :=
  [.add .structuredLogLine 32, .add .copperList 32, .write 1 [[1, 2, 3]], .close 1]

/-- The disk on which the headers arrived and the data of the closed section did not. -/
def headersOnly : List Bytes :=
  (diskRun true closedSecond).1.lg.files.map fun f => writeAt f 63 [0, 0, 0]

/-- A section is closed while an earlier section of the slab is still open: nothing of it is flushed.  After
a power failure, a reader can get data from it that was never logged. -/
theorem C83_order_violated : ∃ s disk disk', Powered true 16 128 s disk ∧ PowerLost s.lg.files disk disk' ∧
    (∃ e, s.issued[1]? = some e ∧ e.isOpen = false ∧ e.h.header.entryType = .copperList ∧ e.data = [1, 2, 3]) ∧
    Reader.new disk' = .ok ⟨0, 16⟩ ∧ readSome disk' .copperList 1 ⟨0, 16⟩ = .ok [[0, 0, 0]] := by
  refine ⟨(diskRun true closedSecond).1, (diskRun true closedSecond).2, headersOnly, diskRun_powered (by decide),
    powerLost_of (by decide +kernel), ?_, by decide +kernel, by decide +kernel⟩
  refine ⟨((diskRun true closedSecond).1.issued[1]?).getD ⟨⟨0, 0, 0, mkHeader .empty 0 0, 0⟩, false, []⟩, ?_⟩
  decide +kernel

/-- Sections are flushed with `flush_async_range`, that does not wait for the disk.  If what it asks for has
not been done when the power fails, a log of closed sections cannot even be opened. -/
theorem C83_async_violated : ∃ s disk disk', Powered false 16 128 s disk ∧ PowerLost s.lg.files disk disk' ∧
    s.issued.map (fun e => (e.isOpen, e.data)) = [(false, [1, 2, 3]), (false, [4])] ∧ Reader.new disk' = .err := by
  refine ⟨(diskRun false (closedFirst.take 6)).1, (diskRun false (closedFirst.take 6)).2,
    (diskRun false (closedFirst.take 6)).2, diskRun_powered (by decide), powerLost_of (by decide +kernel),
    by decide +kernel, by decide +kernel⟩

end ULog
end Verif
