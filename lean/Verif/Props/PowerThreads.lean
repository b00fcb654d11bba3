import Verif.Proofs.PowerIdle
/-!
C114: the power of a robot fails, threads of which log.
-/
namespace Verif
namespace ULog
open Bincode

/-- Threads log (`before`), and log on (`after`).  Then, while one of them performs the action `op` and others encode
objects into their sections, the power fails; the kernel has written back any bytes of the maps on its own and what the
log asked to be flushed is on the disk, but the bytes that were not yet as in the maps can be anything.  Suppose that
every stream that was there after `before` has left its section since, that the slabs in use then are not in use any
more, but for the last of them, which may be the oldest one in use, and that no call of type `t` waited for the lock then.
Read the disk as a byte stream of type `t`, with any buffer sizes, until the reader stops delivering: it delivered
everything logged before, in order, and then perhaps more.  Missing: what is logged while a stream does not leave its
section, see `C114_idle_violated`, and what is in later slabs, see `C07_violated`. -/
theorem C114_stream_partial {page slabSize : Nat} (hz : SizesOk page slabSize) {t : EntryType} (ht : t ≠ .lastEntry)
    (ht' : t ≠ .empty) {before after : List ConcOp} {op : ConcOp} (hin : Interleaved [] (before ++ after))
    (hops : HistoryOk page slabSize [] (calls (before ++ after ++ [op])))
    {c1 c : ConcSys} {disk disk' files' : List Bytes} (h1 : runConc slabSize page before = .ok c1)
    (hwait : ∀ (i : Nat) (st : Stream), c1.sys.streams[i]? = some (some st) → st.entryType = t → c1.waiting i = none)
    (hu : UsedFirst t false [] (calls before))
    (h : PoweredThreads true page slabSize (before ++ after) c disk)
    (hnew : Renewed c1.sys c.sys) (hold : c1.sys.lg.files.length ≤ c.sys.lg.oldestMapped + 1)
    {others : List (Nat × List Bytes)}
    (hk : KilledTogether c.sys.lg.files (c.effects op :: others.map (fun b => c.effects (.begin_ b.1 b.2))) files')
    (hl : PowerFailed files' disk disk') {ns : List Nat} (hns : ∀ n ∈ ns, 0 < n)
    (hend : (drainLog disk' t ns).2 ≠ .more) :
    (objsOf t [] (calls before)).flatten <+: (drainLog disk' t ns).1 := by
  rcases power_stream hz ht ht' hin hops h1 hwait hu h hnew hold hk hl hns with h | h
  · exact h
  · exact absurd h hend

/-- The same for an exporter: what it gives begins with all the objects logged before. -/
theorem C114_export_partial {α : Type} [Codec α] {l : List α} (hr : ∀ a ∈ l, RoundTrips a)
    (hpos : ∀ a ∈ l, 0 < (enc a).length)
    {page slabSize : Nat} (hz : SizesOk page slabSize) {t : EntryType} (ht : t ≠ .lastEntry)
    (ht' : t ≠ .empty) {before after : List ConcOp} {op : ConcOp} (hin : Interleaved [] (before ++ after))
    (hops : HistoryOk page slabSize [] (calls (before ++ after ++ [op])))
    (hobj : objsOf t [] (calls before) = l.map enc)
    {c1 c : ConcSys} {disk disk' files' : List Bytes} (h1 : runConc slabSize page before = .ok c1)
    (hwait : ∀ (i : Nat) (st : Stream), c1.sys.streams[i]? = some (some st) → st.entryType = t → c1.waiting i = none)
    (hu : UsedFirst t false [] (calls before))
    (h : PoweredThreads true page slabSize (before ++ after) c disk)
    (hnew : Renewed c1.sys c.sys) (hold : c1.sys.lg.files.length ≤ c.sys.lg.oldestMapped + 1)
    {others : List (Nat × List Bytes)}
    (hk : KilledTogether c.sys.lg.files (c.effects op :: others.map (fun b => c.effects (.begin_ b.1 b.2))) files')
    (hl : PowerFailed files' disk disk') {ns : List Nat} (hns : ∀ n ∈ ns, 0 < n)
    (hend : (drainLog disk' t ns).2 ≠ .more) :
    l <+: dumpObjects (drainLog disk' t ns).1 := by
  obtain ⟨x, hx⟩ := C114_stream_partial hz ht ht' hin hops h1 hwait hu h hnew hold hk hl hns hend
  rw [← hx, hobj]
  have he : (l.map enc).flatten = encAll l := by
    clear hr hpos hobj
    induction l with
    | nil => rfl
    | cons a l ih => simp only [List.map_cons, List.flatten_cons, encAll, ih]
  rw [he]
  exact dump_front hr hpos x

/-- A disk on which each byte is as before the failure or as in the map satisfies the condition above. -/
theorem C114_lost_failed {files disk disk' : List Bytes} (h : PowerLost files disk disk') : PowerFailed files disk disk' :=
  powerLost_failed h

/-- As long as one stream stays in the first section of the log, nothing else is asked to be flushed, however much the
others log, close and reopen: after any such history the power can fail so that nothing at all is read from the disk,
although all that was flushed is there. -/
theorem C114_idle_violated {page slabSize : Nat} (hz : SizesOk page slabSize) {ops : List ConcOp} {c : ConcSys}
    (hin : Interleaved [] ops) (hops : HistoryOk page slabSize [] (calls ops))
    (h : runConc slabSize page ops = .ok c) {st : Stream}
    (hst : some st ∈ c.sys.streams) (hs0 : st.section_.slab = 0) (hs1 : st.section_.off = page) :
    ∃ disk disk', PoweredThreads true page slabSize ops c disk ∧ PowerLost c.sys.lg.files disk disk' ∧
      ∀ t ns, (drainLog disk' t ns).1 = [] :=
  idle_lost hz hin hops h hst hs0 hs1

/-! ### Demonstrations -/

/-- Whether these are the disks after the actions, the kernel writing nothing back on its own. -/
def disksAre : List (ConcOp × List Bytes) → ConcSys → List Bytes → Bool
  | [], _, _ => true
  | (op, next) :: l, c, disk =>
    match c.step op with
    | .panic => false
    | .ok c' => diskAfter true c.sys.lg c'.sys.lg disk == next && disksAre l c' next

theorem disksAre_powered {page slabSize : Nat} {l : List (ConcOp × List Bytes)} : ∀ {done : List ConcOp}
    {c : ConcSys} {disk : List Bytes}, PoweredThreads true page slabSize done c disk → disksAre l c disk = true →
    ∃ c', PoweredThreads true page slabSize (done ++ l.map Prod.fst) c' ((l.map Prod.snd).getLastD disk) := by
  induction l with
  | nil => intro done c disk hx _; exact ⟨c, by simpa using hx⟩
  | cons a l ih =>
    obtain ⟨op, next⟩ := a
    intro done c disk hx h
    unfold disksAre at h
    split at h
    · cases h
    · rename_i c' hs
      simp only [Bool.and_eq_true, beq_iff_eq] at h
      have hx' := PoweredThreads.act hx hs
      rw [h.1] at hx'
      obtain ⟨y, hy⟩ := ih hx' h.2
      refine ⟨y, ?_⟩
      simp only [List.map_cons, List.getLastD_cons]
      simpa using hy

/-- A log of pages of 16 bytes and slabs of 192 after these actions. -/
def powerLog (ops : List ConcOp) : ConcSys :=
  match runConc 192 16 ops with
  | .panic => ⟨⟨⟨0, 0, [], ⟨0, 0, [], 0⟩, []⟩, []⟩, fun _ => none⟩
  | .ok c => c

theorem powerLog_run {ops : List ConcOp} (h : (powerLog ops).sys.lg.files ≠ []) :
    runConc 192 16 ops = .ok (powerLog ops) := by
  unfold powerLog at h ⊢
  split at h
  · exact absurd rfl h
  · rename_i c hc
    exact hc

/-- A line of text and two copper lists. -/
def powerBefore : List ConcOp :=
  [.openStream .structuredLogLine 32, .openStream .copperList 48, .begin_ 0 [[1, 2], [3, 4]], .finish 0,
    .begin_ 1 [[10, 11, 12, 13, 14, 15, 16, 17, 18, 19]], .finish 1,
    .begin_ 1 [[20, 21, 22, 23, 24, 25, 26, 27, 28, 29]], .finish 1]

/-- A line and a list that do not fit any more. -/
def powerAfter : List ConcOp :=
  [.begin_ 0 [[5, 6, 7, 8, 5, 6, 7, 8, 5, 6, 7, 8, 5, 6]], .begin_ 1 [[30, 31, 32, 33, 34, 35, 36, 37, 38, 39, 40, 41, 42, 43]],
    .finish 1, .finish 0]

/-- The part that was flushed. -/
def flushedPart : Bytes :=
  [180, 165, 80, 255, 16, 16] ++ List.replicate 10 0 ++ [250, 87, 1, 32, 4] ++ List.replicate 10 0 ++ [1, 2, 3, 4] ++
    List.replicate 13 0 ++ [250, 87, 2, 48, 20] ++ List.replicate 10 0 ++
    [10, 11, 12, 13, 14, 15, 16, 17, 18, 19, 20, 21, 22, 23, 24, 25, 26, 27, 28, 29] ++ List.replicate 13 0

/-- The disk has rubbish where bytes were not written back yet. -/
def rubbish : List Bytes :=
  [flushedPart ++ List.replicate 4 7 ++ List.replicate 11 0 ++ List.replicate 14 7 ++ List.replicate 19 0 ++
    List.replicate 4 7 ++ List.replicate 11 0 ++ List.replicate 14 7 ++ List.replicate 19 0]

theorem powerFailed_of {files disk disk' : List Bytes}
    (h : (disk'.length == files.length && (List.range files.length).all fun k =>
      match files[k]?, disk'[k]? with
      | some f, some d' => d'.length == f.length && (List.range f.length).all fun i =>
          d'[i]? == f[i]? || f[i]? != some ((((disk[k]?).getD [])[i]?).getD 0)
      | _, _ => true) = true) : PowerFailed files disk disk' := by
  simp only [Bool.and_eq_true, beq_iff_eq, List.all_eq_true, List.mem_range] at h
  refine ⟨h.1, fun k f d' hf hd => ?_⟩
  have := h.2 k (List.getElem?_eq_some_iff.1 hf).1
  rw [hf, hd] at this
  simp only [Bool.and_eq_true, beq_iff_eq, List.all_eq_true, List.mem_range, Bool.or_eq_true, bne_iff_ne] at this
  refine ⟨this.1, fun i b hb he => ?_⟩
  rcases this.2 i (List.getElem?_eq_some_iff.1 hb).1 with h | h
  · rw [h, hb]
  · rw [he] at h; exact absurd hb h

theorem renewed_of {s s' : LogSys} (h : (s.streams.all fun o => s'.streams.all fun o' =>
      match o, o' with
      | some a, some b => !(b.section_.slab == a.section_.slab && b.section_.off == a.section_.off)
      | _, _ => true) = true) : Renewed s s' := by
  intro st st' h1 h2 ⟨e1, e2⟩
  have := List.all_eq_true.1 (List.all_eq_true.1 h _ h1) _ h2
  simp [e1, e2] at this

example : SizesOk 16 192 ∧ Interleaved [] (powerBefore ++ powerAfter) ∧
    HistoryOk 16 192 [] (calls (powerBefore ++ powerAfter ++ [.begin_ 0 [[9]]])) ∧
    UsedFirst .copperList false [] (calls powerBefore) ∧ UsedFirst .structuredLogLine false [] (calls powerBefore) := by
  refine ⟨⟨by decide, by decide, by decide⟩, by simp [powerBefore, powerAfter, Interleaved], ?_,
    by simp [powerBefore, calls, UsedFirst], by simp [powerBefore, calls, UsedFirst]⟩
  simp only [powerBefore, powerAfter, List.cons_append, List.nil_append, calls, HistoryOk]
  exact ⟨by decide, by decide, by simp, ⟨by decide, by decide, by decide⟩, by decide, by decide, by simp,
    ⟨by decide, by decide, by decide⟩, by simp, by simp, by simp, by simp, by simp, by simp, trivial⟩

theorem two_idle {α β : Type} {l : List (Option α)} {w : Nat → Option β} (h : l.length = 2) (h0 : (w 0).isNone = true)
    (h1 : (w 1).isNone = true) (i : Nat) (hi : l[i]?.join.isSome) : w i = none := by
  match i with
  | 0 => exact Option.isNone_iff_eq_none.1 h0
  | 1 => exact Option.isNone_iff_eq_none.1 h1
  | i + 2 => rw [List.getElem?_eq_none (by omega)] at hi; cases hi

theorem both_cut {files files' : List Bytes} {a b : List Effect} (ha : a = [.store 0 173 [9]])
    (hb : b = [.store 0 125 [50, 51]])
    (h : files' = (Effect.store 0 173 [9]).apply ((Effect.store 0 125 [50]).apply files)) :
    KilledTogether files [a, b] files' := by
  subst ha hb h
  exact .part (i := 1) rfl ⟨1, rfl⟩ (.next (i := 0) rfl .kill)

/-- The log when the power fails. -/
def powerEnd : ConcSys := powerLog (powerBefore ++ powerAfter)

/-- The disk then. -/
def powerDisk : List Bytes := [flushedPart ++ List.replicate 96 0]

/-- Both threads are encoding: one byte of two, and one byte of one, have arrived in the maps. -/
def powerMaps : List Bytes :=
  [flushedPart ++ [250, 87, 2, 48] ++ List.replicate 11 0 ++ [30, 31, 32, 33, 34, 35, 36, 37, 38, 39, 40, 41, 42, 43, 50] ++
    List.replicate 18 0 ++ [250, 87, 1, 32] ++ List.replicate 11 0 ++ [5, 6, 7, 8, 5, 6, 7, 8, 5, 6, 7, 8, 5, 6, 9] ++
    List.replicate 18 0]

/-- The disk is empty at first; the third action from the end, with which a first section is closed, has the main
header written, the last one the two closed sections. -/
theorem powerEnd_powered : PoweredThreads true 16 192 (powerBefore ++ powerAfter) powerEnd powerDisk := by
  obtain ⟨lg, hl⟩ : ∃ lg, Logger.new 192 16 = .ok lg := ⟨_, rfl⟩
  obtain ⟨c, hc⟩ := disksAre_powered
    (l := ((powerBefore ++ powerAfter).take 10).map (fun o => (o, [List.replicate 192 0])) ++
      [(.finish 1, [flushedPart.take 16 ++ List.replicate 176 0]), (.finish 0, powerDisk)]) (.new hl) (by
        cases hl
        decide +kernel)
  replace hc : PoweredThreads true 16 192 (powerBefore ++ powerAfter) c powerDisk := hc
  have h1 := powered_run hc
  have h2 : runConc 192 16 (powerBefore ++ powerAfter) = .ok powerEnd := powerLog_run (by decide +kernel)
  rw [h2] at h1
  rw [Rs.ok.inj h1]
  exact hc

example : runConc 192 16 powerBefore = .ok (powerLog powerBefore) := powerLog_run (by decide +kernel)

example (i : Nat) : (powerLog powerBefore).sys.streams[i]?.join.isSome → (powerLog powerBefore).waiting i = none :=
  two_idle (by decide +kernel) (by decide +kernel) (by decide +kernel) i

example : Renewed (powerLog powerBefore).sys powerEnd.sys := renewed_of (by decide +kernel)

example : (powerLog powerBefore).sys.lg.files.length ≤ powerEnd.sys.lg.oldestMapped + 1 := by decide +kernel

example : KilledTogether powerEnd.sys.lg.files
    (powerEnd.effects (.begin_ 0 [[9]]) :: [(1, [[50, 51]])].map (fun b => powerEnd.effects (.begin_ b.1 b.2)))
    powerMaps :=
  both_cut (by decide +kernel) (by decide +kernel) (by decide +kernel)

example : PowerFailed powerMaps powerDisk rubbish := by
  exact powerFailed_of (by decide +kernel)

/-- The disk is not the maps, and what is read from it is what was logged before. -/
example : rubbish ≠ powerMaps ∧
    (drainLog rubbish .copperList [5, 100, 100]).1 = (objsOf .copperList [] (calls powerBefore)).flatten ∧
    (drainLog rubbish .copperList [5, 100, 100]).2 = .failed := by
  decide +kernel

/-- Single bytes as objects. -/
example : (∀ a ∈ ([1, 2, 3, 4] : List UInt8), RoundTrips a ∧ 0 < (enc a).length) ∧
    objsOf .copperList [] (calls [.openStream .copperList 32, .begin_ 0 [[1]], .finish 0, .begin_ 0 [[2]], .finish 0]) =
      ([1, 2] : List UInt8).map enc :=
  ⟨fun _ _ => ⟨fun _ => rfl, Nat.one_pos⟩, rfl⟩

/-- A thread that says nothing after one line, and one that logs list after list. -/
def powerIdle : List ConcOp :=
  powerBefore ++ [.begin_ 1 [List.replicate 30 1], .finish 1, .begin_ 1 [List.replicate 30 2], .finish 1, .drop 1]

/-- All copper lists are in closed sections, the disk on which no byte but the first page arrived is possible. -/
example : Interleaved [] powerIdle ∧ HistoryOk 16 192 [] (calls powerIdle) ∧
    runConc 192 16 powerIdle = .ok (powerLog powerIdle) ∧
    ((powerLog powerIdle).sys.streams.map fun o => o.map fun st => (st.section_.slab, st.section_.off)) =
      [some (0, 16), none] ∧
    (objsOf .copperList [] (calls powerIdle)).map List.length = [10, 10, 30, 30] := by
  refine ⟨by simp [powerIdle, powerBefore, Interleaved], ?_, powerLog_run (by decide +kernel),
    by decide +kernel, by decide +kernel⟩
  simp only [powerIdle, powerBefore, List.cons_append, List.nil_append, calls, HistoryOk]
  exact ⟨by decide, by decide, by simp, ⟨by decide, by decide, by decide⟩, by decide, by decide, by simp,
    ⟨by decide, by decide, by decide⟩, by simp, by simp, by simp, by simp, by simp, trivial⟩

end ULog
end Verif
