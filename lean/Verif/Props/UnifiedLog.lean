import Verif.Proofs.UnifiedLogStreams
import Verif.Proofs.UnifiedLogUse
import Verif.Proofs.UnifiedLogEffects
/-!
Properties C01 to C07: the unified log.  The vocabulary (histories of operations, what has been
logged, what a reader gets) is in `Verif/Spec/UnifiedLog.lean`.
-/
namespace Verif
namespace ULog
open Bincode

/-! ### C01 Whatever is logged is what a reader gets back -/

/-- Any history of opening streams, logging on them in any interleaving and dropping them, at most
one stream of a type at a time, objects that fit in a section: nothing panics, and reading the
sections of a type gives the bytes logged with that type, in order. -/
theorem C01_round_trip {page slabSize : Nat} (hz : SizesOk page slabSize) {ops : List LogOp}
    (hops : HistoryOk page slabSize [] ops) :
    ∃ files, writeLog slabSize page ops = .ok files ∧
      ∀ t, ∃ sections, readLog files t = .ok sections ∧ sections.flatten = logged t [] ops := by
  obtain ⟨files, h1, h2⟩ := writeLog_spec hz hops
  refine ⟨files, h1, fun t => ?_⟩
  obtain ⟨sections, h3, h4, _⟩ := h2 t
  exact ⟨sections, h3, h4⟩

/-- Two streams, objects in pieces, sections that fill up, several slabs. -/
def demoHistory : List LogOp :=
  [.openStream .copperList 32, .openStream .structuredLogLine 16,
   .log 0 [[1, 2], [3, 4, 5, 6, 7, 8]], .log 1 [[9]], .log 0 [[10, 11, 12, 13], [14, 15, 16, 17, 18, 19]],
   .log 1 [[20]], .log 1 [[21]], .drop 1, .log 0 [[22, 23, 24]], .openStream .structuredLogLine 40,
   .log 2 [[25, 26, 27]], .log 0 [[28, 29, 30, 31, 32, 33, 34, 35, 36, 37, 38, 39, 40, 41, 42, 43, 44]]]

instance (page slabSize n : Nat) : Decidable (SizeOk page slabSize n) :=
  decidable_of_iff (15 ≤ n ∧ align page n ≤ slabSize ∧ align page n < 4294967296)
    ⟨fun ⟨a, b, c⟩ => ⟨a, b, c⟩, fun ⟨a, b, c⟩ => ⟨a, b, c⟩⟩

example : SizesOk 16 96 := ⟨by decide, by decide, by decide⟩

example : HistoryOk 16 96 [] demoHistory := by
  simp only [demoHistory, HistoryOk]
  refine ⟨by decide, by decide, by simp, by decide, by decide, by decide, by simp, by decide, ?_⟩
  refine ⟨by simp, by simp, by simp, by simp, by simp, by simp, ?_⟩
  refine ⟨by decide, by decide, by simp, by decide, ?_⟩
  refine ⟨by simp, by simp, trivial⟩

/-- What the two readers get from that history, written in four slabs. -/
example : ∃ files, writeLog 96 16 demoHistory = .ok files ∧ files.length = 4 ∧
    readLog files .copperList = .ok
      [[1, 2, 3, 4, 5, 6, 7, 8], [10, 11, 12, 13, 14, 15, 16, 17, 18, 19, 22, 23, 24],
       [28, 29, 30, 31, 32, 33, 34, 35, 36, 37, 38, 39, 40, 41, 42, 43, 44]] ∧
    readLog files .structuredLogLine = .ok [[9], [20], [21], [25, 26, 27]] := by
  refine ⟨(match writeLog 96 16 demoHistory with | .ok f => f | .panic => []), ?_⟩
  decide +kernel

/-! ### C02 Sections never overlap -/

/-- In every reachable state, two sections handed out in the same slab are disjoint, each section
lies in its slab and holds its buffer, and the sections of the first slab are behind the file
header. -/
theorem C02_sections_disjoint {page slabSize : Nat} (hp : 13 < page) (hs : 10 ≤ slabSize)
    {s : SecSys} (h : Reachable page slabSize s) :
    (∀ (i j : Nat) a b, s.issued[i]? = some a → s.issued[j]? = some b → i ≠ j →
      a.h.slab = b.h.slab → a.h.last ≤ b.h.off ∨ b.h.last ≤ a.h.off) ∧
    (∀ a ∈ s.issued, a.h.last ≤ slabSize ∧ a.h.off + a.h.req ≤ a.h.last ∧ maxHeader ≤ a.h.req ∧
      (a.h.slab = 0 → ∀ m : MainHeader, (enc m).length ≤ a.h.off)) := by
  obtain ⟨lay, hi⟩ := reachable_inv hp hs h
  refine ⟨?_, ?_⟩
  · intro i j a b ha hb hij hab
    rcases Nat.lt_or_gt_of_ne hij with h | h
    · exact .inl ((issued_disjoint hi ha hb h).2 hab)
    · exact .inr ((issued_disjoint hi hb ha h).2 hab.symm)
  · intro a ha
    obtain ⟨h1, h2, h3⟩ := hi.bound a ha
    have h4 := align_le (page := page) (by omega) a.h.req
    refine ⟨by unfold Handle.last; omega, by unfold Handle.last; omega, h3, ?_⟩
    intro h0 m
    have := (issued_first hi ha).2 h0
    have := enc_mainHeader_le m
    omega

/-- Requests, writes and closings that leave open and closed sections in three slabs. -/
def demoSections : List SecOp :=
  [.add .copperList 32, .write 0 [[1, 2, 3]], .add .structuredLogLine 20, .close 0, .write 1 [[4]],
   .add .copperList 17, .write 2 [[5], [6]], .close 2, .add .copperList 64, .write 3 [[7]], .close 3,
   .add .structuredLogLine 16]

/-- Running operations that can be satisfied stays within the reachable states. -/
theorem reachable_steps {page slabSize : Nat} {ops : List SecOp} {s s' : SecSys}
    (h : Reachable page slabSize s) (hops : ∀ op ∈ ops, SecOpOk page slabSize op)
    (hs : s.steps ops = .ok s') : Reachable page slabSize s' := by
  induction ops generalizing s with
  | nil => obtain rfl := Rs.ok.inj hs; exact h
  | cons op ops ih =>
    unfold SecSys.steps at hs
    split at hs
    · exact absurd hs (by simp)
    · rename_i s1 h1
      exact ih (.step h (hops op (by simp)) h1) (fun o ho => hops o (by simp [ho])) hs

/-- The state after these operations on a new log. -/
def runSections (page slabSize : Nat) (ops : List SecOp) : Rs SecSys :=
  match Logger.new slabSize page with
  | .panic => .panic
  | .ok lg => SecSys.steps ⟨lg, []⟩ ops

theorem runSections_reachable {page slabSize : Nat} {ops : List SecOp} {s : SecSys}
    (hops : ∀ op ∈ ops, SecOpOk page slabSize op) (h : runSections page slabSize ops = .ok s) :
    Reachable page slabSize s := by
  unfold runSections at h
  split at h
  · exact absurd h (by simp)
  · rename_i lg hl
    exact reachable_steps (.new hl) hops h

def demoState : SecSys :=
  match runSections 16 96 demoSections with
  | .ok s => s
  | .panic => ⟨⟨0, 0, [], ⟨0, 0, [], 0⟩, []⟩, []⟩

theorem demoState_run : runSections 16 96 demoSections = .ok demoState := by decide +kernel

instance (page slabSize : Nat) (op : SecOp) : Decidable (SecOpOk page slabSize op) := by
  cases op <;> simp only [SecOpOk] <;> infer_instance

theorem demoState_reachable : Reachable 16 96 demoState :=
  runSections_reachable (by decide) demoState_run

example : demoState.issued.map (fun e => (e.h.slab, e.h.off, e.h.last, e.isOpen)) =
    [(0, 16, 48, false), (0, 48, 80, true), (1, 0, 32, false), (1, 32, 96, false),
     (2, 0, 16, true)] := by decide +kernel

/-! ### C03 The flushed prefix -/

/-- In every reachable state the flushed prefix of a mapped slab stops before its open sections
and within what is allocated, and everything handed out is allocated.  A step never shrinks it.
Closing a section flushes up to the first section still open, or everything allocated. -/
theorem C03_flushed_prefix {page slabSize : Nat} (hp : 13 < page) (hs : 10 ≤ slabSize)
    {s : SecSys} (h : Reachable page slabSize s) :
    (∀ sl ∈ s.lg.mapped, sl.flushed ≤ sl.cgp ∧
      ∀ a ∈ s.issued, a.h.slab = sl.suffix →
        a.h.off + a.h.req ≤ sl.cgp ∧ (a.isOpen = true → sl.flushed ≤ a.h.off)) ∧
    (∀ op, SecOpOk page slabSize op → ∃ s', s.step op = .ok s' ∧
      (∀ sl' ∈ s'.lg.mapped, ∀ sl ∈ s.lg.mapped, sl.suffix = sl'.suffix → sl.flushed ≤ sl'.flushed) ∧
      (∀ i e, op = .close i → s.issued[i]? = some e → e.isOpen = true →
        ∃ sl' ∈ s'.lg.mapped, sl'.suffix = e.h.slab ∧
          (¬ s'.hasOpen e.h.slab → sl'.flushed = sl'.cgp) ∧
          (s'.hasOpen e.h.slab → ∃ a ∈ s'.issued, a.isOpen = true ∧ a.h.slab = e.h.slab ∧
            sl'.flushed = a.h.off ∧
            ∀ b ∈ s'.issued, b.isOpen = true → b.h.slab = e.h.slab → a.h.off ≤ b.h.off))) := by
  obtain ⟨lay, hi⟩ := reachable_inv hp hs h
  refine ⟨?_, ?_⟩
  · intro sl hsl
    obtain ⟨file, secs, hf, hl⟩ := hi.inv.slab_at hsl
    have hok := hi.inv.live sl hsl file secs hf hl
    refine ⟨hok.flushed_cgp, fun a ha has => ⟨issued_allocated (by omega) hi hsl ha has, ?_⟩⟩
    intro hop
    exact hok.flushed_open _ ((inFlight_iff hi hsl a.h.off).2 ⟨a, ha, hop, has, rfl⟩)
  · intro op hop
    obtain ⟨s', lay', h1, hi', h2, h3⟩ := step_inv hp hi hop
    refine ⟨s', h1, ?_, ?_⟩
    · intro sl' hsl' sl hsl e
      rcases h2 sl' hsl' with ⟨sl2, hm, e2, hle⟩ | hnew
      · have : sl = sl2 := hi.inv.live_inj hsl hm (by rw [e, e2])
        subst this; exact hle
      · have h4 := hi.inv.suffix_lt hsl
        have h5 := hi.inv.front_suffix
        omega
    · intro i e hci hei heo
      obtain ⟨sl', hsl', hsuf, hfl⟩ := h3 i hci e hei heo
      refine ⟨sl', hsl', hsuf, ?_, ?_⟩
      · intro hno
        have : sl'.inFlight = [] := by
          cases hx : sl'.inFlight with
          | nil => rfl
          | cons o l =>
            exfalso
            obtain ⟨a, ha, hao, has, _⟩ := (inFlight_iff hi' hsl' o).1 (by rw [hx]; simp)
            exact hno ⟨a, ha, hao, by rw [has, hsuf]⟩
        rw [hfl, this]; rfl
      · rintro ⟨a, ha, hao, has⟩
        have hmem := (inFlight_iff hi' hsl' a.h.off).2 ⟨a, ha, hao, by rw [has, hsuf], rfl⟩
        obtain ⟨file, secs, hf, hl⟩ := hi'.inv.slab_at hsl'
        have hok := hi'.inv.live sl' hsl' file secs hf hl
        have hsrt := openOffs_sorted hi'.inv.page_pos (hi'.inv.secs _ _ _ hf hl)
        rw [← hok.inFlight] at hsrt
        cases hx : sl'.inFlight with
        | nil => rw [hx] at hmem; exact absurd hmem (by simp)
        | cons o l =>
          obtain ⟨b, hb, hbo, hbs, hbe⟩ := (inFlight_iff hi' hsl' o).1 (by rw [hx]; simp)
          refine ⟨b, hb, hbo, by rw [hbs, hsuf], by rw [hfl, hx, hbe]; rfl, ?_⟩
          intro c hc hco hcs
          have hcm := (inFlight_iff hi' hsl' c.h.off).2 ⟨c, hc, hco, by rw [hcs, hsuf], rfl⟩
          rw [hx] at hcm hsrt
          rw [List.pairwise_cons] at hsrt
          rw [hbe]
          rcases List.mem_cons.1 hcm with h | h
          · omega
          · exact Nat.le_of_lt (hsrt.1 _ h)

/-- In the demonstration state: slab 0 is flushed up to its open section, slab 1 entirely. -/
example : demoState.lg.mapped.map (fun sl => (sl.suffix, sl.flushed, sl.cgp)) =
    [(0, 48, 80), (1, 96, 96), (2, 0, 16)] := by decide +kernel

/-! ### C04 Collection of the slabs -/

/-- In every reachable state: a collection succeeds; the slab of an open section is mapped before
and after; after it, every slab other than the current one has an open section; a slab it closes has
its file cut to what was allocated; and closing any open section succeeds. -/
theorem C04_collection {page slabSize : Nat} (hp : 13 < page) (hs : 10 ≤ slabSize)
    {s : SecSys} (h : Reachable page slabSize s) :
    (∃ lg', s.lg.gc = .ok lg' ∧ lg'.front = s.lg.front ∧
      (∀ e ∈ s.issued, e.isOpen = true → (∃ sl ∈ s.lg.mapped, sl.suffix = e.h.slab) ∧
        ∃ sl ∈ lg'.mapped, sl.suffix = e.h.slab) ∧
      (∀ sl ∈ lg'.back, s.hasOpen sl.suffix) ∧
      (∀ sl ∈ s.lg.back, ¬ s.hasOpen sl.suffix →
        ∃ file, lg'.files[sl.suffix]? = some file ∧ file.length = sl.cgp)) ∧
    (∀ (i : Nat) e, s.issued[i]? = some e → e.isOpen = true →
      ∃ s', s.step (.close i) = .ok s' ∧ s'.issued[i]? = some { e with isOpen := false }) := by
  obtain ⟨lay, hi⟩ := reachable_inv hp hs h
  refine ⟨?_, ?_⟩
  · obtain ⟨files', h1, hinv', h2⟩ := inv_gc hi.inv
    refine ⟨_, h1, rfl, ?_, ?_, ?_⟩
    · intro e he ho
      obtain ⟨i, hei⟩ := List.getElem?_of_mem he
      exact ⟨hi.inv.owner_live (own_open hei ho), hinv'.owner_live (own_open hei ho)⟩
    · intro sl hsl
      have hm := List.mem_filter.1 (show sl ∈ s.lg.back.filter (fun s => !s.inFlight.isEmpty) from hsl)
      cases hx : sl.inFlight with
      | nil => rw [hx] at hm; simp at hm
      | cons o l =>
        obtain ⟨a, ha, hao, has, _⟩ := (inFlight_iff hi (sl := sl)
          (by unfold Logger.live; exact List.mem_append_left _ hm.1) o).1 (by rw [hx]; simp)
        exact ⟨a, ha, hao, has⟩
    · intro sl hsl hno
      have hlive : sl ∈ s.lg.live := by unfold Logger.live; exact List.mem_append_left _ hsl
      have hemp : sl.inFlight = [] := by
        cases hx : sl.inFlight with
        | nil => rfl
        | cons o l =>
          exfalso
          obtain ⟨a, ha, hao, has, _⟩ := (inFlight_iff hi hlive o).1 (by rw [hx]; simp)
          exact hno ⟨a, ha, hao, has⟩
      obtain ⟨file, secs, hf, hl⟩ := hi.inv.slab_at hlive
      refine ⟨setLen file sl.cgp, ?_, ?_⟩
      · show files'[sl.suffix]? = _
        rw [h2 sl hsl hemp, hf]; rfl
      · unfold setLen
        simp only [List.length_append, List.length_take, List.length_replicate]
        omega
  · intro i e hei ho
    obtain ⟨sl, sl', file', _, _, h1, _⟩ := inv_flushSection hi.inv (own_open hei ho)
    obtain ⟨hlt, _⟩ := List.getElem?_eq_some_iff.1 hei
    obtain ⟨eh, eo, ed⟩ := e
    simp only at ho; subst ho
    refine ⟨⟨s.lg.replace eh.slab sl' file', s.issued.set i ⟨eh, false, ed⟩⟩, ?_, ?_⟩
    · simp only [SecSys.step, hei, h1]
    · simp [hlt]

/-- In the demonstration state slab 1 is full of closed sections, slab 0 has an open one: a
collection closes slab 1 only. -/
example : ∃ lg', demoState.lg.gc = .ok lg' ∧ demoState.lg.back.map Slab.suffix = [0, 1] ∧
    lg'.back.map Slab.suffix = [0] := by
  refine ⟨(match demoState.lg.gc with | .ok l => l | .panic => demoState.lg), ?_⟩
  decide +kernel

/-! ### C05 Reading as a byte stream -/

/-- When the sections of a type can be read and the empty ones come last, reading them as a byte stream, with
buffers of any non zero sizes, delivers a prefix of their concatenation, each time at most the size
of the buffer; a read that delivers nothing means everything was delivered, and so does a number of
reads larger than the number of bytes. -/
theorem C05_stream_partial {files : List Bytes} {t : EntryType} {r : Reader} {sections : List Bytes}
    (hr : Reader.new files = .ok r) (hl : readLog files t = .ok sections)
    (hne : EmptyLast sections) {ns : List Nat} (hn : ∀ n ∈ ns, 0 < n) :
    ∃ ds, (IOReader.new r).reads files t ns = .ok ds ∧ ds.flatten <+: sections.flatten ∧
      Pointwise (fun d n => d.length ≤ n) ds ns ∧
      ([] ∈ ds → ds.flatten = sections.flatten) ∧
      (sections.flatten.length < ns.length → ds.flatten = sections.flatten) := by
  unfold readLog at hl
  rw [hr] at hl
  have hleft : Left files t (IOReader.new r) sections.flatten :=
    ⟨_, sections, hl, hne, rfl⟩
  obtain ⟨ds, h1, h2, h3, h4⟩ := reads_left hleft hn
  refine ⟨ds, h1, h2, h4, h3, ?_⟩
  intro hlt
  by_cases hm : [] ∈ ds
  · exact h3 hm
  · exfalso
    have hlen : ds.length = ns.length := pointwise_length h4
    have hsum : ∀ l : List Bytes, [] ∉ l → l.length ≤ l.flatten.length := by
      intro l
      induction l with
      | nil => simp
      | cons a l ih =>
        intro h
        simp only [List.mem_cons, not_or] at h
        have := ih h.2
        have := List.length_pos_iff.2 (Ne.symm h.1)
        simp only [List.flatten_cons, List.length_append, List.length_cons]
        omega
    have h5 := hsum ds hm
    have h6 := h2.length_le
    omega

/-- In terms of what applications do: if no stream of a type is dropped before the end of the log,
reading the log as a byte stream of that type, with any non zero buffer sizes, delivers exactly what
was logged. -/
theorem C05_history_partial {page slabSize : Nat} (hz : SizesOk page slabSize) {ops : List LogOp}
    (hops : HistoryOk page slabSize [] ops) {t : EntryType} (hnd : NeverDropped t [] ops)
    {ns : List Nat} (hn : ∀ n ∈ ns, 0 < n) :
    ∃ files r ds, writeLog slabSize page ops = .ok files ∧ Reader.new files = .ok r ∧
      (IOReader.new r).reads files t ns = .ok ds ∧ ds.flatten <+: logged t [] ops ∧
      ([] ∈ ds → ds.flatten = logged t [] ops) ∧
      ((logged t [] ops).length < ns.length → ds.flatten = logged t [] ops) := by
  obtain ⟨files, h1, h2⟩ := writeLog_spec hz hops
  obtain ⟨secs, h3, h4, h5⟩ := h2 t
  cases hr : Reader.new files with
  | ok r =>
    obtain ⟨ds, h6, h7, _, h8, h9⟩ := C05_stream_partial hr h3 (h5.1 hnd).emptyLast hn
    rw [h4] at h7 h8 h9
    exact ⟨files, r, ds, h1, hr, h6, h7, h8, h9⟩
  | err => simp [readLog, hr] at h3
  | panic => simp [readLog, hr] at h3
  | diverges => simp [readLog, hr] at h3

/-- Streams may be dropped and opened again, if something was logged on each before the next one was opened. -/
theorem C05_reopened_partial {page slabSize : Nat} (hz : SizesOk page slabSize) {ops : List LogOp}
    (hops : HistoryOk page slabSize [] ops) {t : EntryType} (hu : UsedFirst t false [] ops)
    {ns : List Nat} (hn : ∀ n ∈ ns, 0 < n) :
    ∃ files r ds, writeLog slabSize page ops = .ok files ∧ Reader.new files = .ok r ∧
      (IOReader.new r).reads files t ns = .ok ds ∧ ds.flatten <+: logged t [] ops ∧
      ([] ∈ ds → ds.flatten = logged t [] ops) ∧
      ((logged t [] ops).length < ns.length → ds.flatten = logged t [] ops) := by
  obtain ⟨files, h1, h2⟩ := writeLog_spec hz hops
  obtain ⟨secs, h3, h4, _, h5⟩ := h2 t
  cases hr : Reader.new files with
  | ok r =>
    obtain ⟨ds, h6, h7, _, h8, h9⟩ := C05_stream_partial hr h3 (h5 hu) hn
    rw [h4] at h7 h8 h9
    exact ⟨files, r, ds, h1, hr, h6, h7, h8, h9⟩
  | err => simp [readLog, hr] at h3
  | panic => simp [readLog, hr] at h3
  | diverges => simp [readLog, hr] at h3

example : UsedFirst .structuredLogLine false [] demoHistory ∧ ¬ NeverDropped .structuredLogLine [] demoHistory := by
  refine ⟨?_, ?_⟩ <;> simp [demoHistory, UsedFirst, NeverDropped, logged]

example : NeverDropped .copperList [] demoHistory := by
  simp [demoHistory, NeverDropped]

/-- The files of the history above. -/
def demoFiles : List Bytes := match writeLog 96 16 demoHistory with | .ok f => f | .panic => []

example : ∃ r sections, Reader.new demoFiles = .ok r ∧
    readLog demoFiles .copperList = .ok sections ∧ EmptyLast sections ∧
    (IOReader.new r).reads demoFiles .copperList [3, 7, 100, 2, 100, 1] =
      .ok [[1, 2, 3], [4, 5, 6, 7, 8], [10, 11, 12, 13, 14, 15, 16, 17, 18, 19, 22, 23, 24], [28, 29],
        [30, 31, 32, 33, 34, 35, 36, 37, 38, 39, 40, 41, 42, 43, 44], []] := by
  refine ⟨⟨0, 16⟩, [[1, 2, 3, 4, 5, 6, 7, 8], [10, 11, 12, 13, 14, 15, 16, 17, 18, 19, 22, 23, 24],
    [28, 29, 30, 31, 32, 33, 34, 35, 36, 37, 38, 39, 40, 41, 42, 43, 44]], by decide +kernel,
    by decide +kernel, by simp [EmptyLast], by decide +kernel⟩

/-- A stream that is opened and dropped without logging leaves an empty section, and reading as a
byte stream takes it for the end: what is logged afterwards is not delivered. -/
def emptyHistory : List LogOp :=
  [.openStream .copperList 32, .drop 0, .openStream .copperList 32, .log 1 [[1, 2, 3]]]

theorem C05_violated : ∃ files r, writeLog 96 16 emptyHistory = .ok files ∧
    HistoryOk 16 96 [] emptyHistory ∧ Reader.new files = .ok r ∧
    logged .copperList [] emptyHistory = [1, 2, 3] ∧
    readLog files .copperList = .ok [[], [1, 2, 3]] ∧
    (IOReader.new r).reads files .copperList [8] = .ok [[]] := by
  refine ⟨(match writeLog 96 16 emptyHistory with | .ok f => f | .panic => []), ⟨0, 16⟩,
    by decide +kernel, ?_, by decide +kernel, by decide +kernel, by decide +kernel, by decide +kernel⟩
  simp only [emptyHistory, HistoryOk]
  exact ⟨by decide, by decide, by simp, by decide, by decide, by decide, by simp, by decide, by simp,
    trivial⟩

/-! ### C06 Headers -/

/-- Section headers and the file header are read back as written, whatever follows, and fit in the
space reserved for them. -/
theorem C06_headers (h : SectionHeader) (m : MainHeader) (rest : Bytes) :
    (dec : Dec SectionHeader) (enc h ++ rest) = .ok (h, rest) ∧ (enc h).length ≤ maxHeader ∧
    (dec : Dec MainHeader) (enc m ++ rest) = .ok (m, rest) ∧ (enc m).length ≤ 10 := by
  have := enc_header_le h
  exact ⟨rt_header h rest, by unfold maxHeader; omega, rt_mainHeader m rest, enc_mainHeader_le m⟩

/-- The bound on section headers leaves two bytes unused; the largest one. -/
example : (enc (mkHeader .lastEntry 0xFFFFFFFF 0xFFFFFFFF)).length = 13 := by decide

/-! ### C07 Crash of the process -/

/-- The process stops in a reachable state, between two operations: the files have the content they
had.  A reader gets the sections up to any section of the oldest slab still mapped or of an earlier
slab, the closed ones with their content, the open ones empty.  Missing: sections of later slabs, see
`C07_violated`; crashes in the middle of an operation are in `C07_crash_torn_partial`. -/
theorem C07_crash_partial {page slabSize : Nat} (hp : 13 < page) (hpx : page < 65536)
    (hs : 10 ≤ slabSize) {s : SecSys} (h : Reachable page slabSize s)
    {n : Nat} {e : Issued} (hn : s.issued[n]? = some e) (hslab : e.h.slab ≤ s.lg.oldestMapped)
    (htypes : ∀ x ∈ s.issued.take (n + 1), x.h.header.entryType ≠ .lastEntry)
    {t : EntryType} (ht : t ≠ .lastEntry) (ht' : t ≠ .empty) :
    ∃ r, Reader.new s.lg.files = .ok r ∧
      readSome s.lg.files t (visibleOf t (s.issued.take (n + 1))).length r =
        .ok (visibleOf t (s.issued.take (n + 1))) := by
  obtain ⟨lay, hi⟩ := reachable_inv hp hs h
  have hh := holds_crash hi.inv hi.nonempty (by rw [hi.pageEq]; exact hpx)
  obtain ⟨hold, _⟩ := oldest_le hi.inv
  have hlt := take_index hi hn hslab hold
  obtain ⟨r, hr, hat⟩ := reader_new hh
  have hfuel := holds_fuel hh
  have hpre := take_flatten_prefix (lay := lay) (s.lg.oldestMapped + 1)
  rw [hi.flat] at hpre
  have hlen := hlt
  generalize (lay.take (s.lg.oldestMapped + 1)).flatten = F at *
  -- the first sections of the readable part
  have htake : F.take (n + 1) = (s.issued.take (n + 1)).mapIdx secOf := by
    rw [mapIdx_take, ← hpre, List.take_append_of_le_length (by omega)]
  have hsplit : F = (s.issued.take (n + 1)).mapIdx secOf ++ F.drop (n + 1) := by
    rw [← htake, List.take_append_drop]
  rw [hsplit] at hat
  have hspec := readSome_spec hh ht (L := (s.issued.take (n + 1)).mapIdx secOf)
    (B := F.drop (n + 1)) (by
      intro x hx
      obtain ⟨i, hi'⟩ := List.getElem?_of_mem hx
      rw [List.getElem?_mapIdx] at hi'
      obtain ⟨y, hy, rfl⟩ := Option.map_eq_some_iff.1 hi'
      exact htypes y (List.mem_of_getElem? hy)) hat (by
      rw [List.length_mapIdx, List.length_take]; omega)
  rw [visible_eq ht'] at hspec
  have hcount : (((s.issued.take (n + 1)).mapIdx secOf).filter (·.et == t)).length =
      (visibleOf t (s.issued.take (n + 1))).length := by
    rw [← visible_eq ht', List.length_map]
  rw [hcount] at hspec
  exact ⟨r, hr, hspec⟩

/-- The second section of the demonstration state is in the oldest mapped slab. -/
example : ∃ e, demoState.issued[1]? = some e ∧ e.h.slab ≤ demoState.lg.oldestMapped ∧
    (∀ x ∈ demoState.issued.take 2, x.h.header.entryType ≠ .lastEntry) ∧
    visibleOf .copperList (demoState.issued.take 2) = [[1, 2, 3]] ∧
    visibleOf .structuredLogLine (demoState.issued.take 2) = [[]] := by
  refine ⟨(demoState.issued[1]?).getD ⟨⟨0, 0, 0, mkHeader .empty 0 0, 0⟩, false, []⟩, ?_⟩
  decide +kernel

/-- The effects considered below are those of the operation: if they all happen, the files are those
of the state after the operation. -/
theorem C07_effects {page slabSize : Nat} (hp : 13 < page) (hs : 10 ≤ slabSize) {s s' : SecSys}
    (h : Reachable page slabSize s) {op : SecOp} (hop : SecOpOk page slabSize op)
    (hstep : s.step op = .ok s') : (opEffects s op).foldl Effect.apply s.lg.files = s'.lg.files := by
  obtain ⟨lay, hi⟩ := reachable_inv hp hs h
  exact step_effects hi hop hstep

/-- The process stops anywhere in the middle of an operation, even with only some of the bytes of a
store in the map.  A reader still gets every section up to any section of the oldest slab mapped or
of an earlier slab: the sections closed before the operation with all their data, the open ones with
a part of the data written to them, none or all of it included.  Missing: sections of later slabs,
see `C07_violated`. -/
theorem C07_crash_torn_partial {page slabSize : Nat} (hp : 13 < page) (hpx : page < 65536)
    (hs : 10 ≤ slabSize) {s : SecSys} (h : Reachable page slabSize s)
    {op : SecOp} (hop : SecOpOk page slabSize op) {files' : List Bytes}
    (hc : CrashDuring s.lg.files (opEffects s op) files')
    {n : Nat} {e : Issued} (hn : s.issued[n]? = some e) (hslab : e.h.slab ≤ s.lg.oldestMapped)
    (htypes : ∀ x ∈ s.issued.take (n + 1), x.h.header.entryType ≠ .lastEntry)
    {t : EntryType} (ht : t ≠ .lastEntry) (ht' : t ≠ .empty) :
    ∃ r ds, Reader.new files' = .ok r ∧ readSome files' t ds.length r = .ok ds ∧
      Pointwise Issued.left ((s.issued.take (n + 1)).filter (·.h.header.entryType == t)) ds := by
  obtain ⟨lay, hi⟩ := reachable_inv hp hs h
  exact crash_read hp hpx hi hop hc hn hslab htypes ht ht'

/-- A section with 300 bytes being closed: the crash leaves the marker of a two byte length and one
of its bytes, the reader gets the first 44 bytes. -/
def tornSections : List SecOp :=
  [.add .copperList 330, .write 0 [List.replicate 300 7]]

def tornState : SecSys :=
  match runSections 16 512 tornSections with
  | .ok s => s
  | .panic => ⟨⟨0, 0, [], ⟨0, 0, [], 0⟩, []⟩, []⟩

/-- The header has 6 bytes before the length, that the old file has as 0. -/
def tornFile : Bytes :=
  writeAt ((tornState.lg.files[0]?).getD []) 22 [251, 44]

def listBounded (a b c : Bytes) : Bool :=
  (List.range a.length).all fun i => c[i]? == a[i]? || c[i]? == b[i]?

theorem tornBytes_of {a b c : Bytes} (h1 : c.length = a.length) (h2 : listBounded a b c = true) :
    TornBytes a b c := by
  refine ⟨h1, fun i => ?_⟩
  by_cases hi : i < a.length
  · have := List.all_eq_true.1 h2 i (List.mem_range.2 hi)
    simpa using this
  · left
    rw [List.getElem?_eq_none (by omega), List.getElem?_eq_none (by omega)]

example : Reachable 16 512 tornState ∧ SecOpOk 16 512 (.close 0) ∧
    CrashDuring tornState.lg.files (opEffects tornState (.close 0)) [tornFile] ∧
    (∃ e, tornState.issued[0]? = some e ∧ e.data.length = 300 ∧
      e.h.slab ≤ tornState.lg.oldestMapped) ∧
    readSome [tornFile] .copperList 1 ⟨0, 16⟩ = .ok [List.replicate 44 7] := by
  refine ⟨runSections_reachable (ops := tornSections) (by decide) (by decide +kernel), trivial, ?_, ?_, by decide +kernel⟩
  · have he : opEffects tornState (.close 0) =
      [.store 0 16 (enc (mkHeader .copperList 336 300))] := by decide +kernel
    rw [he]
    have hm : [tornFile] = tornState.lg.files.modify 0 (fun _ => tornFile) := by decide +kernel
    have h1 : tornFile.length = ((tornState.lg.files[0]?).getD []).length := by decide +kernel
    have h2 : listBounded ((tornState.lg.files[0]?).getD []) (writeAt ((tornState.lg.files[0]?).getD [])
      16 (enc (mkHeader .copperList 336 300))) tornFile = true := by decide +kernel
    have ht := tornBytes_of h1 h2
    generalize tornFile = tf at *
    generalize tornState.lg.files = files at *
    refine .torn ⟨tf, hm, fun f hf => ?_⟩
    rw [hf] at ht
    exact ht
  · refine ⟨(tornState.issued[0]?).getD ⟨⟨0, 0, 0, mkHeader .empty 0 0, 0⟩, false, []⟩, ?_⟩
    decide +kernel

/-- The process stops while a section of the first slab is open: a section of the second slab,
written and closed long ago, cannot be read, since the end of the first slab was never cut. -/
theorem C07_violated : Reachable 16 96 demoState ∧
    (∃ e ∈ demoState.issued, e.isOpen = false ∧ e.h.header.entryType = .copperList ∧ e.data = [5, 6]) ∧
    Reader.new demoState.lg.files = .ok ⟨0, 16⟩ ∧
    readSome demoState.lg.files .copperList 1 ⟨0, 16⟩ = .ok [[1, 2, 3]] ∧
    readSome demoState.lg.files .copperList 2 ⟨0, 16⟩ = .err := by
  refine ⟨demoState_reachable, ?_, ?_⟩
  · refine ⟨(demoState.issued[2]?).getD ⟨⟨0, 0, 0, mkHeader .empty 0 0, 0⟩, false, []⟩, ?_⟩
    decide +kernel
  · decide +kernel

end ULog
end Verif
