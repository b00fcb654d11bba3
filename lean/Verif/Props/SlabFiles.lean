import Verif.Proofs.SlabFiles
import Verif.Proofs.UnifiedLogStreams
import Verif.Props.UnifiedLog
/-!
Property C76: the files of a log.
-/
namespace Verif
namespace ULog
open Bincode

/-! ### C76 The files of a log -/

/-- The slabs of a log have different names, and those of logs whose base names both have an
extension (a dot) are different if the base names are; so are those of two base names without. -/
theorem C76_names {b b' : Name} {i j : Nat} (h : slabName b i = slabName b' j) :
    i = j ∧ (('.' ∈ b ↔ '.' ∈ b') → b = b') := by
  obtain ⟨h1, h2, h3⟩ := slabName_inj h
  refine ⟨h3, fun hd => ?_⟩
  by_cases hb : '.' ∈ b
  · rw [(parts b).1 hb, (parts b').1 (hd.1 hb), h1, h2]
  · have hb' := fun hh => hb (hd.2 hh)
    rw [← ((parts b).2 hb).2, ← ((parts b').2 hb').2, h2]

/-- As documented: "something/toto.copper" is stored in "toto_0.copper", "toto_1.copper", …  The name
in front of the last dot is kept as it is. -/
theorem C76_documented (stem ext : Name) (hext : '.' ∉ ext) (i : Nat) :
    slabName (stem ++ '.' :: ext) i = stem ++ "_".toList ++ Nat.toDigits 10 i ++ ".".toList ++ ext := by
  have hp := (parts (stem ++ '.' :: ext)).1 (by simp)
  obtain ⟨h1, h2⟩ := split_mid hext (ext_no_dot _) hp
  rw [slabName_eq, ← h1, ← h2]
  simp

example : slabName "a.toto.copper".toList 12 = "a.toto_12.copper".toList := by decide

/-- A base name without extension shares its files with another one. -/
theorem C76_names_violated (n : Name) (h : '.' ∉ n) (i : Nat) :
    n ≠ '.' :: n ∧ slabName n i = slabName ('.' :: n) i := by
  refine ⟨fun he => ?_, ?_⟩
  · exact h (by rw [he]; simp)
  · have h1 := (parts n).2 h
    obtain ⟨h2, h3⟩ := split_mid (a := []) h (ext_no_dot ('.' :: n)) ((parts ('.' :: n)).1 (by simp))
    rw [slabName_eq, slabName_eq, h1.1, h1.2, ← h2, ← h3]

example : slabName "log".toList 0 = "_0.log".toList ∧ slabName ".log".toList 0 = "_0.log".toList := by
  decide

/-- A reader sees the files with the names of its log, up to the first that is missing. -/
theorem C76_found (d : Dir) (base : Name) (k : Nat) (b : Bytes) :
    (d.slabs base)[k]? = some b ↔
      (∀ j, j < k → (d.get (slabName base j)).isSome) ∧ d.get (slabName base k) = some b :=
  slabs_get d base k b

/-- A log that was closed reads back as in `C01_round_trip` whatever the directory held before, also
slabs of a longer log with the same name. -/
theorem C76_closed {page slabSize : Nat} (hz : SizesOk page slabSize) {ops : List LogOp}
    (hops : HistoryOk page slabSize [] ops) (d : Dir) (base : Name) :
    ∃ files, writeLog slabSize page ops = .ok files ∧
      ∀ t, ∃ sections, readLog ((d.putSlabs base 0 files).slabs base) t = .ok sections ∧
        sections.flatten = logged t [] ops := by
  obtain ⟨files, h1, h2⟩ := C01_round_trip hz hops
  refine ⟨files, h1, fun t => ?_⟩
  obtain ⟨sections, h3, h4⟩ := h2 t
  obtain ⟨old, h5, _⟩ := slabs_after d base files
  exact ⟨sections, by rw [h5]; exact readLog_more h3 old, h4⟩

/-- Writing a log changes no file of the directory other than its slabs; a log with another name (both
with an extension, or both without) reads as before. -/
theorem C76_others (d : Dir) (base : Name) (files : List Bytes) :
    (∀ n, (∀ i, n ≠ slabName base i) → (d.putSlabs base 0 files).get n = d.get n) ∧
    ∀ base', base' ≠ base → ('.' ∈ base' ↔ '.' ∈ base) →
      (d.putSlabs base 0 files).slabs base' = d.slabs base' := by
  refine ⟨fun n h => get_other d base n files h, fun base' hne hd => ?_⟩
  apply slabs_congr
  intro k
  apply get_other
  intro i he
  exact hne ((C76_names he).2 hd)

/-- The process stops while writing, in any reachable state in which the current slab has room left
for the header of a next section: whatever files were there before, a reader delivers only sections of
this run, in order.  Missing: a current slab that is exactly full, see `C76_crash_violated`. -/
theorem C76_crash_partial {page slabSize : Nat} (hz : SizesOk page slabSize) {s : SecSys}
    (h : Reachable page slabSize s) (htypes : ∀ x ∈ s.issued, x.h.header.entryType ≠ .lastEntry)
    {t : EntryType} (ht : t ≠ .lastEntry) (ht' : t ≠ .empty)
    (hroom : align page s.lg.front.cgp < slabSize) (d : Dir) (base : Name) :
    ∃ r, Reader.new ((d.putSlabs base 0 s.lg.files).slabs base) = .ok r ∧
      ∀ n ds, readSome ((d.putSlabs base 0 s.lg.files).slabs base) t n r = .ok ds →
        ds <+: visibleOf t s.issued := by
  obtain ⟨old, h5, _⟩ := slabs_after d base s.lg.files
  rw [h5]
  exact crash_old hz h htypes ht ht' hroom old

/-- If no slab with the next number is left from an earlier run, a reader sees exactly the slabs of
this one, complete or not, and the properties of a log in a new directory hold. -/
theorem C76_crash_clean (files : List Bytes) (d : Dir) (base : Name)
    (hd : d.get (slabName base files.length) = none) :
    (d.putSlabs base 0 files).slabs base = files := by
  obtain ⟨old, h5, h6, _⟩ := slabs_after d base files
  rw [h5, h6 hd, List.append_nil]

/-- An earlier run: three sections in three slabs, closed. -/
def earlierRun : List LogOp :=
  [.openStream .copperList 80, .log 0 [List.replicate 40 1], .log 0 [List.replicate 40 2],
   .log 0 [List.replicate 40 3]]

def earlierDir : Dir := match writeLog 96 16 earlierRun with
  | .ok files => Dir.putSlabs [] "robot.copper".toList 0 files
  | .panic => []

/-- A later run with the same name stops when its first section has been closed. -/
def laterRun : List SecOp := [.add .copperList 80, .write 0 [List.replicate 40 9], .close 0]

def laterState : SecSys :=
  match runSections 16 96 laterRun with
  | .ok s => s
  | .panic => ⟨⟨0, 0, [], ⟨0, 0, [], 0⟩, []⟩, []⟩

theorem laterState_reachable : Reachable 16 96 laterState := by
  exact runSections_reachable (ops := laterRun) (by decide) (by decide +kernel)

/-- A run is killed when its slab is exactly full; the next slab of an earlier run with the same name
is still there: the reader goes on with the data of the earlier run and finds its end, so that the log
looks complete. -/
theorem C76_crash_violated : Reachable 16 96 laterState ∧
    visibleOf .copperList laterState.issued = [List.replicate 40 9] ∧
    readLog ((earlierDir.putSlabs "robot.copper".toList 0 laterState.lg.files).slabs "robot.copper".toList)
      .copperList = .ok [List.replicate 40 9, List.replicate 40 2, List.replicate 40 3] :=
  ⟨laterState_reachable, by decide +kernel, by decide +kernel⟩

/-- `build`: a writer only if both `write` and `create` were asked for, and then a base name and a size
are needed; in the other cases, also when only one of the two was asked for, the log is opened for
reading, and a missing file or base name is an error. -/
theorem C76_build (page : Nat) (d : Dir) (b : Builder) :
    (∀ lg d', b.build page d = .ok (.writer lg d') ↔
      b.write = true ∧ b.create = true ∧ ∃ base size, b.base = some (some base) ∧ b.size = some size ∧
        Logger.new size page = .ok lg ∧ d' = d.putSlabs base 0 lg.files) ∧
    (b.write = true → b.create = true → (b.base = none ∨ b.size = none) → b.build page d = .panic) ∧
    (∀ r, b.build page d = .ok (.reader r) ↔
      (b.write = false ∨ b.create = false) ∧ ∃ base, b.base = some (some base) ∧
        Reader.new (d.slabs base) = .ok r) ∧
    ((b.write = false ∨ b.create = false) → (∀ base, b.base = some (some base) → d.get (slabName base 0) = none) →
      b.base ≠ some none → b.build page d = .ok .error) := by
  obtain ⟨base, size, w, c⟩ := b
  refine ⟨?_, ?_, ?_, ?_⟩
  · intro lg d'
    simp only [Builder.build]
    constructor
    · intro h
      split at h
      · rename_i hwc
        simp only [Bool.and_eq_true] at hwc
        split at h
        · rename_i base' size' hb hs
          split at h
          · rename_i lg' hl
            simp only [Rs.ok.injEq, Built.writer.injEq] at h
            obtain ⟨rfl, rfl⟩ := h
            exact ⟨hwc.1, hwc.2, _, _, rfl, rfl, hl, rfl⟩
          · cases h
        · cases h
      · split at h <;> try (cases h; done)
        split at h <;> cases h
    · rintro ⟨rfl, rfl, base', size', rfl, rfl, hl, rfl⟩
      simp [hl]
  · rintro rfl rfl h
    simp only [Builder.build] at h ⊢
    rcases h with rfl | rfl
    · rfl
    · rcases base with _ | _ | base <;> rfl
  · intro r
    simp only [Builder.build]
    constructor
    · intro h
      split at h
      · split at h <;> try (cases h; done)
        split at h <;> cases h
      · rename_i hwc
        split at h <;> try (cases h; done)
        rename_i hb
        split at h <;> try (cases h; done)
        rename_i r' hr
        simp only [Rs.ok.injEq, Built.reader.injEq] at h
        subst h
        refine ⟨?_, _, rfl, hr⟩
        cases w <;> cases c <;> simp_all
    · rintro ⟨hwc, base', rfl, hr⟩
      rw [if_neg (by cases w <;> cases c <;> simp_all)]
      simp [hr]
  · intro hwc hmiss hsome
    simp only [Builder.build] at hmiss hsome ⊢
    rw [if_neg (by cases w <;> cases c <;> simp_all)]
    rcases base with _ | _ | base
    · rfl
    · exact absurd rfl hsome
    · have h0 := hmiss base rfl
      have hnone : (d.slabs base)[0]? = none := by
        cases h : (d.slabs base)[0]? with
        | none => rfl
        | some b =>
          have := ((slabs_get d base 0 b).1 h).2
          rw [h0] at this; cases this
      simp [Reader.new, openSlab, hnone]

/-- A new builder has nothing set: it opens no log, and whatever names and sizes it is given, it writes nothing
unless both `write` and `create` are asked for. -/
theorem C76_default (page : Nat) (d : Dir) (base : Option (Option Name)) (size : Option Nat) (w : Bool) (lg : Logger)
    (d' : Dir) : Builder.new.build page d = .ok .error ∧
    { Builder.new with base := base, size := size, write := w }.build page d ≠ .ok (.writer lg d') ∧
    { Builder.new with base := base, size := size, create := w }.build page d ≠ .ok (.writer lg d') := by
  refine ⟨rfl, fun h => ?_, fun h => ?_⟩
  · have := ((C76_build page d _).1 lg d').1 h
    simp [Builder.new] at this
  · have := ((C76_build page d _).1 lg d').1 h
    simp [Builder.new] at this

/-- Asking to write an existing log, without creating it: a reader. -/
example : (Builder.mk (some (some "robot.copper".toList)) (some 96) true false).build 16 earlierDir =
    .ok (.reader ⟨0, 16⟩) := by decide +kernel

/-- With both, the first slab of the earlier log is overwritten, the others are left. -/
example : ∃ lg d', (Builder.mk (some (some "robot.copper".toList)) (some 96) true true).build 16 earlierDir =
    .ok (.writer lg d') ∧ d'.get "robot_1.copper".toList = earlierDir.get "robot_1.copper".toList ∧
    (d'.get "robot_1.copper".toList).isSome ∧
    d'.get "robot_0.copper".toList ≠ earlierDir.get "robot_0.copper".toList := by
  refine ⟨_, _, rfl, ?_⟩
  decide +kernel

/-- The hypotheses of `C76_crash_partial` are met by the state of `C07_violated`. -/
example : Reachable 16 96 demoState ∧ align 16 demoState.lg.front.cgp < 96 ∧
    (∀ x ∈ demoState.issued, x.h.header.entryType ≠ .lastEntry) ∧
    visibleOf .copperList demoState.issued ≠ [] :=
  ⟨demoState_reachable, by decide +kernel, by decide +kernel, by decide +kernel⟩

end ULog
end Verif
