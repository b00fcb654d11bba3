import Verif.Proofs.LogReader
import Verif.Props.Damage
import Verif.Props.ListDumpMem
import Verif.Props.TextDumpMem
/-!
C116: the log reader program.
-/
namespace Verif
namespace LogReader
open Bincode ULog Wire CopperList
variable {P : Type}

/-- The lists of a log that was closed, of any history, in any directory and whatever files of an earlier log of the
same name are still there: after its first line the program prints every list, in order, and ends with success. -/
theorem C116_lists (sh : Shown P) {slots : List (Slot P)} (size : Nat) {page slabSize : Nat}
    (hz : SizesOk page slabSize) {ops : List LogOp} (hops : HistoryOk page slabSize [] ops)
    (hu : UsedFirst .copperList false [] ops) {l : List (CL (List (Msg P)))}
    (hobjs : objsOf .copperList [] ops = l.map (clCodec (codecs slots)).enc) (hl : ∀ cl ∈ l, Fits slots cl) :
    ∃ files, writeLog slabSize page ops = .ok files ∧ ∀ (d : Dir) (base : Name) (f : Format) (ns : List Nat),
      (∀ n ∈ ns, 0 < n) → (written slots l).length < ns.length →
        runCli sh slots size page (d.putSlabs base 0 files) (some base) (.extractCopperlist f) ns =
          ⟨header f :: l.map sh.list, true⟩ := by
  have henc : ∀ l, @encAll _ (clCodec (codecs slots)) l = written slots l := by
    intro l
    induction l with
    | nil => rfl
    | cons cl l ih =>
      show (clCodec (codecs slots)).enc cl ++ @encAll _ (clCodec (codecs slots)) l = _
      rw [ih]
      rfl
  obtain ⟨files, h1, h2⟩ := @closed_stream _ (clCodec (codecs slots)) page slabSize hz ops hops .copperList hu l hobjs
  refine ⟨files, h1, fun d base f ns hns hlen => ?_⟩
  obtain ⟨r, hr, hp⟩ := h2 d base
  rw [henc] at hp
  rw [run_lists hr f ns (hp ns hns hlen),
    listsRun_written hl (Nat.lt_succ_of_le (written_length (slots := slots) l))]
  rfl

/-- The text of a log that was closed, likewise: a line for every entry, and success. -/
theorem C116_text (sh : Shown P) (slots : List (Slot P)) {size page slabSize : Nat} {strings : List Text}
    (hz : SizesOk page slabSize) {ops : List LogOp} (hops : HistoryOk page slabSize [] ops)
    (hu : UsedFirst .structuredLogLine false [] ops) {l : List LogEntry}
    (hobjs : objsOf .structuredLogLine [] ops = l.map enc)
    (hl : ∀ e ∈ l, e.Legal ∧ e.msgIndex ≠ 0 ∧ e.Indexed strings ∧
      (4 + size) * (enc e).length < 9223372036854775808) :
    ∃ files, writeLog slabSize page ops = .ok files ∧ ∀ (d : Dir) (base : Name) (ns : List Nat),
      (∀ n ∈ ns, 0 < n) → (encAll l).length < ns.length →
        runCli sh slots size page (d.putSlabs base 0 files) (some base) (.extractLog (some strings)) ns =
          ⟨l.map (lineOf sh strings), true⟩ := by
  obtain ⟨files, h1, h2⟩ := closed_stream hz hops hu hobjs
  refine ⟨files, h1, fun d base ns hns hlen => ?_⟩
  obtain ⟨r, hr, hp⟩ := h2 d base
  rw [run_text hr strings ns (hp ns hns hlen)]
  exact textRun_written hl (Nat.lt_succ_of_le (encAll_length_ge fun e _ => entry_pos e))

/-- A log that cannot be opened, a path that is no name, and an index that cannot be read are failures, and nothing is
printed. -/
theorem C116_missing (sh : Shown P) (slots : List (Slot P)) (size page : Nat) (d : Dir) (ns : List Nat) :
    (∀ base cmd, (∀ r, ¬ Opened d base r) → runCli sh slots size page d (some base) cmd ns = ⟨[], false⟩) ∧
      (∀ cmd, runCli sh slots size page d none cmd ns = ⟨[], false⟩) ∧
      ∀ base, runCli sh slots size page d base (.extractLog none) ns = ⟨[], false⟩ := by
  refine ⟨fun base cmd h => ?_, fun cmd => ?_, fun base => ?_⟩
  · unfold runCli
    split
    · rename_i r b hb he
      exfalso
      cases he
      refine h r ?_
      unfold Opened
      revert hb
      simp only [Builder.build, Builder.new]
      cases Reader.new (d.slabs base) <;> simp
    · rfl
  · unfold runCli
    split
    · rename_i h; cases h
    · rfl
  · unfold runCli
    split <;> rfl

/-- On any log that can be opened and whose reading ends or fails: the lists that decode are printed, then at most one
line that tells of an error, and the program ends with success unless the decoder panics. -/
theorem C116_success_partial (sh : Shown P) {slots : List (Slot P)} (hs : ∀ s ∈ slots, s.Sound) (size page : Nat)
    {d : Dir} {base : Name} {r : Reader} (ho : Opened d base r) (f : Format) {ns : List Nat} {bs : Bytes} {stop : Stop}
    (hp : pull (d.slabs base) .copperList (IOReader.new r) ns = (bs, stop)) (hstop : stop = .eof ∨ stop = .err) :
    let run := runCli sh slots size page d (some base) (.extractCopperlist f) ns
    run.ok = (copperlistsDumpMem slots bs).2 ∧
      ∃ err, run.out = header f :: (copperlistsDumpMem slots bs).1.map sh.list ++ err ∧
        (∀ x ∈ err, x = sh.ioError ∨ ∃ e, x = sh.decodeError e) ∧ err.length ≤ 1 := by
  intro run
  show run.ok = _ ∧ _
  obtain ⟨h1, err, h2, h3, h4⟩ := listsRun_any (sh := sh) hstop hs (Nat.lt_succ_self bs.length)
  have hrun : run = _ := run_lists ho f ns hp
  refine ⟨by rw [hrun]; exact h1, err, ?_, h3, h4⟩
  rw [hrun]
  show header f :: (listsRun sh slots stop (bs.length + 1) bs).out = _
  rw [h2]
  rfl

/-- If the text is extracted with success, then every entry up to the end of what the log delivers has its line, or up
to the first entry whose message has index zero. -/
theorem C116_text_success_partial (sh : Shown P) (slots : List (Slot P)) (size page : Nat) {d : Dir} {base : Name}
    {r : Reader} (ho : Opened d base r) (strings : List Text) {ns : List Nat} {bs : Bytes} {stop : Stop}
    (hp : pull (d.slabs base) .structuredLogLine (IOReader.new r) ns = (bs, stop))
    (h : (runCli sh slots size page d (some base) (.extractLog (some strings)) ns).ok = true) :
    ∃ es rest, Entries bs es rest ∧
      (runCli sh slots size page d (some base) (.extractLog (some strings)) ns).out = es.map (lineOf sh strings) ∧
        (((dec : Dec LogEntry) rest = .error .unexpectedEnd ∧ stop = .eof) ∨
          ∃ e tail, (dec : Dec LogEntry) rest = .ok (e, tail) ∧ e.msgIndex = 0) := by
  rw [run_text ho strings ns hp] at h ⊢
  exact textRun_ok h

/-- The format that is asked for makes no difference: whatever the log, what is printed after the first line is the
same. -/
theorem C116_format_violated (sh : Shown P) (slots : List (Slot P)) (size page : Nat) (d : Dir) (base : Option Name)
    (ns : List Nat) :
    let run f := runCli sh slots size page d base (.extractCopperlist f) ns
    (run .json).out.tail = (run .csv).out.tail ∧ (run .json).ok = (run .csv).ok := by
  intro run
  show (runCli sh slots size page d base (.extractCopperlist .json) ns).out.tail =
      (runCli sh slots size page d base (.extractCopperlist .csv) ns).out.tail ∧
    (runCli sh slots size page d base (.extractCopperlist .json) ns).ok =
      (runCli sh slots size page d base (.extractCopperlist .csv) ns).ok
  unfold runCli
  split <;> exact ⟨rfl, rfl⟩

/-! Damaged logs. -/

def readerShown : Shown Nat :=
  ⟨fun cl => "list".toList ++ (Nat.toDigits 10 cl.id.toNat), fun _ => "bad data".toList, "bad file".toList, "?".toList,
    fun _ => "v".toList, fun _ => "t".toList⟩

def readerSlots : List (Slot Nat) := Runtime.demoSlots.map fun c => ⟨c, fun bs => .ok (c.dec bs, 0)⟩

def readerRun (files : List Bytes) (cmd : Command) : Run :=
  runCli readerShown readerSlots 0 16 (Dir.putSlabs [] "log.copper".toList 0 files) (some "log.copper".toList) cmd
    (List.replicate 100 64)

/-- The program ends with success although lists of the log are not exported.  Of three lists: one byte of the second
damaged, in its content, and the program tells of an error; in the header of its section, and it does too; one byte of
the last damaged, and nothing tells that there was another list. -/
theorem C116_exit_violated :
    readerRun wholeFiles (.extractCopperlist .csv) =
        ⟨[header .csv, "list0".toList, "list1".toList, "list2".toList], true⟩ ∧
      readerRun (oneByte 1 17 7) (.extractCopperlist .csv) =
        ⟨[header .csv, "list0".toList, "bad data".toList], true⟩ ∧
      readerRun (oneByte 1 0 7) (.extractCopperlist .csv) =
        ⟨[header .csv, "list0".toList, "bad file".toList], true⟩ ∧
      readerRun (oneByte 1 83 5) (.extractCopperlist .csv) =
        ⟨[header .csv, "list0".toList, "list1".toList], true⟩ := by
  refine ⟨by decide +kernel, by decide +kernel, by decide +kernel, by decide +kernel⟩

def helloHistory : List LogOp := [.openStream .structuredLogLine 48, .log 0 [enc hello], .log 0 [enc hello]]

def helloFiles : List Bytes := match writeLog 96 16 helloHistory with | .ok f => f | .panic => []

/-- The same for the text.  Of two lines: one byte of the first damaged, the index of its message, and nothing tells
that there were lines. -/
theorem C116_text_exit_violated :
    readerRun helloFiles (.extractLog (some helloStrings)) = ⟨["t: hello v".toList, "t: hello v".toList], true⟩ ∧
      (helloFiles.modify 0 (·.set 32 0)).length = helloFiles.length ∧
      readerRun (helloFiles.modify 0 (·.set 32 0)) (.extractLog (some helloStrings)) = ⟨[], true⟩ := by
  refine ⟨by decide +kernel, by decide +kernel, by decide +kernel⟩

/-! The theorems above at these logs. -/

example : ∃ files, writeLog 128 16 [.openStream .copperList 64, .log 0 [shotBytes], .log 0 [shotBytes]] = .ok files ∧
    ∀ (d : Dir) (base : Name) (f : Format) (ns : List Nat), (∀ n ∈ ns, 0 < n) →
      (written cameras [shot, shot]).length < ns.length → ∀ sh : Shown Image.CuImage,
        runCli sh cameras 0 16 (d.putSlabs base 0 files) (some base) (.extractCopperlist f) ns =
          ⟨[header f, sh.list shot, sh.list shot], true⟩ := by
  have hl : ∀ cl ∈ [shot, shot], Fits cameras cl := by
    intro cl hcl
    simp only [List.mem_cons, List.not_mem_nil, or_false, or_self] at hcl
    subst hcl
    exact shot_fits
  have h (sh : Shown Image.CuImage) := C116_lists sh (slots := cameras) 0 (page := 16) (slabSize := 128)
    (ops := [.openStream .copperList 64, .log 0 [shotBytes], .log 0 [shotBytes]])
    ⟨by decide, by decide, by decide⟩ (by
      simp [HistoryOk, shotBytes]
      exact ⟨by decide, by decide, by decide⟩) (by simp [UsedFirst]) (l := [shot, shot]) (by decide +kernel) hl
  obtain ⟨files, h1, _⟩ := h ⟨fun _ => [], fun _ => [], [], [], fun _ => [], fun _ => []⟩
  refine ⟨files, h1, fun d base f ns hns hlen sh => ?_⟩
  obtain ⟨files', h1', h2⟩ := h sh
  rw [h1] at h1'
  cases h1'
  exact h2 d base f ns hns hlen

example : ∃ files, writeLog 96 16 helloHistory = .ok files ∧ ∀ (d : Dir) (base : Name) (ns : List Nat),
    (∀ n ∈ ns, 0 < n) → (encAll [hello, hello]).length < ns.length →
      runCli readerShown readerSlots 32 16 (d.putSlabs base 0 files) (some base) (.extractLog (some helloStrings)) ns =
        ⟨[hello, hello].map (lineOf readerShown helloStrings), true⟩ := by
  have h : (enc hello).length = 15 := by decide +kernel
  refine C116_text readerShown readerSlots (ops := helloHistory) ⟨by decide, by decide, by decide⟩ ?_ ?_ (by decide +kernel) ?_
  · simp [helloHistory, HistoryOk, h]
    exact ⟨by decide, by decide, by decide⟩
  · simp [helloHistory, UsedFirst]
  · intro e he
    simp only [List.mem_cons, List.not_mem_nil, or_false, or_self] at he
    subst he
    exact hello_ok

/-- A damaged log is opened, and its reading fails. -/
example : ∃ r bs, Opened (Dir.putSlabs [] "log.copper".toList 0 (oneByte 1 0 7)) "log.copper".toList r ∧
    pull (Dir.slabs (Dir.putSlabs [] "log.copper".toList 0 (oneByte 1 0 7)) "log.copper".toList) .copperList (IOReader.new r)
      (List.replicate 100 64) = (bs, .err) ∧ bs.length = 21 := by
  have ho : ∃ r, Opened (Dir.putSlabs [] "log.copper".toList 0 (oneByte 1 0 7)) "log.copper".toList r ∧
      (pull (Dir.slabs (Dir.putSlabs [] "log.copper".toList 0 (oneByte 1 0 7)) "log.copper".toList) .copperList
        (IOReader.new r) (List.replicate 100 64)).2 = .err ∧
      (pull (Dir.slabs (Dir.putSlabs [] "log.copper".toList 0 (oneByte 1 0 7)) "log.copper".toList) .copperList
        (IOReader.new r) (List.replicate 100 64)).1.length = 21 :=
    ⟨(match Reader.new (Dir.slabs (Dir.putSlabs [] "log.copper".toList 0 (oneByte 1 0 7)) "log.copper".toList) with
      | .ok r => r | _ => ⟨0, 0⟩), by unfold Opened; decide +kernel, by decide +kernel, by decide +kernel⟩
  obtain ⟨r, h1, h2, h3⟩ := ho
  exact ⟨r, _, h1, Prod.ext rfl h2, h3⟩

/-- A directory without the log. -/
example : ∀ r, ¬ Opened [] "log.copper".toList r := by
  intro r h
  have : Reader.new (Dir.slabs [] "log.copper".toList) = .err := by decide +kernel
  rw [Opened, this] at h
  cases h

end LogReader
end Verif
