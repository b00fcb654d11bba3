import Verif.Spec.LogReader
import Verif.Proofs.ListDumpMem
import Verif.Proofs.TextDumpMem
import Verif.Proofs.DamageExport
import Verif.Proofs.SlabFiles
/-! The log reader program. -/
namespace Verif
namespace LogReader
open Bincode ULog Wire CopperList
variable {P : Type}

theorem pull_drain (files : List Bytes) (t : EntryType) (io : IOReader) (ns : List Nat) :
    (pull files t io ns).1 = (io.drain files t ns).1 ∧ ((io.drain files t ns).2 = .eof → (pull files t io ns).2 = .eof) := by
  induction ns generalizing io with
  | nil => exact ⟨rfl, fun h => nomatch h⟩
  | cons n ns ih =>
    unfold pull IOReader.drain
    cases h : io.read files t n with
    | ok x =>
      obtain ⟨d, io'⟩ := x
      cases d with
      | nil => exact ⟨rfl, fun _ => rfl⟩
      | cons b d =>
        obtain ⟨h1, h2⟩ := ih io'
        exact ⟨by simp only [h1], h2⟩
    | err => exact ⟨rfl, fun h => nomatch h⟩
    | panic => exact ⟨rfl, fun h => nomatch h⟩
    | diverges => exact ⟨rfl, fun h => nomatch h⟩

theorem build_opened {d : Dir} {base : Name} {r : Reader} (page : Nat) (h : Opened d base r) :
    ({ Builder.new with base := some (some base) } : Builder).build page d = .ok (.reader r) := by
  unfold Opened at h
  simp [Builder.build, Builder.new, h]

/-- A log that was closed is opened and delivers what was logged. -/
theorem closed_stream {α : Type} [Codec α] {page slabSize : Nat} (hz : SizesOk page slabSize) {ops : List LogOp}
    (hops : HistoryOk page slabSize [] ops) {t : EntryType} (hu : UsedFirst t false [] ops)
    {l : List α} (hobjs : objsOf t [] ops = l.map enc) : ∃ files, writeLog slabSize page ops = .ok files ∧
      ∀ (d : Dir) (base : Name), ∃ r, Opened (d.putSlabs base 0 files) base r ∧
        ∀ ns : List Nat, (∀ n ∈ ns, 0 < n) → (encAll l).length < ns.length →
          pull ((d.putSlabs base 0 files).slabs base) t (IOReader.new r) ns = (encAll l, .eof) := by
  obtain ⟨files, spots, last, h1, h2, h3, h4, h5, h6⟩ := log_damage hz hops
  obtain ⟨_, ⟨gs, hg1, hg2⟩, hel⟩ := h4 t
  replace hel := hel hu
  have encFlat : ∀ l : List α, (l.map enc).flatten = encAll l := by
    intro l
    induction l with
    | nil => rfl
    | cons a l ih => simp [encAll, ih]
  have hall : encAll l = (contents files t spots).flatten := by
    rw [← encFlat, ← hobjs, hg2, hg1]
    simp [List.flatten_flatten]
  refine ⟨files, h1, fun d base => ?_⟩
  obtain ⟨old, ho, _⟩ := slabs_after d base files
  have hr : readLog ((d.putSlabs base 0 files).slabs base) t = .ok (contents files t spots) := by
    rw [ho]
    exact readLog_more (h5 files (damaged_refl _ _) t).1 old
  cases hn : Reader.new ((d.putSlabs base 0 files).slabs base) with
  | ok r =>
    refine ⟨r, hn, fun ns hns hlen => ?_⟩
    obtain ⟨_, hd2, hd3⟩ := drainLog_left hr hel hns
    have hm := hd3 (by rw [← hall]; exact hlen)
    obtain ⟨a, b⟩ := hd2 hm
    unfold drainLog at a b
    rw [hn] at a b
    obtain ⟨p1, p2⟩ := pull_drain ((d.putSlabs base 0 files).slabs base) t (IOReader.new r) ns
    exact Prod.ext (by rw [p1]; simp only at a; rw [a, hall]) (p2 b)
  | err => unfold readLog at hr; rw [hn] at hr; cases hr
  | panic => unfold readLog at hr; rw [hn] at hr; cases hr
  | diverges => unfold readLog at hr; rw [hn] at hr; cases hr

theorem header_eq (f : Format) : "Extracting copperlists with format: ".toList ++ f.show = header f := by
  cases f <;> decide

/-- What the program does with a log that is opened. -/
theorem run_lists {sh : Shown P} {slots : List (Slot P)} {size page : Nat} {d : Dir} {base : Name} {r : Reader}
    (h : Opened d base r) (f : Format) (ns : List Nat) {bs : Bytes} {stop : Stop}
    (hp : pull (d.slabs base) .copperList (IOReader.new r) ns = (bs, stop)) :
    runCli sh slots size page d (some base) (.extractCopperlist f) ns =
      (listsRun sh slots stop (bs.length + 1) bs).cons (header f) := by
  unfold runCli
  rw [build_opened page h]
  simp only [hp]
  rw [header_eq]

theorem run_text {sh : Shown P} {slots : List (Slot P)} {size page : Nat} {d : Dir} {base : Name} {r : Reader}
    (h : Opened d base r) (strings : List Text) (ns : List Nat) {bs : Bytes} {stop : Stop}
    (hp : pull (d.slabs base) .structuredLogLine (IOReader.new r) ns = (bs, stop)) :
    runCli sh slots size page d (some base) (.extractLog (some strings)) ns =
      textRun sh strings size stop (bs.length + 1) bs := by
  unfold runCli
  rw [build_opened page h]
  simp only [hp]

theorem listsRun_written {sh : Shown P} {slots : List (Slot P)} {l : List (CL (List (Msg P)))}
    (hl : ∀ cl ∈ l, Fits slots cl) {fuel : Nat} (hf : l.length < fuel) :
    listsRun sh slots .eof fuel (written slots l) = ⟨l.map sh.list, true⟩ := by
  induction l generalizing fuel with
  | nil =>
    obtain ⟨f, rfl⟩ : ∃ f, fuel = f + 1 := ⟨fuel - 1, by simp at hf; omega⟩
    rfl
  | cons cl l ih =>
    obtain ⟨f, rfl⟩ : ∃ f, fuel = f + 1 := ⟨fuel - 1, by simp at hf; omega⟩
    obtain ⟨k, hk, _⟩ := cheap_cl (hl cl (by simp)) (written slots l)
    rw [show written slots (cl :: l) = (clCodec (codecs slots)).enc cl ++ written slots l by
      unfold written; rw [List.flatMap_cons]]
    unfold listsRun
    rw [hk]
    simp only
    rw [ih (fun c hc => hl c (by simp [hc])) (by simp at hf; omega)]
    rfl

theorem textRun_written {sh : Shown P} {strings : List Text} {size : Nat} {l : List LogEntry}
    (hl : ∀ e ∈ l, e.Legal ∧ e.msgIndex ≠ 0 ∧ e.Indexed strings ∧ (4 + size) * (enc e).length < 9223372036854775808)
    {fuel : Nat} (hf : l.length < fuel) :
    textRun sh strings size .eof fuel (encAll l) = ⟨l.map (lineOf sh strings), true⟩ := by
  induction l generalizing fuel with
  | nil =>
    obtain ⟨f, rfl⟩ : ∃ f, fuel = f + 1 := ⟨fuel - 1, by simp at hf; omega⟩
    rfl
  | cons e l ih =>
    obtain ⟨f, rfl⟩ : ∃ f, fuel = f + 1 := ⟨fuel - 1, by simp at hf; omega⟩
    obtain ⟨h1, h2, h3, h4⟩ := hl e (by simp)
    obtain ⟨k, hk, _⟩ := decodeMem_written h1 h4 (encAll l)
    obtain ⟨o, ho⟩ := rebuild_indexed (shw := sh.value) (showTime := sh.time) h3
    rw [encAll]
    unfold textRun
    rw [hk]
    simp only
    rw [if_neg h2, ho, ih (fun c hc => hl c (by simp [hc])) (by simp at hf; omega)]
    cases o <;> simp [lineOf, ho, Run.cons]

/-- An export that stops at the end of the data or at an error of the reader. -/
theorem listsRun_any {sh : Shown P} {slots : List (Slot P)} {stop : Stop} (hstop : stop = .eof ∨ stop = .err)
    (hs : ∀ s ∈ slots, s.Sound) {fuel : Nat} {bs : Bytes} (hf : bs.length < fuel) :
    (listsRun sh slots stop fuel bs).ok = (listLoop (clMem slots) fuel bs).2 ∧
      ∃ err, (listsRun sh slots stop fuel bs).out = (listLoop (clMem slots) fuel bs).1.map sh.list ++ err ∧
        (∀ x ∈ err, x = sh.ioError ∨ ∃ e, x = sh.decodeError e) ∧ err.length ≤ 1 := by
  induction fuel generalizing bs with
  | zero => omega
  | succ fuel ih =>
    unfold listsRun listLoop
    rcases h : clMem slots bs with ⟨r, k⟩ | _
    · rcases r with e | ⟨cl, rest⟩
      · by_cases he : e = .unexpectedEnd
        · subst he
          rcases hstop with rfl | rfl
          · exact ⟨rfl, [], rfl, by simp, by simp⟩
          · exact ⟨rfl, [sh.ioError], rfl, by simp, by simp⟩
        · refine ⟨?_, [sh.decodeError e], ?_, fun x hx => .inr ⟨e, by simpa using hx⟩, by simp⟩
          · cases e <;> first | rfl | exact absurd rfl he
          · cases e <;> first | rfl | exact absurd rfl he
      · have hd := same_ok (same_cl hs) h
        have hlt := cl_shrinks hs hd
        obtain ⟨h1, err, h2, h3, h4⟩ := ih (bs := rest) (by omega)
        refine ⟨h1, err, ?_, h3, h4⟩
        show sh.list cl :: (listsRun sh slots stop fuel rest).out = _
        rw [h2]
        rfl
    · exact ⟨rfl, [], rfl, by simp, by simp⟩

/-- A dump of text that ends with success. -/
theorem textRun_ok {sh : Shown P} {strings : List Text} {size : Nat} {stop : Stop} {fuel : Nat} {bs : Bytes}
    (h : (textRun sh strings size stop fuel bs).ok = true) : ∃ es rest, Entries bs es rest ∧
      (textRun sh strings size stop fuel bs).out = es.map (lineOf sh strings) ∧
        (((dec : Dec LogEntry) rest = .error .unexpectedEnd ∧ stop = .eof) ∨
          ∃ e r, (dec : Dec LogEntry) rest = .ok (e, r) ∧ e.msgIndex = 0) := by
  induction fuel generalizing bs with
  | zero => cases h
  | succ fuel ih =>
    unfold textRun at h ⊢
    rcases hd : LogEntry.decodeMem size bs with ⟨r, k⟩ | _
    · rw [hd] at h
      have hsame := decodeMem_same hd
      rcases r with e | ⟨entry, rest⟩
      · by_cases he : e = .unexpectedEnd
        · subst he
          cases stop with
          | eof => exact ⟨[], bs, .nil, rfl, .inl ⟨hsame, rfl⟩⟩
          | err => cases h
          | more => cases h
          | panic => cases h
          | diverges => cases h
        · exfalso
          cases e <;> first | exact absurd rfl he | cases h
      · simp only at h ⊢
        split at h
        · rename_i h0
          rw [if_pos h0]
          exact ⟨[], bs, .nil, rfl, .inr ⟨entry, rest, hsame, h0⟩⟩
        · rename_i h0
          rw [if_neg h0]
          split at h
          · cases h
          · rename_i hb
            obtain ⟨es, rest', h1, h2, h3⟩ := ih h
            refine ⟨entry :: es, rest', .cons hsame h1, ?_, h3⟩
            show sh.failedLine :: (textRun sh strings size stop fuel rest).out = _
            rw [h2]
            simp [lineOf, hb]
          · rename_i l hb
            obtain ⟨es, rest', h1, h2, h3⟩ := ih h
            refine ⟨entry :: es, rest', .cons hsame h1, ?_, h3⟩
            show (sh.time entry.time ++ [':', ' '] ++ l) :: (textRun sh strings size stop fuel rest).out = _
            rw [h2]
            simp [lineOf, hb]
    · rw [hd] at h
      cases h

end LogReader
end Verif
