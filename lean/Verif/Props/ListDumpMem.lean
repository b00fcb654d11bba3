import Verif.Proofs.ListDumpMem
import Verif.Proofs.DamageExport
/-!
C115: exporting the copper lists of a log that may be damaged.
-/
namespace Verif
namespace Wire
open Bincode Clock CopperList
variable {P : Type}

/-- The lists as they were written are all exported, and none asks for more memory than it has bytes. -/
theorem C115_written {slots : List (Slot P)} {l : List (CL (List (Msg P)))} (hl : ∀ cl ∈ l, Fits slots cl) :
    copperlistsDumpMem slots (written slots l) = (l, true) ∧
      ∀ cl ∈ l, ∀ rest, ∃ mem, clMem slots ((clCodec (codecs slots)).enc cl ++ rest) = .ok (.ok (cl, rest), mem) ∧
        mem ≤ ((clCodec (codecs slots)).enc cl).length := by
  refine ⟨?_, fun cl hcl => cheap_cl (hl cl hcl)⟩
  have hlen := written_length (slots := slots) l
  obtain ⟨f, hf⟩ : ∃ f, (written slots l).length + 1 = l.length + (f + 1) :=
    ⟨(written slots l).length - l.length, by omega⟩
  have h := loop_written hl [] (f + 1)
  rw [List.append_nil] at h
  unfold copperlistsDumpMem
  rw [hf, h]
  show (l ++ [], true) = _
  rw [List.append_nil]

/-- Whatever is behind lists that are intact, they are exported. -/
theorem C115_before_partial {slots : List (Slot P)} {l : List (CL (List (Msg P)))} (hl : ∀ cl ∈ l, Fits slots cl)
    (tail : Bytes) : l <+: (copperlistsDumpMem slots (written slots l ++ tail)).1 := by
  have hlen := written_length (slots := slots) l
  obtain ⟨f, hf⟩ : ∃ f, (written slots l ++ tail).length + 1 = l.length + f :=
    ⟨(written slots l ++ tail).length + 1 - l.length, by rw [List.length_append]; omega⟩
  unfold copperlistsDumpMem
  rw [hf, loop_written hl tail f]
  exact List.prefix_append _ _

/-- On any data at all the export ends, with the lists that the model without memory says, or it panics.  It panics
exactly when, behind lists that are all exported, a list asks for more than the address space: for the status of one of
its messages, or for its payload. -/
theorem C115_any_partial {slots : List (Slot P)} (hs : ∀ s ∈ slots, s.Sound) (bs : Bytes) :
    (copperlistsDumpMem slots bs = ((decodeStream (clCodec (codecs slots)).dec (bs.length + 1) bs).1, true) ∧
        ¬ ∃ l rest, Lists slots bs l rest ∧ GreedyList slots rest) ∨
      ((copperlistsDumpMem slots bs).2 = false ∧
        ∃ rest, Lists slots bs (copperlistsDumpMem slots bs).1 rest ∧ GreedyList slots rest) := by
  unfold copperlistsDumpMem
  cases h : (listLoop (clMem slots) (bs.length + 1) bs).2 with
  | true =>
    refine .inl ⟨Prod.ext (loop_ended (same_cl hs) h) h, ?_⟩
    rintro ⟨l, rest, h1, h2⟩
    have hle := lists_length hs h1
    rw [loop_greedy hs h1 h2 (by omega)] at h
    cases h
  | false => exact .inr ⟨rfl, loop_cause hs h⟩

/-- The slots of images: a message whose image was written is read back with no more memory than its bytes, and the
decoder panics exactly when the data say a buffer larger than the address space. -/
theorem C115_image : Slot.image.Sound ∧
    (∀ seq format (data : List UInt8), data.length < 9223372036854775808 →
      Slot.image.Frugal ⟨seq, format, .detached data⟩) ∧
    ∀ bs, Slot.image.mem bs = .panic ↔ ∃ n, BufferSaid bs n ∧ 9223372036854775807 < n :=
  ⟨image_sound, fun _ _ _ h => image_frugal h, fun _ => image_panic⟩

open ULog in
/-- From the files to the lists: a log of copper lists, of any history, whose files are damaged.  Read as a byte stream
with any buffer sizes to where it ends, it exports first of all the lists logged before those of the section the damage
begins in, in its content or from its header on.  If the damage is within a section of another type, it exports all the
lists and ends. -/
theorem C115_files_partial {slots : List (Slot P)} {page slabSize : Nat} (hz : SizesOk page slabSize) {ops : List LogOp}
    (hops : HistoryOk page slabSize [] ops) (hu : UsedFirst .copperList false [] ops) {l : List (CL (List (Msg P)))}
    (hobjs : objsOf .copperList [] ops = l.map (clCodec (codecs slots)).enc) (hl : ∀ cl ∈ l, Fits slots cl) :
    ∃ files spots last, writeLog slabSize page ops = .ok files ∧ (spots ++ [last]).Pairwise Spot.Before ∧
      written slots l = (contents files .copperList spots).flatten ∧
      ∀ pre p post, spots ++ [last] = pre ++ p :: post → ∃ before rest, l = before ++ rest ∧
        written slots before = (contents files .copperList pre).flatten ∧
        ∀ files', (p ∈ spots ∧ DamagedIn [p] files files') ∨ DamagedFrom p.file (p.pos - 15) files files' →
        ∀ ns : List Nat, (∀ n ∈ ns, 0 < n) →
          let read := drainLog files' .copperList ns
          read.2 ≠ .more → before <+: (copperlistsDumpMem slots read.1).1 ∧
            (p ∈ spots → DamagedIn [p] files files' → p.type ≠ .copperList →
              copperlistsDumpMem slots read.1 = (l, true)) := by
  have henc : ∀ l, @encAll _ (clCodec (codecs slots)) l = written slots l := by
    intro l
    induction l with
    | nil => rfl
    | cons cl l ih =>
      show (clCodec (codecs slots)).enc cl ++ @encAll _ (clCodec (codecs slots)) l = _
      rw [ih]
      rfl
  obtain ⟨files, spots, last, h1, h2, h3, h4⟩ :=
    @damage_bytes _ (clCodec (codecs slots)) page slabSize hz ops hops .copperList (by decide) hu l hobjs
  refine ⟨files, spots, last, h1, h2, by rw [← henc]; exact h3, fun pre p post hs => ?_⟩
  obtain ⟨before, rest, he, hb, h5⟩ := h4 pre p post hs
  refine ⟨before, rest, he, by rw [← henc]; exact hb, fun files' hdam ns hns hmore => ?_⟩
  obtain ⟨h6, h7⟩ := h5 files' hdam ns hns
  refine ⟨?_, fun hp hd hty => ?_⟩
  · obtain ⟨x, hx⟩ := h6 hmore
    rw [← hx, henc]
    exact C115_before_partial (fun cl hcl => hl cl (by simp [he, hcl])) x
  · rw [(h7 hp hd).1 hty hmore, henc]
    exact (C115_written hl).1

/-! Two cameras; the second has no image. -/

def cameras : List (Slot Image.CuImage) := [Slot.image, Slot.image]

def shot : CL (List (Msg Image.CuImage)) :=
  ⟨3, .beingSerialized, [⟨some ⟨1, ⟨2, 4, 2, (71, 82, 69, 89)⟩, .detached [7, 6, 5, 4, 3, 2, 1, 200]⟩, ⟨⟨⟨⟨5⟩⟩, ⟨⟨6⟩⟩⟩, .none, "27.50 °C"⟩⟩,
    ⟨none, ⟨⟨⟨⟨7⟩⟩, ⟨⟨8⟩⟩⟩, .none, ""⟩⟩]⟩

theorem cameras_sound : ∀ s ∈ cameras, s.Sound := by
  intro s hs
  simp only [cameras, List.mem_cons, List.not_mem_nil, or_false, or_self] at hs
  subst hs
  exact image_sound

theorem shot_fits : Fits cameras shot := by
  refine .cons ⟨?_, by decide +kernel⟩ (.cons ⟨?_, by decide +kernel⟩ .nil)
  · intro p hp
    cases hp
    exact image_frugal (by decide)
  · intro p hp
    cases hp

def shotBytes : Bytes := [3, 4, 1, 1, 2, 4, 2, 71, 82, 69, 89, 8, 7, 6, 5, 4, 3, 2, 1, 200, 5, 6, 0, 9, 50, 55, 46,
  53, 48, 32, 194, 176, 67, 0, 7, 8, 0, 0]

example : (clCodec (codecs cameras)).enc shot = shotBytes := by decide +kernel

example : copperlistsDumpMem cameras (written cameras [shot, shot]) = ([shot, shot], true) :=
  (C115_written (by
    intro cl hcl
    simp only [List.mem_cons, List.not_mem_nil, or_false, or_self] at hcl
    subst hcl
    exact shot_fits)).1

open ULog in
example : SizesOk 16 128 ∧
    HistoryOk 16 128 [] [.openStream .copperList 64, .log 0 [shotBytes], .log 0 [shotBytes]] ∧
    UsedFirst .copperList false [] [.openStream .copperList 64, .log 0 [shotBytes], .log 0 [shotBytes]] ∧
    objsOf .copperList [] [.openStream .copperList 64, .log 0 [shotBytes], .log 0 [shotBytes]] =
      [shot, shot].map (clCodec (codecs cameras)).enc := by
  refine ⟨⟨by decide, by decide, by decide⟩, ?_, ?_, by decide +kernel⟩
  · simp [HistoryOk, shotBytes]
    exact ⟨by decide, by decide, by decide⟩
  · simp [UsedFirst]

example : GreedyList cameras (shotBytes.set 23 253) :=
  ⟨3, .beingSerialized, _, _, [], Slot.image, _, [], _, rfl, rfl, rfl, rfl,
    .behind rfl ⟨_, _, _, _, _, rfl, rfl, rfl⟩ (by decide)⟩

/-- Two lists, and one byte of the second damaged: the length of the status, or of the image.  The export panics behind
the first; undamaged it ends with both. -/
theorem C115_violated :
    copperlistsDumpMem cameras (shotBytes ++ shotBytes.set 23 253 ++ shotBytes) = ([shot], false) ∧
      copperlistsDumpMem cameras (shotBytes ++ shotBytes.set 11 253 ++ shotBytes) = ([shot], false) ∧
      copperlistsDumpMem cameras (shotBytes ++ shotBytes) = ([shot, shot], true) := by
  refine ⟨by decide +kernel, by decide +kernel, by decide +kernel⟩

/-- A few bytes make the reader ask for any amount of memory up to the address space, before it finds that there is no
status. -/
theorem C115_memory_violated (n : Nat) (h0 : 0 < n) (hn : n ≤ 9223372036854775807) (s : Slot P) (ss : List (Slot P)) :
    clMem (s :: ss) ([3, 4, 0, 5, 6, 0] ++ encVar n) = .ok (.error .unexpectedEnd, n) ∧
      ([3, 4, 0, 5, 6, 0] ++ encVar n : Bytes).length ≤ 15 := by
  constructor
  · have h1 : statusMem (encVar n) = .ok (.error .unexpectedEnd, n) := by
      have h := decVar_encVar8 n (by omega) []
      rw [List.append_nil] at h
      obtain ⟨k, rfl⟩ : ∃ k, n = k + 1 := ⟨n - 1, by omega⟩
      have h2 : roomMem (k + 1) [] = .ok (.error .unexpectedEnd, k + 1) := by
        unfold roomMem
        rw [if_pos hn]
        rfl
      unfold statusMem bytesMem MDec.bind MDec.lift
      simp only [h, h2, Nat.zero_add]
    have h2 : metaMem ([5, 6, 0] ++ encVar n) = .ok (.error .unexpectedEnd, n) := by
      have a : (dec : Dec PartialCuTimeRange) ([5, 6, 0] ++ encVar n) = .ok (⟨⟨⟨5⟩⟩, ⟨⟨6⟩⟩⟩, [0] ++ encVar n) := rfl
      have b : (dec : Dec Tov) ([0] ++ encVar n) = .ok (.none, encVar n) := rfl
      unfold metaMem MDec.bind MDec.lift
      simp only [a, b, h1, Nat.zero_add]
    have h3 : msgMem s ([0, 5, 6, 0] ++ encVar n) = .ok (.error .unexpectedEnd, n) := by
      have a : byte ([0, 5, 6, 0] ++ encVar n) = .ok (0, [5, 6, 0] ++ encVar n) := rfl
      unfold msgMem
      rw [MDec.bind, MDec.lift, a]
      simp only [if_true]
      rw [MDec.bind, h2]
      simp only [Nat.zero_add]
    have a : (dec : Dec UInt32) ([3, 4, 0, 5, 6, 0] ++ encVar n) = .ok (3, [4, 0, 5, 6, 0] ++ encVar n) := rfl
    have b : decState ([4, 0, 5, 6, 0] ++ encVar n) = .ok (.beingSerialized, [0, 5, 6, 0] ++ encVar n) := rfl
    unfold clMem
    rw [MDec.bind, MDec.lift, a]
    simp only
    rw [MDec.bind, MDec.lift, b]
    simp only
    rw [MDec.bind, msgsMem, MDec.bind, h3]
    simp only [Nat.zero_add]
  · have : (encVar n).length ≤ 9 := by
      unfold encVar
      split
      · simp
      · split
        · simp [leBytes_length]
        · split <;> simp [leBytes_length]
    rw [List.length_append]
    simp only [List.length_cons, List.length_nil]
    omega

end Wire
end Verif
