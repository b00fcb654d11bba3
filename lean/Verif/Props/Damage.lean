import Verif.Proofs.DamageExport
import Verif.Props.EndToEnd
/-!
C112: damage to the files of a log.
-/
namespace Verif
namespace ULog
open Bincode Clock

/-- The files of any history of a log: the contents of its sections are in places that follow one another, with a
header in front of each and an end marker behind the last.  Whatever becomes of bytes in these places, the reader
returns for each type what is now in its places, one section for each; so damage within one section leaves all the
others as they were.  Whatever becomes of the files from the header of a section on, the reader finds first the
sections in front of it, as they were. -/
theorem C112_sections {page slabSize : Nat} (hz : SizesOk page slabSize) {ops : List LogOp}
    (hops : HistoryOk page slabSize [] ops) :
    ∃ files spots last, writeLog slabSize page ops = .ok files ∧ (spots ++ [last]).Pairwise Spot.Before ∧
      (∀ p ∈ spots ++ [last], ∃ file, files[p.file]? = some file ∧ 15 ≤ p.pos ∧ p.pos + p.len ≤ file.length) ∧
      (∀ t, (contents files t spots).flatten = logged t [] ops) ∧
      (∀ files', DamagedIn spots files files' → ∀ t, readLog files' t = .ok (contents files' t spots)) ∧
      (∀ pre p post, spots = pre ++ p :: post → ∀ files', DamagedIn [p] files files' →
        ∀ t, readLog files' t = .ok (contents files t pre ++ contents files' t [p] ++ contents files t post)) ∧
      ∀ pre p post, spots ++ [last] = pre ++ p :: post → ∀ files', DamagedFrom p.file (p.pos - 15) files files' →
        ∀ t, t ≠ .lastEntry →
          (∃ first e, Opens files' first ∧ Chain files' t (0, first) (contents files t pre) e) ∧
          ∀ ds, readLog files' t = .ok ds → contents files t pre <+: ds := by
  obtain ⟨files, spots, last, h1, h2, h3, h4, h5, h6⟩ := log_damage hz hops
  refine ⟨files, spots, last, h1, h2, h3, fun t => (h4 t).1, fun files' hd t => (h5 files' hd t).1, ?_, ?_⟩
  · intro pre p post he files' hd t
    rw [(h5 files' (hd.mono (by simp [he])) t).1, he]
    have hpw := (List.pairwise_append.1 h2).1
    rw [he] at hpw
    obtain ⟨_, hq, hr⟩ := List.pairwise_append.1 hpw
    rw [List.append_cons, contents_append, contents_append]
    rw [contents_congr (files := files) (files' := files') (spots := pre) fun q hqm =>
        content_same hd fun x hx => .inr (by rw [List.mem_singleton.1 hx]; exact hr q hqm p (by simp)),
      contents_congr (files := files) (files' := files') (spots := post) fun q hqm =>
        content_same hd fun x hx => .inl (by rw [List.mem_singleton.1 hx]; exact (List.pairwise_cons.1 hq).1 q hqm)]
  · intro pre p post he files' hd t ht
    obtain ⟨⟨first, e, ho, hc⟩, _⟩ := h6 pre p post he files' hd t ht
    refine ⟨⟨first, e, ho, hc⟩, fun ds hds => ?_⟩
    obtain ⟨first', e', ho', hc', hm⟩ := ((readLog_iff files' t).1 ds).1 hds
    obtain rfl := ho.fun ho'
    exact (hc'.prefix hm hc).1

/-- What is exported.  The objects logged on the streams of a type are the encodings of some values, and no stream of
the type was left without an object and followed by another one.  Read the damaged files as a byte stream of the type
with any buffer sizes to where it ends, and dump what was delivered.  If the damage is within a section of another
type, it is all the values.  If it begins in any section, in its content or from its header on, it is first of all the
values logged before those of that section. -/
theorem C112_export_partial {α : Type} [Codec α] {page slabSize : Nat} (hz : SizesOk page slabSize) {ops : List LogOp}
    (hops : HistoryOk page slabSize [] ops) {t : EntryType} (ht : t ≠ .lastEntry) (hu : UsedFirst t false [] ops)
    {l : List α} (hobjs : objsOf t [] ops = l.map enc) (hr : ∀ a ∈ l, RoundTrips a)
    (hpos : ∀ a ∈ l, 0 < (enc a).length) {e : DecodeError} (he : (dec : Dec α) [] = .error e) :
    ∃ files spots last, writeLog slabSize page ops = .ok files ∧ (spots ++ [last]).Pairwise Spot.Before ∧
      encAll l = (contents files t spots).flatten ∧
      ∀ pre p post, spots ++ [last] = pre ++ p :: post → ∃ before rest, l = before ++ rest ∧
        encAll before = (contents files t pre).flatten ∧
        ∀ files', (p ∈ spots ∧ DamagedIn [p] files files') ∨ DamagedFrom p.file (p.pos - 15) files files' →
        ∀ ns : List Nat, (∀ n ∈ ns, 0 < n) →
          let read := drainLog files' t ns
          (read.2 ≠ .more → before <+: dumpObjects read.1) ∧
            (p ∈ spots → DamagedIn [p] files files' →
              (p.type ≠ t → read.2 ≠ .more → dumpObjects read.1 = l) ∧ (read.2 ≠ .more → read.2 = .eof) ∧
                ((encAll l).length < ns.length → read.2 ≠ .more)) := by
  obtain ⟨files, spots, last, h1, h2, h3, h4⟩ := damage_bytes hz hops ht hu hobjs
  refine ⟨files, spots, last, h1, h2, h3, fun pre p post hs => ?_⟩
  obtain ⟨before, rest, hl, hb, h5⟩ := h4 pre p post hs
  refine ⟨before, rest, hl, hb, fun files' hdam ns hns => ?_⟩
  obtain ⟨h6, h7⟩ := h5 files' hdam ns hns
  refine ⟨fun hmore => ?_, fun hp hd => ⟨fun hty hmore => ?_, (h7 hp hd).2⟩⟩
  · obtain ⟨x, hx⟩ := h6 hmore
    show before <+: dumpObjects (drainLog files' t ns).1
    rw [← hx]
    exact dump_front (fun a ha => hr a (by simp [hl, ha])) (fun a ha => hpos a (by simp [hl, ha])) x
  · show dumpObjects (drainLog files' t ns).1 = l
    rw [(h7 hp hd).1 hty hmore]
    unfold dumpObjects
    have := decodeStream_encAll hr [] he (fuel := (encAll l).length + 1)
      (Nat.lt_succ_of_le (encAll_length_ge hpos))
    rw [List.append_nil] at this
    rw [this]

/-! A log of three copper lists, each in a section of its own. -/

def damagedLists : List (CopperList.CL (List (Msg Nat))) :=
  let at_ (a b : UInt64) : MsgMeta := ⟨⟨⟨⟨a⟩⟩, ⟨⟨b⟩⟩⟩, .none, ""⟩
  Runtime.demoLists ++
    [⟨2, .beingSerialized, [⟨some 18, at_ 17 18⟩, ⟨some 1018, at_ 19 20⟩, ⟨none, at_ 21 22⟩]⟩]

def damagedHistory : List LogOp :=
  .openStream .copperList 48 :: damagedLists.map fun cl => .log 0 [(Wire.clCodec Runtime.demoSlots).enc cl]

def wholeFiles : List Bytes := match writeLog 96 16 damagedHistory with | .ok f => f | .panic => []

/-- The content of the section in the middle. -/
def middle : Spot := ⟨.copperList, 1, 15, 21⟩

/-- The files with another value for one byte. -/
def oneByte (k i : Nat) (b : UInt8) : List Bytes := wholeFiles.modify k (·.set i b)

/-- What is exported, the bytes being read 64 at a time. -/
def exportedFrom (files : List Bytes) : List (CopperList.CL (List (Msg Nat))) × Ended :=
  match drainLog files .copperList (List.replicate 100 64) with
  | (d, e) => (@dumpObjects _ (Wire.clCodec Runtime.demoSlots) d, e)

theorem damagedIn_oneByte {i : Nat} (hi : 15 ≤ i) (hi' : i < 36) (b : UInt8) :
    DamagedIn [middle] wholeFiles (oneByte 1 i b) := by
  refine ⟨by simp [oneByte], fun k file hf => ?_⟩
  by_cases hk : k = 1
  · subst hk
    refine ⟨file.set i b, by simp [oneByte, List.getElem?_modify, hf], by simp, fun j hj => ?_⟩
    refine List.getElem?_set_ne fun hij => hj middle (by simp) ?_
    subst hij
    exact ⟨rfl, hi, hi'⟩
  · refine ⟨file, ?_, rfl, fun _ _ => rfl⟩
    have : ¬ 1 = k := fun h => hk h.symm
    simp [oneByte, List.getElem?_modify, this, hf]

example : SizesOk 16 96 ∧ HistoryOk 16 96 [] damagedHistory ∧ UsedFirst .copperList false [] damagedHistory := by
  have h : ∀ cl ∈ damagedLists, ((Wire.clCodec Runtime.demoSlots).enc cl).length = 21 := by decide +kernel
  simp only [damagedLists, Runtime.demoLists, List.cons_append, List.nil_append, List.mem_cons, List.not_mem_nil,
    or_false, forall_eq_or_imp, forall_eq] at h
  obtain ⟨h1, h2, h3⟩ := h
  refine ⟨⟨by decide, by decide, by decide⟩, ?_, ?_⟩
  · simp [damagedHistory, damagedLists, Runtime.demoLists, HistoryOk, SizeOk, h1, h2, h3]
    decide
  · simp [damagedHistory, damagedLists, Runtime.demoLists, UsedFirst, logged]

example : objsOf .copperList [] damagedHistory = damagedLists.map (Wire.clCodec Runtime.demoSlots).enc := by
  decide +kernel

example : exportedFrom wholeFiles = (damagedLists, .eof) := by decide +kernel

example : ∀ cl ∈ damagedLists, @RoundTrips _ (Wire.clCodec Runtime.demoSlots) cl ∧
    0 < ((Wire.clCodec Runtime.demoSlots).enc cl).length := by
  refine fun cl hcl => ⟨Wire.rt_cl ?_, Wire.cl_pos _ cl⟩
  obtain ⟨a, b, c, h1, h2, h3, h4, h5⟩ : ∃ a b c, cl.msgs = [a, b, c] ∧
      (∀ p ∈ a.payload, p < 18446744073709551616) ∧ (∀ p ∈ b.payload, p < 65536) ∧
      (∀ p ∈ c.payload, p = 0) ∧ ∀ m ∈ cl.msgs, m.md.statusTxt.utf8ByteSize < 18446744073709551616 := by
    simp only [damagedLists, Runtime.demoLists, List.cons_append, List.nil_append, List.mem_cons, List.not_mem_nil,
      or_false] at hcl
    rcases hcl with rfl | rfl | rfl <;>
    refine ⟨_, _, _, rfl, by decide, by decide, by decide, by decide⟩
  unfold Runtime.Typed
  rw [h1] at h5 ⊢
  refine .cons ⟨fun p hp rest => ?_, h5 _ (by simp)⟩ (.cons ⟨fun p hp rest => ?_, h5 _ (by simp)⟩
    (.cons ⟨fun p hp rest => ?_, h5 _ (by simp)⟩ .nil))
  · simp only
    rw [Dec.bind_ok (rt_u64 _ _)]
    simp [Nat.mod_eq_of_lt (h2 p hp)]
  · simp only
    rw [Dec.bind_ok (rt_u16 _ _)]
    simp [Nat.mod_eq_of_lt (h3 p hp)]
  · rw [h4 p hp]; rfl

/-- The files cut within the second one. -/
example : DamagedFrom 1 48 wholeFiles (wholeFiles.take 1 ++ (wholeFiles.drop 1).take 1 |>.modify 1 (·.take 60)) :=
  ⟨by decide +kernel, _, _, rfl, rfl, by decide +kernel, by decide +kernel⟩

/-- One byte of the section in the middle, a tag that says whether there is a payload, is damaged.  The reader delivers
the section behind it as it was, but the export stops at the list that does not decode: of the three lists it returns
the first one. -/
theorem C112_export_violated :
    ∃ ds, DamagedIn [middle] wholeFiles (oneByte 1 17 7) ∧
      readLog (oneByte 1 17 7) .copperList = .ok ds ∧
      ds[2]? = (damagedLists[2]?).map (Wire.clCodec Runtime.demoSlots).enc ∧ ds.length = 3 ∧
      exportedFrom (oneByte 1 17 7) = (damagedLists.take 1, .eof) :=
  ⟨(match readLog (oneByte 1 17 7) .copperList with | .ok ds => ds | _ => []), damagedIn_oneByte (by decide) (by decide) 7,
    by decide +kernel, by decide +kernel, by decide +kernel, by decide +kernel⟩

/-- One byte of the payload of the list in the middle is damaged.  Nothing tells: three lists are exported and the end
is reached, with 7 where 12 was logged. -/
theorem C112_noticed_violated :
    DamagedIn [middle] wholeFiles (oneByte 1 18 7) ∧
      (exportedFrom (oneByte 1 18 7)).2 = (exportedFrom wholeFiles).2 ∧
      (exportedFrom (oneByte 1 18 7)).1.map (·.id) = damagedLists.map (·.id) ∧
      ((exportedFrom (oneByte 1 18 7)).1.map fun cl => cl.msgs.map (·.payload)) =
        [[some 6, some 1006, none], [some 7, some 1012, none], [some 18, some 1018, none]] ∧
      (damagedLists.map fun cl => cl.msgs.map (·.payload)) =
        [[some 6, some 1006, none], [some 12, some 1012, none], [some 18, some 1018, none]] :=
  ⟨damagedIn_oneByte (by decide) (by decide) 7, by decide +kernel, by decide +kernel, by decide +kernel,
    by decide +kernel⟩

/-- One byte of a header is damaged.  In the magic number of the section in the middle: the reader gives an error there
and never gets to the section behind it.  In its size: the reader reads the same section again and again. -/
theorem C112_header_violated :
    readLog (oneByte 1 0 7) .copperList = .err ∧ exportedFrom (oneByte 1 0 7) = (damagedLists.take 1, .failed) ∧
      readLog (oneByte 1 3 0) .copperList = .diverges ∧
      (exportedFrom (oneByte 1 3 0)).1.map (·.id) = 0 :: List.replicate 99 1 := by
  refine ⟨by decide +kernel, by decide +kernel, by decide +kernel, by decide +kernel⟩

end ULog
end Verif
