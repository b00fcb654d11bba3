import Verif.Spec.Damage
import Verif.Proofs.AnyFile
import Verif.Proofs.UnifiedLogTorn
import Verif.Proofs.KillExport
import Verif.Proofs.CrashRead
/-! Damaged files still hold sections. -/
namespace Verif
namespace ULog
open Bincode

/-! ### The sections of the files and their spots -/

def spotsFrom (page k : Nat) : Nat → List Sec → List Spot
  | _, [] => []
  | off, s :: l => ⟨s.et, k, off + 15, s.data.length⟩ :: spotsFrom page k (off + align page s.req) l

def spotsOf (page : Nat) (lay : List (List Sec)) : List Spot :=
  (lay.mapIdx fun k secs => spotsFrom page k (startOf page k) secs).flatten

theorem spotsFrom_append (page k off : Nat) (a b : List Sec) :
    spotsFrom page k off (a ++ b) = spotsFrom page k off a ++ spotsFrom page k (endOf page off a) b := by
  induction a generalizing off with
  | nil => rfl
  | cons s a ih => simp [spotsFrom, endOf, ih]

theorem spotsFrom_file {page k off : Nat} {l : List Sec} {p : Spot} (h : p ∈ spotsFrom page k off l) : p.file = k := by
  induction l generalizing off with
  | nil => cases h
  | cons s l ih =>
    rcases List.mem_cons.1 h with rfl | h
    · rfl
    · exact ih h

theorem spotsFrom_lower {page k off : Nat} {l : List Sec} {p : Spot} (h : p ∈ spotsFrom page k off l) :
    off + 15 ≤ p.pos := by
  induction l generalizing off with
  | nil => cases h
  | cons s l ih =>
    rcases List.mem_cons.1 h with rfl | h
    · exact Nat.le_refl _
    · have := ih h; omega

theorem spotsFrom_upper {page k off : Nat} {file : Bytes} {l : List Sec} (hp : 0 < page)
    (hs : SecsOk page file off l) {p : Spot} (h : p ∈ spotsFrom page k off l) :
    p.pos + p.len ≤ endOf page off l := by
  induction l generalizing off with
  | nil => cases h
  | cons s l ih =>
    rcases List.mem_cons.1 h with rfl | h
    · have h1 := hs.1.room
      have h2 := align_le hp s.req
      have h3 := le_endOf page (off + align page s.req) l
      simp only [endOf]
      omega
    · exact ih hs.2 h

theorem spotsFrom_pairwise {page k off : Nat} {file : Bytes} {l : List Sec} (hp : 0 < page)
    (hs : SecsOk page file off l) : (spotsFrom page k off l).Pairwise Spot.Before := by
  induction l generalizing off with
  | nil => exact .nil
  | cons s l ih =>
    refine .cons (fun q hq => .inr ⟨(spotsFrom_file hq).symm, ?_⟩) (ih hs.2)
    have h0 := spotsFrom_lower hq
    have h1 := hs.1.room
    have h2 := align_le hp s.req
    simp only
    omega

/-- No header is in a spot. -/
theorem spots_clear {page k off : Nat} {file : Bytes} {pre post : List Sec} {s : Sec} (hp : 0 < page)
    (hs : SecsOk page file off (pre ++ s :: post)) {p : Spot} (h : p ∈ spotsFrom page k off (pre ++ s :: post))
    {i : Nat} (h1 : endOf page off pre ≤ i) (h2 : i < endOf page off pre + 15) : ¬ p.Covers k i := by
  rintro ⟨_, h3, h4⟩
  rw [spotsFrom_append] at h
  rw [secsOk_append] at hs
  rcases List.mem_append.1 h with h | h
  · have := spotsFrom_upper hp hs.1 h; omega
  · have := spotsFrom_lower h; omega

/-! ### Damage within the spots -/

/-- The sections with the data that is now there. -/
def relaySecs (page : Nat) (file : Bytes) : Nat → List Sec → List Sec
  | _, [] => []
  | off, s :: l => { s with data := slice file (off + 15) s.data.length } :: relaySecs page file (off + align page s.req) l

def relay (page : Nat) (files : List Bytes) (lay : List (List Sec)) : List (List Sec) :=
  lay.mapIdx fun k secs => relaySecs page (files[k]?.getD []) (startOf page k) secs

theorem relaySecs_pairs {page k off : Nat} {files : List Bytes} {file : Bytes} (hf : files[k]? = some file) (l : List Sec) :
    (relaySecs page file off l).map (fun s => (s.et, s.data)) =
      (spotsFrom page k off l).map (fun p => (p.type, p.content files)) := by
  induction l generalizing off with
  | nil => rfl
  | cons s l ih =>
    simp only [relaySecs, spotsFrom, List.map_cons, ih, Spot.content, hf, Option.getD_some]
    rfl

theorem relaySecs_end {page off : Nat} {file : Bytes} (l : List Sec) :
    endOf page off (relaySecs page file off l) = endOf page off l := by
  induction l generalizing off with
  | nil => rfl
  | cons s l ih => simp only [relaySecs, endOf, ih]

theorem relaySecs_meta {page off : Nat} {file : Bytes} (l : List Sec) :
    (relaySecs page file off l).map (fun s => (s.req, s.et, s.owner)) = l.map (fun s => (s.req, s.et, s.owner)) := by
  induction l generalizing off with
  | nil => rfl
  | cons s l ih => simp only [relaySecs, List.map_cons, ih]

/-- If the headers are those of before, the sections are well formed. -/
theorem relaySecs_ok {page off : Nat} {file file' : Bytes} {l : List Sec} 
    (hs : SecsOk page file off l) (hlen : file'.length = file.length) (hown : ∀ s ∈ l, s.owner = none)
    (hhd : ∀ pre s post, l = pre ++ s :: post → ∀ i, endOf page off pre ≤ i → i < endOf page off pre + 15 →
      file'[i]? = file[i]?) : SecsOk page file' off (relaySecs page file' off l) := by
  induction l generalizing off with
  | nil => trivial
  | cons s l ih =>
    obtain ⟨h1, h2⟩ := hs
    have hroom := h1.room
    have hin := h1.inside
    have hreq := h1.req
    have hdl : (slice file' (off + 15) s.data.length).length = s.data.length := by
      simp [slice]; omega
    have hh : ({ s with data := slice file' (off + 15) s.data.length } : Sec).header page = s.header page := by
      unfold Sec.header Sec.filled
      simp only [hdl]
    refine ⟨⟨h1.req, h1.size, by rw [hlen]; exact h1.inside, by simp only [hdl]; exact hroom, ?_, by simp only [hdl], ?_⟩,
      ih h2 (fun x hx => hown x (by simp [hx])) ?_⟩
    · rw [hh, slice_congr (f := file), h1.header]
      intro i hi1 hi2
      have := enc_header_le (s.header page)
      exact hhd [] s l rfl i hi1 (by simp only [endOf]; omega)
    · intro hc
      rw [show ({ s with data := slice file' (off + 15) s.data.length } : Sec).owner = s.owner from rfl,
        hown s (by simp)] at hc
      simp at hc
    · intro pre x post hl i hi1 hi2
      exact hhd (s :: pre) x post (by rw [hl]; rfl) i hi1 hi2

theorem mem_spotsOf {page : Nat} {lay : List (List Sec)} {p : Spot} :
    p ∈ spotsOf page lay ↔ ∃ secs, lay[p.file]? = some secs ∧ p ∈ spotsFrom page p.file (startOf page p.file) secs := by
  unfold spotsOf
  constructor
  · intro h
    obtain ⟨l, hl, hp⟩ := List.mem_flatten.1 h
    obtain ⟨k, hk⟩ := List.getElem?_of_mem hl
    rw [List.getElem?_mapIdx] at hk
    obtain ⟨secs, hs, rfl⟩ := Option.map_eq_some_iff.1 hk
    have := spotsFrom_file hp
    subst this
    exact ⟨secs, hs, hp⟩
  · rintro ⟨secs, hs, hp⟩
    refine List.mem_flatten.2 ⟨_, List.mem_of_getElem? (i := p.file) ?_, hp⟩
    rw [List.getElem?_mapIdx, hs]; rfl

variable {page : Nat} {files files' : List Bytes} {lay : List (List Sec)}

theorem relay_get {k : Nat} {x : List Sec} (h : (relay page files' lay)[k]? = some x) :
    ∃ secs, lay[k]? = some secs ∧ x = relaySecs page (files'[k]?.getD []) (startOf page k) secs := by
  unfold relay at h
  rw [List.getElem?_mapIdx] at h
  obtain ⟨secs, hs, rfl⟩ := Option.map_eq_some_iff.1 h
  exact ⟨secs, hs, rfl⟩

theorem DamagedIn.mono {a b : List Spot} (h : DamagedIn a files files') (hab : ∀ p ∈ a, p ∈ b) :
    DamagedIn b files files' :=
  ⟨h.1, fun k file hf => by
    obtain ⟨f', h1, h2, h3⟩ := h.2 k file hf
    exact ⟨f', h1, h2, fun i hi => h3 i fun p hp => hi p (hab p hp)⟩⟩

/-- Damage within the spots leaves the sections. -/
theorem holds_damaged (hh : Holds page files lay) (hown : ∀ s ∈ lay.flatten, s.owner = none) (hpg : 13 < page)
    (hd : DamagedIn (spotsOf page lay) files files') : Holds page files' (relay page files' lay) := by
  have hlen : (relay page files' lay).length = lay.length := by simp [relay]
  have get : ∀ (k : Nat) file' x, files'[k]? = some file' → (relay page files' lay)[k]? = some x →
      ∃ file secs, files[k]? = some file ∧ lay[k]? = some secs ∧ x = relaySecs page file' (startOf page k) secs ∧
        file'.length = file.length ∧ ∀ i, (∀ p ∈ spotsOf page lay, ¬ p.Covers k i) → file'[i]? = file[i]? := by
    intro k file' x hf' hx
    obtain ⟨secs, hl, rfl⟩ := relay_get hx
    obtain ⟨file, hf⟩ := hh.lookup hl
    obtain ⟨f2, h1, h2, h3⟩ := hd.2 k file hf
    obtain rfl := Option.some.inj (hf'.symm.trans h1)
    exact ⟨file, secs, hf, hl, by rw [hf']; rfl, h2, h3⟩
  have mem : ∀ (k : Nat) secs, lay[k]? = some secs → ∀ s ∈ secs, s.owner = none := fun k secs hl s hs =>
    hown s (List.mem_flatten.2 ⟨secs, List.mem_of_getElem? hl, hs⟩)
  refine ⟨hh.page_pos, hh.page_max, by rw [hlen, hd.1]; exact hh.len, by rw [hlen]; exact hh.pos, ?_, ?_, ?_, ?_⟩
  · intro k file' x hf' hx
    obtain ⟨file, secs, hf, hl, rfl, h2, h3⟩ := get k file' x hf' hx
    have hso := hh.secs k file secs hf hl
    refine relaySecs_ok hso h2 (mem k secs hl) ?_
    intro pre s post he i hi1 hi2
    refine h3 i fun p hp hc => ?_
    obtain ⟨secs2, hl2, hp2⟩ := mem_spotsOf.1 hp
    obtain rfl := hc.1
    obtain rfl := Option.some.inj (hl.symm.trans hl2)
    subst he
    exact spots_clear hh.page_pos hso hp2 hi1 hi2 hc
  · intro k file' x hf' hx hk
    obtain ⟨file, secs, hf, hl, rfl, h2, h3⟩ := get k file' x hf' hx
    rw [relaySecs_end, h2]
    exact hh.cut k file secs hf hl (by omega)
  · intro file' hf'
    obtain ⟨x, hx⟩ : ∃ x, (relay page files' lay)[0]? = some x :=
      ⟨_, List.getElem?_eq_getElem (by rw [hlen]; exact hh.pos)⟩
    obtain ⟨file, secs, hf, hl, rfl, h2, h3⟩ := get 0 file' x hf' hx
    rw [slice_congr (f := file), hh.main_at file hf]
    intro i _ hi
    refine h3 i fun p hp hc => ?_
    obtain ⟨secs2, hl2, hp2⟩ := mem_spotsOf.1 hp
    have h4 := spotsFrom_lower hp2
    rw [hc.1] at h4
    have := enc_mainHeader_le (mainHd page)
    have := hc.2.1
    simp only [startOf, if_true] at h4
    omega
  · intro k hk hx
    obtain ⟨secs, hl, he⟩ := relay_get hx
    cases secs with
    | nil => exact hh.nonempty k hk hl
    | cons a l => simp [relaySecs] at he

theorem relay_pairs (hh : Holds page files lay) (hd : files'.length = files.length) :
    (relay page files' lay).flatten.map (fun s => (s.et, s.data)) =
      (spotsOf page lay).map (fun p => (p.type, p.content files')) := by
  unfold relay spotsOf
  rw [List.map_flatten, List.map_flatten]
  congr 1
  apply List.ext_getElem?
  intro k
  simp only [List.getElem?_map, List.getElem?_mapIdx]
  cases hl : lay[k]? with
  | none => rfl
  | some secs =>
    have hk := (List.getElem?_eq_some_iff.1 hl).1
    have := hh.len
    have hf : files'[k]? = some files'[k] := List.getElem?_eq_getElem (by omega)
    simp only [Option.map_some, Option.some.injEq, hf, Option.getD_some]
    exact relaySecs_pairs hf secs

theorem pairs_filter {α : Type} {l : List α} {f : α → EntryType} {g : α → Bytes} (t : EntryType) :
    (l.filter (fun a => f a == t)).map g = ((l.map fun a => (f a, g a)).filter (fun x => x.1 == t)).map (·.2) := by
  induction l with
  | nil => rfl
  | cons a l ih =>
    by_cases h : f a = t
    · simp [h, ih]
    · simp [h, ih]

/-! ### What a history leaves -/

/-- The sections hold the objects, each one in one of them. -/
def Whole (secs objs : List Bytes) : Prop := ∃ gs : List (List Bytes), secs = gs.map List.flatten ∧ objs = gs.flatten

theorem Whole.logged {a b objs : List Bytes} {obj : Bytes} (h : Whole a objs) (hs : SecLogged a b obj) :
    Whole b (objs ++ [obj]) := by
  obtain ⟨gs, rfl, rfl⟩ := h
  rcases hs with ⟨P, d, h1, rfl⟩ | ⟨_, _, rfl⟩
  · rcases List.eq_nil_or_concat gs with rfl | ⟨G, g, rfl⟩
    · simp at h1
    · rw [List.concat_eq_append, List.map_append] at h1
      obtain ⟨rfl, h2⟩ := List.append_inj' h1 rfl
      refine ⟨G ++ [g ++ [obj]], ?_, by simp⟩
      simp only [List.map_cons, List.map_nil, List.cons.injEq, and_true] at h2
      simp [h2]
  · exact ⟨gs ++ [[obj]], by simp, by simp⟩

theorem str_whole {page slabSize : Nat} (hp : 13 < page) {ops : List LogOp} {s : LogSys}
    {lay : List (List Sec)} {live : List (Option (EntryType × Nat))} {out : EntryType → Bytes}
    (hi : StrInv page slabSize s lay live out) (hops : HistoryOk page slabSize live ops)
    {objs : EntryType → List Bytes} (hw : ∀ t, Whole (secData lay.flatten t) (objs t)) :
    ∃ s' lay' live', s.steps ops = .ok s' ∧ StrInv page slabSize s' lay' live' (fun t => out t ++ logged t live ops) ∧
      (∀ t, Whole (secData lay'.flatten t) (objs t ++ objsOf t live ops)) ∧
      ∀ t idle, UsedFirst t idle live ops → Tidy idle (secData lay.flatten t) →
        EmptyLast (secData lay'.flatten t) := by
  induction ops generalizing s lay live out objs with
  | nil => exact ⟨s, lay, live, rfl, by simpa [logged] using hi, fun t => by simpa [objsOf] using hw t,
      fun _ _ _ h => h.emptyLast⟩
  | cons op ops ih =>
    cases op with
    | openStream t n =>
      obtain ⟨h1, h2, h3, h4, h5⟩ := hops
      obtain ⟨s1, lay1, e1, hi1, hd1⟩ := str_open hp hi h1 h2 h3 h4
      obtain ⟨s2, lay2, live2, e2, hi2, hd2, ht2⟩ := ih hi1 h5 (objs := objs) (by
        intro u
        rw [hd1 u]
        obtain ⟨gs, g1, g2⟩ := hw u
        split
        · exact ⟨gs ++ [[]], by simp [g1], by simp [g2]⟩
        · exact ⟨gs, by simp [g1], g2⟩)
      refine ⟨s2, lay2, live2, by simp only [LogSys.steps, e1, e2], by simpa only [logged] using hi2,
        fun u => by simpa [objsOf, objOf, liveStep] using hd2 u, ?_⟩
      intro u idle hu hf
      have hd := hd1 u
      refine ht2 u _ hu.2 ?_
      by_cases hut : u = t
      · rw [hd, if_pos hut, beq_iff_eq.2 hut.symm, Bool.or_true]
        have hf' := hf
        rw [hu.1 hut.symm] at hf'
        exact hf'.opened
      · rw [hd, if_neg hut, List.append_nil, show (t == u) = false from beq_eq_false_iff_ne.2 (Ne.symm hut),
          Bool.or_false]
        exact hf
    | log i obj =>
      obtain ⟨h1, h2⟩ := hops
      obtain ⟨s1, lay1, e1, hi1, hd1⟩ := str_log hp hi h1
      obtain ⟨s2, lay2, live2, e2, hi2, hd2, ht2⟩ := ih hi1 h2 (objs := fun t => objs t ++ objOf t live (.log i obj)) (by
        intro u
        by_cases hu : ∃ m, live[i]? = some (some (u, m))
        · obtain ⟨m, hm⟩ := hu
          rcases hd1 u with ⟨hne, _⟩ | h
          · exact absurd hm (hne m)
          · simp only [objOf, hm, if_true]
            exact (hw u).logged h
        · have ho : objOf u live (.log i obj) = [] := by
            simp only [objOf]
            split
            · rename_i t' m hm
              rw [if_neg]
              rintro rfl
              exact hu ⟨m, hm⟩
            · rfl
          have hl : logged u live [.log i obj] = [] := by
            simp only [logged, List.append_nil]
            split
            · rename_i t' m hm
              rw [if_neg]
              rintro rfl
              exact hu ⟨m, hm⟩
            · rfl
          rw [ho, List.append_nil]
          rcases hd1 u with ⟨_, h⟩ | h
          · rw [h]; exact hw u
          · have hb := hi.flat.data u
            have ha := (hi1.flat.data u).trans
              (show _ = out u ++ logged u live [.log i obj] by simp only [logged, List.append_nil]; rfl)
            rw [hl, List.append_nil, ← hb] at ha
            have ha' := congrArg List.length ha
            rw [show List.map Sec.data (List.filter (fun x => x.et == u) lay1.flatten) = secData lay1.flatten u from rfl,
              show List.map Sec.data (List.filter (fun x => x.et == u) lay.flatten) = secData lay.flatten u from rfl] at ha'
            rcases h with ⟨P, d, x1, x2⟩ | ⟨x0, _, x2⟩
            · rw [x1, x2] at ha'
              simp only [List.flatten_append, List.flatten_cons, List.flatten_nil, List.length_append, List.length_nil,
                Nat.add_zero] at ha'
              have : obj.flatten = [] := List.length_eq_zero_iff.1 (by omega)
              rw [x2, this, List.append_nil, ← x1]
              exact hw u
            · rw [x2] at ha'
              simp only [List.flatten_append, List.flatten_cons, List.flatten_nil, List.length_append, List.length_nil,
                Nat.add_zero] at ha'
              exact absurd (List.length_eq_zero_iff.1 (by omega)) x0)
      refine ⟨s2, lay2, live2, by simp only [LogSys.steps, e1, e2], ?_,
        fun u => by simpa [objsOf, liveStep] using hd2 u, ?_⟩
      · simp only [List.append_assoc] at hi2
        simp only [logged]
        exact hi2
      · intro u idle hu hf
        refine ht2 u _ hu ?_
        rcases hd1 u with ⟨hne, h⟩ | h
        · have : logged u live [.log i obj] = [] := by
            simp only [logged, List.append_nil]
            split
            · rename_i t' m hm
              rw [if_neg (fun hc => hne m (by rw [hm, hc]))]
            · rfl
          rw [h, this, List.isEmpty_nil, Bool.and_true]
          exact hf
        · refine hf.logged h fun ho => ?_
          have : logged u live [.log i obj] = [] := by
            simp only [logged, List.append_nil]
            split
            · rw [ho, ite_self]
            · rfl
          rw [this, List.isEmpty_nil, Bool.and_true]
    | drop i =>
      obtain ⟨s1, lay1, e1, hi1, _, hd1⟩ := str_drop hi i
      obtain ⟨s2, lay2, live2, e2, hi2, hd2, ht2⟩ := ih hi1 hops (objs := objs) (fun u => by rw [hd1]; exact hw u)
      exact ⟨s2, lay2, live2, by simp only [LogSys.steps, e1, e2], by simpa only [logged] using hi2,
        fun u => by simpa [objsOf, objOf, liveStep] using hd2 u,
        fun u idle hu hf => ht2 u idle hu (by rw [hd1]; exact hf)⟩

/-- The files of a whole history and the sections in them. -/
theorem writeLog_holds {page slabSize : Nat} (hz : SizesOk page slabSize) {ops : List LogOp}
    (hops : HistoryOk page slabSize [] ops) :
    ∃ files lay L, writeLog slabSize page ops = .ok files ∧ Holds page files lay ∧
      lay.flatten = L ++ [⟨80, .lastEntry, [], none⟩] ∧
      (∀ s ∈ L, s.et ≠ .empty ∧ s.et ≠ .lastEntry ∧ s.owner = none) ∧
      ∀ t, Whole (secData L t) (objsOf t [] ops) ∧ (secData L t).flatten = logged t [] ops ∧
        (UsedFirst t false [] ops → EmptyLast (secData L t)) := by
  have hp := hz.page_min
  have hal := align_le (page := page) (by omega) 80
  have hsl := hz.slab
  obtain ⟨lg, e1, hi1, hpg, hss⟩ := inv_new (slabSize := slabSize) (page := page) (by omega) (by omega)
  have hi : StrInv page slabSize ⟨lg, []⟩ [[]] [] (fun _ => []) := by
    refine ⟨?_, hpg, hss, ?_, rfl, by simp, ?_⟩
    · have : (⟨lg, []⟩ : LogSys).own = fun _ => none := by funext j; simp [LogSys.own]
      rw [this]; exact hi1
    · intro k hk hc
      have := (List.getElem?_eq_some_iff.1 hc).1
      simp at this; omega
    · refine ⟨?_, by simp, by simp, ?_⟩
      · intro i j t h; simp [LogSys.typ] at h
      · intro i t h; simp [LogSys.typ] at h
  obtain ⟨s2, lay2, live2, e2, hi2, hd2, ht2⟩ := str_whole hp hi hops (objs := fun _ => [])
    (fun t => ⟨[], by simp [secData], rfl⟩)
  obtain ⟨s3, lay3, live3, e3, hi3, h31, hd3, h32⟩ := str_drops (l := List.range s2.streams.length) hi2
  have hnone : ∀ i, s3.own i = none := by
    intro i
    unfold LogSys.own
    cases hx : s3.streams[i]? with
    | none => rfl
    | some o =>
      cases o with
      | none => rfl
      | some st =>
        obtain ⟨h1, h2⟩ := h32 i st hx
        have := (List.getElem?_eq_some_iff.1 h1).1
        exact absurd (List.mem_range.2 this) h2
  have hmx := hz.page_max
  have h80 : align page 80 < 4294967296 := by
    have : align page 80 ≤ 80 + page - 1 := Nat.div_mul_le_self _ _
    omega
  obtain ⟨files, lay4, e4, hh, hfl, _⟩ := inv_close hi3.inv hi3.nonempty
    (by rw [hi3.pageEq]; exact hmx) hnone
    (by rw [hi3.pageEq]; exact ⟨hp, by omega, h80⟩)
    (by rw [hi3.pageEq, hi3.slabEq]; exact hsl)
  rw [hi3.pageEq] at hh
  refine ⟨files, lay4, lay3.flatten, ?_, hh, hfl, ?_, ?_⟩
  · unfold writeLog
    rw [e1]
    simp only [e2]
    rw [e3]
    exact e4
  · intro x hm
    refine ⟨(hi3.flat.types x hm).1, (hi3.flat.types x hm).2, ?_⟩
    cases hxo : x.owner with
    | none => rfl
    | some j =>
      obtain ⟨g, hg⟩ := hi3.inv.own_conv x hm j hxo
      rw [hnone] at hg; exact absurd hg (by simp)
  · intro t
    rw [hd3]
    refine ⟨by simpa using hd2 t, ?_, fun hu => ht2 t false hu (by simp [secData, Tidy])⟩
    have hd := hi3.flat.data t
    simp only [List.nil_append] at hd
    rw [← hd3, ← hd]; rfl

/-! ### Reading damaged files -/

theorem spots_relay (hh : Holds page files lay) (hd : files'.length = files.length) {L : List Sec} {e : Sec}
    (hlay : lay.flatten = L ++ [e]) :
    ∃ S x L', spotsOf page lay = S ++ [x] ∧ (relay page files' lay).flatten = L' ++ [{ e with data := x.content files' }] ∧
      L'.map (fun s => (s.et, s.data)) = S.map (fun p => (p.type, p.content files')) ∧
      L'.map (fun s => (s.req, s.et, s.owner)) = L.map (fun s => (s.req, s.et, s.owner)) := by
  have h1 := relay_pairs hh hd (page := page)
  have h2 : (relay page files' lay).flatten.map (fun s => (s.req, s.et, s.owner)) =
      lay.flatten.map (fun s => (s.req, s.et, s.owner)) := by
    unfold relay
    rw [List.map_flatten, List.map_flatten]
    congr 1
    apply List.ext_getElem?
    intro k
    simp only [List.getElem?_map, List.getElem?_mapIdx]
    cases hl : lay[k]? with
    | none => rfl
    | some secs => simp only [Option.map_some, relaySecs_meta]
  rw [hlay] at h2
  rcases List.eq_nil_or_concat (relay page files' lay).flatten with h0 | ⟨L', e', h0⟩
  · rw [h0] at h2; simp at h2
  rcases List.eq_nil_or_concat (spotsOf page lay) with h3 | ⟨S, x, h3⟩
  · rw [h0, h3] at h1; simp at h1
  rw [List.concat_eq_append] at h0 h3
  rw [h0, h3, List.map_append, List.map_append] at h1
  rw [h0, List.map_append, List.map_append] at h2
  obtain ⟨h4, h5⟩ := List.append_inj' h1 rfl
  obtain ⟨h6, h7⟩ := List.append_inj' h2 rfl
  refine ⟨S, x, L', h3, ?_, h4, h6⟩
  rw [h0]
  congr 2
  obtain ⟨r, t, d, o⟩ := e'
  simp only [List.map_cons, List.map_nil, List.cons.injEq, Prod.mk.injEq, and_true] at h5 h7
  obtain ⟨rfl, rfl, rfl⟩ := h7
  rw [h5.2]

end ULog
end Verif
