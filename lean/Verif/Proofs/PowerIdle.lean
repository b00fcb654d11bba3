import Verif.Proofs.PowerThreads
/-! Helper lemmas: as long as a stream keeps the first section of the log, nothing but the main header is flushed. -/
namespace Verif
namespace ULog
open Bincode

variable {page slabSize : Nat}

theorem first_start {x : SecSys} {lay : List (List Sec)} (hi : SecInv page slabSize x lay) {e : Issued}
    (he : e ∈ x.issued) (h0 : e.h.slab = 0) : page ≤ e.h.off := by
  have hm : (e.h.slab, e.h.off, e.h.req) ∈ cells page 0 (shape lay) := by
    rw [hi.cells]; exact List.mem_map.2 ⟨e, he, rfl⟩
  obtain ⟨pre, s, post, h1, h2, h3⟩ := mem_cells_lay hm
  simp only [h0] at h2
  rw [h2]
  exact le_endOf page (startOf page 0) pre

theorem first_only {x : SecSys} {lay : List (List Sec)} (hp : 0 < page) (hi : SecInv page slabSize x lay) {j : Nat} {e : Issued}
    (he : x.issued[j]? = some e) (h0 : e.h.slab = 0) (h1 : e.h.off = page) : j = 0 := by
  apply Classical.byContradiction
  intro hj
  obtain ⟨a, ha⟩ : ∃ a, x.issued[0]? = some a :=
    ⟨_, List.getElem?_eq_getElem (by have := (List.getElem?_eq_some_iff.1 he).1; omega)⟩
  obtain ⟨d1, d2⟩ := issued_disjoint hi ha he (by omega)
  have hs : a.h.slab = 0 := by omega
  have h2 := d2 (by omega)
  have h3 := first_start hi (List.mem_of_getElem? ha) hs
  obtain ⟨_, h4, h5⟩ := hi.bound a (List.mem_of_getElem? ha)
  have h6 := align_le (page := page) hp a.h.req
  unfold Handle.last at h2
  omega

theorem idle_flushed (hz : SizesOk page slabSize) {a b : List ConcOp} {c1 c : ConcSys} (hin : Interleaved [] (a ++ b))
    (hops : HistoryOk page slabSize [] (calls (a ++ b))) (h1 : runConc slabSize page a = .ok c1)
    (h : runConc slabSize page (a ++ b) = .ok c) {st : Stream} (hst : some st ∈ c.sys.streams)
    (hs0 : st.section_.slab = 0) (hs1 : st.section_.off = page) : c1.sys.lg.flushedOf 0 ≤ page := by
  have hp := hz.page_min
  have hops1 : HistoryOk page slabSize [] (calls a) := by
    rw [calls_append] at hops; exact historyOk_prefix hops
  obtain ⟨c1', x1, lay1, live1, out1, pend1, objs, po, g1, hi1, hT1, _, _, hmore⟩ :=
    runConc_tracks (t := .lastEntry) hz (interleaved_prefix hin) hops1
  rw [h1] at g1
  cases g1
  obtain ⟨c', x, lay, live, out, pend, objs', po', g2, hi, hT, _, hgrow, _⟩ :=
    ctracks_steps hz hi1 hT1 (interleaved_suffix hin) (hmore _ (by rw [← calls_append]; exact hops))
  rw [runConc_split h1 g2] at h
  cases h
  obtain ⟨i, hsti⟩ := List.getElem?_of_mem hst
  obtain ⟨j, d, hj⟩ := hT.tracks.sec i st hsti
  obtain ⟨layx, hx⟩ := reach_inv hz hT.tracks.reach
  obtain ⟨lay1x, hx1⟩ := reach_inv hz hT1.tracks.reach
  obtain rfl := first_only (by omega) hx hj hs0 hs1
  rw [← hT1.tracks.lg]
  cases hn : x1.issued[0]? with
  | some e =>
    obtain ⟨e', k1, k2, k3, _, _, k6⟩ := hgrow 0 e hn
    rw [hj] at k1
    obtain rfl := Option.some.inj k1
    have ho : e.isOpen = true := by
      cases ho : e.isOpen with
      | true => rfl
      | false => have := k6 ho; rw [← this] at ho; cases ho
    have := open_flushed hx1 (List.mem_of_getElem? hn) ho
    simp only at k2 k3
    rw [← k2, ← k3, hs0, hs1] at this
    exact this
  | none =>
    -- nothing was handed out yet
    have hnil : x1.issued = [] := List.eq_nil_of_length_eq_zero (by have := List.getElem?_eq_none_iff.1 hn; omega)
    have hfl : lay1x.flatten = [] := by rw [hx1.flat, hnil]; rfl
    obtain ⟨file, secs, hf, hl⟩ := hx1.inv.front_at
    have hsecs : secs = [] := by
      have := List.flatten_eq_nil_iff.1 hfl secs (List.mem_of_getElem? hl)
      exact this
    have hlen : lay1x.length = 1 := by
      have h2 := hx1.nonempty
      have h3 := hx1.inv.front_suffix
      apply Classical.byContradiction
      intro hne
      obtain ⟨s0, hs0⟩ : ∃ s0, lay1x[1]? = some s0 := ⟨_, List.getElem?_eq_getElem (by omega)⟩
      have := List.flatten_eq_nil_iff.1 hfl s0 (List.mem_of_getElem? hs0)
      subst this
      exact h2 1 (by omega) hs0
    have hsuf : x1.lg.front.suffix = 0 := by have := hx1.inv.front_suffix; omega
    have hmem : x1.lg.front ∈ x1.lg.live := by simp [Logger.live]
    have hok := hx1.inv.live _ hmem file secs hf hl
    rw [hsecs, hsuf, hx1.pageEq] at hok
    have h3 := hok.flushed_cgp
    have h4 := hok.cgp
    have h5 := align_le (page := page) (by omega) x1.lg.front.cgp
    have h6 : endOf page (startOf page 0) [] = page := rfl
    have h7 := flushedOf_live hx1.inv hmem
    rw [hsuf] at h7
    omega

theorem idle_disk (hz : SizesOk page slabSize) {ops : List ConcOp} {c : ConcSys} (hin : Interleaved [] ops)
    (hops : HistoryOk page slabSize [] (calls ops)) (h : runConc slabSize page ops = .ok c) {st : Stream}
    (hst : some st ∈ c.sys.streams) (hs0 : st.section_.slab = 0) (hs1 : st.section_.off = page) (n : Nat)
    (hn : n ≤ ops.length) :
    ∃ c1 disk, PoweredThreads true page slabSize (ops.take n) c1 disk ∧
      ∀ d, disk[0]? = some d → ∀ i b, page ≤ i → d[i]? = some b → b = 0 := by
  induction n with
  | zero =>
    have hp := hz.page_min
    have hpz := page_le hz
    obtain ⟨lg, e1, _⟩ := inv_new (slabSize := slabSize) (page := page) (by omega) (by omega)
    refine ⟨_, _, .new e1, fun d hd i b _ hb => ?_⟩
    simp only [List.getElem?_cons_zero, Option.some.injEq] at hd
    subst hd
    rw [List.getElem?_replicate] at hb
    split at hb <;> simp_all
  | succ n ih =>
    obtain ⟨c1, disk, hp, hzero⟩ := ih (by omega)
    have htk : ops.take (n + 1) = ops.take n ++ [ops[n]] := by rw [List.take_succ, List.getElem?_eq_getElem (by omega)]; rfl
    have hsplit : ops.take (n + 1) ++ ops.drop (n + 1) = ops := List.take_append_drop _ _
    have hops1 : HistoryOk page slabSize [] (calls (ops.take (n + 1))) := by
      rw [← hsplit, calls_append] at hops; exact historyOk_prefix hops
    have hin1 : Interleaved [] (ops.take (n + 1)) := by
      rw [← hsplit] at hin; exact interleaved_prefix hin
    have hrun := powered_run hp
    obtain ⟨c2, g1, g2⟩ : ∃ c2, runConc slabSize page (ops.take (n + 1)) = .ok c2 ∧ c1.step ops[n] = .ok c2 := by
      obtain ⟨a, b, e1, e2, _⟩ := runConc_effects hz (htk ▸ hin1) (htk ▸ hops1)
      rw [hrun] at e1
      cases e1
      refine ⟨b, ?_, e2⟩
      rw [htk]
      exact runConc_split hrun (by simp [ConcSys.steps, e2])
    have hfl := idle_flushed hz (a := ops.take (n + 1)) (b := ops.drop (n + 1)) (by rw [hsplit]; exact hin)
      (by rw [hsplit]; exact hops) g1 (by rw [hsplit]; exact h) hst hs0 hs1
    refine ⟨c2, _, by rw [htk]; exact .act hp g2, fun d hd i b hi hb => ?_⟩
    simp only [diskAfter, List.getElem?_mapIdx] at hd
    obtain ⟨f, hf, rfl⟩ := Option.map_eq_some_iff.1 hd
    rw [List.getElem?_mapIdx] at hb
    obtain ⟨v, hv, rfl⟩ := Option.map_eq_some_iff.1 hb
    rw [if_neg (by simp only [Bool.and_eq_true, decide_eq_true_eq]; omega)]
    cases h0 : disk[0]? with
    | none => rfl
    | some d =>
      simp only [Option.getD_some]
      cases hb' : d[i]? with
      | none => rfl
      | some b => exact hzero d h0 i b hi hb'

theorem zero_header {file : Bytes} (hzero : ∀ b ∈ file, b = 0) {h : SectionHeader} {rest : Bytes}
    (hd : (dec : Dec SectionHeader) file = .ok (h, rest)) : h.magicOk = false := by
  cases file with
  | nil => cases hd
  | cons a file =>
    obtain rfl := hzero a (by simp)
    have h1 : (dec : Dec UInt8) (0 :: file) = .ok (0, file) := rfl
    simp only [show (dec : Dec SectionHeader) = (do
      let a ← dec
      let b ← dec
      let t ← dec
      let s ← dec
      let f ← dec
      pure ⟨a, b, t, s, f⟩ : Dec SectionHeader) from rfl, Dec.bind_apply, h1] at hd
    have : h.m0 = 0 := by
      repeat' (split at hd)
      all_goals first
        | cases hd; done
        | (injection hd with hd; injection hd with hd _; rw [← hd])
    simp [SectionHeader.magicOk, this]

theorem idle_lost (hz : SizesOk page slabSize) {ops : List ConcOp} {c : ConcSys} (hin : Interleaved [] ops)
    (hops : HistoryOk page slabSize [] (calls ops)) (h : runConc slabSize page ops = .ok c) {st : Stream}
    (hst : some st ∈ c.sys.streams) (hs0 : st.section_.slab = 0) (hs1 : st.section_.off = page) :
    ∃ disk disk', PoweredThreads true page slabSize ops c disk ∧ PowerLost c.sys.lg.files disk disk' ∧
      ∀ t ns, (drainLog disk' t ns).1 = [] := by
  have hp := hz.page_min
  obtain ⟨c1, disk, hpow, hzero⟩ := idle_disk hz hin hops h hst hs0 hs1 ops.length (Nat.le_refl _)
  rw [List.take_length] at hpow
  have hrun := powered_run hpow
  rw [h] at hrun
  cases hrun
  have hod := threads_disk hz hpow hin hops
  obtain ⟨c', x, lay, live, out, pend, objs, po, g1, hi, hT, _⟩ := runConc_tracks (t := .lastEntry) hz hin hops
  rw [h] at g1
  cases g1
  obtain ⟨layx, hx⟩ := reach_inv hz hT.tracks.reach
  have hlg := hT.tracks.lg
  obtain ⟨i, hsti⟩ := List.getElem?_of_mem hst
  obtain ⟨j, d, hj⟩ := hT.tracks.sec i st hsti
  have hslab := issued_slab hx hj
  simp only [hs0] at hslab
  rw [hlg] at hslab
  obtain ⟨f, hf⟩ : ∃ f, c.sys.lg.files[0]? = some f := ⟨_, List.getElem?_eq_getElem hslab⟩
  obtain ⟨d0, hd0, hdl, _⟩ := hod.same 0 f hf
  have hflen : page < f.length := by
    obtain ⟨sl, hsl, hsuf⟩ := hx.inv.owner_live (own_open hj rfl)
    rw [hs0] at hsuf
    have hb := hx.bound _ (List.mem_of_getElem? hj)
    obtain ⟨file, secs, hf', hl⟩ := hx.inv.slab_at hsl
    have := (hx.inv.live sl hsl file secs hf' hl).len
    rw [hsuf, hlg, hf] at hf'
    obtain rfl := Option.some.inj hf'
    rw [hx.slabEq] at this
    have h6 := align_le (page := page) (by omega) st.section_.req
    simp only at hb
    omega
  have hmain := hi.str.inv.main_at f hf
  have hml := hi.str.inv.main
  have hpe := hi.str.pageEq
  rw [hpe] at hmain hml
  have hnew0 : (disk.set 0 (f.take page ++ d0.drop page))[0]? = some (f.take page ++ d0.drop page) :=
    List.getElem?_set_self (List.getElem?_eq_some_iff.1 hd0).1
  refine ⟨disk, disk.set 0 (f.take page ++ d0.drop page), hpow, ⟨by simpa using hod.len, fun k g d' hg hd' => ?_⟩,
    fun t ns => ?_⟩
  · by_cases hk : k = 0
    · subst hk
      rw [hf] at hg
      obtain rfl := Option.some.inj hg
      rw [hnew0] at hd'
      obtain rfl := Option.some.inj hd'
      have hl : (f.take page).length = page := by rw [List.length_take]; omega
      refine ⟨by rw [List.length_append, hl, List.length_drop, hdl]; omega, fun i hi => ?_⟩
      by_cases hip : i < page
      · left
        rw [List.getElem?_append_left (by omega), List.getElem?_take_of_lt hip]
      · right
        rw [List.getElem?_append_right (by omega), hl, List.getElem?_drop, hd0, Option.getD_some,
          show page + (i - page) = i by omega, List.getElem?_eq_getElem (by omega)]
        rfl
    · rw [List.getElem?_set_ne (by omega)] at hd'
      obtain ⟨d, hd, hl, _⟩ := hod.same k g hg
      rw [hd'] at hd
      obtain rfl := Option.some.inj hd
      refine ⟨hl, fun i hi => .inr ?_⟩
      rw [hd', Option.getD_some, List.getElem?_eq_getElem (by omega)]
      rfl
  · have hrest : ∃ rest, f.take page ++ d0.drop page = enc (mainHd page) ++ rest := by
      obtain ⟨rest, hr⟩ := slice_prefix hmain
      have hr : f = enc (mainHd page) ++ rest := by simpa using hr
      refine ⟨(rest.take (page - (enc (mainHd page)).length)) ++ d0.drop page, ?_⟩
      conv => lhs; rw [hr, List.take_append, List.take_of_length_le (by omega)]
      rw [List.append_assoc]
    obtain ⟨rest, hrest⟩ := hrest
    have hopen : Reader.new (disk.set 0 (f.take page ++ d0.drop page)) = .ok ⟨0, page⟩ := by
      unfold Reader.new openSlab
      rw [hnew0]
      have hd : (dec : Dec MainHeader) (f.take page ++ d0.drop page) = .ok (mainHd page, rest) := by
        rw [hrest]; exact rt_mainHeader _ _
      have hpg : (mainHd page).firstSectionOffset.toNat = page := by
        show (UInt16.ofNat page).toNat = page
        rw [UInt16.toNat_ofNat']; exact Nat.mod_eq_of_lt hz.page_max
      have hmg : (mainHd page).magicOk = true := rfl
      simp only [if_pos, hd, hmg, hpg]
    have hhead : ∀ h, readHeader (disk.set 0 (f.take page ++ d0.drop page)) ⟨0, page⟩ ≠ .ok h := by
      intro h he
      unfold readHeader at he
      simp only [hnew0] at he
      split at he
      · cases he
      · split at he
        · cases he
        · rename_i hh rr hdec
          have hdrop : (f.take page ++ d0.drop page).drop page = d0.drop page := by
            rw [List.drop_append, List.drop_of_length_le (by rw [List.length_take]; omega), List.length_take,
              Nat.min_eq_left (by omega)]
            simp
          rw [hdrop] at hdec
          have := zero_header (fun b hb => by
            obtain ⟨i, hi⟩ := List.getElem?_of_mem hb
            rw [List.getElem?_drop] at hi
            exact hzero d0 hd0 _ b (by omega) hi) hdec
          rw [this] at he
          cases he
    have hadv : Reader.advance (disk.set 0 (f.take page ++ d0.drop page)) ⟨0, page⟩ = .ok ⟨0, page⟩ := by
      unfold Reader.advance
      simp only [hnew0]
      rw [if_neg]
      rw [List.length_append, List.length_take, List.length_drop, hdl]
      omega
    have hnext : ∀ fuel y, readNext (disk.set 0 (f.take page ++ d0.drop page)) t fuel ⟨0, page⟩ ≠ .ok y := by
      intro fuel y hy
      cases fuel with
      | zero => cases hy
      | succ fuel =>
        unfold readNext at hy
        rw [hadv] at hy
        simp only at hy
        split at hy
        · cases hy
        · cases hy
        · cases hy
        · rename_i hh he; exact hhead _ he
    unfold drainLog
    rw [hopen]
    simp only
    cases ns with
    | nil => rfl
    | cons n ns =>
      have hread : ∀ y, (IOReader.new ⟨0, page⟩).read (disk.set 0 (f.take page ++ d0.drop page)) t n ≠ .ok y := by
        intro y hy
        unfold IOReader.read at hy
        simp only [IOReader.new, List.length_nil, Nat.le_refl, if_true] at hy
        split at hy
        · cases hy
        · cases hy
        · cases hy
        · rename_i he; exact hnext _ _ he
        · rename_i he; exact hnext _ _ he
      unfold IOReader.drain
      split
      · rename_i he; exact absurd he (hread _)
      · rename_i he; exact absurd he (hread _)
      · rfl

end ULog
end Verif
