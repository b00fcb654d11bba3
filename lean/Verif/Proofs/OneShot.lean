import Verif.Spec.OneShot
import Verif.Proofs.ExampleApps
import Verif.Proofs.Launch
/-!
Lemmas for the examples that make one iteration.
-/
namespace Verif
namespace Examples
namespace Once
open Clock CopperList Planner Verif.Runtime

def plan_ : List Step := [⟨0, .source, [], some (0, "i32")⟩, ⟨1, .regular, [(0, "i32")], some (1, "i32")⟩, ⟨2, .sink, [(1, "i32")], some (2, "()")⟩]

theorem plan_eq : planOf graph = plan_ := by decide +kernel


def st_ (r l : Nat) : State Task := ⟨r, l, fun u => if u = 2 then .sink else if u = 1 then .task else if u = 0 then .source else init u⟩

theorem a1 (inp : Inputs) (o : Overflow) : startAll (app inp o) fresh = (⟨⟨⟨0,0,init⟩, (once inp).take 4⟩, fresh.mgr⟩, none) := by
  cases o <;> rfl
theorem a2 (inp : Inputs) (o : Overflow) : lifeAll (app inp o).env .preprocess (List.range 3) ⟨⟨0,0,init⟩, (once inp).take 4⟩ = (⟨⟨0,0,init⟩, (once inp).take 7⟩, .next) := by
  cases o <;> rfl
def mgr_ (o : Overflow) : Manager (List (Msg Int32)) := match fresh.mgr.create o with | .ok (m, _) => m | .panic => fresh.mgr
def cl_ (o : Overflow) : CL (List (Msg Int32)) := (mgr_ o).data[0]?.getD ⟨0, .free, []⟩

theorem b1 (o : Overflow) : fresh.mgr.create o = .ok (mgr_ o, some 0) := by cases o <;> rfl
theorem b2 (o : Overflow) : (mgr_ o).data[0]? = some (cl_ o) := by cases o <;> rfl
theorem b3 (inp : Inputs) (o : Overflow) : planLoop (app inp o).env plan_ (World.emit ⟨⟨0,0,init⟩, (once inp).take 7⟩ ⟨0,0,init⟩ (.created (cl_ o).id)) (cl_ o).msgs = .ok (⟨st_ 6 0, (once inp).take 14⟩, [⟨some 42, readings inp 0⟩, ⟨some 43, readings inp 1⟩, ⟨none, readings inp 2⟩], .next) := by
  cases o <;> rfl
theorem b4 (inp : Inputs) : collectMetadata plan_ [⟨some (42 : Int32), readings inp 0⟩, ⟨some 43, readings inp 1⟩, ⟨none, readings inp 2⟩] = .ok [readings inp 0, readings inp 1, readings inp 2] := rfl
theorem b5 (inp : Inputs) (o : Overflow) : ∃ m, finishList ⟨3, plan_, (app inp o).env, o⟩ (cl_ o).id [⟨some 42, readings inp 0⟩, ⟨some 43, readings inp 1⟩, ⟨none, readings inp 2⟩]
   ⟨⟨st_ 6 0, (once inp).take 14⟩, (mgr_ o).write 0 (fun c => { c with state := .processing, msgs := [⟨some 42, readings inp 0⟩, ⟨some 43, readings inp 1⟩, ⟨none, readings inp 2⟩] })⟩
   = .ok (⟨⟨st_ 6 1, (once inp).take 16⟩, m⟩, none) := by
  cases o <;> exact ⟨_, rfl⟩
theorem b6 (inp : Inputs) (o : Overflow) : lifeAll (app inp o).env .postprocess (List.range 3) ⟨st_ 6 1, (once inp).take 16⟩ = (⟨st_ 6 1, (once inp).take 19⟩, .next) := by
  cases o <;> rfl
theorem b7 (inp : Inputs) (o : Overflow) (m) : stopAll (app inp o) ⟨⟨st_ 6 1, (once inp).take 19⟩, m⟩ = (⟨⟨st_ 6 1, once inp⟩, m⟩, none) := by
  cases o <;> rfl

theorem b8 {inp : Inputs} (hc : Clocked inp) (o : Overflow) :
    ∃ d, endToEnd o [readings inp 0, readings inp 1, readings inp 2] = .ok d := by
  have h : ∀ k, (⟨inp.clock k⟩ : OptionCuTime).unwrap = some (inp.clock k) := by
    intro k
    have hb := hc.bound k
    have : ((inp.clock k).ns == NONE_VALUE) = false := by
      rw [beq_eq_false_iff_ne]
      intro e
      rw [e] at hb
      exact absurd hb (by decide)
    simp [OptionCuTime.unwrap, OptionCuTime.isNone, this]
  have hm := hc.mono 0 5 (by decide)
  have hl := (inp.clock 5).ns.toNat_lt
  show ∃ d, (match (⟨inp.clock 5⟩ : OptionCuTime).unwrap, (⟨inp.clock 0⟩ : OptionCuTime).unwrap with
    | some e, some s => Rs.ofOption (e.sub o s)
    | _, _ => .panic) = .ok d
  rw [h, h]
  show ∃ d, Rs.ofOption ((inp.clock 5).sub o (inp.clock 0)) = .ok d
  have e : (((inp.clock 5).ns.toNat : Int) - (inp.clock 0).ns.toNat) =
    (((inp.clock 5).ns.toNat - (inp.clock 0).ns.toNat : Nat) : Int) := by omega
  refine ⟨⟨UInt64.ofNat ((inp.clock 5).ns.toNat - (inp.clock 0).ns.toNat)⟩, ?_⟩
  unfold CuDuration.sub
  rw [e, u64Arith_exact _ _ (by omega)]
  rfl

theorem main_eq {inp : Inputs} (hc : Clocked inp) (o : Overflow) : ∃ m, main inp o = .ok ⟨⟨st_ 6 1, once inp⟩, m⟩ := by
  obtain ⟨d, hd⟩ := b8 hc o
  obtain ⟨m, hf⟩ := b5 inp o
  refine ⟨m, ?_⟩
  unfold main
  rw [a1]
  have : runOneIteration (app inp o) ⟨⟨⟨0,0,init⟩, (once inp).take 4⟩, fresh.mgr⟩ = .ok (⟨⟨st_ 6 1, (once inp).take 19⟩, m⟩, none) := by
    have hp : app inp o = ⟨3, plan_, (app inp o).env, o⟩ := by rw [← plan_eq]; rfl
    unfold runOneIteration
    rw [hp]
    simp only [a2, b1, b2, b3, b4, hd, hf, b6]
  simp only [this, b7]

end Once
end Examples

namespace ULog
open Bincode

theorem addFront_ok {lg : Logger} {file : Bytes} (hf : lg.files[lg.front.suffix]? = some file) (t : EntryType)
    {req : Nat} (hp : 13 < lg.pageSize) (hr : 15 ≤ req) (ha : align lg.pageSize req < 2 ^ 32)
    (hfit : align lg.pageSize lg.front.cgp + align lg.pageSize req ≤ file.length) :
    ∃ file' h, file'.length = file.length ∧ h.used = 0 ∧ h.req = req ∧
      h.slab = lg.front.suffix ∧ h.off = align lg.pageSize lg.front.cgp ∧
      lg.addFront t req = .ok ({ lg with
        front := { lg.front with
          inFlight := lg.front.inFlight ++ [align lg.pageSize lg.front.cgp]
          cgp := align lg.pageSize lg.front.cgp + req }
        files := lg.files.set lg.front.suffix file' }, some h) := by
  have hreq := align_le (page := lg.pageSize) (by omega) req
  have hen := enc_header_le (mkHeader t (UInt32.ofNat (align lg.pageSize req)) 0)
  have hsz : (UInt32.ofNat (align lg.pageSize req)).toNat = align lg.pageSize req := by
    rw [UInt32.toNat_ofNat', Nat.mod_eq_of_lt ha]
  refine ⟨writeAt file (align lg.pageSize lg.front.cgp) (enc (mkHeader t (UInt32.ofNat (align lg.pageSize req)) 0)),
    ⟨lg.front.suffix, align lg.pageSize lg.front.cgp, req, mkHeader t (UInt32.ofNat (align lg.pageSize req)) 0, 0⟩,
    length_writeAt (by omega), rfl, rfl, rfl, rfl, ?_⟩
  unfold Logger.addFront
  rw [hf]
  simp only [Slab.addSection, hsz]
  rw [if_neg (by omega), if_neg (by omega), if_neg (by omega), if_neg (by omega),
    if_neg (by show ¬ req < 15; omega)]

theorem slab_reserved {page : Nat} {s s' : Slab} {f f' : Bytes} {t : EntryType} {n : Nat} {h : Handle}
    (e : s.addSection page f t n = .ok (s', f', some h)) :
    s'.inFlight.getLast? = some h.off ∧ s'.cgp = h.off + n ∧ h.slab = s'.suffix := by
  simp only [Slab.addSection] at e
  split at e
  · cases e
  · split at e
    · cases e
    · split at e
      · cases e
      · split at e
        · cases e
        · split at e
          · cases e
          · cases e
            exact ⟨by simp, rfl, rfl⟩

theorem front_reserved {l l' : Logger} {t : EntryType} {n : Nat} {h : Handle}
    (e : l.addFront t n = .ok (l', some h)) :
    l'.front.inFlight.getLast? = some h.off ∧ l'.front.cgp = h.off + n ∧ h.slab = l'.front.suffix := by
  unfold Logger.addFront at e
  split at e
  · cases e
  · split at e
    · cases e
    · rename_i e'
      cases e
      exact slab_reserved e'

theorem stream_reserved {lg lg' : Logger} {t : EntryType} {n : Nat} {st : Stream}
    (h : openStream lg t n = .ok (lg', st)) :
    lg'.front.inFlight.getLast? = some st.section_.off ∧ lg'.front.cgp = st.section_.off + n ∧
      st.section_.slab = lg'.front.suffix := by
  unfold openStream Logger.addSection at h
  cases hg : lg.gc with
  | panic => rw [hg] at h; cases h
  | ok l =>
    rw [hg] at h
    cases ha : l.addFront t n with
    | panic => simp only [ha] at h; cases h
    | ok r =>
      obtain ⟨l1, _ | hd⟩ := r
      · simp only [ha] at h
        cases hb : l1.rollover.addFront t n with
        | panic => simp only [hb] at h; cases h
        | ok r =>
          obtain ⟨l2, _ | hd⟩ := r
          · simp only [hb] at h; cases h
          · simp only [hb] at h
            cases h
            exact front_reserved hb
      · simp only [ha] at h
        cases h
        exact front_reserved ha

/-- A section in the slab in use, when no earlier slab is kept. -/
theorem openStream_ok {lg : Logger} {file : Bytes} (hb : lg.back = []) (hf : lg.files[lg.front.suffix]? = some file)
    (t : EntryType) {req : Nat} (hp : 13 < lg.pageSize) (hr : 15 ≤ req) (ha : align lg.pageSize req < 2 ^ 32)
    (hfit : align lg.pageSize lg.front.cgp + align lg.pageSize req ≤ file.length) :
    ∃ file' h, file'.length = file.length ∧ h.used = 0 ∧ h.req = req ∧
      h.slab = lg.front.suffix ∧ h.off = align lg.pageSize lg.front.cgp ∧
      openStream lg t req = .ok ({ lg with
        front := { lg.front with
          inFlight := lg.front.inFlight ++ [align lg.pageSize lg.front.cgp]
          cgp := align lg.pageSize lg.front.cgp + req }
        files := lg.files.set lg.front.suffix file' }, ⟨t, h, req⟩) := by
  obtain ⟨file', h, h1, h2, h3, h4, h5, h6⟩ := addFront_ok hf t hp hr ha hfit
  refine ⟨file', h, h1, h2, h3, h4, h5, ?_⟩
  have hg : lg.gc = .ok lg := by
    unfold Logger.gc
    rw [hb]
    simp only [List.filter_nil, dropSlabs]
    cases lg
    cases hb
    rfl
  simp only [openStream, Logger.addSection, hg, h6]

/-- What fits is written where it is. -/
theorem log_ok {lg : Logger} {st : Stream} {obj : List Bytes}
    (hfit : 15 + st.section_.used + obj.flatten.length ≤ st.section_.req) :
    st.log lg obj = .ok ({ lg with
        files := lg.files.modify st.section_.slab
          (fun f => writeAt f (st.section_.off + 15 + st.section_.used) obj.flatten) },
      { st with section_ := { st.section_ with used := st.section_.used + obj.flatten.length } }) := by
  have h1 := fitChunks_fits (room := st.section_.req - (maxHeader + st.section_.used)) (cs := obj)
    (by show _ ≤ st.section_.req - (15 + st.section_.used); omega)
  have h2 := fitChunks_ok h1
  unfold Stream.log encodeInto
  rw [if_neg (by show ¬ st.section_.req < 15 + st.section_.used; omega)]
  simp only [h1, h2, if_true]
  rfl

end ULog
end Verif
