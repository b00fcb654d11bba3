import Verif.Model.BalanceWire
import Verif.Proofs.FpBits
import Verif.Proofs.TypedRun
import Verif.Proofs.RuntimeMemory
import Verif.Proofs.BalanceBot
import Verif.Proofs.Sequential
import Verif.Spec.EndToEnd
import Verif.Spec.BalanceKilled
/-! The balancing robot logs messages of the types of their slots, which are read back as written. -/
namespace Verif
namespace Bot
open Clock CopperList Planner Verif.Runtime Fp Bincode

/-- The numbers of a control output. -/
def OutOk (o : PidFp.Out) : Prop := IsF32 o.p ∧ IsF32 o.i ∧ IsF32 o.d ∧ IsF32 o.output

/-- The payloads of a slot. -/
def OfSlot (i : Nat) (p : Payload) : Prop :=
  (i = 0 ∧ ∃ v, p = .rod v) ∨ (i = 1 ∧ ∃ o, p = .control o ∧ OutOk o) ∨ (i = 2 ∧ ∃ v, p = .rail v) ∨
  (i = 3 ∧ ∃ o, p = .control o ∧ OutOk o) ∨ (i = 4 ∧ ∃ c, p = .motor c ∧ IsF32 c)

/-- The messages of a slot. -/
def MsgOk (i : Nat) (m : Msg Payload) : Prop :=
  (∀ p, m.payload = some p → OfSlot i p) ∧ Short m.md.statusTxt

theorem rt_u16c (v : UInt16) (rest : Bytes) : rodCodec.dec (rodCodec.enc (.rod v) ++ rest) = .ok (.rod v, rest) := by
  show ((dec : Dec UInt16) >>= fun v => pure (Payload.rod v)) (enc v ++ rest) = _
  rw [Dec.bind_ok (rt_u16 v rest)]; rfl

theorem rt_i32c (v : Int32) (rest : Bytes) : railCodec.dec (railCodec.enc (.rail v) ++ rest) = .ok (.rail v, rest) := by
  show ((dec : Dec Int32) >>= fun v => pure (Payload.rail v)) (enc v ++ rest) = _
  rw [Dec.bind_ok (rt_i32 v rest)]; rfl

theorem rt_motor {c : Num} (h : IsF32 c) (rest : Bytes) :
    motorCodec.dec (motorCodec.enc (.motor c) ++ rest) = .ok (.motor c, rest) := by
  show (Fp.codec.dec >>= fun v => pure (Payload.motor v)) (Fp.codec.enc c ++ rest) = _
  rw [Dec.bind_ok (codec_rt h rest)]; rfl

theorem rt_control {o : PidFp.Out} (h : OutOk o) (rest : Bytes) :
    controlCodec.dec (controlCodec.enc (.control o) ++ rest) = .ok (.control o, rest) := by
  show (Fp.codec.dec >>= fun p => Fp.codec.dec >>= fun i => Fp.codec.dec >>= fun d => Fp.codec.dec >>= fun output =>
    pure (Payload.control ⟨p, i, d, output⟩))
      ((Fp.codec.enc o.p ++ (Fp.codec.enc o.i ++ (Fp.codec.enc o.d ++ Fp.codec.enc o.output))) ++ rest) = _
  simp only [List.append_assoc]
  rw [Dec.bind_ok (codec_rt h.1 _), Dec.bind_ok (codec_rt h.2.1 _), Dec.bind_ok (codec_rt h.2.2.1 _),
    Dec.bind_ok (codec_rt h.2.2.2 _)]
  rfl

theorem slot0 {p : Payload} (h : OfSlot 0 p) (rest : Bytes) : rodCodec.dec (rodCodec.enc p ++ rest) = .ok (p, rest) := by
  rcases h with ⟨-, v, rfl⟩ | ⟨h, -⟩ | ⟨h, -⟩ | ⟨h, -⟩ | ⟨h, -⟩
  · exact rt_u16c v rest
  all_goals cases h

theorem slot1 {i : Nat} (hi : i = 1 ∨ i = 3) {p : Payload} (h : OfSlot i p) (rest : Bytes) :
    controlCodec.dec (controlCodec.enc p ++ rest) = .ok (p, rest) := by
  rcases h with ⟨h, -⟩ | ⟨-, v, rfl, hv⟩ | ⟨h, -⟩ | ⟨-, v, rfl, hv⟩ | ⟨h, -⟩
  · omega
  · exact rt_control hv rest
  · omega
  · exact rt_control hv rest
  · omega

theorem slot2 {p : Payload} (h : OfSlot 2 p) (rest : Bytes) : railCodec.dec (railCodec.enc p ++ rest) = .ok (p, rest) := by
  rcases h with ⟨h, -⟩ | ⟨h, -⟩ | ⟨-, v, rfl⟩ | ⟨h, -⟩ | ⟨h, -⟩
  · cases h
  · cases h
  · exact rt_i32c v rest
  · cases h
  · cases h

theorem slot4 {p : Payload} (h : OfSlot 4 p) (rest : Bytes) : motorCodec.dec (motorCodec.enc p ++ rest) = .ok (p, rest) := by
  rcases h with ⟨h, -⟩ | ⟨h, -⟩ | ⟨h, -⟩ | ⟨h, -⟩ | ⟨-, v, rfl, hv⟩
  · cases h
  · cases h
  · cases h
  · cases h
  · exact rt_motor hv rest

theorem slot5 {p : Payload} (h : OfSlot 5 p) : False := by
  rcases h with ⟨h, -⟩ | ⟨h, -⟩ | ⟨h, -⟩ | ⟨h, -⟩ | ⟨h, -⟩ <;> cases h

/-- A list whose messages are those of their slots is read back. -/
theorem typed_of_holds {cl : CL (List (Msg Payload))} (h : Holds 6 MsgOk cl.msgs) : Typed slots cl := by
  obtain ⟨hl, hq⟩ := h
  unfold Typed slots
  generalize cl.msgs = l at hl hq
  obtain ⟨a, b, c, d, e, f, rfl⟩ := six hl
  · refine .cons ⟨fun p hp rest => ?_, (hq 0 a rfl).2.lt⟩ (.cons ⟨fun p hp rest => ?_, (hq 1 b rfl).2.lt⟩
      (.cons ⟨fun p hp rest => ?_, (hq 2 c rfl).2.lt⟩ (.cons ⟨fun p hp rest => ?_, (hq 3 d rfl).2.lt⟩
      (.cons ⟨fun p hp rest => ?_, (hq 4 e rfl).2.lt⟩ (.cons ⟨fun p hp rest => ?_, (hq 5 f rfl).2.lt⟩ .nil)))))
    · exact slot0 ((hq 0 a rfl).1 p hp) rest
    · exact slot1 (.inl rfl) ((hq 1 b rfl).1 p hp) rest
    · exact slot2 ((hq 2 c rfl).1 p hp) rest
    · exact slot1 (.inr rfl) ((hq 3 d rfl).1 p hp) rest
    · exact slot4 ((hq 4 e rfl).1 p hp) rest
    · exact (slot5 ((hq 5 f rfl).1 p hp)).elim

theorem codec_sequential : Dec.Sequential Fp.codec.dec :=
  Dec.Sequential.bind (show Dec.Sequential (dec : Dec F32) from (Dec.Sequential.fixed 4).bind fun _ => .pure _)
    fun _ => .pure _

theorem slots_sequential : ∀ c ∈ slots, Dec.Sequential c.dec := by
  intro c hc
  simp only [slots, List.mem_cons, List.not_mem_nil, or_false] at hc
  rcases hc with rfl | rfl | rfl | rfl | rfl | rfl
  · exact Dec.Sequential.u16.bind fun _ => .pure _
  · exact codec_sequential.bind fun _ => codec_sequential.bind fun _ => codec_sequential.bind fun _ =>
      codec_sequential.bind fun _ => .pure _
  · exact Dec.Sequential.bind (show Dec.Sequential (dec : Dec Int32) from (Dec.Sequential.var 4).bind fun _ => .pure _)
      fun _ => .pure _
  · exact codec_sequential.bind fun _ => codec_sequential.bind fun _ => codec_sequential.bind fun _ =>
      codec_sequential.bind fun _ => .pure _
  · exact codec_sequential.bind fun _ => .pure _
  · exact .pure _

/-! ### The run -/

/-- A PID task. -/
def TaskOk (t : PidFp.Task) : Prop :=
  IsF32 t.cfg.pLimit ∧ IsF32 t.cfg.iLimit ∧ IsF32 t.cfg.dLimit ∧ IsF32 t.cfg.outputLimit ∧ OutOk t.pid.lastOutput

/-- The tasks. -/
def RobotOk (s : Robot) : Prop := TaskOk s.rodPid ∧ TaskOk s.railPid

theorem limit_f32 {x l y : Num} (hx : IsF32 x) (hl : IsF32 l) (h : PidFp.limit x l = .ok y) : IsF32 y := by
  unfold PidFp.limit at h
  cases hc : x.clamp l.neg l with
  | none => rw [hc] at h; cases h
  | some z =>
    rw [hc] at h
    cases h
    exact clamp_f32 hx hl.neg hl hc

theorem next_ok {t : PidFp.Task} (h : TaskOk t) {m : Num} {dt : Nat} {c : PidFp.Controller} {o : PidFp.Out}
    (hn : t.pid.next t.cfg m dt = .ok (c, o)) : OutOk c.lastOutput ∧ OutOk o := by
  obtain ⟨h1, h2, h3, h4, h5⟩ := h
  unfold PidFp.Controller.next at hn
  simp only at hn
  split at hn
  · cases hn
  · split at hn
    · cases hn
      exact ⟨h5, h5⟩
    · simp only [Rs.bind_eq_ok] at hn
      obtain ⟨p, hp, i, hi, d, hd, o', ho, he⟩ := hn
      cases he
      have k : OutOk ⟨p, i, d, o'⟩ :=
        ⟨limit_f32 (mul_f32 _ _) h1 hp, limit_f32 (mul_f32 _ _) h2 hi, limit_f32 (mul_f32 _ _) h3 hd,
          limit_f32 (add_f32 _ _) h4 ho⟩
      exact ⟨k, k⟩

theorem process_ok {t t' : PidFp.Task} (h : TaskOk t) {x : Option (Option Nat × Num)} {r : PidFp.Res}
    (hp : t.process x = .ok (t', r)) : TaskOk t' ∧ ∀ o, r = .produced o → OutOk o := by
  match x, hp with
  | none, hp =>
    simp only [PidFp.Task.process, Rs.ok.injEq, Prod.mk.injEq] at hp
    obtain ⟨rfl, rfl⟩ := hp
    exact ⟨h, fun _ h => by cases h⟩
  | some (none, _), hp =>
    simp only [PidFp.Task.process, Rs.ok.injEq, Prod.mk.injEq] at hp
    obtain ⟨rfl, rfl⟩ := hp
    exact ⟨h, fun _ h => by cases h⟩
  | some (some tov, m), hp =>
    simp only [PidFp.Task.process] at hp
    split at hp
    · simp only [Rs.ok.injEq, Prod.mk.injEq] at hp
      obtain ⟨rfl, rfl⟩ := hp
      exact ⟨h, fun _ h => by cases h⟩
    · split at hp
      · cases hp
      · simp only [Rs.bind_eq_ok] at hp
        obtain ⟨⟨c, o⟩, hn, hp⟩ := hp
        obtain ⟨k1, k2⟩ := next_ok h hn
        have k : TaskOk { t with lastTov := tov, pid := c } := ⟨h.1, h.2.1, h.2.2.1, h.2.2.2.1, k1⟩
        simp only at hp
        split at hp
        · simp only [Rs.ok.injEq, Prod.mk.injEq] at hp
          obtain ⟨rfl, rfl⟩ := hp
          exact ⟨k, fun _ h => by cases h⟩
        · split at hp
          · simp only [Rs.ok.injEq, Prod.mk.injEq] at hp
            obtain ⟨rfl, rfl⟩ := hp
            exact ⟨k, fun _ h => by cases h⟩
          · simp only [Rs.ok.injEq, Prod.mk.injEq] at hp
            obtain ⟨rfl, rfl⟩ := hp
            exact ⟨k, fun _ h => by cases h; exact k2⟩

variable {inp : Inputs}

theorem setPayload_ok {i : Nat} {m : Msg Payload} {p : Payload} (hm : Short m.md.statusTxt)
    (hp : OfSlot i p) : MsgOk i (m.setPayload p) :=
  ⟨fun q hq => by cases hq; exact hp, hm⟩

theorem pidOutput_ok (ht : ∀ p, Short (inp.text p)) {i : Nat} (hi : i = 1 ∨ i = 3)
    {out : Msg Payload} (hm : MsgOk i out) {r : PidFp.Res} (hr : ∀ o, r = .produced o → OutOk o) :
    MsgOk i (pidOutput inp out r).1 := by
  cases r with
  | produced o =>
    refine setPayload_ok (ht _) ?_
    rcases hi with rfl | rfl
    · exact .inr (.inl ⟨rfl, o, rfl, hr o rfl⟩)
    · exact .inr (.inr (.inr (.inl ⟨rfl, o, rfl, hr o rfl⟩)))
  | cleared => exact ⟨fun p hp => (by cases hp), hm.2⟩
  | error => exact hm

theorem balposRead_ok (ht : ∀ p, Short (inp.text p)) {mid mid' : Option CuTime} {v : UInt16} {out : Msg Payload}
    {s : Robot} (h : RobotOk s) (hm : MsgOk 0 out) :
    RobotOk (balposRead inp mid mid' v out s).1 ∧ MsgOk 0 (balposRead inp mid mid' v out s).2.1 := by
  unfold balposRead
  cases mid with
  | none => exact ⟨h, hm⟩
  | some t =>
    simp only
    generalize Adc.process s.integrated (some v) = q
    obtain ⟨i, _ | r⟩ := q
    · exact ⟨h, hm⟩
    · cases mid' with
      | none => exact ⟨h, setPayload_ok hm.2 (.inl ⟨rfl, _, rfl⟩)⟩
      | some t' => exact ⟨h, fun q hq => (by cases hq; exact .inl ⟨rfl, _, rfl⟩), ht _⟩

theorem balpos_ok (ht : ∀ p, Short (inp.text p)) {out : Msg Payload} {s : Robot}
    (h : RobotOk s) (hm : MsgOk 0 out) : RobotOk (balpos inp out s).1 ∧ MsgOk 0 (balpos inp out s).2.1 := by
  unfold balpos
  split
  · exact ⟨h, hm⟩
  · exact balposRead_ok ht h hm

theorem mergePids_ok (ht : ∀ p, Short (inp.text p)) {a b out : Msg Payload} {s : Robot}
    (h : RobotOk s) (hm : MsgOk 4 out) : RobotOk (mergePids inp a b out s).1 ∧ MsgOk 4 (mergePids inp a b out s).2.1 := by
  unfold mergePids
  split
  · split
    · simp only
      split
      · exact ⟨h, hm⟩
      · rename_i c hc
        refine ⟨h, setPayload_ok (ht _) (.inr (.inr (.inr (.inr ⟨rfl, c, rfl, ?_⟩))))⟩
        have r1 : IsF32 (.fin 1) := by have := round_f32 1; rwa [show round f32 1 = .fin 1 by decide +kernel] at this
        have r2 : IsF32 (.fin (-1)) := r1.neg
        exact clamp_f32 (sub_f32 _ _) r2 r1 hc
    · exact ⟨h, hm⟩
  · exact ⟨h, hm⟩

theorem balposPid_ok (ht : ∀ p, Short (inp.text p)) {m out : Msg Payload} {s : Robot} (h : RobotOk s)
    (hm : MsgOk 1 out) : RobotOk (balposPid inp m out s).1 ∧ MsgOk 1 (balposPid inp m out s).2.1 := by
  unfold balposPid
  split
  · exact ⟨h, hm⟩
  · rename_i t r hp
    obtain ⟨k1, k2⟩ := process_ok h.1 hp
    exact ⟨⟨k1, h.2⟩, pidOutput_ok ht (.inl rfl) hm k2⟩

theorem railposPid_ok (ht : ∀ p, Short (inp.text p)) {m out : Msg Payload} {s : Robot} (h : RobotOk s)
    (hm : MsgOk 3 out) : RobotOk (railposPid inp m out s).1 ∧ MsgOk 3 (railposPid inp m out s).2.1 := by
  unfold railposPid
  split
  · exact ⟨h, hm⟩
  · rename_i t r hp
    obtain ⟨k1, k2⟩ := process_ok h.2 hp
    exact ⟨⟨h.1, k1⟩, pidOutput_ok ht (.inr rfl) hm k2⟩

theorem keeps (ht : ∀ p, Short (inp.text p)) : Keeps (app inp) RobotOk MsgOk where
  now _ h := h
  life ph t s h := by
    show RobotOk (life inp ph t s).1
    unfold life
    split <;> exact h
  call step hs o ty ho ins out s h hi hm := by
    change step ∈ plan at hs
    show RobotOk (callProcess (env inp) step ins out s).1 ∧ MsgOk o (callProcess (env inp) step ins out s).2.1
    rw [plan_eq] at hs
    simp only [List.mem_cons, List.not_mem_nil, or_false] at hs
    rcases hs with rfl | rfl | rfl | rfl | rfl | rfl <;> cases ho
    · exact balpos_ok ht h hm
    · obtain ⟨m, rfl⟩ := List.length_eq_one_iff.1 (pointwise_length hi).symm
      exact balposPid_ok ht h hm
    · exact ⟨h, setPayload_ok (ht _) (.inr (.inr (.inl ⟨rfl, _, rfl⟩)))⟩
    · obtain ⟨m, rfl⟩ := List.length_eq_one_iff.1 (pointwise_length hi).symm
      exact railposPid_ok ht h hm
    · obtain ⟨a, b, rfl⟩ := List.length_eq_two.1 (pointwise_length hi).symm
      exact mergePids_ok ht h hm
    · obtain ⟨m, rfl⟩ := List.length_eq_one_iff.1 (pointwise_length hi).symm
      exact ⟨h, hm⟩
  onError _ _ _ _ h := h
  monCL _ _ h := h
  monStart _ h := h
  monStop _ h := h
  log f hf s cl s' h hs := by
    cases hf
    cases hs
    exact h
  simLife _ h := by cases h
  simCall _ h := by cases h
  times _ _ _ h := ⟨h, h⟩
  cleared _ _ h := ⟨fun _ hp => (by cases hp), h.2⟩

theorem fresh_sound : Sound (app inp) RobotOk 6 MsgOk fresh := by
  have r : ∀ q : ℚ, round f32 q = .fin q → IsF32 (.fin q) := fun q h => by have := round_f32 q; rwa [h] at this
  have r1 : IsF32 (.fin 1) := r 1 (by decide +kernel)
  have r2 : IsF32 (.fin 2) := r 2 (by decide +kernel)
  have r0 : IsF32 (.fin 0) := f32_zero
  refine ⟨⟨⟨⟨r2, r1, r2, r1, r0, r0, r0, r0⟩, ⟨r2, r1, r2, r1, r0, r0, r0, r0⟩⟩, fun ev h => ?_⟩, fun cl h => ?_⟩
  · simp [fresh] at h
  · have : ∀ cl ∈ fresh.mgr.data, cl.msgs.length = 6 ∧ ∀ m ∈ cl.msgs, m.payload = none ∧ m.md.statusTxt.utf8ByteSize = 24 := by
      decide +kernel
    obtain ⟨h1, h2⟩ := this cl h
    refine ⟨h1, fun i m hm => ?_⟩
    obtain ⟨k1, k2⟩ := h2 m (List.mem_of_getElem? hm)
    exact ⟨fun p hp => (by rw [k1] at hp; cases hp), ⟨by rw [k2]; decide⟩⟩

/-- What the robot logs is read back as it was. -/
theorem loop_typed (ht : ∀ p, Short (inp.text p)) {n : Nat} {rt : Rt Robot Payload}
    {e : Option Err} (h : loop inp n = .ok (rt, e)) : ∀ cl ∈ loggedLists rt.w.trace, Typed slots cl := by
  intro cl hcl
  refine typed_of_holds ?_
  unfold loop at h
  have hs := start_sound (keeps ht).toUnheard fresh_sound
  generalize startAll (app inp) fresh = q at h hs
  obtain ⟨rt1, _ | e1⟩ := q
  · exact logged_holds (runLoop_sound (keeps ht).promises (.inr (keeps ht)) hs h).1 hcl
  · simp only [Rs.ok.injEq, Prod.mk.injEq] at h
    obtain ⟨rfl, -⟩ := h
    exact logged_holds hs.1 hcl

end Bot
end Verif
