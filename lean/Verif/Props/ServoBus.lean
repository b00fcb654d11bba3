import Verif.Spec.ServoBus
import Verif.Proofs.Lewansoul
import Verif.Props.Lewansoul
import Verif.Props.ReadingsFp
/-!
C126: what is asked of a servo is answered by it.
-/
namespace Verif
namespace Servo
open Fp ReadingsFp
variable {σ : Type}

theorem sum_toNat (bs : Bytes) (x : UInt8) :
    (bs.foldl (· + ·) x).toNat = (x.toNat + (bs.map UInt8.toNat).sum) % 256 := by
  induction bs generalizing x with
  | nil => simp
  | cons b bs ih =>
    rw [List.foldl_cons, ih, UInt8.toNat_add, List.map_cons, List.sum_cons]
    omega

theorem checksum_toNat (bs : Bytes) : (checksum bs).toNat = 255 - (bs.map UInt8.toNat).sum % 256 := by
  unfold checksum
  have h := sum_toNat bs 0
  rw [UInt8.toNat_not, h]
  simp

/-- What is sent is a frame. -/
theorem send_frame (id command : UInt8) {data : Bytes} (hd : data.length ≤ 252) :
    ∃ f, sendPacket id command data = .ok f ∧ IsFrame id command data f := by
  refine ⟨_, send_eq id command hd, _, _, rfl, len_toNat hd, ?_⟩
  rw [checksum_toNat]
  simp only [List.map_append, List.map_cons, List.map_nil, List.sum_append, List.sum_cons, List.sum_nil]
  omega

/-- A frame is read. -/
theorem read_isFrame {id command : UInt8} {data f : Bytes} (h : IsFrame id command data f) (rest : Bytes) :
    readResponse (f ++ rest) = .ok (.ok (id, command, data), rest) := by
  obtain ⟨len, sum, rfl, hl, hs⟩ := h
  have := read_frame (l := len) id command data sum rest hl
  rw [frame] at this
  rw [this, if_neg]
  intro hne
  apply hne
  apply UInt8.toNat_inj.1
  rw [checksum_toNat]
  simp only [List.map_append, List.map_cons, List.map_nil, List.sum_append, List.sum_cons, List.sum_nil]
  have := sum.toNat_lt
  omega

theorem u16_bytes (n : UInt16) :
    u16Of (UInt8.ofNat (n.toNat % 256)) (UInt8.ofNat (n.toNat / 256)) = n := by
  apply UInt16.toNat_inj.1
  have := n.toNat_lt
  simp only [u16Of, UInt16.toNat_ofNat', UInt8.toNat_ofNat']
  omega

theorem i16_bytes (n : Int16) :
    i16Of (UInt8.ofNat (n.toUInt16.toNat % 256)) (UInt8.ofNat (n.toUInt16.toNat / 256)) = n := by
  have h := u16_bytes n.toUInt16
  unfold u16Of at h
  unfold i16Of
  have e : Int16.ofNat = fun k => (UInt16.ofNat k).toInt16 := by
    funext k
    rfl
  rw [e]
  simp only
  rw [h]
  rfl

/-- One question, asked when nothing is left on the line. -/
theorem call_tells {bus : Bus σ} {servos : σ → UInt8 → Option Knows} (ho : Obeys bus servos) {st : σ} {op : Op}
    {id command : UInt8} {s : Knows} (hq : question op = some (id, command)) (hs : servos st id = some s) :
    ∃ r st' f more, call bus op ⟨st, []⟩ = .ok (r, ⟨st', []⟩) ∧ Tells (servos st) op r ∧ IsFrame id command [] f ∧
      bus st f = some (st', more) := by
  obtain ⟨f, hf, hfr⟩ := send_frame id command (data := []) (by decide)
  obtain ⟨st', more, hb, hm⟩ := ho st id s op command f hs hq hfr
  have hr := read_isFrame hm []
  rw [List.append_nil] at hr
  have hreq : op.request = (id, command, []) := by cases op <;> cases hq <;> rfl
  have hask : ask bus id command [] ⟨st, []⟩ = .ok (.ok (id, command, answer id s op), ⟨st', []⟩) := by
    unfold ask
    rw [hf]
    simp only [hb, List.nil_append, hr]
  obtain ⟨-, -, -, -, -, -, d7, d8⟩ := C86_devices
  have key : ∃ r, op.reading (answer id s op) = .ok r ∧ Tells (servos st) op r := by
    cases op with
    | reassign => cases hq
    | position id' =>
      cases hq
      exact ⟨_, rfl, .position hs (by rw [i16_bytes]; exact d7 _)⟩
    | voltage id' =>
      cases hq
      exact ⟨_, rfl, .voltage hs (by rw [u16_bytes]; exact d8 _)⟩
    | temperature id' =>
      cases hq
      exact ⟨_, rfl, .temperature hs⟩
    | limits id' =>
      cases hq
      exact ⟨_, rfl, .limits hs (by rw [i16_bytes]; exact d7 _) (by rw [i16_bytes]; exact d7 _)⟩
    | ping id' =>
      cases hq
      exact ⟨.done, congrArg Rs.ok (if_pos rfl), .ping hs⟩
  obtain ⟨r, hr1, hr2⟩ := key
  refine ⟨r, st', f, more, ?_, hr2, hfr, hb⟩
  unfold call
  rw [hreq, hask]
  simp only [hr1]

/-- On a bus whose servos answer every question at once, any questions to servos that are there, one after the other,
are answered rightly: each answer tells what the servo knew when it was asked, angles and voltages up to a millionth,
and nothing is left on the line.

Missing: answers that come late or not at all (`C126_late_violated`), or that are too short (`C126_short_violated`). -/
theorem C126_answers_partial {bus : Bus σ} {servos : σ → UInt8 → Option Knows} (ho : Obeys bus servos) (ops : List Op)
    (hops : ∀ op ∈ ops, ∃ id command, question op = some (id, command) ∧ ∀ st, (servos st id).isSome) (st : σ) :
    ∃ rs st', calls bus ops ⟨st, []⟩ = .ok (rs, ⟨st', []⟩) ∧ Told bus servos st ops rs := by
  induction ops generalizing st with
  | nil => exact ⟨[], st, rfl, .nil⟩
  | cons op ops ih =>
    obtain ⟨id, command, hq, hp⟩ := hops op (by simp)
    obtain ⟨s, hs⟩ := Option.isSome_iff_exists.1 (hp st)
    obtain ⟨r, st1, f, more, h1, h2, h3, h4⟩ := call_tells ho hq hs
    obtain ⟨rs, st2, k1, k2⟩ := ih (fun o ho => hops o (by simp [ho])) st1
    refine ⟨r :: rs, st2, ?_, .cons h2 hq h3 h4 k2⟩
    unfold calls
    rw [h1]
    simp only [k1]

theorem request_short (op : Op) : op.request.2.2.length ≤ 252 := by cases op <;> simp [Op.request]

/-- The driver takes whatever frame comes first for the answer, whoever sent it and whatever it answers. -/
theorem C126_any {bus : Bus σ} {st st' : σ} {op : Op} {id' command' : UInt8} {data first rest more : Bytes}
    (hf : IsFrame id' command' data first)
    (hb : ∀ f, IsFrame op.request.1 op.request.2.1 op.request.2.2 f → bus st f = some (st', more)) :
    call bus op ⟨st, first ++ rest⟩ = (match op.reading data with
      | .ok r => .ok (r, ⟨st', rest ++ more⟩)
      | .panic => .panic) := by
  obtain ⟨f, h1, h2⟩ := send_frame op.request.1 op.request.2.1 (data := op.request.2.2) (request_short op)
  have hr := read_isFrame hf (rest ++ more)
  rw [← List.append_assoc] at hr
  unfold call ask
  rw [h1]
  simp only [hb f h2, hr]
  cases op.reading data <;> rfl

/-- Nothing arrives: an error, and the next question starts afresh. -/
theorem C126_silent {bus : Bus σ} {st st' : σ} {op : Op}
    (hb : ∀ f, IsFrame op.request.1 op.request.2.1 op.request.2.2 f → bus st f = some (st', [])) :
    call bus op ⟨st, []⟩ = .ok (.failed, ⟨st', []⟩) := by
  obtain ⟨f, h1, h2⟩ := send_frame op.request.1 op.request.2.1 (data := op.request.2.2) (request_short op)
  unfold call ask
  rw [h1]
  simp only [hb f h2, List.append_nil]
  rfl

/-- A question that cannot be written is an error, and nothing is read: what had arrived is still there. -/
theorem C126_unsent {bus : Bus σ} {st : σ} {op : Op} {line : Bytes}
    (hb : ∀ f, IsFrame op.request.1 op.request.2.1 op.request.2.2 f → bus st f = none) :
    call bus op ⟨st, line⟩ = .ok (.failed, ⟨st, line⟩) := by
  obtain ⟨f, h1, h2⟩ := send_frame op.request.1 op.request.2.1 (data := op.request.2.2) (request_short op)
  unfold call ask
  rw [h1]
  simp only [hb f h2]

example : call (fun (_ : Unit) _ => none) (.voltage 3) ⟨(), [1, 2]⟩ = .ok (.failed, ⟨(), [1, 2]⟩) :=
  C126_unsent (fun _ _ => rfl)

/-! ### Two servos -/

/-- Servo 1 is at 120 degrees and servo 2 at 30. -/
def twoServos : UInt8 → Option Knows
  | 1 => some ⟨500, 7400, 38, 0, 1000⟩
  | 2 => some ⟨125, 7200, 41, -100, 900⟩
  | _ => none

/-- A bus with these servos. -/
def twoBus : Bus Unit := fun _ f =>
  match f with
  | [0x55, 0x55, id, 3, command, _] =>
    match twoServos id with
    | none => some ((), [])
    | some s =>
      let data : Bytes :=
        if command = 28 then Bytes16 s.position.toUInt16
        else if command = 27 then Bytes16 s.voltage
        else if command = 26 then [s.temperature]
        else if command = 21 then Bytes16 s.low.toUInt16 ++ Bytes16 s.high.toUInt16
        else [id]
      match sendPacket id command data with
      | .ok more => some ((), more)
      | .panic => none
  | _ => some ((), [])

theorem two_obeys : Obeys twoBus (fun _ => twoServos) := by
  intro st id s op command f hs hq hf
  obtain ⟨len, sum, rfl, hl, -⟩ := hf
  have hlen : len = 3 := UInt8.toNat_inj.1 hl
  subst hlen
  have e : ∀ data : Bytes, data.length ≤ 252 → ∃ more, sendPacket id command data = .ok more ∧ IsFrame id command data more :=
    fun data h => send_frame id command h
  have key : ∀ data : Bytes, data.length ≤ 252 → answer id s op = data →
      (∀ more, sendPacket id command data = .ok more →
        twoBus st ([0x55, 0x55, id, 3, command] ++ [] ++ [sum]) = some ((), more)) →
      ∃ st' more, twoBus st ([0x55, 0x55, id, 3, command] ++ [] ++ [sum]) = some (st', more) ∧
        IsFrame id command (answer id s op) more := by
    intro data hd ha hb
    obtain ⟨more, h1, h2⟩ := e data hd
    exact ⟨(), more, hb more h1, ha ▸ h2⟩
  cases op with
  | reassign => cases hq
  | position | voltage | temperature | limits | ping =>
    cases hq
    refine key _ ?_ rfl fun more hm => ?_
    · simp [answer, Bytes16]
    · simp only [answer] at hm
      simp [twoBus, hs, hm]

/-- By the theorem, for any questions; and some of them by computation. -/
example (ops : List Op) (h : ∀ op ∈ ops, ∃ command, question op = some (1, command) ∨ question op = some (2, command)) :
    ∃ rs st', calls twoBus ops ⟨(), []⟩ = .ok (rs, ⟨st', []⟩) ∧ Told twoBus (fun _ => twoServos) () ops rs := by
  refine C126_answers_partial two_obeys ops (fun op ho => ?_) ()
  obtain ⟨command, hc | hc⟩ := h op ho
  · exact ⟨1, command, hc, fun _ => rfl⟩
  · exact ⟨2, command, hc, fun _ => rfl⟩

example : (calls twoBus [.ping 1, .position 1, .position 2, .temperature 2, .ping 3] ⟨(), []⟩).map' (fun r => r.1) =
    .ok [.done, .angle (.fin 120), .angle (.fin 30), .degrees 41, .failed] := by decide +kernel

/-- The answer to the first question comes when the next one is asked. -/
def lateBus : Bus (Option Bytes) := fun late f =>
  match twoBus () f with
  | none => none
  | some (_, more) =>
    match late with
    | none => some (some more, [])
    | some l => some (some more, l)

/-- Servo 1, at 120 degrees, answers late: there is an error, and from then on each question gets the answer to the one
before.  Servo 2 is said to be at 120 degrees, and to be as warm as its position. -/
theorem C126_late_violated :
    (calls lateBus [.position 1, .position 2, .temperature 2, .ping 2] ⟨none, []⟩).map' (fun r => r.1) =
      .ok [.failed, .angle (.fin 120), .degrees 125, .failed] := by decide +kernel

/-- A correct frame with too little data ends the program. -/
theorem C126_short_violated : ∃ f, IsFrame 1 28 [5] f ∧
    call (fun _ _ => some ((), f)) (.position 1) ⟨(), []⟩ = .panic :=
  ⟨[0x55, 0x55, 1, 4, 28, 5, 217], ⟨4, 217, rfl, rfl, rfl⟩, rfl⟩

/-- The hypotheses of `C126_any` and `C126_silent`. -/
example : IsFrame 2 28 [125, 0] [0x55, 0x55, 2, 5, 28, 125, 0, 95] ∧
    call (fun _ _ => some ((), [])) (.temperature 1) ⟨(), [0x55, 0x55, 2, 5, 28, 125, 0, 95]⟩ =
      .ok (.degrees 125, ⟨(), []⟩) ∧
    call (fun _ _ => some ((), [])) (.reassign 1 7) ⟨(), []⟩ = .ok (.failed, ⟨(), []⟩) := by
  have h : IsFrame 2 28 [125, 0] [0x55, 0x55, 2, 5, 28, 125, 0, 95] := ⟨5, 95, rfl, rfl, rfl⟩
  exact ⟨h, C126_any (rest := []) h (fun _ _ => rfl), C126_silent fun _ _ => rfl⟩

end Servo
end Verif
