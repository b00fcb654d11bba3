import Verif.Proofs.ComponentNew
import Verif.Model.BalanceBot
/-!
C125: a component is made with the settings its configuration gives, or is refused.
-/
namespace Verif
namespace ComponentNew
open Params Fp

/-- A PID: what is given, in single precision, and the defaults for the rest; refused without a set point, a cutoff
or a gain.  Missing: values of another kind (`C125_kind_violated`). -/
theorem C125_pid_partial (m : Overflow) {c : ComponentConfig} {sp co kp pl ki il kd dl ol : Option Num}
    {ms : Option Nat} (h1 : NumAt c "setpoint" sp) (h2 : NumAt c "cutoff" co) (h3 : NumAt c "kp" kp)
    (h4 : NumAt c "pl" pl) (h5 : NumAt c "ki" ki) (h6 : NumAt c "il" il) (h7 : NumAt c "kd" kd)
    (h8 : NumAt c "dl" dl) (h9 : NumAt c "ol" ol) (h10 : IntAt c .u32 "sampling_ms" ms) :
    pidNew m none = .ok none ∧
    (sp = none ∨ co = none ∨ kp = none → pidNew m (some c) = .ok none) ∧
    ∀ a b k, sp = some a → co = some b → kp = some k → pidNew m (some c) = .ok (some
      { setpoint := a.convert f32, cutoff := b.convert f32, kp := k.convert f32,
        pLimit := (pl.map (Num.convert f32)).getD (.fin 2), ki := (ki.map (Num.convert f32)).getD (.fin 0),
        iLimit := (il.map (Num.convert f32)).getD (.fin 1), kd := (kd.map (Num.convert f32)).getD (.fin 0),
        dLimit := (dl.map (Num.convert f32)).getD (.fin 2), outputLimit := (ol.map (Num.convert f32)).getD (.fin 1),
        sampling := ms.getD 0 * 1000000 }) := by
  obtain ⟨d, hd, he⟩ := get_millis m h10
  have or_ : ∀ {α β : Type} (o : Option α) (d : α) (k : α → Rs (Option β)), orElse (.ok o) d k = k (o.getD d) := by
    intro α β o d k; cases o <;> rfl
  refine ⟨rfl, fun hn => ?_, ?_⟩
  · simp only [pidNew, get_single h1, get_single h2, get_single h3]
    rcases hn with rfl | rfl | rfl
    · rfl
    · cases sp <;> rfl
    · cases sp <;> cases co <;> rfl
  · rintro a b k rfl rfl rfl
    simp only [pidNew, get_single h1, get_single h2, get_single h3, get_single h4, get_single h5, get_single h6,
      get_single h7, get_single h8, get_single h9, hd, or_, need, Option.map_some, Rs.ok.injEq, Option.some.injEq,
      PidFp.Cfg.mk.injEq, and_true, true_and]
    cases d <;> cases ms <;> simp_all

/-- An aligner: its window and its horizon, in nanoseconds; refused without one of them. -/
theorem C125_aligner_partial (m : Overflow) {c : ComponentConfig} {w h : Option Nat}
    (h1 : IntAt c .u32 "target_alignment_window_ms" w) (h2 : IntAt c .u32 "stale_data_horizon_ms" h) :
    alignerNew m none = .ok none ∧ (w = none ∨ h = none → alignerNew m (some c) = .ok none) ∧
    ∀ a b, w = some a → h = some b → alignerNew m (some c) = .ok (some ⟨a * 1000000, b * 1000000⟩) := by
  obtain ⟨d, hd, he⟩ := get_millis m h1
  obtain ⟨d', hd', he'⟩ := get_millis m h2
  refine ⟨rfl, fun hn => ?_, ?_⟩
  · simp only [alignerNew, hd, hd']
    rcases hn with rfl | rfl
    · cases d <;> simp_all [need]
    · cases d <;> cases d' <;> simp_all [need]
  · rintro a b rfl rfl
    simp only [alignerNew, hd, hd']
    cases d <;> cases d' <;> simp_all [need]

/-- An adaptive threshold: the size and radius given, with buffers for every pixel, in any build, of images of less
than 2³² pixels with a border.  Missing: parameters that are not given (`C125_missing_violated`) and larger
images (`C125_large_violated`). -/
theorem C125_threshold_partial (m : Overflow) {c : ComponentConfig} {w h r : Nat} (h1 : IntAt c .u32 "width" (some w))
    (h2 : IntAt c .u32 "height" (some h)) (h3 : IntAt c .u32 "block_radius" (some r))
    (hs : (w + 1) * (h + 1) < 2 ^ 32) :
    thresholdNew m (some c) =
      .ok (some { width := w, height := h, radius := r, buffer := w * h, integral := (w + 1) * (h + 1) }) := by
  have e : (w + 1) * (h + 1) = w * h + w + h + 1 := by ring
  have hm : w * h < 2 ^ 32 := by omega
  have hw : w + 1 < 2 ^ 32 := by omega
  have hh : h + 1 < 2 ^ 32 := by omega
  simp only [thresholdNew, get_int h1, get_int h2, get_int h3, demand, Option.map_some, Int.ofNat_eq_natCast,
    Int.toNat_natCast]
  cases m
  · simp only [mul32, succ32, if_pos hm, if_pos hw, if_pos hh, Rs.ok_bind, if_pos hs]
  · simp only [mul32, succ32, Rs.ok_bind, Nat.mod_eq_of_lt hm, Nat.mod_eq_of_lt hw, Nat.mod_eq_of_lt hh,
      Nat.mod_eq_of_lt hs]

/-- A servo bus: the device, and the servos up to the first that is not given; refused without a configuration, without
servo 0 or when the device cannot be opened.  Missing: no device (`C125_missing_violated`), gaps
(`C125_servos_violated`). -/
theorem C125_servos_partial (opens : String → Bool) {c : ComponentConfig} {dev : String}
    (hd : TextAt c "serial_dev" (some dev)) (n : Nat) (hn : n ≤ 8) (f : Nat → Nat)
    (hf : ∀ i < n, IntAt c .u8 ("servo" ++ toString i) (some (f i)))
    (hend : n < 8 → c.lookup ("servo" ++ toString n) = none) :
    servosNew opens none = .ok none ∧
    servosNew opens (some c) = .ok (if 0 < n ∧ opens dev = true
      then some ⟨dev, (List.range n).map f ++ List.replicate (8 - n) 0⟩ else none) := by
  refine ⟨rfl, ?_⟩
  simp only [servosNew, get_text hd, demand]
  by_cases h0 : 0 < n
  · have := servoIds_given f n 8 0 (.inr h0) (fun j _ hj => hf j (by omega)) hn
      (fun h => by simpa [servoKey] using hend h)
    rw [this]
    simp only [need, Nat.zero_add, h0, true_and]
    split <;> rfl
  · have hz : n = 0 := by omega
    subst hz
    have : servoIds c 0 8 = .ok none := by
      rw [servoIds]
      have hk : c.lookup (servoKey 0) = none := hend (by omega)
      rw [hk]
      rfl
    rw [this]
    simp [need]

/-- The components with a port, an address or a name: what is given, or the default.  Missing: ports and addresses that
cannot be used (`C125_port_violated`). -/
theorem C125_ports_partial {c : ComponentConfig} {dev spi serv addr : Option String} {baud hz : Option Nat}
    (h1 : TextAt c "device" dev) (h2 : IntAt c .u32 "baudrate" baud) (h3 : TextAt c "spi_dev" spi)
    (h4 : IntAt c .u32 "max_speed_hz" hz) (h5 : TextAt c "service" serv) (h6 : TextAt c "socket_addr" addr)
    (opens : String → Nat → Bool) (valid binds : String → Bool) (dflt : String) :
    mspNew opens none = .ok none ∧
    (opens (dev.getD "/dev/ttyUSB0") (baud.getD 115200) = true →
      mspNew opens (some c) = .ok (some ⟨dev.getD "/dev/ttyUSB0", baud.getD 115200⟩)) ∧
    adsNew opens none = adsNew opens (some []) ∧
    adsNew opens (some c) = .ok (if opens (spi.getD "/dev/spidev0.0") (hz.getD 48000000) = true
      then some ⟨spi.getD "/dev/spidev0.0", hz.getD 48000000⟩ else none) ∧
    bridgeNew valid none = .ok none ∧
    bridgeNew valid (some c) = .ok (serv.bind fun s => if valid s = true then some s else none) ∧
    lidarNew dflt binds none = lidarNew dflt binds (some []) ∧
    (binds (addr.getD dflt) = true → lidarNew dflt binds (some c) = .ok (some (addr.getD dflt))) := by
  refine ⟨rfl, fun h => ?_, rfl, ?_, rfl, ?_, rfl, fun h => ?_⟩
  · simp only [mspNew, get_text h1, get_int h2]
    cases dev <;> cases baud <;> simp_all [orElse]
  · simp only [adsNew, get_text h3, get_int h4]
    cases spi <;> cases hz <;> simp only [orElse, Option.map_some, Option.map_none, Option.getD_some, Option.getD_none,
      Int.ofNat_eq_natCast, Int.toNat_natCast, Int.reduceToNat] <;> split <;> rfl
  · simp only [bridgeNew, get_text h5]
    cases serv with
    | none => rfl
    | some s => simp only [need, Option.bind_some]; split <;> rfl
  · simp only [lidarNew, get_text h6]
    cases addr <;> simp_all [orElse]

/-- A video source: the pipeline and the format given; refused without one of them, or when they cannot be used. -/
theorem C125_video_partial {c : ComponentConfig} {p f : Option String} (h1 : TextAt c "pipeline" p)
    (h2 : TextAt c "caps" f) (parses : String → Bool) (accepts : String → String → Bool) :
    gstreamerNew parses accepts none = .ok none ∧
    gstreamerNew parses accepts (some c) = .ok (p.bind fun p => f.bind fun f =>
      if parses p = true ∧ accepts p f = true then some (p, f) else none) := by
  refine ⟨rfl, ?_⟩
  simp only [gstreamerNew, get_text h1, get_text h2]
  cases p with
  | none => rfl
  | some p =>
    by_cases hp : parses p = true
    · cases f with
      | none => simp [need, hp]
      | some f =>
        by_cases hf : accepts p f = true <;> simp [need, hp, hf]
    · cases f <;> simp [need, hp]

/-- The pins of an output and of an encoder; refused when there is no such pin, the encoder also when one is not
given.  Missing: an output without a pin (`C125_missing_violated`). -/
theorem C125_pins_partial {c : ComponentConfig} {pin : Nat} {clk dat : Option Nat} (h1 : IntAt c .u8 "pin" (some pin))
    (h2 : IntAt c .u8 "clk_pin" clk) (h3 : IntAt c .u8 "dat_pin" dat) (has : Nat → Bool) :
    gpioNew has none = .ok none ∧ gpioNew has (some c) = .ok (if has pin = true then some pin else none) ∧
    encoderNew has none = .ok none ∧
    encoderNew has (some c) = .ok (clk.bind fun a => dat.bind fun b =>
      if has a = true ∧ has b = true then some (a, b) else none) := by
  refine ⟨rfl, ?_, rfl, ?_⟩
  · simp only [gpioNew, get_int h1, demand, Option.map_some, Int.ofNat_eq_natCast, Int.toNat_natCast]
    split <;> rfl
  · simp only [encoderNew, get_int h2, get_int h3]
    cases clk with
    | none => rfl
    | some a =>
      cases dat with
      | none => rfl
      | some b =>
        simp only [need, Option.map_some, Option.bind_some, Int.ofNat_eq_natCast, Int.toNat_natCast]
        split <;> rfl

/-- A motor: at rest, with the dead zone given, in single precision, or none, and running dry only if told to. -/
theorem C125_motor_partial {c : ComponentConfig} {dead : Option Num} {dry : Option Bool} (h1 : NumAt c "deadzone" dead)
    (h2 : BoolAt c "dryrun" dry) :
    ∃ d, motorNew (some c) = .ok (some d) ∧ d.current = .fin 0 ∧ d.duty0 = .fin 0 ∧ d.duty1 = .fin 0 ∧
      d.enabled = false ∧ d.deadzone = (dead.getD (.fin 0)).convert f32 ∧ d.dryrun = dry.getD false ∧
      (dead = none → dry = none → motorNew none = .ok (some { d with deadzone := .fin 0 })) := by
  refine ⟨.new ((dead.getD (.fin 0)).convert f32) (dry.getD false), ?_, rfl, rfl, rfl, rfl, rfl, rfl, ?_⟩
  · simp only [motorNew, get_num h1, get_bool h2]
    cases dead <;> cases dry <;> rfl
  · rintro rfl rfl
    rfl

/-- A camera with sizes of its own for each format: it is asked for the size given, if both its sides are and the camera
has it in the format; for the first of the sizes if none is given; and the rest is as given, or by default.  It is
refused if there is no such camera, if it has no format or not the one given, and if it does not take the size
or the rate.  Missing: sizes the camera does not have, and one side only (`C125_size_violated`). -/
theorem C125_camera_partial (cams : Nat → Option V4lDevice) {c : ComponentConfig} {device w h fps buffers timeout : Option Nat}
    {name : Option String} (h1 : IntAt c .u32 "device" device) (h2 : IntAt c .u32 "width" w)
    (h3 : IntAt c .u32 "height" h) (h4 : IntAt c .u32 "fps" fps) (h5 : TextAt c "fourcc" name)
    (h6 : IntAt c .u32 "buffers" buffers) (h7 : IntAt c .u32 "timeout_ms" timeout) :
    cameraNew cams none = cameraNew cams (some []) ∧
    (cams (device.getD 0) = none → cameraNew cams (some c) = .ok none) ∧
    ∀ dev, cams (device.getD 0) = some dev →
      (dev.formats = [] → cameraNew cams (some c) = .ok none) ∧
      (∀ s, name = some s → s.toUTF8.toList ∉ dev.formats → cameraNew cams (some c) = .ok none) ∧
      ∀ (code : List UInt8) (l : List (Nat × Nat)), (∀ x ∈ dev.formats, x.length = 4) →
        (name = none → dev.formats.head? = some code) →
        (∀ s, name = some s → s.toUTF8.toList = code ∧ code ∈ dev.formats) →
        dev.sizes code = l.map (fun p => .discrete p.1 p.2) →
        ∀ p : Nat × Nat, (w = none → h = none → l.head? = some p) → w = p.1 ∧ h = p.2 ∧ p ∈ l ∨ w = none ∧ h = none →
          cameraNew cams (some c) = .ok
            (match dev.setFormat p.1 p.2 code with
            | none => none
            | some got => if (∀ f, fps = some f → dev.setFps f = true) then
                some { device := device.getD 0, fourcc := code, asked := p, got := got, fps := fps,
                       buffers := buffers.getD 4, timeoutMs := timeout.getD 500 }
              else none) := by
  have or_ : ∀ {β : Type} (o : Option Nat) (d : Nat) (k : Int → Rs (Option β)),
      orElse (.ok (o.map Int.ofNat)) d k = k (o.getD d : Nat) := by
    intro β o d k; cases o <;> rfl
  have base : cameraNew cams (some c) = match cams (device.getD 0) with
      | none => .ok none
      | some dev => negotiate dev (device.getD 0) (w.map Int.ofNat) (h.map Int.ofNat) (fps.map Int.ofNat) name
          (buffers.getD 4 : Nat) (timeout.getD 500 : Nat) := by
    simp only [cameraNew, Option.getD_some, get_int h1, get_int h2, get_int h3, get_int h4, get_text h5, get_int h6,
      get_int h7, Rs.ok_bind]
    rw [show (0 : Int) = ((0 : Nat) : Int) from rfl, or_, show (4 : Int) = ((4 : Nat) : Int) from rfl, or_,
      show (500 : Int) = ((500 : Nat) : Int) from rfl, or_]
    rfl
  refine ⟨rfl, fun hd => by rw [base, hd], fun dev hd => ⟨fun hf => ?_, fun s hs hn => ?_, ?_⟩⟩
  · rw [base, hd]
    simp [negotiate, hf]
  · rw [base, hd]
    have hc : chooseFourcc dev.formats name = none := by
      rw [hs]
      exact if_neg fun h => hn h.2
    simp only [negotiate, hc]
    split <;> rfl
  · intro code l hlen hfirst hname hsizes p hp hwh
    have hcode : chooseFourcc dev.formats name = some code := by
      cases name with
      | none => exact hfirst rfl
      | some s =>
        obtain ⟨rfl, hm⟩ := hname s rfl
        simp only [chooseFourcc]
        rw [if_pos ⟨hlen _ hm, hm⟩]
    have hne : dev.formats ≠ [] := by
      intro h0
      cases name with
      | none => have := hfirst rfl; rw [h0] at this; cases this
      | some s => have := (hname s rfl).2; rw [h0] at this; cases this
    have hfind : ∀ l : List (Nat × Nat), p ∈ l →
        findSize p.1 p.2 (l.map fun p => .discrete p.1 p.2) = .ok p := by
      intro l
      induction l with
      | nil => intro h; cases h
      | cons q l ih =>
        intro hm
        simp only [List.map_cons, findSize]
        by_cases hq : q.1 = p.1 ∧ q.2 = p.2
        · rw [if_pos hq]
          congr 1
          exact Prod.ext hq.1 hq.2
        · rw [if_neg hq]
          rcases List.mem_cons.1 hm with rfl | hm
          · simp at hq
          · exact ih hm
    have hasked : chooseSize (w.map Int.ofNat) (h.map Int.ofNat) (dev.sizes code) = .ok p := by
      rw [hsizes]
      rcases hwh with ⟨rfl, rfl, hm⟩ | ⟨rfl, rfl⟩
      · exact hfind l hm
      · have := hp rfl rfl
        cases l with
        | nil => cases this
        | cons q l => cases this; rfl
    rw [base, hd]
    simp only [negotiate, if_neg hne, hcode, hasked]
    cases dev.setFormat p.1 p.2 code with
    | none => rfl
    | some got =>
      cases fps with
      | none => simp
      | some f =>
        simp only [Option.map_some, Int.ofNat_eq_natCast, Int.toNat_natCast, Option.some.injEq, forall_eq']
        split <;> rfl

/-- What is given for other parameters than those of a component, say with a letter wrong, makes no difference to it. -/
theorem C125_only (m : Overflow) (opens : String → Nat → Bool) (opens1 valid binds parses : String → Bool)
    (accepts : String → String → Bool) (has : Nat → Bool) (cams : Nat → Option V4lDevice) (dflt : String)
    (c c' : ComponentConfig) :
    (Agree ["setpoint", "cutoff", "kp", "pl", "ki", "il", "kd", "dl", "ol", "sampling_ms"] c c' →
      pidNew m (some c) = pidNew m (some c')) ∧
    (Agree ["target_alignment_window_ms", "stale_data_horizon_ms"] c c' → alignerNew m (some c) = alignerNew m (some c')) ∧
    (Agree ["width", "height", "block_radius"] c c' → thresholdNew m (some c) = thresholdNew m (some c')) ∧
    (Agree ["serial_dev", "servo0", "servo1", "servo2", "servo3", "servo4", "servo5", "servo6", "servo7"] c c' →
      servosNew opens1 (some c) = servosNew opens1 (some c')) ∧
    (Agree ["device", "baudrate"] c c' → mspNew opens (some c) = mspNew opens (some c')) ∧
    (Agree ["spi_dev", "max_speed_hz"] c c' → adsNew opens (some c) = adsNew opens (some c')) ∧
    (Agree ["pin"] c c' → gpioNew has (some c) = gpioNew has (some c')) ∧
    (Agree ["clk_pin", "dat_pin"] c c' → encoderNew has (some c) = encoderNew has (some c')) ∧
    (Agree ["deadzone", "dryrun"] c c' → motorNew (some c) = motorNew (some c')) ∧
    (Agree ["service"] c c' → bridgeNew valid (some c) = bridgeNew valid (some c')) ∧
    (Agree ["pipeline", "caps"] c c' → gstreamerNew parses accepts (some c) = gstreamerNew parses accepts (some c')) ∧
    (Agree ["socket_addr"] c c' → lidarNew dflt binds (some c) = lidarNew dflt binds (some c')) ∧
    (Agree ["device", "width", "height", "fps", "fourcc", "buffers", "timeout_ms"] c c' →
      cameraNew cams (some c) = cameraNew cams (some c')) := by
  refine ⟨?_, ?_, ?_, ?_, ?_, ?_, ?_, ?_, ?_, ?_, ?_, ?_, ?_⟩ <;> intro h <;>
    simp only [Agree, List.mem_cons, List.not_mem_nil, or_false, forall_eq_or_imp, forall_eq] at h
  · simp only [pidNew, single, getMillis, ComponentConfig.get, h]
  · simp only [alignerNew, getMillis, ComponentConfig.get, h]
  · simp only [thresholdNew, ComponentConfig.get, h]
  · obtain ⟨h0, hs⟩ := h
    have : servoIds c 0 8 = servoIds c' 0 8 := by
      refine servoIds_agree 8 0 fun k _ hk => ?_
      obtain ⟨a0, a1, a2, a3, a4, a5, a6, a7⟩ := hs
      match k, hk with
      | 0, _ => exact a0
      | 1, _ => exact a1
      | 2, _ => exact a2
      | 3, _ => exact a3
      | 4, _ => exact a4
      | 5, _ => exact a5
      | 6, _ => exact a6
      | 7, _ => exact a7
    simp only [servosNew, this, ComponentConfig.get, h0]
  · simp only [mspNew, ComponentConfig.get, h]
  · simp only [adsNew, ComponentConfig.get, h]
  · simp only [gpioNew, ComponentConfig.get, h]
  · simp only [encoderNew, ComponentConfig.get, h]
  · simp only [motorNew, ComponentConfig.get, h]
  · simp only [bridgeNew, ComponentConfig.get, h]
  · simp only [gstreamerNew, ComponentConfig.get, h]
  · simp only [lidarNew, ComponentConfig.get, h]
  · simp only [cameraNew, ComponentConfig.get, Option.getD_some, h]

/-! ### The balancing robot -/

/-- The parameters of `balpos_pid` (copperconfig.ron:21-27). -/
def rodParams : ComponentConfig :=
  [("kp", .number (.f64 0x3F8EB851EB851EB8)), ("kd", .number (.f64 0x3F847AE147AE147B)), ("ki", .number (.f64 0)),
    ("setpoint", .number (.f64 0x40A8000000000000)), ("cutoff", .number (.f64 0x4065400000000000))]

/-- The parameters of `railpos_pid` (copperconfig.ron:33-40). -/
def railParams : ComponentConfig :=
  [("kp", .number (.f64 0x3F40624DD2F1A9FC)), ("kd", .number (.f64 0x3FE0000000000000)), ("ki", .number (.f64 0)),
    ("setpoint", .number (.f64 0)), ("cutoff", .number (.f64 0x408F400000000000)), ("sampling_ms", .number (.u8 100))]

/-- The controllers of the robot are made with what the model of the robot has (C88). -/
example : pidNew .checked (some rodParams) = .ok (some Bot.rodCfg) ∧ pidNew .checked (some railParams) = .ok (some Bot.railCfg) := by
  constructor <;> decide +kernel

example : NumAt rodParams "setpoint" (some (.fin 3072)) ∧ NumAt rodParams "pl" none :=
  ⟨.inr ⟨_, rfl, by decide +kernel⟩, rfl⟩

/-- And its motor (copperconfig.ron:51-54). -/
example : motorNew (some [("deadzone", .number (.f64 0x3FD3333333333333)), ("dryrun", .bool false)]) =
    .ok (some Bot.Robot.new.motor) := by decide +kernel

/-! ### Configurations that are not refused as they should be -/

/-- Negation: a parameter that is needed and not given, or no configuration at all, ends the program instead of being
refused: an output without its pin, a servo bus without its device, a threshold without a size. -/
theorem C125_missing_violated (m : Overflow) (has : Nat → Bool) (opens : String → Bool) :
    (∀ c : ComponentConfig, c.lookup "pin" = none → gpioNew has (some c) = .panic) ∧
    (∀ c : ComponentConfig, c.lookup "serial_dev" = none → servosNew opens (some c) = .panic) ∧
    thresholdNew m none = .panic ∧
    ∀ c : ComponentConfig, c.lookup "width" = none → thresholdNew m (some c) = .panic := by
  refine ⟨fun c h => ?_, fun c h => ?_, rfl, fun c h => ?_⟩
  · simp [gpioNew, ComponentConfig.get, h, demand]
  · simp [servosNew, ComponentConfig.get, h, demand]
  · simp [thresholdNew, ComponentConfig.get, h, demand]

/-- Negation: a value of another kind, such as a set point that is a text, a pin that is no integer or a switch that is a
number, ends the program too. -/
theorem C125_kind_violated (m : Overflow) (has : Nat → Bool) (c : ComponentConfig) :
    (∀ s, c.lookup "setpoint" = some (.str s) → pidNew m (some c) = .panic) ∧
    (∀ b, c.lookup "pin" = some (.number (.f64 b)) → gpioNew has (some c) = .panic) ∧
    (∀ n, c.lookup "deadzone" = none → c.lookup "dryrun" = some (.number n) → motorNew (some c) = .panic) := by
  refine ⟨fun s h => ?_, fun b h => ?_, fun n h0 h => ?_⟩
  · simp [pidNew, single, ComponentConfig.get, h, asNum, Rs.map', need]
  · simp [gpioNew, ComponentConfig.get, h, asInt, Rs.map', demand]
  · simp [motorNew, ComponentConfig.get, h0, h, asBool, Rs.map', orElse]

/-- Negation: a pin or a servo that no byte holds is another one: pin 300 is pin 44, servo 257 is servo 1. -/
theorem C125_range_violated :
    gpioNew (fun _ => true) (some [("pin", .number (.u16 300))]) = .ok (some 44) ∧
    servosNew (fun _ => true) (some [("serial_dev", .str "/dev/ttyACM0"), ("servo0", .number (.u16 257))]) =
      .ok (some ⟨"/dev/ttyACM0", [1, 0, 0, 0, 0, 0, 0, 0]⟩) := by decide

/-- Negation: servos behind one that is not given are forgotten. -/
theorem C125_servos_violated :
    servosNew (fun _ => true) (some [("serial_dev", .str "/dev/ttyACM0"), ("servo0", .number (.u8 1)),
      ("servo2", .number (.u8 3))]) = .ok (some ⟨"/dev/ttyACM0", [1, 0, 0, 0, 0, 0, 0, 0]⟩) := by decide

/-- Negation: a port or an address that cannot be used ends the program, where the converter and the servo bus are
refused. -/
theorem C125_port_violated (dflt : String) :
    mspNew (fun _ _ => false) (some []) = .panic ∧ lidarNew dflt (fun _ => false) none = .panic ∧
    adsNew (fun _ _ => false) none = .ok none := ⟨rfl, rfl, rfl⟩

/-- Negation: without checks of overflows, a threshold for images of 65536 by 65536 pixels is made with buffers of no
pixel; with them the program ends. -/
theorem C125_large_violated :
    let c : ComponentConfig := [("width", .number (.u32 65536)), ("height", .number (.u32 65536)),
      ("block_radius", .number (.u8 1))]
    thresholdNew .wrapping (some c) = .ok (some ⟨65536, 65536, 1, 0, 131073⟩) ∧ thresholdNew .checked (some c) = .panic := by
  decide

/-- A camera with one format in two sizes, that gives the smallest when it is asked for one it does not have. -/
def smallCam : V4lDevice where
  formats := [[77, 74, 80, 71]]
  sizes _ := [.discrete 640 480, .discrete 320 240]
  setFormat w h _ := if (w, h) = (640, 480) then some (640, 480) else some (320, 240)
  setFps _ := true

/-- Negation: for a size the camera does not have it is asked for 0 by 0, not refused, and delivers what it likes; a
width without a height is ignored. -/
theorem C125_size_violated :
    (cameraNew (fun _ => some smallCam) (some [("width", .number (.u16 1920)), ("height", .number (.u16 1080))])).map'
      (Option.map fun s => (s.asked, s.got)) = .ok (some ((0, 0), (320, 240))) ∧
    (cameraNew (fun _ => some smallCam) (some [("width", .number (.u16 320))])).map'
      (Option.map fun s => (s.asked, s.got)) = .ok (some ((640, 480), (640, 480))) := by decide

/-- Negation: a camera whose sizes are a range ends the program. -/
theorem C125_stepwise_violated :
    cameraNew (fun _ => some { smallCam with sizes := fun _ => [.stepwise] }) none = .panic := by decide

/-- Negation: a gain under another name is not noticed: the controller is made without it. -/
theorem C125_name_violated : pidNew .checked (some (("k_i", .number (.f64 0x3FE0000000000000)) :: rodParams)) =
    .ok (some Bot.rodCfg) := by decide +kernel

/-- Cases of the theorems. -/
example : cameraNew (fun _ => some smallCam) (some [("width", .number (.u16 320)), ("height", .number (.u8 240)),
      ("fourcc", .str "MJPG"), ("fps", .number (.u8 30))]) =
    .ok (some ⟨0, [77, 74, 80, 71], (320, 240), (320, 240), some 30, 4, 500⟩) := by decide +kernel
example : alignerNew .checked (some [("target_alignment_window_ms", .number (.u8 20)),
    ("stale_data_horizon_ms", .number (.u16 1000))]) = .ok (some ⟨20000000, 1000000000⟩) := by decide
example : thresholdNew .checked (some [("width", .number (.u16 1920)), ("height", .number (.u16 1080)),
    ("block_radius", .number (.u8 5))]) = .ok (some ⟨1920, 1080, 5, 2073600, 2076601⟩) := by decide
example : IntAt [("servo0", .number (.u8 1)), ("servo1", .number (.u8 2))] .u8 ("servo" ++ toString 1) (some 2) :=
  ⟨_, rfl, rfl, by decide, by decide⟩
example : encoderNew (fun n => n < 28) (some [("clk_pin", .number (.u8 26)), ("dat_pin", .number (.u8 20))]) =
    .ok (some (26, 20)) := by decide
example : adsNew (fun _ _ => true) (some [("max_speed_hz", .number (.u32 1000000))]) =
    .ok (some ⟨"/dev/spidev0.0", 1000000⟩) := by decide
example : Agree ["pin"] [("pin", .number (.u8 4))] [("pn", .number (.u8 5)), ("pin", .number (.u8 4))] := by
  simp [Agree, List.lookup]

end ComponentNew
end Verif
