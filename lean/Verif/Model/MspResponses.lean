import Verif.Model.MspTasks
/-!
The responses of a flight controller: components/common/cu_msp_lib/src/structs.rs:1036-1350 and the command
codes, commands.rs.  The packing of each structure belongs to the crate `packed_struct`.
-/
namespace Verif
namespace Msp

/-- The values of `MspCommandCode` (commands.rs:7-189). -/
def codes : List Nat := [
  1, 2, 3, 4, 5, 32, 33, 34, 35, 36, 37, 38, 39, 40, 41, 42, 43, 44, 45, 46, 47, 48, 49, 50, 51, 52, 53, 54,
  55, 56, 57, 58, 59, 60, 61, 62, 70, 71, 72, 73, 74, 75, 76, 77, 78, 79, 80, 81, 82, 83, 84, 85, 86, 87,
  127, 221, 128, 129, 130, 131, 180, 181, 182, 183, 184, 185, 100, 101, 102, 103, 104, 105, 106, 107, 108,
  109, 110, 111, 112, 113, 114, 115, 116, 117, 118, 119, 120, 124, 125, 126, 200, 201, 202, 203, 204, 205,
  206, 207, 208, 209, 210, 211, 212, 214, 217, 218, 219, 220, 241, 242, 250, 253, 254, 66, 160, 150, 240,
  239, 164, 64, 65, 68, 69, 90, 91, 92, 93, 94, 95, 96, 97, 4099, 4100, 4101, 4102, 4103, 4104, 4105, 4106,
  8210, 8211, 8212, 8213, 8214, 8215, 8224, 8225]

/-- The variants of `MspResponse` with a structure (structs.rs:1038-1088). -/
inductive RespKind where
  | apiVersion | flightControllerVariant | status | statusEx | bfConfig | rawImu | dataFlashSummaryReply
  | dataFlashReply | dataFlashRead | accTrim | ident | misc | attitude | altitude | batteryConfig | analog
  | rssiConfig | voltageMeter | currentMeter | batteryState | rcTuning | rxConfig | rcChannelValue
  | rcMappedChannel | features | motor | motor3DConfig | motorConfig | rcDeadband | sensorAlignment
  | advancedConfig | filterConfig | pidAdvanced | sensorConfig | servos | mixerConfig | modeRange
  | setModeRange | osdConfig | setGetOsdConfig | setOsdLayout | setOsdLayoutItem | osdLayouts | serialSetting
  | settingInfoRequest | settingInfo | rc
  deriving DecidableEq, Repr

/-- `MspResponse::command_code` (structs.rs:1092-1147) of a response with a structure. -/
def RespKind.code : RespKind → Nat
  | .apiVersion => 1
  | .flightControllerVariant => 2
  | .status => 101
  | .statusEx => 150
  | .bfConfig => 66
  | .rawImu => 102
  | .dataFlashSummaryReply => 70
  | .dataFlashReply => 71
  | .dataFlashRead => 71
  | .accTrim => 240
  | .ident => 100
  | .misc => 114
  | .attitude => 108
  | .altitude => 109
  | .batteryConfig => 32
  | .analog => 110
  | .rssiConfig => 50
  | .voltageMeter => 128
  | .currentMeter => 40
  | .batteryState => 130
  | .rcTuning => 111
  | .rxConfig => 44
  | .rcChannelValue => 64
  | .rcMappedChannel => 65
  | .features => 36
  | .motor => 104
  | .motor3DConfig => 124
  | .motorConfig => 131
  | .rcDeadband => 125
  | .sensorAlignment => 38
  | .advancedConfig => 90
  | .filterConfig => 92
  | .pidAdvanced => 94
  | .sensorConfig => 96
  | .servos => 103
  | .mixerConfig => 42
  | .modeRange => 34
  | .setModeRange => 35
  | .osdConfig => 84
  | .setGetOsdConfig => 84
  | .setOsdLayout => 184
  | .setOsdLayoutItem => 8211
  | .osdLayouts => 8210
  | .serialSetting => 4106
  | .settingInfoRequest => 4099
  | .settingInfo => 4103
  | .rc => 105

/-- The structure that `From<MspPacket> for MspResponse` takes for a command (structs.rs:1216-1350). -/
def kindOf : Nat → Option RespKind
  | 1 => some .apiVersion
  | 2 => some .flightControllerVariant
  | 101 => some .status
  | 150 => some .statusEx
  | 66 => some .bfConfig
  | 102 => some .rawImu
  | 70 => some .dataFlashSummaryReply
  | 71 => some .dataFlashReply
  | 240 => some .accTrim
  | 100 => some .ident
  | 114 => some .misc
  | 108 => some .attitude
  | 109 => some .altitude
  | 32 => some .batteryConfig
  | 110 => some .analog
  | 50 => some .rssiConfig
  | 128 => some .voltageMeter
  | 40 => some .currentMeter
  | 130 => some .batteryState
  | 111 => some .rcTuning
  | 44 => some .rxConfig
  | 64 => some .rcChannelValue
  | 65 => some .rcMappedChannel
  | 36 => some .features
  | 104 => some .motor
  | 124 => some .motor3DConfig
  | 131 => some .motorConfig
  | 125 => some .rcDeadband
  | 38 => some .sensorAlignment
  | 90 => some .advancedConfig
  | 92 => some .filterConfig
  | 94 => some .pidAdvanced
  | 96 => some .sensorConfig
  | 103 => some .servos
  | 42 => some .mixerConfig
  | 34 => some .modeRange
  | 35 => some .setModeRange
  | 84 => some .osdConfig
  | 184 => some .setOsdLayout
  | 8211 => some .setOsdLayoutItem
  | 8210 => some .osdLayouts
  | 4106 => some .serialSetting
  | 4099 => some .settingInfoRequest
  | 4103 => some .settingInfo
  | 105 => some .rc
  | _ => none

/-- A family of packed structures: their sizes in bytes, and what `unpack` and `pack` do.  A structure is
its content, of type `S k`. -/
structure Packing (S : RespKind → Type) where
  size : RespKind → Nat
  unpack : (k : RespKind) → Bytes → Option (S k)
  pack : (k : RespKind) → S k → Option Bytes

variable {S : RespKind → Type}

/-- `MspResponse` (structs.rs:1036-1088). -/
inductive MspResponse (S : RespKind → Type) where
  | unknown
  | struct (k : RespKind) (s : S k)

/-- `decode_as` (lib.rs:416-429): an error for a short packet; the bytes after the structure are left. -/
def decodeAs (P : Packing S) (k : RespKind) (data : Bytes) : Option (S k) :=
  if data.length < P.size k then none else P.unpack k (data.take (P.size k))

/-- `From<MspPacket> for MspResponse` (structs.rs:1216-1350), with `From<u16> for MspCommandCode`
(commands.rs:191-195): an unknown code and an error of `decode_as` are panics. -/
def ofPacket (P : Packing S) (p : Packet) : Rs (MspResponse S) :=
  if codes.contains p.cmd.toNat then
    match kindOf p.cmd.toNat with
    | none => .ok .unknown
    | some k => (Rs.ofOption (decodeAs P k p.data)).map' (.struct k)
  else .panic

/-- `pack_to_slice` of packed_struct: the slice must have the size of the structure. -/
def packToSlice (P : Packing S) (k : RespKind) (s : S k) (out : Bytes) : Option Bytes :=
  match P.pack k s with
  | none => none
  | some b => if out.length = b.length then some b else none

/-- `MspResponse::command_code` (structs.rs:1092-1147). -/
def MspResponse.code : MspResponse S → Nat
  | .unknown => 1
  | .struct k _ => k.code

/-- `MspResponse::to_bytes` (structs.rs:1149-1203): packed into the slice of a new, empty, buffer. -/
def MspResponse.toBytes (P : Packing S) : MspResponse S → Option Bytes
  | .unknown => none
  | .struct k s => packToSlice P k s []

/-- `From<MspResponse> for MspPacket` (structs.rs:1206-1214). -/
def MspResponse.toPacket (P : Packing S) (r : MspResponse S) : Rs Packet :=
  match r.toBytes P with
  | none => .panic
  | some b => .ok ⟨UInt16.ofNat r.code, .fromFlightController, b⟩

end Msp
end Verif
