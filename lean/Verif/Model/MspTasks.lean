import Verif.Model.Msp
/-!
The tasks that talk MSP on a serial line: components/sources/cu_msp_src/src/lib.rs and
components/sinks/cu_msp_sink/src/lib.rs, with the conversions of
components/common/cu_msp_lib/src/structs.rs they use.
-/
namespace Verif
namespace Msp

/-- What `From<MspPacket> for MspResponse` does with a command: no such command code
(`From<u16> for MspCommandCode`, commands.rs:191-195), a command without a structure here, or a
structure of `n` bytes. -/
inductive Kind
  | invalid
  | other
  | sized (n : Nat)
  deriving DecidableEq, Repr

/-- `MspResponse`: the unknown one, or a structure with its bytes.  Simplification: the fields of the
structures are not modelled, nor errors of `unpack` for enumerated fields. -/
inductive Response
  | unknown
  | sized (cmd : UInt16) (bytes : Bytes)
  deriving DecidableEq, Repr

/-- `From<MspPacket> for MspResponse` (structs.rs:1216-1350) with `decode_as` (lib.rs:416-429): the error
for a short packet and an unknown command code are unwrapped. -/
def respond (table : UInt16 → Kind) (k : Packet) : Rs Response :=
  match table k.cmd with
  | .invalid => .panic
  | .other => .ok .unknown
  | .sized n => if k.data.length < n then .panic else .ok (.sized k.cmd (k.data.take n))

/-- Some commands of commands.rs with the sizes of their structures. -/
def someTable (c : UInt16) : Kind :=
  if c = 102 then .sized 18 else if c = 105 then .sized 32 else if c = 130 then .sized 9
  else if c = 200 then .other else .invalid

/-- The loop of `MSPSrc::process` (cu_msp_src/src/lib.rs:122-134): it stops with the sixteenth response. -/
def drain (table : UInt16 → Kind) (p : Parser) (batch : List Response) : Bytes → Rs (Parser × List Response)
  | [] => .ok (p, batch)
  | b :: bs =>
    match p.parse b with
    | .panic => .panic
    | .ok (p', .ok (some k)) =>
      match respond table k with
      | .panic => .panic
      | .ok r => if (batch ++ [r]).length ≥ 16 then .ok (p', batch ++ [r]) else drain table p' (batch ++ [r]) bs
    | .ok (p', _) => drain table p' batch bs

/-- `MSPSrc::process` (cu_msp_src/src/lib.rs:104-142): `none` read is an error of the serial port, `none`
returned is an output left alone. -/
def srcProcess (table : UInt16 → Kind) (p : Parser) : Option Bytes → Rs (Parser × Option (List Response))
  | none => .ok (p, none)
  | some c => do
    let (p', batch) ← drain table p [] c
    .ok (p', some batch)

/-- Successive iterations. -/
def srcRun (table : UInt16 → Kind) (p : Parser) : List (Option Bytes) → Rs (Parser × List (Option (List Response)))
  | [] => .ok (p, [])
  | r :: rs =>
    match srcProcess table p r with
    | .panic => .panic
    | .ok (p', o) =>
      match srcRun table p' rs with
      | .panic => .panic
      | .ok (p'', os) => .ok (p'', o :: os)

/-- `MspRequest` (structs.rs:947-954). -/
inductive Request
  | unknown
  | batteryState
  | rc
  | setRawRc (channels : List UInt16)
  | rawImu
  deriving DecidableEq, Repr

/-- `From<&MspRequest> for MspPacket` (structs.rs:1003-1034); `channels` has 16 elements, packed least
significant byte first. -/
def Request.toPacket : Request → Packet
  | .batteryState => ⟨130, .toFlightController, []⟩
  | .rc => ⟨105, .toFlightController, []⟩
  | .setRawRc channels => ⟨200, .toFlightController, channels.flatMap toLe⟩
  | .rawImu => ⟨102, .toFlightController, []⟩
  | .unknown => ⟨1, .toFlightController, []⟩

/-- `MSPSink::process` (cu_msp_sink/src/lib.rs:91-113): the bytes written, or the error with what was
written before it. -/
def sinkProcess : List Request → Bytes × Option Err
  | [] => ([], none)
  | r :: rs =>
    match r.toPacket.serialize r.toPacket.size with
    | .error e => ([], some e)
    | .ok f => (f ++ (sinkProcess rs).1, (sinkProcess rs).2)

end Msp
end Verif
