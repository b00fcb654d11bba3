import Verif.Model.Basic
/-!
The MSP protocol of flight controllers: components/common/cu_msp_lib/src/lib.rs.  The checksum of version
2 is that of the crate `crc-any`, `CRCu8::crc8dvb_s2` (trusted): polynomial 0xD5, initial value 0, most
significant bit first.
-/
namespace Verif
namespace Msp

abbrev Bytes := List UInt8

/-- `MspPacketDirection` (lib.rs:93-100). -/
inductive Direction
  | toFlightController
  | fromFlightController
  | unsupported
  deriving DecidableEq, Repr

/-- `to_byte` (lib.rs:104-111). -/
def Direction.toByte : Direction → UInt8
  | .toFlightController => 60
  | .fromFlightController => 62
  | .unsupported => 33

/-- `MspPacket` (lib.rs:116-120). -/
structure Packet where
  cmd : UInt16
  direction : Direction
  data : Bytes
  deriving DecidableEq, Repr

/-- `MspPacketParseError` (lib.rs:56-65), those that occur. -/
inductive Err
  | outputBufferSizeMismatch
  | crcMismatch (expected calculated : UInt8)
  | invalidHeader2
  | invalidDirection
  deriving DecidableEq, Repr

/-- `MspParserState` (lib.rs:123-135). -/
inductive State
  | header1
  | header2
  | direction
  | flagV2
  | dataLength
  | dataLengthV2
  | command
  | commandV2
  | data
  | dataV2
  | crc
  deriving DecidableEq, Repr

/-- `MspVersion` (lib.rs:138-141). -/
inductive Version
  | v1
  | v2
  deriving DecidableEq, Repr

/-- One bit of the checksum of version 2. -/
def crcBit (c : BitVec 8) : BitVec 8 := if c.msb then (c <<< 1) ^^^ 0xD5#8 else c <<< 1
/-- One byte of it. -/
def crcByte (c b : UInt8) : UInt8 :=
  ⟨crcBit (crcBit (crcBit (crcBit (crcBit (crcBit (crcBit (crcBit (c ^^^ b).toBitVec)))))))⟩
/-- `CRCu8::digest`. -/
def digest (c : UInt8) (bs : Bytes) : UInt8 := bs.foldl crcByte c

/-- `MspParser` (lib.rs:145-154). -/
structure Parser where
  state : State
  version : Version
  direction : Direction
  cmd : UInt16
  remaining : Nat
  data : Bytes
  crc : UInt8
  crcV2 : UInt8
  deriving DecidableEq, Repr

/-- `MspParser::new` (lib.rs:158-169). -/
def Parser.new : Parser := ⟨.header1, .v1, .toFlightController, 0, 0, [], 0, 0⟩

/-- `state_is_between_packets` (lib.rs:172-174). -/
def Parser.betweenPackets (p : Parser) : Bool := p.state == .header1

/-- `reset` (lib.rs:334-343): the version is kept. -/
def Parser.reset (p : Parser) : Parser :=
  { p with state := .header1, direction := .toFlightController, remaining := 0, cmd := 0, data := [],
           crc := 0, crcV2 := 0 }

/-- `u16::from_le_bytes` of a two byte slice; `copy_from_slice` panics for another length. -/
def fromLe : Bytes → Rs UInt16
  | [a, b] => .ok (UInt16.ofNat (a.toNat + 256 * b.toNat))
  | _ => .panic

/-- `parse` (lib.rs:178-332); decreasing a zero counter is a panic. -/
def Parser.parse (p : Parser) (input : UInt8) : Rs (Parser × Except Err (Option Packet)) :=
  match p.state with
  | .header1 => if input = 36 then .ok ({ p with state := .header2 }, .ok none) else .ok (p.reset, .ok none)
  | .header2 =>
    if input = 77 then .ok ({ p with version := .v1, state := .direction }, .ok none)
    else if input = 88 then .ok ({ p with version := .v2, state := .direction }, .ok none)
    else .ok (p.reset, .error .invalidHeader2)
  | .direction =>
    let next := match p.version with | .v1 => State.dataLength | .v2 => State.flagV2
    if input = 60 then .ok ({ p with direction := .toFlightController, state := next }, .ok none)
    else if input = 62 then .ok ({ p with direction := .fromFlightController, state := next }, .ok none)
    else if input = 33 then .ok ({ p with direction := .unsupported, state := next }, .ok none)
    else .ok (p.reset, .error .invalidDirection)
  | .flagV2 => .ok ({ p with state := .commandV2, data := [], crcV2 := digest p.crcV2 [input] }, .ok none)
  | .commandV2 =>
    let d := p.data ++ [input]
    if d.length = 2 then do
      let c ← fromLe d
      .ok ({ p with cmd := c, crcV2 := digest p.crcV2 d, data := [], state := .dataLengthV2 }, .ok none)
    else .ok ({ p with data := d }, .ok none)
  | .dataLengthV2 =>
    let d := p.data ++ [input]
    if d.length = 2 then do
      let n ← fromLe d
      .ok ({ p with remaining := n.toNat, crcV2 := digest p.crcV2 d, data := [],
                    state := if n.toNat = 0 then .crc else .dataV2 }, .ok none)
    else .ok ({ p with data := d }, .ok none)
  | .dataV2 =>
    if p.remaining = 0 then .panic
    else .ok ({ p with data := p.data ++ [input], remaining := p.remaining - 1,
                       state := if p.remaining - 1 = 0 then .crc else .dataV2 }, .ok none)
  | .dataLength =>
    .ok ({ p with remaining := input.toNat, state := .command, crc := p.crc ^^^ input, data := [] }, .ok none)
  | .command =>
    .ok ({ p with cmd := input.toUInt16, state := if p.remaining = 0 then .crc else .data,
                  crc := p.crc ^^^ input }, .ok none)
  | .data =>
    if p.remaining = 0 then .panic
    else .ok ({ p with data := p.data ++ [input], remaining := p.remaining - 1, crc := p.crc ^^^ input,
                       state := if p.remaining - 1 = 0 then .crc else .data }, .ok none)
  | .crc =>
    let c := match p.version with | .v2 => digest p.crcV2 p.data | .v1 => p.crc
    if input ≠ c then .ok (p.reset, .error (.crcMismatch input c))
    else .ok (p.reset, .ok (some ⟨p.cmd, p.direction, p.data⟩))

/-- A whole stream of bytes: what the parser returns besides `Ok(None)`, in order. -/
def Parser.feed (p : Parser) : Bytes → Rs (Parser × List (Except Err Packet))
  | [] => .ok (p, [])
  | b :: bs =>
    match p.parse b with
    | .panic => .panic
    | .ok (p1, r) =>
      match p1.feed bs with
      | .panic => .panic
      | .ok (p2, rs) =>
        .ok (p2, match r with
          | .ok none => rs
          | .ok (some k) => .ok k :: rs
          | .error e => .error e :: rs)

/-- `packet_size_bytes` (lib.rs:354-357). -/
def Packet.size (k : Packet) : Nat := 6 + k.data.length
/-- `packet_size_bytes_v2` (lib.rs:360-363). -/
def Packet.sizeV2 (k : Packet) : Nat := 9 + k.data.length

/-- The checksum of version 1 (lib.rs:382-386). -/
def xorAll (c : UInt8) (bs : Bytes) : UInt8 := bs.foldl (· ^^^ ·) c

/-- `serialize` into a buffer of length `l` (lib.rs:366-389); `as u8` keeps the low byte. -/
def Packet.serialize (k : Packet) (l : Nat) : Except Err Bytes :=
  if l ≠ k.size then .error .outputBufferSizeMismatch
  else
    let n := UInt8.ofNat k.data.length
    let c := k.cmd.toUInt8
    .ok ([36, 77, k.direction.toByte, n, c] ++ k.data ++ [xorAll (n ^^^ c) k.data])

/-- `u16::to_le_bytes`. -/
def toLe (n : UInt16) : Bytes := [n.toUInt8, (n >>> 8).toUInt8]

/-- `serialize_v2` into a buffer of length `l` (lib.rs:392-414). -/
def Packet.serializeV2 (k : Packet) (l : Nat) : Except Err Bytes :=
  if l ≠ k.sizeV2 then .error .outputBufferSizeMismatch
  else
    let body := [0] ++ toLe k.cmd ++ toLe (UInt16.ofNat k.data.length) ++ k.data
    .ok ([36, 88, k.direction.toByte] ++ body ++ [digest 0 body])

end Msp
end Verif
