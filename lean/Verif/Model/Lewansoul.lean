import Verif.Model.Basic
/-!
The serial bus servo driver: components/sinks/cu_lewansoul/src/lib.rs.  The serial line is the list of the
bytes that will arrive; a read that they do not suffice for times out.  The task itself is unfinished:
`process` is `todo!()` (lib.rs:251-253) and not modelled.
-/
namespace Verif
namespace Servo

abbrev Bytes := List UInt8

/-- `compute_checksum` (lib.rs:59-66). -/
def checksum (bs : Bytes) : UInt8 := ~~~ (bs.foldl (· + ·) 0)

/-- `send_packet` (lib.rs:83-92): the bytes written.  `data.len() as u8 + 3` panics on overflow (debug
build; a release build wraps). -/
def sendPacket (id command : UInt8) (data : Bytes) : Rs Bytes :=
  if (UInt8.ofNat data.length).toNat + 3 ≥ 256 then .panic
  else
    let packet := [0x55, 0x55, id, UInt8.ofNat data.length + 3, command] ++ data
    .ok (packet ++ [checksum (packet.drop 2)])

/-- Errors of `read_response`. -/
inductive Err
  | timeout
  | invalidHeader
  | invalidChecksum
  deriving DecidableEq, Repr

/-- `Read::read_exact` of `n` bytes: the bytes and the rest of the line. -/
def readExact (n : Nat) (line : Bytes) : Option (Bytes × Bytes) :=
  if line.length < n then none else some (line.take n, line.drop n)

/-- `read_response` (lib.rs:158-182): id, command and data, and the rest of the line (nothing after a
timeout).  `length as usize - 2`, `remaining.len() - 1` panic on underflow. -/
def readResponse (line : Bytes) : Rs (Except Err (UInt8 × UInt8 × Bytes) × Bytes) :=
  match readExact 5 line with
  | some ([h0, h1, id, length, command], line') =>
    if h0 ≠ 0x55 ∨ h1 ≠ 0x55 then .ok (.error .invalidHeader, line')
    else if length.toNat < 2 then .panic
    else
      match readExact (length.toNat - 2) line' with
      | none => .ok (.error .timeout, [])
      | some (remaining, rest) =>
        match remaining.getLast? with
        | none => .panic
        | some c =>
          let data := remaining.dropLast
          if checksum ([id, length, command] ++ data) ≠ c then .ok (.error .invalidChecksum, rest)
          else .ok (.ok (id, command, data), rest)
  | _ => .ok (.error .timeout, [])

/-- `ping` (lib.rs:137-156), after its request was sent: whether the servo answered. -/
def pingAnswer (id : UInt8) (line : Bytes) : Rs (Bool × Bytes) :=
  match readResponse line with
  | .panic => .panic
  | .ok (.error _, rest) => .ok (false, rest)
  | .ok (.ok (_, _, data), rest) =>
    match data with
    | [] => .panic
    | d :: _ => .ok (d == id, rest)

end Servo
end Verif
