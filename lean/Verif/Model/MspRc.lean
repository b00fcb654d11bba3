import Verif.Model.MspTasks
/-!
The radio channels sent to a flight controller, and the numbers and texts of serial port settings:
components/common/cu_msp_lib/src/structs.rs:336-363, 640-757, 895-943, 956-966.
-/
namespace Verif
namespace Msp

/-- `MspRcChannel` (structs.rs:336-363), the first eight of its twenty. -/
inductive RcChannel where
  | roll | pitch | yaw | throttle | aux1 | aux2 | aux3 | aux4
  deriving DecidableEq, Repr

/-- Its numbers (structs.rs:341-352). -/
def RcChannel.number : RcChannel → Nat
  | .roll => 0
  | .pitch => 1
  | .yaw => 2
  | .throttle => 3
  | .aux1 => 4
  | .aux2 => 5
  | .aux3 => 6
  | .aux4 => 7

/-- `MspRc` (structs.rs:895-901): sixteen channels. -/
structure Rc where
  channels : List UInt16
  deriving DecidableEq, Repr

/-- `MspRc::new` (structs.rs:909-912). -/
def Rc.new : Rc := ⟨List.replicate 16 0⟩

/-- `set_roll`, `set_pitch`, `set_throttle`, `set_yaw`, `set_aux1` to `set_aux4` (structs.rs:914-942). -/
def Rc.set (r : Rc) : RcChannel → UInt16 → Rc
  | .roll, v => ⟨r.channels.set 0 v⟩
  | .pitch, v => ⟨r.channels.set 1 v⟩
  | .throttle, v => ⟨r.channels.set 2 v⟩
  | .yaw, v => ⟨r.channels.set 3 v⟩
  | .aux1, v => ⟨r.channels.set 4 v⟩
  | .aux2, v => ⟨r.channels.set 5 v⟩
  | .aux3, v => ⟨r.channels.set 6 v⟩
  | .aux4, v => ⟨r.channels.set 7 v⟩

/-- Several calls of these. -/
def Rc.setAll (r : Rc) (l : List (RcChannel × UInt16)) : Rc := l.foldl (fun r x => r.set x.1 x.2) r

/-- `MspRequest::command_code` (structs.rs:956-966). -/
def Request.code : Request → UInt16
  | .batteryState => 130
  | .rc => 105
  | .setRawRc _ => 200
  | .rawImu => 102
  | .unknown => 1

/-- `SerialIdentifier` (structs.rs:640-656). -/
inductive Serial where
  | none | usart1 | usart2 | usart3 | usart4 | usart5 | usart6 | usart7 | usart8 | usbVcp | softSerial1 | softSerial2
  deriving DecidableEq, Repr

/-- Its numbers. -/
def Serial.number : Serial → UInt8
  | .none => 255
  | .usart1 => 0
  | .usart2 => 1
  | .usart3 => 2
  | .usart4 => 3
  | .usart5 => 4
  | .usart6 => 5
  | .usart7 => 6
  | .usart8 => 7
  | .usbVcp => 20
  | .softSerial1 => 30
  | .softSerial2 => 31

/-- `TryFrom<u8> for SerialIdentifier` (structs.rs:658-681). -/
def Serial.tryFrom (v : UInt8) : Option Serial :=
  if v = 255 then some .none
  else if v = 0 then some .usart1
  else if v = 1 then some .usart2
  else if v = 2 then some .usart3
  else if v = 3 then some .usart4
  else if v = 4 then some .usart5
  else if v = 5 then some .usart6
  else if v = 6 then some .usart7
  else if v = 7 then some .usart8
  else if v = 20 then some .usbVcp
  else if v = 30 then some .softSerial1
  else if v = 31 then some .softSerial2
  else Option.none

/-- `Baudrate` (structs.rs:682-703). -/
inductive Baudrate where
  | auto | b1200 | b2400 | b4800 | b9600 | b19200 | b38400 | b57600 | b115200 | b230400 | b250000 | b460800
  | b921600 | b1000000 | b1500000 | b2000000 | b2470000
  deriving DecidableEq, Repr

/-- `From<Baudrate> for String` (structs.rs:734-757). -/
def Baudrate.text : Baudrate → String
  | .auto => "0"
  | .b1200 => "1200"
  | .b2400 => "2400"
  | .b4800 => "4800"
  | .b9600 => "9600"
  | .b19200 => "19200"
  | .b38400 => "38400"
  | .b57600 => "57600"
  | .b115200 => "115200"
  | .b230400 => "230400"
  | .b250000 => "250000"
  | .b460800 => "460800"
  | .b921600 => "921600"
  | .b1000000 => "1000000"
  | .b1500000 => "1500000"
  | .b2000000 => "2000000"
  | .b2470000 => "2470000"

/-- `TryFrom<&str> for Baudrate` (structs.rs:705-732). -/
def Baudrate.tryFrom (s : String) : Option Baudrate :=
  if s = "0" then some .auto
  else if s = "1200" then some .b1200
  else if s = "2400" then some .b2400
  else if s = "4800" then some .b4800
  else if s = "9600" then some .b9600
  else if s = "19200" then some .b19200
  else if s = "38400" then some .b38400
  else if s = "57600" then some .b57600
  else if s = "115200" then some .b115200
  else if s = "230400" then some .b230400
  else if s = "250000" then some .b250000
  else if s = "460800" then some .b460800
  else if s = "921600" then some .b921600
  else if s = "1000000" then some .b1000000
  else if s = "1500000" then some .b1500000
  else if s = "2000000" then some .b2000000
  else if s = "2470000" then some .b2470000
  else none

end Msp
end Verif
