import Verif.Model.ServoBus
import Verif.Spec.ReadingsFp
/-!
Servos on a bus, and what the answers to questions should be.
-/
namespace Verif
namespace Servo
open ReadingsFp

/-- A frame of the bus: two bytes 55, the id, the number of bytes from there on, the command, the data, and a byte that
makes the sum of all behind the start 255. -/
def IsFrame (id command : UInt8) (data f : Bytes) : Prop :=
  ∃ len sum : UInt8, f = [0x55, 0x55, id, len, command] ++ data ++ [sum] ∧ len.toNat = data.length + 3 ∧
    (id.toNat + len.toNat + command.toNat + (data.map UInt8.toNat).sum + sum.toNat) % 256 = 255

/-- What a servo knows: its position and its limits in steps of 0.24 degrees, the voltage in millivolts, the
temperature in degrees. -/
structure Knows where
  position : Int16
  voltage : UInt16
  temperature : UInt8
  low : Int16
  high : Int16

/-- A number of 16 bits in two bytes. -/
def Bytes16 (n : UInt16) : Bytes := [UInt8.ofNat (n.toNat % 256), UInt8.ofNat (n.toNat / 256)]

/-- The questions: whom they ask, and the command. -/
def question : Op → Option (UInt8 × UInt8)
  | .position id => some (id, 28)
  | .voltage id => some (id, 27)
  | .temperature id => some (id, 26)
  | .limits id => some (id, 21)
  | .ping id => some (id, 14)
  | .reassign _ _ => none

/-- The data of the answer of a servo. -/
def answer (id : UInt8) (s : Knows) : Op → Bytes
  | .position _ => Bytes16 s.position.toUInt16
  | .voltage _ => Bytes16 s.voltage
  | .temperature _ => [s.temperature]
  | .limits _ => Bytes16 s.low.toUInt16 ++ Bytes16 s.high.toUInt16
  | .ping _ => [id]
  | .reassign _ _ => []

/-- On this bus every servo that is there answers every question to it at once, with a frame, and nothing else arrives.
What the servos know may change meanwhile. -/
def Obeys {σ : Type} (bus : Bus σ) (servos : σ → UInt8 → Option Knows) : Prop :=
  ∀ st id s op command f, servos st id = some s → question op = some (id, command) → IsFrame id command [] f →
    ∃ st' more, bus st f = some (st', more) ∧ IsFrame id command (answer id s op) more

/-- The right answers. -/
inductive Tells (servos : UInt8 → Option Knows) : Op → Reading → Prop
  | position {id s x} : servos id = some s → IsAbout x (s.position.toInt * 24 / 100) →
      Tells servos (.position id) (.angle x)
  | voltage {id s x} : servos id = some s → IsAbout x (s.voltage.toNat / 1000) → Tells servos (.voltage id) (.volts x)
  | temperature {id s} : servos id = some s → Tells servos (.temperature id) (.degrees s.temperature)
  | limits {id s x y} : servos id = some s → IsAbout x (s.low.toInt * 24 / 100) → IsAbout y (s.high.toInt * 24 / 100) →
      Tells servos (.limits id) (.range x y)
  | ping {id s} : servos id = some s → Tells servos (.ping id) .done

/-- Each answer is right for the moment at which the question was asked. -/
inductive Told {σ : Type} (bus : Bus σ) (servos : σ → UInt8 → Option Knows) : σ → List Op → List Reading → Prop
  | nil {st} : Told bus servos st [] []
  | cons {st st' op ops r rs id command f more} : Tells (servos st) op r → question op = some (id, command) →
      IsFrame id command [] f → bus st f = some (st', more) → Told bus servos st' ops rs → Told bus servos st (op :: ops) (r :: rs)

end Servo
end Verif
