import Verif.Model.Velodyne
/-! What is expected of the Velodyne source and of the player of recorded packets. -/
namespace Verif
namespace Velodyne
open Bincode Clock

/-- The points of returns that are single. -/
def points : List Return → List Point
  | [] => []
  | .single p :: l => p :: points l
  | .dual _ _ :: l => points l

/-- The point of a message for a point of the sensor: its time in the hour and its place.  The reflectivity is
apart (`C75_reflectivity_violated`). -/
def Shown (narrow : F64 → F32) (p : Point) (c : CloudPoint) : Prop :=
  (p.toh < 2 ^ 64 → c.tov.ns.toNat = p.toh) ∧ c.x = narrow p.x ∧ c.y = narrow p.y ∧ c.z = narrow p.z

/-- There are two returns somewhere. -/
def hasDual (l : List Return) : Prop := ∃ a b, .dual a b ∈ l

/-- The payloads of the packets of a capture that have one of `ps` bytes after their 42 bytes of headers. -/
def payloads (ps : Nat) (l : List Packet) : List Bytes :=
  (l.filter fun p => 42 + ps ≤ p.data.length).map fun p => (p.data.drop 42).take ps

/-- Packets sent at these times, captured at those, keep the pace of the player: each is sent as soon as the one
before it is and the interval between their captures has passed since the player was made. -/
def Paced : List Nat → List Nat → Prop
  | t :: t' :: ts, c :: c' :: cs => t' = max t (c' - c) ∧ Paced (t' :: ts) (c' :: cs)
  | ts, cs => ts.length = cs.length

end Velodyne
end Verif
