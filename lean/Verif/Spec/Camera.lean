import Verif.Model.Camera
/-! What C72 says: a camera is a queue of frames with room for as many as there are buffers. -/
namespace Verif
namespace Camera
variable {D : Type}

/-- What a user of the camera has in mind. -/
structure View (D : Type) where
  running : Bool
  /-- a frame did not arrive in time since the start -/
  stuck : Bool
  /-- how many frames may still come before one is lost -/
  room : Nat
  /-- frames not delivered, oldest first -/
  waiting : List (Frame D)
  offset : Int

def View.new : View D := ⟨false, false, 0, [], 0⟩

/-- A frame comes. -/
def View.capture (v : View D) (f : Frame D) : View D :=
  if v.running = true ∧ 0 < v.room then { v with room := v.room - 1, waiting := v.waiting ++ [f] } else v

/-- A call of the source: there is room for one more frame, and the oldest is delivered. -/
def View.process (v : View D) (arrivals : List (Frame D)) : View D × Out D :=
  if v.running = false ∨ v.stuck = true then (v, .failed)
  else
    let v := arrivals.foldl View.capture { v with room := v.room + 1 }
    match v.waiting with
    | [] => ({ v with stuck := true }, .failed)
    | f :: w => ({ v with waiting := w }, if f.used = 0 then .empty else .image f.data (toRobot v.offset f.time))

/-- An event, for a camera of `n` buffers. -/
def View.step (n : Nat) (v : View D) : Event D → View D × Out D
  | .start m r => (⟨true, false, n - 1, [], m - r⟩, .quiet)
  | .stop => (⟨false, false, 0, [], v.offset⟩, .quiet)
  | .process arrivals => v.process arrivals
  | .capture f => (v.capture f, .quiet)
  | _ => (v, .quiet)

def View.run (n : Nat) : View D → List (Event D) → View D × List (Out D)
  | v, [] => (v, [])
  | v, e :: es =>
    let r := v.step n e
    let q := r.1.run n es
    (q.1, r.2 :: q.2)

/-- The source is not started twice without a stop between; `may`: it may be started now. -/
def startsOnce (may : Bool) : List (Event D) → Bool
  | [] => true
  | .start _ _ :: es => may && startsOnce false es
  | .stop :: es => startsOnce true es
  | _ :: es => startsOnce may es

end Camera
end Verif
