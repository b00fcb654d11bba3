import Verif.Model.Runtime
/-!
A small application used by the examples beside the theorems: the environment's state is the
clock, tasks fail where told to, the monitor decides as told.
-/
namespace Verif
namespace Runtime
open Clock CopperList Planner

/-- `fails ph tid`: the task's method reports an error. `decide ph tid`: the monitor's decision. -/
def demoEnv (fails : Phase → Nat → Bool) (dec : Phase → Nat → Decision)
    (sim : Option (Phase → Nat → SimOverride)) : Env Nat Nat where
  now s := (s + 1, ⟨UInt64.ofNat (min s 18446744073709551614)⟩)
  life ph tid s := (s, if fails ph tid then some "lifecycle" else none)
  source tid out s := (s, out.setPayload (100 * tid + s), if fails .process tid then some "source" else none)
  regular tid ins out s :=
    (s, out.setPayload (1000 * tid + (ins.map (fun m => m.payload.getD 0)).sum),
      if fails .process tid then some "regular" else none)
  sink tid _ s := (s, if fails .process tid then some "sink" else none)
  onError ph tid _ s := (s, dec ph tid)
  monCL _ s := (s, none)
  monStart s := (s, none)
  monStop s := (s, none)
  log := some (fun s _ => .ok s)
  sim := sim.map (fun f =>
    { life := fun ph tid s => (s, f ph tid)
      process := fun tid _ out s => (s, out.setPayload 7, f .process tid) })

/-- source 0 → task 1 → sink 2. -/
def demoPlan : List Step :=
  [⟨0, .source, [], some (0, "a")⟩, ⟨1, .regular, [(0, "a")], some (1, "b")⟩,
   ⟨2, .sink, [(1, "b")], some (2, "()")⟩]

def demoApp (fails : Phase → Nat → Bool) (dec : Phase → Nat → Decision)
    (sim : Option (Phase → Nat → SimOverride)) : App Nat Nat :=
  ⟨3, demoPlan, demoEnv fails dec sim, .checked⟩

def demoStart : Rt Nat Nat := ⟨⟨5, []⟩, Manager.new 2 [Msg.new none, Msg.new none, Msg.new none]⟩

/-- The graph of `demoPlan`. -/
def demoGraph : Graph := ⟨3, [⟨0, 1, "a"⟩, ⟨1, 2, "b"⟩]⟩

example : computePlan demoGraph = .ok (some demoPlan) := by decide +kernel

end Runtime
end Verif
