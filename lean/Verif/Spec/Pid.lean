import Verif.Model.Pid
/-! Histories of a PID task and what its outputs should be. -/
namespace Verif
namespace Pid

/-- Tasks of a configuration after any history of iterations and stops. -/
inductive Reach (cfg : Cfg) : Task → Prop
  | new : Reach cfg (Task.new cfg)
  | process {t t' : Task} {x : Option (Option Nat × Rat)} {r : Res} :
      Reach cfg t → t.process x = .ok (t', r) → Reach cfg t'
  | stop {t : Task} : Reach cfg t → Reach cfg t.stop

/-- Limits a controller can work with. -/
def Cfg.Sound (cfg : Cfg) : Prop :=
  0 ≤ cfg.pLimit ∧ 0 ≤ cfg.iLimit ∧ 0 ≤ cfg.dLimit ∧ 0 ≤ cfg.outputLimit

/-- An output within the limits (of its numbers). -/
def Within (cfg : Cfg) (o : Out) : Prop :=
  (-cfg.pLimit ≤ o.p ∧ o.p ≤ cfg.pLimit) ∧ (-cfg.iLimit ≤ o.i ∧ o.i ≤ cfg.iLimit) ∧
  (∀ d, o.d = some d → -cfg.dLimit ≤ d ∧ d ≤ cfg.dLimit) ∧
  (∀ u, o.output = some u → -cfg.outputLimit ≤ u ∧ u ≤ cfg.outputLimit)

/-- A number limited to an interval around 0. -/
def limited (limit x : Rat) : Rat := max (-limit) (min x limit)

/-- The textbook output for a sample `(t, m)` after the sample `(t0, m0)`, `s` being the sum of error times
duration up to the sample. -/
def textbook (cfg : Cfg) (s : Rat) (t0 : Nat) (m0 : Rat) (t : Nat) (m : Rat) : Out :=
  let p := limited cfg.pLimit (cfg.kp * (cfg.setpoint - m))
  let i := limited cfg.iLimit (cfg.ki * s)
  let d := limited cfg.dLimit (cfg.kd * (((m0 - m) / (((t - t0 : Nat) : Rat) / 1000000))))
  ⟨p, i, some d, some (limited cfg.outputLimit (p + i + d))⟩

/-- The textbook outputs for samples following the sample `(t0, m0)`, `s` being the sum so far. -/
def outputsOf (cfg : Cfg) (s : Rat) (t0 : Nat) (m0 : Rat) : List (Nat × Rat) → List Out
  | [] => []
  | (t, m) :: xs =>
    let s' := s + (cfg.setpoint - m) * (((t - t0 : Nat) : Rat) / 1000000)
    textbook cfg s' t0 m0 t m :: outputsOf cfg s' t m xs

/-- Samples in the cutoff, each at least a sampling period after the one before, and later. -/
def Spaced (cfg : Cfg) (t0 : Nat) : List (Nat × Rat) → Prop
  | [] => True
  | (t, m) :: xs => t0 < t ∧ t0 + cfg.sampling ≤ t ∧ t < 2 ^ 64 ∧
      cfg.setpoint - cfg.cutoff ≤ m ∧ m ≤ cfg.setpoint + cfg.cutoff ∧ Spaced cfg t xs

end Pid
end Verif
