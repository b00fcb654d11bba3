import Verif.Model.Replay
import Verif.Spec.Runtime
/-!
Specification vocabulary for C58: what "the same code" and "the same messages" mean for a recorded
run and its replay.
-/
namespace Verif
namespace Runtime
open Clock CopperList Planner
variable {σ P τ : Type}

/-- What a message says, apart from when the runtime handled it: payload, time of validity and
status, not the process times. -/
structure Content (P : Type) where
  payload : Option P
  tov : Tov
  status : String
  deriving DecidableEq, Repr

def _root_.Verif.Msg.content (m : Msg P) : Content P := ⟨m.payload, m.md.tov, m.md.statusTxt⟩

/-- The code of the regular tasks: what each does to its own memory (of type `τ`) and to its output,
and whether it fails, given the contents of its inputs and what is in its output beforehand.  It
sees neither the clock nor process times nor anything else. -/
structure TaskCode (P τ : Type) where
  life : Phase → Nat → τ → τ
  process : Nat → List (Content P) → Content P → τ → τ × Content P × Bool

/-- A memory changed at one task. -/
def setAt (mem : Nat → τ) (t : Nat) (v : τ) : Nat → τ := fun u => if u = t then v else mem u

def IsRegular (plan : List Step) (t : Nat) : Prop := ∃ s ∈ plan, s.nodeId = t ∧ s.taskType = .regular

/-- The regular tasks of the environment are the given code, their memories are found in the
environment's state by `mem`, and nothing else writes there.  Nothing is said about the clock, the
sources, the sinks, the monitor's answers and the log stream. -/
structure Plays (plan : List Step) (code : TaskCode P τ) (mem : σ → Nat → τ) (env : Env σ P) : Prop where
  life : ∀ ph t s, IsRegular plan t →
    mem (env.life ph t s).1 = setAt (mem s) t (code.life ph t (mem s t))
  regular : ∀ t ins out s,
    let r := code.process t (ins.map Msg.content) out.content (mem s t)
    mem (env.regular t ins out s).1 = setAt (mem s) t r.1 ∧
      (env.regular t ins out s).2.1.content = r.2.1 ∧
      (env.regular t ins out s).2.2.isSome = r.2.2
  lifeOther : ∀ ph t s, ¬ IsRegular plan t → mem (env.life ph t s).1 = mem s
  now : ∀ s, mem (env.now s).1 = mem s
  source : ∀ t out s, mem (env.source t out s).1 = mem s
  sink : ∀ t ins s, mem (env.sink t ins s).1 = mem s
  onError : ∀ ph t e s, mem (env.onError ph t e s).1 = mem s
  monCL : ∀ md s, mem (env.monCL md s).1 = mem s
  monStart : ∀ s, mem (env.monStart s).1 = mem s
  log : ∀ f, env.log = some f → ∀ s cl s', f s cl = .ok s' → mem s' = mem s

/-- A callback that leaves the regular tasks to the runtime and does what it wants with the sources
and the sinks. -/
structure LeavesRegular (plan : List Step) (mem : σ → Nat → τ) (sim : Sim σ P) : Prop where
  life : ∀ ph t s, mem (sim.life ph t s).1 = mem s ∧
    (IsRegular plan t → (sim.life ph t s).2 = .executeByRuntime)
  process : ∀ t ins out s, mem (sim.process t ins out s).1 = mem s ∧
    (IsRegular plan t → (sim.process t ins out s).2 = (out, .executeByRuntime))

/-- The same list number, and the same messages from every source and every regular task (a sink has
no message of its own). -/
def SameList (plan : List Step) (a b : CL (List (Msg P))) : Prop :=
  a.id = b.id ∧ a.msgs.length = b.msgs.length ∧
  ∀ (k : Nat) (s : Step), plan[k]? = some s → s.taskType ≠ .sink →
    a.msgs[k]?.map Msg.content = b.msgs[k]?.map Msg.content

/-- Two lists of the application, with the same messages from every source. -/
def SameSources (plan : List Step) (a b : CL (List (Msg P))) : Prop :=
  a.msgs.length = plan.length ∧ b.msgs.length = plan.length ∧
  ∀ (k : Nat) (s : Step), plan[k]? = some s → s.taskType = .source →
    a.msgs[k]?.map Msg.content = b.msgs[k]?.map Msg.content

/-- Two pools in the same condition, as two newly built applications are: no list in use, the same
next number, the same left over contents in the list that will be used. -/
def SamePool (plan : List Step) (m m' : Manager (List (Msg P))) : Prop :=
  Idle plan.length m ∧ Idle plan.length m' ∧ m.currentClId = m'.currentClId ∧
  ∀ c c', m.data[0]? = some c → m'.data[0]? = some c' →
    ∀ (k : Nat) (s : Step), plan[k]? = some s → s.taskType ≠ .sink →
      c.msgs[k]?.map Msg.content = c'.msgs[k]?.map Msg.content

/-- A monitor that never stops anything, as `NoMonitor` (core/cu29_runtime/src/monitoring.rs:57-71): it
answers `Ignore` to every error and has no errors of its own. -/
structure Tolerant (env : Env σ P) : Prop where
  onError : ∀ ph t e s, (env.onError ph t e s).2 = .ignore
  monCL : ∀ md s, (env.monCL md s).2 = none
  monStart : ∀ s, (env.monStart s).2 = none

/-- `get_<source>_output` reads the message of the source, for every source (C24 shows when it does
not). -/
def SourcesReadable (plan : List Step) : Prop :=
  ∀ (k : Nat) (s : Step), plan[k]? = some s → s.taskType = .source → accessorIndex plan s.nodeId = some k

end Runtime
end Verif
