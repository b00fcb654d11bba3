import Verif.Proofs.TypedRun
import Verif.Model.FreshList
/-!
C118: what tasks promise of their messages, one at a time, holds of all the messages of the application.
-/
namespace Verif
namespace Runtime
open Clock CopperList Planner
variable {σ P : Type}

theorem zero_sound {app : App σ P} {I : σ → Prop} {Q : Nat → Msg P → Prop} {s : σ} (hs : I s) {ls : List (Layout P)}
    (hz : ∀ i l, ls[i]? = some l → Q i (zeroMsg l)) (N : Nat) :
    Sound app I ls.length Q ⟨⟨s, []⟩, zeroLists N ls⟩ := by
  refine ⟨⟨hs, fun ev h => nomatch h⟩, fun cl h => ?_⟩
  simp only [zeroLists, Manager.new] at h
  rw [(List.mem_replicate.1 h).2]
  refine ⟨by simp, fun i m hm => ?_⟩
  rw [List.getElem?_map] at hm
  cases hl : ls[i]? with
  | none => rw [hl] at hm; cases hm
  | some l => rw [hl] at hm; cases hm; exact hz i l hl

/-- What every task leaves in its message is as promised, succeed or fail, provided the messages it is given are: then
all messages are, those given to tasks, those they leave and those that are logged, whatever fails, whatever the
monitor decides, for any number of iterations, with or without a simulation. -/
theorem C118_promises {app : App σ P} {I : σ → Prop} {Q : Nat → Msg P → Prop} (hk : Keeps app I Q)
    {s : σ} (hs : I s) {ls : List (Layout P)} (hz : ∀ i l, ls[i]? = some l → Q i (zeroMsg l)) {N k : Nat}
    {rt : Rt σ P} {r : RunResult} (h : run app k ⟨⟨s, []⟩, zeroLists N ls⟩ = .ok (rt, r)) :
    ∀ ev ∈ rt.w.trace, ev.Holds app.plan ls.length Q :=
  (run_sound hk.promises (.inr hk) (zero_sound hs hz N) h).1.2

/-- If tasks promise nothing of the payload they leave when they fail, this remains so when the monitor goes on after
all errors. -/
theorem C118_ignored_partial {app : App σ P} {I : σ → Prop} {Q : Nat → Msg P → Prop} (hk : Promises app I Q)
    (hf : Forgiving app I) {s : σ} (hs : I s) {ls : List (Layout P)}
    (hz : ∀ i l, ls[i]? = some l → Q i (zeroMsg l)) {N k : Nat}
    {rt : Rt σ P} {r : RunResult} (h : run app k ⟨⟨s, []⟩, zeroLists N ls⟩ = .ok (rt, r)) :
    ∀ ev ∈ rt.w.trace, ev.Holds app.plan ls.length Q :=
  (run_sound hk (.inl hf) (zero_sound hs hz N) h).1.2

/-- A source of even numbers, which leaves an odd one each time it fails; a task which doubles them; a sink. -/
def evenApp (d : Decision) : App (Nat × Nat) Nat where
  tasks := 3
  plan := [⟨0, .source, [], some (0, "a")⟩, ⟨1, .regular, [(0, "a")], some (1, "b")⟩,
    ⟨2, .sink, [(1, "b")], some (2, "()")⟩]
  overflow := .checked
  env :=
    { now := fun s => ((s.1, s.2 + 1), ⟨UInt64.ofNat (min s.2 18446744073709551614)⟩)
      life := fun _ _ s => (s, none)
      source := fun _ out s => ((s.1 + 2, s.2),
        if s.1 % 4 = 2 then ({ out with payload := some (s.1 + 1) }, some "odd") else ({ out with payload := some s.1 }, none))
      regular := fun _ ins out s => (s, { out with payload := ins.head?.bind (·.payload.map (2 * ·)) }, none)
      sink := fun _ _ s => (s, none)
      onError := fun _ _ _ s => (s, d)
      monCL := fun _ s => (s, none)
      monStart := fun s => (s, none)
      monStop := fun s => (s, none)
      log := some (fun s _ => .ok s)
      sim := none }

/-- Even numbers, and their doubles. -/
def EvenSlot : Nat → Msg Nat → Prop
  | 0, m => ∀ x ∈ m.payload, x % 2 = 0
  | 1, m => ∀ x ∈ m.payload, x % 4 = 0
  | _, m => m.payload = none

theorem evenApp_promises (d : Decision) : Promises (evenApp d) (fun s => s.1 % 2 = 0) EvenSlot where
  now _ h := h
  life _ _ _ h := h
  onError _ _ _ _ h := h
  monCL _ _ h := h
  monStart _ h := h
  monStop _ h := h
  log f hf s cl s' h hl := by
    cases hf
    cases hl
    exact h
  simLife _ h := nomatch h
  times o m t h := by
    match o, h with
    | 0, h => exact ⟨h, h⟩
    | 1, h => exact ⟨h, h⟩
    | _ + 2, h => exact ⟨h, h⟩
  simCall _ h := nomatch h
  call step hs o ty ho ins out s hI hi hq := by
    simp only [evenApp, List.mem_cons, List.not_mem_nil, or_false] at hs
    rcases hs with rfl | rfl | rfl
    · cases ho
      simp only [callProcess, evenApp]
      refine ⟨by omega, ?_, ?_⟩ <;> split
      · intro h; cases h
      · intro _ x hx
        cases hx
        exact hI
      · intro _ x hx; cases hx
      · intro h; exact absurd rfl h
    · cases ho
      simp only [callProcess, evenApp]
      refine ⟨hI, fun _ x hx => ?_, fun h => absurd rfl h⟩
      cases hi with
      | cons h1 _ =>
        rename_i m _ _
        simp only [List.head?_cons, Option.bind_some] at hx
        cases hp : m.payload with
        | none => rw [hp] at hx; cases hx
        | some y =>
          rw [hp] at hx
          cases hx
          have := h1 y hp
          show 2 * y % 4 = 0
          omega
    · cases ho
      exact ⟨hI, fun _ => hq, fun h => absurd rfl h⟩

theorem even_zero : ∀ i l, ([.tagged, .tagged, .tagged] : List (Layout Nat))[i]? = some l → EvenSlot i (zeroMsg l)
  | 0, _, h => by cases h; intro x hx; cases hx
  | 1, _, h => by cases h; intro x hx; cases hx
  | 2, _, h => by cases h; rfl
  | _ + 3, _, h => by simp at h

/-- The payloads of the lists it logs. -/
def evenLogged (d : Decision) (k : Nat) : List (List (Option Nat)) :=
  match run (evenApp d) k ⟨⟨(0, 5), []⟩, zeroLists 2 [.tagged, .tagged, .tagged]⟩ with
  | .ok (rt, _) => (loggedLists rt.w.trace).map (fun cl => cl.msgs.map Msg.payload)
  | .panic => []

/-- When the monitor goes on, the odd numbers are not sent. -/
example : Forgiving (evenApp .ignore) (fun s => s.1 % 2 = 0) ∧
    evenLogged .ignore 3 = [[some 0, some 0, none], [none, none, none], [some 4, some 8, none]] :=
  ⟨fun _ _ _ _ => rfl, by decide +kernel⟩

/-- When it gives up the list, what the source left as it failed is logged, although what tasks leave when they
succeed is as promised, and also what they leave when they fail once its payload is removed. -/
theorem C118_violated : Promises (evenApp .abort) (fun s => s.1 % 2 = 0) EvenSlot ∧
    evenLogged .abort 2 = [[some 0, some 0, none], [some 3, some 0, none]] ∧
    ∀ m : Msg Nat, m.payload = some 3 → ¬ EvenSlot 0 m := by
  refine ⟨evenApp_promises _, by decide +kernel, fun m hm h => ?_⟩
  have := h 3 hm
  omega

/-- The same application, but its source sends nothing when it fails: the hypotheses of `C118_promises`. -/
def carefulApp (d : Decision) : App (Nat × Nat) Nat :=
  { evenApp d with env := { (evenApp d).env with
      source := fun _ out s => ((s.1 + 2, s.2), if s.1 % 4 = 2 then ({ out with payload := none }, some "odd")
        else ({ out with payload := some s.1 }, none)) } }

theorem carefulApp_keeps (d : Decision) : Keeps (carefulApp d) (fun s => s.1 % 2 = 0) EvenSlot where
  now _ h := h
  life _ _ _ h := h
  onError _ _ _ _ h := h
  monCL _ _ h := h
  monStart _ h := h
  monStop _ h := h
  log f hf s cl s' h hl := by
    cases hf
    cases hl
    exact h
  simLife _ h := nomatch h
  times := (evenApp_promises d).times
  simCall _ h := nomatch h
  cleared o m h := by
    match o, h with
    | 0, _ => intro x hx; cases hx
    | 1, _ => intro x hx; cases hx
    | _ + 2, _ => rfl
  call step hs o ty ho ins out s hI hi hq := by
    have hs' : step ∈ (evenApp d).plan := hs
    simp only [evenApp, List.mem_cons, List.not_mem_nil, or_false] at hs'
    rcases hs' with rfl | rfl | rfl
    · cases ho
      simp only [callProcess, carefulApp]
      refine ⟨by omega, ?_⟩
      split
      · intro x hx; cases hx
      · intro x hx
        cases hx
        exact hI
    · have h := (evenApp_promises d).call _ hs o ty ho ins out s hI hi hq
      exact ⟨h.1, h.2.1 rfl⟩
    · have h := (evenApp_promises d).call _ hs o ty ho ins out s hI hi hq
      exact ⟨h.1, h.2.1 rfl⟩

example (d : Decision) (k : Nat) (rt : Rt (Nat × Nat) Nat) (r : RunResult)
    (h : run (carefulApp d) k ⟨⟨(0, 5), []⟩, zeroLists 2 [.tagged, .tagged, .tagged]⟩ = .ok (rt, r)) :
    ∀ cl ∈ loggedLists rt.w.trace, ∀ m, cl.msgs[1]? = some m → ∀ x ∈ m.payload, x % 4 = 0 := by
  intro cl hcl m hm x hx
  obtain ⟨ev, hev, he⟩ := List.mem_filterMap.1 hcl
  have := C118_promises (carefulApp_keeps d) (s := (0, 5)) rfl even_zero h ev hev
  cases ev <;> simp only [Option.some.injEq, reduceCtorEq] at he
  subst he
  exact this.2 1 m hm x hx

example : ∃ rt, run (carefulApp .abort) 3 ⟨⟨(0, 5), []⟩, zeroLists 2 [.tagged, .tagged, .tagged]⟩ = .ok (rt, .running) ∧
    (loggedLists rt.w.trace).map (fun cl => cl.msgs.map Msg.payload) =
      [[some 0, some 0, none], [none, some 0, none], [some 4, some 8, none]] := by
  refine ⟨_, rfl, ?_⟩
  decide +kernel

end Runtime
end Verif
