import Verif.Proofs.Aligner
/-! C47: the aligner. -/
namespace Verif
open Clock
namespace Aligner

variable {V : Type}

/-- A message. -/
private def msg (p : Option Nat) (tov : Tov) : Msg Nat := ⟨p, ⟨.default, tov, ""⟩⟩
private def at' (n : UInt64) : Tov := .time ⟨n⟩

/-- C47, the window.  Whatever the state of the task (hence whatever the history), the inputs and the payload
found in the output: if any stream has a newest time, then the output holds for every stream the payloads
of the messages of its buffer that lie in one window, the same for all the streams, that ends at the earliest
of the newest times and begins the configured duration before; as many as fit, oldest first.
Otherwise the output is left as found.  Streams with a message without time do not count (see the violations). -/
theorem C47_window_partial (o : Overflow) (t t' : Task V) (input : List (Msg V)) (prev out : Option (List (List V)))
    (h : t.process o input prev = .ok (t', out)) :
    t'.streams = t.streams.zipWith Stream.push input ∧
    ((∃ s ∈ t'.streams, ∃ u, Newest s.buf u) →
      ∃ e b rows, Earliest (t'.streams.map Stream.buf) e ∧ CuDuration.sub o e t.window = some b ∧ out = some rows ∧
        Pointwise (fun (s : Stream V) row =>
          row.map some = ((s.buf.filter fun m => decide (Inside b e m.md.tov)).take s.out).map Msg.payload)
          t'.streams rows) ∧
    ((¬ ∃ s ∈ t'.streams, ∃ u, Newest s.buf u) → out = prev) := by
  unfold Task.process at h
  simp only at h
  rcases latest_spec ({ t with streams := t.streams.zipWith Stream.push input } : Task V) with ⟨h1, h2⟩ | ⟨e, h1, h2⟩
  · rw [h1] at h
    simp only [Rs.ok.injEq, Prod.mk.injEq] at h
    obtain ⟨rfl, rfl⟩ := h
    refine ⟨rfl, fun ⟨s, hs, u, hu⟩ => absurd hu (h2 s hs u), fun _ => rfl⟩
  · rw [h1] at h
    simp only [Rs.bind_eq_ok, Rs.ok.injEq, Prod.mk.injEq] at h
    obtain ⟨b, hb, _, _, rows, h3, rfl, rfl⟩ := h
    refine ⟨rfl, fun _ => ⟨e, b, rows, h2, ?_, rfl, fill_ok h3⟩, fun hn => ?_⟩
    · cases hs : CuDuration.sub o e t.window with
      | none => simp [hs] at hb
      | some c => simp only [hs, Rs.ofOption_some, Rs.ok.injEq] at hb; rw [hb]
    · obtain ⟨⟨buf, hbuf, hnew⟩, _⟩ := h2
      obtain ⟨s, hs, rfl⟩ := List.mem_map.mp hbuf
      exact absurd ⟨s, hs, e, hnew⟩ hn

/-- A task with two streams, and what arrives on them. -/
private def exTask : Task Nat := ⟨⟨10⟩, ⟨1000⟩, [⟨4, 4, [msg (some 1) (at' 50)]⟩, ⟨4, 4, [msg (some 2) (at' 60)]⟩]⟩
private def exInput : List (Msg Nat) := [msg (some 3) (at' 70), msg (some 4) (at' 80)]

example := C47_window_partial .checked exTask
  ⟨⟨10⟩, ⟨1000⟩, exTask.streams.zipWith Stream.push exInput⟩ exInput (some []) (some [[3], [2]]) (by decide +kernel)

/-- C47, no crash: with a payload in the output, messages that all have payloads, and a window that does not
reach before the origin of time, an iteration ends normally. -/
theorem C47_process_partial (o : Overflow) (t : Task V) (input : List (Msg V)) (prev : List (List V))
    (hp : ∀ s ∈ t.streams, ∀ m ∈ s.buf, m.payload ≠ none) (hi : ∀ m ∈ input, m.payload ≠ none)
    (hw : ∀ s ∈ t.streams.zipWith Stream.push input, ∀ u, Newest s.buf u → t.window.ns ≤ u.ns) :
    ∃ r, t.process o input (some prev) = .ok r := by
  unfold Task.process
  simp only
  rcases latest_spec ({ t with streams := t.streams.zipWith Stream.push input } : Task V) with ⟨h1, h2⟩ | ⟨e, h1, h2⟩
  · rw [h1]
    exact ⟨_, rfl⟩
  · rw [h1]
    obtain ⟨⟨buf, hbuf, hnew⟩, _⟩ := h2
    obtain ⟨s, hs, rfl⟩ := List.mem_map.mp hbuf
    have hsub := sub_some (o := o) (hw s hs e hnew)
    obtain ⟨out, hout⟩ := fill_total (a := ⟨e.ns - t.window.ns⟩) (b := e) (ss := t.streams.zipWith Stream.push input) (by
      intro s' hs' m hm
      obtain ⟨k, hk, rfl⟩ := List.mem_iff_getElem.mp hs'
      rw [List.getElem_zipWith] at hm
      have hm' := (push_buf _ _).1.mem hm
      simp only [List.mem_append, List.mem_singleton] at hm'
      rcases hm' with hm' | rfl
      · exact hp _ (List.getElem_mem _) m hm'
      · exact hi _ (List.getElem_mem _))
    simp only [hsub, Rs.ofOption_some, Rs.ok_bind, hout]
    exact ⟨_, rfl⟩

example := C47_process_partial .checked exTask exInput [] (by decide +kernel) (by decide +kernel) (by
  intro s hs u hu
  have h : ∀ s ∈ exTask.streams.zipWith Stream.push exInput, ∃ m ∈ s.buf, right m.md.tov = some ⟨70⟩ ∨ right m.md.tov = some ⟨80⟩ := by
    decide +kernel
  obtain ⟨m, hm, h⟩ := h s hs
  obtain ⟨v, hv, hvu⟩ := hu.2 m hm
  rcases h with h | h <;> rw [h] at hv <;> cases hv <;> exact UInt64.le_trans (by decide) hvu)

/-- C47, the horizon: what the start of an iteration removes from a buffer is its oldest part and consists of
messages over before the horizon or without time; in a buffer of messages with times in order, nothing over
before the horizon stays. -/
theorem C47_horizon_partial (o : Overflow) (t t' : Task V) (now : CuTime) (h : t.preprocess o now = .ok t') :
    ∃ hz, CuDuration.sub o now t.horizon = some hz ∧
      Pointwise (fun (s s' : Stream V) => s'.cap = s.cap ∧ s'.out = s.out ∧
        (∃ old, s.buf = old ++ s'.buf ∧ ∀ m ∈ old, Older hz m) ∧
        (Ordered s.buf → ∀ m ∈ s'.buf, ¬ Older hz m)) t.streams t'.streams := by
  unfold Task.preprocess at h
  simp only [Rs.bind_eq_ok, Rs.ok.injEq] at h
  obtain ⟨hz, h1, rfl⟩ := h
  refine ⟨hz, ?_, ?_⟩
  · cases hs : CuDuration.sub o now t.horizon with
    | none => simp [hs] at h1
    | some c => simp only [hs, Rs.ofOption_some, Rs.ok.injEq] at h1; rw [h1]
  · simp only
    generalize t.streams = ss
    induction ss with
    | nil => exact .nil
    | cons s ss ih =>
      refine .cons ⟨rfl, rfl, ?_, ?_⟩ ih
      · obtain ⟨old, h2, h3, _⟩ := purge_spec s hz
        exact ⟨old, h2, h3⟩
      · intro hord m hm
        obtain ⟨old, h2, h3, h4⟩ := purge_spec s hz
        cases hb : (s.purge hz).buf with
        | nil => rw [hb] at hm; simp at hm
        | cons a ms =>
          have ha := h4 a ms hb
          rw [hb] at hm
          simp only [List.mem_cons] at hm
          rcases hm with rfl | hm
          · exact ha
          · rw [h2, hb] at hord
            intro hold
            apply ha
            intro u hu
            obtain ⟨v, hv⟩ := hord.1 m (by simp [hm])
            have h5 := hord.2
            rw [List.pairwise_append] at h5
            have h6 := (List.pairwise_cons.mp h5.2.1).1 m hm u v hu hv
            exact UInt64.lt_of_le_of_lt h6 (hold v hv)

example := C47_horizon_partial .checked exTask ⟨⟨10⟩, ⟨1000⟩, [⟨4, 4, []⟩, ⟨4, 4, [msg (some 2) (at' 60)]⟩]⟩ ⟨1055⟩
  (by decide +kernel)

/-- C47, arrival order: after every history the buffer of every stream holds the last of the messages that
arrived on it, in order of arrival, at most as many as its capacity. -/
theorem C47_order (o : Overflow) (window horizon : CuDuration) (sizes : List (Nat × Nat)) (is : List (Iter V))
    (hi : ∀ i ∈ is, i.input.length = sizes.length) (t : Task V) (outs : List (Option (List (List V))))
    (h : (Task.new window horizon sizes).run o is = .ok (t, outs)) :
    t.streams.length = sizes.length ∧ outs.length = is.length ∧
    ∀ (k : Nat) (s : Stream V) (z : Nat × Nat), t.streams[k]? = some s → sizes[k]? = some z →
      s.cap = z.1 ∧ s.out = z.2 ∧ s.buf <:+ arrivals k is ∧ s.buf.length ≤ z.1 :=
  order_new o window horizon sizes is hi t outs h

example := C47_order .checked ⟨10⟩ ⟨1000⟩ [(1, 4)] [⟨⟨1000⟩, [msg (some 1) (at' 50)], some []⟩,
    ⟨⟨1000⟩, [msg (some 2) (at' 55)], some []⟩] (by decide) ⟨⟨10⟩, ⟨1000⟩, [⟨1, 4, [msg (some 2) (at' 55)]⟩]⟩
  [some [[1]], some [[2]]] (by decide +kernel)

/-- C47, violated: the output message of a running task has no payload at first, and the first aligned data make
the task panic. -/
theorem C47_violated_output (o : Overflow) (t : Task V) (input : List (Msg V)) (s : Stream V) (u : CuTime)
    (hs : s ∈ t.streams.zipWith Stream.push input) (hu : Newest s.buf u) : t.process o input none = .panic := by
  unfold Task.process
  simp only
  rcases latest_spec ({ t with streams := t.streams.zipWith Stream.push input } : Task V) with ⟨_, h2⟩ | ⟨e, h1, _⟩
  · exact absurd hu (h2 s hs u)
  · rw [h1]
    simp only
    cases CuDuration.sub o e t.window <;> simp

/-- C47, violated: in a debug build the task panics as long as the clock is behind the horizon. -/
theorem C47_violated_early (t : Task V) (now : CuTime) (h : now.ns < t.horizon.ns) : t.preprocess .checked now = .panic := by
  unfold Task.preprocess CuDuration.sub u64Arith
  rw [UInt64.lt_iff_toNat_lt] at h
  rw [if_neg (by omega)]
  rfl

/-- C47, violated: a release build forgets everything as long as the clock is behind the horizon. -/
theorem C47_violated_early_release : ∃ t' : Task Nat,
    (⟨⟨10⟩, ⟨1000⟩, [⟨4, 4, [msg (some 1) (at' 40), msg (some 2) (at' 50)]⟩]⟩ : Task Nat).preprocess .wrapping ⟨50⟩ = .ok t' ∧
      t'.streams = [⟨4, 4, []⟩] :=
  ⟨⟨⟨10⟩, ⟨1000⟩, [⟨4, 4, []⟩]⟩, by decide +kernel, rfl⟩

/-- C47, violated: a message without time on a stream takes the stream out of the count: the window ends after
its newest time. -/
theorem C47_violated_untimed : ∃ (t t' : Task Nat) (input : List (Msg Nat)),
    t = ⟨⟨10⟩, ⟨1000⟩, [⟨4, 4, [msg (some 1) (at' 50)]⟩, ⟨4, 4, [msg (some 2) (at' 60), msg (some 3) (at' 90)]⟩]⟩ ∧
    input = [msg (some 4) .none, msg (some 5) (at' 100)] ∧
    t.process .checked input (some []) = .ok (t', some [[], [3, 5]]) :=
  ⟨_, ⟨⟨10⟩, ⟨1000⟩, [⟨4, 4, [msg (some 1) (at' 50), msg (some 4) .none]⟩,
    ⟨4, 4, [msg (some 2) (at' 60), msg (some 3) (at' 90), msg (some 5) (at' 100)]⟩]⟩, _, rfl, rfl, by decide +kernel⟩

/-- C47, violated: a message with a time and no payload in the window panics. -/
theorem C47_violated_empty : ∃ (t : Task Nat) (input : List (Msg Nat)),
    t = ⟨⟨10⟩, ⟨1000⟩, [⟨4, 4, []⟩]⟩ ∧ input = [msg none (at' 50)] ∧ t.process .checked input (some []) = .panic :=
  ⟨_, _, rfl, rfl, by decide +kernel⟩

/-- C47, violated: a message that arrives late stays behind the horizon as long as an earlier one is recent. -/
theorem C47_violated_late : ∃ (t t' : Task Nat) (m : Msg Nat),
    t = ⟨⟨10⟩, ⟨1000⟩, [⟨4, 4, [msg (some 1) (at' 5000), m]⟩]⟩ ∧ m = msg (some 2) (at' 10) ∧
    t.preprocess .checked ⟨5500⟩ = .ok t' ∧ t'.streams = t.streams ∧ Older ⟨4500⟩ m :=
  ⟨_, ⟨⟨10⟩, ⟨1000⟩, [⟨4, 4, [msg (some 1) (at' 5000), msg (some 2) (at' 10)]⟩]⟩, _, rfl, rfl, by decide +kernel, rfl, by
    intro t ht
    simp only [msg, at', right, Option.some.injEq] at ht
    subst ht
    decide⟩

/-- Two streams at different rates: the window ends with the slower one. -/
example : ∃ t : Task Nat, (Task.new ⟨20⟩ ⟨100⟩ [(2, 2), (4, 4)] : Task Nat).run .checked
    [⟨⟨150⟩, [msg (some 1) (at' 140), msg (some 7) (at' 145)], some []⟩,
     ⟨⟨160⟩, [msg (some 2) (at' 150), msg (some 8) (at' 149)], some []⟩,
     ⟨⟨170⟩, [msg (some 3) (at' 165), msg (some 9) (.range ⟨⟨150⟩, ⟨155⟩⟩)], some []⟩] =
      .ok (t, [some [[1], []], some [[1], [7, 8]], some [[2], [7, 8, 9]]]) :=
  ⟨⟨⟨20⟩, ⟨100⟩, [⟨2, 2, [msg (some 2) (at' 150), msg (some 3) (at' 165)]⟩,
    ⟨4, 4, [msg (some 7) (at' 145), msg (some 8) (at' 149), msg (some 9) (.range ⟨⟨150⟩, ⟨155⟩⟩)]⟩]⟩, by decide +kernel⟩

end Aligner
end Verif
