import Verif.Proofs.Velodyne
/-! C75: Velodyne packets, live or recorded, become point clouds. -/
namespace Verif
namespace Velodyne
open Bincode Clock

/-- A started source turns a packet of single returns into a message with each point, in order; the rest of the
message is left alone. -/
theorem C75_points_partial (narrow : F64 → F32) (parse : Mode → Bytes → Option (List Return)) (v : Vlp) (d : Bytes)
    (out : Msg (List CloudPoint)) (l : List Return) (hon : v.on = true) (hd : d.length ≤ 1206)
    (hp : parse v.mode d = some l) (hs : ¬ hasDual l) (hl : l.length ≤ 10000) :
    ∃ c, v.process narrow parse (.datagram d) out = .ok ⟨some c, out.md⟩ ∧ Pointwise (Shown narrow) (points l) c := by
  refine ⟨(points l).map (cloudPoint narrow), ?_, shown_points narrow _⟩
  simp [Vlp.process, hon, List.take_of_length_le hd, hp, push_singles narrow l [] hs (by simpa using hl), Msg.setPayload]

def pt : Point := ⟨5, ⟨1⟩, ⟨2⟩, ⟨3⟩, 255⟩
example : ¬ hasDual [.single pt, .single pt] := by rintro ⟨a, b, h⟩; simp at h
example : points [.single pt, .single pt] = [pt, pt] := rfl

/-- A source that is configured for two returns panics on the first packet that has them. -/
theorem C75_dual_violated (narrow : F64 → F32) (parse : Mode → Bytes → Option (List Return)) (v : Vlp) (d : Bytes)
    (out : Msg (List CloudPoint)) (l : List Return) (hp : parse v.mode (d.take 1206) = some l) (hs : hasDual l) :
    v.process narrow parse (.datagram d) out = .panic := by
  cases h : v.on <;> simp [Vlp.process, h, hp, push_dual narrow l [] hs]

example : hasDual [.single pt, .dual pt pt] := ⟨pt, pt, by simp⟩

/-- A lidar that is silent for a tenth of a second, a socket error, a datagram of somebody else, and a call
before the start panic. -/
theorem C75_unexpected_violated (narrow : F64 → F32) (parse : Mode → Bytes → Option (List Return)) (v : Vlp)
    (out : Msg (List CloudPoint)) :
    v.process narrow parse .wouldBlock out = .panic ∧ v.process narrow parse .failure out = .panic ∧
    (∀ d, parse v.mode (d.take 1206) = none → v.process narrow parse (.datagram d) out = .panic) ∧
    (∀ r, v.process narrow parse r out = .panic ∨ v.on = true) ∧ v.start false = .panic := by
  refine ⟨?_, ?_, fun d h => ?_, fun r => ?_, rfl⟩ <;> cases hv : v.on <;> simp [Vlp.process, *]

/-- The time of the message is what it was before: not the time of the points. -/
theorem C75_time_violated (narrow : F64 → F32) (parse : Mode → Bytes → Option (List Return)) (v : Vlp) (r : Lidar.Recv)
    (out m : Msg (List CloudPoint)) (h : v.process narrow parse r out = .ok m) : m.md.tov = out.md.tov := by
  unfold Vlp.process at h
  split at h
  · cases h
  · split at h
    · cases h
    · cases h
    · split at h
      · cases h
      · split at h
        · cases h
        · cases h; rfl

/-- The brightest point has a reflectivity of one percent: the share of the light is taken for a percentage. -/
theorem C75_reflectivity_violated (narrow : F64 → F32) (p : Point) :
    (cloudPoint narrow p).reflectivity * 100 = p.intensity.toNat / 255 ∧ (cloudPoint narrow { p with intensity := 255 }).reflectivity = 1 / 100 := by
  constructor
  · simp only [cloudPoint]
    generalize (p.intensity.toNat : Rat) / 255 = q
    rw [Rat.div_mul_cancel]
    decide
  · simp only [cloudPoint]
    decide +kernel

/-- The address and the returns are those configured, or the defaults; another kind of returns is an error. -/
theorem C75_config_partial (c : Params.ComponentConfig) (addr kind : Option String)
    (ha : c.lookup "listen_addr" = addr.map .str) (hk : c.lookup "return_type" = kind.map .str)
    (ht : c.lookup "test_mode" = none) (v : Vlp) :
    Vlp.new (some c) = .ok (some v) ↔
      v.addr = addr.getD "0.0.0.0:2368" ∧ v.on = false ∧
        ((kind = some "strongest" ∧ v.mode = .strongest) ∨ ((kind = some "last" ∨ kind = none) ∧ v.mode = .last) ∨
          (kind = some "dual" ∧ v.mode = .dual)) := by
  have h1 : textOr c "listen_addr" "0.0.0.0:2368" = .ok (addr.getD "0.0.0.0:2368") := by
    cases addr <;> simp [textOr, Params.ComponentConfig.get, ha, Params.asString, Rs.map']
  have h2 : textOr c "return_type" "last" = .ok (kind.getD "last") := by
    cases kind <;> simp [textOr, Params.ComponentConfig.get, hk, Params.asString, Rs.map']
  have h3 : textOr c "test_mode" "false" = .ok "false" := by
    simp [textOr, Params.ComponentConfig.get, ht]
  simp only [Vlp.new, h1, h2, h3, Rs.ok_bind]
  obtain ⟨m, a, o⟩ := v
  cases kind with
  | none => simp [eq_comm, and_comm, and_left_comm, and_assoc]
  | some k =>
    by_cases k1 : k = "strongest"
    · subst k1; simp [eq_comm, and_comm, and_left_comm, and_assoc]
    · by_cases k2 : k = "last"
      · subst k2; simp [eq_comm, and_comm, and_left_comm, and_assoc]
      · by_cases k3 : k = "dual"
        · subst k3; simp [eq_comm, and_comm, and_left_comm, and_assoc]
        · simp [k1, k2, k3]

example : ([("return_type", .str "dual")] : Params.ComponentConfig).lookup "return_type" = (some "dual").map .str := by rfl

/-- A source without configuration panics. -/
theorem C75_config_violated : Vlp.new none = .panic := rfl

/-- Once stopped it receives nothing more, and it can be started again as it was. -/
theorem C75_stopped (narrow : F64 → F32) (parse : Mode → Bytes → Option (List Return)) (v : Vlp) (r : Lidar.Recv)
    (out : Msg (List CloudPoint)) :
    v.stop.process narrow parse r out = .panic ∧
      ∃ v', v.stop.start true = .ok v' ∧ v'.on = true ∧ v'.mode = v.mode ∧ v'.addr = v.addr :=
  ⟨rfl, _, rfl, rfl, rfl, rfl⟩

/-! ### Recorded packets -/

/-- The player sends the payload of each packet of the capture that is long enough, in order; the others are
errors and are skipped. -/
theorem C75_played (ps : Nat) (l : List Packet) (t : Nat) :
    ((⟨l, none⟩ : Streamer).play ps (l.length + 1) t).map Prod.snd = payloads ps l :=
  play_payloads ps l _ (by omega) none t

/-- If the player runs for `t` before the first packet, which it sends at once, the second goes out when the
interval of the capture has passed since the start of the player, or at once if that is over. In particular
(`t = 0`) it comes as long after the first as in the capture. -/
theorem C75_pace_partial (ps : Nat) (p q : Packet) (t : Nat) (hp : 42 + ps ≤ p.data.length)
    (hq : 42 + ps ≤ q.data.length) :
    ((⟨[p, q], none⟩ : Streamer).play ps 3 t).map Prod.fst = [t, max t (q.ts - p.ts)] := by
  have h1 : ¬ p.data.length < 42 + ps := by omega
  have h2 : ¬ q.data.length < 42 + ps := by omega
  simp only [Streamer.play, Streamer.sendNext, h1, h2, if_false, List.map_cons, List.map_nil, List.cons.injEq, true_and,
    and_true, Nat.add_zero]
  split
  · split <;> omega
  · omega

def pk (ts : Nat) : Packet := ⟨List.replicate 44 0, ts⟩
example : (⟨[pk 5, ⟨[1], 7⟩, pk 30], none⟩ : Streamer).play 2 4 0 = [(0, [0, 0]), (25, [0, 0])] := by decide

/-- The same for captures of any length, some of whose packets may be too short: the first packet that is long
enough is sent at once, each other one as soon as the one before it is sent and the interval between them has
passed since the start of the player.  (Missing: since the one before was sent.) -/
theorem C75_pace_all_partial (ps : Nat) (l : List Packet) (t : Nat) :
    let sent := ((⟨l, none⟩ : Streamer).play ps (l.length + 1) t).map Prod.fst
    (∀ t₀, sent.head? = some t₀ → t₀ = t) ∧
      Paced sent ((l.filter fun p => 42 + ps ≤ p.data.length).map (·.ts)) := by
  have key : ∀ (l : List Packet) (fuel : Nat), l.length < fuel →
      (∀ t₀, (((⟨l, none⟩ : Streamer).play ps fuel t).map Prod.fst).head? = some t₀ → t₀ = t) ∧
        Paced (((⟨l, none⟩ : Streamer).play ps fuel t).map Prod.fst)
          ((l.filter fun p => 42 + ps ≤ p.data.length).map (·.ts)) := by
    intro l
    induction l with
    | nil =>
      intro fuel hf
      cases fuel with
      | zero => simp at hf
      | succ fuel => simp [Streamer.play, Streamer.sendNext, Paced]
    | cons p l ih =>
      intro fuel hf
      cases fuel with
      | zero => simp at hf
      | succ fuel =>
        simp only [List.length_cons] at hf
        by_cases h : p.data.length < 42 + ps
        · have h' : ¬ 42 + ps ≤ p.data.length := by omega
          have := ih fuel (by omega)
          simpa [Streamer.play, Streamer.sendNext, h, h'] using this
        · have h' : 42 + ps ≤ p.data.length := by omega
          simp only [Streamer.play, Streamer.sendNext, h, if_false, List.map_cons, h', decide_true,
            List.filter_cons_of_pos, List.head?_cons, Option.some.injEq]
          exact ⟨fun _ h => h.symm, play_times ps l fuel (by omega) _ _⟩
  exact key l _ (by omega)

example : ((⟨[pk 5, ⟨[1], 7⟩, pk 30, pk 100, pk 110], none⟩ : Streamer).play 2 6 10).map Prod.fst = [10, 25, 70, 70] := by
  decide

/-- Negation: the time is taken from the start of the player, so the third packet, at the same interval, follows
the second immediately. -/
theorem C75_pace_violated (gap : Nat) :
    ((⟨[pk 0, pk gap, pk (2 * gap)], none⟩ : Streamer).play 2 4 0).map Prod.fst = [0, gap, gap] := by
  have hl : ∀ t, (pk t).data.length = 44 := fun _ => List.length_replicate ..
  have ht : ∀ t, (pk t).ts = t := fun _ => rfl
  simp only [Streamer.play, Streamer.sendNext, hl, ht, List.map_cons, List.map_nil, Nat.reduceAdd, Nat.lt_irrefl, if_false,
    Nat.sub_zero, Nat.add_zero, Nat.zero_add]
  by_cases h : 0 < gap
  · have h1 : 2 * gap > gap := by omega
    have h2 : 2 * gap - gap = gap := by omega
    simp [h, h1, h2]
  · have h0 : gap = 0 := by omega
    subst h0
    rfl

end Velodyne
end Verif
