import Verif.Spec.LogFile
import Verif.Proofs.LogLine
import Verif.Proofs.KillExport
namespace Verif
namespace LogFile
open Bincode

theorem writeLoop_inv (plan : List Outcome) (file data : Bytes) :
    (writeLoop plan file data).2.2.bytes ++ (writeLoop plan file data).2.1 = file ++ data ∧
      file <+: (writeLoop plan file data).2.2.bytes ∧
      ((writeLoop plan file data).1 = .ok → (writeLoop plan file data).2.1 = []) := by
  induction plan generalizing file data with
  | nil => simp [writeLoop]
  | cons o plan ih =>
    unfold writeLoop
    by_cases hd : data = []
    · simp [hd]
    · rw [if_neg hd]
      cases o with
      | interrupted => exact ih file data
      | failed => exact ⟨rfl, List.prefix_rfl, fun h => nomatch h⟩
      | killed => exact ⟨rfl, List.prefix_rfl, fun h => nomatch h⟩
      | wrote n =>
        simp only
        by_cases hn : n = 0
        · rw [if_pos hn]
          exact ⟨rfl, List.prefix_rfl, fun h => nomatch h⟩
        · rw [if_neg hn]
          obtain ⟨h1, h2, h3⟩ := ih (file ++ data.take n) (data.drop n)
          exact ⟨by rw [h1, List.append_assoc, List.take_append_drop], (List.prefix_append _ _).trans h2, h3⟩

theorem writeLoop_sound {plan : List Outcome} (h : Sound plan) (file data : Bytes) :
    (writeLoop plan file data).1 = .ok ∧ Sound (writeLoop plan file data).2.2.plan := by
  induction plan generalizing file data with
  | nil => exact ⟨rfl, h⟩
  | cons o plan ih =>
    have h' : Sound plan := fun o ho => h o (List.mem_cons_of_mem _ ho)
    unfold writeLoop
    by_cases hd : data = []
    · rw [if_pos hd]
      exact ⟨rfl, h⟩
    · rw [if_neg hd]
      rcases h o (List.mem_cons_self ..) with rfl | ⟨n, hn, rfl⟩
      · exact ih h' _ _
      · simp only
        rw [if_neg (by omega)]
        exact ih h' _ _

/-- What a call does to the file and the buffer, of which it is asked to write some more. -/
def Moves (w : Writer) (data : Bytes) (x : Res × Writer) : Prop :=
  w.disk.bytes <+: x.2.disk.bytes ∧ x.2.disk.bytes <+: w.disk.bytes ++ (w.buf ++ data) ∧
    (x.1 = .ok → x.2.disk.bytes ++ x.2.buf = w.disk.bytes ++ (w.buf ++ data)) ∧
    (Sound w.disk.plan → x.1 = .ok ∧ Sound x.2.disk.plan)

theorem flushBuf_moves (w : Writer) :
    Moves w [] w.flushBuf ∧ w.flushBuf.2.disk.bytes ++ w.flushBuf.2.buf = w.disk.bytes ++ w.buf ∧
      (w.flushBuf.1 = .ok → w.flushBuf.2.buf = []) ∧ w.flushBuf.2.count = w.count := by
  obtain ⟨h1, h2, h3⟩ := writeLoop_inv w.disk.plan w.disk.bytes w.buf
  refine ⟨⟨h2, ?_, fun _ => ?_, fun h => writeLoop_sound h _ _⟩, h1, h3, rfl⟩
  · rw [List.append_nil, ← h1]
    exact List.prefix_append _ _
  · rw [List.append_nil]
    exact h1

theorem writeTail_moves {w : Writer} {data : Bytes} (hb : w.buf = [] ∨ data.length < capacity) :
    Moves w data (w.writeTail data) ∧ (w.writeTail data).2.count = w.count := by
  unfold Writer.writeTail
  by_cases h : capacity ≤ data.length
  · rw [if_pos h]
    have hb : w.buf = [] := hb.resolve_right (by omega)
    obtain ⟨h1, h2, h3⟩ := writeLoop_inv w.disk.plan w.disk.bytes data
    refine ⟨⟨h2, ?_, fun hr => ?_, fun hs => writeLoop_sound hs _ _⟩, rfl⟩
    · rw [hb, List.nil_append, ← h1]
      exact List.prefix_append _ _
    · have := h3 hr
      rw [this] at h1
      simp only [hb]
      exact h1
  · rw [if_neg h]
    exact ⟨⟨List.prefix_rfl, List.prefix_append _ _, fun _ => rfl, fun hs => ⟨rfl, hs⟩⟩, rfl⟩

theorem writeAll_moves (w : Writer) (data : Bytes) :
    Moves w data (w.writeAll data) ∧ (w.writeAll data).2.count = w.count := by
  unfold Writer.writeAll
  by_cases h : data.length < capacity - w.buf.length
  · rw [if_pos h]
    exact ⟨⟨List.prefix_rfl, List.prefix_append _ _, fun _ => rfl, fun hs => ⟨rfl, hs⟩⟩, rfl⟩
  · rw [if_neg h]
    by_cases h' : capacity - w.buf.length < data.length
    · rw [if_pos h']
      obtain ⟨⟨m1, m2, m3, m4⟩, k1, k2, k3⟩ := flushBuf_moves w
      cases hf : w.flushBuf with
      | mk r w' =>
        rw [hf] at m1 m2 m3 m4 k1 k2 k3
        have pre : w'.disk.bytes <+: w.disk.bytes ++ (w.buf ++ data) := by
          rw [← List.append_assoc, ← k1, List.append_assoc]
          exact List.prefix_append _ _
        cases r with
        | ok =>
          have hb : w'.buf = [] := k2 rfl
          obtain ⟨⟨n1, n2, n3, n4⟩, n5⟩ := writeTail_moves (w := w') (data := data) (.inl hb)
          have e : w'.disk.bytes ++ (w'.buf ++ data) = w.disk.bytes ++ (w.buf ++ data) := by
            rw [← List.append_assoc, k1, List.append_assoc]
          rw [e] at n2 n3
          exact ⟨⟨m1.trans n1, n2, n3, fun hs => n4 (m4 hs).2⟩, n5.trans k3⟩
        | err => exact ⟨⟨m1, pre, (fun h => nomatch h), (fun hs => nomatch (m4 hs).1)⟩, k3⟩
        | killed => exact ⟨⟨m1, pre, (fun h => nomatch h), (fun hs => nomatch (m4 hs).1)⟩, k3⟩
    · rw [if_neg h']
      refine writeTail_moves ?_
      by_cases hb : w.buf = []
      · exact .inl hb
      · have : 0 < w.buf.length := List.length_pos_iff.2 hb
        have : data.length = capacity - w.buf.length := by omega
        have : 0 < capacity := by decide
        exact .inr (by omega)

theorem write_moves (w : Writer) (data : Bytes) :
    Moves w data (w.write data) ∧ ((w.write data).1 = .ok → (w.write data).2.count = w.count + data.length) := by
  obtain ⟨h, hc⟩ := writeAll_moves w data
  unfold Writer.write
  cases hw : w.writeAll data with
  | mk r w' =>
    rw [hw] at h hc
    cases r with
    | ok => exact ⟨h, fun _ => by rw [← hc]⟩
    | err => exact ⟨h, fun h => nomatch h⟩
    | killed => exact ⟨h, fun h => nomatch h⟩

theorem log_moves (pieces : List Bytes) (w : Writer) :
    Moves w pieces.flatten (w.log pieces) ∧
      ((w.log pieces).1 = .ok → (w.log pieces).2.count = w.count + pieces.flatten.length) := by
  induction pieces generalizing w with
  | nil =>
    exact ⟨⟨List.prefix_rfl, List.prefix_append _ _, fun _ => by simp [Writer.log], fun hs => ⟨rfl, hs⟩⟩, fun _ => rfl⟩
  | cons d ds ih =>
    obtain ⟨⟨m1, m2, m3, m4⟩, m5⟩ := write_moves w d
    unfold Writer.log
    have pre : ∀ {x : Bytes}, x <+: w.disk.bytes ++ (w.buf ++ d) → x <+: w.disk.bytes ++ (w.buf ++ (d :: ds).flatten) := by
      intro x hx
      refine hx.trans ?_
      rw [List.flatten_cons, ← List.append_assoc w.buf, ← List.append_assoc w.disk.bytes (w.buf ++ d)]
      exact List.prefix_append _ _
    cases hw : w.write d with
    | mk r w' =>
      rw [hw] at m1 m2 m3 m4 m5
      cases r with
      | ok =>
        obtain ⟨⟨n1, n2, n3, n4⟩, n5⟩ := ih w'
        have e : w'.disk.bytes ++ (w'.buf ++ ds.flatten) = w.disk.bytes ++ (w.buf ++ (d :: ds).flatten) := by
          rw [← List.append_assoc, m3 rfl, List.flatten_cons]
          simp only [List.append_assoc]
        rw [e] at n2 n3
        refine ⟨⟨m1.trans n1, n2, n3, fun hs => n4 (m4 hs).2⟩, fun hr => ?_⟩
        rw [n5 hr, List.flatten_cons, List.length_append, m5 rfl]
        omega
      | err => exact ⟨⟨m1, pre m2, (fun h => nomatch h), (fun hs => nomatch (m4 hs).1)⟩, fun h => nomatch h⟩
      | killed => exact ⟨⟨m1, pre m2, (fun h => nomatch h), (fun hs => nomatch (m4 hs).1)⟩, fun h => nomatch h⟩

/-- What calls do, if none of `log` fails. -/
theorem run_inv (cs : List Call) (w : Writer) (he : Encoded cs) (ha : Accepted cs (w.run cs).1) :
    w.disk.bytes <+: (w.run cs).2.disk.bytes ∧
    (w.run cs).2.disk.bytes <+: w.disk.bytes ++ (w.buf ++ encAll (entriesOf cs)) ∧
    (.killed ∉ (w.run cs).1 → (w.run cs).1.length = cs.length ∧
      (w.run cs).2.disk.bytes ++ (w.run cs).2.buf = w.disk.bytes ++ (w.buf ++ encAll (entriesOf cs)) ∧
      (w.run cs).2.count = w.count + (encAll (entriesOf cs)).length) := by
  induction cs generalizing w with
  | nil => exact ⟨List.prefix_rfl, List.prefix_append _ _, fun _ => ⟨rfl, by simp [Writer.run, entriesOf, encAll], rfl⟩⟩
  | cons c cs ih =>
    have key : ∀ (data : Bytes) (r : Res) (w' : Writer), w.step c = (r, w') → Encoded cs →
        encAll (entriesOf (c :: cs)) = data ++ encAll (entriesOf cs) →
        w.disk.bytes <+: w'.disk.bytes → w'.disk.bytes <+: w.disk.bytes ++ (w.buf ++ data) →
        (r ≠ .killed → Accepted cs (w'.run cs).1 ∧ w'.disk.bytes ++ w'.buf = w.disk.bytes ++ (w.buf ++ data) ∧
          w'.count = w.count + data.length) →
        w.disk.bytes <+: (w.run (c :: cs)).2.disk.bytes ∧
        (w.run (c :: cs)).2.disk.bytes <+: w.disk.bytes ++ (w.buf ++ encAll (entriesOf (c :: cs))) ∧
        (.killed ∉ (w.run (c :: cs)).1 → (w.run (c :: cs)).1.length = (c :: cs).length ∧
          (w.run (c :: cs)).2.disk.bytes ++ (w.run (c :: cs)).2.buf =
            w.disk.bytes ++ (w.buf ++ encAll (entriesOf (c :: cs))) ∧
          (w.run (c :: cs)).2.count = w.count + (encAll (entriesOf (c :: cs))).length) := by
      intro data r w' hs he hd h1 h2 h3
      have pre : w'.disk.bytes <+: w.disk.bytes ++ (w.buf ++ encAll (entriesOf (c :: cs))) := by
        refine h2.trans ?_
        rw [hd, ← List.append_assoc w.buf, ← List.append_assoc w.disk.bytes (w.buf ++ data)]
        exact List.prefix_append _ _
      unfold Writer.run
      rw [hs]
      by_cases hk : r = .killed
      · subst hk
        exact ⟨h1, pre, fun h => absurd (List.mem_cons_self ..) h⟩
      · obtain ⟨a, b, d⟩ := h3 hk
        obtain ⟨n1, n2, n3⟩ := ih w' he a
        have e : w'.disk.bytes ++ (w'.buf ++ encAll (entriesOf cs)) =
            w.disk.bytes ++ (w.buf ++ encAll (entriesOf (c :: cs))) := by
          rw [← List.append_assoc, b, hd]
          simp only [List.append_assoc]
        rw [e] at n2 n3
        have fin : w.disk.bytes <+: (w'.run cs).2.disk.bytes ∧
            (w'.run cs).2.disk.bytes <+: w.disk.bytes ++ (w.buf ++ encAll (entriesOf (c :: cs))) ∧
            (.killed ∉ r :: (w'.run cs).1 → (r :: (w'.run cs).1).length = (c :: cs).length ∧
              (w'.run cs).2.disk.bytes ++ (w'.run cs).2.buf =
                w.disk.bytes ++ (w.buf ++ encAll (entriesOf (c :: cs))) ∧
              (w'.run cs).2.count = w.count + (encAll (entriesOf (c :: cs))).length) := by
          refine ⟨h1.trans n1, n2, fun hn => ?_⟩
          obtain ⟨x, y, z⟩ := n3 fun h => hn (List.mem_cons_of_mem _ h)
          refine ⟨by simp [x], y, ?_⟩
          rw [z, d, hd, List.length_append]
          omega
        cases r with
        | killed => exact absurd rfl hk
        | ok => exact fin
        | err => exact fin
    have hacc : ∀ {r : Res} {w' : Writer}, w.step c = (r, w') → r ≠ .killed →
        (w.run (c :: cs)).1 = r :: (w'.run cs).1 := by
      intro r w' hs hk
      cases r with
      | killed => exact absurd rfl hk
      | ok => simp only [Writer.run, hs]
      | err => simp only [Writer.run, hs]
    cases c with
    | flush =>
      obtain ⟨⟨m1, m2, -, -⟩, k1, -, k3⟩ := flushBuf_moves w
      cases hs : w.step .flush with
      | mk r w' =>
        have hf : w.flushBuf = (r, w') := hs
        rw [hf] at m1 m2 k1 k3
        refine key [] r w' hs he rfl m1 m2 fun hk => ⟨?_, by rw [List.append_nil]; exact k1, k3⟩
        rw [hacc hs hk] at ha
        exact ha
    | log e pieces =>
      obtain ⟨⟨m1, m2, m3, -⟩, m5⟩ := log_moves pieces w
      cases hs : w.step (.log e pieces) with
      | mk r w' =>
        have hf : w.log pieces = (r, w') := hs
        rw [hf] at m1 m2 m3 m5
        rw [he.1] at m2 m3 m5
        refine key (enc e) r w' hs he.2.2 rfl m1 m2 fun hk => ?_
        rw [hacc hs hk] at ha
        have hr : r = .ok := by
          cases r with
          | ok => rfl
          | err => exact absurd rfl ha.1
          | killed => exact absurd rfl hk
        exact ⟨ha.2, m3 hr, m5 hr⟩

theorem run_sound (cs : List Call) (w : Writer) (hs : Sound w.disk.plan) :
    (w.run cs).1 = List.replicate cs.length .ok ∧ Sound (w.run cs).2.disk.plan := by
  induction cs generalizing w with
  | nil => exact ⟨rfl, hs⟩
  | cons c cs ih =>
    have h : (w.step c).1 = .ok ∧ Sound (w.step c).2.disk.plan := by
      cases c with
      | flush => exact (flushBuf_moves w).1.2.2.2 hs
      | log e pieces => exact (log_moves pieces w).1.2.2.2 hs
    unfold Writer.run
    cases hc : w.step c with
    | mk r w' =>
      rw [hc] at h
      obtain ⟨rfl, h⟩ := h
      obtain ⟨i1, i2⟩ := ih w' h
      exact ⟨by simp only [i1]; rfl, i2⟩

theorem run_append (w : Writer) (cs ds : List Call) (h : .killed ∉ (w.run cs).1) :
    w.run (cs ++ ds) = ((w.run cs).1 ++ ((w.run cs).2.run ds).1, ((w.run cs).2.run ds).2) := by
  induction cs generalizing w with
  | nil => rfl
  | cons c cs ih =>
    rw [List.cons_append]
    cases hc : w.step c with
    | mk r w' =>
      cases r with
      | killed =>
        simp only [Writer.run, hc] at h
        exact absurd (List.mem_cons_self ..) h
      | ok =>
        simp only [Writer.run, hc] at h ⊢
        simp only [ih w' fun k => h (List.mem_cons_of_mem _ k), List.cons_append]
      | err =>
        simp only [Writer.run, hc] at h ⊢
        simp only [ih w' fun k => h (List.mem_cons_of_mem _ k), List.cons_append]

theorem run_length (w : Writer) (cs : List Call) :
    (w.run cs).1.length ≤ cs.length ∧ (.killed ∉ (w.run cs).1 → (w.run cs).1.length = cs.length) := by
  induction cs generalizing w with
  | nil => exact ⟨Nat.le_refl _, fun _ => rfl⟩
  | cons c cs ih =>
    cases hc : w.step c with
    | mk r w' =>
      obtain ⟨i1, i2⟩ := ih w'
      cases r with
      | killed =>
        simp only [Writer.run, hc]
        exact ⟨by simp, fun h => absurd (List.mem_cons_self ..) h⟩
      | ok =>
        simp only [Writer.run, hc]
        exact ⟨by simpa using i1, fun h => by simpa using i2 fun k => h (List.mem_cons_of_mem _ k)⟩
      | err =>
        simp only [Writer.run, hc]
        exact ⟨by simpa using i1, fun h => by simpa using i2 fun k => h (List.mem_cons_of_mem _ k)⟩

theorem run_killed (w : Writer) (cs ds : List Call) (h : .killed ∈ (w.run cs).1) : w.run (cs ++ ds) = w.run cs := by
  induction cs generalizing w with
  | nil => cases h
  | cons c cs ih =>
    rw [List.cons_append]
    cases hc : w.step c with
    | mk r w' =>
      cases r with
      | killed => simp only [Writer.run, hc]
      | ok =>
        simp only [Writer.run, hc] at h ⊢
        rw [ih w' (by simpa using h)]
      | err =>
        simp only [Writer.run, hc] at h ⊢
        rw [ih w' (by simpa using h)]

theorem accepted_append {cs ds : List Call} {rs ss : List Res} (hl : rs.length = cs.length)
    (h : Accepted (cs ++ ds) (rs ++ ss)) : Accepted cs rs ∧ Accepted ds ss := by
  induction cs generalizing rs with
  | nil =>
    cases rs with
    | nil => exact ⟨trivial, h⟩
    | cons r rs => cases hl
  | cons c cs ih =>
    cases rs with
    | nil => cases hl
    | cons r rs =>
      replace hl : rs.length = cs.length := by simpa using hl
      cases c with
      | log e p => exact ⟨⟨h.1, (ih hl h.2).1⟩, (ih hl h.2).2⟩
      | flush => exact ih hl h

theorem encoded_append {cs ds : List Call} (h : Encoded (cs ++ ds)) : Encoded cs ∧ Encoded ds := by
  induction cs with
  | nil => exact ⟨trivial, h⟩
  | cons c cs ih =>
    cases c with
    | log e p => exact ⟨⟨h.1, h.2.1, (ih h.2.2).1⟩, (ih h.2.2).2⟩
    | flush => exact ih h

theorem entriesOf_append (cs ds : List Call) : entriesOf (cs ++ ds) = entriesOf cs ++ entriesOf ds := by
  induction cs with
  | nil => rfl
  | cons c cs ih =>
    cases c with
    | log e p => simp only [List.cons_append, entriesOf, ih]
    | flush => exact ih

theorem encoded_legal {cs : List Call} (h : Encoded cs) : ∀ e ∈ entriesOf cs, e.Legal := by
  induction cs with
  | nil => exact fun e he => nomatch he
  | cons c cs ih =>
    cases c with
    | log e p =>
      intro x hx
      rcases List.mem_cons.1 hx with rfl | hx
      · exact h.2.1
      · exact ih h.2.2 x hx
    | flush => exact ih h

/-- What was flushed is in the file. -/
theorem run_flushed (w : Writer) (before after : List Call) (he : Encoded (before ++ .flush :: after))
    (ha : Accepted (before ++ .flush :: after) (w.run (before ++ .flush :: after)).1)
    (hr : (w.run (before ++ .flush :: after)).1[before.length]? = some .ok) :
    w.disk.bytes ++ (w.buf ++ encAll (entriesOf before)) <+: (w.run (before ++ .flush :: after)).2.disk.bytes := by
  obtain ⟨l1, l2⟩ := run_length w before
  by_cases hk : .killed ∈ (w.run before).1
  · rw [run_killed w before _ hk, List.getElem?_eq_none l1] at hr
    cases hr
  · rw [run_append w before _ hk] at ha hr ⊢
    obtain ⟨a1, a2⟩ := accepted_append (l2 hk) ha
    obtain ⟨e1, e2⟩ := encoded_append he
    obtain ⟨-, -, h3⟩ := run_inv before w e1 a1
    obtain ⟨-, h4, -⟩ := h3 hk
    rw [List.getElem?_append_right l1, l2 hk, Nat.sub_self] at hr
    simp only
    rw [← h4]
    generalize (w.run before).2 = v at a2 hr ⊢
    obtain ⟨-, k1, k2, -⟩ := flushBuf_moves v
    cases hf : v.flushBuf with
    | mk r v' =>
      have hc : v.step .flush = (r, v') := hf
      rw [hf] at k1 k2
      cases r with
      | killed => simp [Writer.run, hc] at hr
      | err => simp [Writer.run, hc] at hr
      | ok =>
        simp only [Writer.run, hc] at a2 ⊢
        rw [k2 rfl, List.append_nil] at k1
        rw [← k1]
        exact (run_inv after v' e2 a2).1

/-! ### the buffer -/

theorem flushBuf_buf (w : Writer) : w.flushBuf.2.buf.length ≤ w.buf.length := by
  obtain ⟨⟨h1, -, -, -⟩, h2, -, -⟩ := flushBuf_moves w
  have := congrArg List.length h2
  rw [List.length_append, List.length_append] at this
  have := h1.length_le
  omega

theorem writeTail_buf {w : Writer} {data : Bytes} (h : w.buf.length ≤ capacity)
    (hd : data.length < capacity → w.buf.length + data.length ≤ capacity) :
    (w.writeTail data).2.buf.length ≤ capacity := by
  unfold Writer.writeTail
  by_cases hc : capacity ≤ data.length
  · rw [if_pos hc]
    exact h
  · rw [if_neg hc]
    simpa using hd (by omega)

theorem writeAll_buf {w : Writer} (data : Bytes) (h : w.buf.length ≤ capacity) :
    (w.writeAll data).2.buf.length ≤ capacity := by
  unfold Writer.writeAll
  by_cases h1 : data.length < capacity - w.buf.length
  · rw [if_pos h1]
    simp only [List.length_append]
    omega
  · rw [if_neg h1]
    by_cases h2 : capacity - w.buf.length < data.length
    · rw [if_pos h2]
      have hf := flushBuf_buf w
      obtain ⟨-, -, k2, -⟩ := flushBuf_moves w
      cases hw : w.flushBuf with
      | mk r w' =>
        rw [hw] at hf k2
        cases r with
        | ok =>
          have hb : w'.buf = [] := k2 rfl
          exact writeTail_buf (by rw [hb]; exact Nat.zero_le _) fun hd => by rw [hb]; simp only [List.length_nil]; omega
        | err => exact Nat.le_trans hf h
        | killed => exact Nat.le_trans hf h
    · rw [if_neg h2]
      exact writeTail_buf h fun _ => by omega

theorem log_buf (pieces : List Bytes) {w : Writer} (h : w.buf.length ≤ capacity) :
    (w.log pieces).2.buf.length ≤ capacity := by
  induction pieces generalizing w with
  | nil => exact h
  | cons d ds ih =>
    have h1 := writeAll_buf d h
    unfold Writer.log Writer.write
    cases hw : w.writeAll d with
    | mk r w' =>
      rw [hw] at h1
      cases r with
      | ok => exact ih h1
      | err => exact h1
      | killed => exact h1

theorem run_buf (cs : List Call) {w : Writer} (h : w.buf.length ≤ capacity) :
    (w.run cs).2.buf.length ≤ capacity := by
  induction cs generalizing w with
  | nil => exact h
  | cons c cs ih =>
    have h1 : (w.step c).2.buf.length ≤ capacity := by
      cases c with
      | flush => exact Nat.le_trans (flushBuf_buf w) h
      | log e pieces => exact log_buf pieces h
    cases hc : w.step c with
    | mk r w' =>
      rw [hc] at h1
      cases r with
      | killed => simpa only [Writer.run, hc] using h1
      | ok => simpa only [Writer.run, hc] using ih h1
      | err => simpa only [Writer.run, hc] using ih h1

/-! ### a witness -/

theorem writeAll_fits {w : Writer} {data : Bytes} (h : w.buf.length + data.length ≤ capacity) (hd : data.length < capacity) :
    w.writeAll data = (.ok, { w with buf := w.buf ++ data }) := by
  unfold Writer.writeAll
  by_cases h1 : data.length < capacity - w.buf.length
  · rw [if_pos h1]
  · rw [if_neg h1, if_neg (by omega)]
    unfold Writer.writeTail
    rw [if_neg (by omega)]

theorem log_fits {pieces : List Bytes} {w : Writer} (h : w.buf.length + pieces.flatten.length ≤ capacity)
    (hd : ∀ d ∈ pieces, d.length < capacity) :
    w.log pieces = (.ok, { w with buf := w.buf ++ pieces.flatten, count := w.count + pieces.flatten.length }) := by
  induction pieces generalizing w with
  | nil => simp [Writer.log]
  | cons d ds ih =>
    rw [List.flatten_cons, List.length_append] at h
    have h1 : w.write d = (.ok, { w with buf := w.buf ++ d, count := w.count + d.length }) := by
      unfold Writer.write
      rw [writeAll_fits (by omega) (hd d (List.mem_cons_self ..))]
    unfold Writer.log
    rw [h1]
    simp only
    rw [ih (by simp only [List.length_append]; omega) fun x hx => hd x (List.mem_cons_of_mem _ hx)]
    simp only [List.flatten_cons, List.append_assoc, List.length_append, Nat.add_assoc]

theorem run_fits (e : LogEntry) (pieces : List Bytes) (hd : ∀ d ∈ pieces, d.length < capacity) (n : Nat) (w : Writer)
    (h : w.buf.length + n * pieces.flatten.length ≤ capacity) (ds : List Call) :
    ∃ w' : Writer, w'.disk = w.disk ∧ w'.buf = w.buf ++ (List.replicate n pieces.flatten).flatten ∧
      w.run (List.replicate n (.log e pieces) ++ ds) = (List.replicate n .ok ++ (w'.run ds).1, (w'.run ds).2) := by
  induction n generalizing w with
  | zero => exact ⟨w, rfl, by simp, rfl⟩
  | succ n ih =>
    rw [Nat.succ_mul] at h
    have h1 := log_fits (w := w) (pieces := pieces) (by omega) hd
    obtain ⟨w', i1, i2, i3⟩ := ih { w with buf := w.buf ++ pieces.flatten, count := w.count + pieces.flatten.length }
      (by simp only [List.length_append]; omega)
    refine ⟨w', i1, ?_, ?_⟩
    · rw [i2, List.replicate_succ, List.flatten_cons, List.append_assoc]
    · have hc : w.step (.log e pieces) = (.ok, _) := h1
      rw [List.replicate_succ, List.cons_append]
      simp only [Writer.run, hc, i3]
      rfl

theorem run_replicate_encoded {e : LogEntry} {pieces : List Bytes} (h : pieces.flatten = enc e) (hl : e.Legal) (n : Nat)
    {ds : List Call} (hd : Encoded ds) : Encoded (List.replicate n (.log e pieces) ++ ds) := by
  induction n with
  | zero => exact hd
  | succ n ih => exact ⟨h, hl, ih⟩

theorem entriesOf_replicate (e : LogEntry) (pieces : List Bytes) (n : Nat) (ds : List Call) :
    entriesOf (List.replicate n (.log e pieces) ++ ds) = List.replicate n e ++ entriesOf ds := by
  induction n with
  | zero => rfl
  | succ n ih => rw [List.replicate_succ, List.replicate_succ, List.cons_append, List.cons_append, entriesOf, ih]

theorem replicate_length (n : Nat) (l : Bytes) : (List.replicate n l).flatten.length = n * l.length := by
  induction n with
  | zero => simp
  | succ n ih => rw [List.replicate_succ, List.flatten_cons, List.length_append, ih, Nat.succ_mul, Nat.add_comm]

theorem write_full {b : Bytes} (hb : b.length = capacity) (x : UInt8) (c : Nat) :
    (⟨⟨[], [.failed]⟩, b, c⟩ : Writer).write [x] = (.err, ⟨⟨[], []⟩, b, c⟩) ∧
    (⟨⟨[], []⟩, b, c⟩ : Writer).write [x] = (.ok, ⟨⟨b, []⟩, [x], c + 1⟩) := by
  have h1 : ¬ [x].length < capacity - b.length := by rw [hb, Nat.sub_self]; simp
  have h2 : capacity - b.length < [x].length := by rw [hb, Nat.sub_self]; simp
  have h3 : b ≠ [] := by
    rintro rfl
    cases hb
  have h4 : ¬ capacity ≤ [x].length := by simp [capacity]
  constructor
  · unfold Writer.write Writer.writeAll
    rw [if_neg h1, if_pos h2]
    simp only [Writer.flushBuf, writeLoop, if_neg h3]
  · unfold Writer.write Writer.writeAll
    rw [if_neg h1, if_pos h2]
    simp only [Writer.flushBuf, writeLoop, Writer.writeTail, if_neg h4]
    rfl

theorem write_one {w : Writer} {x : UInt8} (h : w.buf.length < capacity) :
    w.write [x] = (.ok, { w with buf := w.buf ++ [x], count := w.count + 1 }) := by
  unfold Writer.write
  rw [writeAll_fits (by simp only [List.length_singleton]; omega) (by simp [capacity])]
  rfl

end LogFile
end Verif
