import Verif.Spec.Lidar
/-! Lemmas on the datagrams. -/
namespace Verif
open Clock
namespace Lidar

theorem asI32_eq (n : Nat) : asI32 n = i32 n := by unfold asI32 i32; split <;> split <;> omega

theorem headD_drop (d : Bytes) (o : Nat) : (d.drop o).headD 0 = u8 d o := by
  unfold u8
  rw [List.headD_eq_head?_getD, List.head?_drop, List.getD_eq_getElem?_getD]

theorem take_drop (d : Bytes) (o n : Nat) : (d.drop o).take n = slice d o n := rfl
theorem slice_drop (d : Bytes) (a o n : Nat) : slice (d.drop a) o n = slice d (a + o) n := by
  unfold slice; rw [List.drop_drop]
theorem u8_drop (d : Bytes) (a o : Nat) : u8 (d.drop a) o = u8 d (a + o) := by
  rw [← headD_drop, List.drop_drop, headD_drop]

theorem readPoints_eq (t : CuTime) (n : Nat) (d : Bytes) : readPoints t n d =
    (List.range n).map fun k => ⟨t, asI32 (le (slice d (14 * k) 4)), asI32 (le (slice d (14 * k + 4) 4)),
      asI32 (le (slice d (14 * k + 8) 4)), u8 d (14 * k + 12)⟩ := by
  induction n generalizing d with
  | zero => rfl
  | succ n ih =>
    rw [List.range_succ_eq_map, List.map_cons, List.map_map]
    simp only [readPoints, ih, List.drop_drop, headD_drop, take_drop, slice_drop, u8_drop]
    congr 1
    apply List.map_congr_left
    intro k _
    simp only [Function.comp_apply, Nat.succ_eq_add_one, show 14 * (k + 1) = 4 + 4 + 4 + 1 + 1 + 14 * k by omega, Nat.add_assoc]

theorem pushAll_eq {P : Type} (cap : Nat) (ps c : List P) (h : c.length + ps.length ≤ cap) : pushAll cap c ps = .ok (c ++ ps) := by
  induction ps generalizing c with
  | nil => simp [pushAll]
  | cons p ps ih =>
    simp only [List.length_cons] at h
    simp only [pushAll]
    rw [if_pos (by omega), ih _ (by simp; omega)]
    simp

theorem parseFrame_eq (d : Bytes) (h : d ≠ []) :
    parseFrame d = .ok (if LivoxValid d then some ((List.range 96).map (livoxPoint d)) else none) := by
  obtain ⟨b, l, rfl⟩ := List.exists_cons_of_ne_nil h
  unfold parseFrame
  simp only [List.getElem?_cons_zero, Rs.ofOption_some, Rs.ok_bind]
  have hb : u8 (b :: l) 0 = b := rfl
  by_cases h1 : b = 5
  · rw [if_neg (by simpa using h1)]
    by_cases h2 : (b :: l).length = 1362
    · rw [if_neg (by omega), if_neg (by omega)]
      simp only [List.drop_drop, headD_drop, take_drop]
      by_cases h3 : u8 (b :: l) 9 = 2
      · rw [if_neg (by simpa using h3), if_pos ⟨h2, hb.trans h1, h3⟩, readPoints_eq]
        congr 2
        apply List.map_congr_left
        intro k _
        simp only [slice_drop, u8_drop, livoxPoint, asI32_eq, ← Nat.add_assoc, Nat.reduceAdd]
      · rw [if_pos (by simpa using h3), if_neg (fun h => h3 h.2.2)]
    · rw [if_neg (fun h : LivoxValid (b :: l) => h2 h.1)]
      split
      · rfl
      · rw [if_pos (by omega)]
  · rw [if_pos (by simpa using h1), if_neg (fun h : LivoxValid (b :: l) => h1 (hb ▸ h.2.1))]

theorem u8_take (d : Bytes) (n o : Nat) (h : o < n) : u8 (d.take n) o = u8 d o := by
  unfold u8
  rw [List.getD_eq_getElem?_getD, List.getD_eq_getElem?_getD, List.getElem?_take_of_lt h]

/-- A datagram is truncated only if it is too long for both protocols. -/
theorem take_eq (d : Bytes) (h : d.length ≤ 1500) : d.take 1500 = d := List.take_of_length_le h

theorem readChannels_eq (n : Nat) (d : Bytes) : readChannels n d =
    (List.range n).map fun c => ⟨le (slice d (4 * c) 2), u8 d (4 * c + 2)⟩ := by
  induction n generalizing d with
  | zero => rfl
  | succ n ih =>
    rw [List.range_succ_eq_map, List.map_cons, List.map_map]
    simp only [readChannels, ih, List.drop_drop, headD_drop, take_drop, slice_drop, u8_drop]
    congr 1
    apply List.map_congr_left
    intro k _
    simp only [Function.comp_apply, Nat.succ_eq_add_one, show 4 * (k + 1) = 2 + 1 + 1 + 4 * k by omega, Nat.add_assoc]

theorem readBlocks_eq (n : Nat) (d : Bytes) : readBlocks n d =
    (List.range n).map fun b => ⟨le (slice d (130 * b) 2),
      (List.range 32).map fun c => ⟨le (slice d (130 * b + 2 + 4 * c) 2), u8 d (130 * b + 2 + 4 * c + 2)⟩⟩ := by
  induction n generalizing d with
  | zero => rfl
  | succ n ih =>
    rw [List.range_succ_eq_map (n := n), List.map_cons, List.map_map]
    simp only [readBlocks, ih, readChannels_eq, List.drop_drop, take_drop, slice_drop, u8_drop]
    congr 1
    apply List.map_congr_left
    intro k _
    simp only [Function.comp_apply, Nat.succ_eq_add_one, show 130 * (k + 1) = 2 + 128 + 130 * k by omega, Nat.add_assoc]

/-- The blocks of a packet. -/
def hesaiBlocks (d : Bytes) : List Block :=
  (List.range 8).map fun b => ⟨le (slice d (12 + 130 * b) 2),
    (List.range 32).map fun c => ⟨le (slice d (12 + 130 * b + 2 + 4 * c) 2), u8 d (12 + 130 * b + 2 + 4 * c + 2)⟩⟩

/-- The checks of a packet besides the date. -/
def Shape (d : Bytes) : Prop :=
  d.length = 1076 ∧ u8 d 0 = 0xEE ∧ u8 d 1 = 0xFF ∧ u8 d 6 = 0x20 ∧ u8 d 7 = 8 ∧ u8 d 9 = 4 ∧ u8 d 11 = 1 ∧
  (∀ b, b < 8 → le (slice d (12 + 130 * b) 2) ≤ 36000)

theorem parsePacket_eq (d : Bytes) (h : 2 ≤ d.length) :
    (Shape d → parsePacket d = .ok (some ⟨u8 d 10, hesaiBlocks d, slice d 1065 6, le (slice d 1071 4)⟩)) ∧
    (¬ Shape d → parsePacket d = .ok none) := by
  match d, h with
  | a :: b :: l, _ =>
    have h0 : u8 (a :: b :: l) 0 = a := rfl
    have h1 : u8 (a :: b :: l) 1 = b := rfl
    unfold parsePacket
    simp only [List.getElem?_cons_zero, List.getElem?_cons_succ, Rs.ofOption_some, Rs.ok_bind]
    generalize hd : a :: b :: l = d at h0 h1 ⊢
    have hbl : readBlocks 8 (d.drop 12) = hesaiBlocks d := by
      rw [readBlocks_eq]
      unfold hesaiBlocks
      apply List.map_congr_left
      intro b _
      rw [slice_drop]
      congr 1
      apply List.map_congr_left
      intro c _
      simp only [slice_drop, u8_drop, Nat.add_assoc]
    have hany : ((hesaiBlocks d).any fun b => decide (36000 < b.azimuth)) = true ↔
        ¬ ∀ b, b < 8 → le (slice d (12 + 130 * b) 2) ≤ 36000 := by
      unfold hesaiBlocks
      simp only [List.any_map, List.any_eq_true, List.mem_range, Function.comp_apply, decide_eq_true_eq,
        Classical.not_forall, Nat.not_le, exists_prop]
    simp only [List.drop_drop, headD_drop, take_drop, hbl]
    refine ⟨fun hs => ?_, fun hs => ?_⟩
    · obtain ⟨s1, s2, s3, s4, s5, s6, s7, s8⟩ := hs
      rw [h0] at s2
      rw [h1] at s3
      rw [if_neg (by simp [s2, s3]), if_neg (by omega), if_neg (by omega), if_neg (by simpa using s4),
        if_neg (by simpa using s5), if_neg (by simpa using s6), if_neg (by simpa using s7),
        if_neg (fun hx => (hany.mp hx) s8)]
    · split
      · rfl
      · rename_i hab
        split
        · rfl
        · split
          · rfl
          · split
            · rfl
            · split
              · rfl
              · split
                · rfl
                · split
                  · rfl
                  · split
                    · rfl
                    · rename_i c1 c2 c3 c4 c5 c6 c7
                      exfalso
                      apply hs
                      simp only [not_or, ne_eq, Classical.not_not] at hab c3 c4 c5 c6
                      exact ⟨by omega, h0.trans hab.1, h1.trans hab.2, c3, c4, c5, c6,
                        Classical.not_not.mp fun hx => c7 (hany.mpr hx)⟩

theorem hesaiValid_iff (d : Bytes) : HesaiValid d ↔ Shape d ∧ hesaiUtc d ≠ none := by
  unfold HesaiValid Shape
  simp only [and_assoc]

/-- The running extremes of times. -/
def extremes (s : CuTime × CuTime) (t : CuTime) : CuTime × CuTime :=
  if t.ns < s.1.ns then (t, s.2) else if s.2.ns < t.ns then (s.1, t) else s

theorem channelLoop_eq (o : Overflow) (t6 : CuTime) (az : Nat) (f : Nat → CuTime) :
    ∀ (cs : List Channel) (i : Nat) (lo hi : CuTime) (ps : List HPoint),
    (∀ j, i ≤ j → j < i + cs.length → channelTime o t6 j = .ok (f j)) → ps.length + cs.length ≤ 320 →
    channelLoop o t6 az i cs (lo, hi, ps) =
      .ok ((((List.range' i cs.length).map f).foldl extremes (lo, hi)).1,
        (((List.range' i cs.length).map f).foldl extremes (lo, hi)).2,
        ps ++ (cs.zipIdx i).map fun x => ⟨f x.2, az, x.2, x.1.distance, x.1.reflectivity⟩)
  | [], i, lo, hi, ps, _, _ => by simp [channelLoop]
  | c :: cs, i, lo, hi, ps, hf, hl => by
    simp only [List.length_cons] at hf hl
    have ht := hf i (by omega) (by omega)
    have ih := channelLoop_eq o t6 az f cs (i + 1) (extremes (lo, hi) (f i)).1 (extremes (lo, hi) (f i)).2
      (ps ++ [⟨f i, az, i, c.distance, c.reflectivity⟩]) (fun j h1 h2 => hf j (by omega) (by omega)) (by simp; omega)
    simp only [channelLoop, ht, Rs.ok_bind]
    have he : (if (f i).ns < lo.ns then (f i, hi) else if hi.ns < (f i).ns then (lo, f i) else (lo, hi)) =
        extremes (lo, hi) (f i) := rfl
    rw [he, if_pos (by omega)]
    rw [ih]
    simp only [List.length_cons, List.range'_succ, List.map_cons, List.foldl_cons, List.zipIdx_cons, List.append_assoc,
      List.cons_append, List.nil_append]

theorem zipIdx_range {α : Type} (g : Nat → α) (n : Nat) : ((List.range n).map g).zipIdx 0 = (List.range n).map fun c => (g c, c) := by
  apply List.ext_getElem?
  intro i
  rw [List.getElem?_zipIdx, List.getElem?_map, List.getElem?_map]
  by_cases h : i < n
  · simp [List.getElem?_range h]
  · have : (List.range n)[i]? = none := by simp; omega
    rw [this]; rfl

theorem blockLoop_eq (o : Overflow) (t6 : CuTime) (f : Nat → CuTime) (hf : ∀ j, j < 32 → channelTime o t6 j = .ok (f j))
    (az : Nat → Nat) (g : Nat → Nat → Channel) :
    ∀ (bs : List Nat) (lo hi : CuTime) (ps : List HPoint), ps.length + 32 * bs.length ≤ 320 →
    ∃ lo' hi', blockLoop o t6 (bs.map fun b => ⟨az b, (List.range 32).map (g b)⟩) (lo, hi, ps) =
        .ok (lo', hi', ps ++ bs.flatMap fun b => (List.range 32).map fun c =>
          ⟨f c, az b, c, (g b c).distance, (g b c).reflectivity⟩) ∧
      (lo', hi') = bs.foldl (fun s _ => ((List.range 32).map f).foldl extremes s) (lo, hi)
  | [], lo, hi, ps, _ => ⟨lo, hi, by simp [blockLoop], rfl⟩
  | b :: bs, lo, hi, ps, hl => by
    simp only [List.length_cons] at hl
    have h1 := channelLoop_eq o t6 (az b) f ((List.range 32).map (g b)) 0 lo hi ps
      (fun j _ h => hf j (by simpa using h)) (by simp; omega)
    rw [zipIdx_range] at h1
    simp only [List.length_map, List.length_range, ← List.range_eq_range', List.map_map] at h1
    obtain ⟨lo', hi', h2, h3⟩ := blockLoop_eq o t6 f hf az g bs (((List.range 32).map f).foldl extremes (lo, hi)).1
      (((List.range 32).map f).foldl extremes (lo, hi)).2
      (ps ++ (List.range 32).map fun c => ⟨f c, az b, c, (g b c).distance, (g b c).reflectivity⟩) (by simp; omega)
    refine ⟨lo', hi', ?_, by rw [h3, List.foldl_cons]⟩
    simp only [List.map_cons, blockLoop]
    rw [h1]
    simp only [Rs.ok_bind, List.flatMap_cons, ← List.append_assoc]
    exact h2

theorem wrapping_some (r : Int) : ∃ x, u64Arith .wrapping r = some x := by
  unfold u64Arith
  split
  · exact ⟨_, rfl⟩
  · exact ⟨_, rfl⟩

theorem sub_wrapping (a b : CuDuration) : ∃ x, CuDuration.sub .wrapping a b = some x := by
  obtain ⟨x, hx⟩ := wrapping_some ((a.ns.toNat : Int) - b.ns.toNat)
  exact ⟨⟨x⟩, by simp [CuDuration.sub, hx]⟩
theorem add_wrapping (a b : CuDuration) : ∃ x, CuDuration.add .wrapping a b = some x := by
  obtain ⟨x, hx⟩ := wrapping_some ((a.ns.toNat : Int) + b.ns.toNat)
  exact ⟨⟨x⟩, by simp [CuDuration.add, hx]⟩
theorem mul_wrapping (k : Int32) (a : CuDuration) : ∃ x, CuDuration.mulI32 .wrapping k a = some x := by
  obtain ⟨x, hx⟩ := wrapping_some ((k.toInt % 18446744073709551616) * a.ns.toNat)
  exact ⟨⟨x⟩, by simp [CuDuration.mulI32, hx]⟩

theorem blockTimes_wrapping (t : CuTime) (ks : List Int32) : ∃ ts, blockTimes .wrapping t ks = .ok ts ∧ ts.length = ks.length := by
  induction ks with
  | nil => exact ⟨[], rfl, rfl⟩
  | cons k ks ih =>
    obtain ⟨ts, h1, h2⟩ := ih
    obtain ⟨m, hm⟩ := mul_wrapping k ⟨50000⟩
    obtain ⟨x, hx⟩ := sub_wrapping t m
    exact ⟨x :: ts, by simp [blockTimes, hm, hx, h1], by simp [h2]⟩

theorem channelTime_wrapping (t6 : CuTime) (i : Nat) : ∃ x, channelTime .wrapping t6 i = .ok x := by
  unfold channelTime
  split
  · obtain ⟨a, ha⟩ := sub_wrapping t6 ⟨1512⟩
    obtain ⟨b, hb⟩ := add_wrapping a ⟨280⟩
    exact ⟨b, by rw [ha, Rs.ofOption_some, Rs.ok_bind, hb, Rs.ofOption_some]⟩
  · obtain ⟨a, ha⟩ := add_wrapping t6 ⟨UInt64.ofNat (1512 * (i - 1))⟩
    obtain ⟨b, hb⟩ := add_wrapping a ⟨280⟩
    exact ⟨b, by rw [ha, Rs.ofOption_some, Rs.ok_bind, hb, Rs.ofOption_some]⟩

theorem ofNat_toNat {n : Nat} (h : n < 2 ^ 64) : (UInt64.ofNat n).toNat = n := by
  rw [UInt64.toNat_ofNat']; exact Nat.mod_eq_of_lt h

theorem ofNat_lt {a b : Nat} (ha : a < 2 ^ 64) (hb : b < 2 ^ 64) : UInt64.ofNat a < UInt64.ofNat b ↔ a < b := by
  rw [UInt64.lt_iff_toNat_lt, ofNat_toNat ha, ofNat_toNat hb]

theorem add_eq (o : Overflow) {a b : Nat} (h : a + b < 2 ^ 64) :
    CuDuration.add o ⟨UInt64.ofNat a⟩ ⟨UInt64.ofNat b⟩ = some ⟨UInt64.ofNat (a + b)⟩ := by
  unfold CuDuration.add u64Arith
  simp only
  rw [ofNat_toNat (by omega), ofNat_toNat (by omega), if_pos (by omega)]
  rfl

theorem sub_eq (o : Overflow) {a b : Nat} (h : b ≤ a) (ha : a < 2 ^ 64) :
    CuDuration.sub o ⟨UInt64.ofNat a⟩ ⟨UInt64.ofNat b⟩ = some ⟨UInt64.ofNat (a - b)⟩ := by
  unfold CuDuration.sub u64Arith
  simp only
  rw [ofNat_toNat (by omega), ofNat_toNat (by omega), if_pos (by omega)]
  simp only [Option.map_some]
  congr 3
  omega

theorem mul_eq (o : Overflow) (k : Nat) (hk : k < 8) :
    CuDuration.mulI32 o (Int32.ofNat k) ⟨50000⟩ = some ⟨UInt64.ofNat (50000 * k)⟩ := by
  have : k = 0 ∨ k = 1 ∨ k = 2 ∨ k = 3 ∨ k = 4 ∨ k = 5 ∨ k = 6 ∨ k = 7 := by omega
  rcases this with rfl | rfl | rfl | rfl | rfl | rfl | rfl | rfl <;> cases o <;> decide

theorem blockTimes_eq (o : Overflow) {t : Nat} (h : 350000 ≤ t) (ht : t < 2 ^ 64) (ks : List Nat) (hk : ∀ k ∈ ks, k < 8) :
    blockTimes o ⟨UInt64.ofNat t⟩ (ks.map Int32.ofNat) = .ok (ks.map fun k => ⟨UInt64.ofNat (t - 50000 * k)⟩) := by
  induction ks with
  | nil => rfl
  | cons k ks ih =>
    have h8 := hk k (by simp)
    simp only [List.map_cons, blockTimes, mul_eq o k h8, Rs.ofOption_some, Rs.ok_bind]
    rw [sub_eq o (by omega) ht, ih (fun k h => hk k (by simp [h]))]
    rfl

theorem add_eq' (o : Overflow) {a b r : Nat} (h : a + b = r) (hr : r < 2 ^ 64) :
    CuDuration.add o ⟨UInt64.ofNat a⟩ ⟨UInt64.ofNat b⟩ = some ⟨UInt64.ofNat r⟩ := by
  subst h; exact add_eq o hr

theorem channelTime_zero (o : Overflow) {t q r : CuTime} (h1 : t.sub o ⟨1512⟩ = some q) (h2 : q.add o ⟨280⟩ = some r) :
    channelTime o t 0 = .ok r := by
  unfold channelTime
  rw [if_pos rfl, h1, Rs.ofOption_some, Rs.ok_bind, h2, Rs.ofOption_some]

theorem channelTime_succ (o : Overflow) {t q r : CuTime} {i : Nat} (h0 : i ≠ 0)
    (h1 : t.add o ⟨UInt64.ofNat (1512 * (i - 1))⟩ = some q) (h2 : q.add o ⟨280⟩ = some r) :
    channelTime o t i = .ok r := by
  unfold channelTime
  rw [if_neg h0, h1, Rs.ofOption_some, Rs.ok_bind, h2, Rs.ofOption_some]

theorem channelTime_eq (o : Overflow) {t : Nat} (h : 1512 ≤ t) (ht : t + 50000 < 2 ^ 64) (i : Nat) (hi : i < 32) :
    channelTime o ⟨UInt64.ofNat t⟩ i = .ok ⟨UInt64.ofNat (t + 1512 * i - 1232)⟩ := by
  have hr : t + 1512 * i - 1232 < 2 ^ 64 := by omega
  obtain ⟨r, hr'⟩ : ∃ r, r = t + 1512 * i - 1232 := ⟨_, rfl⟩
  rw [← hr'] at hr ⊢
  by_cases h0 : i = 0
  · have h1 := sub_eq o h (by omega : t < 2 ^ 64)
    have h2 := add_eq' o (by omega : t - 1512 + 280 = r) hr
    rw [h0]
    exact channelTime_zero o h1 h2
  · obtain ⟨q, hq⟩ : ∃ q, q = t + 1512 * (i - 1) := ⟨_, rfl⟩
    have h1 := add_eq' o hq.symm (by omega)
    have h2 := add_eq' o (by omega : q + 280 = r) hr
    exact channelTime_succ o h0 h1 h2

theorem monthDays_le (y m : Nat) : monthDays y m ≤ 31 := by
  unfold monthDays
  split
  · split <;> omega
  all_goals omega

theorem yearStart_le (n : Nat) : yearStart n ≤ 366 * n := by
  induction n with
  | zero => simp [yearStart]
  | succ n ih => simp only [yearStart]; split <;> omega

theorem monthStart_le (y n : Nat) : monthStart y n ≤ 31 * n := by
  induction n with
  | zero => simp [monthStart]
  | succ n ih => simp only [monthStart]; have := monthDays_le y (n + 1); omega

theorem le_lt (l : Bytes) : le l < 256 ^ l.length := by
  induction l with
  | nil => simp [le]
  | cons b l ih =>
    have := b.toNat_lt
    simp only [le, List.length_cons, Nat.pow_succ]
    omega

theorem utcTov_lt {date : Bytes} {micros utc : Nat} (h : utcTov date micros = some utc) (hm : micros < 2 ^ 32) : utc < 2 ^ 63 := by
  unfold utcTov at h
  split at h
  · rename_i y mo d hh mi s
    split at h
    · rename_i hv
      simp only [Option.some.injEq] at h
      have h1 := yearStart_le y.toNat
      have h2 := monthStart_le (1900 + y.toNat) (mo.toNat - 1)
      have h3 := y.toNat_lt
      have h4 := monthDays_le (1900 + y.toNat) mo.toNat
      generalize yearStart y.toNat = A at *
      generalize monthStart (1900 + y.toNat) (mo.toNat - 1) = B at *
      generalize monthDays (1900 + y.toNat) mo.toNat = C at *
      omega
    · simp at h
  · simp at h

theorem extremes_up {a x y : Nat} (h1 : x < 2 ^ 64) (h2 : y < x) (h3 : a ≤ x) :
    extremes (⟨UInt64.ofNat a⟩, ⟨UInt64.ofNat y⟩) ⟨UInt64.ofNat x⟩ = (⟨UInt64.ofNat a⟩, ⟨UInt64.ofNat x⟩) := by
  unfold extremes
  rw [if_neg, if_pos]
  · exact (ofNat_lt (Nat.lt_trans h2 h1) h1).mpr h2
  · exact fun h => Nat.not_lt.mpr h3 ((ofNat_lt h1 (Nat.lt_of_le_of_lt h3 h1)).mp h)

theorem extremes_step {base j n : Nat} (h : base + 50000 < 2 ^ 64) (hj : j + (n + 1) = 31) :
    extremes (⟨UInt64.ofNat base⟩, ⟨UInt64.ofNat (base + 1512 * j)⟩) ⟨UInt64.ofNat (base + 1512 * (j + 1))⟩ =
      (⟨UInt64.ofNat base⟩, ⟨UInt64.ofNat (base + 1512 * (j + 1))⟩) := by
  obtain ⟨x, hx⟩ : ∃ x, x = base + 1512 * (j + 1) := ⟨_, rfl⟩
  obtain ⟨y, hy⟩ : ∃ y, y = base + 1512 * j := ⟨_, rfl⟩
  rw [← hx, ← hy]
  exact extremes_up (by omega) (by omega) (by omega)

theorem extremes_times {base : Nat} (h : base + 50000 < 2 ^ 64) (s : CuTime × CuTime)
    (hs : s = (CuDuration.MAX, CuDuration.MIN) ∨ s = (⟨UInt64.ofNat base⟩, ⟨UInt64.ofNat (base + 1512 * 31)⟩)) :
    ((List.range 32).map fun c => (⟨UInt64.ofNat (base + 1512 * c)⟩ : CuTime)).foldl extremes s =
      (⟨UInt64.ofNat base⟩, ⟨UInt64.ofNat (base + 1512 * 31)⟩) := by
  have key : ∀ (n j : Nat), j + n = 31 →
      ((List.range' (j + 1) n).map fun c => (⟨UInt64.ofNat (base + 1512 * c)⟩ : CuTime)).foldl extremes
        (⟨UInt64.ofNat base⟩, ⟨UInt64.ofNat (base + 1512 * j)⟩) =
      (⟨UInt64.ofNat base⟩, ⟨UInt64.ofNat (base + 1512 * 31)⟩) := by
    intro n
    induction n with
    | zero => intro j hj; have : j = 31 := by omega
              subst this; rfl
    | succ n ih =>
      intro j hj
      rw [List.range'_succ, List.map_cons, List.foldl_cons]
      have : extremes (⟨UInt64.ofNat base⟩, ⟨UInt64.ofNat (base + 1512 * j)⟩) ⟨UInt64.ofNat (base + 1512 * (j + 1))⟩ =
          (⟨UInt64.ofNat base⟩, ⟨UInt64.ofNat (base + 1512 * (j + 1))⟩) := by
        exact extremes_step h hj
      rw [this]
      exact ih (j + 1) (by omega)
  have same : ∀ (l : List Nat), (∀ c ∈ l, c ≤ 31) →
      (l.map fun c => (⟨UInt64.ofNat (base + 1512 * c)⟩ : CuTime)).foldl extremes
        (⟨UInt64.ofNat base⟩, ⟨UInt64.ofNat (base + 1512 * 31)⟩) =
      (⟨UInt64.ofNat base⟩, ⟨UInt64.ofNat (base + 1512 * 31)⟩) := by
    intro l hl
    induction l with
    | nil => rfl
    | cons c l ih =>
      have hc := hl c (by simp)
      rw [List.map_cons, List.foldl_cons]
      have : extremes (⟨UInt64.ofNat base⟩, ⟨UInt64.ofNat (base + 1512 * 31)⟩) ⟨UInt64.ofNat (base + 1512 * c)⟩ =
          (⟨UInt64.ofNat base⟩, ⟨UInt64.ofNat (base + 1512 * 31)⟩) := by
        unfold extremes
        simp only
        rw [if_neg, if_neg]
        · rw [ofNat_lt (by omega) (by omega)]; omega
        · rw [ofNat_lt (by omega) (by omega)]; omega
      rw [this]
      exact ih fun c h => hl c (by simp [h])
  rcases hs with rfl | rfl
  · have e : List.range 32 = 0 :: 1 :: List.range' 2 30 := by decide
    rw [e, List.map_cons, List.map_cons, List.foldl_cons, List.foldl_cons]
    have e1 : extremes (CuDuration.MAX, CuDuration.MIN) ⟨UInt64.ofNat (base + 1512 * 0)⟩ =
        (⟨UInt64.ofNat base⟩, CuDuration.MIN) := by
      unfold extremes
      rw [if_pos]
      · rfl
      · rw [UInt64.lt_iff_toNat_lt]
        have : (CuDuration.MAX : CuDuration).ns.toNat = 2 ^ 64 - 2 := by decide
        simp only
        rw [this, ofNat_toNat (by omega)]
        omega
    rw [e1]
    have e2 : extremes (⟨UInt64.ofNat base⟩, CuDuration.MIN) ⟨UInt64.ofNat (base + 1512 * 1)⟩ =
        (⟨UInt64.ofNat base⟩, ⟨UInt64.ofNat (base + 1512 * 1)⟩) := by
      unfold extremes
      simp only
      rw [if_neg, if_pos]
      · rw [UInt64.lt_iff_toNat_lt, ofNat_toNat (by omega)]
        have : (CuDuration.MIN : CuDuration).ns.toNat = 0 := by decide
        omega
      · rw [ofNat_lt (by omega) (by omega)]; omega
    rw [e2]
    exact key 30 1 rfl
  · exact same _ (fun c hc => by have := List.mem_range.mp hc; omega)

theorem livox_eq (d : Bytes) (tov : Tov) (h : d ≠ []) :
    (LivoxValid d → livox (.datagram d) tov = .ok ⟨some ((List.range 96).map (livoxPoint d)), tov, true⟩) ∧
    (¬ LivoxValid d → livox (.datagram d) tov = .ok ⟨some [], tov, false⟩) := by
  have ht : d.take 1500 ≠ [] := by
    intro hx
    have := congrArg List.length hx
    simp at this
    exact h this
  refine ⟨fun hv => ?_, fun hv => ?_⟩
  · simp only [livox]
    rw [take_eq d (by have := hv.1; omega), parseFrame_eq d h, if_pos hv]
    simp only [Rs.ok_bind]
    rw [pushAll_eq _ _ _ (by simp)]
    rfl
  · simp only [livox]
    have hv' : ¬ LivoxValid (d.take 1500) := by
      by_cases hl : d.length ≤ 1500
      · rwa [take_eq d hl]
      · intro hx
        have := hx.1
        simp at this
        omega
    rw [parseFrame_eq _ ht, if_neg hv']
    rfl

theorem shape_take (d : Bytes) : Shape (d.take 1500) ↔ Shape d := by
  by_cases hl : d.length ≤ 1500
  · rw [take_eq d hl]
  · constructor
    · intro hx
      have := hx.1
      simp at this
      omega
    · intro hx
      have := hx.1
      omega

theorem hesai_reject (o : Overflow) (rt : RefTime) (d : Bytes) (tov : Tov) (h : 2 ≤ d.length) (hv : ¬ HesaiValid d) :
    hesai o rt (.datagram d) tov = .ok ⟨some [], tov, false⟩ := by
  simp only [hesai]
  by_cases hs : Shape d
  · have hu : hesaiUtc d = none := Classical.not_not.mp fun hu => hv ((hesaiValid_iff d).mpr ⟨hs, hu⟩)
    rw [take_eq d (by have := hs.1; omega), (parsePacket_eq d h).1 hs]
    have : utcTov (slice d 1065 6) (le (slice d 1071 4)) = none := hu
    simp only [Rs.ok_bind, hesaiPacket, this]
  · rw [(parsePacket_eq (d.take 1500) (by simp; omega)).2 (fun hx => hs ((shape_take d).mp hx))]
    rfl

theorem hesai_packet (o : Overflow) (rt : RefTime) {d : Bytes} (hl : d.length = 1076) (tov : Tov) {p : Packet}
    (h : parsePacket d = .ok (some p)) : hesai o rt (.datagram d) tov = hesaiPacket o rt p tov := by
  simp only [hesai]
  rw [take_eq d (by omega), h, Rs.ok_bind]

theorem hesaiPacket_eq (o : Overflow) (rt : RefTime) (p : Packet) (tov : Tov) {utc : Nat}
    (hu : utcTov p.date p.micros = some utc) {t t0 t6 : CuTime} {ts : List CuTime} (h1 : tailTov o rt utc = .ok t)
    (h2 : t.add o ⟨5632⟩ = some t0) (h3 : blockTimes o t0 (offsets p.returnNumber) = .ok ts) (h4 : ts[5]? = some t6)
    {lo hi : CuTime} {ps : List HPoint} (h5 : blockLoop o t6 p.blocks (CuDuration.MAX, CuDuration.MIN, []) = .ok (lo, hi, ps)) :
    hesaiPacket o rt p tov = .ok ⟨some ps, .range ⟨lo, hi⟩, true⟩ := by
  unfold hesaiPacket
  rw [hu]
  show (tailTov o rt utc >>= _) = _
  rw [h1, Rs.ok_bind, h2, Rs.ofOption_some, Rs.ok_bind, h3, Rs.ok_bind, h4, Rs.ofOption_some, Rs.ok_bind, h5, Rs.ok_bind]

/-- The packet is decoded once the arithmetic on times succeeds. -/
theorem hesai_accept (o : Overflow) (rt : RefTime) (d : Bytes) (tov : Tov) {utc : Nat} (hs : Shape d)
    (hu : hesaiUtc d = some utc) {t t0 t6 : CuTime} {ts : List CuTime} (h1 : tailTov o rt utc = .ok t)
    (h2 : t.add o ⟨5632⟩ = some t0) (h3 : blockTimes o t0 (offsets (u8 d 10)) = .ok ts) (h4 : ts[5]? = some t6)
    (f : Nat → CuTime) (hf : ∀ j, j < 32 → channelTime o t6 j = .ok (f j)) :
    ∃ lo hi, hesai o rt (.datagram d) tov = .ok ⟨some ((List.range 8).flatMap fun b => (List.range 32).map fun c =>
        ⟨f c, le (slice d (12 + 130 * b) 2), c, le (slice d (12 + 130 * b + 2 + 4 * c) 2),
          u8 d (12 + 130 * b + 2 + 4 * c + 2)⟩), .range ⟨lo, hi⟩, true⟩ ∧
      (lo, hi) = (List.range 8).foldl (fun s _ => ((List.range 32).map f).foldl extremes s)
        (CuDuration.MAX, CuDuration.MIN) := by
  obtain ⟨lo, hi, h5, h6⟩ := blockLoop_eq o t6 f hf (fun b => le (slice d (12 + 130 * b) 2))
    (fun b c => ⟨le (slice d (12 + 130 * b + 2 + 4 * c) 2), u8 d (12 + 130 * b + 2 + 4 * c + 2)⟩)
    (List.range 8) CuDuration.MAX CuDuration.MIN [] (by simp)
  refine ⟨lo, hi, ?_, h6⟩
  have h8 := hesaiPacket_eq o rt ⟨u8 d 10, hesaiBlocks d, slice d 1065 6, le (slice d 1071 4)⟩ tov hu h1 h2 h3 h4 h5
  rw [List.nil_append] at h8
  rw [← h8]
  exact hesai_packet o rt hs.1 tov ((parsePacket_eq d (by have := hs.1; omega)).1 hs)

theorem tailTov_eq (o : Overflow) (rt : RefTime) {utc n : Nat} (h0 : rt.utc ≤ utc) (h1 : (utc : Int) - rt.utc < 2 ^ 63)
    (h2 : (n : Int) = rt.robot.ns.toNat + (utc - rt.utc)) (hn : n < 2 ^ 64) :
    tailTov o rt utc = .ok ⟨UInt64.ofNat n⟩ := by
  unfold tailTov
  rw [if_neg (by omega)]
  obtain ⟨e, he⟩ : ∃ e : Nat, (e : Int) = utc - rt.utc := ⟨((utc : Int) - rt.utc).toNat, by omega⟩
  have h3 : (((utc : Int) - rt.utc) % 2 ^ 64).toNat = e := by omega
  rw [h3]
  have h4 := add_eq' o (a := rt.robot.ns.toNat) (b := e) (r := n) (by omega) hn
  rw [UInt64.ofNat_toNat] at h4
  have h5 : CuDuration.add o rt.robot ⟨UInt64.ofNat e⟩ = some ⟨UInt64.ofNat n⟩ := h4
  rw [h5, Rs.ofOption_some]

theorem pair_eq {a b a' b' : Nat} (h : a = a') (h' : b = b') : ((⟨UInt64.ofNat a⟩ : CuTime), (⟨UInt64.ofNat b⟩ : CuTime)) =
    (⟨UInt64.ofNat a'⟩, ⟨UInt64.ofNat b'⟩) := by
  subst h; subst h'; rfl

theorem hesai_eq (o : Overflow) (rt : RefTime) (d : Bytes) (tov : Tov) {utc zero : Nat} (hs : Shape d)
    (hu : hesaiUtc d = some utc) (h0 : rt.utc ≤ utc) (h1 : (utc : Int) - rt.utc < 2 ^ 63)
    (hz : (zero : Int) = hesaiZero rt utc) (h2 : 400000 ≤ zero) (h3 : zero + 50000 < 2 ^ 64) :
    hesai o rt (.datagram d) tov = .ok ⟨some (hesaiPoints d (codeTime d zero)),
      .range ⟨⟨UInt64.ofNat (codeTime d zero 0)⟩, ⟨UInt64.ofNat (codeTime d zero 31)⟩⟩, true⟩ := by
  unfold hesaiZero at hz
  have e1 := tailTov_eq o rt (n := zero - 5632) h0 h1 (by omega) (by omega)
  have e2 := add_eq' o (a := zero - 5632) (b := 5632) (r := zero) (by omega) (by omega)
  obtain ⟨base, hb⟩ : ∃ b, b = zero - 50000 * (if u8 d 10 = 1 then 1 else 2) := ⟨_, rfl⟩
  have hb' : 300000 ≤ base ∧ base ≤ zero := by split at hb <;> omega
  have e3 : ∃ ts, blockTimes o ⟨UInt64.ofNat zero⟩ (offsets (u8 d 10)) = .ok ts ∧ ts[5]? = some ⟨UInt64.ofNat base⟩ := by
    unfold offsets
    split
    · rename_i hr
      rw [if_pos hr] at hb
      refine ⟨_, blockTimes_eq o (t := zero) (by omega) (by omega) [3, 3, 2, 2, 1, 1, 0, 0] (by decide), ?_⟩
      rw [hb]; rfl
    · rename_i hr
      rw [if_neg hr] at hb
      refine ⟨_, blockTimes_eq o (t := zero) (by omega) (by omega) [7, 6, 5, 4, 3, 2, 1, 0] (by decide), ?_⟩
      rw [hb]; rfl
  obtain ⟨ts, e3, e4⟩ := e3
  have hc : ∀ c, codeTime d zero c = base + 1512 * c - 1232 := by
    intro c
    unfold codeTime
    rw [← hb]
  obtain ⟨lo, hi, e5, e6⟩ := hesai_accept o rt d tov hs hu e1 e2 e3 e4 (fun c => ⟨UInt64.ofNat (codeTime d zero c)⟩)
    (fun j hj => by
      rw [hc]
      exact channelTime_eq o (t := base) (by omega) (by omega) j hj)
  have hc' : ∀ c, codeTime d zero c = base - 1232 + 1512 * c := fun c => by rw [hc]; omega
  have e7 : (fun c => (⟨UInt64.ofNat (codeTime d zero c)⟩ : CuTime)) = fun c => ⟨UInt64.ofNat (base - 1232 + 1512 * c)⟩ :=
    funext fun c => by rw [hc']
  have e8 : ∀ s : CuTime × CuTime,
      (s = (CuDuration.MAX, CuDuration.MIN) ∨
        s = (⟨UInt64.ofNat (base - 1232)⟩, ⟨UInt64.ofNat (base - 1232 + 1512 * 31)⟩)) →
      ((List.range 32).map fun c => (⟨UInt64.ofNat (codeTime d zero c)⟩ : CuTime)).foldl extremes s =
        (⟨UInt64.ofNat (base - 1232)⟩, ⟨UInt64.ofNat (base - 1232 + 1512 * 31)⟩) := by
    intro s hs
    rw [e7]
    exact extremes_times (by omega) s hs
  have e9 : (lo, hi) = (⟨UInt64.ofNat (base - 1232)⟩, ⟨UInt64.ofNat (base - 1232 + 1512 * 31)⟩) := by
    rw [e6, show List.range 8 = 0 :: [1, 2, 3, 4, 5, 6, 7] from rfl, List.foldl_cons, e8 _ (.inl rfl)]
    have : ∀ l : List Nat, l.foldl (fun s _ =>
        ((List.range 32).map fun c => (⟨UInt64.ofNat (codeTime d zero c)⟩ : CuTime)).foldl extremes s)
        (⟨UInt64.ofNat (base - 1232)⟩, ⟨UInt64.ofNat (base - 1232 + 1512 * 31)⟩) =
        (⟨UInt64.ofNat (base - 1232)⟩, ⟨UInt64.ofNat (base - 1232 + 1512 * 31)⟩) := by
      intro l
      induction l with
      | nil => rfl
      | cons _ l ih => rw [List.foldl_cons, e8 _ (.inr rfl), ih]
    exact this _
  have h10 : base - 1232 = codeTime d zero 0 := by rw [hc', Nat.mul_zero, Nat.add_zero]
  have h11 := (hc' 31).symm
  have e10 : (lo, hi) = ((⟨UInt64.ofNat (codeTime d zero 0)⟩ : CuTime), (⟨UInt64.ofNat (codeTime d zero 31)⟩ : CuTime)) :=
    e9.trans (pair_eq h10 h11)
  rw [Prod.mk.injEq] at e10
  rw [e5, e10.1, e10.2]
  rfl

theorem slice_length (d : Bytes) (o n : Nat) : (slice d o n).length ≤ n := by
  unfold slice; simp; omega

theorem hesai_release (rt : RefTime) (d : Bytes) (tov : Tov) {utc : Nat} (hs : Shape d)
    (hu : hesaiUtc d = some utc) (h0 : 0 ≤ rt.utc) (h1 : rt.utc < 2 ^ 63) :
    ∃ time lo hi, hesai .wrapping rt (.datagram d) tov =
      .ok ⟨some (hesaiPoints d time), .range ⟨lo, hi⟩, true⟩ := by
  have hb : utc < 2 ^ 63 := by
    refine utcTov_lt hu ?_
    have h2 := le_lt (slice d 1071 4)
    have h3 := slice_length d 1071 4
    have h4 : 256 ^ (slice d 1071 4).length ≤ 256 ^ 4 := Nat.pow_le_pow_right (by omega) h3
    have : (256 : Nat) ^ 4 = 2 ^ 32 := by decide
    omega
  have e1 : ∃ t, tailTov .wrapping rt utc = .ok t := by
    unfold tailTov
    rw [if_neg (by omega)]
    obtain ⟨x, hx⟩ := add_wrapping rt.robot ⟨UInt64.ofNat (((utc : Int) - rt.utc) % 2 ^ 64).toNat⟩
    exact ⟨x, by simp only [hx, Rs.ofOption_some]⟩
  obtain ⟨t, e1⟩ := e1
  obtain ⟨t0, e2⟩ := add_wrapping t ⟨5632⟩
  obtain ⟨ts, e3, e4⟩ := blockTimes_wrapping t0 (offsets (u8 d 10))
  have hl : ts.length = 8 := by
    rw [e4]; unfold offsets; split <;> rfl
  have e5 : ts[5]? = some ts[5] := List.getElem?_eq_getElem (by omega)
  obtain ⟨lo, hi, e6, _⟩ := hesai_accept .wrapping rt d tov hs hu e1 e2 e3 e5
    (fun j => Classical.choose (channelTime_wrapping ts[5] j)) (fun j _ => Classical.choose_spec (channelTime_wrapping ts[5] j))
  refine ⟨fun j => (Classical.choose (channelTime_wrapping ts[5] j)).ns.toNat, lo, hi, ?_⟩
  rw [e6]
  unfold hesaiPoints hesaiPoint
  simp only [UInt64.ofNat_toNat]

/-! ### Dates -/

theorem leap_iff (y : Nat) : leap y = true ↔ IsLeap y := by
  unfold leap IsLeap
  simp
  omega

theorem div_step (m k : Nat) (hk : 0 < k) :
    ((m + 1) % k = 0 ∧ (m + 1) / k = m / k + 1) ∨ ((m + 1) % k ≠ 0 ∧ (m + 1) / k = m / k) := by
  rw [Nat.succ_div]
  by_cases h : k ∣ m + 1
  · rw [if_pos h]
    exact .inl ⟨Nat.mod_eq_zero_of_dvd h, rfl⟩
  · rw [if_neg h]
    exact .inr ⟨fun h' => h (Nat.dvd_of_mod_eq_zero h'), rfl⟩

theorem yearStart_add (n : Nat) :
    yearStart n + (460 + (1899 + n) / 100) = 365 * n + ((1899 + n) / 4 + (1899 + n) / 400) := by
  induction n with
  | zero => rfl
  | succ n ih =>
    have hl := leap_iff (1900 + n)
    unfold IsLeap at hl
    rw [show 1900 + n = 1899 + n + 1 by omega] at hl
    have h4 := div_step (1899 + n) 4 (by omega)
    have h100 := div_step (1899 + n) 100 (by omega)
    have h400 := div_step (1899 + n) 400 (by omega)
    have m1 : (1899 + n + 1) % 100 = 0 → (1899 + n + 1) % 4 = 0 := by omega
    have m2 : (1899 + n + 1) % 400 = 0 → (1899 + n + 1) % 100 = 0 := by omega
    rw [yearStart, show 1900 + n = 1899 + n + 1 by omega, show 1899 + (n + 1) = 1899 + n + 1 by omega]
    generalize (1899 + n + 1) / 4 = a at *
    generalize (1899 + n + 1) / 100 = b at *
    generalize (1899 + n + 1) / 400 = c at *
    generalize (1899 + n) / 4 = a' at *
    generalize (1899 + n) / 100 = b' at *
    generalize (1899 + n) / 400 = c' at *
    generalize (1899 + n + 1) % 4 = x at *
    generalize (1899 + n + 1) % 100 = y at *
    generalize (1899 + n + 1) % 400 = z at *
    by_cases h : leap (1899 + n + 1) = true
    · rw [if_pos h]
      have := hl.1 h
      omega
    · rw [if_neg h]
      have : ¬ (x = 0 ∧ (y = 0 → z = 0)) := fun h' => h (hl.2 h')
      by_cases hy : y = 0
      · simp only [hy, true_implies, not_and] at this
        omega
      · simp only [hy, false_implies, and_true] at this
        omega

theorem yearStart_ge (n : Nat) : 365 * n ≤ yearStart n := by
  induction n with
  | zero => simp
  | succ n ih => rw [yearStart]; split <;> omega

theorem yearStart_eq (n : Nat) :
    yearStart n = 365 * n + ((1900 + n - 1) / 4 + (1900 + n - 1) / 400 - (1900 + n - 1) / 100 - 460) := by
  have h1 := yearStart_add n
  have h2 := yearStart_ge n
  rw [show 1900 + n - 1 = 1899 + n by omega]
  generalize (1899 + n) / 4 = a at *
  generalize (1899 + n) / 100 = b at *
  generalize (1899 + n) / 400 = c at *
  omega

theorem monthDays_eq (y m : Nat) (h1 : 1 ≤ m) (h2 : m ≤ 12) :
    monthDays y m = (months y).getD (m - 1) 0 := by
  have e : (if leap y = true then 29 else 28) = if IsLeap y then 29 else 28 := by
    simp only [leap_iff]
  match m, h1, h2 with
  | 2, _, _ => exact e
  | 1, _, _ | 3, _, _ | 4, _, _ | 5, _, _ | 6, _, _ | 7, _, _ | 8, _, _ | 9, _, _ | 10, _, _ | 11, _, _ | 12, _, _ => rfl
  | n + 13, _, h => omega

theorem monthStart_eq (y n : Nat) (h : n ≤ 12) : monthStart y n = ((months y).take n).sum := by
  induction n with
  | zero => rfl
  | succ n ih =>
    rw [monthStart, ih (by omega), monthDays_eq y (n + 1) (by omega) h]
    have hl : (months y).length = 12 := rfl
    rw [List.take_add_one, List.sum_append, Nat.add_sub_cancel, List.getD_eq_getElem?_getD,
      List.getElem?_eq_getElem (by omega)]
    simp

theorem utcTov_eq (y mo d h mi s : UInt8) (micros : Nat) :
    (DateExists y.toNat mo.toNat d.toNat h.toNat mi.toNat s.toNat →
      utcTov [y, mo, d, h, mi, s] micros = some ((((dayNumber (1900 + y.toNat) mo.toNat d.toNat * 24 + h.toNat) * 60 +
        mi.toNat) * 60 + s.toNat) * 1000000000 + micros * 1000)) ∧
    (¬ DateExists y.toNat mo.toNat d.toNat h.toNat mi.toNat s.toNat → utcTov [y, mo, d, h, mi, s] micros = none) := by
  have hiff : (1 ≤ mo.toNat ∧ mo.toNat ≤ 12 ∧ 1 ≤ d.toNat ∧ d.toNat ≤ monthDays (1900 + y.toNat) mo.toNat ∧
      h.toNat < 24 ∧ mi.toNat < 60 ∧ s.toNat < 60) ↔
      DateExists y.toNat mo.toNat d.toNat h.toNat mi.toNat s.toNat := by
    unfold DateExists
    constructor
    · rintro ⟨a, b, c, e, f⟩
      rw [monthDays_eq _ _ a b] at e
      exact ⟨a, b, c, e, f⟩
    · rintro ⟨a, b, c, e, f⟩
      rw [← monthDays_eq _ _ a b] at e
      exact ⟨a, b, c, e, f⟩
  constructor
  · intro hd
    unfold utcTov
    simp only
    rw [if_pos (hiff.2 hd), yearStart_eq, monthStart_eq _ _ (by have := hd.2.1; omega)]
    unfold dayNumber
    rw [show 1900 + y.toNat - 1900 = y.toNat by omega]
  · intro hd
    unfold utcTov
    simp only
    rw [if_neg (fun h => hd (hiff.1 h))]

end Lidar
end Verif
