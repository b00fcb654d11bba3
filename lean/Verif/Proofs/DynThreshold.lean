import Verif.Spec.Threshold
/-! Lemmas on the integral image and the threshold. -/
namespace Verif
namespace Threshold

/-- The sum of a line up to a column. -/
def rowSum (p : Nat → Nat → Nat) (y : Nat) : Nat → Nat
  | 0 => 0
  | x + 1 => rowSum p y x + p x y

/-- The sum of the pixels above and to the left. -/
def area (p : Nat → Nat → Nat) (X : Nat) : Nat → Nat
  | 0 => 0
  | y + 1 => area p X y + rowSum p y X

theorem area_zero (p : Nat → Nat → Nat) (Y : Nat) : area p 0 Y = 0 := by
  induction Y with
  | zero => rfl
  | succ Y ih => simp [area, rowSum, ih]

theorem rowSum_mono (p : Nat → Nat → Nat) (y : Nat) {a b : Nat} (h : a ≤ b) : rowSum p y a ≤ rowSum p y b := by
  induction h with
  | refl => exact Nat.le_refl _
  | step _ ih => simp only [Nat.succ_eq_add_one, rowSum]; omega

theorem area_mono_y (p : Nat → Nat → Nat) (X : Nat) {a b : Nat} (h : a ≤ b) : area p X a ≤ area p X b := by
  induction h with
  | refl => exact Nat.le_refl _
  | step _ ih => simp only [Nat.succ_eq_add_one, area]; omega

theorem area_mono_x (p : Nat → Nat → Nat) {a b : Nat} (h : a ≤ b) (Y : Nat) : area p a Y ≤ area p b Y := by
  induction Y with
  | zero => exact Nat.le_refl _
  | succ Y ih => simp only [area]; have := rowSum_mono p Y h; omega

theorem index_inj {w x y x' y' : Nat} (hx : x < w) (hx' : x' < w) (h : x + y * w = x' + y' * w) : x = x' ∧ y = y' := by
  have h1 : (x + y * w) % w = x := by rw [Nat.add_mul_mod_self_right, Nat.mod_eq_of_lt hx]
  have h2 : (x' + y' * w) % w = x' := by rw [Nat.add_mul_mod_self_right, Nat.mod_eq_of_lt hx']
  have h3 : (x + y * w) / w = y := by rw [Nat.add_mul_div_right _ _ (by omega), Nat.div_eq_of_lt hx]; omega
  have h4 : (x' + y' * w) / w = y' := by rw [Nat.add_mul_div_right _ _ (by omega), Nat.div_eq_of_lt hx']; omega
  rw [h] at h1 h3
  exact ⟨h1.symm.trans h2, h3.symm.trans h4⟩

theorem index_lt {w h x y : Nat} (hx : x < w) (hy : y < h) : x + y * w < w * h := by
  have : (y + 1) * w ≤ h * w := Nat.mul_le_mul_right w hy
  rw [Nat.add_mul] at this
  rw [Nat.mul_comm w h]
  omega

/-- The integral image is right up to column `x` of line `y`. -/
def Inv (p : Nat → Nat → Nat) (w h : Nat) (d : List Nat) (x y : Nat) : Prop :=
  d.length = (w + 1) * (h + 1) ∧
  ∀ X Y, X ≤ w → Y ≤ h → (X = 0 ∨ Y = 0 ∨ Y ≤ y ∨ (Y = y + 1 ∧ X ≤ x)) → d[X + Y * (w + 1)]? = some (area p X Y)

theorem getPixel_eq {src : List UInt8} {w h x y : Nat} (hl : src.length = w * h) (hx : x < w) (hy : y < h) :
    ∃ v, getPixel src x y w = .ok v ∧ v.toNat = pixel src w x y := by
  have hi : x + y * w < src.length := by rw [hl]; exact index_lt hx hy
  refine ⟨src[x + y * w], ?_, ?_⟩
  · simp [getPixel, hi]
  · simp [pixel, hi]

theorem row_step {src : List UInt8} {w h x y : Nat} {d : List Nat} (hl : src.length = w * h) (hx : x < w) (hy : y < h)
    (hi : Inv (pixel src w) w h d x y) (xs : List Nat) :
    ∃ d', Inv (pixel src w) w h d' (x + 1) y ∧
      integralRow src w y (x :: xs) (rowSum (pixel src w) y x) d =
        if area (pixel src w) (x + 1) (y + 1) < 2 ^ 32 then
          integralRow src w y xs (rowSum (pixel src w) y (x + 1)) d'
        else .panic := by
  obtain ⟨hlen, hi⟩ := hi
  obtain ⟨v, hv, hv'⟩ := getPixel_eq hl hx hy
  have habove : getPixel d (x + 1) y (w + 1) = .ok (area (pixel src w) (x + 1) y) := by
    simp [getPixel, hi (x + 1) y (by omega) (by omega) (by omega)]
  have hlt : x + 1 + (y + 1) * (w + 1) < d.length := by
    rw [hlen]; exact index_lt (by omega) (by omega)
  refine ⟨d.set (x + 1 + (y + 1) * (w + 1)) (area (pixel src w) (x + 1) (y + 1)), ⟨by simpa using hlen, ?_⟩, ?_⟩
  · intro X Y hX hY hc
    rw [List.getElem?_set]
    by_cases he : x + 1 + (y + 1) * (w + 1) = X + Y * (w + 1)
    · obtain ⟨rfl, rfl⟩ := index_inj (by omega) (by omega) he
      simp [hlt]
    · rw [if_neg he]
      apply hi X Y hX hY
      by_cases h1 : Y = y + 1 ∧ X = x + 1
      · exact absurd (by rw [h1.1, h1.2]) he
      · omega
  · have e1 : rowSum (pixel src w) y x + v.toNat = rowSum (pixel src w) y (x + 1) := by rw [hv']; rfl
    have e2 : area (pixel src w) (x + 1) y + rowSum (pixel src w) y (x + 1) = area (pixel src w) (x + 1) (y + 1) := rfl
    simp only [integralRow, hv, habove, Rs.ok_bind, e1]
    by_cases hb : area (pixel src w) (x + 1) (y + 1) < 2 ^ 32
    · rw [if_pos hb]
      simp only [u32]
      rw [if_pos (by omega)]
      simp only [Rs.ok_bind, e2]
      rw [if_pos hb]
      simp only [Rs.ok_bind, putPixel]
      rw [if_pos hlt]
      simp only [Rs.ok_bind]
    · rw [if_neg hb]
      simp only [u32]
      by_cases hs : rowSum (pixel src w) y (x + 1) < 2 ^ 32
      · rw [if_pos hs]
        simp only [Rs.ok_bind, e2]
        rw [if_neg hb]
        simp
      · rw [if_neg hs]
        simp

theorem row_eq {src : List UInt8} {w h y : Nat} (hl : src.length = w * h) (hy : y < h) :
    ∀ (n x : Nat) (d : List Nat), x + n = w → Inv (pixel src w) w h d x y →
    (area (pixel src w) w (y + 1) < 2 ^ 32 →
      ∃ d', integralRow src w y (List.range' x n) (rowSum (pixel src w) y x) d = .ok d' ∧ Inv (pixel src w) w h d' w y) ∧
    (n ≠ 0 → ¬ area (pixel src w) w (y + 1) < 2 ^ 32 →
      integralRow src w y (List.range' x n) (rowSum (pixel src w) y x) d = .panic)
  | 0, x, d, hxn, hi => by
    refine ⟨fun _ => ⟨d, rfl, ?_⟩, fun h => absurd rfl h⟩
    have : x = w := by omega
    rwa [this] at hi
  | n + 1, x, d, hxn, hi => by
    obtain ⟨d', hi', he⟩ := row_step hl (show x < w by omega) hy hi (List.range' (x + 1) n)
    rw [List.range'_succ, he]
    obtain ⟨ih1, ih2⟩ := row_eq hl hy n (x + 1) d' (by omega) hi'
    refine ⟨fun hb => ?_, fun _ hb => ?_⟩
    · rw [if_pos (Nat.lt_of_le_of_lt (area_mono_x _ (by omega) _) hb)]
      exact ih1 hb
    · split
      · rename_i hs
        cases n with
        | zero =>
          have : x + 1 = w := by omega
          rw [this] at hs
          exact absurd hs hb
        | succ n => exact ih2 (by simp) hb
      · rfl

theorem Inv.next {p : Nat → Nat → Nat} {w h y : Nat} {d : List Nat} (hi : Inv p w h d w y) : Inv p w h d 0 (y + 1) := by
  refine ⟨hi.1, fun X Y hX hY hc => hi.2 X Y hX hY ?_⟩
  omega

theorem rows_eq {src : List UInt8} {w h : Nat} (hl : src.length = w * h) :
    ∀ (n y : Nat) (d : List Nat), y + n = h → Inv (pixel src w) w h d 0 y →
    (area (pixel src w) w h < 2 ^ 32 →
      ∃ d', integralRows src w (List.range' y n) d = .ok d' ∧ Inv (pixel src w) w h d' 0 h) ∧
    (n ≠ 0 → w ≠ 0 → ¬ area (pixel src w) w h < 2 ^ 32 → integralRows src w (List.range' y n) d = .panic)
  | 0, y, d, hyn, hi => by
    refine ⟨fun _ => ⟨d, rfl, ?_⟩, fun h => absurd rfl h⟩
    have : y = h := by omega
    rwa [this] at hi
  | n + 1, y, d, hyn, hi => by
    rw [List.range'_succ]
    simp only [integralRows]
    obtain ⟨r1, r2⟩ := row_eq hl (show y < h by omega) w 0 d (by omega) hi
    have er : List.range w = List.range' 0 w := List.range_eq_range'
    have e0 : rowSum (pixel src w) y 0 = 0 := rfl
    rw [e0, ← er] at r1 r2
    refine ⟨fun hb => ?_, fun _ hw hb => ?_⟩
    · obtain ⟨d', h1, h2⟩ := r1 (Nat.lt_of_le_of_lt (area_mono_y _ _ (by omega)) hb)
      rw [h1]
      exact (rows_eq hl n (y + 1) d' (by omega) h2.next).1 hb
    · by_cases hs : area (pixel src w) w (y + 1) < 2 ^ 32
      · obtain ⟨d', h1, h2⟩ := r1 hs
        rw [h1]
        cases n with
        | zero =>
          have : y + 1 = h := by omega
          rw [this] at hs
          exact absurd hs hb
        | succ n => exact (rows_eq hl (n + 1) (y + 1) d' (by omega) h2.next).2 (by simp) hw hb
      · rw [r2 hw hs]
        rfl

/-- The first line and the first column are zero. -/
def Border (w h : Nat) (d : List Nat) : Prop :=
  d.length = (w + 1) * (h + 1) ∧
  ∀ X Y, X ≤ w → Y ≤ h → (X = 0 ∨ Y = 0) → d[X + Y * (w + 1)]? = some 0

theorem Border.inv {w h : Nat} {d : List Nat} (hb : Border w h d) (p : Nat → Nat → Nat) : Inv p w h d 0 0 := by
  refine ⟨hb.1, fun X Y hX hY hc => ?_⟩
  rcases hc with rfl | rfl | h | ⟨-, h⟩
  · rw [hb.2 0 Y hX hY (.inl rfl), area_zero]
  · rw [hb.2 X 0 hX hY (.inr rfl)]; rfl
  · have : Y = 0 := by omega
    subst this
    rw [hb.2 X 0 hX hY (.inr rfl)]; rfl
  · have : X = 0 := by omega
    subst this
    rw [hb.2 0 Y hX hY (.inl rfl), area_zero]

theorem Inv.border {p : Nat → Nat → Nat} {w h : Nat} {d : List Nat} (hi : Inv p w h d 0 h) : Border w h d := by
  refine ⟨hi.1, fun X Y hX hY hc => ?_⟩
  rw [hi.2 X Y hX hY (by omega)]
  rcases hc with rfl | rfl
  · rw [area_zero]
  · rfl

/-- The sum over the columns and lines given. -/
def box (p : Nat → Nat → Nat) (xs ys : List Nat) : Nat := (ys.flatMap fun y => xs.map fun x => p x y).sum

theorem rowSum_split (p : Nat → Nat → Nat) (y l n : Nat) :
    rowSum p y (l + n) = rowSum p y l + ((List.range' l n).map fun x => p x y).sum := by
  induction n with
  | zero => simp
  | succ n ih => rw [List.range'_1_concat, List.map_append, List.sum_append, ← Nat.add_assoc, rowSum, ih]; simp; omega

theorem area_split (p : Nat → Nat → Nat) (l n t k : Nat) :
    area p (l + n) (t + k) + area p l t = area p (l + n) t + area p l (t + k) + box p (List.range' l n) (List.range' t k) := by
  induction k with
  | zero => simp [box]
  | succ k ih =>
    have e : box p (List.range' l n) (List.range' t (k + 1)) =
        box p (List.range' l n) (List.range' t k) + ((List.range' l n).map fun x => p x (t + k)).sum := by
      simp only [box]
      rw [List.range'_1_concat, List.flatMap_append, List.sum_append]
      simp
    rw [← Nat.add_assoc]
    simp only [area]
    rw [e, rowSum_split p (t + k) l n]
    omega

theorem sum_eq {p : Nat → Nat → Nat} {w h : Nat} {d : List Nat} (hi : Inv p w h d 0 h) {l t n k : Nat}
    (hr : l + (n + 1) ≤ w) (hb : t + (k + 1) ≤ h) (hs : box p (List.range' l (n + 1)) (List.range' t (k + 1)) < 2 ^ 32) :
    sumImagePixels d l t (l + n) (t + k) (w + 1) = .ok (box p (List.range' l (n + 1)) (List.range' t (k + 1))) := by
  have g : ∀ X Y, X ≤ w → Y ≤ h → getPixel d X Y (w + 1) = .ok (area p X Y) := by
    intro X Y hX hY
    simp [getPixel, hi.2 X Y hX hY (by omega)]
  have e := area_split p l (n + 1) t (k + 1)
  simp only [sumImagePixels]
  rw [g _ _ (by omega) (by omega), g _ _ (by omega) (by omega), g _ _ (by omega) (by omega), g _ _ (by omega) (by omega)]
  simp only [Rs.ok_bind]
  rw [← Nat.add_assoc, ← Nat.add_assoc] at e
  rw [if_neg (by omega)]
  congr 1
  rw [Nat.mod_eq_of_lt (by omega)]
  omega

theorem filter_near {r a n : Nat} (ha : a < n) :
    (List.range n).filter (near r a) = List.range' (a - r) (min (n - 1) (a + r) - (a - r) + 1) := by
  have e : List.range n = List.range' 0 (a - r) ++ (List.range' (a - r) (min (n - 1) (a + r) - (a - r) + 1) ++
      List.range' (min (n - 1) (a + r) + 1) (n - 1 - min (n - 1) (a + r))) := by
    rw [List.range_eq_range']
    have e1 : min (n - 1) (a + r) + 1 = a - r + 1 * (min (n - 1) (a + r) - (a - r) + 1) := by omega
    rw [e1, List.range'_append]
    have e2 : a - r = 0 + 1 * (a - r) := by omega
    conv => rhs; rhs; rw [e2]
    rw [List.range'_append]
    congr 1
    omega
  rw [e, List.filter_append, List.filter_append]
  have f1 : (List.range' 0 (a - r)).filter (near r a) = [] := by
    rw [List.filter_eq_nil_iff]
    intro x hx
    simp [List.mem_range'_1] at hx
    simp [near]
    omega
  have f2 : (List.range' (a - r) (min (n - 1) (a + r) - (a - r) + 1)).filter (near r a) =
      List.range' (a - r) (min (n - 1) (a + r) - (a - r) + 1) := by
    rw [List.filter_eq_self]
    intro x hx
    simp [List.mem_range'_1] at hx
    simp [near]
    omega
  have f3 : (List.range' (min (n - 1) (a + r) + 1) (n - 1 - min (n - 1) (a + r))).filter (near r a) = [] := by
    rw [List.filter_eq_nil_iff]
    intro x hx
    simp only [List.mem_range'_1] at hx
    simp [near]
    omega
  rw [f1, f2, f3]
  simp

theorem low_eq {y r : Nat} (hy : y < 2 ^ 31) (hr : r < 2 ^ 31) : low y r = .ok (y - r) := by
  have h1 : asI32 y = y := by
    unfold asI32
    rw [Nat.mod_eq_of_lt (by omega)]
    omega
  have h2 : asI32 r = r := by
    unfold asI32
    rw [Nat.mod_eq_of_lt (by omega)]
    omega
  unfold low
  rw [h1, h2]
  have h3 : ¬ ((y : Int) - r < -2 ^ 31 ∨ (2 : Int) ^ 31 ≤ y - r) := by omega
  have h4 : (max 0 ((y : Int) - r)).toNat = y - r := by omega
  show (if (y : Int) - r < -2 ^ 31 ∨ (2 : Int) ^ 31 ≤ y - r then Rs.panic else Rs.ok (max 0 ((y : Int) - r)).toNat) = _
  rw [if_neg h3, h4]

theorem sum_le {l : List Nat} {b : Nat} (h : ∀ x ∈ l, x ≤ b) : l.sum ≤ b * l.length := by
  induction l with
  | nil => simp
  | cons x l ih =>
    have h1 := h x (by simp)
    have h2 := ih (fun y hy => h y (by simp [hy]))
    simp only [List.sum_cons, List.length_cons, Nat.mul_add, Nat.mul_one]
    omega

theorem flatMap_length (ys : List Nat) (f : Nat → List Nat) (n : Nat) (h : ∀ y, (f y).length = n) :
    (ys.flatMap f).length = ys.length * n := by
  induction ys with
  | nil => simp
  | cons y ys ih => simp [h, ih, Nat.add_mul]; omega

theorem pixel_le (img : List UInt8) (w x y : Nat) : pixel img w x y ≤ 255 := by
  unfold pixel
  have := (img[x + y * w]?.getD 0).toNat_lt
  omega

theorem thresholdPixel_eq {src : List UInt8} {w h r x y : Nat} {d : List Nat} (hl : src.length = w * h)
    (hb : 255 * (w * h) < 2 ^ 32) (hr : r < 2 ^ 31) (hx : x < w) (hy : y < h) (hi : Inv (pixel src w) w h d 0 h) :
    ∃ v, thresholdPixel src d r w h x y = .ok v ∧ (Brighter src w h r x y → v = 255) ∧
      (¬ Brighter src w h r x y → v = 0) := by
  have hwh : w * 1 ≤ w * h := Nat.mul_le_mul_left w (by omega)
  have hhw : 1 * h ≤ w * h := Nat.mul_le_mul_right h (by omega)
  obtain ⟨c, hc, hc'⟩ := getPixel_eq hl hx hy
  have hyl := low_eq (y := y) (r := r) (by omega) hr
  have hxl := low_eq (y := x) (r := r) (by omega) hr
  have hwin : window src w h r x y =
      (List.range' (y - r) (min (h - 1) (y + r) - (y - r) + 1)).flatMap fun y' =>
        (List.range' (x - r) (min (w - 1) (x + r) - (x - r) + 1)).map fun x' => pixel src w x' y' := by
    simp only [window, filter_near hx, filter_near hy]
  have hlen : (window src w h r x y).length =
      (min (h - 1) (y + r) - (y - r) + 1) * (min (w - 1) (x + r) - (x - r) + 1) := by
    rw [hwin, flatMap_length _ _ _ (fun y => by rw [List.length_map, List.length_range']), List.length_range']
  have hlenle : (window src w h r x y).length ≤ w * h := by
    rw [hlen, Nat.mul_comm]
    exact Nat.mul_le_mul (by omega) (by omega)
  have hsumle : (window src w h r x y).sum ≤ 255 * (w * h) := by
    refine Nat.le_trans (sum_le (b := 255) ?_) (Nat.mul_le_mul_left _ hlenle)
    intro v hv
    rw [hwin] at hv
    simp only [List.mem_flatMap, List.mem_map] at hv
    obtain ⟨_, _, _, _, rfl⟩ := hv
    exact pixel_le _ _ _ _
  have hbox : (window src w h r x y).sum =
      box (pixel src w) (List.range' (x - r) (min (w - 1) (x + r) - (x - r) + 1))
        (List.range' (y - r) (min (h - 1) (y + r) - (y - r) + 1)) := by
    rw [hwin]; rfl
  have hsum := sum_eq hi (l := x - r) (t := y - r) (n := min (w - 1) (x + r) - (x - r))
    (k := min (h - 1) (y + r) - (y - r)) (by omega) (by omega) (by rw [← hbox]; omega)
  have ex : x - r + (min (w - 1) (x + r) - (x - r)) = min (w - 1) (x + r) := by omega
  have ey : y - r + (min (h - 1) (y + r) - (y - r)) = min (h - 1) (y + r) := by omega
  rw [ex, ey, ← hbox] at hsum
  have hcle : c.toNat * (window src w h r x y).length < 2 ^ 32 := by
    have h1 : c.toNat * (window src w h r x y).length ≤ 255 * (w * h) :=
      Nat.mul_le_mul (by have := c.toNat_lt; omega) hlenle
    omega
  refine ⟨if c.toNat * (window src w h r x y).length > (window src w h r x y).sum then 255 else 0, ?_, ?_, ?_⟩
  · have s1 : span (high y r h) (y - r) = .ok (min (h - 1) (y + r) - (y - r) + 1) := by
      unfold span high
      rw [if_neg (by omega)]
    have s2 : span (high x r w) (x - r) = .ok (min (w - 1) (x + r) - (x - r) + 1) := by
      unfold span high
      rw [if_neg (by omega)]
    simp only [thresholdPixel, hc, hyl, hxl, Rs.ok_bind, s1, s2]
    simp only [high]
    rw [← hlen, Nat.mod_eq_of_lt (by omega), hsum]
    simp only [Rs.ok_bind, u32]
    rw [if_pos hcle]
    rfl
  · intro hbr
    rw [Brighter, ← hc'] at hbr
    rw [if_pos hbr]
  · intro hbr
    rw [Brighter, ← hc'] at hbr
    rw [if_neg hbr]

theorem pixel_set {dst : List UInt8} {w h x y x' y' : Nat} {v : UInt8} (hl : dst.length = w * h) (hx : x < w) (hy : y < h)
    (hx' : x' < w) :
    pixel (dst.set (x + y * w) v) w x' y' = if x = x' ∧ y = y' then v.toNat else pixel dst w x' y' := by
  have hlt : x + y * w < dst.length := by rw [hl]; exact index_lt hx hy
  unfold pixel
  rw [List.getElem?_set]
  by_cases he : x + y * w = x' + y' * w
  · have h2 := index_inj hx hx' he
    rw [if_pos he, if_pos hlt, if_pos h2]
    rfl
  · rw [if_neg he, if_neg]
    rintro ⟨rfl, rfl⟩
    exact he rfl

theorem thresholdPixels_eq {src : List UInt8} {w h r : Nat} {d : List Nat} (hl : src.length = w * h)
    (hb : 255 * (w * h) < 2 ^ 32) (hr : r < 2 ^ 31) (hi : Inv (pixel src w) w h d 0 h) :
    ∀ (xys : List (Nat × Nat)) (dst : List UInt8), (∀ q ∈ xys, q.1 < w ∧ q.2 < h) → dst.length = w * h →
    ∃ out, thresholdPixels src d r w h xys dst = .ok out ∧ out.length = w * h ∧
      ∀ x y, x < w → y < h →
        ((x, y) ∈ xys → (Brighter src w h r x y → pixel out w x y = 255) ∧ (¬ Brighter src w h r x y → pixel out w x y = 0)) ∧
        ((x, y) ∉ xys → pixel out w x y = pixel dst w x y)
  | [], dst, _, hd => ⟨dst, rfl, hd, by simp⟩
  | (x, y) :: xys, dst, hin, hd => by
    obtain ⟨hx, hy⟩ := hin (x, y) (by simp)
    obtain ⟨v, hv, hv1, hv2⟩ := thresholdPixel_eq hl hb hr hx hy hi
    obtain ⟨out, h1, h2, h3⟩ := thresholdPixels_eq hl hb hr hi xys (dst.set (x + y * w) v)
      (fun q hq => hin q (by simp [hq])) (by simpa using hd)
    refine ⟨out, ?_, h2, ?_⟩
    · simp only [thresholdPixels, hv, Rs.ok_bind, putPixel]
      rw [if_pos (by rw [hd]; exact index_lt hx hy)]
      exact h1
    · intro x' y' hx' hy'
      obtain ⟨h4, h5⟩ := h3 x' y' hx' hy'
      rw [pixel_set hd hx hy hx'] at h5
      by_cases hm : (x', y') ∈ xys
      · exact ⟨fun _ => h4 hm, fun hn => absurd (by simp [hm]) hn⟩
      · have h5 := h5 hm
        by_cases he : x = x' ∧ y = y'
        · obtain ⟨rfl, rfl⟩ := he
          rw [if_pos ⟨rfl, rfl⟩] at h5
          refine ⟨fun _ => ⟨fun hbr => ?_, fun hbr => ?_⟩, fun hn => absurd (by simp) hn⟩
          · rw [h5, hv1 hbr]; rfl
          · rw [h5, hv2 hbr]; rfl
        · rw [if_neg he] at h5
          refine ⟨fun hmem => ?_, fun _ => h5⟩
          simp only [List.mem_cons, Prod.mk.injEq] at hmem
          rcases hmem with ⟨rfl, rfl⟩ | hmem
          · exact absurd ⟨rfl, rfl⟩ he
          · exact absurd hmem hm

theorem mem_coords {w h x y : Nat} : (x, y) ∈ coords w h ↔ x < w ∧ y < h := by
  simp only [coords, List.mem_flatMap, List.mem_range, List.mem_map, Prod.mk.injEq]
  constructor
  · rintro ⟨a, ha, b, hb, rfl, rfl⟩
    exact ⟨hb, ha⟩
  · rintro ⟨hx, hy⟩
    exact ⟨y, hy, x, hx, rfl, rfl⟩

/-- What holds of a task between two images. -/
def Task.Good (t : Task) (w h r : Nat) : Prop :=
  t.width = w ∧ t.height = h ∧ t.radius = r ∧ Border w h t.integral

theorem area_le {p : Nat → Nat → Nat} (hp : ∀ x y, p x y ≤ 255) (X Y : Nat) : area p X Y ≤ 255 * (X * Y) := by
  have hr : ∀ y X, rowSum p y X ≤ 255 * X := by
    intro y X
    induction X with
    | zero => simp [rowSum]
    | succ X ih => have := hp X y; simp only [rowSum]; omega
  induction Y with
  | zero => simp [area]
  | succ Y ih =>
    have := hr Y X
    simp only [area, Nat.mul_add, Nat.mul_one]
    omega

theorem white_area (w h : Nat) (X : Nat) (hX : X ≤ w) :
    area (pixel (List.replicate (w * h) 255) w) X h = 255 * (X * h) := by
  have hr : ∀ y, y < h → ∀ X, X ≤ w → rowSum (pixel (List.replicate (w * h) 255) w) y X = 255 * X := by
    intro y hy X hX
    induction X with
    | zero => rfl
    | succ X ih =>
      have hp : pixel (List.replicate (w * h) 255) w X y = 255 := by
        unfold pixel
        rw [List.getElem?_replicate, if_pos (index_lt (by omega) hy)]
        rfl
      rw [rowSum, hp, ih (by omega)]
      omega
  have : ∀ Y, Y ≤ h → area (pixel (List.replicate (w * h) 255) w) X Y = 255 * (X * Y) := by
    intro Y hY
    induction Y with
    | zero => rfl
    | succ Y ih =>
      rw [area, ih (by omega), hr Y (by omega) X hX, Nat.mul_add, Nat.mul_one, Nat.mul_add]
  exact this h (Nat.le_refl _)

theorem process_good {t : Task} {w h r : Nat} (ht : t.Good w h r) (hb : 255 * (w * h) < 2 ^ 32) (h0 : 0 < r)
    (hr : r < 2 ^ 31) {src dst : List UInt8} (hd : dst.length = w * h) :
    ∃ t' o, t.process src dst = .ok (t', o) ∧ t'.Good w h r ∧
      (src.length = w * h → ∃ out, o = some out ∧ Thresholded src w h r out) ∧ (src.length ≠ w * h → o = none) := by
  obtain ⟨rfl, rfl, rfl, hbo⟩ := ht
  unfold Task.process
  by_cases hl : src.length = t.width * t.height
  · rw [if_neg (by simpa using hl)]
    obtain ⟨d, h1, h2⟩ := (rows_eq hl t.height 0 t.integral (by omega) (hbo.inv _)).1
      (Nat.lt_of_le_of_lt (area_le (pixel_le src _) _ _) hb)
    rw [← List.range_eq_range'] at h1
    obtain ⟨out, h3, h4, h5⟩ := thresholdPixels_eq hl hb hr h2 (coords t.width t.height) dst
      (fun q hq => mem_coords.mp hq) hd
    refine ⟨{ t with integral := d }, some out, ?_, ⟨rfl, rfl, rfl, h2.border⟩, ?_, fun h => absurd hl h⟩
    · simp only [integralImage, h1, Rs.ok_bind, adaptiveThreshold]
      rw [if_neg (by omega), h3]
      rfl
    · intro _
      exact ⟨out, rfl, h4, fun x y hx hy => (h5 x y hx hy).1 (mem_coords.mpr ⟨hx, hy⟩)⟩
  · rw [if_pos hl]
    exact ⟨t, none, rfl, ⟨rfl, rfl, rfl, hbo⟩, fun h => absurd h hl, fun _ => rfl⟩

theorem new_good {w h r : Nat} {t : Task} (ht : Task.new w h r = .ok t) : t.Good w h r := by
  unfold Task.new at ht
  simp only [Rs.bind_eq_ok] at ht
  obtain ⟨a, _, n, hn, he⟩ := ht
  simp only [Rs.ok.injEq] at he
  subst he
  simp only [u32] at hn
  split at hn
  · simp only [Rs.ok.injEq] at hn
    subst hn
    refine ⟨rfl, rfl, rfl, by simp, fun X Y hX hY _ => ?_⟩
    rw [List.getElem?_replicate, if_pos (index_lt (by omega) (by omega))]
  · simp at hn

end Threshold
end Verif
