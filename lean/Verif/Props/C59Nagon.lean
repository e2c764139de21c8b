import Verif.Lemmas.Nagon
import Verif.Props.C23RotateCopy

/-!
C59: `Nagon` gives the corners of the regular polygon, and the figure made of them is that polygon: what is inside all its sides.
-/

namespace Sdf
open Polygon

/-- The corners returned are on the circle, and the polygon with these corners has inside exactly the points that are on the inner side
of all sides, and outside exactly those that are beyond some side. -/
theorem C59_nagon (n : ℤ) (r : ℝ) (hn : 3 ≤ n) (hr : 1 / 10 ^ 9 < r * Real.sin (2 * Real.pi / n)) :
    ∃ v s, Form2.nagon n r = some ⟨some v, false⟩ ∧ v.length = n.toNat ∧ (∀ w ∈ v, V2.norm w = r) ∧ Must2.polygon v = some s ∧ Lip2 s.eval ∧
      ∀ p, (s.eval p < 0 ↔ ∀ i, towardSide n.toNat i p < apothem n.toNat r) ∧
        (0 < s.eval p ↔ ∃ i, apothem n.toNat r < towardSide n.toNat i p) := by
  have hN := C33_nagon_partial n r hn
  lift n to ℕ using by omega
  simp only [Int.toNat_natCast, Int.cast_natCast] at hN hr ⊢
  have hn : 3 ≤ n := by exact_mod_cast hn
  have h3 : (3 : ℝ) ≤ n := by exact_mod_cast hn
  have hn0 : (0 : ℝ) < n := by linarith
  have hpi := Real.pi_pos
  have hsin : 0 < Real.sin (2 * Real.pi / n) :=
    Real.sin_pos_of_pos_of_lt_pi (by positivity) (by rw [div_lt_iff₀ hn0]; nlinarith)
  have hr0 : 0 < r := pos_of_mul_pos_left (lt_trans (by norm_num) hr) hsin.le
  have hcos : 0 < Real.cos (Real.pi / n) := by
    refine Real.cos_pos_of_mem_Ioo ⟨by have : 0 < Real.pi / n := by positivity
                                       linarith, ?_⟩
    rw [div_lt_iff₀ hn0]; nlinarith
  have hap : 0 < apothem n r := mul_pos hr0 hcos
  have hprop := corners_proper hn hr
  obtain ⟨s, hs⟩ : ∃ s, Must2.polygon (corners n r) = some s := by
    have := (C31_refuse (corners n r)).not.mpr (not_lt.mpr hprop.1)
    exact Option.ne_none_iff_exists'.mp this
  have h0 : s.eval ⟨0, 0⟩ < 0 := by
    have hno : ¬ Outline (corners n r) ⟨0, 0⟩ := fun h => by
      obtain ⟨i, hi⟩ := corners_outline hn h
      simp only [towardSide, zero_mul, add_zero] at hi
      linarith
    obtain ⟨w, hw, h⟩ := C31_sign _ hprop s hs _ hno
    rw [h, C31_winding_unique _ _ _ _ hw (corners_winding hn hr0)]
    norm_num
  have hall : ∀ (i : ℤ), ∀ w ∈ corners n r, V2.dot ⟨Real.cos ((2 * i + 1) * (Real.pi / n)), Real.sin ((2 * i + 1) * (Real.pi / n))⟩ w ≤ apothem n r := by
    intro i w hw
    obtain ⟨j, -, rfl⟩ := List.mem_map.mp hw
    have := corner_le hn hr0.le i j
    unfold towardSide at this
    simp only [V2.dot]
    linarith
  have hlin : ∀ i p t, towardSide n i (V2.add ⟨0, 0⟩ (V2.scale t (V2.sub p ⟨0, 0⟩))) = t * towardSide n i p := by
    intro i p t
    simp only [towardSide, V2.add, V2.scale, V2.sub]; ring
  have hout : ∀ p i, apothem n r < towardSide n i p → 0 < s.eval p := by
    intro p i hi
    refine beyond_line hprop hs (hall i) ?_ (p := p) (by unfold towardSide at hi; simp only [V2.dot]; linarith)
    by_contra h
    push Not at h
    have := Real.sin_sq_add_cos_sq ((2 * i + 1) * (Real.pi / n))
    simp only at h
    rw [h.1, h.2] at this
    norm_num at this
  have hin : ∀ p, (∀ i, towardSide n i p < apothem n r) → s.eval p < 0 := by
    intro p hp
    refine (same_side _ hprop s hs ⟨0, 0⟩ p fun t t0 t1 ho => ?_).mp h0
    obtain ⟨i, hi⟩ := corners_outline hn ho
    rw [hlin] at hi
    have := hp i
    rcases le_total 0 (towardSide n i p) with h | h <;> nlinarith
  have hL := C31_lipschitz _ hprop s hs
  refine ⟨corners n r, s, hN, by simp [corners], ?_, hs, hL, fun p => ⟨⟨fun h i => ?_, hin p⟩, fun h => ?_, fun ⟨i, hi⟩ => hout p i hi⟩⟩
  · intro w hw
    obtain ⟨j, -, rfl⟩ := List.mem_map.mp hw
    unfold V2.norm corner
    simp only
    rw [show r * Real.cos (j * (2 * Real.pi / n)) * (r * Real.cos (j * (2 * Real.pi / n))) +
      r * Real.sin (j * (2 * Real.pi / n)) * (r * Real.sin (j * (2 * Real.pi / n))) = r * r by
        linear_combination r * r * Real.sin_sq_add_cos_sq (j * (2 * Real.pi / n))]
    exact Real.sqrt_mul_self hr0.le
  · -- inside: not beyond, and not on a side, because a little further out is still inside
    by_contra hc
    push Not at hc
    set e := -s.eval p / 2 with he
    have he0 : 0 < e := by rw [he]; linarith
    set a := (2 * (i : ℝ) + 1) * (Real.pi / n) with ha
    have hsc := Real.sin_sq_add_cos_sq a
    have h1 := hout ⟨p.x + e * Real.cos a, p.y + e * Real.sin a⟩ i (by
      unfold towardSide at hc ⊢
      simp only
      rw [← ha] at hc ⊢
      have : (p.x + e * Real.cos a) * Real.cos a + (p.y + e * Real.sin a) * Real.sin a = p.x * Real.cos a + p.y * Real.sin a + e := by
        linear_combination e * hsc
      linarith)
    have h2 := (abs_le.mp (hL ⟨p.x + e * Real.cos a, p.y + e * Real.sin a⟩ p)).2
    have h3 : V2.dist ⟨p.x + e * Real.cos a, p.y + e * Real.sin a⟩ p = e := by
      unfold V2.dist V2.norm
      simp only [V2.sub]
      rw [show (p.x + e * Real.cos a - p.x) * (p.x + e * Real.cos a - p.x) + (p.y + e * Real.sin a - p.y) * (p.y + e * Real.sin a - p.y) = e * e by
        linear_combination e * e * hsc]
      exact Real.sqrt_mul_self he0.le
    rw [h3] at h2
    linarith
  · -- outside: otherwise a little closer to the centre is inside
    by_contra hc
    push Not at hc
    set d := V2.dist p ⟨0, 0⟩ with hd
    have hd0 : 0 ≤ d := Real.sqrt_nonneg _
    obtain ⟨t, t0, t1, ht⟩ : ∃ t, 0 < t ∧ t < 1 ∧ t * d < s.eval p := by
      refine ⟨min (1 / 2) (s.eval p / (2 * (d + 1))), lt_min (by norm_num) (by positivity), (min_le_left _ _).trans_lt (by norm_num), ?_⟩
      have : min (1 / 2) (s.eval p / (2 * (d + 1))) * d ≤ s.eval p / (2 * (d + 1)) * d := mul_le_mul_of_nonneg_right (min_le_right _ _) hd0
      refine this.trans_lt ?_
      rw [div_mul_eq_mul_div, div_lt_iff₀ (by positivity)]
      nlinarith
    have h1 := hin (V2.scale (1 - t) p) fun i => by
      have e : towardSide n i (V2.scale (1 - t) p) = (1 - t) * towardSide n i p := by simp only [towardSide, V2.scale]; ring
      rw [e]
      have := hc i
      rcases le_total 0 (towardSide n i p) with h | h <;> nlinarith
    have h2 := (abs_le.mp (hL p (V2.scale (1 - t) p))).2
    have h3 : V2.dist p (V2.scale (1 - t) p) = t * d := by
      rw [hd]
      unfold V2.dist V2.norm
      simp only [V2.sub, V2.scale]
      rw [show (p.x - (1 - t) * p.x) * (p.x - (1 - t) * p.x) + (p.y - (1 - t) * p.y) * (p.y - (1 - t) * p.y) =
        t * t * ((p.x - 0) * (p.x - 0) + (p.y - 0) * (p.y - 0)) by ring, Real.sqrt_mul (mul_self_nonneg t), Real.sqrt_mul_self t0.le]
    rw [h3] at h2
    linarith

/-- The polygon lies between its two circles: everything nearer to the centre than the sides is inside, and everything inside is
nearer to the centre than the corners. -/
theorem C59_circles (n : ℕ) (r : ℝ) (hn : 3 ≤ n) (p : V2) :
    (V2.norm p < apothem n r → ∀ i, towardSide n i p < apothem n r) ∧ ((∀ i, towardSide n i p < apothem n r) → V2.norm p < r) := by
  have h3 : (3 : ℝ) ≤ n := by exact_mod_cast hn
  have hn0 : (0 : ℝ) < n := by linarith
  have hpi := Real.pi_pos
  have hd : 0 < Real.pi / n := by positivity
  have hcos : 0 < Real.cos (Real.pi / n) := by
    refine Real.cos_pos_of_mem_Ioo ⟨by linarith, ?_⟩
    rw [div_lt_iff₀ hn0]; nlinarith
  obtain ⟨ρ, φ, hρ, hx, hy⟩ := polar2 p.x p.y
  have hnorm : V2.norm p = ρ := by
    unfold V2.norm
    rw [hx, hy, show ρ * Real.cos φ * (ρ * Real.cos φ) + ρ * Real.sin φ * (ρ * Real.sin φ) = ρ * ρ by
      linear_combination ρ * ρ * Real.sin_sq_add_cos_sq φ]
    exact Real.sqrt_mul_self hρ
  have hto : ∀ i, towardSide n i p = ρ * Real.cos (φ - (2 * i + 1) * (Real.pi / n)) := by
    intro i
    unfold towardSide
    rw [hx, hy, Real.cos_sub]; ring
  rw [hnorm]
  constructor
  · intro h i
    rw [hto]
    have := mul_le_mul_of_nonneg_left (Real.cos_le_one (φ - (2 * i + 1) * (Real.pi / n))) hρ
    linarith
  · intro h
    set i := ⌊φ / (2 * (Real.pi / n))⌋ with hi
    have h1 := Int.floor_le (φ / (2 * (Real.pi / n)))
    have h2 := Int.lt_floor_add_one (φ / (2 * (Real.pi / n)))
    rw [le_div_iff₀ (by positivity), ← hi] at h1
    rw [div_lt_iff₀ (by positivity), ← hi] at h2
    have h4 : Real.cos (Real.pi / n) ≤ Real.cos (φ - (2 * i + 1) * (Real.pi / n)) := by
      rw [← Real.cos_abs (φ - _)]
      refine Real.cos_le_cos_of_nonneg_of_le_pi (abs_nonneg _) ?_ ?_
      · rw [div_le_iff₀ hn0]; nlinarith
      · exact abs_le.mpr ⟨by linarith, by linarith⟩
    have h5 := h i
    rw [hto] at h5
    unfold apothem at h5
    have h6 := mul_le_mul_of_nonneg_left h4 hρ
    exact lt_of_mul_lt_mul_right (by linarith) hcos.le

/-- A square: the polygon with four corners on the circle of radius 2 is `|x| + |y| < 2`. -/
example : ∃ v s, Form2.nagon 4 2 = some ⟨some v, false⟩ ∧ Must2.polygon v = some s ∧ s.eval ⟨1, 1 / 2⟩ < 0 ∧ 0 < s.eval ⟨3 / 2, 3 / 2⟩ := by
  have h2 : Real.sqrt 2 * Real.sqrt 2 = 2 := Real.mul_self_sqrt (by norm_num)
  have h20 : 0 < Real.sqrt 2 := by positivity
  obtain ⟨v, s, h1, -, -, h3, -, h⟩ := C59_nagon 4 2 (by norm_num) (by
    rw [show 2 * Real.pi / ((4 : ℤ) : ℝ) = Real.pi / 2 by push_cast; ring, Real.sin_pi_div_two]; norm_num)
  refine ⟨v, s, h1, h3, (h _).1.mpr ((C59_circles 4 2 (by norm_num) _).1 ?_), (h _).2.mpr ⟨0, ?_⟩⟩
  · unfold V2.norm apothem
    simp only
    rw [show ((4 : ℕ) : ℝ) = 4 by norm_num, Real.cos_pi_div_four, Real.sqrt_lt' (by positivity)]
    nlinarith
  · unfold towardSide apothem
    rw [show ((Int.toNat 4 : ℕ) : ℝ) = 4 from rfl]
    simp only [Int.cast_zero, mul_zero, zero_add, one_mul, Real.cos_pi_div_four, Real.sin_pi_div_four]
    linarith

end Sdf
