import Verif.Lemmas.Convex
import Verif.Spec.Nagon
import Verif.Props.C33Constructors

/-! Lemmas for C59: the corners and sides of a regular polygon. -/

namespace Sdf
namespace Polygon

/-- The corners of a regular polygon, numbered without end. -/
noncomputable def corner (n : ℕ) (r : ℝ) (i : ℕ) : V2 :=
  ⟨r * Real.cos (i * (2 * Real.pi / n)), r * Real.sin (i * (2 * Real.pi / n))⟩

noncomputable def corners (n : ℕ) (r : ℝ) : List V2 := (List.range n).map (corner n r)

theorem corner_wrap {n : ℕ} (hn : 3 ≤ n) (r : ℝ) : corner n r n = corner n r 0 := by
  have : (n : ℝ) ≠ 0 := by positivity
  unfold corner
  rw [mul_div_cancel₀ _ this]
  simp

theorem sides_range (n : ℕ) (f : ℕ → V2) (h : f n = f 0) :
    sides ((List.range n).map f) = (List.range n).map fun i => (f i, f (i + 1)) := by
  unfold sides
  refine List.ext_getElem (by simp) fun i h1 h2 => ?_
  simp only [List.length_map, List.length_range] at h2
  rw [List.getElem_zip, List.getElem_rotate]
  simp only [List.getElem_map, List.getElem_range, List.length_map, List.length_range]
  rcases Nat.lt_or_ge (i + 1) n with h3 | h3
  · rw [Nat.mod_eq_of_lt h3]
  · have : i + 1 = n := by omega
    rw [this, Nat.mod_self, h]

theorem corner_toward (n : ℕ) (r : ℝ) (i : ℤ) (j : ℕ) :
    towardSide n i (corner n r j) = r * Real.cos ((2 * (i - j) + 1 : ℤ) * (Real.pi / n)) := by
  unfold towardSide corner
  simp only
  have e : (((2 * (i - j) + 1 : ℤ)) : ℝ) * (Real.pi / n) = (2 * i + 1) * (Real.pi / n) - j * (2 * Real.pi / n) := by
    push_cast; ring
  rw [e, Real.cos_sub]; ring

/-- The cosine of an odd multiple of a `2n`th of a turn is at most that of a single one. -/
theorem cos_odd_le {n : ℕ} (hn : 3 ≤ n) (k : ℤ) : Real.cos ((2 * k + 1 : ℤ) * (Real.pi / n)) ≤ Real.cos (Real.pi / n) := by
  have hn0 : (0 : ℝ) < n := by positivity
  have hpi := Real.pi_pos
  -- reduce to the first turn
  obtain ⟨q, m, hk, m0, m1⟩ : ∃ q m : ℤ, k = m + q * n ∧ 0 ≤ m ∧ m < n :=
    ⟨k / n, k % n, by rw [mul_comm]; exact (Int.emod_add_mul_ediv k n).symm, Int.emod_nonneg _ (by omega), Int.emod_lt_of_pos _ (by omega)⟩
  have e : ((2 * k + 1 : ℤ) : ℝ) * (Real.pi / n) = (2 * m + 1 : ℤ) * (Real.pi / n) + q * (2 * Real.pi) := by
    rw [hk]; push_cast; field_simp; ring
  rw [e, Real.cos_add_int_mul_two_pi]
  have hm0 : (0 : ℝ) ≤ m := by exact_mod_cast m0
  have hm1 : (m : ℝ) + 1 ≤ n := by exact_mod_cast m1
  have hd : 0 < Real.pi / n := div_pos hpi hn0
  have hN : (n : ℝ) * (Real.pi / n) = Real.pi := mul_div_cancel₀ _ hn0.ne'
  rcases le_total ((2 * m + 1 : ℤ) : ℝ) n with h | h
  · refine Real.cos_le_cos_of_nonneg_of_le_pi hd.le ?_ ?_
    · have := mul_le_mul_of_nonneg_right h hd.le
      linarith
    · push_cast
      nlinarith
  · rw [← Real.cos_two_pi_sub]
    push_cast at h ⊢
    refine Real.cos_le_cos_of_nonneg_of_le_pi hd.le ?_ ?_
    · nlinarith
    · nlinarith

theorem corner_le {n : ℕ} (hn : 3 ≤ n) {r : ℝ} (hr : 0 ≤ r) (i : ℤ) (j : ℕ) : towardSide n i (corner n r j) ≤ apothem n r := by
  rw [corner_toward]
  exact mul_le_mul_of_nonneg_left (cos_odd_le hn _) hr

/-- A side is at the distance of the apothem. -/
theorem side_at (n : ℕ) (r : ℝ) (i : ℕ) {q : V2} (h : OnSegment (corner n r i) (corner n r (i + 1)) q) :
    towardSide n i q = apothem n r := by
  obtain ⟨t, -, -, rfl⟩ := h
  have h1 := corner_toward n r i i
  have h2 := corner_toward n r i (i + 1)
  rw [show (2 * ((i : ℤ) - i) + 1 : ℤ) = 1 by ring] at h1
  rw [show (2 * ((i : ℤ) - (i + 1 : ℕ)) + 1 : ℤ) = -1 by push_cast; ring] at h2
  simp only [Int.cast_one, one_mul] at h1
  simp only [Int.cast_neg, Int.cast_one, neg_mul, one_mul, Real.cos_neg] at h2
  unfold apothem
  unfold towardSide at *
  simp only [V2.add, V2.scale, V2.sub]
  linear_combination (1 - t) * h1 + t * h2

theorem corners_outline {n : ℕ} (hn : 3 ≤ n) {r : ℝ} {q : V2} (h : Outline (corners n r) q) :
    ∃ i : ℕ, towardSide n i q = apothem n r := by
  obtain ⟨e, he, hq⟩ := h
  rw [corners, sides_range n _ (corner_wrap hn r)] at he
  obtain ⟨i, -, rfl⟩ := List.mem_map.mp he
  exact ⟨i, side_at n r i hq⟩

theorem toC_corner (n : ℕ) (r : ℝ) (i : ℕ) : toC (corner n r i) = r * Complex.exp ((i * (2 * Real.pi / n) : ℝ) * Complex.I) := by
  unfold corner
  generalize (i : ℝ) * (2 * Real.pi / n) = θ
  apply Complex.ext
  · simp only [toC, Complex.re_ofReal_mul, Complex.exp_ofReal_mul_I_re]
  · simp only [toC, Complex.im_ofReal_mul, Complex.exp_ofReal_mul_I_im]

theorem corners_winding {n : ℕ} (hn : 3 ≤ n) {r : ℝ} (hr : 0 < r) : IsWinding (corners n r) ⟨0, 0⟩ 1 := by
  have hn0 : (0 : ℝ) < n := by positivity
  have hpi := Real.pi_pos
  unfold IsWinding
  rw [corners, sides_range n _ (corner_wrap hn r), List.map_map]
  have : ∀ i ∈ List.range n, ((fun e : V2 × V2 => seenAngle ⟨0, 0⟩ e.1 e.2) ∘ fun i => (corner n r i, corner n r (i + 1))) i = 2 * Real.pi / n := by
    intro i _
    simp only [Function.comp]
    unfold seenAngle
    rw [show toC ⟨0, 0⟩ = 0 from rfl, sub_zero, sub_zero, toC_corner, toC_corner]
    have hr' : (r : ℂ) ≠ 0 := by exact_mod_cast hr.ne'
    rw [mul_div_mul_left _ _ hr', ← Complex.exp_sub, ← sub_mul, ← Complex.ofReal_sub]
    rw [show ((i + 1 : ℕ) : ℝ) * (2 * Real.pi / n) - i * (2 * Real.pi / n) = 2 * Real.pi / n by push_cast; ring]
    rw [Complex.arg_exp_mul_I, toIocMod_eq_self]
    have h3 : (3 : ℝ) ≤ n := by exact_mod_cast hn
    constructor
    · have : 0 < 2 * Real.pi / n := by positivity
      linarith
    · rw [show -Real.pi + 2 * Real.pi = Real.pi by ring, div_le_iff₀ hn0]; nlinarith
  rw [List.map_congr_left this, List.map_const', List.sum_replicate, List.length_range, nsmul_eq_mul, mul_div_cancel₀ _ hn0.ne']
  simp

theorem corners_proper {n : ℕ} (hn : 3 ≤ n) {r : ℝ} (hr : 1 / 10 ^ 9 < r * Real.sin (2 * Real.pi / n)) : Proper (corners n r) := by
  have hn0 : (0 : ℝ) < n := by positivity
  have h3 : (3 : ℝ) ≤ n := by exact_mod_cast hn
  have hpi := Real.pi_pos
  have hr0 : r ≠ 0 := by
    rintro rfl
    rw [zero_mul] at hr
    norm_num at hr
  have hsin : 0 < Real.sin (2 * Real.pi / n) :=
    Real.sin_pos_of_pos_of_lt_pi (by positivity) (by rw [div_lt_iff₀ hn0]; nlinarith)
  refine ⟨by simpa [corners] using hn, ?_, ?_⟩
  · intro e he heq
    have he' : e ∈ sides (corners n r) := by
      have hlen : (corners n r).length = n := by simp [corners]
      unfold sides
      obtain ⟨i, hi, rfl⟩ := List.mem_iff_getElem.mp he
      simp only [List.length_zip, List.length_tail, hlen] at hi
      refine List.mem_iff_getElem.mpr ⟨i, by simp [hlen]; omega, ?_⟩
      rw [List.getElem_zip, List.getElem_zip, List.getElem_rotate, List.getElem_tail]
      congr 2
      rw [hlen, Nat.mod_eq_of_lt (by omega)]
    rw [corners, sides_range n _ (corner_wrap hn r)] at he'
    obtain ⟨i, -, rfl⟩ := List.mem_map.mp he'
    simp only [corner, V2.mk.injEq, mul_eq_mul_left_iff, hr0, or_false] at heq
    have hs : Real.sin ((i + 1 : ℕ) * (2 * Real.pi / n) - i * (2 * Real.pi / n)) = 0 := by
      rw [Real.sin_sub, ← heq.1, ← heq.2]; ring
    rw [show ((i + 1 : ℕ) : ℝ) * (2 * Real.pi / n) - i * (2 * Real.pi / n) = 2 * Real.pi / n by push_cast; ring] at hs
    linarith
  · intro a b ha hb
    right
    rintro ⟨-, h⟩
    have ea : a = corner n r 0 := by
      rw [List.head?_eq_getElem?] at ha
      simpa [corners, show 0 < n by omega] using ha.symm
    have eb : b = corner n r (n - 1) := by
      rw [List.getLast?_eq_getElem?] at hb
      simpa [corners, show n - 1 < n by omega] using hb.symm
    have ey : b.y = -(r * Real.sin (2 * Real.pi / n)) := by
      rw [eb]
      simp only [corner]
      rw [show ((n - 1 : ℕ) : ℝ) * (2 * Real.pi / n) = 2 * Real.pi - 2 * Real.pi / n by
        rw [Nat.cast_sub (by omega)]; field_simp; ring_nf, Real.sin_two_pi_sub]
      ring
    rw [ea, ey] at h
    simp only [corner, Nat.cast_zero, zero_mul, Real.sin_zero, mul_zero] at h
    rw [show (0 : ℝ) - -(r * Real.sin (2 * Real.pi / n)) = r * Real.sin (2 * Real.pi / n) by ring,
      abs_of_pos (lt_trans (by norm_num) hr)] at h
    norm_num at h hr
    linarith

end Polygon
end Sdf
