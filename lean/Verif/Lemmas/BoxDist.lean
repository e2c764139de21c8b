import Verif.Lemmas.Vec
import Verif.Model.Box
import Mathlib.Order.Bounds.Basic

/-! Helper lemmas about the distances from a point to the points of a box. -/

namespace Sdf

open Classical in
/-- Least square over the interval `[l, h]`, the way `MinMaxDist2` finds it. -/
noncomputable def near1 (l h : ℝ) : ℝ := if l < 0 ∧ h > 0 then 0 else min (l * l) (h * h)

/-- Greatest square over the interval `[l, h]`. -/
noncomputable def far1 (l h : ℝ) : ℝ := max (l * l) (h * h)

theorem near1_le {l h t : ℝ} (h1 : l ≤ t) (h2 : t ≤ h) : near1 l h ≤ t * t := by
  unfold near1
  split
  · exact mul_self_nonneg t
  · rename_i hn
    rcases le_or_gt 0 l with hl | hl
    · exact min_le_of_left_le (by nlinarith)
    · have : h ≤ 0 := by
        by_contra hc; exact hn ⟨hl, not_le.mp hc⟩
      exact min_le_of_right_le (by nlinarith)

theorem near1_mem {l h : ℝ} (hlh : l ≤ h) : ∃ t, l ≤ t ∧ t ≤ h ∧ near1 l h = t * t := by
  unfold near1
  split
  · rename_i hn
    exact ⟨0, hn.1.le, hn.2.le, by ring⟩
  · rcases min_choice (l * l) (h * h) with e | e
    · exact ⟨l, le_rfl, hlh, e⟩
    · exact ⟨h, hlh, le_rfl, e⟩

theorem near1_nonneg (l h : ℝ) : 0 ≤ near1 l h := by
  unfold near1
  split
  · exact le_rfl
  · exact le_min (mul_self_nonneg _) (mul_self_nonneg _)

theorem le_far1 {l h t : ℝ} (h1 : l ≤ t) (h2 : t ≤ h) : t * t ≤ far1 l h := by
  unfold far1
  rcases le_total 0 t with ht | ht
  · exact le_max_of_le_right (by nlinarith)
  · exact le_max_of_le_left (by nlinarith)

theorem far1_mem {l h : ℝ} (hlh : l ≤ h) : ∃ t, l ≤ t ∧ t ≤ h ∧ far1 l h = t * t := by
  unfold far1
  rcases max_choice (l * l) (h * h) with e | e
  · exact ⟨l, le_rfl, hlh, e⟩
  · exact ⟨h, hlh, le_rfl, e⟩

theorem far1_nonneg (l h : ℝ) : 0 ≤ far1 l h := le_max_of_le_left (mul_self_nonneg _)

theorem min_abs_sq (l h : ℝ) : min |h| |l| * min |h| |l| = min (l * l) (h * h) := by
  rcases le_total |h| |l| with e | e
  · rw [min_eq_left e, abs_mul_abs_self, min_eq_right]
    have := mul_self_le_mul_self (abs_nonneg h) e
    rwa [abs_mul_abs_self, abs_mul_abs_self] at this
  · rw [min_eq_right e, abs_mul_abs_self, min_eq_left]
    have := mul_self_le_mul_self (abs_nonneg l) e
    rwa [abs_mul_abs_self, abs_mul_abs_self] at this

theorem min4 (a b c d : ℝ) : min (min (min (a + c) (b + c)) (a + d)) (b + d) = min a b + min c d := by
  apply le_antisymm
  · simp only [min_le_iff]
    rcases le_total a b with h1 | h1 <;> rcases le_total c d with h2 | h2 <;>
      simp only [min_eq_left, min_eq_right, h1, h2, le_refl, true_or, or_true]
  · simp only [le_min_iff]
    refine ⟨⟨⟨?_, ?_⟩, ?_⟩, ?_⟩ <;>
      linarith [min_le_left a b, min_le_right a b, min_le_left c d, min_le_right c d]

theorem max4 (a b c d : ℝ) : max (max (max (a + c) (b + c)) (a + d)) (b + d) = max a b + max c d := by
  apply le_antisymm
  · refine max_le (max_le (max_le ?_ ?_) ?_) ?_ <;>
      linarith [le_max_left a b, le_max_right a b, le_max_left c d, le_max_right c d]
  · rcases le_total a b with h1 | h1 <;> rcases le_total c d with h2 | h2
    · rw [max_eq_right h1, max_eq_right h2]; exact le_max_right _ _
    · rw [max_eq_right h1, max_eq_left h2]
      exact le_max_of_le_left (le_max_of_le_left (le_max_right _ _))
    · rw [max_eq_left h1, max_eq_right h2]
      exact le_max_of_le_left (le_max_right _ _)
    · rw [max_eq_left h1, max_eq_left h2]
      exact le_max_of_le_left (le_max_of_le_left (le_max_left _ _))

namespace Box2

theorem minMaxDist2_eq (a : Box2) (p : V2) :
    a.minMaxDist2 p = ⟨near1 (a.lo.x - p.x) (a.hi.x - p.x) + near1 (a.lo.y - p.y) (a.hi.y - p.y),
      far1 (a.lo.x - p.x) (a.hi.x - p.x) + far1 (a.lo.y - p.y) (a.hi.y - p.y)⟩ := by
  unfold minMaxDist2
  simp only [translate, vertices, V2.add, V2.scale, List.map, V2.norm2, List.tail, List.head!, List.foldl,
    neg_one_mul, ← sub_eq_add_neg]
  generalize a.lo.x - p.x = lx
  generalize a.lo.y - p.y = ly
  generalize a.hi.x - p.x = hx
  generalize a.hi.y - p.y = hy
  rw [min4 (lx * lx) (hx * hx) (ly * ly) (hy * hy), max_eq_right (a := (0 : ℝ))
    (by nlinarith [mul_self_nonneg lx, mul_self_nonneg ly]), max4]
  ext
  · simp only [min_abs_sq]
    unfold near1
    have hn1 : 0 ≤ min (lx * lx) (hx * hx) := le_min (mul_self_nonneg _) (mul_self_nonneg _)
    have hn2 : 0 ≤ min (ly * ly) (hy * hy) := le_min (mul_self_nonneg _) (mul_self_nonneg _)
    by_cases h1 : lx < 0 ∧ hx > 0 <;> by_cases h2 : ly < 0 ∧ hy > 0
    · simp [h1, h2]
    · rw [if_neg (by tauto), if_neg h2, if_pos h1, if_pos h1, if_neg h2, zero_add]
      exact min_eq_right (by linarith)
    · rw [if_neg (by tauto), if_pos h2, if_neg h1, if_neg h1, if_pos h2, add_zero]
      exact min_eq_right (by linarith)
    · rw [if_neg (by tauto), if_neg h2, if_neg h1, if_neg h1, if_neg h2]
  · simp only [far1]

end Box2

namespace Box3

theorem max8 (a b c d e f : ℝ) :
    max (max (max (max (max (max (max (a + c + e) (a + c + f)) (a + d + e)) (a + d + f)) (b + c + e))
      (b + c + f)) (b + d + e)) (b + d + f) = max a b + max c d + max e f := by
  apply le_antisymm
  · simp only [max_le_iff]
    refine ⟨⟨⟨⟨⟨⟨⟨?_, ?_⟩, ?_⟩, ?_⟩, ?_⟩, ?_⟩, ?_⟩, ?_⟩ <;>
      linarith [le_max_left a b, le_max_right a b, le_max_left c d, le_max_right c d, le_max_left e f,
        le_max_right e f]
  · simp only [le_max_iff]
    rcases le_total a b with h1 | h1 <;> rcases le_total c d with h2 | h2 <;>
      rcases le_total e f with h3 | h3 <;>
      simp only [max_eq_left, max_eq_right, h1, h2, h3, le_refl, true_or, or_true]

theorem min8 (a b c d e f : ℝ) :
    min (min (min (min (min (min (min (a + c + e) (a + c + f)) (a + d + e)) (a + d + f)) (b + c + e))
      (b + c + f)) (b + d + e)) (b + d + f) = min a b + min c d + min e f := by
  apply le_antisymm
  · simp only [min_le_iff]
    rcases le_total a b with h1 | h1 <;> rcases le_total c d with h2 | h2 <;>
      rcases le_total e f with h3 | h3 <;>
      simp only [min_eq_left, min_eq_right, h1, h2, h3, le_refl, true_or, or_true]
  · simp only [le_min_iff]
    refine ⟨⟨⟨⟨⟨⟨⟨?_, ?_⟩, ?_⟩, ?_⟩, ?_⟩, ?_⟩, ?_⟩, ?_⟩ <;>
      linarith [min_le_left a b, min_le_right a b, min_le_left c d, min_le_right c d, min_le_left e f,
        min_le_right e f]

/-- What the 3D `MinMaxDist2` computes: the maximum is right; the minimum is right unless the point is
strictly within the box's extent along exactly one axis. -/
theorem minMaxDist2_eq (a : Box3) (p : V3) :
    (a.minMaxDist2 p).2 = far1 (a.lo.x - p.x) (a.hi.x - p.x) + far1 (a.lo.y - p.y) (a.hi.y - p.y)
      + far1 (a.lo.z - p.z) (a.hi.z - p.z) ∧
    near1 (a.lo.x - p.x) (a.hi.x - p.x) + near1 (a.lo.y - p.y) (a.hi.y - p.y)
      + near1 (a.lo.z - p.z) (a.hi.z - p.z) ≤ (a.minMaxDist2 p).1 ∧
    (¬ ((a.lo.x < p.x ∧ p.x < a.hi.x) ∧ ¬ (a.lo.y < p.y ∧ p.y < a.hi.y) ∧ ¬ (a.lo.z < p.z ∧ p.z < a.hi.z)) →
     ¬ (¬ (a.lo.x < p.x ∧ p.x < a.hi.x) ∧ (a.lo.y < p.y ∧ p.y < a.hi.y) ∧ ¬ (a.lo.z < p.z ∧ p.z < a.hi.z)) →
     ¬ (¬ (a.lo.x < p.x ∧ p.x < a.hi.x) ∧ ¬ (a.lo.y < p.y ∧ p.y < a.hi.y) ∧ (a.lo.z < p.z ∧ p.z < a.hi.z)) →
     (a.minMaxDist2 p).1 = near1 (a.lo.x - p.x) (a.hi.x - p.x) + near1 (a.lo.y - p.y) (a.hi.y - p.y)
      + near1 (a.lo.z - p.z) (a.hi.z - p.z)) := by
  have ex : (a.lo.x < p.x ∧ p.x < a.hi.x) = (a.lo.x - p.x < 0 ∧ a.hi.x - p.x > 0) := by
    simp [sub_neg, sub_pos]
  have ey : (a.lo.y < p.y ∧ p.y < a.hi.y) = (a.lo.y - p.y < 0 ∧ a.hi.y - p.y > 0) := by
    simp [sub_neg, sub_pos]
  have ez : (a.lo.z < p.z ∧ p.z < a.hi.z) = (a.lo.z - p.z < 0 ∧ a.hi.z - p.z > 0) := by
    simp [sub_neg, sub_pos]
  rw [ex, ey, ez]
  unfold minMaxDist2
  simp only [translate, vertices, V3.add, V3.scale, List.map, V3.norm2, List.tail, List.head!, List.foldl,
    neg_one_mul, ← sub_eq_add_neg]
  generalize a.lo.x - p.x = lx
  generalize a.lo.y - p.y = ly
  generalize a.hi.x - p.x = hx
  generalize a.hi.y - p.y = hy
  generalize a.lo.z - p.z = lz
  generalize a.hi.z - p.z = hz
  rw [min8 (lx * lx) (hx * hx) (ly * ly) (hy * hy) (lz * lz) (hz * hz), max_eq_right (a := (0 : ℝ))
    (by nlinarith [mul_self_nonneg lx, mul_self_nonneg ly, mul_self_nonneg lz]), max8]
  simp only [min_abs_sq]
  unfold near1 far1
  have hn1 : 0 ≤ min (lx * lx) (hx * hx) := le_min (mul_self_nonneg _) (mul_self_nonneg _)
  have hn2 : 0 ≤ min (ly * ly) (hy * hy) := le_min (mul_self_nonneg _) (mul_self_nonneg _)
  have hn3 : 0 ≤ min (lz * lz) (hz * hz) := le_min (mul_self_nonneg _) (mul_self_nonneg _)
  refine ⟨rfl, ?_⟩
  generalize min (lx * lx) (hx * hx) = mx at *
  generalize min (ly * ly) (hy * hy) = my at *
  generalize min (lz * lz) (hz * hz) = mz at *
  by_cases h1 : lx < 0 ∧ hx > 0 <;> by_cases h2 : ly < 0 ∧ hy > 0 <;> by_cases h3 : lz < 0 ∧ hz > 0 <;>
    simp only [h1, h2, h3, true_and, and_true, false_and, and_false, if_true, if_false, not_true, not_false_iff]
  all_goals refine ⟨?_, ?_⟩
  all_goals first
    | linarith
    | (rw [min_eq_right (by linarith)]; linarith)
    | (intro _ _ _; linarith)
    | (intro _ _ _; rw [min_eq_right (by linarith)]; linarith)
    | simp

end Box3

end Sdf
