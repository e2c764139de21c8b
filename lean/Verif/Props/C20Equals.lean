import Verif.Model.Numeric
import Verif.Model.Matrix

/-! C20: matrices compared within a tolerance. -/

namespace Sdf

theorem near_symm {x y t : ℝ} (h : |x - y| < t) : |y - x| < t := by rwa [abs_sub_comm]

theorem near_trans {x y z t u : ℝ} (h : |x - y| < t) (h' : |y - z| < u) : |x - z| < t + u := by
  have := abs_sub_le x y z
  linarith

/-- A matrix equals itself exactly for positive tolerances. -/
theorem C20_equals_self (t : ℝ) : (∀ a : M44, a.equals a t ↔ 0 < t) ∧ (∀ a : M33, a.equals a t ↔ 0 < t) ∧ ∀ a : M22, a.equals a t ↔ 0 < t := by
  refine ⟨fun a => ?_, fun a => ?_, fun a => ?_⟩
  · simp only [M44.equals, sub_self, abs_zero, and_self]
  · simp only [M33.equals, sub_self, abs_zero, and_self]
  · simp only [M22.equals, sub_self, abs_zero, and_self]

/-- The comparison does not depend on the order of its arguments. -/
theorem C20_equals_symm (t : ℝ) : (∀ a b : M44, a.equals b t ↔ b.equals a t) ∧ (∀ a b : M33, a.equals b t ↔ b.equals a t) ∧
    ∀ a b : M22, a.equals b t ↔ b.equals a t := by
  refine ⟨fun a b => ?_, fun a b => ?_, fun a b => ?_⟩
  · unfold M44.equals; simp only [abs_sub_comm]
  · unfold M33.equals; simp only [abs_sub_comm]
  · unfold M22.equals; simp only [abs_sub_comm]

/-- Tolerances add up along a chain. -/
theorem C20_equals_trans (t u : ℝ) : (∀ a b c : M44, a.equals b t → b.equals c u → a.equals c (t + u)) ∧
    (∀ a b c : M33, a.equals b t → b.equals c u → a.equals c (t + u)) ∧ ∀ a b c : M22, a.equals b t → b.equals c u → a.equals c (t + u) := by
  refine ⟨?_, ?_, ?_⟩
  · rintro a b c ⟨h1, h2, h3, h4, h5, h6, h7, h8, h9, h10, h11, h12, h13, h14, h15, h16⟩
      ⟨g1, g2, g3, g4, g5, g6, g7, g8, g9, g10, g11, g12, g13, g14, g15, g16⟩
    exact ⟨near_trans h1 g1, near_trans h2 g2, near_trans h3 g3, near_trans h4 g4, near_trans h5 g5, near_trans h6 g6, near_trans h7 g7,
      near_trans h8 g8, near_trans h9 g9, near_trans h10 g10, near_trans h11 g11, near_trans h12 g12, near_trans h13 g13, near_trans h14 g14,
      near_trans h15 g15, near_trans h16 g16⟩
  · rintro a b c ⟨h1, h2, h3, h4, h5, h6, h7, h8, h9⟩ ⟨g1, g2, g3, g4, g5, g6, g7, g8, g9⟩
    exact ⟨near_trans h1 g1, near_trans h2 g2, near_trans h3 g3, near_trans h4 g4, near_trans h5 g5, near_trans h6 g6, near_trans h7 g7,
      near_trans h8 g8, near_trans h9 g9⟩
  · rintro a b c ⟨h1, h2, h3, h4⟩ ⟨g1, g2, g3, g4⟩
    exact ⟨near_trans h1 g1, near_trans h2 g2, near_trans h3 g3, near_trans h4 g4⟩

/-- Matrices equal within every positive tolerance are the same. -/
theorem C20_equals_all : (∀ a b : M44, (∀ t > 0, a.equals b t) ↔ a = b) ∧ (∀ a b : M33, (∀ t > 0, a.equals b t) ↔ a = b) ∧
    ∀ a b : M22, (∀ t > 0, a.equals b t) ↔ a = b := by
  have key : ∀ x y : ℝ, (∀ t > 0, |x - y| < t) → x = y := fun x y h => by
    by_contra hne
    exact lt_irrefl _ (h _ (abs_pos.mpr (sub_ne_zero.mpr hne)))
  refine ⟨fun a b => ⟨fun h => ?_, ?_⟩, fun a b => ⟨fun h => ?_, ?_⟩, fun a b => ⟨fun h => ?_, ?_⟩⟩
  · cases a; cases b
    simp only [M44.mk.injEq]
    unfold M44.equals at h
    and_intros <;> refine key _ _ fun t ht => ?_ <;> have := h t ht <;> tauto
  · rintro rfl t ht
    exact ((C20_equals_self t).1 a).mpr ht
  · cases a; cases b
    simp only [M33.mk.injEq]
    unfold M33.equals at h
    and_intros <;> refine key _ _ fun t ht => ?_ <;> have := h t ht <;> tauto
  · rintro rfl t ht
    exact ((C20_equals_self t).2.1 a).mpr ht
  · cases a; cases b
    simp only [M22.mk.injEq]
    unfold M22.equals at h
    and_intros <;> refine key _ _ fun t ht => ?_ <;> have := h t ht <;> tauto
  · rintro rfl t ht
    exact ((C20_equals_self t).2.2 a).mpr ht

theorem near_row {a b c d a' b' c' d' x y z t : ℝ} (h1 : |a - a'| < t) (h2 : |b - b'| < t) (h3 : |c - c'| < t) (h4 : |d - d'| < t) :
    |(a * x + b * y + c * z + d) - (a' * x + b' * y + c' * z + d')| ≤ t * (|x| + |y| + |z| + 1) := by
  have e : (a * x + b * y + c * z + d) - (a' * x + b' * y + c' * z + d') = (a - a') * x + (b - b') * y + (c - c') * z + (d - d') := by ring
  rw [e]
  have m1 : |(a - a') * x| ≤ t * |x| := by rw [abs_mul]; exact mul_le_mul_of_nonneg_right h1.le (abs_nonneg _)
  have m2 : |(b - b') * y| ≤ t * |y| := by rw [abs_mul]; exact mul_le_mul_of_nonneg_right h2.le (abs_nonneg _)
  have m3 : |(c - c') * z| ≤ t * |z| := by rw [abs_mul]; exact mul_le_mul_of_nonneg_right h3.le (abs_nonneg _)
  have a1 := abs_add_le ((a - a') * x + (b - b') * y + (c - c') * z) (d - d')
  have a2 := abs_add_le ((a - a') * x + (b - b') * y) ((c - c') * z)
  have a3 := abs_add_le ((a - a') * x) ((b - b') * y)
  linarith

/-- Matrices equal within a tolerance move every point to nearly the same place. -/
theorem C20_equals_position (t : ℝ) :
    (∀ (a b : M44) (p : V3), a.equals b t → V3.EqualWithin (a.mulPosition p) (b.mulPosition p) (t * (|p.x| + |p.y| + |p.z| + 1))) ∧
    (∀ (a b : M33) (p : V2), a.equals b t → V2.EqualWithin (a.mulPosition p) (b.mulPosition p) (t * (|p.x| + |p.y| + 1))) ∧
    ∀ (a b : M22) (p : V2), a.equals b t → V2.EqualWithin (a.mulPosition p) (b.mulPosition p) (t * (|p.x| + |p.y|)) := by
  refine ⟨?_, ?_, ?_⟩
  · rintro a b p ⟨h1, h2, h3, h4, h5, h6, h7, h8, h9, h10, h11, h12, h13, h14, h15, h16⟩
    exact ⟨near_row h1 h2 h3 h4, near_row h5 h6 h7 h8, near_row h9 h10 h11 h12⟩
  · rintro a b p ⟨h1, h2, h3, h4, h5, h6, h7, h8, h9⟩
    have ht : 0 < t := lt_of_le_of_lt (abs_nonneg _) h1
    have k1 := near_row (x := p.x) (y := p.y) (z := 0) h1 h2 (a := a.x00) (b := a.x01) (c := 0) (c' := 0) (by simpa using ht) h3
    have k2 := near_row (x := p.x) (y := p.y) (z := 0) h4 h5 (a := a.x10) (b := a.x11) (c := 0) (c' := 0) (by simpa using ht) h6
    simp only [mul_zero, add_zero, abs_zero] at k1 k2
    exact ⟨k1, k2⟩
  · rintro a b p ⟨h1, h2, h3, h4⟩
    have key : ∀ {a b a' b' x y : ℝ}, |a - a'| < t → |b - b'| < t → |(a * x + b * y) - (a' * x + b' * y)| ≤ t * (|x| + |y|) := by
      intro a b a' b' x y h1 h2
      have e : (a * x + b * y) - (a' * x + b' * y) = (a - a') * x + (b - b') * y := by ring
      rw [e]
      have m1 : |(a - a') * x| ≤ t * |x| := by rw [abs_mul]; exact mul_le_mul_of_nonneg_right h1.le (abs_nonneg _)
      have m2 : |(b - b') * y| ≤ t * |y| := by rw [abs_mul]; exact mul_le_mul_of_nonneg_right h2.le (abs_nonneg _)
      have a3 := abs_add_le ((a - a') * x) ((b - b') * y)
      linarith
    exact ⟨key h1 h2, key h3 h4⟩

/-- Boxes compared within a tolerance: here a box equals itself even for tolerance zero. -/
theorem C20_box_equals (t u : ℝ) : (∀ a : Box3, a.equals a t ↔ 0 ≤ t) ∧ (∀ a : Box2, a.equals a t ↔ 0 ≤ t) ∧
    (∀ a b : Box3, a.equals b t ↔ b.equals a t) ∧ (∀ a b : Box2, a.equals b t ↔ b.equals a t) ∧ (∀ a b : Box3, a.equals b 0 ↔ a = b) ∧
    (∀ a b : Box2, a.equals b 0 ↔ a = b) ∧ (∀ a b c : Box3, a.equals b t → b.equals c u → a.equals c (t + u)) ∧
    ∀ a b c : Box2, a.equals b t → b.equals c u → a.equals c (t + u) := by
  have tr : ∀ {x y z : ℝ}, |x - y| ≤ t → |y - z| ≤ u → |x - z| ≤ t + u := fun {x y z} h h' => by
    have := abs_sub_le x y z
    linarith
  refine ⟨fun a => ?_, fun a => ?_, fun a b => ?_, fun a b => ?_, fun a b => ?_, fun a b => ?_, ?_, ?_⟩
  · simp only [Box3.equals, V3.EqualWithin, sub_self, abs_zero, and_self]
  · simp only [Box2.equals, V2.EqualWithin, sub_self, abs_zero, and_self]
  · unfold Box3.equals V3.EqualWithin; simp only [abs_sub_comm]
  · unfold Box2.equals V2.EqualWithin; simp only [abs_sub_comm]
  · obtain ⟨⟨x, y, z⟩, ⟨x', y', z'⟩⟩ := a
    obtain ⟨⟨u, v, w⟩, ⟨u', v', w'⟩⟩ := b
    simp only [Box3.equals, V3.EqualWithin, abs_nonpos_iff, sub_eq_zero, Box3.mk.injEq, V3.mk.injEq]
  · obtain ⟨⟨x, y⟩, ⟨x', y'⟩⟩ := a
    obtain ⟨⟨u, v⟩, ⟨u', v'⟩⟩ := b
    simp only [Box2.equals, V2.EqualWithin, abs_nonpos_iff, sub_eq_zero, Box2.mk.injEq, V2.mk.injEq]
  · rintro a b c ⟨⟨h1, h2, h3⟩, h4, h5, h6⟩ ⟨⟨g1, g2, g3⟩, g4, g5, g6⟩
    exact ⟨⟨tr h1 g1, tr h2 g2, tr h3 g3⟩, tr h4 g4, tr h5 g5, tr h6 g6⟩
  · rintro a b c ⟨⟨h1, h2⟩, h4, h5⟩ ⟨⟨g1, g2⟩, g4, g5⟩
    exact ⟨⟨tr h1 g1, tr h2 g2⟩, tr h4 g4, tr h5 g5⟩

/-- Applying a matrix to a set of points, in place, applies it to each, in order; two matrices in turn act like their product. -/
theorem C20_mulVertices (a b : M44) (a' b' : M33) (v : List V3) (w : List V2)
    (h : b.x30 = 0 ∧ b.x31 = 0 ∧ b.x32 = 0 ∧ b.x33 = 1) (h' : b'.x20 = 0 ∧ b'.x21 = 0 ∧ b'.x22 = 1) :
    (mulVertices3 v a).length = v.length ∧ (∀ i : Nat, (mulVertices3 v a)[i]? = v[i]?.map a.mulPosition) ∧
    mulVertices3 (mulVertices3 v b) a = mulVertices3 v (a.mul b) ∧ (mulVertices2 w a').length = w.length ∧
    (∀ i : Nat, (mulVertices2 w a')[i]? = w[i]?.map a'.mulPosition) ∧ mulVertices2 (mulVertices2 w b') a' = mulVertices2 w (a'.mul b') := by
  obtain ⟨h0, h1, h2, h3⟩ := h
  obtain ⟨g0, g1, g2⟩ := h'
  refine ⟨by simp [mulVertices3], fun i => by simp [mulVertices3], ?_, by simp [mulVertices2], fun i => by simp [mulVertices2], ?_⟩
  · simp only [mulVertices3, List.map_map]
    refine List.map_congr_left fun p _ => ?_
    simp only [Function.comp_apply, M44.mulPosition, M44.mul, h0, h1, h2, h3, V3.mk.injEq]
    refine ⟨?_, ?_, ?_⟩ <;> ring
  · simp only [mulVertices2, List.map_map]
    refine List.map_congr_left fun p _ => ?_
    simp only [Function.comp_apply, M33.mulPosition, M33.mul, g0, g1, g2, V2.mk.injEq]
    refine ⟨?_, ?_⟩ <;> ring

/-- Non-vacuity: two different matrices within a tenth, and a matrix with an affine last row. -/
example : (⟨1, 0, 0, 1⟩ : M22).equals ⟨1.05, 0, 0, 1⟩ 0.1 ∧ (M44.identity.x30 = 0 ∧ M44.identity.x33 = 1) := by
  refine ⟨?_, rfl, rfl⟩
  simp only [M22.equals]
  norm_num

end Sdf
