import Verif.Spec.Matrix
import Verif.Lemmas.Vec
import Mathlib.Tactic.LinearCombination

/-! Helper lemmas about matrices. -/

namespace Sdf

namespace M44

theorem toMatrix_inj {a b : M44} (h : a.toMatrix = b.toMatrix) : a = b := by
  have e := fun i j => congrFun (congrFun h i) j
  ext
  · exact e 0 0
  · exact e 0 1
  · exact e 0 2
  · exact e 0 3
  · exact e 1 0
  · exact e 1 1
  · exact e 1 2
  · exact e 1 3
  · exact e 2 0
  · exact e 2 1
  · exact e 2 2
  · exact e 2 3
  · exact e 3 0
  · exact e 3 1
  · exact e 3 2
  · exact e 3 3

theorem toMatrix_mul (a b : M44) : (a.mul b).toMatrix = a.toMatrix * b.toMatrix := by
  ext i j
  fin_cases i <;> fin_cases j <;>
    simp [toMatrix, mul, Matrix.mul_apply, Fin.sum_univ_four]

theorem toMatrix_identity : identity.toMatrix = 1 := by
  ext i j
  fin_cases i <;> fin_cases j <;> simp [toMatrix, identity]

theorem mul_inverse {a : M44} (h : a.det ≠ 0) : a.mul a.inverse = identity := by
  have hd : a.det * (1 / a.det) = 1 := by field_simp
  simp only [mul, inverse, identity]
  generalize 1 / a.det = d at hd
  unfold det at hd
  ext <;> simp only [] <;> first | linear_combination hd | ring

theorem inverse_mul {a : M44} (h : a.det ≠ 0) : a.inverse.mul a = identity := by
  have hd : a.det * (1 / a.det) = 1 := by field_simp
  simp only [mul, inverse, identity]
  generalize 1 / a.det = d at hd
  unfold det at hd
  ext <;> simp only [] <;> first | linear_combination hd | ring

theorem det_eq (a : M44) : a.det = a.toMatrix.det := by
  simp [toMatrix, Matrix.det_succ_row_zero, Fin.sum_univ_succ, det, Fin.succAbove]
  ring

theorem mulPosition_mul {a b : M44} (hb : b.Affine) (p : V3) :
    (a.mul b).mulPosition p = a.mulPosition (b.mulPosition p) := by
  obtain ⟨h0, h1, h2, h3⟩ := hb
  ext <;> simp only [mulPosition, mul, h0, h1, h2, h3] <;> ring

theorem affine_mul {a b : M44} (ha : a.Affine) (hb : b.Affine) : (a.mul b).Affine := by
  obtain ⟨h0, h1, h2, h3⟩ := hb
  obtain ⟨g0, g1, g2, g3⟩ := ha
  refine ⟨?_, ?_, ?_, ?_⟩ <;> simp [mul, h0, h1, h2, h3, g0, g1, g2, g3]

theorem affine_identity : identity.Affine := ⟨rfl, rfl, rfl, rfl⟩

theorem affine_inverse {a : M44} (ha : a.Affine) (h : a.det ≠ 0) : a.inverse.Affine := by
  have hd : a.det * (1 / a.det) = 1 := by field_simp
  obtain ⟨g0, g1, g2, g3⟩ := ha
  unfold Affine
  simp only [inverse]
  generalize 1 / a.det = d at hd
  unfold det at hd
  rw [g0, g1, g2, g3] at *
  refine ⟨?_, ?_, ?_, ?_⟩ <;> first | linear_combination hd | ring

theorem identity_mulPosition (p : V3) : identity.mulPosition p = p := by
  ext <;> simp [mulPosition, identity]

theorem mulPosition_inverse {a : M44} (ha : a.Affine) (h : a.det ≠ 0) (p : V3) :
    a.mulPosition (a.inverse.mulPosition p) = p := by
  rw [← mulPosition_mul (affine_inverse ha h), mul_inverse h, identity_mulPosition]

theorem inverse_mulPosition {a : M44} (ha : a.Affine) (h : a.det ≠ 0) (p : V3) :
    a.inverse.mulPosition (a.mulPosition p) = p := by
  rw [← mulPosition_mul ha, inverse_mul h, identity_mulPosition]

/-- Orthogonality of the linear part, as equations between entries. -/
theorem orth_iff (a : M44) : a.linear.transpose * a.linear = 1 ↔
    (a.x00 * a.x00 + a.x10 * a.x10 + a.x20 * a.x20 = 1 ∧
     a.x01 * a.x01 + a.x11 * a.x11 + a.x21 * a.x21 = 1 ∧
     a.x02 * a.x02 + a.x12 * a.x12 + a.x22 * a.x22 = 1 ∧
     a.x00 * a.x01 + a.x10 * a.x11 + a.x20 * a.x21 = 0 ∧
     a.x00 * a.x02 + a.x10 * a.x12 + a.x20 * a.x22 = 0 ∧
     a.x01 * a.x02 + a.x11 * a.x12 + a.x21 * a.x22 = 0) := by
  constructor
  · intro h
    have e := fun i j => congrFun (congrFun h i) j
    have e00 := e 0 0
    have e11 := e 1 1
    have e22 := e 2 2
    have e01 := e 0 1
    have e02 := e 0 2
    have e12 := e 1 2
    simp [linear, Matrix.mul_apply, Fin.sum_univ_three] at e00 e11 e22 e01 e02 e12
    exact ⟨e00, e11, e22, e01, e02, e12⟩
  · rintro ⟨h0, h1, h2, h3, h4, h5⟩
    ext i j
    fin_cases i <;> fin_cases j <;>
      simp [linear, Matrix.mul_apply, Fin.sum_univ_three] <;> linarith

theorem isometry_of_orth {a : M44} (h : a.linear.transpose * a.linear = 1) : a.Isometry := by
  rw [orth_iff] at h
  obtain ⟨h0, h1, h2, h3, h4, h5⟩ := h
  intro p q
  unfold V3.dist V3.norm
  congr 1
  simp only [V3.sub, mulPosition]
  generalize hx : p.x - q.x = x
  generalize hy : p.y - q.y = y
  generalize hz : p.z - q.z = z
  have ex : p.x = x + q.x := by linarith
  have ey : p.y = y + q.y := by linarith
  have ez : p.z = z + q.z := by linarith
  rw [ex, ey, ez]
  linear_combination x * x * h0 + y * y * h1 + z * z * h2 + 2 * x * y * h3 + 2 * x * z * h4
    + 2 * y * z * h5

theorem mulBox_contains (a : M44) (b : Box3) {p : V3} (hp : b.Contains p) :
    (a.mulBox b).Contains (a.mulPosition p) := by
  obtain ⟨h1, h2, h3, h4, h5, h6⟩ := hp
  have key : ∀ {c l h x : ℝ}, l ≤ x → x ≤ h → min (l * c) (h * c) ≤ c * x ∧
      c * x ≤ max (l * c) (h * c) := by
    intro c l h x hl hh
    rcases le_total 0 c with hc | hc
    · exact ⟨min_le_of_left_le (by nlinarith), le_max_of_le_right (by nlinarith)⟩
    · exact ⟨min_le_of_right_le (by nlinarith), le_max_of_le_left (by nlinarith)⟩
  have kx := fun c => key (c := c) h1 h4
  have ky := fun c => key (c := c) h2 h5
  have kz := fun c => key (c := c) h3 h6
  unfold Box3.Contains
  simp only [mulBox, V3.add, V3.minElem, V3.maxElem, V3.scale, mulPosition]
  have x0 := kx a.x00
  have x1 := kx a.x10
  have x2 := kx a.x20
  have y0 := ky a.x01
  have y1 := ky a.x11
  have y2 := ky a.x21
  have z0 := kz a.x02
  have z1 := kz a.x12
  have z2 := kz a.x22
  refine ⟨?_, ?_, ?_, ?_, ?_, ?_⟩ <;> linarith [x0.1, x0.2, x1.1, x1.2, x2.1, x2.2, y0.1, y0.2,
    y1.1, y1.2, y2.1, y2.2, z0.1, z0.2, z1.1, z1.2, z2.1, z2.2]

end M44

namespace M33

theorem toMatrix_mul (a b : M33) : (a.mul b).toMatrix = a.toMatrix * b.toMatrix := by
  ext i j
  fin_cases i <;> fin_cases j <;>
    simp [toMatrix, mul, Matrix.mul_apply, Fin.sum_univ_three]

theorem toMatrix_identity : identity.toMatrix = 1 := by
  ext i j
  fin_cases i <;> fin_cases j <;> simp [toMatrix, identity]

theorem mul_inverse {a : M33} (h : a.det ≠ 0) : a.mul a.inverse = identity := by
  have hd : a.det * (1 / a.det) = 1 := by field_simp
  simp only [mul, inverse, identity]
  generalize 1 / a.det = d at hd
  unfold det at hd
  ext <;> simp only [] <;> first | linear_combination hd | ring

theorem inverse_mul {a : M33} (h : a.det ≠ 0) : a.inverse.mul a = identity := by
  have hd : a.det * (1 / a.det) = 1 := by field_simp
  simp only [mul, inverse, identity]
  generalize 1 / a.det = d at hd
  unfold det at hd
  ext <;> simp only [] <;> first | linear_combination hd | ring

theorem det_eq (a : M33) : a.det = a.toMatrix.det := by
  simp [toMatrix, Matrix.det_succ_row_zero, Fin.sum_univ_succ, det, Fin.succAbove]
  ring

theorem mulPosition_mul {a b : M33} (hb : b.Affine) (p : V2) :
    (a.mul b).mulPosition p = a.mulPosition (b.mulPosition p) := by
  obtain ⟨h0, h1, h2⟩ := hb
  ext <;> simp only [mulPosition, mul, h0, h1, h2] <;> ring

theorem affine_mul {a b : M33} (ha : a.Affine) (hb : b.Affine) : (a.mul b).Affine := by
  obtain ⟨h0, h1, h2⟩ := hb
  obtain ⟨g0, g1, g2⟩ := ha
  refine ⟨?_, ?_, ?_⟩ <;> simp [mul, h0, h1, h2, g0, g1, g2]

theorem affine_identity : identity.Affine := ⟨rfl, rfl, rfl⟩

theorem affine_inverse {a : M33} (ha : a.Affine) (h : a.det ≠ 0) : a.inverse.Affine := by
  have hd : a.det * (1 / a.det) = 1 := by field_simp
  obtain ⟨g0, g1, g2⟩ := ha
  unfold Affine
  simp only [inverse]
  generalize 1 / a.det = d at hd
  unfold det at hd
  rw [g0, g1, g2] at *
  refine ⟨?_, ?_, ?_⟩ <;> first | linear_combination hd | ring

theorem identity_mulPosition (p : V2) : identity.mulPosition p = p := by
  ext <;> simp [mulPosition, identity]

theorem mulPosition_inverse {a : M33} (ha : a.Affine) (h : a.det ≠ 0) (p : V2) :
    a.mulPosition (a.inverse.mulPosition p) = p := by
  rw [← mulPosition_mul (affine_inverse ha h), mul_inverse h, identity_mulPosition]

theorem inverse_mulPosition {a : M33} (ha : a.Affine) (h : a.det ≠ 0) (p : V2) :
    a.inverse.mulPosition (a.mulPosition p) = p := by
  rw [← mulPosition_mul ha, inverse_mul h, identity_mulPosition]

theorem orth_iff (a : M33) : a.linear.transpose * a.linear = 1 ↔
    (a.x00 * a.x00 + a.x10 * a.x10 = 1 ∧ a.x01 * a.x01 + a.x11 * a.x11 = 1 ∧
     a.x00 * a.x01 + a.x10 * a.x11 = 0) := by
  constructor
  · intro h
    have e := fun i j => congrFun (congrFun h i) j
    have e00 := e 0 0
    have e11 := e 1 1
    have e01 := e 0 1
    simp [linear, Matrix.mul_apply, Fin.sum_univ_two] at e00 e11 e01
    exact ⟨e00, e11, e01⟩
  · rintro ⟨h0, h1, h2⟩
    ext i j
    fin_cases i <;> fin_cases j <;>
      simp [linear, Matrix.mul_apply, Fin.sum_univ_two] <;> linarith

theorem isometry_of_orth {a : M33} (h : a.linear.transpose * a.linear = 1) : a.Isometry := by
  rw [orth_iff] at h
  obtain ⟨h0, h1, h2⟩ := h
  intro p q
  unfold V2.dist V2.norm
  congr 1
  simp only [V2.sub, mulPosition]
  generalize hx : p.x - q.x = x
  generalize hy : p.y - q.y = y
  have ex : p.x = x + q.x := by linarith
  have ey : p.y = y + q.y := by linarith
  rw [ex, ey]
  linear_combination x * x * h0 + y * y * h1 + 2 * x * y * h2

theorem mulBox_contains (a : M33) (b : Box2) {p : V2} (hp : b.Contains p) :
    (a.mulBox b).Contains (a.mulPosition p) := by
  obtain ⟨h1, h2, h3, h4⟩ := hp
  have key : ∀ {c l h x : ℝ}, l ≤ x → x ≤ h → min (l * c) (h * c) ≤ c * x ∧
      c * x ≤ max (l * c) (h * c) := by
    intro c l h x hl hh
    rcases le_total 0 c with hc | hc
    · exact ⟨min_le_of_left_le (by nlinarith), le_max_of_le_right (by nlinarith)⟩
    · exact ⟨min_le_of_right_le (by nlinarith), le_max_of_le_left (by nlinarith)⟩
  have kx := fun c => key (c := c) h1 h3
  have ky := fun c => key (c := c) h2 h4
  unfold Box2.Contains
  simp only [mulBox, V2.add, V2.minElem, V2.maxElem, V2.scale, mulPosition]
  have x0 := kx a.x00
  have x1 := kx a.x10
  have y0 := ky a.x01
  have y1 := ky a.x11
  refine ⟨?_, ?_, ?_, ?_⟩ <;> linarith [x0.1, x0.2, x1.1, x1.2, y0.1, y0.2, y1.1, y1.2]

end M33

namespace M22

theorem toMatrix_mul (a b : M22) : (a.mul b).toMatrix = a.toMatrix * b.toMatrix := by
  ext i j
  fin_cases i <;> fin_cases j <;>
    simp [toMatrix, mul, Matrix.mul_apply, Fin.sum_univ_two]

theorem toMatrix_identity : identity.toMatrix = 1 := by
  ext i j
  fin_cases i <;> fin_cases j <;> simp [toMatrix, identity]

theorem mul_inverse {a : M22} (h : a.det ≠ 0) : a.mul a.inverse = identity := by
  have hd : a.det * (1 / a.det) = 1 := by field_simp
  simp only [mul, inverse, identity]
  generalize 1 / a.det = d at hd
  unfold det at hd
  ext <;> simp only [] <;> first | linear_combination hd | ring

theorem inverse_mul {a : M22} (h : a.det ≠ 0) : a.inverse.mul a = identity := by
  have hd : a.det * (1 / a.det) = 1 := by field_simp
  simp only [mul, inverse, identity]
  generalize 1 / a.det = d at hd
  unfold det at hd
  ext <;> simp only [] <;> first | linear_combination hd | ring

theorem det_eq (a : M22) : a.det = a.toMatrix.det := by
  simp [toMatrix, Matrix.det_fin_two, det]

end M22

end Sdf
