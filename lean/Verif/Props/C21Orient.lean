import Verif.Lemmas.Matrix

/-!
C21: the matrix used by `Orient3D` turns the base direction onto the requested direction by a proper rotation.

The full statement, for all pairs of non-zero vectors, would be

  `∀ a b, a ≠ 0 → b ≠ 0 → (M44.rotateToVec a b).IsRotation ∧ (M44.rotateToVec a b).mulPosition (unit a) = unit b`

It is false of the code: `C21_opposite_not_rotation` (opposite directions give the point reflection `-I`) and
`C21_tiny_not_mapped` (a vector with components below 1e-12 is treated as zero and not turned).
`C21_orient_partial` proves it for all other pairs: exactly when the unit vectors differ by more than 1e-12 in
some component, within 1e-12 otherwise.
-/

namespace Sdf

theorem M44.identity_isRotation : M44.identity.IsRotation := by
  refine ⟨⟨rfl, rfl, rfl, rfl⟩, rfl, rfl, rfl, ?_, ?_⟩
  · rw [M44.orth_iff]; simp [M44.identity]
  · rw [Matrix.det_fin_three]; simp [M44.identity, M44.linear]

/-- Rodrigues' formula for two unit vectors that are not opposite. -/
theorem M44.align_aux {a b : V3} (ha : a.x * a.x + a.y * a.y + a.z * a.z = 1)
    (hb : b.x * b.x + b.y * b.y + b.z * b.z = 1) (h : 1 + V3.dot a b ≠ 0) (M : M44)
    (hM : M = (let v := V3.cross a b
      let k := 1 / (1 + V3.dot a b)
      ⟨0 + 1 + k * (-v.z * v.z - v.y * v.y), -v.z + 0 + k * (v.y * v.x), v.y + 0 + k * (v.z * v.x), 0,
       v.z + 0 + k * (v.x * v.y), 0 + 1 + k * (-v.z * v.z - v.x * v.x), -v.x + 0 + k * (v.z * v.y), 0,
       -v.y + 0 + k * (v.x * v.z), v.x + 0 + k * (v.y * v.z), 0 + 1 + k * (-v.y * v.y - v.x * v.x), 0,
       0, 0, 0, 1⟩)) :
    M.IsRotation ∧ M.mulPosition a = b := by
  subst hM
  have hk : (1 / (1 + V3.dot a b)) * (1 + V3.dot a b) = 1 := by field_simp
  have hv : (V3.cross a b).x * (V3.cross a b).x + (V3.cross a b).y * (V3.cross a b).y
      + (V3.cross a b).z * (V3.cross a b).z = 1 - V3.dot a b * V3.dot a b := by
    have e : (1 : ℝ) = (a.x * a.x + a.y * a.y + a.z * a.z) * (b.x * b.x + b.y * b.y + b.z * b.z) := by
      rw [ha, hb]; norm_num
    rw [e]; simp only [V3.cross, V3.dot]; ring
  -- k² (1 - c²) = 2k - 1 ... with k = 1/(1+c): k (1 - c) = 2k - 1
  have hkc : (1 / (1 + V3.dot a b)) * (1 - V3.dot a b * V3.dot a b) = 1 - V3.dot a b := by
    have : 1 - V3.dot a b * V3.dot a b = (1 + V3.dot a b) * (1 - V3.dot a b) := by ring
    rw [this]; linear_combination (1 - V3.dot a b) * hk
  have hkn : ∀ k c : ℝ, k * (1 + c) = 1 → k * (1 - c * c) = 1 - c → k * k * (1 - c * c) = 2 * k - 1 := by
    intro k c h1 h2
    linear_combination k * h2 - h1
  have hq := hkn _ _ hk hkc
  generalize hkk : 1 / (1 + V3.dot a b) = k at hk hkc hq
  refine ⟨⟨⟨rfl, rfl, rfl, rfl⟩, rfl, rfl, rfl, ?_, ?_⟩, ?_⟩
  · rw [M44.orth_iff]
    dsimp only
    rw [← hv] at hq
    generalize V3.cross a b = v at hq
    refine ⟨?_, ?_, ?_, ?_, ?_, ?_⟩
    · linear_combination (v.z ^ 2 + v.y ^ 2) * hq
    · linear_combination (v.z ^ 2 + v.x ^ 2) * hq
    · linear_combination (v.y ^ 2 + v.x ^ 2) * hq
    · linear_combination (-v.x * v.y) * hq
    · linear_combination (-v.x * v.z) * hq
    · linear_combination (-v.y * v.z) * hq
  · rw [Matrix.det_fin_three]
    simp only [M44.linear]
    rw [← hv] at hq
    generalize V3.cross a b = v at hq
    simp
    linear_combination (v.x ^ 2 + v.y ^ 2 + v.z ^ 2) * hq
  · have hc : V3.dot a b = a.x * b.x + a.y * b.y + a.z * b.z := rfl
    have e1x : (V3.cross a b).y * a.z - (V3.cross a b).z * a.y = b.x - V3.dot a b * a.x := by
      simp only [V3.cross]; linear_combination b.x * ha + a.x * hc
    have e1y : (V3.cross a b).z * a.x - (V3.cross a b).x * a.z = b.y - V3.dot a b * a.y := by
      simp only [V3.cross]; linear_combination b.y * ha + a.y * hc
    have e1z : (V3.cross a b).x * a.y - (V3.cross a b).y * a.x = b.z - V3.dot a b * a.z := by
      simp only [V3.cross]; linear_combination b.z * ha + a.z * hc
    have e2x : (V3.cross a b).y * b.z - (V3.cross a b).z * b.y = V3.dot a b * b.x - a.x := by
      simp only [V3.cross]; linear_combination -b.x * hc - a.x * hb
    have e2y : (V3.cross a b).z * b.x - (V3.cross a b).x * b.z = V3.dot a b * b.y - a.y := by
      simp only [V3.cross]; linear_combination -b.y * hc - a.y * hb
    have e2z : (V3.cross a b).x * b.y - (V3.cross a b).y * b.x = V3.dot a b * b.z - a.z := by
      simp only [V3.cross]; linear_combination -b.z * hc - a.z * hb
    generalize V3.dot a b = c at *
    generalize V3.cross a b = v at *
    ext <;> simp only [M44.mulPosition]
    · linear_combination e1x + k * v.y * e1z - k * v.z * e1y + k * e2x - k * c * e1x - a.x * hkc
    · linear_combination e1y + k * v.z * e1x - k * v.x * e1z + k * e2y - k * c * e1y - a.y * hkc
    · linear_combination e1z + k * v.x * e1y - k * v.y * e1x + k * e2z - k * c * e1z - a.z * hkc

/-- Two unit vectors whose dot product is `-1` are opposite. -/
theorem V3.opposite_of_dot {a b : V3} (ha : a.x * a.x + a.y * a.y + a.z * a.z = 1)
    (hb : b.x * b.x + b.y * b.y + b.z * b.z = 1) (h : 1 + V3.dot a b = 0) : V3.scale (-1) a = b := by
  have hd : a.x * b.x + a.y * b.y + a.z * b.z = -1 := by have := h; unfold V3.dot at this; linarith
  have e : (a.x + b.x) ^ 2 + (a.y + b.y) ^ 2 + (a.z + b.z) ^ 2 = 0 := by
    linear_combination ha + hb + 2 * hd
  have hx : a.x + b.x = 0 := by nlinarith [sq_nonneg (a.x + b.x), sq_nonneg (a.y + b.y), sq_nonneg (a.z + b.z)]
  have hy : a.y + b.y = 0 := by nlinarith [sq_nonneg (a.x + b.x), sq_nonneg (a.y + b.y), sq_nonneg (a.z + b.z)]
  have hz : a.z + b.z = 0 := by nlinarith [sq_nonneg (a.x + b.x), sq_nonneg (a.y + b.y), sq_nonneg (a.z + b.z)]
  ext <;> simp only [V3.scale] <;> linarith

theorem V3.ne_zero_of_not_within {a : V3} (h : ¬ V3.EqualWithin a ⟨0, 0, 0⟩ epsilon) : a ≠ ⟨0, 0, 0⟩ := by
  rintro rfl
  apply h
  norm_num [V3.EqualWithin, epsilon]

theorem V3.unit_sq {a : V3} (h : a ≠ ⟨0, 0, 0⟩) :
    (V3.unit a).x * (V3.unit a).x + (V3.unit a).y * (V3.unit a).y + (V3.unit a).z * (V3.unit a).z = 1 := by
  rw [← V3.norm_sq, V3.norm_unit h]; norm_num

/-- For every pair of vectors that have a component above 1e-12 and are not within 1e-12 of being opposite,
the matrix is a proper rotation taking the base direction to within 1e-12 (per component) of the requested
direction, and exactly to it unless the two directions already agree to within 1e-12. -/
theorem C21_orient_partial (a b : V3) (ha : ¬ V3.EqualWithin a ⟨0, 0, 0⟩ epsilon)
    (hb : ¬ V3.EqualWithin b ⟨0, 0, 0⟩ epsilon)
    (hopp : ¬ V3.EqualWithin (V3.scale (-1) (V3.unit a)) (V3.unit b) epsilon) :
    (M44.rotateToVec a b).IsRotation ∧
    V3.EqualWithin ((M44.rotateToVec a b).mulPosition (V3.unit a)) (V3.unit b) epsilon ∧
    (¬ V3.EqualWithin (V3.unit a) (V3.unit b) epsilon →
      (M44.rotateToVec a b).mulPosition (V3.unit a) = V3.unit b) ∧
    (V3.unit a = V3.unit b → (M44.rotateToVec a b).mulPosition (V3.unit a) = V3.unit b) := by
  have ua := V3.unit_sq (V3.ne_zero_of_not_within ha)
  have ub := V3.unit_sq (V3.ne_zero_of_not_within hb)
  have refl : ∀ v : V3, V3.EqualWithin v v epsilon := by
    intro v; norm_num [V3.EqualWithin, epsilon]
  unfold M44.rotateToVec
  rw [if_neg (by tauto)]
  dsimp only
  by_cases hs : V3.EqualWithin (V3.unit a) (V3.unit b) epsilon
  · rw [if_pos hs]
    exact ⟨M44.identity_isRotation, by rwa [M44.identity_mulPosition], fun h => absurd hs h,
      fun h => by rw [M44.identity_mulPosition, h]⟩
  · rw [if_neg hs, if_neg hopp]
    have hd : 1 + V3.dot (V3.unit a) (V3.unit b) ≠ 0 := by
      intro h
      apply hopp
      rw [V3.opposite_of_dot ua ub h]
      exact refl _
    have := M44.align_aux ua ub hd _ rfl
    exact ⟨this.1, by rw [this.2]; exact refl _, fun _ => this.2, fun _ => this.2⟩

/-- For opposite directions the result does send the base direction to the requested one, but it is the point
reflection `-I`, whose determinant is `-1`: a mirrored copy of the shape, not a rotated one. -/
theorem C21_opposite_not_rotation :
    ∃ a b : V3, a ≠ ⟨0, 0, 0⟩ ∧ b ≠ ⟨0, 0, 0⟩ ∧ (M44.rotateToVec a b).mulPosition (V3.unit a) = V3.unit b ∧
      (M44.rotateToVec a b).linear.det = -1 ∧ ¬ (M44.rotateToVec a b).IsRotation := by
  have n1 : V3.norm ⟨0, 0, 1⟩ = 1 := V3.norm_eq_of (by norm_num) (by norm_num)
  have n2 : V3.norm ⟨0, 0, -1⟩ = 1 := V3.norm_eq_of (by norm_num) (by norm_num)
  have u1 : V3.unit ⟨0, 0, 1⟩ = ⟨0, 0, 1⟩ := by ext <;> simp [V3.unit, V3.scale, n1]
  have u2 : V3.unit ⟨0, 0, -1⟩ = ⟨0, 0, -1⟩ := by ext <;> simp [V3.unit, V3.scale, n2]
  have e : M44.rotateToVec ⟨0, 0, 1⟩ ⟨0, 0, -1⟩ = ⟨-1, 0, 0, 0, 0, -1, 0, 0, 0, 0, -1, 0, 0, 0, 0, 1⟩ := by
    unfold M44.rotateToVec
    rw [if_neg (by norm_num [V3.EqualWithin, epsilon])]
    dsimp only
    rw [u1, u2, if_neg (by norm_num [V3.EqualWithin, epsilon]),
      if_pos (by norm_num [V3.EqualWithin, epsilon, V3.scale])]
  have hdet : (M44.rotateToVec ⟨0, 0, 1⟩ ⟨0, 0, -1⟩).linear.det = -1 := by
    rw [e, Matrix.det_fin_three]; simp [M44.linear]
  refine ⟨⟨0, 0, 1⟩, ⟨0, 0, -1⟩, ?_, ?_, ?_, hdet, ?_⟩
  · intro h; have := congrArg V3.z h; norm_num at this
  · intro h; have := congrArg V3.z h; norm_num at this
  · rw [e, u1, u2]; ext <;> norm_num [M44.mulPosition]
  · intro h
    have := h.2.2.2.2.2
    rw [hdet] at this; norm_num at this

/-- A non-zero vector with all components at most 1e-12 is not turned at all. -/
theorem C21_tiny_not_mapped :
    ∃ a b : V3, a ≠ ⟨0, 0, 0⟩ ∧ b ≠ ⟨0, 0, 0⟩ ∧ (M44.rotateToVec a b).mulPosition (V3.unit a) ≠ V3.unit b ∧
      ¬ V3.EqualWithin ((M44.rotateToVec a b).mulPosition (V3.unit a)) (V3.unit b) 0.5 := by
  have n1 : V3.norm ⟨0, 0, 1e-13⟩ = 1e-13 := V3.norm_eq_of (by norm_num) (by norm_num)
  have n2 : V3.norm ⟨1, 0, 0⟩ = 1 := V3.norm_eq_of (by norm_num) (by norm_num)
  have u1 : V3.unit ⟨0, 0, 1e-13⟩ = ⟨0, 0, 1⟩ := by ext <;> simp only [V3.unit, V3.scale, n1] <;> norm_num
  have u2 : V3.unit ⟨1, 0, 0⟩ = ⟨1, 0, 0⟩ := by ext <;> simp [V3.unit, V3.scale, n2]
  have e : M44.rotateToVec ⟨0, 0, 1e-13⟩ ⟨1, 0, 0⟩ = M44.identity := by
    unfold M44.rotateToVec
    rw [if_pos (Or.inl (by norm_num [V3.EqualWithin, epsilon, abs_of_pos]))]
  refine ⟨⟨0, 0, 1e-13⟩, ⟨1, 0, 0⟩, ?_, ?_, ?_, ?_⟩
  · intro h; have := congrArg V3.z h; norm_num at this
  · intro h; have := congrArg V3.x h; norm_num at this
  · rw [e, M44.identity_mulPosition, u1, u2]
    intro h; have := congrArg V3.z h; norm_num at this
  · rw [e, M44.identity_mulPosition, u1, u2]
    norm_num [V3.EqualWithin]

/-- The hypotheses of `C21_orient_partial` are met by the x and y axes, and the result is not the identity. -/
example : ¬ V3.EqualWithin ⟨1, 0, 0⟩ ⟨0, 0, 0⟩ epsilon ∧ ¬ V3.EqualWithin ⟨0, 1, 0⟩ ⟨0, 0, 0⟩ epsilon ∧
    ¬ V3.EqualWithin (V3.scale (-1) (V3.unit ⟨1, 0, 0⟩)) (V3.unit ⟨0, 1, 0⟩) epsilon ∧
    (M44.rotateToVec ⟨1, 0, 0⟩ ⟨0, 1, 0⟩).mulPosition ⟨1, 0, 0⟩ = ⟨0, 1, 0⟩ := by
  have n1 : V3.norm ⟨0, 1, 0⟩ = 1 := V3.norm_eq_of (by norm_num) (by norm_num)
  have n2 : V3.norm ⟨1, 0, 0⟩ = 1 := V3.norm_eq_of (by norm_num) (by norm_num)
  have u1 : V3.unit ⟨0, 1, 0⟩ = ⟨0, 1, 0⟩ := by ext <;> simp [V3.unit, V3.scale, n1]
  have u2 : V3.unit ⟨1, 0, 0⟩ = ⟨1, 0, 0⟩ := by ext <;> simp [V3.unit, V3.scale, n2]
  have a1 : ¬ V3.EqualWithin ⟨1, 0, 0⟩ ⟨0, 0, 0⟩ epsilon := by norm_num [V3.EqualWithin, epsilon]
  have a2 : ¬ V3.EqualWithin ⟨0, 1, 0⟩ ⟨0, 0, 0⟩ epsilon := by norm_num [V3.EqualWithin, epsilon]
  have a3 : ¬ V3.EqualWithin (V3.scale (-1) (V3.unit ⟨1, 0, 0⟩)) (V3.unit ⟨0, 1, 0⟩) epsilon := by
    rw [u1, u2]; norm_num [V3.EqualWithin, epsilon, V3.scale]
  refine ⟨a1, a2, a3, ?_⟩
  have := (C21_orient_partial _ _ a1 a2 a3).2.2.1 (by rw [u1, u2]; norm_num [V3.EqualWithin, epsilon])
  rwa [u1, u2] at this

end Sdf
