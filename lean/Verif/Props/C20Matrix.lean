import Verif.Lemmas.Matrix

/-!
C20: the matrix algebra used by transforms is correct.
-/

namespace Sdf

/-- `Determinant`, `Mul` and the identities are those of linear algebra, for all three matrix sizes. -/
theorem C20_det_mul :
    (∀ a : M44, a.det = a.toMatrix.det) ∧ (∀ a : M33, a.det = a.toMatrix.det) ∧
    (∀ a : M22, a.det = a.toMatrix.det) ∧
    (∀ a b : M44, (a.mul b).toMatrix = a.toMatrix * b.toMatrix) ∧
    (∀ a b : M33, (a.mul b).toMatrix = a.toMatrix * b.toMatrix) ∧
    (∀ a b : M22, (a.mul b).toMatrix = a.toMatrix * b.toMatrix) ∧
    M44.identity.toMatrix = 1 ∧ M33.identity.toMatrix = 1 ∧ M22.identity.toMatrix = 1 :=
  ⟨M44.det_eq, M33.det_eq, M22.det_eq, M44.toMatrix_mul, M33.toMatrix_mul, M22.toMatrix_mul,
    M44.toMatrix_identity, M33.toMatrix_identity, M22.toMatrix_identity⟩

/-- `Inverse` is a two-sided inverse whenever the determinant is not zero. -/
theorem C20_inverse :
    (∀ a : M44, a.toMatrix.det ≠ 0 →
      a.toMatrix * a.inverse.toMatrix = 1 ∧ a.inverse.toMatrix * a.toMatrix = 1) ∧
    (∀ a : M33, a.toMatrix.det ≠ 0 →
      a.toMatrix * a.inverse.toMatrix = 1 ∧ a.inverse.toMatrix * a.toMatrix = 1) ∧
    (∀ a : M22, a.toMatrix.det ≠ 0 →
      a.toMatrix * a.inverse.toMatrix = 1 ∧ a.inverse.toMatrix * a.toMatrix = 1) := by
  refine ⟨fun a h => ?_, fun a h => ?_, fun a h => ?_⟩
  · rw [← M44.det_eq] at h
    rw [← M44.toMatrix_mul, ← M44.toMatrix_mul, M44.mul_inverse h, M44.inverse_mul h]
    exact ⟨M44.toMatrix_identity, M44.toMatrix_identity⟩
  · rw [← M33.det_eq] at h
    rw [← M33.toMatrix_mul, ← M33.toMatrix_mul, M33.mul_inverse h, M33.inverse_mul h]
    exact ⟨M33.toMatrix_identity, M33.toMatrix_identity⟩
  · rw [← M22.det_eq] at h
    rw [← M22.toMatrix_mul, ← M22.toMatrix_mul, M22.mul_inverse h, M22.inverse_mul h]
    exact ⟨M22.toMatrix_identity, M22.toMatrix_identity⟩

/-- `MulPosition` of a product is the composition of the maps, when the right factor is affine (the left one
may be any matrix, its last row is not read). -/
theorem C20_mulPosition_mul :
    (∀ (a b : M44), b.Affine → ∀ p, (a.mul b).mulPosition p = a.mulPosition (b.mulPosition p)) ∧
    (∀ (a b : M33), b.Affine → ∀ p, (a.mul b).mulPosition p = a.mulPosition (b.mulPosition p)) ∧
    (∀ (a b : M22) p, (a.mul b).mulPosition p = a.mulPosition (b.mulPosition p)) := by
  refine ⟨fun a b hb p => M44.mulPosition_mul hb p, fun a b hb p => M33.mulPosition_mul hb p, ?_⟩
  intro a b p
  ext <;> simp only [M22.mulPosition, M22.mul] <;> ring

/-- For an affine matrix with non-zero determinant, `Inverse` undoes the map in both orders. -/
theorem C20_inverse_mulPosition :
    (∀ a : M44, a.Affine → a.toMatrix.det ≠ 0 → ∀ p,
      a.mulPosition (a.inverse.mulPosition p) = p ∧ a.inverse.mulPosition (a.mulPosition p) = p) ∧
    (∀ a : M33, a.Affine → a.toMatrix.det ≠ 0 → ∀ p,
      a.mulPosition (a.inverse.mulPosition p) = p ∧ a.inverse.mulPosition (a.mulPosition p) = p) := by
  refine ⟨fun a ha h p => ?_, fun a ha h p => ?_⟩
  · rw [← M44.det_eq] at h
    exact ⟨M44.mulPosition_inverse ha h p, M44.inverse_mulPosition ha h p⟩
  · rw [← M33.det_eq] at h
    exact ⟨M33.mulPosition_inverse ha h p, M33.inverse_mulPosition ha h p⟩

/-- The translation and scaling constructors move a point as documented. -/
theorem C20_translate_scale :
    (∀ v p, (M44.translate v).mulPosition p = V3.add p v) ∧
    (∀ v p, (M33.translate v).mulPosition p = V2.add p v) ∧
    (∀ v p, (M44.scale v).mulPosition p = ⟨v.x * p.x, v.y * p.y, v.z * p.z⟩) ∧
    (∀ v p, (M33.scale v).mulPosition p = ⟨v.x * p.x, v.y * p.y⟩) := by
  refine ⟨fun v p => ?_, fun v p => ?_, fun v p => ?_, fun v p => ?_⟩
  · ext <;> simp [M44.translate, M44.mulPosition, V3.add]
  · ext <;> simp [M33.translate, M33.mulPosition, V2.add]
  · ext <;> simp [M44.scale, M44.mulPosition]
  · ext <;> simp [M33.scale, M33.mulPosition]

theorem M44.rotate_isRotation {v : V3} (hv : v ≠ ⟨0, 0, 0⟩) (a : ℝ) : (M44.rotate v a).IsRotation := by
  have hn := V3.norm_sq (V3.unit v)
  rw [V3.norm_unit hv] at hn
  have hs := Real.sin_sq_add_cos_sq a
  refine ⟨⟨rfl, rfl, rfl, rfl⟩, rfl, rfl, rfl, ?_, ?_⟩
  · rw [M44.orth_iff]
    simp only [M44.rotate]
    generalize V3.unit v = u at hn
    generalize Real.sin a = s at hs
    generalize Real.cos a = c at hs
    obtain ⟨x, y, z⟩ := u
    simp only at hn ⊢
    have ez : z * z = 1 - x * x - y * y := by linarith
    have es : s ^ 2 = 1 - c ^ 2 := by linarith
    refine ⟨?_, ?_, ?_, ?_, ?_, ?_⟩
    · linear_combination (-(1 - c) ^ 2 * x ^ 2 - s ^ 2) * hn + (1 - x ^ 2) * hs
    · linear_combination (-(1 - c) ^ 2 * y ^ 2 - s ^ 2) * hn + (1 - y ^ 2) * hs
    · linear_combination (-(1 - c) ^ 2 * z ^ 2 - s ^ 2) * hn + (1 - z ^ 2) * hs
    · linear_combination (-(1 - c) ^ 2 * x * y) * hn - x * y * hs
    · linear_combination (-(1 - c) ^ 2 * x * z) * hn - x * z * hs
    · linear_combination (-(1 - c) ^ 2 * y * z) * hn - y * z * hs
  · rw [Matrix.det_fin_three]
    simp only [M44.rotate, M44.linear]
    generalize V3.unit v = u at hn
    generalize Real.sin a = s at hs
    generalize Real.cos a = c at hs
    obtain ⟨x, y, z⟩ := u
    simp only at hn ⊢
    simp
    have hn' : x * x + y * y + z * z = 1 := by linarith
    have es : s ^ 2 = 1 - c ^ 2 := by linarith
    have key : ∀ N : ℝ, N = x * x + y * y + z * z →
      ((1 - c) * x * x + c) * ((1 - c) * y * y + c) * ((1 - c) * z * z + c) -
        ((1 - c) * x * x + c) * ((1 - c) * y * z - x * s) * ((1 - c) * y * z + x * s) -
        ((1 - c) * x * y - z * s) * ((1 - c) * x * y + z * s) * ((1 - c) * z * z + c) +
        ((1 - c) * x * y - z * s) * ((1 - c) * y * z - x * s) * ((1 - c) * z * x - y * s) +
        ((1 - c) * z * x + y * s) * ((1 - c) * x * y + z * s) * ((1 - c) * y * z + x * s) -
        ((1 - c) * z * x + y * s) * ((1 - c) * y * y + c) * ((1 - c) * z * x - y * s) =
      c ^ 3 + (1 - c) * c ^ 2 * N + c * s ^ 2 * N + (1 - c) * s ^ 2 * N ^ 2 := by
      rintro N rfl; ring
    rw [key 1 hn'.symm, es]; ring

/-- `Rotate3D(v, a)` for a non-zero axis is a proper rotation about the origin: orthogonal, of determinant one,
fixing the axis, and turning every vector perpendicular to the axis by `a` in the right-handed sense. -/
theorem C20_rotate3d (v : V3) (hv : v ≠ ⟨0, 0, 0⟩) (a : ℝ) :
    (M44.rotate v a).IsRotation ∧ (M44.rotate v a).mulPosition v = v ∧
    ∀ w, V3.dot v w = 0 → (M44.rotate v a).mulPosition w =
      V3.add (V3.scale (Real.cos a) w) (V3.scale (Real.sin a) (V3.cross (V3.unit v) w)) := by
  have hp := V3.norm_pos hv
  have hn := V3.norm_sq v
  refine ⟨M44.rotate_isRotation hv a, ?_, ?_⟩
  · have e : V3.scale (V3.norm v) (V3.unit v) = v := by
      ext <;> simp only [V3.scale, V3.unit] <;> field_simp
    have h1 := V3.norm_sq (V3.unit v)
    rw [V3.norm_unit hv] at h1
    have : ∀ k, (M44.rotate v a).mulPosition (V3.scale k (V3.unit v)) = V3.scale k (V3.unit v) := by
      intro k
      simp only [M44.rotate]
      generalize V3.unit v = u at h1
      ext <;> simp only [M44.mulPosition, V3.scale]
      · linear_combination -(1 - Real.cos a) * u.x * k * h1
      · linear_combination -(1 - Real.cos a) * u.y * k * h1
      · linear_combination -(1 - Real.cos a) * u.z * k * h1
    have h2 := this (V3.norm v)
    rwa [e] at h2
  · intro w hw
    have hu : V3.dot (V3.unit v) w = 0 := by
      unfold V3.dot at hw ⊢
      simp only [V3.unit, V3.scale]
      linear_combination (1 / V3.norm v) * hw
    simp only [M44.rotate]
    generalize V3.unit v = u at hu
    unfold V3.dot at hu
    ext <;> simp only [M44.mulPosition, V3.scale, V3.add, V3.cross]
    · linear_combination (1 - Real.cos a) * u.x * hu
    · linear_combination (1 - Real.cos a) * u.y * hu
    · linear_combination (1 - Real.cos a) * u.z * hu

theorem V3.unit_x : V3.unit ⟨1, 0, 0⟩ = ⟨1, 0, 0⟩ := by
  have : V3.norm ⟨1, 0, 0⟩ = 1 := V3.norm_eq_of (by norm_num) (by norm_num)
  ext <;> simp [V3.unit, V3.scale, this]
theorem V3.unit_y : V3.unit ⟨0, 1, 0⟩ = ⟨0, 1, 0⟩ := by
  have : V3.norm ⟨0, 1, 0⟩ = 1 := V3.norm_eq_of (by norm_num) (by norm_num)
  ext <;> simp [V3.unit, V3.scale, this]
theorem V3.unit_z : V3.unit ⟨0, 0, 1⟩ = ⟨0, 0, 1⟩ := by
  have : V3.norm ⟨0, 0, 1⟩ = 1 := V3.norm_eq_of (by norm_num) (by norm_num)
  ext <;> simp [V3.unit, V3.scale, this]

/-- `RotateX/Y/Z`, `Rotate2D` and `Rotate` turn points by the stated angle in the stated plane. -/
theorem C20_rotate_axes (a : ℝ) :
    (∀ p : V3, (M44.rotateX a).mulPosition p =
      ⟨p.x, Real.cos a * p.y - Real.sin a * p.z, Real.sin a * p.y + Real.cos a * p.z⟩) ∧
    (∀ p : V3, (M44.rotateY a).mulPosition p =
      ⟨Real.cos a * p.x + Real.sin a * p.z, p.y, Real.cos a * p.z - Real.sin a * p.x⟩) ∧
    (∀ p : V3, (M44.rotateZ a).mulPosition p =
      ⟨Real.cos a * p.x - Real.sin a * p.y, Real.sin a * p.x + Real.cos a * p.y, p.z⟩) ∧
    (∀ r φ : ℝ, (M33.rotate a).mulPosition (V2.polarToXY r φ) = V2.polarToXY r (φ + a)) ∧
    (∀ r φ : ℝ, (M22.rotate a).mulPosition (V2.polarToXY r φ) = V2.polarToXY r (φ + a)) := by
  refine ⟨fun p => ?_, fun p => ?_, fun p => ?_, fun r φ => ?_, fun r φ => ?_⟩
  · ext <;> simp only [M44.rotateX, M44.rotate, V3.unit_x, M44.mulPosition] <;> ring
  · ext <;> simp only [M44.rotateY, M44.rotate, V3.unit_y, M44.mulPosition] <;> ring
  · ext <;> simp only [M44.rotateZ, M44.rotate, V3.unit_z, M44.mulPosition] <;> ring
  · ext <;> simp only [M33.rotate, M33.mulPosition, V2.polarToXY, Real.sin_add, Real.cos_add] <;> ring
  · ext <;> simp only [M22.rotate, M22.mulPosition, V2.polarToXY, Real.sin_add, Real.cos_add] <;> ring

/-- `Rotate2D` is a proper rotation of the plane. -/
theorem C20_rotate2d (a : ℝ) : (M33.rotate a).IsRotation := by
  have hs := Real.sin_sq_add_cos_sq a
  refine ⟨⟨rfl, rfl, rfl⟩, rfl, rfl, ?_, ?_⟩
  · rw [M33.orth_iff]
    simp only [M33.rotate]
    refine ⟨?_, ?_, ?_⟩ <;> first | linear_combination hs | ring
  · rw [Matrix.det_fin_two]
    simp [M33.linear, M33.rotate]
    linear_combination hs

/-- A matrix with orthogonal linear part moves points without changing any distance. -/
theorem C20_rotation_isometry :
    (∀ a : M44, a.linear.transpose * a.linear = 1 → a.Isometry) ∧
    (∀ a : M33, a.linear.transpose * a.linear = 1 → a.Isometry) :=
  ⟨fun _ h => M44.isometry_of_orth h, fun _ h => M33.isometry_of_orth h⟩

/-- Each mirror is an isometry, an involution, and reflects in the plane (or axis) its name states. -/
theorem C20_mirrors :
    (M44.mirrorXY.Isometry ∧ M44.mirrorXZ.Isometry ∧ M44.mirrorYZ.Isometry ∧ M44.mirrorXeqY.Isometry ∧
      M33.mirrorX.Isometry ∧ M33.mirrorY.Isometry) ∧
    (M44.mirrorXY.mul M44.mirrorXY = M44.identity ∧ M44.mirrorXZ.mul M44.mirrorXZ = M44.identity ∧
      M44.mirrorYZ.mul M44.mirrorYZ = M44.identity ∧ M44.mirrorXeqY.mul M44.mirrorXeqY = M44.identity ∧
      M33.mirrorX.mul M33.mirrorX = M33.identity ∧ M33.mirrorY.mul M33.mirrorY = M33.identity) ∧
    (∀ x y z : ℝ, M44.mirrorXY.mulPosition ⟨x, y, z⟩ = ⟨x, y, -z⟩ ∧
      M44.mirrorXZ.mulPosition ⟨x, y, z⟩ = ⟨x, -y, z⟩ ∧
      M44.mirrorYZ.mulPosition ⟨x, y, z⟩ = ⟨-x, y, z⟩ ∧
      M44.mirrorXeqY.mulPosition ⟨x, y, z⟩ = ⟨y, x, z⟩ ∧
      M33.mirrorX.mulPosition ⟨x, y⟩ = ⟨x, -y⟩ ∧ M33.mirrorY.mulPosition ⟨x, y⟩ = ⟨-x, y⟩) := by
  refine ⟨⟨?_, ?_, ?_, ?_, ?_, ?_⟩, ⟨?_, ?_, ?_, ?_, ?_, ?_⟩, fun x y z => ⟨?_, ?_, ?_, ?_, ?_, ?_⟩⟩
  · exact M44.isometry_of_orth ((M44.orth_iff _).mpr (by norm_num [M44.mirrorXY]))
  · exact M44.isometry_of_orth ((M44.orth_iff _).mpr (by norm_num [M44.mirrorXZ]))
  · exact M44.isometry_of_orth ((M44.orth_iff _).mpr (by norm_num [M44.mirrorYZ]))
  · exact M44.isometry_of_orth ((M44.orth_iff _).mpr (by norm_num [M44.mirrorXeqY]))
  · exact M33.isometry_of_orth ((M33.orth_iff _).mpr (by norm_num [M33.mirrorX]))
  · exact M33.isometry_of_orth ((M33.orth_iff _).mpr (by norm_num [M33.mirrorY]))
  · ext <;> simp [M44.mirrorXY, M44.mul, M44.identity]
  · ext <;> simp [M44.mirrorXZ, M44.mul, M44.identity]
  · ext <;> simp [M44.mirrorYZ, M44.mul, M44.identity]
  · ext <;> simp [M44.mirrorXeqY, M44.mul, M44.identity]
  · ext <;> simp [M33.mirrorX, M33.mul, M33.identity]
  · ext <;> simp [M33.mirrorY, M33.mul, M33.identity]
  · ext <;> simp [M44.mirrorXY, M44.mulPosition]
  · ext <;> simp [M44.mirrorXZ, M44.mulPosition]
  · ext <;> simp [M44.mirrorYZ, M44.mulPosition]
  · ext <;> simp [M44.mirrorXeqY, M44.mulPosition]
  · ext <;> simp [M33.mirrorX, M33.mulPosition]
  · ext <;> simp [M33.mirrorY, M33.mulPosition]

/-- `MulBox` contains the image of every point of the box. -/
theorem C20_mulBox :
    (∀ (a : M44) (b : Box3) p, b.Contains p → (a.mulBox b).Contains (a.mulPosition p)) ∧
    (∀ (a : M33) (b : Box2) p, b.Contains p → (a.mulBox b).Contains (a.mulPosition p)) :=
  ⟨fun a b _ h => M44.mulBox_contains a b h, fun a b _ h => M33.mulBox_contains a b h⟩

/-- `MulBox` is the tightest such box: every face of it is touched by the image of a corner, so no smaller
axis-aligned box contains the image. -/
theorem C20_mulBox_tight (a : M44) (b : Box3) (hb : b.lo.x ≤ b.hi.x ∧ b.lo.y ≤ b.hi.y ∧ b.lo.z ≤ b.hi.z)
    (c : Box3) (hc : ∀ p, b.Contains p → c.Contains (a.mulPosition p)) :
    ∀ q, (a.mulBox b).Contains q → c.Contains q := by
  obtain ⟨hx, hy, hz⟩ := hb
  have key : ∀ u l h : ℝ, l ≤ h → (∃ x, l ≤ x ∧ x ≤ h ∧ u * x = min (l * u) (h * u)) ∧
      (∃ x, l ≤ x ∧ x ≤ h ∧ u * x = max (l * u) (h * u)) := by
    intro u l h hlh
    constructor
    · rcases min_choice (l * u) (h * u) with e | e
      · exact ⟨l, le_rfl, hlh, by rw [e, mul_comm]⟩
      · exact ⟨h, hlh, le_rfl, by rw [e, mul_comm]⟩
    · rcases max_choice (l * u) (h * u) with e | e
      · exact ⟨l, le_rfl, hlh, by rw [e, mul_comm]⟩
      · exact ⟨h, hlh, le_rfl, by rw [e, mul_comm]⟩
  intro q hq
  simp only [Box3.Contains, M44.mulBox, V3.add, V3.minElem, V3.maxElem, V3.scale] at hq
  obtain ⟨q1, q2, q3, q4, q5, q6⟩ := hq
  have pt : ∀ u v w : ℝ,
      (∃ x y z, b.Contains ⟨x, y, z⟩ ∧ u * x + v * y + w * z =
        min (b.lo.x * u) (b.hi.x * u) + (min (b.lo.y * v) (b.hi.y * v) + min (b.lo.z * w) (b.hi.z * w))) ∧
      (∃ x y z, b.Contains ⟨x, y, z⟩ ∧ u * x + v * y + w * z =
        max (b.lo.x * u) (b.hi.x * u) + (max (b.lo.y * v) (b.hi.y * v) + max (b.lo.z * w) (b.hi.z * w))) := by
    intro u v w
    obtain ⟨⟨x, x1, x2, x3⟩, ⟨x', x1', x2', x3'⟩⟩ := key u _ _ hx
    obtain ⟨⟨y, y1, y2, y3⟩, ⟨y', y1', y2', y3'⟩⟩ := key v _ _ hy
    obtain ⟨⟨z, z1, z2, z3⟩, ⟨z', z1', z2', z3'⟩⟩ := key w _ _ hz
    exact ⟨⟨x, y, z, ⟨x1, y1, z1, x2, y2, z2⟩, by linarith⟩,
      ⟨x', y', z', ⟨x1', y1', z1', x2', y2', z2'⟩, by linarith⟩⟩
  obtain ⟨⟨x, y, z, i, e⟩, ⟨x', y', z', i', e'⟩⟩ := pt a.x00 a.x01 a.x02
  obtain ⟨⟨x2, y2, z2, i2, e2⟩, ⟨x2', y2', z2', i2', e2'⟩⟩ := pt a.x10 a.x11 a.x12
  obtain ⟨⟨x3, y3, z3, i3, e3⟩, ⟨x3', y3', z3', i3', e3'⟩⟩ := pt a.x20 a.x21 a.x22
  have a1 := (hc _ i).1
  have a2 := (hc _ i').2.2.2.1
  have a3 := (hc _ i2).2.1
  have a4 := (hc _ i2').2.2.2.2.1
  have a5 := (hc _ i3).2.2.1
  have a6 := (hc _ i3').2.2.2.2.2
  simp only [M44.mulPosition] at a1 a2 a3 a4 a5 a6
  refine ⟨?_, ?_, ?_, ?_, ?_, ?_⟩ <;> linarith

/-- The hypotheses are met: a rotation about a skew axis followed by a translation is affine, invertible, and
is not the identity. -/
example : ((M44.translate ⟨1, 2, 3⟩).mul (M44.rotate ⟨1, 1, 1⟩ 1)).Affine ∧
    (M44.scale ⟨2, 3, 5⟩).toMatrix.det = 30 ∧ (⟨1, 1, 1⟩ : V3) ≠ ⟨0, 0, 0⟩ := by
  refine ⟨M44.affine_mul ⟨rfl, rfl, rfl, rfl⟩ ⟨rfl, rfl, rfl, rfl⟩, ?_, ?_⟩
  · rw [← M44.det_eq]; norm_num [M44.det, M44.scale]
  · intro h; have := congrArg V3.x h; norm_num at this

end Sdf
