import Verif.Model.Transform
import Verif.Lemmas.Matrix
import Mathlib.Algebra.Quaternion

/-!
C40: the transformation helpers.  The three-dimensional type is a 4x4 matrix as documented, except that `Scale` ignores
its origin (`C40_scale_ignores_origin`); the two-dimensional type has neither a working identity nor a working inverse
(`C40_plane_identity_wrong`, `C40_plane_inverse_panics`).
-/

namespace Sdf

namespace T3

/-- The matrix a transform stands for: the stored numbers plus the identity. -/
def matrix (t : T3) : Matrix (Fin 4) (Fin 4) ℝ :=
  !![t.d00, t.x01, t.x02, t.x03; t.x10, t.d11, t.x12, t.x13; t.x20, t.x21, t.d22, t.x23; t.x30, t.x31, t.x32, t.d33] + 1

/-- The last row is that of an affine map. -/
def Affine (t : T3) : Prop := t.x30 = 0 ∧ t.x31 = 0 ∧ t.x32 = 0 ∧ t.d33 = 0

/-- The fourth homogeneous coordinate of the image of a point. -/
def weight (t : T3) (v : V3) : ℝ := t.x30 * v.x + t.x31 * v.y + t.x32 * v.z + t.d33 + 1

/-- The same matrix in the representation of /repo/matrix.go. -/
def toM44 (t : T3) : M44 :=
  ⟨t.d00 + 1, t.x01, t.x02, t.x03, t.x10, t.d11 + 1, t.x12, t.x13, t.x20, t.x21, t.d22 + 1, t.x23,
   t.x30, t.x31, t.x32, t.d33 + 1⟩

theorem matrix_eq (t : T3) : t.matrix = t.toM44.toMatrix := by
  ext i j
  fin_cases i <;> fin_cases j <;> simp [matrix, toM44, M44.toMatrix]

theorem toM44_inj {a b : T3} (h : a.toM44 = b.toM44) : a = b := by
  simp only [toM44, M44.mk.injEq, add_left_inj] at h
  obtain ⟨h1, h2, h3, h4, h5, h6, h7, h8, h9, h10, h11, h12, h13, h14, h15, h16⟩ := h
  ext <;> assumption

theorem toM44_zeroValue : zeroValue.toM44 = M44.identity := by
  ext <;> simp [toM44, zeroValue, M44.identity]

theorem toM44_mul (a b : T3) : (a.mul b).toM44 = a.toM44.mul b.toM44 := by
  unfold mul
  split
  · rename_i h
    subst h
    ext <;> simp [toM44, zeroValue, M44.mul]
  · split
    · rename_i h
      subst h
      ext <;> simp [toM44, zeroValue, M44.mul]
    · ext <;> simp only [toM44, M44.mul] <;> ring

theorem det_eq (t : T3) : t.det = t.toM44.det := by
  simp only [det, toM44, M44.det]

theorem toM44_inv {t : T3} (h0 : t ≠ zeroValue) (h : ¬ |t.det| < 1e-16) : t.inv.toM44 = t.toM44.inverse := by
  unfold inv
  rw [if_neg h0, if_neg h]
  simp only [toM44, M44.inverse, M44.det, det]
  ext <;> simp only [] <;> ring

end T3

/-- The zero value is the identity. -/
theorem C40_zero_value : T3.zeroValue.matrix = 1 ∧ ∀ v, T3.zeroValue.apply v = v := by
  constructor
  · rw [T3.matrix_eq, T3.toM44_zeroValue, M44.toMatrix_identity]
  · intro v
    ext <;> simp [T3.apply, T3.zeroValue]

/-- The action on points: the image in homogeneous coordinates, divided by its fourth coordinate. -/
theorem C40_apply (t : T3) (v : V3) (h : t.weight v ≠ 0) :
    Matrix.mulVec t.matrix ![v.x, v.y, v.z, 1] =
      t.weight v • ![(t.apply v).x, (t.apply v).y, (t.apply v).z, 1] := by
  rw [T3.matrix_eq]
  have e : 1 / t.weight v * t.weight v = 1 := one_div_mul_cancel h
  have e' : 1 / (t.x30 * v.x + t.x31 * v.y + t.x32 * v.z + t.d33 + 1) * t.weight v = 1 := e
  simp only [one_div] at e'
  ext i
  fin_cases i
  · simp [T3.toM44, M44.toMatrix, Matrix.mulVec, dotProduct, Fin.sum_univ_four, T3.apply]
    linear_combination -((t.d00 + 1) * v.x + t.x01 * v.y + t.x02 * v.z + t.x03) * e'
  · simp [T3.toM44, M44.toMatrix, Matrix.mulVec, dotProduct, Fin.sum_univ_four, T3.apply]
    linear_combination -(t.x10 * v.x + (t.d11 + 1) * v.y + t.x12 * v.z + t.x13) * e'
  · simp [T3.toM44, M44.toMatrix, Matrix.mulVec, dotProduct, Fin.sum_univ_four, T3.apply]
    linear_combination -(t.x20 * v.x + t.x21 * v.y + (t.d22 + 1) * v.z + t.x23) * e'
  · simp [T3.toM44, M44.toMatrix, Matrix.mulVec, dotProduct, Fin.sum_univ_four, T3.weight]
    ring

/-- `Mul` is the matrix product. -/
theorem C40_mul (a b : T3) : (a.mul b).matrix = a.matrix * b.matrix := by
  rw [T3.matrix_eq, T3.toM44_mul, M44.toMatrix_mul, T3.matrix_eq, T3.matrix_eq]

/-- `Mul` is composition: the product applies its argument first. -/
theorem C40_mul_apply (a b : T3) (v : V3) (hb : b.weight v ≠ 0) (ha : a.weight (b.apply v) ≠ 0) :
    (a.mul b).weight v ≠ 0 ∧ (a.mul b).apply v = a.apply (b.apply v) := by
  have key : ∀ t : T3, ∀ p : V3, t.apply p = ⟨(t.toM44.x00 * p.x + t.toM44.x01 * p.y + t.toM44.x02 * p.z + t.toM44.x03) / t.weight p,
      (t.toM44.x10 * p.x + t.toM44.x11 * p.y + t.toM44.x12 * p.z + t.toM44.x13) / t.weight p,
      (t.toM44.x20 * p.x + t.toM44.x21 * p.y + t.toM44.x22 * p.z + t.toM44.x23) / t.weight p⟩ := by
    intro t p
    ext <;> simp only [T3.apply, T3.toM44, T3.weight] <;> ring
  have kw : ∀ t : T3, ∀ p : V3, t.weight p = t.toM44.x30 * p.x + t.toM44.x31 * p.y + t.toM44.x32 * p.z + t.toM44.x33 := by
    intro t p
    simp only [T3.toM44, T3.weight]; ring
  have hw : (a.mul b).weight v = a.weight (b.apply v) * b.weight v := by
    rw [kw (a.mul b), kw a, key b, T3.toM44_mul]
    field_simp
    rw [kw b]
    simp only [M44.mul]
    ring
  refine ⟨by rw [hw]; exact mul_ne_zero ha hb, ?_⟩
  rw [key (a.mul b), key a, hw, T3.toM44_mul]
  ext
  all_goals
    simp only []
    rw [mul_comm (a.weight (b.apply v)), ← div_div]
    congr 1
    rw [key b]
    field_simp
    rw [kw b]
    simp only [M44.mul]
    ring

/-- `Det` is the determinant. -/
theorem C40_det (t : T3) : t.det = t.matrix.det := by
  rw [T3.matrix_eq, T3.det_eq, M44.det_eq]

/-- `Inv` is the inverse when the determinant is at least the tolerance, and the zero matrix otherwise. -/
theorem C40_inv (t : T3) :
    (1e-16 ≤ |t.matrix.det| → t.inv.mul t = T3.zeroValue ∧ t.mul t.inv = T3.zeroValue) ∧
      (|t.matrix.det| < 1e-16 → t.inv.matrix = 0) := by
  rw [← C40_det]
  constructor
  · intro h
    by_cases h0 : t = T3.zeroValue
    · subst h0
      simp [T3.inv, T3.mul]
    · have hd : t.toM44.det ≠ 0 := by
        rw [← T3.det_eq]
        intro hz
        rw [hz] at h
        norm_num at h
      constructor <;> apply T3.toM44_inj <;> rw [T3.toM44_mul, T3.toM44_inv h0 (not_lt.mpr h), T3.toM44_zeroValue]
      · exact M44.inverse_mul hd
      · exact M44.mul_inverse hd
  · intro h
    by_cases h0 : t = T3.zeroValue
    · subst h0
      rw [C40_det, C40_zero_value.1] at h
      norm_num at h
    · unfold T3.inv
      rw [if_neg h0, if_pos h]
      ext i j
      fin_cases i <;> fin_cases j <;> simp [T3.matrix, T3.zeroTransform]

/-- `Inv` undoes the action on points. -/
theorem C40_inv_apply (t : T3) (h : 1e-16 ≤ |t.matrix.det|) (v : V3) (hw : t.weight v ≠ 0)
    (hw' : t.inv.weight (t.apply v) ≠ 0) : t.inv.apply (t.apply v) = v := by
  rw [← (C40_mul_apply t.inv t v hw hw').2, ((C40_inv t).1 h).1, C40_zero_value.2]

/-- `Translate` moves the image of every point, for an affine transform. -/
theorem C40_translate (t : T3) (ht : t.Affine) (v p : V3) : (t.translate v).apply p = V3.add (t.apply p) v := by
  obtain ⟨h0, h1, h2, h3⟩ := ht
  ext <;> simp [T3.apply, T3.translate, V3.add, h0, h1, h2, h3] <;> ring

/-- `Scale` with the zero origin scales every point before the transform is applied. -/
theorem C40_scale_partial (t : T3) (f p : V3) : (t.scale ⟨0, 0, 0⟩ f).apply p = t.apply ⟨f.x * p.x, f.y * p.y, f.z * p.z⟩ := by
  unfold T3.scale
  rw [if_pos rfl]
  have e : t.x30 * f.x * p.x + t.x31 * f.y * p.y + t.x32 * f.z * p.z + t.d33 + 1 =
      t.x30 * (f.x * p.x) + t.x31 * (f.y * p.y) + t.x32 * (f.z * p.z) + t.d33 + 1 := by ring
  ext <;> simp only [T3.apply, T3.scaleBy] <;> rw [e] <;> ring

/-- The origin has no effect. -/
theorem C40_scale_ignores_origin (t : T3) (o f : V3) : t.scale o f = t.scale ⟨0, 0, 0⟩ f := by
  unfold T3.scale
  rw [if_pos rfl]
  split
  · rfl
  · ext <;> simp [T3.scaleBy, T3.translate, V3.scale]

/-- So scaling "around" a point does not keep that point fixed. -/
theorem C40_scale_not_about_origin : (T3.zeroValue.scale ⟨1, 0, 0⟩ ⟨2, 2, 2⟩).apply ⟨1, 0, 0⟩ = ⟨2, 0, 0⟩ := by
  rw [C40_scale_ignores_origin, C40_scale_partial, C40_zero_value.2]
  norm_num

/-- The quaternion as an element of Mathlib's quaternions. -/
def T3.Quat.toH (q : T3.Quat) : Quaternion ℝ := ⟨q.re, q.im, q.jm, q.km⟩

/-- A point as a pure quaternion. -/
def V3.toH (v : V3) : Quaternion ℝ := ⟨0, v.x, v.y, v.z⟩

theorem T3.Quat.toH_parts (q : T3.Quat) : q.toH.re = q.re ∧ q.toH.imI = q.im ∧ q.toH.imJ = q.jm ∧ q.toH.imK = q.km :=
  ⟨rfl, rfl, rfl, rfl⟩

theorem V3.toH_parts (v : V3) : v.toH.re = 0 ∧ v.toH.imI = v.x ∧ v.toH.imJ = v.y ∧ v.toH.imK = v.z :=
  ⟨rfl, rfl, rfl, rfl⟩

/-- `ComposeTransform` scales, turns by the unit quaternion and then moves. -/
theorem C40_compose (pos scale : V3) (q : T3.Quat) (hq : q.re * q.re + q.im * q.im + q.jm * q.jm + q.km * q.km = 1) (p : V3) :
    let r := q.toH * V3.toH ⟨scale.x * p.x, scale.y * p.y, scale.z * p.z⟩ * star q.toH
    (T3.compose pos scale q).apply p = ⟨r.imI + pos.x, r.imJ + pos.y, r.imK + pos.z⟩ := by
  intro r
  have e1 : r.imI + pos.x = (T3.compose pos scale q).d00 * p.x + p.x + (T3.compose pos scale q).x01 * p.y +
      (T3.compose pos scale q).x02 * p.z + pos.x := by
    simp only [r, T3.Quat.toH_parts, V3.toH_parts, T3.compose, Quaternion.imI_mul, Quaternion.re_mul, Quaternion.imJ_mul, Quaternion.imK_mul,
      Quaternion.re_star, Quaternion.imI_star, Quaternion.imJ_star, Quaternion.imK_star]
    linear_combination (scale.x * p.x) * hq
  have e2 : r.imJ + pos.y = (T3.compose pos scale q).x10 * p.x + (T3.compose pos scale q).d11 * p.y + p.y +
      (T3.compose pos scale q).x12 * p.z + pos.y := by
    simp only [r, T3.Quat.toH_parts, V3.toH_parts, T3.compose, Quaternion.imI_mul, Quaternion.re_mul, Quaternion.imJ_mul, Quaternion.imK_mul,
      Quaternion.re_star, Quaternion.imI_star, Quaternion.imJ_star, Quaternion.imK_star]
    linear_combination (scale.y * p.y) * hq
  have e3 : r.imK + pos.z = (T3.compose pos scale q).x20 * p.x + (T3.compose pos scale q).x21 * p.y +
      (T3.compose pos scale q).d22 * p.z + p.z + pos.z := by
    simp only [r, T3.Quat.toH_parts, V3.toH_parts, T3.compose, Quaternion.imI_mul, Quaternion.re_mul, Quaternion.imJ_mul, Quaternion.imK_mul,
      Quaternion.re_star, Quaternion.imI_star, Quaternion.imJ_star, Quaternion.imK_star]
    linear_combination (scale.z * p.z) * hq
  rw [e1, e2, e3]
  ext <;> simp only [T3.apply, T3.compose] <;> norm_num <;> ring

/-- The documented way of writing the identity: no movement, unit scale and the zero value of the rotation. -/
theorem C40_compose_identity : T3.compose ⟨0, 0, 0⟩ ⟨1, 1, 1⟩ ⟨0, 0, 0, 0⟩ = T3.zeroValue := by
  ext <;> simp [T3.compose, T3.zeroValue]

/-- `NewTransform` and `SliceCopy` are inverse; a slice of another length panics. -/
theorem C40_slice : (∀ t : T3, T3.ofSlice t.sliceCopy = some t) ∧
    (∀ l t, T3.ofSlice l = some t → t.sliceCopy = l ∧ ∀ i j : Fin 4, t.matrix i j = l.getD (4 * i + j) 0) ∧
    ∀ l, T3.ofSlice l = none ↔ l.length ≠ 16 := by
  refine ⟨?_, ?_, ?_⟩
  · intro t
    simp [T3.ofSlice, T3.sliceCopy]
  · intro l t h
    unfold T3.ofSlice at h
    split at h
    · cases h
      refine ⟨by simp [T3.sliceCopy], ?_⟩
      intro i j
      fin_cases i <;> fin_cases j <;> simp [T3.matrix]
    · cases h
  · intro l
    unfold T3.ofSlice
    split
    · simp
    · rename_i hne
      simp only [true_iff]
      intro hl
      match l, hl with
      | [a0, a1, a2, a3, a4, a5, a6, a7, a8, a9, a10, a11, a12, a13, a14, a15], _ =>
        exact hne _ _ _ _ _ _ _ _ _ _ _ _ _ _ _ _ rfl

/-- The transpose. -/
theorem C40_transpose (t : T3) : t.transpose.matrix = t.matrix.transpose := by
  rw [T3.matrix_eq, T3.matrix_eq]
  ext i j
  fin_cases i <;> fin_cases j <;> simp [T3.toM44, M44.toMatrix, T3.transpose]

/-- Plane: `Mul` is the matrix product, and any transform other than the all-zero one acts as its affine map. -/
theorem C40_plane_partial (a b : T2) :
    M33.toMatrix (T2.mul a b) = M33.toMatrix a * M33.toMatrix b ∧
      (a ≠ ⟨0, 0, 0, 0, 0, 0, 0, 0, 0⟩ → ∀ p, T2.applyPos a p =
        ⟨M33.toMatrix a 0 0 * p.x + M33.toMatrix a 0 1 * p.y + M33.toMatrix a 0 2,
         M33.toMatrix a 1 0 * p.x + M33.toMatrix a 1 1 * p.y + M33.toMatrix a 1 2⟩) ∧
      (∀ (box : Box2) p, box.Contains p → (T2.applyBox a box).Contains (T2.applyPos a p)) := by
  refine ⟨?_, ?_, ?_⟩
  · have := M33.toMatrix_mul a b
    rw [← this]
    rfl
  · intro h p
    unfold T2.applyPos
    rw [if_neg (show a ≠ T2.identityT from h)]
    rfl
  · intro box p hp
    unfold T2.applyPos T2.applyBox
    split
    · exact hp
    · have := M33.mulBox_contains a box hp
      simp only [Box2.Contains, M33.mulBox, M33.mulPosition, V2.add, V2.minElem, V2.maxElem, V2.scale] at this ⊢
      obtain ⟨h1, h2, h3, h4⟩ := this
      refine ⟨?_, ?_, ?_, ?_⟩ <;> linarith

/-- The all-zero "identity" is not neutral for `Mul`: multiplied by a translation it gives a transform that moves
nothing. -/
theorem C40_plane_identity_wrong : ∃ (t : T2) (p : V2), T2.applyPos (T2.mul T2.identityT t) p ≠ T2.applyPos t p := by
  refine ⟨⟨1, 0, 1, 0, 1, 0, 0, 0, 1⟩, ⟨0, 0⟩, ?_⟩
  have h : T2.mul T2.identityT ⟨1, 0, 1, 0, 1, 0, 0, 0, 1⟩ = T2.identityT := by
    ext <;> simp [T2.mul, T2.identityT]
  rw [h]
  unfold T2.applyPos
  rw [if_pos rfl, if_neg (by simp [T2.identityT])]
  simp

/-- `Determinant`, and so `Inverse`, panics on every transform: it reads a fourth row and column. -/
theorem C40_plane_inverse_panics (a : T2) : T2.det a = none ∧ T2.inverse a = none := by
  have h : T2.det a = none := by
    simp [T2.det, T2.detTerms, T2.detTerm, T2.at', List.mapM_cons]
  exact ⟨h, by simp [T2.inverse, h]⟩

/-- The determinant is all that is wrong with `Inverse`: the entries it would compute from the determinant of the 3x3 matrix are those of
the inverse. -/
theorem C40_plane_inverse_entries (a : T2) (d : ℝ) (hd : d ≠ 0) (h : d = a.x00 * (a.x11 * a.x22 - a.x12 * a.x21)
    - a.x01 * (a.x10 * a.x22 - a.x12 * a.x20) + a.x02 * (a.x10 * a.x21 - a.x11 * a.x20)) :
    T2.mul a (a.inverseFor d) = ⟨1, 0, 0, 0, 1, 0, 0, 0, 1⟩ ∧ T2.mul (a.inverseFor d) a = ⟨1, 0, 0, 0, 1, 0, 0, 0, 1⟩ := by
  constructor <;> ext <;> simp only [T2.mul, T2.inverseFor] <;> field_simp <;> (try rw [h]) <;> ring

/-- A transform with a determinant that is not zero. -/
example : T2.mul ⟨2, 0, 3, 0, 4, 5, 0, 0, 1⟩ (T2.inverseFor ⟨2, 0, 3, 0, 4, 5, 0, 0, 1⟩ 8) = ⟨1, 0, 0, 0, 1, 0, 0, 0, 1⟩ :=
  (C40_plane_inverse_entries _ 8 (by norm_num) (by norm_num)).1

/-! Non-vacuity. -/
example : T3.Affine (T3.compose ⟨1, 2, 3⟩ ⟨2, 2, 2⟩ ⟨1, 0, 0, 0⟩) ∧
    (1e-16 : ℝ) ≤ |(T3.compose ⟨1, 2, 3⟩ ⟨2, 2, 2⟩ ⟨1, 0, 0, 0⟩).matrix.det| := by
  refine ⟨by simp [T3.Affine, T3.compose], ?_⟩
  rw [← C40_det]
  norm_num [T3.det, T3.compose]

end Sdf
