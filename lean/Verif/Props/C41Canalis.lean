import Verif.Model.Spatial
import Verif.Props.C40Transform

/-! C41: the canonical frame of a triangle. -/

namespace Sdf

/-- The three corners are not on one line. -/
def Tri.NonDegenerate (t : Tri) : Prop := V3.cross (V3.sub t.b t.a) (V3.sub t.c t.a) ≠ ⟨0, 0, 0⟩

/-- The axes of the frame. -/
structure Frame (t : Tri) where
  (a b c : V3)
  aa : V3.dot a a = 1
  bb : V3.dot b b = 1
  ab : V3.dot a b = 0
  hc : c = V3.cross a b
  l : ℝ
  hl : 0 < l
  hx : V3.sub t.b t.a = V3.scale l a
  u : ℝ
  v : ℝ
  hv : 0 < v
  hy : V3.sub t.c t.a = V3.add (V3.scale u a) (V3.scale v b)
  apply_eq : ∀ p, (canalisTransform t).apply p =
    ⟨V3.dot a (V3.sub p t.a), V3.dot b (V3.sub p t.a), V3.dot c (V3.sub p t.a)⟩
  affine : (canalisTransform t).Affine
  linear : (canalisTransform t).d00 + 1 = a.x ∧ (canalisTransform t).x01 = a.y ∧ (canalisTransform t).x02 = a.z ∧
    (canalisTransform t).x10 = b.x ∧ (canalisTransform t).d11 + 1 = b.y ∧ (canalisTransform t).x12 = b.z ∧
    (canalisTransform t).x20 = c.x ∧ (canalisTransform t).x21 = c.y ∧ (canalisTransform t).d22 + 1 = c.z

theorem V3.dot_unit {v : V3} (h : v ≠ ⟨0, 0, 0⟩) : V3.dot (V3.unit v) (V3.unit v) = 1 := by
  have := V3.norm_sq (V3.unit v)
  rw [V3.norm_unit h] at this
  unfold V3.dot
  linarith

theorem V3.scale_norm_unit {v : V3} (h : v ≠ ⟨0, 0, 0⟩) : V3.scale (V3.norm v) (V3.unit v) = v := by
  have := (V3.norm_pos h).ne'
  ext <;> simp only [V3.scale, V3.unit] <;> field_simp

theorem Tri.NonDegenerate.frame {t : Tri} (h : t.NonDegenerate) : Nonempty (Frame t) := by
  have h2 : V3.sub t.b t.a ≠ ⟨0, 0, 0⟩ := by
    intro e
    apply h
    rw [e]
    ext <;> simp [V3.cross]
  set a := V3.unit (V3.sub t.b t.a) with ha
  set w := V3.sub (V3.sub t.c t.a) (V3.scale (V3.dot a (V3.sub t.c t.a)) a) with hw
  have aa : V3.dot a a = 1 := V3.dot_unit h2
  have e2 : V3.scale (V3.norm (V3.sub t.b t.a)) a = V3.sub t.b t.a := V3.scale_norm_unit h2
  have hw0 : w ≠ ⟨0, 0, 0⟩ := by
    intro e
    apply h
    have e3 : V3.sub t.c t.a = V3.scale (V3.dot a (V3.sub t.c t.a)) a := by
      have := congrArg V3.x e
      have := congrArg V3.y e
      have := congrArg V3.z e
      simp only [hw, V3.sub] at *
      ext <;> simp only [] <;> linarith
    rw [e3, ← e2]
    ext <;> simp only [V3.cross, V3.scale] <;> ring
  set b := V3.unit w with hb
  have bb : V3.dot b b = 1 := V3.dot_unit hw0
  have ew : V3.scale (V3.norm w) b = w := V3.scale_norm_unit hw0
  have aw : V3.dot a w = 0 := by
    simp only [hw]
    have aa' : a.x * a.x + a.y * a.y + a.z * a.z = 1 := aa
    simp only [V3.dot, V3.sub, V3.scale]
    linear_combination -(a.x * (t.c.x - t.a.x) + a.y * (t.c.y - t.a.y) + a.z * (t.c.z - t.a.z)) * aa'
  have ab : V3.dot a b = 0 := by
    have : V3.dot a b = 1 / V3.norm w * V3.dot a w := by
      rw [hb]; simp only [V3.unit, V3.dot, V3.scale]; ring
    rw [this, aw, mul_zero]
  have hT : canalisTransform t = T3.translate ⟨a.x - 1, a.y, a.z, 0, b.x, b.y - 1, b.z, 0, (V3.cross a b).x, (V3.cross a b).y,
      (V3.cross a b).z - 1, 0, 0, 0, 0, 1 - 1⟩ (V3.scale (-1) (T3.apply ⟨a.x - 1, a.y, a.z, 0, b.x, b.y - 1, b.z, 0,
      (V3.cross a b).x, (V3.cross a b).y, (V3.cross a b).z - 1, 0, 0, 0, 0, 1 - 1⟩ t.a)) := rfl
  clear_value a b
  refine ⟨⟨a, b, V3.cross a b, aa, bb, ab, rfl, V3.norm (V3.sub t.b t.a), V3.norm_pos h2, e2.symm,
    V3.dot a (V3.sub t.c t.a), V3.norm w, V3.norm_pos hw0, ?_, ?_, ?_, ?_⟩⟩
  · rw [ew]
    ext <;> simp only [hw, V3.add, V3.sub] <;> ring
  · intro p
    rw [hT]
    ext <;> simp only [T3.apply, T3.translate, V3.dot, V3.sub, V3.scale] <;>
      simp only [sub_add_cancel, zero_mul, zero_add, add_zero, sub_self, div_one, mul_one] <;> ring
  · rw [hT]; simp [T3.Affine, T3.translate]
  · rw [hT]; simp [T3.translate]

/-- Orthonormal axes preserve lengths. -/
theorem frame_norm {a b : V3} (aa : V3.dot a a = 1) (bb : V3.dot b b = 1) (ab : V3.dot a b = 0) (v : V3) :
    V3.dot a v ^ 2 + V3.dot b v ^ 2 + V3.dot (V3.cross a b) v ^ 2 = V3.dot v v := by
  have gram : V3.dot (V3.cross a b) v ^ 2 = V3.dot a a * V3.dot b b * V3.dot v v + 2 * V3.dot a b * V3.dot b v * V3.dot a v -
      V3.dot a a * V3.dot b v ^ 2 - V3.dot b b * V3.dot a v ^ 2 - V3.dot v v * V3.dot a b ^ 2 := by
    simp only [V3.dot, V3.cross]; ring
  rw [gram, aa, bb, ab]; ring

/-- The transform keeps all distances, preserves orientation, takes the first corner to the origin, the second onto the
positive X axis and the third into the upper half of the XY plane. -/
theorem C41_rigid (t : Tri) (h : t.NonDegenerate) :
    let T := canalisTransform t
    T.Affine ∧ (∀ p q, V3.dist (T.apply p) (T.apply q) = V3.dist p q) ∧ T.matrix.det = 1 ∧
      T.apply t.a = ⟨0, 0, 0⟩ ∧ (0 < (T.apply t.b).x ∧ (T.apply t.b).y = 0 ∧ (T.apply t.b).z = 0) ∧
      (0 < (T.apply t.c).y ∧ (T.apply t.c).z = 0) := by
  intro T
  obtain ⟨F⟩ := h.frame
  have hc := F.hc
  have aa' : F.a.x * F.a.x + F.a.y * F.a.y + F.a.z * F.a.z = 1 := F.aa
  have bb' : F.b.x * F.b.x + F.b.y * F.b.y + F.b.z * F.b.z = 1 := F.bb
  have ab' : F.a.x * F.b.x + F.a.y * F.b.y + F.a.z * F.b.z = 0 := F.ab
  refine ⟨F.affine, ?_, ?_, ?_, ?_, ?_⟩
  · intro p q
    show V3.norm _ = V3.norm _
    rw [F.apply_eq, F.apply_eq]
    apply V3.norm_eq_of (V3.norm_nonneg _)
    rw [V3.norm_sq]
    have := frame_norm F.aa F.bb F.ab (V3.sub p q)
    rw [← hc] at this
    simp only [V3.dot, V3.sub] at this ⊢
    linarith
  · rw [← C40_det]
    obtain ⟨h0, h1, h2, h3⟩ := F.affine
    obtain ⟨l1, l2, l3, l4, l5, l6, l7, l8, l9⟩ := F.linear
    have e : T.det = F.a.x * (F.b.y * F.c.z - F.b.z * F.c.y) - F.a.y * (F.b.x * F.c.z - F.b.z * F.c.x) +
        F.a.z * (F.b.x * F.c.y - F.b.y * F.c.x) := by
      simp only [T, T3.det, h0, h1, h2, h3, l1, l2, l3, l4, l5, l6, l7, l8, l9]
      ring
    rw [e, hc]
    simp only [V3.cross]
    linear_combination (F.b.x * F.b.x + F.b.y * F.b.y + F.b.z * F.b.z) * aa' + bb' -
      (F.a.x * F.b.x + F.a.y * F.b.y + F.a.z * F.b.z) * ab'
  · rw [F.apply_eq]
    ext <;> simp [V3.dot, V3.sub]
  · rw [F.apply_eq, F.hx, hc]
    have hl := F.hl
    refine ⟨?_, ?_, ?_⟩
    · have : V3.dot F.a (V3.scale F.l F.a) = F.l := by
        simp only [V3.dot, V3.scale]; linear_combination F.l * aa'
      simp only [this]; exact hl
    · simp only [V3.dot, V3.scale]; linear_combination F.l * ab'
    · simp only [V3.dot, V3.scale, V3.cross]; ring
  · rw [F.apply_eq, F.hy, hc]
    have hv := F.hv
    refine ⟨?_, ?_⟩
    · have : V3.dot F.b (V3.add (V3.scale F.u F.a) (V3.scale F.v F.b)) = F.v := by
        simp only [V3.dot, V3.scale, V3.add]; linear_combination F.u * ab' + F.v * bb'
      simp only [this]; exact hv
    · simp only [V3.dot, V3.scale, V3.add, V3.cross]; ring

/-- Its computed inverse takes everything back. -/
theorem C41_inverse (t : Tri) (h : t.NonDegenerate) (p : V3) :
    (canalisTransform t).inv.apply ((canalisTransform t).apply p) = p ∧
      (canalisTransform t).apply ((canalisTransform t).inv.apply p) = p := by
  obtain ⟨ha, -, hd, -⟩ := C41_rigid t h
  have hd' : (1e-16 : ℝ) ≤ |(canalisTransform t).matrix.det| := by rw [hd]; norm_num
  obtain ⟨i1, i2⟩ := (C40_inv _).1 hd'
  obtain ⟨h0, h1, h2, h3⟩ := ha
  have w : ∀ q, (canalisTransform t).weight q = 1 := by
    intro q; simp [T3.weight, h0, h1, h2, h3]
  have wi : ∀ q, (canalisTransform t).inv.weight q = 1 := by
    have hne : canalisTransform t = T3.zeroValue ∨ canalisTransform t ≠ T3.zeroValue := em _
    intro q
    rcases hne with e | e
    · rw [e]; simp [T3.inv, T3.weight, T3.zeroValue]
    · have hnd : ¬ |(canalisTransform t).det| < 1e-16 := by rw [C40_det]; exact not_lt.mpr hd'
      have hinv := T3.toM44_inv e hnd
      have haff : (canalisTransform t).toM44.Affine := by
        simp [M44.Affine, T3.toM44, h0, h1, h2, h3]
      have hdet : (canalisTransform t).toM44.det ≠ 0 := by
        rw [← T3.det_eq, C40_det, hd]; norm_num
      have := M44.affine_inverse haff hdet
      rw [← hinv] at this
      obtain ⟨g0, g1, g2, g3⟩ := this
      simp only [T3.toM44] at g0 g1 g2 g3
      simp only [T3.weight, g0, g1, g2]
      linarith
  constructor
  · rw [← (C40_mul_apply _ _ p (by rw [w]; norm_num) (by rw [wi]; norm_num)).2, i1, C40_zero_value.2]
  · rw [← (C40_mul_apply _ _ p (by rw [wi]; norm_num) (by rw [w]; norm_num)).2, i2, C40_zero_value.2]

/-! Non-vacuity. -/
example : Tri.NonDegenerate ⟨⟨1, 0, 0⟩, ⟨0, 2, 0⟩, ⟨0, 0, 3⟩⟩ := by
  intro h
  have := congrArg V3.x h
  norm_num [V3.cross, V3.sub] at this

end Sdf
