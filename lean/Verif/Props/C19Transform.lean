import Verif.Model.Combine3
import Verif.Model.Combine2
import Verif.Lemmas.Matrix
import Verif.Spec.Shape

/-! C19: `Transform3D`, `Transform2D` and `ScaleUniform3D`, `ScaleUniform2D` move the shape. -/

namespace Sdf

/-- The transformed shape has at `m q` the value the shape has at `q`; in particular it contains `m q` exactly
when the shape contains `q`. -/
theorem C19_transform3 (s : SDF3) (m : M44) (ha : m.Affine) (hd : m.toMatrix.det ≠ 0) (q : V3) :
    (s.transform m).eval (m.mulPosition q) = s.eval q ∧
    ((s.transform m).Inside (m.mulPosition q) ↔ s.Inside q) := by
  have e : (s.transform m).eval (m.mulPosition q) = s.eval q := by
    simp only [SDF3.transform]; rw [M44.inverse_mulPosition ha (by rwa [M44.det_eq])]
  exact ⟨e, by simp only [SDF3.Inside, e]⟩

/-- As `C19_transform3`, in the plane. -/
theorem C19_transform2 (s : SDF2) (m : M33) (ha : m.Affine) (hd : m.toMatrix.det ≠ 0) (q : V2) :
    (s.transform m).eval (m.mulPosition q) = s.eval q ∧
    ((s.transform m).Inside (m.mulPosition q) ↔ s.Inside q) := by
  have e : (s.transform m).eval (m.mulPosition q) = s.eval q := by
    simp only [SDF2.transform]; rw [M33.inverse_mulPosition ha (by rwa [M33.det_eq])]
  exact ⟨e, by simp only [SDF2.Inside, e]⟩

/-- Every point of space is the image of a point, so `C19_transform3` determines the whole transformed shape:
it contains exactly the images of the points of `s`. -/
theorem C19_transform3_image (s : SDF3) (m : M44) (ha : m.Affine) (hd : m.toMatrix.det ≠ 0) (p : V3) :
    (s.transform m).Inside p ↔ ∃ q, s.Inside q ∧ m.mulPosition q = p := by
  have hd' : m.det ≠ 0 := by rwa [M44.det_eq]
  constructor
  · intro h
    exact ⟨m.inverse.mulPosition p, h, M44.mulPosition_inverse ha hd' p⟩
  · rintro ⟨q, hq, rfl⟩
    exact (C19_transform3 s m ha hd q).2.mpr hq

/-- As `C19_transform3_image`, in the plane. -/
theorem C19_transform2_image (s : SDF2) (m : M33) (ha : m.Affine) (hd : m.toMatrix.det ≠ 0) (p : V2) :
    (s.transform m).Inside p ↔ ∃ q, s.Inside q ∧ m.mulPosition q = p := by
  have hd' : m.det ≠ 0 := by rwa [M33.det_eq]
  constructor
  · intro h
    exact ⟨m.inverse.mulPosition p, h, M33.mulPosition_inverse ha hd' p⟩
  · rintro ⟨q, hq, rfl⟩
    exact (C19_transform2 s m ha hd q).2.mpr hq

/-- The bounds of the transformed shape contain the image of the bounds. -/
theorem C19_transform3_bounds (s : SDF3) (m : M44) (q : V3) (hq : s.bounds.Contains q) :
    (s.transform m).bounds.Contains (m.mulPosition q) := M44.mulBox_contains m s.bounds hq

/-- As `C19_transform3_bounds`, in the plane. -/
theorem C19_transform2_bounds (s : SDF2) (m : M33) (q : V2) (hq : s.bounds.Contains q) :
    (s.transform m).bounds.Contains (m.mulPosition q) := M33.mulBox_contains m s.bounds hq

/-- A rigid motion or mirroring keeps exact distances exact and Lipschitz shapes Lipschitz. -/
theorem C19_transform3_rigid (s : SDF3) (m : M44) (ha : m.Affine) (hd : m.toMatrix.det ≠ 0) (hi : m.Isometry) :
    (Lip3 s.eval → Lip3 (s.transform m).eval) ∧ (s.Exact → (s.transform m).Exact) := by
  have hd' : m.det ≠ 0 := by rwa [M44.det_eq]
  have hl : Lip3 s.eval → Lip3 (s.transform m).eval := by
    intro h p q
    simp only [SDF3.transform]
    refine le_trans (h _ _) (le_of_eq ?_)
    rw [← hi, M44.mulPosition_inverse ha hd', M44.mulPosition_inverse ha hd']
  refine ⟨hl, fun h => ⟨hl h.1, ?_⟩⟩
  intro p
  have hp := M44.mulPosition_inverse ha hd' p
  set p' := m.inverse.mulPosition p with hp'
  rw [← hp, (C19_transform3 s m ha hd p').1]
  obtain ⟨⟨q, hq, e⟩, hall⟩ := h.2 p'
  refine ⟨⟨m.mulPosition q, ?_, ?_⟩, ?_⟩
  · exact (C19_transform3 s m ha hd q).1.trans hq
  · rw [hi]; exact e
  · intro w hw
    have hw2 := M44.mulPosition_inverse ha hd' w
    rw [← hw2, (C19_transform3 s m ha hd _).1] at hw
    rw [← hw2, hi]
    exact hall _ hw

/-- As `C19_transform3_rigid`, in the plane. -/
theorem C19_transform2_rigid (s : SDF2) (m : M33) (ha : m.Affine) (hd : m.toMatrix.det ≠ 0) (hi : m.Isometry) :
    (Lip2 s.eval → Lip2 (s.transform m).eval) ∧ (s.Exact → (s.transform m).Exact) := by
  have hd' : m.det ≠ 0 := by rwa [M33.det_eq]
  have hl : Lip2 s.eval → Lip2 (s.transform m).eval := by
    intro h p q
    simp only [SDF2.transform]
    refine le_trans (h _ _) (le_of_eq ?_)
    rw [← hi, M33.mulPosition_inverse ha hd', M33.mulPosition_inverse ha hd']
  refine ⟨hl, fun h => ⟨hl h.1, ?_⟩⟩
  intro p
  have hp := M33.mulPosition_inverse ha hd' p
  set p' := m.inverse.mulPosition p with hp'
  rw [← hp, (C19_transform2 s m ha hd p').1]
  obtain ⟨⟨q, hq, e⟩, hall⟩ := h.2 p'
  refine ⟨⟨m.mulPosition q, ?_, ?_⟩, ?_⟩
  · exact (C19_transform2 s m ha hd q).1.trans hq
  · rw [hi]; exact e
  · intro w hw
    have hw2 := M33.mulPosition_inverse ha hd' w
    rw [← hw2, (C19_transform2 s m ha hd _).1] at hw
    rw [← hw2, hi]
    exact hall _ hw

theorem V3.dist_scale (k : ℝ) (hk : 0 < k) (p q : V3) : V3.dist (V3.scale k p) (V3.scale k q) = k * V3.dist p q := by
  have : V3.sub (V3.scale k p) (V3.scale k q) = V3.scale k (V3.sub p q) := by
    ext <;> simp only [V3.sub, V3.scale] <;> ring
  rw [V3.dist, this, V3.norm_scale, abs_of_pos hk]; rfl

theorem V2.dist_scale (k : ℝ) (hk : 0 < k) (p q : V2) : V2.dist (V2.scale k p) (V2.scale k q) = k * V2.dist p q := by
  have : V2.sub (V2.scale k p) (V2.scale k q) = V2.scale k (V2.sub p q) := by
    ext <;> simp only [V2.sub, V2.scale] <;> ring
  rw [V2.dist, this, V2.norm_scale, abs_of_pos hk]; rfl

/-- Uniform scaling by `k > 0`: the value at `k q` is `k` times the value at `q`, the bounds contain the scaled
bounds, and exactness and the Lipschitz condition are kept. -/
theorem C19_scale3 (s : SDF3) (k : ℝ) (hk : 0 < k) :
    (∀ q, (s.scaleUniform k).eval (V3.scale k q) = k * s.eval q) ∧
    (∀ q, (s.scaleUniform k).Inside (V3.scale k q) ↔ s.Inside q) ∧
    (∀ q, s.bounds.Contains q → (s.scaleUniform k).bounds.Contains (V3.scale k q)) ∧
    (Lip3 s.eval → Lip3 (s.scaleUniform k).eval) ∧ (s.Exact → (s.scaleUniform k).Exact) := by
  have hinv : ∀ q, V3.scale (1.0 / k) (V3.scale k q) = q := by
    intro q; ext <;> simp only [V3.scale] <;> field_simp <;> norm_num
  have hinv' : ∀ q, V3.scale k (V3.scale (1.0 / k) q) = q := by
    intro q; ext <;> simp only [V3.scale] <;> field_simp <;> norm_num
  have hv : ∀ q, (s.scaleUniform k).eval (V3.scale k q) = k * s.eval q := by
    intro q; simp only [SDF3.scaleUniform, hinv]; ring
  have hl : Lip3 s.eval → Lip3 (s.scaleUniform k).eval := by
    intro h p q
    rw [← hinv' p, ← hinv' q, hv, hv, V3.dist_scale k hk, ← mul_sub, abs_mul, abs_of_pos hk]
    exact mul_le_mul_of_nonneg_left (h _ _) hk.le
  refine ⟨hv, ?_, ?_, hl, fun h => ⟨hl h.1, ?_⟩⟩
  · intro q
    simp only [SDF3.Inside, hv]
    constructor
    · intro h
      by_contra hc
      push Not at hc
      nlinarith [mul_nonneg hk.le hc]
    · intro h; exact mul_neg_of_pos_of_neg hk h
  · intro q hq
    have := M44.mulBox_contains (M44.scale ⟨k, k, k⟩) s.bounds hq
    have e : (M44.scale ⟨k, k, k⟩).mulPosition q = V3.scale k q := by
      ext <;> simp only [M44.scale, M44.mulPosition, V3.scale] <;> ring
    rw [e] at this; exact this
  · intro p
    rw [← hinv' p, hv, abs_mul, abs_of_pos hk]
    obtain ⟨⟨q, hq, e⟩, hall⟩ := h.2 (V3.scale (1.0 / k) p)
    refine ⟨⟨V3.scale k q, ?_, ?_⟩, ?_⟩
    · show (s.scaleUniform k).eval _ = 0
      rw [hv, hq, mul_zero]
    · rw [V3.dist_scale k hk, e]
    · intro w hw
      rw [← hinv' w] at hw ⊢
      simp only [hv] at hw
      rw [V3.dist_scale k hk]
      refine mul_le_mul_of_nonneg_left (hall _ ?_) hk.le
      rcases mul_eq_zero.mp hw with h0 | h0
      · linarith
      · exact h0

/-- As `C19_scale3`, in the plane. -/
theorem C19_scale2 (s : SDF2) (k : ℝ) (hk : 0 < k) :
    (∀ q, (s.scaleUniform k).eval (V2.scale k q) = k * s.eval q) ∧
    (∀ q, (s.scaleUniform k).Inside (V2.scale k q) ↔ s.Inside q) ∧
    (∀ q, s.bounds.Contains q → (s.scaleUniform k).bounds.Contains (V2.scale k q)) ∧
    (Lip2 s.eval → Lip2 (s.scaleUniform k).eval) ∧ (s.Exact → (s.scaleUniform k).Exact) := by
  have hinv : ∀ q, V2.scale (1.0 / k) (V2.scale k q) = q := by
    intro q; ext <;> simp only [V2.scale] <;> field_simp <;> norm_num
  have hinv' : ∀ q, V2.scale k (V2.scale (1.0 / k) q) = q := by
    intro q; ext <;> simp only [V2.scale] <;> field_simp <;> norm_num
  have hv : ∀ q, (s.scaleUniform k).eval (V2.scale k q) = k * s.eval q := by
    intro q; simp only [SDF2.scaleUniform, hinv]; ring
  have hl : Lip2 s.eval → Lip2 (s.scaleUniform k).eval := by
    intro h p q
    rw [← hinv' p, ← hinv' q, hv, hv, V2.dist_scale k hk, ← mul_sub, abs_mul, abs_of_pos hk]
    exact mul_le_mul_of_nonneg_left (h _ _) hk.le
  refine ⟨hv, ?_, ?_, hl, fun h => ⟨hl h.1, ?_⟩⟩
  · intro q
    simp only [SDF2.Inside, hv]
    constructor
    · intro h
      by_contra hc
      push Not at hc
      nlinarith [mul_nonneg hk.le hc]
    · intro h; exact mul_neg_of_pos_of_neg hk h
  · intro q hq
    have := M33.mulBox_contains (M33.scale ⟨k, k⟩) s.bounds hq
    have e : (M33.scale ⟨k, k⟩).mulPosition q = V2.scale k q := by
      ext <;> simp only [M33.scale, M33.mulPosition, V2.scale] <;> ring
    rw [e] at this; exact this
  · intro p
    rw [← hinv' p, hv, abs_mul, abs_of_pos hk]
    obtain ⟨⟨q, hq, e⟩, hall⟩ := h.2 (V2.scale (1.0 / k) p)
    refine ⟨⟨V2.scale k q, ?_, ?_⟩, ?_⟩
    · show (s.scaleUniform k).eval _ = 0
      rw [hv, hq, mul_zero]
    · rw [V2.dist_scale k hk, e]
    · intro w hw
      rw [← hinv' w] at hw ⊢
      simp only [hv] at hw
      rw [V2.dist_scale k hk]
      refine mul_le_mul_of_nonneg_left (hall _ ?_) hk.le
      rcases mul_eq_zero.mp hw with h0 | h0
      · linarith
      · exact h0

/-- `Center2D` moves the centre of the bounding box to the origin. -/
theorem C19_center2 (s : SDF2) (q : V2) :
    (s.center).eval (V2.sub q s.bounds.center) = s.eval q ∧
    (s.bounds.Contains q → s.center.bounds.Contains (V2.sub q s.bounds.center)) := by
  set m := M33.translate (V2.scale (-1) s.bounds.center) with hm
  have ha : m.Affine := ⟨rfl, rfl, rfl⟩
  have hdet : m.det = 1 := by simp [hm, M33.translate, M33.det]
  have e : m.mulPosition q = V2.sub q s.bounds.center := by
    ext <;> simp only [hm, M33.translate, M33.mulPosition, V2.sub, V2.scale] <;> ring
  have h := C19_transform2 s m ha (by rw [← M33.det_eq, hdet]; norm_num) q
  have hb := C19_transform2_bounds s m q
  rw [e] at h hb
  exact ⟨h.1, hb⟩

/-- `CenterAndScale2D` moves the centre of the bounding box to the origin and scales from there. -/
theorem C19_centerAndScale2 (s : SDF2) (k : ℝ) (hk : 0 < k) (q : V2) :
    (s.centerAndScale k).eval (V2.scale k (V2.sub q s.bounds.center)) = k * s.eval q ∧
    (s.bounds.Contains q → (s.centerAndScale k).bounds.Contains (V2.scale k (V2.sub q s.bounds.center))) := by
  have h := C19_scale2 s.center k hk
  have hc := C19_center2 s q
  have e : s.centerAndScale k = s.center.scaleUniform k := rfl
  rw [e, h.1, hc.1]
  exact ⟨rfl, fun hq => h.2.2.1 _ (hc.2 hq)⟩

/-- The boxes of `Center2D` and `CenterAndScale2D` have the origin as their centre. -/
theorem C19_center2_box (s : SDF2) (k : ℝ) : s.center.bounds.center = ⟨0, 0⟩ ∧ (s.centerAndScale k).bounds.center = ⟨0, 0⟩ := by
  have key : ∀ b : Box2, (b.lo.x = -b.hi.x ∧ b.lo.y = -b.hi.y) → b.center = ⟨0, 0⟩ := by
    rintro b ⟨h1, h2⟩
    simp only [Box2.center, Box2.size, V2.add, V2.scale, V2.sub, h1, h2, V2.mk.injEq]
    constructor <;> norm_num <;> ring
  have hmm : ∀ a b : ℝ, min a b = a + b - max a b := fun a b => by linarith [min_add_max a b]
  have hs : s.center.bounds.lo.x = -s.center.bounds.hi.x ∧ s.center.bounds.lo.y = -s.center.bounds.hi.y := by
    simp only [SDF2.center, SDF2.transform, M33.mulBox, M33.translate, Box2.center, Box2.size, V2.add, V2.scale, V2.sub, V2.minElem,
      V2.maxElem, hmm]
    constructor <;> norm_num <;> ring
  refine ⟨key _ hs, key _ ?_⟩
  have e : (s.centerAndScale k).bounds = (M33.scale ⟨k, k⟩).mulBox s.center.bounds := rfl
  rw [e]
  simp only [M33.mulBox, M33.scale, V2.add, V2.scale, V2.minElem, V2.maxElem, hmm, hs]
  constructor <;> ring

/-- Non-vacuity: a translation satisfies the hypotheses. -/
example : (M44.translate ⟨1, 2, 3⟩).Affine ∧ (M44.translate ⟨1, 2, 3⟩).toMatrix.det ≠ 0 ∧
    (M44.translate ⟨1, 2, 3⟩).Isometry := by
  refine ⟨⟨rfl, rfl, rfl, rfl⟩, ?_, ?_⟩
  · rw [← M44.det_eq]; norm_num [M44.translate, M44.det]
  · intro p q
    unfold V3.dist; congr 1
    ext <;> simp only [M44.translate, M44.mulPosition, V3.sub] <;> ring

end Sdf
