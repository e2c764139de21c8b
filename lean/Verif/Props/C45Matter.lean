import Verif.Model.Matter
import Verif.Props.C19Transform

/-!
C45: material compensation.  A printed part contracts: the point printed at `p` ends up at `f p`, `f` being the
contraction factor.  With `f = 1 / (1 + shrink)` the result is the nominal part; with `f = 1 - shrink`, the other common
reading of "0.3% shrinkage", it is too small by the factor `1 - shrink²`.
-/

namespace Sdf

/-- The solid occupied by a part made from `s` after contraction by the factor `f`: the point `p` belongs to it when the
place it came from, `p / f`, was inside. -/
def ContractedInside (s : SDF3) (f : ℝ) (p : V3) : Prop := s.Inside (V3.scale (1 / f) p)

/-- The compensated part, contracted by `1 / (1 + shrink)`, is the nominal part. -/
theorem C45_nominal (m : Viscoelastic) (hm : -1 < m.shrink) (s : SDF3) (p : V3) :
    ContractedInside (m.scale s) (1 / (1 + m.shrink)) p ↔ s.Inside p := by
  unfold ContractedInside
  rw [one_div_one_div]
  exact (C19_scale3 s (1 + m.shrink) (by linarith)).2.1 p

/-- The compensated part is the nominal one enlarged by `1 + shrink`, distances included, and its box contains the
enlarged box. -/
theorem C45_scale (m : Viscoelastic) (hm : -1 < m.shrink) (s : SDF3) (p : V3) :
    (m.scale s).eval (V3.scale (1 + m.shrink) p) = (1 + m.shrink) * s.eval p ∧
      (s.bounds.Contains p → (m.scale s).bounds.Contains (V3.scale (1 + m.shrink) p)) :=
  ⟨(C19_scale3 s (1 + m.shrink) (by linarith)).1 p, (C19_scale3 s (1 + m.shrink) (by linarith)).2.2.1 p⟩

/-- Contracted by `1 - shrink` instead, it is the nominal part shrunk by `1 - shrink²`. -/
theorem C45_linear (m : Viscoelastic) (h0 : -1 < m.shrink) (h1 : m.shrink < 1) (s : SDF3) (p : V3) :
    ContractedInside (m.scale s) (1 - m.shrink) (V3.scale (1 - m.shrink ^ 2) p) ↔ s.Inside p := by
  unfold ContractedInside
  rw [show V3.scale (1 / (1 - m.shrink)) (V3.scale (1 - m.shrink ^ 2) p) = V3.scale (1 + m.shrink) p by
    have : 1 - m.shrink ≠ 0 := by linarith
    ext <;> simp only [V3.scale] <;> field_simp <;> ring]
  exact (C19_scale3 s (1 + m.shrink) (by linarith)).2.1 p

/-- Internal dimensions: a panic exactly for dimensions that are not positive; otherwise the compensation is undone by
removing the pull and contracting by `1 / (1 + shrink)`, and it is strictly increasing. -/
theorem C45_internal (m : Viscoelastic) (hm : -1 < m.shrink) (d : ℝ) :
    (m.internalDimScale d = none ↔ d ≤ 0) ∧
      (∀ r, m.internalDimScale d = some r → (r - m.pullShrink) / (1 + m.shrink) = d) ∧
      (∀ d' r r', d < d' → m.internalDimScale d = some r → m.internalDimScale d' = some r' → r < r') := by
  unfold Viscoelastic.internalDimScale
  refine ⟨?_, ?_, ?_⟩
  · split <;> simp_all
  · intro r h
    split at h
    · cases h
    · cases h
      field_simp [show 1 + m.shrink ≠ 0 by linarith]
      ring_nf
  · intro d' r r' hlt h h'
    split at h
    · cases h
    · split at h'
      · cases h'
      · cases h; cases h'
        nlinarith

/-- With the material of the library an internal dimension grows: the hole is drawn larger than nominal. -/
theorem C45_pla (d r : ℝ) (h : pla.internalDimScale d = some r) : d < r := by
  unfold Viscoelastic.internalDimScale at h
  split at h
  · cases h
  · cases h
    norm_num [pla]
    linarith

/-- The ideal material changes nothing. -/
theorem C45_ideal (s : SDF3) (d : ℝ) : idealScale s = s ∧ idealInternalDimScale d = d := ⟨rfl, rfl⟩

/-! Non-vacuity. -/
example : -1 < pla.shrink ∧ pla.shrink < 1 ∧ pla.internalDimScale 10 = some (10 * (0.3e-2 + 1) + 0.45) := by
  refine ⟨by norm_num [pla], by norm_num [pla], ?_⟩
  simp [Viscoelastic.internalDimScale, pla]

end Sdf
