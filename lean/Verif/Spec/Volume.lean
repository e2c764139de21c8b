import Verif.Spec.Mesh
import Mathlib.MeasureTheory.Measure.Lebesgue.Basic

/-! Specification vocabulary: the volume of a region of space. -/

namespace Sdf

/-- The volume (Lebesgue measure) of a region of space. -/
noncomputable def regionVolume (S : Set V3) : ENNReal := MeasureTheory.volume {q : ℝ × ℝ × ℝ | (⟨q.1, q.2.1, q.2.2⟩ : V3) ∈ S}

end Sdf
