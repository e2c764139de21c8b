import Verif.Props.C40Transform
import Verif.Props.C20Equals

/-! C40: comparison, sums and multiples of transforms. -/

namespace Sdf

/-- Comparing transforms is comparing the matrices they stand for, entry by entry. -/
theorem C40_equals (a b : T3) (t : ℝ) : a.equals b t ↔ ∀ i j, |a.matrix i j - b.matrix i j| < t := by
  simp only [T3.equals, T3.matrix, Fin.forall_fin_succ, Fin.isValue, IsEmpty.forall_iff, and_true]
  simp [and_assoc]

/-- Sums and multiples of plane transforms are those of their matrices. -/
theorem C40_plane_linear (a b : T2) (k : ℝ) : (T2.add a b).toMatrix = a.toMatrix + b.toMatrix ∧ (T2.scaleBy a k).toMatrix = k • a.toMatrix := by
  constructor <;>
  · ext i j
    fin_cases i <;> fin_cases j <;> simp [T2.add, T2.scaleBy, M33.toMatrix, mul_comm]

/-- Non-vacuity: a shift by a hundredth is within a tenth of the identity. -/
example : T3.zeroValue.equals (T3.zeroValue.translate ⟨0.01, 0, 0⟩) 0.1 := by
  simp only [T3.equals, T3.zeroValue, T3.translate]
  norm_num

end Sdf
