import Verif.Lemmas.Vec
import Verif.Spec.Shape

/-! A ball, used to show that hypotheses of theorems are met by a concrete shape. -/

namespace Sdf

/-- Signed distance to the sphere of radius 1 around the origin, with its exact bounding box. -/
noncomputable def unitBall : SDF3 := ⟨fun p => V3.norm p - 1, ⟨⟨-1, -1, -1⟩, ⟨1, 1, 1⟩⟩⟩

theorem unitBall_lip : Lip3 unitBall.eval := by
  intro p q
  unfold unitBall
  simp only
  have e : p.norm - 1 - (q.norm - 1) = p.norm - q.norm := by ring
  rw [e]
  exact V3.norm_sub_le p q

theorem unitBall_bounded : unitBall.Bounded := by
  intro p hp
  simp only [unitBall] at hp
  have hx := abs_le.mp ((V3.abs_x_le p))
  have hy := abs_le.mp ((V3.abs_y_le p))
  have hz := abs_le.mp ((V3.abs_z_le p))
  simp only [unitBall, Box3.Contains]
  refine ⟨?_, ?_, ?_, ?_, ?_, ?_⟩ <;> linarith [hx.1, hx.2, hy.1, hy.2, hz.1, hz.2]

theorem unitBall_solid : unitBall.bounds.Solid := by
  simp only [unitBall, Box3.Solid]; norm_num

end Sdf
