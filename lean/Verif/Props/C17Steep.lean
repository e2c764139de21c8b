import Verif.Props.C18Primitives
import Verif.Props.C35Parts
import Verif.Props.C23RotateCopy
import Verif.Props.C26Extrude
import Verif.Props.C36Screw
import Mathlib.Analysis.Real.Pi.Bounds

/-! C17: the constructors that overestimate.  Each makes, from exact figures, a shape whose value at some point exceeds the distance to a
point of the shape. -/

namespace Sdf

/-- The value at some point is larger than the distance to a point of the solid. -/
def SDF3.Overestimates (s : SDF3) : Prop := ∃ p q, s.eval q ≤ 0 ∧ V3.dist p q < s.eval p

/-- As `SDF3.Overestimates`, in the plane. -/
def SDF2.Overestimates (s : SDF2) : Prop := ∃ p q, s.eval q ≤ 0 ∧ V2.dist p q < s.eval p

/-- Overestimating is what being 1-Lipschitz excludes. -/
theorem SDF3.Overestimates.not_lip {s : SDF3} (h : s.Overestimates) : ¬ Lip3 s.eval := by
  intro hl
  obtain ⟨p, q, h1, h2⟩ := h
  have := (abs_le.1 (hl p q)).2
  linarith

theorem SDF2.Overestimates.not_lip {s : SDF2} (h : s.Overestimates) : ¬ Lip2 s.eval := by
  intro hl
  obtain ⟨p, q, h1, h2⟩ := h
  have := (abs_le.1 (hl p q)).2
  linarith

/-- A loft of height 1 between discs of radius 3 and 1: the side is so flat that values are twice the distance. -/
theorem C17_loft_wrong : ∃ s0 s1, Must2.circle 3 = some s0 ∧ Must2.circle 1 = some s1 ∧ s0.Exact ∧ s1.Exact ∧
    (SDF3.loft s0 s1 1 0).Overestimates := by
  obtain ⟨s0, h0, e0, -⟩ := C18_circle 3 (by norm_num)
  obtain ⟨s1, h1, e1, -⟩ := C18_circle 1 (by norm_num)
  refine ⟨s0, s1, h0, h1, e0, e1, ⟨2, 0, 1/2⟩, ⟨2, 0, 0⟩, ?_⟩
  unfold Must2.circle at h0 h1
  rw [if_neg (by norm_num)] at h0 h1
  cases h0
  cases h1
  have n2 : V2.norm ⟨2, 0⟩ = 2 := V2.norm_eq_of (by norm_num) (by norm_num)
  have ev : ∀ z : ℝ, 0 ≤ z → z ≤ 1/2 → (SDF3.loft ⟨fun p => V2.norm p - 3, ⟨V2.scale (-1) ⟨3, 3⟩, ⟨3, 3⟩⟩⟩
      ⟨fun p => V2.norm p - 1, ⟨V2.scale (-1) ⟨1, 1⟩, ⟨1, 1⟩⟩⟩ 1 0).eval ⟨2, 0, z⟩ = 2 * z := by
    intro z hz hz1
    unfold SDF3.loft
    rw [if_neg (by norm_num), if_neg (by norm_num), if_neg (by norm_num)]
    simp only [n2]
    have hk : clamp (0.5 * z / (1 / 2 - 0) + 0.5) 0 1 = z + 1/2 := by
      unfold clamp
      rw [if_neg (by norm_num; linarith), if_neg (by norm_num; linarith)]
      norm_num
    rw [hk]
    have hm : mix (2 - 3) (2 - 1) (z + 1/2) = 2 * z := by unfold mix; ring
    rw [hm, abs_of_nonneg hz]
    unfold SDF3.roundJoin
    rw [if_neg (by linarith), if_neg (by linarith)]
    ring
  rw [ev 0 le_rfl (by norm_num), ev (1/2) (by norm_num) le_rfl]
  refine ⟨by norm_num, ?_⟩
  unfold V3.dist
  rw [V3.norm_eq_of (r := 1/2) (by norm_num) (by norm_num [V3.sub])]
  norm_num

/-- A disc of radius 1 extruded to height 1 while shrinking to a tenth. -/
theorem C17_scaleExtrude_wrong : ∃ s, Must2.circle 1 = some s ∧ s.Exact ∧ (SDF3.scaleExtrude s 1 ⟨1/10, 1/10⟩).Overestimates := by
  obtain ⟨s, h, e, -⟩ := C18_circle 1 (by norm_num)
  refine ⟨s, h, e, ⟨2, 0, 0⟩, ⟨0, 0, 0⟩, ?_⟩
  unfold Must2.circle at h
  rw [if_neg (by norm_num)] at h
  cases h
  have ev : ∀ x : ℝ, 0 ≤ x → (SDF3.scaleExtrude ⟨fun p => V2.norm p - 1, ⟨V2.scale (-1) ⟨1, 1⟩, ⟨1, 1⟩⟩⟩ 1 ⟨1/10, 1/10⟩).eval ⟨x, 0, 0⟩ =
      max (11/2 * x - 1) (-1/2) := by
    intro x hx
    simp only [SDF3.scaleExtrude, SDF3.extrudeEval, Sdf.scaleExtrude]
    rw [V2.norm_eq_of (r := 11/2 * x) (by positivity) (by
      simp only [V2.mulElem, V2.add, V2.scale, V2.divElem, V2.sub, V2.elem]
      norm_num
      ring)]
    norm_num
  rw [ev 0 le_rfl, ev 2 (by norm_num)]
  refine ⟨by norm_num, ?_⟩
  unfold V3.dist
  rw [V3.norm_eq_of (r := 2) (by norm_num) (by norm_num [V3.sub])]
  norm_num

/-- A bar of 20 by 2 twisted by a full turn over height 1. -/
theorem C17_twist_wrong : (Must2.box ⟨20, 2⟩ 0).Exact ∧ (SDF3.twistExtrude (Must2.box ⟨20, 2⟩ 0) 1 (2 * Real.pi)).Overestimates := by
  refine ⟨(C18_box2 ⟨20, 2⟩ 0 le_rfl (by norm_num) (by norm_num)).1, ⟨5, 0, 1/4⟩, ⟨5, 0, 0⟩, ?_, ?_⟩
  · have e : Sdf.twistExtrude 1 (2 * Real.pi) ⟨5, 0, 0⟩ = ⟨5, 0⟩ := by
      simp [Sdf.twistExtrude, M22.rotate, M22.mulPosition]
    simp only [SDF3.twistExtrude, SDF3.extrudeEval, e]
    refine max_le ?_ (by norm_num)
    simp only [Must2.box, sub_zero]
    rw [(sdfBox2d_le_zero _ _).1]
    simp only [V2.sub, V2.scale, V2.elem]
    norm_num
  · have e : Sdf.twistExtrude 1 (2 * Real.pi) ⟨5, 0, 1/4⟩ = ⟨0, 5⟩ := by
      have a : (1/4 : ℝ) * (2 * Real.pi / 1) = Real.pi / 2 := by ring
      simp only [Sdf.twistExtrude, M22.rotate, M22.mulPosition, a]
      simp
    simp only [SDF3.twistExtrude, SDF3.extrudeEval, e]
    refine lt_max_of_lt_left ?_
    have h := (sdfBox2d_ge ⟨0, 5⟩ ⟨10, 1⟩).2
    have hb : (Must2.box ⟨20, 2⟩ 0).eval ⟨0, 5⟩ = sdfBox2d ⟨0, 5⟩ ⟨10, 1⟩ := by
      simp only [Must2.box, sub_zero]
      congr 1
      ext <;> simp only [V2.sub, V2.scale, V2.elem] <;> norm_num
    rw [hb]
    unfold V3.dist
    rw [V3.norm_eq_of (r := 1/4) (by norm_num) (by norm_num [V3.sub])]
    rw [abs_of_pos (by norm_num)] at h
    simp only at h
    linarith

/-- Two copies of a disc of radius 1 about `(2, 2)`: the value jumps across the line between the sectors. -/
theorem C17_rotateCopy_wrong : ∃ d s t : SDF2, Must2.circle 1 = some d ∧ s = d.transform (M33.translate ⟨2, 2⟩) ∧ s.Exact ∧
    s.rotateCopy 2 = some t ∧ t.Overestimates := by
  obtain ⟨d, h, e, -⟩ := C18_circle 1 (by norm_num)
  have hr := M33.translate_rigid ⟨2, 2⟩
  have hev : ∀ p, (d.transform (M33.translate ⟨2, 2⟩)).eval p = V2.norm (V2.sub p ⟨2, 2⟩) - 1 := by
    intro p
    have e := (C19_transform2 d (M33.translate ⟨2, 2⟩) hr.1 hr.2.1 (V2.sub p ⟨2, 2⟩)).1
    rw [M33.translate_mulPosition, show V2.add (V2.sub p ⟨2, 2⟩) ⟨2, 2⟩ = p by ext <;> simp [V2.add, V2.sub]] at e
    rw [e]
    unfold Must2.circle at h
    rw [if_neg (by norm_num)] at h
    cases h
    rfl
  have hpi := Real.pi_pos
  refine ⟨d, _, _, h, rfl, (C19_transform2_rigid d _ hr.1 hr.2.1 hr.2.2).2 e, if_neg (by norm_num), ⟨0, 2⟩, ⟨2, 2⟩, ?_, ?_⟩
  · simp only
    obtain ⟨m, hm⟩ := atan2_spec 2 2 (2 * Real.sqrt 2) (Real.pi / 4) (by positivity)
      (by rw [Real.cos_pi_div_four]; nlinarith [Real.mul_self_sqrt (show (0:ℝ) ≤ 2 by norm_num)])
      (by rw [Real.sin_pi_div_four]; nlinarith [Real.mul_self_sqrt (show (0:ℝ) ≤ 2 by norm_num)])
    have e1 : sawTooth (atan2 2 2) (2 * Real.pi / ((2 : ℤ) : ℝ)) = Real.pi / 4 := by
      have e2 : (2 * Real.pi / ((2 : ℤ) : ℝ)) = Real.pi := by push_cast; ring
      rw [hm, e2, show Real.pi / 4 + m * (2 * Real.pi) = Real.pi / 4 + ((2 * m : ℤ) : ℝ) * Real.pi by push_cast; ring,
        sawTooth_shift hpi, sawTooth_id hpi (by linarith) (by linarith)]
    rw [e1, hev]
    have n : V2.norm ⟨2, 2⟩ = 2 * Real.sqrt 2 := V2.norm_eq_of (by positivity) (by
      simp only; nlinarith [Real.mul_self_sqrt (show (0:ℝ) ≤ 2 by norm_num)])
    have e3 : V2.polarToXY (V2.norm ⟨2, 2⟩) (Real.pi / 4) = ⟨2, 2⟩ := by
      rw [n]
      unfold V2.polarToXY
      rw [Real.cos_pi_div_four, Real.sin_pi_div_four]
      ext <;> simp only <;> nlinarith [Real.mul_self_sqrt (show (0:ℝ) ≤ 2 by norm_num)]
    rw [e3, V2.norm_eq_of (r := 0) le_rfl (by simp [V2.sub])]
    norm_num
  · simp only
    obtain ⟨m, hm⟩ := atan2_spec 0 2 2 (Real.pi / 2) (by positivity) (by simp) (by simp)
    have e1 : sawTooth (atan2 2 0) (2 * Real.pi / ((2 : ℤ) : ℝ)) = -(Real.pi / 2) := by
      have e2 : (2 * Real.pi / ((2 : ℤ) : ℝ)) = Real.pi := by push_cast; ring
      rw [hm, e2, show Real.pi / 2 + m * (2 * Real.pi) = -(Real.pi / 2) + ((2 * m + 1 : ℤ) : ℝ) * Real.pi by push_cast; ring,
        sawTooth_shift hpi, sawTooth_id hpi le_rfl (by linarith)]
    rw [e1, hev]
    have n : V2.norm ⟨0, 2⟩ = 2 := V2.norm_eq_of (by positivity) (by norm_num)
    have e3 : V2.polarToXY (V2.norm ⟨0, 2⟩) (-(Real.pi / 2)) = ⟨0, -2⟩ := by
      rw [n]
      unfold V2.polarToXY
      ext <;> simp
    rw [e3]
    unfold V2.dist
    rw [V2.norm_eq_of (a := V2.sub ⟨0, 2⟩ ⟨2, 2⟩) (r := 2) (by norm_num) (by norm_num [V2.sub])]
    have := (le_abs_self _).trans (V2.abs_y_le (V2.sub ⟨2, 2⟩ ⟨0, -2⟩))
    have hsym := V2.norm_neg_sub ⟨0, -2⟩ ⟨2, 2⟩
    rw [hsym]
    simp only [V2.sub] at this ⊢
    norm_num at this ⊢
    linarith

/-- A screw: a square thread of pitch 4, where the flank is nearer along a slope than straight along the axis. -/
theorem C17_screw_wrong (u : SDF3) (hu : Thread.screw 20 (some (squareThread 0)) = .ok ⟨some u, false⟩) :
    (Must2.box ⟨2, 6⟩ 0).Exact ∧ u.Overestimates := by
  have hpi := Real.pi_pos
  have hpi3 := Real.pi_lt_d2
  refine ⟨(C18_box2 ⟨2, 6⟩ 0 le_rfl (by norm_num) (by norm_num)).1, ⟨2, 0, 2⟩, ⟨2 * Real.cos (Real.pi / 20), 2 * Real.sin (Real.pi / 20), 1.1⟩, ?_, ?_⟩
  · rw [square_value u hu 1.1 (Real.pi / 20) 1 0 (by norm_num) (by norm_num) (by field_simp; norm_num)]
    norm_num [sdfBox2d, V2.absElem, V2.sub]
  · have v := square_value u hu 2 0 (-2) 1 (by norm_num) (by norm_num) (by norm_num)
    simp only [Real.cos_zero, Real.sin_zero, mul_one, mul_zero] at v
    rw [v]
    have e : max (sdfBox2d ⟨-2, 2⟩ ⟨1, 3⟩) (|2| - 10) = 1 := by norm_num [sdfBox2d, V2.absElem, V2.sub]
    rw [e]
    unfold V3.dist V3.norm
    rw [Real.sqrt_lt' one_pos]
    simp only [V3.sub]
    have h1 := Real.one_sub_sq_div_two_le_cos (x := Real.pi / 20)
    have h2 := Real.sin_sq_add_cos_sq (Real.pi / 20)
    have h3 : Real.pi * Real.pi < 10 := by nlinarith
    nlinarith

end Sdf
