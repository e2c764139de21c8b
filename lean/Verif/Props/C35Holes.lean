import Verif.Props.C35Parts
import Verif.Props.C62Convex
import Verif.Props.C23RotateCopy
import Verif.Props.C18Primitives
import Verif.Props.C20Matrix

/-!
C35: panel holes, the webs of standoffs and the ridges of euro-rack panels as sets of points.
-/

namespace Sdf

open Must2 Polygon Obj3

theorem inside_moved (s : SDF3) (v p : V3) : (s.transform (M44.translate v)).Inside p ↔ s.Inside (V3.sub p v) := by
  have h := (C19_transform3 s _ (M44.translate_affine v).1 (M44.translate_affine v).2 (V3.sub p v)).2
  rwa [M44.translate_mulPosition, show V3.add (V3.sub p v) v = p by ext <;> simp [V3.add, V3.sub]] at h

theorem M44.rotateZ_affine (a : ℝ) : (M44.rotateZ a).Affine ∧ (M44.rotateZ a).toMatrix.det ≠ 0 := by
  refine ⟨(M44.rotate_isRotation (by simp) a).1, ?_⟩
  rw [← M44.det_eq]
  have h := Real.sin_sq_add_cos_sq a
  simp only [M44.rotateZ, M44.rotate, V3.unit_z, M44.det]
  have : (1 : ℝ) ≠ 0 := one_ne_zero
  convert this using 1
  linear_combination h

theorem M44.rotateX_affine (a : ℝ) : (M44.rotateX a).Affine ∧ (M44.rotateX a).toMatrix.det ≠ 0 := by
  refine ⟨(M44.rotate_isRotation (by simp) a).1, ?_⟩
  rw [← M44.det_eq]
  have h := Real.sin_sq_add_cos_sq a
  simp only [M44.rotateX, M44.rotate, V3.unit_x, M44.det]
  have : (1 : ℝ) ≠ 0 := one_ne_zero
  convert this using 1
  linear_combination h

/-- `PanelHole` panics exactly for a hole without width or depth and for negative measures of the indent. -/
theorem C35_panelHole_panics (k : PanelHoleParams) : panelHole k = none ↔
    k.diameter ≤ 0 ∨ k.thickness ≤ 0 ∨ k.indent.x < 0 ∨ k.indent.y < 0 ∨ k.indent.z < 0 ∨ k.offset < 0 := by
  unfold panelHole
  by_cases h1 : k.diameter ≤ 0
  · simp [h1]
  by_cases h2 : k.thickness ≤ 0
  · simp [h2]
  by_cases h3 : k.indent.x < 0 ∨ k.indent.y < 0 ∨ k.indent.z < 0
  · simp only [h1, h2, if_false, if_pos h3, true_iff]
    tauto
  by_cases h4 : k.offset < 0
  · simp [h4]
  rw [if_neg h1, if_neg h2, if_neg h3, if_neg h4]
  have hr : ¬ (k.diameter ≤ 0 ∨ k.thickness ≤ 0 ∨ k.indent.x < 0 ∨ k.indent.y < 0 ∨ k.indent.z < 0 ∨ k.offset < 0) := by tauto
  simp only [hr, iff_false]
  push Not at h1 h2 h3 h4
  obtain ⟨c, hc, -⟩ := cyl0 (H := k.thickness) (R := k.diameter * 0.5) (by norm_num; linarith) h2.le
  rw [hc]
  simp only [Option.bind_eq_bind, Option.bind_some]
  by_cases h5 : k.offset = 0 ∨ k.indent.x = 0 ∨ k.indent.y = 0 ∨ k.indent.z = 0
  · simp [if_pos h5]
  · rw [if_neg h5]
    push Not at h5
    obtain ⟨b, hb, -⟩ := C18_box3 k.indent 0 (lt_of_le_of_ne h3.1 (Ne.symm h5.2.1)) (lt_of_le_of_ne h3.2.1 (Ne.symm h5.2.2.1))
      (lt_of_le_of_ne h3.2.2 (Ne.symm h5.2.2.2)) le_rfl (by linarith [h3.1]) (by linarith [h3.2.1]) (by linarith [h3.2.2])
    rw [hb]
    simp only [Option.bind_some, SDF3.unionList]
    split <;> simp

/-- The shape of a panel hole: a round hole through the whole thickness, and, if an indent is asked for, a cuboid sunk into the upper
side with its centre at the distance `offset` from the axis, in the direction `orientation`.  -/
theorem C35_panelHole_shape (k : PanelHoleParams) (s : SDF3) (h : panelHole k = some s) (p : V3) :
    s.Inside p ↔ (axisDist p < k.diameter / 2 ∧ |p.z| < k.thickness / 2) ∨
      (0 < k.offset ∧ ∃ q : V3, p = V3.turned k.orientation q ∧ |q.x - k.offset| < k.indent.x / 2 ∧ |q.y| < k.indent.y / 2 ∧
        k.thickness / 2 - k.indent.z < q.z ∧ q.z < k.thickness / 2) := by
  have hn : ¬ (k.diameter ≤ 0 ∨ k.thickness ≤ 0 ∨ k.indent.x < 0 ∨ k.indent.y < 0 ∨ k.indent.z < 0 ∨ k.offset < 0) := by
    rw [← C35_panelHole_panics, h]; simp
  unfold panelHole at h
  rw [if_neg (by tauto), if_neg (by tauto), if_neg (by tauto), if_neg (by tauto)] at h
  push Not at hn
  obtain ⟨h1, h2, hx, hy, hz, h4⟩ := hn
  obtain ⟨c, hc, hi, -⟩ := cyl0 (H := k.thickness) (R := k.diameter * 0.5) (by norm_num; linarith) h2.le
  have hi' : ∀ p, c.Inside p ↔ axisDist p < k.diameter / 2 ∧ |p.z| < k.thickness / 2 := by
    intro p
    rw [hi p, axisDist]; norm_num; intro _; rw [mul_one_div]
  rw [hc] at h
  simp only [Option.bind_eq_bind, Option.bind_some] at h
  by_cases h5 : k.offset = 0 ∨ k.indent.x = 0 ∨ k.indent.y = 0 ∨ k.indent.z = 0
  · rw [if_pos h5] at h
    cases h
    rw [hi' p]
    constructor
    · exact Or.inl
    · rintro (h | ⟨ho, q, -, a, b, c, d⟩)
      · exact h
      · exfalso
        have a' := (abs_nonneg _).trans_lt a
        have b' := (abs_nonneg _).trans_lt b
        rcases h5 with h | h | h | h <;> linarith
  · rw [if_neg h5] at h
    push Not at h5
    have hx' := lt_of_le_of_ne hx (Ne.symm h5.2.1)
    have hy' := lt_of_le_of_ne hy (Ne.symm h5.2.2.1)
    have hz' := lt_of_le_of_ne hz (Ne.symm h5.2.2.2)
    have ho := lt_of_le_of_ne h4 (Ne.symm h5.1)
    obtain ⟨b, hb, -, hbi, -⟩ := C18_box3 k.indent 0 hx' hy' hz' le_rfl (by linarith) (by linarith) (by linarith)
    rw [hb] at h
    simp only [Option.bind_some, SDF3.unionList] at h
    have hu : ∀ q, (SDF3.union c [b.transform (M44.translate ⟨k.offset, 0, (k.thickness - k.indent.z) * 0.5⟩)]).Inside q ↔
        (axisDist q < k.diameter / 2 ∧ |q.z| < k.thickness / 2) ∨ (|q.x - k.offset| < k.indent.x / 2 ∧ |q.y| < k.indent.y / 2 ∧
          k.thickness / 2 - k.indent.z < q.z ∧ q.z < k.thickness / 2) := by
      intro q
      rw [C16_union3]
      simp only [List.mem_cons, List.not_mem_nil, or_false, exists_eq_or_imp, exists_eq_left, hi', inside_moved, hbi rfl, V3.sub, sub_zero]
      refine or_congr Iff.rfl (and_congr Iff.rfl (and_congr Iff.rfl ?_))
      rw [abs_lt]
      norm_num
      constructor <;> rintro ⟨a, b⟩ <;> constructor <;> linarith
    have hd : ∀ q, axisDist (V3.turned k.orientation q) = axisDist q := by
      intro q
      have := Real.sin_sq_add_cos_sq k.orientation
      simp only [axisDist, V2.norm, V3.turned]
      congr 1
      linear_combination (q.x ^ 2 + q.y ^ 2) * this
    have ht : s.Inside p ↔ ∃ q, p = V3.turned k.orientation q ∧
        (SDF3.union c [b.transform (M44.translate ⟨k.offset, 0, (k.thickness - k.indent.z) * 0.5⟩)]).Inside q := by
      by_cases hor : k.orientation = 0
      · rw [if_neg (by simpa using hor)] at h
        cases h
        simp [hor, V3.turned]
      · rw [if_pos hor] at h
        cases h
        rw [C19_transform3_image _ _ (M44.rotateZ_affine _).1 (M44.rotateZ_affine _).2]
        refine exists_congr fun q => ?_
        rw [(C20_rotate_axes k.orientation).2.2.1 q, and_comm, eq_comm]
        exact Iff.rfl
    rw [ht]
    constructor
    · rintro ⟨q, rfl, hq⟩
      rcases (hu q).mp hq with hq | hq
      · left; rw [hd]; exact hq
      · exact Or.inr ⟨ho, q, rfl, hq⟩
    · rintro (hq | ⟨-, q, rfl, hq⟩)
      · refine ⟨V3.turned (-k.orientation) p, ?_, ?_⟩
        · have := Real.sin_sq_add_cos_sq k.orientation
          ext
          · simp only [V3.turned, Real.cos_neg, Real.sin_neg]; linear_combination (-p.x) * this
          · simp only [V3.turned, Real.cos_neg, Real.sin_neg]; linear_combination (-p.y) * this
          · rfl
        · refine (hu _).mpr (Or.inl ⟨?_, hq.2⟩)
          have := Real.sin_sq_add_cos_sq k.orientation
          have e : axisDist (V3.turned (-k.orientation) p) = axisDist p := by
            simp only [axisDist, V2.norm, V3.turned, Real.cos_neg, Real.sin_neg]
            congr 1
            linear_combination (p.x ^ 2 + p.y ^ 2) * this
          rw [e]; exact hq.1
      · exact ⟨q, rfl, (hu q).mpr (Or.inr hq)⟩

/-- A round hole of diameter 6 in a panel of thickness 2, with an indent for the tab of a washer on its left side. -/
noncomputable def tabHole : PanelHoleParams := ⟨6, 2, ⟨1, 2, 1⟩, 4, Real.pi⟩

example : ∃ s, panelHole tabHole = some s ∧ s.Inside ⟨-4, 0, 1 / 2⟩ ∧ ¬ s.Inside ⟨4, 0, 1 / 2⟩ ∧ ¬ s.Inside ⟨-4, 0, -1 / 2⟩ := by
  rcases h : panelHole tabHole with _ | s
  · rw [C35_panelHole_panics] at h
    norm_num [tabHole] at h
  have hs := C35_panelHole_shape _ _ h
  have h4 : ∀ z, axisDist ⟨4, 0, z⟩ = 4 := fun z => by
    simp only [axisDist, V2.norm]; norm_num; rw [show (16 : ℝ) = 4 ^ 2 by norm_num]; exact Real.sqrt_sq (by norm_num)
  have h4' : ∀ z, axisDist ⟨-4, 0, z⟩ = 4 := fun z => by
    simp only [axisDist, V2.norm]; norm_num; rw [show (16 : ℝ) = 4 ^ 2 by norm_num]; exact Real.sqrt_sq (by norm_num)
  refine ⟨s, rfl, ?_, ?_, ?_⟩
  · refine (hs _).mpr (Or.inr ⟨by norm_num [tabHole], ⟨4, 0, 1 / 2⟩, ?_, ?_⟩)
    · simp [tabHole, V3.turned]
    · norm_num [tabHole]
  · rw [hs, h4]
    rintro (h | ⟨-, q, h, h1, -⟩)
    · norm_num [tabHole] at h
    · have hx := congrArg V3.x h
      simp [tabHole, V3.turned] at hx h1
      rw [show q.x = -4 by linarith] at h1
      norm_num at h1
  · rw [hs, h4']
    rintro (h | ⟨-, q, h, -, -, h1, -⟩)
    · norm_num [tabHole] at h
    · have hx := congrArg V3.z h
      simp [tabHole, V3.turned] at hx h1
      rw [← hx] at h1
      norm_num at h1

/-- A point of one web of a standoff: above the bottom end of the pillar and below the line from the foot, half a web diameter from the
axis, up to the height of the web at the axis, with half the width on both sides of the half plane `y = 0`, `x > 0`. -/
def InWeb (k : StandoffParams) (p : V3) : Prop :=
  0 < p.x ∧ -(k.pillarHeight / 2) < p.z ∧ p.x / (k.webDiameter / 2) + (p.z + k.pillarHeight / 2) / k.webHeight < 1 ∧ |p.y| < k.webWidth / 2

theorem web_inside (k : StandoffParams) (hd : 0 < k.webDiameter) (hh : 1 / 1000000000 < k.webHeight) (w : SDF3) (hw : pillarWeb k = some w)
    (p : V3) : w.Inside p ↔ InWeb k p := by
  have hh0 : 0 < k.webHeight := lt_trans (by norm_num) hh
  unfold pillarWeb at hw
  set v : List V2 := [⟨0, 0⟩, ⟨0.5 * k.webDiameter, 0⟩, ⟨0, k.webHeight⟩] with hv
  rcases hs : Must2.polygon v with _ | s
  · rw [hs] at hw; cases hw
  rw [hs] at hw
  simp only [Option.bind_eq_bind, Option.bind_some] at hw
  cases hw
  have hc : ConvexAbout 1 v ⟨k.webDiameter / 8, k.webHeight / 4⟩ := by
    have hp := mul_pos hd hh0
    refine ⟨Or.inl rfl, ?_, ?_⟩
    · simp [hv, sides, leftOf, V2.cross, V2.sub]
      norm_num
      and_intros <;> nlinarith
    · simp [hv, sides, leftOf, V2.cross, V2.sub]
      norm_num
      and_intros <;> nlinarith
  have hpr : Proper v := by
    refine ⟨by simp [hv], ?_, ?_⟩
    · intro e he
      simp only [hv, List.tail_cons, List.zip_cons_cons, List.zip_nil_right, List.mem_cons, List.not_mem_nil, or_false] at he
      rcases he with rfl | rfl
      · intro h
        have := congrArg V2.x h
        norm_num at this
        linarith
      · intro h
        have := congrArg V2.y h
        simp only at this
        linarith
    · intro a b ha hb
      simp [hv] at ha hb
      subst ha hb
      right
      simp only [V2.EqualWithin]
      rintro ⟨-, h⟩
      rw [zero_sub, abs_neg, abs_of_pos hh0] at h
      linarith
  have hm : ∀ q, ((M44.translate ⟨0, 0, -0.5 * k.pillarHeight⟩).mul (M44.rotateX (90.0 * Real.pi / 180))).mulPosition q =
      ⟨q.x, -q.z, q.y - k.pillarHeight / 2⟩ := by
    intro q
    rw [C20_mulPosition_mul.1 _ _ (M44.rotateX_affine _).1, (C20_rotate_axes _).1, M44.translate_mulPosition,
      show (90.0 : ℝ) * Real.pi / 180 = Real.pi / 2 by norm_num; ring, Real.cos_pi_div_two, Real.sin_pi_div_two]
    ext <;> simp only [V3.add] <;> norm_num
    ring
  rw [C19_transform3_image _ _ (M44.affine_mul (M44.translate_affine _).1 (M44.rotateX_affine _).1) (by
    rw [C20_det_mul.2.2.2.1, Matrix.det_mul]
    exact mul_ne_zero (M44.translate_affine _).2 (M44.rotateX_affine _).2)]
  have hq : (∃ q, (SDF3.extrude s k.webWidth).Inside q ∧
      ((M44.translate ⟨0, 0, -0.5 * k.pillarHeight⟩).mul (M44.rotateX (90.0 * Real.pi / 180))).mulPosition q = p) ↔
      (SDF3.extrude s k.webWidth).Inside ⟨p.x, p.z + k.pillarHeight / 2, -p.y⟩ := by
    constructor
    · rintro ⟨q, hq, rfl⟩
      rw [hm]
      simpa using hq
    · intro h
      refine ⟨_, h, ?_⟩
      rw [hm]
      ext <;> simp
  rw [hq, C26_extrude, SDF2.Inside, (C62_convex 1 v _ hc hpr s hs _).1]
  simp only [abs_neg, InWeb]
  have hp := mul_pos hd hh0
  have h3 : p.x / (k.webDiameter / 2) + (p.z + k.pillarHeight / 2) / k.webHeight < 1 ↔
      p.x * k.webHeight + (p.z + k.pillarHeight / 2) * (k.webDiameter / 2) < k.webDiameter / 2 * k.webHeight := by
    rw [div_add_div _ _ (by linarith) hh0.ne', div_lt_one (by positivity)]
    constructor <;> intro h <;> linarith
  rw [h3]
  simp [hv, sides, leftOf, V2.cross, V2.sub]
  norm_num
  constructor
  · rintro ⟨h1, h2, h3, h4⟩
    refine ⟨?_, ?_, ?_, h1⟩
    · exact pos_of_mul_pos_right h4 hh0.le
    · have := pos_of_mul_pos_right h2 (by linarith)
      linarith
    · linarith
  · rintro ⟨h1, h2, h3, h4⟩
    refine ⟨h4, ?_, ?_, ?_⟩
    · exact mul_pos (by linarith) (by linarith)
    · linarith
    · exact mul_pos hh0 h1

/-- The body of a standoff with webs: the pillar and, turned in equal steps about its axis, `numberWebs` webs, of which only what is
within half a step of their own direction is kept. -/
theorem C35_standoff_web_shape (k : StandoffParams) (hn : 0 < k.numberWebs) (hh : 1 / 1000000000 < k.webHeight) (s : SDF3)
    (h : pillarBody k = some s) (p : V3) :
    s.Inside p ↔ |p.z| < k.pillarHeight / 2 ∧ axisDist p < k.webDiameter ∧ (axisDist p < k.pillarDiameter / 2 ∨
      ∃ j : ℕ, (j : ℤ) < k.numberWebs ∧ ∃ q, InWeb k q ∧ InSector (2 * Real.pi / k.numberWebs) q.x q.y ∧
        p = V3.turned (j * (2 * Real.pi / k.numberWebs)) q) := by
  have hb : ¬ (k.pillarDiameter ≤ 0 ∨ k.pillarHeight < 0 ∨ (0 < k.numberWebs ∧ k.webDiameter ≤ 0)) := by
    rw [← body_none, h]; simp
  push Not at hb
  have hd := hb.2.2 hn
  obtain ⟨c, hc, hi, -⟩ := cyl0 (H := k.pillarHeight) (R := 0.5 * k.pillarDiameter) (by norm_num; linarith [hb.1]) hb.2.1
  have hi' : c.Inside p ↔ axisDist p < k.pillarDiameter / 2 ∧ |p.z| < k.pillarHeight / 2 := by
    rw [hi p, axisDist]; norm_num; rw [one_div, inv_mul_eq_div]; exact fun _ => Iff.rfl
  unfold pillarBody pillar at h
  rw [if_pos hn, hc] at h
  obtain ⟨w, hw⟩ := web_some k
  obtain ⟨cut, hcut, hi2, -⟩ := cyl0 (H := k.pillarHeight) (R := k.webDiameter) hd hb.2.1
  rw [hw, hcut] at h
  simp only [Option.bind_eq_bind, Option.bind_some, SDF3.unionList, Option.some.injEq] at h
  subst h
  rw [C16_intersect3, C16_union3, hi2 p]
  simp only [List.mem_cons, List.not_mem_nil, or_false, exists_eq_or_imp, exists_eq_left, hi', C23_sector3, web_inside k hd hh w hw]
  change _ ∧ axisDist p < _ ∧ _ ↔ _
  exact ⟨fun h => ⟨h.2.2, h.2.1, h.1.imp And.left id⟩, fun h => ⟨h.2.2.imp (fun a => ⟨a, h.1⟩) id, h.2.1, h.1⟩⟩

/-- No web loses its middle plane: all of it, from the axis to the slanted edge, belongs to the body. -/
theorem C35_web_middle (k : StandoffParams) (hn : 0 < k.numberWebs) (hh : 1 / 1000000000 < k.webHeight) (hw : 0 < k.webWidth)
    (hH : k.webHeight ≤ k.pillarHeight) (s : SDF3) (h : pillarBody k = some s) (j : ℕ) (hj : (j : ℤ) < k.numberWebs) (x z : ℝ) (hx : 0 < x)
    (hz : 0 < z) (hxz : x / (k.webDiameter / 2) + z / k.webHeight < 1) :
    s.Inside (V3.turned (j * (2 * Real.pi / k.numberWebs)) ⟨x, 0, z - k.pillarHeight / 2⟩) := by
  have hb : ¬ (k.pillarDiameter ≤ 0 ∨ k.pillarHeight < 0 ∨ (0 < k.numberWebs ∧ k.webDiameter ≤ 0)) := by
    rw [← body_none, h]; simp
  push Not at hb
  have hd := hb.2.2 hn
  have hh0 : 0 < k.webHeight := lt_trans (by norm_num) hh
  have hx1 : x / (k.webDiameter / 2) < 1 := by have := div_pos hz hh0; linarith
  have hz1 : z / k.webHeight < 1 := by have := div_pos hx (half_pos hd); linarith
  rw [div_lt_one (half_pos hd)] at hx1
  rw [div_lt_one hh0] at hz1
  rw [C35_standoff_web_shape k hn hh s h]
  have hn' : (0 : ℝ) < k.numberWebs := by exact_mod_cast hn
  have hθ : 0 < 2 * Real.pi / (k.numberWebs : ℝ) := by have := Real.pi_pos; positivity
  refine ⟨?_, ?_, Or.inr ⟨j, hj, ⟨x, 0, z - k.pillarHeight / 2⟩, ⟨hx, by simp only; linarith, ?_, by simpa using hw⟩, ⟨x, 0, hx.le, by linarith, by linarith, by simp, by simp⟩, rfl⟩⟩
  · simp only [V3.turned]
    rw [abs_lt]
    constructor <;> linarith
  · have e : axisDist (V3.turned (j * (2 * Real.pi / k.numberWebs)) ⟨x, 0, z - k.pillarHeight / 2⟩) = x := by
      generalize (j * (2 * Real.pi / k.numberWebs) : ℝ) = a
      have := Real.sin_sq_add_cos_sq a
      simp only [axisDist, V2.norm, V3.turned]
      rw [show (Real.cos a * x - Real.sin a * 0) * (Real.cos a * x - Real.sin a * 0) + (Real.sin a * x + Real.cos a * 0) * (Real.sin a * x + Real.cos a * 0) = x ^ 2 by
        linear_combination x ^ 2 * this]
      exact Real.sqrt_sq hx.le
    rw [e]; linarith
  · simpa using hxz

/-- A pillar of height 10 with four webs. -/
noncomputable def webPillar : StandoffParams := ⟨10, 4, 5, 2, 4, 6, 12, 1⟩

example : ∃ s, pillarBody webPillar = some s ∧ s.Inside (V3.turned (3 * (2 * Real.pi / 4)) ⟨4, 0, -4⟩) := by
  rcases h : pillarBody webPillar with _ | s
  · rw [body_none] at h
    norm_num [webPillar] at h
  refine ⟨s, rfl, ?_⟩
  have := C35_web_middle webPillar (by norm_num [webPillar]) (by norm_num [webPillar]) (by norm_num [webPillar]) (by norm_num [webPillar]) s h 3
    (by norm_num [webPillar]) 4 1 (by norm_num) (by norm_num) (by norm_num [webPillar])
  norm_num [webPillar] at this ⊢
  exact this

/-- The shape of a euro-rack panel: the flat panel over half the thickness up and down and, if asked for, two ridges on its upper side, one
thickness wide and one and a half high, flush with the left and the right edge and 9 mm short of the upper and lower edges. -/
theorem C35_euroRack3_shape (k : Obj2.EuroRackParams) (s : SDF3) (h : Obj3.euroRackPanel k = some s) :
    ∃ t, Obj2.euroRackPanel k = some t ∧ ∀ p, s.Inside p ↔ (|p.z| < k.thickness / 2 ∧ t.Inside ⟨p.x, p.y⟩) ∨
      (k.ridge = true ∧ k.thickness / 2 < p.z ∧ p.z < 2 * k.thickness ∧ |p.y| < k.uSize / 2 - 9 ∧
        ((k.hpSize / 2 - k.thickness < p.x ∧ p.x < k.hpSize / 2) ∨ (-(k.hpSize / 2) < p.x ∧ p.x < k.thickness - k.hpSize / 2))) := by
  have hn : ¬ (k.thickness ≤ 0 ∨ k.U < 1 ∨ k.HP < 8 ∨ k.cornerRadius < 0 ∨ k.holeDiameter ≤ 0) := by
    rw [← C35_euroRack3, h]; simp
  push Not at hn
  unfold Obj3.euroRackPanel at h
  rw [if_neg (by linarith [hn.1])] at h
  rcases ht : Obj2.euroRackPanel k with _ | t
  · rw [ht] at h; cases h
  rw [ht] at h
  simp only [Option.bind_eq_bind, Option.bind_some] at h
  refine ⟨t, rfl, fun p => ?_⟩
  by_cases hr : k.ridge = true
  · rw [if_neg (by simp [hr])] at h
    have hy : k.uSize = k.U * 44.45 - 4.85 := by
      simp only [Obj2.EuroRackParams.uSize, Obj2.erU, Obj2.erUGap, Obj2.millimetresPerInch]; norm_num
    have hy' : 0 < k.uSize - 18 := by rw [hy]; norm_num; linarith [hn.2.1]
    norm_num only at h
    have hT := hn.1
    obtain ⟨b, hb, -, hbi, -⟩ := C18_box3 ⟨k.thickness, k.uSize - 18, k.thickness * (3 / 2)⟩ 0 hn.1 hy' (by simp only; linarith) le_rfl
      (by simp only; linarith) (by simp only; linarith) (by simp only; linarith)
    rw [hb] at h
    simp only [Option.bind_some, SDF3.unionList, Option.some.injEq] at h
    subst h
    rw [C16_union3]
    simp only [List.mem_cons, List.not_mem_nil, or_false, exists_eq_or_imp, exists_eq_left, inside_moved, hbi rfl, V3.sub, sub_zero, C26_extrude, hr,
      true_and, abs_lt]
    refine or_congr Iff.rfl ?_
    constructor
    · rintro (⟨⟨a1, a2⟩, ⟨a3, a4⟩, a5, a6⟩ | ⟨⟨a1, a2⟩, ⟨a3, a4⟩, a5, a6⟩)
      · refine ⟨by linarith, by linarith, ⟨by linarith, by linarith⟩, Or.inl ⟨by linarith, by linarith⟩⟩
      · refine ⟨by linarith, by linarith, ⟨by linarith, by linarith⟩, Or.inr ⟨by linarith, by linarith⟩⟩
    · rintro ⟨a1, a2, ⟨a3, a4⟩, ⟨a5, a6⟩ | ⟨a5, a6⟩⟩
      · exact Or.inl ⟨⟨by linarith, by linarith⟩, ⟨by linarith, by linarith⟩, by linarith, by linarith⟩
      · exact Or.inr ⟨⟨by linarith, by linarith⟩, ⟨by linarith, by linarith⟩, by linarith, by linarith⟩
  · rw [if_pos (by simp [hr])] at h
    cases h
    rw [C26_extrude]
    simp [hr]

end Sdf
