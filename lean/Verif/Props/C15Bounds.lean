import Verif.Lemmas.BoxedFits
import Verif.Props.C20Matrix

/-! C15: the reported bounds contain every point strictly inside, for trees of constructors of any size. -/

namespace Sdf

/-- The bounds of every solid assembled under the conditions listed in `Boxed` contain it.  What is missing from the
full property is false of the code, see the theorems below, `C26_twist_bounds_wrong` and `C27_two_turns_box_wrong`. -/
theorem C15_solid_partial (c : ℝ) (s : SDF3) (h : Boxed .inside c (.sol s)) : s.Bounded := boxed_fits h

/-- The bounds of every planar figure assembled under the conditions listed in `Boxed` contain it. -/
theorem C15_figure_partial (c : ℝ) (s : SDF2) (h : Boxed .inside c (.fig s)) : s.Bounded := boxed_fits h

/-- Figures of the highest grade report at least the distance beyond every line that supports their bounds. -/
theorem C15_support2_partial (c : ℝ) (s : SDF2) (h : Boxed .all c (.fig s)) (u : V2) (hu : V2.norm u = 1) (p : V2) :
    ∃ q, s.bounds.Contains q ∧ min (V2.dot u (V2.sub p q)) c ≤ s.eval p := (boxed_fits h : Fits2 Unit2 c s) u hu p

/-- Solids of the highest grade report at least the distance beyond every plane that supports their bounds. -/
theorem C15_support3_partial (c : ℝ) (s : SDF3) (h : Boxed .all c (.sol s)) (u : V3) (hu : V3.norm u = 1) (p : V3) :
    ∃ q, s.bounds.Contains q ∧ min (V3.dot u (V3.sub p q)) c ≤ s.eval p := (boxed_fits h : Fits3 Unit3 c s) u hu p

theorem sqrt_two_bounds : (1.41 : ℝ) < Real.sqrt 2 ∧ Real.sqrt 2 < 1.42 :=
  ⟨Real.lt_sqrt_of_sq_lt (by norm_num), (Real.sqrt_lt' (by norm_num)).mpr (by norm_num)⟩

/-- The bounds of an eroded, rotated and grown square do not contain it: `Offset2D` by `-1/2`, a turn by half a right
angle, `Offset2D` by `1/2`. -/
theorem C15_rotated_offset_wrong :
    ¬ ((((Must2.box ⟨2, 2⟩ 0).offset (-(1/2))).transform (M33.rotate (Real.pi / 4))).offset (1/2)).Bounded := by
  obtain ⟨k1, k2⟩ := sqrt_two_bounds
  have hm : M33.rotate (Real.pi / 4) =
      ⟨Real.sqrt 2 / 2, -(Real.sqrt 2 / 2), 0, Real.sqrt 2 / 2, Real.sqrt 2 / 2, 0, 0, 0, 1⟩ := by
    simp [M33.rotate]
  have hsq : Real.sqrt 2 * Real.sqrt 2 = 2 := Real.mul_self_sqrt (by norm_num)
  have haff : (M33.rotate (Real.pi / 4)).Affine := ⟨rfl, rfl, rfl⟩
  have hdet : (M33.rotate (Real.pi / 4)).det ≠ 0 := by
    rw [hm]; simp only [M33.det]; nlinarith
  intro hb
  have hin := hb ((M33.rotate (Real.pi / 4)).mulPosition ⟨0.9, 0.9⟩) (by
    show SDF2.eval ((Must2.box ⟨2, 2⟩ 0).offset (-(1/2))) ((M33.rotate (Real.pi / 4)).inverse.mulPosition ((M33.rotate (Real.pi / 4)).mulPosition
      ⟨0.9, 0.9⟩)) - 1 / 2 < 0
    rw [M33.inverse_mulPosition haff hdet]
    show sdfBox2d ⟨0.9, 0.9⟩ (V2.sub (V2.scale 0.5 ⟨2, 2⟩) (V2.elem 0)) - 0 - -(1/2) - 1/2 < 0
    rw [sdfBox2d_eq, boxFn2_neg]
    · simp only [V2.sub, V2.scale, V2.elem, V2.absElem]
      rw [abs_of_pos (by norm_num)]
      norm_num
    · simp only [V2.sub, V2.scale, V2.elem, V2.absElem]
      rw [abs_of_pos (by norm_num)]
      norm_num)
  have h := ((Box2.offset_contains _ _ _).mp hin).2.2.2
  rw [hm] at h
  simp only [SDF2.transform, SDF2.offset, Must2.box, M33.mulBox, M33.mulPosition, Box2.new, Box2.center, Box2.size, V2.sub,
    V2.add, V2.scale, V2.elem, V2.minElem, V2.maxElem] at h
  norm_num at h
  rw [max_eq_right (by linarith)] at h
  linarith

/-- The bounds of a cylinder made by `Extrude3D`, tilted and grown, do not contain it. -/
theorem C15_tilted_extrusion_wrong (s : SDF2) (hs : Must2.circle 1 = some s) :
    ¬ ((((SDF3.extrude s 2)).transform (M44.rotateY (Real.pi / 4))).offset 1).Bounded := by
  obtain ⟨k1, k2⟩ := sqrt_two_bounds
  have hm : M44.rotateY (Real.pi / 4) =
      ⟨Real.sqrt 2 / 2, 0, Real.sqrt 2 / 2, 0, 0, 1, 0, 0, -(Real.sqrt 2 / 2), 0, Real.sqrt 2 / 2, 0, 0, 0, 0, 1⟩ := by
    simp [M44.rotateY, M44.rotate, V3.unit_y]
  have hsq : Real.sqrt 2 * Real.sqrt 2 = 2 := Real.mul_self_sqrt (by norm_num)
  have haff : (M44.rotateY (Real.pi / 4)).Affine := ⟨rfl, rfl, rfl, rfl⟩
  have hdet : (M44.rotateY (Real.pi / 4)).det ≠ 0 := by
    rw [hm]; simp only [M44.det]; nlinarith
  obtain rfl : s = ⟨fun p => V2.norm p - 1, ⟨⟨-1, -1⟩, ⟨1, 1⟩⟩⟩ := by
    unfold Must2.circle at hs
    rw [if_neg (by norm_num)] at hs
    cases hs
    simp [V2.scale]
  intro hb
  have hin := hb ((M44.rotateY (Real.pi / 4)).mulPosition ⟨1.9, 0, 1.9⟩) (by
    show SDF3.eval (SDF3.extrude ⟨fun p => V2.norm p - 1, ⟨⟨-1, -1⟩, ⟨1, 1⟩⟩⟩ 2) ((M44.rotateY (Real.pi / 4)).inverse.mulPosition
      ((M44.rotateY (Real.pi / 4)).mulPosition ⟨1.9, 0, 1.9⟩)) - 1 < 0
    rw [M44.inverse_mulPosition haff hdet]
    show max (V2.norm ⟨1.9, 0⟩ - 1) (|1.9| - 2 / 2) - 1 < 0
    rw [V2.norm_eq_of (r := 1.9) (by norm_num) (by norm_num), abs_of_pos (by norm_num)]
    norm_num)
  have h := ((Box3.offset_contains _ _ _).mp hin).2.2.2.1
  rw [hm] at h
  simp only [SDF3.transform, SDF3.extrude, M44.mulBox, M44.mulPosition, V3.add, V3.scale, V3.minElem, V3.maxElem] at h
  norm_num at h
  rw [max_eq_right (by linarith)] at h
  linarith

/-- The bounds of `ScaleTwistExtrude3D` do not contain it, not even without any twist or scaling: the upright cylinder over a disc. -/
theorem C15_scaleTwist_wrong (s : SDF2) (hs : Must2.circle 1 = some s) : ¬ (SDF3.scaleTwistExtrude s 2 0 ⟨1, 1⟩).Bounded := by
  obtain ⟨k1, k2⟩ := sqrt_two_bounds
  obtain rfl : s = ⟨fun p => V2.norm p - 1, ⟨⟨-1, -1⟩, ⟨1, 1⟩⟩⟩ := by
    unfold Must2.circle at hs
    rw [if_neg (by norm_num)] at hs
    cases hs
    simp [V2.scale]
  intro hb
  have e : Sdf.scaleTwistExtrude 2 0 ⟨1, 1⟩ ⟨3/2, 0, -(9/10)⟩ = ⟨33/40, 0⟩ := by
    simp only [Sdf.scaleTwistExtrude, V2.mulElem, V2.add, V2.scale, V2.divElem, V2.sub, V2.elem, M22.rotate, M22.mulPosition]
    ext <;> norm_num
  have h := hb ⟨3/2, 0, -(9/10)⟩ (by
    show max (V2.norm (Sdf.scaleTwistExtrude 2 0 ⟨1, 1⟩ ⟨3/2, 0, -(9/10)⟩) - 1) (|(-(9/10) : ℝ)| - 2 / 2) < 0
    rw [e, V2.norm_eq_of (r := 33/40) (by norm_num) (by norm_num), abs_neg, abs_of_pos (by norm_num)]
    norm_num)
  have h := h.2.2.2.1
  simp only [SDF3.scaleTwistExtrude, Box2.extend, V2.mulElem, V2.maxElem] at h
  norm_num [V2.norm] at h
  linarith

/-- A shelled union of a sphere with a tilted box, drilled by a cylinder. -/
example (b c d : SDF3) (hb : Must3.box ⟨4, 2, 1⟩ 0.25 = some b) (hc : Must3.sphere 1 = some c)
    (_ : Must3.cylinder 5 0.5 0 = some d) (m : M44) (hm : m.Rigid) :
    ((SDF3.difference (SDF3.union (b.transform m) [c]) d).shell 0.1).Bounded := by
  refine C15_solid_partial 0 _ (.axes_inside (0.05 - 0.1 / 2) _ _ (by norm_num) (.all_axes _ _ (.shell _ _ _ _ (.difference3 _ _ _ _ (.union3 _ _ _ _ ?_)) (by simp) (by norm_num))))
  intro s hs
  rcases List.mem_cons.mp hs with rfl | hs
  · exact .rigid3 _ _ _ (.box3 _ _ _ _ hb (by norm_num) (by norm_num) (by norm_num)) hm
  · obtain rfl := List.mem_singleton.mp hs
    exact .sphere _ _ _ hc

/-- A circle revolved by a right angle, and a square whose rounded extrusion is grown. -/
example (r : SDF2) (hr : Must2.circle 1 = some r) :
    (SDF3.revolve (r.transform (M33.translate ⟨3, 0⟩)) (Real.pi / 2)).Bounded ∧
    ((SDF3.extrudeRounded (Must2.box ⟨2, 2⟩ 0) 4 0.5).offset 1).Bounded := by
  constructor
  · exact C15_solid_partial 0 _ (.revolve _ _ _ (.axes_inside 0 _ _ le_rfl (.all_axes _ _
      (.translate2 _ _ _ _ (.circle _ _ _ hr)))) (by linarith [Real.pi_pos]))
  · exact C15_solid_partial 0 _ (.axes_inside (1.5 - 0.5 - 1) _ _ (by norm_num) (.all_axes _ _ (.grow3 _ _ _
      (.extrudeRounded _ _ _ _ _ (.box2 _ _ _ le_rfl (by norm_num) (by norm_num)) (by simp) (by norm_num) (by norm_num)) (by norm_num))))

/-- A screw with a square thread, and the same screw cut off obliquely. -/
example (u : SDF3) (hu : Thread.screw 20 (some (squareThread 0)) = .ok ⟨some u, false⟩) :
    u.Bounded ∧ (u.cut ⟨0, 0, 3⟩ ⟨0, 1, 1⟩).Bounded := by
  have h : Boxed .inside 0 (.sol u) := .screw 0 20 _ _ u (.axes_inside 0 _ _ le_rfl (.all_axes _ _
    (.box2 _ ⟨2, 6⟩ 0 le_rfl (by norm_num) (by norm_num)))) rfl le_rfl (by positivity) hu
  exact ⟨C15_solid_partial 0 _ h, C15_solid_partial 0 _ (.cut3 _ _ _ _ _ h (by simp))⟩

end Sdf
