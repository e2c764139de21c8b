import Verif.Model.Thread
import Verif.Props.C23RotateCopy
import Verif.Spec.Shape
import Verif.Lemmas.FitsForms
import Mathlib.Analysis.SpecialFunctions.Trigonometric.Bounds

/-!
C36: screws.  Missing from the full statement: on the axis itself the screw motion only leaves the solid unchanged when the
profile is constant there (`C36_axis_wrong`); the bounding box is only right for tapers in `[0, π/2)`
(`C36_negative_taper_wrong`).
-/

namespace Sdf
open Thread

/-- The point moved by a screw motion about the z axis: turned anticlockwise by `a` and advanced by `a / (2π)` times the
lead. -/
noncomputable def V3.screwed (lead a : ℝ) (p : V3) : V3 :=
  ⟨Real.cos a * p.x - Real.sin a * p.y, Real.sin a * p.x + Real.cos a * p.y, p.z + lead * a / (2 * Real.pi)⟩

theorem screw_ok {length : ℝ} {t : Threader} {u : SDF3} (h : screw length (some t) = .ok ⟨some u, false⟩) :
    0 < length ∧ ∃ f, t.thread = .ok ⟨some f, false⟩ ∧ u = screwOf length f t.params := by
  unfold screw at h
  simp only at h
  split at h
  · simp at h
  rename_i hl
  refine ⟨not_le.mp hl, ?_⟩
  split at h
  · cases h
  · cases h
  rename_i r hr
  obtain ⟨shape, err⟩ := r
  simp only at h
  split at h
  · simp at h
  rename_i he
  rcases shape with _ | f
  · cases h
  refine ⟨f, ?_, ?_⟩
  · rw [hr]; simp only [Bool.not_eq_true] at he; rw [he]
  · simpa using h.symm

/-- `Screw` returns a screw when the length is positive and the thread has a profile; otherwise it panics only if the
thread's profile does, or is missing without an error. -/
theorem C36_constructed (length : ℝ) (t : Threader) (f : SDF2) (hl : 0 < length) (ht : t.thread = .ok ⟨some f, false⟩) :
    ∃ u, screw length (some t) = .ok ⟨some u, false⟩ := by
  unfold screw
  simp only
  rw [if_neg (not_le.mpr hl), ht]
  exact ⟨_, rfl⟩

/-- The value of a screw at the point with cylindrical coordinates `r > 0`, `φ` (any angle, not just the principal one) and
`z`: the profile is met at the radius `r`, changed by the taper, and at the position along the thread that is `z` less the
advance of the thread, up to whole pitches; and the solid ends at half the length. -/
theorem C36_section (length : ℝ) (t : Threader) (f : SDF2) (u : SDF3) (hu : screw length (some t) = .ok ⟨some u, false⟩)
    (ht : t.thread = .ok ⟨some f, false⟩) (hP : 0 < t.params.pitch) (r φ z x : ℝ) (k : ℤ) (hr : 0 < r)
    (hx1 : -(t.params.pitch / 2) ≤ x) (hx2 : x < t.params.pitch / 2)
    (hz : z = x + t.params.starts * t.params.pitch * φ / (2 * Real.pi) + k * t.params.pitch) :
    u.eval ⟨r * Real.cos φ, r * Real.sin φ, z⟩ =
      max (f.eval ⟨x, r + z * Real.arctan t.params.taper⟩) (|z| - length / 2) := by
  obtain ⟨-, g, hg, rfl⟩ := screw_ok hu
  rw [ht] at hg
  simp only [Must2.Outcome.ok.injEq, Returned.mk.injEq, Option.some.injEq, and_true] at hg
  subst hg
  obtain ⟨m, hm⟩ := atan2_spec (r * Real.cos φ) (r * Real.sin φ) r φ hr rfl rfl
  have hpi := Real.pi_pos
  simp only [screwOf, ScrewData.eval]
  have e1 : Real.sqrt (r * Real.cos φ * (r * Real.cos φ) + r * Real.sin φ * (r * Real.sin φ)) = r := by
    rw [show r * Real.cos φ * (r * Real.cos φ) + r * Real.sin φ * (r * Real.sin φ) = r * r by
      linear_combination (r * r) * Real.cos_sq_add_sin_sq φ]
    exact Real.sqrt_mul_self hr.le
  have e2 : sawTooth (z + -t.params.pitch * t.params.starts * atan2 (r * Real.sin φ) (r * Real.cos φ) / (2 * Real.pi)) t.params.pitch = x := by
    rw [hm, show z + -t.params.pitch * t.params.starts * (φ + m * (2 * Real.pi)) / (2 * Real.pi) =
      x + ((k - t.params.starts * m : ℤ) : ℝ) * t.params.pitch by
        rw [hz]; push_cast; field_simp; ring]
    rw [sawTooth_shift hP, sawTooth_id hP hx1 hx2]
  rw [e1, e2]
  by_cases h0 : t.params.taper = 0
  · rw [if_neg (by simp [h0]), h0, Real.arctan_zero, mul_zero, add_zero]
  · rw [if_pos h0]

/-- Every position along the thread is met: the position `x` of `C36_section` always exists. -/
theorem C36_section_exists (P y : ℝ) (hP : 0 < P) : ∃ (x : ℝ) (k : ℤ), -(P / 2) ≤ x ∧ x < P / 2 ∧ y = x + k * P := by
  obtain ⟨⟨k, hk⟩, h1, h2⟩ := sawTooth_spec (x := y) hP
  exact ⟨sawTooth y P, k, h1, h2, by rw [hk]; ring⟩

theorem off_axis_polar {x y : ℝ} (h : x ≠ 0 ∨ y ≠ 0) : ∃ r φ, 0 < r ∧ x = r * Real.cos φ ∧ y = r * Real.sin φ := by
  obtain ⟨r, φ, hr, hx, hy⟩ := polar2 x y
  rcases hr.lt_or_eq with h' | h'
  · exact ⟨r, φ, h', hx, hy⟩
  · subst h'; simp at hx hy; simp [hx, hy] at h

/-- Screw motions with the lead `starts * pitch` leave an untapered screw unchanged away from the axis: right-handed for a
positive number of starts, left-handed for a negative one.  The ends do not move, hence the other arguments of `max`: within
the length the value itself is unchanged wherever it is not the distance to an end. -/
theorem C36_screw_motion_partial (length : ℝ) (t : Threader) (u : SDF3) (hu : screw length (some t) = .ok ⟨some u, false⟩)
    (hP : 0 < t.params.pitch) (h0 : t.params.taper = 0) (a : ℝ) (p : V3) (hp : p.x ≠ 0 ∨ p.y ≠ 0) :
    max (u.eval (V3.screwed (t.params.starts * t.params.pitch) a p)) (|p.z| - length / 2) =
      max (u.eval p) (|(V3.screwed (t.params.starts * t.params.pitch) a p).z| - length / 2) := by
  obtain ⟨hl, f, ht, -⟩ := screw_ok hu
  obtain ⟨r, φ, hr, hx, hy⟩ := off_axis_polar hp
  obtain ⟨x, k, h1, h2, h3⟩ := C36_section_exists t.params.pitch (p.z - t.params.starts * t.params.pitch * φ / (2 * Real.pi)) hP
  have hpi := Real.pi_pos
  have ep : p = ⟨r * Real.cos φ, r * Real.sin φ, p.z⟩ := by ext <;> simp [hx, hy]
  have eq : V3.screwed (t.params.starts * t.params.pitch) a p =
      ⟨r * Real.cos (φ + a), r * Real.sin (φ + a), p.z + t.params.starts * t.params.pitch * a / (2 * Real.pi)⟩ := by
    ext
    · simp only [V3.screwed, hx, hy, Real.cos_add]; ring
    · simp only [V3.screwed, hx, hy, Real.sin_add]; ring
    · rfl
  have v1 := C36_section length t f u hu ht hP r φ p.z x k hr h1 h2 (by linarith)
  have v2 := C36_section length t f u hu ht hP r (φ + a) (p.z + t.params.starts * t.params.pitch * a / (2 * Real.pi)) x k hr h1 h2
    (by rw [show t.params.starts * t.params.pitch * (φ + a) / (2 * Real.pi) =
          t.params.starts * t.params.pitch * φ / (2 * Real.pi) + t.params.starts * t.params.pitch * a / (2 * Real.pi) by ring]
        linarith)
  rw [h0, Real.arctan_zero, mul_zero, add_zero] at v1 v2
  rw [eq, v2]
  conv_rhs => rw [ep, v1]
  simp only
  rw [max_assoc, max_assoc, max_comm (|p.z| - length / 2)]

/-- Within the length, membership is unchanged. -/
theorem C36_screw_inside_partial (length : ℝ) (t : Threader) (u : SDF3) (hu : screw length (some t) = .ok ⟨some u, false⟩)
    (hP : 0 < t.params.pitch) (h0 : t.params.taper = 0) (a : ℝ) (p : V3) (hp : p.x ≠ 0 ∨ p.y ≠ 0) (hz : |p.z| < length / 2)
    (hz' : |(V3.screwed (t.params.starts * t.params.pitch) a p).z| < length / 2) :
    u.Inside (V3.screwed (t.params.starts * t.params.pitch) a p) ↔ u.Inside p := by
  have h := C36_screw_motion_partial length t u hu hP h0 a p hp
  unfold SDF3.Inside
  constructor
  · intro hi
    have := max_lt hi (show |p.z| - length / 2 < 0 by linarith)
    rw [h] at this; exact lt_of_le_of_lt (le_max_left _ _) this
  · intro hi
    have := max_lt hi (show |(V3.screwed (t.params.starts * t.params.pitch) a p).z| - length / 2 < 0 by linarith)
    rw [← h] at this; exact lt_of_le_of_lt (le_max_left _ _) this

/-- Untapered screws repeat along the axis with the pitch, on the axis too. -/
theorem C36_periodic (length : ℝ) (t : Threader) (u : SDF3) (hu : screw length (some t) = .ok ⟨some u, false⟩)
    (hP : 0 < t.params.pitch) (h0 : t.params.taper = 0) (k : ℤ) (p : V3) :
    max (u.eval ⟨p.x, p.y, p.z + k * t.params.pitch⟩) (|p.z| - length / 2) =
      max (u.eval p) (|p.z + k * t.params.pitch| - length / 2) := by
  obtain ⟨hl, f, ht, rfl⟩ := screw_ok hu
  simp only [screwOf, ScrewData.eval, h0]
  rw [if_neg (by simp), if_neg (by simp), show p.z + k * t.params.pitch + -t.params.pitch * t.params.starts * atan2 p.y p.x / (2 * Real.pi) =
    p.z + -t.params.pitch * t.params.starts * atan2 p.y p.x / (2 * Real.pi) + k * t.params.pitch by ring, sawTooth_shift hP,
    max_assoc, max_assoc, max_comm (|p.z| - length / 2)]

/-- Changing the sign of the number of starts gives the mirror image. -/
theorem C36_mirror (length : ℝ) (t t' : Threader) (u u' : SDF3) (hu : screw length (some t) = .ok ⟨some u, false⟩)
    (hu' : screw length (some t') = .ok ⟨some u', false⟩) (hs : t'.thread = t.thread) (hn : t'.params.starts = -t.params.starts)
    (hp' : t'.params.pitch = t.params.pitch) (htp : t'.params.taper = t.params.taper) (hP : 0 < t.params.pitch) (p : V3) :
    u'.eval p = u.eval ⟨p.x, -p.y, p.z⟩ := by
  by_cases hp : p.x ≠ 0 ∨ p.y ≠ 0
  · obtain ⟨hl, f, ht, -⟩ := screw_ok hu
    obtain ⟨r, φ, hr, hx, hy⟩ := off_axis_polar hp
    obtain ⟨x, k, h1, h2, h3⟩ := C36_section_exists t.params.pitch (p.z + t.params.starts * t.params.pitch * φ / (2 * Real.pi)) hP
    have v1 := C36_section length t' f u' hu' (by rw [hs, ht]) (by rw [hp']; exact hP) r φ p.z x k hr (by rw [hp']; exact h1)
      (by rw [hp']; exact h2) (by rw [hp', hn]; push_cast; linear_combination h3)
    have v2 := C36_section length t f u hu ht hP r (-φ) p.z x k hr h1 h2 (by linear_combination h3)
    have e1 : p = ⟨r * Real.cos φ, r * Real.sin φ, p.z⟩ := by ext <;> simp [hx, hy]
    have e2 : (⟨p.x, -p.y, p.z⟩ : V3) = ⟨r * Real.cos (-φ), r * Real.sin (-φ), p.z⟩ := by
      ext <;> simp [hx, hy]
    rw [e2, v2]
    conv_lhs => rw [e1, v1, htp]
  · push Not at hp
    obtain ⟨hl, f, ht, rfl⟩ := screw_ok hu
    obtain ⟨hl', f', ht', rfl⟩ := screw_ok hu'
    rw [hs, ht] at ht'
    simp only [Must2.Outcome.ok.injEq, Returned.mk.injEq, Option.some.injEq, and_true] at ht'
    subst ht'
    have e0 : atan2 0 0 = 0 := Complex.arg_zero
    simp only [screwOf, ScrewData.eval, hp.1, hp.2, htp, hp', neg_zero, e0, mul_zero, zero_div]

/-- The bounding box contains the screw when the taper is an angle in `[0, π/2)` and the profile lies in its own box. -/
theorem C36_bounds_partial (length : ℝ) (t : Threader) (f : SDF2) (u : SDF3) (hu : screw length (some t) = .ok ⟨some u, false⟩)
    (ht : t.thread = .ok ⟨some f, false⟩) (h0 : 0 ≤ t.params.taper) (h1 : t.params.taper < Real.pi / 2) :
    (f.Bounded → u.Bounded) ∧ (f.BoundedClosed → u.BoundedClosed) := by
  obtain ⟨hl, g, hg, rfl⟩ := screw_ok hu
  rw [ht] at hg
  simp only [Must2.Outcome.ok.injEq, Returned.mk.injEq, Option.some.injEq, and_true] at hg
  subst hg
  have hat : Real.arctan t.params.taper ≤ Real.tan t.params.taper := by
    have h2 := Real.le_tan h0 h1
    have h3 : Real.arctan t.params.taper ≤ t.params.taper := by
      have h4 : 0 ≤ Real.arctan t.params.taper := Real.arctan_nonneg.mpr h0
      have := Real.le_tan h4 (Real.arctan_lt_pi_div_two _)
      rwa [Real.tan_arctan] at this
    linarith
  have hat0 : 0 ≤ Real.arctan t.params.taper := Real.arctan_nonneg.mpr h0
  have key : ∀ p : V3, |p.z| ≤ length / 2 →
      Real.sqrt (p.x * p.x + p.y * p.y) + p.z * Real.arctan t.params.taper ≤ f.bounds.hi.y →
      (screwOf length f t.params).bounds.Contains p := by
    intro p hz hr
    have hz' := abs_le.mp hz
    have hr' : Real.sqrt (p.x * p.x + p.y * p.y) ≤ f.bounds.hi.y + length / 2 * Real.tan t.params.taper := by
      nlinarith [mul_nonneg (by linarith [hz'.1] : 0 ≤ p.z + length / 2) hat0, mul_le_mul_of_nonneg_left hat (by linarith : 0 ≤ length / 2)]
    have hx : |p.x| ≤ Real.sqrt (p.x * p.x + p.y * p.y) := by
      rw [← Real.sqrt_mul_self_eq_abs]; exact Real.sqrt_le_sqrt (by nlinarith [mul_self_nonneg p.y])
    have hy : |p.y| ≤ Real.sqrt (p.x * p.x + p.y * p.y) := by
      rw [← Real.sqrt_mul_self_eq_abs]; exact Real.sqrt_le_sqrt (by nlinarith [mul_self_nonneg p.x])
    have hx' := abs_le.mp (hx.trans hr')
    have hy' := abs_le.mp (hy.trans hr')
    simp only [screwOf, Box3.Contains]
    exact ⟨by linarith [hx'.1], by linarith [hy'.1], by linarith [hz'.1], by linarith [hx'.2], by linarith [hy'.2], by linarith [hz'.2]⟩
  have hval : ∀ p : V3, (screwOf length f t.params).eval p =
      max (f.eval ⟨sawTooth (p.z + -t.params.pitch * t.params.starts * atan2 p.y p.x / (2 * Real.pi)) t.params.pitch,
        Real.sqrt (p.x * p.x + p.y * p.y) + p.z * Real.arctan t.params.taper⟩) (|p.z| - length / 2) := by
    intro p
    simp only [screwOf, ScrewData.eval]
    by_cases h : t.params.taper = 0
    · rw [if_neg (by simp [h]), h, Real.arctan_zero, mul_zero, add_zero]
    · rw [if_pos h]
  constructor
  · intro hf p hp
    rw [hval] at hp
    have := hf _ (lt_of_le_of_lt (le_max_left _ _) hp)
    exact key p (by linarith [lt_of_le_of_lt (le_max_right _ _) hp]) this.2.2.2
  · intro hf p hp
    rw [hval] at hp
    have := hf _ ((le_max_left _ _).trans hp)
    exact key p (by linarith [(le_max_right _ _).trans hp]) this.2.2.2

/-- A thread with a square profile, pitch 4, one start and the given taper. -/
noncomputable def squareThread (taper : ℝ) : Threader :=
  ⟨.ok ⟨some (Must2.box ⟨2, 6⟩ 0), false⟩, ⟨"square", 3, 4, 1, taper, 10⟩⟩

theorem squareThread_screw (taper : ℝ) : screw 20 (some (squareThread taper)) =
    .ok ⟨some (screwOf 20 (Must2.box ⟨2, 6⟩ 0) (squareThread taper).params), false⟩ := by
  unfold screw
  simp only [squareThread]
  rw [if_neg (by norm_num)]
  rfl

/-- The hypotheses of the theorems above are met by the square thread. -/
example : ∃ u, screw 20 (some (squareThread 0)) = .ok ⟨some u, false⟩ ∧ 0 < (squareThread 0).params.pitch ∧
    (squareThread 0).params.taper = 0 := ⟨_, squareThread_screw 0, by norm_num [squareThread], rfl⟩

/-- The value at the crest of the square thread, and a quarter turn on. -/
theorem square_value (u : SDF3) (hu : screw 20 (some (squareThread 0)) = .ok ⟨some u, false⟩) (z φ x : ℝ) (k : ℤ)
    (hx1 : -2 ≤ x) (hx2 : x < 2) (hz : z = x + 4 * φ / (2 * Real.pi) + k * 4) :
    u.eval ⟨2 * Real.cos φ, 2 * Real.sin φ, z⟩ = max (sdfBox2d ⟨x, 2⟩ ⟨1, 3⟩) (|z| - 10) := by
  have h := C36_section 20 (squareThread 0) (Must2.box ⟨2, 6⟩ 0) u hu rfl (by norm_num [squareThread]) 2 φ z x k (by norm_num)
    (by simp only [squareThread]; linarith) (by simp only [squareThread]; linarith) (by simp only [squareThread]; rw [hz]; push_cast; ring)
  rw [h]
  simp only [squareThread, Real.arctan_zero, mul_zero, add_zero, Must2.box, V2.scale, V2.sub, V2.elem, sub_zero]
  norm_num

/-- The opposite motion does not leave a one-start screw unchanged: the crest of the square thread at angle 0 and height 0 is
inside, a quarter turn anticlockwise it is at height 1, and at height -1 there is the root. -/
theorem C36_right_handed (u : SDF3) (hu : screw 20 (some (squareThread 0)) = .ok ⟨some u, false⟩) :
    u.Inside ⟨2, 0, 0⟩ ∧ u.Inside (V3.screwed 4 (Real.pi / 2) ⟨2, 0, 0⟩) ∧ u.Outside (V3.screwed (-4) (Real.pi / 2) ⟨2, 0, 0⟩) := by
  have hpi := Real.pi_pos
  have v1 := square_value u hu 0 0 0 0 (by norm_num) (by norm_num) (by simp)
  have v2 := square_value u hu 1 (Real.pi / 2) 0 0 (by norm_num) (by norm_num) (by field_simp; norm_num)
  have v3 := square_value u hu (-1) (Real.pi / 2) (-2) 0 (by norm_num) (by norm_num) (by field_simp; norm_num)
  have e2 : V3.screwed 4 (Real.pi / 2) ⟨2, 0, 0⟩ = ⟨2 * Real.cos (Real.pi / 2), 2 * Real.sin (Real.pi / 2), 1⟩ := by
    ext <;> simp [V3.screwed]; field_simp; norm_num
  have e3 : V3.screwed (-4) (Real.pi / 2) ⟨2, 0, 0⟩ = ⟨2 * Real.cos (Real.pi / 2), 2 * Real.sin (Real.pi / 2), -1⟩ := by
    ext <;> simp [V3.screwed]; field_simp; norm_num
  simp only [Real.cos_zero, Real.sin_zero, mul_one, mul_zero] at v1
  unfold SDF3.Inside SDF3.Outside
  rw [e2, e3, v1, v2, v3]
  refine ⟨?_, ?_, ?_⟩ <;> norm_num [sdfBox2d, V2.absElem, V2.sub]

/-- On the axis the screw motion is not a symmetry: the square thread alternates between inside and outside there. -/
theorem C36_axis_wrong (u : SDF3) (hu : screw 20 (some (squareThread 0)) = .ok ⟨some u, false⟩) :
    u.Inside ⟨0, 0, 0⟩ ∧ u.Outside (V3.screwed 4 Real.pi ⟨0, 0, 0⟩) := by
  obtain ⟨-, f, hf, rfl⟩ := screw_ok hu
  simp only [squareThread, Must2.Outcome.ok.injEq, Returned.mk.injEq, Option.some.injEq, and_true] at hf
  subst hf
  have hpi := Real.pi_pos
  have e : V3.screwed 4 Real.pi ⟨0, 0, 0⟩ = ⟨0, 0, 2⟩ := by
    ext <;> simp [V3.screwed]; field_simp; norm_num
  have e0 : atan2 0 0 = 0 := Complex.arg_zero
  have s0 : sawTooth 0 4 = 0 := sawTooth_id (by norm_num) (by norm_num) (by norm_num)
  have s2 : sawTooth 2 4 = -2 := by
    have := sawTooth_shift (x := -2) (period := 4) (by norm_num) 1
    rw [show (-2 : ℝ) + (1 : ℤ) * 4 = 2 by norm_num] at this
    rw [this, sawTooth_id (by norm_num) (by norm_num) (by norm_num)]
  unfold SDF3.Inside SDF3.Outside
  rw [e]
  simp only [screwOf, ScrewData.eval, squareThread, e0, mul_zero, zero_div, add_zero, s0, s2, ne_eq, not_true_eq_false, if_false,
    Real.sqrt_zero, Must2.box, V2.scale, V2.sub, V2.elem, sub_zero]
  constructor <;> norm_num [sdfBox2d, V2.absElem, V2.sub]

/-- With a negative taper the bounding box cuts off the screw. -/
theorem C36_negative_taper_wrong (u : SDF3) (hu : screw 20 (some (squareThread (-(Real.pi / 4)))) = .ok ⟨some u, false⟩) :
    (Must2.box ⟨2, 6⟩ 0).BoundedClosed ∧ u.Inside ⟨2, 0, 0⟩ ∧ ¬ u.bounds.Contains ⟨2, 0, 0⟩ := by
  obtain ⟨-, f, hf, rfl⟩ := screw_ok hu
  simp only [squareThread, Must2.Outcome.ok.injEq, Returned.mk.injEq, Option.some.injEq, and_true] at hf
  subst hf
  refine ⟨?_, ?_, ?_⟩
  · intro p hp
    have h := sdfBox2d_ge p ⟨1, 3⟩
    simp only [Must2.box, V2.scale, V2.sub, V2.elem, sub_zero] at hp ⊢
    norm_num at hp ⊢
    have hx := abs_le.mp (show |p.x| ≤ 1 by linarith [h.1])
    have hy := abs_le.mp (show |p.y| ≤ 3 by linarith [h.2])
    exact ⟨hx.1, hy.1, hx.2, hy.2⟩
  · have e0 : atan2 0 2 = 0 := by
      unfold atan2
      rw [Complex.arg_eq_zero_iff]; simp
    have s0 : sawTooth 0 4 = 0 := sawTooth_id (by norm_num) (by norm_num) (by norm_num)
    have sq : Real.sqrt (2 * 2 + 0 * 0) = 2 := by
      rw [show (2 : ℝ) * 2 + 0 * 0 = 2 * 2 by norm_num]; exact Real.sqrt_mul_self (by norm_num)
    unfold SDF3.Inside
    simp only [screwOf, ScrewData.eval, squareThread, e0, mul_zero, zero_div, add_zero, s0, zero_mul, ite_self,
      Must2.box, V2.scale, V2.sub, V2.elem, sub_zero]
    rw [show Real.sqrt ((2 : ℝ) * 2) = 2 from Real.sqrt_mul_self (by norm_num)]
    norm_num [sdfBox2d, V2.absElem, V2.sub]
  · intro hc
    have := hc.2.2.2.1
    simp only [screwOf, squareThread, Must2.box, V2.scale, Real.tan_neg, Real.tan_pi_div_four] at this
    norm_num at this

end Sdf
