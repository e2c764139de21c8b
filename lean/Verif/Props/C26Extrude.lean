import Verif.Model.Combine3
import Verif.Lemmas.Vec
import Verif.Lemmas.Loops
import Verif.Lemmas.MaxFloat
import Verif.Spec.Shape

/-!
C26: extrusions have the right cross sections and sufficient bounding boxes.  The boxes of the twisted
extrusions are wrong, and so is the scaling of `ScaleTwistExtrude3D`.
-/

namespace Sdf

/-- The point of the plane turned by the angle `a` about the origin. -/
noncomputable def turn (a : ℝ) (q : V2) : V2 :=
  ⟨Real.cos a * q.x - Real.sin a * q.y, Real.sin a * q.x + Real.cos a * q.y⟩

/-- Linear interpolation over the height: `1` at the bottom `z = -height/2`, `k` at the top `z = height/2`. -/
noncomputable def ramp (k height z : ℝ) : ℝ := (1 / 2 - z / height) * 1 + (1 / 2 + z / height) * k

theorem C26_inside (s : SDF2) (h : ℝ) (e : V3 → V2) (p : V3) :
    SDF3.extrudeEval s h e p < 0 ↔ |p.z| < h ∧ s.eval (e p) < 0 := by
  simp only [SDF3.extrudeEval, max_lt_iff, sub_neg]; tauto

/-- `Extrude3D`: inside exactly between the end planes and above a point of the figure. -/
theorem C26_extrude (s : SDF2) (height : ℝ) (p : V3) :
    (SDF3.extrude s height).Inside p ↔ |p.z| < height / 2 ∧ s.Inside ⟨p.x, p.y⟩ :=
  C26_inside s (height / 2) normalExtrude p

/-- `TwistExtrude3D`: the section at height `z` is the figure turned by `-twist*z/height`. -/
theorem C26_twist (s : SDF2) (height twist z : ℝ) (q : V2) :
    (SDF3.twistExtrude s height twist).Inside
      ⟨(turn (-(twist * z / height)) q).x, (turn (-(twist * z / height)) q).y, z⟩ ↔
    |z| < height / 2 ∧ s.Inside q := by
  rw [SDF3.Inside, SDF3.twistExtrude, C26_inside]
  apply and_congr_right; intro _
  rw [SDF2.Inside]
  have e : Sdf.twistExtrude height twist
      ⟨(turn (-(twist * z / height)) q).x, (turn (-(twist * z / height)) q).y, z⟩ = q := by
    have e1 : z * (twist / height) = twist * z / height := by ring
    simp only [Sdf.twistExtrude, turn, M22.rotate, M22.mulPosition, e1, Real.cos_neg, Real.sin_neg]
    generalize twist * z / height = a
    have := Real.sin_sq_add_cos_sq a
    ext
    · simp only; linear_combination (q.x) * this
    · simp only; linear_combination (q.y) * this
  rw [e]

/-- `ScaleExtrude3D`: the section at height `z` is the figure scaled so that the inverse factors run linearly
from `1` to `1/scale`. -/
theorem C26_scale (s : SDF2) (height : ℝ) (scale : V2) (hx : scale.x ≠ 0) (hy : scale.y ≠ 0) (p : V3) :
    (SDF3.scaleExtrude s height scale).Inside p ↔ |p.z| < height / 2 ∧
      s.Inside ⟨ramp (1 / scale.x) height p.z * p.x, ramp (1 / scale.y) height p.z * p.y⟩ := by
  rw [SDF3.Inside, SDF3.scaleExtrude, C26_inside]
  apply and_congr_right; intro hz
  have hh : height ≠ 0 := by
    rintro rfl; have := abs_nonneg p.z; norm_num at hz; linarith
  rw [SDF2.Inside]
  have e : Sdf.scaleExtrude height scale p =
      ⟨ramp (1 / scale.x) height p.z * p.x, ramp (1 / scale.y) height p.z * p.y⟩ := by
    simp only [Sdf.scaleExtrude, ramp, V2.mulElem, V2.add, V2.scale, V2.divElem, V2.sub, V2.elem]
    ext <;> simp only <;> field_simp <;> ring
  rw [e]

/-- `ScaleExtrude3D` keeps the figure at the bottom and scales it by `scale` at the top. -/
theorem C26_scale_ends (height : ℝ) (hh : height ≠ 0) (k : ℝ) :
    ramp k height (-(height / 2)) = 1 ∧ ramp k height (height / 2) = k := by
  unfold ramp; constructor <;> field_simp <;> ring

/-- The scaling of `ScaleTwistExtrude3D` is wrong: with no twist and scale one it should be the plain extrusion,
but a point of the unit disc's cylinder is missing. -/
theorem C26_scaleTwist_wrong : ∃ (s : SDF2) (height : ℝ) (p : V3), 0 < height ∧
    (SDF3.extrude s height).Inside p ∧ ¬ (SDF3.scaleTwistExtrude s height 0 ⟨1, 1⟩).Inside p := by
  refine ⟨⟨fun p => V2.norm p - 1, ⟨⟨-1, -1⟩, ⟨1, 1⟩⟩⟩, 2, ⟨9/10, 0, 9/10⟩, by norm_num, ?_, ?_⟩
  · rw [C26_extrude]
    refine ⟨by rw [abs_of_pos (by norm_num)]; norm_num, ?_⟩
    simp only [SDF2.Inside]
    rw [V2.norm_eq_of (r := 9/10) (by norm_num) (by norm_num)]; norm_num
  · rw [SDF3.Inside, SDF3.scaleTwistExtrude, C26_inside]
    rintro ⟨-, h⟩
    have e : Sdf.scaleTwistExtrude 2 0 ⟨1, 1⟩ ⟨9/10, 0, 9/10⟩ = ⟨261/200, 0⟩ := by
      simp only [Sdf.scaleTwistExtrude, V2.mulElem, V2.add, V2.scale, V2.divElem, V2.sub, V2.elem, M22.rotate,
        M22.mulPosition]
      ext <;> norm_num
    rw [e] at h
    simp only at h
    rw [V2.norm_eq_of (r := 261/200) (by norm_num) (by norm_num)] at h
    norm_num at h

/-- `ScaleTwistExtrude3D` is the figure turned by `-twist*z` and then scaled as in `C26_scale` when `height = 1`.
Missing: all other heights, where the factors are wrong (`C26_scaleTwist_wrong`). -/
theorem C26_scaleTwist_partial (s : SDF2) (twist : ℝ) (scale : V2) (z : ℝ) (q : V2)
    (hq : ramp (1 / scale.x) 1 z ≠ 0 ∧ ramp (1 / scale.y) 1 z ≠ 0) :
    (SDF3.scaleTwistExtrude s 1 twist scale).Inside
      ⟨(turn (-(twist * z)) q).x / ramp (1 / scale.x) 1 z, (turn (-(twist * z)) q).y / ramp (1 / scale.y) 1 z, z⟩ ↔
    |z| < 1 / 2 ∧ s.Inside q := by
  rw [SDF3.Inside, SDF3.scaleTwistExtrude, C26_inside]
  apply and_congr_right; intro _
  rw [SDF2.Inside]
  have e : Sdf.scaleTwistExtrude 1 twist scale
      ⟨(turn (-(twist * z)) q).x / ramp (1 / scale.x) 1 z, (turn (-(twist * z)) q).y / ramp (1 / scale.y) 1 z, z⟩ = q := by
    have e1 : z * (twist / 1) = twist * z := by ring
    have r1 : z * (1 / scale.x - 1 / 1) + (1 / scale.x / 2 + 0.5) = ramp (1 / scale.x) 1 z := by
      unfold ramp; ring
    have r2 : z * (1 / scale.y - 1 / 1) + (1 / scale.y / 2 + 0.5) = ramp (1 / scale.y) 1 z := by
      unfold ramp; ring
    simp only [Sdf.scaleTwistExtrude, M22.rotate, M22.mulPosition, e1, V2.mulElem, V2.add, V2.scale, V2.divElem,
      V2.sub, V2.elem, r1, r2]
    rw [div_mul_cancel₀ _ hq.1, div_mul_cancel₀ _ hq.2]
    simp only [turn, Real.cos_neg, Real.sin_neg]
    generalize twist * z = a
    have := Real.sin_sq_add_cos_sq a
    ext
    · simp only; linear_combination (q.x) * this
    · simp only; linear_combination (q.y) * this
  rw [e]

/-- `ExtrudeRounded3D` of an exact figure is the straight extrusion of height `height - 2*round` with every point
replaced by a ball of radius `round`: total height `height`, rounded edges. -/
theorem C26_rounded (s : SDF2) (hs : s.Exact) (height round : ℝ) (hr : 0 < round) (hh : 2 * round ≤ height) (p : V3) :
    (SDF3.extrudeRounded s height round).Inside p ↔
      ∃ q : V3, s.eval ⟨q.x, q.y⟩ ≤ 0 ∧ |q.z| ≤ height / 2 - round ∧ V3.dist p q < round := by
  have hev : (SDF3.extrudeRounded s height round).eval p =
      SDF3.roundJoin (s.eval ⟨p.x, p.y⟩) (|p.z| - (height / 2 - round)) - round := by
    unfold SDF3.extrudeRounded
    rw [if_neg hr.ne', if_neg (by linarith), if_neg (by linarith), if_neg (by linarith)]
  rw [SDF3.Inside, hev, sub_neg]
  set h := height / 2 - round with hhd
  have hh0 : 0 ≤ h := by rw [hhd]; linarith
  set a := s.eval ⟨p.x, p.y⟩ with ha
  -- the nearest point on the axis segment
  have hz : ∃ z, |z| ≤ h ∧ |p.z - z| = max (|p.z| - h) 0 := by
    rcases le_or_gt (|p.z|) h with h1 | h1
    · exact ⟨p.z, h1, by rw [max_eq_right (by linarith)]; simp⟩
    · rcases le_or_gt 0 p.z with h2 | h2
      · refine ⟨h, by rw [abs_of_nonneg hh0], ?_⟩
        rw [abs_of_nonneg h2] at h1 ⊢
        rw [max_eq_left (by linarith), abs_of_nonneg (by linarith)]
      · refine ⟨-h, by rw [abs_neg, abs_of_nonneg hh0], ?_⟩
        rw [abs_of_neg h2] at h1 ⊢
        rw [max_eq_left (by linarith), abs_of_nonpos (by linarith)]; ring
  -- the nearest point of the figure
  have hq : ∃ q : V2, s.eval q ≤ 0 ∧ V2.dist ⟨p.x, p.y⟩ q = max a 0 := by
    rcases le_or_gt a 0 with h1 | h1
    · exact ⟨⟨p.x, p.y⟩, h1, by rw [max_eq_right h1, V2.dist_eq_zero.mpr rfl]⟩
    · obtain ⟨⟨q, hq, e⟩, -⟩ := hs.2 ⟨p.x, p.y⟩
      exact ⟨q, hq.le, by rw [max_eq_left h1.le, e, abs_of_pos h1]⟩
  -- the join below `round` in terms of the two distances
  have hjoin : SDF3.roundJoin a (|p.z| - h) < round ↔
      max a 0 * max a 0 + max (|p.z| - h) 0 * max (|p.z| - h) 0 < round * round := by
    set b := |p.z| - h with hb
    unfold SDF3.roundJoin
    by_cases hb0 : b > 0
    · rw [if_pos hb0]
      by_cases ha0 : a < 0
      · rw [if_pos ha0, max_eq_right ha0.le, max_eq_left hb0.le]
        constructor
        · intro h; nlinarith
        · intro h; nlinarith
      · push Not at ha0
        rw [if_neg (not_lt.mpr ha0), max_eq_left ha0, max_eq_left hb0.le, Real.sqrt_lt' hr, sq]
    · push Not at hb0
      rw [if_neg (not_lt.mpr hb0), max_eq_right hb0]
      by_cases ha0 : a < 0
      · rw [if_pos ha0, max_eq_right ha0.le]
        constructor
        · intro _; nlinarith
        · intro _; exact lt_of_le_of_lt (max_le ha0.le hb0) hr
      · push Not at ha0
        rw [if_neg (not_lt.mpr ha0), max_eq_left ha0]
        constructor
        · intro h; nlinarith
        · intro h; nlinarith
  rw [hjoin]
  constructor
  · intro hlt
    obtain ⟨z, hz1, hz2⟩ := hz
    obtain ⟨q, hq1, hq2⟩ := hq
    refine ⟨⟨q.x, q.y, z⟩, hq1, hz1, ?_⟩
    by_contra hc
    push Not at hc
    have h1 : V3.dist p ⟨q.x, q.y, z⟩ * V3.dist p ⟨q.x, q.y, z⟩ = V2.dist ⟨p.x, p.y⟩ q * V2.dist ⟨p.x, p.y⟩ q +
        |p.z - z| * |p.z - z| := by
      rw [V3.dist, V3.norm_sq, V2.dist, V2.norm_sq, abs_mul_abs_self]; simp only [V3.sub, V2.sub]
    rw [hq2, hz2] at h1
    nlinarith
  · rintro ⟨q, hq1, hz1, hd⟩
    have h1 : V3.dist p q * V3.dist p q = V2.dist ⟨p.x, p.y⟩ ⟨q.x, q.y⟩ * V2.dist ⟨p.x, p.y⟩ ⟨q.x, q.y⟩ +
        |p.z - q.z| * |p.z - q.z| := by
      rw [V3.dist, V3.norm_sq, V2.dist, V2.norm_sq, abs_mul_abs_self]; simp only [V3.sub, V2.sub]
    have h2 : max a 0 ≤ V2.dist ⟨p.x, p.y⟩ ⟨q.x, q.y⟩ := by
      refine max_le ?_ (V2.dist_nonneg _ _)
      have := (abs_le.mp (hs.1 ⟨p.x, p.y⟩ ⟨q.x, q.y⟩)).2
      rw [← ha] at this; linarith
    have h3 : max (|p.z| - h) 0 ≤ |p.z - q.z| := by
      refine max_le ?_ (abs_nonneg _)
      have := abs_sub_abs_le_abs_sub p.z q.z
      linarith
    have h4 := mul_self_le_mul_self (le_max_right a 0) h2
    have h5 := mul_self_le_mul_self (le_max_right (|p.z| - h) 0) h3
    have h6 : V3.dist p q * V3.dist p q < round * round := by nlinarith [V3.dist_nonneg p q]
    linarith

/-- `ExtrudeRounded3D` without rounding is `Extrude3D`; impossible dimensions give an empty shape. -/
theorem C26_rounded_other (s : SDF2) (height round : ℝ) (p : V3) :
    (round = 0 → SDF3.extrudeRounded s height round = SDF3.extrude s height) ∧
    ((round < 0 ∨ (0 < round ∧ height < 2 * round)) → ¬ (SDF3.extrudeRounded s height round).Inside p) := by
  constructor
  · intro h; unfold SDF3.extrudeRounded; rw [if_pos h]
  · intro h
    have h0 : round ≠ 0 := by rcases h with h | h <;> [exact h.ne; exact h.1.ne']
    have : SDF3.extrudeRounded s height round = SDF3.empty ⟨0, 0, 0⟩ := by
      unfold SDF3.extrudeRounded
      rw [if_neg h0]
      split_ifs with h1 h2 h3
      · rfl
      · rfl
      · rfl
      · rcases h with h | h
        · exact absurd h h2
        · exact absurd h.2 h3
    rw [this, SDF3.Inside, SDF3.empty]
    exact not_lt.mpr maxFloat64_pos.le

/-- The boxes of `Extrude3D` and `ScaleExtrude3D` (positive scale) contain their solids. -/
theorem C26_bounds (s : SDF2) (hb : s.Bounded) (height : ℝ) (scale : V2) (hx : 0 < scale.x) (hy : 0 < scale.y) :
    (SDF3.extrude s height).Bounded ∧ (SDF3.scaleExtrude s height scale).Bounded := by
  constructor
  · intro p hp
    obtain ⟨hz, hi⟩ := (C26_extrude s height p).mp hp
    obtain ⟨a, b, c, d⟩ := hb _ hi
    rw [abs_lt] at hz
    exact ⟨a, b, hz.1.le, c, d, hz.2.le⟩
  · intro p hp
    obtain ⟨hz, hi⟩ := (C26_scale s height scale hx.ne' hy.ne' p).mp hp
    obtain ⟨a, b, c, d⟩ := hb _ hi
    rw [abs_lt] at hz
    have hh : 0 < height := by linarith [hz.1, hz.2]
    have key : ∀ {k x lo hi : ℝ}, 0 < k → lo ≤ ramp (1 / k) height p.z * x → ramp (1 / k) height p.z * x ≤ hi →
        min lo (lo * k) ≤ x ∧ x ≤ max hi (hi * k) := by
      intro k x lo hi hk h1 h2
      set t := 1 / 2 + p.z / height with ht
      have ht0 : 0 < t := by
        rw [ht]; have : -(1 / 2) < p.z / height := by rw [lt_div_iff₀ hh]; linarith
        linarith
      have ht1 : t < 1 := by
        rw [ht]; have : p.z / height < 1 / 2 := by rw [div_lt_iff₀ hh]; linarith
        linarith
      have hr : ramp (1 / k) height p.z = (1 - t) + t / k := by unfold ramp; rw [ht]; ring
      rw [hr] at h1 h2
      have e : (1 - t + t / k) * x = (1 - t) * x + t * (x / k) := by ring
      rw [e] at h1 h2
      constructor
      · by_contra hc
        push Not at hc
        obtain ⟨c1, c2⟩ := lt_min_iff.mp hc
        have c3 : x / k < lo := by rwa [div_lt_iff₀ hk]
        nlinarith
      · by_contra hc
        push Not at hc
        obtain ⟨c1, c2⟩ := max_lt_iff.mp hc
        have c3 : hi < x / k := by rwa [lt_div_iff₀ hk]
        nlinarith
    obtain ⟨x1, x2⟩ := key hx a c
    obtain ⟨y1, y2⟩ := key hy b d
    exact ⟨x1, y1, hz.1.le, x2, y2, hz.2.le⟩

/-- The box of `ExtrudeRounded3D` contains the solid. -/
theorem C26_rounded_bounds (s : SDF2) (hs : s.Exact) (hb : s.BoundedClosed) (height round : ℝ) :
    (SDF3.extrudeRounded s height round).Bounded := by
  intro p hp
  rcases lt_trichotomy round 0 with h | h | h
  · exact absurd hp ((C26_rounded_other s height round p).2 (Or.inl h))
  · rw [(C26_rounded_other s height round p).1 h] at hp ⊢
    exact (C26_bounds s (fun q hq => hb q hq.le) height ⟨1, 1⟩ one_pos one_pos).1 p hp
  · rcases lt_or_ge height (2 * round) with h2 | h2
    · exact absurd hp ((C26_rounded_other s height round p).2 (Or.inr ⟨h, h2⟩))
    · obtain ⟨q, hq, hz, hd⟩ := (C26_rounded s hs height round h h2 p).mp hp
      obtain ⟨a, b, c, d⟩ := hb _ hq
      have hx := abs_le.mp (le_trans (V3.abs_x_le (V3.sub p q)) hd.le)
      have hy := abs_le.mp (le_trans (V3.abs_y_le (V3.sub p q)) hd.le)
      have hz' := abs_le.mp (le_trans (V3.abs_z_le (V3.sub p q)) hd.le)
      rw [abs_le] at hz
      simp only [V3.sub] at hx hy hz'
      have e : (SDF3.extrudeRounded s height round).bounds =
          ⟨V3.sub ⟨s.bounds.lo.x, s.bounds.lo.y, -(height / 2 - round)⟩ (V3.elem round),
           V3.add ⟨s.bounds.hi.x, s.bounds.hi.y, height / 2 - round⟩ (V3.elem round)⟩ := by
        unfold SDF3.extrudeRounded
        rw [if_neg h.ne', if_neg (by linarith), if_neg (by linarith), if_neg (by linarith)]
      rw [e]
      simp only [Box3.Contains, V3.sub, V3.add, V3.elem]
      simp only at a b c d
      refine ⟨?_, ?_, ?_, ?_, ?_, ?_⟩ <;> linarith [hx.1, hx.2, hy.1, hy.2, hz.1, hz.2, hz'.1, hz'.2]

/-- The box of `TwistExtrude3D` is sufficient when the figure's box has no corner farther out than its upper
right one.  Missing: all other figures (`C26_twist_bounds_wrong`). -/
theorem C26_twist_bounds_partial (s : SDF2) (hb : s.Bounded) (hx : |s.bounds.lo.x| ≤ s.bounds.hi.x)
    (hy : |s.bounds.lo.y| ≤ s.bounds.hi.y) (height twist : ℝ) : (SDF3.twistExtrude s height twist).Bounded := by
  intro p hp
  have hp' := hp
  rw [SDF3.twistExtrude, C26_inside] at hp'
  obtain ⟨hz, hi⟩ := hp'
  obtain ⟨a, b, c, d⟩ := hb _ hi
  rw [abs_lt] at hz
  set w := Sdf.twistExtrude height twist p with hw
  have hn : V2.norm ⟨p.x, p.y⟩ = V2.norm w := by
    unfold V2.norm
    congr 1
    simp only [hw, Sdf.twistExtrude, M22.rotate, M22.mulPosition]
    have := Real.sin_sq_add_cos_sq (p.z * (twist / height))
    linear_combination (-(p.x * p.x + p.y * p.y)) * this
  have hm : V2.norm w ≤ V2.norm s.bounds.hi := by
    have h1 := abs_le.mp hx
    have h2 := abs_le.mp hy
    refine V2.norm_mono ?_ ?_
    · rw [abs_of_nonneg (le_trans (abs_nonneg _) hx), abs_le]; constructor <;> linarith
    · rw [abs_of_nonneg (le_trans (abs_nonneg _) hy), abs_le]; constructor <;> linarith
  have e1 := abs_le.mp (le_trans (V2.abs_x_le ⟨p.x, p.y⟩) (hn.trans_le hm))
  have e2 := abs_le.mp (le_trans (V2.abs_y_le ⟨p.x, p.y⟩) (hn.trans_le hm))
  exact ⟨e1.1, e2.1, hz.1.le, e1.2, e2.2, hz.2.le⟩

/-- The box of `TwistExtrude3D` is wrong in general: a disc of radius 1 about `(-4, 0)` reaches out to `x = -5`
also when it is not twisted at all, but the box ends at the distance `√10` of the upper right corner of the disc's
box. -/
theorem C26_twist_bounds_wrong : ∃ (s : SDF2) (height twist : ℝ), s.Bounded ∧ Lip2 s.eval ∧ 0 < height ∧
    ¬ (SDF3.twistExtrude s height twist).Bounded := by
  have hb : SDF2.Bounded ⟨fun p => V2.norm (V2.sub p ⟨-4, 0⟩) - 1, ⟨⟨-5, -1⟩, ⟨-3, 1⟩⟩⟩ := by
    intro p hp
    have hp : V2.norm (V2.sub p ⟨-4, 0⟩) - 1 < 0 := hp
    have hp := sub_neg.mp hp
    have hx := abs_lt.mp (lt_of_le_of_lt (V2.abs_x_le _) hp)
    have hy := abs_lt.mp (lt_of_le_of_lt (V2.abs_y_le _) hp)
    simp only [V2.sub] at hx hy
    simp only [Box2.Contains]
    refine ⟨?_, ?_, ?_, ?_⟩ <;> linarith [hx.1, hx.2, hy.1, hy.2]
  refine ⟨_, 2, 0, hb, ?_, by norm_num, ?_⟩
  · intro p q
    show |V2.norm (V2.sub p ⟨-4, 0⟩) - 1 - (V2.norm (V2.sub q ⟨-4, 0⟩) - 1)| ≤ _
    have h1 := V2.dist_triangle p q ⟨-4, 0⟩
    have h2 := V2.dist_triangle q p ⟨-4, 0⟩
    rw [V2.dist_comm q p] at h2
    unfold V2.dist at h1 h2 ⊢
    rw [abs_le]
    constructor <;> linarith
  · intro h
    have := h ⟨-9/2, 0, 0⟩ ?_
    · have h1 : -V2.norm ⟨-3, 1⟩ ≤ (-9/2 : ℝ) := this.1
      have h2 := V2.norm_sq ⟨-3, 1⟩
      have h3 := V2.norm_nonneg ⟨-3, 1⟩
      norm_num at h2
      nlinarith
    · rw [SDF3.twistExtrude, C26_inside]
      refine ⟨by norm_num, ?_⟩
      show V2.norm _ - 1 < 0
      rw [V2.norm_eq_of (r := 1/2) (by norm_num)]
      · norm_num
      · simp only [Sdf.twistExtrude, M22.rotate, M22.mulPosition, V2.sub]
        norm_num

end Sdf
