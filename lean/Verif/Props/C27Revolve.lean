import Verif.Model.Combine3
import Verif.Lemmas.Revolve
import Verif.Lemmas.Loops
import Verif.Lemmas.MaxFloat
import Verif.Spec.Sweep

/-!
C27: solids of revolution.  Angles within the tolerance (`1e-9`) of a full turn count as a full turn.  Beyond one turn
the solid wraps around but its bounding box does not (`C27_two_turns_box_wrong`).
-/

namespace Sdf

/-- Polar coordinates with the angle in `[0, 2π)`. -/
theorem polar (x y : ℝ) : ∃ φ, 0 ≤ φ ∧ φ < 2 * Real.pi ∧ x = Real.sqrt (x * x + y * y) * Real.cos φ ∧
    y = Real.sqrt (x * x + y * y) * Real.sin φ := by
  set z : ℂ := ⟨x, y⟩
  have hz : Real.sqrt (x * x + y * y) = ‖z‖ := by
    rw [Complex.norm_def, Complex.normSq_mk]
  have hx : x = ‖z‖ * Real.cos z.arg := by exact (Complex.norm_mul_cos_arg z).symm
  have hy : y = ‖z‖ * Real.sin z.arg := by exact (Complex.norm_mul_sin_arg z).symm
  rw [hz]
  by_cases h : 0 ≤ z.arg
  · exact ⟨z.arg, h, by linarith [Complex.arg_le_pi z, Real.pi_pos], hx, hy⟩
  · push Not at h
    refine ⟨z.arg + 2 * Real.pi, by linarith [Complex.neg_pi_lt_arg z, Real.pi_pos], by linarith, ?_, ?_⟩
    · rw [Real.cos_add_two_pi]; exact hx
    · rw [Real.sin_add_two_pi]; exact hy

theorem radius_eq {x y r φ : ℝ} (hr : 0 ≤ r) (hx : x = r * Real.cos φ) (hy : y = r * Real.sin φ) :
    Real.sqrt (x * x + y * y) = r := by
  rw [show x * x + y * y = r * r by rw [hx, hy]; linear_combination (r * r) * Real.cos_sq_add_sin_sq φ]
  exact Real.sqrt_mul_self hr

/-- The wedge test, for a point at angle `φ` and distance `r > 0`. -/
theorem wedge_iff {theta φ r : ℝ} (h0 : 0 < theta) (h1 : theta < 2 * Real.pi) (hφ0 : 0 ≤ φ) (hφ : φ < 2 * Real.pi)
    (hr : 0 < r) :
    (if theta < Real.pi then max (-(r * Real.sin φ)) (V2.dot ⟨-Real.sin theta, Real.cos theta⟩ ⟨r * Real.cos φ, r * Real.sin φ⟩)
      else min (-(r * Real.sin φ)) (V2.dot ⟨-Real.sin theta, Real.cos theta⟩ ⟨r * Real.cos φ, r * Real.sin φ⟩)) < 0 ↔
    0 < φ ∧ φ < theta := by
  have hd : V2.dot ⟨-Real.sin theta, Real.cos theta⟩ ⟨r * Real.cos φ, r * Real.sin φ⟩ = r * Real.sin (φ - theta) := by
    rw [Real.sin_sub]; simp only [V2.dot]; ring
  rw [hd]
  have e1 : -(r * Real.sin φ) < 0 ↔ 0 < Real.sin φ := by
    rw [neg_lt_zero, mul_pos_iff_of_pos_left hr]
  have e2 : r * Real.sin (φ - theta) < 0 ↔ Real.sin (φ - theta) < 0 := by
    constructor
    · intro h; by_contra hn; push Not at hn; nlinarith [mul_nonneg hr.le hn]
    · intro h; exact mul_neg_of_pos_of_neg hr h
  have s1 : 0 < Real.sin φ ↔ 0 < φ ∧ φ < Real.pi := by
    constructor
    · intro h
      refine ⟨?_, ?_⟩
      · rcases hφ0.lt_or_eq with h' | h'
        · exact h'
        · rw [← h', Real.sin_zero] at h; exact absurd h (lt_irrefl _)
      · by_contra hn
        push Not at hn
        have := Real.sin_nonneg_of_nonneg_of_le_pi (x := φ - Real.pi) (by linarith) (by linarith)
        rw [Real.sin_sub_pi] at this
        linarith
    · rintro ⟨ha, hb⟩; exact Real.sin_pos_of_pos_of_lt_pi ha hb
  by_cases hp : theta < Real.pi
  · rw [if_pos hp, max_lt_iff, e1, e2, s1]
    constructor
    · rintro ⟨⟨ha, hb⟩, hc⟩
      refine ⟨ha, ?_⟩
      by_contra hn
      push Not at hn
      have := Real.sin_nonneg_of_nonneg_of_le_pi (x := φ - theta) (by linarith) (by linarith)
      linarith
    · rintro ⟨ha, hb⟩
      exact ⟨⟨ha, by linarith⟩, Real.sin_neg_of_neg_of_neg_pi_lt (by linarith) (by linarith)⟩
  · push Not at hp
    rw [if_neg (not_lt.mpr hp), min_lt_iff, e1, e2, s1]
    constructor
    · rintro (⟨ha, hb⟩ | hc)
      · exact ⟨ha, by linarith⟩
      · have hφt : φ < theta := by
          by_contra hn
          push Not at hn
          have := Real.sin_nonneg_of_nonneg_of_le_pi (x := φ - theta) (by linarith) (by linarith)
          linarith
        refine ⟨?_, hφt⟩
        rcases hφ0.lt_or_eq with h' | h'
        · exact h'
        · rw [← h', zero_sub, Real.sin_neg] at hc
          have := Real.sin_nonneg_of_nonneg_of_le_pi (x := theta - Real.pi) (by linarith) (by linarith)
          rw [Real.sin_sub_pi] at this
          linarith
    · rintro ⟨ha, hb⟩
      by_cases hφp : φ < Real.pi
      · exact .inl ⟨ha, hφp⟩
      · push Not at hφp
        exact .inr (Real.sin_neg_of_neg_of_neg_pi_lt (by linarith) (by linarith))

theorem revolve_norm {theta : ℝ} (h0 : 0 < theta) (h1 : theta ≤ 2 * Real.pi - tolerance) :
    ¬ theta ≤ 0 ∧ ¬ |theta - 2 * Real.pi| < tolerance ∧ goMod |theta| tau = theta := by
  have ht : (0 : ℝ) < tolerance := by unfold tolerance; norm_num
  refine ⟨not_le.mpr h0, ?_, ?_⟩
  · rw [abs_of_nonpos (by linarith)]; linarith
  · rw [abs_of_pos h0]
    unfold goMod tau
    have hp := Real.pi_pos
    have : ⌊theta / (2 * Real.pi)⌋ = 0 := by
      rw [Int.floor_eq_zero_iff]
      exact ⟨by positivity, by rw [div_lt_one (by positivity)]; linarith⟩
    rw [this]; simp

/-- The distance reported by a partial revolution. -/
theorem revolve_eval {s : SDF2} {theta : ℝ} (h0 : 0 < theta) (h1 : theta ≤ 2 * Real.pi - tolerance) (p : V3) :
    (SDF3.revolve s theta).eval p = max (s.eval ⟨Real.sqrt (p.x * p.x + p.y * p.y), p.z⟩)
      (if theta < Real.pi then max (-p.y) (V2.dot ⟨-Real.sin theta, Real.cos theta⟩ ⟨p.x, p.y⟩)
        else min (-p.y) (V2.dot ⟨-Real.sin theta, Real.cos theta⟩ ⟨p.x, p.y⟩)) := by
  obtain ⟨e1, e2, e3⟩ := revolve_norm h0 h1
  unfold SDF3.revolve
  rw [if_neg e1]
  simp only [if_neg e2, e3]
  unfold SDF3.revolveEval
  simp only [ne_eq, h0.ne', not_false_eq_true, if_true]

/-- A revolution through `theta` (up to the tolerance short of a full turn) contains exactly the swept points. -/
theorem C27_partial_turn (s : SDF2) {theta : ℝ} (h0 : 0 < theta) (h1 : theta ≤ 2 * Real.pi - tolerance) (p : V3) :
    (SDF3.revolve s theta).Inside p ↔ Swept s theta p := by
  have ht : (0 : ℝ) < tolerance := by unfold tolerance; norm_num
  unfold SDF3.Inside
  rw [revolve_eval h0 h1, max_lt_iff]
  constructor
  · rintro ⟨ha, hb⟩
    obtain ⟨φ, hφ0, hφ1, hx, hy⟩ := polar p.x p.y
    set r := Real.sqrt (p.x * p.x + p.y * p.y) with hr
    rcases (Real.sqrt_nonneg (p.x * p.x + p.y * p.y)).lt_or_eq with hpos | hz
    · rw [hx, hy] at hb
      obtain ⟨h2, h3⟩ := (wedge_iff h0 (by linarith) hφ0 hφ1 hpos).mp hb
      exact ⟨φ, h2, h3, r, hpos, hx, hy, ha⟩
    · rw [← hr] at hz
      rw [← hz] at hx hy
      rw [zero_mul] at hx hy
      rw [hx, hy] at hb
      simp [V2.dot] at hb
  · rintro ⟨φ, hφ0, hφ1, r, hr, hx, hy, hs⟩
    rw [radius_eq hr.le hx hy]
    refine ⟨hs, ?_⟩
    rw [hx, hy]
    exact (wedge_iff h0 (by linarith) hφ0.le (by linarith) hr).mpr ⟨hφ0, hφ1⟩

/-- A full turn (up to the tolerance) contains exactly the points some rotation takes into the profile. -/
theorem C27_full_turn (s : SDF2) {theta : ℝ} (h : |theta - 2 * Real.pi| < tolerance) (p : V3) :
    (SDF3.revolve s theta).Inside p ↔ FullySwept s p := by
  have hp := Real.two_le_pi
  have ht : tolerance ≤ 1 := by unfold tolerance; norm_num
  have h0 : ¬ theta ≤ 0 := by have := (abs_lt.mp h).1; linarith
  have he : (SDF3.revolve s theta).eval p = s.eval ⟨Real.sqrt (p.x * p.x + p.y * p.y), p.z⟩ := by
    unfold SDF3.revolve
    rw [if_neg h0]
    simp only [if_pos h, abs_zero]
    have : goMod 0 tau = 0 := by simp [goMod]
    rw [this]
    unfold SDF3.revolveEval
    simp
  unfold SDF3.Inside
  rw [he]
  constructor
  · intro hs
    obtain ⟨φ, _, _, hx, hy⟩ := polar p.x p.y
    exact ⟨_, φ, Real.sqrt_nonneg _, hx, hy, hs⟩
  · rintro ⟨r, φ, hr, hx, hy, hs⟩
    rwa [radius_eq hr hx hy]

/-- No turn, or a negative one: the empty solid. -/
theorem C27_no_turn (s : SDF2) {theta : ℝ} (h : theta ≤ 0) (p : V3) : (SDF3.revolve s theta).Outside p := by
  unfold SDF3.Outside SDF3.revolve
  rw [if_pos h]
  exact maxFloat64_pos

theorem scaled_mem {l r lo hi c : ℝ} (hr : 0 ≤ r) (hrl : r ≤ l) (h1 : lo ≤ c) (h2 : c ≤ hi) (h3 : lo ≤ 0) (h4 : 0 ≤ hi) :
    l * lo ≤ r * c ∧ r * c ≤ l * hi := by
  constructor
  · nlinarith
  · nlinarith

/-- The bounding box contains the solid, for every sweep up to one turn. -/
theorem C27_bounds (s : SDF2) (hb : s.Bounded) {theta : ℝ} (h1 : theta ≤ 2 * Real.pi) : (SDF3.revolve s theta).Bounded := by
  intro p hp
  have ht : (0 : ℝ) < tolerance := by unfold tolerance; norm_num
  have hrad : ∀ {r z : ℝ}, 0 ≤ r → s.Inside ⟨r, z⟩ →
      r ≤ max |s.bounds.lo.x| |s.bounds.hi.x| ∧ s.bounds.lo.y ≤ z ∧ z ≤ s.bounds.hi.y := by
    intro r z hr hs
    obtain ⟨a1, a2, a3, a4⟩ := hb _ hs
    exact ⟨a3.trans ((le_abs_self _).trans (le_max_right _ _)), a2, a4⟩
  by_cases h0 : theta ≤ 0
  · exact absurd hp (not_lt.mpr (C27_no_turn s h0 p).le)
  push Not at h0
  by_cases hf : |theta - 2 * Real.pi| < tolerance
  · obtain ⟨r, φ, hr, hx, hy, hs⟩ := (C27_full_turn s hf p).mp hp
    obtain ⟨hrl, hz1, hz2⟩ := hrad hr hs
    unfold SDF3.revolve
    rw [if_neg (not_le.mpr h0)]
    simp only [if_pos hf]
    unfold SDF3.revolveSet
    rw [if_pos trivial]
    have m1 := V2.setMin_le (l := [⟨1, 1⟩, ⟨-1, -1⟩]) (v := ⟨-1, -1⟩) (by simp)
    have m2 := V2.le_setMax (l := [⟨1, 1⟩, ⟨-1, -1⟩]) (v := ⟨1, 1⟩) (by simp)
    simp only at m1 m2
    have c1 := scaled_mem hr hrl (m1.1.trans (Real.neg_one_le_cos φ)) ((Real.cos_le_one φ).trans m2.1)
      (by linarith [m1.1]) (by linarith [m2.1])
    have c2 := scaled_mem hr hrl (m1.2.trans (Real.neg_one_le_sin φ)) ((Real.sin_le_one φ).trans m2.2)
      (by linarith [m1.2]) (by linarith [m2.2])
    rw [← hx] at c1
    rw [← hy] at c2
    exact ⟨c1.1, c2.1, hz1, c1.2, c2.2, hz2⟩
  · have h1' : theta ≤ 2 * Real.pi - tolerance := by
      rw [abs_of_nonpos (by linarith)] at hf; linarith
    obtain ⟨φ, hφ0, hφ1, r, hr, hx, hy, hs⟩ := (C27_partial_turn s h0 h1' p).mp hp
    obtain ⟨hrl, hz1, hz2⟩ := hrad hr.le hs
    obtain ⟨e1, e2, e3⟩ := revolve_norm h0 h1'
    unfold SDF3.revolve
    rw [if_neg e1]
    simp only [if_neg e2, e3]
    have hset : SDF3.revolveSet (theta = 0) theta = [⟨0, 0⟩, ⟨1, 0⟩, ⟨Real.cos theta, Real.sin theta⟩]
        ++ (if theta > 0.5 * Real.pi then [⟨0, 1⟩] else []) ++ (if theta > Real.pi then [⟨-1, 0⟩] else [])
        ++ (if theta > 1.5 * Real.pi then [⟨0, -1⟩] else []) := by
      unfold SDF3.revolveSet
      rw [if_neg h0.ne']
    set vs := SDF3.revolveSet (theta = 0) theta
    have m0 : (⟨0, 0⟩ : V2) ∈ vs := by rw [hset]; simp
    have m1 : (⟨1, 0⟩ : V2) ∈ vs := by rw [hset]; simp
    have m2 : (⟨Real.cos theta, Real.sin theta⟩ : V2) ∈ vs := by rw [hset]; simp
    have m3 : theta > 0.5 * Real.pi → (⟨0, 1⟩ : V2) ∈ vs := fun h => by rw [hset, if_pos h]; simp
    have m4 : theta > Real.pi → (⟨-1, 0⟩ : V2) ∈ vs := fun h => by rw [hset, if_pos h]; simp
    have m5 : theta > 1.5 * Real.pi → (⟨0, -1⟩ : V2) ∈ vs := fun h => by rw [hset, if_pos h]; simp
    have lo0 := V2.setMin_le m0
    have hi0 := V2.le_setMax m0
    have lo2 := V2.setMin_le m2
    have hi2 := V2.le_setMax m2
    have hi1 := (V2.le_setMax m1).1
    simp only at lo0 hi0 lo2 hi2 hi1
    have hpi := Real.pi_pos
    have cxl : (V2.setMin vs).x ≤ Real.cos φ := by
      by_cases h : theta > Real.pi
      · exact (V2.setMin_le (m4 h)).1.trans (Real.neg_one_le_cos φ)
      · push Not at h
        exact lo2.1.trans (Real.cos_le_cos_of_nonneg_of_le_pi hφ0.le h hφ1.le)
    have cyh : Real.sin φ ≤ (V2.setMax vs).y := by
      by_cases h : theta > 0.5 * Real.pi
      · exact (Real.sin_le_one φ).trans (V2.le_setMax (m3 h)).2
      · norm_num at h
        refine le_trans ?_ hi2.2
        exact Real.sin_le_sin_of_le_of_le_pi_div_two (by linarith) (by linarith) hφ1.le
    have cyl : (V2.setMin vs).y ≤ Real.sin φ := by
      by_cases h : theta > 1.5 * Real.pi
      · exact (V2.setMin_le (m5 h)).2.trans (Real.neg_one_le_sin φ)
      · norm_num at h
        by_cases hφp : φ ≤ Real.pi
        · exact lo0.2.trans (Real.sin_nonneg_of_nonneg_of_le_pi hφ0.le hφp)
        · push Not at hφp
          refine lo2.2.trans ?_
          have := Real.sin_le_sin_of_le_of_le_pi_div_two (x := φ - Real.pi) (y := theta - Real.pi) (by linarith) (by linarith)
            (by linarith)
          rw [Real.sin_sub_pi, Real.sin_sub_pi] at this
          linarith
    have c1 := scaled_mem hr.le hrl cxl ((Real.cos_le_one φ).trans hi1) lo0.1 hi0.1
    have c2 := scaled_mem hr.le hrl cyl cyh lo0.2 hi0.2
    rw [← hx] at c1
    rw [← hy] at c2
    exact ⟨c1.1, c2.1, hz1, c1.2, c2.2, hz2⟩

/-- Two full turns give the full solid but a bounding box that covers only the half line at angle zero: the box of the
unit disc revolved twice misses the point `(0, 1/2, 0)` of the solid. -/
theorem C27_two_turns_box_wrong : ∃ s : SDF2, s.Bounded ∧ ¬ (SDF3.revolve s (4 * Real.pi)).Bounded := by
  let s : SDF2 := ⟨fun p => V2.norm p - 1, ⟨⟨-1, -1⟩, ⟨1, 1⟩⟩⟩
  refine ⟨s, ?_, ?_⟩
  · intro p hp
    have hn : V2.norm p < 1 := by have : V2.norm p - 1 < 0 := hp
                                  linarith
    have hx := V2.abs_x_le p
    have hy := V2.abs_y_le p
    rw [abs_le] at hx hy
    exact ⟨by show -1 ≤ p.x; linarith [hx.1], by show -1 ≤ p.y; linarith [hy.1], by show p.x ≤ 1; linarith [hx.2],
      by show p.y ≤ 1; linarith [hy.2]⟩
  · intro hb
    have hpi := Real.two_le_pi
    have ht : tolerance ≤ 1 := by unfold tolerance; norm_num
    have h1 : ¬ 4 * Real.pi ≤ 0 := by linarith
    have h2 : ¬ |4 * Real.pi - 2 * Real.pi| < tolerance := by
      rw [abs_of_pos (by linarith)]; linarith
    have h3 : goMod |4 * Real.pi| tau = 0 := by
      rw [abs_of_pos (by linarith)]
      unfold goMod tau
      have : 4 * Real.pi / (2 * Real.pi) = ((2 : ℤ) : ℝ) := by field_simp; norm_num
      rw [this, Int.floor_intCast]; push_cast; ring
    have he : (SDF3.revolve s (4 * Real.pi)).eval ⟨0, 1 / 2, 0⟩ < 0 := by
      unfold SDF3.revolve
      rw [if_neg h1]
      simp only [if_neg h2, h3]
      unfold SDF3.revolveEval
      simp only [ne_eq, not_true_eq_false, if_false, max_self]
      show V2.norm _ - 1 < 0
      have : V2.norm ⟨Real.sqrt (0 * 0 + 1 / 2 * (1 / 2)), 0⟩ = 1 / 2 := by
        refine V2.norm_eq_of (by norm_num) ?_
        simp only
        rw [Real.mul_self_sqrt (by norm_num)]; norm_num
      rw [this]; norm_num
    have := (hb _ he).2.2.2.2.1
    unfold SDF3.revolve at this
    rw [if_neg h1] at this
    simp only [if_neg h2, h3] at this
    unfold SDF3.revolveSet at this
    rw [if_neg (by linarith)] at this
    rw [if_neg (by linarith), if_neg (by linarith), if_neg (by linarith)] at this
    simp only [V2.scale, V2.setMax, Real.sin_zero, Real.cos_zero, List.append_nil, s] at this
    norm_num [V2.maxElem] at this

/-! Non-vacuity: a half turn of the unit disc contains `(0, 1/2, 0)` and not its mirror image. -/
example : Swept ⟨fun p => V2.norm p - 1, ⟨⟨-1, -1⟩, ⟨1, 1⟩⟩⟩ Real.pi ⟨0, 1 / 2, 0⟩ := by
  have hp := Real.pi_pos
  refine ⟨Real.pi / 2, by linarith, by linarith, 1 / 2, by norm_num, by simp, by simp, ?_⟩
  show V2.norm _ - 1 < 0
  rw [V2.norm_eq_of (a := ⟨1 / 2, 0⟩) (r := 1 / 2) (by norm_num) (by simp)]
  norm_num

example : (0 : ℝ) < Real.pi ∧ Real.pi ≤ 2 * Real.pi - tolerance := by
  have := Real.two_le_pi
  have ht : tolerance ≤ 1 := by unfold tolerance; norm_num
  constructor <;> linarith

end Sdf
