import Verif.Lemmas.FitsSweep

/-! Solids made from figures, slices and rotated copies preserve `Fits3`, `Fits2` and `Bounded`. -/

namespace Sdf

/-- The part of a direction in the xy-plane. -/
noncomputable def flat (u : V3) : ℝ := V2.norm ⟨u.x, u.y⟩

theorem flat_sq {u : V3} (hu : Unit3 u) : flat u * flat u + u.z * u.z = 1 := by
  have h1 := V3.norm_sq u
  rw [show V3.norm u = 1 from hu] at h1
  have h2 : flat u * flat u = u.x * u.x + u.y * u.y := V2.norm_sq ⟨u.x, u.y⟩
  linarith

theorem flat_nonneg (u : V3) : 0 ≤ flat u := V2.norm_nonneg _

theorem boxFn2_ge_left (a b : ℝ) : a ≤ boxFn2 ⟨a, b⟩ := by
  have := boxFn2_ge ⟨a, b⟩ ⟨1, 0⟩ zero_le_one le_rfl (V2.norm_eq_of zero_le_one (by norm_num))
  simpa [V2.dot] using this
theorem boxFn2_ge_right (a b : ℝ) : b ≤ boxFn2 ⟨a, b⟩ := by
  have := boxFn2_ge ⟨a, b⟩ ⟨0, 1⟩ le_rfl zero_le_one (V2.norm_eq_of zero_le_one (by norm_num))
  simpa [V2.dot] using this

/-- A rounded join of a figure's value `a` with a slab of half height `h`. -/
theorem join_fits {b : Box2} {c h a : ℝ} (hh : 0 ≤ h) {u : V3} (hu : Unit3 u) (p : V3) (hne : ∃ q, b.Contains q)
    (ha : flat u ≠ 0 → ∃ q, b.Contains q ∧ min (V2.dot ⟨u.x / flat u, u.y / flat u⟩ (V2.sub ⟨p.x, p.y⟩ q)) c ≤ a) :
    ∃ q : V3, b.Contains ⟨q.x, q.y⟩ ∧ -h ≤ q.z ∧ q.z ≤ h ∧ min (V3.dot u (V3.sub p q)) c ≤ SDF3.roundJoin a (|p.z| - h) := by
  rw [roundJoin_eq]
  obtain ⟨t, ht1, ht2, ht3⟩ : ∃ t, -h ≤ t ∧ t ≤ h ∧ u.z * (p.z - t) ≤ |u.z| * (|p.z| - h) := by
    rcases le_total 0 u.z with h0 | h0
    · exact ⟨h, by linarith, le_rfl, by rw [abs_of_nonneg h0]; nlinarith [le_abs_self p.z]⟩
    · exact ⟨-h, le_rfl, by linarith, by rw [abs_of_nonpos h0]; nlinarith [neg_le_abs p.z]⟩
  by_cases hk : flat u = 0
  · obtain ⟨q, hq⟩ := hne
    have hx : u.x = 0 ∧ u.y = 0 := by
      have := V2.norm_eq_zero.mp hk
      exact ⟨congrArg V2.x this, congrArg V2.y this⟩
    have hz := flat_sq hu
    rw [hk] at hz
    have hz1 : |u.z| = 1 := by
      have : |u.z| * |u.z| = 1 := by rw [abs_mul_abs_self]; linarith
      nlinarith [abs_nonneg u.z]
    refine ⟨⟨q.x, q.y, t⟩, hq, ht1, ht2, (min_le_left _ _).trans (le_trans ?_ (boxFn2_ge_right a _))⟩
    rw [hz1, one_mul] at ht3
    simp only [V3.dot, V3.sub, hx.1, hx.2]
    linarith
  · obtain ⟨q, hq, hle⟩ := ha hk
    refine ⟨⟨q.x, q.y, t⟩, hq, ht1, ht2, ?_⟩
    rcases min_le_iff.mp hle with h1 | h1
    · refine (min_le_left _ _).trans (le_trans ?_ (boxFn2_ge ⟨a, |p.z| - h⟩ ⟨flat u, |u.z|⟩ (flat_nonneg u) (abs_nonneg _) ?_))
      · have hpos : 0 < flat u := lt_of_le_of_ne (flat_nonneg u) (Ne.symm hk)
        have h2 := mul_le_mul_of_nonneg_left h1 hpos.le
        have e : flat u * V2.dot ⟨u.x / flat u, u.y / flat u⟩ (V2.sub ⟨p.x, p.y⟩ q) = u.x * (p.x - q.x) + u.y * (p.y - q.y) := by
          simp only [V2.dot, V2.sub]; field_simp
        rw [e] at h2
        simp only [V3.dot, V3.sub, V2.dot]
        linarith
      · refine V2.norm_eq_of zero_le_one ?_
        simp only [abs_mul_abs_self]
        linarith [flat_sq hu]
    · exact (min_le_right _ _).trans (h1.trans (boxFn2_ge_left a _))

/-- The directions of space `A` and of the plane `B` belong together. -/
def Over (A : V3 → Prop) (B : V2 → Prop) : Prop :=
  (∀ u, A u → Unit3 u) ∧ (∃ w, B w) ∧ (∀ u, A u → flat u ≠ 0 → B ⟨u.x / flat u, u.y / flat u⟩) ∧
    ∀ u, A u → B ⟨flat u, u.z⟩

theorem over_unit : Over Unit3 Unit2 := by
  refine ⟨fun _ h => h, ⟨⟨1, 0⟩, V2.norm_eq_of zero_le_one (by norm_num)⟩, fun u hu hk => ?_, fun u hu => ?_⟩
  · refine V2.norm_eq_of zero_le_one ?_
    have h2 : flat u * flat u = u.x * u.x + u.y * u.y := V2.norm_sq ⟨u.x, u.y⟩
    simp only
    field_simp
    nlinarith
  · exact V2.norm_eq_of zero_le_one (by simp only; linarith [flat_sq hu])

theorem over_axis : Over Axis3 Axis2 := by
  have f : ∀ x y z r : ℝ, 0 ≤ r → x * x + y * y = r * r → flat ⟨x, y, z⟩ = r := fun x y z r hr h => V2.norm_eq_of hr h
  have f1 := f 1 0 0 1 zero_le_one (by norm_num)
  have f2 := f (-1) 0 0 1 zero_le_one (by norm_num)
  have f3 := f 0 1 0 1 zero_le_one (by norm_num)
  have f4 := f 0 (-1) 0 1 zero_le_one (by norm_num)
  have f5 := f 0 0 1 0 le_rfl (by norm_num)
  have f6 := f 0 0 (-1) 0 le_rfl (by norm_num)
  refine ⟨fun _ h => h.unit, ⟨⟨1, 0⟩, .inl rfl⟩, fun u hu hk => ?_, fun u hu => ?_⟩
  · rcases hu with rfl | rfl | rfl | rfl | rfl | rfl
    · rw [f1]; simp [Axis2]
    · rw [f2]; simp [Axis2]
    · rw [f3]; simp [Axis2]
    · rw [f4]; simp [Axis2]
    · exact absurd f5 hk
    · exact absurd f6 hk
  · rcases hu with rfl | rfl | rfl | rfl | rfl | rfl
    · rw [f1]; simp [Axis2]
    · rw [f2]; simp [Axis2]
    · rw [f3]; simp [Axis2]
    · rw [f4]; simp [Axis2]
    · rw [f5]; simp [Axis2]
    · rw [f6]; simp [Axis2]

/-- Rounded extrusions and lofts, before they are grown by the rounding. -/
theorem round_fits {A : V3 → Prop} {B : V2 → Prop} (hAB : Over A B) {b : Box2} {c h round : ℝ} (hh : 0 ≤ h) (hr : 0 ≤ round)
    (f : V3 → ℝ) (hf : ∀ w, B w → ∀ p : V3, ∃ q, b.Contains q ∧ min (V2.dot w (V2.sub ⟨p.x, p.y⟩ q)) c ≤ f p) :
    Fits3 A (c - round) ⟨fun p => SDF3.roundJoin (f p) (|p.z| - h) - round,
      ⟨V3.sub ⟨b.lo.x, b.lo.y, -h⟩ (V3.elem round), V3.add ⟨b.hi.x, b.hi.y, h⟩ (V3.elem round)⟩⟩ := by
  obtain ⟨w, hw⟩ := hAB.2.1
  have base : Fits3 A c ⟨fun p => SDF3.roundJoin (f p) (|p.z| - h), ⟨⟨b.lo.x, b.lo.y, -h⟩, ⟨b.hi.x, b.hi.y, h⟩⟩⟩ := by
    intro u hu p
    obtain ⟨q, hq, h1, h2, hle⟩ := join_fits hh (hAB.1 u hu) p ((hf w hw p).imp fun _ h => h.1)
      (fun hk => hf _ (hAB.2.2.1 u hu hk) p)
    exact ⟨q, ⟨hq.1, hq.2.1, h1, hq.2.2.1, hq.2.2.2, h2⟩, hle⟩
  refine base.shift hAB.1 hr (fun p => le_rfl) fun p h1 h2 h3 h4 h5 h6 => ?_
  exact ⟨h1, h2, h3, h4, h5, h6⟩

theorem Fits2.extrudeRounded {A : V3 → Prop} {B : V2 → Prop} (hAB : Over A B) {c : ℝ} {s : SDF2} (hs : Fits2 B c s)
    {height round : ℝ} (hr : 0 < round) (hh : 2 * round ≤ height) :
    Fits3 A (c - round) (SDF3.extrudeRounded s height round) := by
  unfold SDF3.extrudeRounded
  rw [if_neg hr.ne', if_neg (by linarith), if_neg (by linarith), if_neg (by linarith)]
  exact round_fits hAB (by linarith) hr.le (fun p => s.eval ⟨p.x, p.y⟩) fun w hw p => hs w hw _

theorem mix_ge {a b k x : ℝ} (ha : x ≤ a) (hb : x ≤ b) (h0 : 0 ≤ k) (h1 : k ≤ 1) : x ≤ mix a b k := by
  unfold mix; nlinarith

theorem clamp01 (x : ℝ) : 0 ≤ clamp x 0 1 ∧ clamp x 0 1 ≤ 1 := by
  unfold clamp
  split_ifs <;> constructor <;> linarith

theorem Fits2.loft {A : V3 → Prop} {B : V2 → Prop} (hAB : Over A B) {c : ℝ} {s0 s1 : SDF2} (hs0 : Fits2 B c s0)
    (hs1 : Fits2 B c s1) {height round : ℝ} (hr : 0 ≤ round) (hh : 2 * round < height) :
    Fits3 A (c - round) (SDF3.loft s0 s1 height round) := by
  unfold SDF3.loft
  rw [if_neg (by linarith), if_neg (by linarith), if_neg (by linarith)]
  refine round_fits hAB (b := s0.bounds.extend s1.bounds) (by linarith) hr
    (fun p => mix (s0.eval ⟨p.x, p.y⟩) (s1.eval ⟨p.x, p.y⟩) (Sdf.clamp (0.5 * p.z / (height / 2 - round) + 0.5) 0 1))
    fun w hw p => ?_
  obtain ⟨q0, h0, e0⟩ := hs0 w hw ⟨p.x, p.y⟩
  obtain ⟨q1, h1, e1⟩ := hs1 w hw ⟨p.x, p.y⟩
  obtain ⟨k0, k1⟩ := clamp01 (0.5 * p.z / (height / 2 - round) + 0.5)
  rcases le_total (s0.eval ⟨p.x, p.y⟩) (s1.eval ⟨p.x, p.y⟩) with h | h
  · exact ⟨q0, (Box2.sub_extend_left _ _).contains h0, mix_ge e0 (e0.trans h) k0 k1⟩
  · exact ⟨q1, (Box2.sub_extend_right _ _).contains h1, mix_ge (e1.trans h) e1 k0 k1⟩

theorem loft_bounded {s0 s1 : SDF2} (h0 : s0.Bounded) (h1 : s1.Bounded) (height : ℝ) : (SDF3.loft s0 s1 height 0).Bounded := by
  intro p hp
  unfold SDF3.loft at hp ⊢
  by_cases hh : height ≤ 0
  · rw [if_pos hh] at hp
    exact absurd hp (not_lt.mpr maxFloat64_pos.le)
  · push Not at hh
    rw [if_neg (by linarith), if_neg (by linarith), if_neg (by linarith)] at hp ⊢
    simp only [sub_zero] at hp
    rw [roundJoin_eq] at hp
    obtain ⟨k0, k1⟩ := clamp01 (0.5 * p.z / (height / 2) + 0.5)
    have ha := (boxFn2_ge_left _ _).trans_lt hp
    have hb := abs_lt.mp (sub_neg.mp ((boxFn2_ge_right _ _).trans_lt hp))
    have hc : (s0.bounds.extend s1.bounds).Contains ⟨p.x, p.y⟩ := by
      by_cases hx : s0.eval ⟨p.x, p.y⟩ < 0
      · exact (Box2.sub_extend_left _ _).contains (h0 _ hx)
      · by_cases hy : s1.eval ⟨p.x, p.y⟩ < 0
        · exact (Box2.sub_extend_right _ _).contains (h1 _ hy)
        · exact absurd ha (not_lt.mpr (mix_ge (not_lt.mp hx) (not_lt.mp hy) k0 k1))
    obtain ⟨a1, a2, a3, a4⟩ := hc
    simp only [Box3.Contains, V3.sub, V3.add, V3.elem, sub_zero, add_zero]
    exact ⟨a1, a2, by linarith [hb.1], a3, a4, by linarith [hb.2]⟩

theorem Fits2.extrude {c : ℝ} {s : SDF2} (hs : Fits2 Axis2 c s) {height : ℝ} (hh : 0 ≤ height) :
    Fits3 Axis3 c (SDF3.extrude s height) := by
  intro u hu p
  have hq := fun w hw => hs w hw ⟨p.x, p.y⟩
  show ∃ q, Box3.Contains ⟨⟨s.bounds.lo.x, s.bounds.lo.y, -(height / 2)⟩, ⟨s.bounds.hi.x, s.bounds.hi.y, height / 2⟩⟩ q ∧
    _ ≤ max (s.eval ⟨p.x, p.y⟩) (|p.z| - height / 2)
  rcases hu with rfl | rfl | rfl | rfl | rfl | rfl
  · obtain ⟨q, ⟨a1, a2, a3, a4⟩, h⟩ := hq ⟨1, 0⟩ (by simp [Axis2])
    refine ⟨⟨q.x, q.y, 0⟩, ⟨a1, a2, by simp only; linarith, a3, a4, by simp only; linarith⟩, le_trans ?_ (h.trans (le_max_left _ _))⟩
    simp [V3.dot, V3.sub, V2.dot, V2.sub]
  · obtain ⟨q, ⟨a1, a2, a3, a4⟩, h⟩ := hq ⟨-1, 0⟩ (by simp [Axis2])
    refine ⟨⟨q.x, q.y, 0⟩, ⟨a1, a2, by simp only; linarith, a3, a4, by simp only; linarith⟩, le_trans ?_ (h.trans (le_max_left _ _))⟩
    simp [V3.dot, V3.sub, V2.dot, V2.sub]
  · obtain ⟨q, ⟨a1, a2, a3, a4⟩, h⟩ := hq ⟨0, 1⟩ (by simp [Axis2])
    refine ⟨⟨q.x, q.y, 0⟩, ⟨a1, a2, by simp only; linarith, a3, a4, by simp only; linarith⟩, le_trans ?_ (h.trans (le_max_left _ _))⟩
    simp [V3.dot, V3.sub, V2.dot, V2.sub]
  · obtain ⟨q, ⟨a1, a2, a3, a4⟩, h⟩ := hq ⟨0, -1⟩ (by simp [Axis2])
    refine ⟨⟨q.x, q.y, 0⟩, ⟨a1, a2, by simp only; linarith, a3, a4, by simp only; linarith⟩, le_trans ?_ (h.trans (le_max_left _ _))⟩
    simp [V3.dot, V3.sub, V2.dot, V2.sub]
  · obtain ⟨q, ⟨a1, a2, a3, a4⟩, _⟩ := hq ⟨1, 0⟩ (by simp [Axis2])
    refine ⟨⟨q.x, q.y, height / 2⟩, ⟨a1, a2, by simp only; linarith, a3, a4, le_rfl⟩,
      (min_le_left _ _).trans (le_trans ?_ (le_max_right _ _))⟩
    simp only [V3.dot, V3.sub]
    linarith [le_abs_self p.z]
  · obtain ⟨q, ⟨a1, a2, a3, a4⟩, _⟩ := hq ⟨1, 0⟩ (by simp [Axis2])
    refine ⟨⟨q.x, q.y, -(height / 2)⟩, ⟨a1, a2, le_rfl, a3, a4, by simp only; linarith⟩,
      (min_le_left _ _).trans (le_trans ?_ (le_max_right _ _))⟩
    simp only [V3.dot, V3.sub]
    linarith [neg_le_abs p.z]

/-! Full revolutions. -/

theorem revolve_full (s : SDF2) {theta : ℝ} (h : |theta - 2 * Real.pi| < tolerance) :
    SDF3.revolve s theta = ⟨fun p => s.eval ⟨V2.norm ⟨p.x, p.y⟩, p.z⟩,
      ⟨⟨-max |s.bounds.lo.x| |s.bounds.hi.x|, -max |s.bounds.lo.x| |s.bounds.hi.x|, s.bounds.lo.y⟩,
       ⟨max |s.bounds.lo.x| |s.bounds.hi.x|, max |s.bounds.lo.x| |s.bounds.hi.x|, s.bounds.hi.y⟩⟩⟩ := by
  have hp := Real.two_le_pi
  have ht : tolerance ≤ 1 := by unfold tolerance; norm_num
  have h0 : ¬ theta ≤ 0 := by have := (abs_lt.mp h).1; linarith
  unfold SDF3.revolve
  rw [if_neg h0]
  simp only [if_pos h]
  have hm : goMod |0| tau = 0 := by simp [goMod]
  rw [hm]
  have e1 : SDF3.revolveEval s 0 = fun p => s.eval ⟨V2.norm ⟨p.x, p.y⟩, p.z⟩ := by
    funext p
    simp [SDF3.revolveEval, V2.norm]
  rw [e1]
  unfold SDF3.revolveSet
  rw [if_pos trivial]
  simp [V2.setMin, V2.setMax, V2.scale, V2.minElem, V2.maxElem]

theorem radial_bound {l k : ℝ} (hl : 0 ≤ l) (u : V3) (hk : k = flat u) (p : V3) :
    ∃ a b : ℝ, |a| ≤ l ∧ |b| ≤ l ∧ u.x * (p.x - a) + u.y * (p.y - b) ≤ k * (V2.norm ⟨p.x, p.y⟩ - l) := by
  have hdot : u.x * p.x + u.y * p.y ≤ k * V2.norm ⟨p.x, p.y⟩ := by
    rw [hk]; exact V2.dot_le ⟨u.x, u.y⟩ ⟨p.x, p.y⟩
  by_cases h : k = 0
  · refine ⟨0, 0, by simpa, by simpa, ?_⟩
    rw [h] at hdot ⊢
    linarith
  · have hpos : 0 < k := by rw [hk] at h ⊢; exact lt_of_le_of_ne (flat_nonneg u) (Ne.symm h)
    have hx : |u.x| ≤ k := by rw [hk]; exact V2.abs_x_le ⟨u.x, u.y⟩
    have hy : |u.y| ≤ k := by rw [hk]; exact V2.abs_y_le ⟨u.x, u.y⟩
    have bd : ∀ t : ℝ, |t| ≤ k → |l * t / k| ≤ l := by
      intro t ht
      rw [abs_div, abs_mul, abs_of_nonneg hl, abs_of_pos hpos, div_le_iff₀ hpos]
      exact mul_le_mul_of_nonneg_left ht hl
    refine ⟨l * u.x / k, l * u.y / k, bd _ hx, bd _ hy, ?_⟩
    have hkk : k * k = u.x * u.x + u.y * u.y := by rw [hk]; exact V2.norm_sq ⟨u.x, u.y⟩
    have e : u.x * (l * u.x / k) + u.y * (l * u.y / k) = k * l := by
      field_simp
      linear_combination -l * hkk
    linarith

theorem Fits2.revolve {A : V3 → Prop} {B : V2 → Prop} (hAB : Over A B) {c : ℝ} {s : SDF2} (hs : Fits2 B c s)
    {theta : ℝ} (h : |theta - 2 * Real.pi| < tolerance) : Fits3 A c (SDF3.revolve s theta) := by
  rw [revolve_full s h]
  intro u hu p
  obtain ⟨q, ⟨a1, a2, a3, a4⟩, hle⟩ := hs _ (hAB.2.2.2 u hu) ⟨V2.norm ⟨p.x, p.y⟩, p.z⟩
  have hl : 0 ≤ max |s.bounds.lo.x| |s.bounds.hi.x| := le_trans (abs_nonneg _) (le_max_left _ _)
  have hql : q.x ≤ max |s.bounds.lo.x| |s.bounds.hi.x| := a3.trans ((le_abs_self _).trans (le_max_right _ _))
  set l := max |s.bounds.lo.x| |s.bounds.hi.x|
  obtain ⟨a, b, ha, hb, hab⟩ := radial_bound hl u rfl p
  rw [abs_le] at ha hb
  refine ⟨⟨a, b, q.y⟩, ⟨ha.1, hb.1, a2, ha.2, hb.2, a4⟩, le_trans (min_le_min_right _ ?_) hle⟩
  simp only [V3.dot, V3.sub, V2.dot, V2.sub]
  nlinarith [flat_nonneg u]

theorem revolve_bounded {s : SDF2} (hs : s.Bounded) {theta : ℝ} (h : |theta - 2 * Real.pi| < tolerance) :
    (SDF3.revolve s theta).Bounded := by
  rw [revolve_full s h]
  intro p hp
  obtain ⟨a1, a2, a3, a4⟩ := hs _ hp
  simp only at a1 a2 a3 a4
  have hr := a3.trans ((le_abs_self _).trans (le_max_right |s.bounds.lo.x| _))
  have hx := abs_le.mp ((V2.abs_x_le ⟨p.x, p.y⟩).trans hr)
  have hy := abs_le.mp ((V2.abs_y_le ⟨p.x, p.y⟩).trans hr)
  exact ⟨hx.1, hy.1, a2, hx.2, hy.2, a4⟩

/-! Rotated copies. -/

/-- The direction that sees the folded point `w` as `u` sees the point before folding. -/
theorem fold_direction (k : ℝ) (w : V2) : ∃ d : V2, V2.norm d = |k| ∧ V2.dot d w = |k| * V2.norm w := by
  by_cases h : w = ⟨0, 0⟩
  · refine ⟨⟨k, 0⟩, ?_, ?_⟩
    · exact V2.norm_eq_of (abs_nonneg _) (by simp)
    · rw [V2.norm_eq_zero.mpr h, h]; simp [V2.dot]
  · have hpos := V2.norm_pos h
    have hsq := V2.norm_sq w
    set n := V2.norm w
    refine ⟨⟨|k| * w.x / n, |k| * w.y / n⟩, V2.norm_eq_of (abs_nonneg _) ?_, ?_⟩
    · simp only
      field_simp
      linear_combination (-|k| ^ 2) * hsq
    · simp only [V2.dot]
      field_simp
      linear_combination (-|k|) * hsq

theorem Fits3.rotateCopy {c : ℝ} {s : SDF3} (hs : Fits3 Unit3 c s) (hc : c ≤ maxFloat64) (n : ℤ) :
    Fits3 Unit3 c (s.rotateCopy n) := by
  unfold SDF3.rotateCopy
  split
  · exact Fits3.empty hc _
  rename_i hn
  intro u hu p
  have hnorm : V2.norm (V2.polarToXY (V2.norm ⟨p.x, p.y⟩) (sawTooth (atan2 p.y p.x) (tau / n))) = V2.norm ⟨p.x, p.y⟩ := by
    refine V2.norm_eq_of (V2.norm_nonneg _) ?_
    simp only [V2.polarToXY]
    linear_combination (V2.norm ⟨p.x, p.y⟩ * V2.norm ⟨p.x, p.y⟩) *
      Real.cos_sq_add_sin_sq (sawTooth (atan2 p.y p.x) (tau / n))
  simp only
  generalize V2.polarToXY (V2.norm ⟨p.x, p.y⟩) (sawTooth (atan2 p.y p.x) (tau / n)) = w at hnorm
  obtain ⟨d, hd1, hd2⟩ := fold_direction (flat u) w
  rw [abs_of_nonneg (flat_nonneg u)] at hd1 hd2
  have hunit : Unit3 ⟨d.x, d.y, u.z⟩ := by
    refine V3.norm_eq_of zero_le_one ?_
    have := V2.norm_sq d
    rw [hd1] at this
    simp only
    linarith [flat_sq hu]
  obtain ⟨q, ⟨a1, a2, a3, a4, a5, a6⟩, hle⟩ := hs _ hunit ⟨w.x, w.y, p.z⟩
  obtain ⟨a, b, ha, hb, hcor⟩ := corner_far a1 a4 a2 a5
  have hmem : (⟨a, b, s.bounds.lo.z⟩ : V3) ∈ s.bounds.vertices := by
    rcases ha with rfl | rfl <;> rcases hb with rfl | rfl <;> simp [Box3.vertices]
  have hspec := foldl_max_spec (fun v : V3 => Real.sqrt (v.x * v.x + v.y * v.y)) s.bounds.vertices 0
  have hq := hcor.trans (hspec.2 _ hmem)
  have hl := hspec.1
  set rmax := s.bounds.vertices.foldl (fun r v => open Classical in
    if Real.sqrt (v.x * v.x + v.y * v.y) > r then Real.sqrt (v.x * v.x + v.y * v.y) else r) 0
  obtain ⟨a', b', ha', hb', hab⟩ := radial_bound hl u rfl p
  rw [abs_le] at ha' hb'
  refine ⟨⟨a', b', q.z⟩, ⟨ha'.1, hb'.1, a3, ha'.2, hb'.2, a6⟩, le_trans (min_le_min_right _ ?_) hle⟩
  have h1 := V2.dot_le d ⟨q.x, q.y⟩
  rw [hd1] at h1
  have h2 := mul_le_mul_of_nonneg_left hq (flat_nonneg u)
  rw [hnorm] at hd2
  simp only [V3.dot, V3.sub, V2.dot] at *
  linarith

theorem Fits2.rotateCopy {c : ℝ} {s t : SDF2} (hs : Fits2 Unit2 c s) {n : ℤ} (ht : s.rotateCopy n = some t) :
    Fits2 Unit2 c t := by
  unfold SDF2.rotateCopy at ht
  split at ht
  · cases ht
  rename_i hn
  cases ht
  intro u hu p
  have hnorm : V2.norm (V2.polarToXY (V2.norm p) (sawTooth (atan2 p.y p.x) (2 * Real.pi / n))) = V2.norm p := by
    refine V2.norm_eq_of (V2.norm_nonneg _) ?_
    simp only [V2.polarToXY]
    linear_combination (V2.norm p * V2.norm p) * Real.cos_sq_add_sin_sq (sawTooth (atan2 p.y p.x) (2 * Real.pi / n))
  simp only
  generalize V2.polarToXY (V2.norm p) (sawTooth (atan2 p.y p.x) (2 * Real.pi / n)) = w at hnorm
  obtain ⟨d, hd1, hd2⟩ := fold_direction 1 w
  rw [abs_one] at hd1 hd2
  obtain ⟨q, ⟨a1, a2, a4, a5⟩, hle⟩ := hs d hd1 w
  obtain ⟨a, b, ha, hb, hcor⟩ := corner_far a1 a4 a2 a5
  have hmem : (⟨a, b⟩ : V2) ∈ s.bounds.vertices := by
    rcases ha with rfl | rfl <;> rcases hb with rfl | rfl <;> simp [Box2.vertices]
  have hspec := foldl_max_spec V2.norm s.bounds.vertices 0
  have hq := hcor.trans (hspec.2 _ hmem)
  have hl := hspec.1
  set rmax := s.bounds.vertices.foldl (fun r v => open Classical in if V2.norm v > r then V2.norm v else r) 0
  have hflat : (1 : ℝ) = flat ⟨u.x, u.y, 0⟩ := hu.symm
  obtain ⟨a', b', ha', hb', hab⟩ := radial_bound hl ⟨u.x, u.y, 0⟩ hflat ⟨p.x, p.y, 0⟩
  rw [abs_le] at ha' hb'
  refine ⟨⟨a', b'⟩, ⟨?_, ?_, ha'.2, hb'.2⟩, le_trans (min_le_min_right _ ?_) hle⟩
  · show -1 * _ ≤ _; rw [neg_one_mul]; exact ha'.1
  · show -1 * _ ≤ _; rw [neg_one_mul]; exact hb'.1
  have h1 := V2.dot_le d ⟨q.x, q.y⟩
  rw [hd1] at h1
  rw [hnorm] at hd2
  simp only [V2.dot, V2.sub] at *
  linarith

/-! Slices. -/

theorem slice_contains (s : SDF3) (a : V3) {n : V3} (hn : n ≠ ⟨0, 0, 0⟩) {q : V3} (hq : s.bounds.Contains q) :
    (SDF2.slice s a n).bounds.Contains ⟨V3.dot (V3.sub q a) (V3.unit (SDF2.sliceAxis n)),
      V3.dot (V3.sub q a) (V3.unit (V3.cross n (SDF2.sliceAxis n)))⟩ := by
  obtain ⟨u, v, hu, hv, huv, eu, ev, hun, hvn⟩ := slice_frame hn
  unfold SDF2.slice
  simp only [← eu, ← ev]
  set vec := s.bounds.vertices.map fun w =>
    (⟨V3.dot (V3.sub (V3.sub w a) (V3.scale (V3.dot (V3.unit n) (V3.sub w a)) (V3.unit n))) u,
      V3.dot (V3.sub (V3.sub w a) (V3.scale (V3.dot (V3.unit n) (V3.sub w a)) (V3.unit n))) v⟩ : V2) with hvec
  have hproj : ∀ w x : V3, V3.dot x n = 0 →
      V3.dot (V3.sub w (V3.scale (V3.dot (V3.unit n) w) (V3.unit n))) x = V3.dot w x := by
    intro w x hx
    have : V3.dot (V3.unit n) x = 0 := by
      have e : V3.dot (V3.unit n) x = 1 / V3.norm n * V3.dot x n := by simp only [V3.unit, V3.dot, V3.scale]; ring
      rw [e, hx, mul_zero]
    have e : V3.dot (V3.sub w (V3.scale (V3.dot (V3.unit n) w) (V3.unit n))) x =
        V3.dot w x - V3.dot (V3.unit n) w * V3.dot (V3.unit n) x := by simp only [V3.dot, V3.sub, V3.scale]; ring
    rw [e, this, mul_zero, sub_zero]
  have hmem : ∀ w ∈ s.bounds.vertices, (⟨V3.dot (V3.sub w a) u, V3.dot (V3.sub w a) v⟩ : V2) ∈ vec := by
    intro w hw
    have := List.mem_map_of_mem (f := fun w =>
      (⟨V3.dot (V3.sub (V3.sub w a) (V3.scale (V3.dot (V3.unit n) (V3.sub w a)) (V3.unit n))) u,
        V3.dot (V3.sub (V3.sub w a) (V3.scale (V3.dot (V3.unit n) (V3.sub w a)) (V3.unit n))) v⟩ : V2)) hw
    rw [hproj _ u hun, hproj _ v hvn] at this
    exact this
  have lo : ∀ x : V3, ∃ w ∈ s.bounds.vertices, V3.dot (V3.sub w a) x ≤ V3.dot (V3.sub q a) x := by
    intro x
    obtain ⟨w, hw, h⟩ := s.bounds.exists_vertex_le hq (-(V3.dot a x)) x.x x.y x.z
    refine ⟨w, hw, ?_⟩
    simp only [V3.dot, V3.sub] at h ⊢; linarith
  have hi : ∀ x : V3, ∃ w ∈ s.bounds.vertices, V3.dot (V3.sub q a) x ≤ V3.dot (V3.sub w a) x := by
    intro x
    obtain ⟨w, hw, h⟩ := s.bounds.exists_vertex_le hq (V3.dot a x) (-x.x) (-x.y) (-x.z)
    refine ⟨w, hw, ?_⟩
    simp only [V3.dot, V3.sub] at h ⊢; linarith
  obtain ⟨w1, m1, e1⟩ := lo u
  obtain ⟨w2, m2, e2⟩ := lo v
  obtain ⟨w3, m3, e3⟩ := hi u
  obtain ⟨w4, m4, e4⟩ := hi v
  exact ⟨(V2.setMin_le (hmem w1 m1)).1.trans e1, (V2.setMin_le (hmem w2 m2)).2.trans e2,
    e3.trans (V2.le_setMax (hmem w3 m3)).1, e4.trans (V2.le_setMax (hmem w4 m4)).2⟩

theorem Fits3.slice {c : ℝ} {s : SDF3} (hs : Fits3 Unit3 c s) (a : V3) {n : V3} (hn : n ≠ ⟨0, 0, 0⟩) :
    Fits2 Unit2 c (SDF2.slice s a n) := by
  intro d hd p
  have hcon := fun q (hq : s.bounds.Contains q) => slice_contains s a hn hq
  obtain ⟨u, v, hu, hv, huv, eu, ev, -, -⟩ := slice_frame hn
  have he : (SDF2.slice s a n).eval p = s.eval (V3.add (V3.add a (V3.scale p.x u)) (V3.scale p.y v)) := by
    rw [eu, ev]; rfl
  rw [he]
  rw [← eu, ← ev] at hcon
  have huu := V3.norm_sq u
  have hvv := V3.norm_sq v
  have hdd := V2.norm_sq d
  rw [hu] at huu
  rw [hv] at hvv
  rw [show V2.norm d = 1 from hd] at hdd
  simp only [V3.dot] at huv
  have hw : Unit3 (V3.add (V3.scale d.x u) (V3.scale d.y v)) := by
    refine V3.norm_eq_of zero_le_one ?_
    simp only [V3.add, V3.scale]
    linear_combination (-(d.x * d.x)) * huu - d.y * d.y * hvv - hdd + 2 * d.x * d.y * huv
  obtain ⟨q, hq, hle⟩ := hs _ hw (V3.add (V3.add a (V3.scale p.x u)) (V3.scale p.y v))
  refine ⟨_, hcon q hq, le_trans (le_of_eq ?_) hle⟩
  congr 1
  simp only [V2.dot, V2.sub, V3.dot, V3.sub, V3.add, V3.scale]
  linear_combination d.x * p.x * huu + d.y * p.y * hvv - (d.x * p.y + d.y * p.x) * huv

theorem SDF3.Bounded.slice {s : SDF3} (hs : s.Bounded) (a : V3) {n : V3} (hn : n ≠ ⟨0, 0, 0⟩) : (SDF2.slice s a n).Bounded := by
  intro p hp
  have hcon := fun q (hq : s.bounds.Contains q) => slice_contains s a hn hq
  obtain ⟨u, v, hu, hv, huv, eu, ev, -, -⟩ := slice_frame hn
  have he : (SDF2.slice s a n).eval p = s.eval (V3.add (V3.add a (V3.scale p.x u)) (V3.scale p.y v)) := by
    rw [eu, ev]; rfl
  rw [he] at hp
  rw [← eu, ← ev] at hcon
  have huu := V3.norm_sq u
  have hvv := V3.norm_sq v
  rw [hu] at huu
  rw [hv] at hvv
  simp only [V3.dot] at huv
  have := hcon _ (hs _ hp)
  have e : (⟨V3.dot (V3.sub (V3.add (V3.add a (V3.scale p.x u)) (V3.scale p.y v)) a) u,
      V3.dot (V3.sub (V3.add (V3.add a (V3.scale p.x u)) (V3.scale p.y v)) a) v⟩ : V2) = p := by
    ext
    · simp only [V3.dot, V3.sub, V3.add, V3.scale]
      linear_combination (-p.x) * huu + p.y * huv
    · simp only [V3.dot, V3.sub, V3.add, V3.scale]
      linear_combination (-p.y) * hvv + p.x * huv
  rwa [e] at this

end Sdf
