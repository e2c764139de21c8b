import Verif.Lemmas.Rounding
import Verif.Props.C35Bolts
import Verif.Props.C36Screw

/-!
C51: the profiles of the threads have their nominal form.
-/

namespace Sdf
open Polygon Must2 Thread

theorem tan_pos_lt_one {θ : ℝ} (h0 : 0 < θ) (h1 : θ < Real.pi / 4) : 0 < Real.tan θ ∧ Real.tan θ < 1 := by
  have hp := Real.pi_pos
  refine ⟨Real.tan_pos_of_pos_of_lt_pi_div_two h0 (by linarith), ?_⟩
  rw [← Real.tan_pi_div_four]
  exact Real.tan_lt_tan_of_nonneg_of_lt_pi_div_two h0.le (by linarith) h1

theorem onSegment_xy {x1 y1 x2 y2 x t : ℝ} (h : OnSegment ⟨x1, y1⟩ ⟨x2, y2⟩ ⟨x, t⟩) :
    ∃ l, 0 ≤ l ∧ l ≤ 1 ∧ x = x1 + l * (x2 - x1) ∧ t = y1 + l * (y2 - y1) := by
  obtain ⟨l, l0, l1, h⟩ := h
  rw [V2.mk.injEq] at h
  exact ⟨l, l0, l1, h.1, h.2⟩

/-- The height of an Acme thread at the axial position `x` from the middle of a tooth: flats at the major radius `D/2` and, half
a pitch lower, at the minor radius, joined by flanks that make 14.5° with the radial direction and are half a pitch apart at
half height. -/
noncomputable def acmeHeight (D P x : ℝ) : ℝ :=
  max (D / 2 - P / 2) (min (D / 2) (D / 2 - P / 4 - (|x| - P / 4) / Real.tan (14.5 * Real.pi / 180)))

theorem C51_acme (D P : ℝ) (hP : 0 < P) (hD : P < D) (hT : 1 / 10 ^ 9 < D) (fuel : ℕ) :
    ∃ s, (acme (fuel + 1) D P).thread = .ok ⟨some s, false⟩ ∧ Lip2 s.eval ∧
      ∀ x y, |x| ≤ P / 2 → ((s.eval ⟨x, y⟩ < 0 ↔ 0 < y ∧ y < acmeHeight D P x) ∧ (0 < s.eval ⟨x, y⟩ ↔ y < 0 ∨ acmeHeight D P x < y)) := by
  set T := Real.tan (14.5 * Real.pi / 180) with hTd
  obtain ⟨T0, T1⟩ : 0 < T ∧ T < 1 := tan_pos_lt_one (by have := Real.pi_pos; positivity) (by have := Real.pi_pos; norm_num; linarith)
  set R := D / 2 with hR
  set L : List V2 := [⟨R, 0⟩, ⟨R, R - P / 2⟩, ⟨P / 4 + P / 4 * T, R - P / 2⟩, ⟨P / 4 - P / 4 * T, R⟩, ⟨-(P / 4 - P / 4 * T), R⟩,
    ⟨-(P / 4 + P / 4 * T), R - P / 2⟩, ⟨-R, R - P / 2⟩, ⟨-R, 0⟩] with hL
  have hb : (acmeBuilder D P).vertices (fuel + 1) = .ok (L, acmeBuilder D P) := by
    rw [C32_plain _ rfl (by
      intro v hv
      simp [acmeBuilder, Builder.add, Builder.new] at hv
      rcases hv with rfl | rfl | rfl | rfl | rfl | rfl | rfl | rfl <;> exact ⟨rfl, rfl⟩)]
    have e1 : (29.0 / 2.0 : ℝ) * Real.pi / 180.0 = 14.5 * Real.pi / 180 := by norm_num
    congr 2
    simp only [acmeBuilder, Builder.add, Builder.new, PV.plain, List.nil_append, List.cons_append, List.map_cons, List.map_nil,
      Bool.false_eq_true, if_false, hL, e1, ← hTd, ← hR]
    norm_num
    refine ⟨?_, ?_, ?_, ?_, ?_, ?_⟩ <;> first | ring1 | (constructor <;> ring1)
  obtain ⟨s, hs⟩ : ∃ s, Must2.polygon L = some s := ⟨_, rfl⟩
  have hPT : P / 4 * T < P / 4 := by nlinarith
  have hPT0 : 0 < P / 4 * T := by positivity
  have hprop : Proper L := by
    refine ⟨by simp [hL], ?_, ?_⟩
    · intro e he
      simp only [hL, List.tail_cons, List.zip_cons_cons, List.zip_nil_right, List.mem_cons, List.not_mem_nil, or_false] at he
      rcases he with rfl | rfl | rfl | rfl | rfl | rfl | rfl <;> simp only [ne_eq, V2.mk.injEq, not_and_or] <;>
        first | (left; intro h; linarith) | (right; intro h; linarith)
    · intro a b ha hb
      simp only [hL, List.head?_cons, Option.some.injEq, List.getLast?_cons_cons, List.getLast?_singleton] at ha hb
      subst ha; subst hb
      right
      rintro ⟨h, -⟩
      simp only at h
      rw [show R - -R = D by rw [hR]; ring, abs_of_pos (by linarith)] at h
      norm_num at h hT
      linarith
  refine ⟨s, ?_, C31_lipschitz L hprop s hs, fun x y hx => ?_⟩
  · simp only [acme, profile, hb, hs]
  refine graph_profile L [⟨P / 4 + P / 4 * T, R - P / 2⟩, ⟨P / 4 - P / 4 * T, R⟩, ⟨-(P / 4 - P / 4 * T), R⟩,
    ⟨-(P / 4 + P / 4 * T), R - P / 2⟩] R (R - P / 2) (R - P / 2) rfl hprop s hs (by linarith) (by linarith) ?_ x _ (by linarith) ?_ ?_ y
  · intro z hz
    simp only [List.mem_cons, List.not_mem_nil, or_false] at hz
    rcases hz with rfl | rfl | rfl | rfl <;> simp only <;> linarith
  · exact lt_of_lt_of_le (by linarith) (le_max_left _ _)
  · intro t ht
    rw [hL, outline_path] at ht
    simp only [List.cons_append, List.nil_append, onPath_cons] at ht
    unfold acmeHeight
    rw [← hTd, ← hR]
    obtain ⟨hx1, hx2⟩ := abs_le.mp hx
    have hlow : P / 4 + P / 4 * T ≤ |x| → R - P / 2 = max (R - P / 2) (min R (R - P / 4 - (|x| - P / 4) / T)) := by
      intro h
      have : P / 4 ≤ (|x| - P / 4) / T := by rw [le_div_iff₀ T0]; linarith
      rw [max_eq_left ((min_le_right _ _).trans (by linarith))]
    have hmid : ∀ l, 0 ≤ l → l ≤ 1 → |x| = P / 4 + P / 4 * T + l * (P / 4 - P / 4 * T - (P / 4 + P / 4 * T)) →
        R - P / 2 + l * (R - (R - P / 2)) = max (R - P / 2) (min R (R - P / 4 - (|x| - P / 4) / T)) := by
      intro l l0 l1 h
      have e : (|x| - P / 4) / T = P / 4 - l * P / 2 := by rw [div_eq_iff T0.ne']; linarith
      rw [e, min_eq_right (by nlinarith), max_eq_right (by nlinarith)]; ring
    have htop : |x| ≤ P / 4 - P / 4 * T → R = max (R - P / 2) (min R (R - P / 4 - (|x| - P / 4) / T)) := by
      intro h
      have : (|x| - P / 4) / T ≤ -(P / 4) := by rw [div_le_iff₀ T0]; linarith
      rw [min_eq_left (by linarith), max_eq_right (by linarith)]
    rcases ht with h | h | h | h | h | h | h | h | h
    · obtain ⟨l, l0, l1, h, -⟩ := onSegment_xy h
      linarith
    · obtain ⟨l, l0, l1, hl, rfl⟩ := onSegment_xy h
      right
      rw [sub_self, mul_zero, add_zero]
      exact hlow (le_abs.mpr (Or.inl (by nlinarith)))
    · obtain ⟨l, l0, l1, hl, rfl⟩ := onSegment_xy h
      right
      refine hmid l l0 l1 ?_
      rw [abs_of_nonneg (by nlinarith), hl]
    · obtain ⟨l, l0, l1, hl, rfl⟩ := onSegment_xy h
      right
      rw [sub_self, mul_zero, add_zero]
      exact htop (abs_le.mpr ⟨by nlinarith, by nlinarith⟩)
    · obtain ⟨l, l0, l1, hl, rfl⟩ := onSegment_xy h
      right
      have := hmid (1 - l) (by linarith) (by linarith) (by rw [abs_of_nonpos (by nlinarith), hl]; ring)
      rw [← this]; ring
    · obtain ⟨l, l0, l1, hl, rfl⟩ := onSegment_xy h
      right
      rw [sub_self, mul_zero, add_zero]
      exact hlow (le_abs.mpr (Or.inr (by nlinarith)))
    · obtain ⟨l, l0, l1, h, -⟩ := onSegment_xy h
      linarith
    · obtain ⟨l, l0, l1, hl, rfl⟩ := onSegment_xy h
      left; ring
    · exact absurd h (onPath_one _ _)

/-- The height of the sharp triangle of a 60° thread with pitch `P`. -/
noncomputable def isoH (P : ℝ) : ℝ := P * Real.sqrt 3 / 2

/-- The height of an internal ISO thread at the axial position `x` from the middle of a groove of the nut: 60° flanks that would
meet an eighth of the triangle above the major radius `D/2`, cut off at the minor radius. -/
noncomputable def isoInternalHeight (D P x : ℝ) : ℝ :=
  max (D / 2 - 5 / 8 * isoH P) (D / 2 + isoH P / 8 - |x| / Real.tan (Real.pi / 6))

theorem tan30 : Real.tan (30.0 * Real.pi / 180) = 1 / Real.sqrt 3 := by
  rw [show (30.0 : ℝ) * Real.pi / 180 = Real.pi / 6 by norm_num; ring, Real.tan_pi_div_six]

theorem cos30 : Real.cos (30.0 * Real.pi / 180) = Real.sqrt 3 / 2 := by
  rw [show (30.0 : ℝ) * Real.pi / 180 = Real.pi / 6 by norm_num; ring, Real.cos_pi_div_six]

theorem smooth_eq (v : V2) (r : ℝ) (hr : r ≠ 0) : (PV.plain v).smooth r 5 = ⟨false, .smooth, v, 5, r⟩ := by
  rw [PV.smooth, if_pos ⟨hr, by norm_num⟩]; rfl

theorem isoBuilder_internal (D P : ℝ) (hP : 0 < P) : isoBuilder D P false =
    ⟨false, false, false, [PV.plain ⟨P, 0⟩, PV.plain ⟨P, D / 2 - 5 / 8 * isoH P⟩, PV.plain ⟨3 * P / 8, D / 2 - 5 / 8 * isoH P⟩,
      ⟨false, .smooth, ⟨0, D / 2 + isoH P / 8⟩, 5, P / (8 * Real.sqrt 3)⟩, PV.plain ⟨-(3 * P / 8), D / 2 - 5 / 8 * isoH P⟩,
      PV.plain ⟨-P, D / 2 - 5 / 8 * isoH P⟩, PV.plain ⟨-P, 0⟩]⟩ := by
  have h3 : Real.sqrt 3 ≠ 0 := by positivity
  have er : P / 16.0 / (Real.sqrt 3 / 2) = P / (8 * Real.sqrt 3) := by field_simp; norm_num
  unfold isoBuilder
  simp only [tan30, cos30, Bool.false_eq_true, if_false, er]
  rw [smooth_eq _ _ (by positivity)]
  simp only [Builder.add, Builder.new, List.nil_append, List.cons_append, Builder.mk.injEq, List.cons.injEq, PV.plain, PV.mk.injEq, V2.mk.injEq,
    true_and, and_true, isoH]
  refine ⟨?_, ?_, ?_, ?_, ?_⟩ <;> norm_num <;> field_simp <;> ring_nf <;> trivial

/-- Internal ISO threads: the region below `isoInternalHeight`, except that the crest of the profile (the bottom of the nut's
groove) is rounded, above the major radius. -/
theorem C51_iso_internal (D P : ℝ) (hP : 1 / 10 ^ 9 < P) (hD : 5 / 8 * isoH P < D / 2) (fuel : ℕ) :
    ∃ s, (iso (fuel + 2) D P false).thread = .ok ⟨some s, false⟩ ∧ Lip2 s.eval ∧
      ∀ x y, |x| ≤ P / 2 → ¬ (|x| ≤ P / 16 ∧ D / 2 ≤ y ∧ y ≤ D / 2 + isoH P / 8) →
        ((s.eval ⟨x, y⟩ < 0 ↔ 0 < y ∧ y < isoInternalHeight D P x) ∧ (0 < s.eval ⟨x, y⟩ ↔ y < 0 ∨ isoInternalHeight D P x < y)) := by
  have hP0 : 0 < P := lt_trans (by norm_num) hP
  set k := Real.sqrt 3 with hk
  have k0 : 0 < k := by positivity
  have kk : k * k = 3 := Real.mul_self_sqrt (by norm_num)
  set R := D / 2 with hR
  set m := R - 5 / 8 * isoH P with hm
  set q := R + isoH P / 8 with hq
  have hH : isoH P = P * k / 2 := rfl
  have hH0 : 0 < isoH P := by rw [hH]; positivity
  have hqm : q - m = 3 / 8 * (P * k) := by rw [hq, hm, hH]; ring
  set L : List V2 := [⟨P, 0⟩, ⟨P, m⟩, ⟨3 * P / 8, m⟩, ⟨0, q⟩, ⟨-(3 * P / 8), m⟩, ⟨-P, m⟩, ⟨-P, 0⟩] with hL
  have hm0 : 0 < m := by rw [hm]; linarith
  have hprop : Proper L := by
    refine ⟨by simp [hL], ?_, ?_⟩
    · intro e he
      simp only [hL, List.tail_cons, List.zip_cons_cons, List.zip_nil_right, List.mem_cons, List.not_mem_nil, or_false] at he
      rcases he with rfl | rfl | rfl | rfl | rfl | rfl <;> simp only [ne_eq, V2.mk.injEq, not_and_or] <;>
        first | (left; intro h; linarith) | (right; intro h; linarith)
    · intro a b ha hb
      simp only [hL, List.head?_cons, Option.some.injEq, List.getLast?_cons_cons, List.getLast?_singleton] at ha hb
      subst ha; subst hb
      right
      rintro ⟨h, -⟩
      simp only at h
      rw [show P - -P = 2 * P by ring, abs_of_pos (by linarith)] at h
      norm_num at h hP
      linarith
  obtain ⟨s0, hs0⟩ : ∃ s, Must2.polygon L = some s := ⟨_, rfl⟩
  have hsharp : ∀ x y, |x| ≤ P / 2 → ((s0.eval ⟨x, y⟩ < 0 ↔ 0 < y ∧ y < isoInternalHeight D P x) ∧ (0 < s0.eval ⟨x, y⟩ ↔ y < 0 ∨ isoInternalHeight D P x < y)) := by
    intro x y hx
    have hfx : isoInternalHeight D P x = max m (q - |x| * k) := by
      unfold isoInternalHeight
      rw [Real.tan_pi_div_six, ← hk, div_div_eq_mul_div, div_one]
    rw [hfx]
    refine graph_profile L [⟨3 * P / 8, m⟩, ⟨0, q⟩, ⟨-(3 * P / 8), m⟩] P m m rfl hprop s0 hs0 hm0 hm0 ?_ x _ (by linarith) ?_ ?_ y
    · intro z hz
      simp only [List.mem_cons, List.not_mem_nil, or_false] at hz
      rcases hz with rfl | rfl | rfl <;> simp only
      · exact hm0
      · have : 0 < P * k := by positivity
        linarith
      · exact hm0
    · exact lt_of_lt_of_le hm0 (le_max_left _ _)
    · intro t ht
      rw [hL, outline_path] at ht
      simp only [List.cons_append, List.nil_append, onPath_cons] at ht
      obtain ⟨hx1, hx2⟩ := abs_le.mp hx
      have hlow : 3 * P / 8 ≤ |x| → m = max m (q - |x| * k) := by
        intro h
        rw [max_eq_left]
        nlinarith
      have hmid : ∀ l, 0 ≤ l → l ≤ 1 → |x| = 3 * P / 8 * (1 - l) → m + l * (q - m) = max m (q - |x| * k) := by
        intro l l0 l1 h
        have : 0 < P * k := by positivity
        rw [h, max_eq_right (by nlinarith)]
        linear_combination (l - 1) * hqm
      rcases ht with h | h | h | h | h | h | h | h
      · obtain ⟨l, l0, l1, h, -⟩ := onSegment_xy h
        linarith
      · obtain ⟨l, l0, l1, hl, rfl⟩ := onSegment_xy h
        right
        rw [sub_self, mul_zero, add_zero]
        exact hlow (le_abs.mpr (Or.inl (by nlinarith)))
      · obtain ⟨l, l0, l1, hl, rfl⟩ := onSegment_xy h
        right
        refine hmid l l0 l1 ?_
        rw [abs_of_nonneg (by nlinarith), hl]; ring
      · obtain ⟨l, l0, l1, hl, rfl⟩ := onSegment_xy h
        right
        have := hmid (1 - l) (by linarith) (by linarith) (by rw [abs_of_nonpos (by nlinarith), hl]; ring)
        rw [← this]; ring
      · obtain ⟨l, l0, l1, hl, rfl⟩ := onSegment_xy h
        right
        rw [sub_self, mul_zero, add_zero]
        exact hlow (le_abs.mpr (Or.inr (by nlinarith)))
      · obtain ⟨l, l0, l1, h, -⟩ := onSegment_xy h
        linarith
      · obtain ⟨l, l0, l1, hl, rfl⟩ := onSegment_xy h
        left; ring
      · exact absurd h (onPath_one _ _)
  have hd1 : V2.dist ⟨3 * P / 8, m⟩ ⟨0, q⟩ = 3 * P / 4 := by
    refine dist_of_sq (by positivity) ?_
    simp only
    have : m - q = -(3 / 8 * (P * k)) := by linarith
    rw [this]
    linear_combination (9 / 64 * P * P) * kk
  have hd2 : V2.dist ⟨-(3 * P / 8), m⟩ ⟨0, q⟩ = 3 * P / 4 := by
    refine dist_of_sq (by positivity) ?_
    simp only
    have : m - q = -(3 / 8 * (P * k)) := by linarith
    rw [this]
    linear_combination (9 / 64 * P * P) * kk
  have hcross : V2.cross (V2.sub ⟨3 * P / 8, m⟩ ⟨0, q⟩) (V2.sub ⟨-(3 * P / 8), m⟩ ⟨0, q⟩) = -(9 / 32 * (P * P * k)) := by
    simp only [V2.cross, V2.sub]
    linear_combination (-(3 * P / 4)) * hqm
  have hdot : V2.dot (V2.sub ⟨3 * P / 8, m⟩ ⟨0, q⟩) (V2.sub ⟨-(3 * P / 8), m⟩ ⟨0, q⟩) = 9 / 32 * (P * P) := by
    simp only [V2.dot, V2.sub]
    have : m - q = -(3 / 8 * (P * k)) := by linarith
    rw [this]
    linear_combination (9 / 64 * P * P) * kk
  have hcpos : 0 < 9 / 32 * (P * P * k) := by positivity
  obtain ⟨pts, s, mid, hp, hlen, hprop', hs, -, hall⟩ := round_corner [⟨P, 0⟩, ⟨P, m⟩] [⟨-P, m⟩, ⟨-P, 0⟩] ⟨3 * P / 8, m⟩ ⟨0, q⟩ ⟨-(3 * P / 8), m⟩
    (P / (8 * k)) (3 * P / 4) (3 * P / 4) (P / 8) 5 (by positivity) (by norm_num) hd1 hd2 (by positivity) (by positivity)
    (by rw [hcross]; linarith) (by
      rw [hcross, hdot, abs_neg, abs_of_pos hcpos]
      field_simp
      linear_combination (144 : ℝ) * kk) (by linarith) (by linarith) hprop s0 hs0
  refine ⟨s, ?_, C31_lipschitz _ hprop' s hs, ?_⟩
  · obtain ⟨b', vs, hv, hvs⟩ := C32_smooth_vertices (isoBuilder D P false) [PV.plain ⟨P, 0⟩, PV.plain ⟨P, m⟩] [PV.plain ⟨-P, m⟩, PV.plain ⟨-P, 0⟩]
      ⟨3 * P / 8, m⟩ ⟨-(3 * P / 8), m⟩ ⟨0, q⟩ (P / (8 * k)) 5 pts (by rw [isoBuilder_internal D P hP0])
      (by rw [isoBuilder_internal D P hP0]; rfl) (by norm_num)
      (by intro v hv; simp at hv; rcases hv with rfl | rfl <;> exact ⟨rfl, rfl⟩)
      (by intro v hv; simp at hv; rcases hv with rfl | rfl <;> exact ⟨rfl, rfl⟩) hp fuel
    rw [isoBuilder_internal D P hP0] at hv hvs
    rw [if_neg (by simp)] at hvs
    have : Must2.polygon vs = some s := by
      rw [hvs, ← hs]; rfl
    simp only [iso, profile]
    rw [isoBuilder_internal D P hP0, hv]
    simp only [this]
  · intro x y hx hnot
    refine same_signs (hall ⟨x, y⟩ ?_) (hsharp x y hx)
    · rintro ⟨α, β, a0, b0, ab, e1, e2⟩
      apply hnot
      simp only at e1 e2
      have e3 : P / 8 / (3 * P / 4) = 1 / 6 := by field_simp; norm_num
      rw [e3] at e1 e2
      have hmq : m - q = -(3 / 4 * isoH P) := by rw [hm, hq]; ring
      rw [hmq] at e2
      have f1 := mul_nonneg a0 hP0.le
      have f2 := mul_nonneg b0 hP0.le
      have f3 := mul_nonneg (sub_nonneg.mpr ab) hP0.le
      have f4 := mul_nonneg a0 hH0.le
      have f5 := mul_nonneg b0 hH0.le
      have f6 := mul_nonneg (sub_nonneg.mpr ab) hH0.le
      refine ⟨abs_le.mpr ⟨by linarith, by linarith⟩, ?_, ?_⟩
      · rw [hq] at e2; linarith
      · linarith

/-- The height of an external ISO thread at the axial position `x` from the middle of a tooth: 60° flanks that start seven
eighths of the triangle below the major radius `D/2`, cut off at the major radius. -/
noncomputable def isoExternalHeight (D P x : ℝ) : ℝ :=
  min (D / 2) (D / 2 - 7 / 8 * isoH P + (P / 2 - |x|) / Real.tan (Real.pi / 6))

theorem isoBuilder_external (D P : ℝ) (hP : 0 < P) : isoBuilder D P true =
    ⟨false, false, false, [PV.plain ⟨P, 0⟩, PV.plain ⟨P, D / 2 + isoH P / 8⟩,
      ⟨false, .smooth, ⟨P / 2, D / 2 - 7 / 8 * isoH P⟩, 5, P / (4 * Real.sqrt 3)⟩, PV.plain ⟨P / 16, D / 2⟩, PV.plain ⟨-(P / 16), D / 2⟩,
      ⟨false, .smooth, ⟨-(P / 2), D / 2 - 7 / 8 * isoH P⟩, 5, P / (4 * Real.sqrt 3)⟩,
      PV.plain ⟨-P, D / 2 + isoH P / 8⟩, PV.plain ⟨-P, 0⟩]⟩ := by
  have h3 : Real.sqrt 3 ≠ 0 := by positivity
  have er : P / 8.0 / (Real.sqrt 3 / 2) = P / (4 * Real.sqrt 3) := by field_simp; norm_num
  unfold isoBuilder
  simp only [tan30, cos30, if_true, er]
  rw [smooth_eq _ _ (by positivity), smooth_eq _ _ (by positivity)]
  simp only [Builder.add, Builder.new, List.nil_append, List.cons_append, Builder.mk.injEq, List.cons.injEq, PV.plain, PV.mk.injEq, V2.mk.injEq,
    true_and, and_true, isoH]
  refine ⟨?_, ?_, ?_, ?_, ?_, ?_⟩ <;> (norm_num; try field_simp) <;> (try ring_nf) <;> trivial

/-- The external ISO profile before its roots are rounded. -/
noncomputable def isoExternalSharp (D P : ℝ) : List V2 :=
  [⟨P, 0⟩, ⟨P, D / 2 + isoH P / 8⟩, ⟨P / 2, D / 2 - 7 / 8 * isoH P⟩, ⟨P / 16, D / 2⟩, ⟨-(P / 16), D / 2⟩,
    ⟨-(P / 2), D / 2 - 7 / 8 * isoH P⟩, ⟨-P, D / 2 + isoH P / 8⟩, ⟨-P, 0⟩]

theorem isoExternalSharp_proper (D P : ℝ) (hP : 1 / 10 ^ 9 < P) (hD : 7 / 8 * isoH P < D / 2) : Proper (isoExternalSharp D P) := by
  have hP0 : 0 < P := lt_trans (by norm_num) hP
  set k := Real.sqrt 3 with hk
  have k0 : 0 < k := by positivity
  have kk : k * k = 3 := Real.mul_self_sqrt (by norm_num)
  set R := D / 2 with hR
  set r := R - 7 / 8 * isoH P with hr
  set q := R + isoH P / 8 with hq
  have hH : isoH P = P * k / 2 := rfl
  have hH0 : 0 < isoH P := by rw [hH]; positivity
  have hPk : 0 < P * k := by positivity
  have hqr : q = r + P * k / 2 := by rw [hq, hr, hH]; ring
  have hRr : R = r + 7 / 16 * (P * k) := by rw [hr, hH]; ring
  have hr0 : 0 < r := by rw [hr]; linarith
  have hL : isoExternalSharp D P = [⟨P, 0⟩, ⟨P, q⟩, ⟨P / 2, r⟩, ⟨P / 16, R⟩, ⟨-(P / 16), R⟩, ⟨-(P / 2), r⟩, ⟨-P, q⟩, ⟨-P, 0⟩] := rfl
  refine ⟨by simp [hL], ?_, ?_⟩
  · intro e he
    simp only [hL, List.tail_cons, List.zip_cons_cons, List.zip_nil_right, List.mem_cons, List.not_mem_nil, or_false] at he
    rcases he with rfl | rfl | rfl | rfl | rfl | rfl | rfl <;> simp only [ne_eq, V2.mk.injEq, not_and_or] <;>
      first | (left; intro h; linarith) | (right; intro h; linarith)
  · intro a b ha hb
    simp only [hL, List.head?_cons, Option.some.injEq, List.getLast?_cons_cons, List.getLast?_singleton] at ha hb
    subst ha; subst hb
    right
    rintro ⟨h, -⟩
    simp only at h
    rw [show P - -P = 2 * P by ring, abs_of_pos (by linarith)] at h
    norm_num at h hP
    linarith

theorem isoExternalSharp_eval (D P : ℝ) (hP : 1 / 10 ^ 9 < P) (hD : 7 / 8 * isoH P < D / 2) (s0 : SDF2)
    (hs0 : Must2.polygon (isoExternalSharp D P) = some s0) :
    ∀ x y, |x| ≤ P / 2 → ((s0.eval ⟨x, y⟩ < 0 ↔ 0 < y ∧ y < isoExternalHeight D P x) ∧ (0 < s0.eval ⟨x, y⟩ ↔ y < 0 ∨ isoExternalHeight D P x < y)) := by
  have hprop := isoExternalSharp_proper D P hP hD
  have hP0 : 0 < P := lt_trans (by norm_num) hP
  set k := Real.sqrt 3 with hk
  have k0 : 0 < k := by positivity
  have kk : k * k = 3 := Real.mul_self_sqrt (by norm_num)
  set R := D / 2 with hR
  set r := R - 7 / 8 * isoH P with hr
  set q := R + isoH P / 8 with hq
  have hH : isoH P = P * k / 2 := rfl
  have hH0 : 0 < isoH P := by rw [hH]; positivity
  have hPk : 0 < P * k := by positivity
  have hqr : q = r + P * k / 2 := by rw [hq, hr, hH]; ring
  have hRr : R = r + 7 / 16 * (P * k) := by rw [hr, hH]; ring
  have hr0 : 0 < r := by rw [hr]; linarith
  set L := isoExternalSharp D P with hL
  replace hL : L = [⟨P, 0⟩, ⟨P, q⟩, ⟨P / 2, r⟩, ⟨P / 16, R⟩, ⟨-(P / 16), R⟩, ⟨-(P / 2), r⟩, ⟨-P, q⟩, ⟨-P, 0⟩] := rfl
  intro x y hx
  have hfx : isoExternalHeight D P x = min R (r + (P / 2 - |x|) * k) := by
    unfold isoExternalHeight
    rw [Real.tan_pi_div_six, ← hk, div_div_eq_mul_div, div_one]
  rw [hfx]
  have hxk : 0 ≤ (P / 2 - |x|) * k := mul_nonneg (by linarith) k0.le
  refine graph_profile L [⟨P / 2, r⟩, ⟨P / 16, R⟩, ⟨-(P / 16), R⟩, ⟨-(P / 2), r⟩] P q q rfl hprop s0 hs0 (by linarith) (by linarith)
    ?_ x _ (by linarith) ?_ ?_ y
  · intro z hz
    simp only [List.mem_cons, List.not_mem_nil, or_false] at hz
    rcases hz with rfl | rfl | rfl | rfl <;> simp only <;> linarith
  · exact lt_min (by linarith) (by linarith)
  · intro t ht
    rw [hL, outline_path] at ht
    simp only [List.cons_append, List.nil_append, onPath_cons] at ht
    obtain ⟨hx1, hx2⟩ := abs_le.mp hx
    have htop : |x| ≤ P / 16 → R = min R (r + (P / 2 - |x|) * k) := by
      intro h
      rw [min_eq_left]
      nlinarith
    have hmid : ∀ l, 0 ≤ l → l ≤ 1 → |x| = P / 2 + l * (P / 16 - P / 2) → r + l * (R - r) = min R (r + (P / 2 - |x|) * k) := by
      intro l l0 l1 h
      have : l * (P * k) ≤ P * k := by nlinarith
      rw [h, min_eq_right (by linarith)]
      linear_combination l * hRr
    have hroot : |x| = P / 2 → r = min R (r + (P / 2 - |x|) * k) := by
      intro h
      have := hmid 0 le_rfl zero_le_one (by rw [h]; ring)
      rw [← this]; ring
    rcases ht with h | h | h | h | h | h | h | h | h
    · obtain ⟨l, l0, l1, h, -⟩ := onSegment_xy h
      linarith
    · obtain ⟨l, l0, l1, hl, rfl⟩ := onSegment_xy h
      right
      have hl1 : l = 1 := le_antisymm l1 (by nlinarith)
      subst hl1
      have : x = P / 2 := by rw [hl]; ring
      rw [show q + 1 * (r - q) = r by ring]
      exact hroot (by rw [this, abs_of_pos (by linarith)])
    · obtain ⟨l, l0, l1, hl, rfl⟩ := onSegment_xy h
      right
      refine hmid l l0 l1 ?_
      rw [abs_of_nonneg (by nlinarith), hl]
    · obtain ⟨l, l0, l1, hl, rfl⟩ := onSegment_xy h
      right
      rw [sub_self, mul_zero, add_zero]
      exact htop (abs_le.mpr ⟨by nlinarith, by nlinarith⟩)
    · obtain ⟨l, l0, l1, hl, rfl⟩ := onSegment_xy h
      right
      have := hmid (1 - l) (by linarith) (by linarith) (by rw [abs_of_nonpos (by nlinarith), hl]; ring)
      rw [← this]; ring
    · obtain ⟨l, l0, l1, hl, rfl⟩ := onSegment_xy h
      right
      have hl0 : l = 0 := le_antisymm (by nlinarith) l0
      subst hl0
      have : x = -(P / 2) := by rw [hl]; ring
      rw [show r + 0 * (q - r) = r by ring]
      exact hroot (by rw [this, abs_neg, abs_of_pos (by linarith)])
    · obtain ⟨l, l0, l1, h, -⟩ := onSegment_xy h
      linarith
    · obtain ⟨l, l0, l1, hl, rfl⟩ := onSegment_xy h
      left; ring
    · exact absurd h (onPath_one _ _)

/-- The vertices of an outline with two smoothed corners, the third vertex and the last but two. -/
theorem vertices_two_smooth (v0 v1 x1 v2 v3 x2 v4 v5 : V2) (r : ℝ) (pts1 pts2 : List PV)
    (hp1 : smoothPoints v1 x1 v2 r 5 = some pts1) (hlen1 : pts1.length = 6)
    (hp2 : smoothPoints v3 x2 v4 r 5 = some pts2) (hlen2 : pts2.length = 6) (fuel : ℕ) :
    ∃ b', Builder.vertices (fuel + 3) ⟨false, false, false, [PV.plain v0, PV.plain v1, ⟨false, .smooth, x1, 5, r⟩, PV.plain v2, PV.plain v3,
        ⟨false, .smooth, x2, 5, r⟩, PV.plain v4, PV.plain v5]⟩ =
      .ok (([v0, v1] ++ pts1.map PV.vertex ++ [v2]) ++ v3 :: (pts2.map PV.vertex ++ v4 :: [v5]), b') := by
  have hstep1 := smooth_step ⟨false, false, false, [PV.plain v0, PV.plain v1, ⟨false, .smooth, x1, 5, r⟩, PV.plain v2, PV.plain v3,
        ⟨false, .smooth, x2, 5, r⟩, PV.plain v4, PV.plain v5]⟩ [PV.plain v0]
    [PV.plain v3, ⟨false, .smooth, x2, 5, r⟩, PV.plain v4, PV.plain v5]
    (PV.plain v1) (PV.plain v2) x1 r 5 pts1 rfl (by norm_num) (by intro v hv; simp at hv; rw [hv]; rfl) rfl hp1
    (by rw [hlen1]; simp) (fuel + 2)
  simp only at hstep1
  have hstep2 := smooth_step ⟨false, false, false, [PV.plain v0] ++ PV.plain v1 :: (pts1 ++ PV.plain v2 ::
      [PV.plain v3, ⟨false, .smooth, x2, 5, r⟩, PV.plain v4, PV.plain v5])⟩
    (([PV.plain v0, PV.plain v1] ++ pts1) ++ [PV.plain v2]) [PV.plain v5]
    (PV.plain v3) (PV.plain v4) x2 r 5 pts2 (by simp) (by norm_num)
    (by
      intro v hv
      simp only [List.mem_append, List.mem_cons, List.not_mem_nil, or_false] at hv
      rcases hv with ((rfl | rfl) | h) | rfl
      · rfl
      · rfl
      · exact ((smoothPoints_normal hp1).1 v h).2
      · rfl) rfl hp2 (by rw [hlen2]; simp) (fuel + 1)
  simp only at hstep2
  rw [hstep2] at hstep1
  set b' : Builder := ⟨false, false, false, (([PV.plain v0, PV.plain v1] ++ pts1) ++ [PV.plain v2]) ++
    PV.plain v3 :: (pts2 ++ PV.plain v4 :: [PV.plain v5])⟩ with hb'
  rw [passes_idle _ b' (fun j hj => smoothVertex_idle b' j hj (fun v hv => by
    have hv := List.mem_of_getElem? hv
    simp only [hb', List.mem_append, List.mem_cons, List.not_mem_nil, or_false] at hv
    rcases hv with (((rfl | rfl) | h) | rfl) | rfl | h | rfl | rfl
    · simp [PV.plain]
    · simp [PV.plain]
    · rw [((smoothPoints_normal hp1).1 v h).2]; simp
    · simp [PV.plain]
    · simp [PV.plain]
    · rw [((smoothPoints_normal hp2).1 v h).2]; simp
    · simp [PV.plain]
    · simp [PV.plain]))] at hstep1
  have hvert := vertices_smooth _ b' rfl rfl (by
    intro v hv
    simp only [List.mem_cons, List.not_mem_nil, or_false] at hv
    rcases hv with rfl | rfl | rfl | rfl | rfl | rfl | rfl | rfl <;> simp [PV.plain]) (fuel + 2) hstep1
  refine ⟨b', ?_⟩
  rw [hvert, hb']
  simp [PV.plain]

/-- External ISO threads: the region below `isoExternalHeight`, except that the roots are rounded in their lowest quarter of
the triangle. -/
theorem C51_iso_external (D P : ℝ) (hP : 1 / 10 ^ 9 < P) (hD : 7 / 8 * isoH P < D / 2) (fuel : ℕ) :
    ∃ s, (iso (fuel + 3) D P true).thread = .ok ⟨some s, false⟩ ∧ Lip2 s.eval ∧
      ∀ x y, |x| ≤ P / 2 → ¬ (3 * P / 8 ≤ |x| ∧ D / 2 - 7 / 8 * isoH P ≤ y ∧ y ≤ D / 2 - 5 / 8 * isoH P) →
        ((s.eval ⟨x, y⟩ < 0 ↔ 0 < y ∧ y < isoExternalHeight D P x) ∧ (0 < s.eval ⟨x, y⟩ ↔ y < 0 ∨ isoExternalHeight D P x < y)) := by
  have hP0 : 0 < P := lt_trans (by norm_num) hP
  set k := Real.sqrt 3 with hk
  have k0 : 0 < k := by positivity
  have kk : k * k = 3 := Real.mul_self_sqrt (by norm_num)
  set R := D / 2 with hR
  set r := R - 7 / 8 * isoH P with hr
  set q := R + isoH P / 8 with hq
  have hH : isoH P = P * k / 2 := rfl
  have hH0 : 0 < isoH P := by rw [hH]; positivity
  have hPk : 0 < P * k := by positivity
  have hqr : q = r + P * k / 2 := by rw [hq, hr, hH]; ring
  have hRr : R = r + 7 / 16 * (P * k) := by rw [hr, hH]; ring
  set L : List V2 := [⟨P, 0⟩, ⟨P, q⟩, ⟨P / 2, r⟩, ⟨P / 16, R⟩, ⟨-(P / 16), R⟩, ⟨-(P / 2), r⟩, ⟨-P, q⟩, ⟨-P, 0⟩] with hL
  have hr0 : 0 < r := by rw [hr]; linarith
  have hprop : Proper L := isoExternalSharp_proper D P hP hD
  obtain ⟨s0, hs0⟩ : ∃ s, Must2.polygon L = some s := ⟨_, rfl⟩
  have hsharp := isoExternalSharp_eval D P hP hD s0 hs0
  -- the corner at P/2
  have hcpos : 0 < 7 / 16 * (P * P * k) := by positivity
  have hd1 : V2.dist ⟨P, q⟩ ⟨P / 2, r⟩ = P := by
    refine dist_of_sq hP0.le ?_
    simp only
    rw [hqr]
    linear_combination (P * P / 4) * kk
  have hd2 : V2.dist ⟨P / 16, R⟩ ⟨P / 2, r⟩ = 7 * P / 8 := by
    refine dist_of_sq (by positivity) ?_
    simp only
    rw [hRr]
    linear_combination (49 * P * P / 256) * kk
  have hcross : V2.cross (V2.sub ⟨P, q⟩ ⟨P / 2, r⟩) (V2.sub ⟨P / 16, R⟩ ⟨P / 2, r⟩) = 7 / 16 * (P * P * k) := by
    simp only [V2.cross, V2.sub]
    rw [hqr, hRr]; ring
  have hdot : V2.dot (V2.sub ⟨P, q⟩ ⟨P / 2, r⟩) (V2.sub ⟨P / 16, R⟩ ⟨P / 2, r⟩) = 7 / 16 * (P * P) := by
    simp only [V2.dot, V2.sub]
    rw [hqr, hRr]
    linear_combination (7 / 32 * P * P) * kk
  obtain ⟨pts1, s1, mid1, hp1, hlen1, hprop1, hs1, -, hall1⟩ := round_corner [⟨P, 0⟩] [⟨-(P / 16), R⟩, ⟨-(P / 2), r⟩, ⟨-P, q⟩, ⟨-P, 0⟩]
    ⟨P, q⟩ ⟨P / 2, r⟩ ⟨P / 16, R⟩ (P / (4 * k)) P (7 * P / 8) (P / 4) 5 (by positivity) (by norm_num) hd1 hd2 hP0 (by positivity)
    (by rw [hcross]; linarith) (by
      rw [hcross, hdot, abs_of_pos hcpos]
      field_simp
      linear_combination (8 : ℝ) * kk) (by linarith) (by linarith) hprop s0 hs0
  -- the corner at -P/2
  have hd3 : V2.dist ⟨-P, q⟩ ⟨-(P / 2), r⟩ = P := by
    refine dist_of_sq hP0.le ?_
    simp only
    rw [hqr]
    linear_combination (P * P / 4) * kk
  have hd4 : V2.dist ⟨-(P / 16), R⟩ ⟨-(P / 2), r⟩ = 7 * P / 8 := by
    refine dist_of_sq (by positivity) ?_
    simp only
    rw [hRr]
    linear_combination (49 * P * P / 256) * kk
  have hcross' : V2.cross (V2.sub ⟨-(P / 16), R⟩ ⟨-(P / 2), r⟩) (V2.sub ⟨-P, q⟩ ⟨-(P / 2), r⟩) = 7 / 16 * (P * P * k) := by
    simp only [V2.cross, V2.sub]
    rw [hqr, hRr]; ring
  have hdot' : V2.dot (V2.sub ⟨-(P / 16), R⟩ ⟨-(P / 2), r⟩) (V2.sub ⟨-P, q⟩ ⟨-(P / 2), r⟩) = 7 / 16 * (P * P) := by
    simp only [V2.dot, V2.sub]
    rw [hqr, hRr]
    linear_combination (7 / 32 * P * P) * kk
  have hL1 : [⟨P, 0⟩] ++ ⟨P, q⟩ :: (pts1.map PV.vertex ++ ⟨P / 16, R⟩ :: [⟨-(P / 16), R⟩, ⟨-(P / 2), r⟩, ⟨-P, q⟩, ⟨-P, 0⟩]) =
      (([⟨P, 0⟩, ⟨P, q⟩] ++ pts1.map PV.vertex) ++ [⟨P / 16, R⟩]) ++ (⟨-(P / 16), R⟩ : V2) :: ⟨-(P / 2), r⟩ :: ⟨-P, q⟩ :: [⟨-P, 0⟩] := by simp
  rw [hL1] at hprop1 hs1
  obtain ⟨pts2, s, mid2, hp2, hlen2, hprop2, hs, -, hall2⟩ := round_corner (([⟨P, 0⟩, ⟨P, q⟩] ++ pts1.map PV.vertex) ++ [⟨P / 16, R⟩]) [⟨-P, 0⟩]
    ⟨-(P / 16), R⟩ ⟨-(P / 2), r⟩ ⟨-P, q⟩ (P / (4 * k)) (7 * P / 8) P (P / 4) 5 (by positivity) (by norm_num) hd4 hd3 (by positivity) hP0
    (by rw [hcross']; linarith) (by
      rw [hcross', hdot', abs_of_pos hcpos]
      field_simp
      linear_combination (8 : ℝ) * kk) (by linarith) (by linarith) hprop1 s1 hs1
  refine ⟨s, ?_, C31_lipschitz _ hprop2 s hs, ?_⟩
  · obtain ⟨b', hvert⟩ := vertices_two_smooth ⟨P, 0⟩ ⟨P, q⟩ ⟨P / 2, r⟩ ⟨P / 16, R⟩ ⟨-(P / 16), R⟩ ⟨-(P / 2), r⟩ ⟨-P, q⟩ ⟨-P, 0⟩
      (P / (4 * k)) pts1 pts2 hp1 hlen1 hp2 hlen2 fuel
    simp only [iso, profile]
    rw [isoBuilder_external D P hP0, hvert]
    simp only [hs]
  · intro x y hx hnot
    have e3 : P / 4 / P = 1 / 4 := by field_simp
    have e4 : P / 4 / (7 * P / 8) = 2 / 7 := by field_simp; norm_num
    have hqr' : q - r = isoH P := by rw [hq, hr]; ring
    have hRr' : R - r = 7 / 8 * isoH P := by rw [hr]; ring
    refine same_signs (hall2 ⟨x, y⟩ ?_) (same_signs (hall1 ⟨x, y⟩ ?_) (hsharp x y hx))
    all_goals
      rintro ⟨α, β, a0, b0, ab, e1, e2⟩
      apply hnot
      simp only at e1 e2
      rw [e3, e4, hqr', hRr'] at e2
      rw [e3, e4] at e1
      have f1 := mul_nonneg a0 hP0.le
      have f2 := mul_nonneg b0 hP0.le
      have f3 := mul_nonneg (sub_nonneg.mpr ab) hP0.le
      have f4 := mul_nonneg a0 hH0.le
      have f5 := mul_nonneg b0 hH0.le
      have f6 := mul_nonneg (sub_nonneg.mpr ab) hH0.le
      refine ⟨le_abs.mpr ?_, ?_, ?_⟩
      · first | (left; linarith) | (right; linarith)
      · linarith
      · rw [hr] at e2; linarith

end Sdf
