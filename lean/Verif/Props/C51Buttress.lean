import Verif.Props.C51Thread
import Mathlib.Analysis.Real.Pi.Bounds

/-! C51, second part: the profiles of the buttress threads. -/

namespace Sdf
open Must2 Polygon Thread

/-! ### Buttress threads -/

/-- The tangent of seven degrees. -/
noncomputable def tan7 : ℝ := Real.tan (7 * Real.pi / 180)

/-- The depth of a 45°/7° buttress thread: three tenths of the pitch and half of the height of the sharp triangle. -/
noncomputable def buttressDepth (P : ℝ) : ℝ := 3 / 10 * P + 1 / 2 * (P / (1 + tan7))

/-- The axial position of the root of a buttress thread. -/
noncomputable def buttressRoot (P : ℝ) : ℝ := P / (1 + tan7) - P / 2

/-- The height of a buttress thread at the axial position `x`: from the root the surface rises to the nominal radius, with 45° to
one side and, steeply, with 7° from the radial direction to the other. -/
noncomputable def buttressHeight (D P x : ℝ) : ℝ :=
  min (D / 2) (D / 2 - buttressDepth P + max ((x - buttressRoot P) / tan7) (buttressRoot P - x))

theorem tan7_bounds : 0 < tan7 ∧ tan7 < 13 / 100 := by
  have hp := Real.pi_pos
  have hp4 := Real.pi_lt_d4
  have h0 : 0 < 7 * Real.pi / 180 := by positivity
  have h1 : 7 * Real.pi / 180 < 1222 / 10000 := by norm_num at hp4 ⊢; linarith
  refine ⟨Real.tan_pos_of_pos_of_lt_pi_div_two h0 (by linarith), ?_⟩
  have hc := Real.one_sub_sq_div_two_le_cos (x := 7 * Real.pi / 180)
  have hs := Real.sin_le h0.le
  have hc' : 99 / 100 < Real.cos (7 * Real.pi / 180) := by nlinarith
  rw [tan7, Real.tan_eq_sin_div_cos, div_lt_iff₀ (by linarith)]
  linarith

theorem buttress_bounds {P : ℝ} (hP : 0 < P) : 74 / 100 * P < buttressDepth P ∧ buttressDepth P < 8 / 10 * P ∧
    38 / 100 * P < buttressRoot P ∧ buttressRoot P < P / 2 ∧
    buttressRoot P + buttressDepth P * tan7 = P / 2 - (P / (1 + tan7) - buttressDepth P) * tan7 := by
  obtain ⟨t0, t1⟩ := tan7_bounds
  have h1 : P / (1 + tan7) < P := by rw [div_lt_iff₀ (by linarith)]; nlinarith
  have h2 : 88 / 100 * P < P / (1 + tan7) := by rw [lt_div_iff₀ (by linarith)]; nlinarith
  unfold buttressDepth buttressRoot
  refine ⟨by linarith, by linarith, by linarith, by linarith, ?_⟩
  field_simp
  ring

/-- The outline of a buttress thread with sharp corners: a notch with the root `(x0, R - h)`. -/
def notch (P R x0 h t : ℝ) : List V2 := [⟨P, 0⟩, ⟨P, R⟩, ⟨x0 + h * t, R⟩, ⟨x0, R - h⟩, ⟨x0 - h, R⟩, ⟨-P, R⟩, ⟨-P, 0⟩]

theorem notch_proper (P R x0 h t : ℝ) (hP : 1 / 10 ^ 9 < P) (hR : 0 < R) (h0 : 0 < h) (h1 : x0 + h * t < P) (h2 : -P < x0 - h) :
    Proper (notch P R x0 h t) := by
  refine ⟨by simp [notch], ?_, ?_⟩
  · intro e he
    simp only [notch, List.tail_cons, List.zip_cons_cons, List.zip_nil_right, List.mem_cons, List.not_mem_nil, or_false] at he
    rcases he with rfl | rfl | rfl | rfl | rfl | rfl <;> simp only [ne_eq, V2.mk.injEq, not_and_or] <;>
      first | (left; intro h; linarith) | (right; intro h; linarith)
  · intro a b ha hb
    simp only [notch, List.head?_cons, Option.some.injEq, List.getLast?_cons_cons, List.getLast?_singleton] at ha hb
    subst ha; subst hb
    right
    rintro ⟨h, -⟩
    simp only at h
    have : 0 < P := lt_trans (by norm_num) hP
    rw [show P - -P = 2 * P by ring, abs_of_pos (by linarith)] at h
    norm_num at h hP
    linarith

theorem notch_eval (P R x0 h t : ℝ) (hP : 1 / 10 ^ 9 < P) (h0 : 0 < h) (hR : h < R) (ht : 0 < t) (h1 : x0 + h * t < P)
    (h2 : -P < x0 - h) (s : SDF2) (hs : Must2.polygon (notch P R x0 h t) = some s) (x y : ℝ) (hx : |x| < P) :
    (s.eval ⟨x, y⟩ < 0 ↔ 0 < y ∧ y < min R (R - h + max ((x - x0) / t) (x0 - x))) ∧
      (0 < s.eval ⟨x, y⟩ ↔ y < 0 ∨ min R (R - h + max ((x - x0) / t) (x0 - x)) < y) := by
  have hP0 : 0 < P := lt_trans (by norm_num) hP
  have hht : 0 < h * t := mul_pos h0 ht
  have hm : 0 ≤ max ((x - x0) / t) (x0 - x) := by
    rcases le_total x0 x with h' | h'
    · exact le_max_of_le_left (div_nonneg (by linarith) ht.le)
    · exact le_max_of_le_right (by linarith)
  have hleft : x ≤ x0 → max ((x - x0) / t) (x0 - x) = x0 - x := by
    intro h'
    exact max_eq_right (le_trans (div_nonpos_of_nonpos_of_nonneg (by linarith) ht.le) (by linarith))
  have hright : x0 ≤ x → max ((x - x0) / t) (x0 - x) = (x - x0) / t := by
    intro h'
    exact max_eq_left (le_trans (by linarith) (div_nonneg (by linarith) ht.le))
  refine graph_profile _ [⟨x0 + h * t, R⟩, ⟨x0, R - h⟩, ⟨x0 - h, R⟩] P R R rfl (notch_proper P R x0 h t hP (by linarith) h0 h1 h2)
    s hs (by linarith) (by linarith) ?_ x _ hx ?_ ?_ y
  · intro z hz
    simp only [List.mem_cons, List.not_mem_nil, or_false] at hz
    rcases hz with rfl | rfl | rfl <;> simp only <;> linarith
  · exact lt_min (by linarith) (by linarith)
  · intro y' hy
    rw [outline_path] at hy
    simp only [List.cons_append, List.nil_append, onPath_cons] at hy
    obtain ⟨hx1, hx2⟩ := abs_lt.mp hx
    rcases hy with hh | hh | hh | hh | hh | hh | hh | hh
    · obtain ⟨l, l0, l1, hl, -⟩ := onSegment_xy hh
      linarith
    · obtain ⟨l, l0, l1, hl, rfl⟩ := onSegment_xy hh
      right
      rw [hright (by nlinarith), min_eq_left]
      · ring
      · have : h ≤ (x - x0) / t := by rw [le_div_iff₀ ht]; nlinarith
        linarith
    · obtain ⟨l, l0, l1, hl, rfl⟩ := onSegment_xy hh
      right
      have e : (x - x0) / t = (1 - l) * h := by
        rw [div_eq_iff ht.ne', hl]; ring
      rw [hright (by nlinarith), e, min_eq_right (by nlinarith)]
      ring
    · obtain ⟨l, l0, l1, hl, rfl⟩ := onSegment_xy hh
      right
      rw [hleft (by nlinarith), min_eq_right (by nlinarith), hl]
      ring
    · obtain ⟨l, l0, l1, hl, rfl⟩ := onSegment_xy hh
      right
      rw [hleft (by nlinarith), min_eq_left (by nlinarith)]
      ring
    · obtain ⟨l, l0, l1, hl, -⟩ := onSegment_xy hh
      linarith
    · obtain ⟨l, l0, l1, hl, rfl⟩ := onSegment_xy hh
      left; ring
    · exact absurd hh (onPath_one _ _)

theorem ansiBuilder_eq (D P : ℝ) (hP : 0 < P) : ansiBuilder D P =
    ⟨false, false, false, [PV.plain ⟨P, 0⟩, PV.plain ⟨P, D / 2⟩, PV.plain ⟨buttressRoot P + buttressDepth P * tan7, D / 2⟩,
      ⟨false, .smooth, ⟨buttressRoot P, D / 2 - buttressDepth P⟩, 5, 714 / 10000 * P⟩,
      PV.plain ⟨buttressRoot P - buttressDepth P, D / 2⟩, PV.plain ⟨-P, D / 2⟩, PV.plain ⟨-P, 0⟩]⟩ := by
  have h45 : Real.tan (45.0 * Real.pi / 180) = 1 := by
    rw [show (45.0 : ℝ) * Real.pi / 180 = Real.pi / 4 by norm_num; ring, Real.tan_pi_div_four]
  have h7 : Real.tan (7.0 * Real.pi / 180) = tan7 := by rw [tan7]; norm_num
  unfold ansiBuilder
  simp only [h45, h7]
  rw [smooth_eq _ _ (by positivity), (buttress_bounds hP).2.2.2.2]
  simp only [Builder.add, Builder.new, List.nil_append, List.cons_append, Builder.mk.injEq, List.cons.injEq, PV.plain, PV.mk.injEq, V2.mk.injEq,
    true_and, and_true, buttressDepth, buttressRoot]
  generalize P / (1 + tan7) = h0
  norm_num
  ring

theorem plasticBuilder_eq (D P : ℝ) (hP : 0 < P) : plasticBuilder D P =
    ⟨false, false, false, [PV.plain ⟨P, 0⟩, PV.plain ⟨P, D / 2⟩,
      ⟨false, .smooth, ⟨buttressRoot P + buttressDepth P * tan7, D / 2⟩, 5, 5 / 100 * P⟩,
      ⟨false, .smooth, ⟨buttressRoot P, D / 2 - buttressDepth P⟩, 5, 15 / 100 * P⟩,
      ⟨false, .smooth, ⟨buttressRoot P - buttressDepth P, D / 2⟩, 5, 15 / 100 * P⟩, PV.plain ⟨-P, D / 2⟩, PV.plain ⟨-P, 0⟩]⟩ := by
  have h45 : Real.tan (45.0 * Real.pi / 180) = 1 := by
    rw [show (45.0 : ℝ) * Real.pi / 180 = Real.pi / 4 by norm_num; ring, Real.tan_pi_div_four]
  have h7 : Real.tan (7.0 * Real.pi / 180) = tan7 := by rw [tan7]; norm_num
  unfold plasticBuilder
  simp only [h45, h7]
  rw [smooth_eq _ _ (by positivity), smooth_eq _ _ (by positivity), smooth_eq _ _ (by positivity), (buttress_bounds hP).2.2.2.2]
  simp only [Builder.add, Builder.new, List.nil_append, List.cons_append, Builder.mk.injEq, List.cons.injEq, PV.plain, PV.mk.injEq, V2.mk.injEq,
    true_and, and_true, buttressDepth, buttressRoot]
  generalize P / (1 + tan7) = h0
  norm_num
  ring

/-- Rounding the root of a notch whose steep flank goes up to the fraction `m` of its height. -/
theorem round_root (A B : List V2) (R x0 h t m r : ℝ) (h0 : 0 < h) (t0 : 0 < t) (t1 : t < 13 / 100) (m0 : 0 < m)
    (r0 : 0 < r) (hm : 243 / 100 * r < m * h) (hh : 243 / 100 * r < h)
    (hv : Proper (A ++ ⟨x0 + m * (h * t), R - h + m * h⟩ :: ⟨x0, R - h⟩ :: ⟨x0 - h, R⟩ :: B)) (s : SDF2)
    (hs : Must2.polygon (A ++ ⟨x0 + m * (h * t), R - h + m * h⟩ :: ⟨x0, R - h⟩ :: ⟨x0 - h, R⟩ :: B) = some s) :
    ∃ pts s' mid d, smoothPoints ⟨x0 + m * (h * t), R - h + m * h⟩ ⟨x0, R - h⟩ ⟨x0 - h, R⟩ r 5 = some pts ∧ pts.length = 6 ∧
      Proper (A ++ ⟨x0 + m * (h * t), R - h + m * h⟩ :: (pts.map PV.vertex ++ ⟨x0 - h, R⟩ :: B)) ∧
      Must2.polygon (A ++ ⟨x0 + m * (h * t), R - h + m * h⟩ :: (pts.map PV.vertex ++ ⟨x0 - h, R⟩ :: B)) = some s' ∧
      pts.map PV.vertex = mid ++ [⟨x0 - d, R - h + d⟩] ∧ 0 < d ∧ d < 172 / 100 * r ∧
      ∀ x y, ¬ (x0 - 172 / 100 * r ≤ x ∧ x ≤ x0 + 243 / 100 * r * t ∧ R - h ≤ y ∧ y ≤ R - h + 243 / 100 * r) →
        (s'.eval ⟨x, y⟩ < 0 ↔ s.eval ⟨x, y⟩ < 0) ∧ (s'.eval ⟨x, y⟩ = 0 ↔ s.eval ⟨x, y⟩ = 0) := by
  set e := Real.sqrt (1 + t * t) with he
  set g := Real.sqrt 2 with hg
  have ee : e * e = 1 + t * t := Real.mul_self_sqrt (by positivity)
  have gg : g * g = 2 := Real.mul_self_sqrt (by norm_num)
  have e0 : 0 ≤ e := Real.sqrt_nonneg _
  have g0 : 0 ≤ g := Real.sqrt_nonneg _
  have e1 : 1 < e := by nlinarith
  have e2 : e < 101 / 100 := by nlinarith
  have g1 : 1414 / 1000 < g := by nlinarith
  have g2 : g < 14143 / 10000 := by nlinarith
  have hge : g * e < 1429 / 1000 := by nlinarith
  have hge1 : 1 < g * e := by nlinarith
  set d := r * (g * e + 1 - t) / (1 + t) with hd
  have d0 : 0 < d := by rw [hd]; exact div_pos (mul_pos r0 (by linarith)) (by linarith)
  have hdt : d * (1 + t) = r * (g * e + 1 - t) := by rw [hd, div_mul_cancel₀ _ (by linarith)]
  have d1 : d < 243 / 100 * r := by
    rw [hd, div_lt_iff₀ (by linarith)]
    nlinarith [mul_pos r0 t0]
  have hmh : 0 < m * h := mul_pos m0 h0
  have hc : V2.cross (V2.sub ⟨x0 + m * (h * t), R - h + m * h⟩ ⟨x0, R - h⟩) (V2.sub ⟨x0 - h, R⟩ ⟨x0, R - h⟩) = m * h * h * (1 + t) := by
    simp only [V2.cross, V2.sub]; ring
  have hcp : 0 < m * h * h * (1 + t) := by positivity
  have hdo : V2.dot (V2.sub ⟨x0 + m * (h * t), R - h + m * h⟩ ⟨x0, R - h⟩) (V2.sub ⟨x0 - h, R⟩ ⟨x0, R - h⟩) = m * h * h * (1 - t) := by
    simp only [V2.dot, V2.sub]; ring
  have hme : m * h < m * h * e := by nlinarith
  have hhg : h < h * g := by nlinarith
  obtain ⟨pts, s', mid, hp, hlen, hprop, hs', hform, hall⟩ := round_corner A B ⟨x0 + m * (h * t), R - h + m * h⟩ ⟨x0, R - h⟩ ⟨x0 - h, R⟩
    r (m * h * e) (h * g) d 5 r0 (by norm_num)
    (dist_of_sq (by positivity) (by simp only; linear_combination (-(m * h * (m * h))) * ee))
    (dist_of_sq (by positivity) (by simp only; linear_combination (-(h * h)) * gg)) (by linarith) (by linarith)
    (by rw [hc]; exact hcp.ne') (by rw [hc, hdo, abs_of_pos hcp]; linear_combination (m * h * h) * hdt) (by linarith) (by linarith) hv s hs
  have q2 : d / (h * g) * h = d / g := by field_simp
  have q1 : d / (m * h * e) * (m * h) = d / e := by field_simp
  have hq : d / g < 172 / 100 * r := by rw [div_lt_iff₀ (by linarith)]; nlinarith
  have hq0 : 0 < d / g := div_pos d0 (by linarith)
  have hqe : d / e < 243 / 100 * r := by rw [div_lt_iff₀ (by linarith)]; nlinarith
  have hqe0 : 0 < d / e := div_pos d0 (by linarith)
  have hlast : V2.add ⟨x0, R - h⟩ (V2.scale (d / (h * g)) (V2.sub ⟨x0 - h, R⟩ ⟨x0, R - h⟩)) = ⟨x0 - d / g, R - h + d / g⟩ := by
    simp only [V2.add, V2.scale, V2.sub, V2.mk.injEq]
    exact ⟨by linear_combination -q2, by linear_combination q2⟩
  rw [hlast] at hform
  refine ⟨pts, s', _, d / g, hp, hlen, hprop, hs', hform, hq0, hq, ?_⟩
  · intro x y hnot
    refine hall ⟨x, y⟩ ?_
    rintro ⟨α, β, a0, b0, ab, f1, f2⟩
    apply hnot
    simp only at f1 f2
    have f1' : x = x0 + (α * t * (d / e) - β * (d / g)) := by rw [f1]; linear_combination α * t * q1 - β * q2
    have f2' : y = R - h + (α * (d / e) + β * (d / g)) := by rw [f2]; linear_combination α * q1 + β * q2
    have k1 := mul_nonneg a0 hqe0.le
    have k2 := mul_nonneg b0 hq0.le
    have k3 : α * (d / e) ≤ α * (243 / 100 * r) := mul_le_mul_of_nonneg_left hqe.le a0
    have k4 : β * (d / g) ≤ β * (172 / 100 * r) := mul_le_mul_of_nonneg_left hq.le b0
    have k5 := mul_nonneg (sub_nonneg.mpr ab) r0.le
    have k6 := mul_nonneg a0 r0.le
    have k7 := mul_nonneg b0 r0.le
    have k8 := mul_nonneg k1 t0.le
    have k9 : α * (d / e) * t ≤ 243 / 100 * r * t := mul_le_mul_of_nonneg_right (by linarith) t0.le
    exact ⟨by linarith, by linarith, by linarith, by linarith⟩

theorem C51_ansi (D P : ℝ) (hP : 1 / 10 ^ 9 < P) (hD : buttressDepth P < D / 2) (fuel : ℕ) :
    ∃ s, (ansiButtress (fuel + 2) D P).thread = .ok ⟨some s, false⟩ ∧ Lip2 s.eval ∧
      ∀ x y, |x| < P → ¬ (buttressRoot P - 13 / 100 * P ≤ x ∧ x ≤ buttressRoot P + 3 / 100 * P ∧
          D / 2 - buttressDepth P ≤ y ∧ y ≤ D / 2 - buttressDepth P + 18 / 100 * P) →
        ((s.eval ⟨x, y⟩ < 0 ↔ 0 < y ∧ y < buttressHeight D P x) ∧ (0 < s.eval ⟨x, y⟩ ↔ y < 0 ∨ buttressHeight D P x < y)) := by
  have hP0 : 0 < P := lt_trans (by norm_num) hP
  obtain ⟨b1, b2, b3, b4, -⟩ := buttress_bounds hP0
  obtain ⟨t0, t1⟩ := tan7_bounds
  have hbuild := ansiBuilder_eq D P hP0
  unfold buttressHeight
  generalize buttressDepth P = h at *
  generalize buttressRoot P = x0 at *
  generalize tan7 = t at *
  generalize D / 2 = R at *
  have h0 : 0 < h := by linarith
  have hht : h * t < 11 / 100 * P := by nlinarith
  have hprop := notch_proper P R x0 h t hP (by linarith) h0 (by linarith) (by linarith)
  obtain ⟨s0, hs0⟩ : ∃ s, Must2.polygon (notch P R x0 h t) = some s := ⟨_, rfl⟩
  have hsharp := notch_eval P R x0 h t hP h0 hD t0 (by linarith) (by linarith) s0 hs0
  have hL : notch P R x0 h t = [⟨P, 0⟩, ⟨P, R⟩] ++ ⟨x0 + 1 * (h * t), R - h + 1 * h⟩ :: ⟨x0, R - h⟩ :: ⟨x0 - h, R⟩ :: [⟨-P, R⟩, ⟨-P, 0⟩] := by
    simp [notch]
  rw [hL] at hprop hs0
  obtain ⟨pts, s, mid, d, hp, hlen, hprop', hs, -, -, -, hall⟩ := round_root _ _ R x0 h t 1 (714 / 10000 * P) h0 t0 t1 one_pos (by linarith)
    (by linarith) (by linarith) hprop s0 hs0
  rw [show (⟨x0 + 1 * (h * t), R - h + 1 * h⟩ : V2) = ⟨x0 + h * t, R⟩ by rw [V2.mk.injEq]; constructor <;> ring] at hp hs hprop'
  refine ⟨s, ?_, C31_lipschitz _ hprop' s hs, ?_⟩
  · obtain ⟨b', vs, hv, hvs⟩ := C32_smooth_vertices (ansiBuilder D P) [PV.plain ⟨P, 0⟩, PV.plain ⟨P, R⟩] [PV.plain ⟨-P, R⟩, PV.plain ⟨-P, 0⟩]
      ⟨x0 + h * t, R⟩ ⟨x0 - h, R⟩ ⟨x0, R - h⟩ (714 / 10000 * P) 5 pts (by rw [hbuild])
      (by rw [hbuild]; rfl) (by norm_num)
      (by intro v hv; simp at hv; rcases hv with rfl | rfl <;> exact ⟨rfl, rfl⟩)
      (by intro v hv; simp at hv; rcases hv with rfl | rfl <;> exact ⟨rfl, rfl⟩) hp fuel
    rw [hbuild] at hv hvs
    rw [if_neg (by simp)] at hvs
    have : Must2.polygon vs = some s := by
      rw [hvs, ← hs]; rfl
    simp only [ansiButtress, profile]
    rw [hbuild, hv]
    simp only [this]
  · intro x y hx hnot
    refine same_signs (hall x y ?_) (hsharp x y hx)
    · rintro ⟨c1, c2, c3, c4⟩
      have : P * t < P * (13 / 100) := mul_lt_mul_of_pos_left t1 hP0
      exact hnot ⟨by linarith, by linarith, c3, by linarith⟩

/-- The vertices of an outline with three smoothed corners in a row. -/
theorem vertices_three_smooth (v0 v1 x1 x2 x3 v5 v6 Q1 Q2 : V2) (r1 r2 r3 : ℝ) (pts1 pts2 pts3 : List PV) (m1 m2 : List V2)
    (hp1 : smoothPoints v1 x1 x2 r1 5 = some pts1) (hlen1 : pts1.length = 6) (h1 : pts1.map PV.vertex = m1 ++ [Q1])
    (hp2 : smoothPoints Q1 x2 x3 r2 5 = some pts2) (hlen2 : pts2.length = 6) (h2 : pts2.map PV.vertex = m2 ++ [Q2])
    (hp3 : smoothPoints Q2 x3 v5 r3 5 = some pts3) (hlen3 : pts3.length = 6) (fuel : ℕ) :
    ∃ b', Builder.vertices (fuel + 4) ⟨false, false, false, [PV.plain v0, PV.plain v1, ⟨false, .smooth, x1, 5, r1⟩,
        ⟨false, .smooth, x2, 5, r2⟩, ⟨false, .smooth, x3, 5, r3⟩, PV.plain v5, PV.plain v6]⟩ =
      .ok ([v0, v1] ++ m1 ++ [Q1] ++ m2 ++ Q2 :: (pts3.map PV.vertex ++ v5 :: [v6]), b') := by
  obtain ⟨k1, l1, rfl, rfl, hl1⟩ := List.map_eq_append_iff.mp h1
  obtain ⟨q1, rfl, rfl⟩ : ∃ q, l1 = [q] ∧ q.vertex = Q1 := by
    match l1, hl1 with
    | [q], h => simp only [List.map_cons, List.map_nil, List.cons.injEq, and_true] at h; exact ⟨q, rfl, h⟩
  obtain ⟨k2, l2, rfl, rfl, hl2⟩ := List.map_eq_append_iff.mp h2
  obtain ⟨q2, rfl, rfl⟩ : ∃ q, l2 = [q] ∧ q.vertex = Q2 := by
    match l2, hl2 with
    | [q], h => simp only [List.map_cons, List.map_nil, List.cons.injEq, and_true] at h; exact ⟨q, rfl, h⟩
  have n1 := (smoothPoints_normal hp1).1
  have n2 := (smoothPoints_normal hp2).1
  have n3 := (smoothPoints_normal hp3).1
  have hstep1 := smooth_step ⟨false, false, false, [PV.plain v0, PV.plain v1, ⟨false, .smooth, x1, 5, r1⟩,
        ⟨false, .smooth, x2, 5, r2⟩, ⟨false, .smooth, x3, 5, r3⟩, PV.plain v5, PV.plain v6]⟩ [PV.plain v0]
    [⟨false, .smooth, x3, 5, r3⟩, PV.plain v5, PV.plain v6]
    (PV.plain v1) ⟨false, .smooth, x2, 5, r2⟩ x1 r1 5 (k1 ++ [q1]) rfl (by norm_num) (by intro v hv; simp at hv; rw [hv]; rfl) rfl hp1
    (by rw [hlen1]; simp) (fuel + 3)
  have hstep2 := smooth_step ⟨false, false, false, [PV.plain v0] ++ PV.plain v1 :: ((k1 ++ [q1]) ++ ⟨false, .smooth, x2, 5, r2⟩ ::
      [⟨false, .smooth, x3, 5, r3⟩, PV.plain v5, PV.plain v6])⟩
    ([PV.plain v0, PV.plain v1] ++ k1) [PV.plain v5, PV.plain v6]
    q1 ⟨false, .smooth, x3, 5, r3⟩ x2 r2 5 (k2 ++ [q2]) (by simp) (by norm_num)
    (by
      intro v hv
      simp only [List.mem_append, List.mem_cons, List.not_mem_nil, or_false] at hv
      rcases hv with (rfl | rfl) | h
      · rfl
      · rfl
      · exact (n1 v (by simp [h])).2) (n1 q1 (by simp)).2 hp2 (by rw [hlen2]; simp) (fuel + 2)
  have hstep3 := smooth_step ⟨false, false, false, ([PV.plain v0, PV.plain v1] ++ k1) ++ q1 :: ((k2 ++ [q2]) ++ ⟨false, .smooth, x3, 5, r3⟩ ::
      [PV.plain v5, PV.plain v6])⟩
    ([PV.plain v0, PV.plain v1] ++ k1 ++ [q1] ++ k2) [PV.plain v6]
    q2 (PV.plain v5) x3 r3 5 pts3 (by simp) (by norm_num)
    (by
      intro v hv
      simp only [List.mem_append, List.mem_cons, List.not_mem_nil, or_false] at hv
      rcases hv with (((rfl | rfl) | h) | rfl) | h
      · rfl
      · rfl
      · exact (n1 v (by simp [h])).2
      · exact (n1 v (by simp)).2
      · exact (n2 v (by simp [h])).2) (n2 q2 (by simp)).2 hp3 (by rw [hlen3]; simp) (fuel + 1)
  simp only at hstep1 hstep2 hstep3
  rw [hstep2, hstep3] at hstep1
  set b' : Builder := ⟨false, false, false, ([PV.plain v0, PV.plain v1] ++ k1 ++ [q1] ++ k2) ++ q2 :: (pts3 ++ PV.plain v5 :: [PV.plain v6])⟩ with hb'
  rw [passes_idle _ b' (fun j hj => smoothVertex_idle b' j hj (fun v hv => by
    have hv := List.mem_of_getElem? hv
    simp only [hb', List.mem_append, List.mem_cons, List.not_mem_nil, or_false] at hv
    rcases hv with ((((rfl | rfl) | h) | rfl) | h) | rfl | h | rfl | rfl
    · simp [PV.plain]
    · simp [PV.plain]
    · rw [(n1 v (by simp [h])).2]; simp
    · rw [(n1 v (by simp)).2]; simp
    · rw [(n2 v (by simp [h])).2]; simp
    · rw [(n2 v (by simp)).2]; simp
    · rw [(n3 v h).2]; simp
    · simp [PV.plain]
    · simp [PV.plain]))] at hstep1
  have hvert := vertices_smooth _ b' rfl rfl (by
    intro v hv
    simp only [List.mem_cons, List.not_mem_nil, or_false] at hv
    rcases hv with rfl | rfl | rfl | rfl | rfl | rfl | rfl <;> simp [PV.plain]) (fuel + 3) hstep1
  refine ⟨b', ?_⟩
  rw [hvert, hb']
  simp [PV.plain]

/-- Rounding the upper end of the steep flank of a notch. -/
theorem round_steep (A B : List V2) (P R x0 h t r : ℝ) (h0 : 0 < h) (t0 : 0 < t) (t1 : t < 13 / 100) (r0 : 0 < r) (hh : 2 * r < h)
    (hP : x0 + h * t + 2 * r < P)
    (hv : Proper (A ++ ⟨P, R⟩ :: ⟨x0 + h * t, R⟩ :: ⟨x0, R - h⟩ :: B)) (s : SDF2)
    (hs : Must2.polygon (A ++ ⟨P, R⟩ :: ⟨x0 + h * t, R⟩ :: ⟨x0, R - h⟩ :: B) = some s) :
    ∃ pts s' mid m, smoothPoints ⟨P, R⟩ ⟨x0 + h * t, R⟩ ⟨x0, R - h⟩ r 5 = some pts ∧ pts.length = 6 ∧
      Proper (A ++ ⟨P, R⟩ :: (pts.map PV.vertex ++ ⟨x0, R - h⟩ :: B)) ∧
      Must2.polygon (A ++ ⟨P, R⟩ :: (pts.map PV.vertex ++ ⟨x0, R - h⟩ :: B)) = some s' ∧
      pts.map PV.vertex = mid ++ [⟨x0 + m * (h * t), R - h + m * h⟩] ∧ 0 < m ∧ h - 101 / 100 * r < m * h ∧
      ∀ x y, ¬ (x0 + h * t - r * t ≤ x ∧ x ≤ x0 + h * t + r ∧ R - r ≤ y ∧ y ≤ R) →
        (s'.eval ⟨x, y⟩ < 0 ↔ s.eval ⟨x, y⟩ < 0) ∧ (s'.eval ⟨x, y⟩ = 0 ↔ s.eval ⟨x, y⟩ = 0) := by
  set e := Real.sqrt (1 + t * t) with he
  have ee : e * e = 1 + t * t := Real.mul_self_sqrt (by positivity)
  have e0 : 0 ≤ e := Real.sqrt_nonneg _
  have e1 : 1 < e := by nlinarith
  have e2 : e < 101 / 100 := by nlinarith
  have e3 : e < 1 + t := by nlinarith
  set d := r * (e - t) with hd
  have d0 : 0 < d := mul_pos r0 (by linarith)
  have d1 : d < r := by rw [hd]; nlinarith
  set w := P - (x0 + h * t) with hw
  have w0 : 2 * r < w := by rw [hw]; linarith
  have hc : V2.cross (V2.sub ⟨P, R⟩ ⟨x0 + h * t, R⟩) (V2.sub ⟨x0, R - h⟩ ⟨x0 + h * t, R⟩) = -(w * h) := by
    simp only [V2.cross, V2.sub, hw]; ring
  have hcp : 0 < w * h := mul_pos (by linarith) h0
  have hdo : V2.dot (V2.sub ⟨P, R⟩ ⟨x0 + h * t, R⟩) (V2.sub ⟨x0, R - h⟩ ⟨x0 + h * t, R⟩) = -(w * h * t) := by
    simp only [V2.dot, V2.sub, hw]; ring
  have hhe : h < h * e := by nlinarith
  obtain ⟨pts, s', mid, hp, hlen, hprop, hs', hform, hall⟩ := round_corner A B ⟨P, R⟩ ⟨x0 + h * t, R⟩ ⟨x0, R - h⟩
    r w (h * e) d 5 r0 (by norm_num)
    (dist_of_sq (by linarith) (by simp only [hw]; ring))
    (dist_of_sq (by positivity) (by simp only; linear_combination (-(h * h)) * ee)) (by linarith) (by linarith)
    (by rw [hc]; exact (neg_neg_of_pos hcp).ne) (by rw [hc, hdo, abs_neg, abs_of_pos hcp, hd]; ring) (by linarith) (by linarith) hv s hs
  have q2 : d / (h * e) * h = d / e := by field_simp
  have q1 : d / w * w = d := by rw [div_mul_cancel₀ _ (by linarith)]
  have hq0 : 0 < d / e := div_pos d0 (by linarith)
  have hq : d / e < r := by rw [div_lt_iff₀ (by linarith)]; nlinarith
  have hlast : V2.add ⟨x0 + h * t, R⟩ (V2.scale (d / (h * e)) (V2.sub ⟨x0, R - h⟩ ⟨x0 + h * t, R⟩)) =
      ⟨x0 + (1 - d / (h * e)) * (h * t), R - h + (1 - d / (h * e)) * h⟩ := by
    simp only [V2.add, V2.scale, V2.sub, V2.mk.injEq]
    exact ⟨by ring, by ring⟩
  rw [hlast] at hform
  have hm : (1 - d / (h * e)) * h = h - d / e := by linear_combination -q2
  refine ⟨pts, s', _, _, hp, hlen, hprop, hs', hform, ?_, by rw [hm]; linarith, ?_⟩
  · by_contra hcon
    have := mul_nonneg (neg_nonneg.mpr (not_lt.mp hcon)) h0.le
    linarith
  · intro x y hnot
    refine hall ⟨x, y⟩ ?_
    rintro ⟨α, β, a0, b0, ab, f1, f2⟩
    apply hnot
    simp only at f1 f2
    have f1' : x = x0 + h * t + (α * d - β * t * (d / e)) := by rw [f1]; linear_combination α * q1 - β * t * q2
    have f2' : y = R - β * (d / e) := by rw [f2]; linear_combination -β * q2
    have k1 := mul_nonneg a0 d0.le
    have k2 := mul_nonneg b0 hq0.le
    have k3 : α * d ≤ 1 * r := mul_le_mul (by linarith) d1.le d0.le zero_le_one
    have k4 : β * (d / e) ≤ 1 * r := mul_le_mul (by linarith) hq.le hq0.le zero_le_one
    have k8 := mul_nonneg k2 t0.le
    have k9 : β * (d / e) * t ≤ 1 * r * t := mul_le_mul_of_nonneg_right k4 t0.le
    exact ⟨by linarith, by linarith, by linarith, by linarith⟩

/-- Rounding the upper end of the 45° flank of a notch, which starts `a` above the root. -/
theorem round_slant (A B : List V2) (P R x0 h a r : ℝ) (r0 : 0 < r) (hh : r < h - a) (hP : r < P + (x0 - h))
    (hv : Proper (A ++ ⟨x0 - a, R - h + a⟩ :: ⟨x0 - h, R⟩ :: ⟨-P, R⟩ :: B)) (s : SDF2)
    (hs : Must2.polygon (A ++ ⟨x0 - a, R - h + a⟩ :: ⟨x0 - h, R⟩ :: ⟨-P, R⟩ :: B) = some s) :
    ∃ pts s', smoothPoints ⟨x0 - a, R - h + a⟩ ⟨x0 - h, R⟩ ⟨-P, R⟩ r 5 = some pts ∧ pts.length = 6 ∧
      Proper (A ++ ⟨x0 - a, R - h + a⟩ :: (pts.map PV.vertex ++ ⟨-P, R⟩ :: B)) ∧
      Must2.polygon (A ++ ⟨x0 - a, R - h + a⟩ :: (pts.map PV.vertex ++ ⟨-P, R⟩ :: B)) = some s' ∧
      ∀ x y, ¬ (x0 - h - 42 / 100 * r ≤ x ∧ x ≤ x0 - h + 30 / 100 * r ∧ R - 30 / 100 * r ≤ y ∧ y ≤ R) →
        (s'.eval ⟨x, y⟩ < 0 ↔ s.eval ⟨x, y⟩ < 0) ∧ (s'.eval ⟨x, y⟩ = 0 ↔ s.eval ⟨x, y⟩ = 0) := by
  set g := Real.sqrt 2 with hg
  have gg : g * g = 2 := Real.mul_self_sqrt (by norm_num)
  have g0 : 0 ≤ g := Real.sqrt_nonneg _
  have g1 : 1414 / 1000 < g := by nlinarith
  have g2 : g < 14143 / 10000 := by nlinarith
  set d := r * (g - 1) with hd
  have d0 : 0 < d := mul_pos r0 (by linarith)
  have d1 : d < 42 / 100 * r := by rw [hd]; nlinarith
  set w := P + (x0 - h) with hw
  set u := h - a with hu
  have hc : V2.cross (V2.sub ⟨x0 - a, R - h + a⟩ ⟨x0 - h, R⟩) (V2.sub ⟨-P, R⟩ ⟨x0 - h, R⟩) = -(u * w) := by
    simp only [V2.cross, V2.sub, hw, hu]; ring
  have u0 : 0 < u := by linarith
  have hcp : 0 < u * w := mul_pos u0 (by linarith)
  have hdo : V2.dot (V2.sub ⟨x0 - a, R - h + a⟩ ⟨x0 - h, R⟩) (V2.sub ⟨-P, R⟩ ⟨x0 - h, R⟩) = -(u * w) := by
    simp only [V2.dot, V2.sub, hw, hu]; ring
  have hug : u < u * g := by nlinarith
  obtain ⟨pts, s', mid, hp, hlen, hprop, hs', hform, hall⟩ := round_corner A B ⟨x0 - a, R - h + a⟩ ⟨x0 - h, R⟩ ⟨-P, R⟩
    r (u * g) w d 5 r0 (by norm_num)
    (dist_of_sq (by positivity) (by simp only [hu]; linear_combination (-((h - a) * (h - a))) * gg))
    (dist_of_sq (by linarith) (by simp only [hw]; ring)) (by linarith) (by linarith)
    (by rw [hc]; exact (neg_neg_of_pos hcp).ne) (by rw [hc, hdo, abs_neg, abs_of_pos hcp, hd]; ring) (by linarith) (by linarith) hv s hs
  have q1 : d / (u * g) * u = d / g := by field_simp
  have q2 : d / w * w = d := by rw [div_mul_cancel₀ _ (by linarith)]
  have hq0 : 0 < d / g := div_pos d0 (by linarith)
  have hq : d / g < 30 / 100 * r := by rw [div_lt_iff₀ (by linarith)]; nlinarith
  refine ⟨pts, s', hp, hlen, hprop, hs', ?_⟩
  intro x y hnot
  refine hall ⟨x, y⟩ ?_
  rintro ⟨α, β, a0, b0, ab, f1, f2⟩
  apply hnot
  simp only at f1 f2
  have f1' : x = x0 - h + (α * (d / g) - β * d) := by rw [f1]; linear_combination α * q1 - β * q2
  have f2' : y = R - α * (d / g) := by rw [f2]; linear_combination -α * q1
  have k1 := mul_nonneg b0 d0.le
  have k2 := mul_nonneg a0 hq0.le
  have k3 : β * d ≤ 1 * (42 / 100 * r) := mul_le_mul (by linarith) d1.le d0.le zero_le_one
  have k4 : α * (d / g) ≤ 1 * (30 / 100 * r) := mul_le_mul (by linarith) hq.le hq0.le zero_le_one
  exact ⟨by linarith, by linarith, by linarith, by linarith⟩

/-- Plastic buttress threads: the same region with more rounding, at the root and at both ends of the flanks. -/
theorem C51_plastic (D P : ℝ) (hP : 1 / 10 ^ 9 < P) (hD : buttressDepth P < D / 2) (fuel : ℕ) :
    ∃ s, (plasticButtress (fuel + 4) D P).thread = .ok ⟨some s, false⟩ ∧ Lip2 s.eval ∧
      ∀ x y, |x| < P →
        ¬ (buttressRoot P - 26 / 100 * P ≤ x ∧ x ≤ buttressRoot P + 5 / 100 * P ∧
          D / 2 - buttressDepth P ≤ y ∧ y ≤ D / 2 - buttressDepth P + 37 / 100 * P) →
        ¬ (buttressRoot P + buttressDepth P * tan7 - 1 / 100 * P ≤ x ∧ x ≤ buttressRoot P + buttressDepth P * tan7 + 5 / 100 * P ∧
          D / 2 - 5 / 100 * P ≤ y ∧ y ≤ D / 2) →
        ¬ (buttressRoot P - buttressDepth P - 7 / 100 * P ≤ x ∧ x ≤ buttressRoot P - buttressDepth P + 5 / 100 * P ∧
          D / 2 - 5 / 100 * P ≤ y ∧ y ≤ D / 2) →
        ((s.eval ⟨x, y⟩ < 0 ↔ 0 < y ∧ y < buttressHeight D P x) ∧ (0 < s.eval ⟨x, y⟩ ↔ y < 0 ∨ buttressHeight D P x < y)) := by
  have hP0 : 0 < P := lt_trans (by norm_num) hP
  obtain ⟨b1, b2, b3, b4, -⟩ := buttress_bounds hP0
  obtain ⟨t0, t1⟩ := tan7_bounds
  have hbuild := plasticBuilder_eq D P hP0
  unfold buttressHeight
  generalize buttressDepth P = h at *
  generalize buttressRoot P = x0 at *
  generalize tan7 = t at *
  generalize D / 2 = R at *
  have h0 : 0 < h := by linarith
  have hht : h * t < 11 / 100 * P := by nlinarith
  have hprop := notch_proper P R x0 h t hP (by linarith) h0 (by linarith) (by linarith)
  obtain ⟨s0, hs0⟩ : ∃ s, Must2.polygon (notch P R x0 h t) = some s := ⟨_, rfl⟩
  have hsharp := notch_eval P R x0 h t hP h0 hD t0 (by linarith) (by linarith) s0 hs0
  have hL : notch P R x0 h t = [⟨P, 0⟩] ++ ⟨P, R⟩ :: ⟨x0 + h * t, R⟩ :: ⟨x0, R - h⟩ :: [⟨x0 - h, R⟩, ⟨-P, R⟩, ⟨-P, 0⟩] := by
    simp [notch]
  rw [hL] at hprop hs0
  obtain ⟨pts1, s1, mid1, m, hp1, hlen1, hprop1, hs1, hf1, m0, hm, hall1⟩ := round_steep _ _ P R x0 h t (5 / 100 * P) h0 t0 t1 (by linarith)
    (by linarith) (by linarith) hprop s0 hs0
  have hL1 : [⟨P, 0⟩] ++ ⟨P, R⟩ :: (pts1.map PV.vertex ++ ⟨x0, R - h⟩ :: [⟨x0 - h, R⟩, ⟨-P, R⟩, ⟨-P, 0⟩]) =
      ([⟨P, 0⟩, ⟨P, R⟩] ++ mid1) ++ (⟨x0 + m * (h * t), R - h + m * h⟩ : V2) :: ⟨x0, R - h⟩ :: ⟨x0 - h, R⟩ :: [⟨-P, R⟩, ⟨-P, 0⟩] := by
    rw [hf1]; simp
  rw [hL1] at hprop1 hs1
  obtain ⟨pts2, s2, mid2, a, hp2, hlen2, hprop2, hs2, hf2, -, ha, hall2⟩ := round_root _ _ R x0 h t m (15 / 100 * P) h0 t0 t1 m0 (by linarith)
    (by linarith) (by linarith) hprop1 s1 hs1
  have hL2 : ([⟨P, 0⟩, ⟨P, R⟩] ++ mid1) ++ (⟨x0 + m * (h * t), R - h + m * h⟩ : V2) :: (pts2.map PV.vertex ++ ⟨x0 - h, R⟩ :: [⟨-P, R⟩, ⟨-P, 0⟩]) =
      ([⟨P, 0⟩, ⟨P, R⟩] ++ mid1 ++ [(⟨x0 + m * (h * t), R - h + m * h⟩ : V2)] ++ mid2) ++ ⟨x0 - a, R - h + a⟩ :: ⟨x0 - h, R⟩ :: ⟨-P, R⟩ :: [⟨-P, 0⟩] := by
    rw [hf2]; simp
  rw [hL2] at hprop2 hs2
  obtain ⟨pts3, s, hp3, hlen3, hprop3, hs, hall3⟩ := round_slant _ _ P R x0 h a (15 / 100 * P) (by linarith) (by linarith) (by linarith) hprop2 s2 hs2
  refine ⟨s, ?_, C31_lipschitz _ hprop3 s hs, ?_⟩
  · obtain ⟨b', hv⟩ := vertices_three_smooth ⟨P, 0⟩ ⟨P, R⟩ ⟨x0 + h * t, R⟩ ⟨x0, R - h⟩ ⟨x0 - h, R⟩ ⟨-P, R⟩ ⟨-P, 0⟩ _ _ _ _ _ pts1 pts2 pts3
      mid1 mid2 hp1 hlen1 hf1 hp2 hlen2 hf2 hp3 hlen3 fuel
    simp only [plasticButtress, profile]
    rw [hbuild, hv]
    simp only [hs]
  · intro x y hx n1 n2 n3
    have hPt : P * t < P * (13 / 100) := mul_lt_mul_of_pos_left t1 hP0
    refine same_signs (hall3 x y ?_) (same_signs (hall2 x y ?_) (same_signs (hall1 x y ?_) (hsharp x y hx)))
    · rintro ⟨c1, c2, c3, c4⟩
      exact n3 ⟨by linarith, by linarith, by linarith, by linarith⟩
    · rintro ⟨c1, c2, c3, c4⟩
      exact n1 ⟨by linarith, by linarith, by linarith, by linarith⟩
    · rintro ⟨c1, c2, c3, c4⟩
      exact n2 ⟨by linarith, by linarith, by linarith, by linarith⟩

/-- The hypotheses of the buttress theorems are met by a thread of diameter 10 and pitch 2. -/
example : (1 : ℝ) / 10 ^ 9 < 2 ∧ buttressDepth 2 < 10 / 2 := by
  have := (buttress_bounds (P := 2) (by norm_num)).2.1
  exact ⟨by norm_num, by linarith⟩

/-- UTS threads are ISO threads whose pitch is one inch divided by the number of threads per inch. -/
theorem C51_uts_external (D TPI : ℝ) (hT : 0 < TPI) (hT' : TPI < 10 ^ 9) (hD : 7 / 8 * isoH (1 / TPI) < D / 2) (fuel : ℕ) :
    ∃ s, (uts (fuel + 3) D TPI true).thread = .ok ⟨some s, false⟩ ∧ Lip2 s.eval ∧
      ∀ x y, |x| ≤ 1 / TPI / 2 →
        ¬ (3 * (1 / TPI) / 8 ≤ |x| ∧ D / 2 - 7 / 8 * isoH (1 / TPI) ≤ y ∧ y ≤ D / 2 - 5 / 8 * isoH (1 / TPI)) →
        ((s.eval ⟨x, y⟩ < 0 ↔ 0 < y ∧ y < isoExternalHeight D (1 / TPI) x) ∧ (0 < s.eval ⟨x, y⟩ ↔ y < 0 ∨ isoExternalHeight D (1 / TPI) x < y)) := by
  have h := C51_iso_external D (1 / TPI) (one_div_lt_one_div_of_lt hT hT') hD fuel
  unfold uts
  rwa [show (1.0 : ℝ) / TPI = 1 / TPI by norm_num]

theorem C51_uts_internal (D TPI : ℝ) (hT : 0 < TPI) (hT' : TPI < 10 ^ 9) (hD : 5 / 8 * isoH (1 / TPI) < D / 2) (fuel : ℕ) :
    ∃ s, (uts (fuel + 2) D TPI false).thread = .ok ⟨some s, false⟩ ∧ Lip2 s.eval ∧
      ∀ x y, |x| ≤ 1 / TPI / 2 →
        ¬ (|x| ≤ 1 / TPI / 16 ∧ D / 2 ≤ y ∧ y ≤ D / 2 + isoH (1 / TPI) / 8) →
        ((s.eval ⟨x, y⟩ < 0 ↔ 0 < y ∧ y < isoInternalHeight D (1 / TPI) x) ∧ (0 < s.eval ⟨x, y⟩ ↔ y < 0 ∨ isoInternalHeight D (1 / TPI) x < y)) := by
  have h := C51_iso_internal D (1 / TPI) (one_div_lt_one_div_of_lt hT hT') hD fuel
  unfold uts
  rwa [show (1.0 : ℝ) / TPI = 1 / TPI by norm_num]

/-- Pipe threads have the internal ISO profile, with the pitch given by the threads per inch, for the screw as for the nut. -/
theorem C51_npt (npt : NPT) (hT : 0 < npt.TPI) (hT' : npt.TPI < 10 ^ 9) (hD : 5 / 8 * isoH (1 / npt.TPI) < npt.D / 2) (fuel : ℕ) :
    ∃ s, (npt.threader (fuel + 2)).thread = .ok ⟨some s, false⟩ ∧ Lip2 s.eval ∧
      ∀ x y, |x| ≤ 1 / npt.TPI / 2 →
        ¬ (|x| ≤ 1 / npt.TPI / 16 ∧ npt.D / 2 ≤ y ∧ y ≤ npt.D / 2 + isoH (1 / npt.TPI) / 8) →
        ((s.eval ⟨x, y⟩ < 0 ↔ 0 < y ∧ y < isoInternalHeight npt.D (1 / npt.TPI) x) ∧
          (0 < s.eval ⟨x, y⟩ ↔ y < 0 ∨ isoInternalHeight npt.D (1 / npt.TPI) x < y)) := by
  have h := C51_iso_internal npt.D (1 / npt.TPI) (one_div_lt_one_div_of_lt hT hT') hD fuel
  unfold NPT.threader
  rwa [show (1.0 : ℝ) / npt.TPI = 1 / npt.TPI by norm_num]

/-- A bolt goes into a nut of the same size: where neither profile is rounded, the external ISO profile lies within the internal
one. -/
theorem C51_iso_mate (D P x : ℝ) : isoExternalHeight D P x ≤ isoInternalHeight D P x := by
  unfold isoExternalHeight isoInternalHeight
  have h3 : Real.sqrt 3 * Real.sqrt 3 = 3 := Real.mul_self_sqrt (by norm_num)
  have h30 : 0 < Real.sqrt 3 := by positivity
  rw [Real.tan_pi_div_six]
  have hdiv : ∀ z : ℝ, z / (1 / Real.sqrt 3) = z * Real.sqrt 3 := fun z => by rw [div_div_eq_mul_div, div_one]
  rw [hdiv, hdiv]
  unfold isoH
  refine le_trans (min_le_right _ _) (le_trans ?_ (le_max_right _ _))
  nlinarith

/-- The hypotheses of the ISO theorems are met by M10 with a pitch of 1.5. -/
example : (1 : ℝ) / 10 ^ 9 < 1.5 ∧ 7 / 8 * isoH 1.5 < 10 / 2 := by
  have h : Real.sqrt 3 < 2 := by rw [Real.sqrt_lt' (by norm_num)]; norm_num
  unfold isoH
  constructor <;> norm_num
  linarith

/-- Those of the UTS theorems by a quarter inch with 20 threads per inch. -/
example : (0 : ℝ) < 20 ∧ (20 : ℝ) < 10 ^ 9 ∧ 7 / 8 * isoH (1 / 20) < 0.25 / 2 := by
  have h : Real.sqrt 3 < 2 := by rw [Real.sqrt_lt' (by norm_num)]; norm_num
  unfold isoH
  refine ⟨by norm_num, by norm_num, ?_⟩
  norm_num
  linarith

end Sdf
