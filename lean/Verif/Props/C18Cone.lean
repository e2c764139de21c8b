import Verif.Lemmas.Cone
import Verif.Props.C18Primitives

/-! C18 for the truncated cone. -/

namespace Sdf

/-- The radius of the unrounded cone's side at height `z`: `r0` at the bottom, `r1` at the top, linear between. -/
noncomputable def coneRadius (height r0 r1 z : ℝ) : ℝ := r0 + (r1 - r0) * (z + height / 2) / height

/-- The length of the cone's side. -/
noncomputable def coneSide (height r0 r1 : ℝ) : ℝ := V2.norm ⟨r1 - r0, height⟩

theorem coneData_fields {height r0 r1 round : ℝ} (hh : 0 < height) :
    0 < coneSide height r0 r1 ∧
    (Must3.coneData height r0 r1 round).n = ⟨height / coneSide height r0 r1, -((r1 - r0) / coneSide height r0 r1)⟩ ∧
    (Must3.coneData height r0 r1 round).r0 = coneRadius height r0 r1 (-(height / 2 - round)) - round * coneSide height r0 r1 / height ∧
    (Must3.coneData height r0 r1 round).r1 = coneRadius height r0 r1 (height / 2 - round) - round * coneSide height r0 r1 / height := by
  have e0 : V2.sub ⟨r1, height / 2⟩ ⟨r0, -height / 2⟩ = ⟨r1 - r0, height⟩ := by
    ext
    · rfl
    · simp only [V2.sub]; ring
  have hp : 0 < coneSide height r0 r1 := V2.norm_pos (fun e => hh.ne' (congrArg V2.y e))
  have hu : V2.unit (V2.sub ⟨r1, height / 2⟩ ⟨r0, -height / 2⟩) =
      ⟨(r1 - r0) / coneSide height r0 r1, height / coneSide height r0 r1⟩ := by
    rw [e0]
    unfold V2.unit
    rw [show V2.norm ⟨r1 - r0, height⟩ = coneSide height r0 r1 from rfl]
    simp only [V2.scale]
    ext <;> simp only <;> field_simp
  refine ⟨hp, ?_, ?_, ?_⟩
  · simp only [Must3.coneData, hu]
  · simp only [Must3.coneData, hu, coneRadius]
    field_simp
    ring
  · simp only [Must3.coneData, hu, coneRadius]
    field_simp
    ring

theorem coneData_slope {height r0 r1 round : ℝ} (hh : 0 < height) (p : V2) :
    V2.dot (V2.sub p ⟨(Must3.coneData height r0 r1 round).r0, -(Must3.coneData height r0 r1 round).height⟩)
        (Must3.coneData height r0 r1 round).n =
      height / coneSide height r0 r1 * (p.x - (coneRadius height r0 r1 p.y - round * coneSide height r0 r1 / height)) := by
  obtain ⟨hp, hn, h0, -⟩ := coneData_fields (r0 := r0) (r1 := r1) (round := round) hh
  rw [hn, h0]
  simp only [V2.dot, V2.sub, Must3.coneData, coneRadius]
  field_simp
  ring

/-- Truncated cone about the z axis with radius `r0` at the bottom and `r1` at the top: any height, radii and rounding for which the side
moved inwards by the rounding still has radii that are not negative. Without rounding the inside is the points between the end
planes and nearer the axis than the side; with rounding it is the points within `round` of the cone whose ends and side were moved
inwards by `round`. -/
theorem C18_cone (height r0 r1 round : ℝ) (hh : 0 < height) (h0 : 0 ≤ round) (hr : 2 * round ≤ height)
    (hb : round * V2.norm ⟨r1 - r0, height⟩ / height ≤ r0 + (r1 - r0) * round / height)
    (ht : round * V2.norm ⟨r1 - r0, height⟩ / height ≤ r1 - (r1 - r0) * round / height) :
    ∃ s, Must3.cone height r0 r1 round = some s ∧ s.Exact ∧
      (round = 0 → ∀ p, s.Inside p ↔ |p.z| < height / 2 ∧ V2.norm ⟨p.x, p.y⟩ < r0 + (r1 - r0) * (p.z + height / 2) / height) ∧
      (0 < round → ∀ p, s.Inside p ↔ Rounded3 (fun q => |q.z| ≤ height / 2 - round ∧
        V2.norm ⟨q.x, q.y⟩ ≤ r0 + (r1 - r0) * (q.z + height / 2) / height - round * V2.norm ⟨r1 - r0, height⟩ / height) round p) := by
  have hs := coneData_frustum (r0 := r0) (r1 := r1) hh hr
  obtain ⟨hp, hn, e0, e1⟩ := coneData_fields (r0 := r0) (r1 := r1) (round := round) hh
  have hr0 : 0 ≤ (Must3.coneData height r0 r1 round).r0 := by
    rw [e0]
    have : coneRadius height r0 r1 (-(height / 2 - round)) = r0 + (r1 - r0) * round / height := by
      unfold coneRadius; ring
    rw [this]
    unfold coneSide
    linarith
  have hr1 : 0 ≤ (Must3.coneData height r0 r1 round).r1 := by
    rw [e1]
    have : coneRadius height r0 r1 (height / 2 - round) = r1 - (r1 - r0) * round / height := by
      unfold coneRadius; field_simp; ring
    rw [this]
    unfold coneSide
    linarith
  have lip := cone_lip hs
  have lev : ∀ c, 0 ≤ c → ∀ p : V3, ∃ q : V3, Must3.coneEval2 (Must3.coneData height r0 r1 round) q.radial + round = c ∧
      V3.dist p q = |Must3.coneEval2 (Must3.coneData height r0 r1 round) p.radial + round - c| := by
    intro c hc p
    obtain ⟨Q, hQx, hQ, hd⟩ := cone_level hs hr0 hr1 hc (p := p.radial) (V2.norm_nonneg _)
    obtain ⟨q, hq, hd2⟩ := V3.radial_lift p Q hQx
    exact ⟨q, by rw [hq]; exact hQ, by rw [hd2]; exact hd⟩
  have hpos : 0 < height / coneSide height r0 r1 := by positivity
  have hB : ∀ q : V3, Must3.coneEval2 (Must3.coneData height r0 r1 round) q.radial + round ≤ 0 ↔ |q.z| ≤ height / 2 - round ∧
      V2.norm ⟨q.x, q.y⟩ ≤ r0 + (r1 - r0) * (q.z + height / 2) / height - round * V2.norm ⟨r1 - r0, height⟩ / height := by
    intro q
    have := cone_region hs q.radial
    unfold ConeRegion at this
    rw [coneData_slope hh] at this
    refine this.trans (and_congr Iff.rfl ?_)
    rw [← mul_zero (height / coneSide height r0 r1), mul_le_mul_iff_right₀ hpos, sub_nonpos]
    rfl
  have hfun : (fun p : V3 => Must3.coneEval2 (Must3.coneData height r0 r1 round) ⟨V2.norm ⟨p.x, p.y⟩, p.z⟩) =
      fun p : V3 => (Must3.coneEval2 (Must3.coneData height r0 r1 round) p.radial + round) - round := by
    funext p
    simp only [V3.radial]
    ring
  obtain ⟨bb, hsome⟩ : ∃ bb, Must3.cone height r0 r1 round =
      some ⟨fun p => (Must3.coneEval2 (Must3.coneData height r0 r1 round) p.radial + round) - round, bb⟩ := by
    unfold Must3.cone
    rw [if_neg (not_le.mpr hh), if_neg (not_lt.mpr h0), if_neg (by norm_num; linarith)]
    simp only
    rw [hfun]
    exact ⟨_, rfl⟩
  refine ⟨_, hsome, exact_sub3 (Lip2.revolve (g := fun q => Must3.coneEval2 (Must3.coneData height r0 r1 round) q + round) lip) (lev _ h0), ?_, ?_⟩
  · rintro rfl p
    show (Must3.coneEval2 (Must3.coneData height r0 r1 0) p.radial + 0) - 0 < 0 ↔ _
    rw [sub_zero]
    have := cone_inside hs p.radial
    rw [coneData_slope hh] at this
    refine this.trans (and_congr ?_ ?_)
    · simp [Must3.coneData, V3.radial]
    · rw [← mul_zero (height / coneSide height r0 r1), mul_lt_mul_iff_right₀ hpos, sub_neg, mul_zero, zero_mul, zero_div, sub_zero]
      rfl
  · intro hrp
    exact rounded_of3 hrp (Lip2.revolve (g := fun q => Must3.coneEval2 (Must3.coneData height r0 r1 round) q + round) lip) hB
      (lev 0 le_rfl)

/-- A rounded cone that comes to a point does not report distances: beyond the tip of the cone of height 4, base radius 3, top radius 0 and
rounding 1 the value is 3/10, and every point of the surface is further away than that. -/
theorem C18_rounded_tip_wrong : ∃ s, Must3.cone 4 3 0 1 = some s ∧ s.eval ⟨0, 0, 11/5⟩ = 3/10 ∧
    (∀ q, s.eval q = 0 → 3/10 < V3.dist ⟨0, 0, 11/5⟩ q) ∧ ¬ s.Exact := by
  have n5 : V2.norm ⟨0 - 3, 4⟩ = 5 := V2.norm_eq_of (by norm_num) (by norm_num)
  have hs := coneData_frustum (height := 4) (r0 := 3) (r1 := 0) (round := 1) (by norm_num) (by norm_num)
  obtain ⟨hp, hn, e0, e1⟩ := coneData_fields (height := 4) (r0 := 3) (r1 := 0) (round := 1) (by norm_num)
  unfold coneSide at hn e0 e1
  rw [n5] at hn e0 e1
  have e0' : (Must3.coneData 4 3 0 1).r0 = 1 := by rw [e0]; unfold coneRadius; norm_num
  have e1' : (Must3.coneData 4 3 0 1).r1 = -1/2 := by rw [e1]; unfold coneRadius; norm_num
  have eh : (Must3.coneData 4 3 0 1).height = 1 := by simp only [Must3.coneData]; norm_num
  have er : (Must3.coneData 4 3 0 1).round = 1 := rfl
  have hn' : (Must3.coneData 4 3 0 1).n = ⟨4/5, 3/5⟩ := by rw [hn]; ext <;> norm_num
  have hux : (Must3.coneData 4 3 0 1).u.x = -3/5 := by have := hs.ny; rw [hn'] at this; simp only at this; linarith
  have huy : (Must3.coneData 4 3 0 1).u.y = 4/5 := by have := hs.nx; rw [hn'] at this; simp only at this; linarith
  have el : (Must3.coneData 4 3 0 1).l = 5/2 := by
    have := hs.high
    rw [eh, huy] at this
    linarith
  -- the region lies behind the line through its corner across the direction of the point
  have hsup : ∀ q, ConeRegion (Must3.coneData 4 3 0 1) q → V2.dot ⟨5/13, 12/13⟩ (V2.sub q ⟨-1/2, 1⟩) ≤ 0 := by
    rintro q ⟨h1, h2⟩
    rw [eh, e0', hn'] at h2
    rw [eh] at h1
    have := (abs_le.1 h1).2
    simp only [V2.dot, V2.sub] at h2 ⊢
    linarith
  have hw : V2.norm ⟨5/13, 12/13⟩ = 1 := V2.norm_eq_of zero_le_one (by norm_num)
  have n13 : V2.norm (V2.sub ⟨0, 11/5⟩ ⟨-1/2, 1⟩) = 13/10 := V2.norm_eq_of (by norm_num) (by norm_num [V2.sub])
  have hval : Must3.coneEval2 (Must3.coneData 4 3 0 1) ⟨0, 11/5⟩ = 3/10 := by
    unfold Must3.coneEval2
    rw [eh, e0', e1', hn', el, er]
    rw [if_neg (by norm_num), if_neg (by norm_num)]
    simp only
    rw [if_neg (by norm_num [V2.dot, V2.sub])]
    have ht : V2.dot (V2.sub ⟨0, 11/5⟩ ⟨1, -1⟩) (Must3.coneData 4 3 0 1).u = 79/25 := by
      simp only [V2.dot, V2.sub, hux, huy]; norm_num
    rw [ht, if_neg (by norm_num), if_neg (by norm_num), n13]
    norm_num
  have far : ∀ q : V3, Must3.coneEval2 (Must3.coneData 4 3 0 1) q.radial = 0 → 3/10 < V3.dist ⟨0, 0, 11/5⟩ q := by
    intro q hq
    have h1 := V3.radial_dist_le ⟨0, 0, 11/5⟩ q
    have e : (V3.mk 0 0 (11/5)).radial = ⟨0, 11/5⟩ := by
      simp only [V3.radial, V2.norm_eq_zero.2]
    rw [e] at h1
    refine lt_of_lt_of_le ?_ h1
    have hx : 0 ≤ q.radial.x := V2.norm_nonneg _
    have low := cone_low hs hw hsup q.radial
    rw [hq, er] at low
    unfold V2.dist
    by_contra hc
    rw [not_lt] at hc
    have h2 := V2.norm_sq (V2.sub ⟨0, 11/5⟩ q.radial)
    have h3 := V2.norm_nonneg (V2.sub ⟨0, 11/5⟩ q.radial)
    simp only [V2.dot, V2.sub] at low h2 h3 hc
    nlinarith [sq_nonneg (q.radial.x + 3/26), sq_nonneg (q.radial.y - 11/5 + 36/130)]
  obtain ⟨bb, hsome⟩ : ∃ bb, Must3.cone 4 3 0 1 = some ⟨fun p => Must3.coneEval2 (Must3.coneData 4 3 0 1) p.radial, bb⟩ := by
    unfold Must3.cone
    rw [if_neg (by norm_num), if_neg (by norm_num), if_neg (by norm_num)]
    exact ⟨_, rfl⟩
  have hv : Must3.coneEval2 (Must3.coneData 4 3 0 1) (V3.mk 0 0 (11/5)).radial = 3/10 := by
    have e : (V3.mk 0 0 (11/5)).radial = ⟨0, 11/5⟩ := by
      simp only [V3.radial, V2.norm_eq_zero.2]
    rw [e, hval]
  refine ⟨_, hsome, hv, far, fun h => ?_⟩
  obtain ⟨⟨q, hq, hd⟩, -⟩ := h.2 ⟨0, 0, 11/5⟩
  simp only at hq hd
  rw [hv, abs_of_pos (by norm_num)] at hd
  have := far q hq
  linarith

/-- A cone with slope 3:4, rounded by 1/2, meets the hypotheses. -/
example : ∃ s, Must3.cone 4 5 2 (1/2) = some s ∧ s.Exact := by
  have n5 : V2.norm ⟨2 - 5, 4⟩ = 5 := V2.norm_eq_of (by norm_num) (by norm_num)
  obtain ⟨s, h1, h2, -⟩ := C18_cone 4 5 2 (1/2) (by norm_num) (by norm_num) (by norm_num) (by rw [n5]; norm_num) (by rw [n5]; norm_num)
  exact ⟨s, h1, h2⟩

end Sdf
