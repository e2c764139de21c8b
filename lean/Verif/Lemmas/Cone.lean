import Verif.Lemmas.Revolve

/-! Helper lemmas: the profile of a truncated cone is the signed distance to a convex region of the half plane. -/

namespace Sdf

/-- How the fields of a truncated cone hang together: the slope runs from the base corner in the direction `u` and reaches the top
corner after the length `l`. -/
structure Frustum (s : Must3.ConeData) : Prop where
  unit : s.u.x * s.u.x + s.u.y * s.u.y = 1
  up : 0 < s.u.y
  nx : s.n.x = s.u.y
  ny : s.n.y = -s.u.x
  len : 0 ≤ s.l
  top : s.r1 = s.r0 + s.l * s.u.x
  high : 2 * s.height = s.l * s.u.y

/-- The region under the slope. -/
def ConeRegion (s : Must3.ConeData) (p : V2) : Prop :=
  |p.y| ≤ s.height ∧ V2.dot (V2.sub p ⟨s.r0, -s.height⟩) s.n ≤ 0

theorem coneData_frustum {height r0 r1 round : ℝ} (hh : 0 < height) (hhr : 2 * round ≤ height) :
    Frustum (Must3.coneData height r0 r1 round) := by
  set L := V2.norm (V2.sub ⟨r1, height / 2⟩ ⟨r0, -height / 2⟩) with hL
  have hne : V2.sub ⟨r1, height / 2⟩ ⟨r0, -height / 2⟩ ≠ ⟨0, 0⟩ := by
    intro e
    have := congrArg V2.y e
    simp only [V2.sub] at this
    linarith
  have hLp : 0 < L := V2.norm_pos hne
  have hLs := V2.norm_sq (V2.sub ⟨r1, height / 2⟩ ⟨r0, -height / 2⟩)
  rw [← hL] at hLs
  simp only [V2.sub] at hLs
  have hu : V2.unit (V2.sub ⟨r1, height / 2⟩ ⟨r0, -height / 2⟩) = ⟨(r1 - r0) / L, height / L⟩ := by
    unfold V2.unit
    rw [← hL]
    simp only [V2.scale, V2.sub]
    ext <;> simp only <;> field_simp
    ring
  have e1 : (r1 - r0) / L * ((r1 - r0) / L) + height / L * (height / L) = 1 := by
    field_simp
    nlinarith
  have hκ : 0 ≤ L * (1 - 2 * round / height) := by
    have : 2 * round / height ≤ 1 := by rw [div_le_one hh]; exact hhr
    have : 0 ≤ 1 - 2 * round / height := by linarith
    positivity
  have hl : (Must3.coneData height r0 r1 round).l = L * (1 - 2 * round / height) := by
    unfold Must3.coneData
    dsimp only
    rw [hu]
    refine V2.norm_eq_of hκ ?_
    simp only [V2.sub]
    have a1 : r1 - (1 - -((r1 - r0) / L)) * (round / (height / L)) - (r0 - (1 + -((r1 - r0) / L)) * (round / (height / L))) =
        L * (1 - 2 * round / height) * ((r1 - r0) / L) := by
      field_simp
      ring
    have a2 : height / 2 - round - -(height / 2 - round) = L * (1 - 2 * round / height) * (height / L) := by
      field_simp
      ring
    rw [a1, a2]
    linear_combination (L * (1 - 2 * round / height)) ^ 2 * e1
  refine ⟨?_, ?_, ?_, ?_, ?_, ?_, ?_⟩
  · simp only [Must3.coneData, hu]
    exact e1
  · simp only [Must3.coneData, hu]
    positivity
  · rfl
  · rfl
  · rw [hl]
    exact hκ
  · rw [hl]
    simp only [Must3.coneData, hu]
    field_simp
    ring
  · rw [hl]
    simp only [Must3.coneData, hu]
    field_simp

/-- What the value says at each point of the half plane: there is a supporting line of the region beyond which the point is by just
the value; and the region comes as near as the value, or contains the whole disc of that radius. -/
theorem cone_cases {s : Must3.ConeData} (hs : Frustum s) (p : V2) :
    (∃ w k : V2, V2.norm w = 1 ∧ 0 ≤ w.x ∧ (∀ q, ConeRegion s q → V2.dot w (V2.sub q k) ≤ 0) ∧
      Must3.coneEval2 s p + s.round = V2.dot w (V2.sub p k)) ∧
    ((0 ≤ Must3.coneEval2 s p + s.round ∧ ∃ k, ConeRegion s k ∧ V2.dist p k = Must3.coneEval2 s p + s.round ∧
        (0 ≤ p.x → 0 ≤ s.r0 → 0 ≤ s.r1 → 0 ≤ k.x)) ∨
      (Must3.coneEval2 s p + s.round < 0 ∧ ∀ q, V2.dist p q ≤ -(Must3.coneEval2 s p + s.round) → ConeRegion s q)) := by
  obtain ⟨hu, hup, hnx, hny, hl, htop, hhigh⟩ := hs
  have hh0 : 0 ≤ s.height := by nlinarith [mul_nonneg hl hup.le]
  have hlu : 0 ≤ s.l * s.u.y := mul_nonneg hl hup.le
  -- the region in coordinates
  have hK : ∀ q, ConeRegion s q ↔ (-s.height ≤ q.y ∧ q.y ≤ s.height) ∧ (q.x - s.r0) * s.u.y - (q.y + s.height) * s.u.x ≤ 0 := by
    intro q
    unfold ConeRegion
    rw [abs_le]
    simp only [V2.dot, V2.sub, hnx, hny]
    constructor
    · rintro ⟨h1, h2⟩
      exact ⟨h1, by linarith⟩
    · rintro ⟨h1, h2⟩
      exact ⟨h1, by linarith⟩
  have hxle : ∀ q, ConeRegion s q → (q.x - s.r0) * s.u.y ≤ (q.y + s.height) * s.u.x := fun q hq => by
    have := ((hK q).1 hq).2
    linarith
  have hE : Must3.coneEval2 s p =
      if p.y ≥ s.height ∧ p.x ≤ s.r1 then p.y - s.height - s.round
      else if p.y ≤ -s.height ∧ p.x ≤ s.r0 then -p.y - s.height - s.round
      else if (p.x - s.r0) * s.u.y + (p.y - -s.height) * -s.u.x < 0 ∧ |p.y| < s.height then
        -min (-((p.x - s.r0) * s.u.y + (p.y - -s.height) * -s.u.x)) (s.height - |p.y|) - s.round
      else if (p.x - s.r0) * s.u.x + (p.y - -s.height) * s.u.y ≥ 0 ∧ (p.x - s.r0) * s.u.x + (p.y - -s.height) * s.u.y ≤ s.l then
        (p.x - s.r0) * s.u.y + (p.y - -s.height) * -s.u.x - s.round
      else if (p.x - s.r0) * s.u.x + (p.y - -s.height) * s.u.y < 0 then V2.norm ⟨p.x - s.r0, p.y - -s.height⟩ - s.round
      else V2.norm ⟨p.x - s.r1, p.y - s.height⟩ - s.round := by
    have hn : s.n = ⟨s.u.y, -s.u.x⟩ := by
      ext
      · exact hnx
      · exact hny
    unfold Must3.coneEval2
    rw [hn]
    rfl
  rw [hE]
  simp only [V2.dot, V2.sub]
  by_cases c1 : p.y ≥ s.height ∧ p.x ≤ s.r1
  · rw [if_pos c1]
    obtain ⟨h1, h2⟩ := c1
    refine ⟨⟨⟨0, 1⟩, ⟨p.x, s.height⟩, V2.norm_eq_of zero_le_one (by simp), le_rfl, ?_, ?_⟩, Or.inl ⟨by linarith, ⟨p.x, s.height⟩, ?_, ?_, ?_⟩⟩
    · intro q hq
      have := ((hK q).1 hq).1.2
      linarith
    · simp
    · rw [hK]
      refine ⟨⟨by simp only; linarith, le_rfl⟩, ?_⟩
      simp only
      have e : s.height + s.height = s.l * s.u.y := by linarith
      have h3 := mul_nonneg (sub_nonneg.2 h2) hup.le
      rw [e]
      rw [htop] at h3
      linarith
    · unfold V2.dist
      refine V2.norm_eq_of (by linarith) ?_
      simp only [V2.sub]
      ring
    · intro h _ _
      exact h
  rw [if_neg c1]
  by_cases c2 : p.y ≤ -s.height ∧ p.x ≤ s.r0
  · rw [if_pos c2]
    obtain ⟨h1, h2⟩ := c2
    refine ⟨⟨⟨0, -1⟩, ⟨p.x, -s.height⟩, V2.norm_eq_of zero_le_one (by simp), le_rfl, ?_, ?_⟩, Or.inl ⟨by linarith, ⟨p.x, -s.height⟩, ?_, ?_, ?_⟩⟩
    · intro q hq
      have := ((hK q).1 hq).1.1
      linarith
    · simp only
      ring
    · rw [hK]
      refine ⟨⟨le_rfl, by simp only; linarith⟩, ?_⟩
      simp only
      nlinarith
    · unfold V2.dist
      refine V2.norm_eq_of (by linarith) ?_
      simp only [V2.sub]
      ring
    · intro h _ _
      exact h
  rw [if_neg c2]
  set dS := (p.x - s.r0) * s.u.y + (p.y - -s.height) * -s.u.x with hdS
  set t := (p.x - s.r0) * s.u.x + (p.y - -s.height) * s.u.y with ht
  by_cases c3 : dS < 0 ∧ |p.y| < s.height
  · rw [if_pos c3]
    obtain ⟨h1, h2⟩ := c3
    have hy := abs_lt.1 h2
    have ewy : ∀ q, V2.dist p q ≤ min (-dS) (s.height - |p.y|) → ConeRegion s q := by
      intro q hq
      have q1 : V2.dist p q ≤ -dS := hq.trans (min_le_left _ _)
      have q2 : V2.dist p q ≤ s.height - |p.y| := hq.trans (min_le_right _ _)
      have y1 := V2.abs_y_le (V2.sub p q)
      have y2 : |p.y - q.y| ≤ s.height - |p.y| := le_trans y1 q2
      have d1 : V2.dot ⟨s.u.y, -s.u.x⟩ (V2.sub q p) ≤ V2.norm ⟨s.u.y, -s.u.x⟩ * V2.norm (V2.sub q p) := V2.dot_le _ _
      rw [V2.norm_eq_of (a := ⟨s.u.y, -s.u.x⟩) zero_le_one (by simp only; linarith), one_mul] at d1
      have d2 : V2.norm (V2.sub q p) ≤ -dS := by
        rw [V2.norm_neg_sub]; exact q1
      simp only [V2.dot, V2.sub] at d1 d2
      rw [hK]
      have a1 := abs_le.1 y2
      have a2 := le_abs_self p.y
      have a3 := neg_abs_le p.y
      refine ⟨⟨by linarith, by linarith⟩, ?_⟩
      rw [hdS] at d2
      nlinarith
    have hneg : -min (-dS) (s.height - |p.y|) - s.round + s.round < 0 := by
      have : 0 < min (-dS) (s.height - |p.y|) := lt_min (by linarith) (by linarith)
      linarith
    refine ⟨?_, Or.inr ⟨hneg, fun q hq => ewy q (by linarith)⟩⟩
    rcases le_total (-dS) (s.height - |p.y|) with hm | hm
    · rw [min_eq_left hm]
      refine ⟨⟨s.u.y, -s.u.x⟩, ⟨s.r0, -s.height⟩, V2.norm_eq_of zero_le_one (by simp only; linarith), hup.le, ?_, ?_⟩
      · intro q hq
        have := hxle q hq
        simp only
        linarith
      · simp only
        rw [hdS]
        ring
    · rw [min_eq_right hm]
      rcases le_total 0 p.y with hp | hp
      · rw [abs_of_nonneg hp]
        refine ⟨⟨0, 1⟩, ⟨p.x, s.height⟩, V2.norm_eq_of zero_le_one (by simp), le_rfl, ?_, ?_⟩
        · intro q hq
          have := ((hK q).1 hq).1.2
          linarith
        · simp
      · rw [abs_of_nonpos hp]
        refine ⟨⟨0, -1⟩, ⟨p.x, -s.height⟩, V2.norm_eq_of zero_le_one (by simp), le_rfl, ?_, ?_⟩
        · intro q hq
          have := ((hK q).1 hq).1.1
          linarith
        · simp only
          ring
  rw [if_neg c3]
  -- outside: where the point is
  have n1 : s.height ≤ p.y → s.r1 < p.x := fun h => by
    by_contra hc
    exact c1 ⟨h, not_lt.1 hc⟩
  have n2 : p.y ≤ -s.height → s.r0 < p.x := fun h => by
    by_contra hc
    exact c2 ⟨h, not_lt.1 hc⟩
  have n3 : dS < 0 → s.height ≤ p.y ∨ p.y ≤ -s.height := fun h => by
    by_contra hc
    rw [not_or, not_le, not_le] at hc
    exact c3 ⟨h, abs_lt.2 ⟨by linarith, hc.1⟩⟩
  by_cases c4 : t ≥ 0 ∧ t ≤ s.l
  · rw [if_pos c4]
    obtain ⟨t0, t1⟩ := c4
    have hd : 0 ≤ dS := by
      by_contra hc
      rw [not_le] at hc
      rcases n3 hc with h | h
      · have := n1 h
        have hux : 0 < s.u.x := by
          by_contra hx
          rw [not_lt] at hx
          have : 0 < (p.x - s.r1) * s.u.y := mul_pos (by linarith) hup
          have : 0 ≤ (p.y - s.height) * -s.u.x := mul_nonneg (by linarith) (by linarith)
          rw [hdS, htop] at *
          nlinarith
        have : 0 < (p.x - s.r1) * s.u.x := mul_pos (by linarith) hux
        have : 0 ≤ (p.y - s.height) * s.u.y := mul_nonneg (by linarith) hup.le
        rw [ht] at t1
        rw [htop] at *
        nlinarith
      · have := n2 h
        have hux : s.u.x < 0 := by
          by_contra hx
          rw [not_lt] at hx
          have : 0 < (p.x - s.r0) * s.u.y := mul_pos (by linarith) hup
          have : 0 ≤ (-s.height - p.y) * s.u.x := mul_nonneg (by linarith) hx
          rw [hdS] at hc
          nlinarith
        have : 0 < (p.x - s.r0) * -s.u.x := mul_pos (by linarith) (by linarith)
        have : 0 ≤ (-s.height - p.y) * s.u.y := mul_nonneg (by linarith) hup.le
        rw [ht] at t0
        nlinarith
    refine ⟨⟨⟨s.u.y, -s.u.x⟩, ⟨s.r0, -s.height⟩, V2.norm_eq_of zero_le_one (by simp only; linarith), hup.le, ?_, ?_⟩,
      Or.inl ⟨by linarith, ⟨s.r0 + t * s.u.x, -s.height + t * s.u.y⟩, ?_, ?_, ?_⟩⟩
    · intro q hq
      have := hxle q hq
      simp only
      linarith
    · simp only
      rw [hdS]
      ring
    · rw [hK]
      have : 0 ≤ t * s.u.y := mul_nonneg t0 hup.le
      have : t * s.u.y ≤ s.l * s.u.y := mul_le_mul_of_nonneg_right t1 hup.le
      refine ⟨⟨by simp only; linarith, by simp only; linarith⟩, ?_⟩
      simp only
      apply le_of_eq
      ring
    · unfold V2.dist
      refine V2.norm_eq_of (by linarith) ?_
      simp only [V2.sub]
      rw [ht, hdS]
      linear_combination (((p.x - s.r0) * s.u.x + (p.y + s.height) * s.u.y) ^ 2 - (p.x - s.r0) ^ 2 - (p.y + s.height) ^ 2) * hu
    · intro _ h0 h1
      simp only
      rw [htop] at h1
      rcases le_total 0 s.u.x with hx | hx
      · have := mul_nonneg t0 hx
        linarith
      · have := mul_le_mul_of_nonpos_right t1 hx
        linarith
  rw [if_neg c4]
  by_cases c5 : t < 0
  · rw [if_pos c5]
    have ha : 0 ≤ p.x - s.r0 := by
      by_contra hc
      rw [not_le] at hc
      have hb : -s.height < p.y := by
        by_contra h
        have := n2 (not_lt.1 h)
        linarith
      have hbu : 0 < (p.y + s.height) * s.u.y := mul_pos (by linarith) hup
      have hux : 0 < s.u.x := by
        by_contra h
        have := mul_nonneg_of_nonpos_of_nonpos hc.le (not_lt.1 h)
        rw [ht] at c5
        linarith
      have hd : dS < 0 := by
        have : 0 < (p.y + s.height) * s.u.x := mul_pos (by linarith) hux
        have : (p.x - s.r0) * s.u.y < 0 := mul_neg_of_neg_of_pos hc hup
        rw [hdS]
        linarith
      rcases n3 hd with h | h
      · have := n1 h
        have := mul_nonneg hl hux.le
        linarith
      · linarith
    have hv : V2.mk (p.x - s.r0) (p.y - -s.height) ≠ ⟨0, 0⟩ := by
      intro e
      have e1 := congrArg V2.x e
      have e2 := congrArg V2.y e
      simp only at e1 e2
      rw [ht, e1, e2] at c5
      simp at c5
    have hN := V2.norm_pos hv
    have hNs := V2.norm_sq ⟨p.x - s.r0, p.y - -s.height⟩
    set N := V2.norm ⟨p.x - s.r0, p.y - -s.height⟩ with hNd
    simp only at hNs
    refine ⟨⟨⟨(p.x - s.r0) / N, (p.y - -s.height) / N⟩, ⟨s.r0, -s.height⟩, V2.norm_eq_of zero_le_one ?_, by positivity, ?_, ?_⟩,
      Or.inl ⟨by rw [sub_add_cancel]; exact hN.le, ⟨s.r0, -s.height⟩, ?_, ?_, ?_⟩⟩
    · simp only
      field_simp
      linarith
    · intro q hq
      have h1 := ((hK q).1 hq).1.1
      have h2 := hxle q hq
      have key : ((p.x - s.r0) * (q.x - s.r0) + (p.y - -s.height) * (q.y - -s.height)) * s.u.y ≤ 0 := by
        have k1 := mul_le_mul_of_nonneg_left h2 ha
        have k2 : (q.y + s.height) * t ≤ 0 := mul_nonpos_of_nonneg_of_nonpos (by linarith) c5.le
        rw [ht] at k2
        linarith
      have key2 : (p.x - s.r0) * (q.x - s.r0) + (p.y - -s.height) * (q.y - -s.height) ≤ 0 := by
        by_contra h
        have := mul_pos (not_le.1 h) hup
        linarith
      have e : (p.x - s.r0) / N * (q.x - s.r0) + (p.y - -s.height) / N * (q.y - -s.height) =
        ((p.x - s.r0) * (q.x - s.r0) + (p.y - -s.height) * (q.y - -s.height)) / N := by ring
      simp only
      rw [e]
      exact div_nonpos_of_nonpos_of_nonneg key2 hN.le
    · simp only
      field_simp
      linarith
    · rw [hK]
      refine ⟨⟨le_rfl, by simp only; linarith⟩, ?_⟩
      simp
    · unfold V2.dist
      simp only [V2.sub]
      rw [← hNd]
      ring
    · intro _ h _
      exact h
  · rw [if_neg c5]
    have ht1 : s.l < t := by
      by_contra h
      exact c4 ⟨not_lt.1 c5, not_lt.1 h⟩
    have ety : (p.x - s.r1) * s.u.x + (p.y - s.height) * s.u.y = t - s.l := by
      rw [ht, htop]
      linear_combination (-s.l) * hu - s.u.y * hhigh
    have ha : 0 ≤ p.x - s.r1 := by
      by_contra hc
      rw [not_le] at hc
      have hb : p.y < s.height := by
        by_contra h
        have := n1 (not_lt.1 h)
        linarith
      have hbu : 0 < (s.height - p.y) * s.u.y := mul_pos (by linarith) hup
      have hux : s.u.x < 0 := by
        by_contra h
        have := mul_nonneg (neg_nonneg.2 hc.le) (not_lt.1 h)
        linarith
      have hd : dS < 0 := by
        have h1 : 0 < (s.height - p.y) * -s.u.x := mul_pos (by linarith) (by linarith)
        have h2 : (p.x - s.r1) * s.u.y < 0 := mul_neg_of_neg_of_pos hc hup
        have e : dS = (p.x - s.r1) * s.u.y + (p.y - s.height) * -s.u.x := by
          rw [hdS, htop]
          linear_combination (-s.u.x) * hhigh
        rw [e]
        linarith
      rcases n3 hd with h | h
      · linarith
      · have := n2 h
        have := mul_nonneg hl (neg_nonneg.2 hux.le)
        linarith
    have hv : V2.mk (p.x - s.r1) (p.y - s.height) ≠ ⟨0, 0⟩ := by
      intro e
      have e1 := congrArg V2.x e
      have e2 := congrArg V2.y e
      simp only at e1 e2
      rw [e1, e2] at ety
      linarith
    have hN := V2.norm_pos hv
    have hNs := V2.norm_sq ⟨p.x - s.r1, p.y - s.height⟩
    set N := V2.norm ⟨p.x - s.r1, p.y - s.height⟩ with hNd
    simp only at hNs
    refine ⟨⟨⟨(p.x - s.r1) / N, (p.y - s.height) / N⟩, ⟨s.r1, s.height⟩, V2.norm_eq_of zero_le_one ?_, by positivity, ?_, ?_⟩,
      Or.inl ⟨by rw [sub_add_cancel]; exact hN.le, ⟨s.r1, s.height⟩, ?_, ?_, ?_⟩⟩
    · simp only
      field_simp
      linarith
    · intro q hq
      have h1 := ((hK q).1 hq).1.2
      have h2 := hxle q hq
      have key : ((p.x - s.r1) * (q.x - s.r1) + (p.y - s.height) * (q.y - s.height)) * s.u.y ≤ 0 := by
        have h3 : (q.x - s.r1) * s.u.y ≤ (q.y - s.height) * s.u.x := by
          have e : (q.x - s.r1) * s.u.y - (q.y - s.height) * s.u.x = (q.x - s.r0) * s.u.y - (q.y + s.height) * s.u.x := by
            rw [htop]
            linear_combination s.u.x * hhigh
          linarith
        have k1 := mul_le_mul_of_nonneg_left h3 ha
        have k2 : (s.height - q.y) * (t - s.l) ≥ 0 := mul_nonneg (by linarith) (by linarith)
        rw [← ety] at k2
        linarith
      have key2 : (p.x - s.r1) * (q.x - s.r1) + (p.y - s.height) * (q.y - s.height) ≤ 0 := by
        by_contra h
        have := mul_pos (not_le.1 h) hup
        linarith
      have e : (p.x - s.r1) / N * (q.x - s.r1) + (p.y - s.height) / N * (q.y - s.height) =
        ((p.x - s.r1) * (q.x - s.r1) + (p.y - s.height) * (q.y - s.height)) / N := by ring
      simp only
      rw [e]
      exact div_nonpos_of_nonpos_of_nonneg key2 hN.le
    · simp only
      field_simp
      linarith
    · rw [hK]
      refine ⟨⟨by simp only; linarith, le_rfl⟩, ?_⟩
      simp only
      apply le_of_eq
      rw [htop]
      linear_combination (-s.u.x) * hhigh
    · unfold V2.dist
      simp only [V2.sub]
      rw [← hNd]
      ring
    · intro _ _ h
      exact h

/-- Beyond a supporting line of the region the value is at least the distance to that line. -/
theorem cone_low {s : Must3.ConeData} (hs : Frustum s) {w k : V2} (hw : V2.norm w = 1)
    (hsup : ∀ q, ConeRegion s q → V2.dot w (V2.sub q k) ≤ 0) (q : V2) : V2.dot w (V2.sub q k) ≤ Must3.coneEval2 s q + s.round := by
  obtain ⟨-, hq⟩ := cone_cases hs q
  have hcs : ∀ a b : V2, V2.dot w (V2.sub a b) ≤ V2.dist a b := by
    intro a b
    have := V2.dot_le w (V2.sub a b)
    rwa [hw, one_mul] at this
  have hsplit : ∀ a b c : V2, V2.dot w (V2.sub a c) = V2.dot w (V2.sub a b) + V2.dot w (V2.sub b c) := by
    intro a b c
    simp only [V2.dot, V2.sub]
    ring
  rcases hq with ⟨-, k', hk', hd, -⟩ | ⟨hneg, hball⟩
  · rw [hsplit q k' k, ← hd]
    have := hsup k' hk'
    have := hcs q k'
    linarith
  · set d := -(Must3.coneEval2 s q + s.round) with hdd
    have hd0 : 0 ≤ d := by linarith
    have := hsup _ (hball (V2.add q (V2.scale d w)) (by
      unfold V2.dist
      have e : V2.sub q (V2.add q (V2.scale d w)) = V2.scale (-d) w := by ext <;> simp [V2.sub, V2.add, V2.scale]
      rw [e, V2.norm_scale, hw, abs_neg, abs_of_nonneg hd0, mul_one]))
    have hw2 := V2.norm_sq w
    rw [hw] at hw2
    have e : V2.dot w (V2.sub (V2.add q (V2.scale d w)) k) = V2.dot w (V2.sub q k) + d := by
      simp only [V2.dot, V2.sub, V2.add, V2.scale]
      linear_combination (-d) * hw2
    rw [e] at this
    linarith

/-- The value changes by at most the distance moved. -/
theorem cone_lip {s : Must3.ConeData} (hs : Frustum s) : Lip2 fun p => Must3.coneEval2 s p + s.round := by
  have half : ∀ p q, Must3.coneEval2 s p + s.round - (Must3.coneEval2 s q + s.round) ≤ V2.dist p q := by
    intro p q
    obtain ⟨⟨w, k, hw, -, hsup, hval⟩, -⟩ := cone_cases hs p
    have low := cone_low hs hw hsup q
    have hcs := V2.dot_le w (V2.sub p q)
    rw [hw, one_mul] at hcs
    have hsplit : V2.dot w (V2.sub p k) = V2.dot w (V2.sub p q) + V2.dot w (V2.sub q k) := by
      simp only [V2.dot, V2.sub]
      ring
    rw [hval, hsplit]
    unfold V2.dist
    linarith
  intro p q
  rw [abs_le]
  have h1 := half p q
  have h2 := half q p
  rw [V2.dist_comm] at h2
  constructor <;> linarith

theorem cone_region {s : Must3.ConeData} (hs : Frustum s) (p : V2) : Must3.coneEval2 s p + s.round ≤ 0 ↔ ConeRegion s p := by
  obtain ⟨⟨w, k, hw, -, hsup, hval⟩, h⟩ := cone_cases hs p
  constructor
  · intro h0
    rcases h with ⟨h1, k', hk', hd, -⟩ | ⟨hneg, hball⟩
    · rw [le_antisymm h0 h1] at hd
      rw [V2.dist_eq_zero.1 hd]
      exact hk'
    · exact hball p (by rw [V2.dist_eq_zero.2 rfl]; linarith)
  · intro hK
    rw [hval]
    exact hsup p hK

/-- The value is below the rounding exactly strictly within the region. -/
theorem cone_inside {s : Must3.ConeData} (hs : Frustum s) (p : V2) :
    Must3.coneEval2 s p + s.round < 0 ↔ |p.y| < s.height ∧ V2.dot (V2.sub p ⟨s.r0, -s.height⟩) s.n < 0 := by
  constructor
  · intro h
    obtain ⟨-, ⟨h0, -⟩ | ⟨hneg, hball⟩⟩ := cone_cases hs p
    · linarith
    · set d := -(Must3.coneEval2 s p + s.round) with hd
      have hd0 : 0 < d := by linarith
      have hn : s.n.x * s.n.x + s.n.y * s.n.y = 1 := by
        rw [hs.nx, hs.ny]
        linarith [hs.unit]
      have b1 := (hball ⟨p.x + d * s.n.x, p.y + d * s.n.y⟩ (by
        unfold V2.dist
        refine V2.norm_le_of hd0.le ?_
        simp only [V2.sub]
        nlinarith)).2
      have b2 := (hball ⟨p.x, p.y + d⟩ (by
        unfold V2.dist
        refine V2.norm_le_of hd0.le ?_
        simp only [V2.sub]
        nlinarith)).1
      have b3 := (hball ⟨p.x, p.y - d⟩ (by
        unfold V2.dist
        refine V2.norm_le_of hd0.le ?_
        simp only [V2.sub]
        nlinarith)).1
      rw [abs_le] at b2 b3
      simp only [V2.dot, V2.sub] at b1 b2 b3 ⊢
      refine ⟨abs_lt.2 ⟨by linarith, by linarith⟩, ?_⟩
      nlinarith
  · rintro ⟨h1, h2⟩
    have hy := abs_lt.1 h1
    unfold Must3.coneEval2
    rw [if_neg (fun h => absurd h.1 (not_le.2 hy.2)), if_neg (fun h => absurd h.1 (not_le.2 hy.1))]
    simp only
    rw [if_pos ⟨h2, h1⟩]
    have : 0 < min (-V2.dot (V2.sub p ⟨s.r0, -s.height⟩) s.n) (s.height - |p.y|) := lt_min (by linarith) (by linarith)
    linarith

/-- The region does not reach beyond the larger of the two radii. -/
theorem cone_width {s : Must3.ConeData} (hs : Frustum s) {q : V2} (hq : ConeRegion s q) : q.x ≤ max s.r0 s.r1 := by
  obtain ⟨hu, hup, hnx, hny, hl, htop, hhigh⟩ := hs
  obtain ⟨h1, h2⟩ := hq
  have hy := abs_le.1 h1
  simp only [V2.dot, V2.sub, hnx, hny] at h2
  rcases le_total 0 s.u.x with hx | hx
  · refine le_trans ?_ (le_max_right _ _)
    have a : (q.y + s.height) * s.u.x ≤ s.l * s.u.y * s.u.x := mul_le_mul_of_nonneg_right (by linarith) hx
    rw [htop]
    by_contra hc
    have := mul_pos (sub_pos.2 (not_le.1 hc)) hup
    linarith
  · refine le_trans ?_ (le_max_left _ _)
    have a : (q.y + s.height) * s.u.x ≤ 0 := mul_nonpos_of_nonneg_of_nonpos (by linarith) hx
    by_contra hc
    have := mul_pos (sub_pos.2 (not_le.1 hc)) hup
    linarith

/-- Every level is met at the distance the values promise, without leaving the half plane. -/
theorem cone_level {s : Must3.ConeData} (hs : Frustum s) (h0 : 0 ≤ s.r0) (h1 : 0 ≤ s.r1) {c : ℝ} (hc : 0 ≤ c) {p : V2} (hp : 0 ≤ p.x) :
    ∃ q : V2, 0 ≤ q.x ∧ Must3.coneEval2 s q + s.round = c ∧ V2.dist p q = |Must3.coneEval2 s p + s.round - c| := by
  obtain ⟨⟨w, k, hw, hwx, hsup, hval⟩, h⟩ := cone_cases hs p
  have hl := cone_lip hs
  set a := Must3.coneEval2 s p + s.round with ha
  rcases le_or_gt a c with hac | hac
  · have hd : V2.dist p (V2.add p (V2.scale (c - a) w)) = |a - c| := by
      unfold V2.dist
      have e : V2.sub p (V2.add p (V2.scale (c - a) w)) = V2.scale (a - c) w := by
        ext <;> simp only [V2.sub, V2.add, V2.scale] <;> ring
      rw [e, V2.norm_scale, hw, mul_one]
    refine ⟨V2.add p (V2.scale (c - a) w), ?_, ?_, hd⟩
    · simp only [V2.add, V2.scale]
      have := mul_nonneg (sub_nonneg.2 hac) hwx
      linarith
    · have h2 := hl p (V2.add p (V2.scale (c - a) w))
      rw [hd, abs_of_nonpos (sub_nonpos.2 hac)] at h2
      have h3 := (abs_le.1 h2).1
      have low : c ≤ Must3.coneEval2 s (V2.add p (V2.scale (c - a) w)) + s.round := by
        have hw2 := V2.norm_sq w
        rw [hw] at hw2
        have e : V2.dot w (V2.sub (V2.add p (V2.scale (c - a) w)) k) = c := by
          have : V2.dot w (V2.sub (V2.add p (V2.scale (c - a) w)) k) = V2.dot w (V2.sub p k) + (c - a) := by
            simp only [V2.dot, V2.sub, V2.add, V2.scale]
            linear_combination (a - c) * hw2
          rw [this, ← hval]
          ring
        have := cone_low hs hw hsup (V2.add p (V2.scale (c - a) w))
        rwa [e] at this
      linarith
  · rcases h with ⟨h2, k', hk', hd, hkx⟩ | ⟨hneg, -⟩
    · have hapos : 0 < a := by linarith
      have hf0 := (cone_region hs k').2 hk'
      have e1 : V2.sub p (V2.add p (V2.scale ((a - c) / a) (V2.sub k' p))) = V2.scale ((a - c) / a) (V2.sub p k') := by
        ext <;> simp only [V2.sub, V2.add, V2.scale] <;> ring
      have e2 : V2.sub (V2.add p (V2.scale ((a - c) / a) (V2.sub k' p))) k' = V2.scale (c / a) (V2.sub p k') := by
        ext <;> simp only [V2.sub, V2.add, V2.scale] <;> field_simp <;> ring
      have d1 : V2.dist p (V2.add p (V2.scale ((a - c) / a) (V2.sub k' p))) = a - c := by
        unfold V2.dist
        rw [e1, V2.norm_scale, abs_of_nonneg (div_nonneg (by linarith) hapos.le)]
        unfold V2.dist at hd
        rw [hd]
        field_simp
      have d2 : V2.dist (V2.add p (V2.scale ((a - c) / a) (V2.sub k' p))) k' = c := by
        unfold V2.dist
        rw [e2, V2.norm_scale, abs_of_nonneg (div_nonneg hc hapos.le)]
        unfold V2.dist at hd
        rw [hd]
        field_simp
      refine ⟨V2.add p (V2.scale ((a - c) / a) (V2.sub k' p)), ?_, ?_, ?_⟩
      · have hk := hkx hp h0 h1
        have e3 : (V2.add p (V2.scale ((a - c) / a) (V2.sub k' p))).x = c / a * p.x + (a - c) / a * k'.x := by
          simp only [V2.add, V2.scale, V2.sub]
          field_simp
          ring
        rw [e3]
        have : 0 ≤ c / a := div_nonneg hc hapos.le
        have : 0 ≤ (a - c) / a := div_nonneg (by linarith) hapos.le
        positivity
      · have l1 := (abs_le.1 (hl p (V2.add p (V2.scale ((a - c) / a) (V2.sub k' p))))).2
        have l2 := (abs_le.1 (hl (V2.add p (V2.scale ((a - c) / a) (V2.sub k' p))) k')).2
        rw [d1] at l1
        rw [d2] at l2
        apply le_antisymm
        · linarith
        · linarith
      · rw [d1, abs_of_pos (by linarith)]
    · linarith

end Sdf
