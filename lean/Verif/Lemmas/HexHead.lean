import Verif.Props.C59Nagon
import Verif.Lemmas.Mating

/-! Lemmas for C60 and C61: the rounded hexagon of heads and nuts. -/

namespace Sdf
open Polygon Must2 Thread

/-- A regular polygon grown by `c` with round corners. -/
theorem grown_nagon {n : ℕ} (hn : 3 ≤ n) {ρ c : ℝ} (hρ : 1 / 10 ^ 9 < ρ * Real.sin (2 * Real.pi / n)) (hc : 0 < c) {v : List V2} {s : SDF2}
    (hv : Must2.nagon n ρ = some v) (hs : Must2.polygon v = some s) (p : V2) :
    (V2.norm p < apothem n ρ + c → (s.offset c).Inside p) ∧
    (c * c ≤ maxFloat64 → (s.offset c).Inside p → (∀ i, towardSide n i p < apothem n ρ + c) ∧ V2.norm p < ρ + c) := by
  have hn' : (3 : ℤ) ≤ n := by exact_mod_cast hn
  have hform := C33_nagon_partial n ρ hn'
  simp only [Form2.nagon, hv, Int.toNat_natCast, Int.cast_natCast, Option.some.injEq, Returned.mk.injEq, and_true] at hform
  have hvc : v = corners n ρ := hform
  obtain ⟨v', s', h1, -, hnorm, h2, hL, hin⟩ := C59_nagon n ρ hn' (by exact_mod_cast hρ)
  simp only [Form2.nagon, hv, Option.some.injEq, Returned.mk.injEq, and_true] at h1
  subst h1
  rw [hs] at h2
  cases h2
  simp only [Int.toNat_natCast] at hin
  have hprop := corners_proper hn hρ
  rw [← hvc] at hprop
  have h3 : (3 : ℝ) ≤ n := by exact_mod_cast hn
  have hn0 : (0 : ℝ) < n := by linarith
  have hpi := Real.pi_pos
  have hsin : 0 < Real.sin (2 * Real.pi / n) :=
    Real.sin_pos_of_pos_of_lt_pi (by positivity) (by rw [div_lt_iff₀ hn0]; nlinarith)
  have hr0 : 0 < ρ := pos_of_mul_pos_left (lt_trans (by norm_num) hρ) hsin.le
  have hcos : 0 < Real.cos (Real.pi / n) := by
    refine Real.cos_pos_of_mem_Ioo ⟨by have : 0 < Real.pi / n := by positivity
                                       linarith, ?_⟩
    rw [div_lt_iff₀ hn0]; nlinarith
  have hap : 0 < apothem n ρ := mul_pos hr0 hcos
  have hap1 : apothem n ρ ≤ ρ := mul_le_of_le_one_right hr0.le (Real.cos_le_one _)
  have hoff : (s.offset c).Inside p ↔ s.eval p < c := by
    unfold SDF2.Inside SDF2.offset
    simp only [sub_neg]
  rw [hoff]
  have hN0 : 0 ≤ V2.norm p := Real.sqrt_nonneg _
  constructor
  · intro hp
    by_cases hsm : V2.norm p < apothem n ρ
    · exact lt_trans ((hin p).1.mpr ((C59_circles n ρ hn p).1 hsm)) hc
    push Not at hsm
    have hN : 0 < V2.norm p := lt_of_lt_of_le hap hsm
    -- the point at a slightly smaller distance than the apothem, in the same direction
    obtain ⟨d, d0, d1, hd⟩ : ∃ d, 0 < d ∧ d < apothem n ρ ∧ V2.norm p - d < c := by
      refine ⟨max (apothem n ρ / 2) ((V2.norm p - c + apothem n ρ) / 2), lt_max_of_lt_left (by linarith), max_lt (by linarith) (by linarith), ?_⟩
      have := le_max_right (apothem n ρ / 2) ((V2.norm p - c + apothem n ρ) / 2)
      linarith
    set q := V2.scale (d / V2.norm p) p with hq
    have hnq : V2.norm q = d := by
      rw [hq]
      have : V2.norm (V2.scale (d / V2.norm p) p) = d / V2.norm p * V2.norm p := by
        unfold V2.norm
        simp only [V2.scale]
        rw [show ∀ k : ℝ, k * p.x * (k * p.x) + k * p.y * (k * p.y) = k * k * (p.x * p.x + p.y * p.y) by intro k; ring,
          Real.sqrt_mul (mul_self_nonneg _), Real.sqrt_mul_self]
        exact div_nonneg d0.le (Real.sqrt_nonneg _)
      rw [this, div_mul_cancel₀ _ hN.ne']
    have hdist : V2.dist p q = V2.norm p - d := by
      have e : V2.sub p q = V2.scale (1 - d / V2.norm p) p := by
        rw [hq]; ext <;> simp only [V2.sub, V2.scale] <;> ring
      unfold V2.dist
      rw [e]
      have hk : 0 ≤ 1 - d / V2.norm p := by rw [sub_nonneg, div_le_one hN]; linarith
      have : V2.norm (V2.scale (1 - d / V2.norm p) p) = (1 - d / V2.norm p) * V2.norm p := by
        generalize 1 - d / V2.norm p = k at hk
        unfold V2.norm
        simp only [V2.scale]
        rw [show k * p.x * (k * p.x) + k * p.y * (k * p.y) = k * k * (p.x * p.x + p.y * p.y) by ring,
          Real.sqrt_mul (mul_self_nonneg _), Real.sqrt_mul_self hk]
      rw [this, sub_mul, one_mul, div_mul_cancel₀ _ hN.ne']
    have h4 := (hin q).1.mpr ((C59_circles n ρ hn q).1 (by rw [hnq]; exact d1))
    have h5 := (abs_le.mp (hL p q)).2
    rw [hdist] at h5
    linarith
  · intro hM hp
    constructor
    · intro i
      by_contra hcon
      push Not at hcon
      have := beyond_value hprop hs (n := ⟨Real.cos ((2 * i + 1) * (Real.pi / n)), Real.sin ((2 * i + 1) * (Real.pi / n))⟩) (c := apothem n ρ)
        (p := p) (fun w hw => by
          rw [hvc] at hw
          obtain ⟨j, -, rfl⟩ := List.mem_map.mp hw
          have := corner_le hn hr0.le i j
          unfold towardSide at this
          simp only [V2.dot]
          linarith)
        (by simp only [V2.dot]; linear_combination Real.sin_sq_add_cos_sq ((2 * i + 1) * (Real.pi / n))) hc hM
        (by unfold towardSide at hcon; simp only [V2.dot]; linarith)
      linarith
    · by_contra hcon
      push Not at hcon
      have hN : 0 < V2.norm p := by linarith
      have hpp : p.x * p.x + p.y * p.y = V2.norm p * V2.norm p := by
        unfold V2.norm
        rw [Real.mul_self_sqrt (add_nonneg (mul_self_nonneg _) (mul_self_nonneg _))]
      have hd : ∀ w : V2, V2.dot ⟨p.x / V2.norm p, p.y / V2.norm p⟩ w = (p.x * w.x + p.y * w.y) / V2.norm p := by
        intro w; simp only [V2.dot]; ring
      have := beyond_value hprop hs (n := ⟨p.x / V2.norm p, p.y / V2.norm p⟩) (c := ρ) (p := p) (fun w hw => by
          have hw1 := hnorm w hw
          have hww : w.x * w.x + w.y * w.y = ρ * ρ := by
            rw [← hw1]
            unfold V2.norm
            rw [Real.mul_self_sqrt (add_nonneg (mul_self_nonneg _) (mul_self_nonneg _))]
          rw [hd, div_le_iff₀ hN]
          refine le_trans (Real.le_sqrt_of_sq_le (y := ρ * V2.norm p * (ρ * V2.norm p)) ?_) (by rw [Real.sqrt_mul_self (by positivity)])
          have : ρ * V2.norm p * (ρ * V2.norm p) = (w.x * w.x + w.y * w.y) * (p.x * p.x + p.y * p.y) := by rw [hww, hpp]; ring
          rw [this]
          nlinarith [sq_nonneg (p.x * w.y - p.y * w.x)])
        (by rw [hd]; simp only; rw [show p.x * (p.x / V2.norm p) + p.y * (p.y / V2.norm p) = V2.norm p by
              field_simp; linear_combination hpp]
            exact div_self hN.ne') hc hM
        (by rw [hd, hpp, mul_div_assoc, div_self hN.ne', mul_one]; exact hcon)
      linarith

/-- Hexagonal heads: near the middle plane the spheres that round the top and bottom do not reach. -/
theorem hexHead_plane {r h : ℝ} (hr : 2 / 10 ^ 9 < r) (hh : h = 5 / 6 * r) {top : Bool} {s : SDF3} (hs : hexHead r h top = ⟨some s, false⟩)
    (x y : ℝ) :
    (V2.norm ⟨x, y⟩ < apothem 6 (r - r * 0.08) + r * 0.08 → s.Inside ⟨x, y, 0⟩) ∧
    (r * 0.08 * (r * 0.08) ≤ maxFloat64 → ∀ z, s.Inside ⟨x, y, z⟩ →
      (∀ i, towardSide 6 i ⟨x, y⟩ < apothem 6 (r - r * 0.08) + r * 0.08) ∧ V2.norm ⟨x, y⟩ < r) := by
  have hr0 : 0 < r := lt_trans (by norm_num) hr
  have h3 : Real.sqrt 3 * Real.sqrt 3 = 3 := Real.mul_self_sqrt (by norm_num)
  have h30 : 0 < Real.sqrt 3 := by positivity
  have h3a : 1.7 < Real.sqrt 3 := by norm_num; nlinarith
  have h3b : Real.sqrt 3 < 1.74 := by norm_num; nlinarith
  unfold hexHead at hs
  simp only at hs
  split at hs
  · cases hs
  rename_i v hv
  split at hs
  · cases hs
  rename_i hex hhex
  split at hs
  · cases hs
  rename_i sp hsp
  have key := grown_nagon (n := 6) (by norm_num) (ρ := r - r * 0.08) (c := r * 0.08)
    (by rw [show 2 * Real.pi / ((6 : ℕ) : ℝ) = Real.pi / 3 by push_cast; ring, Real.sin_pi_div_three]
        norm_num at hr h3a ⊢
        nlinarith) (by norm_num; exact hr0) (v := v) (s := hex) hv hhex
  have hap : apothem 6 (r - r * 0.08) + r * 0.08 < r := by
    unfold apothem
    rw [show Real.pi / ((6 : ℕ) : ℝ) = Real.pi / 6 by norm_num, Real.cos_pi_div_six]
    norm_num at h3b ⊢
    nlinarith
  have hsph : sp.eval = fun p => V3.norm p - r * 1.6 := by
    unfold Must3.sphere at hsp
    rw [if_neg (by norm_num; exact hr0)] at hsp
    cases hsp; rfl
  have hin2 : (SDF3.extrude (hex.offset (r * 0.08)) h).Inside ⟨x, y, 0⟩ ↔ (hex.offset (r * 0.08)).Inside ⟨x, y⟩ := by
    rw [C26_extrude]
    simp only [abs_zero]
    exact ⟨fun h => h.2, fun h => ⟨by rw [hh]; positivity, h⟩⟩
  -- the spheres contain the disc of radius r in the middle plane
  have hsphere : ∀ k : ℝ, (k = -(Real.sqrt (r * 1.6 * (r * 1.6) - r * Real.cos (30.0 * Real.pi / 180.0) * (r * Real.cos (30.0 * Real.pi / 180.0))) - h / 2) ∨
      k = Real.sqrt (r * 1.6 * (r * 1.6) - r * Real.cos (30.0 * Real.pi / 180.0) * (r * Real.cos (30.0 * Real.pi / 180.0))) - h / 2) →
      V2.norm ⟨x, y⟩ < r → (sp.transform (M44.translate ⟨0, 0, k⟩)).Inside ⟨x, y, 0⟩ := by
    intro k hk hnr
    rw [translate3_inside]
    refine ⟨⟨x, y, -k⟩, ?_, by ext <;> simp [V3.add]⟩
    unfold SDF3.Inside
    rw [hsph]
    simp only [sub_neg]
    unfold V3.norm
    rw [Real.sqrt_lt' (by norm_num; exact hr0)]
    simp only
    have hxy : x * x + y * y < r * r := by
      have := mul_self_lt_mul_self (Real.sqrt_nonneg _) hnr
      simp only at this
      rwa [Real.mul_self_sqrt (by nlinarith [mul_self_nonneg x, mul_self_nonneg y])] at this
    rw [show (30.0 : ℝ) * Real.pi / 180.0 = Real.pi / 6 by norm_num; ring, Real.cos_pi_div_six] at hk
    set w := Real.sqrt (r * 1.6 * (r * 1.6) - r * (Real.sqrt 3 / 2) * (r * (Real.sqrt 3 / 2))) with hw
    have hw1 : r * 1.6 * (r * 1.6) - r * (Real.sqrt 3 / 2) * (r * (Real.sqrt 3 / 2)) = 1.81 * (r * r) := by
      norm_num
      linear_combination (-(r * r / 4)) * h3
    have hw2 : w * w = 1.81 * (r * r) := by
      rw [hw, hw1, Real.mul_self_sqrt (by norm_num; positivity)]
    have hw0 : 0 ≤ w := Real.sqrt_nonneg _
    have hwa : w < 1.35 * r := by norm_num at hw2 ⊢; nlinarith
    have hwb : 1.3 * r < w := by norm_num at hw2 ⊢; nlinarith
    have hk2 : k * k = (w - h / 2) * (w - h / 2) := by rcases hk with rfl | rfl <;> ring
    have : (w - h / 2) * (w - h / 2) < r * r := by
      rw [hh]
      norm_num at hwa hwb
      nlinarith
    norm_num
    nlinarith
  constructor
  · intro hp
    have hnr : V2.norm ⟨x, y⟩ < r := lt_trans hp hap
    have h1 := hin2.mpr ((key ⟨x, y⟩).1 hp)
    rcases top with _ | _
    · simp only [Bool.false_eq_true, if_false, Returned.mk.injEq, Option.some.injEq, and_true] at hs
      subst hs
      rw [C16_intersect3]
      exact ⟨h1, hsphere _ (.inr rfl) hnr⟩
    · simp only [if_true, Returned.mk.injEq, Option.some.injEq, and_true] at hs
      subst hs
      rw [C16_intersect3, C16_intersect3]
      exact ⟨⟨h1, hsphere _ (.inl rfl) hnr⟩, hsphere _ (.inr rfl) hnr⟩
  · intro hM z hp
    have h2 : (hex.offset (r * 0.08)).Inside ⟨x, y⟩ := by
      rcases top with _ | _
      · simp only [Bool.false_eq_true, if_false, Returned.mk.injEq, Option.some.injEq, and_true] at hs
        subst hs
        rw [C16_intersect3, C26_extrude] at hp
        exact hp.1.2
      · simp only [if_true, Returned.mk.injEq, Option.some.injEq, and_true] at hs
        subst hs
        rw [C16_intersect3, C16_intersect3, C26_extrude] at hp
        exact hp.1.1.2
    have := (key ⟨x, y⟩).2 hM h2
    refine ⟨this.1, ?_⟩
    have := this.2
    linarith

/-- The flats of the rounded hexagon are further apart than those of the hexagon with sharp corners. -/
theorem apothem_rounded (r : ℝ) : apothem 6 (r - r * 0.08) + r * 0.08 = r * (0.46 * Real.sqrt 3 + 0.08) := by
  unfold apothem
  rw [show Real.pi / ((6 : ℕ) : ℝ) = Real.pi / 6 by norm_num, Real.cos_pi_div_six]
  norm_num; ring

theorem hexF2F_eq (t : Parameters) : t.hexF2F = t.hexRadius * Real.sqrt 3 := by
  unfold Parameters.hexRadius
  rw [show 30 * Real.pi / 180 = Real.pi / 6 by ring, Real.cos_pi_div_six]
  have : Real.sqrt 3 ≠ 0 := by positivity
  field_simp
  norm_num

/-- Nuts of all styles, before the thread is cut, contain the disc of their size across flats. -/
theorem nut_disc {k : NutParms} {t : Threader} {u : SDF3} (hk : k.thread = some t) (hu : nut k = .ok ⟨some u, false⟩)
    (hF : 4 / 10 ^ 9 < t.params.hexF2F) : ∃ head sc, u = SDF3.difference head sc ∧ screw t.params.hexHeight (some t) = .ok ⟨some sc, false⟩ ∧
      ∀ x y, V2.norm ⟨x, y⟩ < t.params.hexF2F / 2 → head.Inside ⟨x, y, 0⟩ := by
  obtain ⟨head, sc, h1, h2, hr, h⟩ := Mating.nut_head hk hu
  have h3 : Real.sqrt 3 * Real.sqrt 3 = 3 := Real.mul_self_sqrt (by norm_num)
  have h30 : 0 < Real.sqrt 3 := by positivity
  have h3a : 1.7 < Real.sqrt 3 := by norm_num; nlinarith
  have h3b : Real.sqrt 3 < 1.74 := by norm_num; nlinarith
  have hF2 := hexF2F_eq t.params
  have hH := hexHeight_eq t.params
  set r := t.params.hexRadius with hrd
  refine ⟨head, sc, h1, h2, fun x y hxy => ?_⟩
  have hxr : V2.norm ⟨x, y⟩ < r := by
    rw [hF2] at hxy
    norm_num at h3b
    nlinarith
  rcases h with ⟨-, h⟩ | ⟨-, h⟩ | ⟨-, h⟩
  · refine (rounded_cyl h _).2 ?_ ?_ ?_
    · change V2.norm ⟨x, y⟩ < _
      norm_num; linarith
    · simp only [abs_zero]; rw [hH]; linarith
    · simp only [abs_zero]; rw [hH]; linarith
  · refine (hexHead_plane ?_ hH h x y).1 ?_
    · rw [hF2] at hF
      norm_num at hF h3b ⊢
      nlinarith
    · rw [apothem_rounded]
      rw [hF2] at hxy
      norm_num at h3b ⊢
      nlinarith
  · unfold knurledHead at h
    obtain ⟨⟨s0, e0⟩, h0, hs⟩ := Mating.bind_ok h
    split at hs
    · cases hs
    rcases hc : Must3.cylinder t.params.hexHeight r (r * 0.05) with _ | c
    · rw [hc] at hs; cases hs
    rw [hc] at hs
    obtain ⟨w, hw, hs⟩ := Mating.bind_ok hs
    cases hs
    rcases s0 with _ | s0
    · cases hw
    cases hw
    refine (C16_union3 c [s0] _).mpr ⟨c, by simp, (rounded_cyl hc _).2 ?_ ?_ ?_⟩
    · exact hxr
    · simp only [abs_zero]; rw [hH]; norm_num; linarith
    · simp only [abs_zero]; rw [hH]; linarith

end Sdf
