import Verif.Model.Bih
import Mathlib.Tactic.Linarith
import Mathlib.Tactic.FieldSimp
import Mathlib.Tactic.Ring
import Mathlib.Tactic.Positivity

/-! Helper for C42: the case analysis of the closest point on a triangle in barycentric coordinates. -/

namespace Sdf

namespace Bih

/-- First-order optimality of the coordinates `p` in the triangle `0 ≤ s`, `0 ≤ t`, `s + t ≤ 1`. -/
structure Opt (a00 a01 a11 b0 b1 : ℝ) (p : V2) : Prop where
  hs : 0 ≤ p.x
  ht : 0 ≤ p.y
  hst : p.x + p.y ≤ 1
  h0 : p.x * (a00 * p.x + a01 * p.y + b0) + p.y * (a01 * p.x + a11 * p.y + b1) ≤ 0
  h1 : p.x * (a00 * p.x + a01 * p.y + b0) + p.y * (a01 * p.x + a11 * p.y + b1) ≤ a00 * p.x + a01 * p.y + b0
  h2 : p.x * (a00 * p.x + a01 * p.y + b0) + p.y * (a01 * p.x + a11 * p.y + b1) ≤ a01 * p.x + a11 * p.y + b1

variable {a00 a01 a11 b0 b1 : ℝ}

theorem edge02_opt (h11 : 0 < a11)
    (hz : 0 ≤ b1 → 0 ≤ b0)
    (hi : ∀ t, 0 < t → t < 1 → a11 * t + b1 = 0 → 0 ≤ a01 * t + b0)
    (h1 : a11 + b1 ≤ 0 → a11 + b1 ≤ a01 + b0) :
    Opt a00 a01 a11 b0 b1 (minEdge02 a11 b1) := by
  unfold minEdge02
  split_ifs with c1 c2
  · have := hz c1
    constructor <;> simp <;> linarith
  · have := h1 c2
    constructor <;> simp <;> linarith
  · have c1' : b1 < 0 := lt_of_not_ge c1
    have c2' : 0 < a11 + b1 := lt_of_not_ge c2
    have t0 : 0 < -b1 / a11 := div_pos (by linarith) h11
    have t1 : -b1 / a11 < 1 := by rw [div_lt_one h11]; linarith
    have e : a11 * (-b1 / a11) + b1 = 0 := by field_simp; ring
    have := hi _ t0 t1 e
    generalize -b1 / a11 = t at *
    constructor <;> simp <;> nlinarith

theorem edge12_opt
    (h0 : 0 ≤ a01 + b1 - (b0 + a00) → b0 + a00 ≤ 0)
    (hi : ∀ t, 0 < t → t < 1 → a00 * (1 - t) + a01 * t + b0 = a01 * (1 - t) + a11 * t + b1 → a00 * (1 - t) + a01 * t + b0 ≤ 0)
    (h1 : a11 + b1 - (b0 + a01) ≤ 0 → a11 + b1 ≤ 0) :
    Opt a00 a01 a11 b0 b1 (minEdge12 a01 a11 b1 (b0 + a00) (b0 + a01)) := by
  unfold minEdge12
  dsimp only
  split_ifs with c1 c2
  · have := h0 c1
    constructor <;> simp <;> linarith
  · have := h1 c2
    constructor <;> simp <;> linarith
  · have c1' : a01 + b1 - (b0 + a00) < 0 := lt_of_not_ge c1
    have c2' : 0 < a11 + b1 - (b0 + a01) := lt_of_not_ge c2
    generalize hT : (a01 + b1 - (b0 + a00)) / (a01 + b1 - (b0 + a00) - (a11 + b1 - (b0 + a01))) = t
    have hd : a01 + b1 - (b0 + a00) - (a11 + b1 - (b0 + a01)) < 0 := by linarith
    have t0 : 0 < t := by rw [← hT]; exact div_pos_of_neg_of_neg c1' hd
    have t1 : t < 1 := by rw [← hT, div_lt_one_of_neg hd]; linarith
    rw [div_eq_iff hd.ne] at hT
    have e : a00 * (1 - t) + a01 * t + b0 = a01 * (1 - t) + a11 * t + b1 := by linarith
    have := hi t t0 t1 e
    constructor <;> simp only [] <;> try linarith
    · rw [← e]; nlinarith
    · rw [← e]; nlinarith
    · rw [← e]; nlinarith

theorem interior_opt {p0 p1 : V2} {d k0 k1 h0 h1 : ℝ} (hh0 : h0 = d * k0) (hh1 : h1 = d * k1) (c0 : h0 < 0) (c1 : 0 < h1)
    (z0 : a00 * p0.x + a01 * p0.y + b0 = 0) (z1 : a00 * p1.x + a01 * p1.y + b0 = 0)
    (hk0 : k0 = a01 * p0.x + a11 * p0.y + b1) (hk1 : k1 = a01 * p1.x + a11 * p1.y + b1)
    (s0 : 0 ≤ p0.x) (t0 : 0 ≤ p0.y) (st0 : p0.x + p0.y ≤ 1) (s1 : 0 ≤ p1.x) (t1 : 0 ≤ p1.y) (st1 : p1.x + p1.y ≤ 1) :
    Opt a00 a01 a11 b0 b1 (minInterior p0 h0 p1 h1) := by
  have hd : d ≠ 0 := by rintro rfl; rw [zero_mul] at hh0; linarith
  have hne : h0 - h1 < 0 := by linarith
  unfold minInterior
  dsimp only
  generalize hz : h0 / (h0 - h1) = z
  have z0' : 0 < z := by rw [← hz]; exact div_pos_of_neg_of_neg c0 hne
  have z1' : z < 1 := by rw [← hz, div_lt_one_of_neg hne]; linarith
  rw [div_eq_iff hne.ne, hh0, hh1] at hz
  have hk : k0 * (1 - z) + k1 * z = 0 := by
    have : d * (k0 * (1 - z) + k1 * z) = 0 := by linarith
    exact (mul_eq_zero.1 this).resolve_left hd
  have g0 : a00 * ((1 - z) * p0.x + z * p1.x) + a01 * ((1 - z) * p0.y + z * p1.y) + b0 = 0 := by
    linear_combination (1 - z) * z0 + z * z1
  have g1 : a01 * ((1 - z) * p0.x + z * p1.x) + a11 * ((1 - z) * p0.y + z * p1.y) + b1 = 0 := by
    rw [hk0, hk1] at hk
    linear_combination hk
  have := sub_pos.2 z1'
  constructor
  · show 0 ≤ (1 - z) * p0.x + z * p1.x
    positivity
  · show 0 ≤ (1 - z) * p0.y + z * p1.y
    positivity
  · show (1 - z) * p0.x + z * p1.x + ((1 - z) * p0.y + z * p1.y) ≤ 1
    nlinarith
  all_goals simp only [g0, g1]; simp

theorem dt_eq {F G H : ℝ} (h1 : F - G ≠ 0) (h2 : G - H ≠ 0) :
    1 - G / (G - H) - F / (F - G) = -G * (H - F) / ((F - G) * (H - G)) := by
  have h3 : H - G ≠ 0 := by intro e; apply h2; linarith
  have e : G / (G - H) = -(G / (H - G)) := by rw [← neg_sub, div_neg]
  rw [e]
  field_simp
  ring

theorem minParams_opt (h00 : 0 < a00) (h11 : 0 < a11) (he : 0 < a00 - 2 * a01 + a11) {p : V2}
    (h : minParams a00 a01 a11 b0 b1 = some p) : Opt a00 a01 a11 b0 b1 p := by
  unfold minParams at h
  dsimp only at h
  by_cases c1 : b0 ≥ 0
  · rw [if_pos c1] at h
    by_cases c2 : b0 + a01 > 0
    · rw [if_pos c2] at h
      cases h
      refine edge02_opt h11 (fun _ => c1) (fun t t0 t1 _ => ?_) (fun _ => by linarith)
      nlinarith
    rw [if_neg c2] at h
    by_cases c3 : b0 - (b0 + a01) = 0
    · rw [if_pos c3] at h; cases h
    rw [if_neg c3] at h
    have c2' : b0 + a01 ≤ 0 := not_lt.1 c2
    have d1 : 0 < b0 - (b0 + a01) := lt_of_le_of_ne (by linarith) (Ne.symm c3)
    have d2 : b0 + a01 - (b0 + a00) < 0 := by linarith
    have hdt := dt_eq d1.ne' d2.ne
    generalize ht : b0 / (b0 - (b0 + a01)) = t0 at h hdt
    generalize hs : (b0 + a01) / (b0 + a01 - (b0 + a00)) = s1 at h hdt
    have t0n : 0 ≤ t0 := by rw [← ht]; exact div_nonneg c1 d1.le
    have s1n : 0 ≤ s1 := by rw [← hs]; exact div_nonneg_of_nonpos c2' d2.le
    rw [div_eq_iff d1.ne'] at ht
    rw [div_eq_iff d2.ne] at hs
    have t01 : t0 ≤ 1 := by nlinarith
    have s11 : s1 < 1 := by nlinarith
    have dtn : 0 ≤ 1 - s1 - t0 := by
      rw [hdt]
      have : 0 ≤ -(b0 + a01) := by linarith
      have : 0 ≤ b0 + a00 - b0 := by linarith
      have : 0 < b0 + a00 - (b0 + a01) := by linarith
      positivity
    have dtp : b0 + a01 < 0 → 0 < 1 - s1 - t0 := by
      intro hlt
      rw [hdt]
      have : 0 < -(b0 + a01) := by linarith
      have : 0 < b0 + a00 - b0 := by linarith
      have : 0 < b0 + a00 - (b0 + a01) := by linarith
      positivity
    clear hdt
    split_ifs at h with c4 c5
    · cases h
      have k : b0 + a01 < 0 → 0 ≤ a11 * t0 + b1 := fun hlt => nonneg_of_mul_nonneg_right c4 (dtp hlt)
      refine edge02_opt h11 (fun _ => c1) (fun t u0 u1 hu => ?_) (fun hu => ?_)
      · rcases c2'.lt_or_eq with hlt | heq
        · have := k hlt
          have : t ≤ t0 := by nlinarith
          nlinarith
        · nlinarith
      · rcases c2'.lt_or_eq with hlt | heq
        · have := k hlt
          exfalso
          nlinarith
        · linarith
    · cases h
      have hd : 0 < 1 - s1 - t0 := dtn.lt_of_ne (by rintro e; rw [← e] at c4; simp at c4)
      have k : a01 * s1 + a11 * (1 - s1) + b1 ≤ 0 := nonpos_of_mul_nonpos_right c5 hd
      refine edge12_opt (fun hu => ?_) (fun t u0 u1 hu => ?_) (fun hu => by linarith)
      · exfalso; nlinarith
      · have : 1 - s1 ≤ t := by nlinarith
        nlinarith
    · cases h
      refine interior_opt rfl rfl (lt_of_not_ge c4) (lt_of_not_ge c5) ?_ ?_ ?_ rfl ?_ ?_ ?_ ?_ ?_ ?_ <;> simp only [] <;> try linarith
  rw [if_neg c1] at h
  have c1' : b0 < 0 := lt_of_not_ge c1
  by_cases c2 : b0 + a01 ≤ 0
  · rw [if_pos c2] at h
    by_cases c3 : b0 + a00 ≤ 0
    · rw [if_pos c3] at h
      cases h
      refine edge12_opt (fun hu => c3) (fun t u0 u1 hu => ?_) (fun hu => by linarith)
      nlinarith
    rw [if_neg c3] at h
    have c3' : 0 < b0 + a00 := lt_of_not_ge c3
    have d1 : b0 - (b0 + a00) < 0 := by linarith
    have d2 : b0 + a01 - (b0 + a00) < 0 := by linarith
    generalize ht : b0 / (b0 - (b0 + a00)) = t0 at h
    generalize hs : (b0 + a01) / (b0 + a01 - (b0 + a00)) = s1 at h
    have t0n : 0 ≤ t0 := by rw [← ht]; exact div_nonneg_of_nonpos c1'.le d1.le
    have s1n : 0 ≤ s1 := by rw [← hs]; exact div_nonneg_of_nonpos c2 d2.le
    rw [div_eq_iff d1.ne] at ht
    rw [div_eq_iff d2.ne] at hs
    have t01 : t0 ≤ 1 := by nlinarith
    have s11 : s1 < 1 := by nlinarith
    have hd : 0 < 1 - s1 := by linarith
    split_ifs at h with c4 c5
    · cases h
      have k : 0 ≤ a01 * t0 + b1 := nonneg_of_mul_nonneg_right c4 hd
      have z : a00 * t0 + b0 = 0 := by linarith
      constructor <;> simp only [mul_zero, add_zero, zero_mul, z] <;> linarith
    · cases h
      have k : a01 * s1 + a11 * (1 - s1) + b1 ≤ 0 := nonpos_of_mul_nonpos_right c5 hd
      refine edge12_opt (fun hu => ?_) (fun t u0 u1 hu => ?_) (fun hu => by linarith)
      · exfalso; nlinarith
      · have : 1 - s1 ≤ t := by nlinarith
        nlinarith
    · cases h
      refine interior_opt rfl rfl (lt_of_not_ge c4) (lt_of_not_ge c5) ?_ ?_ ?_ rfl ?_ ?_ ?_ ?_ ?_ ?_ <;> simp only [] <;> try linarith
  rw [if_neg c2] at h
  have c2' : 0 < b0 + a01 := lt_of_not_ge c2
  by_cases c3 : b0 + a00 ≤ 0
  · rw [if_pos c3] at h
    have d1 : b0 - (b0 + a01) < 0 := by linarith
    have d2 : 0 < b0 + a01 - (b0 + a00) := by linarith
    have hdt := dt_eq d1.ne d2.ne'
    generalize ht : b0 / (b0 - (b0 + a01)) = t0 at h hdt
    generalize hs : (b0 + a01) / (b0 + a01 - (b0 + a00)) = s1 at h hdt
    have t0n : 0 < t0 := by rw [← ht]; exact div_pos_of_neg_of_neg c1' d1
    have s1n : 0 < s1 := by rw [← hs]; exact div_pos c2' d2
    rw [div_eq_iff d1.ne] at ht
    rw [div_eq_iff d2.ne'] at hs
    have t01 : t0 ≤ 1 := by nlinarith
    have s11 : s1 ≤ 1 := by nlinarith
    have hd : 1 - s1 - t0 < 0 := by
      rw [hdt]
      refine div_neg_of_neg_of_pos ?_ ?_
      · nlinarith
      · nlinarith
    clear hdt
    split_ifs at h with c4 c5
    · cases h
      have k : a11 * t0 + b1 ≤ 0 := by
        by_contra hc
        have := mul_neg_of_neg_of_pos hd (not_le.1 hc)
        linarith
      refine edge02_opt h11 (fun hu => ?_) (fun t u0 u1 hu => ?_) (fun hu => by linarith)
      · nlinarith
      · have : t0 ≤ t := by nlinarith
        nlinarith
    · cases h
      have k : 0 ≤ a01 * s1 + a11 * (1 - s1) + b1 := by
        by_contra hc
        have := mul_pos_of_neg_of_neg hd (not_le.1 hc)
        linarith
      refine edge12_opt (fun hu => c3) (fun t u0 u1 hu => ?_) (fun hu => ?_)
      · have : t ≤ 1 - s1 := by nlinarith
        nlinarith
      · exfalso; nlinarith
    · cases h
      refine interior_opt rfl rfl (lt_of_not_ge c4) (lt_of_not_ge c5) ?_ ?_ ?_ rfl ?_ ?_ ?_ ?_ ?_ ?_ <;> simp only [] <;> try linarith
  rw [if_neg c3] at h
  have c3' : 0 < b0 + a00 := lt_of_not_ge c3
  have d1 : b0 - (b0 + a00) < 0 := by linarith
  have d2 : b0 - (b0 + a01) < 0 := by linarith
  generalize ht : b0 / (b0 - (b0 + a00)) = s0 at h
  generalize hs : b0 / (b0 - (b0 + a01)) = t1 at h
  have t0n : 0 < s0 := by rw [← ht]; exact div_pos_of_neg_of_neg c1' d1
  have s1n : 0 < t1 := by rw [← hs]; exact div_pos_of_neg_of_neg c1' d2
  rw [div_eq_iff d1.ne] at ht
  rw [div_eq_iff d2.ne] at hs
  have t01 : s0 ≤ 1 := by nlinarith
  have s11 : t1 ≤ 1 := by nlinarith
  split_ifs at h with c4 c5
  · cases h
    have k : 0 ≤ a01 * s0 + b1 := nonneg_of_mul_nonneg_right c4 s1n
    have z : a00 * s0 + b0 = 0 := by linarith
    constructor <;> simp only [mul_zero, add_zero, zero_mul, z] <;> linarith
  · cases h
    have k : a11 * t1 + b1 ≤ 0 := nonpos_of_mul_nonpos_right c5 s1n
    refine edge02_opt h11 (fun hu => ?_) (fun t u0 u1 hu => ?_) (fun hu => by linarith)
    · nlinarith
    · have : t1 ≤ t := by nlinarith
      nlinarith
  · cases h
    refine interior_opt rfl rfl (lt_of_not_ge c4) (lt_of_not_ge c5) ?_ ?_ ?_ ?_ ?_ ?_ ?_ ?_ ?_ ?_ <;> simp only [] <;> try linarith

/-- The same for two equal corners: the first and the third. -/
theorem minParams_opt_a (h00 : 0 < a00) {p : V2} (h : minParams a00 0 0 b0 0 = some p) : Opt a00 0 0 b0 0 p := by
  unfold minParams at h
  dsimp only at h
  simp only [add_zero, zero_mul, mul_zero, ge_iff_le, le_refl, if_true, sub_self] at h
  by_cases c1 : 0 ≤ b0
  · rw [if_pos c1] at h
    by_cases c2 : b0 > 0
    · rw [if_pos c2] at h
      cases h
      unfold minEdge02
      simp only [ge_iff_le, le_refl, if_true]
      constructor <;> simp <;> linarith
    · rw [if_neg c2] at h; cases h
  rw [if_neg c1] at h
  have c1' : b0 < 0 := lt_of_not_ge c1
  rw [if_pos c1'.le] at h
  by_cases c3 : b0 + a00 ≤ 0
  · rw [if_pos c3] at h
    cases h
    unfold minEdge12
    dsimp only
    rw [if_pos (by linarith)]
    constructor <;> simp <;> linarith
  · rw [if_neg c3] at h
    cases h
    have c3' : 0 < b0 + a00 := lt_of_not_ge c3
    have d1 : b0 - (b0 + a00) < 0 := by linarith
    generalize ht : b0 / (b0 - (b0 + a00)) = t0
    have t0n : 0 ≤ t0 := by rw [← ht]; exact div_nonneg_of_nonpos c1'.le d1.le
    rw [div_eq_iff d1.ne] at ht
    have z : a00 * t0 + b0 = 0 := by linarith
    constructor <;> simp only [mul_zero, add_zero, zero_mul, z] <;> nlinarith

/-- The same for two equal corners: the second and the third. -/
theorem minParams_opt_b (h00 : 0 < a00) {p : V2} (h : minParams a00 a00 a00 b0 b0 = some p) : Opt a00 a00 a00 b0 b0 p := by
  unfold minParams at h
  dsimp only at h
  by_cases c1 : b0 ≥ 0
  · rw [if_pos c1, if_pos (by linarith)] at h
    cases h
    unfold minEdge02
    rw [if_pos c1]
    constructor <;> simp <;> linarith
  rw [if_neg c1] at h
  have c1' : b0 < 0 := lt_of_not_ge c1
  by_cases c2 : b0 + a00 ≤ 0
  · rw [if_pos c2, if_pos c2] at h
    cases h
    unfold minEdge12
    dsimp only
    rw [if_pos (by linarith)]
    constructor <;> simp <;> linarith
  rw [if_neg c2, if_neg c2] at h
  have c3' : 0 < b0 + a00 := lt_of_not_ge c2
  have d1 : b0 - (b0 + a00) < 0 := by linarith
  generalize ht : b0 / (b0 - (b0 + a00)) = t0 at h
  have t0n : 0 ≤ t0 := by rw [← ht]; exact div_nonneg_of_nonpos c1'.le d1.le
  rw [div_eq_iff d1.ne] at ht
  have z : a00 * t0 + b0 = 0 := by linarith
  rw [if_pos (by rw [z]; simp)] at h
  cases h
  constructor <;> simp only [mul_zero, add_zero, zero_mul, z] <;> nlinarith

/-- The only case without a result. -/
theorem minParams_none : minParams a00 a01 a11 b0 b1 = none ↔ b0 = 0 ∧ a01 = 0 := by
  unfold minParams
  dsimp only
  constructor
  · intro h
    split_ifs at h with c1 c2 c3
    have : b0 + a01 ≤ 0 := not_lt.1 c2
    constructor <;> linarith
  · rintro ⟨h1, h2⟩
    rw [h1, h2]
    norm_num

end Bih

end Sdf
