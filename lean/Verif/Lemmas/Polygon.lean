import Verif.Model.Polygon
import Verif.Spec.Polygon
import Verif.Spec.Shape
import Verif.Lemmas.Vec
import Verif.Lemmas.MaxFloat
import Mathlib.Analysis.SpecialFunctions.Complex.Arg
import Mathlib.Topology.Order.IntermediateValue

/-! Helper lemmas about polygons. -/

namespace Sdf
namespace Must2
open Polygon

/-! ### Distance to one segment -/

open Classical in
/-- The squared distance contributed by one segment. -/
noncomputable def segDD (p : V2) (e : V2 × V2) : ℝ :=
  let vector := V2.unit (V2.sub e.2 e.1)
  let pa := V2.sub p e.1
  let t := V2.dot pa vector
  let dn := V2.dot pa ⟨vector.y, -vector.x⟩
  if t < 0 then V2.norm2 pa else if t > V2.norm (V2.sub e.2 e.1) then V2.norm2 (V2.sub p e.2) else dn * dn

open Classical in
/-- The crossing contributed by one segment. -/
noncomputable def segWn (p : V2) (e : V2 × V2) : ℤ :=
  if e.1.y ≤ p.y ∧ p.y < e.2.y ∧ 0 < V2.cross (V2.sub e.1 p) (V2.sub e.2 p) then 1
  else if e.2.y ≤ p.y ∧ p.y < e.1.y ∧ V2.cross (V2.sub e.1 p) (V2.sub e.2 p) < 0 then -1
  else 0

theorem dn_eq (p : V2) (e : V2 × V2) :
    V2.dot (V2.sub p e.1) ⟨(V2.unit (V2.sub e.2 e.1)).y, -(V2.unit (V2.sub e.2 e.1)).x⟩ =
      -(1 / V2.norm (V2.sub e.2 e.1)) * V2.cross (V2.sub e.1 p) (V2.sub e.2 p) := by
  simp only [V2.dot, V2.unit, V2.scale, V2.sub, V2.cross]
  ring

theorem norm_edge_pos {e : V2 × V2} (h : e.1 ≠ e.2) : 0 < V2.norm (V2.sub e.2 e.1) := by
  have := V2.dist_nonneg e.2 e.1
  rcases this.lt_or_eq with h' | h'
  · exact h'
  · exact absurd (V2.dist_eq_zero.mp h'.symm) (Ne.symm h)

theorem polygonStep_eq (p : V2) (st : ℝ × ℤ) (e : V2 × V2) (h : e.1 ≠ e.2) :
    polygonStep p st e = (min st.1 (segDD p e), st.2 + segWn p e) := by
  have hn := norm_edge_pos h
  have hk : 0 < 1 / V2.norm (V2.sub e.2 e.1) := by positivity
  have hdn := dn_eq p e
  have h1 : V2.dot (V2.sub p e.1) ⟨(V2.unit (V2.sub e.2 e.1)).y, -(V2.unit (V2.sub e.2 e.1)).x⟩ < 0 ↔
      0 < V2.cross (V2.sub e.1 p) (V2.sub e.2 p) := by
    rw [hdn, neg_mul, neg_lt_zero, mul_pos_iff_of_pos_left hk]
  have h2 : V2.dot (V2.sub p e.1) ⟨(V2.unit (V2.sub e.2 e.1)).y, -(V2.unit (V2.sub e.2 e.1)).x⟩ > 0 ↔
      V2.cross (V2.sub e.1 p) (V2.sub e.2 p) < 0 := by
    rw [hdn, neg_mul, gt_iff_lt, neg_pos, mul_neg_iff]
    constructor
    · rintro (h | h)
      · exact h.2
      · linarith [h.1]
    · exact fun h => Or.inl ⟨hk, h⟩
  unfold polygonStep
  simp only [Prod.mk.injEq]
  constructor
  · unfold segDD
    simp only
    split
    · rfl
    · split <;> rfl
  · simp only [h1, h2]
    unfold segWn
    by_cases ha : e.1.y ≤ p.y
    · rw [if_pos ha]
      by_cases hb : e.2.y > p.y
      · rw [if_pos hb]
        by_cases hc : 0 < V2.cross (V2.sub e.1 p) (V2.sub e.2 p)
        · rw [if_pos hc, if_pos ⟨ha, hb, hc⟩]
        · rw [if_neg hc, if_neg (fun h => hc h.2.2), if_neg (fun h => absurd h.1 (not_le.mpr hb)), add_zero]
      · rw [if_neg hb, if_neg (fun h => hb h.2.1), if_neg (fun h => absurd h.2.1 (not_lt.mpr ha)), add_zero]
    · rw [if_neg ha]
      by_cases hb : e.2.y ≤ p.y
      · rw [if_pos hb]
        by_cases hc : V2.cross (V2.sub e.1 p) (V2.sub e.2 p) < 0
        · rw [if_pos hc, if_neg (fun h => ha h.1), if_pos ⟨hb, not_le.mp ha, hc⟩]; rfl
        · rw [if_neg hc, if_neg (fun h => ha h.1), if_neg (fun h => hc h.2.2), add_zero]
      · rw [if_neg hb, if_neg (fun h => ha h.1), if_neg (fun h => hb h.1), add_zero]

theorem foldl_polygonStep (p : V2) (E : List (V2 × V2)) (hE : ∀ e ∈ E, e.1 ≠ e.2) (st : ℝ × ℤ) :
    E.foldl (polygonStep p) st = (E.foldl (fun d e => min d (segDD p e)) st.1, st.2 + (E.map (segWn p)).sum) := by
  induction E generalizing st with
  | nil => simp
  | cons e E ih =>
    rw [List.foldl_cons, polygonStep_eq p st e (hE e List.mem_cons_self),
      ih (fun x hx => hE x (List.mem_cons_of_mem _ hx))]
    simp [add_assoc]

/-- The contribution of a segment is the squared distance to it. -/
theorem segDD_dist (p : V2) (e : V2 × V2) (h : e.1 ≠ e.2) :
    0 ≤ segDD p e ∧ IsDist2 (OnSegment e.1 e.2) p (Real.sqrt (segDD p e)) := by
  obtain ⟨a, b⟩ := e
  have hn := norm_edge_pos h
  simp only at h hn
  set L := V2.norm (V2.sub b a) with hL
  have hLsq := V2.norm_sq (V2.sub b a)
  rw [← hL] at hLsq
  set v := V2.unit (V2.sub b a) with hv
  have hvx : v.x = (b.x - a.x) / L := by
    have : v.x = 1 / L * (b.x - a.x) := rfl
    rw [this]; ring
  have hvy : v.y = (b.y - a.y) / L := by
    have : v.y = 1 / L * (b.y - a.y) := rfl
    rw [this]; ring
  simp only [V2.sub] at hLsq
  have hv1 : v.x * v.x + v.y * v.y = 1 := by
    rw [hvx, hvy]; field_simp; nlinarith
  have hbx : b.x = a.x + L * v.x := by rw [hvx]; field_simp; ring
  have hby : b.y = a.y + L * v.y := by rw [hvy]; field_simp; ring
  set t := V2.dot (V2.sub p a) v with ht
  set dn := V2.dot (V2.sub p a) ⟨v.y, -v.x⟩ with hdn
  have key : ∀ s : ℝ, V2.norm2 (V2.sub p (V2.add a (V2.scale s (V2.sub b a)))) = (t - s * L) * (t - s * L) + dn * dn := by
    intro s
    simp only [V2.norm2, V2.sub, V2.add, V2.scale, ht, hdn, V2.dot, hbx, hby]
    have : ∀ X Y : ℝ, X * X + Y * Y = (v.x * v.x + v.y * v.y) * (X * X + Y * Y) := by intro X Y; rw [hv1, one_mul]
    linear_combination ((p.x - a.x)^2 + (p.y-a.y)^2 - L^2*s^2) * (-hv1)
  have hdist : ∀ q, V2.dist p q = Real.sqrt (V2.norm2 (V2.sub p q)) := fun q => rfl
  have main : ∃ s, 0 ≤ s ∧ s ≤ 1 ∧ segDD p (a, b) = (t - s * L) * (t - s * L) + dn * dn ∧
      ∀ s', 0 ≤ s' → s' ≤ 1 → segDD p (a, b) ≤ (t - s' * L) * (t - s' * L) + dn * dn := by
    have e0 : V2.norm2 (V2.sub p a) = t * t + dn * dn := by
      have := key 0
      have e : V2.add a (V2.scale 0 (V2.sub b a)) = a := by ext <;> simp [V2.add, V2.scale]
      rw [e] at this; rw [this]; ring
    have e1 : V2.norm2 (V2.sub p b) = (t - L) * (t - L) + dn * dn := by
      have := key 1
      have e : V2.add a (V2.scale 1 (V2.sub b a)) = b := by ext <;> simp [V2.add, V2.scale, V2.sub]
      rw [e] at this; rw [this]; ring
    have hdef : segDD p (a, b) = if t < 0 then V2.norm2 (V2.sub p a) else if t > L then V2.norm2 (V2.sub p b) else dn * dn := rfl
    rw [hdef]
    by_cases h0 : t < 0
    · rw [if_pos h0]
      refine ⟨0, le_rfl, zero_le_one, by rw [e0]; ring, fun s h1 h2 => ?_⟩
      rw [e0]
      have : 0 ≤ s * L := mul_nonneg h1 hn.le
      nlinarith
    · rw [if_neg h0]
      push Not at h0
      by_cases h1 : t > L
      · rw [if_pos h1]
        refine ⟨1, zero_le_one, le_rfl, by rw [e1]; ring, fun s h2 h3 => ?_⟩
        rw [e1]
        have : s * L ≤ L := by nlinarith
        nlinarith
      · rw [if_neg h1]
        push Not at h1
        refine ⟨t / L, by positivity, (div_le_one hn).mpr h1, by field_simp; ring, fun s h2 h3 => ?_⟩
        nlinarith [mul_self_nonneg (t - s * L)]
  obtain ⟨s, s0, s1, hs, hmin⟩ := main
  refine ⟨by rw [hs]; nlinarith [mul_self_nonneg (t - s * L), mul_self_nonneg dn], ⟨_, ⟨s, s0, s1, rfl⟩, ?_⟩, ?_⟩
  · rw [hdist, key, hs]
  · rintro q ⟨s', h1, h2, rfl⟩
    rw [hdist, key]
    exact Real.sqrt_le_sqrt (hmin s' h1 h2)

/-! ### The winding number -/

/-- The polar angle in `(0, 2π]`. -/
noncomputable def ang (z : ℂ) : ℝ := open Classical in if Complex.arg z ≤ 0 then Complex.arg z + 2 * Real.pi else Complex.arg z

theorem ang_coe (z : ℂ) : ((ang z : ℝ) : Real.Angle) = (Complex.arg z : ℝ) := by
  unfold ang; split
  · rw [Real.Angle.angle_eq_iff_two_pi_dvd_sub]; exact ⟨1, by push_cast; ring⟩
  · rfl

theorem ang_above {z : ℂ} (h : 0 < z.im) : 0 < ang z ∧ ang z < Real.pi := by
  have h0 : 0 ≤ Complex.arg z := Complex.arg_nonneg_iff.mpr h.le
  have h1 : Complex.arg z ≠ 0 := by
    intro h1
    have := (Complex.arg_eq_zero_iff.mp h1).2
    linarith
  have h2 : Complex.arg z ≠ Real.pi := by
    intro h2
    have := (Complex.arg_eq_pi_iff.mp h2).2
    linarith
  have h3 := Complex.arg_le_pi z
  have h4 : 0 < Complex.arg z := lt_of_le_of_ne h0 (Ne.symm h1)
  unfold ang
  rw [if_neg (not_le.mpr h4)]
  exact ⟨h4, lt_of_le_of_ne h3 h2⟩

theorem ang_below {z : ℂ} (h : z.im ≤ 0) (hz : z ≠ 0) : Real.pi ≤ ang z ∧ ang z ≤ 2 * Real.pi := by
  have hpi := Real.pi_pos
  rcases h.lt_or_eq with h | h
  · have h0 : Complex.arg z < 0 := Complex.arg_neg_iff.mpr h
    have h1 := Complex.neg_pi_lt_arg z
    unfold ang
    rw [if_pos h0.le]
    constructor <;> linarith
  · rcases lt_trichotomy z.re 0 with h' | h' | h'
    · have : Complex.arg z = Real.pi := Complex.arg_eq_pi_iff.mpr ⟨h', h⟩
      unfold ang; rw [if_neg (by rw [this]; linarith), this]
      constructor <;> linarith
    · exact absurd (Complex.ext h' h) hz
    · have : Complex.arg z = 0 := Complex.arg_eq_zero_iff.mpr ⟨h'.le, h⟩
      unfold ang; rw [if_pos this.le, this]
      constructor <;> linarith

theorem toC_sub (a p : V2) : toC a - toC p = toC (V2.sub a p) := by
  apply Complex.ext <;> simp [toC, V2.sub]

/-- The ratio avoids the cut exactly when `p` is off the segment. -/
theorem ratio_slit {p a b : V2} (h : ¬ OnSegment a b p) : (toC b - toC p) / (toC a - toC p) ∈ Complex.slitPlane := by
  have ha : toC a - toC p ≠ 0 := by
    intro h0
    apply h
    have hx : a.x - p.x = 0 := congrArg Complex.re h0
    have hy : a.y - p.y = 0 := congrArg Complex.im h0
    exact ⟨0, le_rfl, zero_le_one, by ext <;> simp [V2.add, V2.scale] <;> linarith⟩
  by_contra hc
  rw [Complex.mem_slitPlane_iff] at hc
  push Not at hc
  set r := (toC b - toC p) / (toC a - toC p) with hr
  have hmul : toC b - toC p = r * (toC a - toC p) := by rw [hr]; field_simp
  have hx : b.x - p.x = r.re * (a.x - p.x) := by
    have := congrArg Complex.re hmul
    rw [Complex.mul_re, hc.2] at this
    simpa [toC] using this
  have hy : b.y - p.y = r.re * (a.y - p.y) := by
    have := congrArg Complex.im hmul
    rw [Complex.mul_im, hc.2] at this
    simpa [toC] using this
  apply h
  have h1 : 0 < 1 - r.re := by linarith [hc.1]
  refine ⟨1 / (1 - r.re), by positivity, (div_le_one h1).mpr (by linarith [hc.1]), ?_⟩
  ext
  · simp only [V2.add, V2.scale, V2.sub]
    field_simp
    linarith
  · simp only [V2.add, V2.scale, V2.sub]
    field_simp
    linarith

theorem ratio_im (p a b : V2) : ((toC b - toC p) / (toC a - toC p)).im =
    V2.cross (V2.sub a p) (V2.sub b p) / Complex.normSq (toC (V2.sub a p)) := by
  rw [toC_sub, toC_sub, Complex.div_im]
  simp only [toC, V2.cross]
  ring

/-- Along one side, the seen angle is the change of polar angle plus a full turn for each counted crossing. -/
theorem seenAngle_eq {p a b : V2} (h : ¬ OnSegment a b p) :
    seenAngle p a b = ang (toC b - toC p) - ang (toC a - toC p) + 2 * Real.pi * (segWn p (a, b) : ℤ) := by
  have hpi := Real.pi_pos
  have ha : toC a - toC p ≠ 0 := by
    intro h0
    apply h
    have hx : a.x - p.x = 0 := congrArg Complex.re h0
    have hy : a.y - p.y = 0 := congrArg Complex.im h0
    exact ⟨0, le_rfl, zero_le_one, by ext <;> simp [V2.add, V2.scale] <;> linarith⟩
  have hb : toC b - toC p ≠ 0 := by
    intro h0
    apply h
    have hx : b.x - p.x = 0 := congrArg Complex.re h0
    have hy : b.y - p.y = 0 := congrArg Complex.im h0
    exact ⟨1, zero_le_one, le_rfl, by ext <;> simp [V2.add, V2.scale, V2.sub] <;> linarith⟩
  have hslit := ratio_slit h
  have him := ratio_im p a b
  have hns : 0 < Complex.normSq (toC (V2.sub a p)) := by
    rw [← toC_sub]; exact Complex.normSq_pos.mpr ha
  have haim : (toC a - toC p).im = a.y - p.y := by simp [toC]
  have hbim : (toC b - toC p).im = b.y - p.y := by simp [toC]
  obtain ⟨k, hk⟩ : ∃ k : ℤ, seenAngle p a b - (ang (toC b - toC p) - ang (toC a - toC p)) = 2 * Real.pi * k := by
    rw [← Real.Angle.angle_eq_iff_two_pi_dvd_sub, Real.Angle.coe_sub, ang_coe, ang_coe]
    exact Complex.arg_div_coe_angle hb ha
  unfold seenAngle at hk ⊢
  set z := toC a - toC p
  set w := toC b - toC p
  set φ := Complex.arg (w / z) with hφ
  have hφ1 : -Real.pi < φ := Complex.neg_pi_lt_arg _
  have hφ2 : φ < Real.pi := lt_of_le_of_ne (Complex.arg_le_pi _) (Complex.mem_slitPlane_iff_arg.mp hslit).1
  have hsign : (0 < φ ↔ 0 < V2.cross (V2.sub a p) (V2.sub b p)) ∧ (φ < 0 ↔ V2.cross (V2.sub a p) (V2.sub b p) < 0) := by
    have h1 : φ < 0 ↔ V2.cross (V2.sub a p) (V2.sub b p) < 0 := by
      rw [hφ, Complex.arg_neg_iff, him, div_neg_iff]
      constructor
      · rintro (h | h)
        · linarith [h.2]
        · exact h.1
      · exact fun h => Or.inr ⟨h, hns⟩
    refine ⟨?_, h1⟩
    constructor
    · intro h
      by_contra hc
      rcases (not_lt.mp hc).lt_or_eq with h' | h'
      · linarith [h1.mpr h']
      · have : (w / z).im = 0 := by rw [him, h']; simp
        rcases Complex.mem_slitPlane_iff.mp hslit with h2 | h2
        · have : φ = 0 := Complex.arg_eq_zero_iff.mpr ⟨h2.le, this⟩
          linarith
        · exact h2 this
    · intro h
      have h2 : 0 ≤ φ := Complex.arg_nonneg_iff.mpr (by rw [him]; positivity)
      rcases h2.lt_or_eq with h3 | h3
      · exact h3
      · have := (Complex.arg_eq_zero_iff.mp h3.symm).2
        rw [him, div_eq_zero_iff] at this
        rcases this with h4 | h4 <;> linarith
  suffices hks : k = segWn p (a, b) by rw [← hks]; linarith
  unfold segWn
  simp only
  by_cases hA : a.y ≤ p.y <;> by_cases hB : b.y ≤ p.y
  · -- both below
    have a1 := ang_below (z := z) (by rw [haim]; linarith) ha
    have b1 := ang_below (z := w) (by rw [hbim]; linarith) hb
    rw [if_neg (fun h => by linarith [h.2.1]), if_neg (fun h => by linarith [h.2.1])]
    have k1 : (k : ℝ) < 1 := by nlinarith [a1.1, a1.2, b1.1, b1.2]
    have k2 : (-1 : ℝ) < k := by nlinarith [a1.1, a1.2, b1.1, b1.2]
    have k1 : k < 1 := by exact_mod_cast k1
    have k2 : -1 < k := by exact_mod_cast k2
    omega
  · -- upward
    push Not at hB
    have a1 := ang_below (z := z) (by rw [haim]; linarith) ha
    have b1 := ang_above (z := w) (by rw [hbim]; linarith)
    rw [if_neg (c := b.y ≤ p.y ∧ _) (fun h => by linarith [h.1])]
    have k2 : (k : ℝ) < 2 := by nlinarith [a1.1, a1.2, b1.1, b1.2]
    have k1 : (-1 : ℝ) < k := by nlinarith [a1.1, a1.2, b1.1, b1.2]
    have k2 : k < 2 := by exact_mod_cast k2
    have k1 : -1 < k := by exact_mod_cast k1
    by_cases hc : 0 < V2.cross (V2.sub a p) (V2.sub b p)
    · rw [if_pos ⟨hA, hB, hc⟩]
      have := hsign.1.mpr hc
      have k3 : (0 : ℝ) < k := by nlinarith [a1.1, a1.2, b1.1, b1.2]
      have k3 : 0 < k := by exact_mod_cast k3
      omega
    · rw [if_neg (fun h => hc h.2.2)]
      have : φ ≤ 0 := by by_contra h'; exact hc (hsign.1.mp (not_le.mp h'))
      have k3 : (k : ℝ) < 1 := by nlinarith [a1.1, a1.2, b1.1, b1.2]
      have k3 : k < 1 := by exact_mod_cast k3
      omega
  · -- downward
    push Not at hA
    have a1 := ang_above (z := z) (by rw [haim]; linarith)
    have b1 := ang_below (z := w) (by rw [hbim]; linarith) hb
    rw [if_neg (c := a.y ≤ p.y ∧ _) (fun h => by linarith [h.1])]
    have k2 : (k : ℝ) < 1 := by nlinarith [a1.1, a1.2, b1.1, b1.2]
    have k1 : (-2 : ℝ) < k := by nlinarith [a1.1, a1.2, b1.1, b1.2]
    have k2 : k < 1 := by exact_mod_cast k2
    have k1 : -2 < k := by exact_mod_cast k1
    by_cases hc : V2.cross (V2.sub a p) (V2.sub b p) < 0
    · rw [if_pos ⟨hB, hA, hc⟩]
      have := hsign.2.mpr hc
      have k3 : (k : ℝ) < 0 := by nlinarith [a1.1, a1.2, b1.1, b1.2]
      have k3 : k < 0 := by exact_mod_cast k3
      omega
    · rw [if_neg (fun h => hc h.2.2)]
      have : 0 ≤ φ := by by_contra h'; exact hc (hsign.2.mp (not_le.mp h'))
      have k3 : (-1 : ℝ) < k := by nlinarith [a1.1, a1.2, b1.1, b1.2]
      have k3 : -1 < k := by exact_mod_cast k3
      omega
  · -- both above
    push Not at hA hB
    have a1 := ang_above (z := z) (by rw [haim]; linarith)
    have b1 := ang_above (z := w) (by rw [hbim]; linarith)
    rw [if_neg (fun h => by linarith [h.1]), if_neg (fun h => by linarith [h.1])]
    have k1 : (k : ℝ) < 1 := by nlinarith [a1.1, a1.2, b1.1, b1.2]
    have k2 : (-1 : ℝ) < k := by nlinarith [a1.1, a1.2, b1.1, b1.2]
    have k1 : k < 1 := by exact_mod_cast k1
    have k2 : -1 < k := by exact_mod_cast k2
    omega

end Must2
end Sdf
