import Verif.Lemmas.PolygonBuilder
import Verif.Lemmas.Vec
import Verif.Spec.PolygonBuilder

/-! The geometry of smoothed corners and arcs. -/

namespace Sdf
namespace Must2

theorem rotate_iter (a : ℝ) (k : ℕ) (p : V2) :
    ((M22.rotate a).mulPosition)^[k] p = (M22.rotate (k * a)).mulPosition p := by
  induction k with
  | zero => simp [M22.rotate, M22.mulPosition]
  | succ k ih =>
    rw [Function.iterate_succ_apply', ih]
    have e : ((k + 1 : ℕ) : ℝ) * a = k * a + a := by push_cast; ring
    rw [e]
    simp only [M22.rotate, M22.mulPosition, Real.cos_add, Real.sin_add, V2.mk.injEq]
    constructor <;> ring

theorem rotatePoints_eq (a : ℝ) (c : V2) (n : ℕ) : ∀ rv : V2,
    rotatePoints (M22.rotate a) c n rv = (List.range n).map fun k : ℕ => PV.plain (turn c (k * a) (V2.add c rv)) := by
  have key : ∀ (rv : V2) (k : ℕ), PV.plain (V2.add c (((M22.rotate a).mulPosition)^[k] rv)) =
      PV.plain (turn c (k * a) (V2.add c rv)) := by
    intro rv k
    rw [rotate_iter]
    simp only [M22.rotate, M22.mulPosition, turn, V2.add, PV.plain]
    congr 2 <;> ring
  suffices h : ∀ rv, rotatePoints (M22.rotate a) c n rv =
      (List.range n).map fun k => PV.plain (V2.add c (((M22.rotate a).mulPosition)^[k] rv)) by
    intro rv
    rw [h rv]
    exact List.map_congr_left fun k _ => key rv k
  induction n with
  | zero => intro rv; rfl
  | succ n ih =>
    intro rv
    rw [rotatePoints, ih, List.range_succ_eq_map, List.map_cons, List.map_map]
    rfl

theorem turn_dist (c : V2) (a : ℝ) (p : V2) : V2.dist (turn c a p) c = V2.dist p c := by
  unfold V2.dist V2.norm turn V2.sub
  congr 1
  simp only
  linear_combination ((p.x - c.x) ^ 2 + (p.y - c.y) ^ 2) * Real.sin_sq_add_cos_sq a

theorem turn_zero (c p : V2) : turn c 0 p = p := by
  cases p; simp [turn]

theorem sign_mul_abs (x : ℝ) : sign x * |x| = x := by
  unfold sign
  split_ifs with h1 h2
  · rw [h1]; simp
  · rw [abs_of_neg h2]; ring
  · rw [abs_of_nonneg (not_lt.mp h2)]; ring

theorem sign_sq {x : ℝ} (h : x ≠ 0) : sign x * sign x = 1 := by
  unfold sign
  rw [if_neg h]
  split_ifs <;> norm_num

theorem sin_sign {x : ℝ} (h : x ≠ 0) (a : ℝ) : Real.sin (sign x * a) = sign x * Real.sin a := by
  unfold sign
  rw [if_neg h]
  split_ifs <;> simp

theorem cos_sign {x : ℝ} (h : x ≠ 0) (a : ℝ) : Real.cos (sign x * a) = Real.cos a := by
  unfold sign
  rw [if_neg h]
  split_ifs <;> simp

theorem unit_dot_self {a : V2} (h : V2.norm a ≠ 0) : V2.dot (V2.unit a) (V2.unit a) = 1 := by
  have h2 : V2.norm a * V2.norm a = a.x * a.x + a.y * a.y := Real.mul_self_sqrt (by nlinarith [mul_self_nonneg a.x, mul_self_nonneg a.y])
  simp only [V2.dot, V2.unit, V2.scale]
  field_simp
  nlinarith

/-- The smoothed corner with unit side directions `u`, `w`. -/
theorem fillet (u w : V2) (hu : V2.dot u u = 1) (hw : V2.dot w w = 1) (hS : V2.cross w u ≠ 0) (r : ℝ) :
    let θ := Real.arccos (V2.dot u w)
    r / Real.tan (θ / 2) = r * (1 + V2.dot u w) / |V2.cross w u| ∧
    V2.scale (r / Real.sin (θ / 2)) (V2.unit (V2.add u w)) = V2.scale (r / |V2.cross w u|) (V2.add u w) ∧
    Real.sin (sign (V2.cross w u) * (Real.pi - θ)) = V2.cross w u ∧
    Real.cos (sign (V2.cross w u) * (Real.pi - θ)) = -V2.dot u w := by
  intro θ
  obtain ⟨u1, u2⟩ := u
  obtain ⟨w1, w2⟩ := w
  simp only [V2.dot, V2.cross] at *
  set C := u1 * w1 + u2 * w2 with hC
  set S := w1 * u2 - w2 * u1 with hSd
  have h1 : C ^ 2 + S ^ 2 = 1 := by
    rw [hC, hSd]; linear_combination (w1 * w1 + w2 * w2) * hu + hw
  have hCl : -1 ≤ C := by nlinarith
  have hCu : C ≤ 1 := by nlinarith
  have hS2 : 0 < S ^ 2 := by positivity
  have hcos : Real.cos θ = C := Real.cos_arccos hCl hCu
  have hsin : Real.sin θ = |S| := by
    show Real.sin (Real.arccos C) = _
    rw [Real.sin_arccos, ← Real.sqrt_sq_eq_abs]
    congr 1; linarith
  have hC1 : -1 < C := by
    rcases hCl.lt_or_eq with h | h
    · exact h
    · rw [← h] at h1; nlinarith
  have hθ0 : 0 < θ := by
    refine Real.arccos_pos.mpr ?_
    rcases hCu.lt_or_eq with h | h
    · exact h
    · rw [h] at h1; nlinarith
  have hθπ : θ ≤ Real.pi := Real.arccos_le_pi C
  have hs2 : 0 < Real.sin (θ / 2) := Real.sin_pos_of_pos_of_lt_pi (by linarith) (by linarith [Real.pi_pos])
  have hc0 : 0 ≤ Real.cos (θ / 2) := Real.cos_nonneg_of_mem_Icc ⟨by linarith [Real.pi_pos], by linarith⟩
  have e1 : Real.cos (θ / 2) ^ 2 = 1 / 2 + C / 2 := by
    rw [Real.cos_sq, ← hcos]; congr 2; congr 1; ring
  have hc2 : 0 < Real.cos (θ / 2) := by
    rcases hc0.lt_or_eq with h | h
    · exact h
    · rw [← h] at e1; linarith
  have e2 : 2 * Real.sin (θ / 2) * Real.cos (θ / 2) = |S| := by
    rw [← hsin, ← Real.sin_two_mul]; congr 1; ring
  have hSa : |S| ≠ 0 := abs_ne_zero.mpr hS
  refine ⟨?_, ?_, ?_, ?_⟩
  · rw [Real.tan_eq_sin_div_cos, ← e2]
    field_simp
    linear_combination 2 * r * e1
  · have hn : V2.norm (V2.add ⟨u1, u2⟩ ⟨w1, w2⟩) = 2 * Real.cos (θ / 2) := by
      rw [V2.norm, Real.sqrt_eq_iff_mul_self_eq (by simp only [V2.add]; nlinarith [mul_self_nonneg (u1 + w1), mul_self_nonneg (u2 + w2)]) (by positivity)]
      simp only [V2.add]
      linear_combination hu + hw - 2 * hC - 4 * e1
    have : V2.scale (r / Real.sin (θ / 2)) (V2.unit (V2.add ⟨u1, u2⟩ ⟨w1, w2⟩)) =
        V2.scale (r / |S|) (V2.add ⟨u1, u2⟩ ⟨w1, w2⟩) := by
      rw [V2.unit, hn, ← e2]
      simp only [V2.scale, V2.mk.injEq]
      constructor <;> field_simp
    exact this
  · rw [sin_sign hS, Real.sin_pi_sub, hsin, sign_mul_abs]
  · rw [cos_sign hS, Real.cos_pi_sub, hcos]

end Must2
end Sdf
