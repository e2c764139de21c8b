import Verif.Lemmas.GraphPolygon

/-!
Convex outlines: a point beyond a line that has all corners on its other side is outside.
-/

namespace Sdf
namespace Polygon
open Must2

theorem mem_sides {v : List V2} {e : V2 × V2} (h : e ∈ sides v) : e.1 ∈ v ∧ e.2 ∈ v := by
  obtain ⟨a, b⟩ := e
  have := List.of_mem_zip h
  exact ⟨this.1, List.mem_rotate.mp this.2⟩

/-- A linear bound on the corners holds on the outline. -/
theorem outline_le {v : List V2} {n : V2} {c : ℝ} (hv : ∀ w ∈ v, V2.dot n w ≤ c) {q : V2} (hq : Outline v q) : V2.dot n q ≤ c := by
  obtain ⟨e, he, t, t0, t1, rfl⟩ := hq
  obtain ⟨h1, h2⟩ := mem_sides he
  have h1 := hv _ h1
  have h2 := hv _ h2
  simp only [V2.dot, V2.add, V2.scale, V2.sub] at *
  nlinarith

theorem beyond_line {v : List V2} (h : Proper v) {s : SDF2} (hs : Must2.polygon v = some s) {n : V2} {c : ℝ}
    (hv : ∀ w ∈ v, V2.dot n w ≤ c) (hn : n.x ≠ 0 ∨ n.y ≠ 0) {p : V2} (hp : c < V2.dot n p) : 0 < s.eval p := by
  have hnn : 0 < V2.dot n n := by
    simp only [V2.dot]
    rcases hn with h | h
    · have := mul_self_pos.mpr h; nlinarith [mul_self_nonneg n.y]
    · have := mul_self_pos.mpr h; nlinarith [mul_self_nonneg n.x]
  -- a far point in the direction of the normal lies outside the bounds
  obtain ⟨T, T0, hT⟩ : ∃ T, 0 ≤ T ∧ ¬ s.bounds.Contains (V2.add p (V2.scale T n)) := by
    rcases hn with h' | h'
    · rcases lt_or_gt_of_ne h' with h1 | h1
      · refine ⟨|s.bounds.lo.x - 1 - p.x| / -n.x, div_nonneg (abs_nonneg _) (by linarith), fun hc => ?_⟩
        have := hc.1
        simp only [V2.add, V2.scale] at this
        rw [show |s.bounds.lo.x - 1 - p.x| / -n.x * n.x = -|s.bounds.lo.x - 1 - p.x| by field_simp] at this
        linarith [neg_abs_le (s.bounds.lo.x - 1 - p.x)]
      · refine ⟨|s.bounds.hi.x + 1 - p.x| / n.x, div_nonneg (abs_nonneg _) (by linarith), fun hc => ?_⟩
        have := hc.2.2.1
        simp only [V2.add, V2.scale] at this
        rw [div_mul_cancel₀ _ h1.ne'] at this
        linarith [le_abs_self (s.bounds.hi.x + 1 - p.x)]
    · rcases lt_or_gt_of_ne h' with h1 | h1
      · refine ⟨|s.bounds.lo.y - 1 - p.y| / -n.y, div_nonneg (abs_nonneg _) (by linarith), fun hc => ?_⟩
        have := hc.2.1
        simp only [V2.add, V2.scale] at this
        rw [show |s.bounds.lo.y - 1 - p.y| / -n.y * n.y = -|s.bounds.lo.y - 1 - p.y| by field_simp] at this
        linarith [neg_abs_le (s.bounds.lo.y - 1 - p.y)]
      · refine ⟨|s.bounds.hi.y + 1 - p.y| / n.y, div_nonneg (abs_nonneg _) (by linarith), fun hc => ?_⟩
        have := hc.2.2.2
        simp only [V2.add, V2.scale] at this
        rw [div_mul_cancel₀ _ h1.ne'] at this
        linarith [le_abs_self (s.bounds.hi.y + 1 - p.y)]
  have hfar := C31_outside v h s hs _ hT
  have hsame := same_side v h s hs p (V2.add p (V2.scale T n)) fun t t0 t1 ho => by
    have h1 := outline_le hv ho
    have h2 : V2.dot n (V2.add p (V2.scale t (V2.sub (V2.add p (V2.scale T n)) p))) = V2.dot n p + t * T * V2.dot n n := by
      simp only [V2.dot, V2.add, V2.scale, V2.sub]; ring
    rw [h2] at h1
    have : 0 ≤ t * T * V2.dot n n := by positivity
    linarith
  have h0 : s.eval p ≠ 0 := fun h0 => by
    have := outline_le hv ((C31_zero v h s hs p).mp h0)
    linarith
  rcases lt_or_gt_of_ne h0 with h1 | h1
  · exact absurd (hsame.mp h1) (by linarith)
  · exact h1

/-- The value is at least the distance to the outline, up to the largest distance that is ever reported. -/
theorem far_value {v : List V2} (h : Proper v) {s : SDF2} (hs : Must2.polygon v = some s) {p : V2} {m : ℝ}
    (hM : m * m ≤ maxFloat64) (hfar : ∀ q, Outline v q → m ≤ V2.dist p q) : m ≤ |s.eval p| := by
  obtain ⟨v0, c, hg, _, he, _⟩ := polygon_good v h s hs
  rw [he, abs_polygonEval c p hg.ne]
  rcases (polyDD_spec p (edges c)).1 with h1 | ⟨e, he', h1⟩
  · rw [h1]
    exact Real.le_sqrt_of_sq_le (by rw [sq]; exact hM)
  · obtain ⟨⟨q, hq, hd⟩, _⟩ := (segDD_dist p e (hg.ne e he')).2
    rw [h1, ← hd]
    exact hfar q ((hg.outline q).mpr ⟨e, he', hq⟩)

/-- Beyond a line with all corners on its other side the value is at least the distance to the line. -/
theorem beyond_value {v : List V2} (h : Proper v) {s : SDF2} (hs : Must2.polygon v = some s) {n : V2} {c : ℝ}
    (hv : ∀ w ∈ v, V2.dot n w ≤ c) (hn : V2.dot n n = 1) {p : V2} {m : ℝ} (hm : 0 < m) (hM : m * m ≤ maxFloat64)
    (hp : c + m ≤ V2.dot n p) : m ≤ s.eval p := by
  have h0 : 0 < s.eval p := by
    refine beyond_line h hs hv ?_ (by linarith)
    by_contra hc
    push Not at hc
    simp only [V2.dot, hc.1, hc.2] at hn
    norm_num at hn
  rw [← abs_of_pos h0]
  refine far_value h hs hM fun q hq => ?_
  have h1 := outline_le hv hq
  have h2 : V2.dot n (V2.sub p q) = V2.dot n p - V2.dot n q := by simp only [V2.dot, V2.sub]; ring
  have h3 : V2.dot n (V2.sub p q) ≤ V2.dist p q := by
    unfold V2.dist V2.norm
    refine Real.le_sqrt_of_sq_le ?_
    simp only [V2.dot] at hn ⊢
    generalize V2.sub p q = d
    nlinarith [sq_nonneg (n.x * d.y - n.y * d.x)]
  linarith

end Polygon
end Sdf
