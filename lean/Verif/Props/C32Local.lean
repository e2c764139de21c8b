import Verif.Lemmas.Winding
import Verif.Props.C31Polygon
import Verif.Props.C32PolygonBuilder

/-!
C32: what smoothing a corner does to the figure.  Nothing changes outside the triangle between the corner and the two tangent
points.
-/

namespace Sdf
open Polygon Must2

/-- The closed triangle with corners `P`, `x`, `Q`. -/
def InTriangle (P x Q p : V2) : Prop :=
  ∃ α β : ℝ, 0 ≤ α ∧ 0 ≤ β ∧ α + β ≤ 1 ∧ p = V2.add x (V2.add (V2.scale α (V2.sub P x)) (V2.scale β (V2.sub Q x)))

theorem cos_fits {Θ κ : ℝ} (hΘ : |Θ| < Real.pi) (h : ∃ t : ℝ, 0 ≤ t ∧ t ≤ 1 ∧ κ = t * Θ) :
    1 + Real.cos Θ ≤ Real.cos κ + Real.cos (Θ - κ) := by
  obtain ⟨t, h0, h1, rfl⟩ := h
  have e1 : Real.cos (t * Θ) + Real.cos (Θ - t * Θ) = 2 * Real.cos (Θ / 2) * Real.cos (t * Θ - Θ / 2) := by
    obtain ⟨m, hm⟩ : ∃ m, t * Θ = Θ / 2 + m := ⟨t * Θ - Θ / 2, by ring⟩
    rw [hm, show Θ - (Θ / 2 + m) = Θ / 2 - m by ring, show Θ / 2 + m - Θ / 2 = m by ring, Real.cos_add, Real.cos_sub]
    ring
  have e2 : 1 + Real.cos Θ = 2 * Real.cos (Θ / 2) * Real.cos (Θ / 2) := by
    have := Real.cos_sq (Θ / 2)
    rw [show 2 * (Θ / 2) = Θ by ring] at this
    nlinarith
  rw [e1, e2]
  obtain ⟨a1, a2⟩ := abs_lt.mp hΘ
  have hpos : 0 < Real.cos (Θ / 2) := Real.cos_pos_of_mem_Ioo ⟨by linarith, by linarith⟩
  have : Real.cos (Θ / 2) ≤ Real.cos (t * Θ - Θ / 2) := by
    rw [← Real.cos_abs (Θ / 2), ← Real.cos_abs (t * Θ - Θ / 2)]
    have hle : |t * Θ - Θ / 2| ≤ |Θ / 2| := by
      rw [show t * Θ - Θ / 2 = (2 * t - 1) * (Θ / 2) by ring, abs_mul]
      have : |2 * t - 1| ≤ 1 := abs_le.mpr ⟨by linarith, by linarith⟩
      nlinarith [abs_nonneg (Θ / 2)]
    exact Real.cos_le_cos_of_nonneg_of_le_pi (abs_nonneg _) (by rw [abs_div, abs_of_pos (show (0 : ℝ) < 2 by norm_num)]; linarith [Real.pi_pos]) hle
  have h2 : 0 ≤ 2 * Real.cos (Θ / 2) := by linarith
  exact mul_le_mul_of_nonneg_left this h2

/-- Where the tangent lines at two points of a circle meet. -/
theorem tangents_meet {c P Q v d e : V2} {Θ : ℝ} (hQ : turn c Θ P = Q) (hr : 0 < V2.dist P c) (hΘ : |Θ| < Real.pi)
    (hP : ∃ t, P = V2.add v (V2.scale t d)) (hd : V2.dot (V2.sub P c) d = 0) (hQ' : ∃ t, Q = V2.add v (V2.scale t e))
    (he : V2.dot (V2.sub Q c) e = 0) (hnd : V2.cross d e ≠ 0) :
    Real.sin Θ ≠ 0 ∧ V2.sub v c = V2.add (V2.sub P c) (V2.scale ((1 - Real.cos Θ) / Real.sin Θ) ⟨-(P.y - c.y), P.x - c.x⟩) := by
  obtain ⟨t, hP⟩ := hP
  obtain ⟨s, hQ'⟩ := hQ'
  have hr2 : 0 < (P.x - c.x) * (P.x - c.x) + (P.y - c.y) * (P.y - c.y) := by
    have := V2.norm_sq (V2.sub P c)
    simp only [V2.sub] at this
    rw [← this]
    exact mul_pos hr hr
  have hcs := Real.sin_sq_add_cos_sq Θ
  have hqx : Q.x - c.x = Real.cos Θ * (P.x - c.x) - Real.sin Θ * (P.y - c.y) := by rw [← hQ]; simp [turn]
  have hqy : Q.y - c.y = Real.sin Θ * (P.x - c.x) + Real.cos Θ * (P.y - c.y) := by rw [← hQ]; simp [turn]
  have hPx : P.x = v.x + t * d.x := by rw [hP]; rfl
  have hPy : P.y = v.y + t * d.y := by rw [hP]; rfl
  have hQx : Q.x = v.x + s * e.x := by rw [hQ']; rfl
  have hQy : Q.y = v.y + s * e.y := by rw [hQ']; rfl
  simp only [V2.dot, V2.sub, V2.cross] at hd he hnd
  have hsin : Real.sin Θ ≠ 0 := by
    intro h0
    obtain ⟨a1, a2⟩ := abs_lt.mp hΘ
    have hΘ0 : Θ = 0 := (Real.sin_eq_zero_iff_of_lt_of_lt a1 a2).mp h0
    rw [hΘ0] at hqx hqy
    simp at hqx hqy
    rw [hqx, hqy] at he
    have e1 : (P.x - c.x) * (d.x * e.y - d.y * e.x) = 0 := by linear_combination e.y * hd - d.y * he
    have e2 : (P.y - c.y) * (d.x * e.y - d.y * e.x) = 0 := by linear_combination d.x * he - e.x * hd
    rcases mul_eq_zero.mp e1 with h | h
    · rcases mul_eq_zero.mp e2 with h' | h'
      · rw [h, h'] at hr2; simp at hr2
      · exact hnd h'
    · exact hnd h
  refine ⟨hsin, ?_⟩
  -- v − c has the same inner product with both radii
  set px := P.x - c.x with hpx
  set py := P.y - c.y with hpy
  have f1 : (v.x - c.x) * px + (v.y - c.y) * py = px * px + py * py := by
    have : (v.x - c.x) = px - t * d.x := by rw [hpx, hPx]; ring
    have : (v.y - c.y) = py - t * d.y := by rw [hpy, hPy]; ring
    rw [‹v.x - c.x = _›, ‹v.y - c.y = _›]
    linear_combination -t * hd
  have f2 : (v.x - c.x) * (Q.x - c.x) + (v.y - c.y) * (Q.y - c.y) = (Q.x - c.x) * (Q.x - c.x) + (Q.y - c.y) * (Q.y - c.y) := by
    have h1 : (v.x - c.x) = (Q.x - c.x) - s * e.x := by rw [hQx]; ring
    have h2 : (v.y - c.y) = (Q.y - c.y) - s * e.y := by rw [hQy]; ring
    rw [h1, h2]
    linear_combination -s * he
  rw [hqx, hqy] at f2
  set C := Real.cos Θ
  set S := Real.sin Θ
  set R := px * px + py * py with hR
  have f3 : S * (-(v.x - c.x) * py + (v.y - c.y) * px) = (1 - C) * R := by
    have : (C * px - S * py) * (C * px - S * py) + (S * px + C * py) * (S * px + C * py) = R := by rw [hR]; linear_combination (px * px + py * py) * hcs
    rw [this] at f2
    linear_combination f2 - C * f1
  have g1 : (v.x - c.x) * R * S = (px - (1 - C) / S * py) * R * S := by
    have : (px - (1 - C) / S * py) * R * S = px * R * S - (1 - C) * py * R := by field_simp
    rw [this]
    linear_combination px * S * f1 - py * f3 + (v.x - c.x) * S * hR
  have g2 : (v.y - c.y) * R * S = (py + (1 - C) / S * px) * R * S := by
    have : (py + (1 - C) / S * px) * R * S = py * R * S + (1 - C) * px * R := by field_simp
    rw [this]
    linear_combination py * S * f1 + px * f3 + (v.y - c.y) * S * hR
  have g1' := mul_right_cancel₀ hr2.ne' (mul_right_cancel₀ hsin g1)
  have g2' := mul_right_cancel₀ hr2.ne' (mul_right_cancel₀ hsin g2)
  ext
  · simp only [V2.sub, V2.add, V2.scale]; rw [g1']; ring
  · simp only [V2.sub, V2.add, V2.scale]; rw [g2']

/-- The points of the arc lie in the triangle between the tangent points and the corner. -/
theorem fillet_in {c P Q v d e : V2} {Θ κ : ℝ} (hQ : turn c Θ P = Q) (hr : 0 < V2.dist P c) (hΘ : |Θ| < Real.pi)
    (hP : ∃ t, P = V2.add v (V2.scale t d)) (hd : V2.dot (V2.sub P c) d = 0) (hQ' : ∃ t, Q = V2.add v (V2.scale t e))
    (he : V2.dot (V2.sub Q c) e = 0) (hnd : V2.cross d e ≠ 0) (hκ : ∃ t : ℝ, 0 ≤ t ∧ t ≤ 1 ∧ κ = t * Θ) :
    InTriangle P v Q (turn c κ P) := by
  obtain ⟨hsin, hv⟩ := tangents_meet hQ hr hΘ hP hd hQ' he hnd
  have hcs := Real.sin_sq_add_cos_sq Θ
  have hC : 0 < 1 - Real.cos Θ := by
    have : Real.cos Θ ≠ 1 := by
      intro h; rw [h] at hcs; apply hsin; nlinarith [sq_nonneg (Real.sin Θ)]
    have := lt_of_le_of_ne (Real.cos_le_one Θ) this
    linarith
  have hfit := cos_fits hΘ hκ
  refine ⟨(1 - Real.cos (Θ - κ)) / (1 - Real.cos Θ), (1 - Real.cos κ) / (1 - Real.cos Θ),
    div_nonneg (by linarith [Real.cos_le_one (Θ - κ)]) hC.le, div_nonneg (by linarith [Real.cos_le_one κ]) hC.le, ?_, ?_⟩
  · rw [← add_div, div_le_one hC]; linarith
  set β := (1 - Real.cos κ) / (1 - Real.cos Θ) with hβ
  set α := (1 - Real.cos (Θ - κ)) / (1 - Real.cos Θ) with hα
  have hβ' : β * (1 - Real.cos Θ) = 1 - Real.cos κ := by rw [hβ]; field_simp
  have hα' : α * (1 - Real.cos Θ) = 1 - (Real.cos Θ * Real.cos κ + Real.sin Θ * Real.sin κ) := by
    rw [hα, ← Real.cos_sub]; field_simp
  have hvx := congrArg V2.x hv
  have hvy := congrArg V2.y hv
  simp only [V2.sub, V2.add, V2.scale] at hvx hvy
  have hqx : Q.x - c.x = Real.cos Θ * (P.x - c.x) - Real.sin Θ * (P.y - c.y) := by rw [← hQ]; simp [turn]
  have hqy : Q.y - c.y = Real.sin Θ * (P.x - c.x) + Real.cos Θ * (P.y - c.y) := by rw [← hQ]; simp [turn]
  set px := P.x - c.x with hpx
  set py := P.y - c.y with hpy
  set C := Real.cos Θ
  set S := Real.sin Θ
  set K := (1 - C) / S with hK
  have hK' : K * S = 1 - C := by rw [hK]; field_simp
  have hperp : (1 - α - β) * K + β * S = Real.sin κ := by
    apply mul_right_cancel₀ hsin
    show ((1 - α - β) * K + β * S) * S = Real.sin κ * S
    linear_combination (1 - α - β) * hK' - hα' + (1 + C) * hβ' - hβ' + β * hcs
  have hpar : (1 - α - β) + α + β * C = Real.cos κ := by linear_combination -hβ'
  ext
  · simp only [turn, V2.sub, V2.add, V2.scale]
    rw [← hpx, ← hpy, ← hpar, ← hperp]
    linear_combination -(1 - α - β) * hvx - β * hqx + α * hpx
  · simp only [turn, V2.sub, V2.add, V2.scale]
    rw [← hpx, ← hpy, ← hpar, ← hperp]
    linear_combination -(1 - α - β) * hvy - β * hqy + α * hpy

/-- Seen from outside of a triangle, everything in the triangle is in a half plane. -/
theorem half_of_triangle {P x Q p : V2} (hnd : V2.cross (V2.sub P x) (V2.sub Q x) ≠ 0) (hp : ¬ InTriangle P x Q p) :
    ∃ n, ∀ z, InTriangle P x Q z → 0 < V2.dot n (V2.sub z p) := by
  set D := V2.cross (V2.sub P x) (V2.sub Q x) with hD
  have hcoord : ∀ z : V2, z = V2.add x (V2.add (V2.scale (V2.cross (V2.sub z x) (V2.sub Q x) / D) (V2.sub P x))
      (V2.scale (V2.cross (V2.sub P x) (V2.sub z x) / D) (V2.sub Q x))) := by
    intro z
    simp only [V2.cross, V2.sub] at hD
    ext
    · simp only [V2.add, V2.scale, V2.sub, V2.cross]
      field_simp
      rw [hD]; ring
    · simp only [V2.add, V2.scale, V2.sub, V2.cross]
      field_simp
      rw [hD]; ring
  have huniq : ∀ z α β, z = V2.add x (V2.add (V2.scale α (V2.sub P x)) (V2.scale β (V2.sub Q x))) →
      α = V2.cross (V2.sub z x) (V2.sub Q x) / D ∧ β = V2.cross (V2.sub P x) (V2.sub z x) / D := by
    rintro z α β rfl
    simp only [V2.cross, V2.sub] at hD
    constructor
    · rw [eq_div_iff hnd, hD]; simp only [V2.add, V2.scale, V2.sub, V2.cross]; ring
    · rw [eq_div_iff hnd, hD]; simp only [V2.add, V2.scale, V2.sub, V2.cross]; ring
  set α0 := V2.cross (V2.sub p x) (V2.sub Q x) / D with hα0
  set β0 := V2.cross (V2.sub P x) (V2.sub p x) / D with hβ0
  set nα : V2 := ⟨(Q.y - x.y) / D, -(Q.x - x.x) / D⟩ with hnα
  set nβ : V2 := ⟨-(P.y - x.y) / D, (P.x - x.x) / D⟩ with hnβ
  have eα : ∀ z, V2.dot nα (V2.sub z p) = V2.cross (V2.sub z x) (V2.sub Q x) / D - α0 := by
    intro z; rw [hα0, hnα]; simp only [V2.dot, V2.sub, V2.cross]; ring
  have eβ : ∀ z, V2.dot nβ (V2.sub z p) = V2.cross (V2.sub P x) (V2.sub z x) / D - β0 := by
    intro z; rw [hβ0, hnβ]; simp only [V2.dot, V2.sub, V2.cross]; ring
  by_cases h1 : α0 < 0
  · refine ⟨nα, fun z hz => ?_⟩
    obtain ⟨α, β, a1, a2, a3, hz⟩ := hz
    rw [eα, ← (huniq z α β hz).1]; linarith
  by_cases h2 : β0 < 0
  · refine ⟨nβ, fun z hz => ?_⟩
    obtain ⟨α, β, a1, a2, a3, hz⟩ := hz
    rw [eβ, ← (huniq z α β hz).2]; linarith
  have h3 : 1 < α0 + β0 := by
    by_contra h3
    exact hp ⟨α0, β0, not_lt.mp h1, not_lt.mp h2, not_lt.mp h3, hcoord p⟩
  refine ⟨V2.scale (-1) (V2.add nα nβ), fun z hz => ?_⟩
  obtain ⟨α, β, a1, a2, a3, hz⟩ := hz
  have : V2.dot (V2.scale (-1) (V2.add nα nβ)) (V2.sub z p) = -(V2.dot nα (V2.sub z p) + V2.dot nβ (V2.sub z p)) := by
    simp only [V2.dot, V2.scale, V2.add]; ring
  rw [this, eα, eβ, ← (huniq z α β hz).1, ← (huniq z α β hz).2]; linarith

theorem inTriangle_segment {P x Q a b q : V2} (ha : InTriangle P x Q a) (hb : InTriangle P x Q b) (hq : OnSegment a b q) :
    InTriangle P x Q q := by
  obtain ⟨α, β, a1, a2, a3, ha⟩ := ha
  obtain ⟨α', β', b1, b2, b3, hb⟩ := hb
  obtain ⟨t, h0, h1, hq⟩ := hq
  refine ⟨(1 - t) * α + t * α', (1 - t) * β + t * β', by nlinarith, by nlinarith, by nlinarith, ?_⟩
  rw [hq, ha, hb]
  ext <;> simp only [V2.add, V2.scale, V2.sub] <;> ring

theorem inTriangle_path {P x Q q : V2} (l : List V2) (hl : ∀ z ∈ l, InTriangle P x Q z) (hq : OnPath l q) : InTriangle P x Q q := by
  obtain ⟨e, he, hq⟩ := hq
  have := List.of_mem_zip he
  exact inTriangle_segment (hl _ this.1) (hl _ (List.mem_of_mem_tail this.2)) hq

theorem onSegment_part {a b P q : V2} (hP : OnSegment a b P) (hq : OnSegment a P q) : OnSegment a b q := by
  obtain ⟨t, t0, t1, rfl⟩ := hP
  obtain ⟨s, s0, s1, rfl⟩ := hq
  refine ⟨s * t, by positivity, by nlinarith, ?_⟩
  ext <;> simp only [V2.add, V2.scale, V2.sub] <;> ring

theorem onSegment_split {a b P q : V2} (hP : OnSegment a b P) (hq : OnSegment a b q) : OnSegment a P q ∨ OnSegment P b q := by
  obtain ⟨t, t0, t1, rfl⟩ := hP
  obtain ⟨s, s0, s1, rfl⟩ := hq
  by_cases h : s ≤ t
  · left
    rcases eq_or_lt_of_le t0 with ht | ht
    · have hs : s = 0 := by linarith
      refine ⟨0, le_rfl, zero_le_one, ?_⟩
      rw [hs]; ext <;> simp [V2.add, V2.scale]
    · refine ⟨s / t, by positivity, (div_le_one ht).mpr h, ?_⟩
      ext <;> simp only [V2.add, V2.scale, V2.sub] <;> field_simp <;> ring
  · right
    have h' : 0 < 1 - t := by linarith
    refine ⟨(s - t) / (1 - t), div_nonneg (by linarith) h'.le, (div_le_one h').mpr (by linarith), ?_⟩
    ext <;> simp only [V2.add, V2.scale, V2.sub] <;> field_simp <;> ring

/-- Smoothing a corner changes a polygon only within the triangle between the corner and the two tangent points, which lie on
the adjacent sides at the same distance from the corner: elsewhere the same points are inside, outside and on the outline. -/
theorem C32_smooth_local (A B : List V2) (vp x vn : V2) (r : ℝ) (f : ℤ) (hr : 0 < r) (hf : 1 ≤ f)
    (hnd : V2.cross (V2.sub vp x) (V2.sub vn x) ≠ 0) (pts : List PV) (h : smoothPoints vp x vn r f = some pts)
    (s s' : SDF2) (hv : Proper (A ++ vp :: x :: vn :: B)) (hs : Must2.polygon (A ++ vp :: x :: vn :: B) = some s)
    (hv' : Proper (A ++ vp :: (pts.map PV.vertex ++ vn :: B))) (hs' : Must2.polygon (A ++ vp :: (pts.map PV.vertex ++ vn :: B)) = some s') :
    ∃ P Q d, OnSegment x vp P ∧ OnSegment x vn Q ∧ V2.dist P x = d ∧ V2.dist Q x = d ∧
      d * |V2.cross (V2.sub vp x) (V2.sub vn x)| = r * (V2.dist vp x * V2.dist vn x + V2.dot (V2.sub vp x) (V2.sub vn x)) ∧
      (∃ mid, pts.map PV.vertex = P :: mid ++ [Q]) ∧
      ∀ p, ¬ InTriangle P x Q p → (s'.eval p < 0 ↔ s.eval p < 0) ∧ (s'.eval p = 0 ↔ s.eval p = 0) := by
  obtain ⟨c, P, Q, a, hΘ, hpts, hQ, hdist, hP, hPd, hQ', hQe, hlen⟩ := C32_smooth vp x vn r f hr hf hnd pts h
  have hPl : ∃ t, P = V2.add x (V2.scale t (V2.sub vp x)) := ⟨_, hP.choose_spec.2.2⟩
  have hQl : ∃ t, Q = V2.add x (V2.scale t (V2.sub vn x)) := ⟨_, hQ'.choose_spec.2.2⟩
  have hr' : 0 < V2.dist P c := by rw [hdist]; exact hr
  have hin : ∀ z ∈ pts.map PV.vertex, InTriangle P x Q z := by
    intro z hz
    rw [hpts, List.map_map, List.mem_map] at hz
    obtain ⟨k, hk, rfl⟩ := hz
    rw [List.mem_range] at hk
    refine fillet_in hQ hr' hΘ hPl hPd hQl hQe hnd ⟨k / f, ?_, ?_, ?_⟩
    · have : (0 : ℝ) < f := by exact_mod_cast hf
      positivity
    · have h1 : (0 : ℝ) < f := by exact_mod_cast hf
      rw [div_le_one h1]
      have h2 : (k : ℤ) ≤ f := by omega
      exact_mod_cast h2
    · have h1 : (f : ℝ) ≠ 0 := by
        have : (0 : ℝ) < f := by exact_mod_cast hf
        exact this.ne'
      field_simp
  have hPin : InTriangle P x Q P := ⟨1, 0, by norm_num, by norm_num, by norm_num, by ext <;> simp [V2.add, V2.scale, V2.sub]⟩
  have hQin : InTriangle P x Q Q := ⟨0, 1, by norm_num, by norm_num, by norm_num, by ext <;> simp [V2.add, V2.scale, V2.sub]⟩
  have hxin : InTriangle P x Q x := ⟨0, 0, by norm_num, by norm_num, by norm_num, by ext <;> simp [V2.add, V2.scale, V2.sub]⟩
  -- the list of facet points starts at P and ends at Q
  obtain ⟨mid, hmid⟩ : ∃ mid, pts.map PV.vertex = P :: mid ++ [Q] := by
    obtain ⟨m, rfl⟩ : ∃ m : ℕ, f = m + 1 := ⟨(f - 1).toNat, by omega⟩
    refine ⟨(List.range m).map fun k : ℕ => turn c ((k + 1 : ℕ) * a) P, ?_⟩
    rw [hpts, show ((m : ℤ) + 1 + 1).toNat = m + 1 + 1 by omega, List.range_succ, List.range_succ_eq_map]
    simp only [List.map_append, List.map_cons, List.map_map, List.map_nil]
    congr 1
    · simp [PV.plain, turn_zero, Function.comp_def]
    · simp only [List.cons.injEq, and_true, PV.plain]
      rw [← hQ]; congr 1
  have hmidin : ∀ z ∈ mid, InTriangle P x Q z := fun z hz => hin z (by rw [hmid]; simp [hz])
  have hPQ : V2.dist Q x = V2.dist P x := by
    have e1 : V2.dist P x * V2.dist P x + r * r = V2.dist x c * V2.dist x c := by
      rw [← hdist]
      unfold V2.dist
      rw [V2.norm_sq, V2.norm_sq, V2.norm_sq]
      obtain ⟨t, ht⟩ := hPl
      have hx : P.x = x.x + t * (vp.x - x.x) := by rw [ht]; rfl
      have hy : P.y = x.y + t * (vp.y - x.y) := by rw [ht]; rfl
      simp only [V2.dot, V2.sub] at hPd ⊢
      rw [hx, hy] at hPd ⊢
      linear_combination 2 * t * hPd
    have e2 : V2.dist Q x * V2.dist Q x + r * r = V2.dist x c * V2.dist x c := by
      have hdQ : V2.dist Q c = r := by rw [← hQ, turn_dist, hdist]
      rw [← hdQ]
      unfold V2.dist
      rw [V2.norm_sq, V2.norm_sq, V2.norm_sq]
      obtain ⟨t, ht⟩ := hQl
      have hx : Q.x = x.x + t * (vn.x - x.x) := by rw [ht]; rfl
      have hy : Q.y = x.y + t * (vn.y - x.y) := by rw [ht]; rfl
      simp only [V2.dot, V2.sub] at hQe ⊢
      rw [hx, hy] at hQe ⊢
      linear_combination 2 * t * hQe
    exact (mul_self_inj_of_nonneg (V2.dist_nonneg _ _) (V2.dist_nonneg _ _)).mp (by linarith)
  refine ⟨P, Q, _, hP, hQ', rfl, hPQ, hlen, ⟨mid, hmid⟩, fun p hp => ?_⟩
  have hndT : V2.cross (V2.sub P x) (V2.sub Q x) ≠ 0 := by
    obtain ⟨t, ht⟩ := hPl
    obtain ⟨t', ht'⟩ := hQl
    have hx : V2.cross (V2.sub P x) (V2.sub Q x) = t * t' * V2.cross (V2.sub vp x) (V2.sub vn x) := by
      rw [ht, ht']; simp only [V2.cross, V2.sub, V2.add, V2.scale]; ring
    rw [hx]
    have hd0 : 0 < V2.dist P x := by
      have h1 : 0 < V2.dist P x * |V2.cross (V2.sub vp x) (V2.sub vn x)| := by
        rw [hlen]
        refine mul_pos hr ?_
        unfold V2.dist
        have hsq : V2.dot (V2.sub vp x) (V2.sub vn x) ^ 2 < (V2.norm (V2.sub vp x) * V2.norm (V2.sub vn x)) ^ 2 := by
          have e := V2.norm_sq (V2.sub vp x)
          have e' := V2.norm_sq (V2.sub vn x)
          have : (V2.norm (V2.sub vp x) * V2.norm (V2.sub vn x)) ^ 2 =
              (V2.norm (V2.sub vp x) * V2.norm (V2.sub vp x)) * (V2.norm (V2.sub vn x) * V2.norm (V2.sub vn x)) := by ring
          rw [this, e, e']
          have hpos : 0 < V2.cross (V2.sub vp x) (V2.sub vn x) ^ 2 := by positivity
          simp only [V2.cross, V2.dot] at hpos ⊢
          nlinarith
        have := abs_lt_of_sq_lt_sq hsq (mul_nonneg (V2.norm_nonneg _) (V2.norm_nonneg _))
        linarith [(abs_lt.mp this).1]
      exact (pos_iff_pos_of_mul_pos h1).mpr (abs_pos.mpr hnd)
    have t0 : t ≠ 0 := by
      rintro rfl
      rw [ht] at hd0
      simp [V2.dist, V2.sub, V2.add, V2.scale, V2.norm] at hd0
    have t0' : t' ≠ 0 := by
      rintro rfl
      rw [← hPQ, ht'] at hd0
      simp [V2.dist, V2.sub, V2.add, V2.scale, V2.norm] at hd0
    exact mul_ne_zero (mul_ne_zero t0 t0') hnd
  obtain ⟨n, hn⟩ := half_of_triangle hndT hp
  -- the two lists as a common rest and two paths
  have ev : A ++ vp :: x :: vn :: B = A ++ vp :: [x] ++ vn :: B := by simp
  have ev' : A ++ vp :: (pts.map PV.vertex ++ vn :: B) = A ++ vp :: (P :: mid ++ [Q]) ++ vn :: B := by rw [hmid]; simp
  obtain ⟨rest, hrest⟩ := outline_split A B vp vn
  have hout : Outline (A ++ vp :: x :: vn :: B) p ↔ Outline (A ++ vp :: (pts.map PV.vertex ++ vn :: B)) p := by
    rw [ev, ev', hrest, hrest]
    refine or_congr_left ?_
    rw [show vp :: [x] ++ [vn] = vp :: x :: [vn] by simp, onPath_cons, onPath_cons,
      show vp :: (P :: mid ++ [Q]) ++ [vn] = vp :: P :: (mid ++ Q :: [vn]) by simp, onPath_cons,
      show P :: (mid ++ Q :: [vn]) = (P :: mid) ++ Q :: [vn] by simp, onPath_append, onPath_cons]
    have h1 : ¬ OnPath (P :: mid ++ [Q]) p := fun hq => hp (inTriangle_path _ (by
      intro z hz; rw [← hmid] at hz; exact hin z hz) hq)
    have h2 : ¬ OnPath [vn] p := onPath_one _ _
    have h3 : OnSegment vp x p ↔ OnSegment vp P p := by
      constructor
      · intro hq
        rcases onSegment_split hP.symm hq with h | h
        · exact h
        · exact absurd (inTriangle_segment hPin hxin h) hp
      · exact onSegment_part hP.symm
    have h4 : OnSegment x vn p ↔ OnSegment Q vn p := by
      constructor
      · intro hq
        rcases onSegment_split hQ' hq with h | h
        · exact absurd (inTriangle_segment hxin hQin h) hp
        · exact h
      · exact fun h => (onSegment_part hQ'.symm h.symm).symm
    rw [h3, h4]
    tauto
  have hz := C31_zero _ hv s hs p
  have hz' := C31_zero _ hv' s' hs' p
  refine ⟨?_, by rw [hz, hz', hout]⟩
  by_cases ho : Outline (A ++ vp :: x :: vn :: B) p
  · have e1 := hz.mpr ho
    have e2 := hz'.mpr (hout.mp ho)
    rw [e1, e2]
  obtain ⟨w, hw, hws⟩ := C31_sign _ hv s hs p ho
  obtain ⟨w', hw', hws'⟩ := C31_sign _ hv' s' hs' p (fun h => ho (hout.mpr h))
  have hseen : seen p (vp :: [x] ++ [vn]) = seen p (vp :: (P :: mid ++ [Q]) ++ [vn]) := by
    rw [ev] at ho
    have ho' := fun h => ho ((hrest [x] p).mpr (Or.inl h))
    rw [show vp :: [x] ++ [vn] = vp :: x :: [vn] by simp, onPath_cons, onPath_cons] at ho'
    have o1 : ¬ OnSegment vp x p := fun h => ho' (Or.inl h)
    have o2 : ¬ OnSegment x vn p := fun h => ho' (Or.inr (Or.inl h))
    have key := seen_half_eq n p P Q [x] mid (hn P hPin) (hn Q hQin) (by simpa using hn x hxin) (fun z hz => hn z (hmidin z hz))
    rw [show P :: [x] ++ [Q] = P :: x :: [Q] by simp, seen_cons, seen_cons, seen_one] at key
    rw [show vp :: [x] ++ [vn] = vp :: x :: [vn] by simp, seen_cons, seen_cons, seen_one,
      show vp :: (P :: mid ++ [Q]) ++ [vn] = vp :: P :: (mid ++ Q :: [vn]) by simp, seen_cons,
      show P :: (mid ++ Q :: [vn]) = (P :: mid) ++ Q :: [vn] by simp, seen_append, ← key, seen_cons, seen_one,
      seen_divide o1 hP.symm, seen_divide o2 hQ']
    ring
  rw [ev, isWinding_replace A B [x] (P :: mid ++ [Q]) vp vn p w hseen, ← ev'] at hw
  rw [hws, hws', C31_winding_unique _ p w w' hw hw']

theorem zip_tail_chain (R : V2 → V2 → Prop) : ∀ l : List V2, (∀ e ∈ l.zip l.tail, R e.1 e.2) ↔ l.IsChain R
  | [] => by simp
  | [a] => by simp
  | a :: b :: l => by
    have ih := zip_tail_chain R (b :: l)
    rw [List.isChain_cons_cons, ← ih]
    simp only [List.tail_cons, List.zip_cons_cons, List.mem_cons, forall_eq_or_imp]

/-- Rounding a corner with room to spare on both sides gives a usable list of corners again. -/
theorem C32_smooth_proper (A B : List V2) (vp x vn : V2) (r : ℝ) (f : ℤ) (hr : 0 < r) (hf : 1 ≤ f)
    (hnd : V2.cross (V2.sub vp x) (V2.sub vn x) ≠ 0)
    (hfit : r * (V2.dist vp x * V2.dist vn x + V2.dot (V2.sub vp x) (V2.sub vn x)) <
      |V2.cross (V2.sub vp x) (V2.sub vn x)| * min (V2.dist vp x) (V2.dist vn x))
    (hv : Proper (A ++ vp :: x :: vn :: B)) :
    ∃ pts, smoothPoints vp x vn r f = some pts ∧ Proper (A ++ vp :: (pts.map PV.vertex ++ vn :: B)) := by
  obtain ⟨pts, h⟩ := (C32_smooth_fits vp x vn r f hnd).mpr hfit.le
  refine ⟨pts, h, ?_⟩
  obtain ⟨c, P, Q, a, hΘ, hpts, hQ, hdist, hP, hPd, hQ', hQe, hlen⟩ := C32_smooth vp x vn r f hr hf hnd pts h
  have hcp : 0 < |V2.cross (V2.sub vp x) (V2.sub vn x)| := abs_pos.mpr hnd
  have hd : V2.dist P x < min (V2.dist vp x) (V2.dist vn x) := by
    rw [← hlen, mul_comm] at hfit
    exact lt_of_mul_lt_mul_left hfit hcp.le
  have hPl : ∃ t, P = V2.add x (V2.scale t (V2.sub vp x)) := ⟨_, hP.choose_spec.2.2⟩
  have hQl : ∃ t, Q = V2.add x (V2.scale t (V2.sub vn x)) := ⟨_, hQ'.choose_spec.2.2⟩
  have hr' : 0 < V2.dist P c := by rw [hdist]; exact hr
  obtain ⟨hsin, -⟩ := tangents_meet hQ hr' hΘ hPl hPd hQl hQe hnd
  have hPQ : V2.dist Q x = V2.dist P x := by
    have e1 : V2.dist P x * V2.dist P x + r * r = V2.dist x c * V2.dist x c := by
      rw [← hdist]
      unfold V2.dist
      rw [V2.norm_sq, V2.norm_sq, V2.norm_sq]
      obtain ⟨t, ht⟩ := hPl
      have hx : P.x = x.x + t * (vp.x - x.x) := by rw [ht]; rfl
      have hy : P.y = x.y + t * (vp.y - x.y) := by rw [ht]; rfl
      simp only [V2.dot, V2.sub] at hPd ⊢
      rw [hx, hy] at hPd ⊢
      linear_combination 2 * t * hPd
    have e2 : V2.dist Q x * V2.dist Q x + r * r = V2.dist x c * V2.dist x c := by
      have hdQ : V2.dist Q c = r := by rw [← hQ, turn_dist, hdist]
      rw [← hdQ]
      unfold V2.dist
      rw [V2.norm_sq, V2.norm_sq, V2.norm_sq]
      obtain ⟨t, ht⟩ := hQl
      have hx : Q.x = x.x + t * (vn.x - x.x) := by rw [ht]; rfl
      have hy : Q.y = x.y + t * (vn.y - x.y) := by rw [ht]; rfl
      simp only [V2.dot, V2.sub] at hQe ⊢
      rw [hx, hy] at hQe ⊢
      linear_combination 2 * t * hQe
    exact (mul_self_inj_of_nonneg (V2.dist_nonneg _ _) (V2.dist_nonneg _ _)).mp (by linarith)
  have hf' : (1 : ℝ) ≤ f := by exact_mod_cast hf
  have ha0 : a ≠ 0 := by
    rintro rfl
    simp at hsin
  have hne : ∀ k : ℕ, turn c (k * a) P ≠ turn c ((k + 1 : ℕ) * a) P := by
    intro k hk
    have e := hk
    rw [turn, turn, V2.mk.injEq] at e
    obtain ⟨ex, ey⟩ := e
    have hcs := Real.sin_sq_add_cos_sq (k * a)
    have hr2 : 0 < (P.x - c.x) * (P.x - c.x) + (P.y - c.y) * (P.y - c.y) := by
      have := V2.norm_sq (V2.sub P c)
      simp only [V2.sub] at this
      rw [← this]
      exact mul_pos hr' hr'
    rw [show ((k + 1 : ℕ) : ℝ) * a = k * a + a by push_cast; ring, Real.cos_add, Real.sin_add] at ex ey
    have hcos : Real.cos a = 1 := by
      have : (Real.cos a - 1) * ((P.x - c.x) * (P.x - c.x) + (P.y - c.y) * (P.y - c.y)) = 0 := by
        have key : ∀ C S X Y ca sa : ℝ, S ^ 2 + C ^ 2 = 1 → C * X - S * Y = (C * ca - S * sa) * X - (S * ca + C * sa) * Y →
            S * X + C * Y = (S * ca + C * sa) * X + (C * ca - S * sa) * Y → (ca - 1) * (X * X + Y * Y) = 0 := by
          intro C S X Y ca sa h1 h2 h3
          linear_combination (-(C * X - S * Y)) * h2 - (S * X + C * Y) * h3 - (ca - 1) * (X * X + Y * Y) * h1
        exact key _ _ _ _ _ _ hcs (by linarith) (by linarith)
      rcases mul_eq_zero.mp this with h | h
      · linarith
      · exact absurd h hr2.ne'
    have hab : |a| < Real.pi := by
      refine lt_of_le_of_lt ?_ hΘ
      rw [abs_mul, abs_of_nonneg (show (0 : ℝ) ≤ f by linarith)]
      nlinarith [abs_nonneg a]
    obtain ⟨a1, a2⟩ := abs_lt.mp hab
    exact ha0 ((Real.cos_eq_one_iff_of_lt_of_lt (by linarith [Real.pi_pos]) (by linarith [Real.pi_pos])).mp hcos)
  obtain ⟨h3, hz, hcl⟩ := hv
  obtain ⟨m, rfl⟩ : ∃ m : ℕ, f = m + 1 := ⟨(f - 1).toNat, by omega⟩
  have hmap : pts.map PV.vertex = (List.range (m + 1)).map (fun k : ℕ => turn c (k * a) P) ++ [Q] := by
    rw [hpts, show ((m : ℤ) + 1 + 1).toNat = m + 1 + 1 by omega, List.range_succ]
    simp only [List.map_append, List.map_map, List.map_cons, List.map_nil, PV.plain, Function.comp_def]
    rw [← hQ]; push_cast; rfl
  have hmap' : pts.map PV.vertex = P :: ((List.range (m + 1)).map (fun k : ℕ => turn c ((k + 1 : ℕ) * a) P)) := by
    rw [hpts, show ((m : ℤ) + 1 + 1).toNat = m + 1 + 1 by omega, List.range_succ_eq_map]
    simp only [List.map_map, List.map_cons, PV.plain, Function.comp_def]
    simp [turn_zero]
  have hvpP : vp ≠ P := by
    rintro rfl
    exact absurd (lt_min_iff.mp hd).1 (lt_irrefl _)
  have hQvn : Q ≠ vn := by
    rintro rfl
    exact absurd (lt_min_iff.mp hd).2 (by rw [hPQ]; exact lt_irrefl _)
  have hchain : (pts.map PV.vertex).IsChain (· ≠ ·) := by
    rw [hpts, List.map_map, List.isChain_map]
    have : ∀ n, (List.range n).IsChain (fun i j => (PV.vertex ∘ fun k : ℕ => PV.plain (turn c (k * a) P)) i ≠
        (PV.vertex ∘ fun k : ℕ => PV.plain (turn c (k * a) P)) j) := by
      intro n
      rw [List.isChain_range]
      intro k _
      exact hne k
    exact this _
  refine ⟨?_, ?_, ?_⟩
  · rw [hmap']; simp; omega
  · rw [zip_tail_chain (· ≠ ·)] at hz ⊢
    rw [List.isChain_append_cons_cons] at hz
    obtain ⟨z1, z2, z3⟩ := hz
    rw [List.isChain_cons_cons] at z3
    have e1 : A ++ vp :: (pts.map PV.vertex ++ vn :: B) =
        A ++ vp :: P :: ((List.range (m + 1)).map (fun k : ℕ => turn c ((k + 1 : ℕ) * a) P) ++ vn :: B) := by rw [hmap']; simp
    rw [e1, List.isChain_append_cons_cons]
    refine ⟨z1, hvpP, ?_⟩
    have e2 : P :: ((List.range (m + 1)).map (fun k : ℕ => turn c ((k + 1 : ℕ) * a) P) ++ vn :: B) =
        (List.range (m + 1)).map (fun k : ℕ => turn c (k * a) P) ++ Q :: vn :: B := by
      have := congrArg (· ++ vn :: B) (hmap'.symm.trans hmap)
      simpa using this
    rw [e2, List.isChain_append_cons_cons]
    exact ⟨hmap ▸ hchain, hQvn, z3.2⟩
  · intro p q hp hq
    refine hcl p q ?_ ?_
    · rw [← hp]; cases A <;> simp
    · rw [← hq]; simp [List.getLast?_append, List.getLast?_cons]

/-- Non-vacuity: the right angle of a triangle is rounded with radius 1/2. -/
example : ∃ pts s s', smoothPoints ⟨0, 0⟩ ⟨2, 0⟩ ⟨2, 2⟩ (1 / 2) 5 = some pts ∧
    Proper [⟨0, 0⟩, ⟨2, 0⟩, ⟨2, 2⟩] ∧ Must2.polygon [⟨0, 0⟩, ⟨2, 0⟩, ⟨2, 2⟩] = some s ∧
    Proper (⟨0, 0⟩ :: (pts.map PV.vertex ++ [⟨2, 2⟩])) ∧ Must2.polygon (⟨0, 0⟩ :: (pts.map PV.vertex ++ [⟨2, 2⟩])) = some s' := by
  have h1 : V2.dist ⟨0, 0⟩ ⟨2, 0⟩ = 2 := by
    unfold V2.dist V2.norm V2.sub
    simp only
    rw [show ((0 : ℝ) - 2) * (0 - 2) + (0 - 0) * (0 - 0) = 2 * 2 by norm_num, Real.sqrt_mul_self (by norm_num)]
  have h2 : V2.dist ⟨2, 2⟩ ⟨2, 0⟩ = 2 := by
    unfold V2.dist V2.norm V2.sub
    simp only
    rw [show ((2 : ℝ) - 2) * (2 - 2) + (2 - 0) * (2 - 0) = 2 * 2 by norm_num, Real.sqrt_mul_self (by norm_num)]
  have hP : Proper [⟨0, 0⟩, ⟨2, 0⟩, ⟨2, 2⟩] := by
    refine ⟨by simp, by simp, ?_⟩
    intro a b ha hb
    simp only [List.head?_cons, Option.some.injEq, List.getLast?_cons_cons, List.getLast?_singleton] at ha hb
    subst ha; subst hb
    right
    intro h
    have := h.1
    norm_num at this
  obtain ⟨pts, e1, e2⟩ := C32_smooth_proper [] [] ⟨0, 0⟩ ⟨2, 0⟩ ⟨2, 2⟩ (1 / 2) 5 (by norm_num) (by norm_num) (by norm_num [V2.cross, V2.sub])
    (by rw [h1, h2]; norm_num [V2.dot, V2.cross, V2.sub]) hP
  have : ∀ l, Proper l → ∃ s, Must2.polygon l = some s := by
    rintro l ⟨hl, -⟩
    match l, hl with
    | a :: b :: c :: l, _ => exact ⟨_, rfl⟩
  obtain ⟨s, hs⟩ := this _ hP
  obtain ⟨s', hs'⟩ := this _ e2
  exact ⟨pts, s, s', e1, hP, hs, e2, hs'⟩

end Sdf
