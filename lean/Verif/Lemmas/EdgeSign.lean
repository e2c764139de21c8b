import Verif.Props.C47Sign

/-! Which side of a surface a point is on whose closest surface point is inside an edge. -/

namespace Sdf
namespace Edge

theorem InSeg.symm {a b q : V3} (h : V3.InSeg a b q) : V3.InSeg b a q := by
  obtain ⟨u, v, hu, hv, hs, rfl⟩ := h
  exact ⟨v, u, hv, hu, by linarith, by ext <;> simp only [V3.add, V3.scale] <;> ring⟩

/-- `M` separates the points of `K` from the others. -/
def Sep (M : V3 → Prop) (K : Set V3) : Prop := ∀ x ∈ K, ∀ y, y ∉ K → ∃ z, V3.InSeg x y z ∧ M z

theorem same_side {M : V3 → Prop} {K : Set V3} (h : Sep M K) {x y : V3} (hn : ∀ z, V3.InSeg x y z → ¬ M z) : x ∈ K ↔ y ∈ K := by
  constructor
  · intro hx
    by_contra hy
    obtain ⟨z, hz, hm⟩ := h x hx y hy
    exact hn z hz hm
  · intro hy
    by_contra hx
    obtain ⟨z, hz, hm⟩ := h y hy x hx
    exact hn z (InSeg.symm hz) hm

/-- The way from near the closest point to the query is free. -/
theorem free {M : V3 → Prop} {p q : V3} (hmin : ∀ z, M z → V3.dist p q ≤ V3.dist p z) (hpq : 0 < V3.dist p q) {s : ℝ} (s0 : 0 < s)
    (s1 : s ≤ 1) {z : V3} (hz : V3.InSeg (V3.add q (V3.scale s (V3.sub p q))) p z) : ¬ M z := by
  intro hm
  have hle := hmin z hm
  obtain ⟨a, b, ha, hb, hab, rfl⟩ := hz
  have hk : V3.sub p (V3.add (V3.scale a (V3.add q (V3.scale s (V3.sub p q)))) (V3.scale b p)) = V3.scale (a * (1 - s)) (V3.sub p q) := by
    have : b = 1 - a := by linarith
    ext <;> simp only [V3.sub, V3.add, V3.scale, this] <;> ring
  have h2 : V3.dist p (V3.add (V3.scale a (V3.add q (V3.scale s (V3.sub p q)))) (V3.scale b p)) = a * (1 - s) * V3.dist p q := by
    unfold V3.dist
    rw [hk, V3.norm_scale, abs_of_nonneg (mul_nonneg ha (by linarith))]
  rw [h2] at hle
  have : a * (1 - s) < 1 := by nlinarith
  nlinarith

/-- `u` points, perpendicularly to the edge direction `e`, from the edge into a face whose points near `q` are described by `mem`. -/
def Half (e u q x : V3) : Prop := ∃ r s, 0 ≤ s ∧ V3.sub x q = V3.add (V3.scale r e) (V3.scale s u)

theorem side {M : V3 → Prop} {K : Set V3} (hS : Sep M K) {p q e u u' : V3} (hpq : 0 < V3.dist p q)
    (hmin : ∀ z, M z → V3.dist p q ≤ V3.dist p z) (ee : V3.dot e e = 1) (uu : V3.dot u u = 1) (eu : V3.dot e u = 0) (eu' : V3.dot e u' = 0)
    (ed : V3.dot e (V3.sub p q) = 0) {ρ : ℝ} (hρ : 0 < ρ) (hloc : ∀ x, V3.dist x q < ρ → M x → Half e u q x ∨ Half e u' q x)
    (hcone : ∀ x y, 0 ≤ x → 0 < y → u' ≠ V3.add (V3.scale x u) (V3.scale y (V3.sub p q)))
    (hn : V3.dot (V3.cross e u) (V3.sub p q) ≠ 0) {s0 : ℝ} (hs0 : 0 < s0)
    (hout : ∀ s, 0 < s → s < s0 → ∃ ε, 0 < ε ∧ ∀ x, V3.dist x (V3.add q (V3.scale s u)) < ε →
      (V3.dot (V3.cross e u) (V3.sub x (V3.add q (V3.scale s u))) < 0 → x ∈ K) ∧
      (0 < V3.dot (V3.cross e u) (V3.sub x (V3.add q (V3.scale s u))) → x ∉ K)) :
    (V3.dot (V3.cross e u) (V3.sub p q) < 0 → p ∈ K) ∧ (0 < V3.dot (V3.cross e u) (V3.sub p q) → p ∉ K) := by
  set d := V3.sub p q with hd
  have hdn : V3.norm d = V3.dist p q := rfl
  have hun : V3.norm u = 1 := by
    have := V3.norm_sq u
    have h2 : u.x * u.x + u.y * u.y + u.z * u.z = 1 := uu
    nlinarith [V3.norm_nonneg u]
  set D := V3.dist p q with hD
  obtain ⟨ε, ε0, ε1, ε2, ε3⟩ : ∃ ε, 0 < ε ∧ ε ≤ 1 ∧ ε * (1 + D) < ρ ∧ ε < s0 := by
    refine ⟨min 1 (min (ρ / (2 * (1 + D))) (s0 / 2)), by positivity, min_le_left _ _, ?_, ?_⟩
    · have : min 1 (min (ρ / (2 * (1 + D))) (s0 / 2)) ≤ ρ / (2 * (1 + D)) := (min_le_right _ _).trans (min_le_left _ _)
      calc _ ≤ ρ / (2 * (1 + D)) * (1 + D) := mul_le_mul_of_nonneg_right this (by positivity)
        _ = ρ / 2 := by field_simp
        _ < ρ := by linarith
    · have : min 1 (min (ρ / (2 * (1 + D))) (s0 / 2)) ≤ s0 / 2 := (min_le_right _ _).trans (min_le_right _ _)
      linarith
  obtain ⟨δ, δ0, hδ⟩ := hout ε ε0 ε3
  obtain ⟨η, η0, η1, η2⟩ : ∃ η, 0 < η ∧ η ≤ 1 ∧ ε * η * D < δ := by
    refine ⟨min 1 (δ / (2 * D)), by positivity, min_le_left _ _, ?_⟩
    have h1 : min 1 (δ / (2 * D)) ≤ δ / (2 * D) := min_le_right _ _
    calc ε * min 1 (δ / (2 * D)) * D ≤ 1 * (δ / (2 * D)) * D := by
          refine mul_le_mul_of_nonneg_right ?_ hpq.le
          exact mul_le_mul ε1 h1 (by positivity) zero_le_one
      _ = δ / 2 := by field_simp
      _ < δ := by linarith
  set A := V3.add q (V3.scale ε d) with hA
  set B := V3.add q (V3.scale ε (V3.add u (V3.scale η d))) with hB
  have hAp : A ∈ K ↔ p ∈ K := same_side hS fun z hz => free hmin hpq ε0 ε1 hz
  have hnu : V3.dot (V3.cross e u) u = 0 := by simp only [V3.dot, V3.cross]; ring
  have hne : V3.dot (V3.cross e u) e = 0 := by simp only [V3.dot, V3.cross]; ring
  have hAB : A ∈ K ↔ B ∈ K := by
    refine same_side hS ?_
    rintro z ⟨a, b, ha, hb, hab, rfl⟩ hm
    set y := a + b * η with hy
    have hy0 : 0 < y := by
      rcases ha.lt_or_eq with h | h
      · have := mul_nonneg hb η0.le; linarith
      · have : b = 1 := by linarith
        rw [hy, ← h, this]; linarith
    have hy1 : y ≤ 1 := by nlinarith
    have hz : V3.sub (V3.add (V3.scale a A) (V3.scale b B)) q = V3.scale ε (V3.add (V3.scale b u) (V3.scale y d)) := by
      have : a = 1 - b := by linarith
      rw [hA, hB, hy]
      ext <;> simp only [V3.sub, V3.add, V3.scale, this] <;> ring
    have hdist : V3.dist (V3.add (V3.scale a A) (V3.scale b B)) q < ρ := by
      unfold V3.dist
      rw [hz, V3.norm_scale, abs_of_pos ε0]
      refine lt_of_le_of_lt (mul_le_mul_of_nonneg_left ?_ ε0.le) ε2
      refine (V3.norm_add_le _ _).trans ?_
      rw [V3.norm_scale, V3.norm_scale, hun, hdn, abs_of_nonneg hb, abs_of_pos hy0, mul_one]
      have : y * D ≤ 1 * D := mul_le_mul_of_nonneg_right hy1 hpq.le
      linarith
    have hnz : V3.dot (V3.cross e u) (V3.scale ε (V3.add (V3.scale b u) (V3.scale y d))) = ε * y * V3.dot (V3.cross e u) d := by
      have : V3.dot (V3.cross e u) (V3.scale ε (V3.add (V3.scale b u) (V3.scale y d))) =
          ε * (b * V3.dot (V3.cross e u) u + y * V3.dot (V3.cross e u) d) := by
        simp only [V3.dot, V3.add, V3.scale]; ring
      rw [this, hnu]; ring
    have hnz0 : ε * y * V3.dot (V3.cross e u) d ≠ 0 := mul_ne_zero (mul_ne_zero ε0.ne' hy0.ne') hn
    rcases hloc _ hdist hm with ⟨r, s, -, h⟩ | ⟨r, s, hs, h⟩
    · rw [hz] at h
      rw [h] at hnz
      apply hnz0
      rw [← hnz]
      have : V3.dot (V3.cross e u) (V3.add (V3.scale r e) (V3.scale s u)) =
          r * V3.dot (V3.cross e u) e + s * V3.dot (V3.cross e u) u := by
        simp only [V3.dot, V3.add, V3.scale]; ring
      rw [this, hne, hnu]; ring
    · rw [hz] at h
      have hr : r = 0 := by
        have h1 := congrArg (V3.dot e) h
        have e1 : V3.dot e (V3.scale ε (V3.add (V3.scale b u) (V3.scale y d))) = ε * (b * V3.dot e u + y * V3.dot e d) := by
          simp only [V3.dot, V3.add, V3.scale]; ring
        have e2 : V3.dot e (V3.add (V3.scale r e) (V3.scale s u')) = r * V3.dot e e + s * V3.dot e u' := by
          simp only [V3.dot, V3.add, V3.scale]; ring
        rw [e1, e2, eu, ed, ee, eu'] at h1
        linarith
      rcases hs.lt_or_eq with hs | hs
      · refine hcone (ε / s * b) (ε / s * y) (by positivity) (by positivity) ?_
        rw [hr] at h
        have hx := congrArg V3.x h
        have hy' := congrArg V3.y h
        have hz' := congrArg V3.z h
        simp only [V3.add, V3.scale] at hx hy' hz'
        ext <;> simp only [V3.add, V3.scale] <;> field_simp <;> linarith
      · apply hnz0
        rw [← hnz, h, hr, ← hs]
        simp [V3.dot, V3.add, V3.scale]
  have hBs : V3.sub B (V3.add q (V3.scale ε u)) = V3.scale (ε * η) d := by
    rw [hB]; ext <;> simp only [V3.sub, V3.add, V3.scale] <;> ring
  have hBd : V3.dist B (V3.add q (V3.scale ε u)) < δ := by
    unfold V3.dist
    rw [hBs, V3.norm_scale, abs_of_pos (by positivity), hdn]
    exact η2
  obtain ⟨k1, k2⟩ := hδ B hBd
  rw [hBs] at k1 k2
  have hdot : V3.dot (V3.cross e u) (V3.scale (ε * η) d) = ε * η * V3.dot (V3.cross e u) d := by
    simp only [V3.dot, V3.scale]; ring
  rw [hdot] at k1 k2
  have hεη : 0 < ε * η := by positivity
  constructor
  · intro h
    exact hAp.1 (hAB.2 (k1 (mul_neg_of_pos_of_neg hεη h)))
  · intro h hp
    exact k2 (mul_pos hεη h) (hAB.1 (hAp.2 hp))

/-- Where the two normals agree in sign with their sum, the second face is not in the way. -/
theorem cone_free {e u u' d : V3} (uu' : V3.dot u' u' = 1) (ud : V3.dot u d ≤ 0) (ud' : V3.dot u' d ≤ 0)
    (h : 0 < V3.dot (V3.cross e u) d * (V3.dot (V3.cross e u) d + V3.dot (V3.cross u' e) d)) (uu : V3.dot u u = 1) {x y : ℝ} (hx : 0 ≤ x)
    (hy : 0 < y) : u' ≠ V3.add (V3.scale x u) (V3.scale y d) := by
  intro he
  have h2 : V3.dot (V3.cross u' e) d = -x * V3.dot (V3.cross e u) d := by
    rw [he]; simp only [V3.dot, V3.cross, V3.add, V3.scale]; ring
  rw [h2] at h
  have hx1 : x < 1 := by
    by_contra hc
    have : V3.dot (V3.cross e u) d * (V3.dot (V3.cross e u) d + -x * V3.dot (V3.cross e u) d) = (1 - x) * V3.dot (V3.cross e u) d ^ 2 := by ring
    rw [this] at h
    nlinarith [sq_nonneg (V3.dot (V3.cross e u) d)]
  have e1 : V3.dot u' u' = x ^ 2 * V3.dot u u + x * y * V3.dot u d + y * V3.dot u' d := by
    rw [he]; simp only [V3.dot, V3.add, V3.scale]; ring
  rw [uu', uu] at e1
  have := mul_nonneg hx hy.le
  nlinarith

/-- The sum of the normals decides, unless the two faces are folded onto each other. -/
theorem sum_ne {e u u' d : V3} (ee : V3.dot e e = 1) (uu : V3.dot u u = 1) (uu' : V3.dot u' u' = 1) (eu : V3.dot e u = 0) (eu' : V3.dot e u' = 0)
    (ed : V3.dot e d = 0) (ud : V3.dot u d ≤ 0) (ud' : V3.dot u' d ≤ 0) (hne : u ≠ u') (hd : d ≠ ⟨0, 0, 0⟩) :
    V3.dot (V3.cross e u) d + V3.dot (V3.cross u' e) d ≠ 0 := by
  intro h
  set w := V3.sub u u' with hw
  have hw0 : w ≠ ⟨0, 0, 0⟩ := by
    intro e0
    apply hne
    have hx := congrArg V3.x e0
    have hy := congrArg V3.y e0
    have hz := congrArg V3.z e0
    simp only [hw, V3.sub] at hx hy hz
    ext <;> linarith
  have hww : 0 < V3.dot w w := by
    have := V3.norm_pos hw0
    have h2 := V3.norm_sq w
    unfold V3.dot
    nlinarith
  have ew : V3.dot e w = 0 := by
    have : V3.dot e w = V3.dot e u - V3.dot e u' := by rw [hw]; simp only [V3.dot, V3.sub]; ring
    rw [this, eu, eu']; ring
  have hc : V3.dot (V3.cross e w) d = 0 := by
    have : V3.dot (V3.cross e w) d = V3.dot (V3.cross e u) d + V3.dot (V3.cross u' e) d := by
      rw [hw]; simp only [V3.dot, V3.cross, V3.sub]; ring
    rw [this, h]
  -- the direction is along w
  have hsq : V3.dot w w * V3.dot d d = V3.dot w d ^ 2 := by
    have gram : V3.dot (V3.cross e w) d ^ 2 = V3.dot e e * V3.dot w w * V3.dot d d + 2 * V3.dot e w * V3.dot w d * V3.dot e d -
        V3.dot e e * V3.dot w d ^ 2 - V3.dot w w * V3.dot e d ^ 2 - V3.dot d d * V3.dot e w ^ 2 := by
      simp only [V3.dot, V3.cross]; ring
    rw [hc, ee, ew, ed] at gram
    linarith
  have hwd : V3.dot w d = V3.dot u d - V3.dot u' d := by rw [hw]; simp only [V3.dot, V3.sub]; ring
  -- d = k w
  have hk : V3.sub (V3.scale (V3.dot w w) d) (V3.scale (V3.dot w d) w) = ⟨0, 0, 0⟩ := by
    by_contra hc
    have h1 := V3.norm_pos hc
    have h2 := V3.norm_sq (V3.sub (V3.scale (V3.dot w w) d) (V3.scale (V3.dot w d) w))
    have h3 : V3.dot (V3.sub (V3.scale (V3.dot w w) d) (V3.scale (V3.dot w d) w)) (V3.sub (V3.scale (V3.dot w w) d) (V3.scale (V3.dot w d) w)) =
        V3.dot w w * (V3.dot w w * V3.dot d d - V3.dot w d ^ 2) := by
      simp only [V3.dot, V3.sub, V3.scale]; ring
    rw [hsq, sub_self, mul_zero] at h3
    unfold V3.dot at h3
    unfold V3.dot at h2 h1
    nlinarith
  have hku : V3.dot w w * V3.dot u d = V3.dot w d * V3.dot u w := by
    have h1 := congrArg (V3.dot u) hk
    have e1 : V3.dot u (V3.sub (V3.scale (V3.dot w w) d) (V3.scale (V3.dot w d) w)) = V3.dot w w * V3.dot u d - V3.dot w d * V3.dot u w := by
      generalize V3.dot w w = k1; generalize V3.dot w d = k2
      simp only [V3.dot, V3.sub, V3.scale]; ring
    rw [e1] at h1
    simp only [V3.dot, mul_zero, add_zero] at h1 ⊢
    linarith
  have hku' : V3.dot w w * V3.dot u' d = V3.dot w d * V3.dot u' w := by
    have h1 := congrArg (V3.dot u') hk
    have e1 : V3.dot u' (V3.sub (V3.scale (V3.dot w w) d) (V3.scale (V3.dot w d) w)) = V3.dot w w * V3.dot u' d - V3.dot w d * V3.dot u' w := by
      generalize V3.dot w w = k1; generalize V3.dot w d = k2
      simp only [V3.dot, V3.sub, V3.scale]; ring
    rw [e1] at h1
    simp only [V3.dot, mul_zero, add_zero] at h1 ⊢
    linarith
  have huw : V3.dot u w = V3.dot w w / 2 := by
    have e1 : V3.dot u w = V3.dot u u - V3.dot u u' := by rw [hw]; simp only [V3.dot, V3.sub]; ring
    have e2 : V3.dot w w = V3.dot u u + V3.dot u' u' - 2 * V3.dot u u' := by rw [hw]; simp only [V3.dot, V3.sub]; ring
    rw [e1, e2, uu, uu']; ring
  have huw' : V3.dot u' w = -(V3.dot w w / 2) := by
    have e1 : V3.dot u' w = V3.dot u u' - V3.dot u' u' := by rw [hw]; simp only [V3.dot, V3.sub]; ring
    have e2 : V3.dot w w = V3.dot u u + V3.dot u' u' - 2 * V3.dot u u' := by rw [hw]; simp only [V3.dot, V3.sub]; ring
    rw [e1, e2, uu, uu']; ring
  rw [huw] at hku
  rw [huw'] at hku'
  have hle : V3.dot w d ≤ 0 := by
    by_contra hc
    have h1 : 0 < V3.dot w d * (V3.dot w w / 2) := mul_pos (not_le.1 hc) (by linarith)
    nlinarith
  have hge : 0 ≤ V3.dot w d := by
    by_contra hc
    have h1 : 0 < V3.dot w d * -(V3.dot w w / 2) := mul_pos_of_neg_of_neg (not_le.1 hc) (by linarith)
    nlinarith
  have hwd0 : V3.dot w d = 0 := le_antisymm hle hge
  rw [hwd0] at hsq
  have hdd : 0 < V3.dot d d := by
    have := V3.norm_pos hd
    have h2 := V3.norm_sq d
    unfold V3.dot
    nlinarith
  nlinarith [mul_pos hww hdd]

/-- A direction in which the surface continues makes an obtuse angle with the way to the query. -/
theorem obtuse {M : V3 → Prop} {p q : V3} (hmin : ∀ z, M z → V3.dist p q ≤ V3.dist p z) {v : V3} {s : ℝ} (hs : 0 < s)
    (h : ∀ x, 0 < x → x < s → M (V3.add q (V3.scale x v))) : V3.dot v (V3.sub p q) ≤ 0 := by
  by_contra hc
  have hpos : 0 < V3.dot v (V3.sub p q) := not_le.1 hc
  have hexp : ∀ x, V3.norm2 (V3.sub p (V3.add q (V3.scale x v))) =
      V3.norm2 (V3.sub p q) - 2 * x * V3.dot v (V3.sub p q) + x ^ 2 * V3.norm2 v := by
    intro x; simp only [V3.norm2, V3.sub, V3.add, V3.scale, V3.dot]; ring
  have hn : 0 ≤ V3.norm2 v := by unfold V3.norm2; nlinarith [mul_self_nonneg v.x, mul_self_nonneg v.y, mul_self_nonneg v.z]
  have hle : ∀ x, 0 < x → x < s → 2 * V3.dot v (V3.sub p q) ≤ x * V3.norm2 v := by
    intro x x0 x1
    have h1 := hmin _ (h x x0 x1)
    have h2 : V3.norm2 (V3.sub p q) ≤ V3.norm2 (V3.sub p (V3.add q (V3.scale x v))) := by
      rw [V3.norm2_eq_dist, V3.norm2_eq_dist]
      exact pow_le_pow_left₀ (Real.sqrt_nonneg _) h1 2
    rw [hexp] at h2
    nlinarith
  set c := V3.dot v (V3.sub p q)
  set n := V3.norm2 v
  have hx0 : 0 < min (s / 2) (c / (n + 1)) := by positivity
  have := hle (min (s / 2) (c / (n + 1))) hx0 (lt_of_le_of_lt (min_le_left _ _) (by linarith))
  have h3 : min (s / 2) (c / (n + 1)) * n ≤ c := by
    calc min (s / 2) (c / (n + 1)) * n ≤ c / (n + 1) * n := mul_le_mul_of_nonneg_right (min_le_right _ _) hn
      _ ≤ c := by
        rw [div_mul_eq_mul_div, div_le_iff₀ (by linarith)]
        nlinarith
  linarith

end Edge
end Sdf
