import Verif.Props.C42Closest

/-! C42: closest point on a triangle (theorems). -/

namespace Sdf

/-- The nearest edge gives the nearest point of the triangle. -/
theorem edge_result {a b c p : V2} (h : V2.CCW a b c) (hout : ¬ V2.InTri a b c p)
    (h1 : V2.norm2 (distToLine p a b).1 ≤ V2.norm2 (distToLine p b c).1)
    (h2 : V2.norm2 (distToLine p a b).1 ≤ V2.norm2 (distToLine p c a).1) :
    ∃ x, (distToLine p a b).1 = V2.sub p x ∧ V2.InSeg a b x ∧
      (∀ q, V2.InTri a b c q → V2.norm2 (V2.sub p x) ≤ V2.norm2 (V2.sub p q)) ∧
      ((distToLine p a b).2 = 0 ∧ x = b ∨ (distToLine p a b).2 = 1 ∧ x = a ∨ (distToLine p a b).2 = 2) := by
  obtain ⟨x, hx, ex, mx, kx⟩ := distToLine_spec h.ne p
  obtain ⟨y, hy, ey, my, -⟩ := distToLine_spec h.rot.ne p
  obtain ⟨z, hz, ez, mz, -⟩ := distToLine_spec h.rot.rot.ne p
  have hb : ∀ q, V2.InSeg a b q ∨ V2.InSeg b c q ∨ V2.InSeg c a q → V2.norm2 (V2.sub p x) ≤ V2.norm2 (V2.sub p q) := by
    rintro q (hq | hq | hq)
    · exact mx q hq
    · have := my q hq; linarith
    · have := mz q hq; linarith
  have hneg : d2Sign p a b < 0 ∨ d2Sign p b c < 0 ∨ d2Sign p c a < 0 := by
    by_contra hc
    push Not at hc
    exact hout ((inTri_iff h p).2 hc)
  have hall : ∀ q, V2.InTri a b c q → V2.norm2 (V2.sub p x) ≤ V2.norm2 (V2.sub p q) := by
    intro q hq
    obtain ⟨s, s0, s1, hc⟩ := exit_tri h hq hneg
    have := hb (V2.mix s q p) (by
      rcases hc with ⟨-, h⟩ | ⟨-, h⟩ | ⟨-, h⟩
      exacts [Or.inl h, Or.inr (Or.inl h), Or.inr (Or.inr h)])
    rw [norm2_mix] at this
    have hs : (1 - s) ^ 2 ≤ 1 := by nlinarith
    have := mul_le_mul_of_nonneg_right hs (V2.norm2_nonneg (V2.sub p q))
    linarith
  rcases kx with ⟨k, e, r⟩ | ⟨k, e, r⟩ | ⟨k, e, r⟩
  · exact ⟨x, r, hx, hall, Or.inl ⟨k, e⟩⟩
  · exact ⟨x, r, hx, hall, Or.inr (Or.inl ⟨k, e⟩)⟩
  · refine ⟨x, r ?_, hx, hall, Or.inr (Or.inr k)⟩
    by_contra hc
    have hp : 0 < d2Sign p a b := not_le.1 hc
    exact inner_foot h hp (hneg.resolve_left (by linarith)) hx e hb

/-- What the loop over the edges selects. -/
theorem loop_select {a b c p : V2} (h0 : V2.norm2 (distToLine p a b).1 < maxFloat64) :
    ∃ j l0 l1, ((j = 0 ∧ l0 = a ∧ l1 = b) ∨ (j = 1 ∧ l0 = b ∧ l1 = c) ∨ (j = 2 ∧ l0 = c ∧ l1 = a)) ∧
      ((((⟨maxFloat64, ⟨0, 0⟩, .v0⟩ : Nearest2).edge p 0 a b).edge p 1 b c).edge p 2 c a) =
        ⟨V2.norm2 (distToLine p l0 l1).1, V2.sub p (distToLine p l0 l1).1,
          if (distToLine p l0 l1).2 < 2 then Feature.num ((j + (distToLine p l0 l1).2) % 3) else Feature.num (3 + j % 3)⟩ ∧
      V2.norm2 (distToLine p l0 l1).1 ≤ V2.norm2 (distToLine p a b).1 ∧
      V2.norm2 (distToLine p l0 l1).1 ≤ V2.norm2 (distToLine p b c).1 ∧
      V2.norm2 (distToLine p l0 l1).1 ≤ V2.norm2 (distToLine p c a).1 := by
  have e0 : (⟨maxFloat64, ⟨0, 0⟩, .v0⟩ : Nearest2).edge p 0 a b = ⟨V2.norm2 (distToLine p a b).1, V2.sub p (distToLine p a b).1,
      if (distToLine p a b).2 < 2 then Feature.num ((0 + (distToLine p a b).2) % 3) else Feature.num (3 + 0 % 3)⟩ := by
    unfold Nearest2.edge
    dsimp only
    rw [if_pos h0]
  rw [e0]
  have e1 : ∀ st : Nearest2, ∀ j l0 l1, st.edge p j l0 l1 = if V2.norm2 (distToLine p l0 l1).1 < st.minDist then
      ⟨V2.norm2 (distToLine p l0 l1).1, V2.sub p (distToLine p l0 l1).1,
      if (distToLine p l0 l1).2 < 2 then Feature.num ((j + (distToLine p l0 l1).2) % 3) else Feature.num (3 + j % 3)⟩ else st := by
    intro st j l0 l1
    unfold Nearest2.edge
    dsimp only
  rw [e1 _ 1 b c, e1 _ 2 c a]
  dsimp only
  by_cases c1 : V2.norm2 (distToLine p b c).1 < V2.norm2 (distToLine p a b).1
  · rw [if_pos c1]
    dsimp only
    by_cases c2 : V2.norm2 (distToLine p c a).1 < V2.norm2 (distToLine p b c).1
    · rw [if_pos c2]
      exact ⟨2, c, a, Or.inr (Or.inr ⟨rfl, rfl, rfl⟩), rfl, by linarith, c2.le, le_rfl⟩
    · rw [if_neg c2]
      exact ⟨1, b, c, Or.inr (Or.inl ⟨rfl, rfl, rfl⟩), rfl, by linarith, le_rfl, not_lt.1 c2⟩
  · rw [if_neg c1]
    dsimp only
    by_cases c2 : V2.norm2 (distToLine p c a).1 < V2.norm2 (distToLine p a b).1
    · rw [if_pos c2]
      exact ⟨2, c, a, Or.inr (Or.inr ⟨rfl, rfl, rfl⟩), rfl, c2.le, by linarith, le_rfl⟩
    · rw [if_neg c2]
      exact ⟨0, a, b, Or.inl ⟨rfl, rfl, rfl⟩, rfl, le_rfl, not_lt.1 c1, not_lt.1 c2⟩

theorem inTriangle_iff {a b c : V2} (h : V2.CCW a b c) (p : V2) : inTriangle p a b c ↔ V2.InTri a b c p := by
  rw [inTri_iff h]
  have hs : d2Sign p a b + d2Sign p b c + d2Sign p c a = V2.cross (V2.sub b a) (V2.sub c a) := by
    simp only [d2Sign, V2.cross, V2.sub]; ring
  have hp : 0 < V2.cross (V2.sub b a) (V2.sub c a) := h
  unfold inTriangle
  dsimp only
  constructor
  · intro hn
    by_contra hc
    have hlt : d2Sign p a b < 0 ∨ d2Sign p b c < 0 ∨ d2Sign p c a < 0 := by
      by_contra hx
      push Not at hx
      exact hc hx
    refine hn ⟨hlt, ?_⟩
    by_contra hx
    push Not at hx
    linarith [hx.1, hx.2.1, hx.2.2]
  · rintro ⟨h1, h2, h3⟩ ⟨hx | hx | hx, -⟩ <;> linarith

theorem V2.InSeg.symm {a b q : V2} (h : V2.InSeg a b q) : V2.InSeg b a q := by
  obtain ⟨u, v, hu, hv, hs, rfl⟩ := h
  refine ⟨v, u, hv, hu, by linarith, ?_⟩
  ext <;> simp only [V2.add, V2.scale] <;> ring

/-- Result of the planar routine, all facts together. -/
theorem closest2_facts {a b c : V2} (h : V2.CCW a b c) (p : V2) (hp : V2.norm2 (V2.sub p a) < maxFloat64) :
    (V2.InTri a b c p ∧ closestOnTriangle2 p a b c = (p, .face)) ∨
    (¬ V2.InTri a b c p ∧ ∃ x f, closestOnTriangle2 p a b c = (x, f) ∧
      (∀ q, V2.InTri a b c q → V2.norm2 (V2.sub p x) ≤ V2.norm2 (V2.sub p q)) ∧
      ((f = .e0 ∧ V2.InSeg a b x) ∨ (f = .e1 ∧ V2.InSeg b c x) ∨ (f = .e2 ∧ V2.InSeg c a x) ∨
        (f = .v0 ∧ (x = b ∨ x = c)) ∨ (f = .v1 ∧ (x = a ∨ x = c)) ∨ (f = .v2 ∧ (x = a ∨ x = b)))) := by
  by_cases hin : V2.InTri a b c p
  · left
    refine ⟨hin, ?_⟩
    unfold closestOnTriangle2
    rw [if_pos ((inTriangle_iff h p).2 hin)]
  right
  refine ⟨hin, ?_⟩
  have h0 : V2.norm2 (distToLine p a b).1 < maxFloat64 := by
    obtain ⟨x, hx, ex, mx, -⟩ := distToLine_spec h.ne p
    rw [ex]
    refine lt_of_le_of_lt (mx a ⟨1, 0, zero_le_one, le_rfl, by norm_num, by ext <;> simp [V2.add, V2.scale]⟩) hp
  obtain ⟨j, l0, l1, hj, hst, m1, m2, m3⟩ := loop_select h0
  have hcl : closestOnTriangle2 p a b c = (V2.sub p (distToLine p l0 l1).1,
      if (distToLine p l0 l1).2 < 2 then Feature.num ((j + (distToLine p l0 l1).2) % 3) else Feature.num (3 + j % 3)) := by
    unfold closestOnTriangle2
    rw [if_neg (fun hc => hin ((inTriangle_iff h p).1 hc))]
    dsimp only
    rw [hst]
  rw [hcl]
  have hsub : ∀ x, V2.sub p (V2.sub p x) = x := by intro x; ext <;> simp [V2.sub]
  rcases hj with ⟨rfl, rfl, rfl⟩ | ⟨rfl, rfl, rfl⟩ | ⟨rfl, rfl, rfl⟩
  · obtain ⟨x, ex, sx, mx, kx⟩ := edge_result h hin m2 m3
    refine ⟨x, _, by rw [ex, hsub], mx, ?_⟩
    rcases kx with ⟨k, e⟩ | ⟨k, e⟩ | k
    · rw [k]; simp [Feature.num, e]
    · rw [k]; simp [Feature.num, e]
    · rw [k]; simp [Feature.num, sx]
  · obtain ⟨x, ex, sx, mx, kx⟩ := edge_result h.rot (fun hc => hin hc.rot.rot) m3 m1
    refine ⟨x, _, by rw [ex, hsub], fun q hq => mx q hq.rot, ?_⟩
    rcases kx with ⟨k, e⟩ | ⟨k, e⟩ | k
    · rw [k]; simp [Feature.num, e]
    · rw [k]; simp [Feature.num, e]
    · rw [k]; simp [Feature.num, sx]
  · obtain ⟨x, ex, sx, mx, kx⟩ := edge_result h.rot.rot (fun hc => hin hc.rot) m1 m2
    refine ⟨x, _, by rw [ex, hsub], fun q hq => mx q hq.rot.rot, ?_⟩
    rcases kx with ⟨k, e⟩ | ⟨k, e⟩ | k
    · rw [k]; simp [Feature.num, e]
    · rw [k]; simp [Feature.num, e]
    · rw [k]; simp [Feature.num, sx]

theorem V2.dist_le_of_norm2 {a b c d : V2} (h : V2.norm2 (V2.sub a b) ≤ V2.norm2 (V2.sub c d)) : V2.dist a b ≤ V2.dist c d := by
  unfold V2.dist V2.norm
  exact Real.sqrt_le_sqrt h

/-- In the plane, for corners listed counter-clockwise: the returned point is the point of the triangle nearest to the query, the
feature is the face exactly when the query is in the triangle, and a reported edge contains the point.  (Missing from the full
property: the reported vertex, which is wrong, and corners listed clockwise; see below.) -/
theorem C42_plane_partial (a b c : V2) (h : V2.CCW a b c) (p : V2) (hp : V2.norm2 (V2.sub p a) < maxFloat64) :
    let r := closestOnTriangle2 p a b c
    V2.InTri a b c r.1 ∧ (∀ q, V2.InTri a b c q → V2.dist p r.1 ≤ V2.dist p q) ∧ (r.2 = .face ↔ V2.InTri a b c p) ∧
      (r.2 = .e0 → V2.InSeg a b r.1) ∧ (r.2 = .e1 → V2.InSeg b c r.1) ∧ (r.2 = .e2 → V2.InSeg c a r.1) := by
  intro r
  have hva : V2.InTri a b c a := ⟨1, 0, 0, zero_le_one, le_rfl, le_rfl, by norm_num, by ext <;> simp [V2.add, V2.scale]⟩
  have hvb : V2.InTri a b c b := ⟨0, 1, 0, le_rfl, zero_le_one, le_rfl, by norm_num, by ext <;> simp [V2.add, V2.scale]⟩
  have hvc : V2.InTri a b c c := ⟨0, 0, 1, le_rfl, le_rfl, zero_le_one, by norm_num, by ext <;> simp [V2.add, V2.scale]⟩
  rcases closest2_facts h p hp with ⟨hin, e⟩ | ⟨hout, x, f, e, hmin, hf⟩
  · have hr : r = (p, .face) := e
    rw [hr]
    refine ⟨hin, fun q _ => ?_, by simp [hin], by simp, by simp, by simp⟩
    have : V2.dist p p = 0 := by simp [V2.dist, V2.norm, V2.sub]
    rw [this]
    exact Real.sqrt_nonneg _
  · have hr : r = (x, f) := e
    rw [hr]
    refine ⟨?_, fun q hq => V2.dist_le_of_norm2 (hmin q hq), ?_, ?_, ?_, ?_⟩
    · rcases hf with ⟨-, hx⟩ | ⟨-, hx⟩ | ⟨-, hx⟩ | ⟨-, rfl | rfl⟩ | ⟨-, rfl | rfl⟩ | ⟨-, rfl | rfl⟩
      exacts [inSeg_inTri c hx, (inSeg_inTri a hx).rot.rot, (inSeg_inTri b hx).rot, hvb, hvc, hva, hvc, hva, hvb]
    · rcases hf with ⟨rfl, -⟩ | ⟨rfl, -⟩ | ⟨rfl, -⟩ | ⟨rfl, -⟩ | ⟨rfl, -⟩ | ⟨rfl, -⟩ <;> simp [hout]
    all_goals
      rcases hf with ⟨rfl, h⟩ | ⟨rfl, h⟩ | ⟨rfl, h⟩ | ⟨rfl, -⟩ | ⟨rfl, -⟩ | ⟨rfl, -⟩ <;> simp [*]

/-- A reported vertex is never the vertex the closest point is at. -/
theorem C42_vertex_wrong (a b c : V2) (h : V2.CCW a b c) (p : V2) (hp : V2.norm2 (V2.sub p a) < maxFloat64) :
    let r := closestOnTriangle2 p a b c
    (r.2 = .v0 → r.1 = b ∨ r.1 = c) ∧ (r.2 = .v1 → r.1 = a ∨ r.1 = c) ∧ (r.2 = .v2 → r.1 = a ∨ r.1 = b) := by
  intro r
  rcases closest2_facts h p hp with ⟨hin, e⟩ | ⟨hout, x, f, e, hmin, hf⟩
  · have hr : r = (p, .face) := e
    rw [hr]; simp
  · have hr : r = (x, f) := e
    rw [hr]
    rcases hf with ⟨rfl, -⟩ | ⟨rfl, -⟩ | ⟨rfl, -⟩ | ⟨rfl, h⟩ | ⟨rfl, h⟩ | ⟨rfl, h⟩ <;> simp [h]

theorem big : (100 : ℝ) < maxFloat64 := by
  unfold maxFloat64
  have h : (2 : ℝ) ^ 10 ≤ 2 ^ 1023 := pow_le_pow_right₀ (by norm_num) (by norm_num)
  have h2 : (0 : ℝ) < 2 ^ 1023 := by positivity
  norm_num at h
  generalize (2 : ℝ) ^ 1023 = x at *
  have e : ((2 : ℝ) - 2 ^ (-52 : ℤ)) = 9007199254740991 / 4503599627370496 := by norm_num
  nlinarith

/-- A concrete query whose closest point is the first corner and is reported as the second one. -/
theorem C42_vertex_witness :
    closestOnTriangle2 ⟨-1, -1⟩ ⟨0, 0⟩ ⟨1, 0⟩ ⟨0, 1⟩ = (⟨0, 0⟩, .v1) := by
  have hb := big
  unfold closestOnTriangle2
  rw [if_neg (by unfold inTriangle; simp only [d2Sign]; norm_num)]
  have e0 : distToLine ⟨-1, -1⟩ ⟨0, 0⟩ ⟨1, 0⟩ = (⟨-1, -1⟩, 1) := by
    unfold distToLine
    dsimp only
    rw [if_neg (by simp only [edgeEquation, V2.add, V2.sub]; norm_num), if_pos (by simp only [edgeEquation, V2.add, V2.sub]; norm_num)]
    simp [V2.sub]
  have e1 : distToLine ⟨-1, -1⟩ ⟨1, 0⟩ ⟨0, 1⟩ =
      (V2.scale (-(distToLineInfinite ⟨-1, -1⟩ ⟨1, 0⟩ ⟨0, 1⟩)) (V2.unit ⟨-(V2.sub ⟨0, 1⟩ ⟨1, 0⟩ : V2).y, (V2.sub ⟨0, 1⟩ ⟨1, 0⟩ : V2).x⟩), 2) := by
    unfold distToLine
    dsimp only
    rw [if_neg (by simp only [edgeEquation, V2.add, V2.sub]; norm_num), if_neg (by simp only [edgeEquation, V2.add, V2.sub]; norm_num)]
  have n1 : V2.norm2 (distToLine ⟨-1, -1⟩ ⟨1, 0⟩ ⟨0, 1⟩).1 = 9 / 2 := by
    obtain ⟨x, hx, ex, mx, kx⟩ := distToLine_spec (l0 := ⟨1, 0⟩) (l1 := ⟨0, 1⟩) (by simp) ⟨-1, -1⟩
    rw [ex]
    obtain ⟨u, v, hu, hv, hs, rfl⟩ := hx
    have hd : V2.dot (V2.sub ⟨-1, -1⟩ (V2.add (V2.scale u ⟨1, 0⟩) (V2.scale v ⟨0, 1⟩))) (V2.sub ⟨0, 1⟩ ⟨1, 0⟩) = 0 := by
      rw [e1] at kx
      simpa using kx.elim (fun k => by simp at k) (fun k => k.elim (fun k => by simp at k) (fun k => k.2.1))
    have hu' : u = 1 - v := by linarith
    simp only [V2.dot, V2.sub, V2.add, V2.scale, hu'] at hd
    have hv' : v = 1 / 2 := by linarith
    simp only [V2.norm2, V2.sub, V2.add, V2.scale, hu', hv']
    norm_num
  have e2 : distToLine ⟨-1, -1⟩ ⟨0, 1⟩ ⟨0, 0⟩ = (⟨-1, -1⟩, 0) := by
    unfold distToLine
    dsimp only
    rw [if_pos (by simp only [edgeEquation, V2.add, V2.sub]; norm_num)]
    simp [V2.sub]
  have s0 : (⟨maxFloat64, ⟨0, 0⟩, .v0⟩ : Nearest2).edge ⟨-1, -1⟩ 0 ⟨0, 0⟩ ⟨1, 0⟩ = ⟨2, ⟨0, 0⟩, .v1⟩ := by
    unfold Nearest2.edge
    rw [e0]
    dsimp only
    have hn : V2.norm2 ⟨-1, -1⟩ = 2 := by simp only [V2.norm2]; norm_num
    rw [hn, if_pos (by linarith)]
    simp [V2.sub, Feature.num]
  have s1 : (⟨2, ⟨0, 0⟩, .v1⟩ : Nearest2).edge ⟨-1, -1⟩ 1 ⟨1, 0⟩ ⟨0, 1⟩ = ⟨2, ⟨0, 0⟩, .v1⟩ := by
    unfold Nearest2.edge
    dsimp only
    rw [n1, if_neg (by norm_num)]
  have s2 : (⟨2, ⟨0, 0⟩, .v1⟩ : Nearest2).edge ⟨-1, -1⟩ 2 ⟨0, 1⟩ ⟨0, 0⟩ = ⟨2, ⟨0, 0⟩, .v1⟩ := by
    unfold Nearest2.edge
    rw [e2]
    dsimp only
    rw [if_neg (by simp only [V2.norm2]; norm_num)]
  dsimp only
  rw [s0, s1, s2]

/-- With the corners listed clockwise the returned point can be outside the triangle. -/
theorem C42_clockwise_wrong :
    closestOnTriangle2 ⟨1 / 2, -1⟩ ⟨0, 0⟩ ⟨0, 1⟩ ⟨1, 0⟩ = (⟨1 / 2, -2⟩, .e2) ∧ ¬ V2.InTri ⟨0, 0⟩ ⟨0, 1⟩ ⟨1, 0⟩ ⟨1 / 2, -2⟩ := by
  constructor
  · have hb := big
    unfold closestOnTriangle2
    rw [if_neg (by unfold inTriangle; simp only [d2Sign]; norm_num)]
    have e0 : distToLine ⟨1 / 2, -1⟩ ⟨0, 0⟩ ⟨0, 1⟩ = (⟨1 / 2, -1⟩, 1) := by
      unfold distToLine
      dsimp only
      rw [if_neg (by simp only [edgeEquation, V2.add, V2.sub]; norm_num), if_pos (by simp only [edgeEquation, V2.add, V2.sub]; norm_num)]
      simp [V2.sub]
    have e1 : distToLine ⟨1 / 2, -1⟩ ⟨0, 1⟩ ⟨1, 0⟩ = (⟨-(1 / 2), -1⟩, 0) := by
      unfold distToLine
      dsimp only
      rw [if_pos (by simp only [edgeEquation, V2.add, V2.sub]; norm_num)]
      simp only [V2.sub]; norm_num
    have e2 : distToLine ⟨1 / 2, -1⟩ ⟨1, 0⟩ ⟨0, 0⟩ = (⟨0, 1⟩, 2) := by
      unfold distToLine
      dsimp only
      rw [if_neg (by simp only [edgeEquation, V2.add, V2.sub]; norm_num), if_neg (by simp only [edgeEquation, V2.add, V2.sub]; norm_num)]
      have n1 : V2.norm ⟨-1, 0⟩ = 1 := by simp [V2.norm]
      have n2 : V2.norm ⟨0, -1⟩ = 1 := by simp [V2.norm]
      have h1 : distToLineInfinite ⟨1 / 2, -1⟩ ⟨1, 0⟩ ⟨0, 0⟩ = 1 := by
        unfold distToLineInfinite
        norm_num [n1]
      rw [h1]
      simp [V2.sub, V2.unit, V2.scale, n2]
    have s0 : (⟨maxFloat64, ⟨0, 0⟩, .v0⟩ : Nearest2).edge ⟨1 / 2, -1⟩ 0 ⟨0, 0⟩ ⟨0, 1⟩ = ⟨5 / 4, ⟨0, 0⟩, .v1⟩ := by
      unfold Nearest2.edge
      rw [e0]
      dsimp only
      have hn : V2.norm2 ⟨1 / 2, -1⟩ = 5 / 4 := by simp only [V2.norm2]; norm_num
      rw [hn, if_pos (by linarith)]
      simp [V2.sub, Feature.num]
    have s1 : (⟨5 / 4, ⟨0, 0⟩, .v1⟩ : Nearest2).edge ⟨1 / 2, -1⟩ 1 ⟨0, 1⟩ ⟨1, 0⟩ = ⟨5 / 4, ⟨0, 0⟩, .v1⟩ := by
      unfold Nearest2.edge
      rw [e1]
      dsimp only
      rw [if_neg (by simp only [V2.norm2]; norm_num)]
    have s2 : (⟨5 / 4, ⟨0, 0⟩, .v1⟩ : Nearest2).edge ⟨1 / 2, -1⟩ 2 ⟨1, 0⟩ ⟨0, 0⟩ = ⟨1, ⟨1 / 2, -2⟩, .e2⟩ := by
      unfold Nearest2.edge
      rw [e2]
      dsimp only
      rw [if_pos (by simp only [V2.norm2]; norm_num)]
      simp only [V2.sub, V2.norm2, Feature.num]; norm_num
    dsimp only
    rw [s0, s1, s2]
  · rintro ⟨u, v, w, hu, hv, hw, hs, e⟩
    have := congrArg V2.y e
    simp [V2.add, V2.scale] at this
    linarith

/-- `q` is on the segment from `a` to `b`. -/
def V3.InSeg (a b q : V3) : Prop :=
  ∃ u v, 0 ≤ u ∧ 0 ≤ v ∧ u + v = 1 ∧ q = V3.add (V3.scale u a) (V3.scale v b)

theorem Frame.apply_comb {t : Tri} (F : Frame t) {u v w : ℝ} (hs : u + v + w = 1) :
    (canalisTransform t).apply (V3.add (V3.add (V3.scale u t.a) (V3.scale v t.b)) (V3.scale w t.c)) =
      V3.add (V3.add (V3.scale u ((canalisTransform t).apply t.a)) (V3.scale v ((canalisTransform t).apply t.b)))
        (V3.scale w ((canalisTransform t).apply t.c)) := by
  have hu : u = 1 - v - w := by linarith
  simp only [F.apply_eq]
  ext <;> simp only [V3.dot, V3.sub, V3.add, V3.scale, hu] <;> ring

/-- What the frame does with the corners. -/
theorem canalis_corners {t : Tri} (h : t.NonDegenerate) :
    V2.CCW ((canalisTransform t).apply t.a).xy ((canalisTransform t).apply t.b).xy ((canalisTransform t).apply t.c).xy ∧
    ((canalisTransform t).apply t.a).z = 0 ∧ ((canalisTransform t).apply t.b).z = 0 ∧ ((canalisTransform t).apply t.c).z = 0 := by
  obtain ⟨-, -, -, ha, ⟨hb1, hb2, hb3⟩, hc1, hc2⟩ := C41_rigid t h
  refine ⟨?_, by rw [ha], hb3, hc2⟩
  have : 0 < ((canalisTransform t).apply t.b).x * ((canalisTransform t).apply t.c).y := mul_pos hb1 hc1
  simp only [V2.CCW, V2.cross, V2.sub, V3.xy, ha, hb2]
  linarith

/-- Taking a planar combination of the mapped corners back. -/
theorem canalis_back {t : Tri} (h : t.NonDegenerate) {u v w : ℝ} (hs : u + v + w = 1) {x : V2}
    (hx : x = V2.add (V2.add (V2.scale u ((canalisTransform t).apply t.a).xy) (V2.scale v ((canalisTransform t).apply t.b).xy))
        (V2.scale w ((canalisTransform t).apply t.c).xy)) :
    (canalisTransform t).inv.apply ⟨x.x, x.y, 0⟩ = V3.add (V3.add (V3.scale u t.a) (V3.scale v t.b)) (V3.scale w t.c) ∧
    (canalisTransform t).apply (V3.add (V3.add (V3.scale u t.a) (V3.scale v t.b)) (V3.scale w t.c)) = ⟨x.x, x.y, 0⟩ := by
  obtain ⟨F⟩ := h.frame
  obtain ⟨-, z1, z2, z3⟩ := canalis_corners h
  have e : (canalisTransform t).apply (V3.add (V3.add (V3.scale u t.a) (V3.scale v t.b)) (V3.scale w t.c)) = ⟨x.x, x.y, 0⟩ := by
    rw [F.apply_comb hs, hx]
    ext <;> simp [V3.add, V3.scale, V2.add, V2.scale, V3.xy, z1, z2, z3]
  refine ⟨?_, e⟩
  rw [← e]
  exact (C41_inverse t h _).1

theorem V3.norm2_eq_dist (a b : V3) : V3.norm2 (V3.sub a b) = V3.dist a b ^ 2 := by
  unfold V3.dist V3.norm V3.norm2
  rw [Real.sq_sqrt]
  nlinarith [mul_self_nonneg (V3.sub a b).x, mul_self_nonneg (V3.sub a b).y, mul_self_nonneg (V3.sub a b).z]

/-- In space, for every triangle whose corners are not on one line: the returned point is the point of the triangle nearest to
the query, the returned number is the square of the distance to it, and a reported edge contains the point.  (Missing from the
full property: the reported vertex, which is never the right one by the last three clauses.) -/
theorem C42_space_partial (t : Tri) (h : t.NonDegenerate) (p : V3) (hp : V3.norm2 (V3.sub p t.a) < maxFloat64) :
    let r := meshTriangleDistance t p
    t.IsClosest p r.1 ∧ r.2.2 = V3.dist p r.1 ^ 2 ∧
      (r.2.1 = .e0 → V3.InSeg t.a t.b r.1) ∧ (r.2.1 = .e1 → V3.InSeg t.b t.c r.1) ∧ (r.2.1 = .e2 → V3.InSeg t.c t.a r.1) ∧
      (r.2.1 = .v0 → r.1 = t.b ∨ r.1 = t.c) ∧ (r.2.1 = .v1 → r.1 = t.a ∨ r.1 = t.c) ∧ (r.2.1 = .v2 → r.1 = t.a ∨ r.1 = t.b) := by
  intro r
  obtain ⟨hccw, za, zb, zc⟩ := canalis_corners h
  have hiso := (C41_rigid t h).2.1
  set T := canalisTransform t with hT
  have hsq : ∀ x y, V3.norm2 (V3.sub (T.apply x) (T.apply y)) = V3.norm2 (V3.sub x y) := by
    intro x y; rw [V3.norm2_eq_dist, V3.norm2_eq_dist, hiso]
  have hp2 : V2.norm2 (V2.sub (T.apply p).xy (T.apply t.a).xy) < maxFloat64 := by
    refine lt_of_le_of_lt ?_ hp
    rw [← hsq]
    simp only [V2.norm2, V3.norm2, V2.sub, V3.sub, V3.xy]
    nlinarith [mul_self_nonneg ((T.apply p).z - (T.apply t.a).z)]
  obtain ⟨⟨u, v, w, hu, hv, hw, hs, hx⟩, hmin, -, s0, s1, s2⟩ := C42_plane_partial _ _ _ hccw (T.apply p).xy hp2
  obtain ⟨w0, w1, w2⟩ := C42_vertex_wrong _ _ _ hccw (T.apply p).xy hp2
  have hr : r = (T.inv.apply ⟨(closestOnTriangle2 (T.apply p).xy (T.apply t.a).xy (T.apply t.b).xy (T.apply t.c).xy).1.x,
      (closestOnTriangle2 (T.apply p).xy (T.apply t.a).xy (T.apply t.b).xy (T.apply t.c).xy).1.y, 0⟩,
      (closestOnTriangle2 (T.apply p).xy (T.apply t.a).xy (T.apply t.b).xy (T.apply t.c).xy).2, V3.norm2 (V3.sub p
        (T.inv.apply ⟨(closestOnTriangle2 (T.apply p).xy (T.apply t.a).xy (T.apply t.b).xy (T.apply t.c).xy).1.x,
      (closestOnTriangle2 (T.apply p).xy (T.apply t.a).xy (T.apply t.b).xy (T.apply t.c).xy).1.y, 0⟩))) := rfl
  generalize closestOnTriangle2 (T.apply p).xy (T.apply t.a).xy (T.apply t.b).xy (T.apply t.c).xy = k at *
  have hback := canalis_back h hs hx
  have seg : ∀ {i j : V3}, (i = t.a ∨ i = t.b ∨ i = t.c) → (j = t.a ∨ j = t.b ∨ j = t.c) →
      V2.InSeg (T.apply i).xy (T.apply j).xy k.1 → V3.InSeg i j (T.inv.apply ⟨k.1.x, k.1.y, 0⟩) := by
    rintro i j hi hj ⟨m, n, hm, hn, hmn, e⟩
    obtain ⟨F⟩ := h.frame
    refine ⟨m, n, hm, hn, hmn, ?_⟩
    have zi : (T.apply i).z = 0 := by rcases hi with rfl | rfl | rfl <;> assumption
    have zj : (T.apply j).z = 0 := by rcases hj with rfl | rfl | rfl <;> assumption
    have e2 : T.apply (V3.add (V3.scale m i) (V3.scale n j)) = ⟨k.1.x, k.1.y, 0⟩ := by
      rw [e]
      have hm' : m = 1 - n := by linarith
      have : T.apply (V3.add (V3.scale m i) (V3.scale n j)) = V3.add (V3.scale m (T.apply i)) (V3.scale n (T.apply j)) := by
        rw [hT]
        simp only [F.apply_eq]
        ext <;> simp only [V3.dot, V3.sub, V3.add, V3.scale, hm'] <;> ring
      rw [this]
      ext <;> simp [V3.add, V3.scale, V2.add, V2.scale, V3.xy, zi, zj]
    rw [← e2]
    exact (C41_inverse t h _).1
  have vert : ∀ {i : V3}, (i = t.a ∨ i = t.b ∨ i = t.c) → k.1 = (T.apply i).xy → T.inv.apply ⟨k.1.x, k.1.y, 0⟩ = i := by
    intro i hi e
    have zi : (T.apply i).z = 0 := by rcases hi with rfl | rfl | rfl <;> assumption
    have : (⟨k.1.x, k.1.y, 0⟩ : V3) = T.apply i := by
      rw [e]; ext <;> simp [V3.xy, zi]
    rw [this]
    exact (C41_inverse t h _).1
  rw [hr]
  dsimp only
  refine ⟨⟨?_, ?_⟩, V3.norm2_eq_dist _ _, fun f => seg (by simp) (by simp) (s0 f), fun f => seg (by simp) (by simp) (s1 f),
    fun f => seg (by simp) (by simp) (s2 f), fun f => (w0 f).imp (vert (by simp)) (vert (by simp)),
    fun f => (w1 f).imp (vert (by simp)) (vert (by simp)), fun f => (w2 f).imp (vert (by simp)) (vert (by simp))⟩
  · rw [hback.1]
    exact ⟨u, v, w, hu, hv, hw, hs, rfl⟩
  · rintro q ⟨u', v', w', hu', hv', hw', hs', rfl⟩
    have hq := (canalis_back h hs' (x := V2.add (V2.add (V2.scale u' (T.apply t.a).xy) (V2.scale v' (T.apply t.b).xy))
        (V2.scale w' (T.apply t.c).xy)) rfl).2
    have hm := hmin _ ⟨u', v', w', hu', hv', hw', hs', rfl⟩
    rw [← hiso p, ← hiso p, (C41_inverse t h _).2, hT, hq, ← hT]
    generalize V2.add (V2.add (V2.scale u' (T.apply t.a).xy) (V2.scale v' (T.apply t.b).xy)) (V2.scale w' (T.apply t.c).xy) = y at *
    unfold V2.dist V2.norm at hm
    unfold V3.dist V3.norm
    have hm' := (Real.sqrt_le_sqrt_iff (by nlinarith [mul_self_nonneg (V2.sub (T.apply p).xy y).x, mul_self_nonneg (V2.sub (T.apply p).xy y).y])).1 hm
    apply Real.sqrt_le_sqrt
    simp only [V2.sub, V3.sub, V3.xy] at *
    linarith

/-- The distance routine of the tree, for every triangle (also with corners on one line or equal): whenever it gives a number, the
point it refers to is the point of the triangle nearest to the query.  (Missing from the full property: the queries without a
result, next theorem.) -/
theorem C42_tree_partial (t : Tri) (p d : V3) (hd : Bih.minDistTri t p = some d) : t.IsClosest p (V3.sub p d) := by
  unfold Bih.minDistTri at hd
  dsimp only at hd
  rw [Option.map_eq_some_iff] at hd
  obtain ⟨k, hk, rfl⟩ := hd
  set e0 := V3.sub t.b t.a with he0
  set e1 := V3.sub t.c t.a with he1
  have hpos : ∀ v : V3, v ≠ ⟨0, 0, 0⟩ → 0 < V3.dot v v := by
    intro v hv
    have := V3.norm_pos hv
    have h2 := V3.norm_sq v
    unfold V3.dot
    nlinarith
  have n0 : e0 ≠ ⟨0, 0, 0⟩ := by
    intro e
    have hn := (Bih.minParams_none (a00 := V3.dot e0 e0) (a01 := V3.dot e0 e1) (a11 := V3.dot e1 e1)
      (b0 := -V3.dot (V3.sub p t.a) e0) (b1 := -V3.dot (V3.sub p t.a) e1)).2 (by rw [e]; simp [V3.dot])
    rw [hn] at hk
    cases hk
  have hopt : Bih.Opt (V3.dot e0 e0) (V3.dot e0 e1) (V3.dot e1 e1) (-V3.dot (V3.sub p t.a) e0) (-V3.dot (V3.sub p t.a) e1) k := by
    by_cases n1 : e1 = ⟨0, 0, 0⟩
    · have z : ∀ v, V3.dot v e1 = 0 := by intro v; rw [n1]; simp [V3.dot]
      simp only [z, neg_zero] at hk ⊢
      exact Bih.minParams_opt_a (hpos _ n0) hk
    by_cases n2 : V3.sub e0 e1 = ⟨0, 0, 0⟩
    · have ex := congrArg V3.x n2
      have ey := congrArg V3.y n2
      have ez := congrArg V3.z n2
      simp only [V3.sub] at ex ey ez
      have e : e1 = e0 := by ext <;> linarith
      rw [e] at hk ⊢
      exact Bih.minParams_opt_b (hpos _ n0) hk
    refine Bih.minParams_opt (hpos _ n0) (hpos _ n1) ?_ hk
    have := hpos _ n2
    have e : V3.dot (V3.sub e0 e1) (V3.sub e0 e1) = V3.dot e0 e0 - 2 * V3.dot e0 e1 + V3.dot e1 e1 := by
      simp only [V3.dot, V3.sub]; ring
    linarith
  obtain ⟨hs, ht, hst, h0, h1, h2⟩ := hopt
  have hpt : ∀ x y : ℝ, V3.add t.a (V3.add (V3.scale x e0) (V3.scale y e1)) =
      V3.add (V3.add (V3.scale (1 - x - y) t.a) (V3.scale x t.b)) (V3.scale y t.c) := by
    intro x y
    rw [he0, he1]
    ext <;> simp only [V3.add, V3.scale, V3.sub] <;> ring
  have hss : ∀ x : V3, V3.sub p (V3.sub p x) = x := by intro x; ext <;> simp [V3.sub]
  rw [hss]
  refine ⟨⟨1 - k.x - k.y, k.x, k.y, by linarith, hs, ht, by ring, hpt _ _⟩, ?_⟩
  rintro q ⟨u, v, w, hu, hv, hw, hsum, rfl⟩
  have hu' : u = 1 - v - w := by linarith
  rw [hu', ← hpt]
  unfold V3.dist V3.norm
  apply Real.sqrt_le_sqrt
  have key : ∀ x y : ℝ, (V3.sub p (V3.add t.a (V3.add (V3.scale x e0) (V3.scale y e1)))).x * (V3.sub p (V3.add t.a (V3.add (V3.scale x e0) (V3.scale y e1)))).x +
      (V3.sub p (V3.add t.a (V3.add (V3.scale x e0) (V3.scale y e1)))).y * (V3.sub p (V3.add t.a (V3.add (V3.scale x e0) (V3.scale y e1)))).y +
      (V3.sub p (V3.add t.a (V3.add (V3.scale x e0) (V3.scale y e1)))).z * (V3.sub p (V3.add t.a (V3.add (V3.scale x e0) (V3.scale y e1)))).z =
      V3.dot (V3.sub p t.a) (V3.sub p t.a) + V3.dot e0 e0 * x ^ 2 + 2 * V3.dot e0 e1 * x * y + V3.dot e1 e1 * y ^ 2 +
        2 * (-V3.dot (V3.sub p t.a) e0) * x + 2 * (-V3.dot (V3.sub p t.a) e1) * y := by
    intro x y
    simp only [V3.dot, V3.sub, V3.add, V3.scale]; ring
  rw [key, key]
  have quad : 0 ≤ V3.dot e0 e0 * (v - k.x) ^ 2 + 2 * V3.dot e0 e1 * (v - k.x) * (w - k.y) + V3.dot e1 e1 * (w - k.y) ^ 2 := by
    have : V3.dot e0 e0 * (v - k.x) ^ 2 + 2 * V3.dot e0 e1 * (v - k.x) * (w - k.y) + V3.dot e1 e1 * (w - k.y) ^ 2 =
        V3.norm2 (V3.add (V3.scale (v - k.x) e0) (V3.scale (w - k.y) e1)) := by
      simp only [V3.norm2, V3.dot, V3.add, V3.scale]; ring
    rw [this]
    unfold V3.norm2
    nlinarith [mul_self_nonneg (V3.add (V3.scale (v - k.x) e0) (V3.scale (w - k.y) e1)).x, mul_self_nonneg (V3.add (V3.scale (v - k.x) e0) (V3.scale (w - k.y) e1)).y, mul_self_nonneg (V3.add (V3.scale (v - k.x) e0) (V3.scale (w - k.y) e1)).z]
  generalize V3.dot e0 e0 = a00 at *
  generalize V3.dot e0 e1 = a01 at *
  generalize V3.dot e1 e1 = a11 at *
  generalize -V3.dot (V3.sub p t.a) e0 = b0 at *
  generalize -V3.dot (V3.sub p t.a) e1 = b1 at *
  generalize V3.dot (V3.sub p t.a) (V3.sub p t.a) = pp at *
  have m0 := mul_le_mul_of_nonneg_left h0 hu
  have m1 := mul_le_mul_of_nonneg_left h1 hv
  have m2 := mul_le_mul_of_nonneg_left h2 hw
  rw [hu'] at m0
  nlinarith

/-- The routine has no result (its coordinates are 0 / 0) exactly when the angle at the first corner is a right angle and the
query projects onto the edge from the first to the third corner. -/
theorem C42_tree_nan (t : Tri) (p : V3) : Bih.minDistTri t p = none ↔
    V3.dot (V3.sub p t.a) (V3.sub t.b t.a) = 0 ∧ V3.dot (V3.sub t.b t.a) (V3.sub t.c t.a) = 0 := by
  unfold Bih.minDistTri
  simp only [Option.map_eq_none_iff, Bih.minParams_none, neg_eq_zero]

/-- A concrete query without a result. -/
theorem C42_tree_nan_witness : let t : Tri := ⟨⟨0, 0, 0⟩, ⟨1, 0, 0⟩, ⟨0, 1, 0⟩⟩
    t.NonDegenerate ∧ Bih.minDistTri t ⟨0, 1 / 2, 1⟩ = none := by
  constructor
  · intro e
    have := congrArg V3.z e
    simp [V3.cross, V3.sub] at this
  · rw [C42_tree_nan]
    simp [V3.dot, V3.sub]

/-- The hypotheses of the theorems above hold for a concrete triangle and query. -/
example : ∃ (t : Tri) (p : V3), t.NonDegenerate ∧ V3.norm2 (V3.sub p t.a) < maxFloat64 ∧ ∃ d, Bih.minDistTri t p = some d := by
  refine ⟨⟨⟨0, 0, 0⟩, ⟨1, 0, 0⟩, ⟨0, 1, 0⟩⟩, ⟨1, 1, 1⟩, ?_, ?_, ?_⟩
  · intro e
    have := congrArg V3.z e
    simp [V3.cross, V3.sub] at this
  · have := big
    simp only [V3.norm2, V3.sub]; norm_num; linarith
  · rw [← Option.ne_none_iff_exists', Ne, C42_tree_nan]
    simp [V3.dot, V3.sub]

example : V2.CCW ⟨0, 0⟩ ⟨1, 0⟩ ⟨0, 1⟩ := by simp [V2.CCW, V2.cross, V2.sub]

end Sdf
