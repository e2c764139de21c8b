import Verif.Props.C50Import

/-! C50: a mesh meeting the hypotheses, the vertex feature, and two evaluations at once. -/

namespace Sdf
namespace Kd
open Bih Edge

/-! ### The reported vertex -/

theorem distToLine_end {p a b : V2} (h : 0 < V2.dot (V2.sub p b) (V2.sub b a)) : distToLine p a b = (V2.sub p b, 0) := by
  unfold distToLine
  dsimp only
  rw [if_pos]
  have : edgeEquation p b (V2.add b ⟨-(V2.sub b a).y, (V2.sub b a).x⟩) = V2.dot (V2.sub p b) (V2.sub b a) := by
    simp only [edgeEquation, V2.sub, V2.add, V2.dot]; ring
  rw [this]; exact h

theorem distToLine_start {p a b : V2} (h : 0 < V2.dot (V2.sub p a) (V2.sub a b)) : distToLine p a b = (V2.sub p a, 1) := by
  unfold distToLine
  dsimp only
  have e1 : edgeEquation p b (V2.add b ⟨-(V2.sub b a).y, (V2.sub b a).x⟩) = -(V2.dot (V2.sub p a) (V2.sub a b)) - V2.norm2 (V2.sub b a) := by
    simp only [edgeEquation, V2.sub, V2.add, V2.dot, V2.norm2]; ring
  have e0 : edgeEquation p a (V2.add a ⟨-(V2.sub b a).y, (V2.sub b a).x⟩) = -(V2.dot (V2.sub p a) (V2.sub a b)) := by
    simp only [edgeEquation, V2.sub, V2.add, V2.dot]; ring
  rw [e1, e0, if_neg (by have := V2.norm2_nonneg (V2.sub b a); linarith), if_pos (by linarith)]

/-- The opposite side is further away than the corner `o`. -/
theorem far_side {p o a b : V2} (hab : a ≠ b) (h1 : 0 < V2.dot (V2.sub p o) (V2.sub o a)) (h2 : 0 < V2.dot (V2.sub p o) (V2.sub o b)) :
    V2.norm2 (V2.sub p o) < V2.norm2 (distToLine p a b).1 := by
  obtain ⟨x, ⟨u, v, hu, hv, hs, rfl⟩, e, -⟩ := distToLine_spec hab p
  rw [e]
  have hu' : u = 1 - v := by linarith
  have key : V2.norm2 (V2.sub p (V2.add (V2.scale u a) (V2.scale v b))) = V2.norm2 (V2.sub p o) +
      2 * (u * V2.dot (V2.sub p o) (V2.sub o a) + v * V2.dot (V2.sub p o) (V2.sub o b)) +
      V2.norm2 (V2.sub o (V2.add (V2.scale u a) (V2.scale v b))) := by
    simp only [V2.norm2, V2.sub, V2.add, V2.scale, V2.dot, hu']; ring
  have := V2.norm2_nonneg (V2.sub o (V2.add (V2.scale u a) (V2.scale v b)))
  have : 0 < u * V2.dot (V2.sub p o) (V2.sub o a) + v * V2.dot (V2.sub p o) (V2.sub o b) := by
    rcases hu.lt_or_eq with h | h
    · have := mul_pos h h1; have := mul_nonneg hv h2.le; linarith
    · have : v = 1 := by linarith
      rw [← h, this]; linarith
  linarith

theorem not_inTri {p o a b : V2} (h1 : 0 < V2.dot (V2.sub p o) (V2.sub o a)) (h2 : 0 < V2.dot (V2.sub p o) (V2.sub o b)) :
    ¬ V2.InTri o a b p := by
  rintro ⟨u, v, w, hu, hv, hw, hs, e⟩
  have hu' : u = 1 - v - w := by linarith
  have key : V2.dot (V2.sub p o) (V2.sub p o) = -(v * V2.dot (V2.sub p o) (V2.sub o a)) - w * V2.dot (V2.sub p o) (V2.sub o b) := by
    have : V2.sub p o = V2.add (V2.scale (-v) (V2.sub o a)) (V2.scale (-w) (V2.sub o b)) := by
      rw [e]; ext <;> simp only [V2.sub, V2.add, V2.scale, hu'] <;> ring
    calc V2.dot (V2.sub p o) (V2.sub p o) = V2.dot (V2.sub p o) (V2.add (V2.scale (-v) (V2.sub o a)) (V2.scale (-w) (V2.sub o b))) := by rw [← this]
      _ = _ := by simp only [V2.dot, V2.add, V2.scale]; ring
  have h0 : 0 ≤ V2.dot (V2.sub p o) (V2.sub p o) := by unfold V2.dot; nlinarith [mul_self_nonneg (V2.sub p o).x, mul_self_nonneg (V2.sub p o).y]
  have a1 := mul_nonneg hv h1.le
  have a2 := mul_nonneg hw h2.le
  have z : V2.dot (V2.sub p o) (V2.sub p o) = 0 := by linarith
  have hx : (V2.sub p o).x = 0 := by unfold V2.dot at z; nlinarith [mul_self_nonneg (V2.sub p o).x, mul_self_nonneg (V2.sub p o).y]
  have hy : (V2.sub p o).y = 0 := by unfold V2.dot at z; nlinarith [mul_self_nonneg (V2.sub p o).x, mul_self_nonneg (V2.sub p o).y]
  unfold V2.dot at h1
  rw [hx, hy] at h1
  simp at h1

/-- In the plane: a query beyond the first corner is reported at the second, one beyond the second at the first, one beyond the third
at the second. -/
theorem vertex_reported2 {a b c p : V2} (h : V2.CCW a b c) (hp : ∀ v, v = a ∨ v = b ∨ v = c → V2.norm2 (V2.sub p v) < maxFloat64) :
    (0 < V2.dot (V2.sub p a) (V2.sub a b) → 0 < V2.dot (V2.sub p a) (V2.sub a c) → closestOnTriangle2 p a b c = (a, .v1)) ∧
    (0 < V2.dot (V2.sub p b) (V2.sub b a) → 0 < V2.dot (V2.sub p b) (V2.sub b c) → closestOnTriangle2 p a b c = (b, .v0)) ∧
    (0 < V2.dot (V2.sub p c) (V2.sub c a) → 0 < V2.dot (V2.sub p c) (V2.sub c b) → closestOnTriangle2 p a b c = (c, .v1)) := by
  have back : ∀ v, V2.sub p (V2.sub p v) = v := by intro v; ext <;> simp [V2.sub]
  refine ⟨fun h1 h2 => ?_, fun h1 h2 => ?_, fun h1 h2 => ?_⟩
  · have hn := not_inTri h1 h2
    have hf := far_side h.rot.ne h1 h2
    unfold closestOnTriangle2
    rw [if_neg (fun hi => hn ((inTriangle_iff h p).1 hi))]
    simp only [Nearest2.edge, distToLine_start h1, distToLine_end h2]
    rw [if_pos (hp a (by simp))]
    dsimp only
    rw [if_neg (not_lt.2 hf.le)]
    dsimp only
    rw [if_neg (lt_irrefl _), back]
    rfl
  · have hn : ¬ V2.InTri a b c p := fun hi => not_inTri h2 h1 hi.rot
    have hf := far_side h.rot.rot.ne h2 h1
    unfold closestOnTriangle2
    rw [if_neg (fun hi => hn ((inTriangle_iff h p).1 hi))]
    simp only [Nearest2.edge, distToLine_start h2, distToLine_end h1]
    rw [if_pos (hp b (by simp))]
    dsimp only
    rw [if_neg (lt_irrefl _)]
    dsimp only
    rw [if_neg (not_lt.2 hf.le), back]
    rfl
  · have hn : ¬ V2.InTri a b c p := fun hi => not_inTri h1 h2 hi.rot.rot
    have hf := far_side h.ne h1 h2
    unfold closestOnTriangle2
    rw [if_neg (fun hi => hn ((inTriangle_iff h p).1 hi))]
    simp only [Nearest2.edge, distToLine_start h1, distToLine_end h2]
    by_cases e : V2.norm2 (distToLine p a b).1 < maxFloat64
    · rw [if_pos e]
      dsimp only
      rw [if_pos hf]
      dsimp only
      rw [if_neg (lt_irrefl _), back]
      rfl
    · rw [if_neg e]
      dsimp only
      rw [if_pos (hp c (by simp))]
      dsimp only
      rw [if_neg (lt_irrefl _), back]
      rfl

/-- In space: the vertex that is reported is not the closest one. -/
theorem C50_reported_vertex (t : Tri) (h : t.NonDegenerate) (p : V3) (hp : ∀ v, v = t.a ∨ v = t.b ∨ v = t.c → V3.dist p v ^ 2 < maxFloat64) :
    (0 < V3.dot (V3.sub p t.a) (V3.sub t.a t.b) → 0 < V3.dot (V3.sub p t.a) (V3.sub t.a t.c) →
      meshTriangleDistance t p = (t.a, .v1, V3.dist p t.a ^ 2)) ∧
    (0 < V3.dot (V3.sub p t.b) (V3.sub t.b t.a) → 0 < V3.dot (V3.sub p t.b) (V3.sub t.b t.c) →
      meshTriangleDistance t p = (t.b, .v0, V3.dist p t.b ^ 2)) ∧
    (0 < V3.dot (V3.sub p t.c) (V3.sub t.c t.a) → 0 < V3.dot (V3.sub p t.c) (V3.sub t.c t.b) →
      meshTriangleDistance t p = (t.c, .v1, V3.dist p t.c ^ 2)) := by
  obtain ⟨hccw, za, zb, zc⟩ := canalis_corners h
  have hiso := (C41_rigid t h).2.1
  have hinv := fun v => (C41_inverse t h v).1
  have hdef : meshTriangleDistance t p = ((canalisTransform t).inv.apply
      ⟨(closestOnTriangle2 ((canalisTransform t).apply p).xy ((canalisTransform t).apply t.a).xy ((canalisTransform t).apply t.b).xy ((canalisTransform t).apply t.c).xy).1.x,
       (closestOnTriangle2 ((canalisTransform t).apply p).xy ((canalisTransform t).apply t.a).xy ((canalisTransform t).apply t.b).xy ((canalisTransform t).apply t.c).xy).1.y, 0⟩,
      (closestOnTriangle2 ((canalisTransform t).apply p).xy ((canalisTransform t).apply t.a).xy ((canalisTransform t).apply t.b).xy ((canalisTransform t).apply t.c).xy).2,
      V3.norm2 (V3.sub p ((canalisTransform t).inv.apply
      ⟨(closestOnTriangle2 ((canalisTransform t).apply p).xy ((canalisTransform t).apply t.a).xy ((canalisTransform t).apply t.b).xy ((canalisTransform t).apply t.c).xy).1.x,
       (closestOnTriangle2 ((canalisTransform t).apply p).xy ((canalisTransform t).apply t.a).xy ((canalisTransform t).apply t.b).xy ((canalisTransform t).apply t.c).xy).1.y, 0⟩))) := rfl
  generalize canalisTransform t = T at *
  have hsq : ∀ x y, V3.norm2 (V3.sub (T.apply x) (T.apply y)) = V3.norm2 (V3.sub x y) := by
    intro x y; rw [V3.norm2_eq_dist, V3.norm2_eq_dist, hiso]
  have hz : ∀ v, v = t.a ∨ v = t.b ∨ v = t.c → (T.apply v).z = 0 := by rintro v (rfl | rfl | rfl) <;> assumption
  have hdot : ∀ v w, (v = t.a ∨ v = t.b ∨ v = t.c) → (w = t.a ∨ w = t.b ∨ w = t.c) →
      V2.dot (V2.sub (T.apply p).xy (T.apply v).xy) (V2.sub (T.apply v).xy (T.apply w).xy) = V3.dot (V3.sub p v) (V3.sub v w) := by
    intro v w hv hw
    have e1 := hsq p v
    have e2 := hsq v w
    have e3 := hsq p w
    have zv := hz v hv
    have zw := hz w hw
    simp only [V3.norm2, V3.sub, zv, zw] at e1 e2 e3
    simp only [V2.dot, V2.sub, V3.dot, V3.sub, V3.xy]
    nlinarith
  have hp2 : ∀ v, v = (T.apply t.a).xy ∨ v = (T.apply t.b).xy ∨ v = (T.apply t.c).xy → V2.norm2 (V2.sub (T.apply p).xy v) < maxFloat64 := by
    have : ∀ v, (v = t.a ∨ v = t.b ∨ v = t.c) → V2.norm2 (V2.sub (T.apply p).xy (T.apply v).xy) < maxFloat64 := by
      intro v hv
      refine lt_of_le_of_lt ?_ (hp v hv)
      rw [← V3.norm2_eq_dist, ← hsq]
      simp only [V2.norm2, V3.norm2, V2.sub, V3.sub, V3.xy]
      nlinarith [mul_self_nonneg ((T.apply p).z - (T.apply v).z)]
    rintro v (rfl | rfl | rfl) <;> exact this _ (by simp)
  have back : ∀ v, (v = t.a ∨ v = t.b ∨ v = t.c) → T.inv.apply ⟨(T.apply v).xy.x, (T.apply v).xy.y, 0⟩ = v := by
    intro v hv
    have : (⟨(T.apply v).xy.x, (T.apply v).xy.y, 0⟩ : V3) = T.apply v := by ext <;> simp [V3.xy, hz v hv]
    rw [this, hinv]
  obtain ⟨k1, k2, k3⟩ := vertex_reported2 hccw hp2
  refine ⟨fun h1 h2 => ?_, fun h1 h2 => ?_, fun h1 h2 => ?_⟩
  · rw [hdef, k1 (by rw [hdot] <;> simp [h1]) (by rw [hdot] <;> simp [h2])]
    dsimp only
    rw [back t.a (by simp), V3.norm2_eq_dist]
  · rw [hdef, k2 (by rw [hdot] <;> simp [h1]) (by rw [hdot] <;> simp [h2])]
    dsimp only
    rw [back t.b (by simp), V3.norm2_eq_dist]
  · rw [hdef, k3 (by rw [hdot] <;> simp [h1]) (by rw [hdot] <;> simp [h2])]
    dsimp only
    rw [back t.c (by simp), V3.norm2_eq_dist]

/-! ### A tetrahedron -/

theorem corner_is {v : V3} : IsCorner corner v ↔ v = ⟨0, 0, 0⟩ ∨ v = ⟨1, 0, 0⟩ ∨ v = ⟨0, 1, 0⟩ ∨ v = ⟨0, 0, 1⟩ := by
  constructor
  · rintro ⟨t, ht, h⟩
    simp only [corner, List.mem_cons, List.not_mem_nil, or_false] at ht
    rcases ht with rfl | rfl | rfl | rfl <;> tauto
  · rintro (rfl | rfl | rfl | rfl)
    · exact ⟨⟨⟨0, 0, 0⟩, ⟨0, 1, 0⟩, ⟨1, 0, 0⟩⟩, by simp [corner], by simp⟩
    · exact ⟨⟨⟨0, 0, 0⟩, ⟨0, 1, 0⟩, ⟨1, 0, 0⟩⟩, by simp [corner], by simp⟩
    · exact ⟨⟨⟨0, 0, 0⟩, ⟨0, 1, 0⟩, ⟨1, 0, 0⟩⟩, by simp [corner], by simp⟩
    · exact ⟨⟨⟨0, 0, 0⟩, ⟨1, 0, 0⟩, ⟨0, 0, 1⟩⟩, by simp [corner], by simp⟩

theorem corner_tol : effectiveTol corner (1 / 4) = 1 / 4 := by
  unfold effectiveTol
  rw [if_neg (by norm_num)]

theorem corner_exact : ∀ v w, IsCorner corner v → IsCorner corner w → Near (effectiveTol corner (1 / 4)) v w → v = w := by
  intro v w hv hw hn
  rw [corner_tol] at hn
  obtain ⟨n1, n2, n3⟩ := hn
  rw [corner_is] at hv hw
  rcases hv with rfl | rfl | rfl | rfl <;> rcases hw with rfl | rfl | rfl | rfl <;> first | rfl | (exfalso; revert n1 n2 n3; norm_num)

theorem corner_nondeg : ∀ t ∈ corner, t.NonDegenerate := by
  intro t ht
  simp only [corner, List.mem_cons, List.not_mem_nil, or_false] at ht
  rcases ht with rfl | rfl | rfl | rfl <;> intro e <;>
    (have e1 := congrArg V3.x e; have e2 := congrArg V3.y e; have e3 := congrArg V3.z e
     simp [V3.cross, V3.sub] at e1 e2 e3)

theorem corner_nodup : corner.Nodup := by
  simp [corner]

theorem corner_mesh : ∃ m, newMesh corner (1 / 4) = some m := by
  have hb := big
  have hs : triBox corner = ⟨⟨0, 0, 0⟩, ⟨1, 1, 1⟩⟩ := by
    have e1 : min maxFloat64 0 = (0 : ℝ) := min_eq_right (by linarith)
    have e2 : max (-maxFloat64) 0 = (0 : ℝ) := max_eq_right (by linarith)
    simp [triBox, corner, emptyBox, Box3.includeV, V3.minElem, V3.maxElem, e1, e2]
  have hr : 1 ≤ (sideRange corner).2 := by
    simp only [sideRange, corner, List.foldl, V3.norm2, V3.sub]
    refine le_trans ?_ (le_max_right _ _)
    norm_num
  have hq : 1 ≤ Real.sqrt (sideRange corner).2 := by
    rw [Real.one_le_sqrt]; exact hr
  unfold newMesh
  dsimp only
  rw [if_neg (by rw [not_lt]; linarith), hs]
  have h10 : ∀ x : ℝ, (if (1 / 4 : ℝ) = 0 then x else 1 / 4) = 1 / 4 := fun x => if_neg (by norm_num)
  rw [h10]
  have hg : goInt (max (Box3.size ⟨⟨0, 0, 0⟩, ⟨1, 1, 1⟩⟩).x (max (Box3.size ⟨⟨0, 0, 0⟩, ⟨1, 1, 1⟩⟩).y (Box3.size ⟨⟨0, 0, 0⟩, ⟨1, 1, 1⟩⟩).z) / (1 / 4) + 1e-12) = 4 := by
    simp only [Box3.size, V3.sub]
    norm_num
    unfold goInt
    rw [if_pos (by norm_num), Int.floor_eq_iff]
    norm_num
  rw [hg, if_neg (by norm_num), if_neg (by norm_num)]
  exact ⟨_, rfl⟩

theorem corner_edges : EdgesShared corner := by
  intro t ht a b hab
  have only : ∀ (t t' s1 s2 : Tri) (a b : V3), (∀ s ∈ corner, s = t ∨ s = t' ∨ s = s1 ∨ s = s2) →
      (∀ q, InnerEdge a b q → ¬ s1.Mem q) → (∀ q, InnerEdge a b q → ¬ s2.Mem q) →
      ∀ q, InnerEdge a b q → ∀ s ∈ corner, s.Mem q → s = t ∨ s = t' := by
    intro t t' s1 s2 a b hall h1 h2 q hq s hs hm
    rcases hall s hs with h | h | rfl | rfl
    · exact .inl h
    · exact .inr h
    · exact absurd hm (h1 q hq)
    · exact absurd hm (h2 q hq)
  have m0 : (⟨⟨0, 0, 0⟩, ⟨0, 1, 0⟩, ⟨1, 0, 0⟩⟩ : Tri) ∈ corner := by simp [corner]
  have m1 : (⟨⟨0, 0, 0⟩, ⟨1, 0, 0⟩, ⟨0, 0, 1⟩⟩ : Tri) ∈ corner := by simp [corner]
  have m2 : (⟨⟨0, 0, 0⟩, ⟨0, 0, 1⟩, ⟨0, 1, 0⟩⟩ : Tri) ∈ corner := by simp [corner]
  have m3 : (⟨⟨1, 0, 0⟩, ⟨0, 1, 0⟩, ⟨0, 0, 1⟩⟩ : Tri) ∈ corner := by simp [corner]
  have n0 : ∀ q, (⟨⟨0, 0, 0⟩, ⟨0, 1, 0⟩, ⟨1, 0, 0⟩⟩ : Tri).Mem q → q.z = 0 := by
    rintro q ⟨u, v, w, -, -, -, -, rfl⟩; simp [V3.add, V3.scale]
  have n1 : ∀ q, (⟨⟨0, 0, 0⟩, ⟨1, 0, 0⟩, ⟨0, 0, 1⟩⟩ : Tri).Mem q → q.y = 0 := by
    rintro q ⟨u, v, w, -, -, -, -, rfl⟩; simp [V3.add, V3.scale]
  have n2 : ∀ q, (⟨⟨0, 0, 0⟩, ⟨0, 0, 1⟩, ⟨0, 1, 0⟩⟩ : Tri).Mem q → q.x = 0 := by
    rintro q ⟨u, v, w, -, -, -, -, rfl⟩; simp [V3.add, V3.scale]
  have n3 : ∀ q, (⟨⟨1, 0, 0⟩, ⟨0, 1, 0⟩, ⟨0, 0, 1⟩⟩ : Tri).Mem q → q.x + q.y + q.z = 1 := by
    rintro q ⟨u, v, w, -, -, -, hs, rfl⟩; simp [V3.add, V3.scale]; exact hs
  have hall : ∀ s ∈ corner, s = ⟨⟨0, 0, 0⟩, ⟨0, 1, 0⟩, ⟨1, 0, 0⟩⟩ ∨ s = ⟨⟨0, 0, 0⟩, ⟨1, 0, 0⟩, ⟨0, 0, 1⟩⟩ ∨
      s = ⟨⟨0, 0, 0⟩, ⟨0, 0, 1⟩, ⟨0, 1, 0⟩⟩ ∨ s = ⟨⟨1, 0, 0⟩, ⟨0, 1, 0⟩, ⟨0, 0, 1⟩⟩ := by
    intro s hs; simpa [corner] using hs
  generalize e0 : (⟨⟨0, 0, 0⟩, ⟨0, 1, 0⟩, ⟨1, 0, 0⟩⟩ : Tri) = t0 at *
  generalize e1 : (⟨⟨0, 0, 0⟩, ⟨1, 0, 0⟩, ⟨0, 0, 1⟩⟩ : Tri) = t1 at *
  generalize e2 : (⟨⟨0, 0, 0⟩, ⟨0, 0, 1⟩, ⟨0, 1, 0⟩⟩ : Tri) = t2 at *
  generalize e3 : (⟨⟨1, 0, 0⟩, ⟨0, 1, 0⟩, ⟨0, 0, 1⟩⟩ : Tri) = t3 at *
  -- the six edges, by their ends
  have edge : ∀ (a b : V3) (t t' s1 s2 : Tri), t ∈ corner → t' ∈ corner → t ≠ t' → HasEdge t' b a → (∀ s ∈ corner, s = t ∨ s = t' ∨ s = s1 ∨ s = s2) →
      (∀ q, InnerEdge a b q → ¬ s1.Mem q) → (∀ q, InnerEdge a b q → ¬ s2.Mem q) → 
      ∃ t' ∈ corner, t' ≠ t ∧ HasEdge t' b a ∧ ∀ q, InnerEdge a b q → ∀ s ∈ corner, s.Mem q → s = t ∨ s = t' :=
    fun a b t t' s1 s2 ht ht' hne hb hall h1 h2 => ⟨t', ht', hne.symm, hb, only t t' s1 s2 a b hall h1 h2⟩
  have d0 : ∀ q, t0.Mem q → q.z = 0 := n0
  have ne01 : t0 ≠ t1 := by rw [← e0, ← e1]; simp
  have ne02 : t0 ≠ t2 := by rw [← e0, ← e2]; simp
  have ne03 : t0 ≠ t3 := by rw [← e0, ← e3]; simp
  have ne12 : t1 ≠ t2 := by rw [← e1, ← e2]; simp
  have ne13 : t1 ≠ t3 := by rw [← e1, ← e3]; simp
  have ne23 : t2 ≠ t3 := by rw [← e2, ← e3]; simp
  rcases hall t ht with rfl | rfl | rfl | rfl
  · rw [← e0] at hab
    rcases hab with ⟨rfl, rfl⟩ | ⟨rfl, rfl⟩ | ⟨rfl, rfl⟩
    · refine edge _ _ t t2 t1 t3 ht m2 ne02 (by rw [← e2]; simp [HasEdge]) (fun s hs => by have := hall s hs; tauto) ?_ ?_ <;>
        rintro q ⟨l, l0, l1, rfl⟩ hm <;> [have := n1 _ hm; have := n3 _ hm] <;> simp [V3.add, V3.scale] at this <;> linarith
    · refine edge _ _ t t3 t1 t2 ht m3 ne03 (by rw [← e3]; simp [HasEdge]) (fun s hs => by have := hall s hs; tauto) ?_ ?_ <;>
        rintro q ⟨l, l0, l1, rfl⟩ hm <;> [have := n1 _ hm; have := n2 _ hm] <;> simp [V3.add, V3.scale] at this <;> linarith
    · refine edge _ _ t t1 t2 t3 ht m1 ne01 (by rw [← e1]; simp [HasEdge]) (fun s hs => by have := hall s hs; tauto) ?_ ?_ <;>
        rintro q ⟨l, l0, l1, rfl⟩ hm <;> [have := n2 _ hm; have := n3 _ hm] <;> simp [V3.add, V3.scale] at this <;> linarith
  · rw [← e1] at hab
    rcases hab with ⟨rfl, rfl⟩ | ⟨rfl, rfl⟩ | ⟨rfl, rfl⟩
    · refine edge _ _ t t0 t2 t3 ht m0 ne01.symm (by rw [← e0]; simp [HasEdge]) (fun s hs => by have := hall s hs; tauto) ?_ ?_ <;>
        rintro q ⟨l, l0, l1, rfl⟩ hm <;> [have := n2 _ hm; have := n3 _ hm] <;> simp [V3.add, V3.scale] at this <;> linarith
    · refine edge _ _ t t3 t0 t2 ht m3 ne13 (by rw [← e3]; simp [HasEdge]) (fun s hs => by have := hall s hs; tauto) ?_ ?_ <;>
        rintro q ⟨l, l0, l1, rfl⟩ hm <;> [have := n0 _ hm; have := n2 _ hm] <;> simp [V3.add, V3.scale] at this <;> linarith
    · refine edge _ _ t t2 t0 t3 ht m2 ne12 (by rw [← e2]; simp [HasEdge]) (fun s hs => by have := hall s hs; tauto) ?_ ?_ <;>
        rintro q ⟨l, l0, l1, rfl⟩ hm <;> [have := n0 _ hm; have := n3 _ hm] <;> simp [V3.add, V3.scale] at this <;> linarith
  · rw [← e2] at hab
    rcases hab with ⟨rfl, rfl⟩ | ⟨rfl, rfl⟩ | ⟨rfl, rfl⟩
    · refine edge _ _ t t1 t0 t3 ht m1 ne12.symm (by rw [← e1]; simp [HasEdge]) (fun s hs => by have := hall s hs; tauto) ?_ ?_ <;>
        rintro q ⟨l, l0, l1, rfl⟩ hm <;> [have := n0 _ hm; have := n3 _ hm] <;> simp [V3.add, V3.scale] at this <;> linarith
    · refine edge _ _ t t3 t0 t1 ht m3 ne23 (by rw [← e3]; simp [HasEdge]) (fun s hs => by have := hall s hs; tauto) ?_ ?_ <;>
        rintro q ⟨l, l0, l1, rfl⟩ hm <;> [have := n0 _ hm; have := n1 _ hm] <;> simp [V3.add, V3.scale] at this <;> linarith
    · refine edge _ _ t t0 t1 t3 ht m0 ne02.symm (by rw [← e0]; simp [HasEdge]) (fun s hs => by have := hall s hs; tauto) ?_ ?_ <;>
        rintro q ⟨l, l0, l1, rfl⟩ hm <;> [have := n1 _ hm; have := n3 _ hm] <;> simp [V3.add, V3.scale] at this <;> linarith
  · rw [← e3] at hab
    rcases hab with ⟨rfl, rfl⟩ | ⟨rfl, rfl⟩ | ⟨rfl, rfl⟩
    · refine edge _ _ t t0 t1 t2 ht m0 ne03.symm (by rw [← e0]; simp [HasEdge]) (fun s hs => by have := hall s hs; tauto) ?_ ?_ <;>
        rintro q ⟨l, l0, l1, rfl⟩ hm <;> [have := n1 _ hm; have := n2 _ hm] <;> simp [V3.add, V3.scale] at this <;> linarith
    · refine edge _ _ t t2 t0 t1 ht m2 ne23.symm (by rw [← e2]; simp [HasEdge]) (fun s hs => by have := hall s hs; tauto) ?_ ?_ <;>
        rintro q ⟨l, l0, l1, rfl⟩ hm <;> [have := n0 _ hm; have := n1 _ hm] <;> simp [V3.add, V3.scale] at this <;> linarith
    · refine edge _ _ t t1 t0 t2 ht m1 ne13.symm (by rw [← e1]; simp [HasEdge]) (fun s hs => by have := hall s hs; tauto) ?_ ?_ <;>
        rintro q ⟨l, l0, l1, rfl⟩ hm <;> [have := n0 _ hm; have := n2 _ hm] <;> simp [V3.add, V3.scale] at this <;> linarith

theorem unitNormal_of {t : Tri} {n : V3} (h : V3.cross (V3.sub t.b t.a) (V3.sub t.c t.a) = n) (hn : V3.norm n = 1) : unitNormal t = n := by
  unfold unitNormal V3.unit
  rw [h, hn]
  ext <;> simp [V3.scale]

theorem normal0 : unitNormal ⟨⟨0, 0, 0⟩, ⟨0, 1, 0⟩, ⟨1, 0, 0⟩⟩ = ⟨0, 0, -1⟩ :=
  unitNormal_of (by simp [V3.cross, V3.sub]) (V3.norm_eq_of (by norm_num) (by norm_num))

theorem normal1 : unitNormal ⟨⟨0, 0, 0⟩, ⟨1, 0, 0⟩, ⟨0, 0, 1⟩⟩ = ⟨0, -1, 0⟩ :=
  unitNormal_of (by simp [V3.cross, V3.sub]) (V3.norm_eq_of (by norm_num) (by norm_num))

theorem normal2 : unitNormal ⟨⟨0, 0, 0⟩, ⟨0, 0, 1⟩, ⟨0, 1, 0⟩⟩ = ⟨-1, 0, 0⟩ :=
  unitNormal_of (by simp [V3.cross, V3.sub]) (V3.norm_eq_of (by norm_num) (by norm_num))

theorem normal3 : unitNormal ⟨⟨1, 0, 0⟩, ⟨0, 1, 0⟩, ⟨0, 0, 1⟩⟩ = ⟨1 / Real.sqrt 3, 1 / Real.sqrt 3, 1 / Real.sqrt 3⟩ := by
  unfold unitNormal V3.unit
  have e : V3.cross (V3.sub ⟨0, 1, 0⟩ ⟨1, 0, 0⟩) (V3.sub ⟨0, 0, 1⟩ ⟨1, 0, 0⟩) = ⟨1, 1, 1⟩ := by simp [V3.cross, V3.sub]
  have hn : V3.norm ⟨1, 1, 1⟩ = Real.sqrt 3 := by unfold V3.norm; norm_num
  rw [e, hn]
  ext <;> simp [V3.scale]

theorem corner_filter {idx : V3 → ℕ} (hidx : ∀ v w, IsCorner corner v → IsCorner corner w → (idx v = idx w ↔ v = w)) {V : V3} (hV : IsCorner corner V) :
    ((corner.flatMap cornerWeights).filter fun c => decide (idx c.1 = idx V)) =
      (open Classical in (corner.flatMap cornerWeights).filter fun c => decide (c.1 = V)) := by
  apply List.filter_congr
  intro c hc
  have hc' : c ∈ corner.flatMap cornerShares := by
    have : corner.flatMap cornerWeights = corner.flatMap cornerShares := by congr 1; funext t; exact cornerWeights_eq t
    rwa [← this]
  rw [decide_eq_decide, hidx _ _ (mem_shares hc') hV]

theorem at_origin {idx : V3 → ℕ} (hidx : ∀ v w, IsCorner corner v → IsCorner corner w → (idx v = idx w ↔ v = w)) :
    V3.dot (vsum (((corner.flatMap cornerWeights).filter fun c => decide (idx c.1 = idx ⟨0, 0, 0⟩)).map (·.2))) ⟨2, 0, 0⟩ = -Real.pi := by
  rw [corner_filter hidx (corner_is.2 (.inl rfl)), dot_vsum]
  simp only [corner, cornerWeights, normal0, normal1, normal2, normal3, List.flatMap_cons, List.flatMap_nil, List.cons_append, List.nil_append, List.append_nil]
  have ha : angle (V3.sub ⟨0, 0, 1⟩ ⟨0, 0, 0⟩) (V3.sub ⟨0, 1, 0⟩ ⟨0, 0, 0⟩) = Real.pi / 2 := by
    unfold angle
    have : V3.dot (V3.sub ⟨0, 0, 1⟩ ⟨0, 0, 0⟩) (V3.sub ⟨0, 1, 0⟩ ⟨0, 0, 0⟩) = 0 := by simp [V3.dot, V3.sub]
    rw [this, zero_div, Real.arccos_zero]
  simp [V3.dot, V3.scale, ha]

theorem at_second {idx : V3 → ℕ} (hidx : ∀ v w, IsCorner corner v → IsCorner corner w → (idx v = idx w ↔ v = w)) :
    V3.dot (vsum (((corner.flatMap cornerWeights).filter fun c => decide (idx c.1 = idx ⟨0, 1, 0⟩)).map (·.2))) ⟨2, -1, 0⟩ < 0 := by
  rw [corner_filter hidx (corner_is.2 (.inr (.inr (.inl rfl)))), dot_vsum]
  simp only [corner, cornerWeights, normal0, normal1, normal2, normal3, List.flatMap_cons, List.flatMap_nil, List.cons_append, List.nil_append, List.append_nil]
  have s2 : Real.sqrt 2 * Real.sqrt 2 = 2 := Real.mul_self_sqrt (by norm_num)
  have hs2 : 0 < Real.sqrt 2 := by positivity
  have n1 : V3.norm (V3.sub ⟨0, 0, 0⟩ ⟨0, 1, 0⟩) = 1 := V3.norm_eq_of (by norm_num) (by simp [V3.sub])
  have n2 : V3.norm (V3.sub ⟨0, 0, 1⟩ ⟨0, 1, 0⟩) = Real.sqrt 2 := V3.norm_eq_of hs2.le (by simp [V3.sub]; norm_num)
  have n3 : V3.norm (V3.sub ⟨1, 0, 0⟩ ⟨0, 1, 0⟩) = Real.sqrt 2 := V3.norm_eq_of hs2.le (by simp [V3.sub]; norm_num)
  have ha : angle (V3.sub ⟨0, 0, 0⟩ ⟨0, 1, 0⟩) (V3.sub ⟨0, 0, 1⟩ ⟨0, 1, 0⟩) = Real.pi / 4 := by
    unfold angle
    have e : V3.dot (V3.sub ⟨0, 0, 0⟩ ⟨0, 1, 0⟩) (V3.sub ⟨0, 0, 1⟩ ⟨0, 1, 0⟩) = 1 := by simp [V3.dot, V3.sub]
    rw [e, n1, n2, one_mul, show 1 / Real.sqrt 2 = Real.cos (Real.pi / 4) by rw [Real.cos_pi_div_four]; field_simp; linarith,
      Real.arccos_cos (by positivity) (by linarith [Real.pi_pos])]
  have hb : angle (V3.sub ⟨0, 0, 1⟩ ⟨0, 1, 0⟩) (V3.sub ⟨1, 0, 0⟩ ⟨0, 1, 0⟩) = Real.pi / 3 := by
    unfold angle
    have e : V3.dot (V3.sub ⟨0, 0, 1⟩ ⟨0, 1, 0⟩) (V3.sub ⟨1, 0, 0⟩ ⟨0, 1, 0⟩) = 1 := by simp [V3.dot, V3.sub]
    rw [e, n2, n3, s2, show (1 : ℝ) / 2 = Real.cos (Real.pi / 3) by rw [Real.cos_pi_div_three],
      Real.arccos_cos (by positivity) (by linarith [Real.pi_pos])]
  have h3 : 1 / Real.sqrt 3 ≤ 1 := by
    rw [div_le_one (by positivity), Real.one_le_sqrt]; norm_num
  have hpi := Real.pi_pos
  simp only [List.filter_cons, List.filter_nil, V3.mk.injEq, zero_ne_one, one_ne_zero, and_true, and_false, decide_true, decide_false,
    if_true, ite_false, Bool.false_eq_true, List.map_cons, List.map_nil, List.sum_cons, List.sum_nil, ha, hb, V3.dot, V3.scale]
  have h4 : 0 < 1 / Real.sqrt 3 := by positivity
  nlinarith

/-- The tetrahedron `corner` meets every hypothesis of `C50_sign_partial` for queries whose closest point is not a corner, but the
query (2, 0, 0), outside of it and one unit away from the corner (1, 0, 0), has the value -1, whatever the triangles remember,
whichever triangles the tree measures and whichever nearest triangle it returns: of the closest triangle another corner is
reported, and the normal there points away from the query. -/
theorem C50_vertex_wrong : (⟨2, 0, 0⟩ : V3) ∉ cornerSolid ∧ Separates corner cornerSolid ∧ Outward corner cornerSolid ∧ EdgesShared corner ∧
    ∃ m, newMesh corner (1 / 4) = some m ∧ ∀ (mem : Memory) (visited : List ℕ) (i : ℕ), i ∈ visited → i < corner.length →
      (∀ j x y, m.dist2 i ⟨2, 0, 0⟩ = some x → m.dist2 j ⟨2, 0, 0⟩ = some y → x ≤ y) → m.evaluate mem visited i ⟨2, 0, 0⟩ = some (-1) := by
  refine ⟨by simp only [cornerSolid, Set.mem_ofPred_eq]; norm_num, corner_separates, corner_outward, corner_edges, ?_⟩
  obtain ⟨m, hm⟩ := corner_mesh
  refine ⟨m, hm, fun mem visited i hi hil hnear => ?_⟩
  obtain ⟨idx, hidx, hV, hdist, -⟩ := exact_tables (by simp [corner]) hm corner_exact
  have hbig := big
  have hfar : ∀ (t : Tri), t ∈ corner → ∀ v, v = t.a ∨ v = t.b ∨ v = t.c → V3.dist ⟨2, 0, 0⟩ v ^ 2 < maxFloat64 := by
    intro t ht v hv
    have hc : IsCorner corner v := ⟨t, ht, hv⟩
    rw [← V3.norm2_eq_dist]
    rw [corner_is] at hc
    refine lt_trans ?_ hbig
    rcases hc with rfl | rfl | rfl | rfl <;> simp [V3.norm2, V3.sub] <;> norm_num
  have d1 : V3.dist ⟨2, 0, 0⟩ ⟨1, 0, 0⟩ = 1 := V3.norm_eq_of (by norm_num) (by simp [V3.sub]; norm_num)
  have m0 : (⟨⟨0, 0, 0⟩, ⟨0, 1, 0⟩, ⟨1, 0, 0⟩⟩ : Tri) ∈ corner := by simp [corner]
  have m1 : (⟨⟨0, 0, 0⟩, ⟨1, 0, 0⟩, ⟨0, 0, 1⟩⟩ : Tri) ∈ corner := by simp [corner]
  have m2 : (⟨⟨0, 0, 0⟩, ⟨0, 0, 1⟩, ⟨0, 1, 0⟩⟩ : Tri) ∈ corner := by simp [corner]
  have m3 : (⟨⟨1, 0, 0⟩, ⟨0, 1, 0⟩, ⟨0, 0, 1⟩⟩ : Tri) ∈ corner := by simp [corner]
  have r0 := (C50_reported_vertex _ (corner_nondeg _ m0) ⟨2, 0, 0⟩ (hfar _ m0)).2.2 (by simp [V3.dot, V3.sub]; try norm_num) (by simp [V3.dot, V3.sub]; try norm_num)
  have r1 := (C50_reported_vertex _ (corner_nondeg _ m1) ⟨2, 0, 0⟩ (hfar _ m1)).2.1 (by simp [V3.dot, V3.sub]; try norm_num) (by simp [V3.dot, V3.sub]; try norm_num)
  have r3 := (C50_reported_vertex _ (corner_nondeg _ m3) ⟨2, 0, 0⟩ (hfar _ m3)).1 (by simp [V3.dot, V3.sub]; try norm_num) (by simp [V3.dot, V3.sub]; try norm_num)
  dsimp only at r0 r1 r3
  rw [d1] at r0 r1 r3
  have sO : V3.sub ⟨2, 0, 0⟩ ⟨0, 0, 0⟩ = ⟨2, 0, 0⟩ := by simp [V3.sub]
  have sB : V3.sub ⟨2, 0, 0⟩ ⟨0, 1, 0⟩ = ⟨2, -1, 0⟩ := by simp [V3.sub]
  have vO := hV ⟨0, 0, 0⟩ (corner_is.2 (.inl rfl))
  have vB := hV ⟨0, 1, 0⟩ (corner_is.2 (.inr (.inr (.inl rfl))))
  have nO := at_origin hidx
  have nB := at_second hidx
  have hpi := Real.pi_pos
  have hi4 : i < 4 := hil
  have hcases : i = 0 ∨ i = 1 ∨ i = 2 ∨ i = 3 := by omega
  rcases hcases with rfl | rfl | rfl | rfl
  · obtain ⟨mt, e, e0, e1, e2, -, ed⟩ := hdist ⟨2, 0, 0⟩ 0 _ rfl
    rw [r0] at ed
    rw [evaluate_eq m mem visited _ hi _ e ed]
    simp only [Mesh.signed, e1, vB, Option.map_some, sB, copysign]
    rw [if_pos nB]; norm_num
  · obtain ⟨mt, e, e0, e1, e2, -, ed⟩ := hdist ⟨2, 0, 0⟩ 1 _ rfl
    rw [r1] at ed
    rw [evaluate_eq m mem visited _ hi _ e ed]
    simp only [Mesh.signed, e0, vO, Option.map_some, sO, copysign]
    rw [if_pos (by rw [nO]; linarith)]; norm_num
  · exfalso
    obtain ⟨mt, e, -, -, -, -, ed⟩ := hdist ⟨2, 0, 0⟩ 2 _ rfl
    obtain ⟨mt', e', -, -, -, -, ed'⟩ := hdist ⟨2, 0, 0⟩ 0 _ rfl
    rw [r0] at ed'
    have := hnear 0 _ _ (by unfold Mesh.dist2; rw [e]; simp [ed]; rfl) (by unfold Mesh.dist2; rw [e']; simp [ed']; rfl)
    obtain ⟨hc, hd, -⟩ := C42_space_partial _ (corner_nondeg _ m2) ⟨2, 0, 0⟩ (by
      rw [V3.norm2_eq_dist]; exact hfar _ m2 _ (.inl rfl))
    rw [hd] at this
    obtain ⟨⟨u, v, w, -, -, -, -, eq⟩, -⟩ := hc
    generalize (meshTriangleDistance ⟨⟨0, 0, 0⟩, ⟨0, 0, 1⟩, ⟨0, 1, 0⟩⟩ ⟨2, 0, 0⟩).1 = q at *
    have hx : |2 - q.x| ≤ V3.dist ⟨2, 0, 0⟩ q := V3.abs_x_le (V3.sub ⟨2, 0, 0⟩ q)
    have hx' : q.x = 0 := by rw [eq]; simp [V3.add, V3.scale]
    rw [hx'] at hx
    norm_num at hx
    nlinarith
  · obtain ⟨mt, e, e0, e1, e2, -, ed⟩ := hdist ⟨2, 0, 0⟩ 3 _ rfl
    rw [r3] at ed
    rw [evaluate_eq m mem visited _ hi _ e ed]
    simp only [Mesh.signed, e1, vB, Option.map_some, sB, copysign]
    rw [if_pos nB]; norm_num

/-! ### Two evaluations at once -/

/-- The slanted face of the tetrahedron. -/
def slant : Tri := ⟨⟨1, 0, 0⟩, ⟨0, 1, 0⟩, ⟨0, 0, 1⟩⟩

theorem slant_mem : slant ∈ corner := by simp [slant, corner]

theorem slant_cases {p q : V3} (hp : V3.dist p ⟨1, 0, 0⟩ ^ 2 < maxFloat64) (hq : (meshTriangleDistance slant p).1 = q) (h1 : q ≠ ⟨1, 0, 0⟩)
    (h2 : q ≠ ⟨0, 1, 0⟩) (h3 : q ≠ ⟨0, 0, 1⟩) :
    ((meshTriangleDistance slant p).2.1 = .face ∨ (meshTriangleDistance slant p).2.1 = .e0 ∧ q.z = 0 ∨
      (meshTriangleDistance slant p).2.1 = .e1 ∧ q.x = 0 ∨ (meshTriangleDistance slant p).2.1 = .e2 ∧ q.y = 0) := by
  obtain ⟨-, -, s0, s1, s2, w0, w1, w2⟩ := C42_space_partial slant (corner_nondeg _ slant_mem) p (by rw [V3.norm2_eq_dist]; exact hp)
  rw [hq] at s0 s1 s2 w0 w1 w2
  simp only [slant] at s0 s1 s2 w0 w1 w2
  cases hf : (meshTriangleDistance slant p).2.1 with
  | v0 => rcases w0 hf with h | h <;> contradiction
  | v1 => rcases w1 hf with h | h <;> contradiction
  | v2 => rcases w2 hf with h | h <;> contradiction
  | e0 =>
    obtain ⟨u, v, -, -, -, e⟩ := s0 hf
    exact .inr (.inl ⟨rfl, by rw [e]; simp [V3.add, V3.scale]⟩)
  | e1 =>
    obtain ⟨u, v, -, -, -, e⟩ := s1 hf
    exact .inr (.inr (.inl ⟨rfl, by rw [e]; simp [V3.add, V3.scale]⟩))
  | e2 =>
    obtain ⟨u, v, -, -, -, e⟩ := s2 hf
    exact .inr (.inr (.inr ⟨rfl, by rw [e]; simp [V3.add, V3.scale]⟩))
  | face => exact .inl rfl

theorem slant_closest {p x : V3} (hp : V3.dist p ⟨1, 0, 0⟩ ^ 2 < maxFloat64) (hx : slant.Mem x) :
    ∃ u v w, 0 ≤ u ∧ 0 ≤ v ∧ 0 ≤ w ∧ u + v + w = 1 ∧ (meshTriangleDistance slant p).1 = ⟨u, v, w⟩ ∧
      V3.norm2 (V3.sub p ⟨u, v, w⟩) ≤ V3.norm2 (V3.sub p x) ∧ (meshTriangleDistance slant p).2.2 = V3.dist p ⟨u, v, w⟩ ^ 2 := by
  obtain ⟨⟨⟨u, v, w, hu, hv, hw, hs, e⟩, hmin⟩, hd, -⟩ := C42_space_partial slant (corner_nondeg _ slant_mem) p (by rw [V3.norm2_eq_dist]; exact hp)
  have e' : (meshTriangleDistance slant p).1 = ⟨u, v, w⟩ := by rw [e]; ext <;> simp [slant, V3.add, V3.scale]
  refine ⟨u, v, w, hu, hv, hw, hs, e', ?_, by rw [hd, e']⟩
  rw [← e', V3.norm2_eq_dist, V3.norm2_eq_dist]
  exact pow_le_pow_left₀ (V3.norm_nonneg _) (hmin x hx) 2

/-- Above the middle of the slanted face. -/
theorem slant_above : meshTriangleDistance slant ⟨1 / 2, 1 / 2, 1 / 2⟩ = (⟨1 / 3, 1 / 3, 1 / 3⟩, .face, 1 / 12) := by
  have hbig := big
  have hp : V3.dist ⟨1 / 2, 1 / 2, 1 / 2⟩ ⟨1, 0, 0⟩ ^ 2 < maxFloat64 := by
    rw [← V3.norm2_eq_dist]; simp [V3.norm2, V3.sub]; norm_num; linarith
  obtain ⟨u, v, w, hu, hv, hw, hs, e, hle, hd⟩ := slant_closest hp (x := ⟨1 / 3, 1 / 3, 1 / 3⟩)
    ⟨1 / 3, 1 / 3, 1 / 3, by norm_num, by norm_num, by norm_num, by norm_num, by ext <;> simp [slant, V3.add, V3.scale]⟩
  have hw' : w = 1 - u - v := by linarith
  simp only [V3.norm2, V3.sub, hw'] at hle
  have h1 : u = 1 / 3 := by nlinarith [sq_nonneg (u - 1 / 3), sq_nonneg (v - 1 / 3), sq_nonneg (u + v - 2 / 3)]
  have h2 : v = 1 / 3 := by nlinarith [sq_nonneg (u - 1 / 3), sq_nonneg (v - 1 / 3), sq_nonneg (u + v - 2 / 3)]
  have h3 : w = 1 / 3 := by linarith
  subst h1; subst h2; subst h3
  have hf : (meshTriangleDistance slant ⟨1 / 2, 1 / 2, 1 / 2⟩).2.1 = .face := by
    rcases slant_cases hp e (by simp) (by simp) (by simp) with h | ⟨-, h⟩ | ⟨-, h⟩ | ⟨-, h⟩
    · exact h
    all_goals norm_num at h
  rw [← V3.norm2_eq_dist] at hd
  simp only [V3.norm2, V3.sub] at hd
  refine Prod.ext e (Prod.ext hf ?_)
  rw [hd]; norm_num

/-- Beside the edge between the first two corners of the slanted face. -/
theorem slant_beside : meshTriangleDistance slant ⟨1, 1, 0⟩ = (⟨1 / 2, 1 / 2, 0⟩, .e0, 1 / 2) := by
  have hbig := big
  have hp : V3.dist ⟨1, 1, 0⟩ ⟨1, 0, 0⟩ ^ 2 < maxFloat64 := by
    rw [← V3.norm2_eq_dist]; simp [V3.norm2, V3.sub]; linarith
  obtain ⟨u, v, w, hu, hv, hw, hs, e, hle, hd⟩ := slant_closest hp (x := ⟨1 / 2, 1 / 2, 0⟩)
    ⟨1 / 2, 1 / 2, 0, by norm_num, by norm_num, by norm_num, by norm_num, by ext <;> simp [slant, V3.add, V3.scale]⟩
  simp only [V3.norm2, V3.sub] at hle
  have hu' : u = 1 - v - w := by linarith
  subst hu'
  have h3 : w = 0 := by nlinarith [sq_nonneg (v - (1 - w) / 2)]
  subst h3
  have h2 : v = 1 / 2 := by nlinarith [sq_nonneg (v - 1 / 2)]
  subst h2
  have e' : (meshTriangleDistance slant ⟨1, 1, 0⟩).1 = ⟨1 / 2, 1 / 2, 0⟩ := by rw [e]; norm_num
  have hf : (meshTriangleDistance slant ⟨1, 1, 0⟩).2.1 = .e0 := by
    rcases slant_cases hp e' (by simp) (by simp) (by simp) with h | ⟨h, -⟩ | ⟨-, h⟩ | ⟨-, h⟩
    · have := (face_perp (corner_nondeg _ slant_mem) h (by rw [V3.norm2_eq_dist]; exact hp)).2
      rw [e'] at this
      simp [slant, V3.dot, V3.sub] at this
      norm_num at this
    · exact h
    all_goals norm_num at h
  rw [← V3.norm2_eq_dist] at hd
  simp only [V3.norm2, V3.sub] at hd
  refine Prod.ext e' (Prod.ext hf ?_)
  rw [hd]; norm_num

/-- Evaluations must not run at the same time: the triangles remember the last distance calculation.  Two queries outside the
tetrahedron, both nearest to its slanted face.  Undisturbed, the first has a positive value; when the second one's measurement
falls between the first one's search and its sign, the same value is negative. -/
theorem C50_race_wrong : (⟨1 / 2, 1 / 2, 1 / 2⟩ : V3) ∉ cornerSolid ∧ (⟨1, 1, 0⟩ : V3) ∉ cornerSolid ∧
    ∃ m, newMesh corner (1 / 4) = some m ∧ ∀ mem : Memory, m.dist2 3 ⟨1 / 2, 1 / 2, 1 / 2⟩ = some (1 / 12) ∧
      m.evaluate mem [3] 3 ⟨1 / 2, 1 / 2, 1 / 2⟩ = some (Real.sqrt (1 / 12)) ∧
      m.copySign (m.measure 3 ⟨1, 1, 0⟩ (m.measure 3 ⟨1 / 2, 1 / 2, 1 / 2⟩ mem)) 3 ⟨1 / 2, 1 / 2, 1 / 2⟩ (Real.sqrt (1 / 12)) =
        some (-Real.sqrt (1 / 12)) := by
  refine ⟨by simp only [cornerSolid, Set.mem_ofPred_eq]; norm_num, by simp only [cornerSolid, Set.mem_ofPred_eq]; norm_num, ?_⟩
  obtain ⟨m, hm⟩ := corner_mesh
  refine ⟨m, hm, fun mem => ?_⟩
  obtain ⟨idx, hidx, hV, hdist, hedge⟩ := exact_tables (by simp [corner]) hm corner_exact
  obtain ⟨mt, e, e0, e1, e2, eN, ed⟩ := hdist ⟨1 / 2, 1 / 2, 1 / 2⟩ 3 slant rfl
  obtain ⟨mt', e', -, -, -, -, ed'⟩ := hdist ⟨1, 1, 0⟩ 3 slant rfl
  rw [e] at e'
  cases e'
  rw [slant_above] at ed
  rw [slant_beside] at ed'
  have hn : unitNormal slant = ⟨1 / Real.sqrt 3, 1 / Real.sqrt 3, 1 / Real.sqrt 3⟩ := normal3
  have hpi := Real.pi_pos
  have hs3 : 0 < 1 / Real.sqrt 3 := by positivity
  refine ⟨?_, ?_, ?_⟩
  · unfold Mesh.dist2; rw [e]; simp only [Option.bind_some, ed, Option.map_some]
  · rw [evaluate_eq m mem [3] 3 (by simp) _ e ed]
    simp only [Mesh.signed, Option.map_some, copysign]
    rw [if_neg]
    rw [eN, hn]
    simp only [V3.dot, V3.scale, V3.sub, not_lt]
    have := mul_pos Real.two_pi_pos hs3
    nlinarith
  · unfold Mesh.copySign Mesh.measure
    rw [Function.update_self, e]
    simp only [Option.bind_some, ed', Option.map_some, Mesh.signed, copysign]
    rw [if_pos]
    rw [e0, e1, hedge _ _ ⟨slant, slant_mem, .inl rfl⟩ ⟨slant, slant_mem, .inr (.inl rfl)⟩]
    have hE : HasEdge slant slant.a slant.b := .inl ⟨rfl, rfl⟩
    obtain ⟨t', ht', hne, hba, honly⟩ := corner_edges slant slant_mem _ _ hE
    have hq : InnerEdge slant.a slant.b ⟨1 / 2, 1 / 2, 0⟩ := ⟨1 / 2, by norm_num, by norm_num, by ext <;> simp [slant, V3.add, V3.scale]; norm_num⟩
    have ht'' : t' = ⟨⟨0, 0, 0⟩, ⟨0, 1, 0⟩, ⟨1, 0, 0⟩⟩ := by
      rcases honly _ hq ⟨⟨0, 0, 0⟩, ⟨0, 1, 0⟩, ⟨1, 0, 0⟩⟩ (by simp [corner]) ⟨0, 1 / 2, 1 / 2, by norm_num, by norm_num, by norm_num, by norm_num,
        by ext <;> simp [V3.add, V3.scale]⟩ with h | h
      · simp [slant] at h
      · exact h.symm
    rw [edge_sum corner_nondeg corner_nodup hidx slant_mem ht' hne.symm hE hba hq (honly _ hq), ht'', hn, normal0]
    simp only [V3.dot, V3.sub]
    have h3 : 1 / Real.sqrt 3 < 1 := by
      rw [div_lt_one (by positivity), Real.lt_sqrt (by norm_num)]; norm_num
    have : (1 / Real.sqrt 3 * (1 / 2 - 1 / 2) + 1 / Real.sqrt 3 * (1 / 2 - 1 / 2) + 1 / Real.sqrt 3 * (1 / 2 - 0) +
      (0 * (1 / 2 - 1 / 2) + 0 * (1 / 2 - 1 / 2) + -1 * (1 / 2 - 0))) < 0 := by linarith
    exact mul_neg_of_pos_of_neg hpi this

/-- The hypotheses of `C50_sign_partial` hold for the tetrahedron and a query whose closest point is on an edge. -/
example : ∃ m, newMesh corner (1 / 4) = some m ∧ ∀ (mem : Memory), ∃ v, m.evaluate mem [0, 3, 2] 3 ⟨1, 1, 0⟩ = some v ∧ 0 < v := by
  obtain ⟨m, hm⟩ := corner_mesh
  refine ⟨m, hm, fun mem => ?_⟩
  have hbig := big
  obtain ⟨idx, hidx, hV, hdist, hedge⟩ := exact_tables (by simp [corner]) hm corner_exact
  -- every point of the mesh is at least as far away as the middle of the edge
  have hall : ∀ t ∈ corner, ∀ q, t.Mem q → 1 / 2 ≤ V3.dist ⟨1, 1, 0⟩ q ^ 2 := by
    rintro t ht q ⟨u, v, w, hu, hv, hw, hs, rfl⟩
    rw [← V3.norm2_eq_dist]
    simp only [corner, List.mem_cons, List.not_mem_nil, or_false] at ht
    rcases ht with rfl | rfl | rfl | rfl <;> simp only [V3.norm2, V3.sub, V3.add, V3.scale]
    · nlinarith [sq_nonneg (v - w)]
    · nlinarith
    · nlinarith
    · nlinarith [sq_nonneg (u - v)]
  obtain ⟨v, e, -, h, -⟩ := C50_sign_partial corner (by simp [corner]) (1 / 4) m hm corner_exact corner_nondeg corner_nodup corner_edges
    cornerSolid corner_separates corner_outward ⟨1, 1, 0⟩ (by
      intro t ht
      rw [← V3.norm2_eq_dist]
      refine lt_trans ?_ hbig
      simp only [corner, List.mem_cons, List.not_mem_nil, or_false] at ht
      rcases ht with rfl | rfl | rfl | rfl <;> simp only [V3.norm2, V3.sub] <;> norm_num)
    (by
      intro t ht hm
      have := hall t ht _ hm
      rw [← V3.norm2_eq_dist] at this
      simp only [V3.norm2, V3.sub] at this
      norm_num at this)
    (by
      intro v hv
      refine ⟨slant, slant_mem, ⟨1 / 2, 1 / 2, 0⟩, ⟨1 / 2, 1 / 2, 0, by norm_num, by norm_num, by norm_num, by norm_num,
        by ext <;> simp [slant, V3.add, V3.scale]⟩, ?_⟩
      refine (sq_lt_sq₀ (V3.norm_nonneg _) (V3.norm_nonneg _)).1 ?_
      show V3.dist _ _ ^ 2 < V3.dist _ _ ^ 2
      rw [← V3.norm2_eq_dist, ← V3.norm2_eq_dist]
      rw [corner_is] at hv
      rcases hv with rfl | rfl | rfl | rfl <;> simp only [V3.norm2, V3.sub] <;> norm_num)
    mem [0, 3, 2] 3 (by simp) (by simp [corner]) (by
      intro j x y hx hy
      obtain ⟨mt, e, -, -, -, -, ed⟩ := hdist ⟨1, 1, 0⟩ 3 slant rfl
      rw [slant_beside] at ed
      have hx' : x = 1 / 2 := by
        unfold Mesh.dist2 at hx; rw [e] at hx; simp [ed] at hx; rw [← hx]; norm_num
      rw [hx']
      cases ht : corner[j]? with
      | none =>
        exfalso
        have hl := (C50_tables corner (by simp [corner]) (1 / 4) m hm).2.1
        have : m.triangles[j]? = none := by
          rw [List.getElem?_eq_none_iff] at ht ⊢
          omega
        unfold Mesh.dist2 at hy
        rw [this] at hy
        cases hy
      | some t =>
        have hmem := List.mem_of_getElem? ht
        obtain ⟨mt', e', -, -, -, -, ed'⟩ := hdist ⟨1, 1, 0⟩ j t ht
        unfold Mesh.dist2 at hy
        rw [e'] at hy
        simp [ed'] at hy
        obtain ⟨hc, hd, -⟩ := C42_space_partial t (corner_nondeg t hmem) ⟨1, 1, 0⟩ (by
          refine lt_trans ?_ hbig
          simp only [corner, List.mem_cons, List.not_mem_nil, or_false] at hmem
          rcases hmem with rfl | rfl | rfl | rfl <;> simp only [V3.norm2, V3.sub] <;> norm_num)
        rw [← hy, hd]
        exact hall t hmem _ hc.1)
  exact ⟨v, e, h.2 (by simp only [cornerSolid, Set.mem_ofPred_eq]; norm_num)⟩

end Kd
end Sdf
