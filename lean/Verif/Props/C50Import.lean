import Verif.Lemmas.MeshSign

/-! C50: importing a triangle model with pseudo-normals. -/

namespace Sdf
namespace Kd
open Bih Edge

/-! ### Specification -/

/-- The angle between two vectors. -/
noncomputable def angle (u v : V3) : ℝ := Real.arccos (V3.dot u v / (V3.norm u * V3.norm v))

/-- The corners of a triangle, each with the unit normal weighted by the angle of the triangle at the corner. -/
noncomputable def cornerWeights (t : Tri) : List (V3 × V3) :=
  [(t.a, V3.scale (angle (V3.sub t.b t.a) (V3.sub t.c t.a)) (unitNormal t)),
    (t.b, V3.scale (angle (V3.sub t.c t.b) (V3.sub t.a t.b)) (unitNormal t)),
    (t.c, V3.scale (angle (V3.sub t.a t.c) (V3.sub t.b t.c)) (unitNormal t))]

/-- The edges of a triangle, each with the unit normal weighted by a straight angle. -/
noncomputable def edgeWeights (t : Tri) : List ((V3 × V3) × V3) :=
  [((t.a, t.b), V3.scale Real.pi (unitNormal t)), ((t.b, t.c), V3.scale Real.pi (unitNormal t)),
    ((t.c, t.a), V3.scale Real.pi (unitNormal t))]

/-- The triangle has an edge from `a` to `b`. -/
def HasEdge (t : Tri) (a b : V3) : Prop := (t.a = a ∧ t.b = b) ∨ (t.b = a ∧ t.c = b) ∨ (t.c = a ∧ t.a = b)

/-- Every edge of the mesh has exactly two triangles, which run through it in opposite directions, and no other triangle touches the
inside of an edge. -/
def EdgesShared (mesh : List Tri) : Prop := ∀ t ∈ mesh, ∀ a b, HasEdge t a b →
  ∃ t' ∈ mesh, t' ≠ t ∧ HasEdge t' b a ∧ ∀ q, InnerEdge a b q → ∀ s ∈ mesh, s.Mem q → s = t ∨ s = t'

/-! ### Tables -/

theorem openingAngle_eq (a b c : V3) : openingAngle a b c = angle (V3.sub b a) (V3.sub c a) := by
  have h : ∀ u v : V3, V3.norm (V3.sub u v) = V3.norm (V3.sub v u) := fun u v => V3.dist_comm u v
  unfold openingAngle angle
  dsimp only
  rw [h a b, h a c]
  congr 2
  simp only [V3.dot, V3.sub]; ring

theorem cornerWeights_eq (t : Tri) : cornerWeights t = cornerShares t := by
  simp only [cornerWeights, cornerShares, openingAngle_eq]

theorem edgeKey_eq {i j k l : ℕ} : edgeKey i j = edgeKey k l ↔ (i = k ∧ j = l) ∨ (i = l ∧ j = k) := by
  unfold edgeKey
  split_ifs <;> simp only [Prod.mk.injEq] <;> omega

theorem newMesh_some {model : List Tri} (hm : model ≠ []) {tol : ℝ} {m : Mesh} (h : newMesh model tol = some m) :
    0 < effectiveTol model tol ∧ ¬ Real.sqrt (sideRange model).2 / 2 < tol ∧
      m = ⟨triBox model, (loop (effectiveTol model tol) model ⟨[], [], fun _ => ⟨0, 0, 0⟩⟩).2.vertices,
        (loop (effectiveTol model tol) model ⟨[], [], fun _ => ⟨0, 0, 0⟩⟩).1,
        (loop (effectiveTol model tol) model ⟨[], [], fun _ => ⟨0, 0, 0⟩⟩).2.pseudoEdgeN⟩ := by
  have key : ∀ t : ℝ, ¬ goInt (max (triBox model).size.x (max (triBox model).size.y (triBox model).size.z) / t + 1e-12) ≤ 0 → 0 < t := by
    intro t hn
    by_contra hc
    have ht : t ≤ 0 := not_lt.1 hc
    apply hn
    apply goInt_nonpos
    obtain ⟨u, hu⟩ := List.exists_mem_of_ne_nil _ hm
    obtain ⟨⟨x1, -, -, x2, -, -⟩, -, -⟩ := triBox_corners model hu
    have hs : 0 ≤ max (triBox model).size.x (max (triBox model).size.y (triBox model).size.z) := by
      refine le_trans ?_ (le_max_left _ _)
      simp only [Box3.size, V3.sub]
      linarith
    have := div_nonpos_of_nonneg_of_nonpos hs ht
    norm_num
    linarith
  unfold newMesh at h
  dsimp only at h
  by_cases c1 : tol > Real.sqrt (sideRange model).2 / 2
  · rw [if_pos c1] at h; cases h
  rw [if_neg c1] at h
  have he : (if tol = 0 then Real.sqrt (sideRange model).1 / 256 else tol) = effectiveTol model tol := rfl
  rw [he] at h
  split_ifs at h with c3 c4
  cases h
  exact ⟨key _ c3, c1, rfl⟩

/-- What a successful import holds: one triangle per triangle of the model, in order; one number per cell of the tolerance grid that
has a corner, with a corner closer than twice the tolerance along every axis and the angle-weighted sum of the normals of all the
triangle corners in the cell; and per edge the sum of the normals of the triangles that have it, in either direction. -/
theorem C50_tables (model : List Tri) (hm : model ≠ []) (tol : ℝ) (m : Mesh) (h : newMesh model tol = some m) :
    0 < effectiveTol model tol ∧ m.triangles.length = model.length ∧ ∃ idx : V3 → ℕ,
      (∀ v w, IsCorner model v → IsCorner model w → (idx v = idx w ↔ key (effectiveTol model tol) v = key (effectiveTol model tol) w)) ∧
      (∀ (i : ℕ) (t : Tri), model[i]? = some t → ∃ mt, m.triangles[i]? = some mt ∧ mt.v0 = idx t.a ∧ mt.v1 = idx t.b ∧ mt.v2 = idx t.c ∧
        mt.N = V3.scale (2 * Real.pi) (unitNormal t) ∧ mt.T = canalisTransform t ∧ mt.InvT = (canalisTransform t).inv ∧
        mt.C = V3.scale (1 / 3) (V3.add (V3.add t.a t.b) t.c)) ∧
      (∀ v, IsCorner model v → ∃ pv, m.vertices[idx v]? = some pv ∧ IsCorner model pv.V ∧ Near (effectiveTol model tol) v pv.V ∧
        pv.N = vsum (((model.flatMap cornerWeights).filter fun c => decide (idx c.1 = idx v)).map (·.2))) ∧
      (∀ v w, IsCorner model v → IsCorner model w → m.pseudoEdgeN (edgeKey (idx v) (idx w)) =
        vsum (((model.flatMap edgeWeights).filter fun c => decide ((idx c.1.1 = idx v ∧ idx c.1.2 = idx w) ∨
          (idx c.1.1 = idx w ∧ idx c.1.2 = idx v))).map (·.2))) := by
  obtain ⟨h0, -, rfl⟩ := newMesh_some hm h
  obtain ⟨idx, e1, e2, e3, e4, e5⟩ := loop_tables (effectiveTol model tol) model
  dsimp only at *
  generalize loop (effectiveTol model tol) model ⟨[], [], fun _ => ⟨0, 0, 0⟩⟩ = s at *
  refine ⟨h0, by rw [e1, List.length_map], idx, e2, ?_, ?_, ?_⟩
  · intro i t ht
    refine ⟨made t (idx t.a) (idx t.b) (idx t.c), ?_, rfl, rfl, rfl, rfl, rfl, rfl, rfl⟩
    rw [e1, List.getElem?_map, ht]; rfl
  · intro v hv
    obtain ⟨w, hw, kw, e⟩ := e3 v hv
    refine ⟨_, e, hw, key_near h0 kw.symm, ?_⟩
    have hc : model.flatMap cornerWeights = model.flatMap cornerShares := by
      congr 1; funext t; exact cornerWeights_eq t
    rw [hc]
    dsimp only
    congr 2
    apply List.filter_congr
    intro c hc
    rw [decide_eq_decide, e2 _ _ (mem_shares hc) hv]
  · intro v w hv hw
    rw [e5]
    congr 1
    have hE : ∀ t : Tri, edgeShares idx t = (edgeWeights t).map fun c => (edgeKey (idx c.1.1) (idx c.1.2), c.2) := fun t => rfl
    have hF : model.flatMap (edgeShares idx) = (model.flatMap edgeWeights).map fun c => (edgeKey (idx c.1.1) (idx c.1.2), c.2) := by
      rw [List.map_flatMap]
      congr 1
    rw [hF, List.filter_map, List.map_map]
    have hp : ((fun c : (ℕ × ℕ) × V3 => decide (c.1 = edgeKey (idx v) (idx w))) ∘ fun c : (V3 × V3) × V3 => (edgeKey (idx c.1.1) (idx c.1.2), c.2)) =
        fun c : (V3 × V3) × V3 => decide ((idx c.1.1 = idx v ∧ idx c.1.2 = idx w) ∨ (idx c.1.1 = idx w ∧ idx c.1.2 = idx v)) := by
      funext c
      simp only [Function.comp, decide_eq_decide]
      exact edgeKey_eq
    rw [hp]
    rfl

/-- The bounds contain every corner of the model, hence every vertex of the mesh. -/
theorem C50_bounds (model : List Tri) (hm : model ≠ []) (tol : ℝ) (m : Mesh) (h : newMesh model tol = some m) :
    ∀ t ∈ model, Corners m.bb.Contains t := by
  obtain ⟨-, -, rfl⟩ := newMesh_some hm h
  exact fun t ht => triBox_corners _ ht

/-- Rejected tolerances. -/
theorem C50_rejects (model : List Tri) (hm : model ≠ []) (tol : ℝ) (h : tol < 0 ∨ Real.sqrt (sideRange model).2 / 2 < tol) :
    newMesh model tol = none := by
  cases e : newMesh model tol with
  | none => rfl
  | some m =>
    exfalso
    obtain ⟨h1, h2, -⟩ := newMesh_some hm e
    rcases h with h | h
    · unfold effectiveTol at h1
      rw [if_neg h.ne] at h1
      linarith
    · exact h2 h

/-! ### Evaluating undisturbed -/

/-- Nothing remembered from before matters: the measured triangle is the one of this query. -/
theorem measured (m : Mesh) (visited : List ℕ) (i : ℕ) (hi : i ∈ visited) (p : V3) (mem : Memory) :
    (visited.foldl (fun mem j => m.measure j p mem) mem) i =
      ((m.triangles[i]?).bind fun t => m.distance t p).map fun r => (r.1, r.2.1) := by
  induction visited using List.reverseRecOn with
  | nil => simp at hi
  | append_singleton l j ih =>
    rw [List.foldl_append]
    simp only [List.foldl_cons, List.foldl_nil]
    unfold Mesh.measure
    by_cases h : i = j
    · subst h
      rw [Function.update_self]
    · rw [Function.update_of_ne h]
      rcases List.mem_append.1 hi with h1 | h1
      · exact ih h1
      · simp at h1; exact absurd h1 h

/-- An evaluation that is not disturbed by another one is a function of the mesh, the triangle and the query. -/
theorem evaluate_eq (m : Mesh) (mem : Memory) (visited : List ℕ) (i : ℕ) (hi : i ∈ visited) (p : V3) {mt : MeshTri} (hmt : m.triangles[i]? = some mt)
    {r : V3 × Feature × ℝ} (hr : m.distance mt p = some r) :
    m.evaluate mem visited i p = (m.signed mt r.2.1 r.1 p).map (copysign (Real.sqrt r.2.2)) := by
  unfold Mesh.evaluate Mesh.dist2 Mesh.copySign
  dsimp only
  rw [measured m visited i hi p mem, hmt]
  simp [hr]

/-! ### Sums of normals at an edge -/

theorem dot_vsum (d : V3) (l : List V3) : V3.dot (vsum l) d = (l.map fun v => V3.dot v d).sum := by
  induction l using List.reverseRecOn with
  | nil => simp [vsum, V3.dot]
  | append_singleton l v ih =>
    rw [vsum_append, List.map_append, List.sum_append, ← ih]
    simp only [V3.dot, V3.add, List.map_cons, List.map_nil, List.sum_cons, List.sum_nil]; ring

theorem sum_two {α : Type} {l : List α} (hl : l.Nodup) {f : α → ℝ} {a b : α} (ha : a ∈ l) (hb : b ∈ l) (hab : a ≠ b)
    (h : ∀ x ∈ l, x ≠ a → x ≠ b → f x = 0) : (l.map f).sum = f a + f b := by
  classical
  rw [← List.sum_toFinset f hl]
  rw [Finset.sum_eq_add_of_mem a b (by simpa using ha) (by simpa using hb) hab]
  intro c hc ⟨h1, h2⟩
  exact h c (by simpa using hc) h1 h2

theorem corner_ne {t : Tri} (h : t.NonDegenerate) : t.a ≠ t.b ∧ t.b ≠ t.c ∧ t.c ≠ t.a := by
  unfold Tri.NonDegenerate at h
  refine ⟨?_, ?_, ?_⟩ <;> intro e <;> apply h
  · rw [e]; ext <;> simp only [V3.cross, V3.sub] <;> ring
  · rw [e]; ext <;> simp only [V3.cross, V3.sub] <;> ring
  · rw [e]; ext <;> simp only [V3.cross, V3.sub] <;> ring

open Classical in
/-- The share of one triangle in the sum at the edge between `v` and `w`. -/
theorem edge_share {t : Tri} (h : t.NonDegenerate) {v w : V3} (d : V3) :
    ((((edgeWeights t).filter fun c => decide ((c.1.1 = v ∧ c.1.2 = w) ∨ (c.1.1 = w ∧ c.1.2 = v))).map (·.2)).map fun n => V3.dot n d).sum =
      if HasEdge t v w ∨ HasEdge t w v then Real.pi * V3.dot (unitNormal t) d else 0 := by
  obtain ⟨h1, h2, h3⟩ := corner_ne h
  have hd : V3.dot (V3.scale Real.pi (unitNormal t)) d = Real.pi * V3.dot (unitNormal t) d := by
    simp only [V3.dot, V3.scale]; ring
  unfold edgeWeights HasEdge
  generalize unitNormal t = n at *
  obtain ⟨a, b, c⟩ := t
  dsimp only at *
  by_cases c0 : (a = v ∧ b = w) ∨ (a = w ∧ b = v)
  · have n1 : ¬ ((b = v ∧ c = w) ∨ (b = w ∧ c = v)) := by
      rintro (⟨x, y⟩ | ⟨x, y⟩) <;> rcases c0 with ⟨z, u⟩ | ⟨z, u⟩ <;> simp_all
    have n2 : ¬ ((c = v ∧ a = w) ∨ (c = w ∧ a = v)) := by
      rintro (⟨x, y⟩ | ⟨x, y⟩) <;> rcases c0 with ⟨z, u⟩ | ⟨z, u⟩ <;> simp_all
    rw [if_pos (by tauto)]
    rw [List.filter_cons_of_pos (by simpa using c0), List.filter_cons_of_neg (by simpa using n1), List.filter_cons_of_neg (by simpa using n2)]
    simp [hd]
  · by_cases c1 : (b = v ∧ c = w) ∨ (b = w ∧ c = v)
    · have n2 : ¬ ((c = v ∧ a = w) ∨ (c = w ∧ a = v)) := by
        rintro (⟨x, y⟩ | ⟨x, y⟩) <;> rcases c1 with ⟨z, u⟩ | ⟨z, u⟩ <;> simp_all
      rw [if_pos (by tauto)]
      rw [List.filter_cons_of_neg (by simpa using c0), List.filter_cons_of_pos (by simpa using c1), List.filter_cons_of_neg (by simpa using n2)]
      simp [hd]
    · by_cases c2 : (c = v ∧ a = w) ∨ (c = w ∧ a = v)
      · rw [if_pos (by tauto)]
        rw [List.filter_cons_of_neg (by simpa using c0), List.filter_cons_of_neg (by simpa using c1), List.filter_cons_of_pos (by simpa using c2)]
        simp [hd]
      · rw [if_neg (by tauto)]
        rw [List.filter_cons_of_neg (by simpa using c0), List.filter_cons_of_neg (by simpa using c1), List.filter_cons_of_neg (by simpa using c2)]
        simp

theorem HasEdge.mem {t : Tri} {a b q : V3} (h : HasEdge t a b) (hq : InnerEdge a b q) : t.Mem q := by
  have key : ∀ t : Tri, InnerEdge t.a t.b q → t.Mem q := by
    rintro t ⟨l, l0, l1, rfl⟩
    exact ⟨1 - l, l, 0, by linarith, l0.le, le_rfl, by ring, by ext <;> simp only [V3.add, V3.scale] <;> ring⟩
  rcases h with ⟨rfl, rfl⟩ | ⟨rfl, rfl⟩ | ⟨rfl, rfl⟩
  · exact key t hq
  · exact mem_rot.1 (key (rot t) hq)
  · exact mem_rot.1 (mem_rot.1 (key (rot (rot t)) hq))

theorem HasEdge.corner {model : List Tri} {t : Tri} (ht : t ∈ model) {a b : V3} (h : HasEdge t a b) : IsCorner model a ∧ IsCorner model b := by
  rcases h with ⟨rfl, rfl⟩ | ⟨rfl, rfl⟩ | ⟨rfl, rfl⟩
  · exact ⟨⟨t, ht, .inl rfl⟩, ⟨t, ht, .inr (.inl rfl)⟩⟩
  · exact ⟨⟨t, ht, .inr (.inl rfl)⟩, ⟨t, ht, .inr (.inr rfl)⟩⟩
  · exact ⟨⟨t, ht, .inr (.inr rfl)⟩, ⟨t, ht, .inl rfl⟩⟩

/-- The sum at an edge, when corners are not merged: straight angle times the normals of the two triangles. -/
theorem edge_sum {model : List Tri} (hnd : ∀ t ∈ model, t.NonDegenerate) (hl : model.Nodup) {idx : V3 → ℕ}
    (hidx : ∀ v w, IsCorner model v → IsCorner model w → (idx v = idx w ↔ v = w)) {t t' : Tri} (ht : t ∈ model) (ht' : t' ∈ model) (hne : t ≠ t')
    {a b : V3} (he : HasEdge t a b) (he' : HasEdge t' b a) {q : V3} (hq : InnerEdge a b q) (honly : ∀ s ∈ model, s.Mem q → s = t ∨ s = t') (d : V3) :
    V3.dot (vsum (((model.flatMap edgeWeights).filter fun c => decide ((idx c.1.1 = idx a ∧ idx c.1.2 = idx b) ∨
          (idx c.1.1 = idx b ∧ idx c.1.2 = idx a))).map (·.2))) d =
      Real.pi * (V3.dot (unitNormal t) d + V3.dot (unitNormal t') d) := by
  classical
  obtain ⟨ca, cb⟩ := he.corner ht
  have hfil : ((model.flatMap edgeWeights).filter fun c => decide ((idx c.1.1 = idx a ∧ idx c.1.2 = idx b) ∨
      (idx c.1.1 = idx b ∧ idx c.1.2 = idx a))) =
      (model.flatMap edgeWeights).filter fun c => decide ((c.1.1 = a ∧ c.1.2 = b) ∨ (c.1.1 = b ∧ c.1.2 = a)) := by
    apply List.filter_congr
    intro c hc
    obtain ⟨s, hs, hcs⟩ := List.mem_flatMap.1 hc
    have hcc : IsCorner model c.1.1 ∧ IsCorner model c.1.2 := by
      simp only [edgeWeights, List.mem_cons, List.not_mem_nil, or_false] at hcs
      rcases hcs with rfl | rfl | rfl
      · exact ⟨⟨s, hs, .inl rfl⟩, ⟨s, hs, .inr (.inl rfl)⟩⟩
      · exact ⟨⟨s, hs, .inr (.inl rfl)⟩, ⟨s, hs, .inr (.inr rfl)⟩⟩
      · exact ⟨⟨s, hs, .inr (.inr rfl)⟩, ⟨s, hs, .inl rfl⟩⟩
    rw [decide_eq_decide, hidx _ _ hcc.1 ca, hidx _ _ hcc.2 cb, hidx _ _ hcc.1 cb, hidx _ _ hcc.2 ca]
  rw [hfil, dot_vsum]
  have hflat : ∀ l : List Tri, (((( l.flatMap edgeWeights).filter fun c => decide ((c.1.1 = a ∧ c.1.2 = b) ∨ (c.1.1 = b ∧ c.1.2 = a))).map (·.2)).map
      fun n => V3.dot n d).sum = (l.map fun s => ((((edgeWeights s).filter fun c => decide ((c.1.1 = a ∧ c.1.2 = b) ∨ (c.1.1 = b ∧ c.1.2 = a))).map (·.2)).map
      fun n => V3.dot n d).sum).sum := by
    intro l
    induction l with
    | nil => simp
    | cons s l ih =>
      rw [List.flatMap_cons, List.filter_append, List.map_append, List.map_append, List.sum_append, ih, List.map_cons, List.sum_cons]
  rw [hflat]
  rw [sum_two hl ht ht' hne]
  · rw [edge_share (hnd t ht), edge_share (hnd t' ht'), if_pos (.inl he), if_pos (.inr he')]
    ring
  · intro s hs n1 n2
    rw [edge_share (hnd s hs), if_neg]
    rintro (h | h)
    · rcases honly s hs (h.mem hq) with e | e
      · exact n1 e
      · exact n2 e
    · rcases honly s hs (h.mem hq.symm) with e | e
      · exact n1 e
      · exact n2 e

/-! ### The sign -/

/-- The face feature is reported only straight above the triangle. -/
theorem face_perp {t : Tri} (h : t.NonDegenerate) {p : V3} (hf : (meshTriangleDistance t p).2.1 = .face)
    (hp : V3.norm2 (V3.sub p t.a) < maxFloat64) :
    V3.dot (V3.sub t.b t.a) (V3.sub p (meshTriangleDistance t p).1) = 0 ∧ V3.dot (V3.sub t.c t.a) (V3.sub p (meshTriangleDistance t p).1) = 0 := by
  obtain ⟨hccw, -⟩ := canalis_corners h
  have hiso := (C41_rigid t h).2.1
  obtain ⟨F⟩ := h.frame
  have hp2 : V2.norm2 (V2.sub ((canalisTransform t).apply p).xy ((canalisTransform t).apply t.a).xy) < maxFloat64 := by
    refine lt_of_le_of_lt ?_ hp
    rw [V3.norm2_eq_dist, ← hiso, ← V3.norm2_eq_dist]
    simp only [V2.norm2, V3.norm2, V2.sub, V3.sub, V3.xy]
    nlinarith [mul_self_nonneg (((canalisTransform t).apply p).z - ((canalisTransform t).apply t.a).z)]
  rcases closest2_facts hccw _ hp2 with ⟨-, e⟩ | ⟨-, x, f, e, -, hff⟩
  · have hq : (meshTriangleDistance t p).1 = (canalisTransform t).inv.apply ⟨((canalisTransform t).apply p).x, ((canalisTransform t).apply p).y, 0⟩ := by
      unfold meshTriangleDistance; dsimp only; rw [e]; rfl
    have hTq : (canalisTransform t).apply (meshTriangleDistance t p).1 = ⟨((canalisTransform t).apply p).x, ((canalisTransform t).apply p).y, 0⟩ := by
      rw [hq]; exact (C41_inverse t h _).2
    generalize (meshTriangleDistance t p).1 = q at *
    rw [F.apply_eq, F.apply_eq] at hTq
    have h1 := congrArg V3.x hTq
    have h2 := congrArg V3.y hTq
    simp only at h1 h2
    have ha : V3.dot F.a (V3.sub p q) = 0 := by
      have : V3.dot F.a (V3.sub p q) = V3.dot F.a (V3.sub p t.a) - V3.dot F.a (V3.sub q t.a) := by simp only [V3.dot, V3.sub]; ring
      rw [this, h1, sub_self]
    have hb : V3.dot F.b (V3.sub p q) = 0 := by
      have : V3.dot F.b (V3.sub p q) = V3.dot F.b (V3.sub p t.a) - V3.dot F.b (V3.sub q t.a) := by simp only [V3.dot, V3.sub]; ring
      rw [this, h2, sub_self]
    rw [F.hx, F.hy]
    constructor
    · have : V3.dot (V3.scale F.l F.a) (V3.sub p q) = F.l * V3.dot F.a (V3.sub p q) := by simp only [V3.dot, V3.scale]; ring
      rw [this, ha, mul_zero]
    · have : V3.dot (V3.add (V3.scale F.u F.a) (V3.scale F.v F.b)) (V3.sub p q) = F.u * V3.dot F.a (V3.sub p q) + F.v * V3.dot F.b (V3.sub p q) := by
        simp only [V3.dot, V3.scale, V3.add]; ring
      rw [this, ha, hb]; ring
  · exfalso
    have hF : (meshTriangleDistance t p).2.1 = f := by unfold meshTriangleDistance; dsimp only; rw [e]
    rw [hF] at hf
    subst hf
    rcases hff with ⟨h, -⟩ | ⟨h, -⟩ | ⟨h, -⟩ | ⟨h, -⟩ | ⟨h, -⟩ | ⟨h, -⟩ <;> cases h

theorem perp_ne {t : Tri} (h : t.NonDegenerate) {d : V3} (hd : d ≠ ⟨0, 0, 0⟩) (h1 : V3.dot (V3.sub t.b t.a) d = 0) (h2 : V3.dot (V3.sub t.c t.a) d = 0) :
    V3.dot (unitNormal t) d ≠ 0 := by
  obtain ⟨F⟩ := h.frame
  rw [frame_normal F]
  intro h0
  rw [F.hx] at h1
  rw [F.hy] at h2
  have e1 : V3.dot (V3.scale F.l F.a) d = F.l * V3.dot F.a d := by simp only [V3.dot, V3.scale]; ring
  have e2 : V3.dot (V3.add (V3.scale F.u F.a) (V3.scale F.v F.b)) d = F.u * V3.dot F.a d + F.v * V3.dot F.b d := by
    simp only [V3.dot, V3.scale, V3.add]; ring
  rw [e1] at h1
  have ha := (mul_eq_zero.1 h1).resolve_left F.hl.ne'
  rw [e2, ha, mul_zero, zero_add] at h2
  have hb := (mul_eq_zero.1 h2).resolve_left F.hv.ne'
  have gram : V3.dot (V3.cross F.a F.b) d ^ 2 = V3.dot F.a F.a * V3.dot F.b F.b * V3.dot d d + 2 * V3.dot F.a F.b * V3.dot F.b d * V3.dot F.a d -
      V3.dot F.a F.a * V3.dot F.b d ^ 2 - V3.dot F.b F.b * V3.dot F.a d ^ 2 - V3.dot d d * V3.dot F.a F.b ^ 2 := by
    simp only [V3.dot, V3.cross]; ring
  rw [h0, F.aa, F.bb, F.ab, ha, hb] at gram
  have hdd : 0 < V3.dot d d := by
    have := V3.norm_pos hd
    have h2 := V3.norm_sq d
    unfold V3.dot
    nlinarith
  nlinarith

theorem exists_rot {t : Tri} {a b : V3} (h : HasEdge t a b) : ∃ s : Tri, s.a = a ∧ s.b = b ∧ (∀ x, s.Mem x ↔ t.Mem x) ∧
    unitNormal s = unitNormal t ∧ (t.NonDegenerate → s.NonDegenerate) ∧ (∀ K, Behind K t → Behind K s) ∧
    (∀ d, V3.dot (V3.sub t.b t.a) d = 0 → V3.dot (V3.sub t.c t.a) d = 0 → V3.dot (V3.sub s.b s.a) d = 0 ∧ V3.dot (V3.sub s.c s.a) d = 0) := by
  rcases h with ⟨rfl, rfl⟩ | ⟨rfl, rfl⟩ | ⟨rfl, rfl⟩
  · exact ⟨t, rfl, rfl, fun x => Iff.rfl, rfl, id, fun _ => id, fun d h1 h2 => ⟨h1, h2⟩⟩
  · refine ⟨rot t, rfl, rfl, fun x => mem_rot, normal_rot t, nondeg_rot, fun _ => behind_rot, fun d h1 h2 => ?_⟩
    simp only [rot, V3.dot, V3.sub] at *
    constructor <;> linarith
  · refine ⟨rot (rot t), rfl, rfl, fun x => mem_rot.trans mem_rot, (normal_rot _).trans (normal_rot _), fun h => nondeg_rot (nondeg_rot h),
      fun _ h => behind_rot (behind_rot h), fun d h1 h2 => ?_⟩
    simp only [rot, V3.dot, V3.sub] at *
    constructor <;> linarith

theorem mem_cases {t : Tri} {q : V3} (h : t.Mem q) : InnerFace t q ∨ ∃ a b, HasEdge t a b ∧ V3.InSeg a b q := by
  obtain ⟨u, v, w, hu, hv, hw, hs, rfl⟩ := h
  rcases hu.lt_or_eq with hu | rfl
  · rcases hv.lt_or_eq with hv | rfl
    · rcases hw.lt_or_eq with hw | rfl
      · exact .inl ⟨u, v, w, hu, hv, hw, hs, rfl⟩
      · exact .inr ⟨t.a, t.b, .inl ⟨rfl, rfl⟩, u, v, hu.le, hv.le, by linarith, by ext <;> simp [V3.add, V3.scale]⟩
    · exact .inr ⟨t.c, t.a, .inr (.inr ⟨rfl, rfl⟩), w, u, hw, hu.le, by linarith, by ext <;> simp [V3.add, V3.scale] <;> ring⟩
  · exact .inr ⟨t.b, t.c, .inr (.inl ⟨rfl, rfl⟩), v, w, hv, hw, by linarith, by ext <;> simp [V3.add, V3.scale]⟩

theorem inner_of_seg {a b q : V3} (h : V3.InSeg a b q) (ha : q ≠ a) (hb : q ≠ b) : InnerEdge a b q := by
  obtain ⟨u, v, hu, hv, hs, rfl⟩ := h
  have h1 : u = 1 - v := by linarith
  subst h1
  refine ⟨v, ?_, ?_, rfl⟩
  · rcases hv.lt_or_eq with h | rfl
    · exact h
    · exact absurd (by ext <;> simp [V3.add, V3.scale]) ha
  · rcases hu.lt_or_eq with h | h
    · linarith
    · have : v = 1 := by linarith
      subst this
      exact absurd (by ext <;> simp [V3.add, V3.scale]) hb

/-- The tables when no corners are merged. -/
theorem exact_tables {model : List Tri} (hm : model ≠ []) {tol : ℝ} {m : Mesh} (h : newMesh model tol = some m)
    (hexact : ∀ v w, IsCorner model v → IsCorner model w → Near (effectiveTol model tol) v w → v = w) : ∃ idx : V3 → ℕ,
      (∀ v w, IsCorner model v → IsCorner model w → (idx v = idx w ↔ v = w)) ∧
      (∀ v, IsCorner model v → m.vertices[idx v]? =
        some ⟨v, vsum (((model.flatMap cornerWeights).filter fun c => decide (idx c.1 = idx v)).map (·.2))⟩) ∧
      (∀ (p : V3) (j : ℕ) (t : Tri), model[j]? = some t → ∃ mt, m.triangles[j]? = some mt ∧ mt.v0 = idx t.a ∧ mt.v1 = idx t.b ∧ mt.v2 = idx t.c ∧
        mt.N = V3.scale (2 * Real.pi) (unitNormal t) ∧ m.distance mt p = some (meshTriangleDistance t p)) ∧
      (∀ v w, IsCorner model v → IsCorner model w → m.pseudoEdgeN (edgeKey (idx v) (idx w)) =
        vsum (((model.flatMap edgeWeights).filter fun c => decide ((idx c.1.1 = idx v ∧ idx c.1.2 = idx w) ∨
          (idx c.1.1 = idx w ∧ idx c.1.2 = idx v))).map (·.2))) := by
  obtain ⟨h0, -, idx, hkey, htri, hvert, hedge⟩ := C50_tables model hm tol m h
  have hidx : ∀ v w, IsCorner model v → IsCorner model w → (idx v = idx w ↔ v = w) := by
    intro v w hv hw
    constructor
    · intro e
      exact hexact v w hv hw (key_near h0 ((hkey v w hv hw).1 e))
    · rintro rfl; rfl
  have hV : ∀ v, IsCorner model v → m.vertices[idx v]? =
        some ⟨v, vsum (((model.flatMap cornerWeights).filter fun c => decide (idx c.1 = idx v)).map (·.2))⟩ := by
    intro v hv
    obtain ⟨⟨V, N⟩, e, hc, hn, hN⟩ := hvert v hv
    have := hexact v V hv hc hn
    subst this
    dsimp only at hN
    rw [e, hN]
  have hdist : ∀ (p : V3) (j : ℕ) (t : Tri), model[j]? = some t → ∃ mt, m.triangles[j]? = some mt ∧ mt.v0 = idx t.a ∧ mt.v1 = idx t.b ∧ mt.v2 = idx t.c ∧
      mt.N = V3.scale (2 * Real.pi) (unitNormal t) ∧ m.distance mt p = some (meshTriangleDistance t p) := by
    intro p j t hj
    have ht := List.mem_of_getElem? hj
    obtain ⟨mt, e, e0, e1, e2, eN, eT, eI, -⟩ := htri j t hj
    refine ⟨mt, e, e0, e1, e2, eN, ?_⟩
    have v0 := hV t.a ⟨t, ht, .inl rfl⟩
    have v1 := hV t.b ⟨t, ht, .inr (.inl rfl)⟩
    have v2 := hV t.c ⟨t, ht, .inr (.inr rfl)⟩
    have hmt : m.triangle mt = some t := by
      unfold Mesh.triangle
      rw [e0, e1, e2, v0, v1, v2]
    unfold Mesh.distance
    rw [hmt, eT, eI]
    rfl
  exact ⟨idx, hidx, hV, hdist, hedge⟩

/-- For a solid whose surface is the mesh, with normals pointing out and two triangles at every edge, a tolerance that merges no
corners, and a query off the mesh none of whose closest mesh points is a corner: the value is the distance to the mesh, negative
exactly inside the solid, whatever the triangles remember from before, whichever triangles the tree measures, and whichever nearest
triangle it returns.  (Missing from the full property: queries whose closest point is a corner, see `C50_vertex_wrong`; other
evaluations running at the same time, see `C50_race_wrong`; the search of the tree, see C52.) -/
theorem C50_sign_partial (model : List Tri) (hm : model ≠ []) (tol : ℝ) (m : Mesh) (h : newMesh model tol = some m)
    (hexact : ∀ v w, IsCorner model v → IsCorner model w → Near (effectiveTol model tol) v w → v = w)
    (hnd : ∀ t ∈ model, t.NonDegenerate) (hl : model.Nodup) (hE : EdgesShared model)
    (K : Set V3) (hK : Separates model K) (hO : Outward model K) (p : V3)
    (hfar : ∀ t ∈ model, V3.dist p t.a ^ 2 < maxFloat64)
    (hp : ∀ t ∈ model, ¬ t.Mem p)
    (hcorner : ∀ v, IsCorner model v → ∃ t ∈ model, ∃ q, t.Mem q ∧ V3.dist p q < V3.dist p v)
    (mem : Memory) (visited : List ℕ) (i : ℕ) (hi : i ∈ visited) (hil : i < model.length)
    (hnear : ∀ j x y, m.dist2 i p = some x → m.dist2 j p = some y → x ≤ y) :
    ∃ v, m.evaluate mem visited i p = some v ∧ (v < 0 ↔ p ∈ K) ∧ (0 < v ↔ p ∉ K) ∧
      (∃ t ∈ model, ∃ q, t.Mem q ∧ |v| = V3.dist p q) ∧ ∀ t ∈ model, ∀ q, t.Mem q → |v| ≤ V3.dist p q := by
  obtain ⟨idx, hidx, hV, hdist', hedge⟩ := exact_tables hm h hexact
  have hdist := hdist' p
  obtain ⟨t, hti⟩ : ∃ t, model[i]? = some t := ⟨model[i], List.getElem?_eq_getElem hil⟩
  have ht := List.mem_of_getElem? hti
  obtain ⟨mt, emt, e0, e1, e2, eN, ed⟩ := hdist i t hti
  have hfar' : ∀ t ∈ model, V3.norm2 (V3.sub p t.a) < maxFloat64 := fun t ht => by rw [V3.norm2_eq_dist]; exact hfar t ht
  obtain ⟨hcl, hd2, s0, s1, s2, w0, w1, w2⟩ := C42_space_partial t (hnd t ht) p (hfar' t ht)
  have hperp := fun hf => face_perp (hnd t ht) (p := p) hf (hfar' t ht)
  rw [evaluate_eq m mem visited i hi p emt ed]
  have hmin : ∀ t' ∈ model, ∀ q', t'.Mem q' → V3.dist p (meshTriangleDistance t p).1 ≤ V3.dist p q' := by
    intro t' ht' q' hq'
    obtain ⟨j, hj⟩ := List.mem_iff_getElem?.1 ht'
    obtain ⟨mt', emt', -, -, -, -, ed'⟩ := hdist j t' hj
    obtain ⟨hcl', hd2', -⟩ := C42_space_partial t' (hnd t' ht') p (hfar' t' ht')
    have hx : m.dist2 i p = some (meshTriangleDistance t p).2.2 := by unfold Mesh.dist2; rw [emt]; simp [ed]
    have hy : m.dist2 j p = some (meshTriangleDistance t' p).2.2 := by unfold Mesh.dist2; rw [emt']; simp [ed']
    have := hnear j _ _ hx hy
    rw [hd2, hd2'] at this
    have h1 : V3.dist p (meshTriangleDistance t p).1 ≤ V3.dist p (meshTriangleDistance t' p).1 :=
      (sq_le_sq₀ (V3.norm_nonneg _) (V3.norm_nonneg _)).1 this
    exact h1.trans (hcl'.2 q' hq')
  generalize meshTriangleDistance t p = r at *
  obtain ⟨q, f, D⟩ := r
  dsimp only at *
  have hqm : t.Mem q := hcl.1
  have hq0 : 0 < V3.dist p q := by
    rcases (V3.norm_nonneg (V3.sub p q)).lt_or_eq with h | h
    · exact h
    · have := V3.dist_eq_zero.1 h.symm
      subst this
      exact absurd hqm (hp t ht)
  have hqc : ∀ v, IsCorner model v → q ≠ v := by
    rintro v hv rfl
    obtain ⟨t', ht', q', hq', hlt⟩ := hcorner q hv
    exact absurd (hmin t' ht' q' hq') (not_le.2 hlt)
  have hd0 : V3.sub p q ≠ ⟨0, 0, 0⟩ := by
    intro e
    unfold V3.dist at hq0
    rw [e] at hq0
    simp [V3.norm] at hq0
  have hS : Sep (fun z => ∃ t ∈ model, t.Mem z) K := hK
  have hminM : ∀ z, (∃ t ∈ model, t.Mem z) → V3.dist p q ≤ V3.dist p z := fun z ⟨t', ht', hz⟩ => hmin t' ht' z hz
  -- edges
  have hedgecase : ∀ a b, HasEdge t a b → V3.InSeg a b q → 
      (∃ x, some (V3.dot (m.pseudoEdgeN (edgeKey (idx a) (idx b))) (V3.sub p q)) = some x ∧ x ≠ 0 ∧ (x < 0 → p ∈ K) ∧ (0 < x → p ∉ K)) ∧
      (V3.dot (V3.sub t.b t.a) (V3.sub p q) = 0 → V3.dot (V3.sub t.c t.a) (V3.sub p q) = 0 → 
        (V3.dot (unitNormal t) (V3.sub p q) < 0 → p ∈ K) ∧ (0 < V3.dot (unitNormal t) (V3.sub p q) → p ∉ K)) := by
    intro a b hab hseg
    obtain ⟨ca, cb⟩ := hab.corner ht
    have hq := inner_of_seg hseg (hqc a ca) (hqc b cb)
    obtain ⟨t', ht', hne, hba, honly⟩ := hE t ht a b hab
    obtain ⟨s, sa, sb, sm, sn, snd, sB, sp⟩ := exists_rot hab
    obtain ⟨s', sa', sb', sm', sn', snd', sB', -⟩ := exists_rot hba
    obtain ⟨ρ, hρ, hloc⟩ := mesh_local model q
    have key := edge_side hS (snd (hnd t ht)) (snd' (hnd t' ht')) (by rw [sa', sb]) (by rw [sb', sa])
      (sB K (behind_of hO ht (hnd t ht))) (sB' K (behind_of hO ht' (hnd t' ht'))) (by rw [sa, sb]; exact hq) hq0 hminM
      (fun x hx => ⟨t, ht, (sm x).1 hx⟩) (fun x hx => ⟨t', ht', (sm' x).1 hx⟩) hρ (by
        rintro x hx ⟨u, hu, hxu⟩
        rcases honly q hq u hu (hloc x hx u hu hxu) with rfl | rfl
        · exact .inl ((sm x).2 hxu)
        · exact .inr ((sm' x).2 hxu))
    rw [sn, sn'] at key
    obtain ⟨⟨k1, k2, k3⟩, k4⟩ := key
    refine ⟨⟨_, rfl, ?_⟩, fun z1 z2 => k4 (sp _ z1 z2).1 (sp _ z1 z2).2⟩
    rw [hedge a b ca cb, edge_sum hnd hl hidx ht ht' hne.symm hab hba hq (honly q hq)]
    have hpi := Real.pi_pos
    refine ⟨mul_ne_zero hpi.ne' k1, fun h => k2 ?_, fun h => k3 ?_⟩
    · by_contra hc
      exact absurd h (not_lt.2 (mul_nonneg hpi.le (not_lt.1 hc)))
    · exact (mul_pos_iff_of_pos_left hpi).1 h
  have main : ∃ x, m.signed mt f q p = some x ∧ x ≠ 0 ∧ (x < 0 → p ∈ K) ∧ (0 < x → p ∉ K) := by
    have ca : IsCorner model t.a := ⟨t, ht, .inl rfl⟩
    have cb : IsCorner model t.b := ⟨t, ht, .inr (.inl rfl)⟩
    have cc : IsCorner model t.c := ⟨t, ht, .inr (.inr rfl)⟩
    cases f with
    | v0 => rcases w0 rfl with h | h <;> [exact absurd h (hqc _ cb); exact absurd h (hqc _ cc)]
    | v1 => rcases w1 rfl with h | h <;> [exact absurd h (hqc _ ca); exact absurd h (hqc _ cc)]
    | v2 => rcases w2 rfl with h | h <;> [exact absurd h (hqc _ ca); exact absurd h (hqc _ cb)]
    | e0 =>
      have := (hedgecase t.a t.b (.inl ⟨rfl, rfl⟩) (s0 rfl)).1
      unfold Mesh.signed
      dsimp only
      rw [e0, e1]
      exact this
    | e1 =>
      have := (hedgecase t.b t.c (.inr (.inl ⟨rfl, rfl⟩)) (s1 rfl)).1
      unfold Mesh.signed
      dsimp only
      rw [e1, e2]
      exact this
    | e2 =>
      have := (hedgecase t.c t.a (.inr (.inr ⟨rfl, rfl⟩)) (s2 rfl)).1
      unfold Mesh.signed
      dsimp only
      rw [e2, e0]
      exact this
    | face =>
      obtain ⟨p1, p2⟩ := hperp rfl
      have hne := perp_ne (hnd t ht) hd0 p1 p2
      have hside : (V3.dot (unitNormal t) (V3.sub p q) < 0 → p ∈ K) ∧ (0 < V3.dot (unitNormal t) (V3.sub p q) → p ∉ K) := by
        rcases mem_cases hqm with hin | ⟨a, b, hab, hseg⟩
        · exact face_side hS (behind_of hO ht (hnd t ht)) hin hq0 hminM
        · exact (hedgecase a b hab hseg).2 p1 p2
      have e : V3.dot mt.N (V3.sub p q) = 2 * Real.pi * V3.dot (unitNormal t) (V3.sub p q) := by
        rw [eN]; simp only [V3.dot, V3.scale]; ring
      have hpi := Real.two_pi_pos
      refine ⟨_, rfl, ?_⟩
      rw [e]
      refine ⟨mul_ne_zero hpi.ne' hne, fun h => hside.1 ?_, fun h => hside.2 ?_⟩
      · by_contra hc
        exact absurd h (not_lt.2 (mul_nonneg hpi.le (not_lt.1 hc)))
      · exact (mul_pos_iff_of_pos_left hpi).1 h
  obtain ⟨x, ex, x0, xn, xp⟩ := main
  rw [ex]
  have hsq : Real.sqrt D = V3.dist p q := by rw [hd2]; exact Real.sqrt_sq hq0.le
  refine ⟨copysign (Real.sqrt D) x, rfl, ?_⟩
  rw [hsq]
  unfold copysign
  by_cases hx : x < 0
  · have hpK := xn hx
    rw [if_pos hx, abs_neg, abs_of_pos hq0]
    refine ⟨⟨fun _ => hpK, fun _ => by linarith⟩, ⟨fun h => by linarith, fun h => absurd hpK h⟩, ⟨t, ht, q, hqm, rfl⟩, hmin⟩
  · have hpK := xp (lt_of_le_of_ne (not_lt.1 hx) x0.symm)
    rw [if_neg hx, abs_of_pos hq0]
    refine ⟨⟨fun h => by linarith, fun h => absurd h hpK⟩, ⟨fun _ => hpK, fun _ => hq0⟩, ⟨t, ht, q, hqm, rfl⟩, hmin⟩

end Kd
end Sdf
