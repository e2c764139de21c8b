import Verif.Model.KdImport
import Verif.Props.C46Import

/-! The loops of `newMesh`. -/

namespace Sdf
namespace Kd

/-- The sum of a list of vectors. -/
def vsum (l : List V3) : V3 := l.foldl V3.add ⟨0, 0, 0⟩

theorem vsum_append (l : List V3) (v : V3) : vsum (l ++ [v]) = V3.add (vsum l) v := by
  simp [vsum, List.foldl_append]

/-- The unit normal of a triangle by the right-hand rule. -/
noncomputable def unitNormal (t : Tri) : V3 := V3.unit (V3.cross (V3.sub t.b t.a) (V3.sub t.c t.a))

theorem normal_eq (t : Tri) : V3.unit (V3.cross (V3.sub t.b t.a) (V3.sub t.c t.b)) = unitNormal t := by
  unfold unitNormal
  congr 1
  ext <;> simp only [V3.cross, V3.sub] <;> ring

/-- The corners of a triangle, each with its share of the normal at the corner. -/
noncomputable def cornerShares (t : Tri) : List (V3 × V3) :=
  [(t.a, V3.scale (openingAngle t.a t.b t.c) (unitNormal t)), (t.b, V3.scale (openingAngle t.b t.c t.a) (unitNormal t)),
    (t.c, V3.scale (openingAngle t.c t.a t.b) (unitNormal t))]

/-- The edges of a triangle, by the numbers of their ends, each with its share of the normal at the edge. -/
noncomputable def edgeShares (idx : V3 → ℕ) (t : Tri) : List ((ℕ × ℕ) × V3) :=
  [(edgeKey (idx t.a) (idx t.b), V3.scale Real.pi (unitNormal t)), (edgeKey (idx t.b) (idx t.c), V3.scale Real.pi (unitNormal t)),
    (edgeKey (idx t.c) (idx t.a), V3.scale Real.pi (unitNormal t))]

/-- The vertex list has, at `i`, a vertex of the cell of `v`. -/
def At (tol : ℝ) (vs : List PseudoVertex) (i : ℕ) (v : V3) : Prop := ∃ pv, vs[i]? = some pv ∧ key tol pv.V = key tol v

/-- Later vertex lists keep the places of earlier ones. -/
def Extends (vs vs' : List PseudoVertex) : Prop := ∀ (i : ℕ) (pv : PseudoVertex), vs[i]? = some pv → ∃ N, vs'[i]? = some ⟨pv.V, N⟩

theorem Extends.refl (vs : List PseudoVertex) : Extends vs vs := fun _ pv h => ⟨pv.N, h⟩

theorem Extends.trans {a b c : List PseudoVertex} (h : Extends a b) (h' : Extends b c) : Extends a c := by
  intro i pv e
  obtain ⟨N, e1⟩ := h i pv e
  exact h' i ⟨pv.V, N⟩ e1

theorem Extends.at {tol : ℝ} {a b : List PseudoVertex} (h : Extends a b) {i : ℕ} {v : V3} (hA : At tol a i v) : At tol b i v := by
  obtain ⟨pv, e, hk⟩ := hA
  obtain ⟨N, e1⟩ := h i pv e
  exact ⟨_, e1, hk⟩

/-- What holds of the vertices once the corners `cs` have been looked at. -/
structure Inv (tol : ℝ) (cs : List (V3 × V3)) (es : List ((ℕ × ℕ) × V3)) (st : State) : Prop where
  cache : st.cache = st.vertices.mapIdx fun i pv => (key tol pv.V, i)
  inj : ∀ (i j : ℕ) (v : V3), At tol st.vertices i v → At tol st.vertices j v → i = j
  cover : ∀ c ∈ cs, ∃ i, At tol st.vertices i c.1
  corner : ∀ (i : ℕ) (pv : PseudoVertex), st.vertices[i]? = some pv → ∃ c ∈ cs, c.1 = pv.V
  normal : ∀ (i : ℕ) (pv : PseudoVertex), st.vertices[i]? = some pv →
    pv.N = vsum ((cs.filter fun c => decide (key tol c.1 = key tol pv.V)).map (·.2))
  edges : ∀ e, st.pseudoEdgeN e = vsum ((es.filter fun c => decide (c.1 = e)).map (·.2))

theorem Inv.find {tol : ℝ} {cs : List (V3 × V3)} {es : List ((ℕ × ℕ) × V3)} {st : State} (h : Inv tol cs es st) (v : V3) :
    (∃ k i, st.cache.find? (fun e => decide (e.1 = key tol v)) = some (k, i) ∧ At tol st.vertices i v) ∨
    (st.cache.find? (fun e => decide (e.1 = key tol v)) = none ∧ ∀ i, ¬ At tol st.vertices i v) := by
  cases hf : st.cache.find? (fun e => decide (e.1 = key tol v)) with
  | some e =>
    left
    refine ⟨e.1, e.2, rfl, ?_⟩
    have hm := List.mem_of_find?_eq_some hf
    have hk := List.find?_some hf
    rw [h.cache] at hm
    obtain ⟨i, hi, he⟩ := List.mem_mapIdx.1 hm
    subst he
    exact ⟨_, List.getElem?_eq_getElem hi, by simpa using hk⟩
  | none =>
    right
    refine ⟨rfl, ?_⟩
    rintro i ⟨pv, e, hk⟩
    rw [List.find?_eq_none] at hf
    obtain ⟨hi, he⟩ := List.getElem?_eq_some_iff.1 e
    have : (key tol pv.V, i) ∈ st.cache := by
      rw [h.cache]
      exact List.mem_mapIdx.2 ⟨i, hi, by rw [he]⟩
    have := hf _ this
    simp [hk] at this

theorem Inv.step {tol : ℝ} {cs : List (V3 × V3)} {es : List ((ℕ × ℕ) × V3)} {st : State} (h : Inv tol cs es st) (norm vert next last : V3) :
    let r := st.corner tol norm vert next last
    Inv tol (cs ++ [(vert, V3.scale (openingAngle vert next last) norm)]) es r.2 ∧ Extends st.vertices r.2.vertices ∧
      At tol r.2.vertices r.1 vert := by
  intro r
  -- first the number, then the normal
  set w := V3.scale (openingAngle vert next last) norm with hw
  have key1 : ∀ (i : ℕ) (st1 : State), st.number tol vert = (i, st1) → st1.cache = st1.vertices.mapIdx (fun i pv => (key tol pv.V, i)) →
      (∀ (i j : ℕ) (v : V3), At tol st1.vertices i v → At tol st1.vertices j v → i = j) → Extends st.vertices st1.vertices →
      At tol st1.vertices i vert → (∀ (i : ℕ) (pv : PseudoVertex), st1.vertices[i]? = some pv → (∃ c ∈ cs, c.1 = pv.V) ∨ pv.V = vert) →
      (∀ (i : ℕ) (pv : PseudoVertex), st1.vertices[i]? = some pv →
        pv.N = vsum ((cs.filter fun c => decide (key tol c.1 = key tol pv.V)).map (·.2))) →
      st1.pseudoEdgeN = st.pseudoEdgeN →
      Inv tol (cs ++ [(vert, w)]) es r.2 ∧ Extends st.vertices r.2.vertices ∧ At tol r.2.vertices r.1 vert := by
    intro i st1 hn hc hi hx ha hco hN he
    have hr : r = (i, ⟨st1.vertices.modify i (fun pv => ⟨pv.V, V3.add pv.N w⟩), st1.cache, st1.pseudoEdgeN⟩) := by
      show st.corner tol norm vert next last = _
      unfold State.corner
      rw [hn]
    have hget : ∀ j, (st1.vertices.modify i (fun pv => ⟨pv.V, V3.add pv.N w⟩))[j]? =
        (st1.vertices[j]?).map fun pv => if i = j then ⟨pv.V, V3.add pv.N w⟩ else pv := by
      intro j
      rw [List.getElem?_modify]
      cases st1.vertices[j]? <;> split_ifs <;> rfl
    have hx2 : Extends st1.vertices (st1.vertices.modify i (fun pv => ⟨pv.V, V3.add pv.N w⟩)) := by
      intro j pv e
      rw [hget, e, Option.map_some]
      split_ifs
      · exact ⟨_, rfl⟩
      · exact ⟨pv.N, rfl⟩
    have hback : ∀ j pv', (st1.vertices.modify i (fun pv => ⟨pv.V, V3.add pv.N w⟩))[j]? = some pv' →
        ∃ pv, st1.vertices[j]? = some pv ∧ pv'.V = pv.V ∧ pv'.N = if i = j then V3.add pv.N w else pv.N := by
      intro j pv' e
      rw [hget, Option.map_eq_some_iff] at e
      obtain ⟨pv, e1, e2⟩ := e
      refine ⟨pv, e1, ?_⟩
      split_ifs at e2 ⊢ <;> subst e2 <;> exact ⟨rfl, rfl⟩
    have hAt : ∀ j v, At tol (st1.vertices.modify i (fun pv => ⟨pv.V, V3.add pv.N w⟩)) j v → At tol st1.vertices j v := by
      rintro j v ⟨pv', e, hk⟩
      obtain ⟨pv, e1, e2, -⟩ := hback j pv' e
      exact ⟨pv, e1, by rw [← e2]; exact hk⟩
    rw [hr]
    dsimp only
    refine ⟨⟨?_, ?_, ?_, ?_, ?_, ?_⟩, hx.trans hx2, hx2.at ha⟩
    · rw [hc]
      apply List.ext_getElem?
      intro j
      rw [List.getElem?_mapIdx, List.getElem?_mapIdx, hget]
      cases st1.vertices[j]? with
      | none => rfl
      | some pv => dsimp only [Option.map_some]; split_ifs <;> rfl
    · intro a b v ha hb
      exact hi a b v (hAt _ _ ha) (hAt _ _ hb)
    · intro c hcm
      rcases List.mem_append.1 hcm with hcm | hcm
      · obtain ⟨j, hj⟩ := h.cover c hcm
        exact ⟨j, hx2.at (hx.at hj)⟩
      · rw [List.mem_singleton.1 hcm]
        exact ⟨i, hx2.at ha⟩
    · intro j pv' e
      obtain ⟨pv, e1, e2, -⟩ := hback j pv' e
      rcases hco j pv e1 with ⟨c, hcm, hcv⟩ | hv
      · exact ⟨c, by simp [hcm], by rw [hcv, e2]⟩
      · exact ⟨_, List.mem_append_right _ (List.mem_singleton_self _), by rw [e2, hv]⟩
    · intro j pv' e
      obtain ⟨pv, e1, e2, e3⟩ := hback j pv' e
      rw [e3, e2, List.filter_append, List.map_append]
      have hN' := hN j pv e1
      by_cases hij : i = j
      · subst hij
        obtain ⟨pv2, e4, hk⟩ := ha
        rw [e1] at e4
        cases e4
        rw [if_pos rfl, hN']
        simp only [List.filter_cons, hk, decide_true, if_true, List.filter_nil, List.map_cons, List.map_nil, vsum_append]
      · rw [if_neg hij]
        have hne : ¬ key tol vert = key tol pv.V := by
          intro hk
          exact hij (hi i j vert ha ⟨pv, e1, hk.symm⟩)
        simpa [List.filter_cons, hne] using hN'
    · intro e
      show st1.pseudoEdgeN e = _
      rw [he]
      exact h.edges e
  rcases h.find vert with ⟨k, i, hf, ha⟩ | ⟨hf, hno⟩
  · refine key1 i st ?_ h.cache h.inj (Extends.refl _) ha (fun j pv e => Or.inl (h.corner j pv e)) h.normal rfl
    unfold State.number
    rw [hf]
  · have hlen : (st.vertices ++ [⟨vert, ⟨0, 0, 0⟩⟩] : List PseudoVertex)[st.vertices.length]? = some ⟨vert, ⟨0, 0, 0⟩⟩ := by simp
    have hx : Extends st.vertices (st.vertices ++ [⟨vert, ⟨0, 0, 0⟩⟩]) := by
      intro j pv e
      refine ⟨pv.N, ?_⟩
      rw [List.getElem?_append_left (List.getElem?_eq_some_iff.1 e).1]
      exact e
    have hback : ∀ j pv', (st.vertices ++ [⟨vert, ⟨0, 0, 0⟩⟩] : List PseudoVertex)[j]? = some pv' →
        st.vertices[j]? = some pv' ∨ (j = st.vertices.length ∧ pv' = ⟨vert, ⟨0, 0, 0⟩⟩) := by
      intro j pv' e
      by_cases hj : j < st.vertices.length
      · rw [List.getElem?_append_left hj] at e
        exact Or.inl e
      · have hj' : st.vertices.length ≤ j := not_lt.1 hj
        have hlt := (List.getElem?_eq_some_iff.1 e).1
        simp only [List.length_append, List.length_cons, List.length_nil] at hlt
        obtain rfl : j = st.vertices.length := by omega
        rw [hlen] at e
        exact Or.inr ⟨rfl, (Option.some.inj e).symm⟩
    refine key1 st.vertices.length ⟨st.vertices ++ [⟨vert, ⟨0, 0, 0⟩⟩], st.cache ++ [(key tol vert, st.vertices.length)], st.pseudoEdgeN⟩ ?_ ?_ ?_ hx
      ⟨_, hlen, rfl⟩ ?_ ?_ rfl
    · unfold State.number
      rw [hf]
    · show st.cache ++ _ = _
      rw [h.cache, List.mapIdx_append]
      simp
    · rintro a b v ⟨pa, ea, ka⟩ ⟨pb, eb, kb⟩
      rcases hback a pa ea with ea' | ⟨rfl, rfl⟩ <;> rcases hback b pb eb with eb' | ⟨rfl, rfl⟩
      · exact h.inj a b v ⟨pa, ea', ka⟩ ⟨pb, eb', kb⟩
      · exact absurd ⟨pa, ea', ka.trans kb.symm⟩ (hno a)
      · exact absurd ⟨pb, eb', kb.trans ka.symm⟩ (hno b)
      · rfl
    · intro j pv e
      rcases hback j pv e with e' | ⟨-, rfl⟩
      · exact Or.inl (h.corner j pv e')
      · exact Or.inr rfl
    · intro j pv e
      rcases hback j pv e with e' | ⟨-, rfl⟩
      · exact h.normal j pv e'
      · have : cs.filter (fun c => decide (key tol c.1 = key tol vert)) = [] := by
          rw [List.filter_eq_nil_iff]
          intro c hc hk
          obtain ⟨i, pv, ei, ki⟩ := h.cover c hc
          exact hno i ⟨pv, ei, ki.trans (by simpa using hk)⟩
        dsimp only
        rw [this]
        rfl

theorem Inv.edge {tol : ℝ} {cs : List (V3 × V3)} {es : List ((ℕ × ℕ) × V3)} {st : State} (h : Inv tol cs es st) (norm : V3) (a b : ℕ) :
    Inv tol cs (es ++ [(edgeKey a b, V3.scale Real.pi norm)]) (st.edge norm a b) := by
  refine ⟨h.cache, h.inj, h.cover, h.corner, h.normal, ?_⟩
  intro e
  unfold State.edge
  dsimp only
  rw [List.filter_append, List.map_append]
  by_cases he : edgeKey a b = e
  · subst he
    rw [Function.update_self, h.edges]
    simp [vsum_append]
  · rw [Function.update_of_ne (Ne.symm he), h.edges]
    simp [he]

/-- The triangle the loop makes from `t`, for given numbers of the corners. -/
noncomputable def made (t : Tri) (i j k : ℕ) : MeshTri :=
  ⟨centroid t, i, j, k, V3.scale (2 * Real.pi) (unitNormal t), canalisTransform t, (canalisTransform t).inv⟩

/-- The shares of a triangle in the edge normals, for given numbers of the corners. -/
noncomputable def edgeShares' (t : Tri) (i j k : ℕ) : List ((ℕ × ℕ) × V3) :=
  [(edgeKey i j, V3.scale Real.pi (unitNormal t)), (edgeKey j k, V3.scale Real.pi (unitNormal t)),
    (edgeKey k i, V3.scale Real.pi (unitNormal t))]

theorem Inv.triangle {tol : ℝ} {cs : List (V3 × V3)} {es : List ((ℕ × ℕ) × V3)} {st : State} (h : Inv tol cs es st) (t : Tri) :
    ∃ i j k st', st.triangle tol t = (made t i j k, st') ∧ Inv tol (cs ++ cornerShares t) (es ++ edgeShares' t i j k) st' ∧
      Extends st.vertices st'.vertices ∧ At tol st'.vertices i t.a ∧ At tol st'.vertices j t.b ∧ At tol st'.vertices k t.c := by
  obtain ⟨i0, x0, a0⟩ := h.step (unitNormal t) t.a t.b t.c
  obtain ⟨i1, x1, a1⟩ := i0.step (unitNormal t) t.b t.c t.a
  obtain ⟨i2, x2, a2⟩ := i1.step (unitNormal t) t.c t.a t.b
  unfold State.triangle
  rw [normal_eq]
  dsimp only
  generalize st.corner tol (unitNormal t) t.a t.b t.c = r0 at *
  generalize r0.2.corner tol (unitNormal t) t.b t.c t.a = r1 at *
  generalize r1.2.corner tol (unitNormal t) t.c t.a t.b = r2 at *
  refine ⟨r0.1, r1.1, r2.1, ((r2.2.edge (unitNormal t) r0.1 r1.1).edge (unitNormal t) r1.1 r2.1).edge (unitNormal t) r2.1 r0.1, rfl, ?_, x0.trans (x1.trans x2), (x1.trans x2).at a0, x2.at a1, a2⟩
  have := ((i2.edge (unitNormal t) r0.1 r1.1).edge (unitNormal t) r1.1 r2.1).edge (unitNormal t) r2.1 r0.1
  simpa only [List.append_assoc, cornerShares, edgeShares', List.cons_append, List.nil_append] using this

/-- The triangles of the mesh, related to those of the model. -/
inductive Made (tol : ℝ) (vs : List PseudoVertex) : List Tri → List MeshTri → List ((ℕ × ℕ) × V3) → Prop
  | nil : Made tol vs [] [] []
  | cons {t : Tri} {i j k : ℕ} {l ts es} : At tol vs i t.a → At tol vs j t.b → At tol vs k t.c → Made tol vs l ts es →
      Made tol vs (t :: l) (made t i j k :: ts) (edgeShares' t i j k ++ es)

theorem loop_spec (tol : ℝ) : ∀ (l : List Tri) (cs : List (V3 × V3)) (es : List ((ℕ × ℕ) × V3)) (st : State), Inv tol cs es st →
    ∃ es', Inv tol (cs ++ l.flatMap cornerShares) (es ++ es') (loop tol l st).2 ∧ Extends st.vertices (loop tol l st).2.vertices ∧
      Made tol (loop tol l st).2.vertices l (loop tol l st).1 es'
  | [], cs, es, st, h => ⟨[], by simpa [loop] using h, Extends.refl _, Made.nil⟩
  | t :: l, cs, es, st, h => by
    obtain ⟨i, j, k, st1, e, h1, x1, ai, aj, ak⟩ := h.triangle t
    obtain ⟨es', h2, x2, m2⟩ := loop_spec tol l _ _ st1 h1
    have el : loop tol (t :: l) st = (made t i j k :: (loop tol l st1).1, (loop tol l st1).2) := by
      rw [loop, e]
    rw [el]
    refine ⟨edgeShares' t i j k ++ es', ?_, x1.trans x2, Made.cons (x2.at ai) (x2.at aj) (x2.at ak) m2⟩
    simpa only [List.flatMap_cons, List.append_assoc] using h2

theorem Made.fn {tol : ℝ} {vs : List PseudoVertex} {idx : V3 → ℕ} {l : List Tri} {ts : List MeshTri} {es : List ((ℕ × ℕ) × V3)}
    (h : Made tol vs l ts es) (hi : ∀ i v, At tol vs i v → i = idx v) :
    ts = l.map (fun t => made t (idx t.a) (idx t.b) (idx t.c)) ∧ es = l.flatMap (edgeShares idx) ∧
      ∀ v, Bih.IsCorner l v → At tol vs (idx v) v := by
  induction h with
  | nil => exact ⟨rfl, rfl, by rintro v ⟨t, ht, -⟩; simp at ht⟩
  | @cons t i j k l ts es ai aj ak _ ih =>
    obtain ⟨e1, e2, e3⟩ := ih
    have hi' := hi _ _ ai
    have hj' := hi _ _ aj
    have hk' := hi _ _ ak
    subst hi' hj' hk'
    refine ⟨by rw [e1, List.map_cons], by rw [e2, List.flatMap_cons]; rfl, ?_⟩
    rintro v ⟨t', ht', hv⟩
    rcases List.mem_cons.1 ht' with rfl | ht'
    · rcases hv with rfl | rfl | rfl <;> assumption
    · exact e3 v ⟨t', ht', hv⟩

theorem key_near {tol : ℝ} (ht : 0 < tol) {v w : V3} (h : key tol v = key tol w) : Bih.Near tol v w := by
  unfold key at h
  simp only [V3.scale, Prod.mk.injEq] at h
  obtain ⟨h1, h2, h3⟩ := h
  have kk : ∀ a b : ℝ, goInt (1 / tol * a) = goInt (1 / tol * b) → |a - b| < 2 * tol := by
    intro a b h
    have := Bih.goInt_near h
    rwa [← mul_sub, abs_mul, abs_of_pos (by positivity), one_div, inv_mul_lt_iff₀ ht, mul_comm] at this
  exact ⟨kk _ _ h1, kk _ _ h2, kk _ _ h3⟩

theorem mem_shares {l : List Tri} {c : V3 × V3} (h : c ∈ l.flatMap cornerShares) : Bih.IsCorner l c.1 := by
  obtain ⟨t, ht, hc⟩ := List.mem_flatMap.1 h
  simp only [cornerShares, List.mem_cons, List.not_mem_nil, or_false] at hc
  rcases hc with rfl | rfl | rfl
  · exact ⟨t, ht, Or.inl rfl⟩
  · exact ⟨t, ht, Or.inr (Or.inl rfl)⟩
  · exact ⟨t, ht, Or.inr (Or.inr rfl)⟩

/-- Everything about the tables, with one numbering of the corners. -/
theorem loop_tables (tol : ℝ) (l : List Tri) :
    let s := loop tol l ⟨[], [], fun _ => ⟨0, 0, 0⟩⟩
    ∃ idx : V3 → ℕ, s.1 = l.map (fun t => made t (idx t.a) (idx t.b) (idx t.c)) ∧
      (∀ v w, Bih.IsCorner l v → Bih.IsCorner l w → (idx v = idx w ↔ key tol v = key tol w)) ∧
      (∀ v, Bih.IsCorner l v → ∃ w, Bih.IsCorner l w ∧ key tol w = key tol v ∧ s.2.vertices[idx v]? =
        some ⟨w, vsum (((l.flatMap cornerShares).filter fun c => decide (key tol c.1 = key tol v)).map (·.2))⟩) ∧
      (∀ i, i < s.2.vertices.length → ∃ v, Bih.IsCorner l v ∧ idx v = i) ∧
      (∀ e, s.2.pseudoEdgeN e = vsum (((l.flatMap (edgeShares idx)).filter fun c => decide (c.1 = e)).map (·.2))) := by
  intro s
  have h0 : Inv tol [] [] ⟨[], [], fun _ => ⟨0, 0, 0⟩⟩ := by
    refine ⟨rfl, ?_, by simp, by simp, by simp, fun e => rfl⟩
    rintro i j v ⟨pv, e, -⟩
    simp at e
  obtain ⟨es, hI, -, hM⟩ := loop_spec tol l [] [] _ h0
  simp only [List.nil_append] at hI
  classical
  let idx : V3 → ℕ := fun v => if h : ∃ i, At tol s.2.vertices i v then h.choose else 0
  have hidx : ∀ i v, At tol s.2.vertices i v → i = idx v := by
    intro i v hA
    have hex : ∃ i, At tol s.2.vertices i v := ⟨i, hA⟩
    show i = if h : _ then _ else _
    rw [dif_pos hex]
    exact hI.inj _ _ v hA hex.choose_spec
  obtain ⟨e1, e2, e3⟩ := hM.fn hidx
  refine ⟨idx, e1, ?_, ?_, ?_, ?_⟩
  · intro v w hv hw
    obtain ⟨pv, ev, kv⟩ := e3 v hv
    obtain ⟨pw, ew, kw⟩ := e3 w hw
    constructor
    · intro h
      rw [h, ew] at ev
      cases ev
      exact kv.symm.trans kw
    · intro h
      exact (hidx _ v ⟨pw, ew, kw.trans h.symm⟩).symm
  · intro v hv
    obtain ⟨pv, ev, kv⟩ := e3 v hv
    obtain ⟨c, hc, hcv⟩ := hI.corner _ pv ev
    refine ⟨pv.V, by rw [← hcv]; exact mem_shares hc, kv, ?_⟩
    have hN := hI.normal _ pv ev
    rw [kv] at hN
    rw [← hN]
    exact ev
  · intro i hi
    obtain ⟨c, hc, hcv⟩ := hI.corner i _ (List.getElem?_eq_getElem hi)
    refine ⟨c.1, mem_shares hc, ?_⟩
    exact (hidx i c.1 ⟨_, List.getElem?_eq_getElem hi, by rw [hcv]⟩).symm
  · intro e
    rw [← e2]
    exact hI.edges e

end Kd
end Sdf
