import Verif.Model.KdTree
import Verif.Props.C50Witness
import Mathlib.Tactic.IntervalCases

/-!
C52: the triangle an imported model takes for the nearest one.
-/

namespace Sdf
namespace Kd
open Bih Edge

/-- The centre of gravity of a triangle. -/
noncomputable def Gravity (t : Tri) : V3 := ⟨(t.a.x + t.b.x + t.c.x) / 3, (t.a.y + t.b.y + t.c.y) / 3, (t.a.z + t.b.z + t.c.z) / 3⟩

/-- The largest difference of two points along an axis. -/
noncomputable def axisGap (p q : V3) : ℝ := max |p.x - q.x| (max |p.y - q.y| |p.z - q.z|)

/-! ### Searching -/

theorem coord_gap (p q : V3) (k : Dim) : |coord p k - coord q k| ≤ axisGap p q := by
  unfold axisGap
  fin_cases k
  · exact le_max_left _ _
  · exact le_trans (le_max_left _ _) (le_max_right _ _)
  · exact le_trans (le_max_right _ _) (le_max_right _ _)

/-- The best so far never gets worse than the node's own distance. -/
theorem visit_le (i : ℕ) (c di : ℝ) (D : WithTop ℝ) (near far : WithTop ℝ → Found) :
    (visit i c di D near far).d2 ≤ min D (di : WithTop ℝ) := by
  unfold visit
  dsimp only
  split_ifs <;> dsimp only at * <;> first | exact le_rfl | (exact le_of_lt ‹_›) | (exact le_trans (le_of_lt ‹_›) (le_of_lt ‹_›))

/-- What has been found on the near side is kept. -/
theorem visit_near (i : ℕ) (c di : ℝ) (D : WithTop ℝ) (near far : WithTop ℝ → Found) (s : ℝ)
    (h : min (min D (di : WithTop ℝ)) (near (min D (di : WithTop ℝ))).d2 ≤ ((s * s : ℝ) : WithTop ℝ)) :
    (visit i c di D near far).d2 ≤ ((s * s : ℝ) : WithTop ℝ) := by
  have hb : (if (near (min D (di : WithTop ℝ))).d2 < min D (di : WithTop ℝ) then
      ((near (min D (di : WithTop ℝ))).item, (near (min D (di : WithTop ℝ))).d2) else (some i, min D (di : WithTop ℝ))).2 ≤ ((s * s : ℝ) : WithTop ℝ) := by
    split_ifs with h1
    · rwa [min_eq_right h1.le] at h
    · rwa [min_eq_left (not_lt.1 h1)] at h
  unfold visit
  dsimp only
  generalize (if (near (min D (di : WithTop ℝ))).d2 < min D (di : WithTop ℝ) then
      ((near (min D (di : WithTop ℝ))).item, (near (min D (di : WithTop ℝ))).d2) else (some i, min D (di : WithTop ℝ))) = best at hb ⊢
  split_ifs with h2 h3
  · exact le_trans h3.le hb
  · exact hb
  · exact hb

/-- The far side is left out only if the plane is farther away than the best so far. -/
theorem visit_far (i : ℕ) (c di : ℝ) (D : WithTop ℝ) (near far : WithTop ℝ → Found) (s : ℝ)
    (h : ∀ E, min E (far E).d2 ≤ ((s * s : ℝ) : WithTop ℝ)) (hc : c * c ≤ s * s) :
    (visit i c di D near far).d2 ≤ ((s * s : ℝ) : WithTop ℝ) := by
  unfold visit
  dsimp only
  generalize (if (near (min D (di : WithTop ℝ))).d2 < min D (di : WithTop ℝ) then
      ((near (min D (di : WithTop ℝ))).item, (near (min D (di : WithTop ℝ))).d2) else (some i, min D (di : WithTop ℝ))) = best
  split_ifs with h2 h3
  · have := h best.2
    rwa [min_eq_right h3.le] at this
  · have := h best.2
    rwa [min_eq_left (not_lt.1 h3)] at this
  · exact le_trans (not_le.1 h2).le (WithTop.coe_le_coe.2 hc)

/-- The result of a search is the distance of a triangle that has been measured. -/
def Truthful (d : ℕ → ℝ) (items : List ℕ) (f : Found) (D : WithTop ℝ) : Prop :=
  (∀ j ∈ f.seen, j ∈ items) ∧ (f.d2 < D → ∃ i, f.item = some i ∧ i ∈ f.seen ∧ f.d2 = (d i : WithTop ℝ))

theorem visit_truthful (d : ℕ → ℝ) (i : ℕ) (c : ℝ) (D : WithTop ℝ) (near far : WithTop ℝ → Found) (l : List ℕ)
    (hi : i ∈ l) (hn : ∀ E, Truthful d l (near E) E) (hf : ∀ E, Truthful d l (far E) E) : Truthful d l (visit i c (d i) D near far) D := by
  unfold visit
  dsimp only
  have hN := hn (min D (d i : WithTop ℝ))
  set E := min D (d i : WithTop ℝ) with hE
  set a := near E with ha
  have hbest : (if a.d2 < E then (a.item, a.d2) else (some i, E)).2 < D →
      ∃ j, (if a.d2 < E then (a.item, a.d2) else (some i, E)).1 = some j ∧ j ∈ i :: a.seen ∧ (if a.d2 < E then (a.item, a.d2) else (some i, E)).2 = (d j : WithTop ℝ) := by
    intro h
    split_ifs at h ⊢ with h1
    · obtain ⟨j, e1, e2, e3⟩ := hN.2 h1
      exact ⟨j, e1, List.mem_cons_of_mem _ e2, e3⟩
    · refine ⟨i, rfl, List.mem_cons_self, ?_⟩
      dsimp only at h ⊢
      rw [hE] at h ⊢
      rcases min_choice D (d i : WithTop ℝ) with e | e
      · rw [e] at h; exact absurd h (lt_irrefl _)
      · exact e
  generalize (if a.d2 < E then (a.item, a.d2) else (some i, E)) = best at hbest ⊢
  have hF := hf best.2
  split_ifs with h2 h3
  · refine ⟨?_, fun _ => ?_⟩
    · intro j hj
      rcases List.mem_cons.1 hj with rfl | hj
      · exact hi
      · rcases List.mem_append.1 hj with hj | hj
        · exact hN.1 j hj
        · exact hF.1 j hj
    · obtain ⟨j, e1, e2, e3⟩ := hF.2 h3
      exact ⟨j, e1, List.mem_cons_of_mem _ (List.mem_append_right _ e2), e3⟩
  · refine ⟨?_, fun h => ?_⟩
    · intro j hj
      rcases List.mem_cons.1 hj with rfl | hj
      · exact hi
      · rcases List.mem_append.1 hj with hj | hj
        · exact hN.1 j hj
        · exact hF.1 j hj
    · obtain ⟨j, e1, e2, e3⟩ := hbest h
      refine ⟨j, e1, ?_, e3⟩
      rcases List.mem_cons.1 e2 with rfl | e2
      · exact List.mem_cons_self
      · exact List.mem_cons_of_mem _ (List.mem_append_left _ e2)
  · refine ⟨?_, fun h => hbest h⟩
    intro j hj
    rcases List.mem_cons.1 hj with rfl | hj
    · exact hi
    · exact hN.1 j hj

theorem Truthful.mono {d : ℕ → ℝ} {l l' : List ℕ} {f : Found} {D : WithTop ℝ} (h : Truthful d l f D) (hl : ∀ j ∈ l, j ∈ l') :
    Truthful d l' f D := ⟨fun j hj => hl j (h.1 j hj), h.2⟩

theorem search_truthful (C : ℕ → V3) (d : ℕ → ℝ) (q : V3) (t : Tree) : ∀ D, Truthful d t.items (t.search C d q D) D := by
  induction t with
  | nil =>
    intro D
    exact ⟨by simp [Tree.search], fun h => absurd h (by simp [Tree.search])⟩
  | node i k l r ihl ihr =>
    intro D
    have hl : ∀ E, Truthful d (Tree.node i k l r).items (l.search C d q E) E :=
      fun E => (ihl E).mono fun j hj => List.mem_cons_of_mem _ (List.mem_append_left _ hj)
    have hr : ∀ E, Truthful d (Tree.node i k l r).items (r.search C d q E) E :=
      fun E => (ihr E).mono fun j hj => List.mem_cons_of_mem _ (List.mem_append_right _ hj)
    simp only [Tree.search]
    split_ifs
    · exact visit_truthful d i _ D _ _ _ List.mem_cons_self hl hr
    · exact visit_truthful d i _ D _ _ _ List.mem_cons_self hr hl

/-- A search of a sorted tree misses a triangle only for one that is nearer than the triangle's centroid along some axis. -/
theorem search_le (C : ℕ → V3) (d : ℕ → ℝ) (q : V3) (t : Tree) : ∀ (k : Dim) (D : WithTop ℝ), t.Sorted C k → ∀ j ∈ t.items, ∀ s : ℝ,
    axisGap q (C j) ≤ s → d j ≤ s * s → min D (t.search C d q D).d2 ≤ ((s * s : ℝ) : WithTop ℝ) := by
  induction t with
  | nil => intro k D _ j hj; simp [Tree.items] at hj
  | node i k l r ihl ihr =>
    intro k' D hs j hj s hg hd
    obtain ⟨rfl, hl, hr, hsl, hsr⟩ := hs
    have hgap := coord_gap q (C j) k
    have hs0 : 0 ≤ s := le_trans (le_trans (abs_nonneg _) hgap) hg
    refine le_trans (min_le_right _ _) ?_
    simp only [Tree.search]
    rcases List.mem_cons.1 hj with rfl | hj
    · have h := fun near far => visit_le j (compare q (C j) k) (d j) D near far
      split_ifs <;> exact le_trans (h _ _) (le_trans (min_le_right _ _) (WithTop.coe_le_coe.2 hd))
    · rcases List.mem_append.1 hj with hj | hj
      · have hin := fun E => ihl (k + 1) E hsl j hj s hg hd
        split_ifs with hc
        · exact visit_near _ _ _ _ _ _ _ (hin _)
        · refine visit_far _ _ _ _ _ _ _ hin ?_
          have := hl j hj
          unfold compare at *
          have h1 : coord q k - coord (C i) k ≤ s := by
            have := (abs_le.1 (le_trans hgap hg)).2
            linarith
          exact mul_self_le_mul_self (by linarith) h1
      · have hin := fun E => ihr (k + 1) E hsr j hj s hg hd
        split_ifs with hc
        · refine visit_far _ _ _ _ _ _ _ hin ?_
          have := hr j hj
          unfold compare at *
          have h1 : -(coord q k - coord (C i) k) ≤ s := by
            have := (abs_le.1 (le_trans hgap hg)).1
            linarith
          have := mul_self_le_mul_self (by linarith) h1
          linarith
        · exact visit_near _ _ _ _ _ _ _ (hin _)

/-- Every list of triangles has a sorted tree. -/
theorem exists_sorted (C : ℕ → V3) : ∀ (n : ℕ) (l : List ℕ), l.length ≤ n → ∀ k : Dim, ∃ t : Tree, t.Sorted C k ∧ t.items.Perm l := by
  intro n
  induction n with
  | zero => intro l hl k; exact ⟨.nil, trivial, by rw [List.length_eq_zero_iff.1 (Nat.le_zero.1 hl)]; exact List.Perm.refl _⟩
  | succ n ih =>
    intro l hl k
    cases l with
    | nil => exact ⟨.nil, trivial, List.Perm.refl _⟩
    | cons i l =>
      classical
      simp only [List.length_cons] at hl
      obtain ⟨a, ha, pa⟩ := ih (l.filter fun j => decide (compare (C j) (C i) k ≤ 0)) (le_trans (List.length_filter_le _ _) (by omega)) (k + 1)
      obtain ⟨b, hb, pb⟩ := ih (l.filter fun j => !decide (compare (C j) (C i) k ≤ 0)) (le_trans (List.length_filter_le _ _) (by omega)) (k + 1)
      refine ⟨.node i k a b, ⟨rfl, ?_, ?_, ha, hb⟩, ?_⟩
      · intro j hj
        have := (List.mem_filter.1 (pa.mem_iff.1 hj)).2
        simpa using this
      · intro j hj
        have := (List.mem_filter.1 (pb.mem_iff.1 hj)).2
        simp at this
        exact this.le
      · exact List.Perm.cons _ ((List.Perm.append pa pb).trans (List.filter_append_perm _ l))

/-! ### Imported models -/

/-- The tree of an imported model: all of its triangles, sorted by their centres of gravity. -/
def IsTreeOf (m : Mesh) (tree : Tree) : Prop := tree.Sorted m.center 0 ∧ tree.items.Perm (List.range m.triangles.length)

theorem gravity_mem (t : Tri) : t.Mem (Gravity t) :=
  ⟨1 / 3, 1 / 3, 1 / 3, by norm_num, by norm_num, by norm_num, by norm_num, by ext <;> simp [Gravity, V3.add, V3.scale] <;> ring⟩

theorem axisGap_le (p q : V3) : axisGap p q ≤ V3.dist p q := by
  have hx : |p.x - q.x| ≤ V3.dist p q := V3.abs_x_le (V3.sub p q)
  have hy : |p.y - q.y| ≤ V3.dist p q := V3.abs_y_le (V3.sub p q)
  have hz : |p.z - q.z| ≤ V3.dist p q := V3.abs_z_le (V3.sub p q)
  exact max_le hx (max_le hy hz)

theorem center_eq {model : List Tri} (hm : model ≠ []) {tol : ℝ} {m : Mesh} (h : newMesh model tol = some m) {j : ℕ} {t : Tri}
    (hj : model[j]? = some t) : m.center j = Gravity t := by
  obtain ⟨-, -, idx, -, htri, -⟩ := C50_tables model hm tol m h
  obtain ⟨mt, e, -, -, -, -, -, -, eC⟩ := htri j t hj
  unfold Mesh.center
  rw [e]
  simp only [Option.map_some, Option.getD_some]
  rw [eC]
  ext <;> simp [Gravity, V3.add, V3.scale] <;> ring

/-- What the search of an imported model's tree returns. -/
theorem found {model : List Tri} (hm : model ≠ []) {tol : ℝ} {m : Mesh} (h : newMesh model tol = some m)
    (hexact : ∀ v w, IsCorner model v → IsCorner model w → Near (effectiveTol model tol) v w → v = w)
    (hnd : ∀ t ∈ model, t.NonDegenerate) {tree : Tree} (htree : IsTreeOf m tree) {p : V3}
    (hfar : ∀ t ∈ model, V3.dist p t.a ^ 2 < maxFloat64) :
    ∃ i t, (tree.search m.center (fun i => (m.dist2 i p).getD 0) p ⊤).item = some i ∧
      i ∈ (tree.search m.center (fun i => (m.dist2 i p).getD 0) p ⊤).seen ∧ model[i]? = some t ∧
      (tree.search m.center (fun i => (m.dist2 i p).getD 0) p ⊤).d2 < ⊤ ∧
      ∀ t' ∈ model, ∀ x, t'.Mem x → V3.dist p (meshTriangleDistance t p).1 ≤ max (V3.dist p x) (axisGap p (Gravity t')) := by
  obtain ⟨-, hlen, -⟩ := C50_tables model hm tol m h
  obtain ⟨idx, -, -, hdist, -⟩ := exact_tables hm h hexact
  have hfar' : ∀ t ∈ model, V3.norm2 (V3.sub p t.a) < maxFloat64 := fun t ht => by rw [V3.norm2_eq_dist]; exact hfar t ht
  have hd : ∀ (j : ℕ) (t : Tri), model[j]? = some t → (m.dist2 j p).getD 0 = V3.dist p (meshTriangleDistance t p).1 ^ 2 := by
    intro j t hj
    obtain ⟨mt, e, -, -, -, -, ed⟩ := hdist p j t hj
    have ht := List.mem_of_getElem? hj
    have := (C42_space_partial t (hnd t ht) p (hfar' t ht)).2.1
    unfold Mesh.dist2
    rw [e]
    simp only [Option.bind_some, ed, Option.map_some, Option.getD_some]
    exact this
  have hitems : ∀ j, j ∈ tree.items ↔ j < model.length := by
    intro j
    rw [htree.2.mem_iff, List.mem_range, hlen]
  set d := fun i => (m.dist2 i p).getD 0 with hdd
  have hle : ∀ (j : ℕ) (t' : Tri), model[j]? = some t' → ∀ x, t'.Mem x → (tree.search m.center d p ⊤).d2 ≤
      ((max (V3.dist p x) (axisGap p (Gravity t')) * max (V3.dist p x) (axisGap p (Gravity t')) : ℝ) : WithTop ℝ) := by
    intro j t' hj x hx
    have ht := List.mem_of_getElem? hj
    have hcl := (C42_space_partial t' (hnd t' ht) p (hfar' t' ht)).1.2 x hx
    have := search_le m.center d p tree 0 ⊤ htree.1 j ((hitems j).2 (List.getElem?_eq_some_iff.1 hj).1) (max (V3.dist p x) (axisGap p (Gravity t')))
      (by rw [center_eq hm h hj]; exact le_max_right _ _) (by
        rw [hdd]; dsimp only
        rw [hd j t' hj, ← sq]
        exact pow_le_pow_left₀ (V3.norm_nonneg _) (le_trans hcl (le_max_left _ _)) 2)
    rwa [min_eq_right le_top] at this
  obtain ⟨t0, l0, rfl⟩ := List.exists_cons_of_ne_nil hm
  have hlt : (tree.search m.center d p ⊤).d2 < ⊤ :=
    lt_of_le_of_lt (hle 0 t0 rfl t0.a ⟨1, 0, 0, by norm_num, by norm_num, by norm_num, by norm_num, by ext <;> simp [V3.add, V3.scale]⟩) (WithTop.coe_lt_top _)
  obtain ⟨hseen, hfound⟩ := search_truthful m.center d p tree ⊤
  obtain ⟨i, e1, e2, e3⟩ := hfound hlt
  have hi := (hitems i).1 (hseen i e2)
  refine ⟨i, _, e1, e2, List.getElem?_eq_getElem hi, hlt, ?_⟩
  intro t' ht' x hx
  obtain ⟨j, hj⟩ := List.mem_iff_getElem?.1 ht'
  have := hle j t' hj x hx
  rw [e3, WithTop.coe_le_coe, hdd] at this
  dsimp only at this
  rw [hd i _ (List.getElem?_eq_getElem hi), ← sq] at this
  exact (sq_le_sq₀ (V3.norm_nonneg _) (le_trans (V3.norm_nonneg _) (le_max_left _ _))).1 this

/-- The value's magnitude is the distance to the triangle found. -/
theorem evaluate_found {model : List Tri} (hm : model ≠ []) {tol : ℝ} {m : Mesh} (h : newMesh model tol = some m)
    (hexact : ∀ v w, IsCorner model v → IsCorner model w → Near (effectiveTol model tol) v w → v = w)
    (hnd : ∀ t ∈ model, t.NonDegenerate) {tree : Tree} {p : V3} (hfar : ∀ t ∈ model, V3.dist p t.a ^ 2 < maxFloat64) (mem : Memory)
    {i : ℕ} {t : Tri} (f1 : (tree.search m.center (fun i => (m.dist2 i p).getD 0) p ⊤).item = some i)
    (f2 : i ∈ (tree.search m.center (fun i => (m.dist2 i p).getD 0) p ⊤).seen) (hi : model[i]? = some t) :
    ∃ v, m.evaluateTree tree mem p = some v ∧ |v| = V3.dist p (meshTriangleDistance t p).1 ∧ t.IsClosest p (meshTriangleDistance t p).1 := by
  obtain ⟨idx, hidx, hV, hdist, -⟩ := exact_tables hm h hexact
  have ht := List.mem_of_getElem? hi
  obtain ⟨mt, emt, e0, e1, e2, eN, ed⟩ := hdist p i t hi
  have hfar' : V3.norm2 (V3.sub p t.a) < maxFloat64 := by rw [V3.norm2_eq_dist]; exact hfar t ht
  obtain ⟨hcl, hd2, -⟩ := C42_space_partial t (hnd t ht) p hfar'
  have hs : ∃ x, m.signed mt (meshTriangleDistance t p).2.1 (meshTriangleDistance t p).1 p = some x := by
    unfold Mesh.signed
    rw [e0, e1, e2]
    cases (meshTriangleDistance t p).2.1 <;>
      simp [hV t.a ⟨t, ht, .inl rfl⟩, hV t.b ⟨t, ht, .inr (.inl rfl)⟩, hV t.c ⟨t, ht, .inr (.inr rfl)⟩]
  obtain ⟨x, hx⟩ := hs
  have h0 : 0 ≤ V3.dist p (meshTriangleDistance t p).1 := V3.norm_nonneg _
  refine ⟨copysign (Real.sqrt (meshTriangleDistance t p).2.2) x, ?_, ?_, hcl⟩
  · unfold Mesh.evaluateTree
    dsimp only
    rw [f1, Option.bind_some, evaluate_eq m mem _ i f2 p emt ed, hx]
    rfl
  · rw [hd2, Real.sqrt_sq h0]
    unfold copysign
    split_ifs
    · rw [abs_neg, abs_of_nonneg h0]
    · rw [abs_of_nonneg h0]

/-- Whatever sorted tree has been built, and whatever the triangles remember: the value's magnitude is the distance to a point of
the mesh, and no triangle's point `x` is nearer, except when the triangle's centre of gravity is farther away along an axis; so the
magnitude exceeds the distance to the mesh by less than the nearest triangle's size.  (Missing from the full property: that it is
the distance to the mesh, which is false, see `C52_search_wrong`.) -/
theorem C52_distance_partial (model : List Tri) (hm : model ≠ []) (tol : ℝ) (m : Mesh) (h : newMesh model tol = some m)
    (hexact : ∀ v w, IsCorner model v → IsCorner model w → Near (effectiveTol model tol) v w → v = w)
    (hnd : ∀ t ∈ model, t.NonDegenerate) (tree : Tree) (htree : IsTreeOf m tree) (p : V3)
    (hfar : ∀ t ∈ model, V3.dist p t.a ^ 2 < maxFloat64) (mem : Memory) :
    ∃ v, m.evaluateTree tree mem p = some v ∧ (∃ t ∈ model, ∃ q, t.Mem q ∧ |v| = V3.dist p q) ∧
      (∀ t ∈ model, ∀ x, t.Mem x → |v| ≤ max (V3.dist p x) (axisGap p (Gravity t))) ∧
      (∀ t ∈ model, ∀ x, t.Mem x → |v| ≤ V3.dist p x + V3.dist x (Gravity t)) ∧
      (∀ t ∈ model, |v| ≤ V3.dist p (Gravity t)) := by
  obtain ⟨i, t, f1, f2, hi, -, hle⟩ := found hm h hexact hnd htree hfar
  obtain ⟨v, ev, habs, hcl⟩ := evaluate_found hm h hexact hnd hfar mem f1 f2 hi
  refine ⟨v, ev, ⟨t, List.mem_of_getElem? hi, _, hcl.1, habs⟩, ?_, ?_, ?_⟩
  · rw [habs]; exact hle
  · intro t' ht' y hy
    rw [habs]
    have h0 : 0 ≤ V3.dist y (Gravity t') := V3.norm_nonneg _
    exact le_trans (hle t' ht' y hy) (max_le (by linarith) (le_trans (axisGap_le _ _) (V3.dist_triangle _ _ _)))
  · intro t' ht'
    rw [habs]
    exact le_trans (hle t' ht' _ (gravity_mem t')) (max_le le_rfl (axisGap_le _ _))

/-- Where some nearest triangle's centre of gravity is, along every axis, no farther away than the triangle itself, the search is
right: the value is the distance to the mesh, negative exactly inside the solid under the assumptions of `C50_sign_partial`. -/
theorem C52_nearest_partial (model : List Tri) (hm : model ≠ []) (tol : ℝ) (m : Mesh) (h : newMesh model tol = some m)
    (hexact : ∀ v w, IsCorner model v → IsCorner model w → Near (effectiveTol model tol) v w → v = w)
    (hnd : ∀ t ∈ model, t.NonDegenerate) (hl : model.Nodup) (hE : EdgesShared model)
    (K : Set V3) (hK : Separates model K) (hO : Outward model K) (p : V3)
    (hfar : ∀ t ∈ model, V3.dist p t.a ^ 2 < maxFloat64)
    (hp : ∀ t ∈ model, ¬ t.Mem p)
    (hcorner : ∀ v, IsCorner model v → ∃ t ∈ model, ∃ q, t.Mem q ∧ V3.dist p q < V3.dist p v)
    (tree : Tree) (htree : IsTreeOf m tree) (mem : Memory)
    (hgap : ∃ t ∈ model, ∃ q, t.Mem q ∧ (∀ t' ∈ model, ∀ q', t'.Mem q' → V3.dist p q ≤ V3.dist p q') ∧ axisGap p (Gravity t) ≤ V3.dist p q) :
    ∃ v, m.evaluateTree tree mem p = some v ∧ (v < 0 ↔ p ∈ K) ∧ (0 < v ↔ p ∉ K) ∧
      (∃ t ∈ model, ∃ q, t.Mem q ∧ |v| = V3.dist p q) ∧ ∀ t ∈ model, ∀ q, t.Mem q → |v| ≤ V3.dist p q := by
  obtain ⟨idx, -, -, hdist, -⟩ := exact_tables hm h hexact
  obtain ⟨-, hlen, -⟩ := C50_tables model hm tol m h
  obtain ⟨i, t, f1, f2, hi, -, hle⟩ := found hm h hexact hnd htree hfar
  obtain ⟨t0, ht0, q0, hq0, hmin, hax⟩ := hgap
  have hfar' : ∀ t ∈ model, V3.norm2 (V3.sub p t.a) < maxFloat64 := fun t ht => by rw [V3.norm2_eq_dist]; exact hfar t ht
  have ht := List.mem_of_getElem? hi
  obtain ⟨mt, emt, -, -, -, -, ed⟩ := hdist p i t hi
  have hD := hle t0 ht0 q0 hq0
  rw [max_eq_left hax] at hD
  obtain ⟨v, hv⟩ := C50_sign_partial model hm tol m h hexact hnd hl hE K hK hO p hfar hp hcorner mem _ i f2
    (List.getElem?_eq_some_iff.1 hi).1 (by
      intro j x y hx hy
      obtain ⟨-, e1, -⟩ := C42_space_partial t (hnd t ht) p (hfar' t ht)
      unfold Mesh.dist2 at hx hy
      rw [emt] at hx
      simp only [Option.bind_some, ed, Option.map_some, Option.some.injEq] at hx
      rw [← hx, e1]
      cases hj : model[j]? with
      | none =>
        exfalso
        have : m.triangles[j]? = none := by
          rw [List.getElem?_eq_none_iff] at hj ⊢
          omega
        rw [this] at hy
        cases hy
      | some t' =>
        have ht' := List.mem_of_getElem? hj
        obtain ⟨mt', e', -, -, -, -, ed'⟩ := hdist p j t' hj
        rw [e'] at hy
        simp only [Option.bind_some, ed', Option.map_some, Option.some.injEq] at hy
        obtain ⟨hc, e2, -⟩ := C42_space_partial t' (hnd t' ht') p (hfar' t' ht')
        rw [← hy, e2]
        exact pow_le_pow_left₀ (V3.norm_nonneg _) (le_trans hD (hmin t' ht' _ hc.1)) 2)
  refine ⟨v, ?_, hv.2⟩
  unfold Mesh.evaluateTree
  dsimp only
  rw [f1, Option.bind_some]
  exact hv.1

/-- There is such a tree for every mesh. -/
theorem C52_tree_exists (m : Mesh) : ∃ tree, IsTreeOf m tree := by
  obtain ⟨t, h1, h2⟩ := exists_sorted m.center _ (List.range m.triangles.length) le_rfl 0
  exact ⟨t, h1, h2⟩

/-! ### A tetrahedron for which every tree is wrong somewhere -/

/-- If the plane of a node is farther away than the node's triangle, the far side does not matter. -/
theorem visit_cut {i : ℕ} {c di : ℝ} (D : WithTop ℝ) (near far far' : WithTop ℝ → Found) (h : di < c * c) :
    visit i c di D near far = visit i c di D near far' := by
  unfold visit
  dsimp only
  have hb : (if (near (min D (di : WithTop ℝ))).d2 < min D (di : WithTop ℝ) then
      ((near (min D (di : WithTop ℝ))).item, (near (min D (di : WithTop ℝ))).d2) else (some i, min D (di : WithTop ℝ))).2 ≤ (di : WithTop ℝ) := by
    split_ifs with h1
    · exact le_trans h1.le (min_le_right _ _)
    · exact min_le_right _ _
  have hn : ¬ ((c * c : ℝ) : WithTop ℝ) ≤ (if (near (min D (di : WithTop ℝ))).d2 < min D (di : WithTop ℝ) then
      ((near (min D (di : WithTop ℝ))).item, (near (min D (di : WithTop ℝ))).d2) else (some i, min D (di : WithTop ℝ))).2 := by
    intro hle
    exact absurd (WithTop.coe_le_coe.1 (le_trans hle hb)) (not_le.2 h)
  rw [if_neg hn, if_neg hn]

/-- A search that starts at a triangle nearer than the triangle's plane stays on the query's side of that plane. -/
theorem search_side {C : ℕ → V3} {d : ℕ → ℝ} {q : V3} {i : ℕ} {k : Dim} {l r : Tree} (hs : (Tree.node i k l r).Sorted C k)
    (h : d i < compare q (C i) k * compare q (C i) k) {a : ℕ} (ha : ((Tree.node i k l r).search C d q ⊤).item = some a)
    (hlt : ((Tree.node i k l r).search C d q ⊤).d2 < ⊤) :
    (compare q (C i) k ≤ 0 → compare (C a) (C i) k ≤ 0) ∧ (0 < compare q (C i) k → 0 ≤ compare (C a) (C i) k) := by
  obtain ⟨-, hl, hr, -, -⟩ := hs
  have hself : compare (C i) (C i) k = 0 := sub_self _
  have hnone : ∀ (L : List ℕ) (E : WithTop ℝ), Truthful d L ⟨none, ⊤, []⟩ E := fun L E => ⟨by simp, fun h => absurd h (by simp)⟩
  simp only [Tree.search] at ha hlt
  constructor
  · intro hc
    rw [if_pos hc, visit_cut ⊤ _ _ (fun _ => ⟨none, ⊤, []⟩) h] at ha hlt
    have := visit_truthful d i (compare q (C i) k) ⊤ (l.search C d q) (fun _ => ⟨none, ⊤, []⟩) (i :: l.items) List.mem_cons_self
      (fun E => (search_truthful C d q l E).mono fun j hj => List.mem_cons_of_mem _ hj) (fun E => hnone _ E)
    obtain ⟨b, e1, e2, -⟩ := this.2 hlt
    rw [ha] at e1
    cases e1
    rcases List.mem_cons.1 (this.1 a e2) with rfl | hm
    · exact hself.le
    · exact hl a hm
  · intro hc
    rw [if_neg (not_le.2 hc), visit_cut ⊤ _ _ (fun _ => ⟨none, ⊤, []⟩) h] at ha hlt
    have := visit_truthful d i (compare q (C i) k) ⊤ (r.search C d q) (fun _ => ⟨none, ⊤, []⟩) (i :: r.items) List.mem_cons_self
      (fun E => (search_truthful C d q r E).mono fun j hj => List.mem_cons_of_mem _ hj) (fun E => hnone _ E)
    obtain ⟨b, e1, e2, -⟩ := this.2 hlt
    rw [ha] at e1
    cases e1
    rcases List.mem_cons.1 (this.1 a e2) with rfl | hm
    · exact hself.ge
    · exact hr a hm

/-- The faces of a long tetrahedron. -/
def spike : List Tri :=
  [⟨⟨0, 0, 0⟩, ⟨1, 1, 0⟩, ⟨12, 0, 0⟩⟩, ⟨⟨0, 0, 0⟩, ⟨12, 0, 0⟩, ⟨2, 0, 1⟩⟩,
   ⟨⟨0, 0, 0⟩, ⟨2, 0, 1⟩, ⟨1, 1, 0⟩⟩, ⟨⟨12, 0, 0⟩, ⟨1, 1, 0⟩, ⟨2, 0, 1⟩⟩]

theorem spike_is {v : V3} (h : IsCorner spike v) : v = ⟨0, 0, 0⟩ ∨ v = ⟨12, 0, 0⟩ ∨ v = ⟨1, 1, 0⟩ ∨ v = ⟨2, 0, 1⟩ := by
  obtain ⟨t, ht, h⟩ := h
  simp only [spike, List.mem_cons, List.not_mem_nil, or_false] at ht
  rcases ht with rfl | rfl | rfl | rfl <;> tauto

theorem spike_exact : ∀ v w, IsCorner spike v → IsCorner spike w → Near (effectiveTol spike (1 / 4)) v w → v = w := by
  intro v w hv hw hn
  have : effectiveTol spike (1 / 4) = 1 / 4 := by unfold effectiveTol; rw [if_neg (by norm_num)]
  rw [this] at hn
  obtain ⟨n1, n2, n3⟩ := hn
  have hv := spike_is hv
  have hw := spike_is hw
  rcases hv with rfl | rfl | rfl | rfl <;> rcases hw with rfl | rfl | rfl | rfl <;> first | rfl | (exfalso; revert n1 n2 n3; norm_num)

theorem spike_nondeg : ∀ t ∈ spike, t.NonDegenerate := by
  intro t ht
  simp only [spike, List.mem_cons, List.not_mem_nil, or_false] at ht
  rcases ht with rfl | rfl | rfl | rfl <;> intro e <;>
    (have e1 := congrArg V3.x e; have e2 := congrArg V3.y e; have e3 := congrArg V3.z e
     simp [V3.cross, V3.sub] at e1 e2 e3)

theorem spike_mesh : ∃ m, newMesh spike (1 / 4) = some m := by
  have hb := big
  have hs : triBox spike = ⟨⟨0, 0, 0⟩, ⟨12, 1, 1⟩⟩ := by
    have e1 : min maxFloat64 0 = (0 : ℝ) := min_eq_right (by linarith)
    have e2 : max (-maxFloat64) 0 = (0 : ℝ) := max_eq_right (by linarith)
    simp [triBox, spike, emptyBox, Box3.includeV, V3.minElem, V3.maxElem, e1, e2]
    norm_num
  have hr : 1 ≤ (sideRange spike).2 := by
    simp only [sideRange, spike, List.foldl, V3.norm2, V3.sub]
    refine le_trans ?_ (le_max_right _ _)
    norm_num
  have hq : 1 ≤ Real.sqrt (sideRange spike).2 := by
    rw [Real.one_le_sqrt]; exact hr
  unfold newMesh
  dsimp only
  rw [if_neg (by rw [not_lt]; linarith), hs]
  have h10 : ∀ x : ℝ, (if (1 / 4 : ℝ) = 0 then x else 1 / 4) = 1 / 4 := fun x => if_neg (by norm_num)
  rw [h10]
  have hg : goInt (max (Box3.size ⟨⟨0, 0, 0⟩, ⟨12, 1, 1⟩⟩).x (max (Box3.size ⟨⟨0, 0, 0⟩, ⟨12, 1, 1⟩⟩).y (Box3.size ⟨⟨0, 0, 0⟩, ⟨12, 1, 1⟩⟩).z) / (1 / 4) + 1e-12) = 48 := by
    simp only [Box3.size, V3.sub]
    norm_num
    unfold goInt
    rw [if_pos (by norm_num), Int.floor_eq_iff]
    norm_num
  rw [hg, if_neg (by norm_num), if_neg (by norm_num)]
  exact ⟨_, rfl⟩

/-- Points of a plane are at least as far away as the plane. -/
theorem plane_le (n p x : V3) : V3.dot n (V3.sub p x) ^ 2 ≤ V3.norm2 n * V3.norm2 (V3.sub p x) := by
  simp only [V3.dot, V3.norm2]
  generalize V3.sub p x = y
  nlinarith [sq_nonneg (n.x * y.y - n.y * y.x), sq_nonneg (n.x * y.z - n.z * y.x), sq_nonneg (n.y * y.z - n.z * y.y)]

/-- The nearest face is missed by every tree that starts with the face `i`. -/
theorem spike_wrong {m : Mesh} (hm : newMesh spike (1 / 4) = some m) {i : ℕ} {l r : Tree} (htree : IsTreeOf m (.node i 0 l r))
    {ti tj : Tri} (hi : spike[i]? = some ti) (htj : tj ∈ spike) {p xi xj : V3} (hxi : ti.Mem xi) (hxj : tj.Mem xj)
    (hp : ∀ t ∈ spike, V3.norm2 (V3.sub p t.a) < 200) (hnear : V3.norm2 (V3.sub p xi) < (p.x - (Gravity ti).x) ^ 2)
    (hside : ∀ t ∈ spike, (p.x - (Gravity ti).x ≤ 0 → (Gravity t).x ≤ (Gravity ti).x) →
      (0 < p.x - (Gravity ti).x → (Gravity ti).x ≤ (Gravity t).x) → ∀ x, t.Mem x → V3.norm2 (V3.sub p xj) < V3.norm2 (V3.sub p x)) (mem : Memory) :
    ∃ v, m.evaluateTree (.node i 0 l r) mem p = some v ∧ ∃ t ∈ spike, ∃ x, t.Mem x ∧ V3.dist p x < |v| := by
  have hne : spike ≠ [] := by simp [spike]
  have hbig : (200 : ℝ) < maxFloat64 := by
    have h1 : (2 : ℝ) ^ 10 ≤ 2 ^ 1023 := pow_le_pow_right₀ (by norm_num) (by norm_num)
    unfold maxFloat64
    norm_num at h1
    generalize (2 : ℝ) ^ 1023 = x at *
    norm_num
    linarith
  have hfar : ∀ t ∈ spike, V3.dist p t.a ^ 2 < maxFloat64 := by
    intro t ht
    rw [← V3.norm2_eq_dist]
    exact lt_trans (hp t ht) hbig
  obtain ⟨a, t, f1, f2, ha, hlt, -⟩ := found hne hm spike_exact spike_nondeg htree hfar
  obtain ⟨v, ev, habs, hcl⟩ := evaluate_found hne hm spike_exact spike_nondeg hfar mem f1 f2 ha
  refine ⟨v, ev, tj, htj, xj, hxj, ?_⟩
  rw [habs]
  refine (sq_lt_sq₀ (V3.norm_nonneg _) (V3.norm_nonneg _)).1 ?_
  show V3.dist _ _ ^ 2 < V3.dist _ _ ^ 2
  rw [← V3.norm2_eq_dist, ← V3.norm2_eq_dist]
  obtain ⟨idx, -, -, hdist, -⟩ := exact_tables hne hm spike_exact
  have hti := List.mem_of_getElem? hi
  have hdi : (m.dist2 i p).getD 0 < (p.x - (Gravity ti).x) ^ 2 := by
    obtain ⟨mt, emt, -, -, -, -, ed⟩ := hdist p i ti hi
    obtain ⟨hc, hd, -⟩ := C42_space_partial ti (spike_nondeg ti hti) p (by rw [V3.norm2_eq_dist]; exact hfar ti hti)
    unfold Mesh.dist2
    rw [emt]
    simp only [Option.bind_some, ed, Option.map_some, Option.getD_some]
    rw [hd]
    refine lt_of_le_of_lt ?_ hnear
    rw [V3.norm2_eq_dist]
    exact pow_le_pow_left₀ (V3.norm_nonneg _) (hc.2 xi hxi) 2
  obtain ⟨s1, s2⟩ := search_side htree.1 (d := fun i => (m.dist2 i p).getD 0) (q := p)
    (by rw [center_eq hne hm hi, ← sq]; exact hdi) f1 hlt
  rw [center_eq hne hm hi, center_eq hne hm ha] at s1 s2
  refine hside t (List.mem_of_getElem? ha) ?_ ?_ _ hcl.1
  · intro h
    have : (Gravity t).x - (Gravity ti).x ≤ 0 := s1 h
    linarith
  · intro h
    have : 0 ≤ (Gravity t).x - (Gravity ti).x := s2 h
    linarith

/-- For a tetrahedron, and for every sorted tree of its faces, however its pivots have been chosen: there is a query at which the
value's magnitude is larger than the distance to one of the faces. -/
theorem C52_search_wrong : ∃ m, newMesh spike (1 / 4) = some m ∧ ∀ tree, IsTreeOf m tree → ∃ p, ∀ mem,
    ∃ v, m.evaluateTree tree mem p = some v ∧ ∃ t ∈ spike, ∃ x, t.Mem x ∧ V3.dist p x < |v| := by
  obtain ⟨m, hm⟩ := spike_mesh
  refine ⟨m, hm, fun tree htree => ?_⟩
  obtain ⟨-, hlen, -⟩ := C50_tables spike (by simp [spike]) (1 / 4) m hm
  have hl4 : m.triangles.length = 4 := hlen
  cases tree with
  | nil =>
    have := htree.2.length_eq
    simp [Tree.items, hl4] at this
  | node i k l r =>
    obtain rfl : k = 0 := htree.1.1
    have hi : i < 4 := by
      have := htree.2.mem_iff.1 (show i ∈ (Tree.node i 0 l r).items from List.mem_cons_self)
      rwa [List.mem_range, hl4] at this
    interval_cases i
    · refine ⟨⟨3, 1 / 100, 1 / 10⟩, fun mem => spike_wrong hm htree (ti := ⟨⟨0, 0, 0⟩, ⟨1, 1, 0⟩, ⟨12, 0, 0⟩⟩) (tj := ⟨⟨0, 0, 0⟩, ⟨12, 0, 0⟩, ⟨2, 0, 1⟩⟩)
        rfl (by simp [spike]) (xi := ⟨3, 1 / 100, 0⟩) (xj := ⟨3, 0, 1 / 10⟩)
        ⟨1 - 1 / 100 - 299 / 1200, 1 / 100, 299 / 1200, by norm_num, by norm_num, by norm_num, by norm_num, by ext <;> simp [V3.add, V3.scale]; norm_num⟩
        ⟨1 - 28 / 120 - 1 / 10, 28 / 120, 1 / 10, by norm_num, by norm_num, by norm_num, by norm_num, by ext <;> simp [V3.add, V3.scale]; norm_num⟩
        ?_ (by simp only [V3.norm2, V3.sub, Gravity]; norm_num) ?_ mem⟩
      · intro t ht
        simp only [spike, List.mem_cons, List.not_mem_nil, or_false] at ht
        rcases ht with rfl | rfl | rfl | rfl <;> simp only [V3.norm2, V3.sub] <;> norm_num
      · rintro t ht h1 h2 x ⟨u, v, w, hu, hv, hw, hs, rfl⟩
        simp only [spike, List.mem_cons, List.not_mem_nil, or_false] at ht
        obtain rfl : u = 1 - v - w := by linarith
        rcases ht with rfl | rfl | rfl | rfl
        · have := plane_le ⟨0, 0, 1⟩ ⟨3, 1 / 100, 1 / 10⟩ (V3.add (V3.add (V3.scale (1 - v - w) ⟨0, 0, 0⟩) (V3.scale v ⟨1, 1, 0⟩)) (V3.scale w ⟨12, 0, 0⟩))
          simp only [V3.dot, V3.norm2, V3.sub, V3.add, V3.scale] at this ⊢
          ring_nf at this ⊢
          linarith
        · exfalso
          revert h1 h2
          simp only [Gravity]
          norm_num
        · have := plane_le ⟨1, -1, -2⟩ ⟨3, 1 / 100, 1 / 10⟩ (V3.add (V3.add (V3.scale (1 - v - w) ⟨0, 0, 0⟩) (V3.scale v ⟨2, 0, 1⟩)) (V3.scale w ⟨1, 1, 0⟩))
          simp only [V3.dot, V3.norm2, V3.sub, V3.add, V3.scale] at this ⊢
          ring_nf at this ⊢
          linarith
        · exfalso
          revert h1 h2
          simp only [Gravity]
          norm_num
    · refine ⟨⟨9, 1 / 10, 1 / 100⟩, fun mem => spike_wrong hm htree (ti := ⟨⟨0, 0, 0⟩, ⟨12, 0, 0⟩, ⟨2, 0, 1⟩⟩) (tj := ⟨⟨0, 0, 0⟩, ⟨1, 1, 0⟩, ⟨12, 0, 0⟩⟩)
        rfl (by simp [spike]) (xi := ⟨9, 0, 1 / 100⟩) (xj := ⟨9, 1 / 10, 0⟩)
        ⟨1 - 898 / 1200 - 1 / 100, 898 / 1200, 1 / 100, by norm_num, by norm_num, by norm_num, by norm_num, by ext <;> simp [V3.add, V3.scale]; norm_num⟩
        ⟨1 - 1 / 10 - 89 / 120, 1 / 10, 89 / 120, by norm_num, by norm_num, by norm_num, by norm_num, by ext <;> simp [V3.add, V3.scale]; norm_num⟩
        ?_ (by simp only [V3.norm2, V3.sub, Gravity]; norm_num) ?_ mem⟩
      · intro t ht
        simp only [spike, List.mem_cons, List.not_mem_nil, or_false] at ht
        rcases ht with rfl | rfl | rfl | rfl <;> simp only [V3.norm2, V3.sub] <;> norm_num
      · rintro t ht h1 h2 x ⟨u, v, w, hu, hv, hw, hs, rfl⟩
        simp only [spike, List.mem_cons, List.not_mem_nil, or_false] at ht
        obtain rfl : u = 1 - v - w := by linarith
        rcases ht with rfl | rfl | rfl | rfl
        · exfalso
          revert h1 h2
          simp only [Gravity]
          norm_num
        · have := plane_le ⟨0, 1, 0⟩ ⟨9, 1 / 10, 1 / 100⟩ (V3.add (V3.add (V3.scale (1 - v - w) ⟨0, 0, 0⟩) (V3.scale v ⟨12, 0, 0⟩)) (V3.scale w ⟨2, 0, 1⟩))
          simp only [V3.dot, V3.norm2, V3.sub, V3.add, V3.scale] at this ⊢
          ring_nf at this ⊢
          linarith
        · exfalso
          revert h1 h2
          simp only [Gravity]
          norm_num
        · have := plane_le ⟨1, 11, 10⟩ ⟨9, 1 / 10, 1 / 100⟩ (V3.add (V3.add (V3.scale (1 - v - w) ⟨12, 0, 0⟩) (V3.scale v ⟨1, 1, 0⟩)) (V3.scale w ⟨2, 0, 1⟩))
          simp only [V3.dot, V3.norm2, V3.sub, V3.add, V3.scale] at this ⊢
          ring_nf at this ⊢
          linarith
    · refine ⟨⟨1 / 2, 1 / 100, 1 / 10⟩, fun mem => spike_wrong hm htree (ti := ⟨⟨0, 0, 0⟩, ⟨2, 0, 1⟩, ⟨1, 1, 0⟩⟩) (tj := ⟨⟨0, 0, 0⟩, ⟨12, 0, 0⟩, ⟨2, 0, 1⟩⟩)
        rfl (by simp [spike]) (xi := ⟨21 / 100, 1 / 100, 1 / 10⟩) (xj := ⟨1 / 2, 0, 1 / 10⟩)
        ⟨1 - 11 / 100, 1 / 10, 1 / 100, by norm_num, by norm_num, by norm_num, by norm_num, by ext <;> simp [V3.add, V3.scale]; norm_num⟩
        ⟨1 - 3 / 120 - 1 / 10, 3 / 120, 1 / 10, by norm_num, by norm_num, by norm_num, by norm_num, by ext <;> simp [V3.add, V3.scale]; norm_num⟩
        ?_ (by simp only [V3.norm2, V3.sub, Gravity]; norm_num) ?_ mem⟩
      · intro t ht
        simp only [spike, List.mem_cons, List.not_mem_nil, or_false] at ht
        rcases ht with rfl | rfl | rfl | rfl <;> simp only [V3.norm2, V3.sub] <;> norm_num
      · rintro t ht h1 h2 x ⟨u, v, w, hu, hv, hw, hs, rfl⟩
        simp only [spike, List.mem_cons, List.not_mem_nil, or_false] at ht
        obtain rfl : u = 1 - v - w := by linarith
        rcases ht with rfl | rfl | rfl | rfl
        · exfalso
          revert h1 h2
          simp only [Gravity]
          norm_num
        · exfalso
          revert h1 h2
          simp only [Gravity]
          norm_num
        · have := plane_le ⟨1, -1, -2⟩ ⟨1 / 2, 1 / 100, 1 / 10⟩ (V3.add (V3.add (V3.scale (1 - v - w) ⟨0, 0, 0⟩) (V3.scale v ⟨2, 0, 1⟩)) (V3.scale w ⟨1, 1, 0⟩))
          simp only [V3.dot, V3.norm2, V3.sub, V3.add, V3.scale] at this ⊢
          ring_nf at this ⊢
          linarith
        · exfalso
          revert h1 h2
          simp only [Gravity]
          norm_num
    · refine ⟨⟨9, 1 / 10, 1 / 100⟩, fun mem => spike_wrong hm htree (ti := ⟨⟨12, 0, 0⟩, ⟨1, 1, 0⟩, ⟨2, 0, 1⟩⟩) (tj := ⟨⟨0, 0, 0⟩, ⟨1, 1, 0⟩, ⟨12, 0, 0⟩⟩)
        rfl (by simp [spike]) (xi := ⟨12 - 12 / 10, 1 / 10, 1 / 100⟩) (xj := ⟨9, 1 / 10, 0⟩)
        ⟨1 - 11 / 100, 1 / 10, 1 / 100, by norm_num, by norm_num, by norm_num, by norm_num, by ext <;> simp [V3.add, V3.scale]; norm_num⟩
        ⟨1 - 1 / 10 - 89 / 120, 1 / 10, 89 / 120, by norm_num, by norm_num, by norm_num, by norm_num, by ext <;> simp [V3.add, V3.scale]; norm_num⟩
        ?_ (by simp only [V3.norm2, V3.sub, Gravity]; norm_num) ?_ mem⟩
      · intro t ht
        simp only [spike, List.mem_cons, List.not_mem_nil, or_false] at ht
        rcases ht with rfl | rfl | rfl | rfl <;> simp only [V3.norm2, V3.sub] <;> norm_num
      · rintro t ht h1 h2 x ⟨u, v, w, hu, hv, hw, hs, rfl⟩
        simp only [spike, List.mem_cons, List.not_mem_nil, or_false] at ht
        obtain rfl : u = 1 - v - w := by linarith
        rcases ht with rfl | rfl | rfl | rfl
        · exfalso
          revert h1 h2
          simp only [Gravity]
          norm_num
        · exfalso
          revert h1 h2
          simp only [Gravity]
          norm_num
        · exfalso
          revert h1 h2
          simp only [Gravity]
          norm_num
        · have := plane_le ⟨1, 11, 10⟩ ⟨9, 1 / 10, 1 / 100⟩ (V3.add (V3.add (V3.scale (1 - v - w) ⟨12, 0, 0⟩) (V3.scale v ⟨1, 1, 0⟩)) (V3.scale w ⟨2, 0, 1⟩))
          simp only [V3.dot, V3.norm2, V3.sub, V3.add, V3.scale] at this ⊢
          ring_nf at this ⊢
          linarith

/-- The hypotheses of `C52_nearest_partial` hold above the middle of the corner tetrahedron's slanted face, for every sorted tree. -/
example : ∃ m tree, newMesh corner (1 / 4) = some m ∧ IsTreeOf m tree ∧ ∀ mem : Memory, ∃ v, m.evaluateTree tree mem ⟨1 / 2, 1 / 2, 1 / 2⟩ = some v ∧ 0 < v := by
  obtain ⟨m, hm⟩ := corner_mesh
  obtain ⟨tree, htree⟩ := C52_tree_exists m
  refine ⟨m, tree, hm, htree, fun mem => ?_⟩
  have hbig := big
  have hsq : ∀ x y z w : V3, V3.norm2 (V3.sub x y) ≤ V3.norm2 (V3.sub z w) → V3.dist x y ≤ V3.dist z w := by
    intro x y z w h
    rw [V3.norm2_eq_dist, V3.norm2_eq_dist] at h
    exact (sq_le_sq₀ (V3.norm_nonneg _) (V3.norm_nonneg _)).1 h
  have hall : ∀ t ∈ corner, ∀ q, t.Mem q → 1 / 12 ≤ V3.norm2 (V3.sub ⟨1 / 2, 1 / 2, 1 / 2⟩ q) := by
    rintro t ht q ⟨u, v, w, hu, hv, hw, hs, rfl⟩
    obtain rfl : u = 1 - v - w := by linarith
    simp only [corner, List.mem_cons, List.not_mem_nil, or_false] at ht
    rcases ht with rfl | rfl | rfl | rfl <;> simp only [V3.norm2, V3.sub, V3.add, V3.scale]
    · nlinarith [sq_nonneg (1 / 2 - w), sq_nonneg (1 / 2 - v)]
    · nlinarith [sq_nonneg (1 / 2 - w), sq_nonneg (1 / 2 - v)]
    · nlinarith [sq_nonneg (1 / 2 - w), sq_nonneg (1 / 2 - v)]
    · nlinarith [sq_nonneg (1 - v - w - 1 / 3), sq_nonneg (v - 1 / 3), sq_nonneg (w - 1 / 3)]
  have hmid : slant.Mem ⟨1 / 3, 1 / 3, 1 / 3⟩ :=
    ⟨1 / 3, 1 / 3, 1 / 3, by norm_num, by norm_num, by norm_num, by norm_num, by ext <;> simp [slant, V3.add, V3.scale]⟩
  obtain ⟨v, e, -, h, -⟩ := C52_nearest_partial corner (by simp [corner]) (1 / 4) m hm corner_exact corner_nondeg corner_nodup corner_edges
    cornerSolid corner_separates corner_outward ⟨1 / 2, 1 / 2, 1 / 2⟩ (by
      intro t ht
      rw [← V3.norm2_eq_dist]
      refine lt_trans ?_ hbig
      simp only [corner, List.mem_cons, List.not_mem_nil, or_false] at ht
      rcases ht with rfl | rfl | rfl | rfl <;> simp only [V3.norm2, V3.sub] <;> norm_num)
    (by
      intro t ht hm
      have := hall t ht _ hm
      simp only [V3.norm2, V3.sub] at this
      norm_num at this)
    (by
      intro v hv
      refine ⟨slant, slant_mem, _, hmid, ?_⟩
      refine (sq_lt_sq₀ (V3.norm_nonneg _) (V3.norm_nonneg _)).1 ?_
      show V3.dist _ _ ^ 2 < V3.dist _ _ ^ 2
      rw [← V3.norm2_eq_dist, ← V3.norm2_eq_dist]
      rw [corner_is] at hv
      rcases hv with rfl | rfl | rfl | rfl <;> simp only [V3.norm2, V3.sub] <;> norm_num)
    tree htree mem ⟨slant, slant_mem, _, hmid, fun t ht q hq => hsq _ _ _ _ (le_trans (by simp only [V3.norm2, V3.sub]; norm_num) (hall t ht q hq)), by
      have : Gravity slant = ⟨1 / 3, 1 / 3, 1 / 3⟩ := by ext <;> simp [Gravity, slant]
      rw [this]
      exact axisGap_le _ _⟩
  exact ⟨v, e, h.2 (by simp only [cornerSolid, Set.mem_ofPred_eq]; norm_num)⟩

end Kd
end Sdf
