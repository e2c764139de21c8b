import Verif.Lemmas.MCManifold

/-! Helper lemmas: the triangles around a vertex of a grid's mesh form a single fan. -/

namespace Sdf.MC

open Classical Relation

section grid

variable (o : V3) (r : ℝ) (v : ℤ → ℤ → ℤ → ℝ)

noncomputable def gtri (c : ℤ × ℤ × ℤ) (T : Triple) : Tri := ⟨gpt o r v c T.2.2, gpt o r v c T.2.1, gpt o r v c T.1⟩

noncomputable def cellRow (c : ℤ × ℤ × ℤ) : List Triple := triples (triangleTable.getD (bitsToNat (bits v c)) [])

noncomputable def gmesh (cells : List (ℤ × ℤ × ℤ)) : List Tri :=
  cells.flatMap fun c => rawTriangles (cellCorners (gridPos o r) c) (cellCorners v c) 0

variable {o r v}

theorem raw_row (c : ℤ × ℤ × ℤ) : rawTriangles (cellCorners (gridPos o r) c) (cellCorners v c) 0 = (cellRow v c).map (gtri o r v c) :=
  rawTriangles_eq _ _ _

theorem mem_mesh {cells : List (ℤ × ℤ × ℤ)} {t : Tri} : t ∈ gmesh o r v cells ↔ ∃ c ∈ cells, ∃ T ∈ cellRow v c, gtri o r v c T = t := by
  unfold gmesh
  simp only [List.mem_flatMap, raw_row, List.mem_map]

theorem row_crossed {c : ℤ × ℤ × ℤ} {T : Triple} (hT : T ∈ cellRow v c) {e : Fin 12} (he : memT e T = true) : Crossed v c e := by
  obtain ⟨h1, h2, h3⟩ := triples_mem _ _ hT
  unfold Crossed
  rcases (memT_iff e T).mp he with rfl | rfl | rfl
  · exact tri_edge_sign _ _ h1
  · exact tri_edge_sign _ _ h2
  · exact tri_edge_sign _ _ h3

theorem gtri_at {c : ℤ × ℤ × ℤ} {T : Triple} {P : V3} : (gtri o r v c T).At P ↔ ∃ e, memT e T = true ∧ P = gpt o r v c e := by
  unfold Tri.At gtri
  constructor
  · rintro (h | h | h)
    · exact ⟨_, (memT_iff _ _).mpr (Or.inr (Or.inr rfl)), h⟩
    · exact ⟨_, (memT_iff _ _).mpr (Or.inr (Or.inl rfl)), h⟩
    · exact ⟨_, (memT_iff _ _).mpr (Or.inl rfl), h⟩
  · rintro ⟨e, he, h⟩
    rcases (memT_iff e T).mp he with rfl | rfl | rfl
    · exact Or.inr (Or.inr h)
    · exact Or.inr (Or.inl h)
    · exact Or.inl h

theorem crossed_mixed {c : ℤ × ℤ × ℤ} {e : Fin 12} (h : Crossed v c e) : Mixed (cellCorners v c) 0 := by
  rw [crossed_iff] at h
  by_cases h1 : cellCorners v c (pairTable e).1 < 0
  · refine ⟨⟨_, h1⟩, (pairTable e).2, not_lt.mp fun h2 => h ⟨fun _ => h2, fun _ => h1⟩⟩
  · refine ⟨⟨(pairTable e).2, ?_⟩, _, not_lt.mp h1⟩
    by_contra h2
    exact h ⟨fun h' => absurd h' h1, fun h' => absurd h' h2⟩

theorem dirs_triple {c : ℤ × ℤ × ℤ} {e f : Fin 12} (h : (e, f) ∈ dirs (bitsToNat (bits v c)) ∨ (f, e) ∈ dirs (bitsToNat (bits v c))) :
    ∃ T ∈ cellRow v c, memT e T = true ∧ memT f T = true := by
  have key : ∀ e f : Fin 12, (e, f) ∈ dirs (bitsToNat (bits v c)) → ∃ T ∈ cellRow v c, memT e T = true ∧ memT f T = true := by
    intro e f h
    unfold dirs at h
    obtain ⟨T, hT, h⟩ := List.mem_flatMap.mp h
    refine ⟨T, hT, ?_⟩
    simp only [List.mem_cons, List.not_mem_nil, or_false, Prod.mk.injEq] at h
    rw [memT_iff, memT_iff]
    tauto
  rcases h with h | h
  · exact key _ _ h
  · obtain ⟨T, h1, h2, h3⟩ := key _ _ h
    exact ⟨T, h1, h3, h2⟩

/-- Chain of triangles of the mesh around `P`. -/
abbrev Chain (o : V3) (r : ℝ) (v : ℤ → ℤ → ℤ → ℝ) (cells : List (ℤ × ℤ × ℤ)) (P : V3) : Tri → Tri → Prop := ReflTransGen (EdgeNeighbours (gmesh o r v cells) P)

theorem EdgeNeighbours.symm {m : List Tri} {P : V3} {t u : Tri} (h : EdgeNeighbours m P t u) : EdgeNeighbours m P u t := by
  obtain ⟨h1, h2, h3, h4, q, h5, h6, h7⟩ := h
  exact ⟨h2, h1, h4, h3, q, h5, h7, h6⟩

/-- Within a cell. -/
theorem chain_cell (hr : 0 < r) {cells : List (ℤ × ℤ × ℤ)} {c : ℤ × ℤ × ℤ} (hc : c ∈ cells) (hf : Far v c) {e : Fin 12} {S T : Triple}
    (hS : S ∈ cellRow v c) (hT : T ∈ cellRow v c) (eS : memT e S = true) (eT : memT e T = true) :
    Chain o r v cells (gpt o r v c e) (gtri o r v c S) (gtri o r v c T) := by
  have h := fan_connected (bits v c) e S T (List.mem_filter.mpr ⟨hS, eS⟩) (List.mem_filter.mpr ⟨hT, eT⟩)
  refine ReflTransGen.lift (gtri o r v c) ?_ _ _ h
  rintro A B ⟨hA, hB, f, hne, fA, fB⟩
  obtain ⟨hA, eA⟩ := List.mem_filter.mp hA
  obtain ⟨hB, eB⟩ := List.mem_filter.mp hB
  refine ⟨mem_mesh.mpr ⟨c, hc, A, hA, rfl⟩, mem_mesh.mpr ⟨c, hc, B, hB, rfl⟩, gtri_at.mpr ⟨e, eA, rfl⟩, gtri_at.mpr ⟨e, eB, rfl⟩,
    gpt o r v c f, ?_, gtri_at.mpr ⟨f, fA, rfl⟩, gtri_at.mpr ⟨f, fB, rfl⟩⟩
  intro h
  exact hne (pt_inj hr c hf f e (row_crossed hA fA) (row_crossed hA eA) h)

/-- Across a face: a triangle on either side with a common edge. -/
theorem face_link (hr : 0 < r) {cells : List (ℤ × ℤ × ℤ)} {c : ℤ × ℤ × ℤ} {a : Fin 3} {i : Fin 4} (hcr : Crossed v c (up a i))
    (hc : c ∈ cells) (hc' : next c a ∈ cells) (hf : Far v c) :
    ∃ S ∈ cellRow v c, ∃ T ∈ cellRow v (next c a), memT (up a i) S = true ∧ memT (dn a i) T = true
      ∧ EdgeNeighbours (gmesh o r v cells) (gpt o r v c (up a i)) (gtri o r v c S) (gtri o r v (next c a) T) := by
  have hb : (fun q => bits v c (upc a q)) i ≠ (fun q => bits v c (upc a q)) (i + 1) := by
    unfold Crossed at hcr
    rcases up_ends a i with h | h <;> rw [h] at hcr
    · exact hcr
    · exact hcr.symm
  obtain ⟨j, hj⟩ := side_covers (a == 1) (fun q => bits v c (upc a q)) i hb
  have hj' := hj
  rw [← face_up, ← face_up] at hj
  have e1 : ((a != 1) = !(a == 1)) := rfl
  rw [side_opposite (a == 1) _ i j, side_opposite (a == 1) _ j i, ← e1, bits_next, ← face_dn, ← face_dn] at hj'
  obtain ⟨S, hS, iS, jS⟩ := dirs_triple hj
  obtain ⟨T, hT, jT, iT⟩ := dirs_triple hj'
  have hne : up a j ≠ up a i := by
    intro h
    rw [h] at hj
    rcases hj with hj | hj <;> exact dirs_ne _ _ hj
  refine ⟨S, hS, T, hT, iS, iT, mem_mesh.mpr ⟨c, hc, S, hS, rfl⟩, mem_mesh.mpr ⟨_, hc', T, hT, rfl⟩, gtri_at.mpr ⟨_, iS, rfl⟩,
    gtri_at.mpr ⟨_, iT, pt_next c a i hcr⟩, gpt o r v c (up a j), ?_, gtri_at.mpr ⟨_, jS, rfl⟩,
    gtri_at.mpr ⟨_, jT, pt_next c a j (row_crossed hS jS)⟩⟩
  intro h
  exact hne (pt_inj hr c hf _ _ (row_crossed hS jS) hcr h)

/-- All triangles at edge `e` of cell `c` are joined to all triangles at edge `e'` of cell `c'`. -/
def Joined (o : V3) (r : ℝ) (v : ℤ → ℤ → ℤ → ℝ) (cells : List (ℤ × ℤ × ℤ)) (c : ℤ × ℤ × ℤ) (e : Fin 12) (c' : ℤ × ℤ × ℤ) (e' : Fin 12) : Prop :=
  ∀ S ∈ cellRow v c, ∀ T ∈ cellRow v c', memT e S = true → memT e' T = true → Chain o r v cells (gpt o r v c e) (gtri o r v c S) (gtri o r v c' T)

theorem prev_next (c : ℤ × ℤ × ℤ) (a : Fin 3) : ∃ c', next c' a = c :=
  ⟨(c.1 - (unit a).1, c.2.1 - (unit a).2.1, c.2.2 - (unit a).2.2), by unfold next; ext <;> simp⟩

theorem across_joined (hr : 0 < r) {cells : List (ℤ × ℤ × ℤ)} (hcov : ∀ c, Mixed (cellCorners v c) 0 → c ∈ cells)
    (hf : ∀ c, Mixed (cellCorners v c) 0 → Far v c) (c : ℤ × ℤ × ℤ) (e e' : Fin 12) (he : Crossed v c e) (h : Across e e') :
    ∃ c', Crossed v c' e' ∧ gpt o r v c e = gpt o r v c' e' ∧ Joined o r v cells c e c' e' ∧ ∃ T ∈ cellRow v c', memT e' T = true := by
  obtain ⟨a, i, ⟨rfl, rfl⟩ | ⟨rfl, rfl⟩⟩ := h
  · have hx := (crossed_next c a i).mp he
    have hm := crossed_mixed he
    have hm' := crossed_mixed hx
    obtain ⟨S, hS, T, hT, iS, iT, hn⟩ := face_link (o := o) hr he (hcov _ hm) (hcov _ hm') (hf _ hm)
    refine ⟨next c a, hx, pt_next c a i he, ?_, T, hT, iT⟩
    intro A hA B hB eA eB
    refine (chain_cell hr (hcov _ hm) (hf _ hm) hA hS eA iS).trans (ReflTransGen.head hn ?_)
    rw [pt_next c a i he]
    exact chain_cell hr (hcov _ hm') (hf _ hm') hT hB iT eB
  · obtain ⟨d, rfl⟩ := prev_next c a
    have hx := (crossed_next d a i).mpr he
    have hm := crossed_mixed he
    have hm' := crossed_mixed hx
    obtain ⟨S, hS, T, hT, iS, iT, hn⟩ := face_link (o := o) hr hx (hcov _ hm') (hcov _ hm) (hf _ hm')
    refine ⟨d, hx, (pt_next d a i hx).symm, ?_, S, hS, iS⟩
    intro A hA B hB eA eB
    have h1 := chain_cell (o := o) hr (hcov _ hm) (hf _ hm) hA hT eA iT
    refine h1.trans ?_
    rw [← pt_next d a i hx]
    exact ReflTransGen.head (EdgeNeighbours.symm hn) (chain_cell hr (hcov _ hm') (hf _ hm') hS hB iS eB)

/-- The triangles around a vertex of the mesh form a single fan. -/
theorem grid_fans (hr : 0 < r) {cells : List (ℤ × ℤ × ℤ)} (hcov : ∀ c, Mixed (cellCorners v c) 0 → c ∈ cells)
    (hf : ∀ c, Mixed (cellCorners v c) 0 → Far v c) (P : V3) (t u : Tri) (ht : t ∈ gmesh o r v cells) (hu : u ∈ gmesh o r v cells)
    (tP : t.At P) (uP : u.At P) : Chain o r v cells P t u := by
  obtain ⟨c, hc, S, hS, rfl⟩ := mem_mesh.mp ht
  obtain ⟨c', hc', T, hT, rfl⟩ := mem_mesh.mp hu
  obtain ⟨e, eS, hP⟩ := gtri_at.mp tP
  obtain ⟨e', eT, hP'⟩ := gtri_at.mp uP
  have ce := row_crossed hS eS
  have ce' := row_crossed hT eT
  have uniq : ∀ d f, Crossed v d f → gpt o r v d f = P → 2 * d.1 + ((mid f).1 : ℤ) = 2 * c'.1 + (mid e').1
      ∧ 2 * d.2.1 + ((mid f).2.1 : ℤ) = 2 * c'.2.1 + (mid e').2.1 ∧ 2 * d.2.2 + ((mid f).2.2 : ℤ) = 2 * c'.2.2 + (mid e').2.2 := by
    intro d f hd h
    have k1 := key_pt (o := o) hr d (hf _ (crossed_mixed hd)) f hd
    have k2 := key_pt (o := o) hr c' (hf _ (crossed_mixed ce')) e' ce'
    rw [h] at k1
    rw [← hP'] at k2
    omega
  have same : ∀ d, Crossed v d e' → gpt o r v d e' = P → d = c' := by
    intro d hd h
    have := uniq d e' hd h
    ext <;> omega
  have hk := uniq c e ce hP.symm
  subst hP
  rcases around e e' (by omega) (by omega) (by omega) with rfl | h | ⟨f, h1, h2⟩
  · obtain rfl := same c ce rfl
    exact chain_cell hr hc (hf _ (crossed_mixed ce)) hS hT eS eT
  · obtain ⟨d, hd, hp, hj, -⟩ := across_joined (o := o) hr hcov hf c e e' ce h
    obtain rfl := same d hd hp.symm
    exact hj S hS T hT eS eT
  · obtain ⟨d, hd, hp, hj, B, hB, fB⟩ := across_joined (o := o) hr hcov hf c e f ce h1
    obtain ⟨d', hd', hp', hj', -⟩ := across_joined (o := o) hr hcov hf d f e' hd h2
    obtain rfl := same d' hd' (by rw [← hp', ← hp])
    refine (hj S hS B hB eS fB).trans ?_
    rw [hp]
    exact hj' B hB T hT fB eT

end grid

end Sdf.MC
