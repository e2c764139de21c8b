import Verif.Lemmas.MCTable
import Verif.Spec.Mesh

/-! Helper lemmas: signed edge counts of the triangles of one cell, face by face. -/

namespace Sdf.MC

open Classical

/-- Interpolated point on every cell edge (flagged or not). -/
noncomputable def ptsAll (p : Fin 8 → V3) (v : Fin 8 → ℝ) (x : ℝ) : Fin 12 → V3 := fun i =>
  interpolate (p (pairTable i).1) (p (pairTable i).2) (v (pairTable i).1) (v (pairTable i).2) x

/-- An edge is used by a triangle of the pattern only if its ends have different signs. -/
theorem tri_edge_sign (b : Fin 8 → Bool) (e : Fin 12) (he : e ∈ triangleTable.getD (bitsToNat b) []) :
    b (pairTable e).1 ≠ b (pairTable e).2 := by
  have h := forall_bits (P := fun b => (triangleTable.getD (bitsToNat b) []).all
      (fun e => Bool.xor (b (pairTable e).1) (b (pairTable e).2)) = true) tri_edges_table b
  have := List.all_eq_true.mp h e he
  intro h'
  rw [h'] at this
  simp at this

theorem edge_flag (b : Fin 8 → Bool) (e : Fin 12) :
    edgeTable.getD (bitsToNat b) 0 &&& (1 <<< (e : Nat)) ≠ 0 ↔ b (pairTable e).1 ≠ b (pairTable e).2 := by
  have h := forall_bits (P := fun b => ∀ e : Fin 12,
      Nat.beq (edgeTable.getD (bitsToNat b) 0 &&& (1 <<< (e : Nat))) 0
      = Bool.not (Bool.xor (b (pairTable e).1) (b (pairTable e).2))) edge_flag_table b e
  constructor
  · intro h1 h2
    rw [h2] at h
    simp only [Bool.xor_self, Bool.not_false] at h
    exact h1 (Nat.eq_of_beq_eq_true h)
  · intro h1 h2
    rw [h2] at h
    have : Bool.xor (b (pairTable e).1) (b (pairTable e).2) = true := by
      cases hb : b (pairTable e).1 <;> cases hc : b (pairTable e).2 <;> simp_all
    rw [this] at h
    simp at h

theorem triples_mem {α : Type} : ∀ (l : List α) (t : α × α × α), t ∈ triples l → t.1 ∈ l ∧ t.2.1 ∈ l ∧ t.2.2 ∈ l
  | [], t, h => by simp [triples] at h
  | [_], t, h => by simp [triples] at h
  | [_, _], t, h => by simp [triples] at h
  | a :: b :: c :: r, t, h => by
    simp only [triples, List.mem_cons] at h
    rcases h with h | h
    · subst h; simp
    · have := triples_mem r t h
      simp only [List.mem_cons]; tauto

theorem triples_length {α : Type} : ∀ l : List α, (triples l).length = l.length / 3
  | [] => by simp [triples]
  | [_] => by simp [triples]
  | [_, _] => by simp [triples]
  | a :: b :: c :: r => by
    simp only [triples, List.length_cons]
    rw [triples_length r]; omega

theorem len_facts (b : Fin 8 → Bool) :
    (triangleTable.getD (bitsToNat b) []).length ≤ 15
    ∧ (triangleTable.getD (bitsToNat b) []).length % 3 = 0
    ∧ ((triangleTable.getD (bitsToNat b) []) = [] ↔ ((∀ i, b i = true) ∨ (∀ i, b i = false)))
    ∧ (edgeTable.getD (bitsToNat b) 0 = 0 ↔ ((∀ i, b i = true) ∨ (∀ i, b i = false))) := by
  obtain ⟨h1, h2, h3, h4⟩ := forall_bits (P := fun b =>
    Nat.ble (triangleTable.getD (bitsToNat b) []).length 15 = true
    ∧ (Nat.beq ((triangleTable.getD (bitsToNat b) []).length % 3) 0 = true)
    ∧ (Nat.beq (triangleTable.getD (bitsToNat b) []).length 0
        = (Bool.and (b 0) (b 1 && b 2 && b 3 && b 4 && b 5 && b 6 && b 7)
           || !(b 0 || b 1 || b 2 || b 3 || b 4 || b 5 || b 6 || b 7)))
    ∧ (Nat.beq (edgeTable.getD (bitsToNat b) 0) 0
        = (Bool.and (b 0) (b 1 && b 2 && b 3 && b 4 && b 5 && b 6 && b 7)
           || !(b 0 || b 1 || b 2 || b 3 || b 4 || b 5 || b 6 || b 7)))) tri_len_table b
  have key : ((∀ i, b i = true) ∨ (∀ i, b i = false)) ↔
      (Bool.and (b 0) (b 1 && b 2 && b 3 && b 4 && b 5 && b 6 && b 7)
           || !(b 0 || b 1 || b 2 || b 3 || b 4 || b 5 || b 6 || b 7)) = true := by
    simp [Fin.forall_fin_succ, and_assoc]
  refine ⟨Nat.le_of_ble_eq_true h1, Nat.eq_of_beq_eq_true h2, ?_, ?_⟩
  · rw [key, ← h3, ← List.length_eq_zero_iff]
    exact ⟨fun h => by rw [h]; rfl, fun h => Nat.eq_of_beq_eq_true h⟩
  · rw [key, ← h4]
    exact ⟨fun h => by rw [h]; rfl, fun h => Nat.eq_of_beq_eq_true h⟩

/-- The emitted triangles, without the edge-table detour. -/
theorem rawTriangles_eq (p : Fin 8 → V3) (v : Fin 8 → ℝ) (x : ℝ) :
    rawTriangles p v x = (triples (triangleTable.getD (bitsToNat (neg v x)) [])).map fun t =>
      ⟨ptsAll p v x t.2.2, ptsAll p v x t.2.1, ptsAll p v x t.1⟩ := by
  unfold rawTriangles
  rw [index_eq]
  obtain ⟨_, _, h3, h4⟩ := len_facts (neg v x)
  split
  · rename_i h
    rw [h3.mpr (h4.mp h)]; rfl
  · apply List.map_congr_left
    intro t ht
    have hm := triples_mem _ _ ht
    have hp : ∀ e ∈ triangleTable.getD (bitsToNat (neg v x)) [], points p v x e = ptsAll p v x e := by
      intro e he
      have := (edge_flag (neg v x) e).mpr (tri_edge_sign _ e he)
      unfold points ptsAll
      rw [index_eq]
      simp only [this, if_true, ne_eq, not_false_eq_true]
    simp only [hp _ hm.1, hp _ hm.2.1, hp _ hm.2.2]

/-- signed count of a directed pair in a list of directed pairs -/
noncomputable def sc {α : Type} (l : List (α × α)) (P Q : α) : ℤ := (l.count (P, Q) : ℤ) - l.count (Q, P)

theorem sc_append {α : Type} (l m : List (α × α)) (P Q : α) : sc (l ++ m) P Q = sc l P Q + sc m P Q := by
  unfold sc; rw [List.count_append, List.count_append]; push_cast; ring

theorem sc_nil {α : Type} (P Q : α) : sc ([] : List (α × α)) P Q = 0 := by simp [sc]

theorem count_swap {α : Type} [BEq (α × α)] [LawfulBEq (α × α)] (l : List (α × α)) (P Q : α) : (swapP l).count (P, Q) = l.count (Q, P) := by
  unfold swapP
  have := List.count_map_of_injective l Prod.swap Prod.swap_injective (Q, P)
  simpa using this

theorem sc_swap {α : Type} (l : List (α × α)) (P Q : α) : sc (swapP l) P Q = - sc l P Q := by
  unfold sc; rw [count_swap, count_swap]; ring

theorem mapP_swap {α β : Type} (g : α → β) (l : List (α × α)) : mapP g (swapP l) = swapP (mapP g l) := by
  unfold mapP swapP; simp [List.map_map, Function.comp_def]

theorem mapP_append {α β : Type} (g : α → β) (l m : List (α × α)) : mapP g (l ++ m) = mapP g l ++ mapP g m := by
  unfold mapP; simp

theorem countP_code (l : List (Fin 12 × Fin 12)) (e : Fin 12 × Fin 12) :
    (l.map code).countP (Nat.beq (code e)) = l.count e := by
  rw [List.countP_map, List.count]
  congr 1
  funext a
  simp only [Function.comp]
  by_cases h : a = e
  · subst h; simp
  · have : code e ≠ code a := fun h' => h (code_inj h').symm
    rw [Bool.eq_iff_iff]
    simp only [beq_iff_eq]
    constructor
    · intro h'; exact absurd (Nat.eq_of_beq_eq_true h') this
    · intro h'; exact absurd h' h

theorem balanced_perm (l : List (Fin 12 × Fin 12)) (h : balanced l = true) : l.Perm (swapP l) := by
  rw [List.perm_iff_count]
  rintro ⟨e, f⟩
  rw [count_swap]
  have h' : ∀ a ∈ l, l.count a = l.count a.swap := by
    intro a ha
    have := List.all_eq_true.mp h a ha
    have := Nat.eq_of_beq_eq_true this
    rwa [countP_code, countP_code] at this
  by_cases h1 : (e, f) ∈ l
  · exact h' _ h1
  · by_cases h2 : (f, e) ∈ l
    · exact (h' _ h2).symm
    · rw [List.count_eq_zero_of_not_mem h1, List.count_eq_zero_of_not_mem h2]

theorem sc_of_balanced {β : Type} (g : Fin 12 → β) (l : List (Fin 12 × Fin 12)) (h : balanced l = true) (P Q : β) :
    sc (mapP g l) P Q = 0 := by
  have hp : (mapP g l).Perm (swapP (mapP g l)) := by
    rw [← mapP_swap]; exact (balanced_perm l h).map _
  have := hp.count_eq (P, Q)
  rw [count_swap] at this
  unfold sc; rw [this]; ring

theorem mapP_comp {α β γ : Type} (g : β → γ) (f : α → β) (l : List (α × α)) :
    mapP g (mapP f l) = mapP (g ∘ f) l := by
  unfold mapP; simp [List.map_map, Function.comp_def]

theorem interpolate_symm (p1 p2 : V3) (v1 v2 x : ℝ) (h : v1 ≠ v2) :
    interpolate p1 p2 v1 v2 x = interpolate p2 p1 v2 v1 x := by
  unfold interpolate
  by_cases h1 : |x - v1| < epsilon <;> by_cases h2 : |x - v2| < epsilon <;> simp only [h1, h2, not_true, not_false_eq_true, and_true, and_false, if_true, if_false, and_self]
  · ext <;> simp <;> ring
  · have ha : v2 - v1 ≠ 0 := sub_ne_zero.mpr (Ne.symm h)
    have hb : v1 - v2 ≠ 0 := sub_ne_zero.mpr h
    have e : (x - v2) / (v1 - v2) = 1 - (x - v1) / (v2 - v1) := by
      field_simp; rw [show v1 - v2 = -(v2 - v1) by ring]; field_simp; ring
    rw [e]
    ext <;> simp <;> ring

/-- Signed edge contribution of one face with corner positions `p0..p3` and values `v0..v3` in cyclic order. -/
noncomputable def faceChain (p0 p1 p2 p3 : V3) (v0 v1 v2 v3 x : ℝ) (P Q : V3) : ℤ :=
  sc (mapP ![interpolate p0 p1 v0 v1 x, interpolate p1 p2 v1 v2 x, interpolate p2 p3 v2 v3 x,
      interpolate p3 p0 v3 v0 x]
    (seg (decide (v0 < x)) (decide (v1 < x)) (decide (v2 < x)) (decide (v3 < x)))) P Q

theorem mapP_congr {α β : Type} {g h : α → β} {l : List (α × α)}
    (H : ∀ e ∈ l, g e.1 = h e.1 ∧ g e.2 = h e.2) : mapP g l = mapP h l := by
  unfold mapP
  apply List.map_congr_left
  intro e he
  rw [(H e he).1, (H e he).2]

/-- segments only use local edges whose ends differ in sign -/
theorem seg_sign : ∀ b0 b1 b2 b3 : Bool, ∀ e ∈ seg b0 b1 b2 b3,
    (![b0, b1, b2, b3] e.1 ≠ ![b1, b2, b3, b0] e.1) ∧ (![b0, b1, b2, b3] e.2 ≠ ![b1, b2, b3, b0] e.2) := by
  decide

/-- Rewrites a face contribution of the cell table into `faceChain`. -/
theorem face_eq (g : Fin 4 → V3) (p0 p1 p2 p3 : V3) (v0 v1 v2 v3 x : ℝ)
    (h0 : g 0 = interpolate p0 p1 v0 v1 x ∨ g 0 = interpolate p1 p0 v1 v0 x)
    (h1 : g 1 = interpolate p1 p2 v1 v2 x ∨ g 1 = interpolate p2 p1 v2 v1 x)
    (h2 : g 2 = interpolate p2 p3 v2 v3 x ∨ g 2 = interpolate p3 p2 v3 v2 x)
    (h3 : g 3 = interpolate p3 p0 v3 v0 x ∨ g 3 = interpolate p0 p3 v0 v3 x) (P Q : V3) :
    sc (mapP g (seg (decide (v0 < x)) (decide (v1 < x)) (decide (v2 < x)) (decide (v3 < x)))) P Q
      = faceChain p0 p1 p2 p3 v0 v1 v2 v3 x P Q := by
  unfold faceChain
  congr 1
  have ne : ∀ {a b : ℝ}, decide (a < x) ≠ decide (b < x) → a ≠ b := by
    intro a b h h'; subst h'; exact h rfl
  have key : ∀ i : Fin 4, (![decide (v0 < x), decide (v1 < x), decide (v2 < x), decide (v3 < x)] i
      ≠ ![decide (v1 < x), decide (v2 < x), decide (v3 < x), decide (v0 < x)] i) →
      g i = ![interpolate p0 p1 v0 v1 x, interpolate p1 p2 v1 v2 x, interpolate p2 p3 v2 v3 x,
      interpolate p3 p0 v3 v0 x] i := by
    intro i hi
    fin_cases i
    · have := ne hi
      rcases h0 with h | h
      · exact h
      · exact h.trans (interpolate_symm _ _ _ _ _ this.symm)
    · have := ne hi
      rcases h1 with h | h
      · exact h
      · exact h.trans (interpolate_symm _ _ _ _ _ this.symm)
    · have := ne hi
      rcases h2 with h | h
      · exact h
      · exact h.trans (interpolate_symm _ _ _ _ _ this.symm)
    · have := ne hi
      rcases h3 with h | h
      · exact h
      · exact h.trans (interpolate_symm _ _ _ _ _ this.symm)
  apply mapP_congr
  intro e he
  have := seg_sign _ _ _ _ e he
  exact ⟨key _ this.1, key _ this.2⟩

theorem edges_raw (p : Fin 8 → V3) (v : Fin 8 → ℝ) (x : ℝ) :
    (rawTriangles p v x).flatMap Tri.edges = mapP (ptsAll p v x) (dirs (bitsToNat (neg v x))) := by
  rw [rawTriangles_eq]
  unfold dirs mapP
  rw [List.map_flatMap, List.flatMap_map]
  rfl

/-- The boundary of a cell's triangles is the signed sum of its six faces' segments. -/
theorem cell_chain (p : Fin 8 → V3) (v : Fin 8 → ℝ) (x : ℝ) (P Q : V3) :
    sc ((rawTriangles p v x).flatMap Tri.edges) P Q
      = faceChain (p 0) (p 3) (p 7) (p 4) (v 0) (v 3) (v 7) (v 4) x P Q
      - faceChain (p 1) (p 2) (p 6) (p 5) (v 1) (v 2) (v 6) (v 5) x P Q
      - faceChain (p 0) (p 1) (p 5) (p 4) (v 0) (v 1) (v 5) (v 4) x P Q
      + faceChain (p 3) (p 2) (p 6) (p 7) (v 3) (v 2) (v 6) (v 7) x P Q
      + faceChain (p 0) (p 1) (p 2) (p 3) (v 0) (v 1) (v 2) (v 3) x P Q
      - faceChain (p 4) (p 5) (p 6) (p 7) (v 4) (v 5) (v 6) (v 7) x P Q := by
  have hb := forall_bits (P := fun b => balanced (boundaryList b) = true) boundary_balanced_table (neg v x)
  have h0 := sc_of_balanced (ptsAll p v x) _ hb P Q
  unfold boundaryList at h0
  simp only [mapP_append, sc_append, mapP_swap, sc_swap, mapP_comp] at h0
  rw [← edges_raw] at h0
  unfold neg at h0
  rw [face_eq (ptsAll p v x ∘ fXm) (p 0) (p 3) (p 7) (p 4)
      (v 0) (v 3) (v 7) (v 4) x (Or.inr rfl) (Or.inl rfl) (Or.inl rfl) (Or.inr rfl),
    face_eq (ptsAll p v x ∘ fXp) (p 1) (p 2) (p 6) (p 5)
      (v 1) (v 2) (v 6) (v 5) x (Or.inl rfl) (Or.inl rfl) (Or.inr rfl) (Or.inr rfl),
    face_eq (ptsAll p v x ∘ fYm) (p 0) (p 1) (p 5) (p 4)
      (v 0) (v 1) (v 5) (v 4) x (Or.inl rfl) (Or.inl rfl) (Or.inr rfl) (Or.inr rfl),
    face_eq (ptsAll p v x ∘ fYp) (p 3) (p 2) (p 6) (p 7)
      (v 3) (v 2) (v 6) (v 7) x (Or.inr rfl) (Or.inl rfl) (Or.inl rfl) (Or.inr rfl),
    face_eq (ptsAll p v x ∘ fZm) (p 0) (p 1) (p 2) (p 3)
      (v 0) (v 1) (v 2) (v 3) x (Or.inl rfl) (Or.inl rfl) (Or.inl rfl) (Or.inl rfl),
    face_eq (ptsAll p v x ∘ fZp) (p 4) (p 5) (p 6) (p 7)
      (v 4) (v 5) (v 6) (v 7) x (Or.inl rfl) (Or.inl rfl) (Or.inl rfl) (Or.inl rfl)] at h0
  linarith

end Sdf.MC
