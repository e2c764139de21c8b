import Verif.Lemmas.MCFanTable
import Verif.Lemmas.MCVolumeGrid
import Verif.Lemmas.MCGrid
import Mathlib.Algebra.Order.Floor.Ring
import Mathlib.Tactic.FinCases

/-! Helper lemmas: the mesh of a grid is a manifold.  A point between two grid vertices determines the grid edge it lies on. -/

namespace Sdf.MC

open Classical

/-- Twice the middle of the grid interval (or grid point) a coordinate lies in. -/
noncomputable def keyc (r c x : ℝ) : ℤ := ⌊(x - c) / r⌋ + ⌈(x - c) / r⌉

theorem keyc_eq {r : ℝ} (hr : 0 < r) (c : ℝ) (i : ℤ) (A B : Bool) (t : ℝ) (h0 : 0 < t) (h1 : t < 1) :
    keyc r c (c + r * i + r * (if A then 1 else 0) + t * (c + r * i + r * (if B then 1 else 0) - (c + r * i + r * (if A then 1 else 0))))
      = 2 * i + ((A.toNat + B.toNat : ℕ) : ℤ) := by
  have key : ∀ (y : ℝ), keyc r c (c + r * y) = ⌊y⌋ + ⌈y⌉ := by
    intro y
    unfold keyc
    have : (c + r * y - c) / r = y := by field_simp; ring
    rw [this]
  have hn : ∀ n : ℤ, ⌊(n : ℝ)⌋ + ⌈(n : ℝ)⌉ = 2 * n := by intro n; simp; ring
  have ht : ∀ u : ℝ, 0 < u → u < 1 → ⌊(i : ℝ) + u⌋ + ⌈(i : ℝ) + u⌉ = 2 * i + 1 := by
    intro u hu hu'
    have e1 : ⌊(i : ℝ) + u⌋ = i := by rw [Int.floor_eq_iff]; constructor <;> linarith
    have e2 : ⌈(i : ℝ) + u⌉ = i + 1 := by rw [Int.ceil_eq_iff]; push_cast; constructor <;> linarith
    rw [e1, e2]; ring
  cases A <;> cases B
  · have : c + r * i + r * (if false = true then 1 else 0) + t * (c + r * i + r * (if false = true then 1 else 0) - (c + r * i + r * (if false = true then 1 else 0)))
      = c + r * (i : ℝ) := by simp
    rw [this, key, hn]; simp
  · have : c + r * i + r * (if false = true then 1 else 0) + t * (c + r * i + r * (if true = true then 1 else 0) - (c + r * i + r * (if false = true then 1 else 0)))
      = c + r * ((i : ℝ) + t) := by simp; ring
    rw [this, key, ht t h0 h1]; simp
  · have : c + r * i + r * (if true = true then 1 else 0) + t * (c + r * i + r * (if false = true then 1 else 0) - (c + r * i + r * (if true = true then 1 else 0)))
      = c + r * ((i : ℝ) + (1 - t)) := by simp; ring
    rw [this, key, ht (1 - t) (by linarith) (by linarith)]; simp
  · have : c + r * i + r * (if true = true then 1 else 0) + t * (c + r * i + r * (if true = true then 1 else 0) - (c + r * i + r * (if true = true then 1 else 0)))
      = c + r * ((i + 1 : ℤ) : ℝ) := by simp; ring
    rw [this, key, hn]; simp; ring

/-- Away from the tolerance, the interpolated point is strictly between the two ends. -/
theorem interpolate_between (p1 p2 : V3) (v1 v2 : ℝ) (h1 : epsilon ≤ |v1|) (h2 : epsilon ≤ |v2|) (h : ¬ (v1 < 0 ↔ v2 < 0)) :
    ∃ t : ℝ, 0 < t ∧ t < 1 ∧ interpolate p1 p2 v1 v2 0
      = ⟨p1.x + t * (p2.x - p1.x), p1.y + t * (p2.y - p1.y), p1.z + t * (p2.z - p1.z)⟩ := by
  have he : (0 : ℝ) < epsilon := by unfold epsilon; norm_num
  have n1 : v1 ≠ 0 := by rintro rfl; simp at h1; linarith
  have n2 : v2 ≠ 0 := by rintro rfl; simp at h2; linarith
  have c1 : ¬ |0 - v1| < epsilon := by rw [zero_sub, abs_neg]; exact not_lt.mpr h1
  have c2 : ¬ |0 - v2| < epsilon := by rw [zero_sub, abs_neg]; exact not_lt.mpr h2
  refine ⟨(0 - v1) / (v2 - v1), ?_, ?_, ?_⟩
  · rcases lt_or_gt_of_ne n1 with g | g
    · have : 0 < v2 := lt_of_le_of_ne (not_lt.mp fun hh => h ⟨fun _ => hh, fun _ => g⟩) (Ne.symm n2)
      exact div_pos (by linarith) (by linarith)
    · have : v2 < 0 := by
        by_contra hh; exact h ⟨fun h' => by linarith, fun h' => absurd h' hh⟩
      exact div_pos_of_neg_of_neg (by linarith) (by linarith)
  · rcases lt_or_gt_of_ne n1 with g | g
    · have : 0 < v2 := lt_of_le_of_ne (not_lt.mp fun hh => h ⟨fun _ => hh, fun _ => g⟩) (Ne.symm n2)
      rw [div_lt_one (by linarith)]; linarith
    · have : v2 < 0 := by
        by_contra hh; exact h ⟨fun h' => by linarith, fun h' => absurd h' hh⟩
      rw [div_lt_one_of_neg (by linarith)]; linarith
  · unfold interpolate
    simp only [c1, c2, false_and, if_false]

section grid

variable (o : V3) (r : ℝ) (v : ℤ → ℤ → ℤ → ℝ)

noncomputable def gpt (c : ℤ × ℤ × ℤ) : Fin 12 → V3 := ptsAll (cellCorners (gridPos o r) c) (cellCorners v c) 0

noncomputable def bits (c : ℤ × ℤ × ℤ) : Fin 8 → Bool := neg (cellCorners v c) 0

/-- No corner of the cell is within the tolerance of the surface. -/
def Far (c : ℤ × ℤ × ℤ) : Prop := ∀ a, epsilon ≤ |cellCorners v c a|

def Crossed (c : ℤ × ℤ × ℤ) (e : Fin 12) : Prop := bits v c (pairTable e).1 ≠ bits v c (pairTable e).2

variable {o r v}

theorem crossed_iff (c : ℤ × ℤ × ℤ) (e : Fin 12) :
    Crossed v c e ↔ ¬ (cellCorners v c (pairTable e).1 < 0 ↔ cellCorners v c (pairTable e).2 < 0) := by
  unfold Crossed bits neg
  simp only [ne_eq, decide_eq_decide]

theorem key_pt (hr : 0 < r) (c : ℤ × ℤ × ℤ) (hf : Far v c) (e : Fin 12) (he : Crossed v c e) :
    keyc r o.x (gpt o r v c e).x = 2 * c.1 + ((mid e).1 : ℤ) ∧ keyc r o.y (gpt o r v c e).y = 2 * c.2.1 + ((mid e).2.1 : ℤ)
      ∧ keyc r o.z (gpt o r v c e).z = 2 * c.2.2 + ((mid e).2.2 : ℤ) := by
  obtain ⟨i, j, k⟩ := c
  obtain ⟨t, h0, h1, h⟩ := interpolate_between (cellCorners (gridPos o r) (i, j, k) (pairTable e).1) (cellCorners (gridPos o r) (i, j, k) (pairTable e).2)
    _ _ (hf (pairTable e).1) (hf (pairTable e).2) ((crossed_iff _ e).mp he)
  unfold gpt ptsAll
  rw [h, cellCorners_grid]
  exact ⟨keyc_eq hr _ _ _ _ t h0 h1, keyc_eq hr _ _ _ _ t h0 h1, keyc_eq hr _ _ _ _ t h0 h1⟩

/-- Two edges of a cell do not have the same point. -/
theorem pt_inj (hr : 0 < r) (c : ℤ × ℤ × ℤ) (hf : Far v c) (e f : Fin 12) (he : Crossed v c e) (hf' : Crossed v c f)
    (h : gpt o r v c e = gpt o r v c f) : e = f := by
  have h1 := key_pt (o := o) hr c hf e he
  have h2 := key_pt (o := o) hr c hf f hf'
  rw [h] at h1
  apply mid_inj
  ext <;> omega

def next (c : ℤ × ℤ × ℤ) (a : Fin 3) : ℤ × ℤ × ℤ := (c.1 + (unit a).1, c.2.1 + (unit a).2.1, c.2.2 + (unit a).2.2)

theorem corner_next {α : Type} (g : ℤ → ℤ → ℤ → α) (c : ℤ × ℤ × ℤ) (a : Fin 3) (i : Fin 4) :
    cellCorners g c (upc a i) = cellCorners g (next c a) (dnc a i) := by
  obtain ⟨x, y, z⟩ := c
  fin_cases a <;> fin_cases i <;> simp [cellCorners, upc, dnc, next, unit]

theorem bits_next (c : ℤ × ℤ × ℤ) (a : Fin 3) : (fun q => bits v c (upc a q)) = fun q => bits v (next c a) (dnc a q) := by
  funext q
  unfold bits neg
  rw [corner_next]

theorem crossed_next (c : ℤ × ℤ × ℤ) (a : Fin 3) (i : Fin 4) : Crossed v c (up a i) ↔ Crossed v (next c a) (dn a i) := by
  have hb : ∀ q, bits v c (upc a q) = bits v (next c a) (dnc a q) := fun q => congrFun (bits_next (v := v) c a) q
  unfold Crossed
  rcases up_ends a i with h | h <;> rcases dn_ends a i with h' | h' <;> rw [h, h'] <;> simp only [hb, ne_comm]

theorem pt_next (c : ℤ × ℤ × ℤ) (a : Fin 3) (i : Fin 4) (hc : Crossed v c (up a i)) :
    gpt o r v c (up a i) = gpt o r v (next c a) (dn a i) := by
  have hne : cellCorners v c (pairTable (up a i)).1 ≠ cellCorners v c (pairTable (up a i)).2 := by
    intro h
    rw [crossed_iff, h] at hc
    exact hc Iff.rfl
  unfold gpt ptsAll
  rcases up_ends a i with h | h <;> rcases dn_ends a i with h' | h' <;> rw [h] at hne ⊢ <;> rw [h'] <;> simp only [← corner_next]
  · exact interpolate_symm _ _ _ _ _ hne
  · exact interpolate_symm _ _ _ _ _ hne

theorem cell_edges (c : ℤ × ℤ × ℤ) :
    (rawTriangles (cellCorners (gridPos o r) c) (cellCorners v c) 0).flatMap Tri.edges = mapP (gpt o r v c) (dirs (bitsToNat (bits v c))) :=
  edges_raw _ _ _

theorem dirs_crossed (c : ℤ × ℤ × ℤ) (e : Fin 12 × Fin 12) (he : e ∈ dirs (bitsToNat (bits v c))) : Crossed v c e.1 ∧ Crossed v c e.2 := by
  unfold dirs at he
  obtain ⟨t, ht, he⟩ := List.mem_flatMap.mp he
  obtain ⟨h1, h2, h3⟩ := triples_mem _ _ ht
  have := tri_edge_sign _ _ h1
  have := tri_edge_sign _ _ h2
  have := tri_edge_sign _ _ h3
  simp only [List.mem_cons, List.not_mem_nil, or_false] at he
  unfold Crossed
  rcases he with rfl | rfl | rfl <;> constructor <;> assumption

theorem dirs_ne_table : ∀ b0 b1 b2 b3 b4 b5 b6 b7 : Bool,
    (dirs (bitsToNat ![b0, b1, b2, b3, b4, b5, b6, b7])).all (fun e => !Nat.beq e.1.val e.2.val) = true := by decide +kernel

theorem dirs_ne (b : Fin 8 → Bool) (e : Fin 12) : (e, e) ∉ dirs (bitsToNat b) := by
  intro h
  have := List.all_eq_true.mp (forall_bits (P := fun b => (dirs (bitsToNat b)).all (fun e => !Nat.beq e.1.val e.2.val) = true) dirs_ne_table b) _ h
  simp at this

/-- Two different cells have no directed edge in common. -/
theorem cells_disjoint (hr : 0 < r) (c c' : ℤ × ℤ × ℤ) (hne : c ≠ c') (hf : Far v c) (hf' : Far v c') :
    List.Disjoint ((rawTriangles (cellCorners (gridPos o r) c) (cellCorners v c) 0).flatMap Tri.edges)
      ((rawTriangles (cellCorners (gridPos o r) c') (cellCorners v c') 0).flatMap Tri.edges) := by
  rw [cell_edges, cell_edges]
  rintro ⟨P, Q⟩ h h'
  obtain ⟨⟨e, f⟩, hm, hPQ⟩ := List.mem_map.mp h
  obtain ⟨⟨e', f'⟩, hm', hPQ'⟩ := List.mem_map.mp h'
  obtain ⟨ce, cf⟩ := dirs_crossed c _ hm
  obtain ⟨ce', cf'⟩ := dirs_crossed c' _ hm'
  simp only [Prod.mk.injEq] at hPQ hPQ' ce cf ce' cf'
  have k1 := key_pt (o := o) hr c hf e ce
  have k2 := key_pt (o := o) hr c hf f cf
  have k3 := key_pt (o := o) hr c' hf' e' ce'
  have k4 := key_pt (o := o) hr c' hf' f' cf'
  rw [hPQ.1] at k1
  rw [hPQ.2] at k2
  rw [hPQ'.1] at k3
  rw [hPQ'.2] at k4
  have hef : e ≠ f := by rintro rfl; exact dirs_ne _ e hm
  obtain ⟨a, i, j, h⟩ := two_edges e f e' f' hef (c'.1 - c.1) (c'.2.1 - c.2.1) (c'.2.2 - c.2.2) (by
      rintro ⟨h1, h2, h3⟩
      apply hne
      ext <;> omega)
    (by omega) (by omega) (by omega) (by omega) (by omega) (by omega)
  have hu := mid_up a i
  simp only [Prod.mk.injEq] at hu
  rcases h with ⟨rfl, rfl, rfl, rfl⟩ | ⟨rfl, rfl, rfl, rfl⟩
  · have hc : c' = next c a := by unfold next; ext <;> simp only <;> omega
    subst hc
    rw [face_up, bits_next] at hm
    rw [face_dn] at hm'
    have := side_antisymm _ _ _ _ hm
    revert this hm'
    fin_cases a <;> simp
  · have hc : c = next c' a := by unfold next; ext <;> simp only <;> omega
    subst hc
    rw [face_up, bits_next] at hm'
    rw [face_dn] at hm
    have := side_antisymm _ _ _ _ hm'
    revert this hm
    fin_cases a <;> simp

/-- No directed edge occurs twice in the mesh of a grid. -/
theorem grid_edges_nodup (hr : 0 < r) (cells : List (ℤ × ℤ × ℤ)) (hnd : cells.Nodup) (hf : ∀ c ∈ cells, Mixed (cellCorners v c) 0 → Far v c) :
    ((cells.flatMap fun c => rawTriangles (cellCorners (gridPos o r) c) (cellCorners v c) 0).flatMap Tri.edges).Nodup := by
  have hempty : ∀ c, ¬ Mixed (cellCorners v c) 0 → rawTriangles (cellCorners (gridPos o r) c) (cellCorners v c) 0 = [] :=
    fun c h => raw_nil_of_not_mixed _ _ _ h
  rw [List.flatMap_assoc, List.nodup_flatMap]
  constructor
  · intro c hc
    by_cases hm : Mixed (cellCorners v c) 0
    · rw [cell_edges]
      refine (dirs_nodup (bits v c)).map_on ?_
      rintro ⟨e, f⟩ he ⟨e', f'⟩ he' h
      simp only [Prod.mk.injEq] at h
      have h1 := dirs_crossed c _ he
      have h2 := dirs_crossed c _ he'
      rw [pt_inj hr c (hf c hc hm) e e' h1.1 h2.1 h.1, pt_inj hr c (hf c hc hm) f f' h1.2 h2.2 h.2]
    · rw [hempty c hm]; simp
  · refine hnd.imp_of_mem ?_
    intro c c' hc hc' hne
    by_cases hm : Mixed (cellCorners v c) 0
    · by_cases hm' : Mixed (cellCorners v c') 0
      · exact cells_disjoint hr c c' hne (hf c hc hm) (hf c' hc' hm')
      · simp [Function.onFun, hempty c' hm']
    · simp [Function.onFun, hempty c hm]

end grid

end Sdf.MC
