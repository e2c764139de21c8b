import Verif.Lemmas.MCVolume
import Verif.Lemmas.MCGrid
import Mathlib.Data.Set.Card

/-! Helper lemmas: the volume enclosed by the triangles of all cells of a grid of cubes. -/

namespace Sdf.MC

open Classical

/-- How far along an edge the interpolated vertex is. -/
noncomputable def interpT (v1 v2 x : ℝ) : ℝ :=
  if |x - v1| < epsilon ∧ ¬ |x - v2| < epsilon then 0
  else if |x - v2| < epsilon ∧ ¬ |x - v1| < epsilon then 1
  else if |x - v1| < epsilon ∧ |x - v2| < epsilon then 0.5 else (x - v1) / (v2 - v1)

theorem interpolate_T (p1 p2 : V3) (v1 v2 x : ℝ) : interpolate p1 p2 v1 v2 x
    = ⟨p1.x + interpT v1 v2 x * (p2.x - p1.x), p1.y + interpT v1 v2 x * (p2.y - p1.y), p1.z + interpT v1 v2 x * (p2.z - p1.z)⟩ := by
  unfold interpolate interpT
  simp only
  split_ifs <;> ext <;> simp

theorem interpT_range {v1 v2 x : ℝ} (h : (v1 < x) ≠ (v2 < x)) : 0 ≤ interpT v1 v2 x ∧ interpT v1 v2 x ≤ 1 := by
  unfold interpT
  split_ifs
  · norm_num
  · norm_num
  · norm_num
  · by_cases h1 : v1 < x
    · have h2 : x ≤ v2 := by
        by_contra hc
        exact h (by simp [h1, not_le.mp hc])
      have : 0 < v2 - v1 := by linarith
      exact ⟨div_nonneg (by linarith) this.le, (div_le_one this).mpr (by linarith)⟩
    · have h2 : v2 < x := by
        by_contra hc
        exact h (by simp [h1, hc])
      have : v2 - v1 < 0 := by linarith
      refine ⟨div_nonneg_of_nonpos (by linarith) this.le, ?_⟩
      rw [div_le_one_of_neg this]
      linarith

/-- The same, 0 on edges without a sign change. -/
noncomputable def place (v1 v2 x : ℝ) : ℝ := if (v1 < x) ≠ (v2 < x) then interpT v1 v2 x else 0

theorem place_range (v1 v2 x : ℝ) : 0 ≤ place v1 v2 x ∧ place v1 v2 x ≤ 1 := by
  unfold place
  split_ifs with h
  · exact interpT_range h
  · norm_num

theorem ends_pair (e : Fin 12) : ends e = pairTable e ∨ ends e = (pairTable e).swap := by
  revert e; decide

noncomputable def cellU (v : Fin 8 → ℝ) (x : ℝ) (e : Fin 12) : ℝ := place (v (ends e).1) (v (ends e).2) x

/-- Corners of an axis-parallel cube. -/
def cube (o : V3) (r : ℝ) (i : Fin 8) : V3 :=
  ⟨o.x + r * (if (cornerOffset i).1 then 1 else 0), o.y + r * (if (cornerOffset i).2.1 then 1 else 0),
    o.z + r * (if (cornerOffset i).2.2 then 1 else 0)⟩

def place3 (o : V3) (r : ℝ) (q : V3) : V3 := ⟨o.x + r * q.x, o.y + r * q.y, o.z + r * q.z⟩

theorem cube_edge (o : V3) (r u : ℝ) (e : Fin 12) :
    (⟨(cube o r (ends e).1).x + u * ((cube o r (ends e).2).x - (cube o r (ends e).1).x),
      (cube o r (ends e).1).y + u * ((cube o r (ends e).2).y - (cube o r (ends e).1).y),
      (cube o r (ends e).1).z + u * ((cube o r (ends e).2).z - (cube o r (ends e).1).z)⟩ : V3) = place3 o r (pt e u) := by
  fin_cases e <;> simp [ends, cube, cornerOffset, place3, pt] <;> ring

theorem ptsAll_cube (o : V3) (r : ℝ) (v : Fin 8 → ℝ) (x : ℝ) (e : Fin 12)
    (h : neg v x (pairTable e).1 ≠ neg v x (pairTable e).2) :
    ptsAll (cube o r) v x e = place3 o r (pt e (cellU v x e)) := by
  have hne : v (pairTable e).1 ≠ v (pairTable e).2 := by
    intro hc
    apply h
    simp [neg, hc]
  have key : ptsAll (cube o r) v x e
      = interpolate (cube o r (ends e).1) (cube o r (ends e).2) (v (ends e).1) (v (ends e).2) x := by
    unfold ptsAll
    rcases ends_pair e with h' | h' <;> rw [h']
    exact interpolate_symm _ _ _ _ _ hne
  have hs : (v (ends e).1 < x) ≠ (v (ends e).2 < x) := by
    intro hc
    apply h
    rcases ends_pair e with h' | h' <;> rw [h'] at hc
    · simpa [neg] using hc
    · simpa [neg, Prod.swap] using hc.symm
  have hu : cellU v x e = interpT (v (ends e).1) (v (ends e).2) x := by
    unfold cellU place
    rw [if_pos hs]
  rw [key, interpolate_T, hu, cube_edge]

theorem under_place (o : V3) (r : ℝ) (a b c : V3) : under (place3 o r a) (place3 o r b) (place3 o r c)
    = r ^ 2 * (3 * o.z) * flat a b c + r ^ 3 * under a b c := by
  unfold under flat place3
  ring

theorem sum_map_combine {α : Type} (f g : α → ℝ) (A B : ℝ) (l : List α) :
    (l.map fun t => A * f t + B * g t).sum = A * (l.map f).sum + B * (l.map g).sum := by
  induction l with
  | nil => simp
  | cons a l ih => simp only [List.map_cons, List.sum_cons, ih]; ring

/-- The triangles of one cube. -/
theorem under_cube (o : V3) (r : ℝ) (v : Fin 8 → ℝ) (x : ℝ) :
    ((rawTriangles (cube o r) v x).map fun t => under t.a t.b t.c).sum
      = r ^ 2 * (3 * o.z) * (bottom (neg v x) (cellU v x) - top (neg v x) (cellU v x))
        + r ^ 3 * underCell (cellU v x) (row (neg v x)) := by
  rw [rawTriangles_eq, List.map_map, ← flat_cell, flatCell, underCell, ← sum_map_combine]
  congr 1
  apply List.map_congr_left
  intro t ht
  have hm := triples_mem _ _ ht
  have h : ∀ e ∈ triangleTable.getD (bitsToNat (neg v x)) [], ptsAll (cube o r) v x e = place3 o r (pt e (cellU v x e)) :=
    fun e he => ptsAll_cube o r v x e (tri_edge_sign _ e he)
  simp only [Function.comp, h _ hm.1, h _ hm.2.1, h _ hm.2.2, under_place]

/-! ### All cells -/

/-- A grid of cubes. -/
def gridPos (o : V3) (r : ℝ) (i j k : ℤ) : V3 := ⟨o.x + r * i, o.y + r * j, o.z + r * k⟩

theorem cellCorners_grid (o : V3) (r : ℝ) (i j k : ℤ) : cellCorners (gridPos o r) (i, j, k) = cube (gridPos o r i j k) r := by
  funext q
  fin_cases q <;> simp [cellCorners, gridPos, cube, cornerOffset] <;> (try constructor) <;> (try constructor) <;> ring

/-- Twice the inside area of a horizontal face of the grid, in units of its side. -/
noncomputable def faceArea (v : ℤ → ℤ → ℤ → ℝ) (x : ℝ) (i j k : ℤ) : ℝ :=
  area (decide (v i j k < x)) (decide (v (i+1) j k < x)) (decide (v (i+1) (j+1) k < x)) (decide (v i (j+1) k < x))
    ![place (v i j k) (v (i+1) j k) x, place (v (i+1) j k) (v (i+1) (j+1) k) x, place (v i (j+1) k) (v (i+1) (j+1) k) x,
      place (v i j k) (v i (j+1) k) x]

theorem bottom_eq (v : ℤ → ℤ → ℤ → ℝ) (x : ℝ) (i j k : ℤ) :
    bottom (neg (cellCorners v (i, j, k)) x) (cellU (cellCorners v (i, j, k)) x) = faceArea v x i j k := by
  unfold bottom faceArea
  congr 1
  funext q
  fin_cases q <;> rfl

theorem top_eq (v : ℤ → ℤ → ℤ → ℝ) (x : ℝ) (i j k : ℤ) :
    top (neg (cellCorners v (i, j, k)) x) (cellU (cellCorners v (i, j, k)) x) = faceArea v x i j (k + 1) := by
  unfold top faceArea
  congr 1
  funext q
  fin_cases q <;> rfl

/-- Six times the volume a cell contributes, in units of its size. -/
noncomputable def weight (v : Fin 8 → ℝ) (x : ℝ) : ℝ := underCell (cellU v x) (row (neg v x)) + 3 * top (neg v x) (cellU v x)

theorem weight_range (v : Fin 8 → ℝ) (x : ℝ) : 0 ≤ weight v x ∧ weight v x ≤ 6 :=
  under_cell _ _ fun _ => place_range _ _ _

theorem row_nil {b : Fin 8 → Bool} (h : (∀ i, b i = true) ∨ ∀ i, b i = false) : row b = [] := by
  unfold row
  rw [((len_facts b).2.2.1).mpr h]
  rfl

theorem weight_out {v : Fin 8 → ℝ} {x : ℝ} (h : ∀ a, x ≤ v a) : weight v x = 0 := by
  have hb : ∀ i, neg v x i = false := fun i => by simp [neg, h i]
  unfold weight
  rw [row_nil (Or.inr hb), top, hb 4, hb 5, hb 6, hb 7]
  simp [underCell, area, sideLen, seg]

theorem weight_in {v : Fin 8 → ℝ} {x : ℝ} (h : ∀ a, v a < x) : weight v x = 6 := by
  have hb : ∀ i, neg v x i = true := fun i => by simp [neg, h i]
  unfold weight
  rw [row_nil (Or.inl hb), top, hb 4, hb 5, hb 6, hb 7]
  simp [underCell, area, sideLen, seg]
  norm_num

theorem under_grid (o : V3) (r : ℝ) (v : ℤ → ℤ → ℤ → ℝ) (x : ℝ) (i j k : ℤ) :
    ((rawTriangles (cellCorners (gridPos o r) (i, j, k)) (cellCorners v (i, j, k)) x).map fun t => under t.a t.b t.c).sum
      = (r ^ 2 * (3 * (o.z + r * k)) * faceArea v x i j k - r ^ 2 * (3 * (o.z + r * (k + 1 : ℤ))) * faceArea v x i j (k + 1))
        + r ^ 3 * weight (cellCorners v (i, j, k)) x := by
  rw [cellCorners_grid, under_cube, weight, bottom_eq, top_eq]
  simp only [gridPos]
  push_cast
  ring

theorem sum_Ico_teleR (F : ℤ → ℝ) (L : ℤ) (n : ℕ) :
    ∑ i ∈ Finset.Ico L (L + n), (F i - F (i + 1)) = F L - F (L + n) := by
  induction n with
  | zero => simp
  | succ n ih =>
    have e : L + ((n + 1 : ℕ) : ℤ) = (L + n) + 1 := by push_cast; ring
    have : Finset.Ico L (L + ((n + 1 : ℕ) : ℤ)) = insert (L + n) (Finset.Ico L (L + n)) := by
      ext y; simp only [Finset.mem_Ico, Finset.mem_insert]; push_cast; omega
    rw [this, Finset.sum_insert (by simp), ih, e]; ring

theorem faceArea_out {v : ℤ → ℤ → ℤ → ℝ} {x : ℝ} {i j k : ℤ} (h : ∀ i j, x ≤ v i j k) : faceArea v x i j k = 0 := by
  unfold faceArea
  simp only [not_lt.mpr (h _ _), decide_false]
  simp [area, sideLen, seg]

/-- The sum over a box of cells. -/
theorem under_box (o : V3) (r : ℝ) (v : ℤ → ℤ → ℤ → ℝ) (x : ℝ) (L : ℤ) (n : ℕ)
    (hb : ∀ i j k, (k ≤ L ∨ L + n ≤ k) → x ≤ v i j k) :
    ∑ i ∈ Finset.Ico L (L + n), ∑ j ∈ Finset.Ico L (L + n), ∑ k ∈ Finset.Ico L (L + n),
      ((rawTriangles (cellCorners (gridPos o r) (i, j, k)) (cellCorners v (i, j, k)) x).map fun t => under t.a t.b t.c).sum
      = r ^ 3 * ∑ i ∈ Finset.Ico L (L + n), ∑ j ∈ Finset.Ico L (L + n), ∑ k ∈ Finset.Ico L (L + n), weight (cellCorners v (i, j, k)) x := by
  rw [Finset.mul_sum]
  apply Finset.sum_congr rfl
  intro i _
  rw [Finset.mul_sum]
  apply Finset.sum_congr rfl
  intro j _
  rw [Finset.mul_sum]
  simp only [under_grid, Finset.sum_add_distrib]
  rw [sum_Ico_teleR (fun k => r ^ 2 * (3 * (o.z + r * k)) * faceArea v x i j k), faceArea_out (fun i j => hb i j L (Or.inl le_rfl)),
    faceArea_out (fun i j => hb i j (L + n) (Or.inr le_rfl))]
  ring

/-- Cells with all corners inside, and cells with some corner inside. -/
def allIn (v : ℤ → ℤ → ℤ → ℝ) (x : ℝ) : Set (ℤ × ℤ × ℤ) := {c | ∀ a, cellCorners v c a < x}
def someIn (v : ℤ → ℤ → ℤ → ℝ) (x : ℝ) : Set (ℤ × ℤ × ℤ) := {c | ∃ a, cellCorners v c a < x}

theorem cells_under (o : V3) {r : ℝ} (hr : 0 < r) (v : ℤ → ℤ → ℤ → ℝ) (x : ℝ)
    (hfin : {c : ℤ × ℤ × ℤ | v c.1 c.2.1 c.2.2 < x}.Finite)
    (cells : List (ℤ × ℤ × ℤ)) (hnd : cells.Nodup)
    (hcov : ∀ c, Mixed (cellCorners v c) x → c ∈ cells) :
    (someIn v x).Finite ∧
    6 * (r ^ 3 * (allIn v x).ncard)
      ≤ ((cells.flatMap fun c => rawTriangles (cellCorners (gridPos o r) c) (cellCorners v c) x).map fun t => under t.a t.b t.c).sum
    ∧ ((cells.flatMap fun c => rawTriangles (cellCorners (gridPos o r) c) (cellCorners v c) x).map fun t => under t.a t.b t.c).sum
      ≤ 6 * (r ^ 3 * (someIn v x).ncard) := by
  obtain ⟨M, hM⟩ : ∃ M : ℕ, (∀ i j k, v i j k < x → |i| ≤ M ∧ |j| ≤ M ∧ |k| ≤ M)
      ∧ (∀ c ∈ cells, |c.1| ≤ M ∧ |c.2.1| ≤ M ∧ |c.2.2| ≤ M) := by
    let S : Finset (ℤ × ℤ × ℤ) := hfin.toFinset ∪ cells.toFinset
    let b : (ℤ × ℤ × ℤ) → ℕ := fun c => c.1.natAbs + c.2.1.natAbs + c.2.2.natAbs
    refine ⟨S.sup b, ?_, ?_⟩
    · intro i j k h
      have hm : (i, j, k) ∈ S := by
        simp only [S, Finset.mem_union, Set.Finite.mem_toFinset, Set.mem_ofPred_eq]; left; exact h
      have := Finset.le_sup (f := b) hm
      simp only [b, abs_le] at this ⊢
      refine ⟨?_, ?_, ?_⟩ <;> omega
    · intro c h
      have hm : c ∈ S := by simp [S, h]
      have := Finset.le_sup (f := b) hm
      simp only [b, abs_le] at this ⊢
      refine ⟨?_, ?_, ?_⟩ <;> omega
  set f : ℤ × ℤ × ℤ → ℝ := fun c =>
    ((rawTriangles (cellCorners (gridPos o r) c) (cellCorners v c) x).map fun t => under t.a t.b t.c).sum with hf
  have e1 : ((cells.flatMap fun c => rawTriangles (cellCorners (gridPos o r) c) (cellCorners v c) x).map fun t => under t.a t.b t.c).sum
      = ∑ c ∈ cells.toFinset, f c := by
    rw [List.sum_toFinset _ hnd, List.map_flatMap]
    clear hnd hcov hM
    induction cells with
    | nil => simp
    | cons a l ih => rw [List.flatMap_cons, List.sum_append, ih, List.map_cons, List.sum_cons]
  let L : ℤ := -(M : ℤ) - 1
  let n : ℕ := 2 * M + 2
  let B : Finset (ℤ × ℤ × ℤ) := Finset.Ico L (L + n) ×ˢ (Finset.Ico L (L + n) ×ˢ Finset.Ico L (L + n))
  have hsub : cells.toFinset ⊆ B := by
    intro c hc
    have := hM.2 c (List.mem_toFinset.mp hc)
    simp only [B, Finset.mem_product, Finset.mem_Ico, L, n, abs_le] at this ⊢
    push_cast
    omega
  have e2 : ∑ c ∈ cells.toFinset, f c = ∑ c ∈ B, f c := by
    apply Finset.sum_subset hsub
    intro c _ hc
    have hnm : ¬ Mixed (cellCorners v c) x := fun h => hc (List.mem_toFinset.mpr (hcov c h))
    simp only [hf, raw_nil_of_not_mixed _ _ _ hnm, List.map_nil, List.sum_nil]
  have e3 : ∑ c ∈ B, f c = r ^ 3 * ∑ c ∈ B, weight (cellCorners v c) x := by
    simp only [B, Finset.sum_product]
    apply under_box
    intro i j k h
    by_contra hlt
    have := hM.1 i j k (not_le.mp hlt)
    simp only [L, n, abs_le] at this h
    push_cast at h
    omega
  -- cells with a corner inside are in the box
  have hB : someIn v x ⊆ (B : Set (ℤ × ℤ × ℤ)) := by
    rintro ⟨i, j, k⟩ ⟨a, ha⟩
    have key : ∀ i' j' k' : ℤ, v i' j' k' < x → i' - 1 ≤ i → i ≤ i' → j' - 1 ≤ j → j ≤ j' → k' - 1 ≤ k → k ≤ k' → (i, j, k) ∈ B := by
      intro i' j' k' h h1 h2 h3 h4 h5 h6
      have := hM.1 i' j' k' h
      simp only [B, Finset.mem_product, Finset.mem_Ico, L, n, abs_le] at this ⊢
      push_cast
      omega
    fin_cases a <;> simp only [cellCorners] at ha
    · exact key i j k ha (by omega) (by omega) (by omega) (by omega) (by omega) (by omega)
    · exact key (i+1) j k ha (by omega) (by omega) (by omega) (by omega) (by omega) (by omega)
    · exact key (i+1) (j+1) k ha (by omega) (by omega) (by omega) (by omega) (by omega) (by omega)
    · exact key i (j+1) k ha (by omega) (by omega) (by omega) (by omega) (by omega) (by omega)
    · exact key i j (k+1) ha (by omega) (by omega) (by omega) (by omega) (by omega) (by omega)
    · exact key (i+1) j (k+1) ha (by omega) (by omega) (by omega) (by omega) (by omega) (by omega)
    · exact key (i+1) (j+1) (k+1) ha (by omega) (by omega) (by omega) (by omega) (by omega) (by omega)
    · exact key i (j+1) (k+1) ha (by omega) (by omega) (by omega) (by omega) (by omega) (by omega)
  have hs : someIn v x = ((B.filter fun c => c ∈ someIn v x : Finset _) : Set (ℤ × ℤ × ℤ)) := by
    ext c
    simp only [Finset.coe_filter, Set.mem_ofPred_eq]
    exact ⟨fun h => ⟨hB h, h⟩, fun h => h.2⟩
  have ha : allIn v x = ((B.filter fun c => c ∈ allIn v x : Finset _) : Set (ℤ × ℤ × ℤ)) := by
    ext c
    simp only [Finset.coe_filter, Set.mem_ofPred_eq]
    exact ⟨fun h => ⟨hB ⟨0, h 0⟩, h⟩, fun h => h.2⟩
  have hr3 : 0 < r ^ 3 := by positivity
  refine ⟨B.finite_toSet.subset hB, ?_, ?_⟩
  · rw [e1, e2, e3, ha, Set.ncard_coe_finset]
    have : (6 : ℝ) * ((B.filter fun c => c ∈ allIn v x).card : ℝ) ≤ ∑ c ∈ B, weight (cellCorners v c) x := by
      rw [mul_comm, ← nsmul_eq_mul, ← Finset.sum_const, Finset.sum_filter]
      apply Finset.sum_le_sum
      intro c _
      split_ifs with h
      · exact (weight_in h).ge
      · exact (weight_range _ _).1
    calc _ = r ^ 3 * (6 * ((B.filter fun c => c ∈ allIn v x).card : ℝ)) := by ring
      _ ≤ _ := mul_le_mul_of_nonneg_left this hr3.le
  · rw [e1, e2, e3, hs, Set.ncard_coe_finset]
    have : ∑ c ∈ B, weight (cellCorners v c) x ≤ (6 : ℝ) * ((B.filter fun c => c ∈ someIn v x).card : ℝ) := by
      rw [mul_comm, ← nsmul_eq_mul, ← Finset.sum_const, Finset.sum_filter]
      apply Finset.sum_le_sum
      intro c _
      split_ifs with h
      · exact (weight_range _ _).2
      · refine (weight_out fun a => ?_).le
        by_contra hc
        exact h ⟨a, not_le.mp hc⟩
    calc _ ≤ r ^ 3 * (6 * ((B.filter fun c => c ∈ someIn v x).card : ℝ)) := mul_le_mul_of_nonneg_left this hr3.le
      _ = _ := by ring

end Sdf.MC
