import Verif.Lemmas.MCChain
import Mathlib.Algebra.BigOperators.Intervals
import Mathlib.Algebra.Order.Group.Int.Sum
import Mathlib.Order.Interval.Finset.Nat
import Mathlib.Data.Int.Interval

/-! Helper lemmas: summing cell boundaries over a grid. -/

namespace Sdf.MC

open Classical

theorem closed_iff (m : List Tri) : Closed m ↔ ∀ P Q, sc (m.flatMap Tri.edges) P Q = 0 := by
  unfold Closed edgeCount sc
  constructor
  · intro h P Q; rw [h P Q]; ring
  · intro h P Q; have := h P Q; omega

theorem sc_flatMap {α β : Type} (l : List β) (f : β → List (α × α)) (P Q : α) :
    sc (l.flatMap f) P Q = (l.map fun b => sc (f b) P Q).sum := by
  induction l with
  | nil => simp [sc_nil]
  | cons a t ih => rw [List.flatMap_cons, sc_append, ih]; simp

theorem sum_Ico_tele (F : ℤ → ℤ) (L : ℤ) (n : ℕ) :
    ∑ i ∈ Finset.Ico L (L + n), (F i - F (i + 1)) = F L - F (L + n) := by
  induction n with
  | zero => simp
  | succ n ih =>
    have e : L + ((n + 1 : ℕ) : ℤ) = (L + n) + 1 := by push_cast; ring
    have : Finset.Ico L (L + ((n + 1 : ℕ) : ℤ)) = insert (L + n) (Finset.Ico L (L + n)) := by
      ext y; simp only [Finset.mem_Ico, Finset.mem_insert]; push_cast; omega
    rw [this, Finset.sum_insert (by simp), ih, e]; ring

/-- The signed edge counts of one cell vanish when it is not mixed. -/
theorem raw_nil_of_not_mixed (p : Fin 8 → V3) (v : Fin 8 → ℝ) (x : ℝ) (h : ¬ Mixed v x) :
    rawTriangles p v x = [] := by
  have : (∀ i, neg v x i = true) ∨ (∀ i, neg v x i = false) := by
    unfold Mixed at h
    by_cases h' : ∃ a, v a < x
    · left; intro i
      have : ¬ ∃ b, x ≤ v b := fun hb => h ⟨h', hb⟩
      push Not at this
      simp [neg, this i]
    · right; intro i
      push Not at h'
      simp [neg, h' i]
  rw [rawTriangles_eq, ((len_facts (neg v x)).2.2.1).mpr this]
  rfl

noncomputable def FX (g : ℤ → ℤ → ℤ → V3) (v : ℤ → ℤ → ℤ → ℝ) (x : ℝ) (P Q : V3) (i j k : ℤ) : ℤ :=
  faceChain (g i j k) (g i (j+1) k) (g i (j+1) (k+1)) (g i j (k+1))
    (v i j k) (v i (j+1) k) (v i (j+1) (k+1)) (v i j (k+1)) x P Q
noncomputable def FY (g : ℤ → ℤ → ℤ → V3) (v : ℤ → ℤ → ℤ → ℝ) (x : ℝ) (P Q : V3) (i j k : ℤ) : ℤ :=
  faceChain (g i j k) (g (i+1) j k) (g (i+1) j (k+1)) (g i j (k+1))
    (v i j k) (v (i+1) j k) (v (i+1) j (k+1)) (v i j (k+1)) x P Q
noncomputable def FZ (g : ℤ → ℤ → ℤ → V3) (v : ℤ → ℤ → ℤ → ℝ) (x : ℝ) (P Q : V3) (i j k : ℤ) : ℤ :=
  faceChain (g i j k) (g (i+1) j k) (g (i+1) (j+1) k) (g i (j+1) k)
    (v i j k) (v (i+1) j k) (v (i+1) (j+1) k) (v i (j+1) k) x P Q

theorem faceChain_zero (p0 p1 p2 p3 : V3) (v0 v1 v2 v3 x : ℝ) (P Q : V3)
    (h0 : x ≤ v0) (h1 : x ≤ v1) (h2 : x ≤ v2) (h3 : x ≤ v3) :
    faceChain p0 p1 p2 p3 v0 v1 v2 v3 x P Q = 0 := by
  unfold faceChain
  simp only [not_lt.mpr h0, not_lt.mpr h1, not_lt.mpr h2, not_lt.mpr h3, decide_false]
  exact sc_nil P Q

theorem grid_cell_chain (g : ℤ → ℤ → ℤ → V3) (v : ℤ → ℤ → ℤ → ℝ) (x : ℝ) (P Q : V3) (i j k : ℤ) :
    sc ((rawTriangles (cellCorners g (i, j, k)) (cellCorners v (i, j, k)) x).flatMap Tri.edges) P Q
      = (FX g v x P Q i j k - FX g v x P Q (i + 1) j k)
      - (FY g v x P Q i j k - FY g v x P Q i (j + 1) k)
      + (FZ g v x P Q i j k - FZ g v x P Q i j (k + 1)) := by
  rw [cell_chain]
  unfold FX FY FZ
  simp [cellCorners]
  ring

theorem box_sum_zero (g : ℤ → ℤ → ℤ → V3) (v : ℤ → ℤ → ℤ → ℝ) (x : ℝ) (P Q : V3) (L : ℤ) (n : ℕ)
    (hb : ∀ i j k, (i ≤ L ∨ j ≤ L ∨ k ≤ L ∨ L + n ≤ i ∨ L + n ≤ j ∨ L + n ≤ k) → x ≤ v i j k) :
    ∑ i ∈ Finset.Ico L (L + n), ∑ j ∈ Finset.Ico L (L + n), ∑ k ∈ Finset.Ico L (L + n),
      sc ((rawTriangles (cellCorners g (i, j, k)) (cellCorners v (i, j, k)) x).flatMap Tri.edges) P Q = 0 := by
  simp only [grid_cell_chain, Finset.sum_add_distrib, Finset.sum_sub_distrib]
  have hX : (∑ i ∈ Finset.Ico L (L + n), ∑ j ∈ Finset.Ico L (L + n), ∑ k ∈ Finset.Ico L (L + n), FX g v x P Q i j k)
      - ∑ i ∈ Finset.Ico L (L + n), ∑ j ∈ Finset.Ico L (L + n), ∑ k ∈ Finset.Ico L (L + n), FX g v x P Q (i+1) j k = 0 := by
    rw [← Finset.sum_sub_distrib]
    rw [sum_Ico_tele (fun i => ∑ j ∈ Finset.Ico L (L + n), ∑ k ∈ Finset.Ico L (L + n), FX g v x P Q i j k)]
    rw [Finset.sum_eq_zero, Finset.sum_eq_zero]
    · simp
    · intro j _; apply Finset.sum_eq_zero; intro k _
      apply faceChain_zero <;> apply hb <;> omega
    · intro j _; apply Finset.sum_eq_zero; intro k _
      apply faceChain_zero <;> apply hb <;> omega
  have hY : (∑ i ∈ Finset.Ico L (L + n), ∑ j ∈ Finset.Ico L (L + n), ∑ k ∈ Finset.Ico L (L + n), FY g v x P Q i j k)
      - ∑ i ∈ Finset.Ico L (L + n), ∑ j ∈ Finset.Ico L (L + n), ∑ k ∈ Finset.Ico L (L + n), FY g v x P Q i (j+1) k = 0 := by
    rw [← Finset.sum_sub_distrib]
    apply Finset.sum_eq_zero; intro i _
    rw [← Finset.sum_sub_distrib]
    rw [sum_Ico_tele (fun j => ∑ k ∈ Finset.Ico L (L + n), FY g v x P Q i j k)]
    rw [Finset.sum_eq_zero, Finset.sum_eq_zero]
    · simp
    · intro k _
      apply faceChain_zero <;> apply hb <;> omega
    · intro k _
      apply faceChain_zero <;> apply hb <;> omega
  have hZ : (∑ i ∈ Finset.Ico L (L + n), ∑ j ∈ Finset.Ico L (L + n), ∑ k ∈ Finset.Ico L (L + n), FZ g v x P Q i j k)
      - ∑ i ∈ Finset.Ico L (L + n), ∑ j ∈ Finset.Ico L (L + n), ∑ k ∈ Finset.Ico L (L + n), FZ g v x P Q i j (k+1) = 0 := by
    rw [← Finset.sum_sub_distrib]
    apply Finset.sum_eq_zero; intro i _
    rw [← Finset.sum_sub_distrib]
    apply Finset.sum_eq_zero; intro j _
    rw [← Finset.sum_sub_distrib]
    rw [sum_Ico_tele (fun k => FZ g v x P Q i j k)]
    have h1 : FZ g v x P Q i j L = 0 := by apply faceChain_zero <;> apply hb <;> omega
    have h2 : FZ g v x P Q i j (L + n) = 0 := by apply faceChain_zero <;> apply hb <;> omega
    rw [h1, h2]; ring
  linarith

/-- A triangle with two coinciding corners has no boundary. -/
theorem sc_edges_degenerate (t : Tri) (h : t.a = t.b ∨ t.b = t.c ∨ t.c = t.a) (P Q : V3) :
    sc t.edges P Q = 0 := by
  have e : sc t.edges P Q = sc [(t.a, t.b)] P Q + sc [(t.b, t.c)] P Q + sc [(t.c, t.a)] P Q := by
    rw [← sc_append, ← sc_append]; rfl
  have hs : ∀ a b : V3, sc [(a, b)] P Q = - sc [(b, a)] P Q := by
    intro a b; rw [← sc_swap]; rfl
  have hz : ∀ a : V3, sc [(a, a)] P Q = 0 := by
    intro a; have := hs a a; omega
  rw [e]
  rcases h with h | h | h
  · rw [h, hz, hs t.c]; omega
  · rw [h, hz, hs t.c]; omega
  · rw [h, hz, hs t.b]; omega

theorem sum_filter_zero {β : Type} (l : List β) (p : β → Bool) (f : β → ℤ) (h : ∀ b ∈ l, p b = false → f b = 0) :
    ((l.filter p).map f).sum = (l.map f).sum := by
  induction l with
  | nil => rfl
  | cons a t ih =>
    have iht := ih (fun b hb => h b (List.mem_cons_of_mem _ hb))
    cases ha : p a
    · rw [List.filter_cons_of_neg (by simp [ha]), iht, List.map_cons, List.sum_cons, h a List.mem_cons_self ha]; simp
    · rw [List.filter_cons_of_pos ha, List.map_cons, List.sum_cons, iht]; simp

theorem closed_filter (m : List Tri) (p : Tri → Bool)
    (h : ∀ t ∈ m, p t = false → t.a = t.b ∨ t.b = t.c ∨ t.c = t.a) :
    Closed (m.filter p) ↔ Closed m := by
  rw [closed_iff, closed_iff]
  have : ∀ P Q, sc ((m.filter p).flatMap Tri.edges) P Q = sc (m.flatMap Tri.edges) P Q := by
    intro P Q
    rw [sc_flatMap, sc_flatMap]
    exact sum_filter_zero m p _ fun t ht hp => sc_edges_degenerate t (h t ht hp) P Q
  simp only [this]

/-- Any finite list of distinct cells containing every mixed cell has a closed triangulation. -/
theorem cells_closed (g : ℤ → ℤ → ℤ → V3) (v : ℤ → ℤ → ℤ → ℝ) (x : ℝ)
    (hfin : {c : ℤ × ℤ × ℤ | v c.1 c.2.1 c.2.2 < x}.Finite)
    (cells : List (ℤ × ℤ × ℤ)) (hnd : cells.Nodup)
    (hcov : ∀ c, Mixed (cellCorners v c) x → c ∈ cells) :
    Closed (cells.flatMap fun c => rawTriangles (cellCorners g c) (cellCorners v c) x) := by
  rw [closed_iff]
  intro P Q
  -- a bound on all the coordinates involved
  obtain ⟨M, hM⟩ : ∃ M : ℕ, (∀ i j k, v i j k < x → |i| ≤ M ∧ |j| ≤ M ∧ |k| ≤ M)
      ∧ (∀ c ∈ cells, |c.1| ≤ M ∧ |c.2.1| ≤ M ∧ |c.2.2| ≤ M) := by
    let S : Finset (ℤ × ℤ × ℤ) := hfin.toFinset ∪ cells.toFinset
    let b : (ℤ × ℤ × ℤ) → ℕ := fun c => c.1.natAbs + c.2.1.natAbs + c.2.2.natAbs
    refine ⟨S.sup b, ?_, ?_⟩
    · intro i j k h
      have hm : (i, j, k) ∈ S := by
        simp only [S, Finset.mem_union, Set.Finite.mem_toFinset, Set.mem_ofPred_eq]; left; exact h
      have := Finset.le_sup (f := b) hm
      simp only [b, abs_le] at this ⊢
      refine ⟨?_, ?_, ?_⟩ <;> omega
    · intro c h
      have hm : c ∈ S := by simp [S, h]
      have := Finset.le_sup (f := b) hm
      simp only [b, abs_le] at this ⊢
      refine ⟨?_, ?_, ?_⟩ <;> omega
  set f : ℤ × ℤ × ℤ → ℤ := fun c =>
    sc ((rawTriangles (cellCorners g c) (cellCorners v c) x).flatMap Tri.edges) P Q with hf
  have e1 : sc ((cells.flatMap fun c => rawTriangles (cellCorners g c) (cellCorners v c) x).flatMap Tri.edges) P Q
      = ∑ c ∈ cells.toFinset, f c := by
    rw [List.flatMap_assoc, sc_flatMap, List.sum_toFinset _ hnd]
  rw [e1]
  let L : ℤ := -(M : ℤ) - 1
  let n : ℕ := 2 * M + 2
  let B : Finset (ℤ × ℤ × ℤ) := Finset.Ico L (L + n) ×ˢ (Finset.Ico L (L + n) ×ˢ Finset.Ico L (L + n))
  have hsub : cells.toFinset ⊆ B := by
    intro c hc
    have := hM.2 c (List.mem_toFinset.mp hc)
    simp only [B, Finset.mem_product, Finset.mem_Ico, L, n, abs_le] at this ⊢
    push_cast
    omega
  have e2 : ∑ c ∈ cells.toFinset, f c = ∑ c ∈ B, f c := by
    apply Finset.sum_subset hsub
    intro c _ hc
    have hnm : ¬ Mixed (cellCorners v c) x := fun h => hc (List.mem_toFinset.mpr (hcov c h))
    simp only [hf, raw_nil_of_not_mixed _ _ _ hnm, List.flatMap_nil]
    exact sc_nil P Q
  rw [e2]
  simp only [B, Finset.sum_product]
  apply box_sum_zero
  intro i j k h
  by_contra hlt
  have := hM.1 i j k (not_le.mp hlt)
  simp only [L, n, abs_le] at this h
  push_cast at h
  omega

end Sdf.MC
