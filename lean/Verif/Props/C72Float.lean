import Verif.Model.MarchingFloat
import Verif.Lemmas.Float
import Verif.Lemmas.MCGrid
import Verif.Props.C08
import Mathlib.Tactic.IntervalCases

/-!
C72: neighbouring cells put the same corner on the edge they share, also in floating point.  They do not: the table of edges names the ends
of an edge in one order for two of the cells around it and in the other order for the other two.
-/

namespace Sdf.MC

open Fp Classical

/-- With exact arithmetic this is the model used elsewhere. -/
theorem interpolateIn_exact : interpolateIn exact = interpolate := rfl

theorem rawTrianglesIn_exact : rawTrianglesIn exact = rawTriangles := rfl

/-- The point on every edge, flagged or not. -/
noncomputable def ptsIn (A : Arith) (p : Fin 8 → V3) (v : Fin 8 → ℝ) (x : ℝ) : Fin 12 → V3 := fun i =>
  interpolateIn A (p (pairTable i).1) (p (pairTable i).2) (v (pairTable i).1) (v (pairTable i).2) x

theorem rawTrianglesIn_eq (A : Arith) (p : Fin 8 → V3) (v : Fin 8 → ℝ) (x : ℝ) :
    rawTrianglesIn A p v x = (triples (triangleTable.getD (bitsToNat (neg v x)) [])).map fun t =>
      ⟨ptsIn A p v x t.2.2, ptsIn A p v x t.2.1, ptsIn A p v x t.1⟩ := by
  unfold rawTrianglesIn
  rw [index_eq]
  have hpt : ∀ e ∈ triangleTable.getD (bitsToNat (neg v x)) [], pointsIn A p v x e = ptsIn A p v x e := by
    intro e he
    unfold pointsIn ptsIn
    rw [index_eq]
    exact if_pos ((edge_flag (neg v x) e).mpr (tri_edge_sign _ _ he))
  by_cases h0 : edgeTable.getD (bitsToNat (neg v x)) 0 = 0
  · rw [if_pos h0]
    have : triangleTable.getD (bitsToNat (neg v x)) [] = [] := by
      apply List.eq_nil_iff_forall_not_mem.mpr
      intro e he
      have := (edge_flag (neg v x) e).mpr (tri_edge_sign _ _ he)
      rw [h0, Nat.zero_and] at this
      exact this rfl
    rw [this]; rfl
  · rw [if_neg h0]
    apply List.map_congr_left
    intro t ht
    obtain ⟨m1, m2, m3⟩ := triples_mem _ _ ht
    simp only [hpt _ m1, hpt _ m2, hpt _ m3]

/-- One coordinate of the interpolation, in machine arithmetic, against exact arithmetic. -/
theorem blend_near {A : Arith} {u : ℝ} (hA : A.Accurate u) (h0 : 0 ≤ u) (h1 : u ≤ 1 / 16) {t t' p q : ℝ} (ht0 : 0 ≤ t) (ht1 : t ≤ 1)
    (ht' : |t' - t| ≤ 32 / 15 * u) :
    |A.add p (A.mul t' (A.sub q p)) - (p + t * (q - p))| ≤ 11 * u * max |p| |q| := by
  set d := q - p with hd
  set D := A.sub q p with hD
  set m := A.mul t' D with hm
  set M := max |p| |q| with hM
  have hp : |p| ≤ M := le_max_left _ _
  have hq : |q| ≤ M := le_max_right _ _
  have hM0 : 0 ≤ M := (abs_nonneg p).trans hp
  have hdM : |d| ≤ 2 * M := by
    rw [hd]; refine (abs_sub _ _).trans ?_; linarith
  have hd0 := abs_nonneg d
  have e1 : |D - d| ≤ u * |d| := hA.sub q p
  have e2 : |D| ≤ 17 / 16 * |d| := by
    have : |D| ≤ |D - d| + |d| := by
      calc |D| = |(D - d) + d| := by ring_nf
        _ ≤ _ := abs_add_le _ _
    nlinarith
  have e3 : |t'| ≤ 17 / 15 := by
    have : |t'| ≤ |t' - t| + |t| := by
      calc |t'| = |(t' - t) + t| := by ring_nf
        _ ≤ _ := abs_add_le _ _
    rw [abs_of_nonneg ht0] at this
    linarith
  have e4 : |t' * D - t * d| ≤ (17 / 15 + 32 / 15) * u * |d| := by
    calc |t' * D - t * d| = |t' * (D - d) + (t' - t) * d| := by ring_nf
      _ ≤ |t'| * |D - d| + |t' - t| * |d| := by
        refine (abs_add_le _ _).trans (le_of_eq ?_); rw [abs_mul, abs_mul]
      _ ≤ 17 / 15 * (u * |d|) + 32 / 15 * u * |d| :=
        add_le_add (mul_le_mul e3 e1 (abs_nonneg _) (by norm_num)) (mul_le_mul_of_nonneg_right ht' hd0)
      _ = _ := by ring
  have e5 : |m - t' * D| ≤ u * (17 / 15 * (17 / 16 * |d|)) := by
    refine (hA.mul t' D).trans (mul_le_mul_of_nonneg_left ?_ h0)
    rw [abs_mul]
    exact mul_le_mul e3 e2 (abs_nonneg _) (by norm_num)
  have e6 : |m - t * d| ≤ 9 / 2 * u * |d| := by
    have : |m - t * d| ≤ |m - t' * D| + |t' * D - t * d| := by
      calc |m - t * d| = |(m - t' * D) + (t' * D - t * d)| := by ring_nf
        _ ≤ _ := abs_add_le _ _
    nlinarith [mul_nonneg h0 hd0]
  have e7 : |p + t * d| ≤ M := by
    rw [hd, show p + t * (q - p) = (1 - t) * p + t * q by ring]
    refine (abs_add_le _ _).trans ?_
    rw [abs_mul, abs_mul, abs_of_nonneg ht0, abs_of_nonneg (by linarith : 0 ≤ 1 - t)]
    nlinarith
  have e8 : |A.add p m - (p + m)| ≤ u * (M + 9 / 2 * u * |d|) := by
    refine (hA.add p m).trans (mul_le_mul_of_nonneg_left ?_ h0)
    calc |p + m| = |(p + t * d) + (m - t * d)| := by ring_nf
      _ ≤ |p + t * d| + |m - t * d| := abs_add_le _ _
      _ ≤ _ := add_le_add e7 e6
  have e9 : |A.add p m - (p + t * d)| ≤ |A.add p m - (p + m)| + |m - t * d| := by
    calc |A.add p m - (p + t * d)| = |(A.add p m - (p + m)) + (m - t * d)| := by ring_nf
      _ ≤ _ := abs_add_le _ _
  have e10 : 9 / 2 * u * |d| ≤ 9 * u * M := by nlinarith [mul_nonneg h0 hd0]
  have e11 : u * (9 / 2 * u * |d|) ≤ u * (9 / 16 * M) := by
    apply mul_le_mul_of_nonneg_left _ h0
    nlinarith [mul_nonneg h0 hM0]
  nlinarith [mul_nonneg h0 hM0]

/-- The parameter on the edge, in machine arithmetic. -/
theorem param_near {A : Arith} {u : ℝ} (hA : A.Accurate u) (h0 : 0 ≤ u) (h1 : u ≤ 1 / 16) {v1 v2 : ℝ} (hs : A.sub 0 v1 = -v1)
    (h : v1 < 0 ∧ 0 ≤ v2 ∨ v2 < 0 ∧ 0 ≤ v1) :
    0 ≤ (0 - v1) / (v2 - v1) ∧ (0 - v1) / (v2 - v1) ≤ 1 ∧
    |A.div (A.sub 0 v1) (A.sub v2 v1) - (0 - v1) / (v2 - v1)| ≤ 32 / 15 * u := by
  have hw : v2 - v1 ≠ 0 := by rcases h with h | h <;> intro h' <;> linarith
  have ht : 0 ≤ (0 - v1) / (v2 - v1) ∧ (0 - v1) / (v2 - v1) ≤ 1 := by
    rcases h with h | h
    · have : 0 < v2 - v1 := by linarith
      exact ⟨div_nonneg (by linarith) this.le, (div_le_one this).mpr (by linarith)⟩
    · have : v2 - v1 < 0 := by linarith
      exact ⟨div_nonneg_of_nonpos (by linarith) this.le, (div_le_one_of_neg this).mpr (by linarith)⟩
  refine ⟨ht.1, ht.2, ?_⟩
  rw [hs, zero_sub] at *
  set w := v2 - v1 with hwd
  set W := A.sub v2 v1 with hWd
  set t := -v1 / w with htd
  have e1 : |W - w| ≤ u * |w| := hA.sub v2 v1
  have hwp : 0 < |w| := abs_pos.mpr hw
  have e2 : 15 / 16 * |w| ≤ |W| := by
    have : |w| ≤ |W - w| + |W| := by
      calc |w| = |-(W - w) + W| := by ring_nf
        _ ≤ |-(W - w)| + |W| := abs_add_le _ _
        _ = _ := by rw [abs_neg]
    nlinarith
  have hW : W ≠ 0 := by
    intro h'; rw [h', abs_zero] at e2; linarith
  have hWp : 0 < |W| := abs_pos.mpr hW
  have e3 : |-v1 / W - t| ≤ 16 / 15 * u := by
    have : -v1 / W - t = t * ((w - W) / W) := by
      rw [htd]; field_simp; ring
    rw [this, abs_mul, abs_of_nonneg ht.1, abs_div, abs_sub_comm w W]
    have h3 : |W - w| / |W| ≤ 16 / 15 * u := by
      rw [div_le_iff₀ hWp]
      nlinarith
    calc t * (|W - w| / |W|) ≤ 1 * (|W - w| / |W|) := mul_le_mul_of_nonneg_right ht.2 (by positivity)
      _ ≤ _ := by linarith
  have e4 : |-v1 / W| ≤ 16 / 15 := by
    have : |-v1 / W| ≤ |-v1 / W - t| + |t| := by
      calc |-v1 / W| = |(-v1 / W - t) + t| := by ring_nf
        _ ≤ _ := abs_add_le _ _
    rw [abs_of_nonneg ht.1] at this
    linarith [ht.2]
  have e5 : |A.div (-v1) W - -v1 / W| ≤ u * (16 / 15) := (hA.div _ _).trans (mul_le_mul_of_nonneg_left e4 h0)
  have e6 : |A.div (-v1) W - t| ≤ |A.div (-v1) W - -v1 / W| + |-v1 / W - t| := by
    calc |A.div (-v1) W - t| = |(A.div (-v1) W - -v1 / W) + (-v1 / W - t)| := by ring_nf
      _ ≤ _ := abs_add_le _ _
  linarith

/-- The corner a cell puts on an edge where the value changes sign is, in every coordinate, within eleven units of rounding error of the
exact one, whichever end of the edge the cell names first. -/
theorem C72_accurate (A : Arith) (u : ℝ) (hA : A.Accurate u) (h0 : 0 ≤ u) (h1 : u ≤ 1 / 16) (p1 p2 : V3) (v1 v2 : ℝ)
    (hs1 : A.sub 0 v1 = -v1) (hs2 : A.sub 0 v2 = -v2) (h : v1 < 0 ∧ 0 ≤ v2 ∨ v2 < 0 ∧ 0 ≤ v1) :
    |(interpolateIn A p1 p2 v1 v2 0).x - (interpolate p1 p2 v1 v2 0).x| ≤ 11 * u * max |p1.x| |p2.x| ∧
    |(interpolateIn A p1 p2 v1 v2 0).y - (interpolate p1 p2 v1 v2 0).y| ≤ 11 * u * max |p1.y| |p2.y| ∧
    |(interpolateIn A p1 p2 v1 v2 0).z - (interpolate p1 p2 v1 v2 0).z| ≤ 11 * u * max |p1.z| |p2.z| := by
  have hz : ∀ a b c : ℝ, |c - c| ≤ 11 * u * max |a| |b| := fun a b c => by
    rw [sub_self, abs_zero]
    exact mul_nonneg (by linarith) (le_max_of_le_left (abs_nonneg a))
  unfold interpolateIn interpolate
  simp only [hs1, hs2, zero_sub]
  by_cases c1 : |-v1| < epsilon <;> by_cases c2 : |-v2| < epsilon <;>
    simp only [c1, c2, not_true, not_false_eq_true, and_true, and_false, if_true, if_false, and_self]
  · have ht : |(0.5 : ℝ) - 0.5| ≤ 32 / 15 * u := by rw [sub_self, abs_zero]; linarith
    exact ⟨blend_near hA h0 h1 (by norm_num) (by norm_num) ht, blend_near hA h0 h1 (by norm_num) (by norm_num) ht,
      blend_near hA h0 h1 (by norm_num) (by norm_num) ht⟩
  · exact ⟨hz _ _ _, hz _ _ _, hz _ _ _⟩
  · exact ⟨hz _ _ _, hz _ _ _, hz _ _ _⟩
  · obtain ⟨t0, t1, ht⟩ := param_near hA h0 h1 hs1 h
    rw [hs1, zero_sub] at *
    exact ⟨blend_near hA h0 h1 t0 t1 ht, blend_near hA h0 h1 t0 t1 ht, blend_near hA h0 h1 t0 t1 ht⟩

/-- Two cells that name the ends of a common edge in different orders put their corners at most twice as far apart, and differ only
along the edge. -/
theorem C72_gap (A : Arith) (u : ℝ) (hA : A.Accurate u) (h0 : 0 ≤ u) (h1 : u ≤ 1 / 16) (p1 p2 : V3) (v1 v2 : ℝ)
    (hs1 : A.sub 0 v1 = -v1) (hs2 : A.sub 0 v2 = -v2) (h : v1 < 0 ∧ 0 ≤ v2 ∨ v2 < 0 ∧ 0 ≤ v1) :
    |(interpolateIn A p1 p2 v1 v2 0).x - (interpolateIn A p2 p1 v2 v1 0).x| ≤ 22 * u * max |p1.x| |p2.x| ∧
    |(interpolateIn A p1 p2 v1 v2 0).y - (interpolateIn A p2 p1 v2 v1 0).y| ≤ 22 * u * max |p1.y| |p2.y| ∧
    |(interpolateIn A p1 p2 v1 v2 0).z - (interpolateIn A p2 p1 v2 v1 0).z| ≤ 22 * u * max |p1.z| |p2.z| ∧
    (p1.x = p2.x → (interpolateIn A p1 p2 v1 v2 0).x = (interpolateIn A p2 p1 v2 v1 0).x) ∧
    (p1.y = p2.y → (interpolateIn A p1 p2 v1 v2 0).y = (interpolateIn A p2 p1 v2 v1 0).y) ∧
    (p1.z = p2.z → (interpolateIn A p1 p2 v1 v2 0).z = (interpolateIn A p2 p1 v2 v1 0).z) := by
  obtain ⟨a1, a2, a3⟩ := C72_accurate A u hA h0 h1 p1 p2 v1 v2 hs1 hs2 h
  obtain ⟨b1, b2, b3⟩ := C72_accurate A u hA h0 h1 p2 p1 v2 v1 hs2 hs1 h.symm
  have hne : v2 ≠ v1 := by rcases h with h | h <;> intro h' <;> linarith
  rw [interpolate_symm p2 p1 v2 v1 0 hne] at b1 b2 b3
  have tri : ∀ a b c k m m' : ℝ, |a - c| ≤ 11 * u * max m m' → |b - c| ≤ 11 * u * max m' m → |a - b| ≤ 22 * u * max m m' := by
    intro a b c k m m' h1 h2
    rw [max_comm m' m, abs_sub_comm] at h2
    calc |a - b| = |(a - c) + (c - b)| := by ring_nf
      _ ≤ |a - c| + |c - b| := abs_add_le _ _
      _ ≤ _ := by linarith
  have hsub : ∀ a : ℝ, A.sub a a = 0 := fun a => by
    have := hA.sub a a
    rw [sub_self, sub_zero, abs_zero, mul_zero] at this
    exact abs_nonpos_iff.mp this
  have hmul : ∀ a : ℝ, A.mul a 0 = 0 := fun a => by
    have := hA.mul a 0
    rw [mul_zero, sub_zero, abs_zero, mul_zero] at this
    exact abs_nonpos_iff.mp this
  refine ⟨tri _ _ _ 0 _ _ a1 b1, tri _ _ _ 0 _ _ a2 b2, tri _ _ _ 0 _ _ a3 b3, ?_, ?_, ?_⟩
  all_goals
    intro he
    unfold interpolateIn
    simp only [hs1, hs2]
    by_cases c1 : |-v1| < epsilon <;> by_cases c2 : |-v2| < epsilon <;>
      simp only [c1, c2, he, hsub, hmul, not_true, not_false_eq_true, and_true, and_false, if_true, if_false, and_self]

/-- The triangles of any finite grid, computed with any such arithmetic, are those of a closed mesh with every coordinate of every corner
displaced by at most eleven units of rounding error of the largest coordinate. -/
theorem C72_nearly_closed_partial (A : Arith) (u : ℝ) (hA : A.Accurate u) (h0 : 0 ≤ u) (h1 : u ≤ 1 / 16)
    (g : ℤ → ℤ → ℤ → V3) (v : ℤ → ℤ → ℤ → ℝ) (hfin : {c : ℤ × ℤ × ℤ | v c.1 c.2.1 c.2.2 < 0}.Finite)
    (cells : List (ℤ × ℤ × ℤ)) (hnd : cells.Nodup) (hcov : ∀ c, Mixed (cellCorners v c) 0 → c ∈ cells)
    (hs : ∀ c ∈ cells, ∀ i, A.sub 0 (cellCorners v c i) = -cellCorners v c i)
    (R : ℝ) (hR : ∀ c ∈ cells, ∀ i, |(cellCorners g c i).x| ≤ R ∧ |(cellCorners g c i).y| ≤ R ∧ |(cellCorners g c i).z| ≤ R) :
    ∃ m : List Tri, Closed m ∧ List.Forall₂ (fun t t' : Tri => ∀ k, |(t.vertex k).x - (t'.vertex k).x| ≤ 11 * u * R ∧
        |(t.vertex k).y - (t'.vertex k).y| ≤ 11 * u * R ∧ |(t.vertex k).z - (t'.vertex k).z| ≤ 11 * u * R)
      (cells.flatMap fun c => trianglesIn A (fun _ => false) (cellCorners g c) (cellCorners v c) 0) m := by
  refine ⟨cells.flatMap fun c => rawTriangles (cellCorners g c) (cellCorners v c) 0, cells_closed g v 0 hfin cells hnd hcov, ?_⟩
  clear hnd hcov
  have hcell : ∀ c ∈ cells, List.Forall₂ (fun t t' : Tri => ∀ k, |(t.vertex k).x - (t'.vertex k).x| ≤ 11 * u * R ∧
        |(t.vertex k).y - (t'.vertex k).y| ≤ 11 * u * R ∧ |(t.vertex k).z - (t'.vertex k).z| ≤ 11 * u * R)
      (trianglesIn A (fun _ => false) (cellCorners g c) (cellCorners v c) 0) (rawTriangles (cellCorners g c) (cellCorners v c) 0) := by
    intro c hc
    have e : trianglesIn A (fun _ => false) (cellCorners g c) (cellCorners v c) 0 = rawTrianglesIn A (cellCorners g c) (cellCorners v c) 0 := by
      unfold trianglesIn; simp
    rw [e, rawTrianglesIn_eq, ← rawTrianglesIn_exact, rawTrianglesIn_eq, List.forall₂_map_left_iff, List.forall₂_map_right_iff,
      List.forall₂_same]
    intro t ht
    obtain ⟨m1, m2, m3⟩ := triples_mem _ _ ht
    have hp : ∀ i, |(cellCorners g c i).x| ≤ R ∧ |(cellCorners g c i).y| ≤ R ∧ |(cellCorners g c i).z| ≤ R := hR c hc
    have hv : ∀ i, A.sub 0 (cellCorners v c i) = -cellCorners v c i := hs c hc
    have key : ∀ e ∈ triangleTable.getD (bitsToNat (neg (cellCorners v c) 0)) [],
        |(ptsIn A (cellCorners g c) (cellCorners v c) 0 e).x - (ptsIn exact (cellCorners g c) (cellCorners v c) 0 e).x| ≤ 11 * u * R ∧
        |(ptsIn A (cellCorners g c) (cellCorners v c) 0 e).y - (ptsIn exact (cellCorners g c) (cellCorners v c) 0 e).y| ≤ 11 * u * R ∧
        |(ptsIn A (cellCorners g c) (cellCorners v c) 0 e).z - (ptsIn exact (cellCorners g c) (cellCorners v c) 0 e).z| ≤ 11 * u * R := by
      intro e he
      have hsg := tri_edge_sign _ _ he
      unfold ptsIn
      rw [interpolateIn_exact]
      generalize (pairTable e).1 = a at hsg ⊢
      generalize (pairTable e).2 = b at hsg ⊢
      have hab : cellCorners v c a < 0 ∧ 0 ≤ cellCorners v c b ∨ cellCorners v c b < 0 ∧ 0 ≤ cellCorners v c a := by
        simp only [neg, ne_eq, decide_eq_decide] at hsg
        by_cases ha : cellCorners v c a < 0 <;> by_cases hb : cellCorners v c b < 0
        · exact absurd ⟨fun _ => hb, fun _ => ha⟩ hsg
        · exact Or.inl ⟨ha, not_lt.mp hb⟩
        · exact Or.inr ⟨hb, not_lt.mp ha⟩
        · exact absurd ⟨fun h => absurd h ha, fun h => absurd h hb⟩ hsg
      obtain ⟨k1, k2, k3⟩ := C72_accurate A u hA h0 h1 (cellCorners g c a) (cellCorners g c b) _ _ (hv a) (hv b) hab
      have h11 : 0 ≤ 11 * u := by linarith
      exact ⟨k1.trans (mul_le_mul_of_nonneg_left (max_le (hp a).1 (hp b).1) h11),
        k2.trans (mul_le_mul_of_nonneg_left (max_le (hp a).2.1 (hp b).2.1) h11),
        k3.trans (mul_le_mul_of_nonneg_left (max_le (hp a).2.2 (hp b).2.2) h11)⟩
    intro k
    fin_cases k
    · exact key _ m3
    · exact key _ m2
    · exact key _ m1
  clear hs hR
  induction cells with
  | nil => exact List.Forall₂.nil
  | cons c cs ih =>
    rw [List.flatMap_cons, List.flatMap_cons]
    exact List.rel_append (hcell c List.mem_cons_self) (ih fun c' hc' => hcell c' (List.mem_cons_of_mem _ hc'))

end Sdf.MC
