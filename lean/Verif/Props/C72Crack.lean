import Verif.Props.C72Float
import Verif.Lemmas.Lip
import Verif.Lemmas.Vec

/-!
C72, continued: a solid whose mesh, computed in float64, has cracks, also after rounding to float32.
-/

namespace Sdf.MC

open Fp Classical

/-- 1/38335 in float64. -/
noncomputable def near : ℝ := 7699175823121242 * (2 : ℝ) ^ (-68 : ℤ)
/-- 38334/38335 in float64. -/
noncomputable def far : ℝ := 9006964294541312 * (2 : ℝ) ^ (-53 : ℤ)
/-- 1 - `far`. -/
noncomputable def rest : ℝ := 234960199680 * (2 : ℝ) ^ (-53 : ℤ)

theorem rn_near_point : rn 53 (1 / 38335) = near := by
  rw [rn_eq (-16) 7699175823121242] <;> norm_num [near, abs_lt, abs_of_pos]

theorem rn_far_point : rn 53 (38334 / 38335) = far := by
  rw [rn_eq (-1) 9006964294541312] <;> norm_num [far, abs_lt, abs_of_pos]

theorem fp_near (s : ℝ) (hs : s = 1 ∨ s = -1) : rn 53 (s * near) = s * near := by
  rcases hs with rfl | rfl
  · refine rn_exact (-16) 7699175823121242 ?_ ?_ ?_ <;> norm_num [near]
  · refine rn_exact (-16) (-7699175823121242) ?_ ?_ ?_ <;> norm_num [near]

theorem fp_far (s : ℝ) (hs : s = 1 ∨ s = -1) : rn 53 (s * far) = s * far := by
  rcases hs with rfl | rfl
  · refine rn_exact (-1) 9006964294541312 ?_ ?_ ?_ <;> norm_num [far]
  · refine rn_exact (-1) (-9006964294541312) ?_ ?_ ?_ <;> norm_num [far]

theorem fp_rest (s : ℝ) (hs : s = 1 ∨ s = -1) : rn 53 (s * rest) = s * rest := by
  rcases hs with rfl | rfl
  · refine rn_exact (-16) (234960199680 * 2 ^ 15) ?_ ?_ ?_ <;> norm_num [rest]
  · refine rn_exact (-16) (-(234960199680 * 2 ^ 15)) ?_ ?_ ?_ <;> norm_num [rest]

theorem fp_one (s : ℝ) (hs : s = 1 ∨ s = -1) : rn 53 s = s := by
  rcases hs with rfl | rfl
  · refine rn_exact 0 (2 ^ 52) ?_ ?_ ?_ <;> norm_num
  · refine rn_exact 0 (-(2 ^ 52)) ?_ ?_ ?_ <;> norm_num

theorem fp_low : rn 53 (1 / 65536) = 1 / 65536 := by
  refine rn_exact (-16) (2 ^ 52) ?_ ?_ ?_ <;> norm_num

theorem fp_high (s : ℝ) (hs : s = 1 ∨ s = -1) : rn 53 (s * (38334 / 65536)) = s * (38334 / 65536) := by
  rcases hs with rfl | rfl
  · refine rn_exact (-1) (38334 * 2 ^ 37) ?_ ?_ ?_ <;> norm_num
  · refine rn_exact (-1) (-(38334 * 2 ^ 37)) ?_ ?_ ?_ <;> norm_num

theorem fp_width (s : ℝ) (hs : s = 1 ∨ s = -1) : rn 53 (s * (38335 / 65536)) = s * (38335 / 65536) := by
  rcases hs with rfl | rfl
  · refine rn_exact (-1) (38335 * 2 ^ 37) ?_ ?_ ?_ <;> norm_num
  · refine rn_exact (-1) (-(38335 * 2 ^ 37)) ?_ ?_ ?_ <;> norm_num

theorem single_near : rn 24 near = 14340833 * (2 : ℝ) ^ (-39 : ℤ) := by
  rw [rn_eq (-16) 14340833] <;> norm_num [near, abs_lt, abs_of_pos]

theorem single_rest : rn 24 rest = 14340832 * (2 : ℝ) ^ (-39 : ℤ) := by
  rw [rn_tie (-16) 14340832] <;> norm_num [rest, abs_of_pos]
  exact ⟨7170416, by norm_num⟩

/-- From the inside end of an edge. -/
theorem comp_out (n : ℝ) (hn : n = 0 ∨ n = 1 ∨ n = -1) : float64.add 0 (float64.mul near (float64.sub n 0)) = n * near := by
  simp only [float64, sub_zero, zero_add]
  rcases hn with rfl | hn
  · rw [rn_zero, mul_zero, rn_zero, rn_zero, zero_mul]
  · rw [fp_one n hn, mul_comm, fp_near n hn, fp_near n hn]

/-- From the outside end of an edge. -/
theorem comp_in (n : ℝ) (hn : n = 0 ∨ n = 1 ∨ n = -1) : float64.add n (float64.mul far (float64.sub 0 n)) = n * rest := by
  simp only [float64, zero_sub]
  rcases hn with rfl | hn
  · rw [neg_zero, rn_zero, mul_zero, rn_zero, add_zero, rn_zero, zero_mul]
  · have hn' : -n = 1 ∨ -n = -1 := by rcases hn with rfl | rfl <;> simp
    rw [fp_one (-n) hn', mul_comm, fp_far (-n) hn', show n + -n * far = n * (1 - far) by ring, show 1 - far = rest by norm_num [far, rest],
      fp_rest n hn]

theorem out_point (n : V3) (hx : n.x = 0 ∨ n.x = 1 ∨ n.x = -1) (hy : n.y = 0 ∨ n.y = 1 ∨ n.y = -1) (hz : n.z = 0 ∨ n.z = 1 ∨ n.z = -1) :
    interpolateIn float64 ⟨0, 0, 0⟩ n (-(1 / 65536)) (38334 / 65536) 0 = ⟨n.x * near, n.y * near, n.z * near⟩ := by
  have h1 : float64.sub 0 (-(1 / 65536)) = 1 / 65536 := by simp only [float64]; rw [zero_sub, neg_neg, fp_low]
  have h2 : float64.sub 0 (38334 / 65536) = -(38334 / 65536) := by
    simp only [float64]; rw [zero_sub]; have := fp_high (-1) (Or.inr rfl); rwa [neg_one_mul] at this
  have h3 : float64.sub (38334 / 65536) (-(1 / 65536)) = 38335 / 65536 := by
    simp only [float64]
    rw [show (38334 / 65536 : ℝ) - -(1 / 65536) = 1 * (38335 / 65536) by norm_num, fp_width 1 (Or.inl rfl), one_mul]
  have h4 : float64.div (1 / 65536) (38335 / 65536) = near := by
    simp only [float64]
    rw [show (1 / 65536 : ℝ) / (38335 / 65536) = 1 / 38335 by norm_num, rn_near_point]
  unfold interpolateIn
  simp only [h1, h2, h3, h4]
  have c1 : ¬ |(1 / 65536 : ℝ)| < MC.epsilon := by norm_num [MC.epsilon, abs_of_pos]
  have c2 : ¬ |(-(38334 / 65536) : ℝ)| < MC.epsilon := by rw [abs_neg]; norm_num [MC.epsilon, abs_of_pos]
  simp only [c1, c2, false_and, if_false, comp_out _ hx, comp_out _ hy, comp_out _ hz]

theorem in_point (n : V3) (hx : n.x = 0 ∨ n.x = 1 ∨ n.x = -1) (hy : n.y = 0 ∨ n.y = 1 ∨ n.y = -1) (hz : n.z = 0 ∨ n.z = 1 ∨ n.z = -1) :
    interpolateIn float64 n ⟨0, 0, 0⟩ (38334 / 65536) (-(1 / 65536)) 0 = ⟨n.x * rest, n.y * rest, n.z * rest⟩ := by
  have h1 : float64.sub 0 (-(1 / 65536)) = 1 / 65536 := by simp only [float64]; rw [zero_sub, neg_neg, fp_low]
  have h2 : float64.sub 0 (38334 / 65536) = -(38334 / 65536) := by
    simp only [float64]; rw [zero_sub]; have := fp_high (-1) (Or.inr rfl); rwa [neg_one_mul] at this
  have h3 : float64.sub (-(1 / 65536)) (38334 / 65536) = -(38335 / 65536) := by
    simp only [float64]
    rw [show (-(1 / 65536) : ℝ) - 38334 / 65536 = -1 * (38335 / 65536) by norm_num, fp_width (-1) (Or.inr rfl), neg_one_mul]
  have h4 : float64.div (-(38334 / 65536)) (-(38335 / 65536)) = far := by
    simp only [float64]
    rw [show (-(38334 / 65536) : ℝ) / -(38335 / 65536) = 38334 / 38335 by norm_num, rn_far_point]
  unfold interpolateIn
  simp only [h1, h2, h3, h4]
  have c1 : ¬ |(1 / 65536 : ℝ)| < MC.epsilon := by norm_num [MC.epsilon, abs_of_pos]
  have c2 : ¬ |(-(38334 / 65536) : ℝ)| < MC.epsilon := by rw [abs_neg]; norm_num [MC.epsilon, abs_of_pos]
  simp only [c1, c2, false_and, if_false, comp_in _ hx, comp_in _ hy, comp_in _ hz]

/-- A small cube about the origin, with a field that rises at a rate below one. -/
noncomputable def speck : SDF3 where
  eval p := 38335 / 65536 * max |p.x| (max |p.y| |p.z|) - 1 / 65536
  bounds := ⟨⟨-1, -1, -1⟩, ⟨1, 1, 1⟩⟩

/-- The points of the unit grid. -/
noncomputable def unitGrid (i j k : ℤ) : V3 := ⟨i, j, k⟩
/-- Its values there. -/
noncomputable def speckAt (i j k : ℤ) : ℝ := speck.eval (unitGrid i j k)

theorem speck_in : speckAt 0 0 0 = -(1 / 65536) := by norm_num [speckAt, speck, unitGrid]

theorem speck_out (i j k : ℤ) (h : ¬ (i = 0 ∧ j = 0 ∧ k = 0)) : 38334 / 65536 ≤ speckAt i j k := by
  have key : (1 : ℝ) ≤ max |(i : ℝ)| (max |(j : ℝ)| |(k : ℝ)|) := by
    have one : ∀ n : ℤ, n ≠ 0 → (1 : ℝ) ≤ |(n : ℝ)| := fun n hn => by exact_mod_cast Int.one_le_abs hn
    by_cases hi : i = 0
    · by_cases hj : j = 0
      · exact le_max_of_le_right (le_max_of_le_right (one k fun hk => h ⟨hi, hj, hk⟩))
      · exact le_max_of_le_right (le_max_of_le_left (one j hj))
    · exact le_max_of_le_left (one i hi)
  simp only [speckAt, speck, unitGrid]
  linarith

theorem speck_one (i j k : ℤ) (hi : |i| ≤ 1) (hj : |j| ≤ 1) (hk : |k| ≤ 1) (h : ¬ (i = 0 ∧ j = 0 ∧ k = 0)) : speckAt i j k = 38334 / 65536 := by
  refine le_antisymm ?_ (speck_out i j k h)
  have key : max |(i : ℝ)| (max |(j : ℝ)| |(k : ℝ)|) ≤ 1 := by
    refine max_le ?_ (max_le ?_ ?_) <;> exact_mod_cast by assumption
  simp only [speckAt, speck, unitGrid]
  linarith

theorem speck_lip : Lip3 speck.eval := by
  have hx : Lip3 fun p => |p.x| := Lip3.abs (f := fun p : V3 => p.x) fun p q => V3.abs_x_le (p.sub q)
  have hy : Lip3 fun p => |p.y| := Lip3.abs (f := fun p : V3 => p.y) fun p q => V3.abs_y_le (p.sub q)
  have hz : Lip3 fun p => |p.z| := Lip3.abs (f := fun p : V3 => p.z) fun p q => V3.abs_z_le (p.sub q)
  have hm := hx.max (hy.max hz)
  intro p q
  have := hm p q
  simp only [speck]
  rw [show ∀ a b : ℝ, (38335 / 65536 * a - 1 / 65536) - (38335 / 65536 * b - 1 / 65536) = 38335 / 65536 * (a - b) by intros; ring, abs_mul,
    abs_of_pos (by norm_num)]
  nlinarith [V3.dist_nonneg p q, abs_nonneg (max |p.x| (max |p.y| |p.z|) - max |q.x| (max |q.y| |q.z|))]

/-- The eight cells about the origin, by the corner that is at the origin. -/
def cellsAround : List (ℤ × ℤ × ℤ) :=
  [(0, 0, 0), (-1, 0, 0), (-1, -1, 0), (0, -1, 0), (0, 0, -1), (-1, 0, -1), (-1, -1, -1), (0, -1, -1)]

/-- The triangles of the eight cells, with `a` for a corner found from the inside and `b` for one found from the outside. -/
def octa (a b : ℝ) : List Tri :=
  [⟨⟨0, b, 0⟩, ⟨0, 0, a⟩, ⟨a, 0, 0⟩⟩, ⟨⟨0, 0, a⟩, ⟨0, a, 0⟩, ⟨-b, 0, 0⟩⟩, ⟨⟨0, 0, a⟩, ⟨-a, 0, 0⟩, ⟨0, -b, 0⟩⟩, ⟨⟨b, 0, 0⟩, ⟨0, 0, a⟩, ⟨0, -a, 0⟩⟩,
   ⟨⟨0, 0, -b⟩, ⟨0, b, 0⟩, ⟨a, 0, 0⟩⟩, ⟨⟨-b, 0, 0⟩, ⟨0, a, 0⟩, ⟨0, 0, -b⟩⟩, ⟨⟨0, -b, 0⟩, ⟨-a, 0, 0⟩, ⟨0, 0, -b⟩⟩, ⟨⟨0, 0, -b⟩, ⟨b, 0, 0⟩, ⟨0, -a, 0⟩⟩]

theorem octa_open (a b : ℝ) (ha : 0 < a) (hb : 0 < b) (h : a ≠ b) : ¬ Closed (octa a b) := by
  intro hc
  have := hc ⟨0, 0, a⟩ ⟨a, 0, 0⟩
  have h1 : a ≠ 0 := ha.ne'
  have h2 : b ≠ 0 := hb.ne'
  have h3 : -b ≠ a := by intro h; linarith
  have h4 : -a ≠ a := by intro h; linarith
  simp [edgeCount, octa, Tri.edges, h1, h1.symm, h2, h2.symm, h.symm, h3, h4] at this


/-- The triangle of a cell with one corner inside. -/
theorem one_cell (c : ℤ × ℤ × ℤ) (m : Fin 8) (row : List (Fin 12)) (hv : cellCorners speckAt c = fun i => if i = m then -(1 / 65536) else 38334 / 65536)
    (hrow : triangleTable.getD (bitsToNat fun i => decide (i = m)) [] = row) :
    rawTrianglesIn float64 (cellCorners unitGrid c) (cellCorners speckAt c) 0 = (triples row).map fun t =>
      ⟨ptsIn float64 (cellCorners unitGrid c) (fun i => if i = m then -(1 / 65536) else 38334 / 65536) 0 t.2.2,
        ptsIn float64 (cellCorners unitGrid c) (fun i => if i = m then -(1 / 65536) else 38334 / 65536) 0 t.2.1,
        ptsIn float64 (cellCorners unitGrid c) (fun i => if i = m then -(1 / 65536) else 38334 / 65536) 0 t.1⟩ := by
  rw [rawTrianglesIn_eq, hv, ← hrow]
  have : neg (fun i : Fin 8 => if i = m then (-(1 / 65536) : ℝ) else 38334 / 65536) 0 = fun i => decide (i = m) := by
    funext i
    unfold neg
    by_cases h : i = m
    · norm_num [h]
    · norm_num [h]
  rw [this]

theorem cell0 : rawTrianglesIn float64 (cellCorners unitGrid (0, 0, 0)) (cellCorners speckAt (0, 0, 0)) 0 =
    [⟨⟨0, rest, 0⟩, ⟨0, 0, near⟩, ⟨near, 0, 0⟩⟩] := by
  rw [one_cell (0, 0, 0) 0 [0, 8, 3] (by
    funext i
    fin_cases i <;> simp [cellCorners, speck_in, speck_one]) (by decide +kernel)]
  simp [triples, ptsIn, pairTable, cellCorners, unitGrid, out_point, in_point, -one_div]

theorem cell1 : rawTrianglesIn float64 (cellCorners unitGrid (-1, 0, 0)) (cellCorners speckAt (-1, 0, 0)) 0 =
    [⟨⟨0, 0, near⟩, ⟨0, near, 0⟩, ⟨-rest, 0, 0⟩⟩] := by
  rw [one_cell (-1, 0, 0) 1 [0, 1, 9] (by
    funext i
    fin_cases i <;> simp [cellCorners, speck_in, speck_one]) (by decide +kernel)]
  simp [triples, ptsIn, pairTable, cellCorners, unitGrid, out_point, in_point, -one_div]

theorem cell2 : rawTrianglesIn float64 (cellCorners unitGrid (-1, -1, 0)) (cellCorners speckAt (-1, -1, 0)) 0 =
    [⟨⟨0, 0, near⟩, ⟨-near, 0, 0⟩, ⟨0, -rest, 0⟩⟩] := by
  rw [one_cell (-1, -1, 0) 2 [1, 2, 10] (by
    funext i
    fin_cases i <;> simp [cellCorners, speck_in, speck_one]) (by decide +kernel)]
  simp [triples, ptsIn, pairTable, cellCorners, unitGrid, out_point, in_point, -one_div]

theorem cell3 : rawTrianglesIn float64 (cellCorners unitGrid (0, -1, 0)) (cellCorners speckAt (0, -1, 0)) 0 =
    [⟨⟨rest, 0, 0⟩, ⟨0, 0, near⟩, ⟨0, -near, 0⟩⟩] := by
  rw [one_cell (0, -1, 0) 3 [3, 11, 2] (by
    funext i
    fin_cases i <;> simp [cellCorners, speck_in, speck_one]) (by decide +kernel)]
  simp [triples, ptsIn, pairTable, cellCorners, unitGrid, out_point, in_point, -one_div]

theorem cell4 : rawTrianglesIn float64 (cellCorners unitGrid (0, 0, -1)) (cellCorners speckAt (0, 0, -1)) 0 =
    [⟨⟨0, 0, -rest⟩, ⟨0, rest, 0⟩, ⟨near, 0, 0⟩⟩] := by
  rw [one_cell (0, 0, -1) 4 [4, 7, 8] (by
    funext i
    fin_cases i <;> simp [cellCorners, speck_in, speck_one]) (by decide +kernel)]
  simp [triples, ptsIn, pairTable, cellCorners, unitGrid, out_point, in_point, -one_div]

theorem cell5 : rawTrianglesIn float64 (cellCorners unitGrid (-1, 0, -1)) (cellCorners speckAt (-1, 0, -1)) 0 =
    [⟨⟨-rest, 0, 0⟩, ⟨0, near, 0⟩, ⟨0, 0, -rest⟩⟩] := by
  rw [one_cell (-1, 0, -1) 5 [9, 5, 4] (by
    funext i
    fin_cases i <;> simp [cellCorners, speck_in, speck_one]) (by decide +kernel)]
  simp [triples, ptsIn, pairTable, cellCorners, unitGrid, out_point, in_point, -one_div]

theorem cell6 : rawTrianglesIn float64 (cellCorners unitGrid (-1, -1, -1)) (cellCorners speckAt (-1, -1, -1)) 0 =
    [⟨⟨0, -rest, 0⟩, ⟨-near, 0, 0⟩, ⟨0, 0, -rest⟩⟩] := by
  rw [one_cell (-1, -1, -1) 6 [10, 6, 5] (by
    funext i
    fin_cases i <;> simp [cellCorners, speck_in, speck_one]) (by decide +kernel)]
  simp [triples, ptsIn, pairTable, cellCorners, unitGrid, out_point, in_point, -one_div]

theorem cell7 : rawTrianglesIn float64 (cellCorners unitGrid (0, -1, -1)) (cellCorners speckAt (0, -1, -1)) 0 =
    [⟨⟨0, 0, -rest⟩, ⟨rest, 0, 0⟩, ⟨0, -near, 0⟩⟩] := by
  rw [one_cell (0, -1, -1) 7 [7, 6, 11] (by
    funext i
    fin_cases i <;> simp [cellCorners, speck_in, speck_one]) (by decide +kernel)]
  simp [triples, ptsIn, pairTable, cellCorners, unitGrid, out_point, in_point, -one_div]

theorem speck_mesh : (cellsAround.flatMap fun c => rawTrianglesIn float64 (cellCorners unitGrid c) (cellCorners speckAt c) 0) = octa near rest := by
  simp only [cellsAround, List.flatMap_cons, List.flatMap_nil, cell0, cell1, cell2, cell3, cell4, cell5, cell6, cell7, octa]
  rfl

theorem speck_cells (c : ℤ × ℤ × ℤ) (h : Mixed (cellCorners speckAt c) 0) : c ∈ cellsAround := by
  obtain ⟨⟨a, ha⟩, -⟩ := h
  have zero : ∀ i j k : ℤ, speckAt i j k < 0 → i = 0 ∧ j = 0 ∧ k = 0 := fun i j k h => by
    by_contra h'
    have := speck_out i j k h'
    linarith [show (0 : ℝ) < 38334 / 65536 by norm_num]
  obtain ⟨i, j, k⟩ := c
  have : (i = 0 ∨ i = -1) ∧ (j = 0 ∨ j = -1) ∧ (k = 0 ∨ k = -1) := by
    fin_cases a <;> obtain ⟨h1, h2, h3⟩ := zero _ _ _ ha <;> simp only at h1 h2 h3 <;> omega
  rcases this with ⟨rfl | rfl, rfl | rfl, rfl | rfl⟩ <;> decide

theorem speck_finite : {c : ℤ × ℤ × ℤ | speckAt c.1 c.2.1 c.2.2 < 0}.Finite := by
  refine (Set.finite_singleton ((0, 0, 0) : ℤ × ℤ × ℤ)).subset fun c hc => ?_
  by_contra h'
  have := speck_out c.1 c.2.1 c.2.2 fun h => h' (by
    obtain ⟨h1, h2, h3⟩ := h
    exact Prod.ext h1 (Prod.ext h2 h3))
  have hc' : speckAt c.1 c.2.1 c.2.2 < 0 := hc
  linarith [show (0 : ℝ) < 38334 / 65536 by norm_num]

/-- A coordinate as an STL file stores it: rounded once more, to 24 binary digits. -/
noncomputable def single (t : Tri) : Tri :=
  ⟨⟨rn 24 t.a.x, rn 24 t.a.y, rn 24 t.a.z⟩, ⟨rn 24 t.b.x, rn 24 t.b.y, rn 24 t.b.z⟩, ⟨rn 24 t.c.x, rn 24 t.c.y, rn 24 t.c.z⟩⟩

theorem octa_filter (deg : Tri → Bool) (hdeg : ∀ t, deg t = true → t.a = t.b ∨ t.b = t.c ∨ t.c = t.a) (a b : ℝ) (ha : 0 < a) (hb : 0 < b) :
    (octa a b).filter (fun t => !deg t) = octa a b := by
  rw [List.filter_eq_self]
  intro t ht
  rw [Bool.not_eq_true']
  by_contra h
  have h := hdeg t (by simpa using h)
  have h1 : a ≠ 0 := ha.ne'
  have h2 : b ≠ 0 := hb.ne'
  simp only [octa, List.mem_cons, List.not_mem_nil, or_false] at ht
  rcases ht with rfl | rfl | rfl | rfl | rfl | rfl | rfl | rfl <;> simp [h1, h1.symm, h2, h2.symm] at h

/-- **C72 (the claim that fails).**  There is a solid with a field that never rises faster than distance, and a grid, on which the
mesh found with exact arithmetic is closed, and the mesh found in float64 is not: two cells give different places for the same
corner.  The two places stay different when the coordinates are rounded to float32 for an STL file.  The filter for triangles with two
equal corners is not the reason. -/
theorem C72_closed_wrong : ∃ s : SDF3, Lip3 s.eval ∧ ∃ cells : List (ℤ × ℤ × ℤ), cells.Nodup ∧
    let g : ℤ → ℤ → ℤ → V3 := fun i j k => ⟨i, j, k⟩
    let v : ℤ → ℤ → ℤ → ℝ := fun i j k => s.eval (g i j k)
    (∀ c, Mixed (cellCorners v c) 0 → c ∈ cells) ∧
    (∀ c ∈ cells, ∀ a, float64.sub (cellCorners v c a) 0 = cellCorners v c a) ∧
    Closed (cells.flatMap fun c => trianglesIn exact (fun _ => false) (cellCorners g c) (cellCorners v c) 0) ∧
    ∀ deg : Tri → Bool, (∀ t, deg t = true → t.a = t.b ∨ t.b = t.c ∨ t.c = t.a) →
      ¬ Closed (cells.flatMap fun c => trianglesIn float64 deg (cellCorners g c) (cellCorners v c) 0) ∧
      ¬ Closed ((cells.flatMap fun c => trianglesIn float64 deg (cellCorners g c) (cellCorners v c) 0).map single) := by
  have hn : 0 < near := by norm_num [near]
  have hr : 0 < rest := by norm_num [rest]
  refine ⟨speck, speck_lip, cellsAround, by decide, speck_cells, ?_, ?_, fun deg hdeg => ?_⟩
  · have val : ∀ i j k : ℤ, |i| ≤ 1 → |j| ≤ 1 → |k| ≤ 1 → float64.sub (speckAt i j k) 0 = speckAt i j k := fun i j k hi hj hk => by
      simp only [float64, sub_zero]
      by_cases h : i = 0 ∧ j = 0 ∧ k = 0
      · obtain ⟨rfl, rfl, rfl⟩ := h
        rw [speck_in]
        exact rn_exact (-16) (-(2 ^ 52)) (by norm_num) (by norm_num) (by norm_num)
      · rw [speck_one i j k hi hj hk h]
        have := fp_high 1 (Or.inl rfl)
        rwa [one_mul] at this
    intro c hc a
    simp only [cellsAround, List.mem_cons, List.not_mem_nil, or_false] at hc
    rcases hc with rfl | rfl | rfl | rfl | rfl | rfl | rfl | rfl <;> fin_cases a <;> exact val _ _ _ (by decide) (by decide) (by decide)
  · have h := cells_closed unitGrid speckAt 0 speck_finite cellsAround (by decide) speck_cells
    have e : ∀ c, trianglesIn exact (fun _ => false) (cellCorners unitGrid c) (cellCorners speckAt c) 0 =
        rawTriangles (cellCorners unitGrid c) (cellCorners speckAt c) 0 := fun c => by
      unfold trianglesIn
      rw [rawTrianglesIn_exact]
      simp
    change Closed (cellsAround.flatMap fun c => trianglesIn exact (fun _ => false) (cellCorners unitGrid c) (cellCorners speckAt c) 0)
    simp only [e]
    exact h
  · have e : (cellsAround.flatMap fun c => trianglesIn float64 deg (cellCorners unitGrid c) (cellCorners speckAt c) 0) = octa near rest := by
      rw [← octa_filter deg hdeg near rest hn hr, ← speck_mesh, List.filter_flatMap]
      rfl
    change ¬ Closed (cellsAround.flatMap fun c => trianglesIn float64 deg (cellCorners unitGrid c) (cellCorners speckAt c) 0) ∧
      ¬ Closed ((cellsAround.flatMap fun c => trianglesIn float64 deg (cellCorners unitGrid c) (cellCorners speckAt c) 0).map single)
    rw [e]
    refine ⟨octa_open near rest hn hr (by norm_num [near, rest]), ?_⟩
    have e' : (octa near rest).map single = octa (14340833 * (2 : ℝ) ^ (-39 : ℤ)) (14340832 * (2 : ℝ) ^ (-39 : ℤ)) := by
      simp only [octa, single, List.map_cons, List.map_nil, rn_zero, rn_neg, single_near, single_rest]
    rw [e']
    exact octa_open _ _ (by norm_num) (by norm_num) (by norm_num)

/-- The hypotheses of `C72_nearly_closed_partial` are met by this very solid, in float64. -/
example : ∃ m : List Tri, Closed m ∧ List.Forall₂ (fun t t' : Tri => ∀ k, |(t.vertex k).x - (t'.vertex k).x| ≤ 11 * (2 : ℝ) ^ (-53 : ℤ) * 1 ∧
      |(t.vertex k).y - (t'.vertex k).y| ≤ 11 * (2 : ℝ) ^ (-53 : ℤ) * 1 ∧ |(t.vertex k).z - (t'.vertex k).z| ≤ 11 * (2 : ℝ) ^ (-53 : ℤ) * 1)
    (cellsAround.flatMap fun c => trianglesIn float64 (fun _ => false) (cellCorners unitGrid c) (cellCorners speckAt c) 0) m := by
  refine C72_nearly_closed_partial float64 _ float64_accurate (by norm_num) (by norm_num) unitGrid speckAt speck_finite cellsAround (by decide) speck_cells
    ?_ 1 ?_
  · have val : ∀ i j k : ℤ, |i| ≤ 1 → |j| ≤ 1 → |k| ≤ 1 → float64.sub 0 (speckAt i j k) = -speckAt i j k := fun i j k hi hj hk => by
      simp only [float64, zero_sub]
      by_cases h : i = 0 ∧ j = 0 ∧ k = 0
      · obtain ⟨rfl, rfl, rfl⟩ := h
        rw [speck_in, neg_neg, fp_low]
      · rw [speck_one i j k hi hj hk h]
        have := fp_high (-1) (Or.inr rfl)
        rwa [neg_one_mul] at this
    intro c hc a
    simp only [cellsAround, List.mem_cons, List.not_mem_nil, or_false] at hc
    rcases hc with rfl | rfl | rfl | rfl | rfl | rfl | rfl | rfl <;> fin_cases a <;> exact val _ _ _ (by decide) (by decide) (by decide)
  · have val : ∀ i j k : ℤ, |i| ≤ 1 → |j| ≤ 1 → |k| ≤ 1 → |(unitGrid i j k).x| ≤ 1 ∧ |(unitGrid i j k).y| ≤ 1 ∧ |(unitGrid i j k).z| ≤ 1 :=
      fun i j k hi hj hk => by
        simp only [unitGrid]
        exact ⟨by exact_mod_cast hi, by exact_mod_cast hj, by exact_mod_cast hk⟩
    intro c hc a
    simp only [cellsAround, List.mem_cons, List.not_mem_nil, or_false] at hc
    rcases hc with rfl | rfl | rfl | rfl | rfl | rfl | rfl | rfl <;> fin_cases a <;> exact val _ _ _ (by decide) (by decide) (by decide)

end Sdf.MC
