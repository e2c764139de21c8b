import Verif.Lemmas.OctreeCells
import Verif.Lemmas.MCOutward
import Mathlib.Algebra.Order.Round

/-! Helper lemmas: every crossed cell edge carries a vertex of the mesh; walking along grid edges; nearest grid vertex. -/

namespace Sdf.MC

open Classical

theorem crossed_used_table : ∀ b0 b1 b2 b3 b4 b5 b6 b7 : Bool,
    let b : Fin 8 → Bool := ![b0, b1, b2, b3, b4, b5, b6, b7]
    ∀ e : Fin 12, Bool.xor (b (pairTable e).1) (b (pairTable e).2) = true →
      (triangleTable.getD (bitsToNat b) []).any (fun e' => Nat.beq e'.val e.val) = true := by decide +kernel

/-- Every edge whose ends have different signs is used by a triangle of the pattern. -/
theorem crossed_used (b : Fin 8 → Bool) (e : Fin 12) (h : b (pairTable e).1 ≠ b (pairTable e).2) :
    e ∈ triangleTable.getD (bitsToNat b) [] := by
  have h1 := forall_bits (P := fun b => ∀ e : Fin 12, Bool.xor (b (pairTable e).1) (b (pairTable e).2) = true →
      (triangleTable.getD (bitsToNat b) []).any (fun e' => Nat.beq e'.val e.val) = true) crossed_used_table b e
    (by cases h1 : b (pairTable e).1 <;> cases h2 : b (pairTable e).2 <;> simp_all)
  obtain ⟨e', he', hb⟩ := List.any_eq_true.mp h1
  have : e' = e := Fin.ext (Nat.eq_of_beq_eq_true hb)
  exact this ▸ he'

theorem mem_triples {α : Type} : ∀ (l : List α) (e : α), l.length % 3 = 0 → e ∈ l →
    ∃ t ∈ triples l, e = t.1 ∨ e = t.2.1 ∨ e = t.2.2
  | [], e, _, h => by simp at h
  | [_], e, h, _ => by simp at h
  | [_, _], e, h, _ => by simp at h
  | a :: b :: c :: r, e, hl, h => by
    simp only [List.length_cons] at hl
    simp only [List.mem_cons] at h
    rcases h with h | h | h | h
    · exact ⟨(a, b, c), by simp [triples], Or.inl h⟩
    · exact ⟨(a, b, c), by simp [triples], Or.inr (Or.inl h)⟩
    · exact ⟨(a, b, c), by simp [triples], Or.inr (Or.inr h)⟩
    · obtain ⟨t, ht, he⟩ := mem_triples r e (by omega) h
      exact ⟨t, by simp [triples, ht], he⟩

/-- A cell edge that is crossed carries a corner of a triangle of the cell. -/
theorem crossed_vertex (p : Fin 8 → V3) (v : Fin 8 → ℝ) (x : ℝ) (e : Fin 12)
    (h : v (pairTable e).1 < x ∧ x ≤ v (pairTable e).2 ∨ v (pairTable e).2 < x ∧ x ≤ v (pairTable e).1) :
    ∃ t ∈ rawTriangles p v x, ptsAll p v x e = t.a ∨ ptsAll p v x e = t.b ∨ ptsAll p v x e = t.c := by
  have hne : neg v x (pairTable e).1 ≠ neg v x (pairTable e).2 := by
    rcases h with ⟨h1, h2⟩ | ⟨h1, h2⟩
    · simp [neg, h1, h2]
    · simp [neg, h1, h2]
  obtain ⟨t, ht, he⟩ := mem_triples _ e (len_facts (neg v x)).2.1 (crossed_used _ e hne)
  refine ⟨⟨ptsAll p v x t.2.2, ptsAll p v x t.2.1, ptsAll p v x t.1⟩, ?_, ?_⟩
  · rw [rawTriangles_eq, List.mem_map]
    exact ⟨t, ht, rfl⟩
  · rcases he with rfl | rfl | rfl
    · exact Or.inr (Or.inr rfl)
    · exact Or.inr (Or.inl rfl)
    · exact Or.inl rfl

/-- Between two integers at which a predicate differs there are neighbours at which it differs. -/
theorem step_between (P : ℤ → Prop) (a b : ℤ) (h : ¬ (P a ↔ P b)) :
    ∃ n, min a b ≤ n ∧ n + 1 ≤ max a b ∧ ¬ (P n ↔ P (n + 1)) := by
  have key : ∀ (m : ℕ) (a : ℤ), ¬ (P a ↔ P (a + m)) → ∃ n, a ≤ n ∧ n + 1 ≤ a + m ∧ ¬ (P n ↔ P (n + 1)) := by
    intro m
    induction m with
    | zero => intro a h; simp at h
    | succ m ih =>
      intro a h
      by_cases hs : P a ↔ P (a + 1)
      · have h' : ¬ (P (a + 1) ↔ P (a + 1 + m)) := by
          rw [← hs]
          have : a + 1 + (m : ℤ) = a + ((m + 1 : ℕ) : ℤ) := by push_cast; ring
          rw [this]; exact h
        obtain ⟨n, h1, h2, h3⟩ := ih (a + 1) h'
        exact ⟨n, by omega, by push_cast; omega, h3⟩
      · exact ⟨a, le_refl _, by push_cast; omega, hs⟩
  rcases le_total a b with hab | hab
  · obtain ⟨n, h1, h2, h3⟩ := key (b - a).toNat a (by
      have : a + ((b - a).toNat : ℤ) = b := by omega
      rw [this]; exact h)
    exact ⟨n, by omega, by omega, h3⟩
  · obtain ⟨n, h1, h2, h3⟩ := key (a - b).toNat b (by
      have : b + ((a - b).toNat : ℤ) = a := by omega
      rw [this]; exact fun hh => h hh.symm)
    exact ⟨n, by omega, by omega, h3⟩

/-- `w` is in the coordinate box of `u` and `v`. -/
def InBox (u v w : V3) : Prop :=
  (min u.x v.x ≤ w.x ∧ w.x ≤ max u.x v.x) ∧ (min u.y v.y ≤ w.y ∧ w.y ≤ max u.y v.y) ∧ (min u.z v.z ≤ w.z ∧ w.z ≤ max u.z v.z)

theorem sq_between {a b w p : ℝ} (h : min a b ≤ w ∧ w ≤ max a b) : (w - p) * (w - p) ≤ (a - p) * (a - p) + (b - p) * (b - p) := by
  rcases le_total a b with hab | hab
  · rw [min_eq_left hab, max_eq_right hab] at h
    rcases le_total p w with hp | hp
    · nlinarith [mul_self_nonneg (a - p)]
    · nlinarith [mul_self_nonneg (b - p)]
  · rw [min_eq_right hab, max_eq_left hab] at h
    rcases le_total p w with hp | hp
    · nlinarith [mul_self_nonneg (b - p)]
    · nlinarith [mul_self_nonneg (a - p)]

/-- A point in the coordinate box of two points is no further away than the hypotenuse over their two distances. -/
theorem InBox.dist {u v w : V3} (h : InBox u v w) (p : V3) {R : ℝ} (hu : V3.dist u p ≤ R) (hv : V3.dist v p ≤ R) :
    V3.dist w p ≤ Real.sqrt 2 * R := by
  have hR : 0 ≤ R := le_trans (V3.norm_nonneg _) hu
  obtain ⟨hx, hy, hz⟩ := h
  have ex := sq_between (p := p.x) hx
  have ey := sq_between (p := p.y) hy
  have ez := sq_between (p := p.z) hz
  unfold V3.dist V3.norm at hu hv ⊢
  rw [Real.sqrt_le_left hR] at hu hv
  simp only [V3.sub] at hu hv ⊢
  rw [Real.sqrt_le_left (by positivity), mul_pow, Real.sq_sqrt (by norm_num)]
  nlinarith

theorem gridPos_between {r : ℝ} (hr : 0 < r) {n a b : ℤ} (c : ℝ) (h1 : min a b ≤ n) (h2 : n + 1 ≤ max a b) {u : ℝ}
    (hu0 : 0 ≤ u) (hu1 : u ≤ 1) :
    min (c + r * a) (c + r * b) ≤ c + r * (n + u) ∧ c + r * (n + u) ≤ max (c + r * a) (c + r * b) := by
  have h1' : min (a : ℝ) b ≤ n := by exact_mod_cast h1
  have h2' : (n : ℝ) + 1 ≤ max (a : ℝ) b := by exact_mod_cast h2
  rw [max_add_add_left, min_add_add_left, ← mul_max_of_nonneg _ _ hr.le, ← mul_min_of_nonneg _ _ hr.le]
  constructor
  · have : r * min (a : ℝ) b ≤ r * (n + u) := mul_le_mul_of_nonneg_left (by linarith) hr.le
    linarith
  · have : r * (n + u) ≤ r * max (a : ℝ) b := mul_le_mul_of_nonneg_left (by linarith) hr.le
    linarith

theorem ends_between (x y : ℝ) : (min x y ≤ x ∧ x ≤ max x y) ∧ (min x y ≤ y ∧ y ≤ max x y) :=
  ⟨⟨min_le_left _ _, le_max_left _ _⟩, ⟨min_le_right _ _, le_max_right _ _⟩⟩

/-- The corner of the mesh on the edge from `(n,j,k)` to its successor along an axis, where the sign changes. -/
theorem cross_axis (o : V3) (r : ℝ) (v : ℤ → ℤ → ℤ → ℝ) (i j k : ℤ) (e : Fin 12) (he : e = 0 ∨ e = 3 ∨ e = 8)
    (h : ¬ (cellCorners v (i, j, k) (pairTable e).1 < 0 ↔ cellCorners v (i, j, k) (pairTable e).2 < 0)) :
    Mixed (cellCorners v (i, j, k)) 0 ∧
    ∃ t ∈ rawTriangles (cellCorners (gridPos o r) (i, j, k)) (cellCorners v (i, j, k)) 0, ∃ q : Fin 3, ∃ u : ℝ, 0 ≤ u ∧ u ≤ 1 ∧
      t.vertex q = (if e = 0 then ⟨o.x + r * (i + u), o.y + r * j, o.z + r * k⟩
        else if e = 3 then ⟨o.x + r * i, o.y + r * (j + u), o.z + r * k⟩ else ⟨o.x + r * i, o.y + r * j, o.z + r * (k + u)⟩) := by
  set V := cellCorners v (i, j, k) with hV
  have hc : V (pairTable e).1 < 0 ∧ 0 ≤ V (pairTable e).2 ∨ V (pairTable e).2 < 0 ∧ 0 ≤ V (pairTable e).1 := by
    rcases lt_or_ge (V (pairTable e).1) 0 with h1 | h1 <;> rcases lt_or_ge (V (pairTable e).2) 0 with h2 | h2
    · exact absurd (by simp [h1, h2]) h
    · exact Or.inl ⟨h1, h2⟩
    · exact Or.inr ⟨h2, h1⟩
    · exact absurd (by simp [not_lt.mpr h1, not_lt.mpr h2]) h
  refine ⟨?_, ?_⟩
  · rcases hc with ⟨h1, h2⟩ | ⟨h1, h2⟩
    · exact ⟨⟨_, h1⟩, ⟨_, h2⟩⟩
    · exact ⟨⟨_, h1⟩, ⟨_, h2⟩⟩
  obtain ⟨t, ht, hw⟩ := crossed_vertex (cellCorners (gridPos o r) (i, j, k)) V 0 e hc
  have hq : ∃ q : Fin 3, t.vertex q = ptsAll (cellCorners (gridPos o r) (i, j, k)) V 0 e := by
    rcases hw with hw | hw | hw
    · exact ⟨0, hw.symm⟩
    · exact ⟨1, hw.symm⟩
    · exact ⟨2, hw.symm⟩
  obtain ⟨q, hq⟩ := hq
  obtain ⟨T0, T1⟩ := interpT_range (v1 := V (pairTable e).1) (v2 := V (pairTable e).2) (x := 0) (by
    intro hh; exact h (by rw [hh]))
  refine ⟨t, ht, q, ?_⟩
  rw [hq, ptsAll, interpolate_T]
  generalize interpT (V (pairTable e).1) (V (pairTable e).2) 0 = T at T0 T1
  rcases he with rfl | rfl | rfl
  · refine ⟨T, T0, T1, ?_⟩
    simp only [pairTable, cellCorners, gridPos]
    ext <;> simp <;> ring
  · refine ⟨1 - T, by linarith, by linarith, ?_⟩
    simp only [pairTable, cellCorners, gridPos]
    ext <;> simp <;> ring
  · refine ⟨T, T0, T1, ?_⟩
    simp only [pairTable, cellCorners, gridPos]
    ext <;> simp <;> ring

/-- Two grid vertices of different sign: a cell with a sign change has a triangle with a corner in their coordinate box. -/
theorem grid_crossing (o : V3) {r : ℝ} (hr : 0 < r) (v : ℤ → ℤ → ℤ → ℝ) (i j k i' j' k' : ℤ)
    (h : ¬ (v i j k < 0 ↔ v i' j' k' < 0)) :
    ∃ c, Mixed (cellCorners v c) 0 ∧ ∃ t ∈ rawTriangles (cellCorners (gridPos o r) c) (cellCorners v c) 0, ∃ q : Fin 3,
      InBox (gridPos o r i j k) (gridPos o r i' j' k') (t.vertex q) := by
  by_cases h1 : v i j k < 0 ↔ v i' j k < 0
  · by_cases h2 : v i' j k < 0 ↔ v i' j' k < 0
    · have h3 : ¬ (v i' j' k < 0 ↔ v i' j' k' < 0) := fun h3 => h (h1.trans (h2.trans h3))
      obtain ⟨n, n1, n2, n3⟩ := step_between (fun n => v i' j' n < 0) k k' h3
      obtain ⟨hm, t, ht, q, u, u0, u1, hv⟩ := cross_axis o r v i' j' n 8 (by simp) (by simpa [cellCorners, pairTable] using n3)
      refine ⟨_, hm, t, ht, q, ?_⟩
      rw [hv, if_neg (by decide), if_neg (by decide)]
      exact ⟨(ends_between _ _).2, (ends_between _ _).2, gridPos_between hr _ n1 n2 u0 u1⟩
    · obtain ⟨n, n1, n2, n3⟩ := step_between (fun n => v i' n k < 0) j j' h2
      obtain ⟨hm, t, ht, q, u, u0, u1, hv⟩ := cross_axis o r v i' n k 3 (by simp) (by
        simpa [cellCorners, pairTable] using fun hh => n3 hh.symm)
      refine ⟨_, hm, t, ht, q, ?_⟩
      rw [hv, if_neg (by decide), if_pos rfl]
      exact ⟨(ends_between _ _).2, gridPos_between hr _ n1 n2 u0 u1, (ends_between _ _).1⟩
  · obtain ⟨n, n1, n2, n3⟩ := step_between (fun n => v n j k < 0) i i' h1
    obtain ⟨hm, t, ht, q, u, u0, u1, hv⟩ := cross_axis o r v n j k 0 (by simp) (by simpa [cellCorners, pairTable] using n3)
    refine ⟨_, hm, t, ht, q, ?_⟩
    rw [hv, if_pos rfl]
    exact ⟨gridPos_between hr _ n1 n2 u0 u1, (ends_between _ _).1, (ends_between _ _).1⟩

/-- No value within the tolerance of the iso value: no triangle of a grid cell has two equal corners. -/
theorem raw_distinct (o : V3) {r : ℝ} (hr : 0 < r) (v : Fin 8 → ℝ) (c : ℤ × ℤ × ℤ) (hfar : ∀ a, epsilon ≤ |v a|) (t : Tri)
    (ht : t ∈ rawTriangles (cellCorners (gridPos o r) c) v 0) : ¬ (t.a = t.b ∨ t.b = t.c ∨ t.c = t.a) := by
  obtain ⟨i, j, k⟩ := c
  rw [cellCorners_grid] at ht
  obtain ⟨a, b, -, -, h⟩ := out_cube (gridPos o r i j k) hr v 0 t ht
  have hp := h fun q => ⟨by simpa using hfar (a q), by simpa using hfar (b q)⟩
  intro hd
  have hn : t.normal = ⟨0, 0, 0⟩ := by
    obtain ⟨A, B, C⟩ := t
    simp only [Tri.normal] at hd ⊢
    rcases hd with rfl | rfl | rfl <;> ext <;> simp only [V3.cross, V3.sub] <;> ring
  rw [hn] at hp
  simp [V3.dot] at hp

/-- A grid vertex within half a cell diagonal of a point. -/
theorem near_vertex (o : V3) {r : ℝ} (hr : 0 < r) (p : V3) : ∃ i j k : ℤ, V3.dist (gridPos o r i j k) p ≤ Real.sqrt 3 / 2 * r := by
  have key : ∀ c x : ℝ, ∃ n : ℤ, (c + r * n - x) * (c + r * n - x) ≤ r * r / 4 := by
    intro c x
    refine ⟨round ((x - c) / r), ?_⟩
    have h := abs_le.mp (abs_sub_round ((x - c) / r))
    set n : ℝ := ((round ((x - c) / r) : ℤ) : ℝ)
    have e : c + r * n - x = - (r * ((x - c) / r - n)) := by field_simp; ring
    rw [e]
    have : ((x - c) / r - n) * ((x - c) / r - n) ≤ 1 / 4 := by nlinarith [h.1, h.2]
    nlinarith [mul_pos hr hr]
  obtain ⟨i, hi⟩ := key o.x p.x
  obtain ⟨j, hj⟩ := key o.y p.y
  obtain ⟨k, hk⟩ := key o.z p.z
  refine ⟨i, j, k, ?_⟩
  unfold V3.dist V3.norm
  rw [Real.sqrt_le_left (by positivity)]
  simp only [V3.sub, gridPos]
  have : (Real.sqrt 3 / 2 * r) ^ 2 = 3 / 4 * (r * r) := by
    have := Real.sq_sqrt (show (0 : ℝ) ≤ 3 by norm_num)
    calc _ = Real.sqrt 3 ^ 2 / 4 * (r * r) := by ring
      _ = _ := by rw [this]
  rw [this]
  linarith

end Sdf.MC

namespace Sdf.Octree

open Classical MC

theorem cell_edge {s : SDF3} {meshCells : ℤ} {oc : State} (f : InitFacts s meshCells oc) :
    1.01 * longestSide s.bounds / meshCells = 2 * oc.dc.resolution := by
  have hm : (2 : ℝ) ≤ (meshCells : ℝ) := by exact_mod_cast f.m_ge
  rw [f.res, longAxis_eq]; unfold longestSide
  have hne : (meshCells : ℝ) ≠ 0 := by linarith
  rw [max_comm (s.bounds.hi.z - s.bounds.lo.z), max_assoc]
  field_simp

/-- Between two grid vertices of different sign the renderer delivers a triangle. -/
theorem delivered_between (s : SDF3) (meshCells : ℤ) (hb : s.bounds.Solid) (hl : Lip3 s.eval) (hbd : s.Bounded)
    (deg : Tri → Bool) (hdeg : ∀ t, deg t = true → t.a = t.b ∨ t.b = t.c ∨ t.c = t.a)
    (oc oc' : State) (outs : List (List Tri)) (h0 : Initial s meshCells oc) (h : Calls deg oc outs oc' true)
    (hfar : ∀ c ∈ allCells (oc.dc.levels - 1), ∀ a, 1e-12 ≤ |s.eval (oc.dc.pos (leafCorners c a))|)
    (i j k i' j' k' : ℤ)
    (hs : ¬ (s.eval (gridPos oc.dc.origin (2 * oc.dc.resolution) i j k) < 0
      ↔ s.eval (gridPos oc.dc.origin (2 * oc.dc.resolution) i' j' k') < 0)) :
    ∃ t ∈ outs.flatten, ∃ q : Fin 3, InBox (gridPos oc.dc.origin (2 * oc.dc.resolution) i j k)
      (gridPos oc.dc.origin (2 * oc.dc.resolution) i' j' k') (t.vertex q) := by
  have hz : ∀ c ∈ allCells (oc.dc.levels - 1), Clear oc.dc c := by
    refine fun c hc => Or.inl fun a h1 => ?_
    rw [(initial_facts hb h0).dc_s] at h1
    have := hfar c hc a
    rw [h1, abs_zero] at this
    norm_num at this
  obtain ⟨-, cells, -, hcov, hin, hp⟩ := octree_cells_in s meshCells hb hl hbd deg oc oc' outs h0 h hz
  have hr := res_pos hb (initial_facts hb h0)
  set g := gridPos oc.dc.origin (2 * oc.dc.resolution) with hg
  set v : ℤ → ℤ → ℤ → ℝ := fun i j k => s.eval (g i j k) with hv
  obtain ⟨c, hm, t, ht, q, hq⟩ := grid_crossing oc.dc.origin (r := 2 * oc.dc.resolution) (by linarith) v i j k i' j' k' hs
  refine ⟨t, hp.mem_iff.mpr (List.mem_filter.mpr ⟨List.mem_flatMap.mpr ⟨c, hcov c hm, ht⟩, ?_⟩), q, hq⟩
  have hva : ∀ a, cellCorners v c a = s.eval (cellCorners g c a) := by
    intro a
    obtain ⟨i, j, k⟩ := c
    fin_cases a <;> rfl
  have hd := raw_distinct oc.dc.origin (r := 2 * oc.dc.resolution) (by linarith) (cellCorners v c) c (by
    intro a
    obtain ⟨c', hc', he⟩ := hin c hm a
    rw [hva, he]
    exact hfar c' hc' a) t ht
  simp only [Bool.not_eq_true', ← Bool.not_eq_true]
  exact fun hh => hd (hdeg t hh)

end Sdf.Octree
