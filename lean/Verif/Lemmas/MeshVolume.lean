import Verif.Lemmas.OctreeCells
import Verif.Spec.Volume
import Mathlib.MeasureTheory.Constructions.BorelSpace.Basic

/-! Helper lemmas: enclosed volumes of closed meshes, and volumes of sets of grid cells. -/

namespace Sdf

namespace MC

open Classical

/-- On a closed surface, sums over the directed edges of something that changes sign with the direction are 0. -/
theorem closed_sum {m : List Tri} (h : Closed m) (f : V3 → V3 → ℝ) (hf : ∀ p q, f p q = - f q p) :
    (m.map fun t => f t.a t.b + f t.b t.c + f t.c t.a).sum = 0 := by
  set E := m.flatMap Tri.edges
  have hp : E.Perm (swapP E) := by
    rw [List.perm_iff_count]
    rintro ⟨p, q⟩
    rw [count_swap]
    exact h p q
  have e1 : ∀ l : List Tri, (l.map fun t => f t.a t.b + f t.b t.c + f t.c t.a).sum = ((l.flatMap Tri.edges).map fun e => f e.1 e.2).sum := by
    intro l
    induction l with
    | nil => simp
    | cons t l ih => rw [List.map_cons, List.sum_cons, ih, List.flatMap_cons, List.map_append, List.sum_append]; simp [Tri.edges]; ring
  rw [e1]
  have e2 : ∀ l : List (V3 × V3), ((swapP l).map fun e => f e.1 e.2).sum = - (l.map fun e => f e.1 e.2).sum := by
    intro l
    induction l with
    | nil => simp [swapP]
    | cons e l ih =>
      simp only [swapP, List.map_cons, List.sum_cons, Prod.fst_swap, Prod.snd_swap] at ih ⊢
      rw [ih, hf]; ring
  have e3 := (hp.map fun e => f e.1 e.2).sum_eq
  rw [e2] at e3
  linarith

/-- The volume of a closed mesh, measured from the plane z = 0. -/
theorem signedVolume_under {m : List Tri} (h : Closed m) : 6 * signedVolume m = (m.map fun t => under t.a t.b t.c).sum := by
  have h0 := closed_sum h (fun p q => (p.z + q.z) * (p.y * q.x - p.x * q.y)) (fun p q => by ring)
  have : ∀ l : List Tri, 6 * signedVolume l = (l.map fun t => under t.a t.b t.c).sum
      + (l.map fun t => (t.a.z + t.b.z) * (t.a.y * t.b.x - t.a.x * t.b.y) + (t.b.z + t.c.z) * (t.b.y * t.c.x - t.b.x * t.c.y)
        + (t.c.z + t.a.z) * (t.c.y * t.a.x - t.c.x * t.a.y)).sum := by
    intro l
    induction l with
    | nil => simp [signedVolume]
    | cons t l ih =>
      simp only [signedVolume, List.map_cons, List.sum_cons] at ih ⊢
      rw [mul_add, ih]
      simp only [under, flat, V3.dot, V3.cross]
      ring
  rw [this, h0, add_zero]

theorem under_degenerate (t : Tri) (h : t.a = t.b ∨ t.b = t.c ∨ t.c = t.a) : under t.a t.b t.c = 0 := by
  unfold under flat
  rcases h with h | h | h <;> rw [h] <;> ring

theorem under_filter (p : Tri → Bool) : ∀ m : List Tri, (∀ t ∈ m, p t = false → t.a = t.b ∨ t.b = t.c ∨ t.c = t.a) →
    ((m.filter p).map fun t => under t.a t.b t.c).sum = (m.map fun t => under t.a t.b t.c).sum
  | [], _ => rfl
  | t :: m, h => by
    have ih := under_filter p m fun t ht => h t (List.mem_cons_of_mem _ ht)
    cases hp : p t
    · rw [List.filter_cons_of_neg (by simp [hp]), ih, List.map_cons, List.sum_cons, under_degenerate t (h t List.mem_cons_self hp), zero_add]
    · rw [List.filter_cons_of_pos hp, List.map_cons, List.map_cons, List.sum_cons, List.sum_cons, ih]

/-! ### Cells of the grid as sets -/

def cellSet (o : V3) (r : ℝ) (c : ℤ × ℤ × ℤ) : Set (ℝ × ℝ × ℝ) :=
  Set.Ico (o.x + r * c.1) (o.x + r * (c.1 + 1)) ×ˢ (Set.Ico (o.y + r * c.2.1) (o.y + r * (c.2.1 + 1)) ×ˢ
    Set.Ico (o.z + r * c.2.2) (o.z + r * (c.2.2 + 1)))

theorem cellSet_volume (o : V3) {r : ℝ} (hr : 0 < r) (c : ℤ × ℤ × ℤ) :
    MeasureTheory.volume (cellSet o r c) = ENNReal.ofReal (r ^ 3) := by
  unfold cellSet
  rw [MeasureTheory.Measure.volume_eq_prod, MeasureTheory.Measure.prod_prod, MeasureTheory.Measure.volume_eq_prod,
    MeasureTheory.Measure.prod_prod, Real.volume_Ico, Real.volume_Ico, Real.volume_Ico]
  have e : ∀ a b : ℝ, a + r * (b + 1) - (a + r * b) = r := fun a b => by ring
  rw [e, e, e, ← ENNReal.ofReal_mul hr.le, ← ENNReal.ofReal_mul hr.le]
  congr 1
  ring

theorem cellSet_measurable (o : V3) (r : ℝ) (c : ℤ × ℤ × ℤ) : MeasurableSet (cellSet o r c) :=
  measurableSet_Ico.prod (measurableSet_Ico.prod measurableSet_Ico)

/-- The cell of a point. -/
noncomputable def cellOf (o : V3) (r : ℝ) (q : ℝ × ℝ × ℝ) : ℤ × ℤ × ℤ :=
  (⌊(q.1 - o.x) / r⌋, ⌊(q.2.1 - o.y) / r⌋, ⌊(q.2.2 - o.z) / r⌋)

theorem mem_cellSet (o : V3) {r : ℝ} (hr : 0 < r) (q : ℝ × ℝ × ℝ) (c : ℤ × ℤ × ℤ) : q ∈ cellSet o r c ↔ cellOf o r q = c := by
  have key : ∀ (a b : ℝ) (i : ℤ), (a + r * i ≤ b ∧ b < a + r * (i + 1)) ↔ ⌊(b - a) / r⌋ = i := by
    intro a b i
    rw [Int.floor_eq_iff, le_div_iff₀ hr, div_lt_iff₀ hr]
    constructor <;> rintro ⟨h1, h2⟩ <;> constructor <;> linarith
  unfold cellSet cellOf
  simp only [Set.mem_prod, Set.mem_Ico, key]
  rw [Prod.ext_iff, Prod.ext_iff]

theorem cellSet_disjoint (o : V3) {r : ℝ} (hr : 0 < r) (S : Set (ℤ × ℤ × ℤ)) : S.PairwiseDisjoint (cellSet o r) := by
  intro c _ d _ hcd
  rw [Function.onFun, Set.disjoint_left]
  intro q h1 h2
  exact hcd (((mem_cellSet o hr q c).mp h1).symm.trans ((mem_cellSet o hr q d).mp h2))

theorem cells_volume (o : V3) {r : ℝ} (hr : 0 < r) {S : Set (ℤ × ℤ × ℤ)} (hS : S.Finite) :
    MeasureTheory.volume (⋃ c ∈ S, cellSet o r c) = ENNReal.ofReal (r ^ 3 * S.ncard) := by
  have e : (⋃ c ∈ S, cellSet o r c) = ⋃ c ∈ hS.toFinset, cellSet o r c := by simp
  rw [e, MeasureTheory.measure_biUnion_finset (cellSet_disjoint o hr _) fun c _ => cellSet_measurable o r c]
  simp only [cellSet_volume o hr, Finset.sum_const, nsmul_eq_mul]
  rw [Set.ncard_eq_toFinset_card S hS, mul_comm, ENNReal.ofReal_mul' (by positivity), ENNReal.ofReal_natCast]

theorem corner_near (o : V3) {r : ℝ} (hr : 0 < r) (q : ℝ × ℝ × ℝ) (c : ℤ × ℤ × ℤ) (h : q ∈ cellSet o r c) (a : Fin 8) :
    V3.dist ⟨q.1, q.2.1, q.2.2⟩ (cellCorners (gridPos o r) c a) ≤ Real.sqrt 3 * r := by
  obtain ⟨⟨a1, a2⟩, ⟨b1, b2⟩, ⟨c1, c2⟩⟩ := h
  have h3 : Real.sqrt 3 * Real.sqrt 3 = 3 := Real.mul_self_sqrt (by norm_num)
  have sq : ∀ t : ℝ, -r ≤ t → t ≤ r → t * t ≤ r * r := fun t h1 h2 => by nlinarith
  obtain ⟨i, j, k⟩ := c
  rw [cellCorners_grid]
  apply V3.norm_le_of (by positivity)
  have e : Real.sqrt 3 * r * (Real.sqrt 3 * r) = r * r + r * r + r * r := by
    calc _ = (Real.sqrt 3 * Real.sqrt 3) * (r * r) := by ring
      _ = _ := by rw [h3]; ring
  rw [e]
  simp only [cube, gridPos, V3.sub] at *
  have k1 : ∀ (o : ℝ) (i : ℤ) (q : ℝ) (b : Bool), o + r * i ≤ q → q < o + r * (i + 1) →
      -r ≤ q - (o + r * i + r * (if b then 1 else 0)) ∧ q - (o + r * i + r * (if b then 1 else 0)) ≤ r := by
    intro o i q b h1 h2
    cases b <;> simp <;> constructor <;> linarith
  have x := k1 _ _ _ (cornerOffset a).1 a1 a2
  have y := k1 _ _ _ (cornerOffset a).2.1 b1 b2
  have z := k1 _ _ _ (cornerOffset a).2.2 c1 c2
  exact add_le_add (add_le_add (sq _ x.1 x.2) (sq _ y.1 y.2)) (sq _ z.1 z.2)

end MC

end Sdf
