import Verif.Lemmas.Loops
import Verif.Lemmas.MaxFloat
import Verif.Spec.Shape

/-!
C22: arrays and rotational unions contain exactly their copies.  The theorems give the value below any
threshold `c ≤ MaxFloat64`, hence (`c = 0`) membership; counts that are not positive give no copy.
-/

namespace Sdf

theorem C22_int_lt (n : ℤ) (j : ℕ) : j < n.toNat ↔ (j : ℤ) < n := by omega

/-- `Array3D`: the value at `p` is below `c` exactly when it is so for one of the stepped copies. -/
theorem C22_array3 (s : SDF3) (n0 n1 n2 : ℤ) (step p : V3) (c : ℝ) (hc : c ≤ maxFloat64) :
    (s.array n0 n1 n2 step).eval p < c ↔ ∃ j k l : ℕ, (j : ℤ) < n0 ∧ (k : ℤ) < n1 ∧ (l : ℤ) < n2 ∧
      ∃ q, s.eval q < c ∧ p = V3.add q ⟨(j : ℝ) * step.x, (k : ℝ) * step.y, (l : ℝ) * step.z⟩ := by
  have key : ∀ t q : V3, p = V3.add q t ↔ q = V3.sub p t := by
    intro t q
    constructor
    · rintro rfl; ext <;> simp [V3.add, V3.sub]
    · rintro rfl; ext <;> simp [V3.add, V3.sub]
  simp only [key, exists_eq_right]
  unfold SDF3.array SDF3.arrayWith
  split
  · rename_i h
    simp only [SDF3.emptyFrom, SDF3.empty]
    constructor
    · intro h'; linarith
    · rintro ⟨j, k, l, h0, h1, h2, -⟩; omega
  · simp only [arrayEval3_lt, C22_int_lt]
    constructor
    · rintro (h | ⟨j, hj, k, hk, l, hl, h⟩)
      · linarith
      · exact ⟨j, k, l, hj, hk, hl, h⟩
    · rintro ⟨j, k, l, hj, hk, hl, h⟩
      exact Or.inr ⟨j, hj, k, hk, l, hl, h⟩

/-- As `C22_array3`, in the plane. -/
theorem C22_array2 (s : SDF2) (n0 n1 : ℤ) (step p : V2) (c : ℝ) (hc : c ≤ maxFloat64) :
    (s.array n0 n1 step).eval p < c ↔ ∃ j k : ℕ, (j : ℤ) < n0 ∧ (k : ℤ) < n1 ∧
      ∃ q, s.eval q < c ∧ p = V2.add q ⟨(j : ℝ) * step.x, (k : ℝ) * step.y⟩ := by
  have key : ∀ t q : V2, p = V2.add q t ↔ q = V2.sub p t := by
    intro t q
    constructor
    · rintro rfl; ext <;> simp [V2.add, V2.sub]
    · rintro rfl; ext <;> simp [V2.add, V2.sub]
  simp only [key, exists_eq_right]
  unfold SDF2.array SDF2.arrayWith
  split
  · rename_i h
    simp only [SDF2.emptyFrom, SDF2.empty]
    constructor
    · intro h'; linarith
    · rintro ⟨j, k, h0, h1, -⟩; omega
  · simp only [arrayEval2_lt, C22_int_lt]
    constructor
    · rintro (h | ⟨j, hj, k, hk, h⟩)
      · linarith
      · exact ⟨j, k, hj, hk, h⟩
    · rintro ⟨j, k, hj, hk, h⟩
      exact Or.inr ⟨j, hj, k, hk, h⟩

theorem C22_iterate_inv3 (m : M44) (hm : m.Affine) (hd : m.det ≠ 0) (i : ℕ) (p q : V3) :
    p = m.mulPosition^[i] q ↔ q = m.inverse.mulPosition^[i] p := by
  have h1 : Function.LeftInverse m.mulPosition^[i] m.inverse.mulPosition^[i] :=
    Function.LeftInverse.iterate (fun x => M44.mulPosition_inverse hm hd x) i
  have h2 : Function.LeftInverse m.inverse.mulPosition^[i] m.mulPosition^[i] :=
    Function.LeftInverse.iterate (fun x => M44.inverse_mulPosition hm hd x) i
  constructor
  · rintro rfl; exact (h2 q).symm
  · rintro rfl; exact (h1 p).symm

theorem C22_iterate_inv2 (m : M33) (hm : m.Affine) (hd : m.det ≠ 0) (i : ℕ) (p q : V2) :
    p = m.mulPosition^[i] q ↔ q = m.inverse.mulPosition^[i] p := by
  have h1 : Function.LeftInverse m.mulPosition^[i] m.inverse.mulPosition^[i] :=
    Function.LeftInverse.iterate (fun x => M33.mulPosition_inverse hm hd x) i
  have h2 : Function.LeftInverse m.inverse.mulPosition^[i] m.mulPosition^[i] :=
    Function.LeftInverse.iterate (fun x => M33.inverse_mulPosition hm hd x) i
  constructor
  · rintro rfl; exact (h2 q).symm
  · rintro rfl; exact (h1 p).symm

/-- `RotateUnion3D`: the value at `p` is below `c` exactly when it is so for one of the `num` copies, the `i`-th
of which is the shape moved `i` times by the step. -/
theorem C22_rotateUnion3 (s : SDF3) (num : ℤ) (step : M44) (hs : step.Affine) (hd : step.toMatrix.det ≠ 0) (p : V3)
    (c : ℝ) (hc : c ≤ maxFloat64) :
    (s.rotateUnion num step).eval p < c ↔
      ∃ i : ℕ, (i : ℤ) < num ∧ ∃ q, s.eval q < c ∧ p = step.mulPosition^[i] q := by
  rw [← M44.det_eq] at hd
  simp only [C22_iterate_inv3 step hs hd, exists_eq_right]
  unfold SDF3.rotateUnion SDF3.rotateUnionWith
  split
  · rename_i h
    simp only [SDF3.emptyFrom, SDF3.empty]
    constructor
    · intro h'; linarith
    · rintro ⟨i, hi, -⟩; omega
  · simp only [rotateUnionLoop3_lt s step.inverse (M44.affine_inverse hs hd), M44.identity_mulPosition, C22_int_lt]
    constructor
    · rintro (h | h)
      · linarith
      · exact h
    · exact Or.inr

/-- As `C22_rotateUnion3`, in the plane. -/
theorem C22_rotateUnion2 (s : SDF2) (num : ℤ) (step : M33) (hs : step.Affine) (hd : step.toMatrix.det ≠ 0) (p : V2)
    (c : ℝ) (hc : c ≤ maxFloat64) :
    (s.rotateUnion num step).eval p < c ↔
      ∃ i : ℕ, (i : ℤ) < num ∧ ∃ q, s.eval q < c ∧ p = step.mulPosition^[i] q := by
  rw [← M33.det_eq] at hd
  simp only [C22_iterate_inv2 step hs hd, exists_eq_right]
  unfold SDF2.rotateUnion SDF2.rotateUnionWith
  split
  · rename_i h
    simp only [SDF2.emptyFrom, SDF2.empty]
    constructor
    · intro h'; linarith
    · rintro ⟨i, hi, -⟩; omega
  · simp only [rotateUnionLoop2_lt s step.inverse (M33.affine_inverse hs hd), M33.identity_mulPosition, C22_int_lt]
    constructor
    · rintro (h | h)
      · linarith
      · exact h
    · exact Or.inr

/-- Counts that are not positive give a shape without interior points. -/
theorem C22_empty (s3 : SDF3) (s2 : SDF2) (n0 n1 n2 : ℤ) (step3 : V3) (step2 : V2) (m4 : M44) (m3 : M33) :
    ((n0 ≤ 0 ∨ n1 ≤ 0 ∨ n2 ≤ 0) → ∀ p, ¬ (s3.array n0 n1 n2 step3).Inside p) ∧
    ((n0 ≤ 0 ∨ n1 ≤ 0) → ∀ p, ¬ (s2.array n0 n1 step2).Inside p) ∧
    (n0 ≤ 0 → ∀ p, ¬ (s3.rotateUnion n0 m4).Inside p) ∧
    (n0 ≤ 0 → ∀ p, ¬ (s2.rotateUnion n0 m3).Inside p) := by
  have hp := maxFloat64_pos
  refine ⟨?_, ?_, ?_, ?_⟩ <;> intro h p hin
  · simp only [SDF3.Inside, SDF3.array, SDF3.arrayWith, if_pos h, SDF3.emptyFrom, SDF3.empty] at hin; linarith
  · simp only [SDF2.Inside, SDF2.array, SDF2.arrayWith, if_pos h, SDF2.emptyFrom, SDF2.empty] at hin; linarith
  · simp only [SDF3.Inside, SDF3.rotateUnion, SDF3.rotateUnionWith, if_pos h, SDF3.emptyFrom, SDF3.empty] at hin
    linarith
  · simp only [SDF2.Inside, SDF2.rotateUnion, SDF2.rotateUnionWith, if_pos h, SDF2.emptyFrom, SDF2.empty] at hin
    linarith

theorem C22_between {a t n : ℝ} (h0 : 0 ≤ t) (h1 : t ≤ n) : min 0 (a * n) ≤ t * a ∧ t * a ≤ max 0 (a * n) := by
  rcases le_total 0 a with ha | ha
  · exact ⟨le_trans (min_le_left _ _) (mul_nonneg h0 ha),
      le_trans (by nlinarith) (le_max_right _ _)⟩
  · exact ⟨le_trans (min_le_right _ _) (by nlinarith),
      le_trans (mul_nonpos_of_nonneg_of_nonpos h0 ha) (le_max_left _ _)⟩

/-- The bounds of an array contain the bounds of every copy. -/
theorem C22_array3_bounds (s : SDF3) (n0 n1 n2 : ℤ) (step : V3) (j k l : ℕ) (hj : (j : ℤ) < n0) (hk : (k : ℤ) < n1)
    (hl : (l : ℤ) < n2) (q : V3) (hq : s.bounds.Contains q) :
    (s.array n0 n1 n2 step).bounds.Contains
      (V3.add q ⟨(j : ℝ) * step.x, (k : ℝ) * step.y, (l : ℝ) * step.z⟩) := by
  unfold SDF3.array SDF3.arrayWith
  rw [if_neg (by omega)]
  obtain ⟨h1, h2, h3, h4, h5, h6⟩ := hq
  have cast : ∀ {a : ℕ} {n : ℤ}, (a : ℤ) < n → (a : ℝ) ≤ ((n - 1 : ℤ) : ℝ) := by
    intro a n h
    have : (a : ℤ) ≤ n - 1 := by omega
    exact_mod_cast this
  have b0 := C22_between (a := step.x) (Nat.cast_nonneg j) (cast hj)
  have b1 := C22_between (a := step.y) (Nat.cast_nonneg k) (cast hk)
  have b2 := C22_between (a := step.z) (Nat.cast_nonneg l) (cast hl)
  have mm : ∀ {a b t x : ℝ}, a ≤ x → min 0 b ≤ t → min a (a + b) ≤ x + t := by
    intro a b t x ha hb
    have : min a (a + b) = a + min 0 b := by rw [← min_add_add_left, add_zero]
    rw [this]; linarith
  have mM : ∀ {a b t x : ℝ}, x ≤ a → t ≤ max 0 b → x + t ≤ max a (a + b) := by
    intro a b t x ha hb
    have : max a (a + b) = a + max 0 b := by rw [← max_add_add_left, add_zero]
    rw [this]; linarith
  exact ⟨mm h1 b0.1, mm h2 b1.1, mm h3 b2.1, mM h4 b0.2, mM h5 b1.2, mM h6 b2.2⟩

/-- As `C22_array3_bounds`, in the plane. -/
theorem C22_array2_bounds (s : SDF2) (n0 n1 : ℤ) (step : V2) (j k : ℕ) (hj : (j : ℤ) < n0) (hk : (k : ℤ) < n1)
    (q : V2) (hq : s.bounds.Contains q) :
    (s.array n0 n1 step).bounds.Contains (V2.add q ⟨(j : ℝ) * step.x, (k : ℝ) * step.y⟩) := by
  unfold SDF2.array SDF2.arrayWith
  rw [if_neg (by omega)]
  obtain ⟨h1, h2, h4, h5⟩ := hq
  have cast : ∀ {a : ℕ} {n : ℤ}, (a : ℤ) < n → (a : ℝ) ≤ (n : ℝ) - 1 := by
    intro a n h
    have : (a : ℤ) ≤ n - 1 := by omega
    exact_mod_cast this
  have b0 := C22_between (a := step.x) (Nat.cast_nonneg j) (cast hj)
  have b1 := C22_between (a := step.y) (Nat.cast_nonneg k) (cast hk)
  have mm : ∀ {a b t x : ℝ}, a ≤ x → min 0 b ≤ t → min a (a + b) ≤ x + t := by
    intro a b t x ha hb
    have : min a (a + b) = a + min 0 b := by rw [← min_add_add_left, add_zero]
    rw [this]; linarith
  have mM : ∀ {a b t x : ℝ}, x ≤ a → t ≤ max 0 b → x + t ≤ max a (a + b) := by
    intro a b t x ha hb
    have : max a (a + b) = a + max 0 b := by rw [← max_add_add_left, add_zero]
    rw [this]; linarith
  exact ⟨mm h1 b0.1, mm h2 b1.1, mM h4 b0.2, mM h5 b1.2⟩

/-- The bounds of a rotational union contain the moved bounds of every copy. -/
theorem C22_rotateUnion3_bounds (s : SDF3) (num : ℤ) (step : M44) (hs : step.Affine) (i : ℕ) (hi : (i : ℤ) < num)
    (q : V3) (hq : s.bounds.Contains q) :
    (s.rotateUnion num step).bounds.Contains (step.mulPosition^[i] q) := by
  unfold SDF3.rotateUnion SDF3.rotateUnionWith
  rw [if_neg (by omega)]
  obtain ⟨a, ha, e⟩ := M44.exists_iterate step hs i
  have h := (rotateUnionBox3_sub step num.toNat s.bounds.vertices
    ⟨s.bounds.vertices.head!, s.bounds.vertices.head!⟩).2 i (by omega)
  rw [iterate_map, e] at h
  rw [e]
  exact h.contains (Box3.map_vertices_contains s.bounds hq a)

/-- As `C22_rotateUnion3_bounds`, in the plane. -/
theorem C22_rotateUnion2_bounds (s : SDF2) (num : ℤ) (step : M33) (hs : step.Affine) (i : ℕ) (hi : (i : ℤ) < num)
    (q : V2) (hq : s.bounds.Contains q) :
    (s.rotateUnion num step).bounds.Contains (step.mulPosition^[i] q) := by
  unfold SDF2.rotateUnion SDF2.rotateUnionWith
  rw [if_neg (by omega)]
  obtain ⟨a, ha, e⟩ := M33.exists_iterate step hs i
  have h := (rotateUnionBox2_sub step num.toNat s.bounds.vertices
    ⟨s.bounds.vertices.head!, s.bounds.vertices.head!⟩).2 i (by omega)
  rw [iterate_map, e] at h
  rw [e]
  exact h.contains (Box2.map_vertices_contains s.bounds hq a)

/-- Non-vacuity: the last copy of a row of three unit balls at spacing 5 is there. -/
example : (SDF3.array ⟨fun p => V3.norm p - 1, ⟨⟨-1, -1, -1⟩, ⟨1, 1, 1⟩⟩⟩ 3 1 1 ⟨5, 0, 0⟩).Inside ⟨10, 0, 0⟩ := by
  rw [SDF3.Inside, C22_array3 _ _ _ _ _ _ _ maxFloat64_pos.le]
  refine ⟨2, 0, 0, by norm_num, by norm_num, by norm_num, ⟨0, 0, 0⟩, ?_, ?_⟩
  · simp [V3.norm]
  · simp only [V3.add]; norm_num

/-- Non-vacuity: a quarter turn is a valid step. -/
example : (M33.rotate (Real.pi / 2)).Affine ∧ (M33.rotate (Real.pi / 2)).toMatrix.det ≠ 0 := by
  refine ⟨⟨rfl, rfl, rfl⟩, ?_⟩
  rw [← M33.det_eq]; simp [M33.rotate, M33.det]

end Sdf
