import Verif.Lemmas.RenderLoss
import Verif.Lemmas.Forms

/-!
Helper lemmas: the octree of a box of sides 60, 25 and 9 rendered with 30 cells, in integers.  Distances are multiplied by 200.
-/

namespace Sdf.Octree

open Classical

/-- 200 times the distance beyond the faces of side `h`, at the grid coordinate `q`. -/
def dz (q h : ℤ) : ℤ := 101 * |2 * q - h| - 100 * h

/-- `Skipped`, in integers. -/
def skipZ (c : Cube) : Bool :=
  let s : ℤ := 2 ^ (c.n - 1)
  let a := dz (c.o.x + s) 60
  let b := dz (c.o.y + s) 25
  let d := dz (c.o.z + s) 9
  let m : ℤ := 3 * ((101 * 2 ^ c.n) * (101 * 2 ^ c.n))
  if 0 < a ∨ 0 < b ∨ 0 < d then decide (m ≤ max a 0 * max a 0 + max b 0 * max b 0 + max d 0 * max d 0)
  else decide (m ≤ (max (max a b) d) * (max (max a b) d))

def kidsZ (c : Cube) : List Cube := if c.n = 1 then [] else (subCubes c).filter fun c => !skipZ c

/-- The grid vertex is inside the box. -/
def inZ (q : V3i) : Bool := decide (dz q.x 60 < 0) && (decide (dz q.y 25 < 0) && decide (dz q.z 9 < 0))

def cntZ (c : Cube) : Nat := if c.n = 1 then (MC.triangleTable.getD (MC.bitsToNat fun i => inZ (leafCorners c i)) []).length / 3 else 0

/-- The leaf cell that is processed last. -/
def endLeaf : Cube := ⟨⟨38, 24, 8⟩, 1⟩

set_option maxRecDepth 100000 in
theorem runZ : runN cntZ kidsZ 20 [⟨⟨0, 0, 0⟩, 6⟩] none = some (some endLeaf) := by decide +kernel

theorem rowZ : MC.triples (MC.triangleTable.getD (MC.bitsToNat fun i => inZ (leafCorners endLeaf i)) []) = [(1, 8, 3), (9, 8, 1)] := by
  decide +kernel

/-- The renderer of the box. -/
structure BoxDc (dc : Dc3) : Prop where
  res : dc.resolution = 1.01
  origin : dc.origin = ⟨-30.3, -12.625, -4.545⟩
  eval : ∀ p, dc.s.eval p = sdfBox3d p ⟨30, 12.5, 4.5⟩

theorem dz_real (q h : ℤ) (x : ℝ) (hx : x = 1.01 * ((q : ℝ) - h / 2)) : |x| - h / 2 = (dz q h : ℝ) / 200 := by
  unfold dz
  push_cast
  have : |x| = 1.01 / 2 * |2 * (q : ℝ) - h| := by
    rw [hx, show 1.01 * ((q : ℝ) - h / 2) = (1.01 / 2) * (2 * (q : ℝ) - h) by ring, abs_mul, abs_of_pos (by norm_num)]
  rw [this]
  ring

theorem value_box {dc : Dc3} (hd : BoxDc dc) (q : V3i) :
    dc.value q = boxFn3 ⟨(dz q.x 60 : ℝ) / 200, (dz q.y 25 : ℝ) / 200, (dz q.z 9 : ℝ) / 200⟩ := by
  unfold Dc3.value
  rw [hd.eval, sdfBox3d_eq]
  congr 1
  have hp : dc.pos q = ⟨-30.3 + 1.01 * q.x, -12.625 + 1.01 * q.y, -4.545 + 1.01 * q.z⟩ := by
    simp only [Dc3.pos, V3.add, V3.scale, V3i.toV3, hd.res, hd.origin]
  rw [hp]
  simp only [V3.sub, V3.absElem]
  have hx := dz_real q.x 60 (-30.3 + 1.01 * q.x) (by push_cast; norm_num; ring)
  have hy := dz_real q.y 25 (-12.625 + 1.01 * q.y) (by push_cast; norm_num; ring)
  have hz := dz_real q.z 9 (-4.545 + 1.01 * q.z) (by push_cast; norm_num; ring)
  push_cast at hx hy hz
  ext
  · rw [← hx]; norm_num
  · rw [← hy]; norm_num
  · rw [← hz]; norm_num

theorem dz_ne (q : ℤ) : dz q 60 ≠ 0 ∧ dz q 25 ≠ 0 ∧ dz q 9 ≠ 0 := by
  unfold dz
  refine ⟨?_, ?_, ?_⟩
  · generalize |2 * q - 60| = t; omega
  · generalize |2 * q - 25| = t; omega
  · generalize |2 * q - 9| = t; omega

theorem pos_cast (a : ℤ) : ((a : ℝ) / 200 > 0) ↔ 0 < a := by
  rw [gt_iff_lt, div_pos_iff_of_pos_right (by norm_num)]; exact Int.cast_pos

theorem max_cast (a : ℤ) : max ((a : ℝ) / 200) 0 = ((max a 0 : ℤ) : ℝ) / 200 := by
  rcases le_total a 0 with h | h
  · rw [max_eq_right h, max_eq_right (div_nonpos_of_nonpos_of_nonneg (by exact_mod_cast h) (by norm_num))]; simp
  · rw [max_eq_left h, max_eq_left (div_nonneg (by exact_mod_cast h) (by norm_num))]

theorem max3_cast (a b d : ℤ) : max (max ((a : ℝ) / 200) ((b : ℝ) / 200)) ((d : ℝ) / 200) = ((max (max a b) d : ℤ) : ℝ) / 200 := by
  have key : ∀ x y : ℤ, max ((x : ℝ) / 200) ((y : ℝ) / 200) = ((max x y : ℤ) : ℝ) / 200 := by
    intro x y
    rcases le_total x y with h | h
    · rw [max_eq_right h, max_eq_right (div_le_div_of_nonneg_right (by exact_mod_cast h) (by norm_num))]
    · rw [max_eq_left h, max_eq_left (div_le_div_of_nonneg_right (by exact_mod_cast h) (by norm_num))]
  rw [key, key]

/-- The sign of the value and a bound away from zero. -/
theorem value_sign {dc : Dc3} (hd : BoxDc dc) (q : V3i) :
    (dc.value q < 0 ↔ inZ q = true) ∧ MC.epsilon ≤ |dc.value q| := by
  have n1 := (dz_ne q.x).1
  have n2 := (dz_ne q.y).2.1
  have n3 := (dz_ne q.z).2.2
  rw [value_box hd]
  unfold inZ
  simp only [Bool.and_eq_true, decide_eq_true_eq]
  generalize dz q.x 60 = a at n1 ⊢
  generalize dz q.y 25 = b at n2 ⊢
  generalize dz q.z 9 = d at n3 ⊢
  unfold boxFn3 MC.epsilon
  simp only [pos_cast, max_cast, max3_cast]
  by_cases h : 0 < a ∨ 0 < b ∨ 0 < d
  · rw [if_pos h]
    have hn : (1 : ℝ) / 200 ≤ V3.norm ⟨((max a 0 : ℤ) : ℝ) / 200, ((max b 0 : ℤ) : ℝ) / 200, ((max d 0 : ℤ) : ℝ) / 200⟩ := by
      apply V3.le_norm_of
      simp only
      have hi : (1 : ℤ) ≤ max a 0 * max a 0 + max b 0 * max b 0 + max d 0 * max d 0 := by
        have p1 := mul_self_nonneg (max a 0)
        have p2 := mul_self_nonneg (max b 0)
        have p3 := mul_self_nonneg (max d 0)
        rcases h with h | h | h
        · rw [max_eq_left h.le] at p1 ⊢; nlinarith
        · rw [max_eq_left h.le] at p2 ⊢; nlinarith
        · rw [max_eq_left h.le] at p3 ⊢; nlinarith
      have hi' : (1 : ℝ) ≤ ((max a 0 : ℤ) : ℝ) * ((max a 0 : ℤ) : ℝ) + ((max b 0 : ℤ) : ℝ) * ((max b 0 : ℤ) : ℝ)
          + ((max d 0 : ℤ) : ℝ) * ((max d 0 : ℤ) : ℝ) := by exact_mod_cast hi
      nlinarith
    constructor
    · constructor
      · intro h'; linarith
      · intro h'; omega
    · rw [abs_of_nonneg (by linarith)]; linarith
  · rw [if_neg h]
    have hm : max (max a b) d ≤ -1 := by omega
    have hm' : ((max (max a b) d : ℤ) : ℝ) ≤ -1 := by exact_mod_cast hm
    constructor
    · constructor
      · intro _; omega
      · intro _; linarith
    · rw [abs_of_neg (by linarith)]; linarith

/-- `skipZ` is right. -/
theorem skip_iff {dc : Dc3} (hd : BoxDc dc) (c : Cube) : Skipped dc c ↔ skipZ c = true := by
  unfold Skipped
  rw [hdiag_eq dc _ (by rw [hd.res]; norm_num), value_box hd, hd.res]
  unfold skipZ
  simp only
  generalize dz (c.o.x + 2 ^ (c.n - 1)) 60 = a
  generalize dz (c.o.y + 2 ^ (c.n - 1)) 25 = b
  generalize dz (c.o.z + 2 ^ (c.n - 1)) 9 = d
  have hs : ∀ (x : ℝ), 0 ≤ x → (Real.sqrt 3 * (2 ^ c.n * 1.01 / 2) ≤ x ↔ 3 * ((101 * 2 ^ c.n) * (101 * 2 ^ c.n)) ≤ (200 * x) * (200 * x)) := by
    intro x hx
    have h3 := Real.mul_self_sqrt (show (0 : ℝ) ≤ 3 by norm_num)
    have hp : (0 : ℝ) < 2 ^ c.n := by positivity
    have h0 : 0 ≤ Real.sqrt 3 * (101 * 2 ^ c.n) := by positivity
    have e : 3 * ((101 * (2 : ℝ) ^ c.n) * (101 * 2 ^ c.n)) = (Real.sqrt 3 * (101 * 2 ^ c.n)) * (Real.sqrt 3 * (101 * 2 ^ c.n)) := by
      rw [show Real.sqrt 3 * (101 * 2 ^ c.n) * (Real.sqrt 3 * (101 * 2 ^ c.n)) = (Real.sqrt 3 * Real.sqrt 3) * ((101 * 2 ^ c.n) * (101 * 2 ^ c.n)) by ring, h3]
    rw [e, ← abs_le_iff_mul_self_le, abs_of_nonneg h0, abs_of_nonneg (by linarith)]
    constructor <;> intro h
    · have := mul_le_mul_of_nonneg_left h (show (0 : ℝ) ≤ 200 by norm_num)
      refine le_trans (le_of_eq ?_) this
      ring
    · have : Real.sqrt 3 * (2 ^ c.n * 1.01 / 2) = (Real.sqrt 3 * (101 * 2 ^ c.n)) / 200 := by ring
      rw [this]; linarith
  rw [hs _ (abs_nonneg _)]
  unfold boxFn3
  simp only [pos_cast, max_cast, max3_cast]
  by_cases h : 0 < a ∨ 0 < b ∨ 0 < d
  · rw [if_pos h, if_pos h, decide_eq_true_eq, abs_of_nonneg (V3.norm_nonneg _)]
    have := V3.norm_sq (⟨((max a 0 : ℤ) : ℝ) / 200, ((max b 0 : ℤ) : ℝ) / 200, ((max d 0 : ℤ) : ℝ) / 200⟩ : V3)
    simp only at this
    generalize V3.norm (⟨((max a 0 : ℤ) : ℝ) / 200, ((max b 0 : ℤ) : ℝ) / 200, ((max d 0 : ℤ) : ℝ) / 200⟩ : V3) = N at this ⊢
    have e : (200 * N) * (200 * N) = ((max a 0 * max a 0 + max b 0 * max b 0 + max d 0 * max d 0 : ℤ) : ℝ) := by
      push_cast at this ⊢
      linarith
    rw [e]
    norm_cast
  · rw [if_neg h, if_neg h, decide_eq_true_eq]
    have e : ∀ m : ℝ, (200 * |m / 200|) * (200 * |m / 200|) = m * m := by
      intro m
      rw [show (200 * |m / 200|) * (200 * |m / 200|) = 40000 * (|m / 200| * |m / 200|) by ring, abs_mul_abs_self]; ring
    rw [e]
    norm_cast

theorem kids_box {dc : Dc3} (hd : BoxDc dc) (c : Cube) : children dc c = kidsZ c := by
  unfold children kidsZ
  by_cases h : c.n = 1
  · rw [if_pos h, if_pos h]
  · rw [if_neg h, if_neg h]
    apply List.filter_congr
    intro x _
    have := skip_iff hd x
    by_cases hs : Skipped dc x
    · simp [hs, this.mp hs]
    · have : skipZ x = false := by
        rw [← Bool.not_eq_true]; exact fun h => hs (this.mpr h)
      simp [hs, this]

theorem neg_box {dc : Dc3} (hd : BoxDc dc) (c : Cube) :
    MC.neg (fun i => dc.value (leafCorners c i)) 0 = fun i => inZ (leafCorners c i) := by
  funext i
  unfold MC.neg
  have := (value_sign hd (leafCorners c i)).1
  by_cases h : dc.value (leafCorners c i) < 0
  · simp [h, this.mp h]
  · have : inZ (leafCorners c i) = false := by
      rw [← Bool.not_eq_true]; exact fun h' => h (this.mpr h')
    simp [h, this]

theorem leaf_box (deg : Tri → Bool) (hdeg : ∀ t, deg t = true → t.a = t.b ∨ t.b = t.c ∨ t.c = t.a) {dc : Dc3} (hd : BoxDc dc)
    (c : Cube) : leafTris deg dc c = (MC.triples (MC.triangleTable.getD (MC.bitsToNat fun i => inZ (leafCorners c i)) [])).map fun t =>
      ⟨MC.ptsAll (fun i => dc.pos (leafCorners c i)) (fun i => dc.value (leafCorners c i)) 0 t.2.2,
       MC.ptsAll (fun i => dc.pos (leafCorners c i)) (fun i => dc.value (leafCorners c i)) 0 t.2.1,
       MC.ptsAll (fun i => dc.pos (leafCorners c i)) (fun i => dc.value (leafCorners c i)) 0 t.1⟩ := by
  rw [leafTris_far deg hdeg dc (by rw [hd.res]; norm_num) c (fun a => (value_sign hd _).2), MC.rawTriangles_eq, neg_box hd]

theorem cnt_box (deg : Tri → Bool) (hdeg : ∀ t, deg t = true → t.a = t.b ∨ t.b = t.c ∨ t.c = t.a) {dc : Dc3} (hd : BoxDc dc)
    (c : Cube) : (ownTris deg dc c).length = cntZ c := by
  unfold ownTris cntZ
  by_cases h : c.n = 1
  · rw [if_pos h, if_pos h, leaf_box deg hdeg hd, List.length_map, MC.triples_length]
  · rw [if_neg h, if_neg h]; rfl

end Sdf.Octree
