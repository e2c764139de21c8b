import Verif.Model.Map2
import Verif.Spec.Shape
import Mathlib.Algebra.Order.Floor.Ring
import Mathlib.Tactic.LinearCombination

/-! C44: the mapping between grid indices and a plane region. -/

namespace Sdf

theorem goInt_half (i : ℤ) (h : 0 ≤ i) : goInt ((i : ℝ) + 0.5) = i := by
  have h' : (0 : ℝ) ≤ i := by exact_mod_cast h
  unfold goInt
  rw [if_pos (by linarith [show (0 : ℝ) ≤ 0.5 by norm_num])]
  rw [Int.floor_eq_iff]
  constructor <;> norm_num

theorem newMap2_some {bb : Box2} {grid : V2i} {flipy : Bool} {m : Map2} (h : newMap2 bb grid flipy = some m) :
    bb.lo.x < bb.hi.x ∧ bb.lo.y < bb.hi.y ∧ 0 < grid.x ∧ 0 < grid.y ∧
      m = ⟨bb, grid, ⟨(bb.hi.x - bb.lo.x) / grid.x, (bb.hi.y - bb.lo.y) / grid.y⟩, flipy⟩ := by
  unfold newMap2 at h
  simp only at h
  split at h
  · cases h
  · rename_i h1
    split at h
    · cases h
    · rename_i h2
      cases h
      push Not at h1 h2
      simp only [Box2.size, V2.sub] at h1
      exact ⟨by linarith [h1.1], by linarith [h1.2], h2.1, h2.2, rfl⟩

/-- A mapping exists exactly for a box of positive size and a grid of positive dimensions. -/
theorem C44_exists (bb : Box2) (grid : V2i) (flipy : Bool) :
    (∃ m, newMap2 bb grid flipy = some m) ↔ bb.Solid ∧ 0 < grid.x ∧ 0 < grid.y := by
  constructor
  · rintro ⟨m, h⟩
    obtain ⟨a, b, c, d, -⟩ := newMap2_some h
    exact ⟨⟨a, b⟩, c, d⟩
  · rintro ⟨⟨a, b⟩, c, d⟩
    unfold newMap2
    dsimp only
    rw [if_neg (by simp only [Box2.size, V2.sub]; push Not; exact ⟨by linarith, by linarith⟩), if_neg (by push Not; exact ⟨c, d⟩)]
    exact ⟨_, rfl⟩

/-- Going from an index of the grid to the region and back gives the index. -/
theorem C44_round_trip (bb : Box2) (grid : V2i) (flipy : Bool) (m : Map2) (h : newMap2 bb grid flipy = some m) (i : V2i)
    (hx : 0 ≤ i.x) (hy : 0 ≤ i.y) : m.toV2i (m.toV2 i) = i := by
  obtain ⟨a, b, c, d, rfl⟩ := newMap2_some h
  have hw : bb.hi.x - bb.lo.x ≠ 0 := by linarith
  have hh : bb.hi.y - bb.lo.y ≠ 0 := by linarith
  have hgx : (grid.x : ℝ) ≠ 0 := by exact_mod_cast c.ne'
  have hgy : (grid.y : ℝ) ≠ 0 := by exact_mod_cast d.ne'
  cases flipy
  · simp only [Map2.toV2i, Map2.toV2, V2.toI, V2i.toV2, V2.divElem, V2.mulElem, V2.add, V2.sub, V2.elem, Bool.false_eq_true, if_false]
    ext
    · simp only; rw [show (bb.lo.x + (↑i.x + 0.5) * ((bb.hi.x - bb.lo.x) / ↑grid.x) - bb.lo.x) / ((bb.hi.x - bb.lo.x) / ↑grid.x) = i.x + 0.5 by
        field_simp; ring]
      exact goInt_half _ hx
    · simp only; rw [show (bb.lo.y + (↑i.y + 0.5) * ((bb.hi.y - bb.lo.y) / ↑grid.y) - bb.lo.y) / ((bb.hi.y - bb.lo.y) / ↑grid.y) = i.y + 0.5 by
        field_simp; ring]
      exact goInt_half _ hy
  · simp only [Map2.toV2i, Map2.toV2, V2.toI, V2i.toV2, V2.divElem, V2.mulElem, V2.add, V2.sub, V2.elem, if_true, Box2.topLeft]
    ext
    · simp only; rw [show (bb.lo.x + (↑i.x + 0.5) * ((bb.hi.x - bb.lo.x) / ↑grid.x) - bb.lo.x) / ((bb.hi.x - bb.lo.x) / ↑grid.x) = i.x + 0.5 by
        field_simp; ring]
      exact goInt_half _ hx
    · simp only; rw [show (-(bb.hi.y + -((↑i.y + 0.5) * ((bb.hi.y - bb.lo.y) / ↑grid.y)) - bb.hi.y)) / ((bb.hi.y - bb.lo.y) / ↑grid.y) = i.y + 0.5 by
        field_simp; ring]
      exact goInt_half _ hy

/-- The cell of an index: the part of the region that belongs to it, counted from the top when flipped. -/
def Cell (bb : Box2) (grid : V2i) (flipy : Bool) (i : V2i) (p : V2) : Prop :=
  let w := (bb.hi.x - bb.lo.x) / grid.x
  let h := (bb.hi.y - bb.lo.y) / grid.y
  bb.lo.x + i.x * w ≤ p.x ∧ p.x < bb.lo.x + (i.x + 1) * w ∧
    if flipy then bb.hi.y - (i.y + 1) * h < p.y ∧ p.y ≤ bb.hi.y - i.y * h
    else bb.lo.y + i.y * h ≤ p.y ∧ p.y < bb.lo.y + (i.y + 1) * h

/-- The point of an index of the grid is the middle of its cell, strictly inside the region. -/
theorem C44_center (bb : Box2) (grid : V2i) (flipy : Bool) (m : Map2) (h : newMap2 bb grid flipy = some m) (i : V2i)
    (hx : 0 ≤ i.x ∧ i.x < grid.x) (hy : 0 ≤ i.y ∧ i.y < grid.y) :
    Cell bb grid flipy i (m.toV2 i) ∧ bb.lo.x < (m.toV2 i).x ∧ (m.toV2 i).x < bb.hi.x ∧ bb.lo.y < (m.toV2 i).y ∧
      (m.toV2 i).y < bb.hi.y := by
  obtain ⟨a, b, c, d, rfl⟩ := newMap2_some h
  have hgx : (0 : ℝ) < grid.x := by exact_mod_cast c
  have hgy : (0 : ℝ) < grid.y := by exact_mod_cast d
  have hw : 0 < (bb.hi.x - bb.lo.x) / grid.x := div_pos (by linarith) hgx
  have hh : 0 < (bb.hi.y - bb.lo.y) / grid.y := div_pos (by linarith) hgy
  have ew : (bb.hi.x - bb.lo.x) / grid.x * grid.x = bb.hi.x - bb.lo.x := div_mul_cancel₀ _ hgx.ne'
  have eh : (bb.hi.y - bb.lo.y) / grid.y * grid.y = bb.hi.y - bb.lo.y := div_mul_cancel₀ _ hgy.ne'
  have ix0 : (0 : ℝ) ≤ i.x := by exact_mod_cast hx.1
  have iy0 : (0 : ℝ) ≤ i.y := by exact_mod_cast hy.1
  have ix1 : (i.x : ℝ) + 1 ≤ grid.x := by exact_mod_cast hx.2
  have iy1 : (i.y : ℝ) + 1 ≤ grid.y := by exact_mod_cast hy.2
  have hhalf : (0.5 : ℝ) = 1 / 2 := by norm_num
  cases flipy
  · simp only [Cell, Map2.toV2, V2i.toV2, V2.mulElem, V2.add, V2.elem, Bool.false_eq_true, if_false, hhalf]
    generalize (bb.hi.x - bb.lo.x) / (grid.x : ℝ) = w at *
    generalize (bb.hi.y - bb.lo.y) / (grid.y : ℝ) = k at *
    refine ⟨⟨?_, ?_, ?_, ?_⟩, ?_, ?_, ?_, ?_⟩ <;> nlinarith
  · simp only [Cell, Map2.toV2, V2i.toV2, V2.mulElem, V2.add, V2.elem, if_true, hhalf, Box2.topLeft]
    generalize (bb.hi.x - bb.lo.x) / (grid.x : ℝ) = w at *
    generalize (bb.hi.y - bb.lo.y) / (grid.y : ℝ) = k at *
    refine ⟨⟨?_, ?_, ?_, ?_⟩, ?_, ?_, ?_, ?_⟩ <;> nlinarith

/-- Every point of the region (its far edges excluded) is mapped to the index of the grid whose cell contains it. -/
theorem C44_cell (bb : Box2) (grid : V2i) (flipy : Bool) (m : Map2) (h : newMap2 bb grid flipy = some m) (p : V2)
    (hx : bb.lo.x ≤ p.x ∧ p.x < bb.hi.x) (hy : if flipy then bb.lo.y < p.y ∧ p.y ≤ bb.hi.y else bb.lo.y ≤ p.y ∧ p.y < bb.hi.y) :
    Cell bb grid flipy (m.toV2i p) p ∧ 0 ≤ (m.toV2i p).x ∧ (m.toV2i p).x < grid.x ∧ 0 ≤ (m.toV2i p).y ∧
      (m.toV2i p).y < grid.y := by
  obtain ⟨a, b, c, d, rfl⟩ := newMap2_some h
  have hgx : (0 : ℝ) < grid.x := by exact_mod_cast c
  have hgy : (0 : ℝ) < grid.y := by exact_mod_cast d
  have hw : 0 < (bb.hi.x - bb.lo.x) / grid.x := div_pos (by linarith) hgx
  have hh : 0 < (bb.hi.y - bb.lo.y) / grid.y := div_pos (by linarith) hgy
  have ew : (bb.hi.x - bb.lo.x) / grid.x * grid.x = bb.hi.x - bb.lo.x := div_mul_cancel₀ _ hgx.ne'
  have eh : (bb.hi.y - bb.lo.y) / grid.y * grid.y = bb.hi.y - bb.lo.y := div_mul_cancel₀ _ hgy.ne'
  -- one coordinate
  have one : ∀ (w t : ℝ) (g : ℤ), 0 < w → 0 ≤ t → t < w * g → 0 ≤ goInt (t / w) ∧ goInt (t / w) < g ∧
      (goInt (t / w) : ℝ) * w ≤ t ∧ t < (goInt (t / w) + 1) * w := by
    intro w t g hw ht htg
    unfold goInt
    rw [if_pos (div_nonneg ht hw.le)]
    have h1 := Int.floor_le (t / w)
    have h2 := Int.lt_floor_add_one (t / w)
    rw [le_div_iff₀ hw] at h1
    rw [div_lt_iff₀ hw] at h2
    refine ⟨Int.floor_nonneg.mpr (div_nonneg ht hw.le), ?_, h1, h2⟩
    rw [Int.floor_lt, div_lt_iff₀ hw]
    linarith
  obtain ⟨x1, x2, x3, x4⟩ := one _ (p.x - bb.lo.x) grid.x hw (by linarith [hx.1]) (by rw [ew]; linarith [hx.2])
  cases flipy
  · simp only [Bool.false_eq_true, if_false] at hy
    obtain ⟨y1, y2, y3, y4⟩ := one _ (p.y - bb.lo.y) grid.y hh (by linarith [hy.1]) (by rw [eh]; linarith [hy.2])
    simp only [Cell, Map2.toV2i, V2.toI, V2.divElem, V2.sub, Bool.false_eq_true, if_false]
    exact ⟨⟨by linarith, by linarith, by linarith, by linarith⟩, x1, x2, y1, y2⟩
  · simp only [if_true] at hy
    obtain ⟨y1, y2, y3, y4⟩ := one _ (-(p.y - bb.hi.y)) grid.y hh (by linarith [hy.2]) (by rw [eh]; linarith [hy.1])
    simp only [Cell, Map2.toV2i, V2.toI, V2.divElem, V2.sub, if_true, Box2.topLeft]
    exact ⟨⟨by linarith, by linarith, by linarith, by linarith⟩, x1, x2, y1, y2⟩

/-- The points of `generateMesh2D` are exactly the cell middles at which the figure is not strictly outside. -/
theorem C44_mesh (s : SDF2) (grid : V2i) (l : List V2) (h : generateMesh2D s grid = some l) (v : V2) :
    v ∈ l ↔ s.eval v ≤ 0 ∧ ∃ i j : ℕ, (i : ℤ) < grid.x ∧ (j : ℤ) < grid.y ∧
      v = ⟨s.bounds.lo.x + (i + 1 / 2) * ((s.bounds.hi.x - s.bounds.lo.x) / grid.x),
           s.bounds.lo.y + (j + 1 / 2) * ((s.bounds.hi.y - s.bounds.lo.y) / grid.y)⟩ := by
  unfold generateMesh2D at h
  rw [Option.map_eq_some_iff] at h
  obtain ⟨m, hm, rfl⟩ := h
  obtain ⟨-, -, -, -, rfl⟩ := newMap2_some hm
  have hv : ∀ i j : ℕ, Map2.toV2 ⟨s.bounds, grid, ⟨(s.bounds.hi.x - s.bounds.lo.x) / grid.x,
      (s.bounds.hi.y - s.bounds.lo.y) / grid.y⟩, false⟩ ⟨i, j⟩ =
      ⟨s.bounds.lo.x + (i + 1 / 2) * ((s.bounds.hi.x - s.bounds.lo.x) / grid.x),
           s.bounds.lo.y + (j + 1 / 2) * ((s.bounds.hi.y - s.bounds.lo.y) / grid.y)⟩ := by
    intro i j
    simp only [Map2.toV2, V2i.toV2, V2.mulElem, V2.add, V2.elem, Bool.false_eq_true, if_false]
    ext <;> norm_num
  simp only [List.mem_flatMap, List.mem_range, hv]
  constructor
  · rintro ⟨i, hi, j, hj, hmem⟩
    split at hmem
    · rename_i hle
      rw [List.mem_singleton] at hmem
      subst hmem
      exact ⟨hle, i, j, by omega, by omega, rfl⟩
    · simp at hmem
  · rintro ⟨hle, i, j, hi, hj, rfl⟩
    refine ⟨i, by omega, j, by omega, ?_⟩
    rw [if_pos hle]
    simp

/-! Non-vacuity. -/
example : (⟨⟨0, 0⟩, ⟨3, 2⟩⟩ : Box2).Solid ∧ (0 : ℤ) < (⟨3, 2⟩ : V2i).x ∧ (0 : ℤ) < (⟨3, 2⟩ : V2i).y := by
  refine ⟨⟨?_, ?_⟩, ?_, ?_⟩ <;> norm_num

end Sdf
