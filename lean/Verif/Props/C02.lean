import Verif.Lemmas.OctreeDense
import Verif.Lemmas.Ball

/-!
C02: the rendered grid covers the shape and has the requested resolution.
-/

namespace Sdf.Octree

/-- The longest side of the bounding box. -/
noncomputable def longestSide (b : Box3) : ℝ := max (b.hi.x - b.lo.x) (max (b.hi.y - b.lo.y) (b.hi.z - b.lo.z))

/-- The top-level cube, from grid vertex 0 to grid vertex 2^(levels-1), contains every point of the bounding box,
with a margin of 0.5% of the box size on each side. -/
theorem C02_grid_covers_bounds (s : SDF3) (meshCells : ℤ) (oc : State) (hb : s.bounds.Solid)
    (h : Initial s meshCells oc) (p : V3) (hp : s.bounds.Contains p) :
    let K : ℤ := 2 ^ (oc.dc.levels - 1)
    oc.todo = [⟨⟨0, 0, 0⟩, oc.dc.levels - 1⟩] ∧
    (oc.dc.pos ⟨0, 0, 0⟩).x + 0.005 * s.bounds.size.x ≤ p.x ∧ p.x + 0.005 * s.bounds.size.x ≤ (oc.dc.pos ⟨K, K, K⟩).x ∧
    (oc.dc.pos ⟨0, 0, 0⟩).y + 0.005 * s.bounds.size.y ≤ p.y ∧ p.y + 0.005 * s.bounds.size.y ≤ (oc.dc.pos ⟨K, K, K⟩).y ∧
    (oc.dc.pos ⟨0, 0, 0⟩).z + 0.005 * s.bounds.size.z ≤ p.z ∧ p.z + 0.005 * s.bounds.size.z ≤ (oc.dc.pos ⟨K, K, K⟩).z := by
  intro K
  have f := initial_facts hb h
  have hm : (2 : ℝ) ≤ (meshCells : ℝ) := by exact_mod_cast f.m_ge
  have h2m := two_m_le meshCells f.m_ge
  have hl := longAxis_pos s hb
  have hK : longAxis s ≤ oc.dc.resolution * ((K : ℤ) : ℝ) := by
    have e : ((K : ℤ) : ℝ) = 2 ^ depth meshCells := by simp only [K, f.levels]; push_cast; simp
    rw [e, f.res, div_mul_eq_mul_div, le_div_iff₀ (by linarith)]
    exact mul_le_mul_of_nonneg_left h2m hl.le
  have hle := longAxis_eq s
  obtain ⟨a1, a2, a3, a4, a5, a6⟩ := hp
  have hx : 1.01 * (s.bounds.hi.x - s.bounds.lo.x) ≤ longAxis s := by
    rw [hle]; exact mul_le_mul_of_nonneg_left (le_max_of_le_right (le_max_left _ _)) (by norm_num)
  have hy : 1.01 * (s.bounds.hi.y - s.bounds.lo.y) ≤ longAxis s := by
    rw [hle]; exact mul_le_mul_of_nonneg_left (le_max_of_le_right (le_max_right _ _)) (by norm_num)
  have hz : 1.01 * (s.bounds.hi.z - s.bounds.lo.z) ≤ longAxis s := by
    rw [hle]; exact mul_le_mul_of_nonneg_left (le_max_left _ _) (by norm_num)
  refine ⟨by rw [f.todo, f.levels]; simp, ?_⟩
  simp only [Dc3.pos, V3.add, V3.scale, V3i.toV3, f.origin, scaled_lo, Box3.size, V3.sub]
  push_cast
  norm_num at hx hy hz ⊢
  refine ⟨?_, ?_, ?_, ?_, ?_, ?_⟩ <;> linarith

/-- Leaf cells are cubes of edge exactly 1.01 * longest side / meshCells. -/
theorem C02_leaf_edge (s : SDF3) (meshCells : ℤ) (oc : State) (hb : s.bounds.Solid)
    (h : Initial s meshCells oc) (c : Cube) :
    let e := 1.01 * longestSide s.bounds / meshCells
    (oc.dc.pos (leafCorners c 6)) = V3.add (oc.dc.pos (leafCorners c 0)) ⟨e, e, e⟩ := by
  intro e
  have f := initial_facts hb h
  have hm : (2 : ℝ) ≤ (meshCells : ℝ) := by exact_mod_cast f.m_ge
  have he : e = 2 * oc.dc.resolution := by
    simp only [e, f.res, longAxis_eq, longestSide]
    have hne : (meshCells : ℝ) ≠ 0 := by linarith
    rw [max_comm (s.bounds.hi.z - s.bounds.lo.z), max_assoc]
    field_simp
  rw [he]
  simp only [Dc3.pos, leafCorners, V3.add, V3.scale, V3i.toV3, V3i.add]
  ext <;> simp <;> ring

/-- The number of levels depends only on meshCells: it is `⌈log₂(2 * meshCells)⌉ + 1`. -/
theorem C02_levels (s : SDF3) (meshCells : ℤ) (oc : State) (hb : s.bounds.Solid) (h : Initial s meshCells oc) :
    oc.dc.levels = ⌈Real.logb 2 (2 * meshCells)⌉₊ + 1 := (initial_facts hb h).levels

/-- The constructor panics exactly for fewer than two cells, or for so many cells that 64 levels would be needed. -/
theorem C02_new_panics_iff (s : SDF3) (meshCells : ℤ) (hb : s.bounds.Solid) :
    new s meshCells = none ↔ meshCells < 2 ∨ (2 : ℝ) ^ 62 < 2 * meshCells := by
  unfold new
  by_cases hm : meshCells < 2
  · simp [hm]
  · rw [if_neg hm]
    have hm' : (2 : ℝ) ≤ (meshCells : ℝ) := by exact_mod_cast not_lt.mp hm
    have e : longAxis s / (0.5 * longAxis s / (meshCells : ℝ)) = 2 * (meshCells : ℝ) := by
      have := longAxis_pos s hb
      have : (meshCells : ℝ) ≠ 0 := by linarith
      field_simp; norm_num
    have e' : (s.bounds.scaleAboutCenter 1.01).size.maxComp = longAxis s := rfl
    simp only [e', e, hm, false_or]
    have key : ⌈Real.logb 2 (2 * (meshCells : ℝ))⌉₊ + 1 ≥ 64 ↔ (2 : ℝ) ^ 62 < 2 * meshCells := by
      have : ⌈Real.logb 2 (2 * (meshCells : ℝ))⌉₊ + 1 ≥ 64 ↔ 62 < ⌈Real.logb 2 (2 * (meshCells : ℝ))⌉₊ := by omega
      rw [this, Nat.lt_ceil, Real.lt_logb_iff_rpow_lt (by norm_num) (by linarith), Real.rpow_natCast]
    by_cases hk : (2 : ℝ) ^ 62 < 2 * meshCells
    · rw [if_pos (key.mpr hk)]; exact ⟨fun _ => hk, fun _ => rfl⟩
    · rw [if_neg (fun h => hk (key.mp h))]; exact ⟨fun h => by simp at h, fun h => absurd h hk⟩

example : ∃ oc, new unitBall 2 = some oc := by
  have := (not_congr (C02_new_panics_iff unitBall 2 unitBall_solid)).mpr (by norm_num)
  exact Option.ne_none_iff_exists'.mp this

example : unitBall.bounds.Solid ∧ unitBall.bounds.Contains ⟨1, 0, 0⟩ := by
  refine ⟨unitBall_solid, ?_⟩
  simp [unitBall, Box3.Contains]

end Sdf.Octree
