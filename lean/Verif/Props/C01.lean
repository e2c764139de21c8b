import Verif.Lemmas.OctreeDense
import Verif.Lemmas.Ball

/-!
C01: octree rendering never skips a cell the surface passes through.
-/

namespace Sdf.Octree

open Classical

/-- Whatever buffers and schedule are used, once the renderer has reported `io.EOF` the triangles of every
finest cell whose corners take strictly negative and strictly positive values have been delivered, provided
the shape is 1-Lipschitz. -/
theorem C01_surface_cells_delivered (deg : Tri → Bool) (s : SDF3) (meshCells : ℤ) (oc oc' : State)
    (outs : List (List Tri)) (hb : s.bounds.Solid) (hl : Lip3 s.eval) (h0 : Initial s meshCells oc)
    (h : Calls deg oc outs oc' true) (c : Cube) (hc : c ∈ allCells (oc.dc.levels - 1))
    (hneg : ∃ a, s.eval (oc.dc.pos (leafCorners c a)) < 0)
    (hpos : ∃ b, 0 < s.eval (oc.dc.pos (leafCorners c b))) :
    (leafTris deg oc.dc c).Subperm outs.flatten := by
  have f := initial_facts hb h0
  have hd := depth_ge meshCells f.m_ge
  rw [mem_allCells] at hc
  rw [← f.dc_s] at hl hneg hpos
  have hm : c ∈ leaves oc.dc (oc.dc.levels - 1) ⟨0, 0, 0⟩ :=
    leaves_complete oc.dc (res_pos hb f).le hl _ _ c (by rw [f.levels]; omega) hc hneg hpos
  refine List.Subperm.trans ?_ (complete_perm hb h0 h).symm.subperm
  unfold mesh
  obtain ⟨l1, l2, hl12⟩ := List.append_of_mem hm
  simp only [hl12, List.flatMap_append, List.flatMap_cons]
  exact ((List.sublist_append_left _ _).trans (List.sublist_append_right _ _)).subperm

/-- If moreover every cell of the finest grid is `Clear` (for example because no corner of the grid lies exactly on the surface), the octree delivers exactly the
triangles of plain marching cubes over the whole grid. -/
theorem C01_output_is_dense_marching_cubes (deg : Tri → Bool) (s : SDF3) (meshCells : ℤ) (oc oc' : State)
    (outs : List (List Tri)) (hb : s.bounds.Solid) (hl : Lip3 s.eval) (h0 : Initial s meshCells oc)
    (h : Calls deg oc outs oc' true)
    (hz : ∀ c ∈ allCells (oc.dc.levels - 1), Clear oc.dc c) :
    outs.flatten.Perm (denseMesh deg oc.dc) := by
  have f := initial_facts hb h0
  have hd := depth_ge meshCells f.m_ge
  refine (complete_perm hb h0 h).trans ?_
  unfold mesh denseMesh
  rw [← f.dc_s] at hl
  refine flatMap_perm_of_subset _ _ _ (leaves_nodup _ _ _) (allCells_nodup _) ?_ ?_
  · intro c hc
    exact mem_allCells.mpr (leaves_in _ _ _ c hc)
  · intro c hc hnot
    unfold leafTris
    rw [MC.raw_nil_of_not_mixed]
    · rfl
    · rintro ⟨⟨a, ha⟩, ⟨b, hb'⟩⟩
      apply hnot
      exact leaves_complete_clear oc.dc (res_pos hb f).le hl c (by rw [f.levels]; omega) (mem_allCells.mp hc) ⟨a, ha⟩ ⟨b, hb'⟩ (hz c hc)

/-- The unit ball rendered with two cells: the renderer exists and its hypotheses hold. -/
example : ∃ oc, Initial unitBall 2 oc ∧ unitBall.bounds.Solid ∧ Lip3 unitBall.eval
    ∧ ∀ c ∈ allCells (oc.dc.levels - 1), ∀ a, unitBall.eval (oc.dc.pos (leafCorners c a)) ≠ 0 := by
  obtain ⟨oc, h⟩ : ∃ oc, new unitBall 2 = some oc := by
    refine ⟨_, (if_neg (by norm_num)).trans (if_neg ?_)⟩
    have e : longAxis unitBall / (0.5 * longAxis unitBall / ((2 : ℤ) : ℝ)) = 4 := by
      have := longAxis_pos unitBall unitBall_solid
      push_cast
      field_simp
      norm_num
    have e' : (unitBall.bounds.scaleAboutCenter 1.01).size.maxComp = longAxis unitBall := rfl
    rw [e', e]
    have : Real.logb 2 4 = 2 := by
      rw [show (4 : ℝ) = 2 ^ (2 : ℝ) by norm_num]
      exact Real.logb_rpow (by norm_num) (by norm_num)
    rw [this]
    norm_num
  have hi : Initial unitBall 2 oc := ⟨oc, h, rfl⟩
  refine ⟨oc, hi, unitBall_solid, unitBall_lip, ?_⟩
  have f := initial_facts unitBall_solid hi
  intro c _ a hzero
  -- all coordinates are integer multiples of 0.505, and 1 / 0.505² is not an integer
  have hr : oc.dc.resolution = 0.505 := by
    rw [f.res, longAxis_eq]
    simp only [unitBall]; norm_num
  have ho : oc.dc.origin = ⟨-1.01, -1.01, -1.01⟩ := by
    rw [f.origin, scaled_lo]; simp only [unitBall]; ext <;> norm_num
  generalize leafCorners c a = q at hzero
  have hn : V3.norm (oc.dc.pos q) = 1 := by simp only [unitBall] at hzero; linarith
  have h1 := V3.norm_sq (oc.dc.pos q)
  rw [hn] at h1
  simp only [Dc3.pos, V3.add, V3.scale, V3i.toV3, hr, ho] at h1
  have h2 : (255025 : ℝ) * (((q.x - 2) * (q.x - 2) + (q.y - 2) * (q.y - 2) + (q.z - 2) * (q.z - 2) : ℤ) : ℝ) = 1000000 := by
    push_cast
    nlinarith [h1]
  have h3 : (255025 : ℤ) * ((q.x - 2) * (q.x - 2) + (q.y - 2) * (q.y - 2) + (q.z - 2) * (q.z - 2)) = 1000000 := by
    exact_mod_cast h2
  omega

end Sdf.Octree
