import Verif.Lemmas.OctreeCells

/-!
C08: the marching-cubes mesh is closed and consistently oriented.
-/

namespace Sdf.MC

/-- Any sign field.  Given any values and any vertex positions on the integer grid, with finitely many vertices
below the iso value, the triangles of all cells (of any finite list of cells, without repetition, that includes every cell
with a sign change) form a closed, consistently oriented surface.  Triangles with two equal corners may be dropped. -/
theorem C08_mesh_closed (g : ℤ → ℤ → ℤ → V3) (v : ℤ → ℤ → ℤ → ℝ) (x : ℝ)
    (hfin : {c : ℤ × ℤ × ℤ | v c.1 c.2.1 c.2.2 < x}.Finite)
    (cells : List (ℤ × ℤ × ℤ)) (hnd : cells.Nodup) (hcov : ∀ c, Mixed (cellCorners v c) x → c ∈ cells)
    (deg : Tri → Bool) (hdeg : ∀ t, deg t = true → t.a = t.b ∨ t.b = t.c ∨ t.c = t.a) :
    Closed (cells.flatMap fun c => (toTriangles deg 5 (cellCorners g c) (cellCorners v c) x).getD []) := by
  have h := cells_closed g v x hfin cells hnd hcov
  have e : (cells.flatMap fun c => (toTriangles deg 5 (cellCorners g c) (cellCorners v c) x).getD [])
      = (cells.flatMap fun c => rawTriangles (cellCorners g c) (cellCorners v c) x).filter fun t => !deg t := by
    rw [List.filter_flatMap]
    rfl
  rw [e]
  refine (closed_filter _ _ ?_).mpr h
  intro t _ ht
  exact hdeg t (by simpa using ht)

/-- A single inside vertex meets the hypotheses; the cells are the eight around it. -/
example : ∃ v : ℤ → ℤ → ℤ → ℝ, {c : ℤ × ℤ × ℤ | v c.1 c.2.1 c.2.2 < 0}.Finite
    ∧ Mixed (cellCorners v (0, 0, 0)) 0 := by
  refine ⟨fun i j k => if i = 0 ∧ j = 0 ∧ k = 0 then -1 else 1, ?_, ⟨0, ?_⟩, ⟨1, ?_⟩⟩
  · apply Set.Finite.subset (Set.finite_singleton ((0, 0, 0) : ℤ × ℤ × ℤ))
    rintro ⟨i, j, k⟩ h
    simp only [Set.mem_ofPred_eq] at h
    by_cases hh : i = 0 ∧ j = 0 ∧ k = 0
    · obtain ⟨rfl, rfl, rfl⟩ := hh; rfl
    · rw [if_neg hh] at h; linarith
  · simp [cellCorners]
  · simp [cellCorners]

end Sdf.MC

namespace Sdf.Octree

open Classical

theorem closed_perm {m m' : List Tri} (h : m.Perm m') : Closed m ↔ Closed m' := by
  unfold Closed edgeCount
  have : ∀ e, (m.flatMap Tri.edges).count e = (m'.flatMap Tri.edges).count e := fun e =>
    (h.flatMap_right Tri.edges).count_eq e
  simp only [this]

/-- End to end: for every 1-Lipschitz shape whose bounding box contains it, everything the octree renderer delivers until
`io.EOF`, with any buffers, any number of goroutines and any schedule, is a closed, consistently oriented surface, provided
every cell is `Clear`, for example because no grid vertex lies exactly on the surface. -/
theorem C08_octree_mesh_closed (s : SDF3) (meshCells : ℤ) (hb : s.bounds.Solid) (hl : Lip3 s.eval) (hbd : s.Bounded)
    (deg : Tri → Bool) (hdeg : ∀ t, deg t = true → t.a = t.b ∨ t.b = t.c ∨ t.c = t.a)
    (oc oc' : State) (outs : List (List Tri)) (h0 : Initial s meshCells oc) (h : Calls deg oc outs oc' true)
    (hz : ∀ c ∈ allCells (oc.dc.levels - 1), Clear oc.dc c) :
    Closed outs.flatten := by
  obtain ⟨hfin, cells, hnd, hcov, hp⟩ := octree_cells s meshCells hb hl hbd deg oc oc' outs h0 h hz
  rw [closed_perm hp]
  exact (MC.closed_filter _ _ (fun t _ ht => hdeg t (by simpa using ht))).mpr (MC.cells_closed _ _ _ hfin cells hnd hcov)

/-- The unit ball meets the hypotheses on the shape (that no grid vertex lies exactly on its surface for
`meshCells = 2` is shown in `C01`). -/
example : unitBall.bounds.Solid ∧ Lip3 unitBall.eval ∧ unitBall.Bounded :=
  ⟨unitBall_solid, unitBall_lip, unitBall_bounded⟩

end Sdf.Octree
