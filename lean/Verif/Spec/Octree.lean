import Verif.Model.Octree

/-!
Specification vocabulary for octree rendering: the mesh the renderer is meant to produce, without queues,
buffers, caches or threads.
-/

namespace Sdf.Octree

/-- The sub-cube is skipped: the distance at its centre is at least half its diagonal. -/
def Skipped (dc : Dc3) (c : Cube) : Prop :=
  dc.hdiag c.n ≤ |dc.value ⟨c.o.x + 2 ^ (c.n - 1), c.o.y + 2 ^ (c.n - 1), c.o.z + 2 ^ (c.n - 1)⟩|

open Classical in
/-- The finest cells (level 1) reached from a cube by subdividing and dropping skipped sub-cubes. -/
noncomputable def leaves (dc : Dc3) : Nat → V3i → List Cube
  | 0, _ => []
  | 1, o => [⟨o, 1⟩]
  | n + 2, o => ((subCubes ⟨o, n + 2⟩).filter fun c => ¬ Skipped dc c).flatMap fun c => leaves dc (n + 1) c.o

/-- Marching-cubes triangles of a finest cell, with the ones `deg` rejects removed. -/
noncomputable def leafTris (deg : Tri → Bool) (dc : Dc3) (c : Cube) : List Tri :=
  (MC.rawTriangles (fun i => dc.pos (leafCorners c i)) (fun i => dc.value (leafCorners c i)) 0).filter fun t => !deg t

/-- The mesh of everything below a cube. -/
noncomputable def mesh (deg : Tri → Bool) (dc : Dc3) (c : Cube) : List Tri :=
  (leaves dc c.n c.o).flatMap (leafTris deg dc)

/-- A sequence of `ReadTriangles` calls, each with some non-empty slice, none but the last returning `io.EOF`;
`outs` are the triangles `dst[:n]` delivered by each call. -/
inductive Calls (deg : Tri → Bool) : State → List (List Tri) → State → (eof : Bool) → Prop
  | nil {oc} : Calls deg oc [] oc false
  | more {oc outs oc' dst oc'' r} : Calls deg oc outs oc' false → ReadTriangles deg oc' dst oc'' r →
      Calls deg oc (outs ++ [r.dst.take r.n]) oc'' r.eof

/-- A renderer state as built by `NewOctreeRenderer`, with any number of goroutines configured
(the package-internal field `concurrent`). -/
def Initial (s : SDF3) (meshCells : ℤ) (oc : State) : Prop :=
  ∃ oc0, new s meshCells = some oc0 ∧ oc = { oc0 with concurrent := oc.concurrent }

/-- Integer offsets `2i` for `0 ≤ i < k`. -/
def offsets (k : Nat) : List ℤ := (List.range k).map fun i : Nat => 2 * (i : ℤ)

/-- All finest cells of a cube of the given level, pruned or not, in an arbitrary fixed order. -/
def allCells (n : Nat) : List Cube :=
  (offsets (2 ^ (n - 1))).flatMap fun x => (offsets (2 ^ (n - 1))).flatMap fun y =>
    (offsets (2 ^ (n - 1))).map fun z => ⟨⟨x, y, z⟩, 1⟩

/-- The octree cannot take the finest cell `c` for one without surface although it has some: either no corner of the cell lies exactly
on the surface, or no proper sub-cube of the octree that contains the cell (side `2^m`, corner `2^m (i, j, k)`, in units of the
resolution) has its centre inside the solid at a depth of exactly half the diagonal of the sub-cube. -/
def Clear (dc : Dc3) (c : Cube) : Prop :=
  (∀ a, dc.s.eval (dc.pos (leafCorners c a)) ≠ 0)
  ∨ ∀ (m : Nat) (i j k : ℤ), 1 ≤ m → m + 1 < dc.levels →
      2 ^ m * i ≤ c.o.x → c.o.x < 2 ^ m * (i + 1) → 2 ^ m * j ≤ c.o.y → c.o.y < 2 ^ m * (j + 1) →
      2 ^ m * k ≤ c.o.z → c.o.z < 2 ^ m * (k + 1) →
      dc.s.eval (dc.pos ⟨2 ^ m * i + 2 ^ (m - 1), 2 ^ m * j + 2 ^ (m - 1), 2 ^ m * k + 2 ^ (m - 1)⟩) ≠ -dc.hdiag m

/-- Plain marching cubes over every finest cell of the renderer's grid, without any octree. -/
noncomputable def denseMesh (deg : Tri → Bool) (dc : Dc3) : List Tri :=
  (allCells (dc.levels - 1)).flatMap (leafTris deg dc)

end Sdf.Octree
