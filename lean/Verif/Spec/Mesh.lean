import Verif.Model.MarchingCubes
import Mathlib.Logic.Relation

/-!
Specification vocabulary for triangle meshes, independent of marching cubes: directed edges and
closed, consistently oriented surfaces.
-/

namespace Sdf

/-- The three directed edges of a triangle, in vertex order. -/
def Tri.edges (t : Tri) : List (V3 × V3) := [(t.a, t.b), (t.b, t.c), (t.c, t.a)]

/-- A triangle's corners, numbered. -/
def Tri.vertex (t : Tri) : Fin 3 → V3 := ![t.a, t.b, t.c]

/-- The direction a triangle faces by the right-hand rule; gonum `Triangle.Normal` (not normalised). -/
def Tri.normal (t : Tri) : V3 := V3.cross (V3.sub t.b t.a) (V3.sub t.c t.a)

open Classical in
/-- How many times the directed edge from `p` to `q` occurs in the triangles of `m`. -/
noncomputable def edgeCount (m : List Tri) (p q : V3) : Nat := (m.flatMap Tri.edges).count (p, q)

/-- A closed, consistently oriented surface: every directed edge occurs exactly as often as its
reverse. -/
def Closed (m : List Tri) : Prop := ∀ p q, edgeCount m p q = edgeCount m q p

/-- `p` is a corner of the triangle. -/
def Tri.At (t : Tri) (p : V3) : Prop := p = t.a ∨ p = t.b ∨ p = t.c

/-- Two triangles of the mesh with a common edge at the corner `p`. -/
def EdgeNeighbours (m : List Tri) (p : V3) (t u : Tri) : Prop :=
  t ∈ m ∧ u ∈ m ∧ t.At p ∧ u.At p ∧ ∃ q, q ≠ p ∧ t.At q ∧ u.At q

/-- A surface without boundary that crosses or touches itself nowhere along its edges and at its corners: a triangle has three different
corners, every edge of a triangle belongs to exactly one other triangle, which traverses it the other way, and the triangles around a
corner form a single fan, each reached from any other across edges at that corner. -/
structure Manifold (m : List Tri) : Prop where
  corners : ∀ t ∈ m, t.a ≠ t.b ∧ t.b ≠ t.c ∧ t.c ≠ t.a
  edges : ∀ t ∈ m, ∀ e ∈ t.edges, edgeCount m e.1 e.2 = 1 ∧ edgeCount m e.2 e.1 = 1
  fans : ∀ p, ∀ t ∈ m, ∀ u ∈ m, t.At p → u.At p → Relation.ReflTransGen (EdgeNeighbours m p) t u

/-- The volume a closed, outward-oriented surface encloses (by the divergence theorem): the sum of the signed volumes of the tetrahedra
that its triangles form with the origin. -/
noncomputable def signedVolume (m : List Tri) : ℝ := (m.map fun t => V3.dot t.a (V3.cross t.b t.c) / 6).sum

/-- The eight corners of the unit cell at `(i,j,k)` of an integer grid, in the corner order that
/repo/render/octree_renderer.go:189-198 uses: counter-clockwise bottom square, then top square. -/
def cellCorners {α : Type} (g : ℤ → ℤ → ℤ → α) (c : ℤ × ℤ × ℤ) : Fin 8 → α :=
  let i := c.1
  let j := c.2.1
  let k := c.2.2
  ![g i j k, g (i + 1) j k, g (i + 1) (j + 1) k, g i (j + 1) k,
    g i j (k + 1), g (i + 1) j (k + 1), g (i + 1) (j + 1) (k + 1), g i (j + 1) (k + 1)]

/-- The cell has a corner below the iso value and a corner not below it. -/
def Mixed (v : Fin 8 → ℝ) (x : ℝ) : Prop := (∃ a, v a < x) ∧ ∃ b, x ≤ v b

/-- Position of a cell corner relative to the cell origin, in units of the cell edge, matching `cellCorners`. -/
def cornerOffset : Fin 8 → Bool × Bool × Bool :=
  ![(false, false, false), (true, false, false), (true, true, false), (false, true, false),
    (false, false, true), (true, false, true), (true, true, true), (false, true, true)]

/-- Two corners are the ends of a cell edge: their offsets differ along exactly one axis. -/
def AdjacentCorners (a b : Fin 8) : Prop :=
  (([(cornerOffset a).1 != (cornerOffset b).1, (cornerOffset a).2.1 != (cornerOffset b).2.1,
     (cornerOffset a).2.2 != (cornerOffset b).2.2]).count true) = 1

instance (a b : Fin 8) : Decidable (AdjacentCorners a b) := by unfold AdjacentCorners; infer_instance

end Sdf
