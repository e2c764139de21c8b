import Verif.Model.KdImport
import Mathlib.Algebra.Order.Monoid.Unbundled.WithTop
import Mathlib.Data.Real.Basic

/-!
The nearest triangle of an imported model.  The tree is built and searched by gonum's `kdtree` package, which is not in /repo; what
is modelled of it is the documented contract of a k-d tree: a node's `Compare` along its plane separates its two subtrees, the
planes go round the three axes, and a search enters the subtree on the other side of the plane only if the square of the query's
`Compare` is not larger than the best squared distance so far.
-/

namespace Sdf
namespace Kd

/-- /repo/helpers/sdfexp/spatial3.go:39 `Dims` is three: the axes. -/
abbrev Dim := Fin 3

/-- The coordinate of a vector along an axis. -/
def coord (v : V3) : Dim → ℝ
  | 0 => v.x
  | 1 => v.y
  | 2 => v.z

/-- /repo/helpers/sdfexp/spatial3.go:26-37 `Compare`: only the centroids count. -/
def compare (a b : V3) (d : Dim) : ℝ := coord a d - coord b d

/-- A k-d tree; the triangles are given by their numbers. -/
inductive Tree where
  | nil : Tree
  | node (i : ℕ) (d : Dim) (left right : Tree) : Tree

/-- The triangles of a tree. -/
def Tree.items : Tree → List ℕ
  | .nil => []
  | .node i _ l r => i :: (l.items ++ r.items)

/-- What `kdtree.New` makes of triangles with the centroids `C`: /repo/helpers/sdfexp/import.go:153-164 and 187-201 sort a range of
triangles around a pivot by `Compare`, and what comes before and after it is treated likewise along the next axis. -/
def Tree.Sorted (C : ℕ → V3) : Dim → Tree → Prop
  | _, .nil => True
  | k, .node i d l r => d = k ∧ (∀ j ∈ l.items, compare (C j) (C i) d ≤ 0) ∧ (∀ j ∈ r.items, 0 ≤ compare (C j) (C i) d) ∧
      l.Sorted C (k + 1) ∧ r.Sorted C (k + 1)

/-- The triangle found, its squared distance, and the triangles that were measured, in order. -/
structure Found where
  item : Option ℕ
  d2 : WithTop ℝ
  seen : List ℕ

open Classical in
/-- One node of a search: the node's own distance, then the near side, then, if the plane is not too far away, the far side. -/
noncomputable def visit (i : ℕ) (c di : ℝ) (dist : WithTop ℝ) (near far : WithTop ℝ → Found) : Found :=
  let dist := min dist (di : WithTop ℝ)
  let a := near dist
  let best : Option ℕ × WithTop ℝ := if a.d2 < dist then (a.item, a.d2) else (some i, dist)
  if ((c * c : ℝ) : WithTop ℝ) ≤ best.2 then
    let b := far best.2
    let best' : Option ℕ × WithTop ℝ := if b.d2 < best.2 then (b.item, b.d2) else best
    ⟨best'.1, best'.2, i :: (a.seen ++ b.seen)⟩
  else ⟨best.1, best.2, i :: a.seen⟩

open Classical in
/-- The search below a node for the query `q`, with the best squared distance so far; `d` gives the squared distances of the
triangles from the query. -/
noncomputable def Tree.search (C : ℕ → V3) (d : ℕ → ℝ) (q : V3) : Tree → WithTop ℝ → Found
  | .nil => fun _ => ⟨none, ⊤, []⟩
  | .node i k l r => fun dist =>
    let c := compare q (C i) k
    if c ≤ 0 then visit i c (d i) dist (l.search C d q) (r.search C d q)
    else visit i c (d i) dist (r.search C d q) (l.search C d q)

/-- The centroid of the triangle at a position; the zero vector beyond the last. -/
noncomputable def Mesh.center (m : Mesh) (i : ℕ) : V3 := ((m.triangles[i]?).map MeshTri.C).getD ⟨0, 0, 0⟩

/-- /repo/helpers/sdfexp/import.go:33-37 `Evaluate` with a given tree, when no other evaluation is running.  `none` is a panic. -/
noncomputable def Mesh.evaluateTree (m : Mesh) (tree : Tree) (mem : Memory) (p : V3) : Option ℝ :=
  let f := tree.search m.center (fun i => (m.dist2 i p).getD 0) p ⊤
  f.item.bind fun i => m.evaluate mem f.seen i p

end Kd
end Sdf
