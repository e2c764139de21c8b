import Verif.Model.Bih
import Verif.Model.Spatial
import Mathlib.Analysis.SpecialFunctions.Trigonometric.Inverse

/-!
Importing a triangle model with pseudo-normals: /repo/helpers/sdfexp/import.go and the `meshTriangle` of
/repo/helpers/sdfexp/spatial3.go.  The k-d tree belongs to another package (gonum) and is not modelled.
-/

namespace Sdf
namespace Kd

/-- /repo/helpers/sdfexp/import.go:56-61 `pseudoVertex`. -/
structure PseudoVertex where
  V : V3
  N : V3

/-- /repo/helpers/sdfexp/spatial3.go:15-24 `meshTriangle`, without the two fields that remember the last distance calculation
(see `Memory`) and the pointer to the mesh. -/
structure MeshTri where
  C : V3
  v0 : ℕ
  v1 : ℕ
  v2 : ℕ
  N : V3
  T : T3
  InvT : T3

/-- /repo/helpers/sdfexp/import.go:46-54 `mesh`.  The map of edge normals is a function: a missing key gives the zero vector, as in Go. -/
structure Mesh where
  bb : Box3
  vertices : List PseudoVertex
  triangles : List MeshTri
  pseudoEdgeN : ℕ × ℕ → V3

/-- /repo/helpers/sdfexp/spatial3.go:126-128 `centroid`. -/
noncomputable def centroid (t : Tri) : V3 := V3.scale (1 / 3) (V3.add (V3.add t.a t.b) t.c)

/-- /repo/helpers/sdfexp/import.go:113-114: the cell of a vertex. -/
noncomputable def key (tol : ℝ) (v : V3) : ℤ × ℤ × ℤ :=
  let w := V3.scale (1 / tol) v
  (goInt w.x, goInt w.y, goInt w.z)

/-- /repo/helpers/sdfexp/import.go:99 the vertex index cache. -/
abbrev Cache := List ((ℤ × ℤ × ℤ) × ℕ)

/-- The part of the mesh the loop over the triangles fills in. -/
structure State where
  vertices : List PseudoVertex
  cache : Cache
  pseudoEdgeN : ℕ × ℕ → V3

/-- /repo/helpers/sdfexp/import.go:115-123: the number of a vertex, added if its cell is new. -/
noncomputable def State.number (tol : ℝ) (st : State) (vert : V3) : ℕ × State :=
  match st.cache.find? fun e => decide (e.1 = key tol vert) with
  | some e => (e.2, st)
  | none => (st.vertices.length,
      ⟨st.vertices ++ [⟨vert, ⟨0, 0, 0⟩⟩], st.cache ++ [(key tol vert, st.vertices.length)], st.pseudoEdgeN⟩)

/-- /repo/helpers/sdfexp/import.go:125-126: the opening angle of a triangle at `vert`; `next` and `last` are the other corners. -/
noncomputable def openingAngle (vert next last : V3) : ℝ :=
  let s1 := V3.sub vert next
  let s2 := V3.sub vert last
  Real.arccos (V3.dot s1 s2 / (V3.norm s1 * V3.norm s2))

/-- /repo/helpers/sdfexp/import.go:112-129, one corner of a triangle with unit normal `norm`. -/
noncomputable def State.corner (tol : ℝ) (norm : V3) (st : State) (vert next last : V3) : ℕ × State :=
  let r := st.number tol vert
  let grow (pv : PseudoVertex) : PseudoVertex := ⟨pv.V, V3.add pv.N (V3.scale (openingAngle vert next last) norm)⟩
  (r.1, ⟨r.2.vertices.modify r.1 grow, r.2.cache, r.2.pseudoEdgeN⟩)

/-- /repo/helpers/sdfexp/import.go:133-136 and spatial3.go:72-75: the lower number first. -/
def edgeKey (a b : ℕ) : ℕ × ℕ := if a > b then (b, a) else (a, b)

/-- /repo/helpers/sdfexp/import.go:132-138, one edge. -/
noncomputable def State.edge (norm : V3) (st : State) (a b : ℕ) : State :=
  ⟨st.vertices, st.cache, Function.update st.pseudoEdgeN (edgeKey a b)
    (V3.add (st.pseudoEdgeN (edgeKey a b)) (V3.scale Real.pi norm))⟩

/-- /repo/helpers/sdfexp/import.go:101-139, one triangle.  gonum's `Triangle.Normal` is the cross product of the first two sides. -/
noncomputable def State.triangle (tol : ℝ) (st : State) (tri : Tri) : MeshTri × State :=
  let norm := V3.unit (V3.cross (V3.sub tri.b tri.a) (V3.sub tri.c tri.b))
  let T := canalisTransform tri
  let r0 := st.corner tol norm tri.a tri.b tri.c
  let r1 := r0.2.corner tol norm tri.b tri.c tri.a
  let r2 := r1.2.corner tol norm tri.c tri.a tri.b
  (⟨centroid tri, r0.1, r1.1, r2.1, V3.scale (2 * Real.pi) norm, T, T.inv⟩,
    ((r2.2.edge norm r0.1 r1.1).edge norm r1.1 r2.1).edge norm r2.1 r0.1)

/-- /repo/helpers/sdfexp/import.go:101-140, the loop over the triangles. -/
noncomputable def loop (tol : ℝ) : List Tri → State → List MeshTri × State
  | [], st => ([], st)
  | t :: rest, st =>
    let r := st.triangle tol t
    let s := loop tol rest r.2
    (r.1 :: s.1, s.2)

open Classical in
/-- /repo/helpers/sdfexp/import.go:63-142 `newMesh`; `none` is an error.  Lines 64-78 are the same as in bih.go (`Bih.triBox`,
`Bih.sideRange`).  As in `Bih.importV2`, a tolerance of zero after the substitution is reported as an error. -/
noncomputable def newMesh (triangles : List Tri) (tol : ℝ) : Option Mesh :=
  let bb := Bih.triBox triangles
  let r := Bih.sideRange triangles
  let suggested := Real.sqrt r.1 / 256
  if tol > Real.sqrt r.2 / 2 then none
  else
    let tol := if tol = 0 then suggested else tol
    let size := bb.size
    let maxDim := max size.x (max size.y size.z)
    let div := goInt (maxDim / tol + 1e-12)
    if div ≤ 0 then none
    else if div > (2 ^ 63 - 1) / 2 then none
    else
      let s := loop tol triangles ⟨[], [], fun _ => ⟨0, 0, 0⟩⟩
      some ⟨bb, s.2.vertices, s.1, s.2.pseudoEdgeN⟩

/-- /repo/helpers/sdfexp/spatial3.go:84-90 `triangle`; `none` is an index out of range. -/
def Mesh.triangle (m : Mesh) (t : MeshTri) : Option Tri :=
  match m.vertices[t.v0]?, m.vertices[t.v1]?, m.vertices[t.v2]? with
  | some a, some b, some c => some ⟨a.V, b.V, c.V⟩
  | _, _, _ => none

/-- /repo/helpers/sdfexp/spatial3.go:41-60 `Distance` between a triangle and a point: the closest point and the feature, which
the triangle remembers, and the squared distance. -/
noncomputable def Mesh.distance (m : Mesh) (t : MeshTri) (p : V3) : Option (V3 × Feature × ℝ) :=
  (m.triangle t).map fun tri =>
    let r := closestOnTriangle2 (t.T.apply p).xy (t.T.apply tri.a).xy (t.T.apply tri.b).xy (t.T.apply tri.c).xy
    let closest := t.InvT.apply ⟨r.1.x, r.1.y, 0⟩
    (closest, r.2, V3.norm2 (V3.sub p closest))

/-- /repo/helpers/sdfexp/spatial3.go:66-82: the quantity whose sign `CopySign` copies, for a remembered feature and closest point. -/
noncomputable def Mesh.signed (m : Mesh) (t : MeshTri) (feat : Feature) (closest p : V3) : Option ℝ :=
  let vertex (i : ℕ) := (m.vertices[i]?).map fun pv => V3.dot pv.N (V3.sub p pv.V)
  let edge (i j : ℕ) := some (V3.dot (m.pseudoEdgeN (edgeKey i j)) (V3.sub p closest))
  match feat with
  | .v0 => vertex t.v0
  | .v1 => vertex t.v1
  | .v2 => vertex t.v2
  | .e0 => edge t.v0 t.v1
  | .e1 => edge t.v1 t.v2
  | .e2 => edge t.v2 t.v0
  | .face => some (V3.dot t.N (V3.sub p closest))

open Classical in
/-- `math.Copysign` of a number that is not negative; real numbers have one zero, which counts as positive. -/
noncomputable def copysign (x sign : ℝ) : ℝ := if sign < 0 then -x else x

/-- What the triangles of a mesh remember of their last distance calculation, by position in the list. -/
abbrev Memory := ℕ → Option (V3 × Feature)

/-- /repo/helpers/sdfexp/spatial3.go:57-58: a distance calculation overwrites what the triangle at `i` remembers. -/
noncomputable def Mesh.measure (m : Mesh) (i : ℕ) (p : V3) (mem : Memory) : Memory :=
  Function.update mem i (((m.triangles[i]?).bind fun t => m.distance t p).map fun r => (r.1, r.2.1))

/-- /repo/helpers/sdfexp/spatial3.go:66-82 `CopySign` of the triangle at `i`. -/
noncomputable def Mesh.copySign (m : Mesh) (mem : Memory) (i : ℕ) (p : V3) (dist : ℝ) : Option ℝ :=
  (m.triangles[i]?).bind fun t => (mem i).bind fun r => (m.signed t r.2 r.1 p).map (copysign dist)

/-- The squared distance of the triangle at `i`. -/
noncomputable def Mesh.dist2 (m : Mesh) (i : ℕ) (p : V3) : Option ℝ :=
  (m.triangles[i]?).bind fun t => (m.distance t p).map fun r => r.2.2

/-- /repo/helpers/sdfexp/import.go:33-37 `Evaluate` when no other evaluation is running: the tree measures the triangles of a list
`visited` and returns the one at `i`. -/
noncomputable def Mesh.evaluate (m : Mesh) (mem : Memory) (visited : List ℕ) (i : ℕ) (p : V3) : Option ℝ :=
  let mem := visited.foldl (fun mem j => m.measure j p mem) mem
  (m.dist2 i p).bind fun d2 => m.copySign mem i p (Real.sqrt d2)

end Kd
end Sdf
