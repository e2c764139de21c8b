import Verif.Model.MCTables

/-!
Marching cubes on one cell: /repo/render/marchingcubes.go:9-84.
-/

namespace Sdf

/-- gonum `r3.Triangle` (`[3]r3.Vec`). -/
@[ext] structure Tri where
  a : V3
  b : V3
  c : V3

instance : Inhabited Tri := ⟨⟨default, default, default⟩⟩

namespace MC

/-- /repo/render/marchingcubes.go:12 `marchingCubesMaxTriangles`. -/
def maxTriangles : Nat := 5

/-- /repo/render/marchingcubes.go:10 `marchingCubesEpsilon`. -/
noncomputable def epsilon : ℝ := 1e-12

/-- /repo/render/marchingcubes.go:20-25: the 8-bit corner pattern. -/
noncomputable def index (v : Fin 8 → ℝ) (x : ℝ) : Nat :=
  (List.finRange 8).foldl (fun idx i =>
    open Classical in if v i < x then idx ||| (1 <<< (i : Nat)) else idx) 0

/-- /repo/render/marchingcubes.go:58-84 `mcInterpolate`. -/
noncomputable def interpolate (p1 p2 : V3) (v1 v2 x : ℝ) : V3 :=
  open Classical in
  let closeToV1 := |x - v1| < epsilon
  let closeToV2 := |x - v2| < epsilon
  if closeToV1 ∧ ¬ closeToV2 then p1
  else if closeToV2 ∧ ¬ closeToV1 then p2
  else
    let t := if closeToV1 ∧ closeToV2 then 0.5 else (x - v1) / (v2 - v1)
    ⟨p1.x + t * (p2.x - p1.x), p1.y + t * (p2.y - p1.y), p1.z + t * (p2.z - p1.z)⟩

/-- /repo/render/marchingcubes.go:30-39: the interpolated points on the flagged edges
(unflagged entries keep the zero value of the Go array). -/
noncomputable def points (p : Fin 8 → V3) (v : Fin 8 → ℝ) (x : ℝ) : Fin 12 → V3 := fun i =>
  let flags := edgeTable.getD (index v x) 0
  if flags &&& (1 <<< (i : Nat)) ≠ 0 then
    let a := (pairTable i).1
    let b := (pairTable i).2
    interpolate (p a) (p b) (v a) (v b) x
  else ⟨0, 0, 0⟩

/-- Consecutive triples of a table row; /repo/render/marchingcubes.go:41-43 (`count = len/3`). -/
def triples {α : Type} : List α → List (α × α × α)
  | a :: b :: c :: rest => (a, b, c) :: triples rest
  | _ => []

/-- All triangles of the row, before the degeneracy filter;
/repo/render/marchingcubes.go:41-48 (note the reversed order of the three indices). -/
noncomputable def rawTriangles (p : Fin 8 → V3) (v : Fin 8 → ℝ) (x : ℝ) : List Tri :=
  open Classical in
  if edgeTable.getD (index v x) 0 = 0 then []
  else
    let pts := points p v x
    (triples (triangleTable.getD (index v x) [])).map fun t => ⟨pts t.2.2, pts t.2.1, pts t.1⟩

/-- /repo/render/marchingcubes.go:15-55 `mcToTriangles`.  `dstLen` is `len(dst)`; the result is the list
of triangles stored in `dst[0..n)`, or `none` for the panic of line 16-18.
`deg` stands for gonum's `Triangle.IsDegenerate(1e-12)` (external code): theorems hold for every
predicate, or state what they need of it. -/
noncomputable def toTriangles (deg : Tri → Bool) (dstLen : Nat) (p : Fin 8 → V3) (v : Fin 8 → ℝ) (x : ℝ) :
    Option (List Tri) :=
  if dstLen < maxTriangles then none
  else some ((rawTriangles p v x).filter fun t => !deg t)

end MC

end Sdf
