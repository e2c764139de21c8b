import Verif.Model.MarchingCubes
import Verif.Model.Box
import Verif.Model.Map2

/-!
Distance to a mesh with a bounding interval hierarchy: /repo/helpers/sdfexp/bih.go.
-/

namespace Sdf

namespace Bih

open Classical in
/-- /repo/helpers/sdfexp/bih.go:204-214 `getMinEdge02`. -/
noncomputable def minEdge02 (a11 b1 : ℝ) : V2 :=
  if b1 ≥ 0 then ⟨0, 0⟩ else if a11 + b1 ≤ 0 then ⟨0, 1⟩ else ⟨0, -b1 / a11⟩

open Classical in
/-- /repo/helpers/sdfexp/bih.go:216-230 `getMinEdge12`. -/
noncomputable def minEdge12 (a01 a11 b1 f10 f01 : ℝ) : V2 :=
  let h0 := a01 + b1 - f10
  let y := if h0 ≥ 0 then 0
    else
      let h1 := a11 + b1 - f01
      if h1 ≤ 0 then 1 else h0 / (h0 - h1)
  ⟨1 - y, y⟩

/-- /repo/helpers/sdfexp/bih.go:232-239 `getMinInterior`. -/
noncomputable def minInterior (p0 : V2) (h0 : ℝ) (p1 : V2) (h1 : ℝ) : V2 :=
  let z := h0 / (h0 - h1)
  let omz := 1 - z
  ⟨omz * p0.x + z * p1.x, omz * p0.y + z * p1.y⟩

open Classical in
/-- /repo/helpers/sdfexp/bih.go:110-195: the coefficients of the closest point.  `none` stands for coefficients that are not
numbers: in the branch of lines 121-127 the division `0 / 0` is reached when `f00` and `f01` are both zero.  (The other
divisors are zero only for triangles with two equal corners.) -/
noncomputable def minParams (a00 a01 a11 b0 b1 : ℝ) : Option V2 :=
  let f00 := b0
  let f10 := b0 + a00
  let f01 := b0 + a01
  if f00 ≥ 0 then
    if f01 > 0 then some (minEdge02 a11 b1)
    else if f00 - f01 = 0 then none
    else
      let p0 : V2 := ⟨0, f00 / (f00 - f01)⟩
      let p1 : V2 := ⟨f01 / (f01 - f10), 1 - f01 / (f01 - f10)⟩
      let dt1 := p1.y - p0.y
      let h0 := dt1 * (a11 * p0.y + b1)
      if h0 ≥ 0 then some (minEdge02 a11 b1)
      else
        let h1 := dt1 * (a01 * p1.x + a11 * p1.y + b1)
        if h1 ≤ 0 then some (minEdge12 a01 a11 b1 f10 f01) else some (minInterior p0 h0 p1 h1)
  else if f01 ≤ 0 then
    if f10 ≤ 0 then some (minEdge12 a01 a11 b1 f10 f01)
    else
      let p0 : V2 := ⟨f00 / (f00 - f10), 0⟩
      let p1 : V2 := ⟨f01 / (f01 - f10), 1 - f01 / (f01 - f10)⟩
      let h0 := p1.y * (a01 * p0.x + b1)
      if h0 ≥ 0 then some p0
      else
        let h1 := p1.y * (a01 * p1.x + a11 * p1.y + b1)
        if h1 ≤ 0 then some (minEdge12 a01 a11 b1 f10 f01) else some (minInterior p0 h0 p1 h1)
  else if f10 ≤ 0 then
    let p0 : V2 := ⟨0, f00 / (f00 - f01)⟩
    let p1 : V2 := ⟨f01 / (f01 - f10), 1 - f01 / (f01 - f10)⟩
    let dt1 := p1.y - p0.y
    let h0 := dt1 * (a11 * p0.y + b1)
    if h0 ≥ 0 then some (minEdge02 a11 b1)
    else
      let h1 := dt1 * (a01 * p1.x + a11 * p1.y + b1)
      if h1 ≤ 0 then some (minEdge12 a01 a11 b1 f10 f01) else some (minInterior p0 h0 p1 h1)
  else
    let p0 : V2 := ⟨f00 / (f00 - f10), 0⟩
    let p1 : V2 := ⟨0, f00 / (f00 - f01)⟩
    let h0 := p1.y * (a01 * p0.x + b1)
    if h0 ≥ 0 then some p0
    else
      let h1 := p1.y * (a11 * p1.y + b1)
      if h1 ≤ 0 then some (minEdge02 a11 b1) else some (minInterior p0 h0 p1 h1)

/-- /repo/helpers/sdfexp/bih.go:93-202 `minDistTri`, for the triangle itself instead of its index: the vector from the closest
point to the target; `none` when it is not a number. -/
noncomputable def minDistTri (t : Tri) (target : V3) : Option V3 :=
  let diff := V3.sub target t.a
  let edge0 := V3.sub t.b t.a
  let edge1 := V3.sub t.c t.a
  let a00 := V3.dot edge0 edge0
  let a01 := V3.dot edge0 edge1
  let a11 := V3.dot edge1 edge1
  let b0 := -(V3.dot diff edge0)
  let b1 := -(V3.dot diff edge1)
  (minParams a00 a01 a11 b0 b1).map fun p =>
    V3.sub target (V3.add t.a (V3.add (V3.scale p.x edge0) (V3.scale p.y edge1)))

/-- The three clipping directions, /repo/helpers/sdfexp/bih.go:16-21. -/
inductive Axis
  | x | y | z
deriving DecidableEq

/-- A coordinate of a vector. -/
def Axis.of : Axis → V3 → ℝ
  | .x, v => v.x
  | .y, v => v.y
  | .z, v => v.z

/-- The vector with one coordinate replaced. -/
def Axis.set : Axis → V3 → ℝ → V3
  | .x, v, c => ⟨c, v.y, v.z⟩
  | .y, v, c => ⟨v.x, c, v.z⟩
  | .z, v, c => ⟨v.x, v.y, c⟩

/-- /repo/helpers/sdfexp/bih.go:23-52 `bihInternal`: a leaf with its range of triangles, or a clipping direction with the index of
the first of the two children and the two clipping planes.  (The code packs the fields into integers.) -/
inductive Node
  | leaf (left right : ℕ)
  | split (axis : Axis) (child : ℕ) (leftClip rightClip : ℝ)

/-- The zero value of `bihInternal` is an empty leaf. -/
def Node.zero : Node := .leaf 0 0

/-- /repo/helpers/sdfexp/bih.go:55-62 `minDistBox`. -/
noncomputable def minDistBox (target : V3) (bb : Box3) : ℝ :=
  let dx := max 0 (max (target.x - bb.hi.x) (bb.lo.x - target.x))
  let dy := max 0 (max (target.y - bb.hi.y) (bb.lo.y - target.y))
  let dz := max 0 (max (target.z - bb.hi.z) (bb.lo.z - target.z))
  dx * dx + dy * dy + dz * dz - 1e-6

/-- The box no point is in, the start of the box computations (/repo/helpers/sdfexp/bih.go:356-363, 434-437). -/
noncomputable def emptyBox : Box3 :=
  ⟨⟨maxFloat64, maxFloat64, maxFloat64⟩, ⟨-maxFloat64, -maxFloat64, -maxFloat64⟩⟩

/-- /repo/helpers/sdfexp/bih.go:365-376 and 441-452: the box of the corners of some triangles. -/
noncomputable def triBox (l : List Tri) : Box3 :=
  l.foldl (fun b t => ((b.includeV t.a).includeV t.b).includeV t.c) emptyBox

open Classical in
/-- /repo/helpers/sdfexp/bih.go:340-349: the longest direction of a box. -/
noncomputable def clipAxis (bb : Box3) : Axis :=
  let dims := V3.sub bb.hi bb.lo
  if dims.x ≥ dims.y ∧ dims.x ≥ dims.z then .x
  else if dims.y ≥ dims.x ∧ dims.y ≥ dims.z then .y
  else .z

/-- The sorting of /repo/helpers/sdfexp/bih.go:351-353, with the library function left open: any rearrangement for each direction.
(The order among triangles with equal centroids depends on the library.) -/
structure Sorter where
  sort : Axis → List Tri → List Tri
  perm : ∀ a l, (sort a l).Perm l

/-- /repo/helpers/sdfexp/bih.go:326-406 `subdivide`.  The slice of triangles is sorted in place in the code; here the sorted slice is
the second result.  Triangles are given by their corners instead of vertex numbers. -/
noncomputable def subdivide (S : Sorter) (b : List Node) (bihIdx meshIdx : ℕ) (mesh : List Tri) (bb : Box3) :
    List Node × List Tri :=
  if _h : mesh.length ≤ 4 then (b.set bihIdx (.leaf meshIdx (mesh.length + meshIdx)), mesh)
  else
    let ax := clipAxis bb
    let m := S.sort ax mesh
    let half := m.length / 2
    let lm := m.take half
    let rm := m.drop half
    let lbb := triBox lm
    let rbb := triBox rm
    let child := b.length
    let r1 := subdivide S (b ++ [Node.zero, Node.zero]) child meshIdx lm lbb
    let r2 := subdivide S r1.1 (child + 1) (meshIdx + half) rm rbb
    (r2.1.set bihIdx (.split ax child (ax.of lbb.hi) (ax.of rbb.lo)), r1.2 ++ r2.2)
  termination_by mesh.length
  decreasing_by
    · simp only [List.length_take, (S.perm _ _).length_eq]; omega
    · simp only [List.length_drop, (S.perm _ _).length_eq]; omega

/-- The running result of the search: squared distance, vector from the closest point to the target and number of the triangle
(`none` is the code's -1). -/
structure Best where
  d2 : ℝ
  vec : V3
  idx : Option ℕ

open Classical in
/-- /repo/helpers/sdfexp/bih.go:249-257: one triangle of a leaf.  A comparison with a number that is not a number is false. -/
noncomputable def Best.tri (cur : Best) (target : V3) (i : ℕ) (t : Tri) : Best :=
  match minDistTri t target with
  | none => cur
  | some d => if V3.norm2 d < cur.d2 then ⟨V3.norm2 d, d, some i⟩ else cur

/-- /repo/helpers/sdfexp/bih.go:244-259: the triangles `i, i + 1, …` of a leaf (`n` of them); `none` is an index panic. -/
noncomputable def scan (mesh : List Tri) (target : V3) : (n i : ℕ) → Best → Option Best
  | 0, _, cur => some cur
  | n + 1, i, cur =>
    match mesh[i]? with
    | none => none
    | some t => scan mesh target n (i + 1) (cur.tri target i t)

open Classical in
/-- /repo/helpers/sdfexp/bih.go:241-298 `nearestDistHelper`; `none` is an index panic or a recursion deeper than `fuel`. -/
noncomputable def search (nodes : List Node) (mesh : List Tri) (target : V3) : (fuel idx : ℕ) → Box3 → Best → Option Best
  | 0, _, _, _ => none
  | fuel + 1, idx, bb, cur =>
    match nodes[idx]? with
    | none => none
    | some (.leaf l r) => scan mesh target (r - l) l cur
    | some (.split ax child lc rc) =>
      let lbb : Box3 := ⟨bb.lo, ax.set bb.hi lc⟩
      let rbb : Box3 := ⟨ax.set bb.lo rc, bb.hi⟩
      let ld := minDistBox target lbb
      let rd := minDistBox target rbb
      if ld < rd then
        (if ld < cur.d2 then search nodes mesh target fuel child lbb cur else some cur).bind fun c =>
          if rd < c.d2 then search nodes mesh target fuel (child + 1) rbb c else some c
      else
        (if rd < cur.d2 then search nodes mesh target fuel (child + 1) rbb cur else some cur).bind fun c =>
          if ld < c.d2 then search nodes mesh target fuel child lbb c else some c

end Bih

/-- /repo/helpers/sdfexp/bih.go:72-79 `BIH`: nodes, triangles in tree order and the box.  The face normals are functions of the
triangles; the edge and vertex normals are not used by the search. -/
structure Bih where
  nodes : List Bih.Node
  mesh : List Tri
  bb : Box3

namespace Bih

/-- /repo/helpers/sdfexp/bih.go:504-505: the tree over a mesh with the given box. -/
noncomputable def build (S : Sorter) (mesh : List Tri) (bb : Box3) : Bih :=
  let r := subdivide S [Node.zero] 0 0 mesh bb
  ⟨r.1, r.2, bb⟩

/-- /repo/helpers/sdfexp/bih.go:301 the search from the root. -/
noncomputable def nearest (b : Bih) (target : V3) : Option Best :=
  search b.nodes b.mesh target b.nodes.length 0 b.bb ⟨maxFloat64, ⟨0, 0, 0⟩, none⟩

/-- /repo/helpers/sdfexp/bih.go:520-523: the face normal. -/
noncomputable def faceNormal (t : Tri) : V3 := V3.unit (V3.cross (V3.sub t.b t.a) (V3.sub t.c t.a))

open Classical in
/-- /repo/helpers/sdfexp/bih.go:300-324 `DistNearestTri` and 615-618 `Evaluate`; the flag is always the one of a face.  `none` is a
panic. -/
noncomputable def evaluate (b : Bih) (target : V3) : Option ℝ :=
  (b.nearest target).bind fun r =>
    match r.idx with
    | none => some maxFloat64
    | some i =>
      (b.mesh[i]?).map fun t => if V3.dot (faceNormal t) r.vec ≥ 0 then Real.sqrt r.d2 else -Real.sqrt r.d2

/-- /repo/helpers/sdfexp/bih.go:472-480: the cell of a vertex. -/
noncomputable def cellOf (tol : ℝ) (v : V3) : ℤ × ℤ × ℤ :=
  (goInt ((v.x + 0.5 * tol) / tol), goInt ((v.y + 0.5 * tol) / tol), goInt ((v.z + 0.5 * tol) / tol))

/-- The vertex list and the cache of /repo/helpers/sdfexp/bih.go:470-489.  The cache holds the vertex instead of its number. -/
abbrev Cache := List ((ℤ × ℤ × ℤ) × V3)

open Classical in
/-- /repo/helpers/sdfexp/bih.go:474-487: the vertex used for `v`, and the cache afterwards. -/
noncomputable def Cache.use (tol : ℝ) (c : Cache) (v : V3) : V3 × Cache :=
  match c.find? fun e => decide (e.1 = cellOf tol v) with
  | some e => (e.2, c)
  | none => (v, c ++ [(cellOf tol v, v)])

/-- /repo/helpers/sdfexp/bih.go:470-489: the triangles with merged vertices. -/
noncomputable def mergeLoop (tol : ℝ) : List Tri → Cache → List Tri
  | [], _ => []
  | t :: rest, c =>
    let a := c.use tol t.a
    let b := a.2.use tol t.b
    let d := b.2.use tol t.c
    ⟨a.1, b.1, d.1⟩ :: mergeLoop tol rest d.2

/-- /repo/helpers/sdfexp/bih.go:439-452: squared lengths of the shortest and the longest side. -/
noncomputable def sideRange (model : List Tri) : ℝ × ℝ :=
  model.foldl (fun r t =>
    let s0 := V3.norm2 (V3.sub t.b t.a)
    let s1 := V3.norm2 (V3.sub t.c t.b)
    let s2 := V3.norm2 (V3.sub t.a t.c)
    (min (min (min r.1 s0) s1) s2, max (max (max r.2 s0) s1) s2)) (maxFloat64, -maxFloat64)

open Classical in
/-- /repo/helpers/sdfexp/bih.go:431-613 `ImportModelV2`; `none` is an error.  The pseudonormals of lines 525-599 are not modelled:
nothing reads them.  For a tolerance of zero after the
substitution (two equal corners, or no side) the division is by zero; this model then reports an error.  The overflow check of line 466 is kept as the bound it states. -/
noncomputable def importV2 (S : Sorter) (model : List Tri) (tol : ℝ) : Option Bih :=
  let bb := triBox model
  let r := sideRange model
  let suggested := Real.sqrt r.1 / 256
  if tol > Real.sqrt r.2 / 2 then none
  else
    let tol := if tol = 0 then suggested else tol
    let size := bb.size
    let maxDim := max size.x (max size.y size.z)
    let div := goInt (maxDim / tol + 1e-12)
    if div ≤ 0 then none
    else if div > (2 ^ 63 - 1) / 2 then none
    else some (build S (mergeLoop tol model []) bb)

end Bih

end Sdf
