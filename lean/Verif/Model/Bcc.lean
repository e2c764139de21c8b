import Verif.Model.Sdf
import Verif.Model.Box
import Mathlib.Logic.Function.Basic
import Mathlib.Algebra.Order.Floor.Ring

/-!
Body-centred cubic tetrahedral meshes: /repo/helpers/sdfexp/bccmesh.go, omesh.go and basicmesh.go.  Pointers to cells are
addresses (indices) in the slice of cells; nil is `none`.  Panics are `none`.
-/

namespace Sdf
namespace Bcc

/-- /repo/helpers/sdfexp/bccmesh.go:26-37: the node indices of a cell. -/
inductive Slot | i000 | ix00 | ixy0 | i0y0 | i00z | ix0z | ixyz | i0yz | ictr
  deriving DecidableEq

/-- /repo/helpers/sdfexp/bccmesh.go:26-37: the values of the constants. -/
def Slot.index : Slot → ℕ
  | .i000 => 0 | .ix00 => 1 | .ixy0 => 2 | .i0y0 => 3 | .i00z => 4 | .ix0z => 5 | .ixyz => 6 | .i0yz => 7 | .ictr => 8

/-- /repo/helpers/sdfexp/bccmesh.go:152: `for in := i000; in < ictr; in++`. -/
def corners : List Slot := [.i000, .ix00, .ixy0, .i0y0, .i00z, .ix0z, .ixyz, .i0yz]

/-- /repo/helpers/sdfexp/bccmesh.go:41-53 `bccNode`; `hasMesh` tells whether `m` is not nil, `parent` is never used. -/
structure Node where
  bccnod : Slot → ℤ
  pos : V3
  xp : Option ℕ
  xm : Option ℕ
  yp : Option ℕ
  ym : Option ℕ
  zp : Option ℕ
  zm : Option ℕ
  hasMesh : Bool

/-- The zero value of a `bccNode`, which `make` fills the slice with. -/
def Node.zero : Node := ⟨fun _ => 0, ⟨0, 0, 0⟩, none, none, none, none, none, none, false⟩

/-- /repo/helpers/sdfexp/bccmesh.go:18-21 `bccMatrix`; `nodes` gives the cell at each address of the slice. -/
structure Mat where
  nodes : ℕ → Node
  d0 : ℤ
  d1 : ℤ
  d2 : ℤ

/-- /repo/helpers/sdfexp/bccmesh.go:213-218 `at`: the address of a cell; `none` is nil. -/
def Mat.at (m : Mat) (i j k : ℤ) : Option ℕ :=
  if i < 0 ∨ j < 0 ∨ k < 0 ∨ i ≥ m.d0 ∨ j ≥ m.d1 ∨ k ≥ m.d2 then none
  else some (i * m.d1 * m.d2 + j * m.d2 + k).toNat

/-- Assignment through a pointer. -/
def Mat.set (m : Mat) (a : ℕ) (n : Node) : Mat := { m with nodes := Function.update m.nodes a n }

/-- `if p.exists() { p.field = … }`, /repo/helpers/sdfexp/bccmesh.go:169-171 and 186-188. -/
def Mat.ifExists (m : Mat) (a : Option ℕ) (f : Node → Node) : Mat :=
  match a with
  | none => m
  | some a => if (m.nodes a).hasMesh then m.set a (f (m.nodes a)) else m

/-- /repo/helpers/sdfexp/bccmesh.go:185-188 and the five similar places: link a cell to a neighbour and the neighbour back. -/
def Mat.link (m : Mat) (na : ℕ) (p : Option ℕ) (own back : Option ℕ → Node → Node) : Mat :=
  (m.set na (own p (m.nodes na))).ifExists p (back (some na))

/-- /repo/helpers/sdfexp/bccmesh.go:178-211 `setLevel0`. -/
def Mat.setLevel0 (m : Mat) (i j k : ℤ) (n : Node) : Option Mat :=
  match m.at i j k with
  | none => none
  | some na =>
    let m := m.set na n
    let m := m.link na (m.at (i - 1) j k) (fun p b => { b with xm := p }) (fun p b => { b with xp := p })
    let m := m.link na (m.at (i + 1) j k) (fun p b => { b with xp := p }) (fun p b => { b with xm := p })
    let m := m.link na (m.at i (j - 1) k) (fun p b => { b with ym := p }) (fun p b => { b with yp := p })
    let m := m.link na (m.at i (j + 1) k) (fun p b => { b with yp := p }) (fun p b => { b with ym := p })
    let m := m.link na (m.at i j (k - 1)) (fun p b => { b with zm := p }) (fun p b => { b with zp := p })
    let m := m.link na (m.at i j (k + 1)) (fun p b => { b with zp := p }) (fun p b => { b with zm := p })
    some m

/-- A cell of the grid. -/
structure Cell where
  i : ℤ
  j : ℤ
  k : ℤ
  deriving DecidableEq

/-- The order of the loops at /repo/helpers/sdfexp/bccmesh.go:128-137 and 220-230. -/
def cells (d0 d1 d2 : ℤ) : List Cell :=
  (List.range d0.toNat).flatMap fun i : ℕ => (List.range d1.toNat).flatMap fun j : ℕ =>
    (List.range d2.toNat).map fun k : ℕ => ⟨(i : ℤ), (j : ℤ), (k : ℤ)⟩

/-- /repo/helpers/sdfexp/bccmesh.go:129-133: the centre of a cell. -/
noncomputable def cellPos (b : Box3) (resolution : ℝ) (c : Cell) : V3 :=
  ⟨((c.i : ℝ) + 0.5) * resolution + b.lo.x, ((c.j : ℝ) + 0.5) * resolution + b.lo.y, ((c.k : ℝ) + 0.5) * resolution + b.lo.z⟩

/-- /repo/helpers/sdfexp/bccmesh.go:134: a cell before it is linked. -/
noncomputable def freshNode (b : Box3) (resolution : ℝ) (c : Cell) : Node :=
  { Node.zero with pos := cellPos b resolution c, hasMesh := true, bccnod := fun _ => -1 }

/-- /repo/helpers/sdfexp/bccmesh.go:113-140 `makeBCCMesh`.  Simplification: the conversion to int does not overflow. -/
noncomputable def makeBCCMesh (b : Box3) (resolution : ℝ) : Option Mat :=
  let sz := b.size
  let d0 := ⌈sz.x / resolution⌉
  let d1 := ⌈sz.y / resolution⌉
  let d2 := ⌈sz.z / resolution⌉
  if d0 < 3 ∨ d1 < 3 ∨ d2 < 3 then none
  else (cells d0 d1 d2).foldlM (fun m c => m.setLevel0 c.i c.j c.k (freshNode b resolution c)) ⟨fun _ => Node.zero, d0, d1, d2⟩

/-- /repo/helpers/sdfexp/bccmesh.go:55-63 `nodeAt`. -/
def Mat.nodeAt (m : Mat) (a : Option ℕ) (s : Slot) : ℤ :=
  match a with
  | none => -1
  | some a => (m.nodes a).bccnod s

/-- /repo/helpers/sdfexp/bccmesh.go:66-103: the numbers of a corner in the three cells next to it. -/
def Mat.neighbors (m : Mat) (n : Node) : Slot → ℤ × ℤ × ℤ
  | .ictr => (-1, -1, -1)
  | .i000 => (m.nodeAt n.xm .ix00, m.nodeAt n.ym .i0y0, m.nodeAt n.zm .i00z)
  | .ix00 => (m.nodeAt n.xp .i000, m.nodeAt n.ym .ixy0, m.nodeAt n.zm .ix0z)
  | .ixy0 => (m.nodeAt n.xp .i0y0, m.nodeAt n.yp .ix00, m.nodeAt n.zm .ixyz)
  | .i0y0 => (m.nodeAt n.xm .ixy0, m.nodeAt n.yp .i000, m.nodeAt n.zm .i0yz)
  | .i00z => (m.nodeAt n.xm .ix0z, m.nodeAt n.ym .i0yz, m.nodeAt n.zp .i000)
  | .ix0z => (m.nodeAt n.xp .i00z, m.nodeAt n.ym .ixyz, m.nodeAt n.zp .ix00)
  | .ixyz => (m.nodeAt n.xp .i0yz, m.nodeAt n.yp .ix0z, m.nodeAt n.zp .ixy0)
  | .i0yz => (m.nodeAt n.xm .ixyz, m.nodeAt n.yp .i00z, m.nodeAt n.zp .i0y0)

/-- /repo/helpers/sdfexp/bccmesh.go:65-111 `neighborNode`; `none` is the panic. -/
def Mat.neighborNode (m : Mat) (n : Node) (s : Slot) : Option ℤ :=
  let (nx, ny, nz) := m.neighbors n s
  if (nx ≥ 0 ∧ ny ≥ 0 ∧ nx ≠ ny) ∨ (nx ≥ 0 ∧ nz ≥ 0 ∧ nx ≠ nz) ∨ (nz ≥ 0 ∧ ny ≥ 0 ∧ nz ≠ ny) then none
  else some (max nx (max ny nz))

/-- A tetrahedron: four node numbers. -/
abbrev Tet := ℤ × ℤ × ℤ × ℤ

/-- /repo/helpers/sdfexp/bccmesh.go:267-268, 276-277, 285-286: the tetrahedra on one side, if the cell there exists and is meshed. -/
def Mat.side (m : Mat) (link : Option ℕ) (mk : ℤ → List Tet) : List Tet :=
  match link with
  | none => []
  | some a => if (m.nodes a).hasMesh ∧ (m.nodes a).bccnod .ictr ≥ 0 then mk ((m.nodes a).bccnod .ictr) else []

/-- /repo/helpers/sdfexp/bccmesh.go:262-295 `tetras`. -/
def Mat.tetras (m : Mat) (n : Node) : List Tet :=
  let nctr := n.bccnod .ictr
  m.side n.zm (fun z => [(nctr, n.bccnod .i000, n.bccnod .ix00, z), (nctr, n.bccnod .ix00, n.bccnod .ixy0, z),
    (nctr, n.bccnod .ixy0, n.bccnod .i0y0, z), (nctr, n.bccnod .i0y0, n.bccnod .i000, z)]) ++
  m.side n.ym (fun y => [(nctr, n.bccnod .ix00, n.bccnod .i000, y), (nctr, n.bccnod .ix0z, n.bccnod .ix00, y),
    (nctr, n.bccnod .i00z, n.bccnod .ix0z, y), (nctr, n.bccnod .i000, n.bccnod .i00z, y)]) ++
  m.side n.xm (fun x => [(nctr, n.bccnod .i000, n.bccnod .i0y0, x), (nctr, n.bccnod .i00z, n.bccnod .i000, x),
    (nctr, n.bccnod .i0yz, n.bccnod .i00z, x), (nctr, n.bccnod .i0y0, n.bccnod .i0yz, x)])

/-- /repo/helpers/sdfexp/bccmesh.go:173-176 `box`. -/
noncomputable def Node.box (n : Node) (resolution : ℝ) : Box3 := Box3.centered n.pos ⟨resolution, resolution, resolution⟩

/-- The variables of `meshTetraBCC`: the cells, the counter and the two results. -/
structure State where
  m : Mat
  n : ℤ
  nodes : List V3
  tetras : List Tet

/-- Setting one entry of `bccnod` of a cell. -/
def Mat.setNum (m : Mat) (a : ℕ) (s : Slot) (v : ℤ) : Mat :=
  m.set a { m.nodes a with bccnod := Function.update (m.nodes a).bccnod s v }

/-- /repo/helpers/sdfexp/bccmesh.go:152-161: the number of one corner. -/
noncomputable def cornerStep (a : ℕ) (vert : List V3) (st : State) (s : Slot) : Option State :=
  match st.m.neighborNode (st.m.nodes a) s with
  | none => none
  | some v =>
    if v = -1 then
      match vert[s.index]? with
      | none => none
      | some p => some { st with m := st.m.setNum a s st.n, n := st.n + 1, nodes := st.nodes ++ [p] }
    else some { st with m := st.m.setNum a s v }

/-- /repo/helpers/sdfexp/bccmesh.go:145-163: one cell. -/
noncomputable def cellStep (resolution : ℝ) (st : State) (c : Cell) : Option State :=
  let a := (c.i * st.m.d1 * st.m.d2 + c.j * st.m.d2 + c.k).toNat
  let bb := (st.m.nodes a).box resolution
  let vert := bb.vertices
  let st := { st with m := st.m.setNum a .ictr st.n, n := st.n + 1, nodes := st.nodes ++ [bb.center] }
  match corners.foldlM (cornerStep a vert) st with
  | none => none
  | some st => some { st with tetras := st.tetras ++ st.m.tetras (st.m.nodes a) }

/-- /repo/helpers/sdfexp/bccmesh.go:142-165 `meshTetraBCC`. -/
noncomputable def meshTetraBCC (m : Mat) (resolution : ℝ) : Option State :=
  (cells m.d0 m.d1 m.d2).foldlM (cellStep resolution) ⟨m, 0, [], []⟩

end Bcc
end Sdf
