import Verif.Model.Bcc

/-!
Tetrahedral meshes of shapes: /repo/helpers/sdfexp/omesh.go, /repo/helpers/sdfexp/basicmesh.go and the finite differences of
/repo/helpers/sdfexp/spatial3.go:130-151.  A position is `none` when its coordinates are not numbers.  Panics are `none`.
-/

namespace Sdf
namespace Bcc

/-- /repo/helpers/sdfexp/spatial3.go:132-138 `gradient`. -/
noncomputable def gradient (p : V3) (tol : ℝ) (f : V3 → ℝ) : V3 :=
  ⟨f (V3.add p ⟨tol, 0, 0⟩) - f (V3.add p ⟨-tol, 0, 0⟩), f (V3.add p ⟨0, tol, 0⟩) - f (V3.add p ⟨0, -tol, 0⟩),
   f (V3.add p ⟨0, 0, tol⟩) - f (V3.add p ⟨0, 0, -tol⟩)⟩

/-- /repo/helpers/sdfexp/spatial3.go:140-145 `divergence`. -/
noncomputable def divergence (p : V3) (tol : ℝ) (f : V3 → V3) : ℝ :=
  let dx := V3.sub (f (V3.add p ⟨tol, 0, 0⟩)) (f (V3.add p ⟨-tol, 0, 0⟩))
  let dy := V3.sub (f (V3.add p ⟨0, tol, 0⟩)) (f (V3.add p ⟨0, -tol, 0⟩))
  let dz := V3.sub (f (V3.add p ⟨0, 0, tol⟩)) (f (V3.add p ⟨0, 0, -tol⟩))
  dx.x + dy.y + dz.z

/-- /repo/helpers/sdfexp/spatial3.go:147-149 `laplacian`; the function passed to `divergence` does not use its argument. -/
noncomputable def laplacian (p : V3) (tol : ℝ) (f : V3 → ℝ) : ℝ := divergence p tol (fun _ => gradient p tol f)

/-- /repo/helpers/sdfexp/omesh.go:8-20 `onode` and `otetra`. -/
structure ONode where
  pos : Option V3
  tetras : List (ℕ × ℕ)
  connectivity : List ℤ

/-- The zero value of an `onode`. -/
noncomputable def ONode.zero : ONode := ⟨some ⟨0, 0, 0⟩, [], []⟩

/-- The numbers of a tetrahedron by index. -/
def corner (t : Tet) : ℕ → ℤ
  | 0 => t.1
  | 1 => t.2.1
  | 2 => t.2.2.1
  | _ => t.2.2.2

/-- /repo/helpers/sdfexp/omesh.go:41-48: the variable `existing` after the search for `c`; it is declared zero before the loop. -/
def lastSeen (c : ℤ) : List ℤ → ℤ → ℤ
  | [], e => e
  | x :: l, _ => if c = x then x else lastSeen c l x

/-- /repo/helpers/sdfexp/omesh.go:40-51: one round of the innermost loop. -/
def addConnection (conn : List ℤ) (c : ℤ) : List ℤ := if c ≠ lastSeen c conn 0 then conn ++ [c] else conn

/-- /repo/helpers/sdfexp/omesh.go:31-52: one round of the loop over the corners of a tetrahedron. -/
noncomputable def addCorner (nodes : List V3) (tetidx : ℕ) (tetra : Tet) (onodes : List ONode) (i : ℕ) : Option (List ONode) :=
  let n := corner tetra i
  if n < 0 then none
  else
    match onodes[n.toNat]?, nodes[n.toNat]? with
    | some on, some p =>
      let on := if on.tetras = [] then ⟨some p, [], []⟩ else on
      let conn := [0, 1, 2].foldl (fun l j => addConnection l (corner tetra ((i + j + 1) % 3))) on.connectivity
      some (onodes.set n.toNat { on with tetras := on.tetras ++ [(tetidx, i)], connectivity := conn })
    | _, _ => none

/-- /repo/helpers/sdfexp/omesh.go:27-58 `newOmesh`. -/
noncomputable def newOmesh (nodes : List V3) (tetras : List Tet) : Option (List ONode) :=
  (tetras.zipIdx).foldlM (fun onodes t => [0, 1, 2, 3].foldlM (addCorner nodes t.2 t.1) onodes)
    (List.replicate nodes.length ONode.zero)

/-- The value of a shape at a position; not a number when the position is not. -/
noncomputable def valueAt (s : SDF3) (p : Option V3) : Option ℝ := p.map s.eval

open Classical in
/-- `d > 0` at /repo/helpers/sdfexp/omesh.go:77: false if `d` is not a number. -/
noncomputable def isOutside (s : SDF3) (p : Option V3) : Bool :=
  match valueAt s p with
  | some d => decide (d > 0)
  | none => false

open Classical in
/-- /repo/helpers/sdfexp/omesh.go:75-82: the first loop, for one node.  The unit vector of a zero gradient is not a number. -/
noncomputable def compressNode (compress : ℝ) (s : SDF3) (nod : ONode) : ONode :=
  match nod.pos with
  | none => nod
  | some p =>
    let d := s.eval p
    if d > 0 then
      let g := gradient p 1e-6 s.eval
      if g = ⟨0, 0, 0⟩ then { nod with pos := none }
      else { nod with pos := some (V3.sub p (V3.scale (compress * d) (V3.unit g))) }
    else nod

/-- The sum of positions; not a number if one of them is not.  The outer `none` is an index out of range. -/
noncomputable def sumOf (onodes : List ONode) : List ℤ → Option V3 → Option (Option V3)
  | [], sum => some sum
  | c :: l, sum =>
    if c < 0 then none
    else
      match onodes[c.toNat]? with
      | none => none
      | some on => sumOf onodes l (sum.bind fun a => on.pos.map fun b => V3.add a b)

/-- /repo/helpers/sdfexp/omesh.go:88-93: the new position of a node; `1/0` times the zero vector is not a number. -/
noncomputable def average (onodes : List ONode) (conn : List ℤ) : Option (Option V3) :=
  (sumOf onodes conn (some ⟨0, 0, 0⟩)).map fun sum =>
    if conn = [] then none else sum.map fun v => V3.scale (1 / (conn.length : ℝ)) v

/-- /repo/helpers/sdfexp/omesh.go:84-94: the second loop, from node `i` on, with `boundary` telling the boundary nodes from `i` on.
It returns at the first boundary node. -/
noncomputable def smooth : List Bool → ℕ → List ONode → Option (List ONode)
  | [], _, onodes => some onodes
  | true :: _, _, onodes => some onodes
  | false :: rest, i, onodes =>
    match onodes[i]? with
    | none => none
    | some nod =>
      match average onodes nod.connectivity with
      | none => none
      | some p => smooth rest (i + 1) (onodes.set i { nod with pos := p })

open Classical in
/-- /repo/helpers/sdfexp/omesh.go:69-95 `compressAndSmooth`. -/
noncomputable def compressAndSmooth (compress : ℝ) (s : SDF3) (onodes : List ONode) : Option (List ONode) :=
  if compress > 1 ∨ compress < 0 then none
  else smooth (onodes.map fun n => isOutside s n.pos) 0 (onodes.map (compressNode compress s))

open Classical in
/-- /repo/helpers/sdfexp/basicmesh.go:16-21: the tetrahedra that are kept. -/
noncomputable def keep (s : SDF3) (nodes : List V3) : List Tet → Option (List Tet)
  | [] => some []
  | t :: l =>
    if t.1 < 0 ∨ t.2.1 < 0 ∨ t.2.2.1 < 0 ∨ t.2.2.2 < 0 then none
    else
      match nodes[t.1.toNat]?, nodes[t.2.1.toNat]?, nodes[t.2.2.1.toNat]?, nodes[t.2.2.2.toNat]? with
      | some a, some b, some c, some d =>
        (keep s nodes l).map fun r => if s.eval a < 0 ∨ s.eval b < 0 ∨ s.eval c < 0 ∨ s.eval d < 0 then t :: r else r
      | _, _, _, _ => none

/-- /repo/helpers/sdfexp/basicmesh.go:12-31 `UniformTetrahedronMesh`. -/
noncomputable def uniformTetrahedronMesh (resolution : ℝ) (s : SDF3) : Option (List (Option V3) × List Tet) := do
  let bcc ← makeBCCMesh s.bounds resolution
  let st ← meshTetraBCC bcc resolution
  let newtetras ← keep s st.nodes st.tetras
  let om ← newOmesh st.nodes newtetras
  let om ← [1, 2, 3, 4, 5, 6].foldlM (fun om (iter : ℕ) => compressAndSmooth ((iter : ℝ) / 6) s om) om
  pure (om.map fun n => n.pos, newtetras)

end Bcc
end Sdf
