import Verif.Model.MarchingCubes

/-!
3MF export: /repo/render/3mf.go.  Only the mesh bookkeeping; the XML and zip encoding are not modelled.
-/

namespace Sdf.Mf3

/-- /repo/render/3mf.go:106-110 `mf3Triangle`. -/
structure Triangle where
  v1 : Nat
  v2 : Nat
  v3 : Nat

/-- /repo/render/3mf.go:95-98 `mf3Mesh`. -/
structure Mesh where
  vertices : List V3
  triangles : List Triangle

/-- /repo/render/3mf.go:85-93 `mf3object` (the string attributes are left out) and 74-77 `item`. -/
structure Obj where
  id : Nat
  mesh : Mesh

/-- /repo/render/3mf.go:58-69 `model`: the objects, and the object ids of the build items. -/
structure Doc where
  objects : List Obj
  build : List Nat

/-- /repo/render/3mf.go:114-120: `vertexMap` (index, count) and `vertices`. -/
structure Acc where
  vmap : V3 → Option (Nat × Nat)
  vertices : List V3

open Classical in
/-- /repo/render/3mf.go:123-134: one corner; returns the index of its vertex. -/
noncomputable def Acc.corner (a : Acc) (v : V3) : Acc × Nat :=
  match a.vmap v with
  | none => (⟨Function.update a.vmap v (some (a.vertices.length, 1)), a.vertices ++ [v]⟩, a.vertices.length)
  | some (idx, count) => (⟨Function.update a.vmap v (some (idx, count + 1)), a.vertices⟩, idx)

/-- /repo/render/3mf.go:122-143: the three corners of one triangle. -/
noncomputable def Acc.tri (a : Acc) (t : Tri) : Acc × Triangle :=
  let r1 := a.corner t.a
  let r2 := r1.1.corner t.b
  let r3 := r2.1.corner t.c
  (r3.1, ⟨r1.2, r2.2, r3.2⟩)

/-- /repo/render/3mf.go:121-144: all triangles. -/
noncomputable def Acc.tris (a : Acc) : List Tri → Acc × List Triangle
  | [] => (a, [])
  | t :: ts =>
    let r := a.tri t
    let r' := r.1.tris ts
    (r'.1, r.2 :: r'.2)

/-- /repo/render/3mf.go:112-168 `AddObject`: the document afterwards and whether the error is nil.  The object is added
even when an error is returned. -/
def Doc.addObject (m : Doc) (src : List Tri) (m' : Doc) (ok : Prop) : Prop :=
  let r := (⟨fun _ => none, []⟩ : Acc).tris src
  let id := m.objects.length + 1
  m' = ⟨m.objects ++ [⟨id, ⟨r.1.vertices, r.2⟩⟩], m.build ++ [id]⟩ ∧
    (ok ↔ ¬ ∃ v idx count, r.1.vmap v = some (idx, count) ∧ count < 3)

end Sdf.Mf3
