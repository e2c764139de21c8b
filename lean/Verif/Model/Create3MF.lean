import Verif.Model.Mf3
import Verif.Model.Octree

/-!
Saving an octree rendering as 3MF, /repo/render/3mf.go, and the triangle buffer of /repo/render/io.go.
-/

namespace Sdf

namespace Mf3

/-- /repo/render/3mf.go:47-57 `new3MF`: no objects and no build items (the strings are left out). -/
def new3MF : Doc := ⟨[], []⟩

/-- /repo/render/3mf.go:30-45 `Create3MF` applied to an octree renderer: the document passed to `Create`, and whether the
warning of line 41 is printed.  `RenderAll` of this renderer never returns an error; the error of `AddObject` is printed and
otherwise ignored; writing the file is not modelled. -/
def Create3MF (deg : Tri → Bool) (oc oc' : Octree.State) (doc : Doc) (warned : Prop) : Prop :=
  ∃ t ok, Octree.RenderAll deg oc oc' t ∧ new3MF.addObject t doc ok ∧ (warned ↔ ¬ ok)

end Mf3

/-- /repo/render/io.go:29-31 `TriangleBuffer`. -/
structure TriangleBuffer where
  buf : List Tri

namespace TriangleBuffer

/-- /repo/render/io.go:34-38 `Read`: the buffer afterwards, the contents of `t` afterwards and the count. -/
def read (b : TriangleBuffer) (t : List Tri) : TriangleBuffer × List Tri × Nat :=
  let n := min t.length b.buf.length
  (⟨b.buf.drop n⟩, b.buf.take n ++ t.drop n, n)

/-- /repo/render/io.go:41-44 `Write`. -/
def write (b : TriangleBuffer) (t : List Tri) : TriangleBuffer × Nat := (⟨b.buf ++ t⟩, t.length)

/-- /repo/render/io.go:46 `Len`. -/
def len (b : TriangleBuffer) : Nat := b.buf.length

end TriangleBuffer

end Sdf
