import Verif.Model.Sdf

/-!
Grid mapping of a plane region and the vectors of integers: /repo/utils.go:37-60, 342-393, /repo/veci.go and
/repo/sdf2.go:529-551.
-/

namespace Sdf

/-- /repo/veci.go:8 `V2i`. -/
@[ext] structure V2i where
  x : ℤ
  y : ℤ

/-- Go's conversion `int(x)` of a float: truncation towards zero (for values in the range of `int`). -/
noncomputable def goInt (x : ℝ) : ℤ := if 0 ≤ x then ⌊x⌋ else ⌈x⌉

/-- /repo/utils.go:37-39 `R2ToI`. -/
noncomputable def V2.toI (a : V2) : V2i := ⟨goInt a.x, goInt a.y⟩

/-- /repo/utils.go:58-60 `R2FromI`. -/
def V2i.toV2 (a : V2i) : V2 := ⟨a.x, a.y⟩

/-- /repo/utils.go:343-348 `map2`. -/
structure Map2 where
  bb : Box2
  grid : V2i
  delta : V2
  flipy : Bool

/-- /repo/internal/d2/box.go:87-89 `TopLeft`. -/
def Box2.topLeft (a : Box2) : V2 := ⟨a.lo.x, a.hi.y⟩

/-- /repo/utils.go:351-367 `newMap2`; `none` is an error. -/
noncomputable def newMap2 (bb : Box2) (grid : V2i) (flipy : Bool) : Option Map2 :=
  open Classical in
  let bbSize := bb.size
  if bbSize.x ≤ 0 ∨ bbSize.y ≤ 0 then none
  else if grid.x ≤ 0 ∨ grid.y ≤ 0 then none
  else some ⟨bb, grid, V2.divElem bbSize grid.toV2, flipy⟩

/-- /repo/utils.go:370-381 `ToV2`. -/
noncomputable def Map2.toV2 (m : Map2) (p : V2i) : V2 :=
  let ofs := V2.mulElem (V2.add p.toV2 (V2.elem 0.5)) m.delta
  if m.flipy then V2.add m.bb.topLeft ⟨ofs.x, -ofs.y⟩ else V2.add m.bb.lo ofs

/-- /repo/utils.go:384-393 `ToV2i`. -/
noncomputable def Map2.toV2i (m : Map2) (p : V2) : V2i :=
  let v := if m.flipy then
      let v := V2.sub p m.bb.topLeft
      ⟨v.x, -v.y⟩
    else V2.sub p m.bb.lo
  (V2.divElem v m.delta).toI

open Classical in
/-- /repo/sdf2.go:529-551 `generateMesh2D`; `none` is an error. -/
noncomputable def generateMesh2D (s : SDF2) (grid : V2i) : Option (List V2) :=
  (newMap2 s.bounds grid false).map fun m =>
    (List.range grid.x.toNat).flatMap fun i => (List.range grid.y.toNat).flatMap fun j =>
      let v := m.toV2 ⟨i, j⟩
      if s.eval v ≤ 0 then [v] else []

end Sdf
