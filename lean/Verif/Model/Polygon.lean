import Verif.Model.Sdf
import Mathlib.Algebra.BigOperators.Group.List.Basic

/-! Polygons: /repo/form2/must2/poly.go:12-112. -/

namespace Sdf
namespace Must2

/-- /repo/form2/must2/util.go:7 `tolerance`. -/
noncomputable def tolerance : ℝ := 1 / 1000000000

open Classical in
/-- /repo/form2/must2/poly.go:29-33: the outline is closed by repeating the first vertex, unless the last one is within
the tolerance of it.  `v0` is the first vertex.  Simplification: the slice is copied, the code shares it with the
caller. -/
noncomputable def closeLoop (v0 : V2) (v : List V2) : List V2 :=
  if ¬ V2.EqualWithin v0 (v.getLastD v0) tolerance then v ++ [v0] else v

/-- The pairs `(vertex[i], vertex[i+1])` for `i < nsegs`, over which /repo/form2/must2/poly.go:43-49 and :64-98 loop. -/
def edges (v : List V2) : List (V2 × V2) := v.zip v.tail

open Classical in
/-- /repo/form2/must2/poly.go:64-98: one round of the loop of `polygon.Evaluate`, with the precomputed
`s.vector[i]`, `s.length[i]` of lines 44-46.  The state is `(dd, wn)`. -/
noncomputable def polygonStep (p : V2) (st : ℝ × ℤ) (e : V2 × V2) : ℝ × ℤ :=
  let a := e.1
  let b := e.2
  let l := V2.sub b a
  let length := V2.norm l
  let vector := V2.unit l
  let pa := V2.sub p a
  let pb := V2.sub p b
  let t := V2.dot pa vector
  let dn := V2.dot pa ⟨vector.y, -vector.x⟩
  let dd := if t < 0 then min st.1 (V2.norm2 pa) else if t > length then min st.1 (V2.norm2 pb) else min st.1 (dn * dn)
  let wn :=
    if a.y ≤ p.y then
      if b.y > p.y then if dn < 0 then st.2 + 1 else st.2 else st.2
    else
      if b.y ≤ p.y then if dn > 0 then st.2 - 1 else st.2 else st.2
  (dd, wn)

open Classical in
/-- /repo/form2/must2/poly.go:56-107 `polygon.Evaluate`. -/
noncomputable def polygonEval (vertex : List V2) (p : V2) : ℝ :=
  let st := (edges vertex).foldl (polygonStep p) (maxFloat64, 0)
  let d := Real.sqrt st.1
  if st.2 ≠ 0 then -d else d

/-- /repo/form2/must2/poly.go:40-51: the bounding box, from the first vertex of every segment. -/
noncomputable def polygonBounds (v0 : V2) (vertex : List V2) : Box2 :=
  ⟨((edges vertex).map Prod.fst).foldl V2.minElem v0, ((edges vertex).map Prod.fst).foldl V2.maxElem v0⟩

/-- /repo/form2/must2/poly.go:21-53 `Polygon`; `none` is the panic on fewer than three vertices. -/
noncomputable def polygon (vertex : List V2) : Option SDF2 :=
  match vertex with
  | v0 :: v1 :: v2 :: vs =>
    let c := closeLoop v0 (v0 :: v1 :: v2 :: vs)
    some ⟨polygonEval c, polygonBounds v0 c⟩
  | _ => none

end Must2
end Sdf
