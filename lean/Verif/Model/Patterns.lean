import Verif.Model.Combine3
import Verif.Model.Combine2

/-!
Unions of placed copies: /repo/sdf3.go:861-905 and /repo/sdf2.go:554-586.  `none` stands for a panic.  A pattern is a
valid UTF-8 string: Go's `range` visits its characters while `len` counts its bytes.  Simplification: a shape argument is
never nil (nil panics).
-/

namespace Sdf

/-- /repo/sdf3.go:419-439 `Union3D`: panics with fewer than two arguments. -/
noncomputable def SDF3.unionList : List SDF3 → Option SDF3
  | s0 :: s1 :: l => some (SDF3.union s0 (s1 :: l))
  | _ => none

/-- /repo/sdf2.go:381-399 `Union2D`: panics with fewer than two arguments. -/
noncomputable def SDF2.unionList : List SDF2 → Option SDF2
  | s0 :: s1 :: l => some (SDF2.union s0 (s1 :: l))
  | _ => none

/-- The loop of `LineOf3D`, /repo/sdf3.go:867-872. -/
noncomputable def SDF3.lineLoop (s : SDF3) (dx : V3) : List Char → V3 → List SDF3
  | [], _ => []
  | c :: cs, x => if c = 'x' then s.transform (M44.translate x) :: lineLoop s dx cs (V3.add x dx)
    else lineLoop s dx cs (V3.add x dx)

/-- /repo/sdf3.go:861-875 `LineOf3D`. -/
noncomputable def SDF3.lineOf (s : SDF3) (p0 p1 : V3) (pattern : String) : Option SDF3 :=
  let objects := if pattern ≠ "" then
      s.lineLoop (V3.scale (1 / (pattern.utf8ByteSize : ℝ)) (V3.sub p1 p0)) pattern.toList p0
    else []
  SDF3.unionList objects

/-- /repo/sdf3.go:878-890 `Multi3D`. -/
noncomputable def SDF3.multi (s : SDF3) (positions : List V3) : Option SDF3 :=
  if positions.length = 0 then some (SDF3.emptyFrom s)
  else SDF3.unionList (positions.map fun p => s.transform (M44.translate p))

/-- /repo/sdf3.go:893-905 `Orient3D`. -/
noncomputable def SDF3.orient (s : SDF3) (base : V3) (directions : List V3) : Option SDF3 :=
  if directions.length = 0 then some (SDF3.emptyFrom s)
  else SDF3.unionList (directions.map fun d => s.transform (M44.rotateToVec base d))

/-- The loop of `LineOf2D`, /repo/sdf2.go:560-565. -/
noncomputable def SDF2.lineLoop (s : SDF2) (dx : V2) : List Char → V2 → List SDF2
  | [], _ => []
  | c :: cs, x => if c = 'x' then s.transform (M33.translate x) :: lineLoop s dx cs (V2.add x dx)
    else lineLoop s dx cs (V2.add x dx)

/-- /repo/sdf2.go:554-571 `LineOf2D`. -/
noncomputable def SDF2.lineOf (s : SDF2) (p0 p1 : V2) (pattern : String) : Option SDF2 :=
  let objects := if pattern ≠ "" then
      s.lineLoop (V2.scale (1 / (pattern.utf8ByteSize : ℝ)) (V2.sub p1 p0)) pattern.toList p0
    else []
  match objects with
  | [o] => some o
  | _ => SDF2.unionList objects

/-- /repo/sdf2.go:574-586 `Multi2D`. -/
noncomputable def SDF2.multi (s : SDF2) (positions : List V2) : Option SDF2 :=
  if positions.length = 0 then none
  else SDF2.unionList (positions.map fun p => s.transform (M33.translate p))

end Sdf
