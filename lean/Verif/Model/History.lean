import Verif.Model.Combine3
import Verif.Model.Polygon

/-!
Solids as the objects in memory that they are: constructors keep references to their operands (and `Union3D` keeps the very slice it is
given), `SetMin` and `SetMax` change objects in place.  The other files treat solids as values; here is what the program does over time.

An object is known by its number, in the order of creation.  Modelled are the constructors of /repo/sdf3.go with solids for operands;
everything else is a `part`.
-/

namespace Sdf.Heap

/-- A slice of solids: `len` elements of an array, from `off`. -/
structure Slice where
  arr : ℕ
  off : ℕ
  len : ℕ

/-- The constructors with one operand and no blend: /repo/sdf3.go:354-370 `Transform3D`, 387-402 `ScaleUniform3D`, 509-528 `Elongate3D`,
583-596 `Cut3D`, 720-756 `RotateCopy3D`, 809-823 `Offset3D`, 838-853 `Shell3D`.  Panics on wrong parameters are left out. -/
inductive Step where
  | transform (m : M44)
  | scale (k : ℝ)
  | elongate (h : V3)
  | cut (a n : V3)
  | rotateCopy (num : ℤ)
  | offset (d : ℝ)
  | shell (t : ℝ)

/-- The solid such a constructor makes of its operand. -/
noncomputable def Step.apply : Step → SDF3 → SDF3
  | .transform m, s => s.transform m
  | .scale k, s => s.scaleUniform k
  | .elongate h, s => s.elongate h
  | .cut a n, s => s.cut a n
  | .rotateCopy num, s => s.rotateCopy num
  | .offset d, s => s.offset d
  | .shell t, s => s.shell t

/-- The constructors that repeat their operand: /repo/sdf3.go:613-650 `Array3D`, 665-707 `RotateUnion3D`. -/
inductive Rep where
  | array (n0 n1 n2 : ℤ) (step : V3)
  | rotateUnion (num : ℤ) (step : M44)

/-- The solid such a constructor makes of its operand, with the given minimum function. -/
noncomputable def Rep.apply (mn : ℝ → ℝ → ℝ) : Rep → SDF3 → SDF3
  | .array n0 n1 n2 step, s => s.arrayWith mn n0 n1 n2 step
  | .rotateUnion num step, s => s.rotateUnionWith mn num step

/-- The fields of an object, without its box.  /repo/sdf3.go:410-414 `union3`, 466-471 `diff3`, 534-539 `intersection3`, 603-609 `array3`,
653-659 `rotateUnion`, and the structs of the constructors above.  Simplification: the empty solid that `Array3D` and `RotateUnion3D`
return for no copies keeps the reference to the operand that it does not need. -/
inductive Kind where
  | part (s : SDF3)
  | step (k : Step) (r : ℕ)
  | rep (k : Rep) (r : ℕ) (mn : ℝ → ℝ → ℝ)
  | diff (r0 r1 : ℕ) (mx : ℝ → ℝ → ℝ)
  | inter (r0 r1 : ℕ) (mx : ℝ → ℝ → ℝ)
  | union (sl : Slice) (mn : ℝ → ℝ → ℝ)

/-- An object: its fields, and the field `bb` that its `Bounds` method returns. -/
structure Obj where
  kind : Kind
  bb : Box3

/-- The memory: all objects, and all arrays of solids (`none` is `nil`). -/
structure Mem where
  objs : List Obj
  arrs : List (List (Option ℕ))

/-- The elements of a slice. -/
def elems (arrs : List (List (Option ℕ))) (sl : Slice) : List (Option ℕ) := ((arrs.getD sl.arr []).drop sl.off).take sl.len

/-- /repo/sdf3.go:442-452, 487-489, 559-561, 636-647, 690-699 and the other `Evaluate` methods: the solid an object is, given the solids
its operands are.  `none`: an operand is `nil` or has no value. -/
noncomputable def Kind.solid (look : ℕ → Option SDF3) (arrs : List (List (Option ℕ))) : Kind → Option SDF3
  | .part s => some s
  | .step k r => (look r).map k.apply
  | .rep k r mn => (look r).map (k.apply mn)
  | .diff r0 r1 mx => (look r0).bind fun s0 => (look r1).map fun s1 => s0.differenceWith mx s1
  | .inter r0 r1 mx => (look r0).bind fun s0 => (look r1).map fun s1 => s0.intersectWith mx s1
  | .union sl mn =>
    match (elems arrs sl).mapM fun x => x.bind look with
    | some (s0 :: l) => some (SDF3.unionWith mn s0 l)
    | _ => none

/-- What object `r` evaluates to, and its box, when at most `n` calls are nested.  `none`: a `nil` was called, or the calls nest deeper
(for every `n`, if they never end). -/
noncomputable def Mem.value (m : Mem) : ℕ → ℕ → Option SDF3
  | 0, _ => none
  | n + 1, r => (m.objs[r]?).bind fun o => (o.kind.solid (m.value n) m.arrs).map fun s => ⟨s.eval, o.bb⟩

/-- The box an object returns. -/
def Mem.box (m : Mem) (r : ℕ) : Option Box3 := (m.objs[r]?).map Obj.bb

/-- What can happen in a program that builds models. -/
inductive Act where
  | part (s : SDF3)
  | step (k : Step) (r : ℕ)
  | rep (k : Rep) (r : ℕ)
  | difference (r0 r1 : ℕ)
  | intersect (r0 r1 : ℕ)
  /-- make an array holding the given solids -/
  | list (l : List (Option ℕ))
  | union (sl : Slice)
  | setMin (r : ℕ) (mn : ℝ → ℝ → ℝ)
  | setMax (r : ℕ) (mx : ℝ → ℝ → ℝ)
  /-- assign to an element of an array -/
  | store (a i : ℕ) (x : Option ℕ)

/-- The fields of the object a constructor makes; blends are `math.Min` and `math.Max` at first
(/repo/sdf3.go:437, 481, 550, 622, 674). -/
noncomputable def Act.kind : Act → Option Kind
  | .part s => some (.part s)
  | .step k r => some (.step k r)
  | .rep k r => some (.rep k r min)
  | .difference r0 r1 => some (.diff r0 r1 max)
  | .intersect r0 r1 => some (.inter r0 r1 max)
  | .union sl => some (.union sl min)
  | _ => none

/-- /repo/sdf3.go:420-422: unions of fewer than two solids are refused. -/
def Kind.Enough : Kind → Prop
  | .union sl _ => 2 ≤ sl.len
  | _ => True

/-- Making an object.  Constructors call only the `Bounds` method of their operands, which is expressed by operands with a field of no
meaning.  `none`: panic. -/
noncomputable def Mem.make (m : Mem) (k : Kind) : Option Mem :=
  open Classical in
  if k.Enough then
    (k.solid (fun r => (m.box r).map fun b => ⟨fun _ => 0, b⟩) m.arrs).map fun s => ⟨m.objs ++ [⟨k, s.bounds⟩], m.arrs⟩
  else none

/-- /repo/sdf3.go:455-457, 631-633, 702-704 `SetMin`. -/
def Kind.withMin (mn : ℝ → ℝ → ℝ) : Kind → Option Kind
  | .rep k r _ => some (.rep k r mn)
  | .union sl _ => some (.union sl mn)
  | _ => none

/-- /repo/sdf3.go:492-494, 564-566 `SetMax`. -/
def Kind.withMax (mx : ℝ → ℝ → ℝ) : Kind → Option Kind
  | .diff r0 r1 _ => some (.diff r0 r1 mx)
  | .inter r0 r1 _ => some (.inter r0 r1 mx)
  | _ => none

/-- One action.  `none`: panic, or refused by the compiler. -/
noncomputable def Mem.act (m : Mem) : Act → Option Mem
  | .list l => some ⟨m.objs, m.arrs ++ [l]⟩
  | .setMin r mn => (m.objs[r]?).bind fun o => (o.kind.withMin mn).map fun k => ⟨m.objs.set r ⟨k, o.bb⟩, m.arrs⟩
  | .setMax r mx => (m.objs[r]?).bind fun o => (o.kind.withMax mx).map fun k => ⟨m.objs.set r ⟨k, o.bb⟩, m.arrs⟩
  | .store a i x => if i < (m.arrs.getD a []).length then some ⟨m.objs, m.arrs.set a ((m.arrs.getD a []).set i x)⟩ else none
  | a => a.kind.bind m.make

/-- A program, from an empty memory. -/
noncomputable def Mem.run (h : List Act) : Option Mem := h.foldlM Mem.act ⟨[], []⟩

/-- A slice of points with its capacity: `len` elements of the array in use, from `off`, and room for `cap`. -/
structure Points where
  off : ℕ
  len : ℕ
  cap : ℕ

/-- /repo/form2/must2/poly.go:29-33: the points `Polygon` works with, and the array the caller's slice is part of, afterwards.  Go's
`append` writes to that array when there is room. -/
noncomputable def closePoints (arr : List V2) (sl : Points) : List V2 × List V2 :=
  open Classical in
  let v := (arr.drop sl.off).take sl.len
  let v0 := v.headD ⟨0, 0⟩
  if ¬ V2.EqualWithin v0 (v.getLastD v0) Must2.tolerance then
    (v ++ [v0], if sl.len < sl.cap then arr.set (sl.off + sl.len) v0 else arr)
  else (v, arr)

end Sdf.Heap
