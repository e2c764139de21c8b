import Verif.Model.Sdf
import Verif.Model.Utils

/-! The combinators of /repo/sdf2.go; see `Verif.Model.Combine3` for the conventions. -/

namespace Sdf

namespace SDF2

/-- /repo/sdf2.go:658-673 `empty2`. -/
noncomputable def empty (center : V2) : SDF2 := ⟨fun _ => maxFloat64, ⟨center, center⟩⟩

/-- /repo/sdf2.go:652-656 `empty2From`. -/
noncomputable def emptyFrom (s : SDF2) : SDF2 := empty s.bounds.center

/-- /repo/sdf2.go:66-80 `Cut2D` and its `Evaluate`. -/
noncomputable def cut (s : SDF2) (a v : V2) : SDF2 :=
  let v := V2.unit v
  let n : V2 := ⟨-v.y, v.x⟩
  ⟨fun p => max (V2.dot n (V2.sub p a)) (s.eval p), s.bounds⟩

/-- /repo/sdf2.go:98-111 `Transform2D` and its `Evaluate`. -/
noncomputable def transform (s : SDF2) (m : M33) : SDF2 :=
  ⟨fun p => s.eval (m.inverse.mulPosition p), m.mulBox s.bounds⟩

/-- /repo/sdf2.go:129-143 `ScaleUniform2D` and its `Evaluate`. -/
noncomputable def scaleUniform (s : SDF2) (k : ℝ) : SDF2 :=
  ⟨fun p => s.eval (V2.scale (1.0 / k) p) * k, (M33.scale ⟨k, k⟩).mulBox s.bounds⟩

/-- /repo/sdf2.go:151-154 `Center2D`. -/
noncomputable def center (s : SDF2) : SDF2 :=
  transform s (M33.translate (V2.scale (-1) s.bounds.center))

/-- /repo/sdf2.go:158-162 `CenterAndScale2D`. -/
noncomputable def centerAndScale (s : SDF2) (k : ℝ) : SDF2 :=
  scaleUniform (transform s (M33.translate (V2.scale (-1) s.bounds.center))) k

/-- /repo/sdf2.go:200-209 `array2.Evaluate`: the two nested loops. -/
noncomputable def arrayEval (mn : ℝ → ℝ → ℝ) (s : SDF2) (n0 n1 : ℕ) (step : V2) (p : V2) : ℝ :=
  (List.range n0).foldl (fun d (j : ℕ) =>
    (List.range n1).foldl (fun d (k : ℕ) =>
      let x := V2.sub p ⟨(j : ℝ) * step.x, (k : ℝ) * step.y⟩
      mn d (s.eval x)) d) maxFloat64

open Classical in
/-- /repo/sdf2.go:176-192 `Array2D`. -/
noncomputable def arrayWith (mn : ℝ → ℝ → ℝ) (s : SDF2) (n0 n1 : ℤ) (step : V2) : SDF2 :=
  if n0 ≤ 0 ∨ n1 ≤ 0 then emptyFrom s
  else
    let bb1 := s.bounds.translate (V2.mulElem step (V2.sub ⟨(n0 : ℝ), (n1 : ℝ)⟩ (V2.elem 1)))
    ⟨arrayEval mn s n0.toNat n1.toNat step, s.bounds.extend bb1⟩

/-- /repo/sdf2.go:185: the default minimum is `math.Min`. -/
noncomputable def array (s : SDF2) (n0 n1 : ℤ) (step : V2) : SDF2 := arrayWith min s n0 n1 step

/-- /repo/sdf2.go:254-258 the loop of `rotateUnion2.Evaluate`: `n` rounds remain. -/
noncomputable def rotateUnionLoop (mn : ℝ → ℝ → ℝ) (s : SDF2) (step : M33) (p : V2) : ℕ → M33 → ℝ → ℝ
  | 0, _, d => d
  | n + 1, rot, d =>
    rotateUnionLoop mn s step p n (rot.mul step) (mn d (s.eval (rot.mulPosition p)))

/-- /repo/sdf2.go:240-245 the bounding box loop of `RotateUnion2D` (line 242 repeats line 241). -/
noncomputable def rotateUnionBox (step : M33) : ℕ → List V2 → Box2 → Box2
  | 0, _, b => b
  | n + 1, v, b =>
    rotateUnionBox step n (v.map step.mulPosition)
      ⟨V2.minElem (V2.minElem b.lo (V2.setMin v)) (V2.setMin v), V2.maxElem b.hi (V2.setMax v)⟩

open Classical in
/-- /repo/sdf2.go:226-260 `RotateUnion2D` and its `Evaluate`. -/
noncomputable def rotateUnionWith (mn : ℝ → ℝ → ℝ) (s : SDF2) (num : ℤ) (step : M33) : SDF2 :=
  if num ≤ 0 then emptyFrom s
  else
    let v := s.bounds.vertices
    ⟨fun p => rotateUnionLoop mn s step.inverse p num.toNat M33.identity maxFloat64,
     rotateUnionBox step num.toNat v ⟨v.head!, v.head!⟩⟩

/-- /repo/sdf2.go:235: the default minimum is `math.Min`. -/
noncomputable def rotateUnion (s : SDF2) (num : ℤ) (step : M33) : SDF2 := rotateUnionWith min s num step

open Classical in
/-- /repo/sdf2.go:280-308 `RotateCopy2D` and its `Evaluate`; `none` is the panic at 283. -/
noncomputable def rotateCopy (s : SDF2) (n : ℤ) : Option SDF2 :=
  if n ≤ 0 then none
  else
    let theta := 2 * Real.pi / (n : ℝ)
    let rmax := s.bounds.vertices.foldl (fun r v =>
      let l := V2.norm v
      if l > r then l else r) 0
    some ⟨fun p => s.eval (V2.polarToXY (V2.norm p) (sawTooth (atan2 p.y p.x) theta)),
     ⟨V2.scale (-1) ⟨rmax, rmax⟩, ⟨rmax, rmax⟩⟩⟩

open Classical in
/-- /repo/sdf2.go:331-339: the unnormalised x-axis of the slicing plane with normal `n`. -/
noncomputable def sliceAxis (n : V3) : V3 :=
  if n.x = 0 then ⟨1, 0, 0⟩
  else if n.y = 0 then ⟨0, 1, 0⟩
  else if n.z = 0 then ⟨0, 0, 1⟩
  else ⟨n.y, -n.x, 0⟩

/-- /repo/sdf2.go:326-366 `Slice2D` and its `Evaluate`. -/
noncomputable def slice (s : SDF3) (a n : V3) : SDF2 :=
  let u := sliceAxis n
  let v := V3.unit (V3.cross n u)
  let u := V3.unit u
  let n := V3.unit n
  let vec := s.bounds.vertices.map fun w =>
    let va := V3.sub w a
    let pa := V3.sub va (V3.scale (V3.dot n va) n)
    (⟨V3.dot pa u, V3.dot pa v⟩ : V2)
  ⟨fun p => s.eval (V3.add (V3.add a (V3.scale p.x u)) (V3.scale p.y v)), ⟨V2.setMin vec, V2.setMax vec⟩⟩

open Classical in
/-- /repo/sdf2.go:405-414 the first loop of `union2.Evaluate`: the index of the box with the least minimum
distance, given the distances `vs` (from index `i` on) and the best (`minDist2`, `minIndex`) so far. -/
noncomputable def nearestBox : List V2 → ℕ → ℝ → ℕ → ℕ
  | [], _, _, idx => idx
  | v :: vs, i, best, idx =>
    if best < 0 ∨ v.x < best then nearestBox vs (i + 1) v.x i else nearestBox vs (i + 1) best idx

open Classical in
/-- /repo/sdf2.go:418-430 the second loop of `union2.Evaluate`, over the operands with their box distances from
index `i` on; `d` is `none` until the first operand is evaluated. -/
noncomputable def prunedLoop (mn : ℝ → ℝ → ℝ) (p : V2) (nearest : V2) (idx : ℕ) :
    List (SDF2 × V2) → ℕ → Option ℝ → Option ℝ
  | [], _, d => d
  | (s, v) :: l, i, d =>
    if i = idx ∨ V2.Overlap nearest v then
      let x := s.eval p
      prunedLoop mn p nearest idx l (i + 1) (some (match d with | none => x | some d => mn d x))
    else prunedLoop mn p nearest idx l (i + 1) d

/-- /repo/sdf2.go:402-432 `union2.Evaluate`, for the operands `l`. -/
noncomputable def unionEval (mn : ℝ → ℝ → ℝ) (l : List SDF2) (p : V2) : ℝ :=
  let vs := l.map fun s => s.bounds.minMaxDist2 p
  let idx := nearestBox vs 0 (-1) 0
  (prunedLoop mn p (vs.getD idx ⟨0, 0⟩) idx (l.zip vs) 0 none).getD 0

/-- /repo/sdf2.go:435-446 `union2.EvaluateSlow`, for the operands `s0 :: l`. -/
noncomputable def unionEvalSlow (mn : ℝ → ℝ → ℝ) (s0 : SDF2) (l : List SDF2) (p : V2) : ℝ :=
  l.foldl (fun d x => mn d (x.eval p)) (s0.eval p)

/-- /repo/sdf2.go:381-399 `Union2D`, for the argument list `s0 :: l`. -/
noncomputable def unionWith (mn : ℝ → ℝ → ℝ) (s0 : SDF2) (l : List SDF2) : SDF2 :=
  ⟨unionEval mn (s0 :: l), (s0 :: l).foldl (fun bb x => bb.extend x.bounds) s0.bounds⟩

/-- /repo/sdf2.go:397: the default minimum is `math.Min`. -/
noncomputable def union (s0 : SDF2) (l : List SDF2) : SDF2 := unionWith min s0 l

/-- /repo/sdf2.go:467-482 `Difference2D` and its `Evaluate`. -/
noncomputable def differenceWith (mx : ℝ → ℝ → ℝ) (s0 s1 : SDF2) : SDF2 :=
  ⟨fun p => mx (s0.eval p) (-s1.eval p), s0.bounds⟩

/-- /repo/sdf2.go:474: the default maximum is `math.Max`. -/
noncomputable def difference (s0 s1 : SDF2) : SDF2 := differenceWith max s0 s1

/-- /repo/sdf2.go:502-521 `Elongate2D` and its `Evaluate`. -/
noncomputable def elongate (s : SDF2) (h : V2) : SDF2 :=
  let h := V2.absElem h
  let hp := V2.scale 0.5 h
  let hn := V2.scale 0.5 h
  ⟨fun p => s.eval (V2.sub p (V2.clamp p hn hp)),
   (s.bounds.translate hp).extend (s.bounds.translate hn)⟩

/-- /repo/sdf2.go:625-641 `Intersect2D` and its `Evaluate`. -/
noncomputable def intersectWith (mx : ℝ → ℝ → ℝ) (s0 s1 : SDF2) : SDF2 :=
  ⟨fun p => mx (s0.eval p) (s1.eval p), s0.bounds⟩

/-- /repo/sdf2.go:632: the default maximum is `math.Max`. -/
noncomputable def intersect (s0 s1 : SDF2) : SDF2 := intersectWith max s0 s1

/-- /repo/sdf2.go:596-609 `Offset2D` and its `Evaluate`. -/
noncomputable def offset (s : SDF2) (d : ℝ) : SDF2 :=
  ⟨fun p => s.eval p - d, Box2.new s.bounds.center (V2.add s.bounds.size (V2.elem (2 * d)))⟩

end SDF2

end Sdf
