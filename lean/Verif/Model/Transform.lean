import Verif.Model.Matrix
import Verif.Model.Box

/-!
The transformation types of /repo/internal/d3/transform.go and /repo/internal/d2/transform.go.
-/

namespace Sdf

/-- /repo/internal/d3/transform.go:11-24 `Transform`: a 4x4 matrix stored with the identity subtracted. -/
@[ext] structure T3 where
  (d00 x01 x02 x03 : ℝ)
  (x10 d11 x12 x13 : ℝ)
  (x20 x21 d22 x23 : ℝ)
  (x30 x31 x32 d33 : ℝ)

namespace T3

/-- The zero value `Transform{}`. -/
def zeroValue : T3 := ⟨0, 0, 0, 0, 0, 0, 0, 0, 0, 0, 0, 0, 0, 0, 0, 0⟩

/-- /repo/internal/d3/transform.go:27-35 `Transform.Transform`.  With a zero denominator Go's result is not finite. -/
noncomputable def apply (t : T3) (v : V3) : V3 :=
  let w := 1 / (t.x30 * v.x + t.x31 * v.y + t.x32 * v.z + t.d33 + 1)
  ⟨((t.d00 + 1) * v.x + t.x01 * v.y + t.x02 * v.z + t.x03) * w,
   (t.x10 * v.x + (t.d11 + 1) * v.y + t.x12 * v.z + t.x13) * w,
   (t.x20 * v.x + t.x21 * v.y + (t.d22 + 1) * v.z + t.x23) * w⟩

/-- /repo/internal/d3/transform.go:38 `zeroTransform`. -/
def zeroTransform : T3 := ⟨-1, 0, 0, 0, 0, -1, 0, 0, 0, 0, -1, 0, 0, 0, 0, -1⟩

/-- /repo/internal/d3/transform.go:43-56 `NewTransform` of a slice that is not nil; `none` is the panic. -/
def ofSlice : List ℝ → Option T3
  | [a0, a1, a2, a3, a4, a5, a6, a7, a8, a9, a10, a11, a12, a13, a14, a15] =>
    some ⟨a0 - 1, a1, a2, a3, a4, a5 - 1, a6, a7, a8, a9, a10 - 1, a11, a12, a13, a14, a15 - 1⟩
  | _ => none

/-- /repo/internal/d3/transform.go:257-264 `SliceCopy`. -/
def sliceCopy (t : T3) : List ℝ :=
  [t.d00 + 1, t.x01, t.x02, t.x03, t.x10, t.d11 + 1, t.x12, t.x13,
   t.x20, t.x21, t.d22 + 1, t.x23, t.x30, t.x31, t.x32, t.d33 + 1]

/-- gonum `r3.Rotation`, a quaternion. -/
structure Quat where
  (re im jm km : ℝ)

/-- /repo/internal/d3/transform.go:62-93 `ComposeTransform`. -/
def compose (position scale : V3) (q : Quat) : T3 :=
  let x2 := q.im + q.im
  let y2 := q.jm + q.jm
  let z2 := q.km + q.km
  let xx := q.im * x2
  let yy := q.jm * y2
  let zz := q.km * z2
  let xy := q.im * y2
  let xz := q.im * z2
  let yz := q.jm * z2
  let wx := q.re * x2
  let wy := q.re * y2
  let wz := q.re * z2
  { d00 := (1 - (yy + zz)) * scale.x - 1,
    x01 := (xy - wz) * scale.y,
    x02 := (xz + wy) * scale.z,
    x03 := position.x,
    x10 := (xy + wz) * scale.x,
    d11 := (1 - (xx + zz)) * scale.y - 1,
    x12 := (yz - wx) * scale.z,
    x13 := position.y,
    x20 := (xz - wy) * scale.x,
    x21 := (yz + wx) * scale.y,
    d22 := (1 - (xx + yy)) * scale.z - 1,
    x23 := position.z,
    x30 := 0,
    x31 := 0,
    x32 := 0,
    d33 := 0 }

/-- /repo/internal/d3/transform.go:96-101 `Translate`. -/
def translate (t : T3) (v : V3) : T3 := { t with x03 := t.x03 + v.x, x13 := t.x13 + v.y, x23 := t.x23 + v.z }

/-- /repo/internal/d3/transform.go:114-130 `scale`. -/
def scaleBy (t : T3) (factor : V3) : T3 :=
  { t with
    d00 := (t.d00 + 1) * factor.x - 1,
    x10 := t.x10 * factor.x,
    x20 := t.x20 * factor.x,
    x30 := t.x30 * factor.x,
    x01 := t.x01 * factor.y,
    d11 := (t.d11 + 1) * factor.y - 1,
    x21 := t.x21 * factor.y,
    x31 := t.x31 * factor.y,
    x02 := t.x02 * factor.z,
    x12 := t.x12 * factor.z,
    d22 := (t.d22 + 1) * factor.z - 1,
    x32 := t.x32 * factor.z }

open Classical in
/-- /repo/internal/d3/transform.go:105-112 `Scale`. -/
noncomputable def scale (t : T3) (origin factor : V3) : T3 :=
  if origin = ⟨0, 0, 0⟩ then t.scaleBy factor
  else ((t.translate (V3.scale (-1) origin)).scaleBy factor).translate origin

open Classical in
/-- /repo/internal/d3/transform.go:134-167 `Mul`. -/
noncomputable def mul (t b : T3) : T3 :=
  if t = zeroValue then b
  else if b = zeroValue then t
  else
    let x00 := t.d00 + 1
    let x11 := t.d11 + 1
    let x22 := t.d22 + 1
    let x33 := t.d33 + 1
    let y00 := b.d00 + 1
    let y11 := b.d11 + 1
    let y22 := b.d22 + 1
    let y33 := b.d33 + 1
    { d00 := x00 * y00 + t.x01 * b.x10 + t.x02 * b.x20 + t.x03 * b.x30 - 1,
      x01 := x00 * b.x01 + t.x01 * y11 + t.x02 * b.x21 + t.x03 * b.x31,
      x02 := x00 * b.x02 + t.x01 * b.x12 + t.x02 * y22 + t.x03 * b.x32,
      x03 := x00 * b.x03 + t.x01 * b.x13 + t.x02 * b.x23 + t.x03 * y33,
      x10 := t.x10 * y00 + x11 * b.x10 + t.x12 * b.x20 + t.x13 * b.x30,
      d11 := t.x10 * b.x01 + x11 * y11 + t.x12 * b.x21 + t.x13 * b.x31 - 1,
      x12 := t.x10 * b.x02 + x11 * b.x12 + t.x12 * y22 + t.x13 * b.x32,
      x13 := t.x10 * b.x03 + x11 * b.x13 + t.x12 * b.x23 + t.x13 * y33,
      x20 := t.x20 * y00 + t.x21 * b.x10 + x22 * b.x20 + t.x23 * b.x30,
      x21 := t.x20 * b.x01 + t.x21 * y11 + x22 * b.x21 + t.x23 * b.x31,
      d22 := t.x20 * b.x02 + t.x21 * b.x12 + x22 * y22 + t.x23 * b.x32 - 1,
      x23 := t.x20 * b.x03 + t.x21 * b.x13 + x22 * b.x23 + t.x23 * y33,
      x30 := t.x30 * y00 + t.x31 * b.x10 + t.x32 * b.x20 + x33 * b.x30,
      x31 := t.x30 * b.x01 + t.x31 * y11 + t.x32 * b.x21 + x33 * b.x31,
      x32 := t.x30 * b.x02 + t.x31 * b.x12 + t.x32 * y22 + x33 * b.x32,
      d33 := t.x30 * b.x03 + t.x31 * b.x13 + t.x32 * b.x23 + x33 * y33 - 1 }

/-- /repo/internal/d3/transform.go:170-187 `Det`. -/
def det (t : T3) : ℝ :=
  let x00 := t.d00 + 1
  let x11 := t.d11 + 1
  let x22 := t.d22 + 1
  let x33 := t.d33 + 1
  x00 * x11 * x22 * x33 - x00 * x11 * t.x23 * t.x32 + x00 * t.x12 * t.x23 * t.x31 - x00 * t.x12 * t.x21 *
    x33 + x00 * t.x13 * t.x21 * t.x32 - x00 * t.x13 * x22 * t.x31 - t.x01 * t.x12 * t.x23 * t.x30 + t.x01 *
    t.x12 * t.x20 * x33 - t.x01 * t.x13 * t.x20 * t.x32 + t.x01 * t.x13 * x22 * t.x30 - t.x01 * t.x10 * x22 *
    x33 + t.x01 * t.x10 * t.x23 * t.x32 + t.x02 * t.x13 * t.x20 * t.x31 - t.x02 * t.x13 * t.x21 * t.x30 +
    t.x02 * t.x10 * t.x21 * x33 - t.x02 * t.x10 * t.x23 * t.x31 + t.x02 * x11 * t.x23 * t.x30 - t.x02 * x11 *
    t.x20 * x33 - t.x03 * t.x10 * t.x21 * t.x32 + t.x03 * t.x10 * x22 * t.x31 - t.x03 * x11 * x22 * t.x30 +
    t.x03 * x11 * t.x20 * t.x32 - t.x03 * t.x12 * t.x20 * t.x31 + t.x03 * t.x12 * t.x21 * t.x30

open Classical in
/-- /repo/internal/d3/transform.go:192-224 `Inv`. -/
noncomputable def inv (t : T3) : T3 :=
  if t = zeroValue then t
  else if |t.det| < 1e-16 then zeroTransform
  else
    let d := 1 / t.det
    let x00 := t.d00 + 1
    let x11 := t.d11 + 1
    let x22 := t.d22 + 1
    let x33 := t.d33 + 1
    { d00 := (t.x12 * t.x23 * t.x31 - t.x13 * x22 * t.x31 + t.x13 * t.x21 * t.x32 - x11 * t.x23 * t.x32 - t.x12 *
        t.x21 * x33 + x11 * x22 * x33) * d - 1,
      x01 := (t.x03 * x22 * t.x31 - t.x02 * t.x23 * t.x31 - t.x03 * t.x21 * t.x32 + t.x01 * t.x23 * t.x32 + t.x02 *
        t.x21 * x33 - t.x01 * x22 * x33) * d,
      x02 := (t.x02 * t.x13 * t.x31 - t.x03 * t.x12 * t.x31 + t.x03 * x11 * t.x32 - t.x01 * t.x13 * t.x32 - t.x02 *
        x11 * x33 + t.x01 * t.x12 * x33) * d,
      x03 := (t.x03 * t.x12 * t.x21 - t.x02 * t.x13 * t.x21 - t.x03 * x11 * x22 + t.x01 * t.x13 * x22 + t.x02 * x11
        * t.x23 - t.x01 * t.x12 * t.x23) * d,
      x10 := (t.x13 * x22 * t.x30 - t.x12 * t.x23 * t.x30 - t.x13 * t.x20 * t.x32 + t.x10 * t.x23 * t.x32 + t.x12 *
        t.x20 * x33 - t.x10 * x22 * x33) * d,
      d11 := (t.x02 * t.x23 * t.x30 - t.x03 * x22 * t.x30 + t.x03 * t.x20 * t.x32 - x00 * t.x23 * t.x32 - t.x02 *
        t.x20 * x33 + x00 * x22 * x33) * d - 1,
      x12 := (t.x03 * t.x12 * t.x30 - t.x02 * t.x13 * t.x30 - t.x03 * t.x10 * t.x32 + x00 * t.x13 * t.x32 + t.x02 *
        t.x10 * x33 - x00 * t.x12 * x33) * d,
      x13 := (t.x02 * t.x13 * t.x20 - t.x03 * t.x12 * t.x20 + t.x03 * t.x10 * x22 - x00 * t.x13 * x22 - t.x02 *
        t.x10 * t.x23 + x00 * t.x12 * t.x23) * d,
      x20 := (x11 * t.x23 * t.x30 - t.x13 * t.x21 * t.x30 + t.x13 * t.x20 * t.x31 - t.x10 * t.x23 * t.x31 - x11 *
        t.x20 * x33 + t.x10 * t.x21 * x33) * d,
      x21 := (t.x03 * t.x21 * t.x30 - t.x01 * t.x23 * t.x30 - t.x03 * t.x20 * t.x31 + x00 * t.x23 * t.x31 + t.x01 *
        t.x20 * x33 - x00 * t.x21 * x33) * d,
      d22 := (t.x01 * t.x13 * t.x30 - t.x03 * x11 * t.x30 + t.x03 * t.x10 * t.x31 - x00 * t.x13 * t.x31 - t.x01 *
        t.x10 * x33 + x00 * x11 * x33) * d - 1,
      x23 := (t.x03 * x11 * t.x20 - t.x01 * t.x13 * t.x20 - t.x03 * t.x10 * t.x21 + x00 * t.x13 * t.x21 + t.x01 *
        t.x10 * t.x23 - x00 * x11 * t.x23) * d,
      x30 := (t.x12 * t.x21 * t.x30 - x11 * x22 * t.x30 - t.x12 * t.x20 * t.x31 + t.x10 * x22 * t.x31 + x11 * t.x20
        * t.x32 - t.x10 * t.x21 * t.x32) * d,
      x31 := (t.x01 * x22 * t.x30 - t.x02 * t.x21 * t.x30 + t.x02 * t.x20 * t.x31 - x00 * x22 * t.x31 - t.x01 *
        t.x20 * t.x32 + x00 * t.x21 * t.x32) * d,
      x32 := (t.x02 * x11 * t.x30 - t.x01 * t.x12 * t.x30 - t.x02 * t.x10 * t.x31 + x00 * t.x12 * t.x31 + t.x01 *
        t.x10 * t.x32 - x00 * x11 * t.x32) * d,
      d33 := (t.x01 * t.x12 * t.x20 - t.x02 * x11 * t.x20 + t.x02 * t.x10 * t.x21 - x00 * t.x12 * t.x21 - t.x01 *
        t.x10 * x22 + x00 * x11 * x22) * d - 1 }

/-- /repo/internal/d3/transform.go:226-233 `transpose`. -/
def transpose (t : T3) : T3 :=
  ⟨t.d00, t.x10, t.x20, t.x30, t.x01, t.d11, t.x21, t.x31, t.x02, t.x12, t.d22, t.x32, t.x03, t.x13, t.x23, t.d33⟩

end T3

/-- /repo/internal/d2/transform.go:18-20 `Transform`: nine numbers in row-major order. -/
abbrev T2 := M33

namespace T2

/-- /repo/internal/d2/transform.go:7, 34-36 `TransformIdentity`: the zero value. -/
def identityT : T2 := ⟨0, 0, 0, 0, 0, 0, 0, 0, 0⟩

/-- /repo/internal/d2/transform.go:22-32 `NewTransform`; the argument is `none` for nil, the result for the panic. -/
def ofSlice : Option (List ℝ) → Option T2
  | none => some identityT
  | some [a0, a1, a2, a3, a4, a5, a6, a7, a8] => some ⟨a0, a1, a2, a3, a4, a5, a6, a7, a8⟩
  | some _ => none

/-- /repo/internal/d2/transform.go:38-40 `At`; `none` is the index panic. -/
def at' (t : T2) (i j : ℕ) : Option ℝ := [t.x00, t.x01, t.x02, t.x10, t.x11, t.x12, t.x20, t.x21, t.x22][i * 3 + j]?

/-- /repo/internal/d2/transform.go:53-65 `Mul`. -/
def mul (a b : T2) : T2 :=
  { x00 := a.x00 * b.x00 + a.x01 * b.x10 + a.x02 * b.x20,
    x01 := a.x00 * b.x01 + a.x01 * b.x11 + a.x02 * b.x21,
    x02 := a.x00 * b.x02 + a.x01 * b.x12 + a.x02 * b.x22,
    x10 := a.x10 * b.x00 + a.x11 * b.x10 + a.x12 * b.x20,
    x11 := a.x10 * b.x01 + a.x11 * b.x11 + a.x12 * b.x21,
    x12 := a.x10 * b.x02 + a.x11 * b.x12 + a.x12 * b.x22,
    x20 := a.x20 * b.x00 + a.x21 * b.x10 + a.x22 * b.x20,
    x21 := a.x20 * b.x01 + a.x21 * b.x11 + a.x22 * b.x21,
    x22 := a.x20 * b.x02 + a.x21 * b.x12 + a.x22 * b.x22 }

open Classical in
/-- /repo/internal/d2/transform.go:81-89 `ApplyPos`. -/
noncomputable def applyPos (t : T2) (b : V2) : V2 :=
  if t = identityT then b
  else ⟨t.x00 * b.x + t.x01 * b.y + t.x02, t.x10 * b.x + t.x11 * b.y + t.x12⟩

open Classical in
/-- /repo/internal/d2/transform.go:91-109 `ApplyBox`. -/
noncomputable def applyBox (a : T2) (box : Box2) : Box2 :=
  if a = identityT then box
  else
    let r : V2 := ⟨a.x00, a.x10⟩
    let u : V2 := ⟨a.x01, a.x11⟩
    let t : V2 := ⟨a.x02, a.x12⟩
    let xa := V2.scale box.lo.x r
    let xb := V2.scale box.hi.x r
    let ya := V2.scale box.lo.y u
    let yb := V2.scale box.hi.y u
    ⟨V2.add t (V2.add (V2.minElem xa xb) (V2.minElem ya yb)), V2.add t (V2.add (V2.maxElem xa xb) (V2.maxElem ya yb))⟩

/-- /repo/internal/d2/transform.go:111-125 `Determinant`: the entries of each of the 24 products, with its sign.  The formula is
that of a 4x4 matrix. -/
def detTerms : List (ℝ × List (ℕ × ℕ)) :=
  [(1, [(0, 0), (1, 1), (2, 2), (3, 3)]),
   (-1, [(0, 0), (1, 1), (2, 3), (3, 2)]),
   (1, [(0, 0), (1, 2), (2, 3), (3, 1)]),
   (-1, [(0, 0), (1, 2), (2, 1), (3, 3)]),
   (1, [(0, 0), (1, 3), (2, 1), (3, 2)]),
   (-1, [(0, 0), (1, 3), (2, 2), (3, 1)]),
   (-1, [(0, 1), (1, 2), (2, 3), (3, 0)]),
   (1, [(0, 1), (1, 2), (2, 0), (3, 3)]),
   (-1, [(0, 1), (1, 3), (2, 0), (3, 2)]),
   (1, [(0, 1), (1, 3), (2, 2), (3, 0)]),
   (-1, [(0, 1), (1, 0), (2, 2), (3, 3)]),
   (1, [(0, 1), (1, 0), (2, 3), (3, 2)]),
   (1, [(0, 2), (1, 3), (2, 0), (3, 1)]),
   (-1, [(0, 2), (1, 3), (2, 1), (3, 0)]),
   (1, [(0, 2), (1, 0), (2, 1), (3, 3)]),
   (-1, [(0, 2), (1, 0), (2, 3), (3, 1)]),
   (1, [(0, 2), (1, 1), (2, 3), (3, 0)]),
   (-1, [(0, 2), (1, 1), (2, 0), (3, 3)]),
   (-1, [(0, 3), (1, 0), (2, 1), (3, 2)]),
   (1, [(0, 3), (1, 0), (2, 2), (3, 1)]),
   (-1, [(0, 3), (1, 1), (2, 2), (3, 0)]),
   (1, [(0, 3), (1, 1), (2, 0), (3, 2)]),
   (-1, [(0, 3), (1, 2), (2, 0), (3, 1)]),
   (1, [(0, 3), (1, 2), (2, 1), (3, 0)])]

/-- One product of `Determinant`; `none` is a panic. -/
noncomputable def detTerm (a : T2) (t : ℝ × List (ℕ × ℕ)) : Option ℝ := do
  let l ← t.2.mapM fun ij => a.at' ij.1 ij.2
  pure (t.1 * l.prod)

/-- /repo/internal/d2/transform.go:111-125 `Determinant`; `none` is a panic. -/
noncomputable def det (a : T2) : Option ℝ := do
  let l ← detTerms.mapM a.detTerm
  pure l.sum

/-- /repo/internal/d2/transform.go:130-139: the entries `Inverse` computes from the determinant. -/
noncomputable def inverseFor (a : T2) (det : ℝ) : T2 :=
  let d := 1 / det
  { x00 := (a.x11 * a.x22 - a.x12 * a.x21) * d,
    x01 := (a.x21 * a.x02 - a.x01 * a.x22) * d,
    x02 := (a.x01 * a.x12 - a.x11 * a.x02) * d,
    x10 := (a.x12 * a.x20 - a.x22 * a.x10) * d,
    x11 := (a.x22 * a.x00 - a.x20 * a.x02) * d,
    x12 := (a.x02 * a.x10 - a.x12 * a.x00) * d,
    x20 := (a.x10 * a.x21 - a.x20 * a.x11) * d,
    x21 := (a.x20 * a.x01 - a.x00 * a.x21) * d,
    x22 := (a.x00 * a.x11 - a.x01 * a.x10) * d }

/-- /repo/internal/d2/transform.go:127-141 `Inverse`; `none` is a panic. -/
noncomputable def inverse (a : T2) : Option T2 := a.det.map a.inverseFor

end T2

end Sdf
