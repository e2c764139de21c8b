import Verif.Model.Box
import Mathlib.Analysis.SpecialFunctions.Trigonometric.Basic

/-!
Matrices: /repo/matrix.go.  Entries are reals, so the rounding of float64 is not modelled; `1 / 0` is `0` in
Lean where Go gives an infinity, so theorems about `inverse` assume a non-zero determinant.
-/

namespace Sdf

/-- /repo/utils.go:31 `epsilon`. -/
noncomputable def epsilon : ℝ := 1e-12

/-- /repo/utils.go:17 `tolerance`. -/
noncomputable def tolerance : ℝ := 1e-9

/-- /repo/matrix.go:13-19 `m44`. -/
@[ext] structure M44 where
  (x00 x01 x02 x03 : ℝ)
  (x10 x11 x12 x13 : ℝ)
  (x20 x21 x22 x23 : ℝ)
  (x30 x31 x32 x33 : ℝ)

/-- /repo/matrix.go:21-26 `m33`. -/
@[ext] structure M33 where
  (x00 x01 x02 : ℝ)
  (x10 x11 x12 : ℝ)
  (x20 x21 x22 : ℝ)

/-- /repo/matrix.go:28-32 `m22`. -/
@[ext] structure M22 where
  (x00 x01 : ℝ)
  (x10 x11 : ℝ)

namespace M44

/-- /repo/matrix.go:85-91 `identity3d`. -/
def identity : M44 :=
  ⟨1, 0, 0, 0,
   0, 1, 0, 0,
   0, 0, 1, 0,
   0, 0, 0, 1⟩

/-- /repo/matrix.go:109-115 `Translate3D`. -/
def translate (v : V3) : M44 :=
  ⟨1, 0, 0, v.x,
   0, 1, 0, v.y,
   0, 0, 1, v.z,
   0, 0, 0, 1⟩

/-- /repo/matrix.go:127-133 `Scale3D`. -/
def scale (v : V3) : M44 :=
  ⟨v.x, 0, 0, 0,
   0, v.y, 0, 0,
   0, 0, v.z, 0,
   0, 0, 0, 1⟩

/-- /repo/matrix.go:145-155 `Rotate3D`. -/
noncomputable def rotate (v : V3) (a : ℝ) : M44 :=
  let v := V3.unit v
  let s := Real.sin a
  let c := Real.cos a
  let m := 1 - c
  ⟨m * v.x * v.x + c, m * v.x * v.y - v.z * s, m * v.z * v.x + v.y * s, 0,
   m * v.x * v.y + v.z * s, m * v.y * v.y + c, m * v.y * v.z - v.x * s, 0,
   m * v.z * v.x - v.y * s, m * v.y * v.z + v.x * s, m * v.z * v.z + c, 0,
   0, 0, 0, 1⟩

/-- /repo/matrix.go:158-160 `RotateX`. -/
noncomputable def rotateX (a : ℝ) : M44 := rotate ⟨1, 0, 0⟩ a

/-- /repo/matrix.go:163-165 `RotateY`. -/
noncomputable def rotateY (a : ℝ) : M44 := rotate ⟨0, 1, 0⟩ a

/-- /repo/matrix.go:168-170 `RotateZ`. -/
noncomputable def rotateZ (a : ℝ) : M44 := rotate ⟨0, 0, 1⟩ a

/-- /repo/matrix.go:173-179 `MirrorXY`. -/
def mirrorXY : M44 :=
  ⟨1, 0, 0, 0,
   0, 1, 0, 0,
   0, 0, -1, 0,
   0, 0, 0, 1⟩

/-- /repo/matrix.go:182-188 `MirrorXZ`. -/
def mirrorXZ : M44 :=
  ⟨1, 0, 0, 0,
   0, -1, 0, 0,
   0, 0, 1, 0,
   0, 0, 0, 1⟩

/-- /repo/matrix.go:191-197 `MirrorYZ`. -/
def mirrorYZ : M44 :=
  ⟨-1, 0, 0, 0,
   0, 1, 0, 0,
   0, 0, 1, 0,
   0, 0, 0, 1⟩

/-- /repo/matrix.go:200-206 `MirrorXeqY`. -/
def mirrorXeqY : M44 :=
  ⟨0, 1, 0, 0,
   1, 0, 0, 0,
   0, 0, 1, 0,
   0, 0, 0, 1⟩

/-- /repo/matrix.go:298-317 `Mul`. -/
def mul (a b : M44) : M44 :=
  { x00 := a.x00 * b.x00 + a.x01 * b.x10 + a.x02 * b.x20 + a.x03 * b.x30,
    x01 := a.x00 * b.x01 + a.x01 * b.x11 + a.x02 * b.x21 + a.x03 * b.x31,
    x02 := a.x00 * b.x02 + a.x01 * b.x12 + a.x02 * b.x22 + a.x03 * b.x32,
    x03 := a.x00 * b.x03 + a.x01 * b.x13 + a.x02 * b.x23 + a.x03 * b.x33,
    x10 := a.x10 * b.x00 + a.x11 * b.x10 + a.x12 * b.x20 + a.x13 * b.x30,
    x11 := a.x10 * b.x01 + a.x11 * b.x11 + a.x12 * b.x21 + a.x13 * b.x31,
    x12 := a.x10 * b.x02 + a.x11 * b.x12 + a.x12 * b.x22 + a.x13 * b.x32,
    x13 := a.x10 * b.x03 + a.x11 * b.x13 + a.x12 * b.x23 + a.x13 * b.x33,
    x20 := a.x20 * b.x00 + a.x21 * b.x10 + a.x22 * b.x20 + a.x23 * b.x30,
    x21 := a.x20 * b.x01 + a.x21 * b.x11 + a.x22 * b.x21 + a.x23 * b.x31,
    x22 := a.x20 * b.x02 + a.x21 * b.x12 + a.x22 * b.x22 + a.x23 * b.x32,
    x23 := a.x20 * b.x03 + a.x21 * b.x13 + a.x22 * b.x23 + a.x23 * b.x33,
    x30 := a.x30 * b.x00 + a.x31 * b.x10 + a.x32 * b.x20 + a.x33 * b.x30,
    x31 := a.x30 * b.x01 + a.x31 * b.x11 + a.x32 * b.x21 + a.x33 * b.x31,
    x32 := a.x30 * b.x02 + a.x31 * b.x12 + a.x32 * b.x22 + a.x33 * b.x32,
    x33 := a.x30 * b.x03 + a.x31 * b.x13 + a.x32 * b.x23 + a.x33 * b.x33 }

/-- /repo/matrix.go:378-383 `MulPosition`. -/
def mulPosition (a : M44) (b : V3) : V3 :=
  ⟨a.x00 * b.x + a.x01 * b.y + a.x02 * b.z + a.x03,
   a.x10 * b.x + a.x11 * b.y + a.x12 * b.z + a.x13,
   a.x20 * b.x + a.x21 * b.y + a.x22 * b.z + a.x23⟩

/-- /repo/matrix.go:386-404 `MulBox`. -/
noncomputable def mulBox (a : M44) (box : Box3) : Box3 :=
  let r : V3 := ⟨a.x00, a.x10, a.x20⟩
  let u : V3 := ⟨a.x01, a.x11, a.x21⟩
  let b : V3 := ⟨a.x02, a.x12, a.x22⟩
  let t : V3 := ⟨a.x03, a.x13, a.x23⟩
  let xa := V3.scale box.lo.x r
  let xb := V3.scale box.hi.x r
  let ya := V3.scale box.lo.y u
  let yb := V3.scale box.hi.y u
  let za := V3.scale box.lo.z b
  let zb := V3.scale box.hi.z b
  ⟨V3.add (V3.minElem xa xb) (V3.add (V3.minElem ya yb) (V3.add (V3.minElem za zb) t)),
   V3.add (V3.maxElem xa xb) (V3.add (V3.maxElem ya yb) (V3.add (V3.maxElem za zb) t))⟩

/-- /repo/matrix.go:425-438 `Determinant`. -/
def det (a : M44) : ℝ :=
  (a.x00 * a.x11 * a.x22 * a.x33 - a.x00 * a.x11 * a.x23 * a.x32 + a.x00 * a.x12 * a.x23 * a.x31
    - a.x00 * a.x12 * a.x21 * a.x33 + a.x00 * a.x13 * a.x21 * a.x32 - a.x00 * a.x13 * a.x22 * a.x31
    - a.x01 * a.x12 * a.x23 * a.x30 + a.x01 * a.x12 * a.x20 * a.x33 - a.x01 * a.x13 * a.x20 * a.x32
    + a.x01 * a.x13 * a.x22 * a.x30 - a.x01 * a.x10 * a.x22 * a.x33 + a.x01 * a.x10 * a.x23 * a.x32
    + a.x02 * a.x13 * a.x20 * a.x31 - a.x02 * a.x13 * a.x21 * a.x30 + a.x02 * a.x10 * a.x21 * a.x33
    - a.x02 * a.x10 * a.x23 * a.x31 + a.x02 * a.x11 * a.x23 * a.x30 - a.x02 * a.x11 * a.x20 * a.x33
    - a.x03 * a.x10 * a.x21 * a.x32 + a.x03 * a.x10 * a.x22 * a.x31 - a.x03 * a.x11 * a.x22 * a.x30
    + a.x03 * a.x11 * a.x20 * a.x32 - a.x03 * a.x12 * a.x20 * a.x31 + a.x03 * a.x12 * a.x21 *
    a.x30)

/-- /repo/matrix.go:453-473 `Inverse`. -/
noncomputable def inverse (a : M44) : M44 :=
  let d := 1 / a.det
  { x00 := (a.x12 * a.x23 * a.x31 - a.x13 * a.x22 * a.x31 + a.x13 * a.x21 * a.x32 - a.x11 * a.x23
      * a.x32 - a.x12 * a.x21 * a.x33 + a.x11 * a.x22 * a.x33) * d,
    x01 := (a.x03 * a.x22 * a.x31 - a.x02 * a.x23 * a.x31 - a.x03 * a.x21 * a.x32 + a.x01 *
      a.x23 * a.x32 + a.x02 * a.x21 * a.x33 - a.x01 * a.x22 * a.x33) * d,
    x02 := (a.x02 * a.x13 * a.x31 - a.x03 * a.x12 * a.x31 + a.x03 * a.x11 * a.x32 - a.x01 *
      a.x13 * a.x32 - a.x02 * a.x11 * a.x33 + a.x01 * a.x12 * a.x33) * d,
    x03 := (a.x03 * a.x12 * a.x21 - a.x02 * a.x13 * a.x21 - a.x03 * a.x11 * a.x22 + a.x01 *
      a.x13 * a.x22 + a.x02 * a.x11 * a.x23 - a.x01 * a.x12 * a.x23) * d,
    x10 := (a.x13 * a.x22 * a.x30 - a.x12 * a.x23 * a.x30 - a.x13 * a.x20 * a.x32 + a.x10 *
      a.x23 * a.x32 + a.x12 * a.x20 * a.x33 - a.x10 * a.x22 * a.x33) * d,
    x11 := (a.x02 * a.x23 * a.x30 - a.x03 * a.x22 * a.x30 + a.x03 * a.x20 * a.x32 - a.x00 *
      a.x23 * a.x32 - a.x02 * a.x20 * a.x33 + a.x00 * a.x22 * a.x33) * d,
    x12 := (a.x03 * a.x12 * a.x30 - a.x02 * a.x13 * a.x30 - a.x03 * a.x10 * a.x32 + a.x00 *
      a.x13 * a.x32 + a.x02 * a.x10 * a.x33 - a.x00 * a.x12 * a.x33) * d,
    x13 := (a.x02 * a.x13 * a.x20 - a.x03 * a.x12 * a.x20 + a.x03 * a.x10 * a.x22 - a.x00 *
      a.x13 * a.x22 - a.x02 * a.x10 * a.x23 + a.x00 * a.x12 * a.x23) * d,
    x20 := (a.x11 * a.x23 * a.x30 - a.x13 * a.x21 * a.x30 + a.x13 * a.x20 * a.x31 - a.x10 *
      a.x23 * a.x31 - a.x11 * a.x20 * a.x33 + a.x10 * a.x21 * a.x33) * d,
    x21 := (a.x03 * a.x21 * a.x30 - a.x01 * a.x23 * a.x30 - a.x03 * a.x20 * a.x31 + a.x00 *
      a.x23 * a.x31 + a.x01 * a.x20 * a.x33 - a.x00 * a.x21 * a.x33) * d,
    x22 := (a.x01 * a.x13 * a.x30 - a.x03 * a.x11 * a.x30 + a.x03 * a.x10 * a.x31 - a.x00 *
      a.x13 * a.x31 - a.x01 * a.x10 * a.x33 + a.x00 * a.x11 * a.x33) * d,
    x23 := (a.x03 * a.x11 * a.x20 - a.x01 * a.x13 * a.x20 - a.x03 * a.x10 * a.x21 + a.x00 *
      a.x13 * a.x21 + a.x01 * a.x10 * a.x23 - a.x00 * a.x11 * a.x23) * d,
    x30 := (a.x12 * a.x21 * a.x30 - a.x11 * a.x22 * a.x30 - a.x12 * a.x20 * a.x31 + a.x10 *
      a.x22 * a.x31 + a.x11 * a.x20 * a.x32 - a.x10 * a.x21 * a.x32) * d,
    x31 := (a.x01 * a.x22 * a.x30 - a.x02 * a.x21 * a.x30 + a.x02 * a.x20 * a.x31 - a.x00 *
      a.x22 * a.x31 - a.x01 * a.x20 * a.x32 + a.x00 * a.x21 * a.x32) * d,
    x32 := (a.x02 * a.x11 * a.x30 - a.x01 * a.x12 * a.x30 - a.x02 * a.x10 * a.x31 + a.x00 *
      a.x12 * a.x31 + a.x01 * a.x10 * a.x32 - a.x00 * a.x11 * a.x32) * d,
    x33 := (a.x01 * a.x12 * a.x20 - a.x02 * a.x11 * a.x20 + a.x02 * a.x10 * a.x21 - a.x00 *
      a.x12 * a.x21 - a.x01 * a.x10 * a.x22 + a.x00 * a.x11 * a.x22) * d }

/-- /repo/matrix.go:503-544 `rotateToVec`; gonum `r3.Skew(v)` is `[0,-z,y; z,0,-x; -y,x,0]` and the matrix
assembled at 527-543 is `I + Skew(v) + Skew(v)²/(1 + a·b)`, written out entry by entry. -/
noncomputable def rotateToVec (a b : V3) : M44 :=
  open Classical in
  if V3.EqualWithin a ⟨0, 0, 0⟩ epsilon ∨ V3.EqualWithin b ⟨0, 0, 0⟩ epsilon then identity
  else
    let a := V3.unit a
    let b := V3.unit b
    if V3.EqualWithin a b epsilon then identity
    else if V3.EqualWithin (V3.scale (-1) a) b epsilon then
      ⟨-1, 0, 0, 0,
       0, -1, 0, 0,
       0, 0, -1, 0,
       0, 0, 0, 1⟩
    else
      let v := V3.cross a b
      let k := 1 / (1 + V3.dot a b)
      ⟨0 + 1 + k * (-v.z * v.z - v.y * v.y), -v.z + 0 + k * (v.y * v.x), v.y + 0 + k * (v.z * v.x), 0,
       v.z + 0 + k * (v.x * v.y), 0 + 1 + k * (-v.z * v.z - v.x * v.x), -v.x + 0 + k * (v.z * v.y), 0,
       -v.y + 0 + k * (v.x * v.z), v.x + 0 + k * (v.y * v.z), 0 + 1 + k * (-v.y * v.y - v.x * v.x), 0,
       0, 0, 0, 1⟩

end M44

namespace M33

/-- /repo/matrix.go:94-99 `identity2d`. -/
def identity : M33 :=
  ⟨1, 0, 0,
   0, 1, 0,
   0, 0, 1⟩

/-- /repo/matrix.go:118-123 `Translate2D`. -/
def translate (v : V2) : M33 :=
  ⟨1, 0, v.x,
   0, 1, v.y,
   0, 0, 1⟩

/-- /repo/matrix.go:137-142 `Scale2D`. -/
def scale (v : V2) : M33 :=
  ⟨v.x, 0, 0,
   0, v.y, 0,
   0, 0, 1⟩

/-- /repo/matrix.go:209-214 `MirrorX`. -/
def mirrorX : M33 :=
  ⟨1, 0, 0,
   0, -1, 0,
   0, 0, 1⟩

/-- /repo/matrix.go:217-222 `MirrorY`. -/
def mirrorY : M33 :=
  ⟨-1, 0, 0,
   0, 1, 0,
   0, 0, 1⟩

/-- /repo/matrix.go:225-232 `Rotate2D`. -/
noncomputable def rotate (a : ℝ) : M33 :=
  let s := Real.sin a
  let c := Real.cos a
  ⟨c, -s, 0,
   s, c, 0,
   0, 0, 1⟩

/-- /repo/matrix.go:286-289 `MulPosition`. -/
def mulPosition (a : M33) (b : V2) : V2 :=
  ⟨a.x00 * b.x + a.x01 * b.y + a.x02, a.x10 * b.x + a.x11 * b.y + a.x12⟩

/-- /repo/matrix.go:320-332 `Mul`. -/
def mul (a b : M33) : M33 :=
  { x00 := a.x00 * b.x00 + a.x01 * b.x10 + a.x02 * b.x20,
    x01 := a.x00 * b.x01 + a.x01 * b.x11 + a.x02 * b.x21,
    x02 := a.x00 * b.x02 + a.x01 * b.x12 + a.x02 * b.x22,
    x10 := a.x10 * b.x00 + a.x11 * b.x10 + a.x12 * b.x20,
    x11 := a.x10 * b.x01 + a.x11 * b.x11 + a.x12 * b.x21,
    x12 := a.x10 * b.x02 + a.x11 * b.x12 + a.x12 * b.x22,
    x20 := a.x20 * b.x00 + a.x21 * b.x10 + a.x22 * b.x20,
    x21 := a.x20 * b.x01 + a.x21 * b.x11 + a.x22 * b.x21,
    x22 := a.x20 * b.x02 + a.x21 * b.x12 + a.x22 * b.x22 }

/-- /repo/matrix.go:345-357 `Add`. -/
def add (a b : M33) : M33 :=
  ⟨a.x00 + b.x00, a.x01 + b.x01, a.x02 + b.x02, a.x10 + b.x10, a.x11 + b.x11, a.x12 + b.x12,
   a.x20 + b.x20, a.x21 + b.x21, a.x22 + b.x22⟩

/-- /repo/matrix.go:360-372 `MulScalar`. -/
def mulScalar (a : M33) (k : ℝ) : M33 :=
  ⟨k * a.x00, k * a.x01, k * a.x02, k * a.x10, k * a.x11, k * a.x12, k * a.x20, k * a.x21, k * a.x22⟩

/-- /repo/matrix.go:407-422 `MulBox`. -/
noncomputable def mulBox (a : M33) (box : Box2) : Box2 :=
  let r : V2 := ⟨a.x00, a.x10⟩
  let u : V2 := ⟨a.x01, a.x11⟩
  let t : V2 := ⟨a.x02, a.x12⟩
  let xa := V2.scale box.lo.x r
  let xb := V2.scale box.hi.x r
  let ya := V2.scale box.lo.y u
  let yb := V2.scale box.hi.y u
  ⟨V2.add (V2.minElem xa xb) (V2.add (V2.minElem ya yb) t),
   V2.add (V2.maxElem xa xb) (V2.add (V2.maxElem ya yb) t)⟩

/-- /repo/matrix.go:441-445 `Determinant`. -/
def det (a : M33) : ℝ :=
  (a.x00 * (a.x11 * a.x22 - a.x21 * a.x12) - a.x01 * (a.x10 * a.x22 - a.x20 * a.x12) + a.x02 *
    (a.x10 * a.x21 - a.x20 * a.x11))

/-- /repo/matrix.go:476-489 `Inverse`. -/
noncomputable def inverse (a : M33) : M33 :=
  let d := 1 / a.det
  { x00 := (a.x11 * a.x22 - a.x12 * a.x21) * d,
    x01 := (a.x21 * a.x02 - a.x01 * a.x22) * d,
    x02 := (a.x01 * a.x12 - a.x11 * a.x02) * d,
    x10 := (a.x12 * a.x20 - a.x22 * a.x10) * d,
    x11 := (a.x22 * a.x00 - a.x20 * a.x02) * d,
    x12 := (a.x02 * a.x10 - a.x12 * a.x00) * d,
    x20 := (a.x10 * a.x21 - a.x20 * a.x11) * d,
    x21 := (a.x20 * a.x01 - a.x00 * a.x21) * d,
    x22 := (a.x00 * a.x11 - a.x01 * a.x10) * d }

end M33

namespace M22

/-- /repo/matrix.go:102-106 `identity`. -/
def identity : M22 := ⟨1, 0, 0, 1⟩

/-- /repo/matrix.go:235-242 `Rotate`. -/
noncomputable def rotate (a : ℝ) : M22 :=
  let s := Real.sin a
  let c := Real.cos a
  ⟨c, -s,
   s, c⟩

/-- /repo/matrix.go:292-295 `MulPosition`. -/
def mulPosition (a : M22) (b : V2) : V2 := ⟨a.x00 * b.x + a.x01 * b.y, a.x10 * b.x + a.x11 * b.y⟩

/-- /repo/matrix.go:335-342 `Mul`. -/
def mul (a b : M22) : M22 :=
  { x00 := a.x00 * b.x00 + a.x01 * b.x10,
    x01 := a.x00 * b.x01 + a.x01 * b.x11,
    x10 := a.x10 * b.x00 + a.x11 * b.x10,
    x11 := a.x10 * b.x01 + a.x11 * b.x11 }

/-- /repo/matrix.go:448-450 `Determinant`. -/
def det (a : M22) : ℝ := a.x00 * a.x11 - a.x01 * a.x10

/-- /repo/matrix.go:492-500 `Inverse`. -/
noncomputable def inverse (a : M22) : M22 :=
  let d := 1 / a.det
  { x00 := a.x11 * d,
    x01 := -a.x01 * d,
    x10 := -a.x10 * d,
    x11 := a.x00 * d }

end M22

end Sdf
