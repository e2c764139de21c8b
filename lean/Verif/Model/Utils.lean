import Verif.Model.Matrix
import Mathlib.Analysis.SpecialFunctions.Complex.Arg
import Mathlib.Analysis.SpecialFunctions.Log.Basic
import Mathlib.Analysis.SpecialFunctions.Pow.Real

/-! Scalar helpers, blending functions and extrusion maps: /repo/utils.go. -/

namespace Sdf

/-- /repo/utils.go:15 `tau`. -/
noncomputable def tau : ℝ := 2 * Real.pi

/-- /repo/utils.go:16 `sqrtHalf`. -/
noncomputable def sqrtHalf : ℝ := 0.7071067811865476

open Classical in
/-- /repo/utils.go:63-71 `clamp`. -/
noncomputable def clamp (x a b : ℝ) : ℝ := if x < a then a else if x > b then b else x

/-- /repo/utils.go:74-76 `mix`. -/
def mix (x y a : ℝ) : ℝ := x + a * (y - x)

open Classical in
/-- /repo/utils.go:79-87 `sign`. -/
noncomputable def sign (x : ℝ) : ℝ := if x < 0 then -1 else if x > 0 then 1 else 0

/-- /repo/utils.go:90-94 `sawTooth`. -/
noncomputable def sawTooth (x period : ℝ) : ℝ :=
  let x := x + period / 2
  let t := x / period
  period * (t - (⌊t⌋ : ℝ)) - period / 2

/-- Go's `math.Mod(x, y)` for `x ≥ 0`, `y > 0`, the only way /repo/sdf3.go:61 uses it. -/
noncomputable def goMod (x y : ℝ) : ℝ := x - y * (⌊x / y⌋ : ℝ)

/-- Go's `math.Atan2(y, x)`: the angle of the point `(x, y)`, in `(-π, π]`.  (Go returns `-π` when `y` is
the negative zero and `x < 0`; reals have no negative zero.) -/
noncomputable def atan2 (y x : ℝ) : ℝ := Complex.arg ⟨x, y⟩

/-- /repo/utils.go:97-102 `MinRound`. -/
noncomputable def minRound (k a b : ℝ) : ℝ :=
  let u := V2.maxElem ⟨k - a, k - b⟩ ⟨0, 0⟩
  max k (min a b) - V2.norm u

/-- /repo/utils.go:105-109 `MinExp`. -/
noncomputable def minExp (k a b : ℝ) : ℝ := -Real.log (Real.exp (-k * a) + Real.exp (-k * b)) / k

/-- /repo/utils.go:113-119 `MinPow`. -/
noncomputable def minPow (k a b : ℝ) : ℝ :=
  let a := a ^ k
  let b := b ^ k
  ((a * b) / (a + b)) ^ (1 / k)

/-- /repo/utils.go:121-125 `minQuad`. -/
noncomputable def minQuad (a b k : ℝ) : ℝ :=
  let h := max (k - |a - b|) 0 / k
  min a b - h * h * k * 0.25

/-- /repo/utils.go:127-131 `minCubic`. -/
noncomputable def minCubic (a b k : ℝ) : ℝ :=
  let h := max (k - |a - b|) 0 / k
  min a b - h * h * h * k * (1.0 / 6.0)

/-- /repo/utils.go:134-141 `minPoly`, for a non-negative degree (`MinPoly` calls it with `n ≥ 4` only). -/
noncomputable def minPolyGen (n : ℕ) (k a b : ℝ) : ℝ :=
  let div := 0.5 / (n : ℝ)
  let h := max (k - |a - b|) 0 / k
  min a b - h ^ n * k * div

open Classical in
/-- /repo/utils.go:148-175 `MinPoly`. -/
noncomputable def minPoly (n : ℤ) (k a b : ℝ) : ℝ :=
  if n < 0 ∨ k ≤ 0 then min a b - max (k - |a - b|) 0
  else match n with
    | 0 => min (min a b) ((a - k + b) * sqrtHalf)
    | 1 => min a b
    | 2 => minQuad a b k
    | 3 => minCubic a b k
    | n => minPolyGen n.toNat k a b

/-- /repo/utils.go:194-201 `maxPoly` for a non-negative degree.  For `n = 0` Go divides by zero: `div` is
`+Inf`, while here it is `0`; theorems exclude `n = 0`. -/
noncomputable def maxPolyGen (n : ℕ) (k a b : ℝ) : ℝ :=
  let div := 0.5 / (n : ℝ)
  let h := max (k - |b - a|) 0 / k;
  -(min (-a) (-b) - h ^ n * k * div)

open Classical in
/-- /repo/utils.go:183-191 `MaxPoly`. -/
noncomputable def maxPoly (n : ℤ) (k a b : ℝ) : ℝ :=
  if n < 0 ∨ k ≤ 0 then -(-min a b - max (k - |b - a|) 0)
  else maxPolyGen n.toNat k a b

/-- /repo/utils.go:207-209 `NormalExtrude`. -/
def normalExtrude (p : V3) : V2 := ⟨p.x, p.y⟩

/-- /repo/utils.go:212-218 `TwistExtrude`. -/
noncomputable def twistExtrude (height twist : ℝ) (p : V3) : V2 :=
  let k := twist / height
  (M22.rotate (p.z * k)).mulPosition ⟨p.x, p.y⟩

/-- /repo/utils.go:221-230 `ScaleExtrude`. -/
noncomputable def scaleExtrude (height : ℝ) (scale : V2) (p : V3) : V2 :=
  let inv : V2 := ⟨1 / scale.x, 1 / scale.y⟩
  let m := V2.divElem (V2.sub inv ⟨1, 1⟩) (V2.elem height)
  let b := V2.add (V2.divElem inv (V2.elem 2)) (V2.elem 0.5)
  V2.mulElem ⟨p.x, p.y⟩ (V2.add b (V2.scale p.z m))

/-- /repo/utils.go:233-250 `ScaleTwistExtrude`. -/
noncomputable def scaleTwistExtrude (height twist : ℝ) (scale : V2) (p : V3) : V2 :=
  let k := twist / height
  let inv : V2 := ⟨1 / scale.x, 1 / scale.y⟩
  let m := V2.sub inv (V2.divElem ⟨1, 1⟩ (V2.elem height))
  let b := V2.add (V2.divElem inv (V2.elem 2)) (V2.elem 0.5)
  let pnew := V2.mulElem ⟨p.x, p.y⟩ (V2.add (V2.scale p.z m) b)
  (M22.rotate (p.z * k)).mulPosition pnew

/-- /repo/internal/d3/vector.go:118-124 `Set.Min`, for a non-empty set. -/
noncomputable def V3.setMin (l : List V3) : V3 := l.tail.foldl V3.minElem l.head!
/-- /repo/internal/d3/vector.go:127-133 `Set.Max`, for a non-empty set. -/
noncomputable def V3.setMax (l : List V3) : V3 := l.tail.foldl V3.maxElem l.head!
/-- /repo/internal/d2/vector.go:103-109 `Set.Min`, for a non-empty set. -/
noncomputable def V2.setMin (l : List V2) : V2 := l.tail.foldl V2.minElem l.head!
/-- /repo/internal/d2/vector.go:112-118 `Set.Max`, for a non-empty set. -/
noncomputable def V2.setMax (l : List V2) : V2 := l.tail.foldl V2.maxElem l.head!

end Sdf
