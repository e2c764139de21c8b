import Mathlib.Analysis.Real.Sqrt
import Mathlib.Analysis.SpecialFunctions.Trigonometric.Basic

/-!
Vectors.  Models the gonum types `r2.Vec`, `r3.Vec` used throughout /repo (external package, trusted base) and the element-wise helpers
of /repo/internal/d2/vector.go and /repo/internal/d3/vector.go.

Simplification: `float64` is modelled by `ℝ` (no rounding, no NaN/Inf).
-/

namespace Sdf

/-- gonum `r2.Vec`. -/
@[ext] structure V2 where
  x : ℝ
  y : ℝ

/-- gonum `r3.Vec`. -/
@[ext] structure V3 where
  x : ℝ
  y : ℝ
  z : ℝ

/-- `math.MaxFloat64`, the number 2^1023 * (2 - 2^-52). -/
noncomputable def maxFloat64 : ℝ := (2 ^ 1023 : ℝ) * (2 - (2 ^ 52 : ℝ)⁻¹)

namespace V2

/-- gonum `r2.Add`. -/
def add (a b : V2) : V2 := ⟨a.x + b.x, a.y + b.y⟩
/-- gonum `r2.Sub`. -/
def sub (a b : V2) : V2 := ⟨a.x - b.x, a.y - b.y⟩
/-- gonum `r2.Scale`. -/
def scale (k : ℝ) (a : V2) : V2 := ⟨k * a.x, k * a.y⟩
/-- gonum `r2.Dot`. -/
def dot (a b : V2) : ℝ := a.x * b.x + a.y * b.y
/-- gonum `r2.Cross` (the scalar 2D cross product). -/
def cross (a b : V2) : ℝ := a.x * b.y - a.y * b.x
/-- gonum `r2.Norm2`. -/
def norm2 (a : V2) : ℝ := a.x * a.x + a.y * a.y
/-- gonum `r2.Norm` (also `math.Hypot(a.X, a.Y)`). -/
noncomputable def norm (a : V2) : ℝ := Real.sqrt (a.x * a.x + a.y * a.y)
/-- gonum `r2.Unit`.  For the zero vector gonum returns NaNs; theorems using `unit` exclude it. -/
noncomputable def unit (a : V2) : V2 := scale (1 / norm a) a
/-- Euclidean distance (specification only). -/
noncomputable def dist (a b : V2) : ℝ := norm (sub a b)
/-- /repo/internal/d2/vector.go:9-14 `Elem`. -/
def elem (k : ℝ) : V2 := ⟨k, k⟩
/-- /repo/internal/d2/vector.go:29-31 `MinElem`. -/
noncomputable def minElem (a b : V2) : V2 := ⟨min a.x b.x, min a.y b.y⟩
/-- /repo/internal/d2/vector.go:34-36 `MaxElem`. -/
noncomputable def maxElem (a b : V2) : V2 := ⟨max a.x b.x, max a.y b.y⟩
/-- /repo/internal/d2/vector.go:53-58 `AbsElem`. -/
def absElem (a : V2) : V2 := ⟨|a.x|, |a.y|⟩
/-- /repo/internal/d2/vector.go:67-72 `MulElem`. -/
def mulElem (a b : V2) : V2 := ⟨a.x * b.x, a.y * b.y⟩
/-- /repo/internal/d2/vector.go:74-79 `DivElem`. -/
noncomputable def divElem (a b : V2) : V2 := ⟨a.x / b.x, a.y / b.y⟩
/-- /repo/internal/d2/vector.go:96-98 `clamp`, identical to /repo/internal/d3/vector.go:111-113. -/
noncomputable def clamp1 (x a b : ℝ) : ℝ := min b (max x a)
/-- /repo/internal/d2/vector.go:38-43 `Clamp`. -/
noncomputable def clamp (x a b : V2) : V2 := ⟨clamp1 x.x a.x b.x, clamp1 x.y a.y b.y⟩
/-- /repo/internal/d2/vector.go:45-47 `Max`. -/
noncomputable def maxComp (a : V2) : ℝ := max a.x a.y
/-- /repo/internal/d2/vector.go:49-51 `Min`. -/
noncomputable def minComp (a : V2) : ℝ := min a.x a.y
/-- /repo/internal/d2/vector.go:140-142 `Overlap`: 1D intervals `[a.X,a.Y]`, `[b.X,b.Y]` overlap. -/
def Overlap (a b : V2) : Prop := a.y ≥ b.x ∧ b.y ≥ a.x
/-- /repo/internal/d2/vector.go:125-127,135-137 `PolarToXY`. -/
noncomputable def polarToXY (r θ : ℝ) : V2 := ⟨r * Real.cos θ, r * Real.sin θ⟩
/-- /repo/internal/d2/vector.go:16-18 `EqualWithin`. -/
def EqualWithin (a b : V2) (tol : ℝ) : Prop := |a.x - b.x| ≤ tol ∧ |a.y - b.y| ≤ tol

instance : Inhabited V2 := ⟨⟨0, 0⟩⟩

end V2

namespace V3

/-- gonum `r3.Add`. -/
def add (a b : V3) : V3 := ⟨a.x + b.x, a.y + b.y, a.z + b.z⟩
/-- gonum `r3.Sub`. -/
def sub (a b : V3) : V3 := ⟨a.x - b.x, a.y - b.y, a.z - b.z⟩
/-- gonum `r3.Scale`. -/
def scale (k : ℝ) (a : V3) : V3 := ⟨k * a.x, k * a.y, k * a.z⟩
/-- gonum `r3.Dot`. -/
def dot (a b : V3) : ℝ := a.x * b.x + a.y * b.y + a.z * b.z
/-- gonum `r3.Cross`. -/
def cross (a b : V3) : V3 := ⟨a.y * b.z - a.z * b.y, a.z * b.x - a.x * b.z, a.x * b.y - a.y * b.x⟩
/-- gonum `r3.Norm2`. -/
def norm2 (a : V3) : ℝ := a.x * a.x + a.y * a.y + a.z * a.z
/-- gonum `r3.Norm`. -/
noncomputable def norm (a : V3) : ℝ := Real.sqrt (a.x * a.x + a.y * a.y + a.z * a.z)
/-- gonum `r3.Unit`.  For the zero vector gonum returns NaNs; theorems using `unit` exclude it. -/
noncomputable def unit (a : V3) : V3 := scale (1 / norm a) a
/-- Euclidean distance (specification only). -/
noncomputable def dist (a b : V3) : ℝ := norm (sub a b)
/-- /repo/internal/d3/vector.go:14-20 `Elem`. -/
def elem (k : ℝ) : V3 := ⟨k, k, k⟩
/-- /repo/internal/d3/vector.go:37-39 `MinElem`. -/
noncomputable def minElem (a b : V3) : V3 := ⟨min a.x b.x, min a.y b.y, min a.z b.z⟩
/-- /repo/internal/d3/vector.go:42-44 `MaxElem`. -/
noncomputable def maxElem (a b : V3) : V3 := ⟨max a.x b.x, max a.y b.y, max a.z b.z⟩
/-- /repo/internal/d3/vector.go:62-68 `AbsElem`. -/
def absElem (a : V3) : V3 := ⟨|a.x|, |a.y|, |a.z|⟩
/-- /repo/internal/d3/vector.go:78-84 `MulElem`. -/
def mulElem (a b : V3) : V3 := ⟨a.x * b.x, a.y * b.y, a.z * b.z⟩
/-- /repo/internal/d3/vector.go:46-52 `Clamp`. -/
noncomputable def clamp (x a b : V3) : V3 :=
  ⟨V2.clamp1 x.x a.x b.x, V2.clamp1 x.y a.y b.y, V2.clamp1 x.z a.z b.z⟩
/-- /repo/internal/d3/vector.go:54-56 `Max`. -/
noncomputable def maxComp (a : V3) : ℝ := max a.z (max a.x a.y)
/-- /repo/internal/d3/vector.go:58-60 `Min`. -/
noncomputable def minComp (a : V3) : ℝ := min a.z (min a.x a.y)
/-- /repo/internal/d3/vector.go:22-26 `EqualWithin`. -/
def EqualWithin (a b : V3) (tol : ℝ) : Prop := |a.x - b.x| ≤ tol ∧ |a.y - b.y| ≤ tol ∧ |a.z - b.z| ≤ tol
/-- /repo/internal/d3/vector.go:32-34 `LTEZero`. -/
def LTEZero (a : V3) : Prop := a.x ≤ 0 ∨ a.y ≤ 0 ∨ a.z ≤ 0
/-- The xy-projection `r2.Vec{X: p.X, Y: p.Y}`, written inline at many places of /repo/sdf3.go. -/
def xy (a : V3) : V2 := ⟨a.x, a.y⟩

instance : Inhabited V3 := ⟨⟨0, 0, 0⟩⟩

end V3

end Sdf
