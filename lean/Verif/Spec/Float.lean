import Mathlib.Data.Int.Log
import Mathlib.Algebra.Order.Archimedean.Real.Basic

/-! Floating point numbers, as far as they are needed: rounding of a real number to a given number of bits.  The exponent
is not limited, so that overflow and gradual underflow are not represented. -/

namespace Sdf.Fp

open Classical in
/-- The nearest integer, and of two nearest integers the even one. -/
noncomputable def roundEven (y : ℝ) : ℤ :=
  if Int.fract y < 1 / 2 then ⌊y⌋
  else if 1 / 2 < Int.fract y then ⌊y⌋ + 1
  else if Even ⌊y⌋ then ⌊y⌋ else ⌊y⌋ + 1

/-- IEEE 754 round to nearest, ties to even, with `prec` significant bits: 53 for float64, 24 for float32. -/
noncomputable def rn (prec : ℕ) (x : ℝ) : ℝ :=
  let ulp : ℝ := (2 : ℝ) ^ (Int.log 2 |x| + 1 - prec)
  roundEven (x / ulp) * ulp

/-- The four operations, as a machine carries them out. -/
structure Arith where
  add : ℝ → ℝ → ℝ
  sub : ℝ → ℝ → ℝ
  mul : ℝ → ℝ → ℝ
  div : ℝ → ℝ → ℝ

/-- Exact arithmetic. -/
noncomputable def exact : Arith := ⟨(· + ·), (· - ·), (· * ·), (· / ·)⟩

/-- The arithmetic of float64: the exact result, rounded. -/
noncomputable def float64 : Arith :=
  ⟨fun a b => rn 53 (a + b), fun a b => rn 53 (a - b), fun a b => rn 53 (a * b), fun a b => rn 53 (a / b)⟩

/-- Every operation is carried out with a relative error of at most `u`. -/
structure Arith.Accurate (A : Arith) (u : ℝ) : Prop where
  add : ∀ a b, |A.add a b - (a + b)| ≤ u * |a + b|
  sub : ∀ a b, |A.sub a b - (a - b)| ≤ u * |a - b|
  mul : ∀ a b, |A.mul a b - a * b| ≤ u * |a * b|
  div : ∀ a b, |A.div a b - a / b| ≤ u * |a / b|

end Sdf.Fp
