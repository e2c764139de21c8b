import Mathlib.Data.Real.Basic

/-! What is asked of a smooth minimum. -/

namespace Sdf

/-- A valid blend: symmetric, never above the minimum, below it by at most `depth`, growing with either argument, and
moving by at most the larger of the changes of its arguments (so that it does not overestimate distances). -/
structure Blend (f : ℝ → ℝ → ℝ) (depth : ℝ) : Prop where
  symm : ∀ a b, f a b = f b a
  le_min : ∀ a b, f a b ≤ min a b
  depth_le : ∀ a b, min a b - depth ≤ f a b
  mono : ∀ a a' b b', a ≤ a' → b ≤ b' → f a b ≤ f a' b'
  lip : ∀ a a' b b', |f a b - f a' b'| ≤ max |a - a'| |b - b'|

/-- A valid blend of maxima: with the signs of arguments and value changed it is a valid blend of minima. -/
def BlendMax (g : ℝ → ℝ → ℝ) (depth : ℝ) : Prop := Blend (fun a b => -g (-a) (-b)) depth

end Sdf
