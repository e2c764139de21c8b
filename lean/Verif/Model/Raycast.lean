import Verif.Model.Combine3
import Mathlib.Analysis.SpecialFunctions.Exp

/-!
Ray casting: /repo/utils.go:252-301, and the sampled normals at 305-324.
-/

namespace Sdf

/-- /repo/utils.go:254-256 `sigmoidScaled`. -/
noncomputable def sigmoidScaled (x : ℝ) : ℝ := 2 / (1 + Real.exp (-x)) - 1

/-- The result of `raycast3`: the collision point (the zero vector when there is none), the distance travelled (`-1` when
there is no collision) and the number of steps.  `trace` is not in the code: the distances along the ray at which the
shape was evaluated, in order. -/
structure Raycast where
  collision : V3
  t : ℝ
  steps : ℕ
  trace : List ℝ

/-- The length of the step made from a point of value `val ≥ 0`, /repo/utils.go:281-284. -/
noncomputable def rayDelta (scaleAndSigmoid stepScale val : ℝ) : ℝ :=
  open Classical in (if scaleAndSigmoid > 0 then sigmoidScaled (val * 10) else val) * stepScale

open Classical in
/-- The loop at /repo/utils.go:269-291.  `left` is `maxSteps - steps`, so `steps == maxSteps` after the increment is
`left = 1` before it. -/
noncomputable def rayLoop (s : SDF3) (dirN : V3) (scaleAndSigmoid stepScale epsilon maxDist : ℝ) :
    ℕ → ℕ → ℝ → V3 → List ℝ → Raycast
  | 0, steps, _, _, trace => ⟨⟨0, 0, 0⟩, -1, steps, trace⟩
  | left + 1, steps, t, pos, trace =>
    let val := |s.eval pos|
    if val < epsilon then ⟨pos, t, steps, trace ++ [t]⟩
    else if left = 0 then ⟨⟨0, 0, 0⟩, -1, steps + 1, trace ++ [t]⟩
    else
      let delta := rayDelta scaleAndSigmoid stepScale val
      let t' := t + delta
      let pos := V3.add pos (V3.scale delta dirN)
      if t' < 0 ∨ t' > maxDist then ⟨⟨0, 0, 0⟩, -1, steps + 1, trace ++ [t]⟩
      else rayLoop s dirN scaleAndSigmoid stepScale epsilon maxDist left (steps + 1) t' pos (trace ++ [t])

/-- /repo/utils.go:265-294 `raycast3`, for `maxSteps ≥ 1` (with `maxSteps ≤ 0` the step count never equals it) and a
direction other than zero (whose unit vector is not a number). -/
noncomputable def raycast3 (s : SDF3) (origin dir : V3) (scaleAndSigmoid stepScale epsilon maxDist : ℝ) (maxSteps : ℕ) : Raycast :=
  rayLoop s (V3.unit dir) scaleAndSigmoid stepScale epsilon maxDist maxSteps 0 0 origin []

/-- /repo/utils.go:297-300 `raycast2`. -/
noncomputable def raycast2 (s : SDF2) (origin dir : V2) (scaleAndSigmoid stepScale epsilon maxDist : ℝ) (maxSteps : ℕ) :
    V2 × ℝ × ℕ :=
  let r := raycast3 (SDF3.extrude s 1) ⟨origin.x, origin.y, 0⟩ ⟨dir.x, dir.y, 0⟩ scaleAndSigmoid stepScale epsilon maxDist maxSteps
  (⟨r.collision.x, r.collision.y⟩, r.t, r.steps)

end Sdf
