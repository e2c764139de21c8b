import Verif.Model.Raycast
import Verif.Lemmas.Revolve
import Mathlib.Analysis.SpecialFunctions.Log.Deriv
import Mathlib.Analysis.Complex.ExponentialBounds

/-!
C37: ray casting.  Without the sigmoid every claim holds (`C37_safe_partial`, `C37_result`, `C37_stops`,
`C37_failure`); with it a step can be up to five times the distance, and the ray can pass through the surface
(`C37_sigmoid_unsafe`), unless the step scale is at most one fifth (`C37_safe_sigmoid`).
-/

namespace Sdf

/-- The point at distance `t` along the ray. -/
noncomputable def rayAt (origin dir : V3) (t : ℝ) : V3 := V3.add origin (V3.scale t (V3.unit dir))

/-- A step never exceeds `c` times the value. -/
def StepsAtMost (scaleAndSigmoid stepScale : ℝ) : Prop := ∀ v, 0 ≤ v →
  0 ≤ rayDelta scaleAndSigmoid stepScale v ∧ rayDelta scaleAndSigmoid stepScale v ≤ v

theorem rayLoop_spec (s : SDF3) (origin dir : V3) (sig scale eps maxDist : ℝ) :
    ∀ (left steps : ℕ) (t : ℝ) (pos : V3) (trace : List ℝ), 1 ≤ left → pos = rayAt origin dir t →
      let r := rayLoop s (V3.unit dir) sig scale eps maxDist left steps t pos trace
      (∃ new : List ℝ, r.trace = trace ++ new ∧ 1 ≤ new.length ∧ new.length ≤ left ∧ new.head? = some t ∧
        (∀ x ∈ new.tail, x ≤ maxDist ∧ 0 ≤ x) ∧
        -- consecutive evaluations
        new.IsChain (fun a b => b = a + rayDelta sig scale |s.eval (rayAt origin dir a)| ∧ eps ≤ |s.eval (rayAt origin dir a)|) ∧
        ((∃ x, new.getLast? = some x ∧ r.t = x ∧ r.collision = rayAt origin dir x ∧ |s.eval r.collision| < eps ∧
            r.steps + 1 = steps + new.length) ∨
          (r.t = -1 ∧ r.collision = ⟨0, 0, 0⟩ ∧ r.steps = steps + new.length ∧ ∃ x, new.getLast? = some x ∧
            eps ≤ |s.eval (rayAt origin dir x)| ∧
            (new.length = left ∨ maxDist < x + rayDelta sig scale |s.eval (rayAt origin dir x)| ∨
              x + rayDelta sig scale |s.eval (rayAt origin dir x)| < 0)))) := by
  intro left
  induction left with
  | zero => intro _ _ _ _ h; omega
  | succ left ih =>
    intro steps t pos trace _ hpos
    simp only
    unfold rayLoop
    simp only
    by_cases h1 : |s.eval pos| < eps
    · rw [if_pos h1]
      refine ⟨[t], rfl, by simp, by simp, rfl, by simp, by simp, .inl ⟨t, rfl, rfl, hpos, h1, rfl⟩⟩
    · rw [if_neg h1]
      push Not at h1
      rw [hpos] at h1
      by_cases h2 : left = 0
      · rw [if_pos h2]
        refine ⟨[t], rfl, by simp, by simp, rfl, by simp, by simp, .inr ⟨rfl, rfl, rfl, t, rfl, h1, .inl (by simp [h2])⟩⟩
      · rw [if_neg h2]
        set δ := rayDelta sig scale |s.eval pos| with hδ
        by_cases h3 : t + δ < 0 ∨ t + δ > maxDist
        · rw [if_pos h3]
          refine ⟨[t], rfl, by simp, by simp, rfl, by simp, by simp, .inr ⟨rfl, rfl, rfl, t, rfl, h1, .inr ?_⟩⟩
          rw [← hpos]
          tauto
        · rw [if_neg h3]
          push Not at h3
          have hpos' : V3.add pos (V3.scale δ (V3.unit dir)) = rayAt origin dir (t + δ) := by
            rw [hpos]; unfold rayAt; ext <;> simp only [V3.add, V3.scale] <;> ring
          obtain ⟨new, e1, e2, e3, e4, e5, e6, e7⟩ := ih (steps + 1) (t + δ) _ (trace ++ [t]) (by omega) hpos'
          obtain ⟨hd, tl, rfl⟩ : ∃ hd tl, new = hd :: tl := by
            cases new with
            | nil => simp at e2
            | cons hd tl => exact ⟨hd, tl, rfl⟩
          simp only [List.head?_cons, Option.some.injEq] at e4
          subst e4
          refine ⟨t :: (t + δ) :: tl, by rw [e1, List.append_assoc]; rfl, by simp, ?_, rfl, ?_, ?_, ?_⟩
          · simp only [List.length_cons] at e3 ⊢; omega
          · intro x hx
            rcases List.mem_cons.mp hx with rfl | hx
            · exact ⟨h3.2, h3.1⟩
            · exact e5 x hx
          · rw [List.isChain_cons_cons]
            exact ⟨⟨by rw [hδ, hpos], h1⟩, e6⟩
          · rcases e7 with ⟨x, a1, a2, a3, a4, a5⟩ | ⟨a1, a2, a3, x, a4, a5, a6⟩
            · refine .inl ⟨x, by rw [List.getLast?_cons_cons]; exact a1, a2, a3, a4, ?_⟩
              simp only [List.length_cons] at a5 ⊢; omega
            · refine .inr ⟨a1, a2, ?_, x, by rw [List.getLast?_cons_cons]; exact a4, a5, ?_⟩
              · simp only [List.length_cons] at a3 ⊢; omega
              · rcases a6 with a6 | a6
                · left; simp only [List.length_cons] at a6 ⊢; omega
                · exact .inr a6

theorem raycast_spec (s : SDF3) (origin dir : V3) (sig scale eps maxDist : ℝ) (maxSteps : ℕ) (hm : 1 ≤ maxSteps) :
    let r := raycast3 s origin dir sig scale eps maxDist maxSteps
    1 ≤ r.trace.length ∧ r.trace.length ≤ maxSteps ∧ r.trace.head? = some 0 ∧
      (∀ x ∈ r.trace.tail, x ≤ maxDist ∧ 0 ≤ x) ∧
      r.trace.IsChain (fun a b => b = a + rayDelta sig scale |s.eval (rayAt origin dir a)| ∧ eps ≤ |s.eval (rayAt origin dir a)|) ∧
      ((∃ x, r.trace.getLast? = some x ∧ r.t = x ∧ r.collision = rayAt origin dir x ∧ |s.eval r.collision| < eps ∧
          r.steps + 1 = r.trace.length) ∨
        (r.t = -1 ∧ r.collision = ⟨0, 0, 0⟩ ∧ r.steps = r.trace.length ∧ ∃ x, r.trace.getLast? = some x ∧
          eps ≤ |s.eval (rayAt origin dir x)| ∧
          (r.trace.length = maxSteps ∨ maxDist < x + rayDelta sig scale |s.eval (rayAt origin dir x)| ∨
            x + rayDelta sig scale |s.eval (rayAt origin dir x)| < 0))) := by
  have h0 : origin = rayAt origin dir 0 := by unfold rayAt; ext <;> simp [V3.add, V3.scale]
  obtain ⟨new, e1, e2, e3, e4, e5, e6, e7⟩ := rayLoop_spec s origin dir sig scale eps maxDist maxSteps 0 0 origin [] hm h0
  unfold raycast3
  simp only
  rw [List.nil_append] at e1
  rw [e1]
  refine ⟨e2, e3, e4, e5, e6, ?_⟩
  simpa only [Nat.zero_add] using e7

theorem head_getLast_mem {l : List ℝ} {a : ℝ} (h : l.head? = some a) {P : ℝ → Prop} (ha : P a)
    (ht : ∀ x ∈ l.tail, P x) : ∀ x ∈ l, P x := by
  cases l with
  | nil => simp at h
  | cons b l =>
    simp only [List.head?_cons, Option.some.injEq] at h
    subst h
    intro x hx
    rcases List.mem_cons.mp hx with rfl | hx
    · exact ha
    · exact ht x hx

/-- At most `maxSteps` evaluations are made, and the reported number of steps is at most that. -/
theorem C37_stops (s : SDF3) (origin dir : V3) (sig scale eps maxDist : ℝ) (maxSteps : ℕ) (hm : 1 ≤ maxSteps) :
    let r := raycast3 s origin dir sig scale eps maxDist maxSteps
    r.trace.length ≤ maxSteps ∧ r.steps ≤ r.trace.length := by
  obtain ⟨_, e3, _, _, _, e7⟩ := raycast_spec s origin dir sig scale eps maxDist maxSteps hm
  refine ⟨e3, ?_⟩
  rcases e7 with ⟨_, _, _, _, _, h⟩ | ⟨_, _, h, _⟩ <;> omega

/-- `t` is not negative exactly when a point was found; that point lies `t` along the ray, at most `maxDist` away unless
the ray starts on the surface, and the value there is below `epsilon` in magnitude.  Otherwise `t` is `-1`. -/
theorem C37_result (s : SDF3) (origin dir : V3) (sig scale eps maxDist : ℝ) (maxSteps : ℕ) (hm : 1 ≤ maxSteps) :
    let r := raycast3 s origin dir sig scale eps maxDist maxSteps
    (0 ≤ r.t → r.collision = rayAt origin dir r.t ∧ |s.eval r.collision| < eps ∧ (r.t = 0 ∨ r.t ≤ maxDist)) ∧
    (r.t < 0 → r.t = -1 ∧ ∀ x ∈ r.trace, eps ≤ |s.eval (rayAt origin dir x)|) ∧
    (0 ≤ r.t ↔ ∃ x ∈ r.trace, |s.eval (rayAt origin dir x)| < eps) := by
  obtain ⟨e2, e3, e4, e5, e6, e7⟩ := raycast_spec s origin dir sig scale eps maxDist maxSteps hm
  simp only
  generalize raycast3 s origin dir sig scale eps maxDist maxSteps = r at *
  have hall : ∀ x ∈ r.trace, x = 0 ∨ (x ≤ maxDist ∧ 0 ≤ x) :=
    head_getLast_mem e4 (.inl rfl) fun x hx => .inr (e5 x hx)
  rcases e7 with ⟨x, a1, a2, a3, a4, a5⟩ | ⟨a1, a2, a3, x, a4, a5, a6⟩
  · have hx : x ∈ r.trace := List.mem_of_getLast? a1
    have h0 : 0 ≤ r.t := by rw [a2]; rcases hall x hx with h | h <;> [exact h.ge; exact h.2]
    refine ⟨fun _ => ⟨by rw [a3, a2], a4, ?_⟩, fun h => absurd h (not_lt.mpr h0), ?_⟩
    · rw [a2]; rcases hall x hx with h | h <;> [exact .inl h; exact .inr h.1]
    · exact ⟨fun _ => ⟨x, hx, by rw [← a3]; exact a4⟩, fun _ => h0⟩
  · have hfar : ∀ y ∈ r.trace, eps ≤ |s.eval (rayAt origin dir y)| := by
      have : ∀ l : List ℝ, l.IsChain (fun a b => b = a + rayDelta sig scale |s.eval (rayAt origin dir a)| ∧
          eps ≤ |s.eval (rayAt origin dir a)|) → l.getLast? = some x → ∀ y ∈ l, eps ≤ |s.eval (rayAt origin dir y)| := by
        intro l
        induction l with
        | nil => simp
        | cons a l ih =>
          intro hc hl y hy
          cases l with
          | nil =>
            simp only [List.getLast?_singleton, Option.some.injEq] at hl
            simp only [List.mem_singleton] at hy
            rw [hy, hl]; exact a5
          | cons b l =>
            rw [List.isChain_cons_cons] at hc
            rw [List.getLast?_cons_cons] at hl
            rcases List.mem_cons.mp hy with rfl | hy
            · exact hc.1.2
            · exact ih hc.2 hl y hy
      exact this r.trace e6 a4
    refine ⟨fun h => by rw [a1] at h; norm_num at h, fun _ => ⟨a1, hfar⟩, ⟨fun h => by rw [a1] at h; norm_num at h, ?_⟩⟩
    rintro ⟨y, hy, h⟩
    exact absurd h (not_lt.mpr (hfar y hy))

theorem rayAt_dist {dir : V3} (hd : dir ≠ ⟨0, 0, 0⟩) (origin : V3) (a b : ℝ) :
    V3.dist (rayAt origin dir a) (rayAt origin dir b) = |a - b| := by
  have : V3.sub (rayAt origin dir a) (rayAt origin dir b) = V3.scale (a - b) (V3.unit dir) := by
    unfold rayAt; ext <;> simp only [V3.sub, V3.add, V3.scale] <;> ring
  rw [V3.dist, this, V3.norm_scale, V3.norm_unit hd, mul_one]

/-- Whenever steps never exceed the distance, no evaluation lies beyond a point of the ray where the surface is met. -/
theorem safe_of_steps (s : SDF3) (hl : Lip3 s.eval) (origin dir : V3) (hd : dir ≠ ⟨0, 0, 0⟩) (sig scale eps maxDist : ℝ)
    (hstep : StepsAtMost sig scale) (maxSteps : ℕ) (hm : 1 ≤ maxSteps) (c : ℝ) (hc : 0 ≤ c)
    (hz : s.eval (rayAt origin dir c) = 0) :
    let r := raycast3 s origin dir sig scale eps maxDist maxSteps
    (∀ x ∈ r.trace, x ≤ c) ∧ (r.t < 0 → r.trace.length = maxSteps ∨ maxDist < c) := by
  obtain ⟨e2, e3, e4, e5, e6, e7⟩ := raycast_spec s origin dir sig scale eps maxDist maxSteps hm
  simp only
  generalize raycast3 s origin dir sig scale eps maxDist maxSteps = r at *
  have step : ∀ a, a ≤ c → a + rayDelta sig scale |s.eval (rayAt origin dir a)| ≤ c := by
    intro a ha
    have h1 := (hstep _ (abs_nonneg (s.eval (rayAt origin dir a)))).2
    have h2 := hl (rayAt origin dir a) (rayAt origin dir c)
    rw [hz, sub_zero, rayAt_dist hd, abs_sub_comm a c, abs_of_nonneg (show 0 ≤ c - a by linarith)] at h2
    linarith
  have all : ∀ l : List ℝ, l.IsChain (fun a b => b = a + rayDelta sig scale |s.eval (rayAt origin dir a)| ∧
      eps ≤ |s.eval (rayAt origin dir a)|) → ∀ a, l.head? = some a → a ≤ c → ∀ x ∈ l, x ≤ c := by
    intro l
    induction l with
    | nil => simp
    | cons a l ih =>
      intro hch a' ha' hac x hx
      simp only [List.head?_cons, Option.some.injEq] at ha'
      subst ha'
      rcases List.mem_cons.mp hx with rfl | hx
      · exact hac
      · cases l with
        | nil => simp at hx
        | cons b l =>
          rw [List.isChain_cons_cons] at hch
          refine ih hch.2 b rfl ?_ x hx
          rw [hch.1.1]; exact step a hac
  have hall := all r.trace e6 0 e4 hc
  refine ⟨hall, fun ht => ?_⟩
  rcases e7 with ⟨x, a1, a2, a3, a4, a5⟩ | ⟨a1, a2, a3, x, a4, a5, a6⟩
  · have hx : x ∈ r.trace := List.mem_of_getLast? a1
    have hall' : ∀ x ∈ r.trace, 0 ≤ x := head_getLast_mem e4 le_rfl fun x hx => (e5 x hx).2
    have := hall' x hx
    rw [a2] at ht; linarith
  · have hx : x ∈ r.trace := List.mem_of_getLast? a4
    have hall' : ∀ x ∈ r.trace, 0 ≤ x := head_getLast_mem e4 le_rfl fun x hx => (e5 x hx).2
    rcases a6 with a6 | a6 | a6
    · exact .inl a6
    · exact .inr (lt_of_lt_of_le a6 (step x (hall x hx)))
    · have := (hstep _ (abs_nonneg (s.eval (rayAt origin dir x)))).1
      linarith [hall' x hx]

/-- Without the sigmoid and with a step scale in `(0, 1]`, on a 1-Lipschitz shape: the ray is never evaluated beyond the
first point where it meets the surface, and a surface within `maxDist` is missed only by running out of steps. -/
theorem C37_safe_partial (s : SDF3) (hl : Lip3 s.eval) (origin dir : V3) (hd : dir ≠ ⟨0, 0, 0⟩)
    (sig scale eps maxDist : ℝ) (hsig : sig ≤ 0) (h0 : 0 < scale) (h1 : scale ≤ 1) (maxSteps : ℕ) (hm : 1 ≤ maxSteps)
    (c : ℝ) (hc : 0 ≤ c) (hz : s.eval (rayAt origin dir c) = 0) :
    let r := raycast3 s origin dir sig scale eps maxDist maxSteps
    (∀ x ∈ r.trace, x ≤ c) ∧ (r.t < 0 → r.trace.length = maxSteps ∨ maxDist < c) := by
  refine safe_of_steps s hl origin dir hd sig scale eps maxDist ?_ maxSteps hm c hc hz
  intro v hv
  unfold rayDelta
  rw [if_neg (not_lt.mpr hsig)]
  exact ⟨by positivity, by nlinarith⟩

/-- The sigmoid of ten times the value is at most five times the value. -/
theorem sigmoid_le (v : ℝ) (hv : 0 ≤ v) : 0 ≤ sigmoidScaled (v * 10) ∧ sigmoidScaled (v * 10) ≤ 5 * v := by
  unfold sigmoidScaled
  have hpos : 0 < Real.exp (-(v * 10)) := Real.exp_pos _
  have hle : Real.exp (-(v * 10)) ≤ 1 := Real.exp_le_one_iff.mpr (by linarith)
  have hge : 1 - 10 * v ≤ Real.exp (-(v * 10)) := by linarith [Real.add_one_le_exp (-(v * 10))]
  constructor
  · rw [sub_nonneg, le_div_iff₀ (by positivity)]; linarith
  · rw [sub_le_iff_le_add, div_le_iff₀ (by positivity)]
    -- 2 ≤ (5v + 1)(1 + e): the tangent at zero lies above
    rcases le_or_gt 1 (5 * v) with h | h
    · nlinarith
    · -- e ≥ (1 - 5v)/(1 + 5v), since log((1+x)/(1-x)) ≥ 2x
      have hx0 : 0 ≤ 5 * v := by linarith
      have h1 : 0 < 1 - 5 * v := by linarith
      have key : (1 - 5 * v) ≤ (1 + 5 * v) * Real.exp (-(v * 10)) := by
        have hlog : 2 * (5 * v) ≤ Real.log ((1 + 5 * v) / (1 - 5 * v)) := by
          have hs := Real.hasSum_log_sub_log_of_abs_lt_one (x := 5 * v) (by rw [abs_of_nonneg hx0]; exact h)
          rw [Real.log_div (by positivity) h1.ne']
          rw [← hs.tsum_eq]
          have := hs.summable.sum_le_tsum (Finset.range 1) (fun i _ => by positivity)
          simpa using this
        have : Real.exp (v * 10) ≤ (1 + 5 * v) / (1 - 5 * v) := by
          rw [← Real.le_log_iff_exp_le (by positivity)]
          linarith
        rw [le_div_iff₀ h1] at this
        have e : Real.exp (v * 10) * Real.exp (-(v * 10)) = 1 := by rw [← Real.exp_add]; simp
        nlinarith
      linarith

/-- With the sigmoid the same holds for a step scale of at most one fifth. -/
theorem C37_safe_sigmoid (s : SDF3) (hl : Lip3 s.eval) (origin dir : V3) (hd : dir ≠ ⟨0, 0, 0⟩)
    (sig scale eps maxDist : ℝ) (hsig : 0 < sig) (h0 : 0 < scale) (h1 : scale ≤ 1 / 5) (maxSteps : ℕ) (hm : 1 ≤ maxSteps)
    (c : ℝ) (hc : 0 ≤ c) (hz : s.eval (rayAt origin dir c) = 0) :
    let r := raycast3 s origin dir sig scale eps maxDist maxSteps
    (∀ x ∈ r.trace, x ≤ c) ∧ (r.t < 0 → r.trace.length = maxSteps ∨ maxDist < c) := by
  refine safe_of_steps s hl origin dir hd sig scale eps maxDist ?_ maxSteps hm c hc hz
  intro v hv
  unfold rayDelta
  rw [if_pos hsig]
  obtain ⟨a, b⟩ := sigmoid_le v hv
  exact ⟨by positivity, by nlinarith⟩

/-- With the sigmoid and a step scale of one, the second evaluation can lie beyond the surface: the unit ball seen from
`(-1.1, 0, 0)`, the surface being at distance 0.1 and the step being 0.46. -/
theorem C37_sigmoid_unsafe : ∃ (s : SDF3) (origin dir : V3) (c : ℝ), Lip3 s.eval ∧ dir ≠ ⟨0, 0, 0⟩ ∧ 0 ≤ c ∧
    s.eval (rayAt origin dir c) = 0 ∧ ∃ x ∈ (raycast3 s origin dir 1 1 0.001 10 2).trace, c < x := by
  let s : SDF3 := ⟨fun p => V3.norm p - 1, ⟨⟨-1, -1, -1⟩, ⟨1, 1, 1⟩⟩⟩
  have hu : V3.unit ⟨1, 0, 0⟩ = ⟨1, 0, 0⟩ := by
    have : V3.norm ⟨1, 0, 0⟩ = 1 := V3.norm_eq_of (by norm_num) (by norm_num)
    ext <;> simp [V3.unit, V3.scale, this]
  have hv : s.eval ⟨-1.1, 0, 0⟩ = 0.1 := by
    show V3.norm _ - 1 = 0.1
    rw [V3.norm_eq_of (a := ⟨-1.1, 0, 0⟩) (r := 1.1) (by norm_num) (by norm_num)]
    norm_num
  refine ⟨s, ⟨-1.1, 0, 0⟩, ⟨1, 0, 0⟩, 0.1, ?_, by simp, by norm_num, ?_, ?_⟩
  · intro p q
    have := V3.norm_sub_le p q
    simpa [s] using this
  · unfold rayAt
    rw [hu]
    show V3.norm _ - 1 = 0
    rw [V3.norm_eq_of (r := 1) (by norm_num) (by norm_num [V3.add, V3.scale])]
    norm_num
  · have he : Real.exp 1 ≥ 2.7 := by have := Real.exp_one_gt_d9; norm_num at this ⊢; linarith
    have hδ : 0.1 < sigmoidScaled (0.1 * 10) ∧ sigmoidScaled (0.1 * 10) ≤ 1 := by
      unfold sigmoidScaled
      rw [show (-(0.1 * 10) : ℝ) = -1 by norm_num, Real.exp_neg]
      have hi : (Real.exp 1)⁻¹ ≤ 0.4 := by
        rw [inv_le_comm₀ (Real.exp_pos _) (by norm_num)]; norm_num at he ⊢; linarith
      have hp : 0 < (Real.exp 1)⁻¹ := inv_pos.mpr (Real.exp_pos _)
      constructor
      · rw [lt_sub_iff_add_lt, lt_div_iff₀ (by positivity)]; norm_num at hi ⊢; linarith
      · rw [sub_le_iff_le_add, div_le_iff₀ (by positivity)]; linarith
    have hd : rayDelta 1 1 |s.eval ⟨-1.1, 0, 0⟩| = sigmoidScaled (0.1 * 10) := by
      unfold rayDelta
      rw [if_pos one_pos, hv, abs_of_pos (by norm_num), mul_one]
    refine ⟨sigmoidScaled (0.1 * 10), ?_, hδ.1⟩
    have h1 : ¬ |s.eval ⟨-1.1, 0, 0⟩| < 0.001 := by rw [hv]; norm_num
    have h2 : ¬ (0 + sigmoidScaled (0.1 * 10) < 0 ∨ 0 + sigmoidScaled (0.1 * 10) > 10) := by
      rw [zero_add]; push Not; constructor <;> linarith [hδ.1, hδ.2]
    unfold raycast3 rayLoop
    simp only [if_neg h1, hd, if_neg h2]
    rw [if_neg (by norm_num)]
    unfold rayLoop
    simp only
    split
    · simp
    · simp

/-- A lower bound of the sigmoid near zero. -/
theorem sigmoid_ge (v : ℝ) (hv : 0 ≤ v) : 5 * v / (1 + 5 * v) ≤ sigmoidScaled (v * 10) := by
  have he : 1 + v * 10 ≤ Real.exp (v * 10) := by have := Real.add_one_le_exp (v * 10); linarith
  unfold sigmoidScaled
  rw [Real.exp_neg, le_sub_iff_add_le, div_add_one (by positivity), div_le_div_iff₀ (by positivity) (by positivity)]
  have hi : (Real.exp (v * 10))⁻¹ * (1 + v * 10) ≤ 1 := by
    rw [inv_mul_le_iff₀ (Real.exp_pos _), mul_one]; exact he
  nlinarith

/-- With the sigmoid, the step scales for which no ray ever passes through a surface are exactly those up to `1/5`. -/
theorem C37_sigmoid_exact (sig scale : ℝ) (hsig : 0 < sig) (h0 : 0 < scale) :
    (∀ (s : SDF3), Lip3 s.eval → ∀ (origin dir : V3), dir ≠ ⟨0, 0, 0⟩ → ∀ (eps maxDist : ℝ) (maxSteps : ℕ), 0 < eps → 1 ≤ maxSteps →
      ∀ c : ℝ, 0 ≤ c → s.eval (rayAt origin dir c) = 0 → ∀ x ∈ (raycast3 s origin dir sig scale eps maxDist maxSteps).trace, x ≤ c) ↔
    scale ≤ 1 / 5 := by
  constructor
  swap
  · intro h1 s hl origin dir hd eps maxDist maxSteps _ hm c hc hz
    exact (C37_safe_sigmoid s hl origin dir hd sig scale eps maxDist hsig h0 h1 maxSteps hm c hc hz).1
  intro h
  by_contra hc
  push Not at hc
  set v : ℝ := (scale - 1 / 5) / 2 with hv
  have v0 : 0 < v := by rw [hv]; linarith
  let s : SDF3 := ⟨fun p => V3.norm p - 1, ⟨⟨-1, -1, -1⟩, ⟨1, 1, 1⟩⟩⟩
  have hu : V3.unit ⟨1, 0, 0⟩ = ⟨1, 0, 0⟩ := by
    have : V3.norm ⟨1, 0, 0⟩ = 1 := V3.norm_eq_of (by norm_num) (by norm_num)
    ext <;> simp [V3.unit, V3.scale, this]
  have hsv : s.eval ⟨-(1 + v), 0, 0⟩ = v := by
    show V3.norm _ - 1 = v
    rw [V3.norm_eq_of (a := ⟨-(1 + v), 0, 0⟩) (r := 1 + v) (by linarith) (by simp only; ring)]
    ring
  set δ := sigmoidScaled (v * 10) * scale with hδ
  have hδv : v < δ := by
    have h1 := sigmoid_ge v v0.le
    have h2 : v < 5 * v / (1 + 5 * v) * scale := by
      rw [div_mul_eq_mul_div, lt_div_iff₀ (by linarith)]
      have h3 : scale = 2 * v + 1 / 5 := by rw [hv]; ring
      rw [h3]
      nlinarith
    exact h2.trans_le (mul_le_mul_of_nonneg_right h1 h0.le)
  have hx := h s (fun p q => by have := V3.norm_sub_le p q; simpa [s] using this) ⟨-(1 + v), 0, 0⟩ ⟨1, 0, 0⟩ (by simp) v δ 2 v0 (by norm_num) v v0.le
    (by
      unfold rayAt
      rw [hu]
      show V3.norm _ - 1 = 0
      rw [V3.norm_eq_of (r := 1) (by norm_num) (by simp [V3.add, V3.scale])]
      norm_num) δ (by
      have hd : rayDelta sig scale |s.eval ⟨-(1 + v), 0, 0⟩| = δ := by
        unfold rayDelta
        rw [if_pos hsig, hsv, abs_of_pos v0]
      have h1 : ¬ |s.eval ⟨-(1 + v), 0, 0⟩| < v := by rw [hsv, abs_of_pos v0]; exact lt_irrefl _
      have h2 : ¬ (0 + δ < 0 ∨ 0 + δ > δ) := by
        rw [zero_add]; push Not; exact ⟨by linarith, le_rfl⟩
      unfold raycast3 rayLoop
      simp only [if_neg h1, hd, if_neg h2]
      rw [if_neg (by norm_num)]
      unfold rayLoop
      simp only
      split
      · simp
      · simp)
  linarith

/-- The plane version, for `epsilon ≤ 1/2` (it casts against an extrusion of height one): when it finds a point, that
point lies on the ray, `t` along it, and the figure's value there is below `epsilon` in magnitude. -/
theorem C37_raycast2 (s : SDF2) (origin dir : V2) (_hd : dir ≠ ⟨0, 0⟩) (sig scale eps maxDist : ℝ) (heps : eps ≤ 1 / 2)
    (maxSteps : ℕ) (hm : 1 ≤ maxSteps) :
    let r := raycast2 s origin dir sig scale eps maxDist maxSteps
    (0 ≤ r.2.1 → r.1 = V2.add origin (V2.scale r.2.1 (V2.unit dir)) ∧ |s.eval r.1| < eps) ∧
    (r.2.1 < 0 → r.2.1 = -1) ∧ r.2.2 ≤ maxSteps := by
  obtain ⟨h1, h2, -⟩ := C37_result (SDF3.extrude s 1) ⟨origin.x, origin.y, 0⟩ ⟨dir.x, dir.y, 0⟩ sig scale eps maxDist maxSteps hm
  obtain ⟨h3, h4⟩ := C37_stops (SDF3.extrude s 1) ⟨origin.x, origin.y, 0⟩ ⟨dir.x, dir.y, 0⟩ sig scale eps maxDist maxSteps hm
  unfold raycast2
  simp only at h1 h2 h3 h4 ⊢
  generalize raycast3 (SDF3.extrude s 1) ⟨origin.x, origin.y, 0⟩ ⟨dir.x, dir.y, 0⟩ sig scale eps maxDist maxSteps = r at *
  refine ⟨fun h => ?_, fun h => (h2 h).1, h4.trans h3⟩
  obtain ⟨a1, a2, -⟩ := h1 h
  have hz : r.collision.z = 0 := by rw [a1]; simp [rayAt, V3.add, V3.scale, V3.unit]
  have hn : V3.norm ⟨dir.x, dir.y, 0⟩ = V2.norm dir := V3.norm_eq_of (V2.norm_nonneg _) (by
    rw [V2.norm_sq]; simp)
  constructor
  · rw [a1]
    ext <;> simp only [rayAt, V3.add, V3.scale, V3.unit, V2.add, V2.scale, V2.unit, hn]
  · have he : (SDF3.extrude s 1).eval r.collision = max (s.eval ⟨r.collision.x, r.collision.y⟩) (-(1 / 2)) := by
      show max _ (|r.collision.z| - 1 / 2) = _
      rw [hz, abs_zero, zero_sub]; rfl
    rw [he] at a2
    rcases le_total (s.eval ⟨r.collision.x, r.collision.y⟩) (-(1 / 2)) with h | h
    · rw [max_eq_right h, abs_neg, abs_of_pos (by norm_num)] at a2
      linarith
    · rw [max_eq_left h] at a2
      exact a2

/-! Non-vacuity: a ray that meets the unit ball. -/
example : ∃ c, 0 ≤ c ∧ (fun p => V3.norm p - 1) (rayAt ⟨-3, 0, 0⟩ ⟨1, 0, 0⟩ c) = 0 := by
  refine ⟨2, by norm_num, ?_⟩
  have : V3.norm ⟨1, 0, 0⟩ = 1 := V3.norm_eq_of (by norm_num) (by norm_num)
  simp only [rayAt, V3.unit, this]
  rw [V3.norm_eq_of (r := 1) (by norm_num) (by norm_num [V3.add, V3.scale])]
  norm_num

end Sdf
