import Verif.Props.C26Extrude
import Verif.Props.C18Primitives

/-! C48: a loft turns its first figure into its second. -/

namespace Sdf

/-- The blend of the values of two figures at the height `z` of a loft whose straight part reaches from `-h` to `h`: the first figure at
and below the bottom, the second at and above the top, and linear between. -/
def LoftBlend (s0 s1 : SDF2) (h z : ℝ) (q : V2) (v : ℝ) : Prop :=
  (z ≤ -h → v = s0.eval q) ∧ (h ≤ z → v = s1.eval q) ∧
  (-h ≤ z → z ≤ h → v = ((h - z) * s0.eval q + (h + z) * s1.eval q) / (2 * h))

theorem loft_eval (s0 s1 : SDF2) {height round : ℝ} (hr : 0 ≤ round) (hh : 2 * round < height) (p : V3) :
    ∃ v, LoftBlend s0 s1 (height / 2 - round) p.z ⟨p.x, p.y⟩ v ∧
      (SDF3.loft s0 s1 height round).eval p = SDF3.roundJoin v (|p.z| - (height / 2 - round)) - round := by
  have h0 : 0 < height / 2 - round := by linarith
  set h := height / 2 - round with hd
  refine ⟨mix (s0.eval ⟨p.x, p.y⟩) (s1.eval ⟨p.x, p.y⟩) (clamp (0.5 * p.z / h + 0.5) 0 1), ?_, ?_⟩
  · have e : (0.5 : ℝ) * p.z / h + 0.5 = (p.z + h) / (2 * h) := by
      norm_num
      field_simp
    rw [e]
    refine ⟨fun hz => ?_, fun hz => ?_, fun ha hb => ?_⟩
    · have hc : clamp ((p.z + h) / (2 * h)) 0 1 = 0 := by
        unfold clamp
        rcases hz.lt_or_eq with hz | hz
        · rw [if_pos (div_neg_of_neg_of_pos (by linarith) (by linarith))]
        · rw [hz]; norm_num
      rw [hc]
      simp [mix]
    · have hc : clamp ((p.z + h) / (2 * h)) 0 1 = 1 := by
        unfold clamp
        rw [if_neg (not_lt.2 (div_nonneg (by linarith) (by linarith)))]
        rcases hz.lt_or_eq with hz | hz
        · rw [if_pos]
          rw [gt_iff_lt, lt_div_iff₀ (by linarith)]
          linarith
        · rw [← hz, show (h + h) / (2 * h) = 1 by field_simp; ring]
          norm_num
      rw [hc]
      simp [mix]
    · have hc : clamp ((p.z + h) / (2 * h)) 0 1 = (p.z + h) / (2 * h) := by
        unfold clamp
        rw [if_neg (not_lt.2 (div_nonneg (by linarith) (by linarith))), if_neg (not_lt.2 (by rw [div_le_one (by linarith)]; linarith))]
      rw [hc]
      unfold mix
      field_simp
      ring
  · unfold SDF3.loft
    rw [if_neg (by linarith), if_neg (by linarith), if_neg (by linarith)]

/-- A loft without rounding: the points between the end planes where the blend of the figures' values, weighted by the height, is
negative. -/
theorem C48_section (s0 s1 : SDF2) (height : ℝ) (hh : 0 < height) (p : V3) :
    (SDF3.loft s0 s1 height 0).Inside p ↔ |p.z| < height / 2 ∧
      (1 / 2 - p.z / height) * s0.eval ⟨p.x, p.y⟩ + (1 / 2 + p.z / height) * s1.eval ⟨p.x, p.y⟩ < 0 := by
  obtain ⟨v, ⟨-, -, hv⟩, he⟩ := loft_eval s0 s1 le_rfl (by linarith : 2 * 0 < height) p
  rw [SDF3.Inside, he, sub_zero]
  rw [sub_zero] at hv ⊢
  have key : |p.z| ≤ height / 2 →
      v = (1 / 2 - p.z / height) * s0.eval ⟨p.x, p.y⟩ + (1 / 2 + p.z / height) * s1.eval ⟨p.x, p.y⟩ := by
    intro h
    have := abs_le.1 h
    rw [hv this.1 this.2]
    field_simp
  unfold SDF3.roundJoin
  split_ifs with h1 h2 h3
  · constructor
    · intro h; linarith
    · rintro ⟨h, -⟩; linarith
  · constructor
    · intro h; exact absurd h (not_lt.2 (Real.sqrt_nonneg _))
    · rintro ⟨h, -⟩; linarith
  · rw [max_lt_iff, ← key (by linarith)]
    constructor
    · rintro ⟨-, h⟩; exact ⟨by linarith, h3⟩
    · rintro ⟨h, -⟩; exact ⟨h3, by linarith⟩
  · rw [← key (by linarith)]
    constructor
    · intro h; exact absurd h h3
    · rintro ⟨-, h⟩; exact h

/-- The end faces of a loft are its figures: the first at the bottom, the second at the top.  (Not strictly outside is meant; the end
planes themselves are the boundary.) -/
theorem C48_ends (s0 s1 : SDF2) (height : ℝ) (hh : 0 < height) (q : V2) :
    ((SDF3.loft s0 s1 height 0).eval ⟨q.x, q.y, -(height / 2)⟩ ≤ 0 ↔ s0.eval q ≤ 0) ∧
    ((SDF3.loft s0 s1 height 0).eval ⟨q.x, q.y, height / 2⟩ ≤ 0 ↔ s1.eval q ≤ 0) := by
  have join : ∀ v : ℝ, SDF3.roundJoin v 0 ≤ 0 ↔ v ≤ 0 := by
    intro v
    unfold SDF3.roundJoin
    rw [if_neg (lt_irrefl _)]
    split_ifs with h
    · rw [max_le_iff]; exact ⟨fun h => h.1, fun h => ⟨h, le_rfl⟩⟩
    · rfl
  constructor
  · obtain ⟨v, ⟨hv, -, -⟩, he⟩ := loft_eval s0 s1 le_rfl (by linarith : 2 * 0 < height) ⟨q.x, q.y, -(height / 2)⟩
    simp only [sub_zero, abs_neg, abs_of_pos (show 0 < height / 2 by linarith), sub_self] at he hv
    rw [he, join, hv le_rfl]
  · obtain ⟨v, ⟨-, hv, -⟩, he⟩ := loft_eval s0 s1 le_rfl (by linarith : 2 * 0 < height) ⟨q.x, q.y, height / 2⟩
    simp only [sub_zero, abs_of_pos (show 0 < height / 2 by linarith), sub_self] at he hv
    rw [he, join, hv le_rfl]

/-- A loft with rounding: over the straight part the sections are those of the unrounded loft of height `height - 2*round` grown by
`round`, and beyond it they are the end figure, running in along a quarter circle. -/
theorem C48_rounded (s0 s1 : SDF2) (height round : ℝ) (hr : 0 < round) (hh : 2 * round < height) (p : V3) :
    (|p.z| ≤ height / 2 - round → ((SDF3.loft s0 s1 height round).Inside p ↔
      (1 / 2 - p.z / (height - 2 * round)) * s0.eval ⟨p.x, p.y⟩ + (1 / 2 + p.z / (height - 2 * round)) * s1.eval ⟨p.x, p.y⟩ < round)) ∧
    (height / 2 - round < p.z → ((SDF3.loft s0 s1 height round).Inside p ↔ p.z < height / 2 ∧
      s1.eval ⟨p.x, p.y⟩ < Real.sqrt (round ^ 2 - (p.z - (height / 2 - round)) ^ 2))) ∧
    (p.z < -(height / 2 - round) → ((SDF3.loft s0 s1 height round).Inside p ↔ -(height / 2) < p.z ∧
      s0.eval ⟨p.x, p.y⟩ < Real.sqrt (round ^ 2 - (-p.z - (height / 2 - round)) ^ 2))) := by
  obtain ⟨v, ⟨h1, h2, h3⟩, he⟩ := loft_eval s0 s1 hr.le hh p
  rw [SDF3.Inside, he, sub_neg]
  have hpos : 0 < height / 2 - round := by linarith
  have out : ∀ b : ℝ, 0 < b → (SDF3.roundJoin v b < round ↔ b < round ∧ v < Real.sqrt (round ^ 2 - b ^ 2)) := by
    intro b hb
    unfold SDF3.roundJoin
    rw [if_pos hb]
    split_ifs with hv
    · exact ⟨fun h => ⟨h, lt_of_lt_of_le hv (Real.sqrt_nonneg _)⟩, fun h => h.1⟩
    · rw [not_lt] at hv
      rw [Real.lt_sqrt hv, Real.sqrt_lt' hr]
      constructor
      · intro h
        refine ⟨?_, by nlinarith⟩
        nlinarith
      · rintro ⟨-, h⟩
        nlinarith
  refine ⟨fun hz => ?_, fun hz => ?_, fun hz => ?_⟩
  · have ha := abs_le.1 hz
    have e : v = (1 / 2 - p.z / (height - 2 * round)) * s0.eval ⟨p.x, p.y⟩ + (1 / 2 + p.z / (height - 2 * round)) * s1.eval ⟨p.x, p.y⟩ := by
      rw [h3 ha.1 ha.2]
      have : height - 2 * round ≠ 0 := by linarith
      have : height / 2 - round ≠ 0 := hpos.ne'
      field_simp
    rw [← e]
    unfold SDF3.roundJoin
    rw [if_neg (by linarith)]
    split_ifs with hv
    · exact ⟨fun _ => by linarith, fun _ => max_lt (by linarith) (by linarith)⟩
    · rfl
  · rw [abs_of_pos (by linarith), out _ (by linarith), h2 hz.le]
    constructor
    · rintro ⟨a, b⟩; exact ⟨by linarith, b⟩
    · rintro ⟨a, b⟩; exact ⟨by linarith, b⟩
  · rw [abs_of_neg (by linarith), out _ (by linarith), h1 hz.le]
    constructor
    · rintro ⟨a, b⟩; exact ⟨by linarith, b⟩
    · rintro ⟨a, b⟩; exact ⟨by linarith, b⟩

/-- A loft from a figure to itself is its rounded extrusion, value for value. -/
theorem C48_same (s : SDF2) (height round : ℝ) (hr : 0 < round) (hh : 2 * round < height) (p : V3) :
    (SDF3.loft s s height round).eval p = (SDF3.extrudeRounded s height round).eval p := by
  obtain ⟨v, ⟨h1, h2, h3⟩, he⟩ := loft_eval s s hr.le hh p
  have hv : v = s.eval ⟨p.x, p.y⟩ := by
    rcases le_total p.z (-(height / 2 - round)) with h | h
    · exact h1 h
    · rcases le_total (height / 2 - round) p.z with h' | h'
      · exact h2 h'
      · rw [h3 h h']
        rw [div_eq_iff (by linarith)]
        ring
  rw [he, hv]
  unfold SDF3.extrudeRounded
  rw [if_neg hr.ne', if_neg (by linarith), if_neg (by linarith), if_neg (by linarith)]

/-- Dimensions that make no sense give a shape without any inside. -/
theorem C48_impossible (s0 s1 : SDF2) (height round : ℝ) (h : height ≤ 0 ∨ round < 0 ∨ height < 2 * round) (p : V3) :
    ¬ (SDF3.loft s0 s1 height round).Inside p := by
  have : SDF3.loft s0 s1 height round = SDF3.empty ⟨0, 0, 0⟩ := by
    unfold SDF3.loft
    split_ifs with h1 h2 h3
    · rfl
    · rfl
    · rfl
    · rcases h with h | h | h <;> contradiction
  rw [this, SDF3.Inside, SDF3.empty]
  exact not_lt.mpr maxFloat64_pos.le

/-- Half way up a loft from a disc of radius 1 to one of radius 3 the section is the disc of radius 2. -/
example : ∃ s0 s1, Must2.circle 1 = some s0 ∧ Must2.circle 3 = some s1 ∧
    ∀ x y : ℝ, (SDF3.loft s0 s1 4 0).Inside ⟨x, y, 0⟩ ↔ V2.norm ⟨x, y⟩ < 2 := by
  refine ⟨_, _, if_neg (by norm_num), if_neg (by norm_num), fun x y => ?_⟩
  rw [C48_section _ _ 4 (by norm_num)]
  norm_num
  constructor
  · intro h; linarith
  · intro h; linarith

end Sdf
