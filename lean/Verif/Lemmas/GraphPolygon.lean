import Verif.Lemmas.Winding
import Verif.Props.C31Polygon

/-!
Polygons that lie between the x axis and a chain of corners above it, as the profiles of screw threads do: what is inside along
a vertical line is found from where the line meets the outline.
-/

namespace Sdf
namespace Polygon
open Must2

/-- Two points joined by a segment that does not meet the outline are on the same side. -/
theorem same_side (v : List V2) (h : Proper v) (s : SDF2) (hs : Must2.polygon v = some s) (p q : V2)
    (hpath : ∀ t : ℝ, 0 ≤ t → t ≤ 1 → ¬ Outline v (V2.add p (V2.scale t (V2.sub q p)))) : s.eval p < 0 ↔ s.eval q < 0 := by
  have hp : ¬ Outline v p := by
    have := hpath 0 le_rfl zero_le_one
    rwa [show V2.add p (V2.scale 0 (V2.sub q p)) = p by ext <;> simp [V2.add, V2.scale]] at this
  have hq : ¬ Outline v q := by
    have := hpath 1 zero_le_one le_rfl
    rwa [show V2.add p (V2.scale 1 (V2.sub q p)) = q by ext <;> simp [V2.add, V2.scale, V2.sub]] at this
  obtain ⟨v0, c, hg, _, -, -⟩ := polygon_good v h s hs
  obtain ⟨w, hw, e1⟩ := C31_sign v h s hs p hp
  obtain ⟨w', hw', e2⟩ := C31_sign v h s hs q hq
  rw [e1, e2, C31_winding_unique v p w _ hw (hg.winding p hp).1, C31_winding_unique v q w' _ hw' (hg.winding q hq).1,
    hg.winding_const p q hpath]

theorem same_side_vertical (v : List V2) (h : Proper v) (s : SDF2) (hs : Must2.polygon v = some s) (x y y' : ℝ) (hy : y ≤ y')
    (hpath : ∀ t, y ≤ t → t ≤ y' → ¬ Outline v ⟨x, t⟩) : s.eval ⟨x, y⟩ < 0 ↔ s.eval ⟨x, y'⟩ < 0 := by
  refine same_side v h s hs _ _ fun t t0 t1 => ?_
  have e : V2.add (⟨x, y⟩ : V2) (V2.scale t (V2.sub ⟨x, y'⟩ ⟨x, y⟩)) = ⟨x, y + t * (y' - y)⟩ := by
    ext <;> simp [V2.add, V2.scale, V2.sub]
  rw [e]
  exact hpath _ (by nlinarith) (by nlinarith)

/-- Nothing of the outline above: outside. -/
theorem outside_above (v : List V2) (h : Proper v) (s : SDF2) (hs : Must2.polygon v = some s) (x y : ℝ)
    (hpath : ∀ t, y ≤ t → ¬ Outline v ⟨x, t⟩) : 0 < s.eval ⟨x, y⟩ := by
  set Y := max y (s.bounds.hi.y + 1) with hY
  have h1 : 0 < s.eval ⟨x, Y⟩ := by
    refine C31_outside v h s hs _ fun hc => ?_
    have := hc.2.2.2
    have h2 : s.bounds.hi.y + 1 ≤ Y := le_max_right _ _
    simp only at this
    linarith
  have h2 := same_side_vertical v h s hs x y Y (le_max_left _ _) fun t ht _ => hpath t ht
  have h3 : s.eval ⟨x, y⟩ ≠ 0 := fun h0 => hpath y le_rfl ((C31_zero v h s hs _).mp h0)
  rcases lt_or_gt_of_ne h3 with h4 | h4
  · exact absurd (h2.mp h4) (by linarith)
  · exact h4

/-- Nothing of the outline below: outside. -/
theorem outside_below (v : List V2) (h : Proper v) (s : SDF2) (hs : Must2.polygon v = some s) (x y : ℝ)
    (hpath : ∀ t, t ≤ y → ¬ Outline v ⟨x, t⟩) : 0 < s.eval ⟨x, y⟩ := by
  set Y := min y (s.bounds.lo.y - 1) with hY
  have h1 : 0 < s.eval ⟨x, Y⟩ := by
    refine C31_outside v h s hs _ fun hc => ?_
    have := hc.2.1
    have h2 : Y ≤ s.bounds.lo.y - 1 := min_le_right _ _
    simp only at this
    linarith
  have h2 := same_side_vertical v h s hs x Y y (min_le_left _ _) fun t _ ht => hpath t ht
  have h3 : s.eval ⟨x, y⟩ ≠ 0 := fun h0 => hpath y le_rfl ((C31_zero v h s hs _).mp h0)
  rcases lt_or_gt_of_ne h3 with h4 | h4
  · exact absurd (h2.mpr h4) (by linarith)
  · exact h4

/-- The crossings of a path. -/
noncomputable def wn (p : V2) (l : List V2) : ℤ := ((l.zip l.tail).map (segWn p)).sum

theorem wn_one (p a : V2) : wn p [a] = 0 := by simp [wn]

theorem wn_cons (p a b : V2) (l : List V2) : wn p (a :: b :: l) = segWn p (a, b) + wn p (b :: l) := by simp [wn]

theorem wn_append (p x : V2) (l1 l2 : List V2) : wn p (l1 ++ x :: l2) = wn p (l1 ++ [x]) + wn p (x :: l2) := by
  induction l1 with
  | nil => simp [wn_one]
  | cons a l1 ih =>
    cases l1 with
    | nil => simp [wn_cons, wn_one]
    | cons b l1 =>
      simp only [List.cons_append] at ih ⊢
      rw [wn_cons, wn_cons, ih]; ring

theorem wn_above (p : V2) : ∀ l : List V2, (∀ z ∈ l, p.y < z.y) → wn p l = 0
  | [], _ => by simp [wn]
  | [a], _ => wn_one p a
  | a :: b :: l, h => by
    rw [wn_cons, wn_above p (b :: l) fun z hz => h z (by simp [List.mem_cons.mp hz])]
    have ha := h a (by simp)
    have hb := h b (by simp)
    unfold segWn
    rw [if_neg (by intro h; linarith [h.1]), if_neg (by intro h; linarith [h.1])]; simp

/-- Just above the x axis, below all other corners: inside. -/
theorem inside_low (v chain : List V2) (a ya yb : ℝ) (hv : v = ⟨a, 0⟩ :: ⟨a, ya⟩ :: (chain ++ [⟨-a, yb⟩, ⟨-a, 0⟩])) (h : Proper v)
    (s : SDF2) (hs : Must2.polygon v = some s) (x y : ℝ) (hx : |x| < a) (hy : 0 < y) (hya : y < ya) (hyb : y < yb)
    (hc : ∀ z ∈ chain, y < z.y) : s.eval ⟨x, y⟩ < 0 := by
  obtain ⟨hx1, hx2⟩ := abs_lt.mp hx
  obtain ⟨v0, c, hg, -, he, -⟩ := polygon_good v h s hs
  have hsum : ((edges c).map (segWn ⟨x, y⟩)).sum = ((sides v).map (segWn ⟨x, y⟩)).sum := by
    rcases hg.sides_eq with h | h <;> rw [h]
    rw [List.map_append, List.sum_append]
    have : segWn ⟨x, y⟩ (v0, v0) = 0 := by
      unfold segWn
      rw [if_neg (by intro h; linarith [h.1, h.2.1]), if_neg (by intro h; linarith [h.1, h.2.1])]
    simp [this]
  have hone : ((sides v).map (segWn ⟨x, y⟩)).sum = 1 := by
    have : ((sides v).map (segWn ⟨x, y⟩)).sum = wn ⟨x, y⟩ (v ++ [⟨a, 0⟩]) := by
      rw [hv, sides_path]; rfl
    rw [this, hv]
    rw [show (⟨a, 0⟩ :: ⟨a, ya⟩ :: (chain ++ [⟨-a, yb⟩, ⟨-a, 0⟩]) ++ [⟨a, 0⟩] : List V2) =
      ⟨a, 0⟩ :: ⟨a, ya⟩ :: (chain ++ ⟨-a, yb⟩ :: [⟨-a, 0⟩, ⟨a, 0⟩]) by simp, wn_cons,
      show (⟨a, ya⟩ :: (chain ++ ⟨-a, yb⟩ :: [⟨-a, 0⟩, ⟨a, 0⟩]) : List V2) = (⟨a, ya⟩ :: chain) ++ ⟨-a, yb⟩ :: [⟨-a, 0⟩, ⟨a, 0⟩] by simp,
      wn_append, wn_above, wn_cons, wn_cons, wn_one]
    · have e1 : segWn ⟨x, y⟩ (⟨a, 0⟩, ⟨a, ya⟩) = 1 := by
        unfold segWn
        rw [if_pos]
        refine ⟨hy.le, hya, ?_⟩
        simp only [V2.cross, V2.sub]
        nlinarith
      have e2 : segWn ⟨x, y⟩ (⟨-a, yb⟩, ⟨-a, 0⟩) = 0 := by
        unfold segWn
        rw [if_neg (by intro h; have := h.1; simp only at this; linarith), if_neg]
        intro h
        have := h.2.2
        simp only [V2.cross, V2.sub] at this
        nlinarith
      have e3 : segWn ⟨x, y⟩ (⟨-a, 0⟩, ⟨a, 0⟩) = 0 := by
        unfold segWn
        rw [if_neg (by intro h; have := h.2.1; simp only at this; linarith),
          if_neg (by intro h; have := h.2.1; simp only at this; linarith)]
      rw [e1, e2, e3]; norm_num
    · intro z hz
      simp only [List.cons_append, List.mem_cons, List.mem_append, List.not_mem_nil, or_false] at hz
      rcases hz with rfl | hz | rfl
      · exact hya
      · exact hc z hz
      · exact hyb
  have hout : ¬ Outline v ⟨x, y⟩ := by
    rw [hv, outline_path]
    rintro ⟨e, he, hseg⟩
    rw [show (⟨a, 0⟩ :: ⟨a, ya⟩ :: (chain ++ [⟨-a, yb⟩, ⟨-a, 0⟩]) ++ [⟨a, 0⟩] : List V2) =
      ⟨a, 0⟩ :: ⟨a, ya⟩ :: (chain ++ ⟨-a, yb⟩ :: [⟨-a, 0⟩, ⟨a, 0⟩]) by simp] at he
    have hO : OnPath (⟨a, 0⟩ :: ⟨a, ya⟩ :: (chain ++ ⟨-a, yb⟩ :: [⟨-a, 0⟩, ⟨a, 0⟩])) ⟨x, y⟩ := ⟨e, he, hseg⟩
    rw [onPath_cons,
      show (⟨a, ya⟩ :: (chain ++ ⟨-a, yb⟩ :: [⟨-a, 0⟩, ⟨a, 0⟩]) : List V2) = (⟨a, ya⟩ :: chain) ++ ⟨-a, yb⟩ :: [⟨-a, 0⟩, ⟨a, 0⟩] by simp,
      onPath_append, onPath_cons, onPath_cons] at hO
    rcases hO with ⟨t, t0, t1, ht⟩ | hO | ⟨t, t0, t1, ht⟩ | ⟨t, t0, t1, ht⟩ | hO
    · have := congrArg V2.x ht
      simp only [V2.add, V2.scale, V2.sub] at this
      linarith
    · obtain ⟨e, he, t, t0, t1, ht⟩ := hO
      have hm := List.of_mem_zip he
      have hy' : ∀ z ∈ (⟨a, ya⟩ :: chain ++ [⟨-a, yb⟩] : List V2), y < z.y := by
        intro z hz
        simp only [List.cons_append, List.mem_cons, List.mem_append, List.not_mem_nil, or_false] at hz
        rcases hz with rfl | hz | rfl
        · exact hya
        · exact hc z hz
        · exact hyb
      have h1 := hy' _ hm.1
      have h2 := hy' _ (List.mem_of_mem_tail hm.2)
      have := congrArg V2.y ht
      simp only [V2.add, V2.scale, V2.sub] at this
      have k1 := mul_nonneg (sub_nonneg.mpr t1) (sub_pos.mpr h1).le
      have k2 := mul_nonneg t0 (sub_pos.mpr h2).le
      rcases le_or_gt t (1 / 2) with h | h
      · have := mul_pos (show 0 < 1 - t by linarith) (sub_pos.mpr h1)
        nlinarith
      · have := mul_pos (show 0 < t by linarith) (sub_pos.mpr h2)
        nlinarith
    · have := congrArg V2.x ht
      simp only [V2.add, V2.scale, V2.sub] at this
      linarith
    · have := congrArg V2.y ht
      simp only [V2.add, V2.scale, V2.sub] at this
      linarith
    · exact onPath_one _ _ hO
  obtain ⟨w, hw, e1⟩ := C31_sign v h s hs _ hout
  rw [e1, C31_winding_unique v _ w _ hw (hg.winding _ hout).1, hsum, hone]
  norm_num

/-- Between the x axis and the outline above it: inside. -/
theorem inside_between (v chain : List V2) (a ya yb : ℝ) (hv : v = ⟨a, 0⟩ :: ⟨a, ya⟩ :: (chain ++ [⟨-a, yb⟩, ⟨-a, 0⟩])) (h : Proper v)
    (s : SDF2) (hs : Must2.polygon v = some s) (hya : 0 < ya) (hyb : 0 < yb) (hc : ∀ z ∈ chain, 0 < z.y)
    (x y : ℝ) (hx : |x| < a) (hy : 0 < y) (hpath : ∀ t, 0 < t → t ≤ y → ¬ Outline v ⟨x, t⟩) : s.eval ⟨x, y⟩ < 0 := by
  obtain ⟨ε, he, h1, h2, h3, h4⟩ : ∃ ε, 0 < ε ∧ ε ≤ y ∧ ε < ya ∧ ε < yb ∧ ∀ z ∈ chain, ε < z.y := by
    clear hv
    induction chain with
    | nil =>
      refine ⟨min y (min ya yb) / 2, ?_, ?_, ?_, ?_, by simp⟩
      · have : 0 < min y (min ya yb) := lt_min hy (lt_min hya hyb)
        linarith
      all_goals
        have h0 : 0 < min y (min ya yb) := lt_min hy (lt_min hya hyb)
        have h1 := min_le_left y (min ya yb)
        have h2 := min_le_right y (min ya yb)
        have h3 := min_le_left ya yb
        have h4 := min_le_right ya yb
        linarith
    | cons z l ih =>
      obtain ⟨ε, he, h1, h2, h3, h4⟩ := ih fun z hz => hc z (by simp [hz])
      have hz := hc z (by simp)
      have h5 := min_le_left ε (z.y / 2)
      have h6 := min_le_right ε (z.y / 2)
      refine ⟨min ε (z.y / 2), lt_min he (by linarith), by linarith, by linarith, by linarith, ?_⟩
      intro w hw
      rcases List.mem_cons.mp hw with rfl | hw
      · linarith
      · linarith [h4 w hw]
  have low := inside_low v chain a ya yb hv h s hs x ε hx he h2 h3 h4
  exact (same_side_vertical v h s hs x ε y h1 fun t t0 t1 => hpath t (by linarith) t1).mp low

/-- The region between the x axis and a graph. -/
theorem graph_inside (v chain : List V2) (a ya yb : ℝ) (hv : v = ⟨a, 0⟩ :: ⟨a, ya⟩ :: (chain ++ [⟨-a, yb⟩, ⟨-a, 0⟩])) (h : Proper v)
    (s : SDF2) (hs : Must2.polygon v = some s) (hya : 0 < ya) (hyb : 0 < yb) (hc : ∀ z ∈ chain, 0 < z.y)
    (x f : ℝ) (hx : |x| < a) (hf : 0 < f) (hg : ∀ t, Outline v ⟨x, t⟩ → t = 0 ∨ t = f) (y : ℝ) :
    s.eval ⟨x, y⟩ < 0 ↔ 0 < y ∧ y < f := by
  constructor
  · intro hin
    have hno : ¬ Outline v ⟨x, y⟩ := fun ho => by rw [(C31_zero v h s hs _).mpr ho] at hin; exact lt_irrefl _ hin
    by_contra hcon
    have : y ≤ 0 ∨ f ≤ y := by
      by_contra h'
      push Not at h'
      exact hcon h'
    rcases this with h0 | h0
    · have := outside_below v h s hs x y fun t ht ho => by
        rcases hg t ho with h1 | h1
        · exact hno (by rw [show y = t by linarith]; exact ho)
        · linarith
      linarith
    · have := outside_above v h s hs x y fun t ht ho => by
        rcases hg t ho with h1 | h1
        · linarith
        · exact hno (by rw [show y = t by linarith]; exact ho)
      linarith
  · rintro ⟨h0, h1⟩
    refine inside_between v chain a ya yb hv h s hs hya hyb hc x y hx h0 fun t t0 t1 ho => ?_
    rcases hg t ho with h2 | h2 <;> linarith

/-- The region between the x axis and a graph: inside, outside, and by exclusion the boundary. -/
theorem graph_profile (v chain : List V2) (a ya yb : ℝ) (hv : v = ⟨a, 0⟩ :: ⟨a, ya⟩ :: (chain ++ [⟨-a, yb⟩, ⟨-a, 0⟩])) (h : Proper v)
    (s : SDF2) (hs : Must2.polygon v = some s) (hya : 0 < ya) (hyb : 0 < yb) (hc : ∀ z ∈ chain, 0 < z.y)
    (x f : ℝ) (hx : |x| < a) (hf : 0 < f) (hg : ∀ t, Outline v ⟨x, t⟩ → t = 0 ∨ t = f) (y : ℝ) :
    (s.eval ⟨x, y⟩ < 0 ↔ 0 < y ∧ y < f) ∧ (0 < s.eval ⟨x, y⟩ ↔ y < 0 ∨ f < y) := by
  have hin := fun y => graph_inside v chain a ya yb hv h s hs hya hyb hc x f hx hf hg y
  refine ⟨hin y, fun h0 => ?_, ?_⟩
  · by_contra hcon
    push Not at hcon
    -- an inside point within half the value
    set e := s.eval ⟨x, y⟩ with he
    obtain ⟨t, t0, t1, t2⟩ : ∃ t, 0 < t ∧ t < f ∧ |y - t| < e := by
      rcases le_total y (f / 2) with h1 | h1
      · refine ⟨y + min (e / 2) (f / 4), by have := lt_min (half_pos h0) (show 0 < f / 4 by linarith); linarith,
          by linarith [min_le_right (e / 2) (f / 4)], ?_⟩
        rw [show y - (y + min (e / 2) (f / 4)) = -min (e / 2) (f / 4) by ring, abs_neg,
          abs_of_pos (lt_min (half_pos h0) (show 0 < f / 4 by linarith))]
        linarith [min_le_left (e / 2) (f / 4)]
      · refine ⟨y - min (e / 2) (f / 4), by linarith [min_le_right (e / 2) (f / 4)],
          by have := lt_min (half_pos h0) (show 0 < f / 4 by linarith); linarith, ?_⟩
        rw [show y - (y - min (e / 2) (f / 4)) = min (e / 2) (f / 4) by ring,
          abs_of_pos (lt_min (half_pos h0) (show 0 < f / 4 by linarith))]
        linarith [min_le_left (e / 2) (f / 4)]
    have h1 := (hin t).mpr ⟨t0, t1⟩
    have h2 := (abs_le.mp (C31_lipschitz v h s hs ⟨x, y⟩ ⟨x, t⟩)).2
    have h3 : V2.dist ⟨x, y⟩ ⟨x, t⟩ = |y - t| := by
      unfold V2.dist V2.norm
      simp only [V2.sub, sub_self, mul_zero, zero_add]
      exact Real.sqrt_mul_self_eq_abs _
    rw [h3] at h2
    linarith
  · rintro (h0 | h0)
    · exact outside_below v h s hs x y fun t ht ho => by rcases hg t ho with h1 | h1 <;> linarith
    · exact outside_above v h s hs x y fun t ht ho => by rcases hg t ho with h1 | h1 <;> linarith

/-- Signs carried over from one value to another. -/
theorem same_signs {a b : ℝ} {p q : Prop} (h : (a < 0 ↔ b < 0) ∧ (a = 0 ↔ b = 0)) (hb : (b < 0 ↔ p) ∧ (0 < b ↔ q)) :
    (a < 0 ↔ p) ∧ (0 < a ↔ q) := by
  refine ⟨h.1.trans hb.1, Iff.trans ?_ hb.2⟩
  rcases lt_trichotomy a 0 with h1 | h1 | h1
  · have := h.1.mp h1
    exact ⟨fun h' => absurd h' (by linarith), fun h' => absurd h' (by linarith)⟩
  · have := h.2.mp h1
    exact ⟨fun h' => absurd h' (by linarith), fun h' => absurd h' (by linarith)⟩
  · refine ⟨fun _ => ?_, fun _ => h1⟩
    rcases lt_trichotomy b 0 with h2 | h2 | h2
    · have := h.1.mpr h2; linarith
    · have := h.2.mpr h2; linarith
    · exact h2

end Polygon
end Sdf
