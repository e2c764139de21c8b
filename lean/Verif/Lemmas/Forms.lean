import Verif.Model.Forms
import Verif.Lemmas.Vec
import Verif.Spec.Shape

/-! Helper lemmas about the box distance functions: they are suprema of linear functions, and reach every level. -/

namespace Sdf

/-- Sufficient for exactness: a 1-Lipschitz function every level `c` of which is reached at the right distance. -/
theorem SDF3.exact_of (s : SDF3) (hl : Lip3 s.eval) (h : ∀ p, ∃ q, s.eval q = 0 ∧ V3.dist p q = |s.eval p|) :
    s.Exact := by
  refine ⟨hl, fun p => ⟨h p, ?_⟩⟩
  intro q hq
  have := hl p q
  have hq : s.eval q = 0 := hq
  rwa [hq, sub_zero] at this

theorem SDF2.exact_of (s : SDF2) (hl : Lip2 s.eval) (h : ∀ p, ∃ q, s.eval q = 0 ∧ V2.dist p q = |s.eval p|) :
    s.Exact := by
  refine ⟨hl, fun p => ⟨h p, ?_⟩⟩
  intro q hq
  have := hl p q
  have hq : s.eval q = 0 := hq
  rwa [hq, sub_zero] at this

open Classical in
/-- `sdfBox2d` in terms of the distances `d` beyond the faces. -/
noncomputable def boxFn2 (d : V2) : ℝ := if d.x > 0 ∧ d.y > 0 then V2.norm d else max d.x d.y

theorem boxFn2_pos (d : V2) (h : d.x > 0 ∧ d.y > 0) : boxFn2 d = V2.norm d := by unfold boxFn2; rw [if_pos h]

theorem boxFn2_neg (d : V2) (h : ¬ (d.x > 0 ∧ d.y > 0)) : boxFn2 d = max d.x d.y := by unfold boxFn2; rw [if_neg h]

theorem sdfBox2d_eq (p s : V2) : sdfBox2d p s = boxFn2 (V2.sub (V2.absElem p) s) := by
  unfold sdfBox2d
  dsimp only
  by_cases h : (V2.sub (V2.absElem p) s).x > 0 ∧ (V2.sub (V2.absElem p) s).y > 0
  · rw [boxFn2_pos _ h, if_pos h]
  · rw [boxFn2_neg _ h, if_neg h]
    have ex : (V2.sub (V2.absElem p) s).x = (V2.absElem p).x - s.x := rfl
    have ey : (V2.sub (V2.absElem p) s).y = (V2.absElem p).y - s.y := rfl
    by_cases h' : (V2.absElem p).y - (V2.absElem p).x > s.y - s.x
    · rw [if_pos h', max_eq_right (by linarith)]
    · rw [if_neg h', max_eq_left (by linarith)]

theorem boxFn2_ge (d u : V2) (hx : 0 ≤ u.x) (hy : 0 ≤ u.y) (hu : V2.norm u = 1) : V2.dot u d ≤ boxFn2 d := by
  have h1 : u.x * u.x + u.y * u.y = 1 := by rw [← V2.norm_sq, hu]; norm_num
  unfold boxFn2
  split
  · have := V2.dot_le u d
    rw [hu, one_mul] at this; exact this
  · rename_i h
    have hs : 1 ≤ u.x + u.y := by nlinarith [mul_nonneg hx hy]
    have hx1 : u.x ≤ 1 := by nlinarith
    have hy1 : u.y ≤ 1 := by nlinarith
    simp only [V2.dot]
    rcases le_total d.x d.y with e | e
    · rw [max_eq_right e]
      rcases le_or_gt d.y 0 with h0 | h0
      · nlinarith
      · have : d.x ≤ 0 := by by_contra hc; exact h ⟨not_le.mp hc, h0⟩
        nlinarith
    · rw [max_eq_left e]
      rcases le_or_gt d.x 0 with h0 | h0
      · nlinarith
      · have : d.y ≤ 0 := by by_contra hc; exact h ⟨h0, not_le.mp hc⟩
        nlinarith

theorem boxFn2_attained (d : V2) : ∃ u : V2, 0 ≤ u.x ∧ 0 ≤ u.y ∧ V2.norm u = 1 ∧ V2.dot u d = boxFn2 d := by
  unfold boxFn2
  split
  · rename_i h
    have hd : d ≠ ⟨0, 0⟩ := by rintro rfl; simp at h
    have hn := V2.norm_pos hd
    refine ⟨V2.unit d, ?_, ?_, V2.norm_unit hd, ?_⟩
    · exact mul_nonneg (by positivity) h.1.le
    · exact mul_nonneg (by positivity) h.2.le
    · have := V2.norm_sq d
      simp only [V2.dot, V2.unit, V2.scale]
      field_simp
      nlinarith
  · rcases le_total d.x d.y with e | e
    · exact ⟨⟨0, 1⟩, le_rfl, zero_le_one, V2.norm_eq_of zero_le_one (by norm_num), by
        rw [max_eq_right e]; simp [V2.dot]⟩
    · exact ⟨⟨1, 0⟩, zero_le_one, le_rfl, V2.norm_eq_of zero_le_one (by norm_num), by
        rw [max_eq_left e]; simp [V2.dot]⟩

theorem boxFn2_lip (d e : V2) : boxFn2 d - boxFn2 e ≤ V2.dist d e := by
  obtain ⟨u, hx, hy, hu, h⟩ := boxFn2_attained d
  have h1 := boxFn2_ge e u hx hy hu
  have h2 := V2.dot_le u (V2.sub d e)
  rw [hu, one_mul] at h2
  have h3 : V2.dot u (V2.sub d e) = V2.dot u d - V2.dot u e := by simp only [V2.dot, V2.sub]; ring
  unfold V2.dist
  linarith

theorem sdfBox2d_lip (s p q : V2) : |sdfBox2d p s - sdfBox2d q s| ≤ V2.dist p q := by
  have hd : ∀ p q : V2, V2.dist (V2.sub (V2.absElem p) s) (V2.sub (V2.absElem q) s) ≤ V2.dist p q := by
    intro p q
    refine V2.norm_mono ?_ ?_
    · simp only [V2.sub, V2.absElem, sub_sub_sub_cancel_right]; exact abs_abs_sub_abs_le _ _
    · simp only [V2.sub, V2.absElem, sub_sub_sub_cancel_right]; exact abs_abs_sub_abs_le _ _
  rw [sdfBox2d_eq, sdfBox2d_eq, abs_le]
  have h1 := le_trans (boxFn2_lip _ _) (hd p q)
  have h2 := le_trans (boxFn2_lip _ _) (hd q p)
  rw [V2.dist_comm] at h2
  constructor <;> linarith

/-- A sign that is never zero. -/
noncomputable def sgn (x : ℝ) : ℝ := open Classical in if x < 0 then -1 else 1

theorem sgn_mul_abs (x : ℝ) : sgn x * |x| = x := by
  unfold sgn; split
  · rename_i h; rw [abs_of_neg h]; ring
  · rename_i h; rw [abs_of_nonneg (not_lt.mp h)]; ring

theorem abs_sgn_mul (x y : ℝ) (hy : 0 ≤ y) : |sgn x * y| = y := by
  unfold sgn; split
  · rw [neg_one_mul, abs_neg, abs_of_nonneg hy]
  · rw [one_mul, abs_of_nonneg hy]

theorem sgn_sq (x : ℝ) : sgn x * sgn x = 1 := by unfold sgn; split <;> norm_num

/-- For a point `P` in the positive quadrant and a level `c ≥ 0` there is a point on that level, in the quadrant, at
distance exactly the difference of the levels. -/
theorem boxFn2_level (s P : V2) (hsx : 0 ≤ s.x) (hsy : 0 ≤ s.y) (hx : 0 ≤ P.x) (hy : 0 ≤ P.y) (c : ℝ) (hc : 0 ≤ c) :
    ∃ Q : V2, 0 ≤ Q.x ∧ 0 ≤ Q.y ∧ boxFn2 (V2.sub Q s) = c ∧ V2.dist P Q = |boxFn2 (V2.sub P s) - c| := by
  set d := V2.sub P s with hd
  have dx : d.x = P.x - s.x := rfl
  have dy : d.y = P.y - s.y := rfl
  by_cases h : d.x > 0 ∧ d.y > 0
  · have hb : boxFn2 d = V2.norm d := by unfold boxFn2; rw [if_pos h]
    have hdn : d ≠ ⟨0, 0⟩ := by intro e; rw [e] at h; simp at h
    have hn := V2.norm_pos hdn
    set n := V2.norm d with hndef
    have hk : 0 ≤ c / n := by positivity
    refine ⟨V2.add s (V2.scale (c / n) d), ?_, ?_, ?_, ?_⟩
    · exact add_nonneg hsx (mul_nonneg hk h.1.le)
    · exact add_nonneg hsy (mul_nonneg hk h.2.le)
    · have e : V2.sub (V2.add s (V2.scale (c / n) d)) s = V2.scale (c / n) d := by
        ext <;> simp [V2.sub, V2.add, V2.scale]
      rw [e]
      unfold boxFn2
      rcases hc.eq_or_lt with rfl | hc'
      · rw [if_neg (by simp [V2.scale])]; simp [V2.scale]
      · have hk' : 0 < c / n := by positivity
        rw [if_pos ⟨mul_pos hk' h.1, mul_pos hk' h.2⟩, V2.norm_scale, abs_of_pos hk', ← hndef]
        field_simp
    · have e : V2.sub P (V2.add s (V2.scale (c / n) d)) = V2.scale (1 - c / n) d := by
        ext
        · simp only [V2.sub, V2.add, V2.scale]; rw [dx]; ring
        · simp only [V2.sub, V2.add, V2.scale]; rw [dy]; ring
      rw [V2.dist, e, V2.norm_scale, hb, ← hndef]
      have : |1 - c / n| * n = |1 - c / n| * |n| := by rw [abs_of_pos hn]
      rw [this, ← abs_mul]; congr 1; field_simp
  · have hb : boxFn2 d = max d.x d.y := by unfold boxFn2; rw [if_neg h]
    rcases le_total d.x d.y with e | e
    · -- move along y
      have hdx : d.x ≤ 0 := by
        by_contra hc'; push Not at hc'; exact h ⟨hc', lt_of_lt_of_le hc' e⟩
      refine ⟨⟨P.x, s.y + c⟩, hx, by linarith, ?_, ?_⟩
      · have dx' : (V2.sub ⟨P.x, s.y + c⟩ s).x = d.x := rfl
        have dy' : (V2.sub ⟨P.x, s.y + c⟩ s).y = c := by simp [V2.sub]
        rw [boxFn2_neg _ (by rw [dx']; intro hh; linarith [hh.1]), dx', dy', max_eq_right (by linarith)]
      · rw [hb, max_eq_right e, V2.dist]
        refine V2.norm_eq_of (abs_nonneg _) ?_
        rw [abs_mul_abs_self, dy]; simp only [V2.sub]; ring
    · have hdy : d.y ≤ 0 := by
        by_contra hc'; push Not at hc'; exact h ⟨lt_of_lt_of_le hc' e, hc'⟩
      refine ⟨⟨s.x + c, P.y⟩, by linarith, hy, ?_, ?_⟩
      · have dx' : (V2.sub ⟨s.x + c, P.y⟩ s).x = c := by simp [V2.sub]
        have dy' : (V2.sub ⟨s.x + c, P.y⟩ s).y = d.y := rfl
        rw [boxFn2_neg _ (by rw [dy']; intro hh; linarith [hh.2]), dx', dy', max_eq_left (by linarith)]
      · rw [hb, max_eq_left e, V2.dist]
        refine V2.norm_eq_of (abs_nonneg _) ?_
        rw [abs_mul_abs_self, dx]; simp only [V2.sub]; ring

theorem sdfBox2d_level (s p : V2) (hsx : 0 ≤ s.x) (hsy : 0 ≤ s.y) (c : ℝ) (hc : 0 ≤ c) :
    ∃ q : V2, sdfBox2d q s = c ∧ V2.dist p q = |sdfBox2d p s - c| := by
  obtain ⟨Q, h1, h2, h3, h4⟩ := boxFn2_level s (V2.absElem p) hsx hsy (abs_nonneg _) (abs_nonneg _) c hc
  refine ⟨⟨sgn p.x * Q.x, sgn p.y * Q.y⟩, ?_, ?_⟩
  · rw [sdfBox2d_eq]
    have : V2.absElem ⟨sgn p.x * Q.x, sgn p.y * Q.y⟩ = Q := by
      ext
      · exact abs_sgn_mul _ _ h1
      · exact abs_sgn_mul _ _ h2
    rw [this, h3]
  · rw [sdfBox2d_eq, ← h4]
    unfold V2.dist V2.norm
    congr 1
    simp only [V2.sub, V2.absElem]
    have e : ∀ x y : ℝ, (x - sgn x * y) * (x - sgn x * y) = (|x| - y) * (|x| - y) := by
      intro x y
      have h := sgn_mul_abs x
      have h2 := sgn_sq x
      calc (x - sgn x * y) * (x - sgn x * y) = (sgn x * |x| - sgn x * y) * (sgn x * |x| - sgn x * y) := by rw [h]
        _ = (sgn x * sgn x) * ((|x| - y) * (|x| - y)) := by ring
        _ = _ := by rw [h2, one_mul]
    rw [e, e]

open Classical in
/-- `sdfBox3d` in terms of the distances `d` beyond the faces. -/
noncomputable def boxFn3 (d : V3) : ℝ :=
  if d.x > 0 ∨ d.y > 0 ∨ d.z > 0 then V3.norm ⟨max d.x 0, max d.y 0, max d.z 0⟩ else max (max d.x d.y) d.z

theorem sdfBox3d_eq (p s : V3) : sdfBox3d p s = boxFn3 (V3.sub (V3.absElem p) s) := by
  unfold sdfBox3d boxFn3
  generalize V3.sub (V3.absElem p) s = d
  have n3 : ∀ x y z r : ℝ, 0 ≤ r → x * x + y * y + z * z = r * r → V3.norm ⟨x, y, z⟩ = r := by
    intro x y z r hr h; exact V3.norm_eq_of hr h
  rcases le_or_gt d.x 0 with hx | hx <;> rcases le_or_gt d.y 0 with hy | hy <;> rcases le_or_gt d.z 0 with hz | hz
  all_goals
    simp only [not_lt.mpr, hx, hy, hz, and_true, and_false, or_true, or_false, if_true, if_false, max_eq_left,
      max_eq_right, le_of_lt, and_self, or_self]
  · simp only [V3.maxComp]; rw [max_comm]
  · exact (n3 _ _ _ _ hz.le (by ring)).symm
  · exact (n3 _ _ _ _ hy.le (by ring)).symm
  · exact (n3 _ _ _ _ (V2.norm_nonneg _) (by rw [V2.norm_sq]; ring)).symm
  · exact (n3 _ _ _ _ hx.le (by ring)).symm
  · exact (n3 _ _ _ _ (V2.norm_nonneg _) (by rw [V2.norm_sq]; ring)).symm
  · exact (n3 _ _ _ _ (V2.norm_nonneg _) (by rw [V2.norm_sq]; ring)).symm

theorem boxFn3_ge (d u : V3) (hx : 0 ≤ u.x) (hy : 0 ≤ u.y) (hz : 0 ≤ u.z) (hu : V3.norm u = 1) :
    V3.dot u d ≤ boxFn3 d := by
  have h1 : u.x * u.x + u.y * u.y + u.z * u.z = 1 := by rw [← V3.norm_sq, hu]; norm_num
  unfold boxFn3
  split
  · have := V3.dot_le u ⟨max d.x 0, max d.y 0, max d.z 0⟩
    rw [hu, one_mul] at this
    refine le_trans ?_ this
    simp only [V3.dot]
    have e1 := mul_le_mul_of_nonneg_left (le_max_left d.x 0) hx
    have e2 := mul_le_mul_of_nonneg_left (le_max_left d.y 0) hy
    have e3 := mul_le_mul_of_nonneg_left (le_max_left d.z 0) hz
    linarith
  · rename_i h
    push Not at h
    set m := max (max d.x d.y) d.z with hm
    have hx1 : u.x ≤ 1 := by nlinarith
    have hy1 : u.y ≤ 1 := by nlinarith
    have hz1 : u.z ≤ 1 := by nlinarith
    have hs : 1 ≤ u.x + u.y + u.z := by nlinarith
    have m0 : m ≤ 0 := max_le (max_le h.1 h.2.1) h.2.2
    have e1 : d.x ≤ m := le_trans (le_max_left _ _) (le_max_left _ _)
    have e2 : d.y ≤ m := le_trans (le_max_right _ _) (le_max_left _ _)
    have e3 : d.z ≤ m := le_max_right _ _
    simp only [V3.dot]
    have := mul_le_mul_of_nonneg_left e1 hx
    have := mul_le_mul_of_nonneg_left e2 hy
    have := mul_le_mul_of_nonneg_left e3 hz
    nlinarith

theorem boxFn3_attained (d : V3) :
    ∃ u : V3, 0 ≤ u.x ∧ 0 ≤ u.y ∧ 0 ≤ u.z ∧ V3.norm u = 1 ∧ V3.dot u d = boxFn3 d := by
  unfold boxFn3
  split
  · rename_i h
    set e : V3 := ⟨max d.x 0, max d.y 0, max d.z 0⟩ with he
    have hd : e ≠ ⟨0, 0, 0⟩ := by
      intro h0
      have hx : max d.x 0 = 0 := congrArg V3.x h0
      have hy : max d.y 0 = 0 := congrArg V3.y h0
      have hz : max d.z 0 = 0 := congrArg V3.z h0
      rcases h with h | h | h
      · linarith [le_max_left d.x 0]
      · linarith [le_max_left d.y 0]
      · linarith [le_max_left d.z 0]
    have hn := V3.norm_pos hd
    refine ⟨V3.unit e, ?_, ?_, ?_, V3.norm_unit hd, ?_⟩
    · exact mul_nonneg (by positivity) (le_max_right _ _)
    · exact mul_nonneg (by positivity) (le_max_right _ _)
    · exact mul_nonneg (by positivity) (le_max_right _ _)
    · have hsq := V3.norm_sq e
      have hm : ∀ x : ℝ, max x 0 * x = max x 0 * max x 0 := by
        intro x
        rcases le_total x 0 with h | h
        · rw [max_eq_right h]; ring
        · rw [max_eq_left h]
      have e1 : V3.dot e d = V3.norm e * V3.norm e := by
        rw [hsq]; simp only [V3.dot, he, hm]
      have e2 : V3.dot (V3.unit e) d = 1 / V3.norm e * V3.dot e d := by
        simp only [V3.dot, V3.unit, V3.scale]; ring
      rw [e2, e1]; field_simp
  · rcases max_choice (max d.x d.y) d.z with e | e
    · rcases max_choice d.x d.y with e' | e'
      · exact ⟨⟨1, 0, 0⟩, zero_le_one, le_rfl, le_rfl, V3.norm_eq_of zero_le_one (by norm_num), by
          rw [e, e']; simp [V3.dot]⟩
      · exact ⟨⟨0, 1, 0⟩, le_rfl, zero_le_one, le_rfl, V3.norm_eq_of zero_le_one (by norm_num), by
          rw [e, e']; simp [V3.dot]⟩
    · exact ⟨⟨0, 0, 1⟩, le_rfl, le_rfl, zero_le_one, V3.norm_eq_of zero_le_one (by norm_num), by
        rw [e]; simp [V3.dot]⟩

theorem boxFn3_lip (d e : V3) : boxFn3 d - boxFn3 e ≤ V3.dist d e := by
  obtain ⟨u, hx, hy, hz, hu, h⟩ := boxFn3_attained d
  have h1 := boxFn3_ge e u hx hy hz hu
  have h2 := V3.dot_le u (V3.sub d e)
  rw [hu, one_mul] at h2
  have h3 : V3.dot u (V3.sub d e) = V3.dot u d - V3.dot u e := by simp only [V3.dot, V3.sub]; ring
  unfold V3.dist
  linarith

theorem sdfBox3d_lip (s p q : V3) : |sdfBox3d p s - sdfBox3d q s| ≤ V3.dist p q := by
  have hd : ∀ p q : V3, V3.dist (V3.sub (V3.absElem p) s) (V3.sub (V3.absElem q) s) ≤ V3.dist p q := by
    intro p q
    refine V3.norm_mono ?_ ?_ ?_ <;>
      simp only [V3.sub, V3.absElem, sub_sub_sub_cancel_right] <;> exact abs_abs_sub_abs_le _ _
  rw [sdfBox3d_eq, sdfBox3d_eq, abs_le]
  have h1 := le_trans (boxFn3_lip _ _) (hd p q)
  have h2 := le_trans (boxFn3_lip _ _) (hd q p)
  rw [V3.dist_comm] at h2
  constructor <;> linarith

theorem sdfBox3d_level (s p : V3) (hsx : 0 ≤ s.x) (hsy : 0 ≤ s.y) (hsz : 0 ≤ s.z) (c : ℝ) (hc : 0 ≤ c) :
    ∃ q : V3, sdfBox3d q s = c ∧ V3.dist p q = |sdfBox3d p s - c| := by
  -- work in the positive octant
  suffices hP : ∃ Q : V3, 0 ≤ Q.x ∧ 0 ≤ Q.y ∧ 0 ≤ Q.z ∧ boxFn3 (V3.sub Q s) = c ∧
      V3.dist (V3.absElem p) Q = |boxFn3 (V3.sub (V3.absElem p) s) - c| by
    obtain ⟨Q, h1, h2, h3, h4, h5⟩ := hP
    refine ⟨⟨sgn p.x * Q.x, sgn p.y * Q.y, sgn p.z * Q.z⟩, ?_, ?_⟩
    · rw [sdfBox3d_eq]
      have : V3.absElem ⟨sgn p.x * Q.x, sgn p.y * Q.y, sgn p.z * Q.z⟩ = Q := by
        ext
        · exact abs_sgn_mul _ _ h1
        · exact abs_sgn_mul _ _ h2
        · exact abs_sgn_mul _ _ h3
      rw [this, h4]
    · rw [sdfBox3d_eq, ← h5]
      unfold V3.dist V3.norm
      congr 1
      simp only [V3.sub, V3.absElem]
      have e : ∀ x y : ℝ, (x - sgn x * y) * (x - sgn x * y) = (|x| - y) * (|x| - y) := by
        intro x y
        have h := sgn_mul_abs x
        have h2 := sgn_sq x
        calc (x - sgn x * y) * (x - sgn x * y) = (sgn x * |x| - sgn x * y) * (sgn x * |x| - sgn x * y) := by rw [h]
          _ = (sgn x * sgn x) * ((|x| - y) * (|x| - y)) := by ring
          _ = _ := by rw [h2, one_mul]
      rw [e, e, e]
  have hx : 0 ≤ (V3.absElem p).x := abs_nonneg _
  have hy : 0 ≤ (V3.absElem p).y := abs_nonneg _
  have hz : 0 ≤ (V3.absElem p).z := abs_nonneg _
  generalize V3.absElem p = P at hx hy hz ⊢
  set d := V3.sub P s with hd
  have dx : d.x = P.x - s.x := rfl
  have dy : d.y = P.y - s.y := rfl
  have dz : d.z = P.z - s.z := rfl
  by_cases h : d.x > 0 ∨ d.y > 0 ∨ d.z > 0
  · set e : V3 := ⟨max d.x 0, max d.y 0, max d.z 0⟩ with he
    have hb : boxFn3 d = V3.norm e := by unfold boxFn3; rw [if_pos h]
    have hdn : e ≠ ⟨0, 0, 0⟩ := by
      intro h0
      have hx : max d.x 0 = 0 := congrArg V3.x h0
      have hy : max d.y 0 = 0 := congrArg V3.y h0
      have hz : max d.z 0 = 0 := congrArg V3.z h0
      rcases h with h | h | h
      · linarith [le_max_left d.x 0]
      · linarith [le_max_left d.y 0]
      · linarith [le_max_left d.z 0]
    have hn := V3.norm_pos hdn
    set n := V3.norm e with hndef
    have hk : 0 ≤ c / n := by positivity
    -- the box point nearest to `P`, plus the rescaled offset
    refine ⟨⟨P.x - (1 - c / n) * e.x, P.y - (1 - c / n) * e.y, P.z - (1 - c / n) * e.z⟩, ?_, ?_, ?_, ?_, ?_⟩
    · have : P.x - (1 - c / n) * e.x = (P.x - e.x) + c / n * e.x := by ring
      rw [this]
      refine add_nonneg ?_ (mul_nonneg hk (le_max_right _ _))
      simp only [he]
      rcases le_total d.x 0 with h' | h'
      · rw [max_eq_right h']; linarith
      · rw [max_eq_left h', dx]; linarith
    · have : P.y - (1 - c / n) * e.y = (P.y - e.y) + c / n * e.y := by ring
      rw [this]
      refine add_nonneg ?_ (mul_nonneg hk (le_max_right _ _))
      simp only [he]
      rcases le_total d.y 0 with h' | h'
      · rw [max_eq_right h']; linarith
      · rw [max_eq_left h', dy]; linarith
    · have : P.z - (1 - c / n) * e.z = (P.z - e.z) + c / n * e.z := by ring
      rw [this]
      refine add_nonneg ?_ (mul_nonneg hk (le_max_right _ _))
      simp only [he]
      rcases le_total d.z 0 with h' | h'
      · rw [max_eq_right h']; linarith
      · rw [max_eq_left h', dz]; linarith
    · -- its distances beyond the faces
      have hf : ∀ t : ℝ, max (t - (1 - c / n) * max t 0) 0 = c / n * max t 0 ∧
          (t - (1 - c / n) * max t 0 > 0 ↔ (0 < c ∧ t > 0)) ∧
          (c = 0 → t > 0 → t - (1 - c / n) * max t 0 = 0) ∧
          (¬ t > 0 → t - (1 - c / n) * max t 0 = t) := by
        intro t
        rcases le_or_gt t 0 with h' | h'
        · rw [max_eq_right h']
          refine ⟨by simp [h'], ?_, fun _ h2 => by linarith, fun _ => by ring⟩
          constructor
          · intro h2; linarith
          · intro h2; linarith [h2.2]
        · rw [max_eq_left h'.le]
          have e1 : t - (1 - c / n) * t = c / n * t := by ring
          rw [e1]
          refine ⟨max_eq_left (mul_nonneg hk h'.le), ?_, fun h2 _ => by rw [h2]; simp, fun h2 => absurd h' h2⟩
          constructor
          · intro h2
            refine ⟨?_, h'⟩
            by_contra h3
            have : c = 0 := le_antisymm (not_lt.mp h3) hc
            rw [this] at h2; simp at h2
          · intro h2; exact mul_pos (div_pos h2.1 hn) h'
      have ex : P.x - (1 - c / n) * e.x - s.x = d.x - (1 - c / n) * max d.x 0 := by rw [dx]; simp only [he]; rw [dx]; ring
      have ey : P.y - (1 - c / n) * e.y - s.y = d.y - (1 - c / n) * max d.y 0 := by rw [dy]; simp only [he]; rw [dy]; ring
      have ez : P.z - (1 - c / n) * e.z - s.z = d.z - (1 - c / n) * max d.z 0 := by rw [dz]; simp only [he]; rw [dz]; ring
      have esub : V3.sub ⟨P.x - (1 - c / n) * e.x, P.y - (1 - c / n) * e.y, P.z - (1 - c / n) * e.z⟩ s =
          ⟨d.x - (1 - c / n) * max d.x 0, d.y - (1 - c / n) * max d.y 0, d.z - (1 - c / n) * max d.z 0⟩ := by
        ext
        · exact ex
        · exact ey
        · exact ez
      rw [esub]
      unfold boxFn3
      rcases hc.eq_or_lt with hc0 | hc'
      · rw [if_neg]
        · simp only
          -- some coordinate is zero, the others are at most zero
          have le0 : ∀ t : ℝ, t - (1 - c / n) * max t 0 ≤ 0 := by
            intro t
            by_contra h2
            have := ((hf t).2.1.mp (not_le.mp h2)).1
            linarith
          rw [← hc0]
          rw [← hc0] at le0 hf
          apply le_antisymm (max_le (max_le (le0 _) (le0 _)) (le0 _))
          rcases h with h | h | h
          · exact le_trans (le_of_eq ((hf d.x).2.2.1 rfl h).symm) (le_trans (le_max_left _ _) (le_max_left _ _))
          · exact le_trans (le_of_eq ((hf d.y).2.2.1 rfl h).symm) (le_trans (le_max_right _ _) (le_max_left _ _))
          · exact le_trans (le_of_eq ((hf d.z).2.2.1 rfl h).symm) (le_max_right _ _)
        · simp only [(hf _).2.1]
          rw [← hc0]; simp
      · rw [if_pos]
        · simp only [(hf _).1]
          have : (⟨c / n * max d.x 0, c / n * max d.y 0, c / n * max d.z 0⟩ : V3) = V3.scale (c / n) e := rfl
          rw [this, V3.norm_scale, abs_of_nonneg hk, ← hndef]; field_simp
        · simp only [(hf _).2.1]
          rcases h with h | h | h
          · exact Or.inl ⟨hc', h⟩
          · exact Or.inr (Or.inl ⟨hc', h⟩)
          · exact Or.inr (Or.inr ⟨hc', h⟩)
    · have e' : V3.sub P ⟨P.x - (1 - c / n) * e.x, P.y - (1 - c / n) * e.y, P.z - (1 - c / n) * e.z⟩ =
          V3.scale (1 - c / n) e := by
        ext <;> simp [V3.sub, V3.scale]
      rw [V3.dist, e', V3.norm_scale, hb, ← hndef]
      have : |1 - c / n| * n = |1 - c / n| * |n| := by rw [abs_of_pos hn]
      rw [this, ← abs_mul]; congr 1; field_simp
  · have hb : boxFn3 d = max (max d.x d.y) d.z := by unfold boxFn3; rw [if_neg h]
    push Not at h
    have fin : ∀ (Q : V3), V3.sub Q s = ⟨c, d.y, d.z⟩ ∨ V3.sub Q s = ⟨d.x, c, d.z⟩ ∨ V3.sub Q s = ⟨d.x, d.y, c⟩ →
        boxFn3 (V3.sub Q s) = c := by
      intro Q hQ
      unfold boxFn3
      rcases hQ with e | e | e <;> rw [e] <;> simp only
      · rcases hc.eq_or_lt with hc0 | hc'
        · rw [if_neg (by rw [← hc0]; simp [h.2.1, h.2.2]), max_eq_left h.2.1 |> fun _ => max_eq_left (a := c) (b := d.y) (by linarith [h.2.1]), max_eq_left (by linarith [h.2.2])]
        · rw [if_pos (Or.inl hc'), max_eq_left hc, max_eq_right h.2.1, max_eq_right h.2.2]
          exact V3.norm_eq_of hc (by ring)
      · rcases hc.eq_or_lt with hc0 | hc'
        · rw [if_neg (by rw [← hc0]; simp [h.1, h.2.2]), max_eq_right (a := d.x) (b := c) (by linarith [h.1]), max_eq_left (by linarith [h.2.2])]
        · rw [if_pos (Or.inr (Or.inl hc')), max_eq_left hc, max_eq_right h.1, max_eq_right h.2.2]
          exact V3.norm_eq_of hc (by ring)
      · rcases hc.eq_or_lt with hc0 | hc'
        · rw [if_neg (by rw [← hc0]; simp [h.1, h.2.1]), max_eq_right (a := max d.x d.y) (b := c) (max_le (by linarith [h.1]) (by linarith [h.2.1]))]
        · rw [if_pos (Or.inr (Or.inr hc')), max_eq_left hc, max_eq_right h.1, max_eq_right h.2.1]
          exact V3.norm_eq_of hc (by ring)
    rcases max_choice (max d.x d.y) d.z with e | e
    · rcases max_choice d.x d.y with e' | e'
      · refine ⟨⟨s.x + c, P.y, P.z⟩, by linarith, hy, hz, fin _ (Or.inl ?_), ?_⟩
        · ext <;> simp [V3.sub, dy, dz]
        · rw [hb, e, e', V3.dist]
          refine V3.norm_eq_of (abs_nonneg _) ?_
          rw [abs_mul_abs_self, dx]; simp only [V3.sub]; ring
      · refine ⟨⟨P.x, s.y + c, P.z⟩, hx, by linarith, hz, fin _ (Or.inr (Or.inl ?_)), ?_⟩
        · ext <;> simp [V3.sub, dx, dz]
        · rw [hb, e, e', V3.dist]
          refine V3.norm_eq_of (abs_nonneg _) ?_
          rw [abs_mul_abs_self, dy]; simp only [V3.sub]; ring
    · refine ⟨⟨P.x, P.y, s.z + c⟩, hx, hy, by linarith, fin _ (Or.inr (Or.inr ?_)), ?_⟩
      · ext <;> simp [V3.sub, dx, dy]
      · rw [hb, e, V3.dist]
        refine V3.norm_eq_of (abs_nonneg _) ?_
        rw [abs_mul_abs_self, dz]; simp only [V3.sub]; ring

end Sdf
