import Verif.Lemmas.Forms

/-! Helper lemmas: solids of revolution inherit the 1-Lipschitz property and exact levels from their profile. -/

namespace Sdf

/-- The half-plane coordinates of a point: distance from the z axis, and height. -/
noncomputable def V3.radial (p : V3) : V2 := ⟨V2.norm ⟨p.x, p.y⟩, p.z⟩

theorem V3.radial_dist_le (p q : V3) : V2.dist p.radial q.radial ≤ V3.dist p q := by
  unfold V2.dist
  refine V2.norm_le_of (V3.dist_nonneg _ _) ?_
  unfold V3.dist
  rw [V3.norm_sq]
  have h := V2.norm_sub_le ⟨p.x, p.y⟩ ⟨q.x, q.y⟩
  have h2 := V2.norm_sq (V2.sub ⟨p.x, p.y⟩ ⟨q.x, q.y⟩)
  have h3 : (V2.norm ⟨p.x, p.y⟩ - V2.norm ⟨q.x, q.y⟩) * (V2.norm ⟨p.x, p.y⟩ - V2.norm ⟨q.x, q.y⟩) ≤
      V2.dist ⟨p.x, p.y⟩ ⟨q.x, q.y⟩ * V2.dist ⟨p.x, p.y⟩ ⟨q.x, q.y⟩ := by
    rw [← abs_mul_abs_self (V2.norm ⟨p.x, p.y⟩ - V2.norm ⟨q.x, q.y⟩)]
    exact mul_self_le_mul_self (abs_nonneg _) h
  unfold V2.dist at h3
  rw [h2] at h3
  simp only [V2.sub, V3.sub, V3.radial] at h3 ⊢
  linarith

/-- Any point of the half plane is the radial image of a point on the same meridian as `p`. -/
theorem V3.radial_lift (p : V3) (Q : V2) (hQ : 0 ≤ Q.x) :
    ∃ q : V3, q.radial = Q ∧ V3.dist p q = V2.dist p.radial Q := by
  have hn := V2.norm_sq ⟨p.x, p.y⟩
  by_cases h : (⟨p.x, p.y⟩ : V2) = ⟨0, 0⟩
  · have hx : p.x = 0 := congrArg V2.x h
    have hy : p.y = 0 := congrArg V2.y h
    refine ⟨⟨Q.x, 0, Q.y⟩, ?_, ?_⟩
    · ext
      · exact V2.norm_eq_of hQ (by simp)
      · rfl
    · unfold V2.dist V3.dist V2.norm V3.norm
      congr 1
      simp only [V3.sub, V2.sub, V3.radial, hx, hy]
      rw [V2.norm_eq_of (a := ⟨0, 0⟩) le_rfl (by simp)]
      ring
  · have hp := V2.norm_pos h
    set ρ := V2.norm ⟨p.x, p.y⟩ with hρ
    simp only at hn
    have e : p.x * p.x / (ρ * ρ) + p.y * p.y / (ρ * ρ) = 1 := by
      rw [← add_div, ← hn]; field_simp
    refine ⟨⟨p.x * (Q.x / ρ), p.y * (Q.x / ρ), Q.y⟩, ?_, ?_⟩
    · ext
      · refine V2.norm_eq_of hQ ?_
        simp only
        have : p.x * (Q.x / ρ) * (p.x * (Q.x / ρ)) + p.y * (Q.x / ρ) * (p.y * (Q.x / ρ)) =
            (p.x * p.x / (ρ * ρ) + p.y * p.y / (ρ * ρ)) * (Q.x * Q.x) := by field_simp
        rw [this, e, one_mul]
      · rfl
    · unfold V2.dist V3.dist V3.norm
      rw [V2.norm]
      congr 1
      simp only [V3.sub, V2.sub, V3.radial, ← hρ]
      have : (p.x - p.x * (Q.x / ρ)) * (p.x - p.x * (Q.x / ρ)) + (p.y - p.y * (Q.x / ρ)) * (p.y - p.y * (Q.x / ρ)) =
          (p.x * p.x + p.y * p.y) / (ρ * ρ) * ((ρ - Q.x) * (ρ - Q.x)) := by field_simp
      rw [this, ← hn, div_self (by positivity), one_mul]

theorem Lip2.revolve {g : V2 → ℝ} (h : Lip2 g) : Lip3 (fun p => g p.radial) :=
  fun p q => le_trans (h p.radial q.radial) (V3.radial_dist_le p q)

/-- Levels of a solid of revolution, from those of a profile that is symmetric about the axis. -/
theorem revolve_level {g : V2 → ℝ} (hl : Lip2 g) (hs : ∀ q : V2, g ⟨|q.x|, q.y⟩ = g q) (c : ℝ)
    (h : ∀ p, ∃ q, g q = c ∧ V2.dist p q = |g p - c|) (p : V3) :
    ∃ q : V3, g q.radial = c ∧ V3.dist p q = |g p.radial - c| := by
  obtain ⟨q, hq, hd⟩ := h p.radial
  have hq' : g ⟨|q.x|, q.y⟩ = c := by rw [hs, hq]
  have hd' : V2.dist p.radial ⟨|q.x|, q.y⟩ = |g p.radial - c| := by
    apply le_antisymm
    · rw [← hd]
      refine V2.norm_mono ?_ le_rfl
      have h0 : 0 ≤ p.radial.x := V2.norm_nonneg _
      simp only [V2.sub]
      have := abs_abs_sub_abs_le p.radial.x q.x
      rwa [abs_of_nonneg h0] at this
    · have := hl p.radial ⟨|q.x|, q.y⟩
      rwa [hq'] at this
  obtain ⟨r, hr, hd2⟩ := V3.radial_lift p ⟨|q.x|, q.y⟩ (abs_nonneg _)
  exact ⟨r, by rw [hr, hq'], by rw [hd2, hd']⟩

theorem exact_sub3 {g : V3 → ℝ} {c : ℝ} {b : Box3} (hl : Lip3 g)
    (h : ∀ p, ∃ q, g q = c ∧ V3.dist p q = |g p - c|) : SDF3.Exact ⟨fun p => g p - c, b⟩ := by
  refine SDF3.exact_of _ ?_ ?_
  · intro p q
    simpa using hl p q
  · intro p
    obtain ⟨q, hq, hd⟩ := h p
    exact ⟨q, by simp [hq], hd⟩

theorem exact_sub2 {g : V2 → ℝ} {c : ℝ} {b : Box2} (hl : Lip2 g)
    (h : ∀ p, ∃ q, g q = c ∧ V2.dist p q = |g p - c|) : SDF2.Exact ⟨fun p => g p - c, b⟩ := by
  refine SDF2.exact_of _ ?_ ?_
  · intro p q
    simpa using hl p q
  · intro p
    obtain ⟨q, hq, hd⟩ := h p
    exact ⟨q, by simp [hq], hd⟩

theorem norm3_level (c : ℝ) (hc : 0 ≤ c) (p : V3) : ∃ q, V3.norm q = c ∧ V3.dist p q = |V3.norm p - c| := by
  by_cases h : p = ⟨0, 0, 0⟩
  · subst h
    refine ⟨⟨c, 0, 0⟩, V3.norm_eq_of hc (by simp), ?_⟩
    rw [V3.norm_eq_of (a := ⟨0, 0, 0⟩) le_rfl (by simp)]
    exact V3.norm_eq_of (abs_nonneg _) (by rw [abs_mul_abs_self]; simp [V3.sub])
  · have hn := V3.norm_pos h
    refine ⟨V3.scale (c / V3.norm p) p, ?_, ?_⟩
    · rw [V3.norm_scale, abs_of_nonneg (by positivity)]; field_simp
    · have e : V3.sub p (V3.scale (c / V3.norm p) p) = V3.scale (1 - c / V3.norm p) p := by
        ext <;> simp only [V3.sub, V3.scale] <;> ring
      rw [V3.dist, e, V3.norm_scale]
      have : |1 - c / V3.norm p| * V3.norm p = |1 - c / V3.norm p| * |V3.norm p| := by rw [abs_of_pos hn]
      rw [this, ← abs_mul]; congr 1; field_simp

theorem norm2_level (c : ℝ) (hc : 0 ≤ c) (p : V2) : ∃ q, V2.norm q = c ∧ V2.dist p q = |V2.norm p - c| := by
  by_cases h : p = ⟨0, 0⟩
  · subst h
    refine ⟨⟨c, 0⟩, V2.norm_eq_of hc (by simp), ?_⟩
    rw [V2.norm_eq_of (a := ⟨0, 0⟩) le_rfl (by simp)]
    exact V2.norm_eq_of (abs_nonneg _) (by rw [abs_mul_abs_self]; simp [V2.sub])
  · have hn := V2.norm_pos h
    refine ⟨V2.scale (c / V2.norm p) p, ?_, ?_⟩
    · rw [V2.norm_scale, abs_of_nonneg (by positivity)]; field_simp
    · have e : V2.sub p (V2.scale (c / V2.norm p) p) = V2.scale (1 - c / V2.norm p) p := by
        ext <;> simp only [V2.sub, V2.scale] <;> ring
      rw [V2.dist, e, V2.norm_scale]
      have : |1 - c / V2.norm p| * V2.norm p = |1 - c / V2.norm p| * |V2.norm p| := by rw [abs_of_pos hn]
      rw [this, ← abs_mul]; congr 1; field_simp

theorem boxFn2_le_zero (d : V2) : (boxFn2 d ≤ 0 ↔ d.x ≤ 0 ∧ d.y ≤ 0) ∧ (boxFn2 d < 0 ↔ d.x < 0 ∧ d.y < 0) := by
  by_cases h : d.x > 0 ∧ d.y > 0
  · rw [boxFn2_pos _ h]
    have hn : 0 < V2.norm d := V2.norm_pos (by rintro rfl; simp at h)
    exact ⟨⟨fun h' => absurd h' (not_le.mpr hn), fun h' => absurd h'.1 (not_le.mpr h.1)⟩,
      ⟨fun h' => absurd h' (not_lt.mpr hn.le), fun h' => absurd h'.1 (not_lt.mpr h.1.le)⟩⟩
  · rw [boxFn2_neg _ h]
    exact ⟨max_le_iff, max_lt_iff⟩

theorem sdfBox2d_le_zero (p s : V2) : (sdfBox2d p s ≤ 0 ↔ |p.x| ≤ s.x ∧ |p.y| ≤ s.y) ∧
    (sdfBox2d p s < 0 ↔ |p.x| < s.x ∧ |p.y| < s.y) := by
  rw [sdfBox2d_eq]
  have := boxFn2_le_zero (V2.sub (V2.absElem p) s)
  simpa [V2.sub, V2.absElem] using this

theorem sdfBox3d_le_zero (p s : V3) : (sdfBox3d p s ≤ 0 ↔ |p.x| ≤ s.x ∧ |p.y| ≤ s.y ∧ |p.z| ≤ s.z) ∧
    (sdfBox3d p s < 0 ↔ |p.x| < s.x ∧ |p.y| < s.y ∧ |p.z| < s.z) := by
  rw [sdfBox3d_eq]
  have ex : (V3.sub (V3.absElem p) s).x = |p.x| - s.x := rfl
  have ey : (V3.sub (V3.absElem p) s).y = |p.y| - s.y := rfl
  have ez : (V3.sub (V3.absElem p) s).z = |p.z| - s.z := rfl
  generalize V3.sub (V3.absElem p) s = d at ex ey ez ⊢
  unfold boxFn3
  split
  · rename_i h
    have hn : 0 < V3.norm ⟨max d.x 0, max d.y 0, max d.z 0⟩ := by
      apply V3.norm_pos
      intro h0
      have hx : max d.x 0 = 0 := congrArg V3.x h0
      have hy : max d.y 0 = 0 := congrArg V3.y h0
      have hz : max d.z 0 = 0 := congrArg V3.z h0
      rcases h with h | h | h
      · linarith [le_max_left d.x 0]
      · linarith [le_max_left d.y 0]
      · linarith [le_max_left d.z 0]
    constructor
    · refine ⟨fun h' => absurd h' (not_le.mpr hn), fun h' => ?_⟩
      rcases h with h | h | h <;> linarith [h'.1, h'.2.1, h'.2.2]
    · refine ⟨fun h' => absurd h' (not_lt.mpr hn.le), fun h' => ?_⟩
      rcases h with h | h | h <;> linarith [h'.1, h'.2.1, h'.2.2]
  · rw [max_le_iff, max_le_iff, max_lt_iff, max_lt_iff, ex, ey, ez]
    simp only [sub_nonpos, sub_neg, and_assoc, and_self]

theorem line_eq (l round : ℝ) (p : V2) : (Must2.line l round).eval p = sdfBox2d p ⟨l / 2, 0⟩ - round := by
  unfold Must2.line
  rw [sdfBox2d_eq]
  simp only
  have hx : (V2.sub (V2.absElem p) ⟨l / 2, 0⟩).x = (V2.absElem p).x - l / 2 := rfl
  have hy : (V2.sub (V2.absElem p) ⟨l / 2, 0⟩).y = (V2.absElem p).y := by simp [V2.sub]
  have h0 : 0 ≤ (V2.absElem p).y := abs_nonneg _
  by_cases h : (V2.absElem p).x ≤ l / 2
  · rw [if_pos h, boxFn2_neg _ (by rw [hx]; intro h'; linarith [h'.1]), hx, hy, max_eq_right (by linarith)]
  · rw [if_neg h]
    push Not at h
    rcases h0.eq_or_lt with h1 | h1
    · rw [boxFn2_neg _ (by rw [hy]; intro h'; linarith [h'.2]), hx, hy, max_eq_left (by linarith)]
      congr 1
      refine V2.norm_eq_of (by linarith) ?_
      rw [hy, hx, ← h1]; ring
    · rw [boxFn2_pos _ ⟨by rw [hx]; linarith, by rw [hy]; exact h1⟩]

end Sdf
