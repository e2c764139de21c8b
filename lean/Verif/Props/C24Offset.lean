import Verif.Model.Combine3
import Verif.Model.Combine2
import Verif.Lemmas.Vec
import Verif.Lemmas.MaxFloat
import Verif.Spec.Shape

/-! C24: `Offset3D`, `Offset2D` and `Shell3D` on shapes with exact distance. -/

namespace Sdf

/-- Growing: `Offset3D` by `d > 0` contains exactly the points within `d` of the solid. -/
theorem C24_offset3_grow (s : SDF3) (hs : s.Exact) (d : ℝ) (hd : 0 < d) (p : V3) :
    (s.offset d).Inside p ↔ ∃ q, s.eval q ≤ 0 ∧ V3.dist p q < d := by
  simp only [SDF3.Inside, SDF3.offset, sub_neg]
  constructor
  · intro h
    rcases le_or_gt (s.eval p) 0 with h0 | h0
    · refine ⟨p, h0, ?_⟩
      rw [V3.dist_eq_zero.mpr rfl]; exact hd
    · obtain ⟨⟨q, hq, e⟩, -⟩ := hs.2 p
      exact ⟨q, le_of_eq hq, by rw [e, abs_of_pos h0]; exact h⟩
  · rintro ⟨q, hq, h⟩
    have := (abs_le.mp (hs.1 p q)).2
    linarith

/-- Shrinking: `Offset3D` by `-d`, `d ≥ 0`, contains exactly the points whose closed ball of radius `d` lies
inside the solid. -/
theorem C24_offset3_shrink (s : SDF3) (hs : s.Exact) (d : ℝ) (hd : 0 ≤ d) (p : V3) :
    (s.offset (-d)).Inside p ↔ ∀ q, V3.dist p q ≤ d → s.Inside q := by
  simp only [SDF3.Inside, SDF3.offset, sub_neg]
  constructor
  · intro h q hq
    have := (abs_le.mp (hs.1 p q)).1
    linarith
  · intro h
    by_contra hc
    push Not at hc
    rcases le_or_gt 0 (s.eval p) with h0 | h0
    · have := h p (by rw [V3.dist_eq_zero.mpr rfl]; exact hd)
      linarith
    · obtain ⟨⟨q, hq, e⟩, -⟩ := hs.2 p
      have := h q (by rw [e, abs_of_neg h0]; linarith)
      linarith

/-- As `C24_offset3_grow`, in the plane. -/
theorem C24_offset2_grow (s : SDF2) (hs : s.Exact) (d : ℝ) (hd : 0 < d) (p : V2) :
    (s.offset d).Inside p ↔ ∃ q, s.eval q ≤ 0 ∧ V2.dist p q < d := by
  simp only [SDF2.Inside, SDF2.offset, sub_neg]
  constructor
  · intro h
    rcases le_or_gt (s.eval p) 0 with h0 | h0
    · refine ⟨p, h0, ?_⟩
      rw [V2.dist_eq_zero.mpr rfl]; exact hd
    · obtain ⟨⟨q, hq, e⟩, -⟩ := hs.2 p
      exact ⟨q, le_of_eq hq, by rw [e, abs_of_pos h0]; exact h⟩
  · rintro ⟨q, hq, h⟩
    have := (abs_le.mp (hs.1 p q)).2
    linarith

/-- As `C24_offset3_shrink`, in the plane. -/
theorem C24_offset2_shrink (s : SDF2) (hs : s.Exact) (d : ℝ) (hd : 0 ≤ d) (p : V2) :
    (s.offset (-d)).Inside p ↔ ∀ q, V2.dist p q ≤ d → s.Inside q := by
  simp only [SDF2.Inside, SDF2.offset, sub_neg]
  constructor
  · intro h q hq
    have := (abs_le.mp (hs.1 p q)).1
    linarith
  · intro h
    by_contra hc
    push Not at hc
    rcases le_or_gt 0 (s.eval p) with h0 | h0
    · have := h p (by rw [V2.dist_eq_zero.mpr rfl]; exact hd)
      linarith
    · obtain ⟨⟨q, hq, e⟩, -⟩ := hs.2 p
      have := h q (by rw [e, abs_of_neg h0]; linarith)
      linarith

/-- `Shell3D` with thickness `t > 0` contains exactly the points within `t/2` of the surface. -/
theorem C24_shell3 (s : SDF3) (hs : s.Exact) (t : ℝ) (ht : 0 < t) (p : V3) :
    (s.shell t).Inside p ↔ ∃ q, s.eval q = 0 ∧ V3.dist p q < t / 2 := by
  simp only [SDF3.Inside, SDF3.shell, if_neg (not_le.mpr ht), sub_neg]
  obtain ⟨⟨q, hq, e⟩, hall⟩ := hs.2 p
  constructor
  · intro h
    exact ⟨q, hq, by rw [e]; linarith⟩
  · rintro ⟨w, hw, h⟩
    have := hall w hw
    linarith

/-- A thickness that is not positive gives an empty shape. -/
theorem C24_shell3_empty (s : SDF3) (t : ℝ) (ht : t ≤ 0) (p : V3) : ¬ (s.shell t).Inside p := by
  simp only [SDF3.Inside, SDF3.shell, if_pos ht, SDF3.emptyFrom, SDF3.empty]
  exact not_lt.mpr maxFloat64_pos.le

theorem V3.dist_coord (p q : V3) : |p.x - q.x| ≤ V3.dist p q ∧ |p.y - q.y| ≤ V3.dist p q ∧ |p.z - q.z| ≤ V3.dist p q :=
  ⟨V3.abs_x_le (V3.sub p q), V3.abs_y_le (V3.sub p q), V3.abs_z_le (V3.sub p q)⟩

theorem V2.dist_coord (p q : V2) : |p.x - q.x| ≤ V2.dist p q ∧ |p.y - q.y| ≤ V2.dist p q :=
  ⟨V2.abs_x_le (V2.sub p q), V2.abs_y_le (V2.sub p q)⟩

theorem Box3.offset_contains (b : Box3) (d : ℝ) (p : V3) :
    (Box3.new b.center (V3.add b.size (V3.elem (2 * d)))).Contains p ↔
      b.lo.x - d ≤ p.x ∧ b.lo.y - d ≤ p.y ∧ b.lo.z - d ≤ p.z ∧
      p.x ≤ b.hi.x + d ∧ p.y ≤ b.hi.y + d ∧ p.z ≤ b.hi.z + d := by
  have e : Box3.new b.center (V3.add b.size (V3.elem (2 * d))) =
      ⟨⟨b.lo.x - d, b.lo.y - d, b.lo.z - d⟩, ⟨b.hi.x + d, b.hi.y + d, b.hi.z + d⟩⟩ := by
    ext <;> simp only [Box3.new, Box3.center, Box3.size, V3.add, V3.sub, V3.scale, V3.elem] <;> ring
  rw [e]; rfl

theorem Box2.offset_contains (b : Box2) (d : ℝ) (p : V2) :
    (Box2.new b.center (V2.add b.size (V2.elem (2 * d)))).Contains p ↔
      b.lo.x - d ≤ p.x ∧ b.lo.y - d ≤ p.y ∧ p.x ≤ b.hi.x + d ∧ p.y ≤ b.hi.y + d := by
  have e : Box2.new b.center (V2.add b.size (V2.elem (2 * d))) =
      ⟨⟨b.lo.x - d, b.lo.y - d⟩, ⟨b.hi.x + d, b.hi.y + d⟩⟩ := by
    ext <;> simp only [Box2.new, Box2.center, Box2.size, V2.add, V2.sub, V2.scale, V2.elem] <;> ring
  rw [e]; rfl

/-- The bounds of an offset shape are sufficient, for offsets of either sign. -/
theorem C24_offset3_bounds (s : SDF3) (hs : s.Exact) (hb : s.BoundedClosed) (d : ℝ) : (s.offset d).Bounded := by
  intro p hp
  show (Box3.new s.bounds.center (V3.add s.bounds.size (V3.elem (2 * d)))).Contains p
  rw [Box3.offset_contains]
  rcases le_or_gt d 0 with hd | hd
  · have h := (C24_offset3_shrink s hs (-d) (by linarith) p).mp (by rwa [neg_neg])
    have hc : ∀ v : V3, V3.norm v = 1 → s.bounds.Contains (V3.add p (V3.scale d v)) := by
      intro v hv
      refine hb _ (le_of_lt (h _ ?_))
      have : V3.sub p (V3.add p (V3.scale d v)) = V3.scale (-d) v := by
        ext <;> simp only [V3.sub, V3.add, V3.scale] <;> ring
      rw [V3.dist, this, V3.norm_scale, hv, abs_of_nonneg (by linarith)]; linarith
    have nx : ∀ x y z r : ℝ, x * x + y * y + z * z = 1 → V3.norm ⟨x, y, z⟩ = 1 := by
      intro x y z r h; exact V3.norm_eq_of (by norm_num) (by simpa using h)
    have h1 := hc ⟨1, 0, 0⟩ (nx _ _ _ 0 (by norm_num))
    have h2 := hc ⟨-1, 0, 0⟩ (nx _ _ _ 0 (by norm_num))
    have h3 := hc ⟨0, 1, 0⟩ (nx _ _ _ 0 (by norm_num))
    have h4 := hc ⟨0, -1, 0⟩ (nx _ _ _ 0 (by norm_num))
    have h5 := hc ⟨0, 0, 1⟩ (nx _ _ _ 0 (by norm_num))
    have h6 := hc ⟨0, 0, -1⟩ (nx _ _ _ 0 (by norm_num))
    simp only [Box3.Contains, V3.add, V3.scale] at h1 h2 h3 h4 h5 h6
    refine ⟨?_, ?_, ?_, ?_, ?_, ?_⟩
    · linarith [h1.1]
    · linarith [h3.2.1]
    · linarith [h5.2.2.1]
    · linarith [h2.2.2.2.1]
    · linarith [h4.2.2.2.2.1]
    · linarith [h6.2.2.2.2.2]
  · obtain ⟨q, hq, h⟩ := (C24_offset3_grow s hs d hd p).mp hp
    obtain ⟨a1, a2, a3, a4, a5, a6⟩ := hb q hq
    obtain ⟨c1, c2, c3⟩ := V3.dist_coord p q
    have := abs_le.mp c1; have := abs_le.mp c2; have := abs_le.mp c3
    refine ⟨?_, ?_, ?_, ?_, ?_, ?_⟩ <;> linarith

/-- As `C24_offset3_bounds`, in the plane. -/
theorem C24_offset2_bounds (s : SDF2) (hs : s.Exact) (hb : s.BoundedClosed) (d : ℝ) : (s.offset d).Bounded := by
  intro p hp
  show (Box2.new s.bounds.center (V2.add s.bounds.size (V2.elem (2 * d)))).Contains p
  rw [Box2.offset_contains]
  rcases le_or_gt d 0 with hd | hd
  · have h := (C24_offset2_shrink s hs (-d) (by linarith) p).mp (by rwa [neg_neg])
    have hc : ∀ v : V2, V2.norm v = 1 → s.bounds.Contains (V2.add p (V2.scale d v)) := by
      intro v hv
      refine hb _ (le_of_lt (h _ ?_))
      have : V2.sub p (V2.add p (V2.scale d v)) = V2.scale (-d) v := by
        ext <;> simp only [V2.sub, V2.add, V2.scale] <;> ring
      rw [V2.dist, this, V2.norm_scale, hv, abs_of_nonneg (by linarith)]; linarith
    have nx : ∀ x y r : ℝ, x * x + y * y = 1 → V2.norm ⟨x, y⟩ = 1 := by
      intro x y r h; exact V2.norm_eq_of (by norm_num) (by simpa using h)
    have h1 := hc ⟨1, 0⟩ (nx _ _ 0 (by norm_num))
    have h2 := hc ⟨-1, 0⟩ (nx _ _ 0 (by norm_num))
    have h3 := hc ⟨0, 1⟩ (nx _ _ 0 (by norm_num))
    have h4 := hc ⟨0, -1⟩ (nx _ _ 0 (by norm_num))
    simp only [Box2.Contains, V2.add, V2.scale] at h1 h2 h3 h4
    refine ⟨?_, ?_, ?_, ?_⟩
    · linarith [h1.1]
    · linarith [h3.2.1]
    · linarith [h2.2.2.1]
    · linarith [h4.2.2.2]
  · obtain ⟨q, hq, h⟩ := (C24_offset2_grow s hs d hd p).mp hp
    obtain ⟨a1, a2, a4, a5⟩ := hb q hq
    obtain ⟨c1, c2⟩ := V2.dist_coord p q
    have := abs_le.mp c1; have := abs_le.mp c2
    refine ⟨?_, ?_, ?_, ?_⟩ <;> linarith

/-- The bounds of a shell are sufficient. -/
theorem C24_shell3_bounds (s : SDF3) (hs : s.Exact) (hb : s.BoundedClosed) (t : ℝ) : (s.shell t).Bounded := by
  intro p hp
  rcases le_or_gt t 0 with ht | ht
  · exact absurd hp (C24_shell3_empty s t ht p)
  · obtain ⟨q, hq, h⟩ := (C24_shell3 s hs t ht p).mp hp
    obtain ⟨a1, a2, a3, a4, a5, a6⟩ := hb q hq.le
    obtain ⟨c1, c2, c3⟩ := V3.dist_coord p q
    have := abs_le.mp c1; have := abs_le.mp c2; have := abs_le.mp c3
    simp only [SDF3.shell, if_neg (not_le.mpr ht), Box3.enlarge, Box3.Contains, V3.sub, V3.add, V3.scale]
    refine ⟨?_, ?_, ?_, ?_, ?_, ?_⟩ <;> linarith

/-- Non-vacuity: the upper half-space `z < 0` has exact distance; growing it by one reaches `z = 1/2`. -/
example : ∃ s : SDF3, s.Exact ∧ ¬ s.Inside ⟨0, 0, 1/2⟩ ∧ (s.offset 1).Inside ⟨0, 0, 1/2⟩ ∧
    (s.shell 2).Inside ⟨0, 0, 1/2⟩ := by
  let s : SDF3 := ⟨fun p => p.z, ⟨⟨0, 0, 0⟩, ⟨0, 0, 0⟩⟩⟩
  have hx : s.Exact := by
    refine ⟨fun p q => (V3.dist_coord p q).2.2, fun p => ⟨⟨⟨p.x, p.y, 0⟩, rfl, ?_⟩, ?_⟩⟩
    · exact V3.norm_eq_of (abs_nonneg _) (by simp [V3.sub, s])
    · intro q hq
      have := (V3.dist_coord p q).2.2
      have hq : q.z = 0 := hq
      rwa [hq, sub_zero] at this
  refine ⟨s, hx, ?_, ?_, ?_⟩
  · simp only [SDF3.Inside, s]; norm_num
  · simp only [SDF3.Inside, SDF3.offset, s]; norm_num
  · rw [C24_shell3 s hx 2 (by norm_num)]
    refine ⟨⟨0, 0, 0⟩, rfl, ?_⟩
    rw [V3.dist, V3.norm_eq_of (r := 1/2) (by norm_num) (by simp [V3.sub])]; norm_num

end Sdf
