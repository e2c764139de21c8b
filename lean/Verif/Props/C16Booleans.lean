import Verif.Model.Combine3
import Verif.Lemmas.Union2

/-!
C16: boolean operations are set operations.  A point is inside a shape when `Evaluate` is negative there, and
strictly outside when it is positive.
-/

namespace Sdf

/-- A point is inside a 3D union of any number of shapes exactly when it is inside one of them. -/
theorem C16_union3 (s0 : SDF3) (l : List SDF3) (p : V3) :
    (SDF3.union s0 l).Inside p ↔ ∃ s ∈ s0 :: l, s.Inside p := by
  obtain ⟨h1, h2, h3⟩ := SDF2.foldl_min_spec (fun s : SDF3 => s.eval p) l (s0.eval p)
  simp only [SDF3.Inside, SDF3.union, SDF3.unionWith]
  constructor
  · intro h
    rcases h1 with h1 | ⟨s, hs, h1⟩
    · exact ⟨s0, List.mem_cons_self, by rwa [h1] at h⟩
    · exact ⟨s, List.mem_cons_of_mem _ hs, by rwa [h1] at h⟩
  · rintro ⟨s, hs, h⟩
    rcases List.mem_cons.mp hs with rfl | hs
    · exact lt_of_le_of_lt h2 h
    · exact lt_of_le_of_lt (h3 s hs) h

/-- It is strictly outside a 3D union exactly when it is strictly outside all the operands. -/
theorem C16_union3_outside (s0 : SDF3) (l : List SDF3) (p : V3) :
    (SDF3.union s0 l).Outside p ↔ ∀ s ∈ s0 :: l, s.Outside p := by
  obtain ⟨h1, h2, h3⟩ := SDF2.foldl_min_spec (fun s : SDF3 => s.eval p) l (s0.eval p)
  simp only [SDF3.Outside, SDF3.union, SDF3.unionWith]
  constructor
  · intro h s hs
    rcases List.mem_cons.mp hs with rfl | hs
    · exact lt_of_lt_of_le h h2
    · exact lt_of_lt_of_le h (h3 s hs)
  · intro h
    rcases h1 with h1 | ⟨s, hs, h1⟩
    · rw [h1]; exact h s0 List.mem_cons_self
    · rw [h1]; exact h s (List.mem_cons_of_mem _ hs)

/-- A point is inside a 2D union of any number of figures, each contained in its `Bounds` as the interface
demands, exactly when it is inside one of them.  (`Union2D` skips operands by their bounding boxes.) -/
theorem C16_union2 (s0 : SDF2) (l : List SDF2) (hb : ∀ s ∈ s0 :: l, s.Bounded) (p : V2) :
    (SDF2.union s0 l).Inside p ↔ ∃ s ∈ s0 :: l, s.Inside p := by
  obtain ⟨⟨s1, hs1, h1⟩, n, hn, hmin, hnv, hkeep⟩ := SDF2.unionEval_spec s0 l p
  simp only [SDF2.Inside, SDF2.union, SDF2.unionWith]
  constructor
  · intro h
    exact ⟨s1, hs1, by rwa [h1]⟩
  · rintro ⟨s, hs, h⟩
    refine lt_of_le_of_lt (hkeep s hs ?_) h
    have hc := hb s hs p h
    have h0 : (s.bounds.minMaxDist2 p).x ≤ 0 := by
      rw [Box2.minMaxDist2_eq]
      obtain ⟨a, b, c, d⟩ := hc
      have e1 := near1_le (l := s.bounds.lo.x - p.x) (h := s.bounds.hi.x - p.x) (t := 0) (by linarith) (by linarith)
      have e2 := near1_le (l := s.bounds.lo.y - p.y) (h := s.bounds.hi.y - p.y) (t := 0) (by linarith) (by linarith)
      simp only; linarith
    exact le_trans h0 (SDF2.minMaxDist2_nonneg' _ _)

/-- The containment in `Bounds` is needed: the pruning ignores an operand away from its box. -/
theorem C16_union2_needs_bounds : ∃ (s0 s1 : SDF2) (p : V2),
    s1.Inside p ∧ ¬ (SDF2.union s0 [s1]).Inside p := by
  refine ⟨⟨fun _ => 1, ⟨⟨0, 0⟩, ⟨0, 0⟩⟩⟩, ⟨fun _ => -1, ⟨⟨5, 5⟩, ⟨5, 5⟩⟩⟩, ⟨0, 0⟩, ?_, ?_⟩
  · simp [SDF2.Inside]
  · simp only [SDF2.Inside, SDF2.union, SDF2.unionWith, SDF2.unionEval, List.map, Box2.minMaxDist2_eq,
      near1, far1, SDF2.nearestBox, SDF2.prunedLoop, V2.Overlap, List.zip, List.zipWith]
    norm_num [SDF2.nearestBox, SDF2.prunedLoop, V2.Overlap, List.getD]

/-- Inside a difference: inside the first shape and strictly outside the second. -/
theorem C16_difference3 (s0 s1 : SDF3) (p : V3) :
    (SDF3.difference s0 s1).Inside p ↔ s0.Inside p ∧ s1.Outside p := by
  simp only [SDF3.Inside, SDF3.Outside, SDF3.difference, SDF3.differenceWith, max_lt_iff, neg_lt_zero]

/-- As `C16_difference3`, in the plane. -/
theorem C16_difference2 (s0 s1 : SDF2) (p : V2) :
    (SDF2.difference s0 s1).Inside p ↔ s0.Inside p ∧ s1.Outside p := by
  simp only [SDF2.Inside, SDF2.Outside, SDF2.difference, SDF2.differenceWith, max_lt_iff, neg_lt_zero]

/-- Inside an intersection: inside both shapes. -/
theorem C16_intersect3 (s0 s1 : SDF3) (p : V3) :
    (SDF3.intersect s0 s1).Inside p ↔ s0.Inside p ∧ s1.Inside p := by
  simp only [SDF3.Inside, SDF3.intersect, SDF3.intersectWith, max_lt_iff]

/-- As `C16_intersect3`, in the plane. -/
theorem C16_intersect2 (s0 s1 : SDF2) (p : V2) :
    (SDF2.intersect s0 s1).Inside p ↔ s0.Inside p ∧ s1.Inside p := by
  simp only [SDF2.Inside, SDF2.intersect, SDF2.intersectWith, max_lt_iff]

/-- Cutting along the plane through `a` with normal `n` keeps the part on the side `n` points to. -/
theorem C16_cut3 (s : SDF3) (a n : V3) (hn : n ≠ ⟨0, 0, 0⟩) (p : V3) :
    (SDF3.cut s a n).Inside p ↔ s.Inside p ∧ 0 < V3.dot n (V3.sub p a) := by
  have hpos := V3.norm_pos hn
  have e : V3.dot (V3.scale (-1) (V3.unit n)) (V3.sub p a) = -(1 / V3.norm n * V3.dot n (V3.sub p a)) := by
    simp only [V3.dot, V3.scale, V3.unit]; ring
  simp only [SDF3.Inside, SDF3.cut, max_lt_iff, e, neg_lt_zero]
  rw [and_comm, mul_pos_iff_of_pos_left (by positivity)]

/-- Cutting along the line through `a` in direction `v` keeps the part to the right of the line. -/
theorem C16_cut2 (s : SDF2) (a v : V2) (hv : v ≠ ⟨0, 0⟩) (p : V2) :
    (SDF2.cut s a v).Inside p ↔ s.Inside p ∧ V2.cross v (V2.sub p a) < 0 := by
  have hpos := V2.norm_pos hv
  have e : V2.dot ⟨-(V2.unit v).y, (V2.unit v).x⟩ (V2.sub p a) = 1 / V2.norm v * V2.cross v (V2.sub p a) := by
    simp only [V2.dot, V2.scale, V2.unit, V2.cross]; ring
  simp only [SDF2.Inside, SDF2.cut, max_lt_iff, e]
  rw [and_comm, mul_neg_iff]
  have : 0 < 1 / V2.norm v := by positivity
  constructor
  · rintro ⟨h, h1 | h1⟩
    · exact ⟨h, h1.2⟩
    · linarith [h1.1]
  · rintro ⟨h, h1⟩
    exact ⟨h, Or.inl ⟨this, h1⟩⟩

/-- Non-vacuity of `C16_union2`: two bounded squares, a point in the second only. -/
example : ∃ (s0 s1 : SDF2) (p : V2), (∀ s ∈ [s0, s1], s.Bounded) ∧ ¬ s0.Inside p ∧ (SDF2.union s0 [s1]).Inside p := by
  let sq : ℝ → SDF2 := fun c => ⟨fun p => max (|p.x - c| - 1) (|p.y| - 1), ⟨⟨c - 1, -1⟩, ⟨c + 1, 1⟩⟩⟩
  have hb : ∀ c, (sq c).Bounded := by
    intro c p hp
    simp only [sq, max_lt_iff, sub_neg, abs_lt] at hp
    simp only [sq, Box2.Contains]
    refine ⟨?_, ?_, ?_, ?_⟩ <;> linarith [hp.1.1, hp.1.2, hp.2.1, hp.2.2]
  refine ⟨sq 0, sq 5, ⟨5, 0⟩, ?_, ?_, ?_⟩
  · simp [hb]
  · simp [SDF2.Inside, sq]
  · rw [C16_union2 _ _ (by simp [hb])]
    exact ⟨sq 5, by simp, by simp [SDF2.Inside, sq]⟩

end Sdf
