import Verif.Lemmas.Union2
import Verif.Lemmas.MaxFloat
import Verif.Spec.Trees

/-!
C29: the bounding-box pruning of `Union2D`.  False in general; true for figures whose value is at least the
distance to their bounding box and which are not empty.
-/

namespace Sdf

/-- The plain minimum over all operands: the specification of the pruned evaluation. -/
def IsUnionValue (l : List SDF2) (p : V2) (r : ℝ) : Prop :=
  (∃ s ∈ l, s.eval p = r) ∧ ∀ s ∈ l, r ≤ s.eval p

/-- `EvaluateSlow` computes the plain minimum. -/
theorem C29_slow (s0 : SDF2) (l : List SDF2) (p : V2) :
    IsUnionValue (s0 :: l) p (SDF2.unionEvalSlow min s0 l p) := by
  obtain ⟨h1, h2, h3⟩ := SDF2.foldl_min_spec (fun s : SDF2 => s.eval p) l (s0.eval p)
  refine ⟨?_, ?_⟩
  · rcases h1 with h1 | ⟨s, hs, h1⟩
    · exact ⟨s0, List.mem_cons_self, h1.symm⟩
    · exact ⟨s, List.mem_cons_of_mem _ hs, h1.symm⟩
  · intro s hs
    rcases List.mem_cons.mp hs with rfl | hs
    · exact h2
    · exact h3 s hs

/-- For non-empty 1-Lipschitz figures that are at least as far away as their bounding box, `Evaluate` of a
union is the plain minimum.  Missing from C29: operands that are empty (such as `Array2D` with count zero) or
whose value underestimates the distance to their box. -/
theorem C29_pruning_partial (s0 : SDF2) (l : List SDF2) (p : V2)
    (h : ∀ s ∈ s0 :: l, Lip2 s.eval ∧ s.AtLeastBoxDistance ∧ s.NonEmpty) :
    IsUnionValue (s0 :: l) p ((SDF2.union s0 l).eval p) := by
  obtain ⟨h1, n, hn, hmin, hnv, hkeep⟩ := SDF2.unionEval_spec s0 l p
  refine ⟨h1, ?_⟩
  intro s hs
  by_cases hk : (s.bounds.minMaxDist2 p).x ≤ (n.bounds.minMaxDist2 p).y
  · exact hkeep s hs hk
  · push Not at hk
    refine le_trans hnv ?_
    -- the nearest operand is at most the farthest distance of its box
    obtain ⟨hl, -, q, hq, hq0⟩ := h n hn
    have e1 : n.eval p ≤ V2.dist p q := by
      have := (abs_le.mp (hl p q)).2
      linarith
    have e2 : V2.dist p q * V2.dist p q ≤ (n.bounds.minMaxDist2 p).y := by
      rw [Box2.minMaxDist2_eq]
      obtain ⟨a, b, c, d⟩ := hq
      have f1 := le_far1 (l := n.bounds.lo.x - p.x) (h := n.bounds.hi.x - p.x) (t := q.x - p.x) (by linarith) (by linarith)
      have f2 := le_far1 (l := n.bounds.lo.y - p.y) (h := n.bounds.hi.y - p.y) (t := q.y - p.y) (by linarith) (by linarith)
      rw [V2.dist, V2.norm_sq]
      simp only [V2.sub]
      nlinarith
    -- the pruned operand is at least the nearest distance of its box
    obtain ⟨-, hs2, -⟩ := h s hs
    rcases hs2 p with hin | ⟨q', hq', hd⟩
    · exfalso
      have h0 : (s.bounds.minMaxDist2 p).x ≤ 0 := by
        rw [Box2.minMaxDist2_eq]
        obtain ⟨a, b, c, d⟩ := hin
        have e1 := near1_le (l := s.bounds.lo.x - p.x) (h := s.bounds.hi.x - p.x) (t := 0) (by linarith) (by linarith)
        have e2 := near1_le (l := s.bounds.lo.y - p.y) (h := s.bounds.hi.y - p.y) (t := 0) (by linarith) (by linarith)
        simp only; linarith
      linarith [SDF2.minMaxDist2_nonneg' n.bounds p]
    · have e3 : (s.bounds.minMaxDist2 p).x ≤ V2.dist p q' * V2.dist p q' := by
        rw [Box2.minMaxDist2_eq]
        obtain ⟨a, b, c, d⟩ := hq'
        have f1 := near1_le (l := s.bounds.lo.x - p.x) (h := s.bounds.hi.x - p.x) (t := q'.x - p.x) (by linarith) (by linarith)
        have f2 := near1_le (l := s.bounds.lo.y - p.y) (h := s.bounds.hi.y - p.y) (t := q'.y - p.y) (by linarith) (by linarith)
        rw [V2.dist, V2.norm_sq]
        simp only [V2.sub]
        nlinarith
      have : V2.dist p q ≤ V2.dist p q' := by
        by_contra hc
        push Not at hc
        nlinarith [V2.dist_nonneg p q']
      linarith

/-- The pruned and the slow evaluation agree under the same hypotheses. -/
theorem C29_agree_partial (s0 : SDF2) (l : List SDF2) (p : V2)
    (h : ∀ s ∈ s0 :: l, Lip2 s.eval ∧ s.AtLeastBoxDistance ∧ s.NonEmpty) :
    (SDF2.union s0 l).eval p = SDF2.unionEvalSlow min s0 l p := by
  obtain ⟨⟨a, ha, ea⟩, h1⟩ := C29_pruning_partial s0 l p h
  obtain ⟨⟨b, hb, eb⟩, h2⟩ := C29_slow s0 l p
  apply le_antisymm
  · rw [← eb]; exact h1 b hb
  · rw [← ea]; exact h2 a ha

/-- A disc of radius one, as `must2.Circle` makes it. -/
noncomputable def C29_disc (c : V2) : SDF2 :=
  ⟨fun p => V2.norm (V2.sub p c) - 1, ⟨V2.sub c ⟨1, 1⟩, V2.add c ⟨1, 1⟩⟩⟩

/-- C29 is false in general: united with an empty array, a disc at distance 3 seems to be `MaxFloat64` away. -/
theorem C29_empty_operand_wrong : ∃ (s0 s1 : SDF2) (p : V2),
    s0 = SDF2.array (C29_disc ⟨0, 0⟩) 0 1 ⟨1, 1⟩ ∧ s1 = C29_disc ⟨4, 0⟩ ∧
    s1.eval p = 3 ∧ (SDF2.union s0 [s1]).eval p = maxFloat64 ∧ 3 < maxFloat64 := by
  refine ⟨_, _, ⟨0, 0⟩, rfl, rfl, ?_, ?_, ?_⟩
  · simp only [C29_disc, V2.sub]
    rw [V2.norm_eq_of (r := 4) (by norm_num) (by norm_num)]; norm_num
  · have e : SDF2.array (C29_disc ⟨0, 0⟩) 0 1 ⟨1, 1⟩ = ⟨fun _ => maxFloat64, ⟨⟨0, 0⟩, ⟨0, 0⟩⟩⟩ := by
      simp only [SDF2.array, SDF2.arrayWith, SDF2.emptyFrom, SDF2.empty, C29_disc, Box2.center, Box2.size,
        V2.add, V2.sub, V2.scale]
      norm_num
    rw [e]
    simp only [SDF2.union, SDF2.unionWith, SDF2.unionEval, List.map, Box2.minMaxDist2_eq, C29_disc, V2.add, V2.sub,
      near1, far1, SDF2.nearestBox, SDF2.prunedLoop, V2.Overlap, List.zip, List.zipWith]
    norm_num [SDF2.nearestBox, SDF2.prunedLoop, V2.Overlap, List.getD]
  · linarith [maxFloat64_gt]

/-- Non-vacuity: discs satisfy the hypotheses of the theorem. -/
theorem C29_disc_ok (c : V2) : Lip2 (C29_disc c).eval ∧ (C29_disc c).AtLeastBoxDistance ∧ (C29_disc c).NonEmpty := by
  refine ⟨?_, ?_, ?_⟩
  · intro p q
    simp only [C29_disc]
    have := V2.norm_sub_le (V2.sub p c) (V2.sub q c)
    have e : V2.dist (V2.sub p c) (V2.sub q c) = V2.dist p q := by
      unfold V2.dist; congr 1; simp [V2.sub]
    rw [e] at this
    calc _ = |V2.norm (V2.sub p c) - V2.norm (V2.sub q c)| := by congr 1; ring
      _ ≤ _ := this
  · intro p
    by_cases h : V2.norm (V2.sub p c) ≤ 1
    · left
      have hx := abs_le.mp (le_trans (V2.abs_x_le (V2.sub p c)) h)
      have hy := abs_le.mp (le_trans (V2.abs_y_le (V2.sub p c)) h)
      simp only [V2.sub] at hx hy
      simp only [Box2.Contains, C29_disc, V2.sub, V2.add]
      refine ⟨?_, ?_, ?_, ?_⟩ <;> linarith [hx.1, hx.2, hy.1, hy.2]
    · right
      push Not at h
      set r := V2.norm (V2.sub p c) with hr
      have hr0 : 0 < r := by linarith
      set u := V2.scale (1 / r) (V2.sub p c) with hu
      have hun : V2.norm u = 1 := by
        rw [hu, V2.norm_scale, abs_of_pos (by positivity), ← hr]; field_simp
      refine ⟨V2.add c u, ?_, ?_⟩
      · have hx := abs_le.mp (le_trans (V2.abs_x_le u) hun.le)
        have hy := abs_le.mp (le_trans (V2.abs_y_le u) hun.le)
        simp only [Box2.Contains, C29_disc, V2.sub, V2.add]
        refine ⟨?_, ?_, ?_, ?_⟩ <;> linarith [hx.1, hx.2, hy.1, hy.2]
      · have e : V2.sub p (V2.add c u) = V2.scale (1 - 1 / r) (V2.sub p c) := by
          simp only [hu, V2.sub, V2.add, V2.scale]; ext <;> ring
        simp only [C29_disc, V2.dist]
        rw [e, V2.norm_scale, ← hr, abs_of_nonneg (by rw [sub_nonneg, div_le_one hr0]; exact h.le)]
        have : (1 - 1 / r) * r = r - 1 := by field_simp
        rw [this]
  · refine ⟨c, ?_, ?_⟩
    · simp only [Box2.Contains, C29_disc, V2.sub, V2.add]; refine ⟨?_, ?_, ?_, ?_⟩ <;> linarith
    · simp only [C29_disc, V2.sub, sub_self]
      rw [V2.norm_eq_of (r := 0) le_rfl (by norm_num)]; norm_num

example (p : V2) : (SDF2.union (C29_disc ⟨0, 0⟩) [C29_disc ⟨4, 0⟩, C29_disc ⟨0, 9⟩]).eval p =
    SDF2.unionEvalSlow min (C29_disc ⟨0, 0⟩) [C29_disc ⟨4, 0⟩, C29_disc ⟨0, 9⟩] p :=
  C29_agree_partial _ _ p (by simp [C29_disc_ok])

end Sdf
