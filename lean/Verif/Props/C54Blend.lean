import Verif.Lemmas.Blend
import Verif.Lemmas.BoxedFits
import Verif.Props.C17Lipschitz
import Verif.Props.C28Blends

/-!
C54: blended booleans.  A union, array or rotated union whose minimum was set to a valid blend (`Blend`, such as `MinPoly` and
`MinExp`, see C28) contains the sharp one and grows by a bounded depth only; differences and intersections likewise shrink.  Distances
stay 1-Lipschitz except in planar unions.
-/

namespace Sdf

/-- A blended union is at least as large as the sharp one: its value is nowhere larger, and smaller by at most one depth for every
operand after the first. -/
theorem C54_union3 (f : ℝ → ℝ → ℝ) (depth : ℝ) (hf : Blend f depth) (s0 : SDF3) (l : List SDF3) (p : V3) :
    (SDF3.unionWith f s0 l).eval p ≤ (SDF3.union s0 l).eval p ∧
    (SDF3.union s0 l).eval p - l.length * depth ≤ (SDF3.unionWith f s0 l).eval p := by
  have := within_foldl hf.depth_nonneg l (F := fun d (x : SDF3) => f d (x.eval p)) (F' := fun d (x : SDF3) => min d (x.eval p))
    (fun a _ e d d' he hd => hf.within he hd _) le_rfl (within_refl (s0.eval p))
  rw [zero_add] at this
  exact this

/-- The same of planar unions, although operands are skipped by their boxes. -/
theorem C54_union2 (f : ℝ → ℝ → ℝ) (depth : ℝ) (hf : Blend f depth) (s0 : SDF2) (l : List SDF2) (p : V2) :
    (SDF2.unionWith f s0 l).eval p ≤ (SDF2.union s0 l).eval p ∧
    (SDF2.union s0 l).eval p - l.length * depth ≤ (SDF2.unionWith f s0 l).eval p := by
  have hc := hf.depth_nonneg
  unfold SDF2.union SDF2.unionWith SDF2.unionEval
  dsimp only
  obtain ⟨_, h⟩ := within_pruned hf p (((s0 :: l).map fun s => s.bounds.minMaxDist2 p).getD
    (SDF2.nearestBox ((s0 :: l).map fun s => s.bounds.minMaxDist2 p) 0 (-1) 0) ⟨0, 0⟩)
    (SDF2.nearestBox ((s0 :: l).map fun s => s.bounds.minMaxDist2 p) 0 (-1) 0)
    ((s0 :: l).zip ((s0 :: l).map fun s => s.bounds.minMaxDist2 p)) 0
  rcases h with ⟨h1, h2⟩ | ⟨r, r', h1, h2, h3⟩
  · rw [h1, h2]
    simp only [Option.getD_none]
    exact ⟨le_rfl, by nlinarith [(Nat.cast_nonneg l.length : (0 : ℝ) ≤ l.length)]⟩
  · rw [h1, h2]
    simp only [Option.getD_some]
    have e : ((s0 :: l).zip ((s0 :: l).map fun s => s.bounds.minMaxDist2 p)).length - 1 = l.length := by simp
    rw [e] at h3
    exact h3

/-- Arrays: smaller by at most one depth for every copy. -/
theorem C54_array3 (f : ℝ → ℝ → ℝ) (depth : ℝ) (hf : Blend f depth) (s : SDF3) (n0 n1 n2 : ℕ) (step p : V3) :
    (s.arrayWith f n0 n1 n2 step).eval p ≤ (s.array n0 n1 n2 step).eval p ∧
    (s.array n0 n1 n2 step).eval p - (n0 * n1 * n2 : ℕ) * depth ≤ (s.arrayWith f n0 n1 n2 step).eval p := by
  have hc := hf.depth_nonneg
  unfold SDF3.array SDF3.arrayWith
  split
  · refine ⟨le_rfl, ?_⟩
    have : (0 : ℝ) ≤ (n0 * n1 * n2 : ℕ) * depth := by positivity
    linarith
  · have := within_array3 hf s n0 n1 n2 step p
    simp only [Int.toNat_natCast]
    push_cast
    rw [show (n0 : ℝ) * n1 * n2 * depth = n0 * (n1 * (n2 * depth)) by ring]
    exact this

theorem C54_array2 (f : ℝ → ℝ → ℝ) (depth : ℝ) (hf : Blend f depth) (s : SDF2) (n0 n1 : ℕ) (step p : V2) :
    (s.arrayWith f n0 n1 step).eval p ≤ (s.array n0 n1 step).eval p ∧
    (s.array n0 n1 step).eval p - (n0 * n1 : ℕ) * depth ≤ (s.arrayWith f n0 n1 step).eval p := by
  have hc := hf.depth_nonneg
  unfold SDF2.array SDF2.arrayWith
  split
  · refine ⟨le_rfl, ?_⟩
    have : (0 : ℝ) ≤ (n0 * n1 : ℕ) * depth := by positivity
    linarith
  · have := within_array2 hf s n0 n1 step p
    simp only [Int.toNat_natCast]
    push_cast
    rw [show (n0 : ℝ) * n1 * depth = n0 * (n1 * depth) by ring]
    exact this

/-- Rotated unions: smaller by at most one depth for every copy. -/
theorem C54_rotate3 (f : ℝ → ℝ → ℝ) (depth : ℝ) (hf : Blend f depth) (s : SDF3) (n : ℕ) (step : M44) (p : V3) :
    (s.rotateUnionWith f n step).eval p ≤ (s.rotateUnion n step).eval p ∧
    (s.rotateUnion n step).eval p - n * depth ≤ (s.rotateUnionWith f n step).eval p := by
  have hc := hf.depth_nonneg
  unfold SDF3.rotateUnion SDF3.rotateUnionWith
  split
  · refine ⟨le_rfl, ?_⟩
    have : (0 : ℝ) ≤ n * depth := by positivity
    linarith
  · have := within_rotate3 hf s step.inverse p n M44.identity 0 _ _ le_rfl (within_refl maxFloat64)
    rw [zero_add] at this
    exact this

theorem C54_rotate2 (f : ℝ → ℝ → ℝ) (depth : ℝ) (hf : Blend f depth) (s : SDF2) (n : ℕ) (step : M33) (p : V2) :
    (s.rotateUnionWith f n step).eval p ≤ (s.rotateUnion n step).eval p ∧
    (s.rotateUnion n step).eval p - n * depth ≤ (s.rotateUnionWith f n step).eval p := by
  have hc := hf.depth_nonneg
  unfold SDF2.rotateUnion SDF2.rotateUnionWith
  split
  · refine ⟨le_rfl, ?_⟩
    have : (0 : ℝ) ≤ n * depth := by positivity
    linarith
  · have := within_rotate2 hf s step.inverse p n M33.identity 0 _ _ le_rfl (within_refl maxFloat64)
    rw [zero_add] at this
    exact this

/-- Blended differences and intersections are at most as large as the sharp ones, and lose at most one depth. -/
theorem C54_difference (g : ℝ → ℝ → ℝ) (depth : ℝ) (hg : BlendMax g depth) :
    (∀ (s0 s1 : SDF3) (p : V3), (SDF3.difference s0 s1).eval p ≤ (SDF3.differenceWith g s0 s1).eval p ∧
      (SDF3.differenceWith g s0 s1).eval p ≤ (SDF3.difference s0 s1).eval p + depth) ∧
    (∀ (s0 s1 : SDF3) (p : V3), (SDF3.intersect s0 s1).eval p ≤ (SDF3.intersectWith g s0 s1).eval p ∧
      (SDF3.intersectWith g s0 s1).eval p ≤ (SDF3.intersect s0 s1).eval p + depth) ∧
    (∀ (s0 s1 : SDF2) (p : V2), (SDF2.difference s0 s1).eval p ≤ (SDF2.differenceWith g s0 s1).eval p ∧
      (SDF2.differenceWith g s0 s1).eval p ≤ (SDF2.difference s0 s1).eval p + depth) ∧
    (∀ (s0 s1 : SDF2) (p : V2), (SDF2.intersect s0 s1).eval p ≤ (SDF2.intersectWith g s0 s1).eval p ∧
      (SDF2.intersectWith g s0 s1).eval p ≤ (SDF2.intersect s0 s1).eval p + depth) :=
  ⟨fun _ _ _ => hg.bounds _ _, fun _ _ _ => hg.bounds _ _, fun _ _ _ => hg.bounds _ _, fun _ _ _ => hg.bounds _ _⟩

/-- `MaxPoly` from degree two on is such a maximum. -/
theorem C54_max_poly (n : ℕ) (hn : 2 ≤ n) (k : ℝ) (hk : 0 < k) : BlendMax (maxPoly n k) (k / (2 * n)) := by
  have e : (fun a b => -maxPoly n k (-a) (-b)) = minPoly n k := by
    funext a b
    rw [C28_max_dual_partial n hn k hk, neg_neg, neg_neg, neg_neg]
  unfold BlendMax
  rw [e]
  exact C28_poly n (by omega) k hk

/-- With `MinPoly` of radius `k` the union of two solids changes exactly where their distances differ by less than `k`; with
`MaxPoly` the intersection. -/
theorem C54_local (n : ℕ) (hn : 2 ≤ n) (k : ℝ) (hk : 0 < k) (s0 s1 : SDF3) (p : V3) :
    ((SDF3.unionWith (minPoly n k) s0 [s1]).eval p = (SDF3.union s0 [s1]).eval p ↔ k ≤ |s0.eval p - s1.eval p|) ∧
    ((SDF3.intersectWith (maxPoly n k) s0 s1).eval p = (SDF3.intersect s0 s1).eval p ↔ k ≤ |s0.eval p - s1.eval p|) := by
  refine ⟨C28_poly_local n hn k hk _ _, ?_⟩
  have h := C28_poly_local n hn k hk (-s0.eval p) (-s1.eval p)
  rw [show -s0.eval p - -s1.eval p = -(s0.eval p - s1.eval p) by ring, abs_neg, min_neg_neg] at h
  rw [← h]
  show maxPoly n k _ _ = max _ _ ↔ _
  rw [C28_max_dual_partial n hn k hk]
  constructor
  · intro h; linarith
  · intro h; rw [h, neg_neg]

/-- Distances are not overestimated by blended solids: all of them are among the shapes of C17. -/
theorem C54_lipschitz (f g : ℝ → ℝ → ℝ) (df dg : ℝ) (hf : Blend f df) (hg : BlendMax g dg) (s0 s1 : SDF3) (l : List SDF3)
    (h0 : Lip3 s0.eval) (h1 : Lip3 s1.eval) (hl : ∀ s ∈ l, Lip3 s.eval) (n0 n1 n2 n : ℤ) (step : V3) (m : M44) (hm : m.Rigid) :
    Lip3 (SDF3.unionWith f s0 l).eval ∧ Lip3 (s0.arrayWith f n0 n1 n2 step).eval ∧ Lip3 (s0.rotateUnionWith f n m).eval ∧
    Lip3 (SDF3.differenceWith g s0 s1).eval ∧ Lip3 (SDF3.intersectWith g s0 s1).eval :=
  ⟨blendUnion3_lip hf fun s hs => by rcases List.mem_cons.1 hs with rfl | hs; exacts [h0, hl s hs],
   blendArray3_lip hf h0 n0 n1 n2 step, blendRotate3_lip hf h0 n hm, BlendMax.lip3 hg h0 (Lip3.neg h1), BlendMax.lip3 hg h0 h1⟩

/-- The box of a blended union is that of the sharp one.  The solid may stick out of it, but at most by one depth for every operand
after the first: operands whose values say how far they are beyond the faces of their boxes. -/
theorem C54_bounds_partial (f : ℝ → ℝ → ℝ) (depth : ℝ) (hf : Blend f depth) (c : ℝ) (s0 : SDF3) (l : List SDF3)
    (h : ∀ s ∈ s0 :: l, Boxed .axes c (.sol s)) (hc : l.length * depth ≤ c) (p : V3) (hp : (SDF3.unionWith f s0 l).Inside p) :
    (SDF3.unionWith f s0 l).bounds = (SDF3.union s0 l).bounds ∧
    (SDF3.union s0 l).bounds.lo.x - l.length * depth < p.x ∧ p.x < (SDF3.union s0 l).bounds.hi.x + l.length * depth ∧
    (SDF3.union s0 l).bounds.lo.y - l.length * depth < p.y ∧ p.y < (SDF3.union s0 l).bounds.hi.y + l.length * depth ∧
    (SDF3.union s0 l).bounds.lo.z - l.length * depth < p.z ∧ p.z < (SDF3.union s0 l).bounds.hi.z + l.length * depth := by
  have hfit : Fits3 Axis3 c (SDF3.union s0 l) := boxed_fits (.union3 .axes c s0 l h)
  have hlt : (SDF3.union s0 l).eval p < l.length * depth := by
    have := (C54_union3 f depth hf s0 l p).2
    unfold SDF3.Inside at hp
    linarith
  have key : ∀ u, Axis3 u → ∃ q, (SDF3.union s0 l).bounds.Contains q ∧ V3.dot u (V3.sub p q) < l.length * depth := by
    intro u hu
    obtain ⟨q, hq, h⟩ := hfit u hu p
    refine ⟨q, hq, ?_⟩
    rcases min_lt_iff.mp (lt_of_le_of_lt h hlt) with h | h
    · exact h
    · exact absurd h (not_lt.mpr hc)
  obtain ⟨q1, h1, k1⟩ := key ⟨1, 0, 0⟩ (by simp [Axis3])
  obtain ⟨q2, h2, k2⟩ := key ⟨-1, 0, 0⟩ (by simp [Axis3])
  obtain ⟨q3, h3, k3⟩ := key ⟨0, 1, 0⟩ (by simp [Axis3])
  obtain ⟨q4, h4, k4⟩ := key ⟨0, -1, 0⟩ (by simp [Axis3])
  obtain ⟨q5, h5, k5⟩ := key ⟨0, 0, 1⟩ (by simp [Axis3])
  obtain ⟨q6, h6, k6⟩ := key ⟨0, 0, -1⟩ (by simp [Axis3])
  simp only [V3.dot, V3.sub] at k1 k2 k3 k4 k5 k6
  obtain ⟨a1, a2, a3, a4, a5, a6⟩ := h1
  obtain ⟨b1, b2, b3, b4, b5, b6⟩ := h2
  obtain ⟨c1, c2, c3, c4, c5, c6⟩ := h3
  obtain ⟨d1, d2, d3, d4, d5, d6⟩ := h4
  obtain ⟨e1, e2, e3, e4, e5, e6⟩ := h5
  obtain ⟨f1, f2, f3, f4, f5, f6⟩ := h6
  refine ⟨rfl, ?_, ?_, ?_, ?_, ?_, ?_⟩ <;> linarith

/-- It does stick out: two crossing bars of the same height, blended with `MinPoly(2, 1)`, reach above their box. -/
theorem C54_bounds_wrong (a b : SDF3) (ha : Must3.box ⟨4, 2, 2⟩ 0 = some a) (hb : Must3.box ⟨2, 4, 2⟩ 0 = some b) :
    a.Bounded ∧ b.Bounded ∧ ∃ p, (SDF3.unionWith (minPoly 2 1) a [b]).Inside p ∧
      ¬ (SDF3.unionWith (minPoly 2 1) a [b]).bounds.Contains p := by
  refine ⟨boxed_fits (.axes_inside 0 0 _ le_rfl (.all_axes 0 _ (.box3 0 _ _ _ ha (by norm_num) (by norm_num) (by norm_num)))),
    boxed_fits (.axes_inside 0 0 _ le_rfl (.all_axes 0 _ (.box3 0 _ _ _ hb (by norm_num) (by norm_num) (by norm_num)))),
    ⟨0, 0, 1.1⟩, ?_, ?_⟩
  · unfold Must3.box at ha hb
    rw [if_neg (by norm_num [V3.LTEZero]), if_neg (by norm_num)] at ha hb
    cases ha
    cases hb
    have e1 : sdfBox3d ⟨0, 0, 1.1⟩ (V3.sub (V3.scale 0.5 ⟨4, 2, 2⟩) (V3.elem 0)) = 0.1 := by
      norm_num [sdfBox3d, V3.sub, V3.scale, V3.elem, V3.absElem]
    have e2 : sdfBox3d ⟨0, 0, 1.1⟩ (V3.sub (V3.scale 0.5 ⟨2, 4, 2⟩) (V3.elem 0)) = 0.1 := by
      norm_num [sdfBox3d, V3.sub, V3.scale, V3.elem, V3.absElem]
    show minPoly 2 1 _ _ < 0
    dsimp only
    rw [e1, e2]
    have := C28_poly_depth 2 le_rfl 1 one_pos (0.1 - 0)
    norm_num at this ⊢
    linarith
  · unfold Must3.box at ha hb
    rw [if_neg (by norm_num [V3.LTEZero]), if_neg (by norm_num)] at ha hb
    cases ha
    cases hb
    norm_num [SDF3.unionWith, Box3.extend, Box3.Contains, V3.scale, V3.minElem, V3.maxElem]


theorem disc_on_axis (x c : ℝ) : (C29_disc ⟨c, 0⟩).eval ⟨x, 0⟩ = |x - c| - 1 := by
  simp only [C29_disc, V2.sub, sub_zero]
  rw [V2.norm_eq_of (r := |x - c|) (abs_nonneg _) (by simp)]

theorem disc_box (x c : ℝ) : (C29_disc ⟨c, 0⟩).bounds.minMaxDist2 ⟨x, 0⟩ =
    ⟨near1 (c - 1 - x) (c + 1 - x) + near1 (-1) 1, far1 (c - 1 - x) (c + 1 - x) + far1 (-1) 1⟩ := by
  rw [Box2.minMaxDist2_eq]
  simp only [C29_disc, V2.sub, V2.add]
  norm_num

/-- Two discs of radius one, four apart, on the line through their centres. -/
theorem blended_discs (x : ℝ) (h0 : 0 ≤ x) (h1 : x < 1) :
    (SDF2.unionWith (minPoly 2 4) (C29_disc ⟨0, 0⟩) [C29_disc ⟨4, 0⟩]).eval ⟨x, 0⟩ = if x < 7 / 8 then x - 1 else x - 1 - x ^ 2 / 4 := by
  have d0 := disc_on_axis x 0
  have d4 := disc_on_axis x 4
  rw [sub_zero, abs_of_nonneg h0] at d0
  rw [abs_of_neg (by linarith)] at d4
  have b0 : (C29_disc ⟨0, 0⟩).bounds.minMaxDist2 ⟨x, 0⟩ = ⟨0, (1 + x) ^ 2 + 1⟩ := by
    rw [disc_box]
    unfold near1 far1
    rw [if_pos ⟨by linarith, by linarith⟩, if_pos ⟨by norm_num, by norm_num⟩,
      max_eq_left (by nlinarith), max_eq_left (by norm_num)]
    ext <;> simp only <;> ring
  have b4 : (C29_disc ⟨4, 0⟩).bounds.minMaxDist2 ⟨x, 0⟩ = ⟨(3 - x) ^ 2, (5 - x) ^ 2 + 1⟩ := by
    rw [disc_box]
    unfold near1 far1
    rw [if_neg (by intro h; linarith [h.1]), if_pos ⟨by norm_num, by norm_num⟩, min_eq_left (by nlinarith),
      max_eq_right (by nlinarith), max_eq_left (by norm_num)]
    ext <;> simp only <;> ring
  have hn : SDF2.nearestBox [(⟨0, (1 + x) ^ 2 + 1⟩ : V2), ⟨(3 - x) ^ 2, (5 - x) ^ 2 + 1⟩] 0 (-1) 0 = 0 := by
    simp only [SDF2.nearestBox]
    rw [if_pos (Or.inl (by norm_num)), if_neg (by push Not; exact ⟨le_rfl, by positivity⟩)]
  have ho : V2.Overlap ⟨0, (1 + x) ^ 2 + 1⟩ ⟨(3 - x) ^ 2, (5 - x) ^ 2 + 1⟩ ↔ ¬ x < 7 / 8 := by
    unfold V2.Overlap
    simp only [not_lt]
    constructor
    · rintro ⟨h, -⟩; nlinarith
    · intro h; exact ⟨by nlinarith, by positivity⟩
  simp only [SDF2.unionWith, SDF2.unionEval, List.map, b0, b4, hn, List.getD, List.getElem?_cons_zero, Option.getD_some,
    List.zip, List.zipWith, SDF2.prunedLoop]
  rw [if_pos (Or.inl rfl)]
  simp only [ho]
  by_cases hx : x < 7 / 8
  · rw [if_neg (by simpa using hx), if_pos hx]
    simpa using d0
  · rw [if_pos (Or.inr hx), if_neg hx, d0, d4]
    simp only [Option.getD_some]
    have := minPoly_eq 2 le_rfl 4 (by norm_num) (x - 1) (-(x - 4) - 1)
    have e : x - 1 - (-(x - 4) - 1) = -(4 - 2 * x) := by ring
    rw [e, abs_neg, abs_of_nonneg (by linarith), max_eq_left (by linarith), min_eq_left (by linarith)] at this
    norm_num at this
    norm_num
    rw [this]
    ring

/-- Planar blended unions jump, however close two points are: an operand is skipped by its box although it would be blended. -/
theorem C54_union2_jump_wrong (eps : ℝ) (he : 0 < eps) : ∃ p q : V2, V2.dist p q < eps ∧
    1 / 8 < |(SDF2.unionWith (minPoly 2 4) (C29_disc ⟨0, 0⟩) [C29_disc ⟨4, 0⟩]).eval p -
      (SDF2.unionWith (minPoly 2 4) (C29_disc ⟨0, 0⟩) [C29_disc ⟨4, 0⟩]).eval q| := by
  set t := min (eps / 2) (1 / 64) with ht
  have t0 : 0 < t := lt_min (by linarith) (by norm_num)
  have t1 : t ≤ eps / 2 := min_le_left _ _
  have t2 : t ≤ 1 / 64 := min_le_right _ _
  refine ⟨⟨7 / 8 - t, 0⟩, ⟨7 / 8, 0⟩, ?_, ?_⟩
  · rw [V2.dist, V2.norm_eq_of (r := t) t0.le (by simp only [V2.sub]; ring)]
    linarith
  · rw [blended_discs _ (by linarith) (by linarith), blended_discs _ (by norm_num) (by norm_num), if_pos (by linarith), if_neg (by norm_num)]
    rw [lt_abs]
    left
    norm_num
    linarith

/-- `MinRound` is no such blend: united with itself by `MinRound(1)`, a ball of radius one overestimates distances. -/
theorem C54_round_wrong (s : SDF3) (hs : Must3.sphere 1 = some s) : Lip3 s.eval ∧ ¬ Lip3 (SDF3.unionWith (minRound 1) s [s]).eval := by
  refine ⟨assembled_lip (.sphere 1 s hs), fun h => ?_⟩
  have hv : ∀ x : ℝ, 1 ≤ x → x ≤ 2 → (SDF3.unionWith (minRound 1) s [s]).eval ⟨x, 0, 0⟩ = 1 - Real.sqrt 2 * (2 - x) := by
    intro x h1 h2
    unfold Must3.sphere at hs
    rw [if_neg (by norm_num)] at hs
    cases hs
    have e : V3.norm ⟨x, 0, 0⟩ = x := V3.norm_eq_of (by linarith) (by simp only; ring)
    show minRound 1 _ _ = _
    simp only [e, minRound, V2.maxElem]
    rw [min_self, max_eq_left (by linarith), max_eq_left (by linarith)]
    congr 1
    refine V2.norm_eq_of (by have := Real.sqrt_nonneg 2; nlinarith) ?_
    have := Real.mul_self_sqrt (show (0 : ℝ) ≤ 2 by norm_num)
    simp only
    linear_combination (-(2 - x) ^ 2) * this
  have := h ⟨2, 0, 0⟩ ⟨1, 0, 0⟩
  rw [hv 2 (by norm_num) le_rfl, hv 1 le_rfl (by norm_num), V3.dist, V3.norm_eq_of (r := 1) zero_le_one (by norm_num [V3.sub]), abs_le] at this
  have := this.2
  have h2 : (1 : ℝ) < Real.sqrt 2 := by
    rw [show (1 : ℝ) = Real.sqrt 1 by simp]; exact Real.sqrt_lt_sqrt (by norm_num) (by norm_num)
  linarith

/-- Three balls blended with `MinPoly(2, 1)`: at most two quarters deeper than the sharp union. -/
example (s : SDF3) (_ : Must3.sphere 1 = some s) (p : V3) :
    (SDF3.union s [s, s]).eval p - 2 * (1 / (2 * 2)) ≤ (SDF3.unionWith (minPoly 2 1) s [s, s]).eval p := by
  have := (C54_union3 (minPoly (2 : ℕ) 1) _ (C28_poly 2 (by norm_num) 1 one_pos) s [s, s] p).2
  norm_num at this ⊢
  linarith

example : BlendMax (maxPoly 2 1) (1 / (2 * (2 : ℕ))) := C54_max_poly 2 le_rfl 1 one_pos

/-- The hypotheses of the theorem on bounds are met. -/
example (a b : SDF3) (ha : Must3.box ⟨4, 2, 2⟩ 0 = some a) (hb : Must3.box ⟨2, 4, 2⟩ 0 = some b) :
    ∀ s ∈ [a, b], Boxed .axes 1 (.sol s) := by
  intro s hs
  simp only [List.mem_cons, List.not_mem_nil, or_false] at hs
  rcases hs with rfl | rfl
  · exact .all_axes 1 _ (.box3 1 _ _ _ ha (by norm_num) (by norm_num) (by norm_num))
  · exact .all_axes 1 _ (.box3 1 _ _ _ hb (by norm_num) (by norm_num) (by norm_num))

end Sdf
