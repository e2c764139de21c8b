import Verif.Lemmas.PolygonList

/-!
C31: polygon distance and sign, for every usable corner list (`Polygon.Proper`).  The list may wind several times and
cross itself.
-/

namespace Sdf
open Polygon Must2

/-- Fewer than three vertices are refused, three or more accepted. -/
theorem C31_refuse (v : List V2) : Must2.polygon v = none ↔ v.length < 3 := by
  match v with
  | [] => simp [Must2.polygon]
  | [_] => simp [Must2.polygon]
  | [_, _] => simp [Must2.polygon]
  | _ :: _ :: _ :: vs => simp [Must2.polygon]

/-- Everything a proper polygon's loop relies on. -/
theorem polygon_good (v : List V2) (h : Proper v) (s : SDF2) (hs : Must2.polygon v = some s) :
    ∃ v0 c, GoodEdges v0 v (edges c) ∧ v.head? = some v0 ∧ s.eval = polygonEval c ∧ s.bounds = polygonBounds v0 c := by
  match v, h, hs with
  | v0 :: v1 :: v2 :: vs, h, hs =>
    refine ⟨v0, _, closeLoop_good v0 v1 v2 vs h, rfl, ?_⟩
    simp only [Must2.polygon, Option.some.injEq] at hs
    rw [← hs]
    exact ⟨rfl, rfl⟩

/-- The magnitude is the distance to the outline, for every point whose squared distance from the outline does not
exceed `math.MaxFloat64` (about `1.3e154` units away). -/
theorem C31_distance (v : List V2) (h : Proper v) (s : SDF2) (hs : Must2.polygon v = some s) (p : V2)
    (hnear : ∃ q, Outline v q ∧ V2.dist p q * V2.dist p q ≤ maxFloat64) : IsDist2 (Outline v) p |s.eval p| := by
  obtain ⟨v0, c, hg, _, he, _⟩ := polygon_good v h s hs
  rw [he, abs_polygonEval c p hg.ne]
  refine ⟨?_, fun q hq => sqrt_polyDD_le p q hg.ne ((hg.outline q).mp hq)⟩
  have key : ∀ e ∈ edges c, polyDD p (edges c) = segDD p e → ∃ q, Outline v q ∧ V2.dist p q = Real.sqrt (polyDD p (edges c)) := by
    intro e he' h1
    obtain ⟨⟨r, hr, hd⟩, _⟩ := (segDD_dist p e (hg.ne e he')).2
    exact ⟨r, (hg.outline r).mpr ⟨e, he', hr⟩, by rw [hd, h1]⟩
  rcases (polyDD_spec p (edges c)).1 with h1 | ⟨e, he', h1⟩
  · obtain ⟨q, hq, hd⟩ := hnear
    obtain ⟨e, he', hq'⟩ := (hg.outline q).mp hq
    have h2 := (segDD_dist p e (hg.ne e he'))
    have h3 := h2.2.2 q hq'
    have h4 : segDD p e ≤ V2.dist p q * V2.dist p q := by
      have := mul_self_le_mul_self (Real.sqrt_nonneg _) h3
      rwa [Real.mul_self_sqrt h2.1] at this
    exact key e he' (le_antisymm ((polyDD_spec p (edges c)).2.2 e he') (by rw [h1]; linarith))
  · exact key e he' h1

/-- The value is zero exactly on the outline. -/
theorem C31_zero (v : List V2) (h : Proper v) (s : SDF2) (hs : Must2.polygon v = some s) (p : V2) :
    s.eval p = 0 ↔ Outline v p := by
  obtain ⟨v0, c, hg, _, he, _⟩ := polygon_good v h s hs
  rw [he, ← abs_eq_zero, abs_polygonEval c p hg.ne, sqrt_polyDD_zero p hg.ne, hg.outline]

/-- Off the outline, the value is negative exactly when the winding number is not zero. -/
theorem C31_sign (v : List V2) (h : Proper v) (s : SDF2) (hs : Must2.polygon v = some s) (p : V2)
    (hp : ¬ Outline v p) : ∃ w : ℤ, IsWinding v p w ∧ (s.eval p < 0 ↔ w ≠ 0) := by
  have h0 := mt (C31_zero v h s hs p).mp hp
  obtain ⟨v0, c, hg, _, he, _⟩ := polygon_good v h s hs
  refine ⟨_, (hg.winding p hp).1, ?_⟩
  rw [he] at h0 ⊢
  rw [polygonEval_eq c p hg.ne] at h0 ⊢
  have hn := Real.sqrt_nonneg (polyDD p (edges c))
  split
  · rename_i hw
    rw [if_pos hw] at h0
    exact ⟨fun _ => hw, fun _ => lt_of_le_of_ne (by linarith) h0⟩
  · rename_i hw
    exact ⟨fun h => absurd h (not_lt.mpr hn), fun h => absurd h hw⟩

/-- The winding number is unique, so the previous theorem determines the sign. -/
theorem C31_winding_unique (v : List V2) (p : V2) (w w' : ℤ) (h : IsWinding v p w) (h' : IsWinding v p w') : w = w' := by
  unfold IsWinding at h h'
  have : (w : ℝ) = w' := mul_left_cancel₀ (by have := Real.pi_pos; positivity) (h.symm.trans h')
  exact_mod_cast this

/-- The reported bounds contain every corner, and each of its four sides passes through one. -/
theorem C31_bounds (v : List V2) (h : Proper v) (s : SDF2) (hs : Must2.polygon v = some s) :
    (∀ x ∈ v, s.bounds.Contains x) ∧ (∃ x ∈ v, x.x = s.bounds.lo.x) ∧ (∃ x ∈ v, x.y = s.bounds.lo.y) ∧
      (∃ x ∈ v, x.x = s.bounds.hi.x) ∧ (∃ x ∈ v, x.y = s.bounds.hi.y) := by
  obtain ⟨v0, c, hg, hv0, _, hb⟩ := polygon_good v h s hs
  have hv0 : v0 ∈ v := List.mem_of_mem_head? hv0
  rw [hb]
  have att : ∀ (f : V2 → ℝ) (m : V2 → V2 → V2), (∀ a b, f (m a b) = f a ∨ f (m a b) = f b) →
      ∃ x ∈ v, f x = f (((edges c).map Prod.fst).foldl m v0) := by
    intro f m hm
    have gen : ∀ (l : List V2) (a : V2), (∀ x ∈ l, x ∈ v) → (∃ x ∈ v, f x = f a) → ∃ x ∈ v, f x = f (l.foldl m a) := by
      intro l
      induction l with
      | nil => intro a _ h; exact h
      | cons b l ih =>
        intro a hl ha
        rw [List.foldl_cons]
        refine ih _ (fun x hx => hl x (List.mem_cons_of_mem _ hx)) ?_
        rcases hm a b with h | h
        · rw [h]; exact ha
        · rw [h]; exact ⟨b, hl b List.mem_cons_self, rfl⟩
    exact gen _ v0 (fun x hx => (hg.fst x).mpr hx) ⟨v0, hv0, rfl⟩
  refine ⟨fun x hx => ?_, att V2.x _ fun a b => min_choice _ _, att V2.y _ fun a b => min_choice _ _,
    att V2.x _ fun a b => max_choice _ _, att V2.y _ fun a b => max_choice _ _⟩
  have hx' := (hg.fst x).mp hx
  have h1 := (V2.foldl_minElem_le _ v0).2 x hx'
  have h2 := (V2.le_foldl_maxElem _ v0).2 x hx'
  exact ⟨h1.1, h1.2, h2.1, h2.2⟩

/-- Outside the bounding box of the corners the value is positive. -/
theorem C31_outside (v : List V2) (h : Proper v) (s : SDF2) (hs : Must2.polygon v = some s) (p : V2)
    (hp : ¬ s.bounds.Contains p) : 0 < s.eval p := by
  have hbd := (C31_bounds v h s hs).1
  have hz := C31_zero v h s hs p
  obtain ⟨v0, c, hg, _, he, _⟩ := polygon_good v h s hs
  have hw := hg.winding_outside s.bounds hbd p hp
  have hnot : ¬ Outline v p := by
    rintro ⟨e, he', t, t0, t1, rfl⟩
    have h1 := List.of_mem_zip he'
    have a := hbd _ h1.1
    have b := hbd _ (List.mem_rotate.mp h1.2)
    apply hp
    simp only [Box2.Contains, V2.add, V2.scale, V2.sub] at a b ⊢
    refine ⟨?_, ?_, ?_, ?_⟩ <;> nlinarith [a.1, a.2.1, a.2.2.1, a.2.2.2, b.1, b.2.1, b.2.2.1, b.2.2.2]
  have h0 := mt hz.mp hnot
  rw [he, polygonEval_eq c p hg.ne, if_neg (not_not.mpr hw)] at h0 ⊢
  exact lt_of_le_of_ne (Real.sqrt_nonneg _) (Ne.symm h0)

/-- The value is 1-Lipschitz everywhere, also across the outline. -/
theorem C31_lipschitz (v : List V2) (h : Proper v) (s : SDF2) (hs : Must2.polygon v = some s) : Lip2 s.eval := by
  obtain ⟨v0, c, hg, _, he, _⟩ := polygon_good v h s hs
  intro p q
  rw [he]
  have h1 := sqrt_polyDD_lip p q hg.ne
  have h2 := sqrt_polyDD_lip q p hg.ne
  rw [V2.dist_comm q p] at h2
  by_cases hpath : ∀ t : ℝ, 0 ≤ t → t ≤ 1 → ¬ Outline v (V2.add p (V2.scale t (V2.sub q p)))
  · have hw := hg.winding_const p q hpath
    rw [polygonEval_eq c p hg.ne, polygonEval_eq c q hg.ne, hw, abs_le]
    split <;> constructor <;> linarith
  · push Not at hpath
    obtain ⟨t, t0, t1, hr⟩ := hpath
    have hr' := (hg.outline _).mp hr
    have d1 := sqrt_polyDD_le p _ hg.ne hr'
    have d2 := sqrt_polyDD_le q _ hg.ne hr'
    have e1 : V2.dist p (V2.add p (V2.scale t (V2.sub q p))) = t * V2.dist p q := by
      have : V2.sub p (V2.add p (V2.scale t (V2.sub q p))) = V2.scale t (V2.sub p q) := by
        ext <;> simp [V2.sub, V2.add, V2.scale] <;> ring
      rw [V2.dist, this, V2.norm_scale, abs_of_nonneg t0]; rfl
    have e2 : V2.dist q (V2.add p (V2.scale t (V2.sub q p))) = (1 - t) * V2.dist p q := by
      have : V2.sub q (V2.add p (V2.scale t (V2.sub q p))) = V2.scale (-(1 - t)) (V2.sub p q) := by
        ext <;> simp [V2.sub, V2.add, V2.scale] <;> ring
      rw [V2.dist, this, V2.norm_scale, abs_neg, abs_of_nonneg (by linarith)]; rfl
    have a1 := abs_polygonEval c p hg.ne
    have a2 := abs_polygonEval c q hg.ne
    calc |polygonEval c p - polygonEval c q| ≤ |polygonEval c p| + |polygonEval c q| := abs_sub _ _
      _ ≤ V2.dist p q := by rw [a1, a2]; linarith

/-- The corner list of the tests below is usable: the unit square. -/
theorem square_proper : Proper [⟨0, 0⟩, ⟨1, 0⟩, ⟨1, 1⟩, ⟨0, 1⟩] := by
  refine ⟨by simp, ?_, ?_⟩
  · simp
  · intro a b ha hb
    simp at ha hb
    right
    subst ha hb
    intro h
    have := h.2
    norm_num at this

/-- The centre of the unit square is inside. -/
example : ∃ s, Must2.polygon [⟨0, 0⟩, ⟨1, 0⟩, ⟨1, 1⟩, ⟨0, 1⟩] = some s ∧ s.eval ⟨1/2, 1/2⟩ < 0 := by
  refine ⟨_, rfl, ?_⟩
  have hc : closeLoop ⟨0, 0⟩ [⟨0, 0⟩, ⟨1, 0⟩, ⟨1, 1⟩, ⟨0, 1⟩] = [⟨0, 0⟩, ⟨1, 0⟩, ⟨1, 1⟩, ⟨0, 1⟩, ⟨0, 0⟩] := by
    unfold closeLoop
    rw [if_pos]
    · rfl
    · intro h
      have := h.2
      norm_num [Must2.tolerance] at this
  have hne : ∀ e ∈ edges [⟨0, 0⟩, ⟨1, 0⟩, ⟨1, 1⟩, ⟨0, 1⟩, ⟨0, 0⟩], e.1 ≠ e.2 := by simp [edges]
  show polygonEval (closeLoop _ _) _ < _
  rw [hc, polygonEval_eq _ _ hne, if_pos]
  · rw [neg_lt_zero]
    refine lt_of_le_of_ne (Real.sqrt_nonneg _) (Ne.symm ?_)
    rw [Ne, sqrt_polyDD_zero _ hne]
    rintro ⟨e, he, t, t0, t1, hq⟩
    simp only [edges, List.tail_cons, List.zip_cons_cons, List.mem_cons, List.zip_nil_right, List.not_mem_nil, or_false] at he
    have hx := congrArg V2.x hq
    have hy := congrArg V2.y hq
    rcases he with rfl | rfl | rfl | rfl <;> simp [V2.add, V2.scale, V2.sub] at hx hy
  · simp only [edges, List.tail_cons, List.zip_cons_cons, List.map_cons, List.zip_nil_right, List.map_nil, List.sum_cons,
      List.sum_nil, segWn, V2.cross, V2.sub]
    norm_num

/-- Without `Proper` the sign is wrong: if the last vertex is merely within `1e-9` of the first one, the outline is left
open, and points in the thin strip beside the gap count as inside however far away they are.  Here a point 100 units
from every vertex, far outside the bounding box, has value at most -100. -/
theorem C31_nearly_closed_wrong : ∃ (v : List V2) (s : SDF2) (p : V2), (∀ e ∈ v.zip v.tail, e.1 ≠ e.2) ∧
    Must2.polygon v = some s ∧ (∀ x ∈ v, x.x - p.x ≥ 100) ∧ s.eval p ≤ -100 := by
  have hc : closeLoop ⟨0, 0⟩ [⟨0, 0⟩, ⟨1, 0⟩, ⟨1, 1⟩, ⟨0, 1 / 1000000000⟩] =
      [⟨0, 0⟩, ⟨1, 0⟩, ⟨1, 1⟩, ⟨0, 1 / 1000000000⟩] := by
    unfold closeLoop
    rw [if_neg]
    simp only [not_not, V2.EqualWithin, Must2.tolerance, List.getLastD_cons, List.getLastD_nil]
    constructor
    · simp
    · rw [zero_sub, abs_neg, abs_of_pos] <;> norm_num
  have hne : ∀ e ∈ edges [⟨0, 0⟩, ⟨1, 0⟩, ⟨1, 1⟩, ⟨0, 1 / 1000000000⟩], e.1 ≠ e.2 := by simp [edges]
  refine ⟨[⟨0, 0⟩, ⟨1, 0⟩, ⟨1, 1⟩, ⟨0, 1 / 1000000000⟩], _, ⟨-100, 1 / 2000000000⟩, hne, rfl, ?_, ?_⟩
  · intro x hx
    simp only [List.mem_cons, List.not_mem_nil, or_false] at hx
    rcases hx with rfl | rfl | rfl | rfl <;> norm_num
  · show polygonEval (closeLoop _ _) _ ≤ _
    rw [hc, polygonEval_eq _ _ hne, if_pos]
    · have hpos : ∀ e ∈ edges [⟨0, 0⟩, ⟨1, 0⟩, ⟨1, 1⟩, ⟨0, 1 / 1000000000⟩], 0 ≤ e.1.x ∧ 0 ≤ e.2.x := by simp [edges]
      apply neg_le_neg
      refine Real.le_sqrt_of_sq_le ?_
      rcases (polyDD_spec ⟨-100, 1 / 2000000000⟩ (edges [⟨0, 0⟩, ⟨1, 0⟩, ⟨1, 1⟩, ⟨0, 1 / 1000000000⟩])).1 with h | ⟨e, he, h⟩ <;>
        rw [h]
      · have := maxFloat64_gt
        linarith
      · obtain ⟨h0, ⟨q, ⟨t, t0, t1, hq⟩, hd⟩, _⟩ := segDD_dist ⟨-100, 1 / 2000000000⟩ e (hne e he)
        have hx : 0 ≤ q.x := by
          have := hpos e he
          rw [hq]
          simp only [V2.add, V2.scale, V2.sub]
          nlinarith [this.1, this.2]
        have h1 := V2.abs_x_le (V2.sub ⟨-100, 1 / 2000000000⟩ q)
        have h2 : V2.norm (V2.sub ⟨-100, 1 / 2000000000⟩ q) = Real.sqrt (segDD ⟨-100, 1 / 2000000000⟩ e) := hd
        rw [h2] at h1
        have h3 : (100 : ℝ) ≤ |(V2.sub ⟨-100, 1 / 2000000000⟩ q).x| := by
          simp only [V2.sub]
          rw [abs_of_nonpos (by linarith)]; linarith
        have h4 := Real.mul_self_sqrt h0
        nlinarith
    · simp only [edges, List.tail_cons, List.zip_cons_cons, List.map_cons, List.zip_nil_right, List.map_nil, List.sum_cons,
        List.sum_nil, segWn, V2.cross, V2.sub]
      norm_num

end Sdf
