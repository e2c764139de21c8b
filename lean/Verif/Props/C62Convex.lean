import Verif.Lemmas.Convex

/-!
C62: convex polygons.  A convex polygon consists of the points on the inner side of all its sides.
-/

namespace Sdf
namespace Polygon
open Must2

/-- On which side of the line through the side `e` the point `p` is: positive on the left of the direction from the first corner to the
second, negative on the right, zero on the line. -/
def leftOf (e : V2 × V2) (p : V2) : ℝ := V2.cross (V2.sub e.2 e.1) (V2.sub p e.1)

/-- `v` is a convex polygon: no corner is beyond the line of a side, all being on the left (`σ = 1`, corners in counter-clockwise
order) or all on the right (`σ = -1`); and it is not flat, `m` being a point strictly within. -/
structure ConvexAbout (σ : ℝ) (v : List V2) (m : V2) : Prop where
  sign : σ = 1 ∨ σ = -1
  corners : ∀ e ∈ sides v, ∀ w ∈ v, 0 ≤ σ * leftOf e w
  within : ∀ e ∈ sides v, 0 < σ * leftOf e m

theorem leftOf_line (e : V2 × V2) (p q : V2) (t : ℝ) :
    leftOf e (V2.add p (V2.scale t (V2.sub q p))) = (1 - t) * leftOf e p + t * leftOf e q := by
  simp only [leftOf, V2.cross, V2.add, V2.scale, V2.sub]; ring

theorem leftOf_side {a b q : V2} (h : OnSegment a b q) : leftOf (a, b) q = 0 := by
  obtain ⟨t, -, -, rfl⟩ := h
  simp only [leftOf, V2.cross, V2.add, V2.scale, V2.sub]; ring

theorem seenAngle_pos {σ : ℝ} (hσ : σ = 1 ∨ σ = -1) {e : V2 × V2} {p : V2} (h : 0 < σ * leftOf e p) : 0 < σ * seenAngle p e.1 e.2 := by
  obtain ⟨a, b⟩ := e
  have hc : V2.cross (V2.sub a p) (V2.sub b p) = leftOf (a, b) p := by
    simp only [leftOf, V2.cross, V2.sub]; ring
  have hn : 0 < Complex.normSq (toC (V2.sub a p)) := by
    refine Complex.normSq_pos.mpr fun h0 => ?_
    have hx : a.x - p.x = 0 := congrArg Complex.re h0
    have hy : a.y - p.y = 0 := congrArg Complex.im h0
    rw [← hc] at h
    simp only [V2.cross, V2.sub, hx, hy] at h
    norm_num at h
  have him := ratio_im p a b
  rw [hc] at him
  unfold seenAngle
  simp only
  rcases hσ with rfl | rfl
  · have h1 : 0 < ((toC b - toC p) / (toC a - toC p)).im := by rw [him]; exact div_pos (by linarith) hn
    have h2 := Complex.arg_nonneg_iff.mpr h1.le
    have h3 : Complex.arg ((toC b - toC p) / (toC a - toC p)) ≠ 0 := fun h0 => by
      have := (Complex.arg_eq_zero_iff.mp h0).2
      linarith
    rw [one_mul]
    exact lt_of_le_of_ne h2 h3.symm
  · have h1 : ((toC b - toC p) / (toC a - toC p)).im < 0 := by rw [him]; exact div_neg_of_neg_of_pos (by linarith) hn
    have := Complex.arg_neg_iff.mpr h1
    linarith

theorem convex_inside {σ : ℝ} {v : List V2} {m : V2} (h : ConvexAbout σ v m) (hv : Proper v) {s : SDF2} (hs : Must2.polygon v = some s)
    {p : V2} (hp : ∀ e ∈ sides v, 0 < σ * leftOf e p) : s.eval p < 0 := by
  have hno : ¬ Outline v p := by
    rintro ⟨e, he, hq⟩
    have := hp e he
    rw [leftOf_side hq, mul_zero] at this
    exact lt_irrefl _ this
  obtain ⟨w, hw, hsgn⟩ := C31_sign v hv s hs p hno
  rw [hsgn]
  rintro rfl
  unfold IsWinding at hw
  have hsum : 0 < ((sides v).map fun e => σ * seenAngle p e.1 e.2).sum := by
    refine List.sum_pos _ (fun x hx => ?_) ?_
    · obtain ⟨e, he, rfl⟩ := List.mem_map.mp hx
      exact seenAngle_pos h.sign (hp e he)
    · intro h0
      have h1 := congrArg List.length h0
      have h2 := hv.1
      simp only [sides, List.length_map, List.length_zip, List.length_rotate, List.length_nil] at h1
      omega
  rw [List.sum_map_mul_left, hw] at hsum
  simp at hsum

theorem convex_outside {σ : ℝ} {v : List V2} {m : V2} (h : ConvexAbout σ v m) (hv : Proper v) {s : SDF2} (hs : Must2.polygon v = some s)
    {p : V2} {e : V2 × V2} (he : e ∈ sides v) (hp : σ * leftOf e p < 0) : 0 < s.eval p := by
  refine beyond_line hv hs (n := ⟨σ * (e.2.y - e.1.y), -(σ * (e.2.x - e.1.x))⟩)
    (c := V2.dot ⟨σ * (e.2.y - e.1.y), -(σ * (e.2.x - e.1.x))⟩ e.1) (fun w hw => ?_) ?_ (p := p) ?_
  · have := h.corners e he w hw
    simp only [leftOf, V2.cross, V2.sub, V2.dot] at this ⊢
    linarith
  · by_contra hc
    push Not at hc
    simp only at hc
    simp only [leftOf, V2.cross, V2.sub] at hp
    have : σ * ((e.2.x - e.1.x) * (p.y - e.1.y) - (e.2.y - e.1.y) * (p.x - e.1.x)) = 0 := by
      linear_combination -(p.y - e.1.y) * hc.2 - (p.x - e.1.x) * hc.1
    linarith
  · simp only [leftOf, V2.cross, V2.sub, V2.dot] at hp ⊢
    linarith

end Polygon

open Polygon

/-- The polygon with convex corners has inside exactly the points on the inner side of all its sides, and outside exactly those beyond
the line of some side. -/
theorem C62_convex (σ : ℝ) (v : List V2) (m : V2) (h : ConvexAbout σ v m) (hv : Proper v) (s : SDF2) (hs : Must2.polygon v = some s) (p : V2) :
    (s.eval p < 0 ↔ ∀ e ∈ sides v, 0 < σ * leftOf e p) ∧ (0 < s.eval p ↔ ∃ e ∈ sides v, σ * leftOf e p < 0) := by
  have hL := C31_lipschitz v hv s hs
  refine ⟨⟨fun hp e he => ?_, convex_inside h hv hs⟩, fun hp => ?_, fun ⟨e, he, hp⟩ => convex_outside h hv hs he hp⟩
  · by_contra hc
    push Not at hc
    -- a little further out is outside
    set n : V2 := V2.sub p m with hn
    have hlt := h.within e he
    obtain ⟨t, t0, ht⟩ : ∃ t, 0 < t ∧ t * V2.norm n < -s.eval p := by
      have hn0 := V2.norm_nonneg n
      refine ⟨-s.eval p / (2 * (V2.norm n + 1)), by apply div_pos <;> linarith, ?_⟩
      rw [div_mul_eq_mul_div, div_lt_iff₀ (by linarith)]
      nlinarith
    have h1 := convex_outside h hv hs (p := V2.add m (V2.scale (1 + t) (V2.sub p m))) he (by
      rw [leftOf_line, show σ * ((1 - (1 + t)) * leftOf e m + (1 + t) * leftOf e p) = -(t * (σ * leftOf e m)) + (1 + t) * (σ * leftOf e p) by ring]
      have := mul_pos t0 hlt
      have := mul_nonpos_of_nonneg_of_nonpos (show 0 ≤ 1 + t by linarith) hc
      linarith)
    have h2 := (abs_le.mp (hL (V2.add m (V2.scale (1 + t) (V2.sub p m))) p)).2
    have h3 : V2.dist (V2.add m (V2.scale (1 + t) (V2.sub p m))) p = t * V2.norm n := by
      unfold V2.dist
      rw [show V2.sub (V2.add m (V2.scale (1 + t) (V2.sub p m))) p = V2.scale t n by
        rw [hn]; ext <;> simp only [V2.add, V2.scale, V2.sub] <;> ring]
      rw [V2.norm_scale, abs_of_pos t0]
    rw [h3] at h2
    linarith
  · by_contra hc
    push Not at hc
    -- a little closer to `m` is inside
    obtain ⟨t, t0, t1, ht⟩ : ∃ t, 0 < t ∧ t < 1 ∧ t * V2.norm (V2.sub p m) < s.eval p := by
      have hn0 := V2.norm_nonneg (V2.sub p m)
      refine ⟨min (1 / 2) (s.eval p / (2 * (V2.norm (V2.sub p m) + 1))), lt_min (by norm_num) (by positivity),
        (min_le_left _ _).trans_lt (by norm_num), ?_⟩
      refine (mul_le_mul_of_nonneg_right (min_le_right _ _) hn0).trans_lt ?_
      rw [div_mul_eq_mul_div, div_lt_iff₀ (by linarith)]
      nlinarith
    have h1 := convex_inside h hv hs (p := V2.add p (V2.scale t (V2.sub m p))) fun e he => by
      rw [leftOf_line, show σ * ((1 - t) * leftOf e p + t * leftOf e m) = (1 - t) * (σ * leftOf e p) + t * (σ * leftOf e m) by ring]
      have := mul_pos t0 (h.within e he)
      have := mul_nonneg (sub_nonneg.mpr t1.le) (hc e he)
      linarith
    have h2 := (abs_le.mp (hL p (V2.add p (V2.scale t (V2.sub m p))))).2
    have h3 : V2.dist p (V2.add p (V2.scale t (V2.sub m p))) = t * V2.norm (V2.sub p m) := by
      unfold V2.dist
      rw [show V2.sub p (V2.add p (V2.scale t (V2.sub m p))) = V2.scale t (V2.sub p m) by
        ext <;> simp only [V2.add, V2.scale, V2.sub] <;> ring]
      rw [V2.norm_scale, abs_of_pos t0]
    rw [h3] at h2
    linarith

/-- Convex polygons are convex sets. -/
theorem C62_convex_set (σ : ℝ) (v : List V2) (m : V2) (h : ConvexAbout σ v m) (hv : Proper v) (s : SDF2) (hs : Must2.polygon v = some s)
    (p q : V2) (hp : s.Inside p) (hq : s.Inside q) (t : ℝ) (h0 : 0 ≤ t) (h1 : t ≤ 1) :
    s.Inside (V2.add p (V2.scale t (V2.sub q p))) := by
  have hp := (C62_convex σ v m h hv s hs p).1.mp hp
  have hq := (C62_convex σ v m h hv s hs q).1.mp hq
  refine (C62_convex σ v m h hv s hs _).1.mpr fun e he => ?_
  rw [leftOf_line, show σ * ((1 - t) * leftOf e p + t * leftOf e q) = (1 - t) * (σ * leftOf e p) + t * (σ * leftOf e q) by ring]
  have := hp e he
  have := hq e he
  rcases h0.lt_or_eq with h | rfl
  · have := mul_nonneg (sub_nonneg.mpr h1) (hp e he).le
    have := mul_pos h (hq e he)
    linarith
  · linarith

/-- Non-vacuity: a triangle, in both orders. -/
example : ConvexAbout 1 [⟨0, 0⟩, ⟨4, 0⟩, ⟨0, 3⟩] ⟨1, 1⟩ ∧ ConvexAbout (-1) [⟨0, 0⟩, ⟨0, 3⟩, ⟨4, 0⟩] ⟨1, 1⟩ ∧
    Proper [⟨0, 0⟩, ⟨4, 0⟩, ⟨0, 3⟩] := by
  refine ⟨⟨.inl rfl, ?_, ?_⟩, ⟨.inr rfl, ?_, ?_⟩, by simp, ?_, ?_⟩
  · simp [sides, leftOf, V2.cross, V2.sub]; norm_num
  · simp [sides, leftOf, V2.cross, V2.sub]; norm_num
  · simp [sides, leftOf, V2.cross, V2.sub]; norm_num
  · simp [sides, leftOf, V2.cross, V2.sub]; norm_num
  · simp
  · intro a b ha hb
    simp only [List.head?_cons, Option.some.injEq, List.getLast?_cons_cons, List.getLast?_singleton] at ha hb
    subst ha hb
    right
    rintro ⟨-, h⟩
    norm_num at h

end Sdf
