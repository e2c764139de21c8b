import Verif.Lemmas.PolygonList

/-!
How much of the angle seen from a point a path contributes.  A path that stays in an open half plane beyond the point
contributes the angle between its ends, so that it can be exchanged for any other such path between the same ends.
-/

namespace Sdf
namespace Polygon

/-- The total angle under which `p` sees the path through the points of a list. -/
noncomputable def seen (p : V2) (l : List V2) : ℝ := ((l.zip l.tail).map fun e => seenAngle p e.1 e.2).sum

/-- The path through the points of a list. -/
def OnPath (l : List V2) (q : V2) : Prop := ∃ e ∈ l.zip l.tail, OnSegment e.1 e.2 q

theorem seen_one (p a : V2) : seen p [a] = 0 := by simp [seen]

theorem seen_cons (p a b : V2) (l : List V2) : seen p (a :: b :: l) = seenAngle p a b + seen p (b :: l) := by simp [seen]

theorem seen_append (p x : V2) (l1 l2 : List V2) : seen p (l1 ++ x :: l2) = seen p (l1 ++ [x]) + seen p (x :: l2) := by
  induction l1 with
  | nil => simp [seen_one]
  | cons a l1 ih =>
    cases l1 with
    | nil => simp [seen_cons, seen_one]
    | cons b l1 =>
      simp only [List.cons_append] at ih ⊢
      rw [seen_cons, seen_cons, ih]; ring

theorem onPath_cons (a b q : V2) (l : List V2) : OnPath (a :: b :: l) q ↔ OnSegment a b q ∨ OnPath (b :: l) q := by
  simp [OnPath]

theorem onPath_one (a q : V2) : ¬ OnPath [a] q := by simp [OnPath]

theorem onPath_append (x q : V2) (l1 l2 : List V2) : OnPath (l1 ++ x :: l2) q ↔ OnPath (l1 ++ [x]) q ∨ OnPath (x :: l2) q := by
  induction l1 with
  | nil => simp [onPath_one]
  | cons a l1 ih =>
    cases l1 with
    | nil => simp [onPath_cons, onPath_one]
    | cons b l1 =>
      simp only [List.cons_append] at ih ⊢
      rw [onPath_cons, onPath_cons, ih, or_assoc]

theorem zip_tail (a b : V2) (vs : List V2) : (a :: vs ++ [b]).zip (a :: vs ++ [b]).tail = (a :: vs).zip (vs ++ [b]) := by
  have h : (a :: vs ++ [b]).tail = (vs ++ [b]) ++ [] := by simp
  rw [h, List.zip_append (by simp)]
  simp

theorem sides_path (a : V2) (vs : List V2) : sides (a :: vs) = (a :: vs ++ [a]).zip (a :: vs ++ [a]).tail := by
  rw [zip_tail, Must2.sides_cons]

theorem isWinding_path (a : V2) (vs : List V2) (p : V2) (w : ℤ) : IsWinding (a :: vs) p w ↔ seen p (a :: vs ++ [a]) = 2 * Real.pi * w := by
  unfold IsWinding seen; rw [sides_path]

theorem outline_path (a : V2) (vs : List V2) (q : V2) : Outline (a :: vs) q ↔ OnPath (a :: vs ++ [a]) q := by
  unfold Outline OnPath; rw [sides_path]

/-- Exchanging the part of a polygon between two corners for one that looks the same from `p` keeps the winding number. -/
theorem isWinding_replace (A B X Y : List V2) (u w p : V2) (k : ℤ) (h : seen p (u :: X ++ [w]) = seen p (u :: Y ++ [w])) :
    IsWinding (A ++ u :: X ++ w :: B) p k ↔ IsWinding (A ++ u :: Y ++ w :: B) p k := by
  cases A with
  | nil =>
    simp only [List.nil_append, List.cons_append]
    rw [isWinding_path, isWinding_path]
    have e : ∀ Z : List V2, seen p (u :: (Z ++ w :: B) ++ [u]) = seen p (u :: Z ++ [w]) + seen p (w :: B ++ [u]) := by
      intro Z
      rw [show u :: (Z ++ w :: B) ++ [u] = (u :: Z) ++ w :: (B ++ [u]) by simp, seen_append]; rfl
    rw [e, e, h]
  | cons a A =>
    simp only [List.cons_append]
    rw [isWinding_path, isWinding_path]
    have e : ∀ Z : List V2, seen p (a :: (A ++ u :: Z ++ w :: B) ++ [a]) =
        seen p (a :: A ++ [u]) + (seen p (u :: Z ++ [w]) + seen p (w :: B ++ [a])) := by
      intro Z
      rw [show a :: (A ++ u :: Z ++ w :: B) ++ [a] = (a :: A) ++ u :: (Z ++ w :: (B ++ [a])) by simp, seen_append,
        show u :: (Z ++ w :: (B ++ [a])) = (u :: Z) ++ w :: (B ++ [a]) by simp, seen_append p w (u :: Z)]; rfl
    rw [e, e, h]

/-- The outline of a polygon, split at two corners. -/
theorem outline_split (A B : List V2) (u w : V2) : ∃ rest : V2 → Prop, ∀ Z : List V2, ∀ q,
    Outline (A ++ u :: Z ++ w :: B) q ↔ OnPath (u :: Z ++ [w]) q ∨ rest q := by
  cases A with
  | nil =>
    refine ⟨OnPath (w :: B ++ [u]), fun Z q => ?_⟩
    simp only [List.nil_append, List.cons_append]
    rw [outline_path, show u :: (Z ++ w :: B) ++ [u] = (u :: Z) ++ w :: (B ++ [u]) by simp, onPath_append]; rfl
  | cons a A =>
    refine ⟨fun q => OnPath (a :: A ++ [u]) q ∨ OnPath (w :: B ++ [a]) q, fun Z q => ?_⟩
    simp only [List.cons_append]
    rw [outline_path, show a :: (A ++ u :: Z ++ w :: B) ++ [a] = (a :: A) ++ u :: (Z ++ w :: (B ++ [a])) by simp, onPath_append,
        show u :: (Z ++ w :: (B ++ [a])) = (u :: Z) ++ w :: (B ++ [a]) by simp, onPath_append w q (u :: Z)]
    simp only [List.cons_append]
    tauto

/-- Seen from a point, something in an open half plane beyond it. -/
theorem seenAngle_half (n p a b : V2) (ha : 0 < V2.dot n (V2.sub a p)) (hb : 0 < V2.dot n (V2.sub b p)) :
    seenAngle p a b = Complex.arg (star (toC n) * (toC b - toC p)) - Complex.arg (star (toC n) * (toC a - toC p)) := by
  set wa := star (toC n) * (toC a - toC p) with hwa
  set wb := star (toC n) * (toC b - toC p) with hwb
  have ra : 0 < wa.re := by
    have : wa.re = V2.dot n (V2.sub a p) := by simp [hwa, toC, V2.dot, V2.sub]
    rw [this]; exact ha
  have rb : 0 < wb.re := by
    have : wb.re = V2.dot n (V2.sub b p) := by simp [hwb, toC, V2.dot, V2.sub]
    rw [this]; exact hb
  have na : wa ≠ 0 := fun h => by rw [h] at ra; simp at ra
  have nb : wb ≠ 0 := fun h => by rw [h] at rb; simp at rb
  have hn : star (toC n) ≠ 0 := by
    intro h; rw [hwa, h, zero_mul] at na; exact na rfl
  have e : (toC b - toC p) / (toC a - toC p) = wb / wa := by
    rw [hwa, hwb, mul_div_mul_left _ _ hn]
  unfold seenAngle
  rw [e]
  have h1 := Complex.abs_arg_lt_pi_div_two_iff.mpr (.inl ra)
  have h2 := Complex.abs_arg_lt_pi_div_two_iff.mpr (.inl rb)
  rw [abs_lt] at h1 h2
  have h3 := Complex.arg_div_coe_angle nb na
  rw [← Real.Angle.coe_sub] at h3
  have h4 := congrArg Real.Angle.toReal h3
  rw [Complex.arg_coe_angle_toReal_eq_arg, Real.Angle.toReal_coe_eq_self_iff.mpr ⟨by linarith [h1.2, h2.1], by linarith [h1.1, h2.2]⟩] at h4
  exact h4

theorem seen_half (n p : V2) (l : List V2) : ∀ a, 0 < V2.dot n (V2.sub a p) → (∀ x ∈ l, 0 < V2.dot n (V2.sub x p)) →
    seen p (a :: l) = Complex.arg (star (toC n) * (toC ((a :: l).getLast (List.cons_ne_nil _ _)) - toC p)) -
      Complex.arg (star (toC n) * (toC a - toC p)) := by
  induction l with
  | nil => intro a _ _; simp [seen_one]
  | cons b l ih =>
    intro a ha hl
    rw [seen_cons, ih b (hl b List.mem_cons_self) fun x hx => hl x (List.mem_cons_of_mem _ hx),
      seenAngle_half n p a b ha (hl b List.mem_cons_self), List.getLast_cons (List.cons_ne_nil _ _)]
    ring

/-- Two paths between the same points in a half plane look the same. -/
theorem seen_half_eq (n p u w : V2) (X Y : List V2) (hu : 0 < V2.dot n (V2.sub u p)) (hw : 0 < V2.dot n (V2.sub w p))
    (hX : ∀ x ∈ X, 0 < V2.dot n (V2.sub x p)) (hY : ∀ x ∈ Y, 0 < V2.dot n (V2.sub x p)) :
    seen p (u :: X ++ [w]) = seen p (u :: Y ++ [w]) := by
  have e : ∀ Z : List V2, (∀ x ∈ Z, 0 < V2.dot n (V2.sub x p)) → seen p (u :: Z ++ [w]) =
      Complex.arg (star (toC n) * (toC w - toC p)) - Complex.arg (star (toC n) * (toC u - toC p)) := by
    intro Z hZ
    rw [List.cons_append, seen_half n p (Z ++ [w]) u hu (by
      intro x hx
      rcases List.mem_append.mp hx with h | h
      · exact hZ x h
      · rw [List.mem_singleton.mp h]; exact hw)]
    simp
  rw [e X hX, e Y hY]

/-- A half plane beyond `p` containing a segment that `p` is not on. -/
theorem half_of_segment {a b p : V2} (h : ¬ OnSegment a b p) : ∃ n, 0 < V2.dot n (V2.sub a p) ∧ 0 < V2.dot n (V2.sub b p) := by
  by_cases hc : V2.cross (V2.sub b a) (V2.sub a p) = 0
  · by_cases hab : V2.dot (V2.sub b a) (V2.sub b a) = 0
    · have e : b = a := by
        have hx : b.x - a.x = 0 := by simp only [V2.dot, V2.sub] at hab; nlinarith [mul_self_nonneg (b.x - a.x), mul_self_nonneg (b.y - a.y)]
        have hy : b.y - a.y = 0 := by simp only [V2.dot, V2.sub] at hab; nlinarith [mul_self_nonneg (b.x - a.x), mul_self_nonneg (b.y - a.y)]
        ext <;> linarith
      subst e
      have : 0 < V2.dot (V2.sub b p) (V2.sub b p) := by
        rcases lt_or_eq_of_le (show 0 ≤ V2.dot (V2.sub b p) (V2.sub b p) by
          simp only [V2.dot]; nlinarith [mul_self_nonneg (V2.sub b p).x, mul_self_nonneg (V2.sub b p).y]) with h0 | h0
        · exact h0
        · exfalso
          apply h
          have hx : b.x - p.x = 0 := by simp only [V2.dot, V2.sub] at h0; nlinarith [mul_self_nonneg (b.x - p.x), mul_self_nonneg (b.y - p.y)]
          have hy : b.y - p.y = 0 := by simp only [V2.dot, V2.sub] at h0; nlinarith [mul_self_nonneg (b.x - p.x), mul_self_nonneg (b.y - p.y)]
          refine ⟨0, le_rfl, zero_le_one, ?_⟩
          ext <;> simp [V2.add, V2.scale] <;> linarith
      exact ⟨_, this, this⟩
    · have hpos : 0 < V2.dot (V2.sub b a) (V2.sub b a) := by
        refine lt_of_le_of_ne ?_ (Ne.symm hab)
        simp only [V2.dot]; nlinarith [mul_self_nonneg (V2.sub b a).x, mul_self_nonneg (V2.sub b a).y]
      set N := V2.dot (V2.sub b a) (V2.sub b a) with hN
      set s := V2.dot (V2.sub b a) (V2.sub p a) / N with hs
      have hsN : s * N = V2.dot (V2.sub b a) (V2.sub p a) := by rw [hs]; field_simp
      have hp : p = V2.add a (V2.scale s (V2.sub b a)) := by
        simp only [V2.cross, V2.dot, V2.sub] at hc hN hsN
        have e1 : (p.x - a.x) * N = s * (b.x - a.x) * N := by
          linear_combination (p.x - a.x) * hN - (b.x - a.x) * hsN + (b.y - a.y) * hc
        have e2 : (p.y - a.y) * N = s * (b.y - a.y) * N := by
          linear_combination (p.y - a.y) * hN - (b.y - a.y) * hsN - (b.x - a.x) * hc
        have e1' := mul_right_cancel₀ hpos.ne' e1
        have e2' := mul_right_cancel₀ hpos.ne' e2
        ext <;> simp [V2.add, V2.scale, V2.sub] <;> linarith
      have hd : V2.dot (V2.sub b a) (V2.sub a p) = -(s * N) := by rw [hsN]; simp only [V2.dot, V2.sub]; ring
      have hd' : V2.dot (V2.sub b a) (V2.sub b p) = (1 - s) * N := by
        rw [sub_mul, hsN, one_mul, hN]; simp only [V2.dot, V2.sub]; ring
      by_cases h0 : s < 0
      · refine ⟨V2.sub b a, ?_, ?_⟩
        · rw [hd]; nlinarith
        · rw [hd']; nlinarith
      · have h1 : 1 < s := by
          by_contra h1
          exact h ⟨s, not_lt.mp h0, not_lt.mp h1, hp⟩
        refine ⟨V2.scale (-1) (V2.sub b a), ?_, ?_⟩
        · have : V2.dot (V2.scale (-1) (V2.sub b a)) (V2.sub a p) = s * N := by
            have : V2.dot (V2.scale (-1) (V2.sub b a)) (V2.sub a p) = -V2.dot (V2.sub b a) (V2.sub a p) := by
              simp only [V2.dot, V2.scale]; ring
            rw [this, hd]; ring
          rw [this]; nlinarith
        · have : V2.dot (V2.scale (-1) (V2.sub b a)) (V2.sub b p) = (s - 1) * N := by
            have : V2.dot (V2.scale (-1) (V2.sub b a)) (V2.sub b p) = -V2.dot (V2.sub b a) (V2.sub b p) := by
              simp only [V2.dot, V2.scale]; ring
            rw [this, hd']; ring
          rw [this]; nlinarith
  · set k := V2.cross (V2.sub b a) (V2.sub a p) with hk
    refine ⟨V2.scale k ⟨-(b.y - a.y), b.x - a.x⟩, ?_, ?_⟩
    · have : V2.dot (V2.scale k ⟨-(b.y - a.y), b.x - a.x⟩) (V2.sub a p) = k * k := by
        conv_rhs => rw [hk]
        rw [hk]; simp only [V2.dot, V2.scale, V2.cross, V2.sub]; ring
      rw [this]; exact mul_self_pos.mpr hc
    · have : V2.dot (V2.scale k ⟨-(b.y - a.y), b.x - a.x⟩) (V2.sub b p) = k * k := by
        rw [hk]; simp only [V2.dot, V2.scale, V2.cross, V2.sub]; ring
      rw [this]; exact mul_self_pos.mpr hc

theorem dot_between (n a b p q : V2) (hq : OnSegment a b q) (ha : 0 < V2.dot n (V2.sub a p)) (hb : 0 < V2.dot n (V2.sub b p)) :
    0 < V2.dot n (V2.sub q p) := by
  obtain ⟨t, h0, h1, rfl⟩ := hq
  have e : V2.dot n (V2.sub (V2.add a (V2.scale t (V2.sub b a))) p) = (1 - t) * V2.dot n (V2.sub a p) + t * V2.dot n (V2.sub b p) := by
    simp only [V2.dot, V2.sub, V2.add, V2.scale]; ring
  rw [e]
  rcases eq_or_lt_of_le h0 with h | h
  · rw [← h]; linarith
  · have := mul_pos h hb
    nlinarith

/-- A side may be divided. -/
theorem seen_divide {p a b q : V2} (h : ¬ OnSegment a b p) (hq : OnSegment a b q) : seenAngle p a b = seenAngle p a q + seenAngle p q b := by
  obtain ⟨n, ha, hb⟩ := half_of_segment h
  have := seen_half_eq n p a b [] [q] ha hb (by simp) (by simpa using dot_between n a b p q hq ha hb)
  simpa [seen_cons, seen_one] using this

theorem OnSegment.symm {a b q : V2} (h : OnSegment a b q) : OnSegment b a q := by
  obtain ⟨t, h0, h1, rfl⟩ := h
  exact ⟨1 - t, by linarith, by linarith, by ext <;> simp [V2.add, V2.scale, V2.sub] <;> ring⟩

end Polygon
end Sdf
