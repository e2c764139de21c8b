import Verif.Lemmas.BoxedFits
import Verif.Props.C17Lipschitz
import Verif.Props.C29Pruning

/-! C29 for figures assembled from the library: the conditions on the operands hold for trees of any size. -/

namespace Sdf

/-- The nearest point of a box, one coordinate at a time. -/
theorem nearest1 {lo hi : ℝ} (h : lo ≤ hi) (x : ℝ) : ∃ q, lo ≤ q ∧ q ≤ hi ∧ ∀ y, lo ≤ y → y ≤ hi → 0 ≤ (x - q) * (q - y) := by
  rcases le_total x lo with h1 | h1
  · exact ⟨lo, le_rfl, h, fun y h2 _ => by nlinarith⟩
  · rcases le_total hi x with h2 | h2
    · exact ⟨hi, h, le_rfl, fun y _ h3 => by nlinarith⟩
    · exact ⟨x, h1, h2, fun y _ _ => by simp⟩

/-- A figure of the highest grade is at least as far away as its box. -/
theorem C29_boxed_far (s : SDF2) (h : ∀ c, Boxed .all c (.fig s)) : s.AtLeastBoxDistance := by
  intro p
  have hf : ∀ c, Fits2 Unit2 c s := fun c => boxed_fits (h c)
  obtain ⟨q0, ⟨b1, b2, b3, b4⟩, _⟩ := hf 0 ⟨1, 0⟩ (Axis2.unit (.inl rfl)) p
  obtain ⟨qx, x1, x2, x3⟩ := nearest1 (b1.trans b3) p.x
  obtain ⟨qy, y1, y2, y3⟩ := nearest1 (b2.trans b4) p.y
  have hq : s.bounds.Contains ⟨qx, qy⟩ := ⟨x1, y1, x2, y2⟩
  by_cases hp : V2.sub p ⟨qx, qy⟩ = ⟨0, 0⟩
  · left
    have e : p = ⟨qx, qy⟩ := by
      have e1 := congrArg V2.x hp
      have e2 := congrArg V2.y hp
      simp only [V2.sub] at e1 e2
      ext <;> simp only <;> linarith
    rw [e]; exact hq
  · right
    refine ⟨_, hq, ?_⟩
    have hpos := V2.norm_pos hp
    have hsq := V2.norm_sq (V2.sub p ⟨qx, qy⟩)
    show V2.norm (V2.sub p ⟨qx, qy⟩) ≤ _
    set n := V2.norm (V2.sub p ⟨qx, qy⟩) with hn
    have hu : Unit2 ⟨(p.x - qx) / n, (p.y - qy) / n⟩ := by
      refine V2.norm_eq_of zero_le_one ?_
      simp only [V2.sub] at hsq ⊢
      field_simp
      linarith
    obtain ⟨q, ⟨a1, a2, a3, a4⟩, hle⟩ := hf n _ hu p
    refine le_trans (le_min ?_ le_rfl) hle
    have e : V2.dot ⟨(p.x - qx) / n, (p.y - qy) / n⟩ (V2.sub p q) =
        ((p.x - qx) * (p.x - q.x) + (p.y - qy) * (p.y - q.y)) / n := by
      simp only [V2.dot, V2.sub]; field_simp
    rw [e, le_div_iff₀ hpos, hsq]
    simp only [V2.sub]
    nlinarith [x3 q.x a1 a3, y3 q.y a2 a4]

/-- `Union2D` of non-empty figures assembled from circles, boxes, lines and their unions, rigid copies, growths,
rounded extrusions' slices and so on returns the plain minimum over the operands. -/
theorem C29_trees_partial (s0 : SDF2) (l : List SDF2) (p : V2)
    (h : ∀ s ∈ s0 :: l, Assembled (.fig s) ∧ (∀ c, Boxed .all c (.fig s)) ∧ s.NonEmpty) :
    IsUnionValue (s0 :: l) p ((SDF2.union s0 l).eval p) :=
  C29_pruning_partial s0 l p fun s hs => ⟨C17_figure_partial s (h s hs).1, C29_boxed_far s (h s hs).2.1, (h s hs).2.2⟩

/-- A circle and a shifted square, cut in half. -/
example (r : SDF2) (hr : Must2.circle 1 = some r) (p : V2) :
    IsUnionValue [r, (Must2.box ⟨2, 2⟩ 0.1).cut ⟨0, 0⟩ ⟨1, 0⟩] p
      ((SDF2.union r [(Must2.box ⟨2, 2⟩ 0.1).cut ⟨0, 0⟩ ⟨1, 0⟩]).eval p) := by
  apply C29_trees_partial
  intro s hs
  rcases List.mem_cons.mp hs with rfl | hs
  · refine ⟨.circle _ _ hr, fun c => .circle _ _ _ hr, ?_⟩
    unfold Must2.circle at hr
    rw [if_neg (by norm_num)] at hr
    cases hr
    refine ⟨⟨0, 0⟩, ?_, ?_⟩
    · simp [Box2.Contains, V2.scale]
    · simp only
      rw [V2.norm_eq_of (r := 0) le_rfl (by norm_num)]; norm_num
  · obtain rfl := List.mem_singleton.mp hs
    refine ⟨.cut2 _ _ _ (.box2 _ _) (by simp), fun c => .cut2 _ _ _ _ _ (.box2 _ _ _ (by norm_num) (by norm_num) (by norm_num))
      (by simp), ⟨0, 0⟩, ?_, ?_⟩
    · simp only [SDF2.cut, Must2.box, Box2.Contains, V2.scale]; norm_num
    · simp only [SDF2.cut, Must2.box]
      refine max_le ?_ ?_
      · simp [V2.dot, V2.sub]
      · rw [sdfBox2d_eq, boxFn2_neg] <;> simp only [V2.sub, V2.scale, V2.elem, V2.absElem] <;> norm_num

end Sdf
