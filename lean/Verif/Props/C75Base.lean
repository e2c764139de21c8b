import Verif.Props.C75Examples
import Verif.Props.C34Patterns
import Verif.Props.C28Blends

/-!
C75, the base of /repo/examples/pcb-spacer: the holes of the standoffs are as deep as pillar and base together, but eight of the twelve
end at the base, which is not drilled there.
-/

namespace Sdf.Examples
open Obj3 Thread

/-- The standoffs are made; the hole of each goes through its pillar. -/
theorem standoffs_made {w d : ℝ} (hw : 0 < w) (hd : pla.internalDimScale w = some d) (hd0 : 0 < d) {l : List V3} (hl : l.length ≠ 1) :
    ∃ s, standoffs w l = some s ∧ ∀ p, s.Inside p → ∃ t ∈ l, ∃ q, p = V3.add q t ∧ d / 2 < axisDist q ∧ axisDist q < w := by
  obtain ⟨s, hs⟩ : ∃ s, Obj3.standoff ⟨7, w * 2, 7 + 2.4, d, 0, 0, 0, 0⟩ = some s := by
    rw [← Option.ne_none_iff_exists', Ne, C35_standoff_panics]
    push Not
    refine ⟨by simpa using hw, by norm_num, fun h => absurd h (by norm_num), by norm_num, hd0⟩
  obtain ⟨u, hu⟩ : ∃ u, s.multi l = some u := by
    rw [← Option.ne_none_iff_exists', Ne, C34_multi3_panics]
    exact hl
  refine ⟨u, ?_, fun p hp => ?_⟩
  · unfold standoffs
    rw [hd]
    simp only [Option.bind_eq_bind, Option.bind_some]
    rw [hs]
    exact hu
  obtain ⟨t, ht, q, hq, e⟩ := (C34_multi3_partial s l u hu p).mp hp
  obtain ⟨h1, h2, h3⟩ := (C35_standoff_pillar _ s hs le_rfl (by norm_num) q).mp hq
  refine ⟨t, ht, q, e, ?_, by simpa using h1⟩
  by_contra hc
  push Not at hc
  refine h3 ⟨hc, ?_⟩
  simp only at h2 ⊢
  rw [abs_lt] at h2
  norm_num at h2 ⊢
  linarith [h2.1]

/-- The program runs to its end; but the base is solid, over its whole thickness, wherever it is more than 7 mm away from its left and
right edge and 4.8 mm from the others. -/
theorem base_solid : ∃ base, spacerBase = some base ∧ ∀ p, 7 ≤ p.x → p.x ≤ 93 → 4.8 ≤ p.y → p.y ≤ 95.2 → |p.z| < 1.2 → base.Inside p := by
  have hd : pla.internalDimScale 4 = some 4.462 := by
    unfold Viscoelastic.internalDimScale; rw [if_neg (by norm_num)]; norm_num [pla]
  have hd3 : pla.internalDimScale 3 = some 3.459 := by
    unfold Viscoelastic.internalDimScale; rw [if_neg (by norm_num)]; norm_num [pla]
  obtain ⟨k, hk⟩ : ∃ k : Obj2.PanelParams, k = ⟨⟨100, 100⟩, 4 * 1.2, 4.462, fun _ => 4.5, fun _ => "x", 0⟩ := ⟨_, rfl⟩
  obtain ⟨pan, hp⟩ : ∃ pan, Obj2.panel k = some pan := by
    rw [← Option.ne_none_iff_exists']
    rw [Ne, C35_panel_panics, hk]
    rintro ⟨-, i, hi⟩
    exact hi (by simp)
  have hpos : 0 < k.holeDiameter := by rw [hk]; norm_num
  have hbox := (C18_box2 ⟨100, 100⟩ (4 * 1.2) (by norm_num) (by norm_num) (by norm_num)).2.2 (by norm_num)
  obtain ⟨m4, h4, -⟩ := standoffs_made (by norm_num) hd (by norm_num) (l := m4Positions) (by simp [m4Positions])
  obtain ⟨m3, h3, -⟩ := standoffs_made (by norm_num) hd3 (by norm_num) (l := m3Positions) (by simp [m3Positions])
  refine ⟨SDF3.unionWith (minPoly 2 3) ((SDF3.extrude pan 2.4).transform (M44.translate ⟨0.5 * 100, 0.5 * 100, 0⟩)) [m4, m3], ?_, ?_⟩
  · unfold spacerBase
    rw [hd]
    simp only [Option.bind_eq_bind, Option.bind_some]
    rw [← hk, hp, h4, h3]
    rfl
  intro p x0 x1 y0 y1 hz
  have hB := C28_poly 2 (by norm_num) 3 (by norm_num)
  have key : ((SDF3.extrude pan 2.4).transform (M44.translate ⟨0.5 * 100, 0.5 * 100, 0⟩)).Inside p := by
    rw [inside_moved, C26_extrude]
    refine ⟨by simp only [V3.sub, sub_zero]; norm_num at hz ⊢; linarith, (C35_panel_shape k hpos pan hp _).mpr ⟨?_, ?_⟩⟩
    · have := (hbox ⟨p.x - 0.5 * 100, p.y - 0.5 * 100⟩).mpr ⟨⟨p.x - 0.5 * 100, p.y - 0.5 * 100⟩,
        by norm_num at y0 y1 ⊢; simp only [abs_le]; refine ⟨⟨?_, ?_⟩, ?_, ?_⟩ <;> linarith, by norm_num [V2.dist, V2.sub, V2.norm]⟩
      rw [hk]
      exact this
    · rintro i c ⟨j, hj, hc⟩
      have hj0 : j = 0 := by
        rw [hk] at hj
        simp only at hj
        have : j < "x".toList.length := by
          by_contra hcon
          rw [List.getElem?_eq_none (by omega)] at hj
          cases hj
        simpa using this
      subst hj0
      have hcc : c = PanelCorner k i := by
        rw [hc]; ext <;> simp [V2.add, V2.scale]
      have hx : |c.x| = 45.5 := by
        rw [hcc, hk]
        fin_cases i <;> norm_num [PanelCorner]
      refine lt_of_lt_of_le ?_ (V2.abs_x_le (V2.sub _ c))
      simp only [V2.sub, V3.sub]
      rw [hk]
      norm_num at hx ⊢
      rw [lt_abs]
      rcases abs_cases c.x with ⟨h, -⟩ | ⟨h, -⟩
      · right; linarith
      · left; linarith
  simp only [SDF3.Inside, SDF3.unionWith, List.foldl_cons, List.foldl_nil] at key ⊢
  have l1 : ∀ a b, minPoly 2 3 a b ≤ min a b := hB.le_min
  exact lt_of_le_of_lt ((l1 _ _).trans ((min_le_left _ _).trans ((l1 _ _).trans (min_le_left _ _)))) key

/-- All but the first four standoffs stand on solid material: the holes through them, made as deep as pillar and base together, are
closed by the base, from its lower to its upper face. -/
theorem C75_base_wrong : ∃ base, spacerBase = some base ∧ (m4Positions.drop 4 ++ m3Positions).length = 8 ∧
    ∀ c ∈ m4Positions.drop 4 ++ m3Positions, ∀ p, |p.x - c.x| ≤ 2 → |p.y - c.y| ≤ 2 → |p.z| < 1.2 → base.Inside p := by
  obtain ⟨base, hb, hs⟩ := base_solid
  refine ⟨base, hb, rfl, fun c hc p hx hy hz => hs p ?_ ?_ ?_ ?_ hz⟩ <;>
  · rw [abs_le] at hx hy
    simp only [m4Positions, m3Positions, List.drop_succ_cons, List.drop_zero, List.cons_append, List.nil_append, List.mem_cons,
      List.not_mem_nil, or_false] at hc
    rcases hc with rfl | rfl | rfl | rfl | rfl | rfl | rfl | rfl <;> norm_num at hx hy ⊢ <;> linarith [hx.1, hx.2, hy.1, hy.2]

end Sdf.Examples
