import Verif.Props.C51Buttress

/-!
Lemmas for C55: what the heads of nuts are, and screws whose profiles lie one within the other.
-/

namespace Sdf
open Must2 Thread

namespace Mating

theorem bind_ok {α β : Type} {o : Outcome α} {f : α → Outcome β} {b : β} (h : o.bind f = .ok b) : ∃ a, o = .ok a ∧ f a = .ok b := by
  rcases o with a | _ | _
  · exact ⟨a, rfl, h⟩
  · cases h
  · cases h

theorem hexHead_height {r h : ℝ} {top : Bool} {s : SDF3} (hs : hexHead r h top = ⟨some s, false⟩) {p : V3} (hp : s.Inside p) :
    |p.z| < h / 2 := by
  unfold hexHead at hs
  simp only at hs
  split at hs
  · cases hs
  split at hs
  · cases hs
  split at hs
  · cases hs
  rcases top with _ | _
  · simp only [Bool.false_eq_true, if_false, Returned.mk.injEq, Option.some.injEq, and_true] at hs
    subst hs
    rw [C16_intersect3, C26_extrude] at hp
    exact hp.1.1
  · simp only [if_true, Returned.mk.injEq, Option.some.injEq, and_true] at hs
    subst hs
    rw [C16_intersect3, C16_intersect3, C26_extrude] at hp
    exact hp.1.1.1

theorem knurl_height {k : KnurlParams} {s : SDF3} (hs : knurl k = .ok ⟨some s, false⟩) {p : V3} (hp : s.Inside p) :
    |p.z| < k.length / 2 := by
  unfold knurl at hs
  split at hs
  · cases hs
  split at hs
  · cases hs
  split at hs
  · cases hs
  split at hs
  · cases hs
  split at hs
  · cases hs
  split at hs
  · cases hs
  obtain ⟨⟨s0, e0⟩, h0, hs⟩ := bind_ok hs
  split at hs
  · cases hs
  rename_i he0
  obtain ⟨⟨s1, e1⟩, h1, hs⟩ := bind_ok hs
  split at hs
  · cases hs
  rename_i he1
  simp only [Bool.not_eq_true] at he0 he1
  subst he0 he1
  rcases s0 with _ | s0
  · cases hs
  rcases s1 with _ | s1
  · cases hs
  cases hs
  rw [C16_intersect3] at hp
  exact screw_height h0 hp.1

theorem knurledHead_height {r h : ℝ} {s : SDF3} (hr : 0 < r) (hs : knurledHead r h (r * 0.25) = .ok ⟨some s, false⟩) {p : V3}
    (hp : s.Inside p) : |p.z| < h / 2 := by
  unfold knurledHead at hs
  obtain ⟨⟨s0, e0⟩, h0, hs⟩ := bind_ok hs
  split at hs
  · cases hs
  rename_i he0
  simp only [Bool.not_eq_true] at he0
  subst he0
  rcases hc : Must3.cylinder h r (r * 0.05) with _ | c
  · rw [hc] at hs; cases hs
  rw [hc] at hs
  obtain ⟨u, hu, hs⟩ := bind_ok hs
  cases hs
  rcases s0 with _ | s0
  · cases hu
  cases hu
  replace hp := (C16_union3 c [s0] p).mp hp
  simp only [List.mem_cons, List.not_mem_nil, or_false, exists_eq_or_imp, exists_eq_left] at hp
  rcases hp with hp | hp
  · exact ((rounded_cyl hc p).1 hp).2
  · refine (knurl_height h0 hp).trans_le ?_
    simp only
    have hpitch : 0 < r * 0.25 := by norm_num; exact hr
    have := Int.floor_le ((h - r * 0.05) / (r * 0.25))
    rw [le_div_iff₀ hpitch] at this
    have h2 : 0 < r * 0.05 := by norm_num; exact hr
    linarith

/-- What `Nut` is made of: the head of the style, less the screw of the same length. -/
theorem nut_head {k : NutParms} {t : Threader} {u : SDF3} (hk : k.thread = some t) (hu : nut k = .ok ⟨some u, false⟩) :
    ∃ head sc, u = SDF3.difference head sc ∧ screw t.params.hexHeight (some t) = .ok ⟨some sc, false⟩ ∧
      0 < t.params.hexRadius ∧
      (k.style = .circular ∧ Must3.cylinder t.params.hexHeight (t.params.hexRadius * 1.1) 0 = some head ∨
       k.style = .hex ∧ hexHead t.params.hexRadius t.params.hexHeight true = ⟨some head, false⟩ ∨
       k.style = .knurl ∧ knurledHead t.params.hexRadius t.params.hexHeight (t.params.hexRadius * 0.25) = .ok ⟨some head, false⟩) := by
  unfold nut at hu
  rw [hk] at hu
  simp only at hu
  split at hu
  · cases hu
  split at hu
  · cases hu
  rename_i hpos
  push Not at hpos
  have key : ∀ r : Returned SDF3, (if r.err then (.ok ⟨none, true⟩ : Outcome (Returned SDF3))
          else (screw t.params.hexHeight (some t)).bind fun r' =>
            if r'.err then .ok ⟨none, true⟩
            else (orPanic (SDF3.differenceNil r.shape r'.shape)).bind fun u => .ok ⟨some u, false⟩) = .ok ⟨some u, false⟩ →
      ∃ head sc, r = ⟨some head, false⟩ ∧ u = SDF3.difference head sc ∧ screw t.params.hexHeight (some t) = .ok ⟨some sc, false⟩ := by
    rintro ⟨s, e⟩ h
    split at h
    · cases h
    rename_i he
    obtain ⟨⟨s', e'⟩, h1, h⟩ := bind_ok h
    split at h
    · cases h
    rename_i he'
    simp only [Bool.not_eq_true] at he he'
    subst he he'
    obtain ⟨v, hv, h⟩ := bind_ok h
    cases h
    rcases s with _ | s
    · cases hv
    rcases s' with _ | s'
    · cases hv
    cases hv
    exact ⟨s, s', rfl, rfl, h1⟩
  rcases hst : k.style with _ | _ | _ | _
  · rw [hst] at hu
    obtain ⟨c, hc, hu⟩ := bind_ok hu
    obtain ⟨head, sc, e1, e2, e3⟩ := key ⟨some c, false⟩ hu
    cases e1
    refine ⟨c, sc, e2, e3, hpos.1, .inl ⟨rfl, ?_⟩⟩
    rcases hc' : Must3.cylinder t.params.hexHeight (t.params.hexRadius * 1.1) 0 with _ | c'
    · rw [hc'] at hc; cases hc
    · rw [hc'] at hc; cases hc
      rfl
  · rw [hst] at hu
    obtain ⟨head, sc, e1, e2, e3⟩ := key _ hu
    exact ⟨head, sc, e2, e3, hpos.1, .inr (.inl ⟨rfl, e1⟩)⟩
  · rw [hst] at hu
    obtain ⟨c, hc, hu⟩ := bind_ok hu
    obtain ⟨head, sc, e1, e2, e3⟩ := key _ hu
    cases e1
    exact ⟨head, sc, e2, e3, hpos.1, .inr (.inr ⟨rfl, hc⟩)⟩
  · rw [hst] at hu; cases hu

/-- In particular a head of the height of the nut. -/
theorem nut_parts {k : NutParms} {t : Threader} {u : SDF3} (hk : k.thread = some t) (hu : nut k = .ok ⟨some u, false⟩) :
    ∃ head sc, u = SDF3.difference head sc ∧ screw t.params.hexHeight (some t) = .ok ⟨some sc, false⟩ ∧
      ∀ p, head.Inside p → |p.z| < t.params.hexHeight / 2 := by
  obtain ⟨head, sc, h1, h2, hr, h⟩ := nut_head hk hu
  refine ⟨head, sc, h1, h2, fun p hp => ?_⟩
  rcases h with ⟨-, h⟩ | ⟨-, h⟩ | ⟨-, h⟩
  · exact ((rounded_cyl h p).1 hp).2
  · exact hexHead_height h hp
  · exact knurledHead_height hr h hp

/-- Two untapered screws of the same pitch and starts, the profile of the first within the closed profile of the second: what
lies in the first, turned and advanced along the thread, is not outside the second, except beyond its ends. -/
theorem screw_within {l l' : ℝ} {t t' : Threader} {f f' : SDF2} {u u' : SDF3} (hu : screw l (some t) = .ok ⟨some u, false⟩)
    (hu' : screw l' (some t') = .ok ⟨some u', false⟩) (ht : t.thread = .ok ⟨some f, false⟩) (ht' : t'.thread = .ok ⟨some f', false⟩)
    (hP : 0 < t.params.pitch) (eP : t'.params.pitch = t.params.pitch) (eS : t'.params.starts = t.params.starts)
    (h0 : t.params.taper = 0) (h0' : t'.params.taper = 0)
    (hf : ∀ x y, |x| ≤ t.params.pitch / 2 → 0 < y → f.eval ⟨x, y⟩ < 0 → f'.eval ⟨x, y⟩ ≤ 0) (a : ℝ) (q : V3) (hq : q.x ≠ 0 ∨ q.y ≠ 0)
    (hz : |q.z| ≤ l' / 2) (hi : u.Inside (V3.screwed (t.params.starts * t.params.pitch) a q)) : ¬ u'.Outside q := by
  obtain ⟨r, φ, hr, hx, hy⟩ := off_axis_polar hq
  obtain ⟨x, k, h1, h2, h3⟩ := C36_section_exists t.params.pitch (q.z - t.params.starts * t.params.pitch * φ / (2 * Real.pi)) hP
  have ep : q = ⟨r * Real.cos φ, r * Real.sin φ, q.z⟩ := by ext <;> simp [hx, hy]
  have eq : V3.screwed (t.params.starts * t.params.pitch) a q =
      ⟨r * Real.cos (φ + a), r * Real.sin (φ + a), q.z + t.params.starts * t.params.pitch * a / (2 * Real.pi)⟩ := by
    ext
    · simp only [V3.screwed, hx, hy, Real.cos_add]; ring
    · simp only [V3.screwed, hx, hy, Real.sin_add]; ring
    · rfl
  have v1 := C36_section l' t' f' u' hu' ht' (by rw [eP]; exact hP) r φ q.z x k hr (by rw [eP]; exact h1) (by rw [eP]; exact h2)
    (by rw [eP, eS]; linarith)
  have v2 := C36_section l t f u hu ht hP r (φ + a) (q.z + t.params.starts * t.params.pitch * a / (2 * Real.pi)) x k hr h1 h2
    (by rw [show t.params.starts * t.params.pitch * (φ + a) / (2 * Real.pi) =
          t.params.starts * t.params.pitch * φ / (2 * Real.pi) + t.params.starts * t.params.pitch * a / (2 * Real.pi) by ring]
        linarith)
  rw [h0, Real.arctan_zero, mul_zero, add_zero] at v2
  rw [h0', Real.arctan_zero, mul_zero, add_zero, ← ep] at v1
  unfold SDF3.Inside at hi
  rw [eq, v2, max_lt_iff] at hi
  unfold SDF3.Outside
  rw [v1, not_lt]
  exact max_le (hf x r (abs_le.mpr ⟨h1, h2.le⟩) hr hi.1) (by linarith)

/-- A screw whose profile reaches down to the axis has no point of the axis outside it, except beyond its ends. -/
theorem screw_axis {l : ℝ} {t : Threader} {f : SDF2} {u : SDF3} (hu : screw l (some t) = .ok ⟨some u, false⟩)
    (ht : t.thread = .ok ⟨some f, false⟩) (hP : 0 < t.params.pitch) (h0 : t.params.taper = 0)
    (hf : ∀ x, |x| ≤ t.params.pitch / 2 → f.eval ⟨x, 0⟩ ≤ 0) (q : V3) (hx : q.x = 0) (hy : q.y = 0) (hz : |q.z| ≤ l / 2) :
    ¬ u.Outside q := by
  obtain ⟨-, g, hg, rfl⟩ := screw_ok hu
  rw [ht] at hg
  simp only [Must2.Outcome.ok.injEq, Returned.mk.injEq, Option.some.injEq, and_true] at hg
  subst hg
  simp only [SDF3.Outside, screwOf, ScrewData.eval, not_lt, h0, hx, hy]
  rw [if_neg (by simp), mul_zero, add_zero, Real.sqrt_zero]
  obtain ⟨x, k, h1, h2, h3⟩ := C36_section_exists t.params.pitch
    (q.z + -t.params.pitch * t.params.starts * atan2 0 0 / (2 * Real.pi)) hP
  rw [h3, sawTooth_shift hP, sawTooth_id hP h1 h2]
  exact max_le (hf x (abs_le.mpr ⟨h1, h2.le⟩)) (by linarith)

end Mating
end Sdf
