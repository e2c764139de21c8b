import Verif.Lemmas.Mating

/-!
C55: a nut screws onto a bolt.  Bolt and nut share the z axis; the nut is moved by a screw motion of the thread's lead (`V3.screwed`),
and nowhere along the way does its material meet the material of the bolt, as long as it stays clear of the shank.
-/

namespace Sdf
open Must2 Thread

/-- The profile `f` of a thread with pitch `P` lies within the profile `g`, boundaries included, and `g` reaches the axis. -/
structure FitsInto (P : ℝ) (f g : SDF2) : Prop where
  inside : ∀ x y, |x| ≤ P / 2 → 0 < y → f.eval ⟨x, y⟩ < 0 → g.eval ⟨x, y⟩ ≤ 0
  axis : ∀ x, |x| ≤ P / 2 → g.eval ⟨x, 0⟩ ≤ 0

/-- The threaded part alone, of any length, in a nut of any style: no point `q` of the nut's material comes to lie in the thread
when the nut is turned by any angle `a` and advances as the thread does. -/
theorem C55_thread (l : ℝ) (t t' : Threader) (f f' : SDF2) (ht : t.thread = .ok ⟨some f, false⟩) (ht' : t'.thread = .ok ⟨some f', false⟩)
    (hP : 0 < t.params.pitch) (eP : t'.params.pitch = t.params.pitch) (eS : t'.params.starts = t.params.starts)
    (h0 : t.params.taper = 0) (h0' : t'.params.taper = 0) (hf : FitsInto t.params.pitch f f')
    (sc : SDF3) (hsc : screw l (some t) = .ok ⟨some sc, false⟩)
    (k : NutParms) (hk : k.thread = some t') (v : SDF3) (hv : nut k = .ok ⟨some v, false⟩) (a : ℝ) (q : V3) :
    ¬ (sc.Inside (V3.screwed (t.params.starts * t.params.pitch) a q) ∧ v.Inside q) := by
  rintro ⟨hi, hn⟩
  obtain ⟨head, sc', rfl, hsc', hz⟩ := Mating.nut_parts hk hv
  rw [C16_difference3] at hn
  have hz := hz q hn.1
  by_cases hq : q.x = 0 ∧ q.y = 0
  · exact Mating.screw_axis hsc' ht' (by rw [eP]; exact hP) h0' (by rw [eP]; exact hf.axis) q hq.1 hq.2 hz.le hn.2
  · exact Mating.screw_within hsc hsc' ht ht' hP eP eS h0 h0' hf.inside a q (by tauto) hz.le hi hn.2

/-- The whole bolt: head, shank and chamfered thread.  In the bolt's coordinates the middle of the threaded part is
`(totalLength + shankLength + hexHeight)/2` up the axis; the nut starts out there and is screwed by `a`.  As long as its lower face
is not below the end of the shank, bolt and nut have no point in common. -/
theorem C55_bolt (k : BoltParms) (k' : NutParms) (t t' : Threader) (f f' : SDF2) (hk : k.thread = some t) (hk' : k'.thread = some t')
    (ht : t.thread = .ok ⟨some f, false⟩) (ht' : t'.thread = .ok ⟨some f', false⟩)
    (hP : 0 < t.params.pitch) (eP : t'.params.pitch = t.params.pitch) (eS : t'.params.starts = t.params.starts)
    (h0 : t.params.taper = 0) (h0' : t'.params.taper = 0) (hf : FitsInto t.params.pitch f f')
    (hF : 0 < t.params.hexF2F) (hs : k.style.forBolt) (h1 : 0 < t.params.radius) (h2 : 0.08 * t.params.hexHeight ≤ t.params.radius)
    (h3 : 0 ≤ k.shankLength) (h4 : k.shankLength < k.totalLength) (v : SDF3) (hv : nut k' = .ok ⟨some v, false⟩) :
    ∃ n, ∀ fuel ≥ n, ∃ u, bolt fuel k = .ok ⟨some u, false⟩ ∧ ∀ a,
      t.params.hexHeight / 2 + k.shankLength ≤ (k.totalLength + k.shankLength + t.params.hexHeight) / 2 +
          t.params.starts * t.params.pitch * a / (2 * Real.pi) - t'.params.hexHeight / 2 →
      ∀ q, ¬ (u.Inside (V3.add (V3.screwed (t.params.starts * t.params.pitch) a q)
        ⟨0, 0, (k.totalLength + k.shankLength + t.params.hexHeight) / 2⟩) ∧ v.Inside q) := by
  obtain ⟨n, hn⟩ := bolt_parts k t f hk ht hF hs h1 h2 h3 h4
  refine ⟨n, fun fuel hfu => ?_⟩
  obtain ⟨head, shank, sc, ch, hhead, hsh, hsc, hch, hb⟩ := hn fuel hfu
  refine ⟨_, hb, fun a ha q ⟨hu, hq⟩ => ?_⟩
  have hzq : |q.z| < t'.params.hexHeight / 2 := by
    obtain ⟨hd, sc', rfl, -, hz⟩ := Mating.nut_parts hk' hv
    rw [C16_difference3] at hq
    exact hz q hq.1
  have hzq := abs_lt.mp hzq
  have hr := (hexRadius_pos t.params).mpr hF
  rw [C16_union3] at hu
  simp only [List.mem_cons, List.not_mem_nil, or_false, exists_eq_or_imp, exists_eq_left, translate3_inside] at hu
  rcases hu with hu | ⟨p, hu, e⟩ | ⟨p, hu, e⟩
  · have hz : |(V3.add (V3.screwed (t.params.starts * t.params.pitch) a q)
        ⟨0, 0, (k.totalLength + k.shankLength + t.params.hexHeight) / 2⟩).z| < t.params.hexHeight / 2 := by
      rcases hhead with ⟨-, h⟩ | ⟨-, h⟩
      · exact Mating.hexHead_height h hu
      · exact Mating.knurledHead_height hr h hu
    have hz := (abs_lt.mp hz).2
    simp only [V3.add, V3.screwed] at hz
    linarith
  · have hz := (abs_lt.mp ((rounded_cyl hsh p).1 hu).2).2
    have e3 := congrArg V3.z e
    simp only [V3.add, V3.screwed] at e3
    linarith
  · have ep : p = V3.screwed (t.params.starts * t.params.pitch) a q := by
      have e1 := congrArg V3.x e
      have e2 := congrArg V3.y e
      have e3 := congrArg V3.z e
      simp only [V3.add] at e1 e2 e3
      ext
      · linarith
      · linarith
      · linarith
    rw [ep] at hu
    exact C55_thread _ t t' f f' ht ht' hP eP eS h0 h0' hf sc hsc k' hk' v hv a q ⟨chamfered_sub hch hu, hq⟩

/-- A bolt and a nut of one and the same untapered thread whose profile reaches the axis. -/
theorem C55_same (P : ℝ) (f : SDF2) (h : ∀ x, |x| ≤ P / 2 → f.eval ⟨x, 0⟩ ≤ 0) : FitsInto P f f :=
  ⟨fun _ _ _ _ h => h.le, h⟩

theorem fits_axis {P h : ℝ} (hh : 0 < h) {f : SDF2} (hL : Lip2 f.eval) (hf : ∀ x y, |x| ≤ P / 2 → 0 < y → y < h → f.eval ⟨x, y⟩ < 0)
    (x : ℝ) (hx : |x| ≤ P / 2) : f.eval ⟨x, 0⟩ ≤ 0 := by
  refine le_of_forall_pos_le_add fun e he => ?_
  have h1 := hf x (min e (h / 2)) hx (lt_min he (by linarith)) ((min_le_right _ _).trans_lt (by linarith))
  have h2 := hL ⟨x, 0⟩ ⟨x, min e (h / 2)⟩
  have h3 : V2.dist ⟨x, 0⟩ ⟨x, min e (h / 2)⟩ = min e (h / 2) := by
    refine dist_of_sq (lt_min he (by linarith)).le ?_
    simp only; ring
  have := (abs_le.mp h2).2
  rw [h3] at this
  linarith [min_le_left e (h / 2)]

/-- Acme threads fit into themselves. -/
theorem C55_acme_profile (D P : ℝ) (hP : 0 < P) (hD : P < D) (hT : 1 / 10 ^ 9 < D) (fuel : ℕ) :
    ∃ f, (acme (fuel + 1) D P).thread = .ok ⟨some f, false⟩ ∧ FitsInto P f f := by
  obtain ⟨f, hf, hL, hin⟩ := C51_acme D P hP hD hT fuel
  refine ⟨f, hf, C55_same P f (fits_axis (h := D / 2 - P / 2) (by linarith) hL fun x y hx hy hyh => ?_)⟩
  exact (hin x y hx).1.mpr ⟨hy, hyh.trans_le (le_max_left _ _)⟩

theorem buttressHeight_ge {D P : ℝ} (hP : 0 < P) (x : ℝ) : D / 2 - buttressDepth P ≤ buttressHeight D P x := by
  obtain ⟨t0, -⟩ := tan7_bounds
  have hd : 0 ≤ buttressDepth P := by have := buttress_bounds hP; linarith [this.1, this.2.1]
  refine le_min (by linarith) ?_
  rcases le_total x (buttressRoot P) with h | h
  · linarith [le_max_right ((x - buttressRoot P) / tan7) (buttressRoot P - x)]
  · have := div_nonneg (sub_nonneg.mpr h) t0.le
    linarith [le_max_left ((x - buttressRoot P) / tan7) (buttressRoot P - x)]

/-- Both kinds of buttress threads fit into themselves. -/
theorem C55_buttress_profiles (D P : ℝ) (hP : 1 / 10 ^ 9 < P) (hD : buttressDepth P < D / 2) (fuel : ℕ) :
    (∃ f, (ansiButtress (fuel + 2) D P).thread = .ok ⟨some f, false⟩ ∧ FitsInto P f f) ∧
    ∃ f, (plasticButtress (fuel + 4) D P).thread = .ok ⟨some f, false⟩ ∧ FitsInto P f f := by
  have hP0 : 0 < P := lt_trans (by norm_num) hP
  have hd := buttress_bounds hP0
  constructor
  · obtain ⟨f, hf, hL, hin⟩ := C51_ansi D P hP hD fuel
    refine ⟨f, hf, C55_same P f (fits_axis (h := D / 2 - buttressDepth P) (by linarith) hL fun x y hx hy hyh => ?_)⟩
    exact (hin x y (by linarith) (fun h => by linarith [h.2.2.1])).1.mpr ⟨hy, hyh.trans_le (buttressHeight_ge hP0 x)⟩
  · obtain ⟨f, hf, hL, hin⟩ := C51_plastic D P hP hD fuel
    refine ⟨f, hf, C55_same P f (fits_axis (h := D / 2 - buttressDepth P) (by linarith) hL fun x y hx hy hyh => ?_)⟩
    exact (hin x y (by linarith) (fun h => by linarith [h.2.2.1]) (fun h => by linarith [h.2.2.1, hd.1, hd.2.1])
      (fun h => by linarith [h.2.2.1, hd.1, hd.2.1])).1.mpr ⟨hy, hyh.trans_le (buttressHeight_ge hP0 x)⟩

/-- The external ISO profile fits into the internal one of the same diameter and pitch. -/
theorem C55_iso_profiles (D P : ℝ) (hP : 1 / 10 ^ 9 < P) (hD : 7 / 8 * isoH P < D / 2) (fuel : ℕ) :
    ∃ f f', (iso (fuel + 3) D P true).thread = .ok ⟨some f, false⟩ ∧ (iso (fuel + 3) D P false).thread = .ok ⟨some f', false⟩ ∧
      FitsInto P f f' := by
  have hP0 : 0 < P := lt_trans (by norm_num) hP
  have hH : isoH P = P * Real.sqrt 3 / 2 := rfl
  have hH0 : 0 < isoH P := by rw [hH]; positivity
  obtain ⟨f, hf, hL, hin⟩ := C51_iso_external D P hP hD fuel
  obtain ⟨f', hf', hL', hin'⟩ := C51_iso_internal D P hP (by linarith) (fuel + 1)
  have hlow : ∀ x, D / 2 - 5 / 8 * isoH P ≤ isoInternalHeight D P x := fun x => le_max_left _ _
  refine ⟨f, f', hf, hf', ?_, ?_⟩
  · intro x y hx hy hi
    -- the external profile stays below the minor radius of the nut at the roots
    have hroot : 3 * P / 8 ≤ |x| → y < D / 2 - 5 / 8 * isoH P := by
      intro h3
      by_contra hge
      push Not at hge
      have hext : isoExternalHeight D P x ≤ D / 2 - 5 / 8 * isoH P := by
        refine (min_le_right _ _).trans ?_
        rw [Real.tan_pi_div_six, hH, div_div_eq_mul_div, div_one]
        have : (P / 2 - |x|) * Real.sqrt 3 ≤ P / 8 * Real.sqrt 3 := mul_le_mul_of_nonneg_right (by linarith) (Real.sqrt_nonneg 3)
        linarith
      set e := -f.eval ⟨x, y⟩ / 2 with he
      have he0 : 0 < e := by rw [he]; linarith
      have h5 := hL ⟨x, y + e⟩ ⟨x, y⟩
      have h6 : V2.dist ⟨x, y + e⟩ ⟨x, y⟩ = e := by
        refine dist_of_sq he0.le ?_
        simp only; ring
      rw [h6] at h5
      have h7 := (abs_le.mp h5).2
      have h8 := (hin x (y + e) hx (fun h => by linarith [h.2.2])).1.mp (by linarith)
      linarith [h8.2]
    by_cases h3 : 3 * P / 8 ≤ |x|
    · exact ((hin' x y hx (fun h => by linarith [h.1])).1.mpr ⟨hy, (hroot h3).trans_le (hlow x)⟩).le
    · have h4 := (hin x y hx (fun h => h3 h.1)).1.mp hi
      have h5 : y < D / 2 := h4.2.trans_le (min_le_left _ _)
      exact ((hin' x y hx (fun h => by linarith [h.2.1])).1.mpr ⟨hy, h4.2.trans_le (C51_iso_mate D P x)⟩).le
  · refine fits_axis (h := D / 2 - 5 / 8 * isoH P) (by linarith) hL' (fun x y hx hy hyh => ?_)
    refine (hin' x y hx (fun h => by linarith [h.2.1])).1.mpr ⟨hy, hyh.trans_le (hlow x)⟩

/-- An ISO bolt in an ISO nut of the same nominal diameter and pitch, of any styles and lengths. -/
theorem C55_iso (D P : ℝ) (hP : 1 / 10 ^ 9 < P) (hD : 7 / 8 * isoH P < D / 2) (hD' : 0.14 ≤ D) (m : ℕ) (style style' : Style)
    (hs : style.forBolt) (hs' : style' ≠ .other) (tol tol' total shank : ℝ) (h0 : 0 ≤ tol') (h3 : 0 ≤ shank) (h4 : shank < total) :
    ∃ v, nut ⟨some (iso (m + 3) D P false), style', tol'⟩ = .ok ⟨some v, false⟩ ∧
    ∃ n, ∀ fuel ≥ n, ∃ u, bolt fuel ⟨some (iso (m + 3) D P true), style, tol, total, shank⟩ = .ok ⟨some u, false⟩ ∧
      let h := (iso (m + 3) D P true).params.hexHeight
      ∀ a, h / 2 + shank ≤ (total + shank + h) / 2 + P * a / (2 * Real.pi) - h / 2 →
        ∀ q, ¬ (u.Inside (V3.add (V3.screwed P a q) ⟨0, 0, (total + shank + h) / 2⟩) ∧ v.Inside q) := by
  obtain ⟨f, f', hf, hf', hfit⟩ := C55_iso_profiles D P hP hD m
  have hF : 0 < (iso (m + 3) D P true).params.hexF2F := C35_head_size (.iso D P true) (m + 3)
  obtain ⟨v, hv⟩ := C35_nut ⟨some (iso (m + 3) D P false), style', tol'⟩ _ f' rfl hf' h0 hF hs'
  refine ⟨v, hv, ?_⟩
  have hle := hexHeight_le hF
  have hm : (iso (m + 3) D P true).params.hexF2F ≤ 25 * (D / 2) := metric_le (r := D / 2) (by norm_num at hD' ⊢; linarith)
  obtain ⟨n, hn⟩ := C55_bolt ⟨some (iso (m + 3) D P true), style, tol, total, shank⟩ ⟨some (iso (m + 3) D P false), style', tol'⟩ _ _ f f'
    rfl rfl hf hf' (lt_trans (by norm_num) hP) rfl rfl rfl rfl hfit hF hs (show 0 < D / 2 by norm_num at hD'; linarith)
    (show _ ≤ D / 2 by norm_num at hle hm ⊢; linarith) h3 h4 v hv
  refine ⟨n, fun fuel hfu => ?_⟩
  obtain ⟨u, hu, hall⟩ := hn fuel hfu
  refine ⟨u, hu, fun a ha q => ?_⟩
  have e : ((iso (m + 3) D P true).params.starts : ℝ) * (iso (m + 3) D P true).params.pitch = P := by
    simp [iso, basicParams]
  have := hall a (by rw [e]; exact ha) q
  rwa [e] at this

/-- UTS bolts and nuts: ISO ones whose pitch is one inch divided by the number of threads per inch. -/
theorem C55_uts (D TPI : ℝ) (hT : 0 < TPI) (hT' : TPI < 10 ^ 9) (hD : 7 / 8 * isoH (1 / TPI) < D / 2) (hD' : 0.14 ≤ D) (m : ℕ)
    (style style' : Style) (hs : style.forBolt) (hs' : style' ≠ .other) (tol tol' total shank : ℝ) (h0 : 0 ≤ tol') (h3 : 0 ≤ shank)
    (h4 : shank < total) :
    ∃ v, nut ⟨some (uts (m + 3) D TPI false), style', tol'⟩ = .ok ⟨some v, false⟩ ∧
    ∃ n, ∀ fuel ≥ n, ∃ u, bolt fuel ⟨some (uts (m + 3) D TPI true), style, tol, total, shank⟩ = .ok ⟨some u, false⟩ ∧
      let h := (uts (m + 3) D TPI true).params.hexHeight
      ∀ a, h / 2 + shank ≤ (total + shank + h) / 2 + 1 / TPI * a / (2 * Real.pi) - h / 2 →
        ∀ q, ¬ (u.Inside (V3.add (V3.screwed (1 / TPI) a q) ⟨0, 0, (total + shank + h) / 2⟩) ∧ v.Inside q) := by
  have h := C55_iso D (1 / TPI) (one_div_lt_one_div_of_lt hT hT') hD hD' m style style' hs hs' tol tol' total shank h0 h3 h4
  unfold uts
  rw [show (1.0 : ℝ) / TPI = 1 / TPI by norm_num]
  exact h

/-- Non-vacuity: an M8 bolt 100 long with a shank of 10, and an M8 hexagonal nut in the middle of its thread. -/
example : ∃ v, nut ⟨some (iso 3 8 1.25 false), .hex, 0⟩ = .ok ⟨some v, false⟩ ∧
    ∃ n, ∀ fuel ≥ n, ∃ u, bolt fuel ⟨some (iso 3 8 1.25 true), .hex, 0, 100, 10⟩ = .ok ⟨some u, false⟩ ∧
      ∀ q, ¬ (u.Inside (V3.add (V3.screwed 1.25 0 q) ⟨0, 0, (100 + 10 + (iso 3 8 1.25 true).params.hexHeight) / 2⟩) ∧ v.Inside q) := by
  have h3 : Real.sqrt 3 < 2 := by rw [Real.sqrt_lt' (by norm_num)]; norm_num
  obtain ⟨v, hv, n, hn⟩ := C55_iso 8 1.25 (by norm_num) (by unfold isoH; norm_num; linarith) (by norm_num) 0 .hex .hex (.inl rfl) (by simp) 0 0 100 10
    le_rfl (by norm_num) (by norm_num)
  refine ⟨v, hv, n, fun fuel hf => ?_⟩
  obtain ⟨u, hu, hall⟩ := hn fuel hf
  refine ⟨u, hu, fun q => hall 0 ?_ q⟩
  have hF : 0 < (iso 3 8 1.25 true).params.hexF2F := C35_head_size (.iso 8 1.25 true) 3
  have hle := hexHeight_le hF
  have hm : (iso 3 8 1.25 true).params.hexF2F ≤ 25 * (8 / 2) := metric_le (r := 8 / 2) (by norm_num)
  simp only [zero_add, mul_zero, zero_div]
  norm_num at hle hm ⊢
  linarith

end Sdf
