import Verif.Props.C60Heads

/-!
C61: threads hold.  A nut on a bolt can only move as the thread does: wherever its middle is within the threaded part, a position
that is off the screw motion by anything but whole pitches makes the two overlap.
-/

namespace Sdf
open Must2 Thread

/-- The profile `f` of a bolt and the profile `f'` cut into a nut, both of the pitch `P`, engage at the distance `y` from the axis:
there the bolt fills the interval `(α, β)` of each pitch, and the nut the rest. -/
structure Engages (P : ℝ) (f f' : SDF2) (y α β : ℝ) : Prop where
  pos : 0 < y
  bolt : α < β
  nut : β < α + P
  filled : ∀ x (k : ℤ), |x| ≤ P / 2 → α < x + k * P → x + k * P < β → f.eval ⟨x, y⟩ < 0
  cut : ∀ x (k : ℤ), |x| ≤ P / 2 → β < x + k * P → x + k * P < α + P → 0 < f'.eval ⟨x, y⟩

/-- The threaded part, of any length, in a nut of any style.  The nut is turned by any angle `a`, advanced as the thread does, and
then displaced by `s` along the axis: unless `s` is a whole number of pitches, some point `q` of the nut's material comes to lie in
the thread. -/
theorem C61_thread (l : ℝ) (t t' : Threader) (f f' : SDF2) (ht : t.thread = .ok ⟨some f, false⟩) (ht' : t'.thread = .ok ⟨some f', false⟩)
    (hP : 0 < t.params.pitch) (eP : t'.params.pitch = t.params.pitch) (eS : t'.params.starts = t.params.starts) (hS : t.params.starts ≠ 0)
    (h0 : t.params.taper = 0) (h0' : t'.params.taper = 0) (y α β : ℝ) (hf : Engages t.params.pitch f f' y α β)
    (sc : SDF3) (hsc : screw l (some t) = .ok ⟨some sc, false⟩)
    (k : NutParms) (hk : k.thread = some t') (v : SDF3) (hv : nut k = .ok ⟨some v, false⟩)
    (hF : 4 / 10 ^ 9 < t'.params.hexF2F) (hy : y < t'.params.hexF2F / 2) (a s : ℝ) (hs : ∀ j : ℤ, s ≠ j * t.params.pitch)
    (hz : |t.params.starts * t.params.pitch * a / (2 * Real.pi) + s| < l / 2) :
    ∃ q, axisDist q = y ∧ q.z = 0 ∧
      sc.Inside (V3.add (V3.screwed (t.params.starts * t.params.pitch) a q) ⟨0, 0, s⟩) ∧ v.Inside q := by
  obtain ⟨head, sc', rfl, hsc', hd⟩ := nut_disc hk hv hF
  have hpi := Real.pi_pos
  have hlead : (t.params.starts : ℝ) * t.params.pitch ≠ 0 := mul_ne_zero (by exact_mod_cast hS) hP.ne'
  generalize hP' : t.params.pitch = P at *
  generalize hL : (t.params.starts : ℝ) * P = L at *
  -- the displacement within one pitch
  obtain ⟨j, s0, hs0, hs1, es⟩ : ∃ (j : ℤ) (s0 : ℝ), 0 < s0 ∧ s0 < P ∧ s = s0 + j * P := by
    refine ⟨⌊s / P⌋, s - ⌊s / P⌋ * P, ?_, ?_, by ring⟩
    · have h1 := (le_div_iff₀ hP).mp (Int.floor_le (s / P))
      exact sub_pos.mpr (lt_of_le_of_ne h1 (hs _).symm)
    · have h1 := (div_lt_iff₀ hP).mp (Int.lt_floor_add_one (s / P))
      linarith
  obtain ⟨X, hX1, hX2⟩ : ∃ X, max β (α + P - s0) < X ∧ X < min (α + P) (β + P - s0) := by
    refine exists_between (max_lt (lt_min hf.nut (by linarith)) (lt_min (by linarith) ?_))
    linarith [hf.bolt]
  rw [max_lt_iff] at hX1
  rw [lt_min_iff] at hX2
  obtain ⟨φ, hφ⟩ : ∃ φ, X = -(L * φ / (2 * Real.pi)) := ⟨-(X * (2 * Real.pi) / L), by field_simp⟩
  have hfy : axisDist ⟨y * Real.cos φ, y * Real.sin φ, 0⟩ = y := by
    unfold axisDist V2.norm
    simp only
    rw [show y * Real.cos φ * (y * Real.cos φ) + y * Real.sin φ * (y * Real.sin φ) = y * y by
      linear_combination y * y * Real.sin_sq_add_cos_sq φ]
    exact Real.sqrt_mul_self hf.pos.le
  refine ⟨⟨y * Real.cos φ, y * Real.sin φ, 0⟩, hfy, rfl, ?_, ?_⟩
  · obtain ⟨x, m, h1, h2, h3⟩ := C36_section_exists P (X + s) hP
    have e : V3.add (V3.screwed L a ⟨y * Real.cos φ, y * Real.sin φ, 0⟩) ⟨0, 0, s⟩ =
        ⟨y * Real.cos (φ + a), y * Real.sin (φ + a), L * a / (2 * Real.pi) + s⟩ := by
      ext
      · simp only [V3.add, V3.screwed, Real.cos_add]; ring
      · simp only [V3.add, V3.screwed, Real.sin_add]; ring
      · simp only [V3.add, V3.screwed]; ring
    have v1 := C36_section l t f sc hsc ht (by rw [hP']; exact hP) y (φ + a) (L * a / (2 * Real.pi) + s) x m hf.pos (by rw [hP']; exact h1)
      (by rw [hP']; exact h2) (by
        rw [hP', hL, show L * (φ + a) / (2 * Real.pi) = L * φ / (2 * Real.pi) + L * a / (2 * Real.pi) by ring]
        linarith)
    rw [h0, Real.arctan_zero, mul_zero, add_zero] at v1
    unfold SDF3.Inside
    rw [e, v1]
    refine max_lt (hf.filled x (m - j - 1) (abs_le.mpr ⟨h1, h2.le⟩) ?_ ?_) (by linarith)
    · push_cast; linarith
    · push_cast; linarith
  · rw [C16_difference3]
    refine ⟨hd _ _ (by rw [show V2.norm ⟨y * Real.cos φ, y * Real.sin φ⟩ = y from hfy]; exact hy), ?_⟩
    obtain ⟨x, m, h1, h2, h3⟩ := C36_section_exists P X hP
    have v1 := C36_section _ t' f' sc' hsc' ht' (by rw [eP]; exact hP) y φ 0 x m hf.pos (by rw [eP]; exact h1)
      (by rw [eP]; exact h2) (by
        rw [eP, eS, hL]
        linarith)
    rw [h0', Real.arctan_zero, mul_zero, add_zero] at v1
    unfold SDF3.Outside
    rw [v1]
    exact lt_max_of_lt_left (hf.cut x m (abs_le.mpr ⟨h1, h2.le⟩) (by linarith) (by linarith))

/-- Profiles that are symmetric and as wide as they are apart at the pitch line. -/
theorem engages_half {P y : ℝ} (hP : 0 < P) (hy : 0 < y) {f f' : SDF2} (h1 : ∀ x, |x| < P / 4 → f.eval ⟨x, y⟩ < 0)
    (h2 : ∀ x, |x| ≤ P / 2 → P / 4 < |x| → 0 < f'.eval ⟨x, y⟩) : Engages P f f' y (-(P / 4)) (P / 4) := by
  have step : ∀ k : ℤ, k ≤ -1 ∨ k = 0 ∨ k = 1 ∨ 2 ≤ k := fun k => by omega
  refine ⟨hy, by linarith, by linarith, fun x k hx ha hb => h1 x ?_, fun x k hx ha hb => h2 x hx ?_⟩
  · have hx := abs_le.mp hx
    rcases step k with hk | rfl | rfl | hk
    · have : (k : ℝ) * P ≤ -1 * P := mul_le_mul_of_nonneg_right (by exact_mod_cast hk) hP.le
      linarith
    · rw [abs_lt]; push_cast at ha hb; exact ⟨by linarith, by linarith⟩
    · push_cast at ha hb; linarith
    · have : 2 * P ≤ (k : ℝ) * P := mul_le_mul_of_nonneg_right (by exact_mod_cast hk) hP.le
      linarith
  · have hx' := abs_le.mp hx
    rcases step k with hk | rfl | rfl | hk
    · have : (k : ℝ) * P ≤ -1 * P := mul_le_mul_of_nonneg_right (by exact_mod_cast hk) hP.le
      linarith
    · push_cast at ha hb; exact lt_of_lt_of_le (by linarith) (le_abs_self x)
    · push_cast at ha hb; exact lt_of_lt_of_le (by linarith) (neg_le_abs x)
    · have : 2 * P ≤ (k : ℝ) * P := mul_le_mul_of_nonneg_right (by exact_mod_cast hk) hP.le
      linarith

/-- ISO threads engage at the pitch diameter, which is `3/8` of the height of the sharp triangle below the nominal radius. -/
theorem C61_iso_profiles (D P : ℝ) (hP : 1 / 10 ^ 9 < P) (hD : 7 / 8 * isoH P < D / 2) (fuel : ℕ) :
    ∃ f f', (iso (fuel + 3) D P true).thread = .ok ⟨some f, false⟩ ∧ (iso (fuel + 3) D P false).thread = .ok ⟨some f', false⟩ ∧
      Engages P f f' (D / 2 - 3 / 8 * isoH P) (-(P / 4)) (P / 4) := by
  have hP0 : 0 < P := lt_trans (by norm_num) hP
  have hH : isoH P = P * Real.sqrt 3 / 2 := rfl
  have h30 : 0 < Real.sqrt 3 := by positivity
  have hH0 : 0 < isoH P := by rw [hH]; positivity
  have hdiv : ∀ z : ℝ, z / (1 / Real.sqrt 3) = z * Real.sqrt 3 := fun z => by rw [div_div_eq_mul_div, div_one]
  obtain ⟨f, hf, -, hin⟩ := C51_iso_external D P hP hD fuel
  obtain ⟨f', hf', -, hin'⟩ := C51_iso_internal D P hP (by linarith) (fuel + 1)
  refine ⟨f, f', hf, hf', engages_half hP0 (by linarith) (fun x hx => ?_) (fun x hx hx' => ?_)⟩
  · refine (hin x _ (by linarith) (fun h => by linarith [h.2.2])).1.mpr ⟨by linarith, lt_min (by linarith) ?_⟩
    rw [Real.tan_pi_div_six, hdiv]
    have : P / 4 * Real.sqrt 3 < (P / 2 - |x|) * Real.sqrt 3 := mul_lt_mul_of_pos_right (by linarith) h30
    linarith
  · refine (hin' x _ hx (fun h => by linarith [h.2.1])).2.mpr (.inr (max_lt (by linarith) ?_))
    rw [Real.tan_pi_div_six, hdiv]
    have : P / 4 * Real.sqrt 3 < |x| * Real.sqrt 3 := mul_lt_mul_of_pos_right hx' h30
    linarith

/-- Acme threads engage at the pitch diameter, a quarter of the pitch below the nominal radius. -/
theorem C61_acme_profile (D P : ℝ) (hP : 0 < P) (hD : P < D) (hT : 1 / 10 ^ 9 < D) (fuel : ℕ) :
    ∃ f, (acme (fuel + 1) D P).thread = .ok ⟨some f, false⟩ ∧ Engages P f f (D / 2 - P / 4) (-(P / 4)) (P / 4) := by
  obtain ⟨f, hf, -, hin⟩ := C51_acme D P hP hD hT fuel
  obtain ⟨T0, T1⟩ := tan_pos_lt_one (θ := 14.5 * Real.pi / 180) (by have := Real.pi_pos; positivity) (by have := Real.pi_pos; norm_num; linarith)
  refine ⟨f, hf, engages_half hP (by linarith) (fun x hx => ?_) (fun x hx hx' => ?_)⟩
  · refine (hin x _ (by linarith)).1.mpr ⟨by linarith, lt_max_of_lt_right (lt_min (by linarith) ?_)⟩
    have : (|x| - P / 4) / Real.tan (14.5 * Real.pi / 180) < 0 := div_neg_of_neg_of_pos (by linarith) T0
    linarith
  · refine (hin x _ hx).2.mpr (.inr (max_lt (by linarith) (min_lt_of_right_lt ?_)))
    have : 0 < (|x| - P / 4) / Real.tan (14.5 * Real.pi / 180) := div_pos (by linarith) T0
    linarith

theorem engages_buttress {D P : ℝ} (hP : 0 < P) (hD : buttressDepth P < D / 2) {f : SDF2}
    (h1 : ∀ x, |x| ≤ P / 2 → D / 2 - buttressDepth P + P / 2 < buttressHeight D P x → f.eval ⟨x, D / 2 - buttressDepth P + P / 2⟩ < 0)
    (h2 : ∀ x, |x| ≤ P / 2 → buttressHeight D P x < D / 2 - buttressDepth P + P / 2 → 0 < f.eval ⟨x, D / 2 - buttressDepth P + P / 2⟩) :
    Engages P f f (D / 2 - buttressDepth P + P / 2) (buttressRoot P + P / 2 * tan7 - P) (buttressRoot P - P / 2) := by
  obtain ⟨t0, t1⟩ := tan7_bounds
  obtain ⟨b1, b2, b3, b4, b5⟩ := buttress_bounds hP
  have hdiv : ∀ z, z / tan7 * tan7 = z := fun z => div_mul_cancel₀ z t0.ne'
  have hend : buttressRoot P + P / 2 * tan7 < P / 2 := by
    have : buttressRoot P = P / (1 + tan7) - P / 2 := rfl
    have h3 : P / (1 + tan7) * (1 + tan7) = P := div_mul_cancel₀ P (by linarith)
    have h4 : P / 2 * tan7 < P / (1 + tan7) * tan7 := mul_lt_mul_of_pos_right (by linarith) t0
    linarith
  have hm : 0 < P / 2 * tan7 := by positivity
  have step : ∀ k : ℤ, k ≤ -2 ∨ k = -1 ∨ k = 0 ∨ 1 ≤ k := fun k => by omega
  refine ⟨by linarith, by linarith, by linarith, fun x k hx ha hb => h1 x hx ?_, fun x k hx ha hb => h2 x hx ?_⟩
  · have hx := abs_le.mp hx
    refine lt_min (by linarith) ?_
    rcases step k with hk | rfl | rfl | hk
    · have : (k : ℝ) * P ≤ -2 * P := mul_le_mul_of_nonneg_right (by exact_mod_cast hk) hP.le
      linarith
    · push_cast at ha hb
      have : P / 2 < (x - buttressRoot P) / tan7 := by rw [lt_div_iff₀ t0]; linarith
      linarith [le_max_left ((x - buttressRoot P) / tan7) (buttressRoot P - x)]
    · push_cast at ha hb
      linarith [le_max_right ((x - buttressRoot P) / tan7) (buttressRoot P - x)]
    · have : 1 * P ≤ (k : ℝ) * P := mul_le_mul_of_nonneg_right (by exact_mod_cast hk) hP.le
      linarith
  · have hx := abs_le.mp hx
    refine min_lt_of_right_lt (add_lt_add_right (max_lt ?_ ?_) _)
    all_goals
      rcases step k with hk | rfl | rfl | hk
      · have : (k : ℝ) * P ≤ -2 * P := mul_le_mul_of_nonneg_right (by exact_mod_cast hk) hP.le
        linarith
      · push_cast at ha hb
        linarith
      · push_cast at ha hb
        first
        | (rw [div_lt_iff₀ t0]; linarith)
        | linarith
      · have : 1 * P ≤ (k : ℝ) * P := mul_le_mul_of_nonneg_right (by exact_mod_cast hk) hP.le
        linarith

/-- Both kinds of buttress threads engage half a pitch above the root. -/
theorem C61_buttress_profiles (D P : ℝ) (hP : 1 / 10 ^ 9 < P) (hD : buttressDepth P < D / 2) (fuel : ℕ) :
    (∃ f, (ansiButtress (fuel + 2) D P).thread = .ok ⟨some f, false⟩ ∧
      Engages P f f (D / 2 - buttressDepth P + P / 2) (buttressRoot P + P / 2 * tan7 - P) (buttressRoot P - P / 2)) ∧
    ∃ f, (plasticButtress (fuel + 4) D P).thread = .ok ⟨some f, false⟩ ∧
      Engages P f f (D / 2 - buttressDepth P + P / 2) (buttressRoot P + P / 2 * tan7 - P) (buttressRoot P - P / 2) := by
  have hP0 : 0 < P := lt_trans (by norm_num) hP
  have hd := buttress_bounds hP0
  constructor
  · obtain ⟨f, hf, -, hin⟩ := C51_ansi D P hP hD fuel
    refine ⟨f, hf, engages_buttress hP0 hD (fun x hx h => ?_) (fun x hx h => ?_)⟩
    · exact (hin x _ (by linarith) (fun h => by linarith [h.2.2.2])).1.mpr ⟨by linarith, h⟩
    · exact (hin x _ (by linarith) (fun h => by linarith [h.2.2.2])).2.mpr (.inr h)
  · obtain ⟨f, hf, -, hin⟩ := C51_plastic D P hP hD fuel
    refine ⟨f, hf, engages_buttress hP0 hD (fun x hx h => ?_) (fun x hx h => ?_)⟩
    · exact (hin x _ (by linarith) (fun h => by linarith [h.2.2.2]) (fun h => by linarith [h.2.2.1, hd.1])
        (fun h => by linarith [h.2.2.1, hd.1])).1.mpr ⟨by linarith, h⟩
    · exact (hin x _ (by linarith) (fun h => by linarith [h.2.2.2]) (fun h => by linarith [h.2.2.1, hd.1])
        (fun h => by linarith [h.2.2.1, hd.1])).2.mpr (.inr h)

/-- A longer screw contains a shorter one. -/
theorem screw_longer {l l' : ℝ} {t : Threader} {u u' : SDF3} (hu : screw l (some t) = .ok ⟨some u, false⟩)
    (hu' : screw l' (some t) = .ok ⟨some u', false⟩) (hl : l ≤ l') {p : V3} (hp : u.Inside p) : u'.Inside p := by
  obtain ⟨-, f, hf, rfl⟩ := screw_ok hu
  obtain ⟨-, g, hg, rfl⟩ := screw_ok hu'
  rw [hf] at hg
  simp only [Must2.Outcome.ok.injEq, Returned.mk.injEq, Option.some.injEq, and_true] at hg
  subst hg
  simp only [SDF3.Inside, screwOf, ScrewData.eval, max_lt_iff] at hp ⊢
  exact ⟨hp.1, by linarith [hp.2]⟩

/-- The positions that a nut can take on an untapered thread into which it fits and with which it engages: those of the screw motion,
up to whole pitches. -/
theorem C61_positions (l : ℝ) (t t' : Threader) (f f' : SDF2) (ht : t.thread = .ok ⟨some f, false⟩) (ht' : t'.thread = .ok ⟨some f', false⟩)
    (hP : 0 < t.params.pitch) (eP : t'.params.pitch = t.params.pitch) (eS : t'.params.starts = t.params.starts) (hS : t.params.starts ≠ 0)
    (h0 : t.params.taper = 0) (h0' : t'.params.taper = 0) (hfit : FitsInto t.params.pitch f f') (y α β : ℝ)
    (hf : Engages t.params.pitch f f' y α β) (sc : SDF3) (hsc : screw l (some t) = .ok ⟨some sc, false⟩)
    (k : NutParms) (hk : k.thread = some t') (v : SDF3) (hv : nut k = .ok ⟨some v, false⟩)
    (hF : 4 / 10 ^ 9 < t'.params.hexF2F) (hy : y < t'.params.hexF2F / 2) (a s : ℝ)
    (hz : |t.params.starts * t.params.pitch * a / (2 * Real.pi) + s| < l / 2) :
    (∀ q, ¬ (sc.Inside (V3.add (V3.screwed (t.params.starts * t.params.pitch) a q) ⟨0, 0, s⟩) ∧ v.Inside q)) ↔
      ∃ j : ℤ, s = j * t.params.pitch := by
  constructor
  · intro hfree
    by_contra hs
    push Not at hs
    obtain ⟨q, -, -, hq⟩ := C61_thread l t t' f f' ht ht' hP eP eS hS h0 h0' y α β hf sc hsc k hk v hv hF hy a s hs hz
    exact hfree q hq
  · rintro ⟨j, rfl⟩ q ⟨hi, hq⟩
    set p := V3.screwed (t.params.starts * t.params.pitch) a q with hp
    -- a screw long enough for both positions
    obtain ⟨sc', hsc'⟩ := C36_constructed (l + 2 * |p.z| + 1) t f (by have := (screw_ok hsc).1; positivity) ht
    have h1 := screw_longer hsc hsc' (by have := abs_nonneg p.z; linarith) hi
    have hper := C36_periodic _ t sc' hsc' hP h0 j p
    have e : V3.add p ⟨0, 0, j * t.params.pitch⟩ = ⟨p.x, p.y, p.z + j * t.params.pitch⟩ := by
      ext <;> simp [V3.add]
    rw [e] at h1 hi
    have hl := (screw_ok hsc).1
    have h2 : |p.z + j * t.params.pitch| - (l + 2 * |p.z| + 1) / 2 < 0 := by
      obtain ⟨-, g, -, rfl⟩ := screw_ok hsc
      simp only [SDF3.Inside, screwOf, ScrewData.eval, max_lt_iff] at hi
      have := abs_nonneg p.z
      linarith [hi.2]
    have h3 : |p.z| - (l + 2 * |p.z| + 1) / 2 < 0 := by linarith
    have h4 := max_lt (show sc'.eval ⟨p.x, p.y, p.z + j * t.params.pitch⟩ < 0 from h1) h3
    rw [hper, max_lt_iff] at h4
    exact C55_thread _ t t' f f' ht ht' hP eP eS h0 h0' hfit sc' hsc' k hk v hv a q ⟨h4.1, hq⟩

/-- An ISO nut on an ISO thread of the same nominal diameter (below 95) and pitch, of any style and length, with its middle within
the thread: it is free of the bolt exactly in the positions of the screw motion of that pitch, up to whole pitches. -/
theorem C61_iso (D P : ℝ) (hP : 1 / 10 ^ 9 < P) (hD : 7 / 8 * isoH P < D / 2) (hD' : D < 95) (m : ℕ) (style : Style) (tol l : ℝ)
    (sc v : SDF3) (hsc : screw l (some (iso (m + 3) D P true)) = .ok ⟨some sc, false⟩)
    (hv : nut ⟨some (iso (m + 3) D P false), style, tol⟩ = .ok ⟨some v, false⟩) (a s : ℝ) (hz : |P * a / (2 * Real.pi) + s| < l / 2) :
    (∀ q, ¬ (sc.Inside (V3.add (V3.screwed P a q) ⟨0, 0, s⟩) ∧ v.Inside q)) ↔ ∃ j : ℤ, s = j * P := by
  have hH : isoH P = P * Real.sqrt 3 / 2 := rfl
  have hP0 : 0 < P := lt_trans (by norm_num) hP
  have hH0 : 0 < isoH P := by rw [hH]; positivity
  obtain ⟨f, f', hf, hf', hE⟩ := C61_iso_profiles D P hP hD m
  obtain ⟨g, g', hg, hg', hfit⟩ := C55_iso_profiles D P hP hD m
  rw [hf] at hg
  rw [hf'] at hg'
  simp only [Must2.Outcome.ok.injEq, Returned.mk.injEq, Option.some.injEq, and_true] at hg hg'
  subst hg hg'
  have hF := (loop_ge (estF2F (D / 2))).1
  have hF' := (C60_metric_partial (D / 2)).mpr (by norm_num; linarith)
  have := C61_positions l _ _ f f' hf hf' hP0 rfl rfl one_ne_zero rfl rfl hfit _ _ _ hE sc hsc _ rfl v hv
    (lt_of_lt_of_le (by norm_num) hF) (show D / 2 - 3 / 8 * isoH P < metricf2f (D / 2) / 2 by linarith) a s
    (by simpa [iso, basicParams] using hz)
  simpa [iso, basicParams] using this

/-- UTS nuts and threads. -/
theorem C61_uts (D TPI : ℝ) (hT : 0 < TPI) (hT' : TPI < 10 ^ 9) (hD : 7 / 8 * isoH (1 / TPI) < D / 2) (hD' : D < 95) (m : ℕ)
    (style : Style) (tol l : ℝ) (sc v : SDF3) (hsc : screw l (some (uts (m + 3) D TPI true)) = .ok ⟨some sc, false⟩)
    (hv : nut ⟨some (uts (m + 3) D TPI false), style, tol⟩ = .ok ⟨some v, false⟩) (a s : ℝ)
    (hz : |1 / TPI * a / (2 * Real.pi) + s| < l / 2) :
    (∀ q, ¬ (sc.Inside (V3.add (V3.screwed (1 / TPI) a q) ⟨0, 0, s⟩) ∧ v.Inside q)) ↔ ∃ j : ℤ, s = j * (1 / TPI) := by
  unfold uts at hsc hv
  rw [show (1.0 : ℝ) / TPI = 1 / TPI by norm_num] at hsc hv
  exact C61_iso D (1 / TPI) (one_div_lt_one_div_of_lt hT hT') hD hD' m style tol l sc v hsc hv a s hz

/-- Nuts and threads of one and the same kind of thread: Acme. -/
theorem C61_acme (D P : ℝ) (hP : 0 < P) (hD : P < D) (hT : 1 / 10 ^ 9 < D) (hD' : D < 95) (m : ℕ) (style : Style) (tol l : ℝ)
    (sc v : SDF3) (hsc : screw l (some (acme (m + 1) D P)) = .ok ⟨some sc, false⟩)
    (hv : nut ⟨some (acme (m + 1) D P), style, tol⟩ = .ok ⟨some v, false⟩) (a s : ℝ) (hz : |P * a / (2 * Real.pi) + s| < l / 2) :
    (∀ q, ¬ (sc.Inside (V3.add (V3.screwed P a q) ⟨0, 0, s⟩) ∧ v.Inside q)) ↔ ∃ j : ℤ, s = j * P := by
  obtain ⟨f, hf, hE⟩ := C61_acme_profile D P hP hD hT m
  obtain ⟨g, hg, hfit⟩ := C55_acme_profile D P hP hD hT m
  rw [hf] at hg
  simp only [Must2.Outcome.ok.injEq, Returned.mk.injEq, Option.some.injEq, and_true] at hg
  subst hg
  have hF := (loop_ge (estF2F (D / 2))).1
  have hF' := (C60_metric_partial (D / 2)).mpr (by norm_num; linarith)
  have := C61_positions l _ _ f f hf hf hP rfl rfl one_ne_zero rfl rfl hfit _ _ _ hE sc hsc _ rfl v hv
    (lt_of_lt_of_le (by norm_num) hF) (show D / 2 - P / 4 < metricf2f (D / 2) / 2 by linarith) a s
    (by simpa [acme, basicParams] using hz)
  simpa [acme, basicParams] using this

/-- Nuts and threads of one and the same kind of thread: ANSI buttress. -/
theorem C61_ansi (D P : ℝ) (hP : 1 / 10 ^ 9 < P) (hD : buttressDepth P < D / 2) (hD' : D < 95) (m : ℕ) (style : Style) (tol l : ℝ)
    (sc v : SDF3) (hsc : screw l (some (ansiButtress (m + 2) D P)) = .ok ⟨some sc, false⟩)
    (hv : nut ⟨some (ansiButtress (m + 2) D P), style, tol⟩ = .ok ⟨some v, false⟩) (a s : ℝ) (hz : |P * a / (2 * Real.pi) + s| < l / 2) :
    (∀ q, ¬ (sc.Inside (V3.add (V3.screwed P a q) ⟨0, 0, s⟩) ∧ v.Inside q)) ↔ ∃ j : ℤ, s = j * P := by
  have hP0 : 0 < P := lt_trans (by norm_num) hP
  obtain ⟨f, hf, hE⟩ := (C61_buttress_profiles D P hP hD m).1
  obtain ⟨g, hg, hfit⟩ := (C55_buttress_profiles D P hP hD m).1
  rw [hf] at hg
  simp only [Must2.Outcome.ok.injEq, Returned.mk.injEq, Option.some.injEq, and_true] at hg
  subst hg
  have hb := buttress_bounds hP0
  have hF := (loop_ge (estF2F (D / 2))).1
  have hF' := (C60_metric_partial (D / 2)).mpr (by norm_num; linarith)
  have := C61_positions l _ _ f f hf hf hP0 rfl rfl one_ne_zero rfl rfl hfit _ _ _ hE sc hsc _ rfl v hv
    (lt_of_lt_of_le (by norm_num) hF) (show D / 2 - buttressDepth P + P / 2 < metricf2f (D / 2) / 2 by linarith [hb.1]) a s
    (by simpa [ansiButtress, basicParams] using hz)
  simpa [ansiButtress, basicParams] using this

/-- Nuts and threads of one and the same kind of thread: plastic buttress. -/
theorem C61_plastic (D P : ℝ) (hP : 1 / 10 ^ 9 < P) (hD : buttressDepth P < D / 2) (hD' : D < 95) (m : ℕ) (style : Style) (tol l : ℝ)
    (sc v : SDF3) (hsc : screw l (some (plasticButtress (m + 4) D P)) = .ok ⟨some sc, false⟩)
    (hv : nut ⟨some (plasticButtress (m + 4) D P), style, tol⟩ = .ok ⟨some v, false⟩) (a s : ℝ)
    (hz : |P * a / (2 * Real.pi) + s| < l / 2) :
    (∀ q, ¬ (sc.Inside (V3.add (V3.screwed P a q) ⟨0, 0, s⟩) ∧ v.Inside q)) ↔ ∃ j : ℤ, s = j * P := by
  have hP0 : 0 < P := lt_trans (by norm_num) hP
  obtain ⟨f, hf, hE⟩ := (C61_buttress_profiles D P hP hD m).2
  obtain ⟨g, hg, hfit⟩ := (C55_buttress_profiles D P hP hD m).2
  rw [hf] at hg
  simp only [Must2.Outcome.ok.injEq, Returned.mk.injEq, Option.some.injEq, and_true] at hg
  subst hg
  have hb := buttress_bounds hP0
  have hF := (loop_ge (estF2F (D / 2))).1
  have hF' := (C60_metric_partial (D / 2)).mpr (by norm_num; linarith)
  have := C61_positions l _ _ f f hf hf hP0 rfl rfl one_ne_zero rfl rfl hfit _ _ _ hE sc hsc _ rfl v hv
    (lt_of_lt_of_le (by norm_num) hF) (show D / 2 - buttressDepth P + P / 2 < metricf2f (D / 2) / 2 by linarith [hb.1]) a s
    (by simpa [plasticButtress, basicParams] using hz)
  simpa [plasticButtress, basicParams] using this

/-- Non-vacuity: an M8 thread of length 20 and an M8 hexagonal nut.  Half a pitch off, they overlap; a whole pitch off, they do
not. -/
example : ∃ sc v, screw 20 (some (iso 3 8 1.25 true)) = .ok ⟨some sc, false⟩ ∧
    nut ⟨some (iso 3 8 1.25 false), .hex, 0⟩ = .ok ⟨some v, false⟩ ∧
    (∃ q, sc.Inside (V3.add (V3.screwed 1.25 0 q) ⟨0, 0, 0.625⟩) ∧ v.Inside q) ∧
    ¬ ∃ q, sc.Inside (V3.add (V3.screwed 1.25 0 q) ⟨0, 0, 1.25⟩) ∧ v.Inside q := by
  have h3 : Real.sqrt 3 < 2 := by rw [Real.sqrt_lt' (by norm_num)]; norm_num
  have hD : 7 / 8 * isoH 1.25 < 8 / 2 := by unfold isoH; norm_num; linarith
  obtain ⟨f, f', hf, hf', -⟩ := C61_iso_profiles 8 1.25 (by norm_num) hD 0
  obtain ⟨sc, hsc⟩ := C36_constructed 20 _ f (by norm_num) hf
  obtain ⟨v, hv⟩ := C35_nut ⟨some (iso 3 8 1.25 false), .hex, 0⟩ _ f' rfl hf' le_rfl (C35_head_size (.iso 8 1.25 false) 3) (by simp)
  refine ⟨sc, v, hsc, hv, ?_, ?_⟩
  · have := C61_iso 8 1.25 (by norm_num) hD (by norm_num) 0 .hex 0 20 sc v hsc hv 0 0.625
      (by rw [mul_zero, zero_div, zero_add, abs_of_pos (by norm_num)]; norm_num)
    by_contra hc
    push Not at hc
    obtain ⟨j, hj⟩ := this.mp (fun q hq => hc q hq.1 hq.2)
    have : (1 : ℝ) = ((2 * j : ℤ) : ℝ) := by push_cast; norm_num at hj ⊢; linarith
    have : (1 : ℤ) = 2 * j := by exact_mod_cast this
    omega
  · have := C61_iso 8 1.25 (by norm_num) hD (by norm_num) 0 .hex 0 20 sc v hsc hv 0 1.25
      (by rw [mul_zero, zero_div, zero_add, abs_of_pos (by norm_num)]; norm_num)
    rintro ⟨q, hq⟩
    exact this.mpr ⟨1, by norm_num⟩ q hq

end Sdf
