import Verif.Model.Examples
import Verif.Props.C60Heads
import Verif.Props.C45Matter
import Verif.Props.C35Holes

/-!
C75: the example programs run to the end, and what they build has the openings it is built with.  Spacers take their bolt, have a wall
around it and do not touch each other; the flange has its hole.  Two examples do not do what they say: five of the eight holes drilled
into the support miss it (`C75_support_wrong`), and the nut on the flange does not reach the flange (`C75_flange_wrong`).
-/

namespace Sdf.Examples
open Polygon Must2 Thread Obj3

theorem square_fits {x : ℝ} (h0 : 0 ≤ x) (h : x ≤ 10 ^ 100) : x * x ≤ maxFloat64 := by
  refine (mul_le_mul h h h0 (by positivity)).trans ?_
  have h3 : (10 : ℝ) ^ 100 * 10 ^ 100 ≤ 2 ^ 1023 := by
    calc (10 : ℝ) ^ 100 * 10 ^ 100 = 10 ^ 200 := by rw [← pow_add]
      _ ≤ (2 ^ 4) ^ 200 := pow_le_pow_left₀ (by norm_num) (by norm_num) _
      _ = 2 ^ 800 := by rw [← pow_mul]
      _ ≤ 2 ^ 1023 := pow_le_pow_right₀ (by norm_num) (by norm_num)
  refine h3.trans ?_
  have h4 : (0 : ℝ) < 2 ^ 1023 := pow_pos (by norm_num) _
  unfold maxFloat64
  generalize (2 : ℝ) ^ 1023 = z at h4 ⊢
  norm_num
  linarith

theorem hexHeadFlat_shape {r h : ℝ} (hr : 2 / 10 ^ 9 < r) (hr' : r ≤ 10 ^ 100) : ∃ u, hexHeadFlat r h = ⟨some u, false⟩ ∧ ∀ p,
    (axisDist p < r * (0.46 * Real.sqrt 3 + 0.08) → |p.z| < h / 2 → u.Inside p) ∧ (u.Inside p → axisDist p < r ∧ |p.z| < h / 2) := by
  have hr0 : 0 < r := lt_trans (by norm_num) hr
  have h3 : Real.sqrt 3 * Real.sqrt 3 = 3 := Real.mul_self_sqrt (by norm_num)
  have h30 : 0 < Real.sqrt 3 := by positivity
  have h3a : 1.7 < Real.sqrt 3 := by norm_num; nlinarith
  obtain ⟨v, hv⟩ : ∃ v, Must2.nagon 6 (r - r * 0.08) = some v := by unfold Must2.nagon; exact ⟨_, rfl⟩
  have hlen : v.length = 6 := by
    unfold Must2.nagon at hv
    rw [if_neg (by norm_num)] at hv
    cases hv
    simp
  obtain ⟨hex, hhex, -⟩ := (C33_polygon v).1 (by omega)
  refine ⟨SDF3.extrude (hex.offset (r * 0.08)) h, by unfold hexHeadFlat; simp only [hv, hhex], fun p => ?_⟩
  have key := grown_nagon (n := 6) (by norm_num) (ρ := r - r * 0.08) (c := r * 0.08)
    (by rw [show 2 * Real.pi / ((6 : ℕ) : ℝ) = Real.pi / 3 by push_cast; ring, Real.sin_pi_div_three]
        norm_num at hr h3a ⊢
        nlinarith) (by norm_num; exact hr0) (v := v) (s := hex) hv hhex ⟨p.x, p.y⟩
  rw [C26_extrude]
  constructor
  · intro h1 h2
    refine ⟨h2, key.1 ?_⟩
    rw [apothem_rounded]
    exact h1
  · rintro ⟨h1, h2⟩
    have := (key.2 (square_fits (by norm_num; exact hr0.le) (by norm_num at hr' ⊢; linarith)) h2).2
    refine ⟨?_, h1⟩
    unfold axisDist
    linarith

theorem hexRadiusFromFTF_eq (f : ℝ) : hexRadiusFromFTF f = f / Real.sqrt 3 := by
  unfold hexRadiusFromFTF
  rw [show 30 * Real.pi / 180 = Real.pi / 6 by ring, Real.cos_pi_div_six]
  have : Real.sqrt 3 ≠ 0 := by positivity
  field_simp

/-- Every spacer gets made.  It has a hole of the compensated diameter from one end to the other, a wall around it, and the height asked
for. -/
theorem C75_spacer (m : Viscoelastic) (D H hole : ℝ) (hH : 0 < H) (hh : m.internalDimScale (D * 1.03) = some hole)
    (hmin : 3 / 8 < hole) (hmax : hole ≤ 10 ^ 90) : ∃ u, spacer m D H = some ⟨some u, false⟩ ∧ hole < spacerFTF hole ∧ ∀ p,
      (axisDist p ≤ hole / 2 → ¬ u.Inside p) ∧
      (hole / 2 < axisDist p → axisDist p ≤ spacerFTF hole / 2 → |p.z| < H / 2 → u.Inside p) ∧
      (u.Inside p → axisDist p < spacerFTF hole / Real.sqrt 3 ∧ |p.z| < H / 2) := by
  have h3 : Real.sqrt 3 * Real.sqrt 3 = 3 := Real.mul_self_sqrt (by norm_num)
  have h30 : 0 < Real.sqrt 3 := by positivity
  have h3a : 1.7 < Real.sqrt 3 := by norm_num; nlinarith
  have h3b : Real.sqrt 3 < 1.74 := by norm_num; nlinarith
  have hf1 : hole < spacerFTF hole := by
    unfold spacerFTF
    have := Int.le_ceil (hole * 1.4)
    norm_num at this ⊢
    linarith
  have hf2 : spacerFTF hole ≤ 10 ^ 92 := by
    unfold spacerFTF
    have := Int.ceil_lt_add_one (hole * 1.4)
    norm_num at this hmax ⊢
    linarith
  set f := spacerFTF hole with hf
  set r := f / Real.sqrt 3 with hr
  have hfr : f = r * Real.sqrt 3 := by rw [hr]; field_simp
  have hr1 : 2 / 10 ^ 9 < r := by
    rw [hfr] at hf1
    norm_num at h3b ⊢
    by_contra hc
    push Not at hc
    nlinarith
  have hr0 : 0 < r := lt_trans (by norm_num) hr1
  have hr2 : r ≤ 10 ^ 100 := by
    rw [hfr] at hf2
    norm_num at h3a hf2 ⊢
    nlinarith
  obtain ⟨hex, hhex, hin⟩ := hexHeadFlat_shape (h := H) hr1 hr2
  obtain ⟨cyl, hc, hci, hco⟩ := cyl0 (H := H) (R := hole / 2) (by linarith) hH.le
  refine ⟨SDF3.difference hex cyl, ?_, hf1, fun p => ⟨?_, ?_, ?_⟩⟩
  · unfold spacer
    rw [show D * (1 + 0.03) = D * 1.03 by norm_num, hh]
    simp only [Option.bind_eq_bind, Option.bind_some, ← hf, hexRadiusFromFTF_eq, ← hr, hhex, Bool.false_eq_true, if_false, Form3.cylinder, hc,
      recovered, SDF3.differenceNil]
  · intro hp hu
    rw [C16_difference3] at hu
    have h1 := ((hin p).2 hu.1).2
    rcases (hco p).mp hu.2 with h2 | h2
    · exact absurd hp (not_le.mpr h2)
    · linarith
  · intro h1 h2 hz
    rw [C16_difference3]
    refine ⟨(hin p).1 ?_ hz, (hco p).mpr (.inl h1)⟩
    refine lt_of_le_of_lt h2 ?_
    rw [hfr]
    norm_num at h3b ⊢
    nlinarith
  · intro hu
    rw [C16_difference3] at hu
    exact (hin p).2 hu.1

/-- Printed in PLA, whatever the diameter: the hole is wider than the bolt, by more than three percent. -/
theorem C75_bolt_fits (D H : ℝ) (hD : 0 < D) (hD' : D ≤ 10 ^ 80) (hH : 0 < H) : ∃ u, spacer pla D H = some ⟨some u, false⟩ ∧
    (∀ p, axisDist p ≤ 1.03 * D / 2 → ¬ u.Inside p) ∧ ∃ p, u.Inside p := by
  obtain ⟨hole, hh⟩ : ∃ hole, pla.internalDimScale (D * 1.03) = some hole ∧ hole = D * 1.03 * (0.3e-2 + 1) + 0.45 := by
    refine ⟨_, ?_, rfl⟩
    unfold Viscoelastic.internalDimScale
    rw [if_neg (by norm_num; exact hD)]
    rfl
  obtain ⟨u, hu, hw, hp⟩ := C75_spacer pla D H hole hH hh.1 (by rw [hh.2]; norm_num; linarith)
    (by rw [hh.2]; norm_num at hD' ⊢; linarith)
  refine ⟨u, hu, fun p h => (hp p).1 (h.trans ?_), ⟨spacerFTF hole / 2, 0, 0⟩, ?_⟩
  · rw [hh.2]; norm_num; linarith
  · have h0 : 0 < hole := by rw [hh.2]; norm_num; linarith
    have ha : axisDist ⟨spacerFTF hole / 2, 0, 0⟩ = spacerFTF hole / 2 := by
      unfold axisDist V2.norm
      simp only [mul_zero, add_zero]
      exact Real.sqrt_mul_self (by linarith)
    exact (hp _).2.1 (by rw [ha]; linarith) (by rw [ha]) (by simp only [abs_zero]; linarith)

theorem spacer_reach (D H x w : ℝ) (n : ℕ) (hD : 0 < D) (hD' : D ≤ 100) (hH : 0 < H)
    (hn : (D * 1.03 * (0.3e-2 + 1) + 0.45) * 1.4 ≤ n) (hw : n - 0.15 ≤ w * 1.7) : ∃ s, spacer pla D H = some ⟨some s, false⟩ ∧
      ∀ p, (s.transform (M44.translate ⟨x, 0, 0⟩)).Inside p → x - w < p.x ∧ p.x < x + w := by
  have hh : pla.internalDimScale (D * 1.03) = some (D * 1.03 * (0.3e-2 + 1) + 0.45) := by
    unfold Viscoelastic.internalDimScale
    rw [if_neg (by norm_num; exact hD)]
    rfl
  obtain ⟨u, hu, hw', hp⟩ := C75_spacer pla D H _ hH hh (by norm_num; linarith) (by norm_num; linarith)
  refine ⟨u, hu, fun p hin => ?_⟩
  have h3 : Real.sqrt 3 * Real.sqrt 3 = 3 := Real.mul_self_sqrt (by norm_num)
  have h30 : 0 < Real.sqrt 3 := by positivity
  have h3a : 1.7 < Real.sqrt 3 := by norm_num; nlinarith
  have hf : spacerFTF (D * 1.03 * (0.3e-2 + 1) + 0.45) ≤ n - 0.15 := by
    unfold spacerFTF
    have : ⌈(D * 1.03 * (0.3e-2 + 1) + 0.45) * 1.4⌉ ≤ (n : ℤ) := Int.ceil_le.mpr (by exact_mod_cast hn)
    have : ((⌈(D * 1.03 * (0.3e-2 + 1) + 0.45) * 1.4⌉ : ℤ) : ℝ) ≤ (n : ℝ) := by exact_mod_cast this
    linarith
  have hf0 : 0 < spacerFTF (D * 1.03 * (0.3e-2 + 1) + 0.45) := lt_trans (by norm_num; linarith) hw'
  have hw0 : 0 < w := by
    by_contra hc
    norm_num at hw hf hf0
    nlinarith
  rw [inside_moved] at hin
  have h1 := ((hp _).2.2 hin).1
  have h2 : spacerFTF (D * 1.03 * (0.3e-2 + 1) + 0.45) / Real.sqrt 3 ≤ w := by
    rw [div_le_iff₀ h30]
    have : w * 1.7 ≤ w * Real.sqrt 3 := mul_le_mul_of_nonneg_left h3a.le hw0.le
    linarith
  have h4 : |p.x - x| ≤ axisDist (V3.sub p ⟨x, 0, 0⟩) := V2.abs_x_le ⟨p.x - x, p.y - 0⟩
  have := abs_lt.mp (lt_of_le_of_lt h4 (lt_of_lt_of_le h1 h2))
  constructor <;> linarith [this.1, this.2]

/-- The program of the metric spacers makes its six spacers, and no two of them touch. -/
theorem C75_row : ∃ l, spacerRow pla 0 spacerSizes = some l ∧ l.length = 6 ∧ l.Pairwise fun a b => ∀ p, ¬ (a.Inside p ∧ b.Inside p) := by
  obtain ⟨s1, e1, h1⟩ := spacer_reach 3 7 0 2.9 5 (by norm_num) (by norm_num) (by norm_num) (by norm_num) (by norm_num)
  obtain ⟨s2, e2, h2⟩ := spacer_reach 3 12 (0 + 3 * 3) 2.9 5 (by norm_num) (by norm_num) (by norm_num) (by norm_num) (by norm_num)
  obtain ⟨s3, e3, h3⟩ := spacer_reach 4 7 (0 + 3 * 3 + 3 * 3) 4.1 7 (by norm_num) (by norm_num) (by norm_num) (by norm_num) (by norm_num)
  obtain ⟨s4, e4, h4⟩ := spacer_reach 6 30 (0 + 3 * 3 + 3 * 3 + 4 * 3) 5.8 10 (by norm_num) (by norm_num) (by norm_num) (by norm_num)
    (by norm_num)
  obtain ⟨s5, e5, h5⟩ := spacer_reach 8 30 (0 + 3 * 3 + 3 * 3 + 4 * 3 + 6 * 3) 7.6 13 (by norm_num) (by norm_num) (by norm_num)
    (by norm_num) (by norm_num)
  obtain ⟨s6, e6, h6⟩ := spacer_reach 16 10 (0 + 3 * 3 + 3 * 3 + 4 * 3 + 6 * 3 + 8 * 3) 14.1 24 (by norm_num) (by norm_num) (by norm_num)
    (by norm_num) (by norm_num)
  refine ⟨[s1.transform (M44.translate ⟨0, 0, 0⟩), s2.transform (M44.translate ⟨0 + 3 * 3, 0, 0⟩),
      s3.transform (M44.translate ⟨0 + 3 * 3 + 3 * 3, 0, 0⟩), s4.transform (M44.translate ⟨0 + 3 * 3 + 3 * 3 + 4 * 3, 0, 0⟩),
      s5.transform (M44.translate ⟨0 + 3 * 3 + 3 * 3 + 4 * 3 + 6 * 3, 0, 0⟩),
      s6.transform (M44.translate ⟨0 + 3 * 3 + 3 * 3 + 4 * 3 + 6 * 3 + 8 * 3, 0, 0⟩)], ?_, ?_, ?_⟩
  · simp only [spacerSizes, spacerRow, e1, e2, e3, e4, e5, e6, Option.bind_eq_bind, Option.bind_some, Bool.false_eq_true, if_false]
  · rfl
  · simp only [List.pairwise_cons, List.mem_cons, List.not_mem_nil, or_false, forall_eq_or_imp, forall_eq, List.Pairwise.nil, and_true,
      false_implies, implies_true]
    refine ⟨⟨?_, ?_, ?_, ?_, ?_⟩, ⟨?_, ?_, ?_, ?_⟩, ⟨?_, ?_, ?_⟩, ⟨?_, ?_⟩, ?_⟩ <;> rintro p ⟨ha, hb⟩ <;>
      first
      | linarith [(h1 p ha).2, (h2 p hb).1]
      | linarith [(h1 p ha).2, (h3 p hb).1]
      | linarith [(h1 p ha).2, (h4 p hb).1]
      | linarith [(h1 p ha).2, (h5 p hb).1]
      | linarith [(h1 p ha).2, (h6 p hb).1]
      | linarith [(h2 p ha).2, (h3 p hb).1]
      | linarith [(h2 p ha).2, (h4 p hb).1]
      | linarith [(h2 p ha).2, (h5 p hb).1]
      | linarith [(h2 p ha).2, (h6 p hb).1]
      | linarith [(h3 p ha).2, (h4 p hb).1]
      | linarith [(h3 p ha).2, (h5 p hb).1]
      | linarith [(h3 p ha).2, (h6 p hb).1]
      | linarith [(h4 p ha).2, (h5 p hb).1]
      | linarith [(h4 p ha).2, (h6 p hb).1]
      | linarith [(h5 p ha).2, (h6 p hb).1]

/-- Helper: one drilling of the support. -/
theorem drilled {h r : ℝ} (hr : 0 < r) (hh : 0 ≤ h) (s : SDF3) (c : V2) (l : List V2) {t : SDF3} (ht : drill h r s (c :: l) = some t) :
    ∃ u, drill h r u l = some t ∧
      ∀ p, u.Inside p ↔ s.Inside p ∧ (r < V2.dist ⟨p.x, p.y⟩ c ∨ h / 2 < |p.z|) := by
  obtain ⟨k, hk, hin, hout⟩ := cyl0 hr hh
  unfold drill at ht
  rw [hk] at ht
  refine ⟨_, ht, fun p => ?_⟩
  rw [C16_difference3]
  refine and_congr_right fun _ => ?_
  have e := M44.inverse_mulPosition (M44.translate_affine ⟨c.x, c.y, 0⟩).1 (by rw [M44.det_eq]; exact (M44.translate_affine _).2)
    (V3.sub p ⟨c.x, c.y, 0⟩)
  rw [M44.translate_mulPosition, show V3.add (V3.sub p ⟨c.x, c.y, 0⟩) ⟨c.x, c.y, 0⟩ = p by ext <;> simp [V3.add, V3.sub]] at e
  have h2 := hout (V3.sub p ⟨c.x, c.y, 0⟩)
  simp only [V3.sub, sub_zero] at e h2
  simp only [SDF3.Outside, SDF3.transform, e] at h2 ⊢
  exact h2

theorem drill_ok {h r : ℝ} (hr : 0 < r) (hh : 0 ≤ h) : ∀ (l : List V2) (s : SDF3), ∃ t, drill h r s l = some t
  | [], s => ⟨s, rfl⟩
  | c :: l, s => by
    obtain ⟨k, hk, -⟩ := cyl0 hr hh
    unfold drill
    rw [hk]
    exact drill_ok hr hh l _

/-- The plate lies between 0 and 100 in both directions. -/
theorem plate_shape : ∃ plate, supportPlate = some plate ∧ (∃ p, plate.Inside p) ∧ ∀ p, plate.Inside p →
    (0 < p.x ∧ p.x < 100) ∧ (0 < p.y ∧ p.y < 100) ∧ |p.z| < 1.25 := by
  have hd : pla.internalDimScale 3.5 = some (3.5 * (0.3e-2 + 1) + 0.45) := by
    unfold Viscoelastic.internalDimScale
    rw [if_neg (by norm_num)]
    rfl
  obtain ⟨k, hk⟩ : ∃ k : Obj2.PanelParams, k = ⟨⟨100, 100⟩, 3.5 * 1.2, 3.5 * (0.3e-2 + 1) + 0.45, fun _ => 4.5, fun _ => "x", 0⟩ := ⟨_, rfl⟩
  obtain ⟨pan, hp⟩ : ∃ pan, Obj2.panel k = some pan := by
    rw [← Option.ne_none_iff_exists']
    rw [Ne, C35_panel_panics, hk]
    rintro ⟨-, i, hi⟩
    exact hi (by simp)
  have hpos : 0 < k.holeDiameter := by rw [hk]; norm_num
  have hbox := (C18_box2 ⟨100, 100⟩ (3.5 * 1.2) (by norm_num) (by norm_num) (by norm_num)).2.2 (by norm_num)
  refine ⟨_, by unfold supportPlate supportPanel; rw [hd]; simp only [Option.bind_eq_bind, Option.bind_some]; rw [← hk, hp]; rfl, ?_, ?_⟩
  · refine ⟨⟨50, 50, 0⟩, ?_⟩
    rw [inside_moved, C26_extrude]
    refine ⟨by norm_num [V3.sub], (C35_panel_shape k hpos pan hp _).mpr ⟨?_, ?_⟩⟩
    · have := (hbox ⟨0, 0⟩).mpr ⟨⟨0, 0⟩, by norm_num, by norm_num [V2.dist, V2.sub, V2.norm]⟩
      rw [hk]
      norm_num [V3.sub] at this ⊢
      exact this
    · rintro i c ⟨j, hj, hc⟩
      have hj0 : j = 0 := by
        rw [hk] at hj
        simp only at hj
        have : j < "x".toList.length := by
          by_contra hcon
          rw [List.getElem?_eq_none (by omega)] at hj
          cases hj
        simpa using this
      subst hj0
      have hcc : c = PanelCorner k i := by
        rw [hc]; ext <;> simp [V2.add, V2.scale]
      have hx : |c.x| = 45.5 := by
        rw [hcc, hk]
        fin_cases i <;> norm_num [PanelCorner]
      have h1 := V2.abs_x_le (V2.sub ⟨(V3.sub ⟨50, 50, 0⟩ ⟨100 / 2, 100 / 2, 0⟩).x, (V3.sub ⟨50, 50, 0⟩ ⟨100 / 2, 100 / 2, 0⟩).y⟩ c)
      refine lt_of_lt_of_le ?_ h1
      simp only [V2.sub, V3.sub]
      rw [show (50 : ℝ) - 100 / 2 - c.x = - c.x by ring, abs_neg, hx, hk]
      norm_num
  · intro p hin
    rw [inside_moved, C26_extrude] at hin
    obtain ⟨hz, h2⟩ := hin
    have hb := ((C35_panel_shape k hpos pan hp _).mp h2).1
    rw [hk] at hb
    obtain ⟨q, ⟨hqx, hqy⟩, hq⟩ := (hbox _).mp hb
    have h1 := lt_of_le_of_lt (V2.abs_x_le (V2.sub _ _)) hq
    have h2 := lt_of_le_of_lt (V2.abs_y_le (V2.sub _ _)) hq
    simp only [V2.sub, V3.sub] at h1 h2 hz
    norm_num at h1 h2 hqx hqy hz ⊢
    rw [abs_lt] at h1 h2
    rw [abs_le] at hqx hqy
    exact ⟨⟨by linarith [h1.1, hqx.1], by linarith [h1.2, hqx.2]⟩, ⟨by linarith [h2.1, hqy.1], by linarith [h2.2, hqy.2]⟩, hz⟩

/-- Five of the eight holes drilled into the support lie beside it: the result has the other three only. -/
theorem C75_support_wrong : boxStandoffs.length + boxHoles.length = 8 ∧ ∃ plate s, supportPlate = some plate ∧ drilledPlate = some s ∧
    (∃ p, plate.Inside p) ∧ ∀ p, s.Inside p ↔ plate.Inside p ∧ 4 < V2.dist ⟨p.x, p.y⟩ ⟨13, 12.5⟩ ∧
      1.75 < V2.dist ⟨p.x, p.y⟩ ⟨13, 30⟩ ∧ 1.75 < V2.dist ⟨p.x, p.y⟩ ⟨13, 90⟩ := by
  refine ⟨rfl, ?_⟩
  obtain ⟨plate, hpl, hne, hin⟩ := plate_shape
  have h8 : (0 : ℝ) < 8.0 / 2 := by norm_num
  have h5 : (0 : ℝ) ≤ 2.5 * 2 := by norm_num
  have h3 : (0 : ℝ) < 3.5 / 2 := by norm_num
  have h10 : (0 : ℝ) ≤ 10 := by norm_num
  obtain ⟨t, ht⟩ := drill_ok h8 h5 boxStandoffs plate
  obtain ⟨s, hs⟩ := drill_ok h3 h10 boxHoles t
  refine ⟨plate, s, hpl, ?_, hne, fun p => ?_⟩
  · unfold drilledPlate
    rw [hpl]
    simp only [Option.bind_eq_bind, Option.bind_some]
    rw [ht]
    exact hs
  obtain ⟨t1, h1, e1⟩ := drilled h8 h5 plate _ _ ht
  obtain ⟨t2, h2, e2⟩ := drilled h8 h5 t1 _ _ h1
  obtain ⟨t3, h3', e3⟩ := drilled h8 h5 t2 _ _ h2
  obtain ⟨t4, h4, e4⟩ := drilled h8 h5 t3 _ _ h3'
  cases h4
  obtain ⟨u1, k1, f1⟩ := drilled h3 h10 _ _ _ hs
  obtain ⟨u2, k2, f2⟩ := drilled h3 h10 u1 _ _ k1
  obtain ⟨u3, k3, f3⟩ := drilled h3 h10 u2 _ _ k2
  obtain ⟨u4, k4, f4⟩ := drilled h3 h10 u3 _ _ k3
  cases k4
  rw [f4, f3, f2, f1, e4, e3, e2, e1]
  by_cases hp : plate.Inside p
  swap
  · simp only [hp, false_and]
  obtain ⟨⟨x0, x1⟩, ⟨y0, y1⟩, hz⟩ := hin p hp
  have farx : ∀ c : V2, 104 < c.x → 4 < V2.dist ⟨p.x, p.y⟩ c := by
    intro c hc
    refine lt_of_lt_of_le ?_ (V2.abs_x_le (V2.sub ⟨p.x, p.y⟩ c))
    simp only [V2.sub]
    rw [abs_of_neg (by linarith)]
    linarith
  have fary : ∀ c : V2, 104 < c.y → 4 < V2.dist ⟨p.x, p.y⟩ c := by
    intro c hc
    refine lt_of_lt_of_le ?_ (V2.abs_y_le (V2.sub ⟨p.x, p.y⟩ c))
    simp only [V2.sub]
    rw [abs_of_neg (by linarith)]
    linarith
  have d1 := farx ⟨13 + 102, 12.5⟩ (by norm_num)
  have d2 := fary ⟨13, 12.5 + 95⟩ (by norm_num)
  have d3 := farx ⟨13 + 102, 12.5 + 95⟩ (by norm_num)
  have d4 := farx ⟨13 + 102, 30⟩ (by norm_num)
  have d5 := farx ⟨13 + 102, 90 + 60⟩ (by norm_num)
  have z1 : ¬ (2.5 * 2 / 2 < |p.z|) := by norm_num at hz ⊢; linarith
  have z2 : ¬ ((10 : ℝ) / 2 < |p.z|) := by norm_num at hz ⊢; linarith
  have a8 : (8.0 / 2 : ℝ) = 4 := by norm_num
  have a3 : (3.5 / 2 : ℝ) = 1.75 := by norm_num
  have a9 : (30 + 60 : ℝ) = 90 := by norm_num
  have d4' : 1.75 < V2.dist ⟨p.x, p.y⟩ ⟨13 + 102, 30⟩ := lt_trans (by norm_num) d4
  have d5' : 1.75 < V2.dist ⟨p.x, p.y⟩ ⟨13 + 102, 90 + 60⟩ := lt_trans (by norm_num) d5
  rw [a8, a3, a9]
  simp only [hp, z1, z2, d1, d2, d3, d4', d5', or_false, and_true, true_and]
  tauto

/-- The nut and the flange it is meant to sit on are parts of their own: there is a gap of at least 0.1 mm between them, all around, which
only the fillet bridges. -/
theorem C75_flange_wrong (fuel : ℕ) (pipe : SDF3) (hp : flangePipe fuel = .ok ⟨some pipe, false⟩) : ∃ flange, flangeDisc = some flange ∧
    (∃ p, flange.Inside p) ∧ ∀ p q, pipe.Inside p → flange.Inside q → 0.1 / 25.4 ≤ p.z - q.z := by
  have h3 : Real.sqrt 3 * Real.sqrt 3 = 3 := Real.mul_self_sqrt (by norm_num)
  have h30 : 0 < Real.sqrt 3 := by positivity
  have h3a : 1.732 < Real.sqrt 3 := by norm_num; nlinarith
  obtain ⟨c, hc⟩ : ∃ c, Must3.cylinder (7 / 25.4) (60 / 25.4 / 2) (7 / 25.4 / 8) = some c := by
    unfold Must3.cylinder
    rw [if_neg (by norm_num), if_neg (by norm_num), if_neg (by norm_num), if_neg (by norm_num)]
    exact ⟨_, rfl⟩
  refine ⟨_, by unfold flangeDisc; rw [hc]; rfl, ⟨⟨0, 0, -(18 / 25.4) / 2⟩, ?_⟩, ?_⟩
  · rw [inside_moved]
    refine (rounded_cyl hc _).2 ?_ ?_ ?_ <;> norm_num [axisDist, V3.sub, V2.norm]
  intro p q hpi hqi
  rw [inside_moved] at hqi
  have hq := ((rounded_cyl hc _).1 hqi).2
  unfold flangePipe at hp
  have hnpt := C38_npt_value ⟨0, 0, 0⟩ (1.0 / 2.0) (1/2, 840/1000, 14, 224/254) (by simp [nptStandard]) (by norm_num)
  simp only at hp
  rw [hnpt] at hp
  cases hn : Thread.nut ⟨some ((⟨840 / 1000, 14, 224 / 254⟩ : NPT).threader fuel), .circular, 0⟩ with
  | panic => rw [hn] at hp; cases hp
  | outOfFuel => rw [hn] at hp; cases hp
  | ok r =>
    rw [hn] at hp
    simp only [Outcome.bind] at hp
    split at hp
    swap
    · cases hp
    rename_i s
    simp only [Outcome.ok.injEq, Returned.mk.injEq, Option.some.injEq, and_true] at hp
    subst hp
    obtain ⟨head, sc, e1, -, hr, h⟩ := Mating.nut_head rfl hn
    rcases h with ⟨-, h⟩ | ⟨h, -⟩ | ⟨h, -⟩
    rotate_left
    · cases h
    · cases h
    subst e1
    have hA : (M44.scale ⟨1.03, 1.03, 1⟩).Affine := by simp [M44.Affine, M44.scale]
    rw [C19_transform3_image _ _ hA (by rw [← M44.det_eq]; norm_num [M44.det, M44.scale])] at hpi
    obtain ⟨w, hw, rfl⟩ := hpi
    rw [C16_difference3] at hw
    have hz := ((rounded_cyl h w).1 hw.1).2
    have hhex := hexF2F_eq ((⟨840 / 1000, 14, 224 / 254⟩ : NPT).threader fuel).params
    have hF : ((⟨840 / 1000, 14, 224 / 254⟩ : NPT).threader fuel).params.hexF2F = 224 / 254 := by
      simp only [NPT.threader, NPT.params]
      norm_num
    rw [hexHeight_eq] at hz
    rw [hF] at hhex
    set R := ((⟨840 / 1000, 14, 224 / 254⟩ : NPT).threader fuel).params.hexRadius
    have hz2 : (M44.scale ⟨1.03, 1.03, 1⟩ : M44).mulPosition w = ⟨1.03 * w.x, 1.03 * w.y, w.z⟩ := by
      ext <;> simp [M44.scale, M44.mulPosition]
    rw [hz2]
    simp only [V3.sub] at hq
    rw [abs_lt] at hz hq
    have hR : R < 0.5092 := by
      norm_num at h3a ⊢
      by_contra hcon
      push Not at hcon
      nlinarith
    norm_num at hz hq hR ⊢
    linarith [hz.1, hq.2]

/-- The finished flange has its hole, 19.05 mm wide and from one face of the flange to the other (and further). -/
theorem C75_flange_hole (pipe flange : SDF3) : ∃ s, flangePart pipe flange = some s ∧
    ∀ p, axisDist p ≤ 9.525 → |p.z| ≤ 14 → ¬ s.Inside p := by
  obtain ⟨k, hk, hin, hout⟩ := cyl0 (H := 4 * (7 / 25.4)) (R := 1.5 / 2 / 2) (by norm_num) (by norm_num)
  refine ⟨_, by unfold flangePart; rw [hk]; rfl, ?_⟩
  intro p hr hz hp
  have e : p = V3.scale 25.4 (V3.scale (1 / 25.4) p) := by ext <;> simp only [V3.scale] <;> norm_num <;> ring
  rw [e, (C19_scale3 _ 25.4 (by norm_num)).2.1, C16_difference3, hout] at hp
  have hn : V2.norm ⟨(V3.scale (1 / 25.4) p).x, (V3.scale (1 / 25.4) p).y⟩ = 1 / 25.4 * axisDist p := by
    have : (⟨(V3.scale (1 / 25.4) p).x, (V3.scale (1 / 25.4) p).y⟩ : V2) = V2.scale (1 / 25.4) ⟨p.x, p.y⟩ := rfl
    rw [this, V2.norm_scale, abs_of_pos (by norm_num)]
    rfl
  rcases hp.2 with h | h
  · rw [hn] at h
    norm_num at h hr
    linarith
  · simp only [V3.scale, abs_mul] at h
    rw [abs_of_pos (by norm_num : (0 : ℝ) < 1 / 25.4)] at h
    norm_num at h hz
    linarith

/-- The program of the pipe flange runs to its end: all its parts are made, and so is what they are joined to. -/
theorem C75_flange_runs : ∃ n, ∀ fuel ≥ n, ∃ pipe flange s, flangePipe fuel = .ok ⟨some pipe, false⟩ ∧ flangeDisc = some flange ∧
    flangePart pipe flange = some s := by
  obtain ⟨n, hn⟩ := C35_nut_builtin (.npt ((⟨0, 0, 0⟩ : NPT).setFromNominal (1.0 / 2.0)).1) .circular (by simp) 0 le_rfl
  refine ⟨n, fun fuel hf => ?_⟩
  obtain ⟨u, hu⟩ := hn fuel hf
  have hp : flangePipe fuel = .ok ⟨some (u.transform (M44.scale ⟨1.03, 1.03, 1⟩)), false⟩ := by
    unfold flangePipe
    simp only [Builtin.threader] at hu ⊢
    rw [hu]
    rfl
  obtain ⟨flange, hfl, -⟩ := C75_flange_wrong fuel _ hp
  obtain ⟨s, hs, -⟩ := C75_flange_hole (u.transform (M44.scale ⟨1.03, 1.03, 1⟩)) flange
  exact ⟨_, flange, s, hp, hfl, hs⟩

/-! Non-vacuity; that the program of `C75_flange_wrong` gets to its end is `C75_flange_runs`. -/
example : ∃ u, spacer pla 3 7 = some ⟨some u, false⟩ ∧ (∀ p, axisDist p ≤ 1.03 * 3 / 2 → ¬ u.Inside p) ∧ ∃ p, u.Inside p :=
  C75_bolt_fits 3 7 (by norm_num) (by norm_num) (by norm_num)

example : ∃ u, spacer ⟨0, 0⟩ 4 7 = some ⟨some u, false⟩ := by
  obtain ⟨u, hu, -⟩ := C75_spacer ⟨0, 0⟩ 4 7 4.12 (by norm_num) (by
    unfold Viscoelastic.internalDimScale; rw [if_neg (by norm_num)]; norm_num) (by norm_num) (by norm_num)
  exact ⟨u, hu⟩

end Sdf.Examples
