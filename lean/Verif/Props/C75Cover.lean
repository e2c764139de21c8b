import Verif.Props.C75Examples
import Verif.Lemmas.FitsForms
import Verif.Lemmas.Revolve

/-!
C75, the sensor cover of /repo/examples/adz-sensor-cover: the space for the connector and the hole for the pins are open, but the
sensor does not fit into the cover: the edge of the recess is rounded inwards at its mouth.
-/

namespace Sdf.Examples
open Thread Obj3

/-- Moved solids, from outside. -/
theorem outside_moved (s : SDF3) (v p : V3) : (s.transform (M44.translate v)).Outside p ↔ s.Outside (V3.sub p v) := by
  have h := (C19_transform3 s _ (M44.translate_affine v).1 (M44.translate_affine v).2 (V3.sub p v)).1
  rw [M44.translate_mulPosition, show V3.add (V3.sub p v) v = p by ext <;> simp [V3.add, V3.sub]] at h
  unfold SDF3.Outside
  rw [h]

/-- A box as `Must3.box` makes it. -/
theorem box_parts {size : V3} {c : ℝ} (hx : 0 < size.x) (hy : 0 < size.y) (hz : 0 < size.z) (hc : 0 ≤ c) : ∃ s, Must3.box size c = some s ∧
    (∀ p, s.Inside p → |p.z| < size.z / 2) ∧ (∀ p, size.z / 2 < |p.z| → s.Outside p) ∧
    (c = 0 → ∀ p, s.Outside p → |p.x| ≤ size.x / 2 → |p.y| ≤ size.y / 2 → size.z / 2 < |p.z|) := by
  unfold Must3.box
  rw [if_neg (by unfold V3.LTEZero; push Not; exact ⟨hx, hy, hz⟩), if_neg (not_lt.mpr hc)]
  refine ⟨_, rfl, ?_, ?_, ?_⟩
  · intro p hp
    have h := (sdfBox3d_ge p (V3.sub (V3.scale 0.5 size) (V3.elem c))).2.2
    simp only [SDF3.Inside] at hp
    simp only [V3.sub, V3.scale, V3.elem] at h hp
    norm_num at h hp
    linarith
  · intro p hp
    have h := (sdfBox3d_ge p (V3.sub (V3.scale 0.5 size) (V3.elem c))).2.2
    simp only [SDF3.Outside]
    simp only [V3.sub, V3.scale, V3.elem] at h ⊢
    norm_num at h ⊢
    linarith
  · rintro rfl p hp h1 h2
    by_contra h3
    simp only [SDF3.Outside, sub_zero] at hp
    refine absurd ((sdfBox3d_le_zero p _).1.mpr ?_) (not_le.mpr hp)
    simp only [V3.sub, V3.scale, V3.elem]
    norm_num
    refine ⟨?_, ?_, ?_⟩ <;> linarith

/-- The value of a cylinder. -/
theorem cyl_eval {H R c : ℝ} (h0 : 0 < R) (h1 : 0 ≤ c) (h2 : c ≤ R) (h3 : 2 * c ≤ H) : ∃ s, Must3.cylinder H R c = some s ∧
    (∀ p, s.Inside p → |p.z| < H / 2) ∧ ∀ p, s.eval p = boxFn2 ⟨axisDist p - (R - c), |p.z| - (H / 2 - c)⟩ - c := by
  unfold Must3.cylinder
  rw [if_neg (not_le.mpr h0), if_neg (not_lt.mpr h1), if_neg (not_lt.mpr h2), if_neg (by norm_num; exact h3)]
  refine ⟨_, rfl, ?_, ?_⟩
  · intro p hp
    simp only [SDF3.Inside, sdfBox2d_eq, V2.sub, V2.absElem] at hp
    have := boxFn2_ge_right (|V2.norm ⟨p.x, p.y⟩| - (R - c)) (|p.z| - (H / 2 - c))
    linarith
  · intro p
    simp only [sdfBox2d_eq, V2.sub, V2.absElem, abs_of_nonneg (V2.norm_nonneg _), axisDist]

/-- The parts of the cover. -/
theorem cover_parts : ∃ k s h, coverConnector = some k ∧ coverSensor = some s ∧
    sensorCover = some (pla.scale (SDF3.difference (SDF3.union k [s]) h)) ∧
    (∀ p, k.Inside p → |p.z| < 7 / 4 ∧ (|p.x| ≤ 8 → |p.y| ≤ 8 → p.z ≤ -5 / 4)) ∧
    (∀ p, s.Inside p → p.z < -7 / 4) ∧ (∀ p, axisDist p = 11.3 → p.z = -5.2 → s.Inside p) ∧
    (∀ p, 2.2 < |p.z + 2.2| → h.Outside p) ∧ (∀ p, h.Outside p → |p.x| ≤ 5 → |p.y| ≤ 5 → 2.2 < |p.z + 2.2|) := by
  have hd1 : pla.internalDimScale 15.6 = some 16.0968 := by
    unfold Viscoelastic.internalDimScale; rw [if_neg (by norm_num)]; norm_num [pla]
  have hd2 : pla.internalDimScale (23 / 2) = some 11.9845 := by
    unfold Viscoelastic.internalDimScale; rw [if_neg (by norm_num)]; norm_num [pla]
  obtain ⟨b, hb, b1, -, -⟩ := box_parts (size := ⟨15.6 + 2 * 0.55 * 2, 15.6 + 2 * 0.55 * 2, 1 / 2 + 3⟩) (c := 2 * 0.55 / 2)
    (by norm_num) (by norm_num) (by norm_num) (by norm_num)
  obtain ⟨e, he, -, -, e3⟩ := box_parts (size := ⟨16.0968, 16.0968, 3⟩) (c := 0) (by norm_num) (by norm_num) (by norm_num) le_rfl
  obtain ⟨h, hh, -, h2, h3⟩ := box_parts (size := ⟨10, 10, 4 * (2 * 0.55)⟩) (c := 0) (by norm_num) (by norm_num) (by norm_num) le_rfl
  obtain ⟨o, ho, o1, o2⟩ := cyl_eval (H := 3 + 1 / 2) (R := 23 / 2 + 2 * 0.55) (c := 2 * 0.55 / 2) (by norm_num) (by norm_num)
    (by norm_num) (by norm_num)
  obtain ⟨i, hi, i1, i2⟩ := cyl_eval (H := 3) (R := 11.9845) (c := 2 * 0.55 / 2 * 2) (by norm_num) (by norm_num)
    (by norm_num) (by norm_num)
  have hk : coverConnector = some (SDF3.difference b (e.transform (M44.translate ⟨0, 0, 1 / 4⟩))) := by
    unfold coverConnector
    rw [hb, hd1]
    simp only [Option.bind_eq_bind, Option.bind_some]
    rw [he]
    rfl
  have hs : coverSensor = some ((SDF3.difference o (i.transform (M44.translate ⟨0, 0, -1 / 4⟩))).transform
      (M44.translate ⟨0, 0, -(3 + 1 / 2)⟩)) := by
    unfold coverSensor
    rw [ho, hd2]
    simp only [Option.bind_eq_bind, Option.bind_some]
    rw [hi]
    rfl
  refine ⟨_, _, h.transform (M44.translate ⟨0, 0, -2 * (2 * 0.55)⟩), hk, hs, ?_, ?_, ?_, ?_, ?_, ?_⟩
  · unfold sensorCover
    rw [hk, hs]
    simp only [Option.bind_eq_bind, Option.bind_some]
    rw [hh]
    rfl
  · intro p hp
    rw [C16_difference3, outside_moved] at hp
    have hz := b1 p hp.1
    norm_num at hz
    refine ⟨by linarith, fun hx hy => ?_⟩
    have := e3 rfl _ hp.2 (by simp only [V3.sub, sub_zero]; norm_num; linarith) (by simp only [V3.sub, sub_zero]; norm_num; linarith)
    simp only [V3.sub] at this
    rw [abs_lt] at hz
    rcases lt_abs.mp this with h | h <;> linarith [hz.1, hz.2]
  · intro p hp
    rw [inside_moved, C16_difference3] at hp
    have hz := o1 _ hp.1
    simp only [V3.sub] at hz
    rw [abs_lt] at hz
    linarith [hz.2]
  · intro p hr hz
    have ax : ∀ v : V3, v.x = 0 → v.y = 0 → axisDist (V3.sub p v) = 11.3 := by
      intro v h1 h2
      rw [← hr]
      simp only [axisDist, V3.sub, h1, h2, sub_zero]
    rw [inside_moved, C16_difference3, outside_moved]
    constructor
    · simp only [SDF3.Inside]
      rw [o2, ax _ rfl rfl]
      simp only [V3.sub, hz]
      rw [show |(-5.2 : ℝ) - -(3 + 1 / 2)| = 1.7 by rw [abs_of_neg (by norm_num)]; norm_num]
      rw [boxFn2_neg _ (by norm_num)]
      norm_num
    · simp only [SDF3.Outside]
      have : axisDist (V3.sub (V3.sub p ⟨0, 0, -(3 + 1 / 2)⟩) ⟨0, 0, -1 / 4⟩) = 11.3 := by
        rw [← hr]; simp only [axisDist, V3.sub, sub_zero]
      rw [i2, this]
      simp only [V3.sub, hz]
      rw [show |(-5.2 : ℝ) - -(3 + 1 / 2) - -1 / 4| = 1.45 by rw [abs_of_neg (by norm_num)]; norm_num]
      have := boxFn2_ge ⟨11.3 - (11.9845 - 2 * 0.55 / 2 * 2), 1.45 - (3 / 2 - 2 * 0.55 / 2 * 2)⟩ ⟨5 / 13, 12 / 13⟩ (by norm_num)
        (by norm_num) (V2.norm_eq_of zero_le_one (by norm_num))
      simp only [V2.dot] at this
      norm_num at this ⊢
      linarith
  · intro p hp
    rw [outside_moved]
    refine h2 _ ?_
    simp only [V3.sub]
    norm_num at hp ⊢
    exact hp
  · intro p hp hx hy
    rw [outside_moved] at hp
    have := h3 rfl _ hp (by simp only [V3.sub, sub_zero]; norm_num; linarith) (by simp only [V3.sub, sub_zero]; norm_num; linarith)
    simp only [V3.sub] at this
    norm_num at this ⊢
    exact this

/-- The printed cover, after it has shrunk, leaves room for the connector (16 mm square, open to the top) and for the pins (10 mm square,
from the one recess to the other). -/
theorem C75_cover : ∃ c, sensorCover = some c ∧ ∀ p,
    (|p.x| ≤ 8 → |p.y| ≤ 8 → -5 / 4 < p.z → ¬ ContractedInside c (1 / (1 + pla.shrink)) p) ∧
    (|p.x| ≤ 5 → |p.y| ≤ 5 → -4.4 ≤ p.z → p.z ≤ 0 → ¬ ContractedInside c (1 / (1 + pla.shrink)) p) := by
  obtain ⟨k, s, h, -, -, hc, k1, s1, -, -, h2⟩ := cover_parts
  refine ⟨_, hc, fun p => ⟨?_, ?_⟩⟩
  · intro hx hy hz hp
    rw [C45_nominal _ (by norm_num [pla]), C16_difference3, C16_union3] at hp
    obtain ⟨⟨u, hu, hi⟩, -⟩ := hp
    simp only [List.mem_cons, List.not_mem_nil, or_false] at hu
    rcases hu with rfl | rfl
    · linarith [(k1 p hi).2 hx hy]
    · linarith [s1 p hi]
  · intro hx hy h0 h1 hp
    rw [C45_nominal _ (by norm_num [pla]), C16_difference3] at hp
    have := h2 p hp.2 hx hy
    norm_num at this h0
    rcases lt_abs.mp this with h | h <;> linarith

/-- The sensor, 23 mm wide, does not enter the cover: 0.05 mm above the lower face, at the mouth of the recess for it, the printed cover
has material all around 11.3 mm from the axis. -/
theorem C75_cover_wrong : ∃ c, sensorCover = some c ∧ 11.3 < (23 : ℝ) / 2 ∧
    ∀ p, axisDist p = 11.3 → p.z = -5.2 → ContractedInside c (1 / (1 + pla.shrink)) p := by
  obtain ⟨k, s, h, -, -, hc, -, -, s2, h1, -⟩ := cover_parts
  refine ⟨_, hc, by norm_num, fun p hr hz => ?_⟩
  rw [C45_nominal _ (by norm_num [pla]), C16_difference3, C16_union3]
  refine ⟨⟨s, by simp, s2 p hr hz⟩, h1 p ?_⟩
  rw [hz, abs_of_neg (by norm_num)]
  norm_num

end Sdf.Examples
