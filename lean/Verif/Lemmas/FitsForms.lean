import Verif.Lemmas.FitsSolid
import Verif.Props.C18Primitives
import Verif.Lemmas.Cone

/-! The primitive shapes fit their boxes. -/

namespace Sdf

theorem sdfBox2d_ge (p s : V2) : |p.x| - s.x ≤ sdfBox2d p s ∧ |p.y| - s.y ≤ sdfBox2d p s := by
  rw [sdfBox2d_eq]
  exact ⟨boxFn2_ge_left _ _, boxFn2_ge_right _ _⟩

theorem sdfBox3d_ge (p s : V3) : |p.x| - s.x ≤ sdfBox3d p s ∧ |p.y| - s.y ≤ sdfBox3d p s ∧ |p.z| - s.z ≤ sdfBox3d p s := by
  unfold sdfBox3d
  have hx := fun d : V3 => (le_abs_self d.x).trans (V3.abs_x_le d)
  have hy := fun d : V3 => (le_abs_self d.y).trans (V3.abs_y_le d)
  have hz := fun d : V3 => (le_abs_self d.z).trans (V3.abs_z_le d)
  have gx := fun a b : ℝ => (le_abs_self a).trans (V2.abs_x_le ⟨a, b⟩)
  have gy := fun a b : ℝ => (le_abs_self b).trans (V2.abs_y_le ⟨a, b⟩)
  have g0 := fun a b : ℝ => V2.norm_nonneg ⟨a, b⟩
  have e : V3.sub (V3.absElem p) s = ⟨|p.x| - s.x, |p.y| - s.y, |p.z| - s.z⟩ := rfl
  simp only [e]
  generalize |p.x| - s.x = a
  generalize |p.y| - s.y = b
  generalize |p.z| - s.z = c
  split_ifs with h1 h2 h3 h4 h5 h6 h7
  · exact ⟨hx ⟨a, b, c⟩, hy ⟨a, b, c⟩, hz ⟨a, b, c⟩⟩
  · exact ⟨gx _ _, gy _ _, by linarith [g0 a b, not_lt.mp fun h => h1 ⟨h2.1, h2.2, h⟩]⟩
  · exact ⟨gx _ _, by linarith [g0 a c, not_lt.mp fun h => h1 ⟨h3.1, h, h3.2⟩], gy _ _⟩
  · exact ⟨by linarith [g0 b c, not_lt.mp fun h => h1 ⟨h, h4.1, h4.2⟩], gx _ _, gy _ _⟩
  · exact ⟨le_rfl, by linarith [not_lt.mp fun h => h2 ⟨h5, h⟩], by linarith [not_lt.mp fun h => h3 ⟨h5, h⟩]⟩
  · exact ⟨by linarith, le_rfl, by linarith [not_lt.mp fun h => h4 ⟨h6, h⟩]⟩
  · exact ⟨by linarith, by linarith, le_rfl⟩
  · simp only [V3.maxComp]
    exact ⟨by simp, by simp, by simp⟩

theorem circle_fits {c r : ℝ} {s : SDF2} (hs : Must2.circle r = some s) : Fits2 Unit2 c s := by
  have hr : 0 ≤ r := by
    by_contra h
    simp [Must2.circle, not_le.mp h] at hs
  obtain ⟨s', h1, h2, -⟩ := C18_circle r hr
  cases h1.symm.trans hs
  refine h2.fits (fun p hp => ?_) c
  unfold Must2.circle at hs
  rw [if_neg (not_lt.mpr hr)] at hs
  cases hs
  have hp : V2.norm p ≤ r := sub_nonpos.mp hp
  have hx := abs_le.mp ((V2.abs_x_le p).trans hp)
  have hy := abs_le.mp ((V2.abs_y_le p).trans hp)
  simp only [Box2.Contains, V2.scale]
  exact ⟨by linarith, by linarith, hx.2, hy.2⟩

theorem box2_fits {c : ℝ} {size : V2} {round : ℝ} (h0 : 0 ≤ round) (hx : round ≤ size.x / 2) (hy : round ≤ size.y / 2) :
    Fits2 Unit2 c (Must2.box size round) := by
  refine (C18_box2 size round h0 hx hy).1.fits (fun p hp => ?_) c
  have hp : sdfBox2d p (V2.sub (V2.scale 0.5 size) (V2.elem round)) - round ≤ 0 := hp
  obtain ⟨a, b⟩ := sdfBox2d_ge p (V2.sub (V2.scale 0.5 size) (V2.elem round))
  simp only [V2.sub, V2.scale, V2.elem] at a b hp
  have ha := abs_le.mp (show |p.x| ≤ 0.5 * size.x by linarith)
  have hb := abs_le.mp (show |p.y| ≤ 0.5 * size.y by linarith)
  simp only [Must2.box, Box2.Contains, V2.scale]
  exact ⟨by linarith, by linarith, ha.2, hb.2⟩

theorem line_fits {c l round : ℝ} (hl : 0 ≤ l) (h0 : 0 ≤ round) : Fits2 Unit2 c (Must2.line l round) := by
  refine (C18_line l round hl h0).1.fits (fun p hp => ?_) c
  have key : |p.x| ≤ l / 2 + round ∧ |p.y| ≤ round := by
    simp only [Must2.line] at hp
    by_cases h : (V2.absElem p).x ≤ l / 2
    · rw [if_pos h] at hp
      simp only [V2.absElem] at h hp
      exact ⟨by linarith, by linarith⟩
    · rw [if_neg h] at hp
      simp only [V2.absElem] at hp
      have a := (le_abs_self _).trans (V2.abs_x_le (V2.sub ⟨|p.x|, |p.y|⟩ ⟨l / 2, 0⟩))
      have b := (le_abs_self _).trans (V2.abs_y_le (V2.sub ⟨|p.x|, |p.y|⟩ ⟨l / 2, 0⟩))
      simp only [V2.sub] at a b hp
      exact ⟨by linarith, by linarith⟩
  have ha := abs_le.mp key.1
  have hb := abs_le.mp key.2
  simp only [Must2.line, Box2.Contains]
  exact ⟨by linarith, by linarith, by linarith, by linarith⟩

open Polygon Must2 in
theorem polygon_fits {c : ℝ} {v : List V2} {s : SDF2} (h : Proper v) (hs : Must2.polygon v = some s)
    (hc : c ≤ Real.sqrt maxFloat64) : Fits2 Unit2 c s := by
  have hbd := (C31_bounds v h s hs).1
  have hout := C31_outside v h s hs
  have hl := C31_lipschitz v h s hs
  have hcb : s.BoundedClosed := fun p hp => by
    by_contra hn
    exact absurd (hout p hn) (not_lt.mpr hp)
  have hne : ∃ q, s.bounds.Contains q := by
    obtain ⟨v0, vs, rfl⟩ := List.exists_cons_of_length_pos (show 0 < v.length by have := h.1; omega)
    exact ⟨v0, hbd v0 (by simp)⟩
  refine fits2_of hl hcb hne fun p hp => ?_
  have hpos := hout p hp
  by_cases hnear : ∃ q, Outline v q ∧ V2.dist p q * V2.dist p q ≤ maxFloat64
  · obtain ⟨⟨q, hq, hd⟩, -⟩ := C31_distance v h s hs p hnear
    refine .inr ⟨q, hcb q (le_of_eq ((C31_zero v h s hs q).mpr hq)), ?_⟩
    rw [hd, abs_of_pos hpos]
  · left
    obtain ⟨v0, l, hg, _, he, _⟩ := polygon_good v h s hs
    have ha := abs_polygonEval l p hg.ne
    rw [← he, abs_of_pos hpos] at ha
    rw [ha]
    rcases (polyDD_spec p (edges l)).1 with h1 | ⟨e, he', h1⟩
    · rw [h1]; exact hc
    · exfalso
      obtain ⟨h2, ⟨q, hq, hd⟩, -⟩ := segDD_dist p e (hg.ne e he')
      refine hnear ⟨q, (hg.outline q).mpr ⟨e, he', hq⟩, ?_⟩
      rw [hd, Real.mul_self_sqrt h2, ← h1]
      exact (polyDD_spec p (edges l)).2.1

theorem sphere_fits {c r : ℝ} {s : SDF3} (hs : Must3.sphere r = some s) : Fits3 Unit3 c s := by
  have hr : 0 < r := by
    by_contra h
    simp [Must3.sphere, not_lt.mp h] at hs
  obtain ⟨s', h1, h2, -⟩ := C18_sphere r hr
  cases h1.symm.trans hs
  refine h2.fits (fun p hp => ?_) c
  unfold Must3.sphere at hs
  rw [if_neg (not_le.mpr hr)] at hs
  cases hs
  have hp : V3.norm p ≤ r := sub_nonpos.mp hp
  have hx := abs_le.mp ((V3.abs_x_le p).trans hp)
  have hy := abs_le.mp ((V3.abs_y_le p).trans hp)
  have hz := abs_le.mp ((V3.abs_z_le p).trans hp)
  simp only [Box3.Contains, V3.scale]
  exact ⟨by linarith, by linarith, by linarith, hx.2, hy.2, hz.2⟩

theorem box3_fits {c : ℝ} {size : V3} {round : ℝ} {s : SDF3} (hs : Must3.box size round = some s) (hx : round ≤ size.x / 2)
    (hy : round ≤ size.y / 2) (hz : round ≤ size.z / 2) : Fits3 Unit3 c s := by
  unfold Must3.box at hs
  split_ifs at hs with g1 g2
  unfold V3.LTEZero at g1
  push Not at g1 g2
  obtain ⟨s', h1, h2, -⟩ := C18_box3 size round g1.1 g1.2.1 g1.2.2 g2 hx hy hz
  have : s' = s := by
    unfold Must3.box at h1
    rw [if_neg (by unfold V3.LTEZero; push Not; exact g1), if_neg (not_lt.mpr g2)] at h1
    exact Option.some.inj (h1.symm.trans hs)
  subst this
  refine h2.fits (fun p hp => ?_) c
  cases hs
  have hp : sdfBox3d p (V3.sub (V3.scale 0.5 size) (V3.elem round)) - round ≤ 0 := hp
  obtain ⟨a, b, d⟩ := sdfBox3d_ge p (V3.sub (V3.scale 0.5 size) (V3.elem round))
  simp only [V3.sub, V3.scale, V3.elem] at a b d hp
  have ha := abs_le.mp (show |p.x| ≤ 0.5 * size.x by linarith)
  have hb := abs_le.mp (show |p.y| ≤ 0.5 * size.y by linarith)
  have hd := abs_le.mp (show |p.z| ≤ 0.5 * size.z by linarith)
  simp only [Box3.Contains, V3.scale]
  exact ⟨by linarith, by linarith, by linarith, ha.2, hb.2, hd.2⟩

theorem cylinder_fits {c height radius round : ℝ} {s : SDF3} (hs : Must3.cylinder height radius round = some s) :
    Fits3 Unit3 c s := by
  have hs' := hs
  unfold Must3.cylinder at hs
  split_ifs at hs with g1 g2 g3 g4
  push Not at g1 g2 g3 g4
  obtain ⟨s', h1, h2, -⟩ := C18_cylinder height radius round g1 g2 g3 (by linarith)
  cases h1.symm.trans hs'
  refine h2.fits (fun p hp => ?_) c
  cases hs
  have hp : sdfBox2d ⟨V2.norm ⟨p.x, p.y⟩, p.z⟩ ⟨radius - round, height / 2 - round⟩ - round ≤ 0 := hp
  obtain ⟨a, b⟩ := sdfBox2d_ge ⟨V2.norm ⟨p.x, p.y⟩, p.z⟩ ⟨radius - round, height / 2 - round⟩
  simp only at a b
  rw [abs_of_nonneg (V2.norm_nonneg _)] at a
  have hx := abs_le.mp (show |p.x| ≤ radius from (V2.abs_x_le ⟨p.x, p.y⟩).trans (by linarith))
  have hy := abs_le.mp (show |p.y| ≤ radius from (V2.abs_y_le ⟨p.x, p.y⟩).trans (by linarith))
  have hz := abs_le.mp (show |p.z| ≤ height / 2 by linarith)
  simp only [Box3.Contains, V3.scale]
  exact ⟨by linarith, by linarith, by linarith, hx.2, hy.2, hz.2⟩

theorem cone_fits {c height r0 r1 round : ℝ} {s : SDF3} (hs : Must3.cone height r0 r1 round = some s) (hr0 : 0 ≤ r0) (hr1 : 0 ≤ r1) :
    Fits3 Unit3 c s := by
  unfold Must3.cone at hs
  split_ifs at hs with g1 g2 g3
  push Not at g1 g2 g3
  norm_num at g3
  have hf := coneData_frustum (r0 := r0) (r1 := r1) g1 g3
  have hwide : 0 ≤ max ((Must3.coneData height r0 r1 round).r0 + round) ((Must3.coneData height r0 r1 round).r1 + round) := by
    have hux : (Must3.coneData height r0 r1 round).n.y = -(Must3.coneData height r0 r1 round).u.x := rfl
    have h0 : (Must3.coneData height r0 r1 round).r0 = r0 - (1 + (Must3.coneData height r0 r1 round).n.y) *
      (round / (Must3.coneData height r0 r1 round).n.x) := rfl
    have h1 : (Must3.coneData height r0 r1 round).r1 = r1 - (1 - (Must3.coneData height r0 r1 round).n.y) *
      (round / (Must3.coneData height r0 r1 round).n.x) := rfl
    obtain ⟨hu, hup, hnx, hny, -, -, -⟩ := hf
    rw [h0, h1, hnx, hny]
    set u := (Must3.coneData height r0 r1 round).u
    rcases le_total 0 u.x with hx | hx
    · refine le_max_of_le_left ?_
      have : 1 - u.x ≤ u.y := by nlinarith
      have : (1 + -u.x) * (round / u.y) ≤ round := by
        rw [mul_div_assoc', div_le_iff₀ hup]
        nlinarith
      linarith
    · refine le_max_of_le_right ?_
      have : 1 + u.x ≤ u.y := by nlinarith
      have : (1 - -u.x) * (round / u.y) ≤ round := by
        rw [mul_div_assoc', div_le_iff₀ hup]
        nlinarith
      linarith
  simp only [max_add_add_right] at hs hwide
  have hh : (Must3.coneData height r0 r1 round).height = height / 2 - round := rfl
  have hr : (Must3.coneData height r0 r1 round).round = round := rfl
  cases hs
  set d := Must3.coneData height r0 r1 round with hd
  set R := max d.r0 d.r1 with hR
  intro u hu p
  have hus := V3.norm_sq u
  rw [hu] at hus
  obtain ⟨sx, hsx⟩ : ∃ e : ℝ, |e| ≤ 1 ∧ u.x * e = |u.x| := by
    rcases le_total 0 u.x with h | h
    · exact ⟨1, by norm_num, by rw [abs_of_nonneg h]; ring⟩
    · exact ⟨-1, by norm_num, by rw [abs_of_nonpos h]; ring⟩
  obtain ⟨sy, hsy⟩ : ∃ e : ℝ, |e| ≤ 1 ∧ u.y * e = |u.y| := by
    rcases le_total 0 u.y with h | h
    · exact ⟨1, by norm_num, by rw [abs_of_nonneg h]; ring⟩
    · exact ⟨-1, by norm_num, by rw [abs_of_nonpos h]; ring⟩
  obtain ⟨sz, hsz⟩ : ∃ e : ℝ, |e| ≤ 1 ∧ u.z * e = |u.z| := by
    rcases le_total 0 u.z with h | h
    · exact ⟨1, by norm_num, by rw [abs_of_nonneg h]; ring⟩
    · exact ⟨-1, by norm_num, by rw [abs_of_nonpos h]; ring⟩
  have scaled : ∀ e k : ℝ, |e| ≤ 1 → 0 ≤ k → -k ≤ e * k ∧ e * k ≤ k := by
    intro e k he hk
    have := abs_le.1 he
    constructor <;> nlinarith
  refine ⟨⟨sx * (R + round), sy * (R + round), sz * (height / 2)⟩, ?_, (min_le_left _ _).trans ?_⟩
  · have a := scaled sx _ hsx.1 hwide
    have b := scaled sy _ hsy.1 hwide
    have e := scaled sz (height / 2) hsz.1 (by linarith)
    simp only [Box3.Contains]
    exact ⟨a.1, b.1, by linarith [e.1], a.2, b.2, e.2⟩
  · set A := V2.norm ⟨u.x, u.y⟩ with hA
    have hAs := V2.norm_sq ⟨u.x, u.y⟩
    rw [← hA] at hAs
    simp only at hAs
    have hA0 : 0 ≤ A := V2.norm_nonneg _
    have hw : V2.norm ⟨A, u.z⟩ = 1 := V2.norm_eq_of zero_le_one (by simp only; linarith)
    have hsh : 0 ≤ d.height := by rw [hh]; linarith
    have low := cone_low hf (w := ⟨A, u.z⟩) (k := ⟨R, sz * d.height⟩) hw (by
      intro q hq
      have h1 := cone_width hf hq
      have h2 := abs_le.1 hq.1
      have h3 := mul_nonneg hA0 (sub_nonneg.2 h1)
      have h4 : u.z * q.y ≤ |u.z| * d.height := by
        calc u.z * q.y ≤ |u.z * q.y| := le_abs_self _
          _ = |u.z| * |q.y| := abs_mul _ _
          _ ≤ _ := mul_le_mul_of_nonneg_left hq.1 (abs_nonneg _)
      simp only [V2.dot, V2.sub]
      have e : u.z * (q.y - sz * d.height) = u.z * q.y - u.z * sz * d.height := by ring
      rw [e, hsz.2]
      linarith) p.radial
    have hcs := V2.dot_le ⟨u.x, u.y⟩ ⟨p.x, p.y⟩
    rw [← hA] at hcs
    simp only [V2.dot, V2.sub, V3.radial, hr] at low hcs
    have e1 : V3.dot u (V3.sub p ⟨sx * (R + round), sy * (R + round), sz * (height / 2)⟩) =
        u.x * p.x + u.y * p.y + u.z * p.z - (u.x * sx + u.y * sy) * (R + round) - u.z * sz * (height / 2) := by
      simp only [V3.dot, V3.sub]
      ring
    have e2 : u.z * (p.z - sz * d.height) = u.z * p.z - u.z * sz * d.height := by ring
    rw [e1, hsx.2, hsy.2, hsz.2]
    rw [e2, hsz.2] at low
    show _ ≤ Must3.coneEval2 d ⟨V2.norm ⟨p.x, p.y⟩, p.z⟩
    have k1 : A ≤ |u.x| + |u.y| := by
      refine V2.norm_le_of (by positivity) ?_
      simp only
      nlinarith [abs_mul_abs_self u.x, abs_mul_abs_self u.y, abs_nonneg u.x, abs_nonneg u.y, mul_nonneg (abs_nonneg u.x) (abs_nonneg u.y)]
    have k2 : 1 ≤ A + |u.z| := by nlinarith [abs_mul_abs_self u.z, abs_nonneg u.z, mul_nonneg hA0 (abs_nonneg u.z)]
    have m1 := mul_le_mul_of_nonneg_right k1 hwide
    have m2 := mul_le_mul_of_nonneg_right k2 g2
    rw [hh] at low
    linarith

end Sdf
