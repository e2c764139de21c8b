import Verif.Spec.Bounds
import Verif.Lemmas.Lip
import Verif.Lemmas.Union2
import Verif.Props.C22Arrays
import Verif.Props.C24Offset
import Verif.Props.C31Polygon

/-! How far the values of a shape are bounded below by its box, in a set of directions. -/

namespace Sdf

/-- In each of the directions `A`, and for every point `p`, the box has a point beyond which `p` lies by at most
the value at `p` (or the value is at least `c`). -/
def Fits3 (A : V3 → Prop) (c : ℝ) (s : SDF3) : Prop :=
  ∀ u, A u → ∀ p, ∃ q, s.bounds.Contains q ∧ min (V3.dot u (V3.sub p q)) c ≤ s.eval p

/-- As `Fits3`, in the plane. -/
def Fits2 (A : V2 → Prop) (c : ℝ) (s : SDF2) : Prop :=
  ∀ u, A u → ∀ p, ∃ q, s.bounds.Contains q ∧ min (V2.dot u (V2.sub p q)) c ≤ s.eval p

def Unit3 (u : V3) : Prop := V3.norm u = 1
def Unit2 (u : V2) : Prop := V2.norm u = 1
def Axis3 (u : V3) : Prop :=
  u = ⟨1, 0, 0⟩ ∨ u = ⟨-1, 0, 0⟩ ∨ u = ⟨0, 1, 0⟩ ∨ u = ⟨0, -1, 0⟩ ∨ u = ⟨0, 0, 1⟩ ∨ u = ⟨0, 0, -1⟩
def Axis2 (u : V2) : Prop := u = ⟨1, 0⟩ ∨ u = ⟨-1, 0⟩ ∨ u = ⟨0, 1⟩ ∨ u = ⟨0, -1⟩

theorem Axis3.unit {u : V3} (h : Axis3 u) : Unit3 u := by
  rcases h with rfl | rfl | rfl | rfl | rfl | rfl <;> exact V3.norm_eq_of zero_le_one (by norm_num)
theorem Axis2.unit {u : V2} (h : Axis2 u) : Unit2 u := by
  rcases h with rfl | rfl | rfl | rfl <;> exact V2.norm_eq_of zero_le_one (by norm_num)

theorem Fits3.anti {A B : V3 → Prop} (h : ∀ u, B u → A u) {c : ℝ} {s : SDF3} (hs : Fits3 A c s) : Fits3 B c s :=
  fun u hu => hs u (h u hu)
theorem Fits2.anti {A B : V2 → Prop} (h : ∀ u, B u → A u) {c : ℝ} {s : SDF2} (hs : Fits2 A c s) : Fits2 B c s :=
  fun u hu => hs u (h u hu)

theorem Fits3.bounded {c : ℝ} (hc : 0 ≤ c) {s : SDF3} (h : Fits3 Axis3 c s) : s.Bounded := by
  intro p hp
  have key : ∀ u, Axis3 u → ∃ q, s.bounds.Contains q ∧ V3.dot u (V3.sub p q) < 0 := by
    intro u hu
    obtain ⟨q, hq, h⟩ := h u hu p
    refine ⟨q, hq, ?_⟩
    rcases min_lt_iff.mp (lt_of_le_of_lt h hp) with h | h
    · exact h
    · exact absurd h (not_lt.mpr hc)
  obtain ⟨q1, h1, k1⟩ := key ⟨1, 0, 0⟩ (by simp [Axis3])
  obtain ⟨q2, h2, k2⟩ := key ⟨-1, 0, 0⟩ (by simp [Axis3])
  obtain ⟨q3, h3, k3⟩ := key ⟨0, 1, 0⟩ (by simp [Axis3])
  obtain ⟨q4, h4, k4⟩ := key ⟨0, -1, 0⟩ (by simp [Axis3])
  obtain ⟨q5, h5, k5⟩ := key ⟨0, 0, 1⟩ (by simp [Axis3])
  obtain ⟨q6, h6, k6⟩ := key ⟨0, 0, -1⟩ (by simp [Axis3])
  simp only [V3.dot, V3.sub] at *
  obtain ⟨a1, a2, a3, a4, a5, a6⟩ := h1
  obtain ⟨b1, b2, b3, b4, b5, b6⟩ := h2
  obtain ⟨c1, c2, c3, c4, c5, c6⟩ := h3
  obtain ⟨d1, d2, d3, d4, d5, d6⟩ := h4
  obtain ⟨e1, e2, e3, e4, e5, e6⟩ := h5
  obtain ⟨f1, f2, f3, f4, f5, f6⟩ := h6
  refine ⟨?_, ?_, ?_, ?_, ?_, ?_⟩ <;> linarith

theorem Fits2.bounded {c : ℝ} (hc : 0 ≤ c) {s : SDF2} (h : Fits2 Axis2 c s) : s.Bounded := by
  intro p hp
  have key : ∀ u, Axis2 u → ∃ q, s.bounds.Contains q ∧ V2.dot u (V2.sub p q) < 0 := by
    intro u hu
    obtain ⟨q, hq, h⟩ := h u hu p
    refine ⟨q, hq, ?_⟩
    rcases min_lt_iff.mp (lt_of_le_of_lt h hp) with h | h
    · exact h
    · exact absurd h (not_lt.mpr hc)
  obtain ⟨q1, h1, k1⟩ := key ⟨1, 0⟩ (by simp [Axis2])
  obtain ⟨q2, h2, k2⟩ := key ⟨-1, 0⟩ (by simp [Axis2])
  obtain ⟨q3, h3, k3⟩ := key ⟨0, 1⟩ (by simp [Axis2])
  obtain ⟨q4, h4, k4⟩ := key ⟨0, -1⟩ (by simp [Axis2])
  simp only [V2.dot, V2.sub] at *
  obtain ⟨a1, a2, a3, a4⟩ := h1
  obtain ⟨b1, b2, b3, b4⟩ := h2
  obtain ⟨c1, c2, c3, c4⟩ := h3
  obtain ⟨d1, d2, d3, d4⟩ := h4
  refine ⟨?_, ?_, ?_, ?_⟩ <;> linarith

/-- A point of the box that is farthest in a direction. -/
theorem Box3.exists_support (b : Box3) {q : V3} (hq : b.Contains q) (u : V3) :
    ∃ v, b.Contains v ∧ ∀ x, b.Contains x → V3.dot u x ≤ V3.dot u v := by
  have key : ∀ (lo hi t : ℝ), lo ≤ hi → ∃ v, lo ≤ v ∧ v ≤ hi ∧ ∀ x, lo ≤ x → x ≤ hi → t * x ≤ t * v := by
    intro lo hi t h
    rcases le_total 0 t with h0 | h0
    · exact ⟨hi, h, le_rfl, fun x _ h2 => by nlinarith⟩
    · exact ⟨lo, le_rfl, h, fun x h1 _ => by nlinarith⟩
  obtain ⟨h1, h2, h3, h4, h5, h6⟩ := hq
  obtain ⟨x, x1, x2, x3⟩ := key b.lo.x b.hi.x u.x (by linarith)
  obtain ⟨y, y1, y2, y3⟩ := key b.lo.y b.hi.y u.y (by linarith)
  obtain ⟨z, z1, z2, z3⟩ := key b.lo.z b.hi.z u.z (by linarith)
  refine ⟨⟨x, y, z⟩, ⟨x1, y1, z1, x2, y2, z2⟩, ?_⟩
  rintro w ⟨w1, w2, w3, w4, w5, w6⟩
  have e1 := x3 _ w1 w4
  have e2 := y3 _ w2 w5
  have e3 := z3 _ w3 w6
  simp only [V3.dot]
  linarith

theorem Box2.exists_support (b : Box2) {q : V2} (hq : b.Contains q) (u : V2) :
    ∃ v, b.Contains v ∧ ∀ x, b.Contains x → V2.dot u x ≤ V2.dot u v := by
  have key : ∀ (lo hi t : ℝ), lo ≤ hi → ∃ v, lo ≤ v ∧ v ≤ hi ∧ ∀ x, lo ≤ x → x ≤ hi → t * x ≤ t * v := by
    intro lo hi t h
    rcases le_total 0 t with h0 | h0
    · exact ⟨hi, h, le_rfl, fun x _ h2 => by nlinarith⟩
    · exact ⟨lo, le_rfl, h, fun x h1 _ => by nlinarith⟩
  obtain ⟨h1, h2, h4, h5⟩ := hq
  obtain ⟨x, x1, x2, x3⟩ := key b.lo.x b.hi.x u.x (by linarith)
  obtain ⟨y, y1, y2, y3⟩ := key b.lo.y b.hi.y u.y (by linarith)
  refine ⟨⟨x, y⟩, ⟨x1, y1, x2, y2⟩, ?_⟩
  rintro w ⟨w1, w2, w4, w5⟩
  have e1 := x3 _ w1 w4
  have e2 := y3 _ w2 w5
  simp only [V2.dot]
  linarith

/-- A 1-Lipschitz shape that is positive off its box, and there at least as far as the box. -/
theorem fits3_of {s : SDF3} {c : ℝ} (hl : Lip3 s.eval) (hb : s.BoundedClosed) (hne : ∃ q, s.bounds.Contains q)
    (hfar : ∀ p, ¬ s.bounds.Contains p → c ≤ s.eval p ∨ ∃ q, s.bounds.Contains q ∧ V3.dist p q ≤ s.eval p) :
    Fits3 Unit3 c s := by
  intro u hu p
  obtain ⟨q0, h0⟩ := hne
  obtain ⟨v, hv, hmax⟩ := s.bounds.exists_support h0 u
  have huu : u.x * u.x + u.y * u.y + u.z * u.z = 1 := by
    have := V3.norm_sq u; rw [hu] at this; linarith
  by_cases hd : V3.dot u (V3.sub p v) ≤ 0
  · refine ⟨v, hv, (min_le_left _ _).trans ?_⟩
    set t := -V3.dot u (V3.sub p v) with ht
    have : ∀ ε > 0, -t < s.eval p + ε := by
      intro ε hε
      set r : V3 := V3.add p (V3.scale (t + ε) u) with hr
      have hout : ¬ s.bounds.Contains r := by
        intro hc
        have h1 := hmax r hc
        have h2 : V3.dot u r = V3.dot u v + ε := by
          have ht' := ht
          simp only [V3.dot, V3.sub] at ht'
          simp only [hr, V3.dot, V3.add, V3.scale]
          linear_combination (t + ε) * huu + ht'
        linarith
      have hpos : 0 < s.eval r := by
        by_contra h
        exact hout (hb r (not_lt.mp h))
      have hdist : V3.dist p r = t + ε := by
        refine V3.norm_eq_of (by linarith) ?_
        simp only [hr, V3.add, V3.scale, V3.sub]
        linear_combination (t + ε) * (t + ε) * huu
      have := (abs_le.mp (hl p r)).1
      rw [hdist] at this
      linarith
    have := le_of_forall_pos_lt_add this
    linarith
  · have hp : ¬ s.bounds.Contains p := by
      intro hc
      have := hmax p hc
      simp only [V3.dot, V3.sub] at *
      linarith
    rcases hfar p hp with h | ⟨q, hq, h⟩
    · exact ⟨v, hv, (min_le_right _ _).trans h⟩
    · refine ⟨q, hq, (min_le_left _ _).trans (le_trans ?_ h)⟩
      have := V3.dot_le u (V3.sub p q)
      rwa [hu, one_mul] at this

theorem fits2_of {s : SDF2} {c : ℝ} (hl : Lip2 s.eval) (hb : s.BoundedClosed) (hne : ∃ q, s.bounds.Contains q)
    (hfar : ∀ p, ¬ s.bounds.Contains p → c ≤ s.eval p ∨ ∃ q, s.bounds.Contains q ∧ V2.dist p q ≤ s.eval p) :
    Fits2 Unit2 c s := by
  intro u hu p
  obtain ⟨q0, h0⟩ := hne
  obtain ⟨v, hv, hmax⟩ := s.bounds.exists_support h0 u
  have huu : u.x * u.x + u.y * u.y = 1 := by
    have := V2.norm_sq u; rw [hu] at this; linarith
  by_cases hd : V2.dot u (V2.sub p v) ≤ 0
  · refine ⟨v, hv, (min_le_left _ _).trans ?_⟩
    set t := -V2.dot u (V2.sub p v) with ht
    have : ∀ ε > 0, -t < s.eval p + ε := by
      intro ε hε
      set r : V2 := V2.add p (V2.scale (t + ε) u) with hr
      have hout : ¬ s.bounds.Contains r := by
        intro hc
        have h1 := hmax r hc
        have h2 : V2.dot u r = V2.dot u v + ε := by
          have ht' := ht
          simp only [V2.dot, V2.sub] at ht'
          simp only [hr, V2.dot, V2.add, V2.scale]
          linear_combination (t + ε) * huu + ht'
        linarith
      have hpos : 0 < s.eval r := by
        by_contra h
        exact hout (hb r (not_lt.mp h))
      have hdist : V2.dist p r = t + ε := by
        refine V2.norm_eq_of (by linarith) ?_
        simp only [hr, V2.add, V2.scale, V2.sub]
        linear_combination (t + ε) * (t + ε) * huu
      have := (abs_le.mp (hl p r)).1
      rw [hdist] at this
      linarith
    have := le_of_forall_pos_lt_add this
    linarith
  · have hp : ¬ s.bounds.Contains p := by
      intro hc
      have := hmax p hc
      simp only [V2.dot, V2.sub] at *
      linarith
    rcases hfar p hp with h | ⟨q, hq, h⟩
    · exact ⟨v, hv, (min_le_right _ _).trans h⟩
    · refine ⟨q, hq, (min_le_left _ _).trans (le_trans ?_ h)⟩
      have := V2.dot_le u (V2.sub p q)
      rwa [hu, one_mul] at this

/-- Exact shapes whose box contains the closed shape fit in every direction. -/
theorem SDF3.Exact.fits {s : SDF3} (hs : s.Exact) (hb : s.BoundedClosed) (c : ℝ) : Fits3 Unit3 c s := by
  have hq : ∀ p, ∃ q, s.bounds.Contains q ∧ V3.dist p q = |s.eval p| := by
    intro p
    obtain ⟨⟨q, hq, hd⟩, _⟩ := hs.2 p
    exact ⟨q, hb q (le_of_eq hq), hd⟩
  refine fits3_of hs.1 hb ((hq ⟨0, 0, 0⟩).imp fun _ h => h.1) fun p hp => .inr ?_
  obtain ⟨q, h1, h2⟩ := hq p
  have : 0 < s.eval p := by by_contra h; exact hp (hb p (not_lt.mp h))
  exact ⟨q, h1, by rw [h2, abs_of_pos this]⟩

theorem SDF2.Exact.fits {s : SDF2} (hs : s.Exact) (hb : s.BoundedClosed) (c : ℝ) : Fits2 Unit2 c s := by
  have hq : ∀ p, ∃ q, s.bounds.Contains q ∧ V2.dist p q = |s.eval p| := by
    intro p
    obtain ⟨⟨q, hq, hd⟩, _⟩ := hs.2 p
    exact ⟨q, hb q (le_of_eq hq), hd⟩
  refine fits2_of hs.1 hb ((hq ⟨0, 0⟩).imp fun _ h => h.1) fun p hp => .inr ?_
  obtain ⟨q, h1, h2⟩ := hq p
  have : 0 < s.eval p := by by_contra h; exact hp (hb p (not_lt.mp h))
  exact ⟨q, h1, by rw [h2, abs_of_pos this]⟩

theorem Fits3.mono {A : V3 → Prop} {c : ℝ} {s t : SDF3} (hs : Fits3 A c s) (hb : s.bounds.Sub t.bounds)
    (h : ∀ p, s.eval p ≤ t.eval p) : Fits3 A c t := fun u hu p =>
  let ⟨q, hq, hle⟩ := hs u hu p
  ⟨q, hb.contains hq, hle.trans (h p)⟩
theorem Fits2.mono {A : V2 → Prop} {c : ℝ} {s t : SDF2} (hs : Fits2 A c s) (hb : s.bounds.Sub t.bounds)
    (h : ∀ p, s.eval p ≤ t.eval p) : Fits2 A c t := fun u hu p =>
  let ⟨q, hq, hle⟩ := hs u hu p
  ⟨q, hb.contains hq, hle.trans (h p)⟩

theorem Fits3.empty {A : V3 → Prop} {c : ℝ} (hc : c ≤ maxFloat64) (a : V3) : Fits3 A c (SDF3.empty a) := fun u _ p =>
  ⟨a, ⟨le_rfl, le_rfl, le_rfl, le_rfl, le_rfl, le_rfl⟩, (min_le_right _ _).trans hc⟩
theorem Fits2.empty {A : V2 → Prop} {c : ℝ} (hc : c ≤ maxFloat64) (a : V2) : Fits2 A c (SDF2.empty a) := fun u _ p =>
  ⟨a, ⟨le_rfl, le_rfl, le_rfl, le_rfl⟩, (min_le_right _ _).trans hc⟩

/-! Affine maps. -/

/-- The direction in which an affine map's image direction `u` is seen before the map. -/
def M44.pull (m : M44) (u : V3) : V3 :=
  ⟨m.x00 * u.x + m.x10 * u.y + m.x20 * u.z, m.x01 * u.x + m.x11 * u.y + m.x21 * u.z, m.x02 * u.x + m.x12 * u.y + m.x22 * u.z⟩
def M33.pull (m : M33) (u : V2) : V2 := ⟨m.x00 * u.x + m.x10 * u.y, m.x01 * u.x + m.x11 * u.y⟩

theorem M44.dot_pull (m : M44) (u p q : V3) :
    V3.dot u (V3.sub (m.mulPosition p) (m.mulPosition q)) = V3.dot (m.pull u) (V3.sub p q) := by
  simp only [V3.dot, V3.sub, M44.mulPosition, M44.pull]; ring
theorem M33.dot_pull (m : M33) (u p q : V2) :
    V2.dot u (V2.sub (m.mulPosition p) (m.mulPosition q)) = V2.dot (m.pull u) (V2.sub p q) := by
  simp only [V2.dot, V2.sub, M33.mulPosition, M33.pull]; ring

theorem M44.Isometry.orth {m : M44} (h : m.Isometry) : m.linear.transpose * m.linear = 1 := by
  have key : ∀ x y z : ℝ, (m.x00 * x + m.x01 * y + m.x02 * z) ^ 2 + (m.x10 * x + m.x11 * y + m.x12 * z) ^ 2 +
      (m.x20 * x + m.x21 * y + m.x22 * z) ^ 2 = x ^ 2 + y ^ 2 + z ^ 2 := by
    intro x y z
    have h1 := h ⟨x, y, z⟩ ⟨0, 0, 0⟩
    have e1 := V3.norm_sq (V3.sub (m.mulPosition ⟨x, y, z⟩) (m.mulPosition ⟨0, 0, 0⟩))
    have e2 := V3.norm_sq (V3.sub ⟨x, y, z⟩ ⟨0, 0, 0⟩)
    unfold V3.dist at h1
    rw [h1, e2] at e1
    simp only [V3.sub, M44.mulPosition] at e1
    linear_combination -e1
  rw [M44.orth_iff]
  have a1 := key 1 0 0
  have a2 := key 0 1 0
  have a3 := key 0 0 1
  have a4 := key 1 1 0
  have a5 := key 1 0 1
  have a6 := key 0 1 1
  exact ⟨by linear_combination a1, by linear_combination a2, by linear_combination a3,
    by linear_combination (a4 - a1 - a2) / 2, by linear_combination (a5 - a1 - a3) / 2,
    by linear_combination (a6 - a2 - a3) / 2⟩

theorem M33.Isometry.orth {m : M33} (h : m.Isometry) : m.x00 * m.x00 + m.x10 * m.x10 = 1 ∧
    m.x01 * m.x01 + m.x11 * m.x11 = 1 ∧ m.x00 * m.x01 + m.x10 * m.x11 = 0 := by
  have key : ∀ x y : ℝ, (m.x00 * x + m.x01 * y) ^ 2 + (m.x10 * x + m.x11 * y) ^ 2 = x ^ 2 + y ^ 2 := by
    intro x y
    have h1 := h ⟨x, y⟩ ⟨0, 0⟩
    have e1 := V2.norm_sq (V2.sub (m.mulPosition ⟨x, y⟩) (m.mulPosition ⟨0, 0⟩))
    have e2 := V2.norm_sq (V2.sub ⟨x, y⟩ ⟨0, 0⟩)
    unfold V2.dist at h1
    rw [h1, e2] at e1
    simp only [V2.sub, M33.mulPosition] at e1
    linear_combination -e1
  have a1 := key 1 0
  have a2 := key 0 1
  have a4 := key 1 1
  exact ⟨by linear_combination a1, by linear_combination a2, by linear_combination (a4 - a1 - a2) / 2⟩

theorem M44.Isometry.pull_unit {m : M44} (h : m.Isometry) {u : V3} (hu : Unit3 u) : Unit3 (m.pull u) := by
  have ho := mul_eq_one_comm.mp h.orth
  have e := fun i j => congrFun (congrFun ho i) j
  have e00 := e 0 0
  have e11 := e 1 1
  have e22 := e 2 2
  have e01 := e 0 1
  have e02 := e 0 2
  have e12 := e 1 2
  simp [M44.linear, Matrix.mul_apply, Fin.sum_univ_three] at e00 e11 e22 e01 e02 e12
  have huu := V3.norm_sq u
  rw [show V3.norm u = 1 from hu] at huu
  refine V3.norm_eq_of zero_le_one ?_
  simp only [M44.pull]
  linear_combination -huu + u.x * u.x * e00 + u.y * u.y * e11 + u.z * u.z * e22 + 2 * u.x * u.y * e01 + 2 * u.x * u.z * e02
    + 2 * u.y * u.z * e12

theorem M33.Isometry.pull_unit {m : M33} (h : m.Isometry) {u : V2} (hu : Unit2 u) : Unit2 (m.pull u) := by
  obtain ⟨o1, o2, o3⟩ := h.orth
  have huu := V2.norm_sq u
  rw [show V2.norm u = 1 from hu] at huu
  have hm : (!![m.x00, m.x01; m.x10, m.x11] : Matrix (Fin 2) (Fin 2) ℝ).transpose * !![m.x00, m.x01; m.x10, m.x11] = 1 := by
    ext i j
    fin_cases i <;> fin_cases j <;> simp [Matrix.mul_apply, Fin.sum_univ_two] <;> linarith
  have ho := mul_eq_one_comm.mp hm
  have e := fun i j => congrFun (congrFun ho i) j
  have e00 := e 0 0
  have e11 := e 1 1
  have e01 := e 0 1
  simp [Matrix.mul_apply, Fin.sum_univ_two] at e00 e11 e01
  refine V2.norm_eq_of zero_le_one ?_
  simp only [M33.pull]
  linear_combination -huu + u.x * u.x * e00 + u.y * u.y * e11 + 2 * u.x * u.y * e01

theorem Fits3.transform {A B : V3 → Prop} {c : ℝ} {s : SDF3} {m : M44} (hs : Fits3 A c s) (ha : m.Affine)
    (hd : m.toMatrix.det ≠ 0) (hAB : ∀ u, B u → A (m.pull u)) : Fits3 B c (s.transform m) := by
  intro u hu p
  have hd : m.det ≠ 0 := by rw [M44.det_eq]; exact hd
  obtain ⟨q, hq, h⟩ := hs _ (hAB u hu) (m.inverse.mulPosition p)
  refine ⟨m.mulPosition q, M44.mulBox_contains m _ hq, ?_⟩
  rw [← M44.dot_pull, M44.mulPosition_inverse ha hd] at h
  exact h

theorem Fits2.transform {A B : V2 → Prop} {c : ℝ} {s : SDF2} {m : M33} (hs : Fits2 A c s) (ha : m.Affine)
    (hd : m.toMatrix.det ≠ 0) (hAB : ∀ u, B u → A (m.pull u)) : Fits2 B c (s.transform m) := by
  intro u hu p
  have hd : m.det ≠ 0 := by rw [M33.det_eq]; exact hd
  obtain ⟨q, hq, h⟩ := hs _ (hAB u hu) (m.inverse.mulPosition p)
  refine ⟨m.mulPosition q, M33.mulBox_contains m _ hq, ?_⟩
  rw [← M33.dot_pull, M33.mulPosition_inverse ha hd] at h
  exact h

end Sdf
