import Verif.Props.C42Params
import Verif.Props.C41Canalis

/-! C42: closest point on a triangle. -/

namespace Sdf

/-- `q` is on the segment from `a` to `b`. -/
def V2.InSeg (a b q : V2) : Prop :=
  ∃ u v, 0 ≤ u ∧ 0 ≤ v ∧ u + v = 1 ∧ q = V2.add (V2.scale u a) (V2.scale v b)

/-- `q` is in the closed triangle with corners `a`, `b`, `c`. -/
def V2.InTri (a b c q : V2) : Prop :=
  ∃ u v w, 0 ≤ u ∧ 0 ≤ v ∧ 0 ≤ w ∧ u + v + w = 1 ∧ q = V2.add (V2.add (V2.scale u a) (V2.scale v b)) (V2.scale w c)

/-- The corners are listed counter-clockwise and are not on one line. -/
def V2.CCW (a b c : V2) : Prop := 0 < V2.cross (V2.sub b a) (V2.sub c a)

/-- `q` is in the closed triangle `t`. -/
def Tri.Mem (t : Tri) (q : V3) : Prop :=
  ∃ u v w, 0 ≤ u ∧ 0 ≤ v ∧ 0 ≤ w ∧ u + v + w = 1 ∧ q = V3.add (V3.add (V3.scale u t.a) (V3.scale v t.b)) (V3.scale w t.c)

/-- `q` is the point of the triangle `t` closest to `p`. -/
def Tri.IsClosest (t : Tri) (p q : V3) : Prop := t.Mem q ∧ ∀ r, t.Mem r → V3.dist p q ≤ V3.dist p r

theorem V2.CCW.rot {a b c : V2} (h : V2.CCW a b c) : V2.CCW b c a := by
  simp only [V2.CCW, V2.cross, V2.sub] at *
  linarith

theorem inTri_iff {a b c : V2} (h : V2.CCW a b c) (q : V2) :
    V2.InTri a b c q ↔ 0 ≤ d2Sign q a b ∧ 0 ≤ d2Sign q b c ∧ 0 ≤ d2Sign q c a := by
  simp only [V2.CCW] at h
  constructor
  · rintro ⟨u, v, w, hu, hv, hw, hs, rfl⟩
    have hu' : u = 1 - v - w := by linarith
    refine ⟨?_, ?_, ?_⟩
    · have : d2Sign (V2.add (V2.add (V2.scale u a) (V2.scale v b)) (V2.scale w c)) a b =
          w * V2.cross (V2.sub b a) (V2.sub c a) := by
        simp only [d2Sign, V2.add, V2.scale, V2.cross, V2.sub, hu']; ring
      rw [this]; positivity
    · have : d2Sign (V2.add (V2.add (V2.scale u a) (V2.scale v b)) (V2.scale w c)) b c =
          u * V2.cross (V2.sub b a) (V2.sub c a) := by
        simp only [d2Sign, V2.add, V2.scale, V2.cross, V2.sub, hu']; ring
      rw [this]; positivity
    · have : d2Sign (V2.add (V2.add (V2.scale u a) (V2.scale v b)) (V2.scale w c)) c a =
          v * V2.cross (V2.sub b a) (V2.sub c a) := by
        simp only [d2Sign, V2.add, V2.scale, V2.cross, V2.sub, hu']; ring
      rw [this]; positivity
  · rintro ⟨h1, h2, h3⟩
    refine ⟨d2Sign q b c / V2.cross (V2.sub b a) (V2.sub c a), d2Sign q c a / V2.cross (V2.sub b a) (V2.sub c a),
      d2Sign q a b / V2.cross (V2.sub b a) (V2.sub c a), by positivity, by positivity, by positivity, ?_, ?_⟩
    · rw [← add_div, ← add_div, div_eq_one_iff_eq h.ne']
      simp only [d2Sign, V2.cross, V2.sub]; ring
    · have h' := h.ne'
      ext <;> simp only [V2.add, V2.scale] <;> field_simp <;> simp only [d2Sign, V2.cross, V2.sub] <;> ring

theorem inSeg_of {a b c : V2} (h : V2.CCW a b c) {q : V2} (h1 : d2Sign q a b = 0) (h2 : 0 ≤ d2Sign q b c)
    (h3 : 0 ≤ d2Sign q c a) : V2.InSeg a b q := by
  simp only [V2.CCW] at h
  have h' := h.ne'
  refine ⟨d2Sign q b c / V2.cross (V2.sub b a) (V2.sub c a), d2Sign q c a / V2.cross (V2.sub b a) (V2.sub c a),
    by positivity, by positivity, ?_, ?_⟩
  · rw [← add_div, div_eq_one_iff_eq h']
    have : d2Sign q b c + d2Sign q c a = V2.cross (V2.sub b a) (V2.sub c a) - d2Sign q a b := by
      simp only [d2Sign, V2.cross, V2.sub]; ring
    rw [this, h1, sub_zero]
  · ext
    · simp only [V2.add, V2.scale]
      field_simp
      have : q.x * V2.cross (V2.sub b a) (V2.sub c a) = a.x * d2Sign q b c + b.x * d2Sign q c a + c.x * d2Sign q a b := by
        simp only [d2Sign, V2.cross, V2.sub]; ring
      rw [this, h1]; ring
    · simp only [V2.add, V2.scale]
      field_simp
      have : q.y * V2.cross (V2.sub b a) (V2.sub c a) = a.y * d2Sign q b c + b.y * d2Sign q c a + c.y * d2Sign q a b := by
        simp only [d2Sign, V2.cross, V2.sub]; ring
      rw [this, h1]; ring

theorem inSeg_inTri {a b q : V2} (c : V2) (h : V2.InSeg a b q) : V2.InTri a b c q := by
  obtain ⟨u, v, hu, hv, hs, rfl⟩ := h
  refine ⟨u, v, 0, hu, hv, le_rfl, by linarith, ?_⟩
  ext <;> simp [V2.add, V2.scale]

theorem V2.InTri.rot {a b c q : V2} (h : V2.InTri a b c q) : V2.InTri b c a q := by
  obtain ⟨u, v, w, hu, hv, hw, hs, rfl⟩ := h
  refine ⟨v, w, u, hv, hw, hu, by linarith, ?_⟩
  ext <;> simp only [V2.add, V2.scale] <;> ring

/-- One constraint along a segment from a point where it holds. -/
theorem exit_one {x y : ℝ} (hx : 0 ≤ x) : ∃ τ, 0 ≤ τ ∧ τ ≤ 1 ∧ (∀ s, 0 ≤ s → s ≤ τ → 0 ≤ (1 - s) * x + s * y) ∧
    (y < 0 → (1 - τ) * x + τ * y = 0 ∧ τ < 1) ∧ (0 ≤ y → τ = 1) := by
  rcases lt_or_ge y 0 with hy | hy
  · have hd : 0 < x - y := by linarith
    refine ⟨x / (x - y), by positivity, ?_, ?_, ?_, fun h => absurd h (not_le.2 hy)⟩
    · rw [div_le_one hd]; linarith
    · intro s h0 h1
      rw [le_div_iff₀ hd] at h1
      linarith
    · intro _
      refine ⟨by field_simp; ring, ?_⟩
      rw [div_lt_one hd]; linarith
  · refine ⟨1, zero_le_one, le_rfl, ?_, fun h => absurd h (not_lt.2 hy), fun _ => rfl⟩
    intro s h0 h1
    have : 0 ≤ 1 - s := by linarith
    positivity

theorem exit_three {x1 x2 x3 y1 y2 y3 : ℝ} (h1 : 0 ≤ x1) (h2 : 0 ≤ x2) (h3 : 0 ≤ x3) (hy : y1 < 0 ∨ y2 < 0 ∨ y3 < 0) :
    ∃ τ, 0 ≤ τ ∧ τ ≤ 1 ∧ 0 ≤ (1 - τ) * x1 + τ * y1 ∧ 0 ≤ (1 - τ) * x2 + τ * y2 ∧ 0 ≤ (1 - τ) * x3 + τ * y3 ∧
      (y1 < 0 ∧ (1 - τ) * x1 + τ * y1 = 0 ∨ y2 < 0 ∧ (1 - τ) * x2 + τ * y2 = 0 ∨ y3 < 0 ∧ (1 - τ) * x3 + τ * y3 = 0) := by
  obtain ⟨t1, p1, q1, r1, s1, u1⟩ := exit_one (y := y1) h1
  obtain ⟨t2, p2, q2, r2, s2, u2⟩ := exit_one (y := y2) h2
  obtain ⟨t3, p3, q3, r3, s3, u3⟩ := exit_one (y := y3) h3
  have hm : 0 ≤ min (min t1 t2) t3 := le_min (le_min p1 p2) p3
  have e1 : min (min t1 t2) t3 ≤ t1 := (min_le_left _ _).trans (min_le_left _ _)
  have e2 : min (min t1 t2) t3 ≤ t2 := (min_le_left _ _).trans (min_le_right _ _)
  have e3 : min (min t1 t2) t3 ≤ t3 := min_le_right _ _
  have hlt : min (min t1 t2) t3 < 1 := by
    rcases hy with h | h | h
    · exact lt_of_le_of_lt e1 (s1 h).2
    · exact lt_of_le_of_lt e2 (s2 h).2
    · exact lt_of_le_of_lt e3 (s3 h).2
  refine ⟨min (min t1 t2) t3, hm, e1.trans q1, r1 _ hm e1, r2 _ hm e2, r3 _ hm e3, ?_⟩
  have hc : min (min t1 t2) t3 = t1 ∨ min (min t1 t2) t3 = t2 ∨ min (min t1 t2) t3 = t3 := by
    rcases min_choice (min t1 t2) t3 with h | h
    · rcases min_choice t1 t2 with h' | h'
      · left; rw [h, h']
      · right; left; rw [h, h']
    · right; right; exact h
  rcases hc with h | h | h
  · have : y1 < 0 := by
      by_contra hn
      rw [h, u1 (not_lt.1 hn)] at hlt
      exact lt_irrefl _ hlt
    left; rw [h]; exact ⟨this, (s1 this).1⟩
  · have : y2 < 0 := by
      by_contra hn
      rw [h, u2 (not_lt.1 hn)] at hlt
      exact lt_irrefl _ hlt
    right; left; rw [h]; exact ⟨this, (s2 this).1⟩
  · have : y3 < 0 := by
      by_contra hn
      rw [h, u3 (not_lt.1 hn)] at hlt
      exact lt_irrefl _ hlt
    right; right; rw [h]; exact ⟨this, (s3 this).1⟩

/-- The point at parameter `s` on the way from `q` to `p`. -/
def V2.mix (s : ℝ) (q p : V2) : V2 := ⟨(1 - s) * q.x + s * p.x, (1 - s) * q.y + s * p.y⟩

theorem d2Sign_mix (s : ℝ) (q p a b : V2) : d2Sign (V2.mix s q p) a b = (1 - s) * d2Sign q a b + s * d2Sign p a b := by
  simp only [d2Sign, V2.mix]; ring

theorem norm2_mix (s : ℝ) (q p : V2) : V2.norm2 (V2.sub p (V2.mix s q p)) = (1 - s) ^ 2 * V2.norm2 (V2.sub p q) := by
  simp only [V2.norm2, V2.mix, V2.sub]; ring

theorem V2.norm2_nonneg (v : V2) : 0 ≤ V2.norm2 v := by
  unfold V2.norm2; nlinarith [mul_self_nonneg v.x, mul_self_nonneg v.y]

/-- A way out of a triangle crosses an edge that the end is outside of. -/
theorem exit_tri {a b c : V2} (h : V2.CCW a b c) {p q : V2} (hq : V2.InTri a b c q)
    (hp : d2Sign p a b < 0 ∨ d2Sign p b c < 0 ∨ d2Sign p c a < 0) :
    ∃ s, 0 ≤ s ∧ s ≤ 1 ∧ (d2Sign p a b < 0 ∧ V2.InSeg a b (V2.mix s q p) ∨
      d2Sign p b c < 0 ∧ V2.InSeg b c (V2.mix s q p) ∨ d2Sign p c a < 0 ∧ V2.InSeg c a (V2.mix s q p)) := by
  obtain ⟨h1, h2, h3⟩ := (inTri_iff h q).1 hq
  obtain ⟨s, s0, s1, g1, g2, g3, hc⟩ := exit_three h1 h2 h3 hp
  refine ⟨s, s0, s1, ?_⟩
  rw [← d2Sign_mix] at g1 g2 g3
  simp only [← d2Sign_mix] at hc
  rcases hc with ⟨n, e⟩ | ⟨n, e⟩ | ⟨n, e⟩
  · exact Or.inl ⟨n, inSeg_of h e g2 g3⟩
  · exact Or.inr (Or.inl ⟨n, inSeg_of h.rot e g3 g1⟩)
  · exact Or.inr (Or.inr ⟨n, inSeg_of h.rot.rot e g1 g2⟩)

/-- If the closest point of a segment is its start then the segment leads away from the query. -/
theorem dot_nonpos_of_min {p a b : V2} (h : ∀ q, V2.InSeg a b q → V2.norm2 (V2.sub p a) ≤ V2.norm2 (V2.sub p q)) :
    V2.dot (V2.sub p a) (V2.sub b a) ≤ 0 := by
  by_contra hc
  have hd : 0 < V2.dot (V2.sub p a) (V2.sub b a) := not_le.1 hc
  set d := V2.dot (V2.sub p a) (V2.sub b a) with hdd
  set n := V2.norm2 (V2.sub b a) with hn
  have n0 : 0 ≤ n := V2.norm2_nonneg _
  have hdn : 0 < d + n := by linarith
  have e1 : 0 ≤ d / (d + n) := by positivity
  have e2 : d / (d + n) ≤ 1 := by rw [div_le_one hdn]; linarith
  have := h _ ⟨1 - d / (d + n), d / (d + n), by linarith, e1, by ring, rfl⟩
  have key : V2.norm2 (V2.sub p (V2.add (V2.scale (1 - d / (d + n)) a) (V2.scale (d / (d + n)) b))) =
      V2.norm2 (V2.sub p a) - 2 * (d / (d + n)) * d + (d / (d + n)) ^ 2 * n := by
    rw [hn, hdd]
    generalize d / (d + n) = e
    simp only [V2.norm2, V2.sub, V2.add, V2.scale, V2.dot]; ring
  rw [key] at this
  have e3 : d / (d + n) * n ≤ d := by
    rw [div_mul_eq_mul_div, div_le_iff₀ hdn]; nlinarith
  have e4 : 0 < d / (d + n) := by positivity
  nlinarith

theorem dot_pos_corner {p a b c : V2} (h : V2.CCW a b c) (hp : 0 < d2Sign p a b) {o : V2} (ho : o = a ∨ o = b)
    (hdot : V2.dot (V2.sub p o) (V2.sub b a) = 0) : 0 < V2.dot (V2.sub p o) (V2.sub c o) := by
  have hn : 0 < V2.norm2 (V2.sub b a) := by
    refine lt_of_le_of_ne (V2.norm2_nonneg _) (fun e => ?_)
    have hx : b.x - a.x = 0 := by simp only [V2.norm2, V2.sub] at e; nlinarith [mul_self_nonneg (b.x - a.x), mul_self_nonneg (b.y - a.y)]
    have hy : b.y - a.y = 0 := by simp only [V2.norm2, V2.sub] at e; nlinarith [mul_self_nonneg (b.x - a.x), mul_self_nonneg (b.y - a.y)]
    simp only [V2.CCW, V2.cross, V2.sub, hx, hy] at h
    simp at h
  have key : V2.norm2 (V2.sub b a) * V2.dot (V2.sub p o) (V2.sub c o) =
      V2.dot (V2.sub p o) (V2.sub b a) * V2.dot (V2.sub c o) (V2.sub b a) + d2Sign p a b * V2.cross (V2.sub b a) (V2.sub c a) := by
    rcases ho with rfl | rfl <;> simp only [V2.norm2, V2.dot, V2.sub, d2Sign, V2.cross] <;> ring
  rw [hdot, zero_mul, zero_add] at key
  have : 0 < V2.norm2 (V2.sub b a) * V2.dot (V2.sub p o) (V2.sub c o) := by rw [key]; exact mul_pos hp h
  exact (mul_pos_iff_of_pos_left hn).1 this

theorem eq_of_two_zero {a b c : V2} (h : V2.CCW a b c) {q : V2} (h1 : d2Sign q a b = 0) (h2 : d2Sign q b c = 0) : q = b := by
  have h' : V2.cross (V2.sub b a) (V2.sub c a) ≠ 0 := h.ne'
  have ex : (q.x - b.x) * V2.cross (V2.sub b a) (V2.sub c a) = (a.x - b.x) * d2Sign q b c + (c.x - b.x) * d2Sign q a b := by
    simp only [d2Sign, V2.cross, V2.sub]; ring
  have ey : (q.y - b.y) * V2.cross (V2.sub b a) (V2.sub c a) = (a.y - b.y) * d2Sign q b c + (c.y - b.y) * d2Sign q a b := by
    simp only [d2Sign, V2.cross, V2.sub]; ring
  rw [h1, h2] at ex ey
  ext
  · have := (mul_eq_zero.1 (ex.trans (by ring))).resolve_right h'
    linarith
  · have := (mul_eq_zero.1 (ey.trans (by ring))).resolve_right h'
    linarith

theorem d2Sign_inSeg {a b q : V2} (h : V2.InSeg a b q) : d2Sign q a b = 0 := by
  obtain ⟨u, v, -, -, hs, rfl⟩ := h
  have : u = 1 - v := by linarith
  simp only [d2Sign, V2.add, V2.scale, this]; ring

/-- The least distance to the boundary is not attained at the foot on an edge that has the point on its inner side. -/
theorem inner_foot {a b c : V2} (h : V2.CCW a b c) {p f : V2} (hp : 0 < d2Sign p a b)
    (hout : d2Sign p b c < 0 ∨ d2Sign p c a < 0) (hf : V2.InSeg a b f) (hdot : V2.dot (V2.sub p f) (V2.sub b a) = 0)
    (hmin : ∀ q, V2.InSeg a b q ∨ V2.InSeg b c q ∨ V2.InSeg c a q → V2.norm2 (V2.sub p f) ≤ V2.norm2 (V2.sub p q)) : False := by
  obtain ⟨s, s0, s1, hc⟩ := exit_tri h (inSeg_inTri c hf) (Or.inr hout)
  have hmix : V2.norm2 (V2.sub p f) ≤ (1 - s) ^ 2 * V2.norm2 (V2.sub p f) := by
    rw [← norm2_mix]
    apply hmin
    rcases hc with ⟨-, h⟩ | ⟨-, h⟩ | ⟨-, h⟩
    exacts [Or.inl h, Or.inr (Or.inl h), Or.inr (Or.inr h)]
  have hpos : 0 < V2.norm2 (V2.sub p f) := by
    refine lt_of_le_of_ne (V2.norm2_nonneg _) (fun e => ?_)
    have hx : p.x - f.x = 0 := by simp only [V2.norm2, V2.sub] at e; nlinarith [mul_self_nonneg (p.x - f.x), mul_self_nonneg (p.y - f.y)]
    have hy : p.y - f.y = 0 := by simp only [V2.norm2, V2.sub] at e; nlinarith [mul_self_nonneg (p.x - f.x), mul_self_nonneg (p.y - f.y)]
    have : p = f := by ext <;> linarith
    rw [this, d2Sign_inSeg hf] at hp
    exact lt_irrefl _ hp
  have hs : s = 0 := by
    have : 1 ≤ (1 - s) ^ 2 := by
      by_contra hn
      have := mul_lt_mul_of_pos_right (not_le.1 hn) hpos
      linarith
    nlinarith
  have hm : V2.mix s f p = f := by rw [hs]; ext <;> simp [V2.mix]
  rw [hm] at hc
  rcases hc with ⟨hn, -⟩ | ⟨-, hb⟩ | ⟨-, hb⟩
  · linarith
  · have e : f = b := eq_of_two_zero h (d2Sign_inSeg hf) (d2Sign_inSeg hb)
    subst e
    have h1 := dot_pos_corner h hp (Or.inr rfl) hdot
    have h2 := dot_nonpos_of_min (p := p) (a := f) (b := c) (fun q hq => hmin q (Or.inr (Or.inl hq)))
    linarith
  · have e : f = a := eq_of_two_zero h.rot.rot (d2Sign_inSeg hb) (d2Sign_inSeg hf)
    subst e
    have h1 := dot_pos_corner h hp (Or.inl rfl) hdot
    have h2 := dot_nonpos_of_min (p := p) (a := f) (b := c) (fun q hq => hmin q (Or.inr (Or.inr (by
      obtain ⟨u, v, hu, hv, hs, rfl⟩ := hq
      refine ⟨v, u, hv, hu, by linarith, ?_⟩
      ext <;> simp only [V2.add, V2.scale] <;> ring))))
    linarith

/-- What `distToLine` computes. -/
theorem distToLine_spec {l0 l1 : V2} (hl : l0 ≠ l1) (p : V2) : ∃ x, V2.InSeg l0 l1 x ∧
    V2.norm2 (distToLine p l0 l1).1 = V2.norm2 (V2.sub p x) ∧
    (∀ q, V2.InSeg l0 l1 q → V2.norm2 (V2.sub p x) ≤ V2.norm2 (V2.sub p q)) ∧
    ((distToLine p l0 l1).2 = 0 ∧ x = l1 ∧ (distToLine p l0 l1).1 = V2.sub p x ∨
      (distToLine p l0 l1).2 = 1 ∧ x = l0 ∧ (distToLine p l0 l1).1 = V2.sub p x ∨
      (distToLine p l0 l1).2 = 2 ∧ V2.dot (V2.sub p x) (V2.sub l1 l0) = 0 ∧
        (d2Sign p l0 l1 ≤ 0 → (distToLine p l0 l1).1 = V2.sub p x)) := by
  have hn : 0 < V2.norm2 (V2.sub l1 l0) := by
    refine lt_of_le_of_ne (V2.norm2_nonneg _) (fun e => hl ?_)
    have hx : l1.x - l0.x = 0 := by simp only [V2.norm2, V2.sub] at e; nlinarith [mul_self_nonneg (l1.x - l0.x), mul_self_nonneg (l1.y - l0.y)]
    have hy : l1.y - l0.y = 0 := by simp only [V2.norm2, V2.sub] at e; nlinarith [mul_self_nonneg (l1.x - l0.x), mul_self_nonneg (l1.y - l0.y)]
    ext <;> linarith
  have e1 : edgeEquation p l1 (V2.add l1 ⟨-(V2.sub l1 l0).y, (V2.sub l1 l0).x⟩) = V2.dot (V2.sub p l1) (V2.sub l1 l0) := by
    simp only [edgeEquation, V2.sub, V2.add, V2.dot]; ring
  have e0 : edgeEquation p l0 (V2.add l0 ⟨-(V2.sub l1 l0).y, (V2.sub l1 l0).x⟩) = V2.dot (V2.sub p l0) (V2.sub l1 l0) := by
    simp only [edgeEquation, V2.sub, V2.add, V2.dot]; ring
  unfold distToLine
  dsimp only
  rw [e1, e0]
  split_ifs with c1 c2
  · refine ⟨l1, ⟨0, 1, le_rfl, zero_le_one, by norm_num, by ext <;> simp [V2.add, V2.scale]⟩, rfl, ?_, Or.inl ⟨rfl, rfl, rfl⟩⟩
    rintro q ⟨u, v, hu, hv, hs, rfl⟩
    have : V2.norm2 (V2.sub p (V2.add (V2.scale u l0) (V2.scale v l1))) = V2.norm2 (V2.sub p l1) +
        2 * u * V2.dot (V2.sub p l1) (V2.sub l1 l0) + u ^ 2 * V2.norm2 (V2.sub l1 l0) := by
      have : v = 1 - u := by linarith
      simp only [V2.norm2, V2.sub, V2.add, V2.scale, V2.dot, this]; ring
    rw [this]
    have := mul_nonneg hu (le_of_lt c1)
    have := mul_nonneg (sq_nonneg u) hn.le
    linarith
  · refine ⟨l0, ⟨1, 0, zero_le_one, le_rfl, by norm_num, by ext <;> simp [V2.add, V2.scale]⟩, rfl, ?_, Or.inr (Or.inl ⟨rfl, rfl, rfl⟩)⟩
    rintro q ⟨u, v, hu, hv, hs, rfl⟩
    have : V2.norm2 (V2.sub p (V2.add (V2.scale u l0) (V2.scale v l1))) = V2.norm2 (V2.sub p l0) -
        2 * v * V2.dot (V2.sub p l0) (V2.sub l1 l0) + v ^ 2 * V2.norm2 (V2.sub l1 l0) := by
      have : u = 1 - v := by linarith
      simp only [V2.norm2, V2.sub, V2.add, V2.scale, V2.dot, this]; ring
    rw [this]
    have := mul_nonneg hv (neg_nonneg.2 c2.le)
    have := mul_nonneg (sq_nonneg v) hn.le
    linarith
  · set dir := V2.sub l1 l0 with hdir
    have c1' : V2.dot (V2.sub p l1) dir ≤ 0 := not_lt.1 c1
    have c2' : 0 ≤ V2.dot (V2.sub p l0) dir := not_lt.1 c2
    set t := V2.dot (V2.sub p l0) dir / V2.norm2 dir with ht
    have htn : t * V2.norm2 dir = V2.dot (V2.sub p l0) dir := div_mul_cancel₀ _ hn.ne'
    have t0 : 0 ≤ t := by positivity
    have t1 : t ≤ 1 := by
      rw [ht, div_le_one hn]
      have : V2.dot (V2.sub p l1) dir = V2.dot (V2.sub p l0) dir - V2.norm2 dir := by
        rw [hdir]; simp only [V2.dot, V2.sub, V2.norm2]; ring
      linarith
    have hnorm : V2.norm2 dir = V2.norm dir * V2.norm dir := by
      unfold V2.norm V2.norm2
      rw [Real.mul_self_sqrt]
      nlinarith [mul_self_nonneg dir.x, mul_self_nonneg dir.y]
    have hnp : 0 < V2.norm dir := by
      unfold V2.norm
      exact Real.sqrt_pos.2 hn
    have hperp : V2.norm ⟨-dir.y, dir.x⟩ = V2.norm dir := by
      unfold V2.norm
      congr 1
      simp only []; ring
    have hinf : distToLineInfinite p l0 l1 = |d2Sign p l0 l1| / V2.norm dir := by
      unfold distToLineInfinite
      have e : (l1.x - l0.x) * (l0.y - p.y) - (l0.x - p.x) * (l1.y - l0.y) = -d2Sign p l0 l1 := by
        simp only [d2Sign]; ring
      rw [e, abs_neg]
      rfl
    have hx : V2.sub p (V2.add (V2.scale (1 - t) l0) (V2.scale t l1)) =
        V2.scale (d2Sign p l0 l1 / V2.norm2 dir) ⟨-dir.y, dir.x⟩ := by
      have e : d2Sign p l0 l1 = dir.x * (p.y - l0.y) - dir.y * (p.x - l0.x) := by
        rw [hdir]; simp only [d2Sign, V2.sub]; ring
      have hn' := hn.ne'
      ext
      · simp only [V2.sub, V2.add, V2.scale]
        have : (p.x - ((1 - t) * l0.x + t * l1.x)) = (p.x - l0.x) - t * dir.x := by rw [hdir]; simp only [V2.sub]; ring
        rw [this, ht, e]
        field_simp
        simp only [V2.norm2, V2.dot, V2.sub]; ring
      · simp only [V2.sub, V2.add, V2.scale]
        have : (p.y - ((1 - t) * l0.y + t * l1.y)) = (p.y - l0.y) - t * dir.y := by rw [hdir]; simp only [V2.sub]; ring
        rw [this, ht, e]
        field_simp
        simp only [V2.norm2, V2.dot, V2.sub]; ring
    have hr : V2.scale (-(distToLineInfinite p l0 l1)) (V2.unit ⟨-dir.y, dir.x⟩) =
        V2.scale (-|d2Sign p l0 l1| / V2.norm2 dir) ⟨-dir.y, dir.x⟩ := by
      rw [hinf, hnorm]
      unfold V2.unit
      rw [hperp]
      have := hnp.ne'
      ext <;> simp only [V2.scale] <;> field_simp
    have hd0 : V2.dot (V2.sub p (V2.add (V2.scale (1 - t) l0) (V2.scale t l1))) dir = 0 := by
      rw [hx]; simp only [V2.dot, V2.scale]; ring
    refine ⟨V2.add (V2.scale (1 - t) l0) (V2.scale t l1), ⟨1 - t, t, by linarith, t0, by ring, rfl⟩, ?_, ?_,
      Or.inr (Or.inr ⟨rfl, hd0, ?_⟩)⟩
    · rw [hr, hx]
      have : ∀ k (v : V2), V2.norm2 (V2.scale k v) = k ^ 2 * V2.norm2 v := by
        intro k v; simp only [V2.norm2, V2.scale]; ring
      rw [this, this, div_pow, div_pow, neg_sq, sq_abs]
    · rintro q ⟨u, v, hu, hv, hs, rfl⟩
      have : V2.norm2 (V2.sub p (V2.add (V2.scale u l0) (V2.scale v l1))) =
          V2.norm2 (V2.sub p (V2.add (V2.scale (1 - t) l0) (V2.scale t l1))) -
          2 * (v - t) * V2.dot (V2.sub p (V2.add (V2.scale (1 - t) l0) (V2.scale t l1))) dir + (v - t) ^ 2 * V2.norm2 dir := by
        have : u = 1 - v := by linarith
        rw [hdir]
        simp only [V2.norm2, V2.sub, V2.add, V2.scale, V2.dot, this]; ring
      rw [this, hd0]
      have := mul_nonneg (sq_nonneg (v - t)) hn.le
      linarith
    · intro hle
      rw [hr, hx, abs_of_nonpos hle, neg_neg]

theorem V2.CCW.ne {a b c : V2} (h : V2.CCW a b c) : a ≠ b := by
  rintro rfl
  simp [V2.CCW, V2.cross, V2.sub] at h

end Sdf
