import Verif.Model.Numeric
import Verif.Model.Omesh
import Verif.Lemmas.Vec
import Mathlib.Analysis.Calculus.Deriv.Basic
import Mathlib.Analysis.Calculus.Deriv.Slope
import Mathlib.Analysis.Calculus.Deriv.Mul
import Mathlib.Analysis.SpecialFunctions.Sqrt

/-! C67: normals computed from differences. -/

namespace Sdf

open Filter Topology

/-- `f` has the partial derivatives `g` at `p`. -/
def Partials3 (f : V3 → ℝ) (p g : V3) : Prop :=
  HasDerivAt (fun x => f ⟨x, p.y, p.z⟩) g.x p.x ∧ HasDerivAt (fun y => f ⟨p.x, y, p.z⟩) g.y p.y ∧ HasDerivAt (fun z => f ⟨p.x, p.y, z⟩) g.z p.z

/-- `f` has the partial derivatives `g` at `p`. -/
def Partials2 (f : V2 → ℝ) (p g : V2) : Prop :=
  HasDerivAt (fun x => f ⟨x, p.y⟩) g.x p.x ∧ HasDerivAt (fun y => f ⟨p.x, y⟩) g.y p.y

theorem V3.norm_ne_zero' {v : V3} (h : v ≠ ⟨0, 0, 0⟩) : 0 < V3.norm v := by
  unfold V3.norm
  refine Real.sqrt_pos.mpr ?_
  by_contra hc
  refine h ?_
  have h1 : v.x = 0 := by nlinarith [sq_nonneg v.x, sq_nonneg v.y, sq_nonneg v.z]
  have h2 : v.y = 0 := by nlinarith [sq_nonneg v.x, sq_nonneg v.y, sq_nonneg v.z]
  have h3 : v.z = 0 := by nlinarith [sq_nonneg v.x, sq_nonneg v.y, sq_nonneg v.z]
  cases v; simp_all

theorem V2.norm_ne_zero' {v : V2} (h : v ≠ ⟨0, 0⟩) : 0 < V2.norm v := by
  unfold V2.norm
  refine Real.sqrt_pos.mpr ?_
  by_contra hc
  refine h ?_
  have h1 : v.x = 0 := by nlinarith [sq_nonneg v.x, sq_nonneg v.y]
  have h2 : v.y = 0 := by nlinarith [sq_nonneg v.x, sq_nonneg v.y]
  cases v; simp_all

/-- Scaling by a positive number does not change the direction. -/
theorem V3.unit_scale_pos {k : ℝ} (hk : 0 < k) (v : V3) : V3.unit (V3.scale k v) = V3.unit v := by
  have : V3.norm (V3.scale k v) = k * V3.norm v := by
    rw [V3.norm_scale, abs_of_pos hk]
  unfold V3.unit
  rw [this]
  simp only [V3.scale, V3.mk.injEq]
  refine ⟨?_, ?_, ?_⟩ <;> field_simp

theorem V2.unit_scale_pos {k : ℝ} (hk : 0 < k) (v : V2) : V2.unit (V2.scale k v) = V2.unit v := by
  have : V2.norm (V2.scale k v) = k * V2.norm v := by
    rw [V2.norm_scale, abs_of_pos hk]
  unfold V2.unit
  rw [this]
  simp only [V2.scale, V2.mk.injEq]
  refine ⟨?_, ?_⟩ <;> field_simp

/-- Central differences tend to the derivative. -/
theorem central_tendsto {f : ℝ → ℝ} {a g : ℝ} (h : HasDerivAt f g a) :
    Tendsto (fun e : ℝ => (1 / (2 * e)) * (f (a + e) - f (a + -e))) (𝓝[>] 0) (𝓝 g) := by
  have h1 := (hasDerivAt_iff_tendsto_slope_zero.mp h).mono_left (nhdsGT_le_nhdsNE 0)
  have h2 := (hasDerivAt_iff_tendsto_slope_zero.mp h)
  have hneg : Tendsto (fun e : ℝ => -e) (𝓝[>] (0 : ℝ)) (𝓝[≠] 0) := by
    refine tendsto_nhdsWithin_iff.mpr ⟨?_, ?_⟩
    · have : Tendsto (fun e : ℝ => -e) (𝓝 0) (𝓝 (-0)) := tendsto_id.neg
      rw [neg_zero] at this
      exact this.mono_left nhdsWithin_le_nhds
    · filter_upwards [self_mem_nhdsWithin] with e he
      simp only [Set.mem_Ioi] at he
      simp only [Set.mem_compl_iff, Set.mem_singleton_iff, neg_eq_zero]
      exact he.ne'
  have h3 := h2.comp hneg
  have h4 := (h1.add h3).const_mul (1 / 2)
  have : (1 / 2 : ℝ) * (g + g) = g := by ring
  rw [this] at h4
  refine h4.congr' ?_
  filter_upwards [self_mem_nhdsWithin] with e he
  simp only [Set.mem_Ioi] at he
  simp only [Function.comp_apply, smul_eq_mul]
  have := he.ne'
  field_simp
  ring

/-- Taking the direction is continuous away from zero. -/
theorem unit3_tendsto {l : Filter ℝ} {F : ℝ → V3} {g : V3} (hg : g ≠ ⟨0, 0, 0⟩) (hx : Tendsto (fun e => (F e).x) l (𝓝 g.x))
    (hy : Tendsto (fun e => (F e).y) l (𝓝 g.y)) (hz : Tendsto (fun e => (F e).z) l (𝓝 g.z)) :
    Tendsto (fun e => (V3.unit (F e)).x) l (𝓝 (V3.unit g).x) ∧ Tendsto (fun e => (V3.unit (F e)).y) l (𝓝 (V3.unit g).y) ∧
      Tendsto (fun e => (V3.unit (F e)).z) l (𝓝 (V3.unit g).z) := by
  have hn : Tendsto (fun e => V3.norm (F e)) l (𝓝 (V3.norm g)) := by
    unfold V3.norm
    exact (((hx.mul hx).add (hy.mul hy)).add (hz.mul hz)).sqrt
  have hi : Tendsto (fun e => 1 / V3.norm (F e)) l (𝓝 (1 / V3.norm g)) := tendsto_const_nhds.div hn (V3.norm_ne_zero' hg).ne'
  exact ⟨hi.mul hx, hi.mul hy, hi.mul hz⟩

theorem unit2_tendsto {l : Filter ℝ} {F : ℝ → V2} {g : V2} (hg : g ≠ ⟨0, 0⟩) (hx : Tendsto (fun e => (F e).x) l (𝓝 g.x))
    (hy : Tendsto (fun e => (F e).y) l (𝓝 g.y)) :
    Tendsto (fun e => (V2.unit (F e)).x) l (𝓝 (V2.unit g).x) ∧ Tendsto (fun e => (V2.unit (F e)).y) l (𝓝 (V2.unit g).y) := by
  have hn : Tendsto (fun e => V2.norm (F e)) l (𝓝 (V2.norm g)) := by
    unfold V2.norm
    exact ((hx.mul hx).add (hy.mul hy)).sqrt
  have hi : Tendsto (fun e => 1 / V2.norm (F e)) l (𝓝 (1 / V2.norm g)) := tendsto_const_nhds.div hn (V2.norm_ne_zero' hg).ne'
  exact ⟨hi.mul hx, hi.mul hy⟩

/-- On a half space, the normal is exactly that of its plane, at every point and for every step. -/
theorem C67_plane (n : V3) (d : ℝ) (hn : V3.norm n = 1) (box : Box3) (p : V3) {eps : ℝ} (he : 0 < eps) :
    normal3 ⟨fun q => V3.dot n q - d, box⟩ p eps = n := by
  have e : normal3 ⟨fun q => V3.dot n q - d, box⟩ p eps = V3.unit (V3.scale (2 * eps) n) := by
    unfold normal3
    congr 1
    simp only [V3.dot, V3.add, V3.scale, V3.mk.injEq]
    refine ⟨?_, ?_, ?_⟩ <;> ring
  rw [e, V3.unit_scale_pos (by linarith)]
  unfold V3.unit
  rw [hn]
  simp [V3.scale]

/-- On a half plane, the normal is exactly that of its border. -/
theorem C67_line (n : V2) (d : ℝ) (hn : V2.norm n = 1) (box : Box2) (p : V2) {eps : ℝ} (he : 0 < eps) :
    normal2 ⟨fun q => V2.dot n q - d, box⟩ p eps = n := by
  have e : normal2 ⟨fun q => V2.dot n q - d, box⟩ p eps = V2.unit (V2.scale (2 * eps) n) := by
    unfold normal2
    congr 1
    simp only [V2.dot, V2.add, V2.scale, V2.mk.injEq]
    refine ⟨?_, ?_⟩ <;> ring
  rw [e, V2.unit_scale_pos (by linarith)]
  unfold V2.unit
  rw [hn]
  simp [V2.scale]

/-- As the step shrinks, the normal tends to the direction of the gradient, where there is one that does not vanish. -/
theorem C67_limit (s : SDF3) (p g : V3) (h : Partials3 s.eval p g) (hg : g ≠ ⟨0, 0, 0⟩) :
    Tendsto (fun eps => (normal3 s p eps).x) (𝓝[>] 0) (𝓝 (V3.unit g).x) ∧ Tendsto (fun eps => (normal3 s p eps).y) (𝓝[>] 0) (𝓝 (V3.unit g).y) ∧
      Tendsto (fun eps => (normal3 s p eps).z) (𝓝[>] 0) (𝓝 (V3.unit g).z) := by
  obtain ⟨hx, hy, hz⟩ := h
  let D : ℝ → V3 := fun eps => ⟨s.eval (V3.add p ⟨eps, 0, 0⟩) - s.eval (V3.add p ⟨-eps, 0, 0⟩),
    s.eval (V3.add p ⟨0, eps, 0⟩) - s.eval (V3.add p ⟨0, -eps, 0⟩), s.eval (V3.add p ⟨0, 0, eps⟩) - s.eval (V3.add p ⟨0, 0, -eps⟩)⟩
  have hlim := unit3_tendsto (l := 𝓝[>] (0 : ℝ)) (F := fun eps => V3.scale (1 / (2 * eps)) (D eps)) hg
    (by simpa [V3.scale, D, V3.add] using central_tendsto hx) (by simpa [V3.scale, D, V3.add] using central_tendsto hy)
    (by simpa [V3.scale, D, V3.add] using central_tendsto hz)
  have heq : ∀ᶠ eps in 𝓝[>] (0 : ℝ), V3.unit (V3.scale (1 / (2 * eps)) (D eps)) = normal3 s p eps := by
    filter_upwards [self_mem_nhdsWithin] with e he
    simp only [Set.mem_Ioi] at he
    exact V3.unit_scale_pos (by positivity) _
  exact ⟨hlim.1.congr' (heq.mono fun e he => by rw [he]), hlim.2.1.congr' (heq.mono fun e he => by rw [he]),
    hlim.2.2.congr' (heq.mono fun e he => by rw [he])⟩

/-- The same in the plane. -/
theorem C67_limit_plane (s : SDF2) (p g : V2) (h : Partials2 s.eval p g) (hg : g ≠ ⟨0, 0⟩) :
    Tendsto (fun eps => (normal2 s p eps).x) (𝓝[>] 0) (𝓝 (V2.unit g).x) ∧ Tendsto (fun eps => (normal2 s p eps).y) (𝓝[>] 0) (𝓝 (V2.unit g).y) := by
  obtain ⟨hx, hy⟩ := h
  let D : ℝ → V2 := fun eps => ⟨s.eval (V2.add p ⟨eps, 0⟩) - s.eval (V2.add p ⟨-eps, 0⟩),
    s.eval (V2.add p ⟨0, eps⟩) - s.eval (V2.add p ⟨0, -eps⟩)⟩
  have hlim := unit2_tendsto (l := 𝓝[>] (0 : ℝ)) (F := fun eps => V2.scale (1 / (2 * eps)) (D eps)) hg
    (by simpa [V2.scale, D, V2.add] using central_tendsto hx) (by simpa [V2.scale, D, V2.add] using central_tendsto hy)
  have heq : ∀ᶠ eps in 𝓝[>] (0 : ℝ), V2.unit (V2.scale (1 / (2 * eps)) (D eps)) = normal2 s p eps := by
    filter_upwards [self_mem_nhdsWithin] with e he
    simp only [Set.mem_Ioi] at he
    exact V2.unit_scale_pos (by positivity) _
  exact ⟨hlim.1.congr' (heq.mono fun e he => by rw [he]), hlim.2.congr' (heq.mono fun e he => by rw [he])⟩

/-- Partial derivatives of the distance to a ball. -/
theorem ball_partials (o : V3) (r : ℝ) (p : V3) (hp : p ≠ o) :
    Partials3 (fun q => V3.norm (V3.sub q o) - r) p (V3.unit (V3.sub p o)) := by
  have hne : V3.sub p o ≠ ⟨0, 0, 0⟩ := by
    intro h
    simp only [V3.sub, V3.mk.injEq] at h
    refine hp ?_
    cases p; cases o
    simp only [V3.mk.injEq] at h ⊢
    exact ⟨by linarith [h.1], by linarith [h.2.1], by linarith [h.2.2]⟩
  have hN := V3.norm_ne_zero' hne
  have hS : V3.norm (V3.sub p o) = √((p.x - o.x) * (p.x - o.x) + (p.y - o.y) * (p.y - o.y) + (p.z - o.z) * (p.z - o.z)) := rfl
  have hsq : (p.x - o.x) * (p.x - o.x) + (p.y - o.y) * (p.y - o.y) + (p.z - o.z) * (p.z - o.z) ≠ 0 := by
    intro h0
    rw [hS, h0, Real.sqrt_zero] at hN
    exact lt_irrefl _ hN
  have sub : ∀ a c : ℝ, HasDerivAt (fun x : ℝ => (x - c) * (x - c)) (1 * (a - c) + (a - c) * 1) a := fun a c =>
    ((hasDerivAt_id a).sub_const c).mul ((hasDerivAt_id a).sub_const c)
  refine ⟨?_, ?_, ?_⟩
  · have := ((((sub p.x o.x).add_const ((p.y - o.y) * (p.y - o.y))).add_const ((p.z - o.z) * (p.z - o.z))).sqrt hsq).sub_const r
    refine this.congr_deriv ?_
    rw [show (V3.unit (V3.sub p o)).x = 1 / V3.norm (V3.sub p o) * (p.x - o.x) from rfl, hS]
    ring
  · have := ((((sub p.y o.y).const_add ((p.x - o.x) * (p.x - o.x))).add_const ((p.z - o.z) * (p.z - o.z))).sqrt hsq).sub_const r
    refine this.congr_deriv ?_
    rw [show (V3.unit (V3.sub p o)).y = 1 / V3.norm (V3.sub p o) * (p.y - o.y) from rfl, hS]
    ring
  · have := (((sub p.z o.z).const_add ((p.x - o.x) * (p.x - o.x) + (p.y - o.y) * (p.y - o.y))).sqrt hsq).sub_const r
    refine this.congr_deriv ?_
    rw [show (V3.unit (V3.sub p o)).z = 1 / V3.norm (V3.sub p o) * (p.z - o.z) from rfl, hS]
    ring

/-- Near a ball, the normal tends to the direction away from the centre, of length one. -/
theorem C67_ball (o : V3) (r : ℝ) (box : Box3) (p : V3) (hp : p ≠ o) :
    Tendsto (fun eps => (normal3 ⟨fun q => V3.norm (V3.sub q o) - r, box⟩ p eps).x) (𝓝[>] 0) (𝓝 ((p.x - o.x) / V3.dist p o)) ∧
    Tendsto (fun eps => (normal3 ⟨fun q => V3.norm (V3.sub q o) - r, box⟩ p eps).y) (𝓝[>] 0) (𝓝 ((p.y - o.y) / V3.dist p o)) ∧
    Tendsto (fun eps => (normal3 ⟨fun q => V3.norm (V3.sub q o) - r, box⟩ p eps).z) (𝓝[>] 0) (𝓝 ((p.z - o.z) / V3.dist p o)) := by
  have hne : V3.sub p o ≠ ⟨0, 0, 0⟩ := by
    intro h
    simp only [V3.sub, V3.mk.injEq] at h
    refine hp ?_
    cases p; cases o
    simp only [V3.mk.injEq] at h ⊢
    exact ⟨by linarith [h.1], by linarith [h.2.1], by linarith [h.2.2]⟩
  have hN := V3.norm_ne_zero' hne
  have hU : V3.norm (V3.unit (V3.sub p o)) = 1 := by
    unfold V3.unit
    rw [V3.norm_scale, abs_of_pos (by positivity)]
    field_simp
  have hU0 : V3.unit (V3.sub p o) ≠ ⟨0, 0, 0⟩ := by
    intro h
    rw [h] at hU
    simp [V3.norm] at hU
  have hUU : V3.unit (V3.unit (V3.sub p o)) = V3.unit (V3.sub p o) := by
    rw [show V3.unit (V3.unit (V3.sub p o)) = V3.scale (1 / V3.norm (V3.unit (V3.sub p o))) (V3.unit (V3.sub p o)) from rfl, hU]
    simp [V3.scale]
  have := C67_limit ⟨fun q => V3.norm (V3.sub q o) - r, box⟩ p _ (ball_partials o r p hp) hU0
  rw [hUU] at this
  have e : ∀ a : ℝ, a / V3.dist p o = 1 / V3.norm (V3.sub p o) * a := fun a => by unfold V3.dist; ring
  rw [e, e, e]
  exact this

/-- Whatever the shape, a normal has length one, unless every difference vanishes. -/
theorem C67_length (s : SDF3) (p : V3) (eps : ℝ)
    (h : s.eval ⟨p.x + eps, p.y, p.z⟩ ≠ s.eval ⟨p.x - eps, p.y, p.z⟩ ∨ s.eval ⟨p.x, p.y + eps, p.z⟩ ≠ s.eval ⟨p.x, p.y - eps, p.z⟩ ∨
      s.eval ⟨p.x, p.y, p.z + eps⟩ ≠ s.eval ⟨p.x, p.y, p.z - eps⟩) : V3.norm (normal3 s p eps) = 1 := by
  unfold normal3 V3.unit
  simp only [V3.add, add_zero, ← sub_eq_add_neg]
  have := V3.norm_ne_zero' (v := ⟨s.eval ⟨p.x + eps, p.y, p.z⟩ - s.eval ⟨p.x - eps, p.y, p.z⟩,
    s.eval ⟨p.x, p.y + eps, p.z⟩ - s.eval ⟨p.x, p.y - eps, p.z⟩, s.eval ⟨p.x, p.y, p.z + eps⟩ - s.eval ⟨p.x, p.y, p.z - eps⟩⟩) (by
      intro h0
      simp only [V3.mk.injEq, sub_eq_zero] at h0
      exact h.elim (fun h => h h0.1) fun h => h.elim (fun h => h h0.2.1) fun h => h h0.2.2)
  rw [V3.norm_scale, abs_of_pos (by positivity)]
  field_simp

/-- In the plane too. -/
theorem C67_length_plane (s : SDF2) (p : V2) (eps : ℝ)
    (h : s.eval ⟨p.x + eps, p.y⟩ ≠ s.eval ⟨p.x - eps, p.y⟩ ∨ s.eval ⟨p.x, p.y + eps⟩ ≠ s.eval ⟨p.x, p.y - eps⟩) :
    V2.norm (normal2 s p eps) = 1 := by
  unfold normal2 V2.unit
  simp only [V2.add, add_zero, ← sub_eq_add_neg]
  have := V2.norm_ne_zero' (v := ⟨s.eval ⟨p.x + eps, p.y⟩ - s.eval ⟨p.x - eps, p.y⟩,
    s.eval ⟨p.x, p.y + eps⟩ - s.eval ⟨p.x, p.y - eps⟩⟩) (by
      intro h0
      simp only [V2.mk.injEq, sub_eq_zero] at h0
      exact h.elim (fun h => h h0.1) fun h => h h0.2)
  rw [V2.norm_scale, abs_of_pos (by positivity)]
  field_simp

/-- Non-vacuity: the upper half space. -/
example : normal3 ⟨fun q => V3.dot ⟨0, 0, 1⟩ q - 2, ⟨⟨0, 0, 0⟩, ⟨0, 0, 0⟩⟩⟩ ⟨5, 6, 7⟩ (1 / 10) = ⟨0, 0, 1⟩ :=
  C67_plane _ _ (by simp [V3.norm]) _ _ (by norm_num)

/-- Non-vacuity: a point off the centre of a ball. -/
example : (⟨1, 0, 0⟩ : V3) ≠ ⟨0, 0, 0⟩ := by simp

end Sdf
