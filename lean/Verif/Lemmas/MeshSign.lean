import Verif.Lemmas.EdgeSign
import Verif.Lemmas.KdImport
import Mathlib.Topology.Order.Compact
import Mathlib.Topology.Instances.Real.Lemmas
import Mathlib.Topology.Algebra.Order.Field

/-! Faces and edges of closed meshes, and the sides of a solid. -/

namespace Sdf
namespace Edge
open Bih Kd

/-- The same triangle, starting at the next corner. -/
def rot (t : Tri) : Tri := ⟨t.b, t.c, t.a⟩

theorem mem_rot {t : Tri} {q : V3} : (rot t).Mem q ↔ t.Mem q := by
  constructor
  · rintro ⟨u, v, w, hu, hv, hw, hs, rfl⟩
    exact ⟨w, u, v, hw, hu, hv, by linarith, by ext <;> simp only [V3.add, V3.scale, rot] <;> ring⟩
  · rintro ⟨u, v, w, hu, hv, hw, hs, rfl⟩
    exact ⟨v, w, u, hv, hw, hu, by linarith, by ext <;> simp only [V3.add, V3.scale, rot] <;> ring⟩

theorem inner_rot {t : Tri} {q : V3} : InnerFace (rot t) q ↔ InnerFace t q := by
  constructor
  · rintro ⟨u, v, w, hu, hv, hw, hs, rfl⟩
    exact ⟨w, u, v, hw, hu, hv, by linarith, by ext <;> simp only [V3.add, V3.scale, rot] <;> ring⟩
  · rintro ⟨u, v, w, hu, hv, hw, hs, rfl⟩
    exact ⟨v, w, u, hv, hw, hu, by linarith, by ext <;> simp only [V3.add, V3.scale, rot] <;> ring⟩

theorem cross_rot (t : Tri) : V3.cross (V3.sub (rot t).b (rot t).a) (V3.sub (rot t).c (rot t).a) =
    V3.cross (V3.sub t.b t.a) (V3.sub t.c t.a) := by
  ext <;> simp only [V3.cross, V3.sub, rot] <;> ring

theorem normal_rot (t : Tri) : unitNormal (rot t) = unitNormal t := by
  unfold unitNormal; rw [cross_rot]

theorem nondeg_rot {t : Tri} (h : t.NonDegenerate) : (rot t).NonDegenerate := by
  unfold Tri.NonDegenerate; rw [cross_rot]; exact h

/-- Near the inner points of the triangle `K` is behind it. -/
def Behind (K : Set V3) (t : Tri) : Prop := ∀ q, InnerFace t q → ∃ ε, 0 < ε ∧ ∀ x, V3.dist x q < ε →
    (V3.dot (unitNormal t) (V3.sub x q) < 0 → x ∈ K) ∧ (0 < V3.dot (unitNormal t) (V3.sub x q) → x ∉ K)

theorem dot_unit_sign {t : Tri} (ht : t.NonDegenerate) (d : V3) :
    (0 < V3.dot (unitNormal t) d ↔ 0 < V3.dot (V3.cross (V3.sub t.b t.a) (V3.sub t.c t.a)) d) ∧
    (V3.dot (unitNormal t) d < 0 ↔ V3.dot (V3.cross (V3.sub t.b t.a) (V3.sub t.c t.a)) d < 0) := by
  have hn := V3.norm_pos ht
  have : V3.dot (unitNormal t) d = 1 / V3.norm (V3.cross (V3.sub t.b t.a) (V3.sub t.c t.a)) *
      V3.dot (V3.cross (V3.sub t.b t.a) (V3.sub t.c t.a)) d := by
    simp only [unitNormal, V3.unit, V3.dot, V3.scale]; ring
  rw [this]
  have hp : 0 < 1 / V3.norm (V3.cross (V3.sub t.b t.a) (V3.sub t.c t.a)) := by positivity
  exact ⟨mul_pos_iff_of_pos_left hp, ⟨fun h => by by_contra hc; exact absurd h (not_lt.2 (mul_nonneg hp.le (not_lt.1 hc))), fun h => mul_neg_of_pos_of_neg hp h⟩⟩

theorem behind_of {mesh : List Tri} {K : Set V3} (h : Outward mesh K) {t : Tri} (ht : t ∈ mesh) (hn : t.NonDegenerate) : Behind K t := by
  intro q hq
  obtain ⟨ε, hε, h⟩ := h t ht q hq
  refine ⟨ε, hε, fun x hx => ?_⟩
  obtain ⟨h1, h2⟩ := h x hx
  exact ⟨fun h => h1 ((dot_unit_sign hn _).2.1 h), fun h => h2 ((dot_unit_sign hn _).1.1 h)⟩

theorem behind_rot {K : Set V3} {t : Tri} (h : Behind K t) : Behind K (rot t) := by
  intro q hq
  obtain ⟨ε, hε, h⟩ := h q (inner_rot.1 hq)
  exact ⟨ε, hε, by rw [normal_rot]; exact h⟩

/-! ### Faces -/

theorem frame_normal {t : Tri} (F : Frame t) : unitNormal t = V3.cross F.a F.b := by
  have e : V3.cross (V3.sub t.b t.a) (V3.sub t.c t.a) = V3.scale (F.l * F.v) (V3.cross F.a F.b) := by
    rw [F.hx, F.hy]; ext <;> simp only [V3.cross, V3.add, V3.scale] <;> ring
  have hp : 0 < F.l * F.v := mul_pos F.hl F.hv
  have h1 : V3.norm (V3.cross F.a F.b) = 1 := by
    have h2 := V3.norm_sq (V3.cross F.a F.b)
    have h3 : V3.dot (V3.cross F.a F.b) (V3.cross F.a F.b) = V3.dot F.a F.a * V3.dot F.b F.b - V3.dot F.a F.b ^ 2 := by
      simp only [V3.dot, V3.cross]; ring
    rw [F.aa, F.bb, F.ab] at h3
    have h4 : (V3.cross F.a F.b).x * (V3.cross F.a F.b).x + (V3.cross F.a F.b).y * (V3.cross F.a F.b).y +
      (V3.cross F.a F.b).z * (V3.cross F.a F.b).z = 1 := by
        have : V3.dot (V3.cross F.a F.b) (V3.cross F.a F.b) = 1 := by rw [h3]; ring
        exact this
    nlinarith [V3.norm_nonneg (V3.cross F.a F.b)]
  unfold unitNormal V3.unit
  rw [e, V3.norm_scale, h1, abs_of_pos hp]
  generalize F.l * F.v = k at *
  ext <;> simp only [V3.scale] <;> field_simp

theorem face_side {M : V3 → Prop} {K : Set V3} (hS : Sep M K) {p q : V3} {t : Tri} (hB : Behind K t)
    (hq : InnerFace t q) (hpq : 0 < V3.dist p q) (hmin : ∀ z, M z → V3.dist p q ≤ V3.dist p z) :
    (V3.dot (unitNormal t) (V3.sub p q) < 0 → p ∈ K) ∧ (0 < V3.dot (unitNormal t) (V3.sub p q) → p ∉ K) := by
  obtain ⟨ε, hε, hloc⟩ := hB q hq
  set D := V3.dist p q with hD
  obtain ⟨s, s0, s1, s2⟩ : ∃ s, 0 < s ∧ s ≤ 1 ∧ s * D < ε := by
    refine ⟨min 1 (ε / (2 * D)), by positivity, min_le_left _ _, ?_⟩
    calc _ ≤ ε / (2 * D) * D := mul_le_mul_of_nonneg_right (min_le_right _ _) hpq.le
      _ = ε / 2 := by field_simp
      _ < ε := by linarith
  have hA : V3.add q (V3.scale s (V3.sub p q)) ∈ K ↔ p ∈ K := same_side hS fun z hz => free hmin hpq s0 s1 hz
  have hsub : V3.sub (V3.add q (V3.scale s (V3.sub p q))) q = V3.scale s (V3.sub p q) := by
    ext <;> simp only [V3.sub, V3.add, V3.scale] <;> ring
  have hdist : V3.dist (V3.add q (V3.scale s (V3.sub p q))) q < ε := by
    unfold V3.dist
    rw [hsub, V3.norm_scale, abs_of_pos s0]
    exact s2
  obtain ⟨h1, h2⟩ := hloc _ hdist
  rw [hsub] at h1 h2
  have hdot : V3.dot (unitNormal t) (V3.scale s (V3.sub p q)) = s * V3.dot (unitNormal t) (V3.sub p q) := by
    simp only [V3.dot, V3.scale]; ring
  rw [hdot] at h1 h2
  exact ⟨fun h => hA.1 (h1 (mul_neg_of_pos_of_neg s0 h)), fun h hp => h2 (mul_pos s0 h) (hA.2 hp)⟩

/-! ### Edges -/

/-- `q` is between `a` and `b`. -/
def InnerEdge (a b q : V3) : Prop := ∃ l, 0 < l ∧ l < 1 ∧ q = V3.add (V3.scale (1 - l) a) (V3.scale l b)

theorem InnerEdge.symm {a b q : V3} (h : InnerEdge a b q) : InnerEdge b a q := by
  obtain ⟨l, h0, h1, rfl⟩ := h
  exact ⟨1 - l, by linarith, by linarith, by ext <;> simp only [V3.add, V3.scale] <;> ring⟩

theorem frame_half {t : Tri} (F : Frame t) {q : V3} (hq : InnerEdge t.a t.b q) {x : V3} (hx : t.Mem x) : Half F.a F.b q x := by
  obtain ⟨l, -, -, rfl⟩ := hq
  obtain ⟨u, v, w, -, -, hw, hs, rfl⟩ := hx
  refine ⟨v * F.l + w * F.u - l * F.l, w * F.v, mul_nonneg hw F.hv.le, ?_⟩
  have e : V3.sub (V3.add (V3.add (V3.scale u t.a) (V3.scale v t.b)) (V3.scale w t.c)) (V3.add (V3.scale (1 - l) t.a) (V3.scale l t.b)) =
      V3.add (V3.scale (v - l) (V3.sub t.b t.a)) (V3.scale w (V3.sub t.c t.a)) := by
    have : u = 1 - v - w := by linarith
    ext <;> simp only [V3.sub, V3.add, V3.scale, this] <;> ring
  rw [e, F.hx, F.hy]
  ext <;> simp only [V3.add, V3.scale] <;> ring

theorem frame_inner {t : Tri} (F : Frame t) {q : V3} (hq : InnerEdge t.a t.b q) :
    ∃ s0, 0 < s0 ∧ ∀ s, 0 < s → s < s0 → InnerFace t (V3.add q (V3.scale s F.b)) := by
  obtain ⟨l, l0, l1, rfl⟩ := hq
  set κ := |F.u| / (F.v * F.l) + 1 / F.v with hκ
  have hvl : 0 < F.v * F.l := mul_pos F.hv F.hl
  have hκ0 : 0 < κ := by have := F.hv; positivity
  have hm : 0 < min l (1 - l) := lt_min l0 (by linarith)
  refine ⟨min l (1 - l) / κ, by positivity, fun s s0 s1 => ?_⟩
  rw [lt_div_iff₀ hκ0] at s1
  have h1 := s1.trans_le (min_le_left _ _)
  have h2 := s1.trans_le (min_le_right _ _)
  have hu : s * F.u / (F.v * F.l) ≤ s * |F.u| / (F.v * F.l) := by
    apply div_le_div_of_nonneg_right _ hvl.le
    exact mul_le_mul_of_nonneg_left (le_abs_self _) s0.le
  have hu' : -(s * |F.u| / (F.v * F.l)) ≤ s * F.u / (F.v * F.l) := by
    rw [← neg_div]
    apply div_le_div_of_nonneg_right _ hvl.le
    nlinarith [neg_abs_le F.u]
  have hκs : s * κ = s * |F.u| / (F.v * F.l) + s / F.v := by rw [hκ]; ring
  rw [hκs] at h1 h2
  have hsv : 0 < s / F.v := div_pos s0 F.hv
  refine ⟨1 - l + s * F.u / (F.v * F.l) - s / F.v, l - s * F.u / (F.v * F.l), s / F.v, by linarith, by linarith, hsv, by ring, ?_⟩
  have e : V3.add (V3.add (V3.scale (1 - l + s * F.u / (F.v * F.l) - s / F.v) t.a) (V3.scale (l - s * F.u / (F.v * F.l)) t.b)) (V3.scale (s / F.v) t.c) =
      V3.add (V3.add (V3.scale (1 - l) t.a) (V3.scale l t.b)) (V3.add (V3.scale (-(s * F.u / (F.v * F.l))) (V3.sub t.b t.a)) (V3.scale (s / F.v) (V3.sub t.c t.a))) := by
    ext <;> simp only [V3.sub, V3.add, V3.scale] <;> ring
  rw [e, F.hx, F.hy]
  have hv := F.hv.ne'
  have hl := F.hl.ne'
  ext <;> simp only [V3.add, V3.scale] <;> field_simp <;> ring

theorem mem_of_inner {t : Tri} {q : V3} (h : InnerFace t q) : t.Mem q := by
  obtain ⟨u, v, w, hu, hv, hw, hs, e⟩ := h
  exact ⟨u, v, w, hu.le, hv.le, hw.le, hs, e⟩

theorem unit_eq {a b : V3} {k l : ℝ} (ha : V3.dot a a = 1) (hb : V3.dot b b = 1) (hk : 0 < k) (hl : 0 < l) (h : V3.scale k a = V3.scale (-l) b) :
    a = V3.scale (-1) b := by
  have h1 : V3.dot (V3.scale k a) (V3.scale k a) = k ^ 2 * V3.dot a a := by simp only [V3.dot, V3.scale]; ring
  have h2 : V3.dot (V3.scale (-l) b) (V3.scale (-l) b) = l ^ 2 * V3.dot b b := by simp only [V3.dot, V3.scale]; ring
  rw [h, h2, ha, hb] at h1
  have hkl : k = l := by nlinarith
  subst hkl
  have hx := congrArg V3.x h
  have hy := congrArg V3.y h
  have hz := congrArg V3.z h
  simp only [V3.scale] at hx hy hz
  have key : ∀ a b : ℝ, k * a = -k * b → a = -1 * b := by
    intro a b h
    have : k * (a + b) = 0 := by linarith
    rcases mul_eq_zero.1 this with h0 | h0
    · exact absurd h0 hk.ne'
    · linarith
  ext <;> simp only [V3.scale]
  · exact key _ _ hx
  · exact key _ _ hy
  · exact key _ _ hz

theorem frame_edge {t : Tri} (F : Frame t) {q : V3} (hq : InnerEdge t.a t.b q) :
    ∃ s0, 0 < s0 ∧ ∀ x, |x| < s0 → t.Mem (V3.add q (V3.scale x F.a)) := by
  obtain ⟨l, l0, l1, rfl⟩ := hq
  refine ⟨min l (1 - l) * F.l, mul_pos (lt_min l0 (by linarith)) F.hl, fun x hx => ?_⟩
  have hx' : |x / F.l| < min l (1 - l) := by rw [abs_div, abs_of_pos F.hl, div_lt_iff₀ F.hl]; exact hx
  have g1 := abs_lt.1 (hx'.trans_le (min_le_left _ _))
  have g2 := abs_lt.1 (hx'.trans_le (min_le_right _ _))
  refine ⟨1 - l - x / F.l, l + x / F.l, 0, by linarith, by linarith, le_rfl, by ring, ?_⟩
  have e : V3.add (V3.add (V3.scale (1 - l - x / F.l) t.a) (V3.scale (l + x / F.l) t.b)) (V3.scale 0 t.c) =
      V3.add (V3.add (V3.scale (1 - l) t.a) (V3.scale l t.b)) (V3.scale (x / F.l) (V3.sub t.b t.a)) := by
    ext <;> simp only [V3.sub, V3.add, V3.scale] <;> ring
  rw [e, F.hx]
  have hl := F.hl.ne'
  ext <;> simp only [V3.add, V3.scale] <;> field_simp

/-- Two faces at an edge: a query whose closest point is inside the edge is on the side the sum of the normals tells, and on the side
the first normal tells if it is right above the first face. -/
theorem edge_side {M : V3 → Prop} {K : Set V3} (hS : Sep M K) {p q : V3} {t t' : Tri} (ht : t.NonDegenerate) (ht' : t'.NonDegenerate)
    (h1 : t'.a = t.b) (h2 : t'.b = t.a) (hB : Behind K t) (hB' : Behind K t') (hq : InnerEdge t.a t.b q) (hpq : 0 < V3.dist p q)
    (hmin : ∀ z, M z → V3.dist p q ≤ V3.dist p z) (hM : ∀ x, t.Mem x → M x) (hM' : ∀ x, t'.Mem x → M x) {ρ : ℝ} (hρ : 0 < ρ)
    (hloc : ∀ x, V3.dist x q < ρ → M x → t.Mem x ∨ t'.Mem x) :
    (V3.dot (unitNormal t) (V3.sub p q) + V3.dot (unitNormal t') (V3.sub p q) ≠ 0 ∧
      (V3.dot (unitNormal t) (V3.sub p q) + V3.dot (unitNormal t') (V3.sub p q) < 0 → p ∈ K) ∧
      (0 < V3.dot (unitNormal t) (V3.sub p q) + V3.dot (unitNormal t') (V3.sub p q) → p ∉ K)) ∧
    (V3.dot (V3.sub t.b t.a) (V3.sub p q) = 0 → V3.dot (V3.sub t.c t.a) (V3.sub p q) = 0 → 
      (V3.dot (unitNormal t) (V3.sub p q) < 0 → p ∈ K) ∧ (0 < V3.dot (unitNormal t) (V3.sub p q) → p ∉ K)) := by
  obtain ⟨F⟩ := ht.frame
  obtain ⟨F'⟩ := ht'.frame
  have hq' : InnerEdge t'.a t'.b q := by rw [h1, h2]; exact hq.symm
  have hae : F'.a = V3.scale (-1) F.a := by
    refine unit_eq F'.aa F.aa F'.hl F.hl ?_
    rw [← F'.hx, h1, h2]
    have := F.hx
    have hx := congrArg V3.x this
    have hy := congrArg V3.y this
    have hz := congrArg V3.z this
    simp only [V3.sub, V3.scale] at hx hy hz
    ext <;> simp only [V3.sub, V3.scale] <;> linarith
  have hn := frame_normal F
  have hn' : unitNormal t' = V3.cross F'.b F.a := by
    rw [frame_normal F', hae]
    ext <;> simp only [V3.cross, V3.scale] <;> ring
  have hn'' : unitNormal t' = V3.cross (V3.scale (-1) F.a) F'.b := by rw [frame_normal F', hae]
  have eu' : V3.dot F.a F'.b = 0 := by
    have := F'.ab
    rw [hae] at this
    simp only [V3.dot, V3.scale] at this ⊢
    linarith
  set d := V3.sub p q with hd
  obtain ⟨s0, hs0, hin⟩ := frame_inner F hq
  obtain ⟨s0', hs0', hin'⟩ := frame_inner F' hq'
  have ud : V3.dot F.b d ≤ 0 := obtuse hmin hs0 fun x x0 x1 => hM _ (mem_of_inner (hin x x0 x1))
  have ud' : V3.dot F'.b d ≤ 0 := obtuse hmin hs0' fun x x0 x1 => hM' _ (mem_of_inner (hin' x x0 x1))
  have hd0 : d ≠ ⟨0, 0, 0⟩ := by
    intro e
    have : V3.dist p q = 0 := by
      show V3.norm d = 0
      rw [e]; simp [V3.norm]
    linarith
  have ed : V3.dot F.a d = 0 := by
    obtain ⟨r0, hr0, hr⟩ := frame_edge F hq
    have k1 : V3.dot F.a d ≤ 0 := obtuse hmin hr0 fun x x0 x1 => hM _ (hr x (by rw [abs_of_pos x0]; exact x1))
    have k2 : V3.dot (V3.scale (-1) F.a) d ≤ 0 := obtuse hmin hr0 fun x x0 x1 => by
      have := hM _ (hr (-x) (by rw [abs_neg, abs_of_pos x0]; exact x1))
      have e : V3.scale (-x) F.a = V3.scale x (V3.scale (-1) F.a) := by ext <;> simp only [V3.scale] <;> ring
      rw [← e]; exact this
    have : V3.dot (V3.scale (-1) F.a) d = -V3.dot F.a d := by simp only [V3.dot, V3.scale]; ring
    linarith
  have hfold : F.b ≠ F'.b := by
    intro e
    set s := min s0 s0' / 2 with hs
    have hm : 0 < min s0 s0' := lt_min hs0 hs0'
    have i1 := hin s (by linarith) (by have := min_le_left s0 s0'; linarith)
    have i2 := hin' s (by linarith) (by have := min_le_right s0 s0'; linarith)
    rw [← e] at i2
    obtain ⟨ε, hε, k⟩ := hB _ i1
    obtain ⟨ε', hε', k'⟩ := hB' _ i2
    set x := V3.add q (V3.scale s F.b)
    set δ := min ε ε' / 2
    have hδ : 0 < min ε ε' := lt_min hε hε'
    have hsub : V3.sub (V3.add x (V3.scale δ (unitNormal t))) x = V3.scale δ (unitNormal t) := by
      ext <;> simp only [V3.sub, V3.add, V3.scale] <;> ring
    have hun : V3.norm (unitNormal t) = 1 := V3.norm_unit ht
    have hnn : V3.dot (unitNormal t) (unitNormal t) = 1 := by
      have := V3.norm_sq (unitNormal t)
      rw [hun] at this
      unfold V3.dot; linarith
    have hdd : V3.dist (V3.add x (V3.scale δ (unitNormal t))) x = δ := by
      unfold V3.dist
      rw [hsub, V3.norm_scale, hun, abs_of_pos (by positivity), mul_one]
    have hneg : unitNormal t' = V3.scale (-1) (unitNormal t) := by
      rw [hn', hn, ← e]; ext <;> simp only [V3.cross, V3.scale] <;> ring
    have j1 := (k (V3.add x (V3.scale δ (unitNormal t))) (by rw [hdd]; have := min_le_left ε ε'; simp only [δ]; linarith)).2 (by
      rw [hsub]
      have : V3.dot (unitNormal t) (V3.scale δ (unitNormal t)) = δ * V3.dot (unitNormal t) (unitNormal t) := by
        simp only [V3.dot, V3.scale]; ring
      rw [this, hnn]; positivity)
    refine j1 ((k' (V3.add x (V3.scale δ (unitNormal t))) (by rw [hdd]; have := min_le_right ε ε'; simp only [δ]; linarith)).1 ?_)
    rw [hsub, hneg]
    have : V3.dot (V3.scale (-1) (unitNormal t)) (V3.scale δ (unitNormal t)) = -(δ * V3.dot (unitNormal t) (unitNormal t)) := by
      simp only [V3.dot, V3.scale]; ring
    rw [this, hnn]
    have : 0 < δ := by positivity
    linarith
  have hloc1 : ∀ x, V3.dist x q < ρ → M x → Half F.a F.b q x ∨ Half F.a F'.b q x := by
    intro x hx hm
    rcases hloc x hx hm with h | h
    · exact .inl (frame_half F hq h)
    · obtain ⟨r, s, hs, e⟩ := frame_half F' hq' h
      refine .inr ⟨-r, s, hs, ?_⟩
      rw [e, hae]; ext <;> simp only [V3.add, V3.scale] <;> ring
  have hloc2 : ∀ x, V3.dist x q < ρ → M x → Half (V3.scale (-1) F.a) F'.b q x ∨ Half (V3.scale (-1) F.a) F.b q x := by
    intro x hx hm
    rcases hloc1 x hx hm with ⟨r, s, hs, e⟩ | ⟨r, s, hs, e⟩
    · exact .inr ⟨-r, s, hs, by rw [e]; ext <;> simp only [V3.add, V3.scale] <;> ring⟩
    · exact .inl ⟨-r, s, hs, by rw [e]; ext <;> simp only [V3.add, V3.scale] <;> ring⟩
  have hsum : V3.dot (unitNormal t) d + V3.dot (unitNormal t') d ≠ 0 := by
    rw [hn, hn']
    exact sum_ne F.aa F.bb F'.bb F.ab eu' ed ud ud' hfold hd0
  have hout : ∀ s, 0 < s → s < s0 → ∃ ε, 0 < ε ∧ ∀ x, V3.dist x (V3.add q (V3.scale s F.b)) < ε →
      (V3.dot (V3.cross F.a F.b) (V3.sub x (V3.add q (V3.scale s F.b))) < 0 → x ∈ K) ∧
      (0 < V3.dot (V3.cross F.a F.b) (V3.sub x (V3.add q (V3.scale s F.b))) → x ∉ K) := by
    intro s a b
    rw [← hn]
    exact hB _ (hin s a b)
  have hout' : ∀ s, 0 < s → s < s0' → ∃ ε, 0 < ε ∧ ∀ x, V3.dist x (V3.add q (V3.scale s F'.b)) < ε →
      (V3.dot (V3.cross (V3.scale (-1) F.a) F'.b) (V3.sub x (V3.add q (V3.scale s F'.b))) < 0 → x ∈ K) ∧
      (0 < V3.dot (V3.cross (V3.scale (-1) F.a) F'.b) (V3.sub x (V3.add q (V3.scale s F'.b))) → x ∉ K) := by
    intro s a b
    rw [← hn'']
    exact hB' _ (hin' s a b)
  have neg1 : ∀ v, V3.dot (V3.scale (-1) F.a) v = -V3.dot F.a v := by intro v; simp only [V3.dot, V3.scale]; ring
  have hside1 : 0 < V3.dot (unitNormal t) d * (V3.dot (unitNormal t) d + V3.dot (unitNormal t') d) →
      (V3.dot (unitNormal t) d < 0 → p ∈ K) ∧ (0 < V3.dot (unitNormal t) d → p ∉ K) := by
    intro h
    have h0 : V3.dot (unitNormal t) d ≠ 0 := by rintro e; rw [e, zero_mul] at h; exact lt_irrefl _ h
    rw [hn] at h0 ⊢
    rw [hn, hn'] at h
    exact side hS hpq hmin F.aa F.bb F.ab eu' ed hρ hloc1 (fun x y hx hy => cone_free F'.bb ud ud' h F.bb hx hy) h0 hs0 hout
  have hside2 : 0 < V3.dot (unitNormal t') d * (V3.dot (unitNormal t') d + V3.dot (unitNormal t) d) →
      (V3.dot (unitNormal t') d < 0 → p ∈ K) ∧ (0 < V3.dot (unitNormal t') d → p ∉ K) := by
    intro h
    have h0 : V3.dot (unitNormal t') d ≠ 0 := by rintro e; rw [e, zero_mul] at h; exact lt_irrefl _ h
    have hnr : unitNormal t = V3.cross F.b (V3.scale (-1) F.a) := by
      rw [hn]; ext <;> simp only [V3.cross, V3.scale] <;> ring
    rw [hn''] at h0 ⊢
    rw [hn'', hnr] at h
    refine side hS hpq hmin ?_ F'.bb ?_ ?_ ?_ hρ hloc2 (fun x y hx hy => cone_free F.bb ud' ud h F'.bb hx hy) h0 hs0' hout'
    · have : V3.dot (V3.scale (-1) F.a) (V3.scale (-1) F.a) = V3.dot F.a F.a := by simp only [V3.dot, V3.scale]; ring
      rw [this, F.aa]
    · rw [neg1, eu', neg_zero]
    · rw [neg1, F.ab, neg_zero]
    · rw [neg1, ed, neg_zero]
  refine ⟨⟨hsum, ?_, ?_⟩, ?_⟩
  · intro h
    by_cases h1 : V3.dot (unitNormal t) d < 0
    · exact (hside1 (mul_pos_of_neg_of_neg h1 h)).1 h1
    · have h2 : V3.dot (unitNormal t') d < 0 := by linarith [not_lt.1 h1]
      exact (hside2 (mul_pos_of_neg_of_neg h2 (by linarith))).1 h2
  · intro h
    by_cases h1 : 0 < V3.dot (unitNormal t) d
    · exact (hside1 (mul_pos h1 h)).2 h1
    · have h2 : 0 < V3.dot (unitNormal t') d := by linarith [not_lt.1 h1]
      exact (hside2 (mul_pos h2 (by linarith))).2 h2
  · intro z1 z2
    by_cases h0 : V3.dot (unitNormal t) d = 0
    · rw [h0]; exact ⟨fun h => absurd h (lt_irrefl _), fun h => absurd h (lt_irrefl _)⟩
    have hcone : ∀ x y, 0 ≤ x → 0 < y → F'.b ≠ V3.add (V3.scale x F.b) (V3.scale y d) := by
      intro x y hx hy e
      have hbd : V3.dot F.b d = 0 := by
        rw [F.hy] at z2
        have : V3.dot (V3.add (V3.scale F.u F.a) (V3.scale F.v F.b)) d = F.u * V3.dot F.a d + F.v * V3.dot F.b d := by
          simp only [V3.dot, V3.add, V3.scale]; ring
        rw [this, ed, mul_zero, zero_add] at z2
        exact (mul_eq_zero.1 z2).resolve_left F.hv.ne'
      have h1 : V3.dot F'.b d = x * V3.dot F.b d + y * V3.dot d d := by
        rw [e]; simp only [V3.dot, V3.add, V3.scale]; ring
      have hdd : 0 < V3.dot d d := by
        have := V3.norm_pos hd0
        have h2 := V3.norm_sq d
        unfold V3.dot
        nlinarith
      rw [hbd] at h1
      nlinarith [mul_pos hy hdd]
    rw [hn] at h0 ⊢
    exact side hS hpq hmin F.aa F.bb F.ab eu' ed hρ hloc1 hcone h0 hs0 hout

/-! ### A mesh is a closed set -/

theorem tri_closed {t : Tri} {q : V3} (h : ¬ t.Mem q) : ∃ ρ, 0 < ρ ∧ ∀ x, V3.dist x q < ρ → ¬ t.Mem x := by
  let S : Set (ℝ × ℝ) := {z | 0 ≤ z.1 ∧ 0 ≤ z.2 ∧ z.1 + z.2 ≤ 1}
  let f : ℝ × ℝ → ℝ := fun z => V3.norm2 (V3.sub (V3.add (V3.add (V3.scale z.1 t.a) (V3.scale z.2 t.b)) (V3.scale (1 - z.1 - z.2) t.c)) q)
  have hS : IsCompact S := by
    refine IsCompact.of_isClosed_subset (isCompact_Icc (a := ((0 : ℝ), (0 : ℝ))) (b := ((1 : ℝ), (1 : ℝ)))) ?_ ?_
    · have h1 : IsClosed {z : ℝ × ℝ | 0 ≤ z.1} := isClosed_le continuous_const continuous_fst
      have h2 : IsClosed {z : ℝ × ℝ | 0 ≤ z.2} := isClosed_le continuous_const continuous_snd
      have h3 : IsClosed {z : ℝ × ℝ | z.1 + z.2 ≤ 1} := isClosed_le (continuous_fst.add continuous_snd) continuous_const
      exact h1.inter (h2.inter h3)
    · rintro ⟨x, y⟩ ⟨hx, hy, hs⟩
      simp only at hx hy hs
      exact ⟨⟨hx, hy⟩, ⟨by simp only; linarith, by simp only; linarith⟩⟩
  have hf : Continuous f := by
    simp only [f, V3.norm2, V3.sub, V3.add, V3.scale]
    fun_prop
  obtain ⟨z, hz, hmin⟩ := hS.exists_isMinOn ⟨(0, 0), by simp [S]⟩ hf.continuousOn
  have hpos : 0 < f z := by
    have h0 : 0 ≤ f z := by
      simp only [f]; rw [V3.norm2_eq_dist]; positivity
    rcases h0.lt_or_eq with h1 | h1
    · exact h1
    · exfalso
      apply h
      refine ⟨z.1, z.2, 1 - z.1 - z.2, hz.1, hz.2.1, by linarith [hz.2.2], by ring, ?_⟩
      simp only [f] at h1
      rw [V3.norm2_eq_dist] at h1
      have := pow_eq_zero_iff (two_ne_zero) |>.1 h1.symm
      exact (V3.dist_eq_zero.1 this).symm
  refine ⟨Real.sqrt (f z), Real.sqrt_pos.2 hpos, ?_⟩
  rintro x hx ⟨u, v, w, hu, hv, hw, hs, rfl⟩
  have hw' : w = 1 - u - v := by linarith
  subst hw'
  have h1 : f z ≤ f (u, v) := hmin (show (u, v) ∈ S from ⟨hu, hv, by simp only; linarith⟩)
  have h2 : f (u, v) = V3.dist (V3.add (V3.add (V3.scale u t.a) (V3.scale v t.b)) (V3.scale (1 - u - v) t.c)) q ^ 2 := by
    simp only [f]; rw [V3.norm2_eq_dist]
  rw [h2] at h1
  have := Real.sqrt_le_sqrt h1
  rw [Real.sqrt_sq (show 0 ≤ V3.dist _ q from V3.norm_nonneg _)] at this
  linarith

theorem mesh_local (mesh : List Tri) (q : V3) : ∃ ρ, 0 < ρ ∧ ∀ x, V3.dist x q < ρ → ∀ t ∈ mesh, t.Mem x → t.Mem q := by
  induction mesh with
  | nil => exact ⟨1, one_pos, by simp⟩
  | cons t rest ih =>
    obtain ⟨ρ, hρ, h⟩ := ih
    by_cases ht : t.Mem q
    · refine ⟨ρ, hρ, fun x hx s hs hm => ?_⟩
      rcases List.mem_cons.1 hs with rfl | hs
      · exact ht
      · exact h x hx s hs hm
    · obtain ⟨r, hr, h'⟩ := tri_closed ht
      refine ⟨min ρ r, lt_min hρ hr, fun x hx s hs hm => ?_⟩
      rcases List.mem_cons.1 hs with rfl | hs
      · exact absurd hm (h' x (hx.trans_le (min_le_right _ _)))
      · exact h x (hx.trans_le (min_le_left _ _)) s hs hm

end Edge
end Sdf
