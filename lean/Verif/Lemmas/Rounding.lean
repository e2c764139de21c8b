import Verif.Lemmas.GraphPolygon
import Verif.Props.C32Calls

/-!
Polygons with several smoothed vertices, one after the other.
-/

namespace Sdf
open Polygon Must2

/-- One round of smoothing: the first smoothed vertex is replaced by its fillet, and so many points take its place that the other
ones are not reached in the same round. -/
theorem smooth_step (b : Builder) (A B : List PV) (pv nv : PV) (x : V2) (r : ℝ) (f : ℤ) (pts : List PV)
    (hl : b.vlist = A ++ pv :: ⟨false, .smooth, x, f, r⟩ :: nv :: B) (hf : 0 ≤ f)
    (hA : ∀ v ∈ A, v.vtype = .normal) (hpv : pv.vtype = .normal)
    (hp : smoothPoints pv.vertex x nv.vertex r f = some pts) (hB : B.length + 1 < pts.length) (fuel : ℕ) :
    passes Builder.smoothVertex (fuel + 1) b = passes Builder.smoothVertex fuel ⟨b.closed, b.reverse, b.isNil, A ++ pv :: (pts ++ nv :: B)⟩ := by
  set b' : Builder := ⟨b.closed, b.reverse, b.isNil, A ++ pv :: (pts ++ nv :: B)⟩ with hb'
  have hpts := (smoothPoints_normal hp).1
  have h2 : b.smoothVertex (A.length + 1) = some (b', true) := by
    unfold Builder.smoothVertex
    have e1 : b.vlist[A.length + 1]? = some ⟨false, .smooth, x, f, r⟩ := by rw [hl]; simp
    have e2 : b.prevVertex (A.length + 1) = some pv := by
      rw [Builder.prevVertex, if_neg (by omega), hl]; simp
    have e3 : b.nextVertex (A.length + 1) = some nv := by
      rw [Builder.nextVertex, if_neg (by rw [hl]; simp; omega), hl]
      rw [List.getElem?_append_right (by omega), show A.length + 1 + 1 - A.length = 2 by omega]
      rfl
    rw [e1]
    simp only [e2, e3]
    rw [if_neg (by simp), hp]
    simp only
    rw [if_neg (by omega)]
    simp only [hb', Option.some.injEq, Prod.mk.injEq, and_true]
    congr 1
    rw [hl]
    rw [List.take_append, List.drop_append, List.take_of_length_le (show A.length ≤ A.length + 1 by omega),
      List.drop_of_length_le (show A.length ≤ A.length + 1 + 1 by omega), show A.length + 1 + 1 - A.length = 2 by omega]
    simp
  have hlen : b.vlist.length = A.length + 3 + B.length := by rw [hl]; simp; omega
  have hlen' : b'.vlist.length = A.length + 2 + pts.length + B.length := by simp [hb']; omega
  have hrange : List.range b.vlist.length =
      List.range (A.length + 1) ++ (A.length + 1) :: (List.range (B.length + 1)).map fun k => A.length + 2 + k := by
    rw [hlen, show A.length + 3 + B.length = (A.length + 1) + (1 + (B.length + 1)) by omega, List.range_add, Nat.add_comm 1 (B.length + 1),
      List.range_succ_eq_map (n := B.length + 1), List.map_cons, List.map_map]
    congr 2
    apply List.map_congr_left
    intro k _
    simp only [Function.comp]
    omega
  have hpass : pass Builder.smoothVertex (List.range b.vlist.length) b = some (b', true) := by
    rw [hrange]
    refine pass_append _ _ _ b b b' false true (pass_idle _ b _ fun j hj => ?_) ?_
    · rw [List.mem_range] at hj
      refine smoothVertex_idle b j (by omega) fun v hv => ?_
      rw [hl] at hv
      rcases Nat.lt_or_ge j A.length with h | h
      · rw [List.getElem?_append_left h] at hv
        rw [hA v (List.mem_of_getElem? hv)]; simp
      · rw [show j = A.length by omega] at hv
        simp at hv
        rw [← hv, hpv]; simp
    · rw [pass, h2]
      simp only
      rw [pass_idle Builder.smoothVertex b']
      · rfl
      · intro j hj
        rw [List.mem_map] at hj
        obtain ⟨k, hk, rfl⟩ := hj
        rw [List.mem_range] at hk
        refine smoothVertex_idle b' _ (by omega) fun v hv => ?_
        simp only [hb'] at hv
        rw [List.getElem?_append_right (by omega), show A.length + 2 + k - A.length = (k + 1) + 1 by omega, List.getElem?_cons_succ,
          List.getElem?_append_left (by omega)] at hv
        rw [(hpts v (List.mem_of_getElem? hv)).2]; simp
  rw [passes, hpass]

/-- Without relative vertices and arcs, smoothing is all there is to do. -/
theorem vertices_smooth (b b' : Builder) (hn : b.isNil = false) (hrev' : b'.reverse = false)
    (hv : ∀ v ∈ b.vlist, v.relative = false ∧ v.vtype ≠ .arc) (fuel : ℕ) (h : passes Builder.smoothVertex (fuel + 1) b = .ok b') :
    b.vertices (fuel + 1) = .ok (b'.vlist.map PV.vertex, b') := by
  have : b.fixups (fuel + 1) = .ok b' := by
    unfold Builder.fixups Builder.relToAbs
    rw [relToAbsFrom_absolute b (fun v h => (hv v h).1) _ 0 (by omega)]
    simp only
    rw [passes_idle _ b (fun j hj => arcVertex_idle b j hj (fun v h => (hv v (List.mem_of_getElem? h)).2))]
    simp only
    exact h
  unfold Builder.vertices
  rw [hn, if_neg (by simp), this]
  simp [hrev']

theorem dist_of_sq {u v : V2} {d : ℝ} (hd : 0 ≤ d) (h : (u.x - v.x) * (u.x - v.x) + (u.y - v.y) * (u.y - v.y) = d * d) : V2.dist u v = d := by
  have e : V2.dist u v * V2.dist u v = _ := V2.norm_sq _
  simp only [V2.sub] at e
  rw [h] at e
  exact (mul_self_inj_of_nonneg (V2.dist_nonneg _ _) hd).mp e

theorem onSegment_dist {x v q : V2} {d : ℝ} (h : OnSegment x v q) (hd : V2.dist q x = d) (hv : 0 < V2.dist v x) :
    q = V2.add x (V2.scale (d / V2.dist v x) (V2.sub v x)) := by
  obtain ⟨t, t0, t1, rfl⟩ := h
  have : V2.dist (V2.add x (V2.scale t (V2.sub v x))) x = t * V2.dist v x := by
    refine dist_of_sq (by positivity) ?_
    have e : V2.dist v x * V2.dist v x = _ := V2.norm_sq _
    simp only [V2.sub] at e
    simp only [V2.add, V2.scale, V2.sub]
    linear_combination -(t * t) * e
  rw [← hd, this, mul_div_cancel_right₀ _ hv.ne']

/-- Rounding one corner of a polygon: where the fillet begins and ends, and that nothing changes outside the triangle between
these points and the corner. -/
theorem round_corner (A B : List V2) (vp x vn : V2) (r dp dn d : ℝ) (f : ℤ) (hr : 0 < r) (hf : 1 ≤ f)
    (hdp : V2.dist vp x = dp) (hdn : V2.dist vn x = dn) (hdp0 : 0 < dp) (hdn0 : 0 < dn)
    (hnd : V2.cross (V2.sub vp x) (V2.sub vn x) ≠ 0)
    (hd : d * |V2.cross (V2.sub vp x) (V2.sub vn x)| = r * (dp * dn + V2.dot (V2.sub vp x) (V2.sub vn x)))
    (hdp1 : d < dp) (hdn1 : d < dn)
    (hv : Proper (A ++ vp :: x :: vn :: B)) (s : SDF2) (hs : Must2.polygon (A ++ vp :: x :: vn :: B) = some s) :
    ∃ pts s' mid, smoothPoints vp x vn r f = some pts ∧ pts.length = (f + 1).toNat ∧
      Proper (A ++ vp :: (pts.map PV.vertex ++ vn :: B)) ∧
      Must2.polygon (A ++ vp :: (pts.map PV.vertex ++ vn :: B)) = some s' ∧
      pts.map PV.vertex = V2.add x (V2.scale (d / dp) (V2.sub vp x)) :: mid ++ [V2.add x (V2.scale (d / dn) (V2.sub vn x))] ∧
      ∀ p, ¬ (∃ α β, 0 ≤ α ∧ 0 ≤ β ∧ α + β ≤ 1 ∧ p.x = x.x + (α * (d / dp) * (vp.x - x.x) + β * (d / dn) * (vn.x - x.x)) ∧
          p.y = x.y + (α * (d / dp) * (vp.y - x.y) + β * (d / dn) * (vn.y - x.y))) →
        (s'.eval p < 0 ↔ s.eval p < 0) ∧ (s'.eval p = 0 ↔ s.eval p = 0) := by
  have hc : 0 < |V2.cross (V2.sub vp x) (V2.sub vn x)| := abs_pos.mpr hnd
  obtain ⟨pts, h1, h2⟩ := C32_smooth_proper A B vp x vn r f hr hf hnd (by
    rw [hdp, hdn, ← hd, mul_comm]
    exact mul_lt_mul_of_pos_left (lt_min hdp1 hdn1) hc) hv
  obtain ⟨s', hs'⟩ : ∃ s', Must2.polygon (A ++ vp :: (pts.map PV.vertex ++ vn :: B)) = some s' := by
    have := h2.1
    match A ++ vp :: (pts.map PV.vertex ++ vn :: B), this with
    | a :: b :: c :: l, _ => exact ⟨_, rfl⟩
  obtain ⟨P, Q, d', hP, hQ, hdP, hdQ, hd', ⟨mid, hmid⟩, hall⟩ := C32_smooth_local A B vp x vn r f hr hf hnd pts h1 s s' hv hs h2 hs'
  have hdd : d' = d := by
    rw [hdp, hdn, ← hd] at hd'
    exact mul_right_cancel₀ hc.ne' hd'
  subst hdd
  have eP := onSegment_dist hP hdP (by rw [hdp]; exact hdp0)
  have eQ := onSegment_dist hQ hdQ (by rw [hdn]; exact hdn0)
  rw [hdp] at eP
  rw [hdn] at eQ
  refine ⟨pts, s', mid, h1, (smoothPoints_normal h1).2, h2, hs', by rw [hmid, eP, eQ], fun p hp => hall p ?_⟩
  rintro ⟨α, β, a0, b0, ab, e⟩
  refine hp ⟨α, β, a0, b0, ab, ?_, ?_⟩
  · rw [e, eP, eQ]; simp only [V2.add, V2.scale, V2.sub]; ring
  · rw [e, eP, eQ]; simp only [V2.add, V2.scale, V2.sub]; ring

end Sdf
