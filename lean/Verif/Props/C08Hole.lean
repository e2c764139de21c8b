import Verif.Props.C09
import Verif.Props.C08
import Verif.Lemmas.OctreeTerm
import Mathlib.NumberTheory.Real.Irrational

/-!
C08: the mesh of a solid whose surface passes exactly through corners of the grid can have a hole.
-/

namespace Sdf.Octree

open Classical MC

/-- A capsule: the points within √3 of the segment from (1, 1, -1) to (1, 1, 1), in a box that contains it. -/
noncomputable def capsule : SDF3 where
  eval p := V3.dist p ⟨1, 1, max (-1) (min 1 p.z)⟩ - Real.sqrt 3
  bounds := ⟨⟨-4 / 1.01, -4 / 1.01, -4 / 1.01⟩, ⟨4 / 1.01, 4 / 1.01, 4 / 1.01⟩⟩

theorem capsule_near (p : V3) (w : ℝ) (h0 : -1 ≤ w) (h1 : w ≤ 1) : V3.dist p ⟨1, 1, max (-1) (min 1 p.z)⟩ ≤ V3.dist p ⟨1, 1, w⟩ := by
  unfold V3.dist V3.norm
  apply Real.sqrt_le_sqrt
  simp only [V3.sub]
  have : (p.z - max (-1) (min 1 p.z)) * (p.z - max (-1) (min 1 p.z)) ≤ (p.z - w) * (p.z - w) := by
    rcases le_total 1 p.z with h | h
    · rw [min_eq_left h, max_eq_right (by norm_num)]; nlinarith
    · rw [min_eq_right h]
      rcases le_total (-1) p.z with h' | h'
      · rw [max_eq_right h']; nlinarith [mul_self_nonneg (p.z - w)]
      · rw [max_eq_left h']; nlinarith
  linarith

theorem capsule_lip : Lip3 capsule.eval := by
  have key : ∀ p q : V3, capsule.eval p - capsule.eval q ≤ V3.dist p q := by
    intro p q
    have h := capsule_near p (max (-1) (min 1 q.z)) (le_max_left _ _) (max_le (by norm_num) (min_le_left _ _))
    have h' := V3.dist_triangle p q ⟨1, 1, max (-1) (min 1 q.z)⟩
    simp only [capsule]
    linarith
  intro p q
  rw [abs_le]
  have := key q p
  rw [V3.dist_comm] at this
  exact ⟨by linarith, key p q⟩

theorem capsule_solid : capsule.bounds.Solid := by simp only [capsule, Box3.Solid]; norm_num

theorem capsule_bounded : capsule.Bounded := by
  intro p hp
  simp only [capsule] at hp
  have h3 : Real.sqrt 3 < 2 := by rw [Real.sqrt_lt' (by norm_num)]; norm_num
  have hd : V3.dist p ⟨1, 1, max (-1) (min 1 p.z)⟩ < 2 := by linarith
  have hx := abs_le.mp (V3.abs_x_le (V3.sub p ⟨1, 1, max (-1) (min 1 p.z)⟩))
  have hy := abs_le.mp (V3.abs_y_le (V3.sub p ⟨1, 1, max (-1) (min 1 p.z)⟩))
  have hz := abs_le.mp (V3.abs_z_le (V3.sub p ⟨1, 1, max (-1) (min 1 p.z)⟩))
  have m1 : -1 ≤ max (-1) (min 1 p.z) := le_max_left _ _
  have m2 : max (-1) (min 1 p.z) ≤ 1 := max_le (by norm_num) (min_le_left _ _)
  unfold V3.dist at hd
  simp only [V3.sub] at hx hy hz hd
  simp only [capsule, Box3.Contains]
  have h4 : (3.9 : ℝ) < 4 / 1.01 := by norm_num
  have h5 : (-4 : ℝ) / 1.01 = -(4 / 1.01) := by ring
  rw [h5]
  norm_num at h4 ⊢
  refine ⟨?_, ?_, ?_, ?_, ?_, ?_⟩ <;> linarith [hx.1, hx.2, hy.1, hy.2, hz.1, hz.2]

/-- The value at a point, as the difference of two roots. -/
theorem capsule_eval (x y z w : ℝ) (h : max (-1) (min 1 z) = w) :
    capsule.eval ⟨x, y, z⟩ = Real.sqrt ((x - 1) * (x - 1) + (y - 1) * (y - 1) + (z - w) * (z - w)) - Real.sqrt 3 := by
  simp only [capsule, h]
  rfl

/-- The grid of the renderer with four cells: the vertices have integer coordinates from -4 to 4 and the cells have edge 2. -/
theorem capsule_grid {oc : State} (h0 : Initial capsule 4 oc) :
    oc.dc.s = capsule ∧ oc.dc.resolution = 1 ∧ oc.dc.levels = 4 ∧ ∀ v : V3i, oc.dc.pos v = ⟨v.x - 4, v.y - 4, v.z - 4⟩ := by
  have f := initial_facts capsule_solid h0
  have hr : oc.dc.resolution = 1 := by
    rw [f.res, longAxis_eq]; simp only [capsule]; norm_num
  have ho : oc.dc.origin = ⟨-4, -4, -4⟩ := by
    rw [f.origin, scaled_lo]; simp only [capsule]; ext <;> norm_num
  refine ⟨f.dc_s, hr, ?_, ?_⟩
  · rw [f.levels]
    unfold depth
    have : Real.logb 2 (2 * ((4 : ℤ) : ℝ)) = ((3 : ℕ) : ℝ) := by
      rw [show (2 * ((4 : ℤ) : ℝ)) = (2 : ℝ) ^ (3 : ℝ) by norm_num]
      rw [Real.logb_rpow (by norm_num) (by norm_num)]
      norm_num
    rw [this, Nat.ceil_natCast]
  · intro v
    simp only [Dc3.pos, hr, ho, V3.add, V3.scale, V3i.toV3]
    ext <;> ring

/-- A cell that the renderer keeps was not skipped. -/
theorem leaves_kept (dc : Dc3) : ∀ (n : Nat) (o : V3i) (c : Cube), c ∈ leaves dc (n + 2) o → ¬ Skipped dc c
  | 0, o, c, h => by
    simp only [leaves, List.mem_flatMap, List.mem_filter, decide_eq_true_eq, List.mem_singleton] at h
    obtain ⟨x, ⟨hx, hs⟩, rfl⟩ := h
    have : x = ⟨x.o, 1⟩ := by
      have := (mem_subCubes.mp hx).1
      obtain ⟨xo, xn⟩ := x
      simp only at this
      rw [this]
    rwa [← this]
  | n + 1, o, c, h => by
    rw [leaves] at h
    simp only [List.mem_flatMap] at h
    obtain ⟨x, -, hx⟩ := h
    exact leaves_kept dc n x.o c hx

/-- Every corner of a triangle of a cell lies in the cell. -/
theorem vertex_in_cell {oc : State} (h0 : Initial capsule 4 oc) (deg : Tri → Bool) (c : Cube) (t : Tri) (ht : t ∈ leafTris deg oc.dc c)
    (w : V3) (hw : w = t.a ∨ w = t.b ∨ w = t.c) :
    (c.o.x : ℝ) ≤ w.x + 4 ∧ w.x + 4 ≤ c.o.x + 2 ∧ (c.o.y : ℝ) ≤ w.y + 4 ∧ w.y + 4 ≤ c.o.y + 2
    ∧ (c.o.z : ℝ) ≤ w.z + 4 ∧ w.z + 4 ≤ c.o.z + 2 := by
  obtain ⟨-, -, -, hp⟩ := capsule_grid h0
  obtain ⟨a1, a2, a3⟩ := C09_vertices_on_crossing_edges deg 5 _ _ _ (leafTris deg oc.dc c) (by rfl) t ht
  have key : OnCrossingEdge (fun i => oc.dc.pos (leafCorners c i)) (fun i => oc.dc.value (leafCorners c i)) 0 w := by
    rcases hw with rfl | rfl | rfl
    · exact a1
    · exact a2
    · exact a3
  obtain ⟨a, b, -, -, -, u, hu0, hu1, rfl⟩ := key
  have hc : ∀ q, (c.o.x : ℝ) ≤ (oc.dc.pos (leafCorners c q)).x + 4 ∧ (oc.dc.pos (leafCorners c q)).x + 4 ≤ c.o.x + 2
      ∧ (c.o.y : ℝ) ≤ (oc.dc.pos (leafCorners c q)).y + 4 ∧ (oc.dc.pos (leafCorners c q)).y + 4 ≤ c.o.y + 2
      ∧ (c.o.z : ℝ) ≤ (oc.dc.pos (leafCorners c q)).z + 4 ∧ (oc.dc.pos (leafCorners c q)).z + 4 ≤ c.o.z + 2 := by
    intro q
    rw [hp]
    fin_cases q <;> simp [leafCorners, V3i.add]
  have ha := hc a
  have hb := hc b
  simp only [V3.add, V3.scale, V3.sub]
  refine ⟨?_, ?_, ?_, ?_, ?_, ?_⟩ <;> nlinarith [ha.1, ha.2.1, ha.2.2.1, ha.2.2.2.1, ha.2.2.2.2.1, ha.2.2.2.2.2,
    hb.1, hb.2.1, hb.2.2.1, hb.2.2.2.1, hb.2.2.2.2.1, hb.2.2.2.2.2]

/-- The cell at whose centre the upper end of the segment lies is skipped: its centre is at a depth of exactly half its diagonal. -/
theorem skipped_cap {oc : State} (h0 : Initial capsule 4 oc) : Skipped oc.dc ⟨⟨4, 4, 4⟩, 1⟩ := by
  obtain ⟨hs, hr, -, hp⟩ := capsule_grid h0
  unfold Skipped Dc3.value Dc3.hdiag
  rw [hs, hp, hr, capsule_eval _ _ _ 1 (by norm_num)]
  norm_num
  rw [show (12 : ℝ) = 2 ^ 2 * 3 by norm_num, Real.sqrt_mul (by norm_num), Real.sqrt_sq (by norm_num), abs_of_nonneg (Real.sqrt_nonneg _)]
  linarith

/-- No vertex of the grid with an odd offset above the segment lies inside. -/
theorem above_nonneg {oc : State} (h0 : Initial capsule 4 oc) (v : V3i) (hx : v.x = 4 ∨ v.x = 6 ∨ v.x = 8) (hy : v.y = 4 ∨ v.y = 6)
    (hz : v.z = 6 ∨ v.z = 8) : 0 ≤ oc.dc.value v := by
  obtain ⟨hs, -, -, hp⟩ := capsule_grid h0
  unfold Dc3.value
  have hw : max (-1 : ℝ) (min 1 ((v.z : ℝ) - 4)) = 1 := by
    rcases hz with h | h <;> rw [h] <;> norm_num
  rw [hs, hp, capsule_eval _ _ _ 1 hw]
  have : Real.sqrt 3 ≤ Real.sqrt (((v.x : ℝ) - 4 - 1) * ((v.x : ℝ) - 4 - 1) + ((v.y : ℝ) - 4 - 1) * ((v.y : ℝ) - 4 - 1)
      + ((v.z : ℝ) - 4 - 1) * ((v.z : ℝ) - 4 - 1)) := by
    apply Real.sqrt_le_sqrt
    rcases hx with h | h | h <;> rcases hy with h' | h' <;> rcases hz with h'' | h'' <;> rw [h, h', h''] <;> norm_num
  linarith

/-- The values at the corners of the cell beside the skipped one. -/
theorem beside_values {oc : State} (h0 : Initial capsule 4 oc) :
    oc.dc.value ⟨6, 4, 4⟩ = Real.sqrt 2 - Real.sqrt 3 ∧ oc.dc.value ⟨6, 6, 4⟩ = Real.sqrt 2 - Real.sqrt 3
    ∧ oc.dc.value ⟨6, 4, 6⟩ = 0 ∧ oc.dc.value ⟨6, 6, 6⟩ = 0
    ∧ 0 < oc.dc.value ⟨8, 4, 4⟩ ∧ 0 < oc.dc.value ⟨8, 6, 4⟩ := by
  obtain ⟨hs, -, -, hp⟩ := capsule_grid h0
  unfold Dc3.value
  rw [hs]
  simp only [hp]
  have h3 : Real.sqrt 3 < Real.sqrt 10 := Real.sqrt_lt_sqrt (by norm_num) (by norm_num)
  refine ⟨?_, ?_, ?_, ?_, ?_, ?_⟩
  · rw [capsule_eval _ _ _ 0 (by norm_num)]; norm_num
  · rw [capsule_eval _ _ _ 0 (by norm_num)]; norm_num
  · rw [capsule_eval _ _ _ 1 (by norm_num)]; norm_num
  · rw [capsule_eval _ _ _ 1 (by norm_num)]; norm_num
  · rw [capsule_eval _ _ _ 0 (by norm_num)]; norm_num
  · rw [capsule_eval _ _ _ 0 (by norm_num)]; norm_num

/-- The two triangles of the cell beside the skipped one: `p` and `q` lie on its lower face. -/
theorem beside_tris {oc : State} (h0 : Initial capsule 4 oc) : ∃ p q : V3, p.z = 0 ∧ q.z = 0 ∧
    rawTriangles (fun i => oc.dc.pos (leafCorners ⟨⟨6, 4, 4⟩, 1⟩ i)) (fun i => oc.dc.value (leafCorners ⟨⟨6, 4, 4⟩, 1⟩ i)) 0
      = [⟨q, ⟨2, 2, 2⟩, p⟩, ⟨p, ⟨2, 2, 2⟩, ⟨2, 0, 2⟩⟩] := by
  obtain ⟨-, -, -, hp⟩ := capsule_grid h0
  obtain ⟨v0, v3, v4, v7, v1, v2⟩ := beside_values h0
  have v5 := above_nonneg h0 ⟨8, 4, 6⟩ (by simp) (by simp) (by simp)
  have v6 := above_nonneg h0 ⟨8, 6, 6⟩ (by simp) (by simp) (by simp)
  have h23 : Real.sqrt 2 - Real.sqrt 3 < -1e-12 := by
    have h2 : Real.sqrt 2 < 1.5 := by rw [Real.sqrt_lt' (by norm_num)]; norm_num
    have h3 : (1.7 : ℝ) < Real.sqrt 3 := by rw [Real.lt_sqrt (by norm_num)]; norm_num
    norm_num at h2 h3 ⊢
    linarith
  set v := fun i => oc.dc.value (leafCorners ⟨⟨6, 4, 4⟩, 1⟩ i) with hv
  set P := fun i => oc.dc.pos (leafCorners ⟨⟨6, 4, 4⟩, 1⟩ i) with hP
  have e0 : v 0 = Real.sqrt 2 - Real.sqrt 3 := v0
  have e1 : 0 < v 1 := v1
  have e2 : 0 < v 2 := v2
  have e3 : v 3 = Real.sqrt 2 - Real.sqrt 3 := v3
  have e4 : v 4 = 0 := v4
  have e5 : 0 ≤ v 5 := v5
  have e6 : 0 ≤ v 6 := v6
  have e7 : v 7 = 0 := v7
  have hn0 : v 0 < 0 := by rw [e0]; linarith [h23, show (-1e-12 : ℝ) < 0 by norm_num]
  have hn3 : v 3 < 0 := by rw [e3]; linarith [h23, show (-1e-12 : ℝ) < 0 by norm_num]
  have hneg : neg v 0 = ![true, false, false, true, false, false, false, false] := by
    funext i
    fin_cases i <;> simp only [neg] <;> simp <;> first | assumption | linarith
  rw [rawTriangles_eq, hneg]
  have hrow : triples (triangleTable.getD (bitsToNat ![true, false, false, true, false, false, false, false]) [])
      = [(0, 11, 2), (8, 11, 0)] := by decide +kernel
  rw [hrow]
  refine ⟨ptsAll P v 0 0, ptsAll P v 0 2, ?_, ?_, ?_⟩
  · obtain ⟨u, -, -, he⟩ := interpolate_on_segment (P 0) (P 1) (v 0) (v 1) 0 (Or.inl ⟨hn0, e1.le⟩)
    have : ptsAll P v 0 0 = V3.add (P 0) (V3.scale u (V3.sub (P 1) (P 0))) := he
    rw [this]
    simp [V3.add, V3.scale, V3.sub, hP, hp, leafCorners, V3i.add]
  · obtain ⟨u, -, -, he⟩ := interpolate_on_segment (P 2) (P 3) (v 2) (v 3) 0 (Or.inr ⟨hn3, e2.le⟩)
    have : ptsAll P v 0 2 = V3.add (P 2) (V3.scale u (V3.sub (P 3) (P 2))) := he
    rw [this]
    simp [V3.add, V3.scale, V3.sub, hP, hp, leafCorners, V3i.add]
  · have hfar : ∀ w : ℝ, w < -1e-12 → ¬ |0 - w| < MC.epsilon := by
      intro w hw
      unfold MC.epsilon
      rw [zero_sub, abs_neg, abs_of_neg (by linarith [show (-1e-12 : ℝ) < 0 by norm_num])]
      linarith
    have hclose : |(0 : ℝ) - 0| < MC.epsilon := by unfold MC.epsilon; norm_num
    have p8 : ptsAll P v 0 8 = ⟨2, 0, 2⟩ := by
      have : ptsAll P v 0 8 = interpolate (P 0) (P 4) (v 0) (v 4) 0 := rfl
      rw [this, e0, e4]
      unfold interpolate
      simp only
      rw [if_neg (fun h => h.2 hclose), if_pos ⟨hclose, hfar _ h23⟩]
      have e : P 4 = oc.dc.pos ⟨6, 4, 6⟩ := rfl
      rw [e, hp]
      ext <;> norm_num
    have p11 : ptsAll P v 0 11 = ⟨2, 2, 2⟩ := by
      have : ptsAll P v 0 11 = interpolate (P 3) (P 7) (v 3) (v 7) 0 := rfl
      rw [this, e3, e7]
      unfold interpolate
      simp only
      rw [if_neg (fun h => h.2 hclose), if_pos ⟨hclose, hfar _ h23⟩]
      have e : P 7 = oc.dc.pos ⟨6, 6, 6⟩ := rfl
      rw [e, hp]
      ext <;> norm_num
    simp only [List.map_cons, List.map_nil, p8, p11]

/-- The mesh of a capsule, whose distances are exact, has a hole: an edge of the mesh is traversed by no triangle in the other direction.
The centre of a cell is inside at a depth of exactly half the diagonal of the cell, so that the cell is taken to have no surface, but
four of its corners lie exactly on the surface and the others inside. -/
theorem C08_hole_wrong : ∃ s : SDF3, s.bounds.Solid ∧ Lip3 s.eval ∧ s.Bounded ∧ (∃ oc, Initial s 4 oc) ∧
    ∀ (deg : Tri → Bool), (∀ t, deg t = true → t.a = t.b ∨ t.b = t.c ∨ t.c = t.a) →
    ∀ oc, Initial s 4 oc → ∀ outs oc', Calls deg oc outs oc' true → ¬ Closed outs.flatten := by
  refine ⟨capsule, capsule_solid, capsule_lip, capsule_bounded, ?_, ?_⟩
  · obtain ⟨oc, h⟩ : ∃ oc, new capsule 4 = some oc := Option.ne_none_iff_exists'.mp
      ((not_congr (C02_new_panics_iff capsule 4 capsule_solid)).mpr (by norm_num))
    exact ⟨oc, oc, h, rfl⟩
  intro deg hdeg oc h0 outs oc' h hcl
  rw [closed_perm (complete_perm capsule_solid h0 h)] at hcl
  obtain ⟨hs, hr, hlev, hp⟩ := capsule_grid h0
  obtain ⟨p, q, hpz, hqz, hraw⟩ := beside_tris h0
  obtain ⟨v0, v3, v4, v7, v1, v2⟩ := beside_values h0
  have h23 : Real.sqrt 2 - Real.sqrt 3 < 0 := by
    have : Real.sqrt 2 < Real.sqrt 3 := Real.sqrt_lt_sqrt (by norm_num) (by norm_num)
    linarith
  have hlip : Lip3 oc.dc.s.eval := by rw [hs]; exact capsule_lip
  rw [hlev] at hcl
  have hN : (⟨⟨6, 4, 4⟩, 1⟩ : Cube) ∈ leaves oc.dc 3 ⟨0, 0, 0⟩ := by
    refine leaves_complete oc.dc (by rw [hr]; norm_num) hlip 3 ⟨0, 0, 0⟩ _ (by norm_num) ?_ ⟨0, ?_⟩ ⟨1, ?_⟩
    · exact ⟨rfl, 3, 2, 2, by simp, by norm_num⟩
    · have : oc.dc.value (leafCorners ⟨⟨6, 4, 4⟩, 1⟩ 0) = Real.sqrt 2 - Real.sqrt 3 := v0
      rw [this]; exact h23
    · exact v1
  have hin : ((⟨2, 2, 2⟩, ⟨2, 0, 2⟩) : V3 × V3) ∈ (mesh deg oc.dc ⟨⟨0, 0, 0⟩, 3⟩).flatMap Tri.edges := by
    refine List.mem_flatMap.mpr ⟨⟨p, ⟨2, 2, 2⟩, ⟨2, 0, 2⟩⟩, List.mem_flatMap.mpr ⟨_, hN, ?_⟩, by simp [Tri.edges]⟩
    unfold leafTris
    rw [hraw, List.mem_filter]
    refine ⟨by simp, ?_⟩
    rw [Bool.not_eq_true', ← Bool.not_eq_true]
    intro hd
    rcases hdeg _ hd with h | h | h
    · simp only at h; rw [h] at hpz; norm_num at hpz
    · simp only [V3.mk.injEq] at h; norm_num at h
    · simp only at h; rw [← h] at hpz; norm_num at hpz
  have hout : ((⟨2, 0, 2⟩, ⟨2, 2, 2⟩) : V3 × V3) ∈ (mesh deg oc.dc ⟨⟨0, 0, 0⟩, 3⟩).flatMap Tri.edges := by
    have := hcl ⟨2, 0, 2⟩ ⟨2, 2, 2⟩
    unfold edgeCount at this
    rw [← List.count_pos_iff, this]
    exact List.count_pos_iff.mpr hin
  obtain ⟨t, ht, he⟩ := List.mem_flatMap.mp hout
  obtain ⟨c, hc, ht⟩ := List.mem_flatMap.mp ht
  have hw : (⟨2, 0, 2⟩ : V3) = t.a ∨ (⟨2, 0, 2⟩ : V3) = t.b ∨ (⟨2, 0, 2⟩ : V3) = t.c := by
    simp only [Tri.edges, List.mem_cons, List.not_mem_nil, or_false, Prod.mk.injEq] at he
    rcases he with h | h | h
    · exact Or.inl h.1
    · exact Or.inr (Or.inl h.1)
    · exact Or.inr (Or.inr h.1)
  have hw' : (⟨2, 2, 2⟩ : V3) = t.a ∨ (⟨2, 2, 2⟩ : V3) = t.b ∨ (⟨2, 2, 2⟩ : V3) = t.c := by
    simp only [Tri.edges, List.mem_cons, List.not_mem_nil, or_false, Prod.mk.injEq] at he
    rcases he with h | h | h
    · exact Or.inr (Or.inl h.2)
    · exact Or.inr (Or.inr h.2)
    · exact Or.inl h.2
  obtain ⟨x1, x2, -, y2, z1, z2⟩ := vertex_in_cell h0 deg c t ht _ hw
  obtain ⟨-, -, y3, y4, -, -⟩ := vertex_in_cell h0 deg c t ht _ hw'
  obtain ⟨y1, -⟩ := (vertex_in_cell h0 deg c t ht _ hw).2.2
  obtain ⟨n1, i, j, k, hco, -⟩ := leaves_in _ _ _ c hc
  have cx : c.o.x = 2 * i := by rw [hco]; simp
  have cy : c.o.y = 2 * j := by rw [hco]; simp
  have cz : c.o.z = 2 * k := by rw [hco]; simp
  norm_num at x1 x2 y1 y2 y3 y4 z1 z2
  have ix1 : c.o.x ≤ 6 := by exact_mod_cast x1
  have ix2 : 6 ≤ c.o.x + 2 := by exact_mod_cast x2
  have iy1 : c.o.y ≤ 4 := by exact_mod_cast y1
  have iy2 : 6 ≤ c.o.y + 2 := by exact_mod_cast y4
  have iz1 : c.o.z ≤ 6 := by exact_mod_cast z1
  have iz2 : 6 ≤ c.o.z + 2 := by exact_mod_cast z2
  have hcx : c.o.x = 4 ∨ c.o.x = 6 := by omega
  have hcy : c.o.y = 4 := by omega
  have hcz : c.o.z = 4 ∨ c.o.z = 6 := by omega
  have hceq : c = ⟨⟨c.o.x, c.o.y, c.o.z⟩, 1⟩ := by
    obtain ⟨co, cn⟩ := c
    simp only at n1
    rw [n1]
  rcases hcz with hz4 | hz6
  · rcases hcx with hx4 | hx6
    · rw [hceq, hx4, hcy, hz4] at hc
      exact leaves_kept oc.dc 1 _ _ hc (skipped_cap h0)
    · rw [hceq, hx6, hcy, hz4] at ht
      unfold leafTris at ht
      rw [hraw] at ht
      have ht' := List.mem_of_mem_filter ht
      simp only [List.mem_cons, List.not_mem_nil, or_false] at ht'
      have np : ∀ w : V3, w.z = 2 → w ≠ p ∧ w ≠ q := by
        intro w hw
        constructor <;> intro h <;> rw [h] at hw <;> linarith
      have a1 := np ⟨2, 0, 2⟩ rfl
      have a2 := np ⟨2, 2, 2⟩ rfl
      rcases ht' with rfl | rfl
      · simp only [Tri.edges, List.mem_cons, List.not_mem_nil, or_false, Prod.mk.injEq] at he
        rcases he with h | h | h
        · exact a1.2 h.1
        · exact a2.1 h.2
        · exact a1.1 h.1
      · simp only [Tri.edges, List.mem_cons, List.not_mem_nil, or_false, Prod.mk.injEq] at he
        rcases he with h | h | h
        · exact a1.1 h.1
        · have := h.1; simp only [V3.mk.injEq] at this; norm_num at this
        · exact a2.1 h.2
  · have : leafTris deg oc.dc c = [] := by
      unfold leafTris
      rw [raw_nil_of_not_mixed]
      · rfl
      · rintro ⟨⟨a, ha⟩, -⟩
        refine absurd ha (not_lt.mpr (above_nonneg h0 _ ?_ ?_ ?_))
        · fin_cases a <;> simp [leafCorners, V3i.add] <;> omega
        · fin_cases a <;> simp [leafCorners, V3i.add] <;> omega
        · fin_cases a <;> simp [leafCorners, V3i.add] <;> omega
    rw [this] at ht
    simp at ht

/-- A cube with faces in grid planes, by its largest coordinate. -/
noncomputable def gridCube : SDF3 where
  eval p := max |p.x| (max |p.y| |p.z|) - 2
  bounds := ⟨⟨-4 / 1.01, -4 / 1.01, -4 / 1.01⟩, ⟨4 / 1.01, 4 / 1.01, 4 / 1.01⟩⟩

/-- A cube with faces exactly in planes of the grid: many corners lie exactly on the surface, and yet every cell is clear, since
depths of grid points are integers and half diagonals are not. -/
theorem gridCube_clear (oc : State) (h0 : Initial gridCube 4 oc) :
    (∀ c ∈ allCells (oc.dc.levels - 1), Clear oc.dc c) ∧ oc.dc.value ⟨6, 4, 4⟩ = 0 := by
  have hb : gridCube.bounds.Solid := by simp only [gridCube, Box3.Solid]; norm_num
  have f := initial_facts hb h0
  have hr : oc.dc.resolution = 1 := by
    rw [f.res, longAxis_eq]; simp only [gridCube]; norm_num
  have ho : oc.dc.origin = ⟨-4, -4, -4⟩ := by
    rw [f.origin, scaled_lo]; simp only [gridCube]; ext <;> norm_num
  have hp : ∀ v : V3i, oc.dc.pos v = ⟨((v.x - 4 : ℤ) : ℝ), ((v.y - 4 : ℤ) : ℝ), ((v.z - 4 : ℤ) : ℝ)⟩ := by
    intro v
    simp only [Dc3.pos, hr, ho, V3.add, V3.scale, V3i.toV3]
    push_cast
    ext <;> ring
  have hint : ∀ v : V3i, ∃ z : ℤ, oc.dc.s.eval (oc.dc.pos v) = z := by
    intro v
    refine ⟨max |v.x - 4| (max |v.y - 4| |v.z - 4|) - 2, ?_⟩
    rw [f.dc_s, hp]
    simp only [gridCube]
    push_cast
    rfl
  refine ⟨fun c _ => Or.inr fun m i j k hm _ _ _ _ _ _ _ heq => ?_, ?_⟩
  · obtain ⟨z, hz⟩ := hint ⟨2 ^ m * i + 2 ^ (m - 1), 2 ^ m * j + 2 ^ (m - 1), 2 ^ m * k + 2 ^ (m - 1)⟩
    rw [hz] at heq
    unfold Dc3.hdiag at heq
    simp only [hr, mul_one] at heq
    have e : Real.sqrt (3.0 * 2 ^ m * 2 ^ m) = 2 ^ m * Real.sqrt 3 := by
      rw [show (3.0 : ℝ) * 2 ^ m * 2 ^ m = (2 ^ m) ^ 2 * 3 by norm_num; ring, Real.sqrt_mul (by positivity), Real.sqrt_sq (by positivity)]
    rw [e] at heq
    have h3 : Irrational (Real.sqrt 3) := by
      have := Nat.Prime.irrational_sqrt (p := 3) Nat.prime_three
      exact_mod_cast this
    apply h3
    refine ⟨(-2 * z : ℚ) / 2 ^ m, ?_⟩
    push_cast
    have : (2 : ℝ) ^ m ≠ 0 := by positivity
    field_simp
    norm_num at heq
    linarith
  · unfold Dc3.value
    rw [f.dc_s, hp]
    simp only [gridCube]
    norm_num

/-- The mesh of this cube is closed, although many corners of the grid lie exactly on its surface. -/
example (deg : Tri → Bool) (hdeg : ∀ t, deg t = true → t.a = t.b ∨ t.b = t.c ∨ t.c = t.a)
    (oc oc' : State) (outs : List (List Tri)) (h0 : Initial gridCube 4 oc) (h : Calls deg oc outs oc' true) : Closed outs.flatten := by
  refine C08_octree_mesh_closed gridCube 4 (by simp only [gridCube, Box3.Solid]; norm_num) ?_ ?_ deg hdeg oc oc' outs h0 h
    (gridCube_clear oc h0).1
  · intro p q
    simp only [gridCube, sub_sub_sub_cancel_right]
    have hx := V3.abs_x_le (V3.sub p q)
    have hy := V3.abs_y_le (V3.sub p q)
    have hz := V3.abs_z_le (V3.sub p q)
    simp only [V3.sub] at hx hy hz
    refine (abs_max_sub_max_le_max _ _ _ _).trans (max_le ((abs_abs_sub_abs_le _ _).trans hx) ?_)
    exact (abs_max_sub_max_le_max _ _ _ _).trans (max_le ((abs_abs_sub_abs_le _ _).trans hy) ((abs_abs_sub_abs_le _ _).trans hz))
  · intro p hp
    simp only [gridCube, sub_lt_zero, max_lt_iff, abs_lt] at hp
    obtain ⟨⟨a, b⟩, ⟨c, d⟩, e, f⟩ := hp
    simp only [gridCube, Box3.Contains]
    norm_num
    refine ⟨?_, ?_, ?_, ?_, ?_, ?_⟩ <;> linarith

end Sdf.Octree
