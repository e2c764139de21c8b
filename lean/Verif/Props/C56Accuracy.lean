import Verif.Lemmas.MCAccuracy
import Verif.Props.C09
import Verif.Lemmas.RenderAll

/-!
C56: the rendered mesh is as close to the surface as the cell size.
-/

namespace Sdf.Octree

open Classical MC

/-- The point of a triangle with weights `x`, `y`, `z`. -/
def mix (t : Tri) (x y z : ℝ) : V3 :=
  ⟨x * t.a.x + y * t.b.x + z * t.c.x, x * t.a.y + y * t.b.y + z * t.c.y, x * t.a.z + y * t.b.z + z * t.c.z⟩

/-- Nothing is invented: every point of every delivered triangle (not only its corners) is within a cell diagonal of a point
of the surface, and the shape's distance there is at most that. -/
theorem C56_no_stray_triangle (deg : Tri → Bool) (s : SDF3) (meshCells : ℤ) (hb : s.bounds.Solid) (hl : Lip3 s.eval)
    (oc oc' : State) (eof : Bool) (outs : List (List Tri)) (h0 : Initial s meshCells oc) (h : Calls deg oc outs oc' eof)
    (t : Tri) (ht : t ∈ outs.flatten) (x y z : ℝ) (hx : 0 ≤ x) (hy : 0 ≤ y) (hz : 0 ≤ z) (h1 : x + y + z = 1) :
    (∃ q, s.eval q = 0 ∧ V3.dist (mix t x y z) q ≤ Real.sqrt 3 * (1.01 * longestSide s.bounds / meshCells))
    ∧ |s.eval (mix t x y z)| ≤ Real.sqrt 3 * (1.01 * longestSide s.bounds / meshCells) := by
  have f := initial_facts hb h0
  have hr := res_pos hb f
  rw [cell_edge f]
  set e := 2 * oc.dc.resolution with he
  have hep : 0 < e := by rw [he]; linarith
  have hs := calls_spec (initial_ok f) h
  have hmem : t ∈ pending deg oc := hs.perm.mem_iff.mpr (List.mem_append_left _ ht)
  simp only [pending, f.unwritten, List.nil_append, List.mem_flatMap, mesh] at hmem
  obtain ⟨c, _, c', _, htc⟩ := hmem
  have hcross := C09_vertices_on_crossing_edges deg 5 (fun i => oc.dc.pos (leafCorners c' i))
    (fun i => oc.dc.value (leafCorners c' i)) 0 _ rfl t htc
  have hoff : ∀ a, oc.dc.pos (leafCorners c' a) = cube (oc.dc.pos c'.o) e a := by
    intro a
    fin_cases a <;> simp [leafCorners, cube, cornerOffset, Dc3.pos, V3i.add, V3i.toV3, V3.add, V3.scale, he] <;>
      (try constructor) <;> (try constructor) <;> ring
  set o := oc.dc.pos c'.o
  -- points between two corners of the cell are in the cell
  have hin : ∀ (a b : Fin 8) (u : ℝ), 0 ≤ u → u ≤ 1 → ∀ w, w = V3.add (cube o e a) (V3.scale u (V3.sub (cube o e b) (cube o e a))) →
      (o.x ≤ w.x ∧ w.x ≤ o.x + e) ∧ (o.y ≤ w.y ∧ w.y ≤ o.y + e) ∧ (o.z ≤ w.z ∧ w.z ≤ o.z + e) := by
    intro a b u u0 u1 w hw
    have one : ∀ (A B : Bool) (d : ℝ), d ≤ (d + e * (if A then 1 else 0)) + u * ((d + e * (if B then 1 else 0)) - (d + e * (if A then 1 else 0)))
        ∧ (d + e * (if A then 1 else 0)) + u * ((d + e * (if B then 1 else 0)) - (d + e * (if A then 1 else 0))) ≤ d + e := by
      intro A B d
      have k1 : 0 ≤ e * u := by positivity
      have k2 : 0 ≤ e * (1 - u) := mul_nonneg hep.le (by linarith)
      cases A <;> cases B <;> refine ⟨?_, ?_⟩ <;> simp only [if_true, if_false, Bool.false_eq_true] <;> nlinarith
    subst hw
    exact ⟨one _ _ o.x, one _ _ o.y, one _ _ o.z⟩
  have hcell : ∀ w, OnCrossingEdge (fun i => oc.dc.pos (leafCorners c' i)) (fun i => oc.dc.value (leafCorners c' i)) 0 w →
      (o.x ≤ w.x ∧ w.x ≤ o.x + e) ∧ (o.y ≤ w.y ∧ w.y ≤ o.y + e) ∧ (o.z ≤ w.z ∧ w.z ≤ o.z + e) := by
    rintro w ⟨a, b, -, -, -, u, u0, u1, hw⟩
    simp only [hoff] at hw
    exact hin a b u u0 u1 w hw
  have ca := hcell _ hcross.1
  have cb := hcell _ hcross.2.1
  have cc := hcell _ hcross.2.2
  obtain ⟨a, b, -, hva, hvb, -⟩ := hcross.1
  unfold Dc3.value at hva hvb
  rw [f.dc_s] at hva hvb
  obtain ⟨u, u0, u1, hu⟩ := zero_on_segment s.eval hl _ _ hva hvb
  simp only [hoff] at hu
  have cq := hin a b u u0 u1 _ rfl
  generalize V3.add (cube o e a) (V3.scale u (V3.sub (cube o e b) (cube o e a))) = q at hu cq
  have conv : ∀ {d A B C : ℝ}, (d ≤ A ∧ A ≤ d + e) → (d ≤ B ∧ B ≤ d + e) → (d ≤ C ∧ C ≤ d + e) →
      d ≤ x * A + y * B + z * C ∧ x * A + y * B + z * C ≤ d + e := by
    intro d A B C hA hB hC
    have hd : d = x * d + y * d + z * d := by rw [← add_mul, ← add_mul, h1, one_mul]
    have hde : d + e = x * (d + e) + y * (d + e) + z * (d + e) := by rw [← add_mul, ← add_mul, h1, one_mul]
    have := mul_le_mul_of_nonneg_left hA.1 hx
    have := mul_le_mul_of_nonneg_left hA.2 hx
    have := mul_le_mul_of_nonneg_left hB.1 hy
    have := mul_le_mul_of_nonneg_left hB.2 hy
    have := mul_le_mul_of_nonneg_left hC.1 hz
    have := mul_le_mul_of_nonneg_left hC.2 hz
    constructor <;> linarith
  have sq : ∀ {d A B : ℝ}, (d ≤ A ∧ A ≤ d + e) → (d ≤ B ∧ B ≤ d + e) → (A - B) * (A - B) ≤ e * e := by
    intro d A B hA hB
    have h1 : A - B ≤ e := by linarith
    have h2 : -e ≤ A - B := by linarith
    nlinarith
  have hd : V3.dist (mix t x y z) q ≤ Real.sqrt 3 * e := by
    have ex := sq (conv ca.1 cb.1 cc.1) cq.1
    have ey := sq (conv ca.2.1 cb.2.1 cc.2.1) cq.2.1
    have ez := sq (conv ca.2.2 cb.2.2 cc.2.2) cq.2.2
    unfold V3.dist V3.norm
    rw [Real.sqrt_le_left (by positivity), mul_pow, Real.sq_sqrt (by norm_num)]
    simp only [V3.sub, mix]
    nlinarith
  refine ⟨⟨q, hu, hd⟩, ?_⟩
  have := hl (mix t x y z) q
  rw [hu, sub_zero] at this
  exact this.trans hd

/-- No delivered vertex is further outside the shape's bounding box than the length of a cell edge; no assumption on the distances. -/
theorem C56_within_bounds (deg : Tri → Bool) (s : SDF3) (meshCells : ℤ) (hb : s.bounds.Solid) (hbd : s.Bounded)
    (oc oc' : State) (eof : Bool) (outs : List (List Tri)) (h0 : Initial s meshCells oc) (h : Calls deg oc outs oc' eof)
    (t : Tri) (ht : t ∈ outs.flatten) (k : Fin 3) :
    let e := 1.01 * longestSide s.bounds / meshCells
    (s.bounds.lo.x - e ≤ (t.vertex k).x ∧ (t.vertex k).x ≤ s.bounds.hi.x + e)
    ∧ (s.bounds.lo.y - e ≤ (t.vertex k).y ∧ (t.vertex k).y ≤ s.bounds.hi.y + e)
    ∧ (s.bounds.lo.z - e ≤ (t.vertex k).z ∧ (t.vertex k).z ≤ s.bounds.hi.z + e) := by
  have f := initial_facts hb h0
  have hr := res_pos hb f
  intro e
  have he : e = 2 * oc.dc.resolution := cell_edge f
  have hep : 0 < e := by rw [he]; linarith
  have hs := calls_spec (initial_ok f) h
  have hmem : t ∈ pending deg oc := hs.perm.mem_iff.mpr (List.mem_append_left _ ht)
  simp only [pending, f.unwritten, List.nil_append, List.mem_flatMap, mesh] at hmem
  obtain ⟨c, _, c', _, htc⟩ := hmem
  have hcross := C09_vertices_on_crossing_edges deg 5 (fun i => oc.dc.pos (leafCorners c' i))
    (fun i => oc.dc.value (leafCorners c' i)) 0 _ rfl t htc
  have hoff : ∀ a, oc.dc.pos (leafCorners c' a) = cube (oc.dc.pos c'.o) e a := by
    intro a
    fin_cases a <;> simp [leafCorners, cube, cornerOffset, Dc3.pos, V3i.add, V3i.toV3, V3.add, V3.scale, he] <;>
      (try constructor) <;> (try constructor) <;> ring
  have one : ∀ w, OnCrossingEdge (fun i => oc.dc.pos (leafCorners c' i)) (fun i => oc.dc.value (leafCorners c' i)) 0 w →
      (s.bounds.lo.x - e ≤ w.x ∧ w.x ≤ s.bounds.hi.x + e) ∧ (s.bounds.lo.y - e ≤ w.y ∧ w.y ≤ s.bounds.hi.y + e)
        ∧ (s.bounds.lo.z - e ≤ w.z ∧ w.z ≤ s.bounds.hi.z + e) := by
    rintro w ⟨a, b, -, hva, -, u, u0, u1, hw⟩
    unfold Dc3.value at hva
    rw [f.dc_s] at hva
    have hbx := hbd _ hva
    simp only [hoff] at hw hbx
    have axis : ∀ (A B : Bool) (d lo hi : ℝ), lo ≤ d + e * (if A then 1 else 0) → d + e * (if A then 1 else 0) ≤ hi →
        lo - e ≤ (d + e * (if A then 1 else 0)) + u * ((d + e * (if B then 1 else 0)) - (d + e * (if A then 1 else 0)))
        ∧ (d + e * (if A then 1 else 0)) + u * ((d + e * (if B then 1 else 0)) - (d + e * (if A then 1 else 0))) ≤ hi + e := by
      intro A B d lo hi h1 h2
      have k1 : 0 ≤ e * u := by positivity
      have k2 : 0 ≤ e * (1 - u) := mul_nonneg hep.le (by linarith)
      cases A <;> cases B <;> refine ⟨?_, ?_⟩ <;> simp only [if_true, if_false, Bool.false_eq_true] at * <;> nlinarith
    subst hw
    exact ⟨axis _ _ _ _ _ hbx.1 hbx.2.2.2.1, axis _ _ _ _ _ hbx.2.1 hbx.2.2.2.2.1, axis _ _ _ _ _ hbx.2.2.1 hbx.2.2.2.2.2⟩
  fin_cases k
  · exact one _ hcross.1
  · exact one _ hcross.2.1
  · exact one _ hcross.2.2

/-- Nothing is missed: where the shape has, within `R` of a point `p`, both a point deeper inside than half a cell diagonal and a point
further outside than that, the mesh delivered by the time of `io.EOF` has a vertex within `√2 (R + half a cell diagonal)` of `p`; provided
no grid vertex is within the tolerance 1e-12 of the surface. -/
theorem C56_surface_found (s : SDF3) (meshCells : ℤ) (hb : s.bounds.Solid) (hl : Lip3 s.eval) (hbd : s.Bounded)
    (deg : Tri → Bool) (hdeg : ∀ t, deg t = true → t.a = t.b ∨ t.b = t.c ∨ t.c = t.a)
    (oc oc' : State) (outs : List (List Tri)) (h0 : Initial s meshCells oc) (h : Calls deg oc outs oc' true)
    (hfar : ∀ c ∈ allCells (oc.dc.levels - 1), ∀ a, 1e-12 ≤ |s.eval (oc.dc.pos (leafCorners c a))|) :
    let ρ := Real.sqrt 3 / 2 * (1.01 * longestSide s.bounds / meshCells)
    ∀ (p a b : V3) (R : ℝ), V3.dist a p ≤ R → V3.dist b p ≤ R → s.eval a < -ρ → ρ ≤ s.eval b →
      ∃ t ∈ outs.flatten, ∃ k : Fin 3, V3.dist (t.vertex k) p ≤ Real.sqrt 2 * (R + ρ) := by
  intro ρ p a b R ha hb' hfa hfb
  have f := initial_facts hb h0
  have hr := res_pos hb f
  simp only [ρ] at *
  rw [cell_edge f] at *
  obtain ⟨i, j, k, ei⟩ := near_vertex oc.dc.origin (r := 2 * oc.dc.resolution) (by linarith) a
  obtain ⟨i', j', k', ei'⟩ := near_vertex oc.dc.origin (r := 2 * oc.dc.resolution) (by linarith) b
  have l1 := (abs_le.mp ((hl _ a).trans ei)).2
  have l2 := (abs_le.mp ((hl _ b).trans ei')).1
  obtain ⟨t, ht, q, hq⟩ := delivered_between s meshCells hb hl hbd deg hdeg oc oc' outs h0 h hfar i j k i' j' k' (by
    rw [iff_false_right (by linarith), not_not]
    linarith)
  refine ⟨t, ht, q, hq.dist p ?_ ?_⟩
  · exact (V3.dist_triangle _ a _).trans (by linarith)
  · exact (V3.dist_triangle _ b _).trans (by linarith)

/-- In particular no solid vanishes: if some point is deeper inside than half a cell diagonal, at least one triangle is delivered. -/
theorem C56_solid_found (s : SDF3) (meshCells : ℤ) (hb : s.bounds.Solid) (hl : Lip3 s.eval) (hbd : s.Bounded)
    (deg : Tri → Bool) (hdeg : ∀ t, deg t = true → t.a = t.b ∨ t.b = t.c ∨ t.c = t.a)
    (oc oc' : State) (outs : List (List Tri)) (h0 : Initial s meshCells oc) (h : Calls deg oc outs oc' true)
    (hfar : ∀ c ∈ allCells (oc.dc.levels - 1), ∀ a, 1e-12 ≤ |s.eval (oc.dc.pos (leafCorners c a))|)
    (a : V3) (ha : s.eval a < -(Real.sqrt 3 / 2 * (1.01 * longestSide s.bounds / meshCells))) : outs.flatten ≠ [] := by
  have f := initial_facts hb h0
  have hr := res_pos hb f
  rw [cell_edge f] at ha
  obtain ⟨i, j, k, ei⟩ := near_vertex oc.dc.origin (r := 2 * oc.dc.resolution) (by linarith) a
  have l1 := (abs_le.mp ((hl _ a).trans ei)).2
  obtain ⟨n, hn⟩ := exists_int_gt ((s.bounds.hi.x - oc.dc.origin.x) / (2 * oc.dc.resolution))
  rw [div_lt_iff₀ (by linarith)] at hn
  obtain ⟨t, ht, -⟩ := delivered_between s meshCells hb hl hbd deg hdeg oc oc' outs h0 h hfar i j k n j k (by
    rw [iff_false_right, not_not]
    · linarith
    · intro hneg
      have := (hbd _ hneg).2.2.2.1
      simp only [gridPos] at this
      linarith)
  exact List.ne_nil_of_mem ht

/-- The unit ball: with ten cells its centre is deeper than half a cell diagonal, and around the pole the points at depth and
height 1/4 are the ones `C56_surface_found` asks for. -/
example : let ρ := Real.sqrt 3 / 2 * (1.01 * longestSide unitBall.bounds / 10)
    unitBall.bounds.Solid ∧ Lip3 unitBall.eval ∧ unitBall.Bounded ∧ unitBall.eval ⟨0, 0, 0⟩ < -ρ
    ∧ unitBall.eval ⟨0, 0, 3 / 4⟩ < -ρ ∧ ρ ≤ unitBall.eval ⟨0, 0, 5 / 4⟩
    ∧ V3.dist ⟨0, 0, 3 / 4⟩ ⟨0, 0, 1⟩ ≤ 1 / 4 ∧ V3.dist ⟨0, 0, 5 / 4⟩ ⟨0, 0, 1⟩ ≤ 1 / 4 := by
  intro ρ
  have h3 : Real.sqrt 3 < 1.75 := by
    rw [Real.sqrt_lt' (by norm_num)]; norm_num
  have hρ : ρ < 1 / 4 := by
    simp only [ρ, unitBall, longestSide]
    norm_num
    norm_num at h3
    nlinarith
  have n1 : V3.norm ⟨0, 0, 3 / 4⟩ = 3 / 4 := V3.norm_eq_of (by norm_num) (by norm_num)
  have n2 : V3.norm ⟨0, 0, 5 / 4⟩ = 5 / 4 := V3.norm_eq_of (by norm_num) (by norm_num)
  have n0 : V3.norm ⟨0, 0, 0⟩ = 0 := V3.norm_eq_of (by norm_num) (by norm_num)
  refine ⟨unitBall_solid, unitBall_lip, unitBall_bounded, ?_, ?_, ?_, ?_, ?_⟩
  · simp only [unitBall]; rw [n0]; linarith
  · simp only [unitBall]; rw [n1]; linarith
  · simp only [unitBall]; rw [n2]; linarith
  · unfold V3.dist V3.norm; rw [Real.sqrt_le_left (by norm_num)]; simp only [V3.sub]; norm_num
  · unfold V3.dist V3.norm; rw [Real.sqrt_le_left (by norm_num)]; simp only [V3.sub]; norm_num

/-- The unit ball with two cells: no grid vertex is near the surface, and the centre is deeper than half a cell diagonal. -/
theorem ball_far : ∃ oc, Initial unitBall 2 oc
    ∧ (∀ c ∈ allCells (oc.dc.levels - 1), ∀ a, 1e-12 ≤ |unitBall.eval (oc.dc.pos (leafCorners c a))|)
    ∧ unitBall.eval ⟨0, 0, 0⟩ < -(Real.sqrt 3 / 2 * (1.01 * longestSide unitBall.bounds / (2 : ℤ))) := by
  obtain ⟨oc, h⟩ : ∃ oc, new unitBall 2 = some oc := by
    refine ⟨_, (if_neg (by norm_num)).trans (if_neg ?_)⟩
    have e : longAxis unitBall / (0.5 * longAxis unitBall / ((2 : ℤ) : ℝ)) = 4 := by
      have := longAxis_pos unitBall unitBall_solid
      push_cast
      field_simp
      norm_num
    have e' : (unitBall.bounds.scaleAboutCenter 1.01).size.maxComp = longAxis unitBall := rfl
    rw [e', e]
    have : Real.logb 2 4 = 2 := by
      rw [show (4 : ℝ) = 2 ^ (2 : ℝ) by norm_num]
      exact Real.logb_rpow (by norm_num) (by norm_num)
    rw [this]
    norm_num
  obtain ⟨hr, ho, -, -, -⟩ := ball_setup oc h
  refine ⟨oc, ⟨oc, h, rfl⟩, ?_, ?_⟩
  · intro c _ a
    generalize leafCorners c a = q
    -- the squared distance from the centre is an integer multiple of 0.505²
    have h1 := V3.norm_sq (oc.dc.pos q)
    simp only [Dc3.pos, V3.add, V3.scale, V3i.toV3, hr, ho] at h1
    set N : ℤ := (q.x - 2) * (q.x - 2) + (q.y - 2) * (q.y - 2) + (q.z - 2) * (q.z - 2) with hN
    set n := V3.norm (oc.dc.pos q) with hn
    have hn0 : 0 ≤ n := V3.norm_nonneg _
    have h2 : n * n = 0.255025 * (N : ℝ) := by
      rw [hn, Dc3.pos]
      simp only [V3.add, V3.scale, V3i.toV3, hr, ho]
      rw [h1, hN]
      push_cast
      norm_num
      ring
    have h3 : 1e-12 ≤ |n - 1| := by
      rcases le_or_gt N 3 with hle | hgt
      · have : (N : ℝ) ≤ 3 := by exact_mod_cast hle
        have h4 : n < 0.9 := by
          by_contra hc
          push Not at hc
          norm_num at *
          nlinarith
        rw [abs_of_neg (by norm_num at *; linarith)]
        norm_num at *
        linarith
      · have : (4 : ℝ) ≤ (N : ℝ) := by exact_mod_cast hgt
        have h4 : 1.005 < n := by
          by_contra hc
          push Not at hc
          norm_num at *
          nlinarith
        rw [abs_of_pos (by norm_num at *; linarith)]
        norm_num at *
        linarith
    exact h3
  · have h3 : Real.sqrt 3 < 1.75 := by
      rw [Real.sqrt_lt' (by norm_num)]; norm_num
    have n0 : V3.norm ⟨0, 0, 0⟩ = 0 := V3.norm_eq_of (by norm_num) (by norm_num)
    simp only [unitBall, longestSide]
    rw [n0]
    norm_num at h3 ⊢
    linarith

end Sdf.Octree
