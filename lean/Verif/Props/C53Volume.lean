import Verif.Lemmas.MeshVolume
import Verif.Props.C08

/-!
C53: the rendered mesh encloses the shape's volume.
-/

namespace Sdf.MC

/-- Any values on a grid of cubes of edge `r`, finitely many of them below the iso value: the mesh of any cells, without repetition, that
include every cell with a sign change encloses at least the cells whose corners are all inside and at most the cells with a corner
inside.  (So it is oriented outwards: the volume is not negative.)  Triangles with two equal corners may be dropped. -/
theorem C53_grid_volume (o : V3) (r : ℝ) (hr : 0 < r) (v : ℤ → ℤ → ℤ → ℝ) (x : ℝ)
    (hfin : {c : ℤ × ℤ × ℤ | v c.1 c.2.1 c.2.2 < x}.Finite)
    (cells : List (ℤ × ℤ × ℤ)) (hnd : cells.Nodup) (hcov : ∀ c, Mixed (cellCorners v c) x → c ∈ cells)
    (deg : Tri → Bool) (hdeg : ∀ t, deg t = true → t.a = t.b ∨ t.b = t.c ∨ t.c = t.a) :
    let g : ℤ → ℤ → ℤ → V3 := fun i j k => ⟨o.x + r * i, o.y + r * j, o.z + r * k⟩
    let m := cells.flatMap fun c => (toTriangles deg 5 (cellCorners g c) (cellCorners v c) x).getD []
    {c | ∃ a, cellCorners v c a < x}.Finite
    ∧ r ^ 3 * {c | ∀ a, cellCorners v c a < x}.ncard ≤ signedVolume m
    ∧ signedVolume m ≤ r ^ 3 * {c | ∃ a, cellCorners v c a < x}.ncard := by
  intro g m
  have hc : Closed m := C08_mesh_closed g v x hfin cells hnd hcov deg hdeg
  have e : m = (cells.flatMap fun c => rawTriangles (cellCorners g c) (cellCorners v c) x).filter fun t => !deg t := by
    rw [List.filter_flatMap]
    rfl
  have h6 := signedVolume_under hc
  rw [e, under_filter _ _ fun t _ ht => hdeg t (by simpa using ht), ← e] at h6
  obtain ⟨h1, h2, h3⟩ := cells_under o hr v x hfin cells hnd hcov
  have hg : gridPos o r = g := rfl
  rw [hg, ← h6] at h2 h3
  refine ⟨h1, ?_, ?_⟩
  · have : 6 * (r ^ 3 * ((allIn v x).ncard : ℝ)) ≤ 6 * signedVolume m := h2
    change r ^ 3 * ((allIn v x).ncard : ℝ) ≤ _
    linarith
  · have : 6 * signedVolume m ≤ 6 * (r ^ 3 * ((someIn v x).ncard : ℝ)) := h3
    change _ ≤ r ^ 3 * ((someIn v x).ncard : ℝ)
    linarith

/-- One cell inside meets the hypotheses, and the cell is then counted. -/
example : ∃ v : ℤ → ℤ → ℤ → ℝ, {c : ℤ × ℤ × ℤ | v c.1 c.2.1 c.2.2 < 0}.Finite
    ∧ (0, 0, 0) ∈ {c | ∀ a, cellCorners v c a < 0} := by
  refine ⟨fun i j k => if (i = 0 ∨ i = 1) ∧ (j = 0 ∨ j = 1) ∧ (k = 0 ∨ k = 1) then -1 else 1, ?_, ?_⟩
  · apply Set.Finite.subset ((Set.finite_Icc (0 : ℤ) 1).prod ((Set.finite_Icc (0 : ℤ) 1).prod (Set.finite_Icc (0 : ℤ) 1)))
    rintro ⟨i, j, k⟩ h
    simp only [Set.mem_ofPred_eq] at h
    by_cases hh : (i = 0 ∨ i = 1) ∧ (j = 0 ∨ j = 1) ∧ (k = 0 ∨ k = 1)
    · simp only [Set.mem_prod, Set.mem_Icc]; omega
    · rw [if_neg hh] at h; linarith
  · intro a
    fin_cases a <;> simp [cellCorners]

end Sdf.MC

namespace Sdf.Octree

open MC

/-- For every 1-Lipschitz shape whose bounding box contains it, everything the octree renderer delivers until `io.EOF` encloses at least
the points deeper inside the shape than `d` and at most the points less than `d` away from it, where `d` is the diagonal of a
cell; provided
every cell is `Clear`, for example because no grid vertex lies exactly on the surface. -/
theorem C53_volume (s : SDF3) (meshCells : ℤ) (hb : s.bounds.Solid) (hl : Lip3 s.eval) (hbd : s.Bounded)
    (deg : Tri → Bool) (hdeg : ∀ t, deg t = true → t.a = t.b ∨ t.b = t.c ∨ t.c = t.a)
    (oc oc' : State) (outs : List (List Tri)) (h0 : Initial s meshCells oc) (h : Calls deg oc outs oc' true)
    (hz : ∀ c ∈ allCells (oc.dc.levels - 1), Clear oc.dc c) :
    let e := 1.01 * longestSide s.bounds / meshCells
    let d := Real.sqrt 3 * e
    0 ≤ signedVolume outs.flatten
    ∧ regionVolume {p | s.eval p < -d} ≤ ENNReal.ofReal (signedVolume outs.flatten)
    ∧ ENNReal.ofReal (signedVolume outs.flatten) ≤ regionVolume {p | s.eval p < d}
    ∧ ((∃ p, s.eval p < -d) → e ^ 3 ≤ signedVolume outs.flatten) := by
  intro e d
  have hcl := C08_octree_mesh_closed s meshCells hb hl hbd deg hdeg oc oc' outs h0 h hz
  obtain ⟨hfin, cells, hnd, hcov, hp⟩ := octree_cells s meshCells hb hl hbd deg oc oc' outs h0 h hz
  have f := initial_facts hb h0
  have hr := res_pos hb f
  have he : e = 2 * oc.dc.resolution := by
    simp only [e, f.res, longAxis_eq, longestSide]
    have hm : (2 : ℝ) ≤ (meshCells : ℝ) := by exact_mod_cast f.m_ge
    have hne : (meshCells : ℝ) ≠ 0 := by linarith
    rw [max_comm (s.bounds.hi.z - s.bounds.lo.z), max_assoc]
    field_simp
  have hep : 0 < e := by rw [he]; linarith
  rw [← he] at hfin hcov hp
  set v : ℤ → ℤ → ℤ → ℝ := fun i j k => s.eval (gridPos oc.dc.origin e i j k) with hv
  obtain ⟨h1, h2, h3⟩ := cells_under oc.dc.origin hep v 0 hfin cells hnd hcov
  have h6 := signedVolume_under hcl
  have hsum := (hp.map fun t : Tri => under t.a t.b t.c).sum_eq
  rw [under_filter _ _ fun t _ ht => hdeg t (by simpa using ht)] at hsum
  rw [← hsum, ← h6] at h2 h3
  have hva : ∀ c a, cellCorners v c a = s.eval (cellCorners (gridPos oc.dc.origin e) c a) := by
    rintro ⟨i, j, k⟩ a
    fin_cases a <;> rfl
  have hlow : e ^ 3 * (allIn v 0).ncard ≤ signedVolume outs.flatten := by linarith
  have hhigh : signedVolume outs.flatten ≤ e ^ 3 * (someIn v 0).ncard := by linarith
  have hafin : (allIn v 0).Finite := h1.subset fun c hc => ⟨0, hc 0⟩
  have hin : ∀ q : ℝ × ℝ × ℝ, s.eval ⟨q.1, q.2.1, q.2.2⟩ < -d → cellOf oc.dc.origin e q ∈ allIn v 0 := by
    intro q hq a
    have hm := (mem_cellSet oc.dc.origin hep q _).mpr rfl
    have hn := corner_near oc.dc.origin hep q _ hm a
    have := hl (cellCorners (gridPos oc.dc.origin e) (cellOf oc.dc.origin e q) a) ⟨q.1, q.2.1, q.2.2⟩
    rw [V3.dist_comm] at this
    have := (abs_le.mp this).2
    rw [hva]
    simp only [d] at hq
    linarith
  refine ⟨le_trans (by positivity) hlow, ?_, ?_, ?_⟩
  · refine le_trans ?_ (ENNReal.ofReal_le_ofReal hlow)
    rw [← cells_volume oc.dc.origin hep hafin]
    apply MeasureTheory.measure_mono
    intro q hq
    simp only [Set.mem_iUnion, exists_prop]
    exact ⟨_, hin q hq, (mem_cellSet oc.dc.origin hep q _).mpr rfl⟩
  · refine le_trans (ENNReal.ofReal_le_ofReal hhigh) ?_
    rw [← cells_volume oc.dc.origin hep h1]
    apply MeasureTheory.measure_mono
    intro q hq
    simp only [Set.mem_iUnion, exists_prop] at hq
    obtain ⟨c, ⟨a, ha⟩, hm⟩ := hq
    have hn := corner_near oc.dc.origin hep q _ hm a
    have := (abs_le.mp (hl ⟨q.1, q.2.1, q.2.2⟩ (cellCorners (gridPos oc.dc.origin e) c a))).2
    rw [hva] at ha
    change s.eval ⟨q.1, q.2.1, q.2.2⟩ < d
    simp only [d]
    linarith
  · rintro ⟨p, hq⟩
    have hmem := hin (p.x, p.y, p.z) hq
    have : 1 ≤ (allIn v 0).ncard := by
      rw [Nat.one_le_iff_ne_zero, Ne, Set.ncard_eq_zero hafin]
      exact Set.nonempty_iff_ne_empty.mp ⟨_, hmem⟩
    have h1' : (1 : ℝ) ≤ (allIn v 0).ncard := by exact_mod_cast this
    have : 0 < e ^ 3 := by positivity
    nlinarith

/-- The unit ball meets the hypotheses on the shape (that no grid vertex lies exactly on its surface for `meshCells = 2` is shown
in `C01`); with ten cells its centre is deeper than a cell diagonal. -/
example : unitBall.bounds.Solid ∧ Lip3 unitBall.eval ∧ unitBall.Bounded
    ∧ unitBall.eval ⟨0, 0, 0⟩ < -(Real.sqrt 3 * (1.01 * longestSide unitBall.bounds / 10)) := by
  refine ⟨unitBall_solid, unitBall_lip, unitBall_bounded, ?_⟩
  have h3 : Real.sqrt 3 < 2 := by
    rw [Real.sqrt_lt' (by norm_num)]; norm_num
  simp [unitBall, longestSide, V3.norm]
  nlinarith [Real.sqrt_nonneg 3]

end Sdf.Octree
