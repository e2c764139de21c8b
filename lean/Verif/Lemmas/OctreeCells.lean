import Verif.Lemmas.OctreeDense
import Verif.Lemmas.MCVolumeGrid
import Verif.Props.C02

/-! Helper lemmas: what the octree renderer delivers, as the triangles of the cells of a grid. -/

namespace Sdf.Octree

open Classical MC

/-- Everything the octree renderer delivers until `io.EOF`, in some order: the triangles, without those that `deg` drops, of distinct
cells of a grid of cubes that include every cell with a sign change.; every corner of a cell with a sign change is a vertex of the rendered
grid. -/
theorem octree_cells_in (s : SDF3) (meshCells : ℤ) (hb : s.bounds.Solid) (hl : Lip3 s.eval) (hbd : s.Bounded)
    (deg : Tri → Bool)
    (oc oc' : State) (outs : List (List Tri)) (h0 : Initial s meshCells oc) (h : Calls deg oc outs oc' true)
    (hz : ∀ c ∈ allCells (oc.dc.levels - 1), Clear oc.dc c) :
    let g := gridPos oc.dc.origin (2 * oc.dc.resolution)
    let v : ℤ → ℤ → ℤ → ℝ := fun i j k => s.eval (g i j k)
    {c : ℤ × ℤ × ℤ | v c.1 c.2.1 c.2.2 < 0}.Finite
    ∧ ∃ cells : List (ℤ × ℤ × ℤ), cells.Nodup ∧ (∀ c, Mixed (cellCorners v c) 0 → c ∈ cells)
      ∧ (∀ c, Mixed (cellCorners v c) 0 → ∀ a, ∃ c' ∈ allCells (oc.dc.levels - 1), cellCorners g c a = oc.dc.pos (leafCorners c' a))
      ∧ outs.flatten.Perm ((cells.flatMap fun c => rawTriangles (cellCorners g c) (cellCorners v c) 0).filter fun t => !deg t) := by
  intro g v
  have f := initial_facts hb h0
  have hr := res_pos hb f
  have hd := depth_ge meshCells f.m_ge
  set n := oc.dc.levels - 1 with hn
  have hn1 : 1 ≤ n := by rw [hn, f.levels]; omega
  have eg : ∀ i j k, g i j k = oc.dc.pos ⟨2 * i, 2 * j, 2 * k⟩ := by
    intro i j k
    simp only [g, gridPos, Dc3.pos, V3.add, V3.scale, V3i.toV3]
    push_cast
    ext <;> simp only <;> ring
  have ev : ∀ i j k, v i j k = oc.dc.value ⟨2 * i, 2 * j, 2 * k⟩ := by
    intro i j k
    simp only [v, eg, Dc3.value, f.dc_s]
  let half : Cube → ℤ × ℤ × ℤ := fun c => (c.o.x / 2, c.o.y / 2, c.o.z / 2)
  have hcell : ∀ i j k : ℤ, ∀ q, leafCorners ⟨⟨2 * i, 2 * j, 2 * k⟩, 1⟩ q
      = cellCorners (fun i j k => (⟨2 * i, 2 * j, 2 * k⟩ : V3i)) (i, j, k) q := by
    intro i j k q
    fin_cases q <;> simp [leafCorners, cellCorners, V3i.add] <;> ring_nf <;> simp
  have hg : ∀ i j k : ℤ, (fun q => oc.dc.pos (leafCorners ⟨⟨2 * i, 2 * j, 2 * k⟩, 1⟩ q)) = cellCorners g (i, j, k) := by
    intro i j k; funext q; rw [hcell]; fin_cases q <;> simp [cellCorners, eg]
  have hv : ∀ i j k : ℤ, (fun q => oc.dc.value (leafCorners ⟨⟨2 * i, 2 * j, 2 * k⟩, 1⟩ q)) = cellCorners v (i, j, k) := by
    intro i j k; funext q; rw [hcell]; fin_cases q <;> simp [cellCorners, ev]
  have hform : ∀ c ∈ leaves oc.dc n ⟨0, 0, 0⟩, ∃ i j k : ℤ, c = ⟨⟨2 * i, 2 * j, 2 * k⟩, 1⟩ := by
    intro c hc
    obtain ⟨h1, i, j, k, hco, _⟩ := leaves_in _ _ _ c hc
    refine ⟨i, j, k, ?_⟩
    ext <;> simp [hco, h1]
  have e : (leaves oc.dc n ⟨0, 0, 0⟩).flatMap (leafTris deg oc.dc)
      = ((((leaves oc.dc n ⟨0, 0, 0⟩).map half).flatMap fun c => MC.rawTriangles (cellCorners g c) (cellCorners v c) 0)).filter fun t => !deg t := by
    rw [List.filter_flatMap, List.flatMap_map]
    apply List.flatMap_congr
    intro c hc
    obtain ⟨i, j, k, rfl⟩ := hform c hc
    unfold leafTris
    have hh : half ⟨⟨2 * i, 2 * j, 2 * k⟩, 1⟩ = (i, j, k) := by simp [half]
    rw [hh, hg, hv]
  -- inside vertices lie strictly inside the top cube
  have hin : ∀ i j k : ℤ, v i j k < 0 → 0 < i ∧ 2 * i < 2 ^ n ∧ 0 < j ∧ 2 * j < 2 ^ n ∧ 0 < k ∧ 2 * k < 2 ^ n := by
    intro i j k hneg
    have hp : s.bounds.Contains (oc.dc.pos ⟨2 * i, 2 * j, 2 * k⟩) := by
      apply hbd; rw [← eg]; exact hneg
    obtain ⟨-, a1, a2, a3, a4, a5, a6⟩ := C02_grid_covers_bounds s meshCells oc hb h0 _ hp
    simp only [Dc3.pos, V3.add, V3.scale, V3i.toV3, Box3.size, V3.sub] at a1 a2 a3 a4 a5 a6
    push_cast at a1 a2 a3 a4 a5 a6
    rw [← hn] at a2 a4 a6
    obtain ⟨b1, b2, b3⟩ := hb
    have low : ∀ (t : ℤ) (o d : ℝ), 0 < d → o + oc.dc.resolution * 0 + 0.005 * d ≤ o + oc.dc.resolution * (2 * (t : ℝ)) → 0 < t := by
      intro t o d hd' h
      have h' : 0 < oc.dc.resolution * (2 * (t : ℝ)) := by
        have : 0 < 0.005 * d := by positivity
        linarith
      have : (0 : ℝ) < 2 * (t : ℝ) := (mul_pos_iff_of_pos_left hr).mp h'
      have : (0 : ℝ) < (t : ℝ) := by linarith
      exact_mod_cast this
    have high : ∀ (t : ℤ) (o d : ℝ), 0 < d → o + oc.dc.resolution * (2 * (t : ℝ)) + 0.005 * d ≤ o + oc.dc.resolution * 2 ^ n → 2 * t < 2 ^ n := by
      intro t o d hd' h
      have h' : 0 < oc.dc.resolution * ((2 : ℝ) ^ n - 2 * (t : ℝ)) := by
        have : 0 < 0.005 * d := by positivity
        rw [mul_sub]; linarith
      have : (0 : ℝ) < (2 : ℝ) ^ n - 2 * (t : ℝ) := (mul_pos_iff_of_pos_left hr).mp h'
      have : 2 * (t : ℝ) < (2 : ℝ) ^ n := by linarith
      exact_mod_cast this
    exact ⟨low i _ _ (by linarith) a1, high i _ _ (by linarith) a2, low j _ _ (by linarith) a3, high j _ _ (by linarith) a4,
      low k _ _ (by linarith) a5, high k _ _ (by linarith) a6⟩
  have hmixed : ∀ i j k : ℤ, Mixed (cellCorners v (i, j, k)) 0 → CellIn ⟨⟨2 * i, 2 * j, 2 * k⟩, 1⟩ n ⟨0, 0, 0⟩ := by
    rintro i j k ⟨⟨a, ha⟩, -⟩
    have hpow : (2 : ℤ) ^ n = 2 * 2 ^ (n - 1) := by
      rw [← pow_succ']; congr 1; omega
    -- the negative corner gives the range of the cell
    have hrange : 0 ≤ i ∧ i < 2 ^ (n - 1) ∧ 0 ≤ j ∧ j < 2 ^ (n - 1) ∧ 0 ≤ k ∧ k < 2 ^ (n - 1) := by
      fin_cases a <;> simp only [cellCorners] at ha
      · have := hin i j k ha; omega
      · have := hin (i + 1) j k ha; omega
      · have := hin (i + 1) (j + 1) k ha; omega
      · have := hin i (j + 1) k ha; omega
      · have := hin i j (k + 1) ha; omega
      · have := hin (i + 1) j (k + 1) ha; omega
      · have := hin (i + 1) (j + 1) (k + 1) ha; omega
      · have := hin i (j + 1) (k + 1) ha; omega
    exact ⟨rfl, i, j, k, by simp, hrange⟩
  refine ⟨?_, (leaves oc.dc n ⟨0, 0, 0⟩).map half, ?_, ?_, ?_, ?_⟩
  · -- finitely many inside vertices
    apply Set.Finite.subset ((Set.finite_Icc (0 : ℤ) (2 ^ n)).prod ((Set.finite_Icc (0 : ℤ) (2 ^ n)).prod (Set.finite_Icc (0 : ℤ) (2 ^ n))))
    rintro ⟨i, j, k⟩ hmem
    have := hin i j k hmem
    simp only [Set.mem_prod, Set.mem_Icc]
    omega
  · -- no cell twice
    apply List.Nodup.map_on _ (leaves_nodup _ _ _)
    intro a ha b hb' hab
    obtain ⟨i, j, k, rfl⟩ := hform a ha
    obtain ⟨i', j', k', rfl⟩ := hform b hb'
    simp only [half, Prod.mk.injEq] at hab
    obtain ⟨x1, x2, x3⟩ := hab
    have : i = i' := by omega
    have : j = j' := by omega
    have : k = k' := by omega
    subst i j k; rfl
  · -- every cell with a sign change is visited
    rintro ⟨i, j, k⟩ hm
    have hci := hmixed i j k hm
    obtain ⟨⟨a, ha⟩, ⟨b, hb'⟩⟩ := hm
    rw [← hv] at ha hb'
    rw [← f.dc_s] at hl
    have hmem : (⟨⟨2 * i, 2 * j, 2 * k⟩, 1⟩ : Cube) ∈ leaves oc.dc n ⟨0, 0, 0⟩ :=
      leaves_complete_clear oc.dc hr.le hl _ (by omega) hci ⟨a, ha⟩ ⟨b, hb'⟩ (hz _ (mem_allCells.mpr hci))
    refine List.mem_map.mpr ⟨_, hmem, ?_⟩
    simp [half]
  · rintro ⟨i, j, k⟩ hm a
    exact ⟨_, mem_allCells.mpr (hmixed i j k hm), by rw [← hg]⟩
  · rw [← e]
    exact complete_perm hb h0 h

/-- Everything the octree renderer delivers until `io.EOF`, in some order: the triangles, without those that `deg` drops, of distinct
cells of a grid of cubes that include every cell with a sign change. -/
theorem octree_cells (s : SDF3) (meshCells : ℤ) (hb : s.bounds.Solid) (hl : Lip3 s.eval) (hbd : s.Bounded)
    (deg : Tri → Bool)
    (oc oc' : State) (outs : List (List Tri)) (h0 : Initial s meshCells oc) (h : Calls deg oc outs oc' true)
    (hz : ∀ c ∈ allCells (oc.dc.levels - 1), Clear oc.dc c) :
    let g := gridPos oc.dc.origin (2 * oc.dc.resolution)
    let v : ℤ → ℤ → ℤ → ℝ := fun i j k => s.eval (g i j k)
    {c : ℤ × ℤ × ℤ | v c.1 c.2.1 c.2.2 < 0}.Finite
    ∧ ∃ cells : List (ℤ × ℤ × ℤ), cells.Nodup ∧ (∀ c, Mixed (cellCorners v c) 0 → c ∈ cells)
      ∧ outs.flatten.Perm ((cells.flatMap fun c => rawTriangles (cellCorners g c) (cellCorners v c) 0).filter fun t => !deg t) := by
  intro g v
  obtain ⟨hfin, cells, hnd, hcov, -, hp⟩ := octree_cells_in s meshCells hb hl hbd deg oc oc' outs h0 h hz
  exact ⟨hfin, cells, hnd, hcov, hp⟩

end Sdf.Octree
