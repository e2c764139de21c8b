import Verif.Props.C57File
import Verif.Props.C34Patterns
import Verif.Props.C08Hole

/-!
C74: moving a model moves its mesh, and scaling a model scales its mesh.  The first holds for every model and every displacement.  The
second holds as long as no distance sampled at a corner of a cell, and no triangle, falls under the fixed thresholds of 10⁻¹² at one size
and not at the other; `C74_scale_wrong` shows that for every model there is a scale at which the mesh is empty.
-/

namespace Sdf.Octree

open Stl Classical

/-- A point scaled about the origin and then moved. -/
def similar (k : ℝ) (v p : V3) : V3 := V3.add (V3.scale k p) v

/-- Helper: a grid on a scaled and moved solid. -/
structure SimilarGrid (k : ℝ) (v : V3) (dc dc' : Dc3) : Prop where
  origin : dc'.origin = similar k v dc.origin
  res : dc'.resolution = k * dc.resolution
  eval : ∀ p, dc'.s.eval (similar k v p) = k * dc.s.eval p

theorem SimilarGrid.pos {k : ℝ} {v : V3} {dc dc' : Dc3} (h : SimilarGrid k v dc dc') (i : V3i) : dc'.pos i = similar k v (dc.pos i) := by
  unfold Dc3.pos
  rw [h.origin, h.res]
  ext <;> simp [similar, V3.add, V3.scale] <;> ring

theorem SimilarGrid.value {k : ℝ} {v : V3} {dc dc' : Dc3} (h : SimilarGrid k v dc dc') (i : V3i) : dc'.value i = k * dc.value i := by
  unfold Dc3.value
  rw [h.pos, h.eval]

theorem SimilarGrid.hdiag {k : ℝ} (hk : 0 < k) {v : V3} {dc dc' : Dc3} (h : SimilarGrid k v dc dc') (i : Nat) :
    dc'.hdiag i = k * dc.hdiag i := by
  unfold Dc3.hdiag
  have h3 : (3.0 : ℝ) = 3 := by norm_num
  have h5 : (0.5 : ℝ) = 1 / 2 := by norm_num
  simp only [h3, h5]
  rw [h.res, show (3 : ℝ) * (2 ^ i * (k * dc.resolution)) * (2 ^ i * (k * dc.resolution))
    = k ^ 2 * (3 * (2 ^ i * dc.resolution) * (2 ^ i * dc.resolution)) by ring, Real.sqrt_mul (by positivity), Real.sqrt_sq hk.le]
  ring

theorem SimilarGrid.skipped {k : ℝ} (hk : 0 < k) {v : V3} {dc dc' : Dc3} (h : SimilarGrid k v dc dc') (c : Cube) :
    Skipped dc' c ↔ Skipped dc c := by
  unfold Skipped
  rw [h.hdiag hk, h.value, abs_mul, abs_of_pos hk, mul_le_mul_iff_right₀ hk]

theorem SimilarGrid.leaves {k : ℝ} (hk : 0 < k) {v : V3} {dc dc' : Dc3} (h : SimilarGrid k v dc dc') :
    ∀ n o, leaves dc' n o = leaves dc n o
  | 0, _ => rfl
  | 1, _ => rfl
  | n + 2, o => by
    unfold Octree.leaves
    have e : (fun c => decide (¬ Skipped dc' c)) = (fun c => decide (¬ Skipped dc c)) := by
      funext c
      simp only [h.skipped hk c]
    rw [e]
    congr 1
    funext c
    exact h.leaves hk (n + 1) c.o

theorem interpolate_similar {k : ℝ} (hk : 0 < k) (v p q : V3) (a b : ℝ) (ha : |k * a| < MC.epsilon ↔ |a| < MC.epsilon)
    (hb : |k * b| < MC.epsilon ↔ |b| < MC.epsilon) :
    MC.interpolate (similar k v p) (similar k v q) (k * a) (k * b) 0 = similar k v (MC.interpolate p q a b 0) := by
  unfold MC.interpolate
  have e : (0 - k * a) / (k * b - k * a) = (0 - a) / (b - a) := by
    rw [show 0 - k * a = k * (0 - a) by ring, show k * b - k * a = k * (b - a) by ring, mul_div_mul_left _ _ hk.ne']
  have ha' : |0 - k * a| < MC.epsilon ↔ |0 - a| < MC.epsilon := by simpa using ha
  have hb' : |0 - k * b| < MC.epsilon ↔ |0 - b| < MC.epsilon := by simpa using hb
  simp only
  by_cases h1 : |0 - a| < MC.epsilon <;> by_cases h2 : |0 - b| < MC.epsilon
  · rw [if_neg (fun h => h.2 (hb'.2 h2)), if_neg (fun h => h.2 (ha'.2 h1)), if_pos ⟨ha'.2 h1, hb'.2 h2⟩,
      if_neg (fun h => h.2 h2), if_neg (fun h => h.2 h1), if_pos ⟨h1, h2⟩]
    ext <;> simp [similar, V3.add, V3.scale] <;> ring
  · rw [if_pos ⟨ha'.2 h1, fun h => h2 (hb'.1 h)⟩, if_pos ⟨h1, h2⟩]
  · rw [if_neg (fun h => h1 (ha'.1 h.1)), if_pos ⟨hb'.2 h2, fun h => h1 (ha'.1 h)⟩, if_neg (fun h => h1 h.1), if_pos ⟨h2, h1⟩]
  · rw [if_neg (fun h => h1 (ha'.1 h.1)), if_neg (fun h => h2 (hb'.1 h.1)), if_neg (fun h => h1 (ha'.1 h.1)),
      if_neg (fun h => h1 h.1), if_neg (fun h => h2 h.1), if_neg (fun h => h1 h.1), e]
    ext <;> simp [similar, V3.add, V3.scale] <;> ring

theorem raw_similar {k : ℝ} (hk : 0 < k) (v : V3) (p : Fin 8 → V3) (d : Fin 8 → ℝ)
    (hd : ∀ i, |k * d i| < MC.epsilon ↔ |d i| < MC.epsilon) :
    MC.rawTriangles (fun i => similar k v (p i)) (fun i => k * d i) 0 = (MC.rawTriangles p d 0).map (Tri.moved (similar k v)) := by
  rw [MC.rawTriangles_eq, MC.rawTriangles_eq]
  have e : MC.neg (fun i => k * d i) 0 = MC.neg d 0 := by
    funext i
    unfold MC.neg
    have : k * d i < 0 ↔ d i < 0 := by
      constructor
      · intro h; by_contra h'; exact absurd h (not_lt.mpr (mul_nonneg hk.le (not_lt.mp h')))
      · intro h; exact mul_neg_of_pos_of_neg hk h
    simp only [this]
  rw [e, List.map_map]
  apply List.map_congr_left
  intro t _
  have q : ∀ j, MC.ptsAll (fun i => similar k v (p i)) (fun i => k * d i) 0 j = similar k v (MC.ptsAll p d 0 j) := by
    intro j
    unfold MC.ptsAll
    exact interpolate_similar hk v _ _ _ _ (hd _) (hd _)
  simp only [q, Function.comp, Tri.moved]

theorem leaf_similar {k : ℝ} (hk : 0 < k) {v : V3} {dc dc' : Dc3} (h : SimilarGrid k v dc dc') (deg : Tri → Bool) (c : Cube)
    (hd : ∀ i, |k * dc.value (leafCorners c i)| < MC.epsilon ↔ |dc.value (leafCorners c i)| < MC.epsilon)
    (hdeg : ∀ t ∈ MC.rawTriangles (fun i => dc.pos (leafCorners c i)) (fun i => dc.value (leafCorners c i)) 0,
      deg (t.moved (similar k v)) = deg t) :
    leafTris deg dc' c = (leafTris deg dc c).map (Tri.moved (similar k v)) := by
  unfold leafTris
  simp only [h.pos, h.value]
  rw [raw_similar hk v (fun i => dc.pos (leafCorners c i)) (fun i => dc.value (leafCorners c i)) hd, List.filter_map]
  congr 1
  apply List.filter_congr
  intro t ht
  simp only [Function.comp, hdeg t ht]

theorem box_translate (b : Box3) (hb : b.Solid) (v : V3) : (M44.translate v).mulBox b = ⟨similar 1 v b.lo, similar 1 v b.hi⟩ := by
  obtain ⟨h1, h2, h3⟩ := hb
  unfold M44.mulBox M44.translate similar
  ext <;> simp [V3.add, V3.scale, V3.minElem, V3.maxElem, h1.le, h2.le, h3.le]

theorem box_scale (b : Box3) (hb : b.Solid) {k : ℝ} (hk : 0 < k) :
    (M44.scale ⟨k, k, k⟩).mulBox b = ⟨similar k ⟨0, 0, 0⟩ b.lo, similar k ⟨0, 0, 0⟩ b.hi⟩ := by
  obtain ⟨h1, h2, h3⟩ := hb
  have e1 := mul_le_mul_of_nonneg_right h1.le hk.le
  have e2 := mul_le_mul_of_nonneg_right h2.le hk.le
  have e3 := mul_le_mul_of_nonneg_right h3.le hk.le
  unfold M44.mulBox M44.scale similar
  ext <;> simp [V3.add, V3.scale, V3.minElem, V3.maxElem, e1, e2, e3] <;> ring

theorem similar_solid (b : Box3) (hb : b.Solid) {k : ℝ} (hk : 0 < k) (v : V3) : (⟨similar k v b.lo, similar k v b.hi⟩ : Box3).Solid := by
  obtain ⟨h1, h2, h3⟩ := hb
  refine ⟨?_, ?_, ?_⟩ <;> simp only [similar, V3.add, V3.scale] <;> nlinarith

/-- Helper: the renderers made for a solid and for a scaled and moved copy. -/
theorem similar_renderers {s t : SDF3} {k : ℝ} (hk : 0 < k) {v : V3} (hb : s.bounds.Solid)
    (hbt : t.bounds = ⟨similar k v s.bounds.lo, similar k v s.bounds.hi⟩) (ht : ∀ p, t.eval (similar k v p) = k * s.eval p)
    {m : ℤ} {oc oc' : State} (h : Initial s m oc) (h' : Initial t m oc') :
    SimilarGrid k v oc.dc oc'.dc ∧ oc'.dc.levels = oc.dc.levels := by
  have f := initial_facts hb h
  have f' := initial_facts (by rw [hbt]; exact similar_solid _ hb hk v) h'
  refine ⟨⟨?_, ?_, ?_⟩, by rw [f.levels, f'.levels]⟩
  · rw [f.origin, f'.origin, hbt, scaled_lo, scaled_lo]
    ext <;> simp only [similar, V3.add, V3.scale] <;> ring
  · rw [f.res, f'.res, longAxis_eq, longAxis_eq, hbt]
    have e : ∀ a b c : ℝ, k * a + c - (k * b + c) = k * (a - b) := fun a b c => by ring
    simp only [similar, V3.add, V3.scale, e]
    rw [← mul_max_of_nonneg _ _ hk.le, ← mul_max_of_nonneg _ _ hk.le]
    generalize (1.01 : ℝ) = g
    ring
  · rw [f.dc_s, f'.dc_s]; exact ht

theorem similar_mesh {s t : SDF3} {k : ℝ} (hk : 0 < k) {v : V3} (hb : s.bounds.Solid)
    (hbt : t.bounds = ⟨similar k v s.bounds.lo, similar k v s.bounds.hi⟩) (ht : ∀ p, t.eval (similar k v p) = k * s.eval p)
    {m : ℤ} {oc oc' : State} (h : Initial s m oc) (h' : Initial t m oc') (deg : Tri → Bool)
    (hd : ∀ c ∈ allCells (oc.dc.levels - 1), ∀ i,
      |k * oc.dc.value (leafCorners c i)| < MC.epsilon ↔ |oc.dc.value (leafCorners c i)| < MC.epsilon)
    (hdeg : ∀ c ∈ allCells (oc.dc.levels - 1),
      ∀ t ∈ MC.rawTriangles (fun i => oc.dc.pos (leafCorners c i)) (fun i => oc.dc.value (leafCorners c i)) 0,
      deg (t.moved (similar k v)) = deg t)
    {e e' : State} {outs outs' : List (List Tri)} (r : Calls deg oc outs e true) (r' : Calls deg oc' outs' e' true) :
    outs'.flatten.Perm (outs.flatten.map (Tri.moved (similar k v))) := by
  obtain ⟨g, hl⟩ := similar_renderers hk hb hbt ht h h'
  have c1 := complete_perm hb h r
  have c2 := complete_perm (by rw [hbt]; exact similar_solid _ hb hk v) h' r'
  refine c2.trans (List.Perm.trans (List.Perm.of_eq ?_) (c1.map _).symm)
  unfold mesh
  simp only
  rw [hl, g.leaves hk, List.map_flatMap]
  apply List.flatMap_congr
  intro c hc
  have hc' : c ∈ allCells (oc.dc.levels - 1) := mem_allCells.mpr (leaves_in _ _ _ _ hc)
  exact leaf_similar hk g deg c (hd c hc') (hdeg c hc')

/-- Rendering a moved solid gives the moved mesh of the solid, triangle by triangle, whatever the order in which they are delivered.
`deg` stands for the test for degenerate triangles, which looks at their shape only. -/
theorem C74_move (deg : Tri → Bool) (v : V3) (hdeg : ∀ t, deg (t.moved fun p => V3.add p v) = deg t)
    (s : SDF3) (hb : s.bounds.Solid) (meshCells : ℤ) (oc oc' e e' : State) (outs outs' : List (List Tri))
    (h : Initial s meshCells oc) (r : Calls deg oc outs e true)
    (h' : Initial (s.transform (M44.translate v)) meshCells oc') (r' : Calls deg oc' outs' e' true) :
    outs'.flatten.Perm (outs.flatten.map (Tri.moved fun p => V3.add p v)) := by
  have e1 : similar 1 v = fun p => V3.add p v := by
    funext p; ext <;> simp [similar, V3.add, V3.scale]
  rw [← e1] at hdeg ⊢
  refine similar_mesh one_pos hb (box_translate _ hb v) ?_ h h' deg (fun c _ i => by rw [one_mul]) (fun c _ t _ => hdeg t) r r'
  intro p
  have := (C19_transform3 s _ (M44.translate_affine v).1 (M44.translate_affine v).2 p).1
  rw [M44.translate_mulPosition] at this
  rw [e1, one_mul]
  exact this

/-- Rendering a scaled solid gives the scaled mesh of the solid, provided that the two fixed thresholds of 10⁻¹² do not tell the two sizes
apart: distances at corners of cells count as zero at both sizes or at neither, and so do triangles as degenerate. -/
theorem C74_scale_partial (deg : Tri → Bool) (k : ℝ) (hk : 0 < k)
    (s : SDF3) (hb : s.bounds.Solid) (meshCells : ℤ) (oc oc' e e' : State) (outs outs' : List (List Tri))
    (h : Initial s meshCells oc) (r : Calls deg oc outs e true)
    (hd : ∀ c ∈ allCells (oc.dc.levels - 1), ∀ i,
      |k * oc.dc.value (leafCorners c i)| < 1e-12 ↔ |oc.dc.value (leafCorners c i)| < 1e-12)
    (hdeg : ∀ c ∈ allCells (oc.dc.levels - 1),
      ∀ t ∈ MC.rawTriangles (fun i => oc.dc.pos (leafCorners c i)) (fun i => oc.dc.value (leafCorners c i)) 0,
      deg (t.moved (V3.scale k)) = deg t)
    (h' : Initial (s.scaleUniform k) meshCells oc') (r' : Calls deg oc' outs' e' true) :
    outs'.flatten.Perm (outs.flatten.map (Tri.moved (V3.scale k))) := by
  have e1 : similar k ⟨0, 0, 0⟩ = V3.scale k := by
    funext p; ext <;> simp [similar, V3.add, V3.scale]
  rw [← e1] at hdeg ⊢
  refine similar_mesh hk hb (box_scale _ hb hk) ?_ h h' deg hd hdeg r r'
  rw [e1]
  exact (C19_scale3 s k hk).1

/-- The corners of a triangle lie in one cell of the grid, so they are no further apart than twice the edge of the cell. -/
theorem corners_close (dc : Dc3) (hr : 0 < dc.resolution) (c : Cube) (d : Fin 8 → ℝ) (v w : V3)
    (hv : MC.OnCrossingEdge (fun i => dc.pos (leafCorners c i)) d 0 v) (hw : MC.OnCrossingEdge (fun i => dc.pos (leafCorners c i)) d 0 w) :
    V3.dist v w ≤ 4 * dc.resolution := by
  have hbox : ∀ i, ∃ x y z : ℝ, (0 ≤ x ∧ x ≤ 1) ∧ (0 ≤ y ∧ y ≤ 1) ∧ (0 ≤ z ∧ z ≤ 1) ∧
      dc.pos (leafCorners c i) = ⟨(dc.pos c.o).x + 2 * dc.resolution * x, (dc.pos c.o).y + 2 * dc.resolution * y,
        (dc.pos c.o).z + 2 * dc.resolution * z⟩ := by
    intro i
    refine ⟨if i = 1 ∨ i = 2 ∨ i = 5 ∨ i = 6 then 1 else 0, if i = 2 ∨ i = 3 ∨ i = 6 ∨ i = 7 then 1 else 0,
      if i = 4 ∨ i = 5 ∨ i = 6 ∨ i = 7 then 1 else 0, by split <;> norm_num, by split <;> norm_num, by split <;> norm_num, ?_⟩
    fin_cases i <;> simp [leafCorners, Dc3.pos, V3i.add, V3i.toV3, V3.add, V3.scale] <;> (try constructor) <;> (try constructor) <;> ring
  have hcell : ∀ w, MC.OnCrossingEdge (fun i => dc.pos (leafCorners c i)) d 0 w → ∃ x y z : ℝ, (0 ≤ x ∧ x ≤ 1) ∧ (0 ≤ y ∧ y ≤ 1) ∧
      (0 ≤ z ∧ z ≤ 1) ∧ w = ⟨(dc.pos c.o).x + 2 * dc.resolution * x, (dc.pos c.o).y + 2 * dc.resolution * y,
        (dc.pos c.o).z + 2 * dc.resolution * z⟩ := by
    rintro w ⟨a, b, -, -, -, u, u0, u1, rfl⟩
    obtain ⟨x, y, z, hx, hy, hz, e⟩ := hbox a
    obtain ⟨x', y', z', hx', hy', hz', e'⟩ := hbox b
    have conv : ∀ p q : ℝ, 0 ≤ p ∧ p ≤ 1 → 0 ≤ q ∧ q ≤ 1 → 0 ≤ p + u * (q - p) ∧ p + u * (q - p) ≤ 1 := by
      intro p q hp hq
      constructor <;> nlinarith [mul_nonneg u0 hq.1, mul_nonneg (sub_nonneg.mpr u1) hp.1, mul_nonneg u0 (sub_nonneg.mpr hq.2),
        mul_nonneg (sub_nonneg.mpr u1) (sub_nonneg.mpr hp.2)]
    refine ⟨_, _, _, conv x x' hx hx', conv y y' hy hy', conv z z' hz hz', ?_⟩
    simp only [e, e']
    ext <;> simp only [V3.add, V3.scale, V3.sub] <;> ring
  obtain ⟨x, y, z, hx, hy, hz, rfl⟩ := hcell v hv
  obtain ⟨x', y', z', hx', hy', hz', rfl⟩ := hcell w hw
  have sq : ∀ p q : ℝ, 0 ≤ p ∧ p ≤ 1 → 0 ≤ q ∧ q ≤ 1 → (p - q) * (p - q) ≤ 1 := by
    intro p q hp hq; nlinarith
  have k1 := sq x x' hx hx'
  have k2 := sq y y' hy hy'
  have k3 := sq z z' hz hz'
  unfold V3.dist V3.norm V3.sub
  rw [Real.sqrt_le_left (by linarith)]
  have hr2 : 0 ≤ dc.resolution * dc.resolution := by positivity
  have n1 := mul_le_mul_of_nonneg_left k1 hr2
  have n2 := mul_le_mul_of_nonneg_left k2 hr2
  have n3 := mul_le_mul_of_nonneg_left k3 hr2
  simp only
  nlinarith

/-- Scaling does not always scale the mesh: every solid has a copy, scaled down, whose mesh is empty.  `deg` is any test for degenerate
triangles which, like the one used, rejects those with corners less than 10⁻¹² apart. -/
theorem C74_scale_wrong (deg : Tri → Bool)
    (hdeg : ∀ t, V3.dist t.a t.b < 1e-12 → V3.dist t.b t.c < 1e-12 → V3.dist t.c t.a < 1e-12 → deg t = true)
    (s : SDF3) (hb : s.bounds.Solid) (meshCells : ℤ) : ∃ k > 0, ∀ oc e outs,
      Initial (s.scaleUniform k) meshCells oc → Calls deg oc outs e true → outs.flatten = [] := by
  have hl := longAxis_pos s hb
  have hk : 0 < 1e-13 / longAxis s := by positivity
  refine ⟨_, hk, ?_⟩
  intro oc e outs h r
  have hbs : (s.scaleUniform (1e-13 / longAxis s)).bounds.Solid := by
    show ((M44.scale _).mulBox s.bounds).Solid
    rw [box_scale _ hb hk]
    exact similar_solid _ hb hk _
  have f := initial_facts hbs h
  have hr := res_pos hbs f
  have hres : oc.dc.resolution ≤ 1e-13 / 4 := by
    have hm : (2 : ℝ) ≤ (meshCells : ℝ) := by exact_mod_cast f.m_ge
    have hla : longAxis (s.scaleUniform (1e-13 / longAxis s)) = 1e-13 := by
      rw [longAxis_eq, show (s.scaleUniform (1e-13 / longAxis s)).bounds = (M44.scale _).mulBox s.bounds from rfl, box_scale _ hb hk]
      have e : ∀ a b : ℝ, 1e-13 / longAxis s * a + 0 - (1e-13 / longAxis s * b + 0) = 1e-13 / longAxis s * (a - b) := fun a b => by ring
      simp only [similar, V3.add, V3.scale, e]
      rw [← mul_max_of_nonneg _ _ hk.le, ← mul_max_of_nonneg _ _ hk.le, mul_left_comm, ← longAxis_eq]
      field_simp
    rw [f.res, hla]
    apply div_le_div_of_nonneg_left (by norm_num) (by norm_num) (by linarith)
  rw [List.eq_nil_iff_forall_not_mem]
  intro t ht
  have hm := (complete_perm hbs h r).mem_iff.mp ht
  simp only [mesh, List.mem_flatMap] at hm
  obtain ⟨c, -, htc⟩ := hm
  obtain ⟨ca, cb, cc⟩ := MC.C09_vertices_on_crossing_edges deg 5 (fun i => oc.dc.pos (leafCorners c i))
    (fun i => oc.dc.value (leafCorners c i)) 0 _ rfl t htc
  have close : ∀ x : ℝ, x ≤ 4 * oc.dc.resolution → x < 1e-12 := by
    intro x hx
    have : (4 : ℝ) * (1e-13 / 4) < 1e-12 := by norm_num
    linarith
  have hd := hdeg t (close _ (corners_close _ hr c _ _ _ ca cb)) (close _ (corners_close _ hr c _ _ _ cb cc))
    (close _ (corners_close _ hr c _ _ _ cc ca))
  unfold leafTris at htc
  have := (List.mem_filter.mp htc).2
  rw [hd] at this
  simp at this

/-- A cube rendered at two sizes: distances at grid points are whole numbers, so the thresholds do not matter when it is doubled, and with
them neither does a test for degenerate triangles that looks for coinciding corners. -/
example (oc : State) (h : Initial gridCube 4 oc) :
    (∀ c ∈ allCells (oc.dc.levels - 1), ∀ i,
      |2 * oc.dc.value (leafCorners c i)| < 1e-12 ↔ |oc.dc.value (leafCorners c i)| < 1e-12) ∧
    (∀ t : Tri, decide ((t.moved (V3.scale 2)).a = (t.moved (V3.scale 2)).b) = decide (t.a = t.b)) ∧
    ∀ (v : V3) (t : Tri), decide ((t.moved fun p => V3.add p v).a = (t.moved fun p => V3.add p v).b) = decide (t.a = t.b) := by
  have hb : gridCube.bounds.Solid := by simp only [gridCube, Box3.Solid]; norm_num
  have f := initial_facts hb h
  refine ⟨?_, ?_, ?_⟩
  · intro c _ i
    generalize leafCorners c i = q
    have hr : oc.dc.resolution = 1 := by
      rw [f.res, longAxis_eq]; simp only [gridCube]; norm_num
    have ho : oc.dc.origin = ⟨-4, -4, -4⟩ := by
      rw [f.origin, scaled_lo]; simp only [gridCube]; ext <;> norm_num
    have hv : ∃ n : ℤ, oc.dc.value q = n := by
      refine ⟨max |q.x - 4| (max |q.y - 4| |q.z - 4|) - 2, ?_⟩
      simp only [Dc3.value, f.dc_s, gridCube, Dc3.pos, hr, ho, V3.add, V3.scale, V3i.toV3]
      push_cast
      rw [show (-4 : ℝ) + 1 * q.x = q.x - 4 by ring, show (-4 : ℝ) + 1 * q.y = q.y - 4 by ring,
        show (-4 : ℝ) + 1 * q.z = q.z - 4 by ring]
    obtain ⟨n, hn⟩ := hv
    rw [hn]
    by_cases h0 : n = 0
    · subst h0; simp
    · have h1 : (1 : ℝ) ≤ |(n : ℝ)| := by exact_mod_cast Int.one_le_abs h0
      have e : |2 * (n : ℝ)| = 2 * |(n : ℝ)| := by rw [abs_mul, abs_two]
      rw [e]
      constructor <;> intro hh <;> norm_num at hh <;> linarith
  · intro t
    congr 1
    simp only [Tri.moved, V3.scale, V3.ext_iff, eq_iff_iff]
    constructor <;> rintro ⟨h1, h2, h3⟩ <;> exact ⟨by linarith, by linarith, by linarith⟩
  · intro v t
    congr 1
    simp only [Tri.moved, V3.add, V3.ext_iff, eq_iff_iff]
    constructor <;> rintro ⟨h1, h2, h3⟩ <;> exact ⟨by linarith, by linarith, by linarith⟩

end Sdf.Octree
