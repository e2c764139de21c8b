import Verif.Props.C08
import Verif.Props.C09
import Verif.Lemmas.StlFile
import Verif.Props.C15Bounds
import Verif.Props.C17Lipschitz
import Verif.Lemmas.MCAccuracy

/-!
C57: the STL file of a solid describes a closed surface.
-/

namespace Sdf

/-- The triangle with its corners moved. -/
def Tri.moved (f : V3 → V3) (t : Tri) : Tri := ⟨f t.a, f t.b, f t.c⟩

open Classical in
/-- Moving corners, the same corner always to the same place, keeps a closed surface closed. -/
theorem C57_moved_closed (f : V3 → V3) (m : List Tri) (h : Closed m) : Closed (m.map (Tri.moved f)) := by
  have key : ∀ m : List Tri, Closed m ↔ (m.flatMap Tri.edges).Perm ((m.flatMap Tri.edges).map Prod.swap) := by
    intro m
    rw [List.perm_iff_count]
    unfold Closed edgeCount
    have e : ∀ p q, ((m.flatMap Tri.edges).map Prod.swap).count (p, q) = (m.flatMap Tri.edges).count (q, p) := by
      intro p q
      have := List.count_map_of_injective (m.flatMap Tri.edges) Prod.swap Prod.swap_injective (q, p)
      simpa using this
    constructor
    · rintro h ⟨p, q⟩
      rw [e]; exact h p q
    · intro h p q
      rw [h (p, q), e]
  have he : (m.map (Tri.moved f)).flatMap Tri.edges = (m.flatMap Tri.edges).map (Prod.map f f) := by
    rw [List.map_flatMap, List.flatMap_map]
    rfl
  rw [key] at h ⊢
  rw [he]
  have := h.map (Prod.map f f)
  rw [List.map_map] at this ⊢
  exact this

end Sdf

namespace Sdf.Stl

open Octree

/-- The STL file that `CreateSTL` writes for a solid with valid distances and bounds, at any resolution, with any number of goroutines and any
schedule, holds a closed, consistently oriented surface, although every coordinate has been rounded to float32. -/
theorem C57_stl_closed (c : Conv) (s : SDF3) (meshCells : ℤ) (hb : s.bounds.Solid) (hl : Lip3 s.eval) (hbd : s.Bounded)
    (deg : Tri → Bool) (hdeg : ∀ t, deg t = true → t.a = t.b ∨ t.b = t.c ∨ t.c = t.a)
    (oc oc' : State) (h0 : Initial s meshCells oc)
    (hz : ∀ q ∈ allCells (oc.dc.levels - 1), Clear oc.dc q)
    (bytes : List Byte) (h : CreateSTL c (octree deg) 50 oc bytes oc') (hsize : bytes.length < 84 + 50 * 2 ^ 32) :
    Closed (storedTriangles c bytes) := by
  obtain ⟨outs, hc, he⟩ := stored_octree c deg s meshCells hb oc oc' h0 bytes h hsize
  rw [he]
  exact C57_moved_closed (fun v => ⟨c.f64 (c.f32 v.x), c.f64 (c.f32 v.y), c.f64 (c.f32 v.z)⟩) _
    (C08_octree_mesh_closed s meshCells hb hl hbd deg hdeg oc oc' outs h0 hc hz)

/-- Every corner stored in the file is within a cell edge and a rounding error of the surface.  `d` bounds the rounding error of each
coordinate that is rendered. -/
theorem C57_stl_accurate (c : Conv) (s : SDF3) (meshCells : ℤ) (hb : s.bounds.Solid) (hl : Lip3 s.eval)
    (deg : Tri → Bool) (oc oc' : State) (h0 : Initial s meshCells oc) (d : ℝ)
    (hround : ∀ p, (∃ q, s.eval q = 0 ∧ V3.dist p q ≤ 1.01 * longestSide s.bounds / meshCells) →
      |c.f64 (c.f32 p.x) - p.x| ≤ d ∧ |c.f64 (c.f32 p.y) - p.y| ≤ d ∧ |c.f64 (c.f32 p.z) - p.z| ≤ d)
    (bytes : List Byte) (h : CreateSTL c (octree deg) 50 oc bytes oc') (hsize : bytes.length < 84 + 50 * 2 ^ 32)
    (t : Tri) (ht : t ∈ storedTriangles c bytes) (k : Fin 3) :
    ∃ q, s.eval q = 0 ∧ V3.dist (t.vertex k) q ≤ 1.01 * longestSide s.bounds / meshCells + Real.sqrt 3 * d := by
  obtain ⟨outs, hc, he⟩ := stored_octree c deg s meshCells hb oc oc' h0 bytes h hsize
  rw [he, List.mem_map] at ht
  obtain ⟨t', ht', rfl⟩ := ht
  have hnear := C09_vertices_near_surface deg s meshCells hb hl oc oc' true outs h0 hc t' ht'
  have key : ∀ w, (w = t'.a ∨ w = t'.b ∨ w = t'.c) →
      ∃ q, s.eval q = 0 ∧ V3.dist ⟨c.f64 (c.f32 w.x), c.f64 (c.f32 w.y), c.f64 (c.f32 w.z)⟩ q
        ≤ 1.01 * longestSide s.bounds / meshCells + Real.sqrt 3 * d := by
    intro w hw
    obtain ⟨q, hq, hqd⟩ := hnear w hw
    obtain ⟨r1, r2, r3⟩ := hround w ⟨q, hq, hqd⟩
    refine ⟨q, hq, (V3.dist_triangle _ w _).trans ?_⟩
    have hd0 : 0 ≤ d := (abs_nonneg _).trans r1
    have sq : ∀ {x : ℝ}, |x| ≤ d → x * x ≤ d * d := by
      intro x hx
      have := abs_le.mp hx
      nlinarith
    have : V3.dist ⟨c.f64 (c.f32 w.x), c.f64 (c.f32 w.y), c.f64 (c.f32 w.z)⟩ w ≤ Real.sqrt 3 * d := by
      unfold V3.dist V3.norm
      rw [Real.sqrt_le_left (by positivity), mul_pow, Real.sq_sqrt (by norm_num)]
      simp only [V3.sub]
      nlinarith [sq r1, sq r2, sq r3]
    linarith
  fin_cases k
  · exact key t'.a (Or.inl rfl)
  · exact key t'.b (Or.inr (Or.inl rfl))
  · exact key t'.c (Or.inr (Or.inr rfl))

/-- From the constructors to the file: for every solid assembled from the constructors of `Assembled` under the conditions of `Boxed`
(both are trees of unbounded size), the file holds a closed surface. -/
theorem C57_assembled (c : Conv) (s : SDF3) (meshCells : ℤ) (hb : s.bounds.Solid) (ha : Assembled (.sol s))
    (r : ℝ) (hx : Boxed .inside r (.sol s))
    (deg : Tri → Bool) (hdeg : ∀ t, deg t = true → t.a = t.b ∨ t.b = t.c ∨ t.c = t.a)
    (oc oc' : State) (h0 : Initial s meshCells oc)
    (hz : ∀ q ∈ allCells (oc.dc.levels - 1), Clear oc.dc q)
    (bytes : List Byte) (h : CreateSTL c (octree deg) 50 oc bytes oc') (hsize : bytes.length < 84 + 50 * 2 ^ 32) :
    Closed (storedTriangles c bytes) :=
  C57_stl_closed c s meshCells hb (C17_solid_partial s ha) (C15_solid_partial r s hx) deg hdeg oc oc' h0 hz bytes h hsize

/-- The file does get written: `CreateSTL` with a fresh octree renderer can always be run to its end. -/
theorem C57_finishes (c : Conv) (deg : Tri → Bool) (s : SDF3) (meshCells : ℤ) (hb : s.bounds.Solid) (oc : State)
    (h0 : Initial s meshCells oc) : ∃ bytes oc', CreateSTL c (octree deg) 50 oc bytes oc' := by
  obtain ⟨w, oc', h⟩ := copy_finishes c deg _ oc le_rfl (initial_ok (initial_facts hb h0))
  exact ⟨_, oc', .mk h⟩

/-- A ball with a cylindrical hole is such a solid. -/
example (b k : SDF3) (h1 : Must3.sphere 1 = some b) (h2 : Must3.cylinder 3 (1 / 2) 0 = some k) :
    Assembled (.sol (SDF3.difference b k)) ∧ Boxed .inside 0 (.sol (SDF3.difference b k)) :=
  ⟨.difference3 _ _ (.sphere _ _ h1) (.cylinder _ _ _ _ h2),
    .difference3 _ _ _ _ (.axes_inside 0 _ _ le_rfl (.all_axes _ _ (.sphere _ _ _ h1)))⟩

end Sdf.Stl
