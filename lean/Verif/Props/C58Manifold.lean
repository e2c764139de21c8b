import Verif.Lemmas.MCFan
import Verif.Props.C56Accuracy
import Verif.Props.C57File

/-!
C58: the rendered mesh is a closed manifold: every edge belongs to exactly two triangles and the triangles around a vertex form one fan.
-/

namespace Sdf.Octree

open Classical MC

/-- Being a manifold does not depend on the order of the triangles. -/
theorem manifold_perm {m n : List Tri} (h : m.Perm n) (hm : Manifold m) : Manifold n := by
  have hc : ∀ p q, edgeCount n p q = edgeCount m p q := by
    intro p q
    unfold edgeCount
    exact ((h.flatMap_right _).count_eq _).symm
  refine ⟨fun t ht => hm.corners t (h.mem_iff.mpr ht), fun t ht e he => ?_, fun p t ht u hu tp up => ?_⟩
  · rw [hc, hc]
    exact hm.edges t (h.mem_iff.mpr ht) e he
  · refine Relation.ReflTransGen.mono ?_ _ _ (hm.fans p t (h.mem_iff.mpr ht) u (h.mem_iff.mpr hu) tp up)
    rintro a b ⟨h1, h2, h3⟩
    exact ⟨h.mem_iff.mp h1, h.mem_iff.mp h2, h3⟩

/-- The mesh delivered by the time of `io.EOF` is a closed manifold, for every shape whose distances are valid and whose bounding box
holds it, at every resolution, for every sequence of buffers and every schedule of the goroutines, provided no grid vertex is within the
tolerance 1e-12 of the surface. -/
theorem C58_manifold (s : SDF3) (meshCells : ℤ) (hb : s.bounds.Solid) (hl : Lip3 s.eval) (hbd : s.Bounded)
    (deg : Tri → Bool) (hdeg : ∀ t, deg t = true → t.a = t.b ∨ t.b = t.c ∨ t.c = t.a)
    (oc oc' : State) (outs : List (List Tri)) (h0 : Initial s meshCells oc) (h : Calls deg oc outs oc' true)
    (hfar : ∀ c ∈ allCells (oc.dc.levels - 1), ∀ a, 1e-12 ≤ |s.eval (oc.dc.pos (leafCorners c a))|) :
    Manifold outs.flatten := by
  have hz : ∀ c ∈ allCells (oc.dc.levels - 1), Clear oc.dc c := by
    refine fun c hc => Or.inl fun a h1 => ?_
    rw [(initial_facts hb h0).dc_s] at h1
    have := hfar c hc a
    rw [h1, abs_zero] at this
    norm_num at this
  obtain ⟨hfin, cells, hnd, hcov, hin, hp⟩ := octree_cells_in s meshCells hb hl hbd deg oc oc' outs h0 h hz
  have hr : 0 < 2 * oc.dc.resolution := by linarith [res_pos hb (initial_facts hb h0)]
  set g := gridPos oc.dc.origin (2 * oc.dc.resolution) with hg
  set v : ℤ → ℤ → ℤ → ℝ := fun i j k => s.eval (g i j k) with hv
  have hf : ∀ c, Mixed (cellCorners v c) 0 → Far v c := by
    intro c hm a
    obtain ⟨c', hc', he⟩ := hin c hm a
    have hva : cellCorners v c a = s.eval (cellCorners g c a) := by
      obtain ⟨i, j, k⟩ := c
      fin_cases a <;> rfl
    rw [hva, he]
    exact hfar c' hc' a
  have hraw : ∀ t ∈ gmesh oc.dc.origin (2 * oc.dc.resolution) v cells, ¬ (t.a = t.b ∨ t.b = t.c ∨ t.c = t.a) := by
    intro t ht
    obtain ⟨c, -, T, hT, rfl⟩ := mem_mesh.mp ht
    have hm : Mixed (cellCorners v c) 0 := crossed_mixed (row_crossed hT (e := T.1) (by simp [memT]))
    refine raw_distinct oc.dc.origin hr (cellCorners v c) c (hf c hm) _ ?_
    rw [raw_row]
    exact List.mem_map_of_mem hT
  rw [List.filter_eq_self.mpr] at hp
  swap
  · intro t ht
    simp only [Bool.not_eq_true', ← Bool.not_eq_true]
    exact fun hh => hraw t ht (hdeg t hh)
  refine manifold_perm hp.symm ⟨?_, ?_, ?_⟩
  · intro t ht
    have := hraw t ht
    push Not at this
    exact this
  · intro t ht e he
    have hnod := grid_edges_nodup (o := oc.dc.origin) hr cells hnd (v := v) fun c _ hm => hf c hm
    have hcl := cells_closed g v 0 hfin cells hnd hcov
    have h1 : edgeCount (cells.flatMap fun c => rawTriangles (cellCorners g c) (cellCorners v c) 0) e.1 e.2 = 1 :=
      List.count_eq_one_of_mem hnod (List.mem_flatMap.mpr ⟨t, ht, he⟩)
    exact ⟨h1, (hcl e.1 e.2).symm.trans h1⟩
  · intro p t ht u hu tp up
    exact grid_fans hr hcov hf p t u ht hu tp up

/-- What `Manifold` says about a triangle's edge, spelled out: exactly one triangle of the mesh lies on the other side of it. -/
theorem C58_other_side (m : List Tri) (hm : Manifold m) (t : Tri) (ht : t ∈ m) (p q : V3) (he : (p, q) ∈ t.edges) :
    ∃ u ∈ m, u ≠ t ∧ (q, p) ∈ u.edges ∧ ∀ w ∈ m, (q, p) ∈ w.edges → w = u := by
  obtain ⟨h1, h2⟩ := hm.edges t ht _ he
  simp only at h1 h2
  have huniq : ∀ (l : List Tri) (x : V3 × V3), (l.flatMap Tri.edges).count x = 1 →
      ∃ u ∈ l, x ∈ u.edges ∧ ∀ w ∈ l, x ∈ w.edges → w = u := by
    intro l x
    induction l with
    | nil => intro h; simp at h
    | cons a l ih =>
      intro h
      rw [List.flatMap_cons, List.count_append] at h
      by_cases ha : x ∈ a.edges
      · have h3 := List.count_pos_iff.mpr ha
        have h4 : (l.flatMap Tri.edges).count x = 0 := by omega
        refine ⟨a, List.mem_cons_self, ha, fun w hw hx => ?_⟩
        rcases List.mem_cons.mp hw with rfl | hw
        · rfl
        · exact absurd (List.mem_flatMap.mpr ⟨w, hw, hx⟩) (List.count_eq_zero.mp h4)
      · rw [List.count_eq_zero_of_not_mem ha, zero_add] at h
        obtain ⟨u, hu, hx, hall⟩ := ih h
        refine ⟨u, List.mem_cons_of_mem _ hu, hx, fun w hw hxw => ?_⟩
        rcases List.mem_cons.mp hw with rfl | hw
        · exact absurd hxw ha
        · exact hall w hw hxw
  obtain ⟨u, hu, hx, hall⟩ := huniq m (q, p) h2
  refine ⟨u, hu, ?_, hx, hall⟩
  rintro rfl
  obtain ⟨n1, n2, n3⟩ := hm.corners u hu
  simp only [Tri.edges, List.mem_cons, List.not_mem_nil, or_false, Prod.mk.injEq] at he hx
  rcases he with ⟨rfl, rfl⟩ | ⟨rfl, rfl⟩ | ⟨rfl, rfl⟩ <;> rcases hx with ⟨e1, e2⟩ | ⟨e1, e2⟩ | ⟨e1, e2⟩ <;>
    first
    | exact n1 e1 | exact n1 e1.symm | exact n2 e1 | exact n2 e1.symm | exact n3 e1 | exact n3 e1.symm
    | exact n1 e2 | exact n1 e2.symm | exact n2 e2 | exact n2 e2.symm | exact n3 e2 | exact n3 e2.symm

theorem tri_moved_at {f : V3 → V3} {t : Tri} {p : V3} : (t.moved f).At p ↔ ∃ q, t.At q ∧ p = f q := by
  unfold Tri.At Tri.moved
  constructor
  · rintro (h | h | h)
    · exact ⟨_, Or.inl rfl, h⟩
    · exact ⟨_, Or.inr (Or.inl rfl), h⟩
    · exact ⟨_, Or.inr (Or.inr rfl), h⟩
  · rintro ⟨q, rfl | rfl | rfl, rfl⟩ <;> simp

/-- Moving the corners keeps a manifold a manifold as long as no two different corners are moved to the same place. -/
theorem C58_moved (f : V3 → V3) (m : List Tri) (hm : Manifold m)
    (hinj : ∀ t ∈ m, ∀ u ∈ m, ∀ p q, t.At p → u.At q → f p = f q → p = q) : Manifold (m.map (Tri.moved f)) := by
  have he : (m.map (Tri.moved f)).flatMap Tri.edges = (m.flatMap Tri.edges).map (Prod.map f f) := by
    rw [List.map_flatMap, List.flatMap_map]
    rfl
  have hat : ∀ e ∈ m.flatMap Tri.edges, ∃ t ∈ m, t.At e.1 ∧ t.At e.2 := by
    intro e h
    obtain ⟨t, ht, h⟩ := List.mem_flatMap.mp h
    refine ⟨t, ht, ?_⟩
    simp only [Tri.edges, List.mem_cons, List.not_mem_nil, or_false] at h
    rcases h with rfl | rfl | rfl <;> simp [Tri.At]
  have hnd : (m.flatMap Tri.edges).Nodup := by
    rw [List.nodup_iff_count_le_one]
    intro e
    by_cases h : e ∈ m.flatMap Tri.edges
    · obtain ⟨t, ht, h⟩ := List.mem_flatMap.mp h
      exact (hm.edges t ht e h).1.le
    · rw [List.count_eq_zero_of_not_mem h]; omega
  have hnd' : ((m.flatMap Tri.edges).map (Prod.map f f)).Nodup := by
    refine hnd.map_on ?_
    rintro ⟨p, q⟩ h ⟨p', q'⟩ h' hf
    simp only [Prod.map_apply, Prod.mk.injEq] at hf
    obtain ⟨t, ht, h1, h2⟩ := hat _ h
    obtain ⟨u, hu, h3, h4⟩ := hat _ h'
    rw [hinj t ht u hu p p' h1 h3 hf.1, hinj t ht u hu q q' h2 h4 hf.2]
  refine ⟨?_, ?_, ?_⟩
  · intro t ht
    obtain ⟨u, hu, rfl⟩ := List.mem_map.mp ht
    obtain ⟨h1, h2, h3⟩ := hm.corners u hu
    have ha : u.At u.a := Or.inl rfl
    have hb : u.At u.b := Or.inr (Or.inl rfl)
    have hc : u.At u.c := Or.inr (Or.inr rfl)
    exact ⟨fun h => h1 (hinj u hu u hu _ _ ha hb h), fun h => h2 (hinj u hu u hu _ _ hb hc h), fun h => h3 (hinj u hu u hu _ _ hc ha h)⟩
  · intro t ht e hx
    obtain ⟨u, hu, rfl⟩ := List.mem_map.mp ht
    have hx' : e ∈ u.edges.map (Prod.map f f) := hx
    obtain ⟨⟨p, q⟩, hpq, rfl⟩ := List.mem_map.mp hx'
    obtain ⟨-, h2⟩ := hm.edges u hu _ hpq
    have hq : (q, p) ∈ m.flatMap Tri.edges := List.count_pos_iff.mp (by unfold edgeCount at h2; rw [h2]; omega)
    unfold edgeCount
    rw [he]
    exact ⟨List.count_eq_one_of_mem hnd' (List.mem_map.mpr ⟨(p, q), List.mem_flatMap.mpr ⟨u, hu, hpq⟩, rfl⟩),
      List.count_eq_one_of_mem hnd' (List.mem_map.mpr ⟨(q, p), hq, rfl⟩)⟩
  · intro p t ht u hu tp up
    obtain ⟨t, ht', rfl⟩ := List.mem_map.mp ht
    obtain ⟨u, hu', rfl⟩ := List.mem_map.mp hu
    obtain ⟨q, tq, rfl⟩ := tri_moved_at.mp tp
    obtain ⟨q', uq, hf⟩ := tri_moved_at.mp up
    obtain rfl := hinj t ht' u hu' q q' tq uq hf
    refine Relation.ReflTransGen.lift (Tri.moved f) ?_ _ _ (hm.fans q t ht' u hu' tq uq)
    rintro a b ⟨ha, hb, a1, b1, x, hx, a2, b2⟩
    exact ⟨List.mem_map_of_mem ha, List.mem_map_of_mem hb, tri_moved_at.mpr ⟨q, a1, rfl⟩, tri_moved_at.mpr ⟨q, b1, rfl⟩, f x,
      fun h => hx (hinj a ha a ha x q a2 a1 h), tri_moved_at.mpr ⟨x, a2, rfl⟩, tri_moved_at.mpr ⟨x, b2, rfl⟩⟩

/-- The STL file of a solid holds a closed manifold if rounding to float32 keeps the rendered corners apart. -/
theorem C58_stl (c : Stl.Conv) (s : SDF3) (meshCells : ℤ) (hb : s.bounds.Solid) (hl : Lip3 s.eval) (hbd : s.Bounded)
    (deg : Tri → Bool) (hdeg : ∀ t, deg t = true → t.a = t.b ∨ t.b = t.c ∨ t.c = t.a)
    (oc oc' : State) (h0 : Initial s meshCells oc)
    (hfar : ∀ c ∈ allCells (oc.dc.levels - 1), ∀ a, 1e-12 ≤ |s.eval (oc.dc.pos (leafCorners c a))|)
    (hsep : ∀ outs, Calls deg oc outs oc' true → ∀ t ∈ outs.flatten, ∀ u ∈ outs.flatten, ∀ p q, t.At p → u.At q →
      c.f64 (c.f32 p.x) = c.f64 (c.f32 q.x) → c.f64 (c.f32 p.y) = c.f64 (c.f32 q.y) → c.f64 (c.f32 p.z) = c.f64 (c.f32 q.z) → p = q)
    (bytes : List Stl.Byte) (h : Stl.CreateSTL c (Stl.octree deg) 50 oc bytes oc') (hsize : bytes.length < 84 + 50 * 2 ^ 32) :
    Manifold (Stl.storedTriangles c bytes) := by
  obtain ⟨outs, hc, he⟩ := Stl.stored_octree c deg s meshCells hb oc oc' h0 bytes h hsize
  rw [he]
  refine C58_moved (fun v => ⟨c.f64 (c.f32 v.x), c.f64 (c.f32 v.y), c.f64 (c.f32 v.z)⟩) _
    (C58_manifold s meshCells hb hl hbd deg hdeg oc oc' outs h0 hc hfar) ?_
  intro t ht u hu p q tp uq hpq
  simp only [V3.mk.injEq] at hpq
  exact hsep outs hc t ht u hu p q tp uq hpq.1 hpq.2.1 hpq.2.2

/-- The unit ball with two cells: a complete read exists, and its mesh is a manifold with at least one triangle. -/
example (bufs : Nat → List Tri) (hbuf : ∀ i, bufs i ≠ []) :
    ∃ oc outs oc', Initial unitBall 2 oc ∧ Calls (fun _ => false) oc outs oc' true ∧ Manifold outs.flatten ∧ outs.flatten ≠ [] := by
  obtain ⟨oc, h0, hfar, hin⟩ := ball_far
  obtain ⟨outs, oc', hc⟩ := calls_extend (deg := fun _ => false) bufs hbuf (measure oc) oc oc []
    (initial_ok (initial_facts (oc := oc) unitBall_solid h0)) .nil (le_refl _)
  exact ⟨oc, outs, oc', h0, hc,
    C58_manifold unitBall 2 unitBall_solid unitBall_lip unitBall_bounded _ (by simp) oc oc' outs h0 hc hfar,
    C56_solid_found unitBall 2 unitBall_solid unitBall_lip unitBall_bounded _ (by simp) oc oc' outs h0 hc hfar _ hin⟩

end Sdf.Octree
