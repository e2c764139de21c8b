import Verif.Lemmas.OctreeDense
import Verif.Lemmas.MCChain
import Verif.Lemmas.Ball
import Verif.Props.C02
import Mathlib.Topology.Order.IntermediateValue
import Mathlib.Topology.Instances.Real.Lemmas

/-!
C09: marching-cubes vertices sit where the shape changes sign.
-/

namespace Sdf.MC

/-- `w` lies on the segment between two corners of the cell that are joined by a cell edge and whose values lie on
opposite sides of the iso value. -/
def OnCrossingEdge (p : Fin 8 → V3) (v : Fin 8 → ℝ) (x : ℝ) (w : V3) : Prop :=
  ∃ a b : Fin 8, AdjacentCorners a b ∧ v a < x ∧ x ≤ v b ∧
    ∃ t : ℝ, 0 ≤ t ∧ t ≤ 1 ∧ w = V3.add (p a) (V3.scale t (V3.sub (p b) (p a)))

theorem interpolate_on_segment (p1 p2 : V3) (v1 v2 x : ℝ) (h : v1 < x ∧ x ≤ v2 ∨ v2 < x ∧ x ≤ v1) :
    ∃ t : ℝ, 0 ≤ t ∧ t ≤ 1 ∧ interpolate p1 p2 v1 v2 x = V3.add p1 (V3.scale t (V3.sub p2 p1)) := by
  unfold interpolate
  simp only
  split
  · exact ⟨0, le_refl _, by norm_num, by ext <;> simp [V3.add, V3.scale, V3.sub]⟩
  · split
    · exact ⟨1, by norm_num, le_refl _, by ext <;> simp [V3.add, V3.scale, V3.sub]⟩
    · split
      · exact ⟨0.5, by norm_num, by norm_num, by ext <;> simp [V3.add, V3.scale, V3.sub]⟩
      · refine ⟨(x - v1) / (v2 - v1), ?_, ?_, by ext <;> simp [V3.add, V3.scale, V3.sub]⟩
        · rcases h with h | h
          · exact div_nonneg (by linarith) (by linarith)
          · exact div_nonneg_of_nonpos (by linarith) (by linarith)
        · rcases h with h | h
          · rw [div_le_one (by linarith)]; linarith
          · rw [div_le_one_of_neg (by linarith)]; linarith

theorem pairs_adjacent : ∀ e : Fin 12, AdjacentCorners (pairTable e).1 (pairTable e).2
    ∧ AdjacentCorners (pairTable e).2 (pairTable e).1 := by decide

/-- Every vertex of every triangle written for a cell lies on a cell edge across which the value passes the iso value. -/
theorem C09_vertices_on_crossing_edges (deg : Tri → Bool) (dstLen : Nat) (p : Fin 8 → V3) (v : Fin 8 → ℝ) (x : ℝ)
    (ts : List Tri) (h : toTriangles deg dstLen p v x = some ts) (t : Tri) (ht : t ∈ ts) :
    OnCrossingEdge p v x t.a ∧ OnCrossingEdge p v x t.b ∧ OnCrossingEdge p v x t.c := by
  unfold toTriangles at h
  split at h
  · simp at h
  simp only [Option.some.injEq] at h
  subst h
  have ht' := List.mem_of_mem_filter ht
  rw [rawTriangles_eq, List.mem_map] at ht'
  obtain ⟨⟨e1, e2, e3⟩, he, rfl⟩ := ht'
  obtain ⟨m1, m2, m3⟩ := triples_mem _ _ he
  have key : ∀ e ∈ triangleTable.getD (bitsToNat (neg v x)) [], OnCrossingEdge p v x (ptsAll p v x e) := by
    intro e hm
    have hs := tri_edge_sign (neg v x) e hm
    obtain ⟨adj1, adj2⟩ := pairs_adjacent e
    unfold ptsAll
    generalize (pairTable e).1 = a at hs adj1 adj2 ⊢
    generalize (pairTable e).2 = b at hs adj1 adj2 ⊢
    by_cases ha : v a < x
    · have hb : x ≤ v b := by
        by_contra hb
        apply hs
        simp [neg, ha, not_le.mp hb]
      obtain ⟨t, h0, h1, he⟩ := interpolate_on_segment (p a) (p b) (v a) (v b) x (Or.inl ⟨ha, hb⟩)
      exact ⟨a, b, adj1, ha, hb, t, h0, h1, he⟩
    · have hb : v b < x := by
        by_contra hb
        apply hs
        simp [neg, ha, hb]
      obtain ⟨t, h0, h1, he⟩ := interpolate_on_segment (p a) (p b) (v a) (v b) x (Or.inr ⟨hb, not_lt.mp ha⟩)
      refine ⟨b, a, adj2, hb, not_lt.mp ha, 1 - t, by linarith, by linarith, ?_⟩
      rw [he]
      ext <;> simp only [V3.add, V3.scale, V3.sub] <;> ring
  exact ⟨key e3 m3, key e2 m2, key e1 m1⟩

/-- A 1-Lipschitz function with a sign change along a segment vanishes somewhere on it. -/
theorem zero_on_segment (f : V3 → ℝ) (hl : Lip3 f) (p q : V3) (hp : f p < 0) (hq : 0 ≤ f q) :
    ∃ u : ℝ, 0 ≤ u ∧ u ≤ 1 ∧ f (V3.add p (V3.scale u (V3.sub q p))) = 0 := by
  let g : ℝ → ℝ := fun u => f (V3.add p (V3.scale u (V3.sub q p)))
  have hg : LipschitzWith (Real.toNNReal (V3.dist q p)) g := by
    apply LipschitzWith.of_dist_le_mul
    intro u w
    have h := hl (V3.add p (V3.scale u (V3.sub q p))) (V3.add p (V3.scale w (V3.sub q p)))
    have e : V3.dist (V3.add p (V3.scale u (V3.sub q p))) (V3.add p (V3.scale w (V3.sub q p))) = V3.dist q p * |u - w| := by
      unfold V3.dist
      have : V3.sub (V3.add p (V3.scale u (V3.sub q p))) (V3.add p (V3.scale w (V3.sub q p))) = V3.scale (u - w) (V3.sub q p) := by
        ext <;> simp only [V3.add, V3.scale, V3.sub] <;> ring
      rw [this, V3.norm_scale, mul_comm]
    rw [Real.dist_eq, Real.dist_eq, Real.coe_toNNReal (V3.dist q p) (V3.norm_nonneg _), ← e]
    exact h
  have h0 : g 0 = f p := by simp [g, V3.add, V3.scale]
  have h1 : g 1 = f q := by simp [g, V3.add, V3.scale, V3.sub]
  have := intermediate_value_Icc (zero_le_one : (0 : ℝ) ≤ 1) hg.continuous.continuousOn
  have hm : (0 : ℝ) ∈ Set.Icc (g 0) (g 1) := by rw [h0, h1]; exact ⟨hp.le, hq⟩
  obtain ⟨u, hu, hu0⟩ := this hm
  exact ⟨u, hu.1, hu.2, hu0⟩

end Sdf.MC

namespace Sdf.Octree

open MC

/-- For a 1-Lipschitz shape, every vertex of every triangle the octree renderer delivers is within one cell edge
(`1.01 * longest side / meshCells`) of a point where the shape's distance is zero. -/
theorem C09_vertices_near_surface (deg : Tri → Bool) (s : SDF3) (meshCells : ℤ) (hb : s.bounds.Solid) (hl : Lip3 s.eval)
    (oc oc' : State) (eof : Bool) (outs : List (List Tri)) (h0 : Initial s meshCells oc) (h : Calls deg oc outs oc' eof)
    (t : Tri) (ht : t ∈ outs.flatten) (w : V3) (hw : w = t.a ∨ w = t.b ∨ w = t.c) :
    ∃ q, s.eval q = 0 ∧ V3.dist w q ≤ 1.01 * longestSide s.bounds / meshCells := by
  have f := initial_facts hb h0
  have hr := res_pos hb f
  have hm : (2 : ℝ) ≤ (meshCells : ℝ) := by exact_mod_cast f.m_ge
  have hres : 1.01 * longestSide s.bounds / meshCells = 2 * oc.dc.resolution := by
    rw [f.res, longAxis_eq]; unfold longestSide
    have hne : (meshCells : ℝ) ≠ 0 := by linarith
    rw [max_comm (s.bounds.hi.z - s.bounds.lo.z), max_assoc]
    field_simp
  rw [hres]
  -- the triangle belongs to some leaf
  have hs := calls_spec (initial_ok f) h
  have hmem : t ∈ pending deg oc := hs.perm.mem_iff.mpr (List.mem_append_left _ ht)
  simp only [pending, f.unwritten, List.nil_append, List.mem_flatMap, mesh] at hmem
  obtain ⟨c, _, c', _, htc⟩ := hmem
  have hcross := C09_vertices_on_crossing_edges deg 5 (fun i => oc.dc.pos (leafCorners c' i))
    (fun i => oc.dc.value (leafCorners c' i)) 0 _ rfl t htc
  have hw' : OnCrossingEdge (fun i => oc.dc.pos (leafCorners c' i)) (fun i => oc.dc.value (leafCorners c' i)) 0 w := by
    rcases hw with rfl | rfl | rfl
    · exact hcross.1
    · exact hcross.2.1
    · exact hcross.2.2
  obtain ⟨a, b, hadj, hva, hvb, u, hu0, hu1, rfl⟩ := hw'
  unfold Dc3.value at hva hvb
  rw [f.dc_s] at hva hvb
  obtain ⟨z, hz0, hz1, hz⟩ := zero_on_segment s.eval hl _ _ hva hvb
  refine ⟨_, hz, ?_⟩
  have e : V3.sub (V3.add (oc.dc.pos (leafCorners c' a)) (V3.scale u (V3.sub (oc.dc.pos (leafCorners c' b)) (oc.dc.pos (leafCorners c' a)))))
      (V3.add (oc.dc.pos (leafCorners c' a)) (V3.scale z (V3.sub (oc.dc.pos (leafCorners c' b)) (oc.dc.pos (leafCorners c' a)))))
      = V3.scale (u - z) (V3.sub (oc.dc.pos (leafCorners c' b)) (oc.dc.pos (leafCorners c' a))) := by
    ext <;> simp only [V3.add, V3.scale, V3.sub] <;> ring
  unfold V3.dist
  rw [e, V3.norm_scale]
  have hlen : V3.norm (V3.sub (oc.dc.pos (leafCorners c' b)) (oc.dc.pos (leafCorners c' a))) = 2 * oc.dc.resolution := by
    apply V3.norm_eq_of (by linarith)
    revert hadj
    have hall : ∀ a b : Fin 8, AdjacentCorners a b →
        ((leafCorners c' b).x - (leafCorners c' a).x) * ((leafCorners c' b).x - (leafCorners c' a).x)
        + ((leafCorners c' b).y - (leafCorners c' a).y) * ((leafCorners c' b).y - (leafCorners c' a).y)
        + ((leafCorners c' b).z - (leafCorners c' a).z) * ((leafCorners c' b).z - (leafCorners c' a).z) = 4 := by
      have hoff : ∀ a, leafCorners c' a = c'.o.add ⟨if (cornerOffset a).1 then 2 else 0, if (cornerOffset a).2.1 then 2 else 0,
          if (cornerOffset a).2.2 then 2 else 0⟩ := by
        intro a; fin_cases a <;> rfl
      intro a b hadj
      rw [hoff a, hoff b]
      simp only [V3i.add, add_sub_add_left_eq_sub]
      revert a b; decide
    intro hadj
    have h4 := hall a b hadj
    have h4' : ((((leafCorners c' b).x : ℝ) - (leafCorners c' a).x) * ((leafCorners c' b).x - (leafCorners c' a).x)
        + ((leafCorners c' b).y - (leafCorners c' a).y) * ((leafCorners c' b).y - (leafCorners c' a).y)
        + ((leafCorners c' b).z - (leafCorners c' a).z) * ((leafCorners c' b).z - (leafCorners c' a).z)) = 4 := by
      exact_mod_cast h4
    simp only [Dc3.pos, V3.add, V3.scale, V3.sub, V3i.toV3]
    linear_combination (oc.dc.resolution * oc.dc.resolution) * h4'
  rw [hlen]
  have : |u - z| ≤ 1 := by rw [abs_le]; constructor <;> linarith
  nlinarith

example : unitBall.bounds.Solid ∧ Lip3 unitBall.eval := ⟨unitBall_solid, unitBall_lip⟩

example : OnCrossingEdge (fun i => if i = 0 then ⟨0, 0, 0⟩ else ⟨1, 0, 0⟩) (fun i => if i = 0 then -1 else 1) 0 ⟨0.5, 0, 0⟩ := by
  refine ⟨0, 1, by decide, by simp, by simp, 0.5, by norm_num, by norm_num, ?_⟩
  ext <;> simp [V3.add, V3.scale, V3.sub]

end Sdf.Octree
