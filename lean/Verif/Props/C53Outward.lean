import Verif.Lemmas.MCOutward
import Verif.Lemmas.OctreeCells
import Verif.Props.C08

/-!
C53: rendered triangles face outwards.
-/

namespace Sdf.MC

/-- Corner `k` of the triangle lies on a segment from `i k`, which is inside, to `o k`, which is not, and the triangle's normal does not
point against the sum of the three directions from inside to outside. -/
def FacesOut (i o : Fin 3 → V3) (t : Tri) : Prop :=
  (∀ k, ∃ u : ℝ, 0 ≤ u ∧ u ≤ 1 ∧ t.vertex k = V3.add (i k) (V3.scale u (V3.sub (o k) (i k))))
  ∧ 0 ≤ V3.dot t.normal (V3.add (V3.add (V3.sub (o 0) (i 0)) (V3.sub (o 1) (i 1))) (V3.sub (o 2) (i 2)))

/-- As above, and the normal points strictly towards the outside. -/
def FacesStrictlyOut (i o : Fin 3 → V3) (t : Tri) : Prop :=
  FacesOut i o t ∧ 0 < V3.dot t.normal (V3.add (V3.add (V3.sub (o 0) (i 0)) (V3.sub (o 1) (i 1))) (V3.sub (o 2) (i 2)))

/-- The corners of a cube of edge `r` with its least corner at `p0`. -/
def cubeCorners (p0 : V3) (r : ℝ) (i : Fin 8) : V3 :=
  ⟨p0.x + r * (if (cornerOffset i).1 then 1 else 0), p0.y + r * (if (cornerOffset i).2.1 then 1 else 0),
    p0.z + r * (if (cornerOffset i).2.2 then 1 else 0)⟩

/-- Every triangle of a cubic cell faces from the inside corners to the outside corners of the three cell edges that its own corners
are on; strictly so if no value at those is within the tolerance 1e-12 of the iso value. -/
theorem C53_outward (p0 : V3) (r : ℝ) (hr : 0 < r) (v : Fin 8 → ℝ) (x : ℝ) (deg : Tri → Bool) (dstLen : Nat)
    (ts : List Tri) (h : toTriangles deg dstLen (cubeCorners p0 r) v x = some ts) (t : Tri) (ht : t ∈ ts) :
    ∃ i o : Fin 3 → Fin 8, (∀ k, AdjacentCorners (i k) (o k) ∧ v (i k) < x ∧ x ≤ v (o k))
      ∧ FacesOut (fun k => cubeCorners p0 r (i k)) (fun k => cubeCorners p0 r (o k)) t
      ∧ ((∀ k, 1e-12 ≤ |x - v (i k)| ∧ 1e-12 ≤ |x - v (o k)|) →
        FacesStrictlyOut (fun k => cubeCorners p0 r (i k)) (fun k => cubeCorners p0 r (o k)) t) := by
  unfold toTriangles at h
  split at h
  · simp at h
  simp only [Option.some.injEq] at h
  subst h
  obtain ⟨i, o, h1, h2, h3⟩ := out_cube p0 hr v x t (List.mem_of_mem_filter ht)
  have hF : FacesOut (fun k => cubeCorners p0 r (i k)) (fun k => cubeCorners p0 r (o k)) t :=
    ⟨fun k => (h1 k).2.2.2, h2⟩
  exact ⟨i, o, fun k => ⟨(h1 k).1, (h1 k).2.1, (h1 k).2.2.1⟩, hF, fun h => ⟨hF, h3 h⟩⟩

/-- Where the values are those of a linear function (a flat face), the triangles lie on its level plane and their normals are positive
multiples of its gradient: they point straight out. -/
theorem C53_flat (p0 : V3) (r : ℝ) (hr : 0 < r) (v : Fin 8 → ℝ) (x : ℝ) (deg : Tri → Bool) (dstLen : Nat)
    (ts : List Tri) (h : toTriangles deg dstLen (cubeCorners p0 r) v x = some ts) (t : Tri) (ht : t ∈ ts)
    (g : V3) (c : ℝ) (hlin : ∀ a, v a = V3.dot g (cubeCorners p0 r a) + c) (hfar : ∀ a, 1e-12 ≤ |x - v a|) :
    (∀ k, V3.dot g (t.vertex k) + c = x) ∧ ∃ l : ℝ, 0 < l ∧ t.normal = V3.scale l g := by
  obtain ⟨i, o, h1, -, h3⟩ := C53_outward p0 r hr v x deg dstLen ts h t ht
  have hs := (h3 fun k => ⟨hfar _, hfar _⟩).2
  -- the corners are on the plane
  have hpl : ∀ k, V3.dot g (t.vertex k) + c = x := by
    unfold toTriangles at h
    split at h
    · simp at h
    simp only [Option.some.injEq] at h
    subst h
    have ht' := List.mem_of_mem_filter ht
    rw [rawTriangles_eq, List.mem_map] at ht'
    obtain ⟨⟨e1, e2, e3⟩, he, rfl⟩ := ht'
    obtain ⟨m1, m2, m3⟩ := triples_mem _ _ he
    have key : ∀ e ∈ triangleTable.getD (bitsToNat (neg v x)) [], V3.dot g (ptsAll (cubeCorners p0 r) v x e) + c = x := by
      intro e hm
      have hne : v (pairTable e).1 ≠ v (pairTable e).2 := fun hc => tri_edge_sign (neg v x) e hm (by simp [neg, hc])
      have f1 := not_lt.mpr (hfar (pairTable e).1)
      have f2 := not_lt.mpr (hfar (pairTable e).2)
      have hT : interpT (v (pairTable e).1) (v (pairTable e).2) x = (x - v (pairTable e).1) / (v (pairTable e).2 - v (pairTable e).1) := by
        unfold interpT epsilon
        rw [if_neg (fun h => f1 h.1), if_neg (fun h => f2 h.1), if_neg (fun h => f1 h.1)]
      unfold ptsAll
      rw [interpolate_T, hT]
      have l1 := hlin (pairTable e).1
      have l2 := hlin (pairTable e).2
      have hd : v (pairTable e).2 - v (pairTable e).1 ≠ 0 := sub_ne_zero.mpr hne.symm
      set s := (x - v (pairTable e).1) / (v (pairTable e).2 - v (pairTable e).1) with hsd
      have hsm : s * (v (pairTable e).2 - v (pairTable e).1) = x - v (pairTable e).1 := by rw [hsd]; field_simp
      simp only [V3.dot] at l1 l2 ⊢
      rw [l1, l2] at hsm
      linear_combination hsm
    intro k
    fin_cases k
    · exact key e3 m3
    · exact key e2 m2
    · exact key e1 m1
  refine ⟨hpl, ?_⟩
  -- so the normal is parallel to the gradient
  have ha := hpl 0
  have hb := hpl 1
  have hc := hpl 2
  simp only [Tri.vertex, Matrix.cons_val_zero, Matrix.cons_val_one, Matrix.cons_val] at ha hb hc
  set n := t.normal with hn
  have hab : V3.dot g (V3.sub t.b t.a) = 0 := by simp only [V3.dot, V3.sub] at *; linarith
  have hac : V3.dot g (V3.sub t.c t.a) = 0 := by simp only [V3.dot, V3.sub] at *; linarith
  have hcr : V3.cross n g = ⟨0, 0, 0⟩ := by
    rw [hn, Tri.normal]
    generalize V3.sub t.b t.a = p at hab
    generalize V3.sub t.c t.a = q at hac
    simp only [V3.dot, V3.cross] at *
    ext <;> simp only
    · linear_combination q.x * hab - p.x * hac
    · linear_combination q.y * hab - p.y * hac
    · linear_combination q.z * hab - p.z * hac
  set D := V3.add (V3.add (V3.sub (cubeCorners p0 r (o 0)) (cubeCorners p0 r (i 0))) (V3.sub (cubeCorners p0 r (o 1)) (cubeCorners p0 r (i 1))))
      (V3.sub (cubeCorners p0 r (o 2)) (cubeCorners p0 r (i 2))) with hD
  have hgD : 0 < V3.dot g D := by
    have e : V3.dot g D = (v (o 0) - v (i 0)) + (v (o 1) - v (i 1)) + (v (o 2) - v (i 2)) := by
      simp only [hlin, hD, V3.dot, V3.add, V3.sub]; ring
    have k0 := h1 0
    have k1 := h1 1
    have k2 := h1 2
    rw [e]
    linarith [k0.2.1, k0.2.2, k1.2.1, k1.2.2, k2.2.1, k2.2.2]
  refine ⟨V3.dot n D / V3.dot g D, div_pos hs hgD, ?_⟩
  have hx : n.y * g.z - n.z * g.y = 0 := congrArg V3.x hcr
  have hy : n.z * g.x - n.x * g.z = 0 := congrArg V3.y hcr
  have hz : n.x * g.y - n.y * g.x = 0 := congrArg V3.z hcr
  have hne := hgD.ne'
  ext
  · simp only [V3.scale]
    rw [div_mul_eq_mul_div, eq_div_iff hne]
    simp only [V3.dot]
    linear_combination D.y * hz - D.z * hy
  · simp only [V3.scale]
    rw [div_mul_eq_mul_div, eq_div_iff hne]
    simp only [V3.dot]
    linear_combination D.z * hx - D.x * hz
  · simp only [V3.scale]
    rw [div_mul_eq_mul_div, eq_div_iff hne]
    simp only [V3.dot]
    linear_combination D.x * hy - D.y * hx

/-- The plane x + y + z = 1/2 across the unit cube meets the hypotheses, and there are triangles. -/
example : ∃ v : Fin 8 → ℝ, (∀ a, v a = V3.dot ⟨1, 1, 1⟩ (cubeCorners ⟨0, 0, 0⟩ 1 a) + (-1 / 2)) ∧ (∀ a, 1e-12 ≤ |0 - v a|)
    ∧ ∃ ts t, toTriangles (fun _ => false) 5 (cubeCorners ⟨0, 0, 0⟩ 1) v 0 = some ts ∧ t ∈ ts := by
  refine ⟨fun a => V3.dot ⟨1, 1, 1⟩ (cubeCorners ⟨0, 0, 0⟩ 1 a) + (-1 / 2), fun a => rfl, ?_, ?_⟩
  · intro a
    fin_cases a <;> simp only [V3.dot, cubeCorners, cornerOffset] <;> norm_num [abs_of_pos, abs_of_neg]
  · set v : Fin 8 → ℝ := fun a => V3.dot ⟨1, 1, 1⟩ (cubeCorners ⟨0, 0, 0⟩ 1 a) + (-1 / 2) with hv
    have h0 : v 0 < 0 := by simp only [hv, V3.dot, cubeCorners, cornerOffset]; norm_num
    have h6 : ¬ v 6 < 0 := by
      have e : cornerOffset 6 = (true, true, true) := rfl
      simp only [hv, V3.dot, cubeCorners, e]; norm_num
    have hl := len_facts (neg v 0)
    have hne : triangleTable.getD (bitsToNat (neg v 0)) [] ≠ [] := by
      rw [Ne, hl.2.2.1]
      rintro (h | h)
      · exact h6 (by simpa [neg] using h 6)
      · exact absurd (h 0) (by simp [neg, h0])
    have hlen : (rawTriangles (cubeCorners ⟨0, 0, 0⟩ 1) v 0).length ≠ 0 := by
      rw [rawTriangles_eq, List.length_map, triples_length]
      have := List.length_pos_of_ne_nil hne
      omega
    obtain ⟨t, ht⟩ := List.exists_mem_of_length_pos (Nat.pos_of_ne_zero hlen)
    exact ⟨_, t, rfl, by simpa using ht⟩

end Sdf.MC

namespace Sdf.Octree

open MC

/-- The same of everything the octree renderer delivers, with any buffers, any number of goroutines and any schedule: each corner of each
triangle is on an axis-parallel segment of one cell edge from where the shape's distance is negative to where it is not, and
the triangle faces from inside to outside. -/
theorem C53_rendered_outward (deg : Tri → Bool) (s : SDF3) (meshCells : ℤ) (hb : s.bounds.Solid)
    (oc oc' : State) (eof : Bool) (outs : List (List Tri)) (h0 : Initial s meshCells oc) (h : Calls deg oc outs oc' eof)
    (t : Tri) (ht : t ∈ outs.flatten) :
    ∃ i o : Fin 3 → V3, (∀ k, s.eval (i k) < 0 ∧ 0 ≤ s.eval (o k)
        ∧ V3.dist (o k) (i k) = 1.01 * longestSide s.bounds / meshCells)
      ∧ FacesOut i o t
      ∧ ((∀ k, 1e-12 ≤ |s.eval (i k)| ∧ 1e-12 ≤ |s.eval (o k)|) → FacesStrictlyOut i o t) := by
  have f := initial_facts hb h0
  have hr := res_pos hb f
  have hres : 1.01 * longestSide s.bounds / meshCells = 2 * oc.dc.resolution := by
    have hm : (2 : ℝ) ≤ (meshCells : ℝ) := by exact_mod_cast f.m_ge
    rw [f.res, longAxis_eq]; unfold longestSide
    have hne : (meshCells : ℝ) ≠ 0 := by linarith
    rw [max_comm (s.bounds.hi.z - s.bounds.lo.z), max_assoc]
    field_simp
  have hs := calls_spec (initial_ok f) h
  have hmem : t ∈ pending deg oc := hs.perm.mem_iff.mpr (List.mem_append_left _ ht)
  simp only [pending, f.unwritten, List.nil_append, List.mem_flatMap, mesh] at hmem
  obtain ⟨c, _, c', _, htc⟩ := hmem
  have hp : (fun i => oc.dc.pos (leafCorners c' i)) = cubeCorners (oc.dc.pos c'.o) (2 * oc.dc.resolution) := by
    funext a
    fin_cases a <;> simp [leafCorners, cubeCorners, cornerOffset, Dc3.pos, V3i.add, V3i.toV3, V3.add, V3.scale] <;>
      (try constructor) <;> (try constructor) <;> ring
  have htc' : t ∈ ((rawTriangles (fun i => oc.dc.pos (leafCorners c' i)) (fun i => oc.dc.value (leafCorners c' i)) 0).filter fun t => !deg t) := htc
  rw [hp] at htc'
  obtain ⟨i, o, h1, h2, h3⟩ := C53_outward (oc.dc.pos c'.o) (2 * oc.dc.resolution) (by linarith) (fun i => oc.dc.value (leafCorners c' i)) 0
    deg 5 _ rfl t htc'
  have hv : ∀ a, oc.dc.value (leafCorners c' a) = s.eval (cubeCorners (oc.dc.pos c'.o) (2 * oc.dc.resolution) a) := by
    intro a
    rw [← hp, Dc3.value, f.dc_s]
  simp only [hv] at h1 h3
  refine ⟨_, _, fun k => ⟨(h1 k).2.1, (h1 k).2.2, ?_⟩, h2, fun h => h3 fun k => by simpa using h k⟩
  rw [hres]
  have hadj := (h1 k).1
  apply V3.norm_eq_of (by linarith)
  have hall : ∀ a b : Fin 8, AdjacentCorners a b →
      ((if (cornerOffset b).1 then (1 : ℤ) else 0) - (if (cornerOffset a).1 then 1 else 0)) * ((if (cornerOffset b).1 then 1 else 0) - (if (cornerOffset a).1 then 1 else 0))
      + ((if (cornerOffset b).2.1 then 1 else 0) - (if (cornerOffset a).2.1 then 1 else 0)) * ((if (cornerOffset b).2.1 then 1 else 0) - (if (cornerOffset a).2.1 then 1 else 0))
      + ((if (cornerOffset b).2.2 then 1 else 0) - (if (cornerOffset a).2.2 then 1 else 0)) * ((if (cornerOffset b).2.2 then 1 else 0) - (if (cornerOffset a).2.2 then 1 else 0)) = 1 := by decide
  have h4 := hall _ _ hadj
  have h4' : ((if (cornerOffset (o k)).1 then (1 : ℝ) else 0) - (if (cornerOffset (i k)).1 then 1 else 0)) * ((if (cornerOffset (o k)).1 then 1 else 0) - (if (cornerOffset (i k)).1 then 1 else 0))
      + ((if (cornerOffset (o k)).2.1 then 1 else 0) - (if (cornerOffset (i k)).2.1 then 1 else 0)) * ((if (cornerOffset (o k)).2.1 then 1 else 0) - (if (cornerOffset (i k)).2.1 then 1 else 0))
      + ((if (cornerOffset (o k)).2.2 then 1 else 0) - (if (cornerOffset (i k)).2.2 then 1 else 0)) * ((if (cornerOffset (o k)).2.2 then 1 else 0) - (if (cornerOffset (i k)).2.2 then 1 else 0)) = 1 := by
    exact_mod_cast h4
  simp only [cubeCorners, V3.sub]
  linear_combination (4 * oc.dc.resolution * oc.dc.resolution) * h4'

end Sdf.Octree
