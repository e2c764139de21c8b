import Verif.Props.C46Import

/-! C47: the sign of the distance to an imported mesh. -/

namespace Sdf

namespace Bih

/-- The triangles separate the points of `K` from the other points. -/
def Separates (mesh : List Tri) (K : Set V3) : Prop :=
  ∀ x ∈ K, ∀ y, y ∉ K → ∃ z, V3.InSeg x y z ∧ ∃ t ∈ mesh, t.Mem z

/-- `q` is in the triangle `t` and not on its edges. -/
def InnerFace (t : Tri) (q : V3) : Prop :=
  ∃ u v w, 0 < u ∧ 0 < v ∧ 0 < w ∧ u + v + w = 1 ∧ q = V3.add (V3.add (V3.scale u t.a) (V3.scale v t.b)) (V3.scale w t.c)

/-- Near the inner points of every triangle `K` is the side the normal, by the right-hand rule, points away from. -/
def Outward (mesh : List Tri) (K : Set V3) : Prop :=
  ∀ t ∈ mesh, ∀ q, InnerFace t q → ∃ ε, 0 < ε ∧ ∀ x, V3.dist x q < ε →
    (V3.dot (V3.cross (V3.sub t.b t.a) (V3.sub t.c t.a)) (V3.sub x q) < 0 → x ∈ K) ∧
    (0 < V3.dot (V3.cross (V3.sub t.b t.a) (V3.sub t.c t.a)) (V3.sub x q) → x ∉ K)

/-- At the closest point inside the triangle the difference is perpendicular to the edges. -/
theorem inner_perp {t : Tri} {p q : V3} (hq : InnerFace t q) (hmin : ∀ r, t.Mem r → V3.dist p q ≤ V3.dist p r) :
    V3.dot (V3.sub p q) (V3.sub t.b t.a) = 0 ∧ V3.dot (V3.sub p q) (V3.sub t.c t.a) = 0 := by
  obtain ⟨u, v, w, hu, hv, hw, hs, rfl⟩ := hq
  have key : ∀ (e : V3), (∃ s, 0 < s ∧ ∀ x, |x| ≤ s → t.Mem (V3.add (V3.add (V3.add (V3.scale u t.a) (V3.scale v t.b)) (V3.scale w t.c)) (V3.scale x e))) →
      V3.dot (V3.sub p (V3.add (V3.add (V3.scale u t.a) (V3.scale v t.b)) (V3.scale w t.c))) e = 0 := by
    intro e ⟨s, hs0, h⟩
    generalize V3.add (V3.add (V3.scale u t.a) (V3.scale v t.b)) (V3.scale w t.c) = q at *
    have hsq : ∀ x, |x| ≤ s → V3.norm2 (V3.sub p q) ≤ V3.norm2 (V3.sub p (V3.add q (V3.scale x e))) := by
      intro x hx
      have := hmin _ (h x hx)
      rw [V3.norm2_eq_dist, V3.norm2_eq_dist]
      exact pow_le_pow_left₀ (Real.sqrt_nonneg _) this 2
    have hexp : ∀ x, V3.norm2 (V3.sub p (V3.add q (V3.scale x e))) =
        V3.norm2 (V3.sub p q) - 2 * x * V3.dot (V3.sub p q) e + x ^ 2 * V3.norm2 e := by
      intro x; simp only [V3.norm2, V3.sub, V3.add, V3.scale, V3.dot]; ring
    have hq2 : ∀ x, |x| ≤ s → 0 ≤ - 2 * x * V3.dot (V3.sub p q) e + x ^ 2 * V3.norm2 e := by
      intro x hx
      have := hsq x hx
      rw [hexp] at this
      linarith
    have hn : 0 ≤ V3.norm2 e := by unfold V3.norm2; nlinarith [mul_self_nonneg e.x, mul_self_nonneg e.y, mul_self_nonneg e.z]
    generalize V3.dot (V3.sub p q) e = d at *
    generalize V3.norm2 e = n at *
    by_contra hd
    set m := |d| / (n + |d| / s) with hm
    have hd0 : 0 < |d| := abs_pos.2 hd
    have hden : 0 < n + |d| / s := by positivity
    have hm0 : 0 < m := by positivity
    have hms : m ≤ s := by
      rw [hm, div_le_iff₀ hden]
      have : s * (n + |d| / s) = s * n + |d| := by field_simp
      rw [this]
      nlinarith
    have hmn : m * n ≤ |d| := by
      rw [hm, div_mul_eq_mul_div, div_le_iff₀ hden]
      have : 0 ≤ |d| / s := by positivity
      nlinarith
    rcases lt_or_gt_of_ne hd with hneg | hpos
    · have := hq2 (-m) (by rw [abs_neg, abs_of_pos hm0]; exact hms)
      rw [abs_of_neg hneg] at hmn
      nlinarith
    · have := hq2 m (by rw [abs_of_pos hm0]; exact hms)
      rw [abs_of_pos hpos] at hmn
      nlinarith
  refine ⟨key _ ⟨min u v, lt_min hu hv, fun x hx => ?_⟩, key _ ⟨min u w, lt_min hu hw, fun x hx => ?_⟩⟩
  · obtain ⟨h1, h2⟩ := abs_le.1 hx
    have := min_le_left u v
    have := min_le_right u v
    refine ⟨u - x, v + x, w, by linarith, by linarith, hw.le, by linarith, ?_⟩
    ext <;> simp only [V3.add, V3.scale, V3.sub] <;> ring
  · obtain ⟨h1, h2⟩ := abs_le.1 hx
    have := min_le_left u w
    have := min_le_right u w
    refine ⟨u - x, v, w + x, by linarith, hv.le, by linarith, by linarith, ?_⟩
    ext <;> simp only [V3.add, V3.scale, V3.sub] <;> ring

/-- A vector perpendicular to both edges of a triangle is not zero along its normal. -/
theorem perp_normal {e0 e1 d : V3} (hn : V3.cross e0 e1 ≠ ⟨0, 0, 0⟩) (h0 : V3.dot d e0 = 0) (h1 : V3.dot d e1 = 0)
    (hd : d ≠ ⟨0, 0, 0⟩) : V3.dot (V3.cross e0 e1) d ≠ 0 := by
  intro h
  -- cross (cross e0 e1) d = 0 as both edges are perpendicular to d; with the dot product zero too, one factor is zero
  have l : V3.dot (V3.cross e0 e1) (V3.cross e0 e1) * V3.dot d d = 0 := by
    have lag : V3.dot (V3.cross e0 e1) (V3.cross e0 e1) * V3.dot d d = V3.dot (V3.cross e0 e1) d ^ 2 +
        V3.dot (V3.sub (V3.scale (V3.dot d e0) e1) (V3.scale (V3.dot d e1) e0)) (V3.sub (V3.scale (V3.dot d e0) e1) (V3.scale (V3.dot d e1) e0)) := by
      simp only [V3.dot, V3.cross, V3.sub, V3.scale]; ring
    rw [lag, h, h0, h1]
    simp [V3.dot, V3.sub, V3.scale]
  have pos : ∀ v : V3, v ≠ ⟨0, 0, 0⟩ → 0 < V3.dot v v := by
    intro v hv
    have := V3.norm_pos hv
    have h2 := V3.norm_sq v
    unfold V3.dot
    nlinarith
  have := mul_pos (pos _ hn) (pos _ hd)
  linarith

theorem dot_faceNormal {t : Tri} (ht : t.NonDegenerate) (d : V3) :
    (0 ≤ V3.dot (faceNormal t) d ↔ 0 ≤ V3.dot (V3.cross (V3.sub t.b t.a) (V3.sub t.c t.a)) d) := by
  have hn := V3.norm_pos ht
  have : V3.dot (faceNormal t) d = 1 / V3.norm (V3.cross (V3.sub t.b t.a) (V3.sub t.c t.a)) *
      V3.dot (V3.cross (V3.sub t.b t.a) (V3.sub t.c t.a)) d := by
    simp only [faceNormal, V3.unit, V3.dot, V3.scale]; ring
  rw [this]
  constructor
  · intro h; exact nonneg_of_mul_nonneg_right h (by positivity)
  · intro h; positivity

/-- For a solid whose surface is the mesh, with normals pointing out, and a query off the mesh for which no triangle is passed
over and whose closest mesh points are inside faces: the value is the distance to the mesh, negative exactly inside the solid.
(Missing from the full property: queries whose closest point is on an edge or a corner; see `C47_outside_negative`.) -/
theorem C47_face_partial (S : Sorter) (mesh : List Tri) (bb : Box3) (hb : ∀ t ∈ mesh, Corners bb.Contains t)
    (hnd : ∀ t ∈ mesh, t.NonDegenerate) (K : Set V3) (hK : Separates mesh K) (hO : Outward mesh K) (p : V3)
    (hs : ∀ t ∈ mesh, ¬ Skipped t p) (hn : ∃ t ∈ mesh, ∃ q, t.Mem q ∧ V3.dist p q ^ 2 < maxFloat64)
    (hp : ∀ t ∈ mesh, ¬ t.Mem p)
    (hin : ∀ t ∈ mesh, ∀ q, t.Mem q → (∀ t' ∈ mesh, ∀ q', t'.Mem q' → V3.dist p q ≤ V3.dist p q') → InnerFace t q) :
    ∃ v, (build S mesh bb).evaluate p = some v ∧ (v < 0 ↔ p ∈ K) ∧ (0 < v ↔ p ∉ K) ∧
      (∃ t ∈ mesh, ∃ q, t.Mem q ∧ |v| = V3.dist p q) ∧ ∀ t ∈ mesh, ∀ q, t.Mem q → |v| ≤ V3.dist p q := by
  obtain ⟨v, e, h⟩ := C39_scan S mesh bb hb p
  refine ⟨v, e, ?_⟩
  rcases h with ⟨-, h⟩ | ⟨t, ht, -, q, hq, hv, h⟩
  · obtain ⟨t, ht, q, hq, hlt⟩ := hn
    exact absurd (h t ht (hs t ht) q hq) (not_le.2 hlt)
  have hall : ∀ t' ∈ mesh, ∀ q', t'.Mem q' → V3.dist p q ≤ V3.dist p q' := fun t' ht' => h t' ht' (hs t' ht')
  have hinner := hin t ht q hq.1 hall
  have hpq : p ≠ q := fun e => hp t ht (e ▸ hq.1)
  have hdne : V3.sub p q ≠ ⟨0, 0, 0⟩ := by
    intro e
    apply hpq
    have ex := congrArg V3.x e
    have ey := congrArg V3.y e
    have ez := congrArg V3.z e
    simp only [V3.sub] at ex ey ez
    ext <;> linarith
  have hd0 : 0 < V3.dist p q := V3.norm_pos hdne
  obtain ⟨z0, z1⟩ := inner_perp hinner hq.2
  have hne := perp_normal (hnd t ht) z0 z1 hdne
  obtain ⟨ε, hε, hloc⟩ := hO t ht q hinner
  -- a point on the way from q to p, close to q
  set s := min (1 / 2) (ε / (2 * V3.dist p q)) with hsdef
  have s0 : 0 < s := lt_min (by norm_num) (by positivity)
  have s1 : s ≤ 1 / 2 := min_le_left _ _
  set x := V3.add q (V3.scale s (V3.sub p q)) with hx
  have hxq : V3.dist x q < ε := by
    have e1 : V3.sub x q = V3.scale s (V3.sub p q) := by rw [hx]; ext <;> simp [V3.sub, V3.add]
    unfold V3.dist
    rw [e1, V3.norm_scale, abs_of_pos s0]
    have : s ≤ ε / (2 * V3.dist p q) := min_le_right _ _
    calc s * V3.norm (V3.sub p q) ≤ ε / (2 * V3.dist p q) * V3.norm (V3.sub p q) := mul_le_mul_of_nonneg_right this hd0.le
      _ = ε / 2 := by
        have : V3.norm (V3.sub p q) = V3.dist p q := rfl
        rw [this]; field_simp
      _ < ε := by linarith
  have hdotx : V3.dot (V3.cross (V3.sub t.b t.a) (V3.sub t.c t.a)) (V3.sub x q) =
      s * V3.dot (V3.cross (V3.sub t.b t.a) (V3.sub t.c t.a)) (V3.sub p q) := by
    rw [hx]; simp only [V3.dot, V3.sub, V3.add, V3.scale]; ring
  -- no mesh point between x and p
  have hno : ∀ z, (V3.InSeg x p z ∨ V3.InSeg p x z) → ∀ t ∈ mesh, ¬ t.Mem z := by
    intro z hz t' ht' hm
    have hle := hall t' ht' z hm
    obtain ⟨k, k1, hk⟩ : ∃ k, |k| ≤ 1 - s ∧ V3.sub p z = V3.scale k (V3.sub p q) := by
      rcases hz with ⟨a, b, ha, hb, hab, rfl⟩ | ⟨b, a, hb, ha, hab, rfl⟩
      · refine ⟨a * (1 - s), ?_, ?_⟩
        · rw [abs_of_nonneg (by nlinarith)]; nlinarith
        · rw [hx]
          have : b = 1 - a := by linarith
          ext <;> simp only [V3.sub, V3.add, V3.scale, this] <;> ring
      · refine ⟨a * (1 - s), ?_, ?_⟩
        · rw [abs_of_nonneg (by nlinarith)]; nlinarith
        · rw [hx]
          have : b = 1 - a := by linarith
          ext <;> simp only [V3.sub, V3.add, V3.scale, this] <;> ring
    have : V3.dist p z ≤ (1 - s) * V3.dist p q := by
      unfold V3.dist
      rw [hk, V3.norm_scale]
      exact mul_le_mul_of_nonneg_right k1 (Real.sqrt_nonneg _)
    nlinarith
  have hside : (V3.dot (V3.cross (V3.sub t.b t.a) (V3.sub t.c t.a)) (V3.sub p q) < 0 → p ∈ K) ∧
      (0 < V3.dot (V3.cross (V3.sub t.b t.a) (V3.sub t.c t.a)) (V3.sub p q) → p ∉ K) := by
    constructor
    · intro hlt
      have hxK : x ∈ K := (hloc x hxq).1 (by rw [hdotx]; exact mul_neg_of_pos_of_neg s0 hlt)
      by_contra hpK
      obtain ⟨z, hz, t', ht', hm⟩ := hK x hxK p hpK
      exact hno z (Or.inl hz) t' ht' hm
    · intro hgt hpK
      have hxK : x ∉ K := (hloc x hxq).2 (by rw [hdotx]; exact mul_pos s0 hgt)
      obtain ⟨z, hz, t', ht', hm⟩ := hK p hpK x hxK
      exact hno z (Or.inr hz) t' ht' hm
  have hv' : |v| = V3.dist p q := by
    rcases hv with ⟨-, rfl⟩ | ⟨-, rfl⟩
    · exact abs_of_pos hd0
    · rw [abs_neg, abs_of_pos hd0]
  refine ⟨?_, ?_, ⟨t, ht, q, hq.1, hv'⟩, fun t' ht' q' hq' => by rw [hv']; exact hall t' ht' q' hq'⟩
  · rcases hv with ⟨hs, rfl⟩ | ⟨hs, rfl⟩
    · have h0 := (dot_faceNormal (hnd t ht) _).1 hs
      have := hside.2 (lt_of_le_of_ne h0 (Ne.symm hne))
      constructor
      · intro hlt; linarith
      · intro hpK; exact absurd hpK this
    · have h0 : V3.dot (V3.cross (V3.sub t.b t.a) (V3.sub t.c t.a)) (V3.sub p q) < 0 := by
        rw [← not_le, ← dot_faceNormal (hnd t ht), not_le]; exact hs
      have := hside.1 h0
      constructor
      · intro _; exact this
      · intro _; linarith
  · rcases hv with ⟨hs, rfl⟩ | ⟨hs, rfl⟩
    · have h0 := (dot_faceNormal (hnd t ht) _).1 hs
      have := hside.2 (lt_of_le_of_ne h0 (Ne.symm hne))
      constructor
      · intro _; exact this
      · intro _; exact hd0
    · have h0 : V3.dot (V3.cross (V3.sub t.b t.a) (V3.sub t.c t.a)) (V3.sub p q) < 0 := by
        rw [← not_le, ← dot_faceNormal (hnd t ht), not_le]; exact hs
      have := hside.1 h0
      constructor
      · intro hlt; linarith
      · intro hpK; exact absurd this hpK

/-! A tetrahedron meeting all the hypotheses of `C47_face_partial`. -/

/-- The faces of the tetrahedron with corners at the origin and the three unit vectors. -/
def corner : List Tri :=
  [⟨⟨0, 0, 0⟩, ⟨0, 1, 0⟩, ⟨1, 0, 0⟩⟩, ⟨⟨0, 0, 0⟩, ⟨1, 0, 0⟩, ⟨0, 0, 1⟩⟩,
   ⟨⟨0, 0, 0⟩, ⟨0, 0, 1⟩, ⟨0, 1, 0⟩⟩, ⟨⟨1, 0, 0⟩, ⟨0, 1, 0⟩, ⟨0, 0, 1⟩⟩]

/-- The tetrahedron itself. -/
def cornerSolid : Set V3 := {p | 0 ≤ p.x ∧ 0 ≤ p.y ∧ 0 ≤ p.z ∧ p.x + p.y + p.z ≤ 1}

theorem corner_mem {q : V3} (hq : q ∈ cornerSolid) (h : q.x = 0 ∨ q.y = 0 ∨ q.z = 0 ∨ q.x + q.y + q.z = 1) : ∃ t ∈ corner, t.Mem q := by
  obtain ⟨hx, hy, hz, hs⟩ := hq
  rcases h with h | h | h | h
  · refine ⟨⟨⟨0, 0, 0⟩, ⟨0, 0, 1⟩, ⟨0, 1, 0⟩⟩, by simp [corner], 1 - q.z - q.y, q.z, q.y, by linarith, hz, hy, by ring, ?_⟩
    ext <;> simp [V3.add, V3.scale, h]
  · refine ⟨⟨⟨0, 0, 0⟩, ⟨1, 0, 0⟩, ⟨0, 0, 1⟩⟩, by simp [corner], 1 - q.x - q.z, q.x, q.z, by linarith, hx, hz, by ring, ?_⟩
    ext <;> simp [V3.add, V3.scale, h]
  · refine ⟨⟨⟨0, 0, 0⟩, ⟨0, 1, 0⟩, ⟨1, 0, 0⟩⟩, by simp [corner], 1 - q.y - q.x, q.y, q.x, by linarith, hy, hx, by ring, ?_⟩
    ext <;> simp [V3.add, V3.scale, h]
  · refine ⟨⟨⟨1, 0, 0⟩, ⟨0, 1, 0⟩, ⟨0, 0, 1⟩⟩, by simp [corner], q.x, q.y, q.z, hx, hy, hz, h, ?_⟩
    ext <;> simp [V3.add, V3.scale]

theorem corner_separates : Separates corner cornerSolid := by
  intro x hx y hy
  set f : ℝ → ℝ := fun s => min (min (x.x + s * (y.x - x.x)) (x.y + s * (y.y - x.y)))
    (min (x.z + s * (y.z - x.z)) (1 - (x.x + s * (y.x - x.x)) - (x.y + s * (y.y - x.y)) - (x.z + s * (y.z - x.z)))) with hf
  have hc : ContinuousOn f (Set.Icc 0 1) := by
    apply Continuous.continuousOn
    fun_prop
  have h0 : 0 ≤ f 0 := by
    obtain ⟨a, b, c, d⟩ := hx
    simp only [hf, zero_mul, add_zero]
    refine le_min (le_min a b) (le_min c (by linarith))
  have h1 : f 1 ≤ 0 := by
    by_contra h
    push Not at h
    simp only [hf, one_mul, lt_min_iff] at h
    apply hy
    refine ⟨?_, ?_, ?_, ?_⟩ <;> linarith [h.1.1, h.1.2, h.2.1, h.2.2]
  obtain ⟨s, ⟨s0, s1⟩, hs⟩ := intermediate_value_Icc' zero_le_one hc ⟨h1, h0⟩
  set z : V3 := ⟨x.x + s * (y.x - x.x), x.y + s * (y.y - x.y), x.z + s * (y.z - x.z)⟩ with hz
  have hle : min (min z.x z.y) (min z.z (1 - z.x - z.y - z.z)) = 0 := hs
  refine ⟨z, ⟨1 - s, s, by linarith, s0, by ring, ?_⟩, corner_mem ?_ ?_⟩
  · rw [hz]; ext <;> simp only [V3.add, V3.scale] <;> ring
  · have a := hle.ge
    simp only [le_min_iff] at a
    exact ⟨a.1.1, a.1.2, a.2.1, by linarith [a.2.2]⟩
  · rcases min_choice (min z.x z.y) (min z.z (1 - z.x - z.y - z.z)) with h | h <;> rw [h] at hle
    · rcases min_choice z.x z.y with h | h <;> rw [h] at hle
      · exact Or.inl hle
      · exact Or.inr (Or.inl hle)
    · rcases min_choice z.z (1 - z.x - z.y - z.z) with h | h <;> rw [h] at hle
      · exact Or.inr (Or.inr (Or.inl hle))
      · exact Or.inr (Or.inr (Or.inr (by linarith)))

theorem corner_outward : Outward corner cornerSolid := by
  intro t ht q ⟨u, v, w, hu, hv, hw, hs, hq⟩
  refine ⟨min (u / 3) (min (v / 3) (w / 3)), lt_min (by linarith) (lt_min (by linarith) (by linarith)), fun x hx => ?_⟩
  obtain ⟨x1, x2⟩ := lt_min_iff.1 hx
  obtain ⟨x2, x3⟩ := lt_min_iff.1 x2
  have ax := abs_le.1 ((V3.abs_x_le (V3.sub x q)))
  have ay := abs_le.1 ((V3.abs_y_le (V3.sub x q)))
  have az := abs_le.1 ((V3.abs_z_le (V3.sub x q)))
  change - V3.dist x q ≤ _ ∧ _ ≤ V3.dist x q at ax ay az
  generalize V3.dist x q = d at *
  simp only [corner, List.mem_cons, List.not_mem_nil, or_false] at ht
  rcases ht with rfl | rfl | rfl | rfl <;>
    simp only [V3.add, V3.scale] at hq <;>
    simp only [hq, V3.sub, V3.dot, V3.cross, cornerSolid, Set.mem_ofPred_eq] at ax ay az ⊢ <;>
    norm_num at ax ay az ⊢ <;>
    refine ⟨fun h => ⟨?_, ?_, ?_, ?_⟩, fun h => ?_⟩ <;>
    first | linarith [ax.1, ax.2, ay.1, ay.2, az.1, az.2] | (intro a b c; linarith [ax.1, ax.2, ay.1, ay.2, az.1, az.2])

example (S : Sorter) : ∃ v, (build S corner (triBox corner)).evaluate ⟨1 / 4, 1 / 4, 1 / 16⟩ = some v ∧ v < 0 := by
  have hbig := big
  have hbot : (⟨⟨0, 0, 0⟩, ⟨0, 1, 0⟩, ⟨1, 0, 0⟩⟩ : Tri).Mem ⟨1 / 4, 1 / 4, 0⟩ :=
    ⟨1 / 2, 1 / 4, 1 / 4, by norm_num, by norm_num, by norm_num, by norm_num, by ext <;> simp [V3.add, V3.scale]⟩
  have hdist : V3.dist ⟨1 / 4, 1 / 4, 1 / 16⟩ ⟨1 / 4, 1 / 4, 0⟩ = 1 / 16 :=
    V3.norm_eq_of (by norm_num) (by simp only [V3.sub]; norm_num)
  obtain ⟨v, e, h, -⟩ := C47_face_partial S corner (triBox corner) (fun _ ht => triBox_corners corner ht) (by
      intro t ht
      simp only [corner, List.mem_cons, List.not_mem_nil, or_false] at ht
      rcases ht with rfl | rfl | rfl | rfl <;> intro e <;>
        (have e1 := congrArg V3.x e; have e2 := congrArg V3.y e; have e3 := congrArg V3.z e
         simp [V3.cross, V3.sub] at e1 e2 e3))
    cornerSolid corner_separates corner_outward ⟨1 / 4, 1 / 4, 1 / 16⟩ (by
      intro t ht
      simp only [corner, List.mem_cons, List.not_mem_nil, or_false] at ht
      rcases ht with rfl | rfl | rfl | rfl <;> simp [Skipped, V3.dot, V3.sub])
    ⟨_, by simp [corner], _, hbot, by rw [hdist]; linarith⟩ (by
      intro t ht hm
      obtain ⟨u, v, w, hu, hv, hw, hs, hq⟩ := hm
      have e1 := congrArg V3.x hq
      have e2 := congrArg V3.y hq
      have e3 := congrArg V3.z hq
      simp only [corner, List.mem_cons, List.not_mem_nil, or_false] at ht
      rcases ht with rfl | rfl | rfl | rfl <;> simp [V3.add, V3.scale] at e1 e2 e3
      linarith)
    (by
      intro t ht q hm hmin
      have hle := hmin _ (by simp [corner]) _ hbot
      rw [hdist] at hle
      obtain ⟨u, v, w, hu, hv, hw, hs, rfl⟩ := hm
      have ax := abs_le.1 ((V3.abs_x_le _).trans hle)
      have ay := abs_le.1 ((V3.abs_y_le _).trans hle)
      have az := abs_le.1 ((V3.abs_z_le _).trans hle)
      simp only [corner, List.mem_cons, List.not_mem_nil, or_false] at ht
      rcases ht with rfl | rfl | rfl | rfl <;> simp only [V3.add, V3.scale, V3.sub] at ax ay az
      · exact ⟨u, v, w, by linarith [ax.1, ax.2, ay.1, ay.2], by linarith [ay.2], by linarith [ax.2], hs, rfl⟩
      · exact absurd ay.2 (by norm_num)
      · exact absurd ax.2 (by norm_num)
      · exfalso; linarith [ax.1, ay.1, az.1])
  exact ⟨v, e, h.2 (by simp only [cornerSolid, Set.mem_ofPred_eq]; norm_num)⟩

/-! A leaning tetrahedron and a query outside of it with a negative value. -/

/-- Four triangles. -/
def leaning : List Tri :=
  [⟨⟨0, 0, 0⟩, ⟨1, 1, -1⟩, ⟨1, -1, -1⟩⟩, ⟨⟨0, 0, 0⟩, ⟨1, -1, -1⟩, ⟨3, 0, -1⟩⟩,
   ⟨⟨0, 0, 0⟩, ⟨3, 0, -1⟩, ⟨1, 1, -1⟩⟩, ⟨⟨1, -1, -1⟩, ⟨1, 1, -1⟩, ⟨3, 0, -1⟩⟩]

/-- The corners of `leaning`. -/
def leaningCorners : List V3 := [⟨0, 0, 0⟩, ⟨1, 1, -1⟩, ⟨1, -1, -1⟩, ⟨3, 0, -1⟩]

theorem leaning_low {t : Tri} (ht : t ∈ leaning) {q : V3} (hq : t.Mem q) : q.z ≤ 0 := by
  obtain ⟨u, v, w, hu, hv, hw, hs, rfl⟩ := hq
  simp only [leaning, List.mem_cons, List.not_mem_nil, or_false] at ht
  rcases ht with rfl | rfl | rfl | rfl <;> simp only [V3.add, V3.scale] <;> linarith

/-- The mesh of a tetrahedron whose faces all have the tetrahedron behind them, and a query in front of one of the faces, at distance
1 from the mesh, whose value is -1. -/
theorem C47_outside_negative (S : Sorter) :
    (∀ t ∈ leaning, ∀ v ∈ leaningCorners, V3.dot (V3.cross (V3.sub t.b t.a) (V3.sub t.c t.a)) (V3.sub v t.a) ≤ 0) ∧
    (∃ t ∈ leaning, 0 < V3.dot (V3.cross (V3.sub t.b t.a) (V3.sub t.c t.a)) (V3.sub ⟨0, 0, 1⟩ t.a)) ∧
    (build S leaning (triBox leaning)).evaluate ⟨0, 0, 1⟩ = some (-1) := by
  refine ⟨?_, ?_, ?_⟩
  · intro t ht v hv
    simp only [leaning, List.mem_cons, List.not_mem_nil, or_false] at ht
    simp only [leaningCorners, List.mem_cons, List.not_mem_nil, or_false] at hv
    rcases ht with rfl | rfl | rfl | rfl <;> rcases hv with rfl | rfl | rfl | rfl <;>
      simp only [V3.dot, V3.cross, V3.sub] <;> norm_num
  · refine ⟨⟨⟨0, 0, 0⟩, ⟨1, -1, -1⟩, ⟨3, 0, -1⟩⟩, by simp [leaning], ?_⟩
    simp only [V3.dot, V3.cross, V3.sub]; norm_num
  · have hbig := big
    have hbuild : build S leaning (triBox leaning) = ⟨[.leaf 0 4], leaning, triBox leaning⟩ := by
      unfold build
      rw [subdivide, dif_pos (by simp [leaning])]
      simp [leaning, Node.zero]
    rw [hbuild]
    have hfirst : minDistTri ⟨⟨0, 0, 0⟩, ⟨1, 1, -1⟩, ⟨1, -1, -1⟩⟩ ⟨0, 0, 1⟩ = some ⟨0, 0, 1⟩ := by
      have hpar : minParams 3 1 3 1 1 = some ⟨0, 0⟩ := by
        unfold minParams minEdge02
        norm_num
      unfold minDistTri
      have e : ∀ a00 a01 a11 b0 b1 : ℝ, a00 = 3 → a01 = 1 → a11 = 3 → b0 = 1 → b1 = 1 → minParams a00 a01 a11 b0 b1 = some ⟨0, 0⟩ := by
        rintro _ _ _ _ _ rfl rfl rfl rfl rfl; exact hpar
      dsimp only
      rw [e _ _ _ _ _ (by simp only [V3.dot, V3.sub]; norm_num) (by simp only [V3.dot, V3.sub]; norm_num)
        (by simp only [V3.dot, V3.sub]; norm_num) (by simp only [V3.dot, V3.sub]; norm_num) (by simp only [V3.dot, V3.sub]; norm_num)]
      simp [V3.add, V3.scale, V3.sub]
    have hkeep : ∀ i t, t ∈ leaning → (⟨1, ⟨0, 0, 1⟩, some 0⟩ : Best).tri ⟨0, 0, 1⟩ i t = ⟨1, ⟨0, 0, 1⟩, some 0⟩ := by
      intro i t ht
      unfold Best.tri
      cases hd : minDistTri t ⟨0, 0, 1⟩ with
      | none => rfl
      | some d =>
        dsimp only
        rw [if_neg]
        have hz := leaning_low ht (C42_tree_partial t _ d hd).1
        simp only [V3.sub] at hz
        simp only [V3.norm2, not_lt]
        nlinarith [mul_self_nonneg d.x, mul_self_nonneg d.y]
    have hstart : (⟨maxFloat64, ⟨0, 0, 0⟩, none⟩ : Best).tri ⟨0, 0, 1⟩ 0 ⟨⟨0, 0, 0⟩, ⟨1, 1, -1⟩, ⟨1, -1, -1⟩⟩ = ⟨1, ⟨0, 0, 1⟩, some 0⟩ := by
      unfold Best.tri
      rw [hfirst]
      dsimp only
      have : V3.norm2 ⟨0, 0, 1⟩ = 1 := by simp [V3.norm2]
      rw [this, if_pos (by linarith)]
    have hnear : nearest ⟨[.leaf 0 4], leaning, triBox leaning⟩ ⟨0, 0, 1⟩ = some ⟨1, ⟨0, 0, 1⟩, some 0⟩ := by
      unfold nearest
      show search _ _ _ (0 + 1) 0 _ _ = _
      rw [search]
      simp only [List.getElem?_cons_zero]
      have m0 : (⟨⟨0, 0, 0⟩, ⟨1, 1, -1⟩, ⟨1, -1, -1⟩⟩ : Tri) ∈ leaning := by simp [leaning]
      show scan leaning ⟨0, 0, 1⟩ 4 0 _ = _
      rw [scan, show leaning[0]? = some ⟨⟨0, 0, 0⟩, ⟨1, 1, -1⟩, ⟨1, -1, -1⟩⟩ from rfl]
      dsimp only
      rw [hstart, scan, show leaning[0 + 1]? = some ⟨⟨0, 0, 0⟩, ⟨1, -1, -1⟩, ⟨3, 0, -1⟩⟩ from rfl]
      dsimp only
      rw [hkeep _ _ (by simp [leaning]), scan, show leaning[0 + 1 + 1]? = some ⟨⟨0, 0, 0⟩, ⟨3, 0, -1⟩, ⟨1, 1, -1⟩⟩ from rfl]
      dsimp only
      rw [hkeep _ _ (by simp [leaning]), scan, show leaning[0 + 1 + 1 + 1]? = some ⟨⟨1, -1, -1⟩, ⟨1, 1, -1⟩, ⟨3, 0, -1⟩⟩ from rfl]
      dsimp only
      rw [hkeep _ _ (by simp [leaning]), scan]
    unfold evaluate
    rw [hnear, Option.bind_some]
    dsimp only
    rw [show leaning[0]? = some ⟨⟨0, 0, 0⟩, ⟨1, 1, -1⟩, ⟨1, -1, -1⟩⟩ from rfl, Option.map_some, if_neg]
    · simp
    · have hnd : (⟨⟨0, 0, 0⟩, ⟨1, 1, -1⟩, ⟨1, -1, -1⟩⟩ : Tri).NonDegenerate := by
        intro e
        have := congrArg V3.x e
        simp only [V3.cross, V3.sub] at this
        norm_num at this
      rw [ge_iff_le, dot_faceNormal hnd]
      simp only [V3.dot, V3.cross, V3.sub]
      norm_num

end Bih

end Sdf
