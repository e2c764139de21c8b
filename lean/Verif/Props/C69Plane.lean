import Verif.Props.C69Algebra

/-!
C69 in the plane.  `Union2D` skips operands by their bounding boxes, so the value of a union depends on more than the set of its operands
unless they are at least as far as their boxes say (C29).  Everything else is as in space.
-/

namespace Sdf

theorem SDF2.prunedLoop_map (F : SDF2 → SDF2) (φ : ℝ → ℝ) (p near : V2) (idx : ℕ) (hv : ∀ x, (F x).eval p = φ (x.eval p))
    (hφ : ∀ a b, φ (min a b) = min (φ a) (φ b)) : ∀ (l : List (SDF2 × V2)) (i : ℕ) (d : Option ℝ),
    SDF2.prunedLoop min p near idx (l.map fun x => (F x.1, x.2)) i (d.map φ) = (SDF2.prunedLoop min p near idx l i d).map φ := by
  intro l
  induction l with
  | nil => intro i d; rfl
  | cons x t ih =>
    intro i d
    obtain ⟨s, v⟩ := x
    simp only [List.map_cons]
    unfold SDF2.prunedLoop
    by_cases h : i = idx ∨ V2.Overlap near v
    · rw [if_pos h, if_pos h, ← ih]
      cases d with
      | none => simp [hv]
      | some d => simp [hv, hφ]
    · rw [if_neg h, if_neg h, ← ih]

/-- At least one operand is always evaluated. -/
theorem SDF2.prunedLoop_some (s0 : SDF2) (l : List SDF2) (p : V2) : ∃ r,
    SDF2.prunedLoop min p (((s0 :: l).map fun s => s.bounds.minMaxDist2 p).getD
      (SDF2.nearestBox ((s0 :: l).map fun s => s.bounds.minMaxDist2 p) 0 (-1) 0) ⟨0, 0⟩)
      (SDF2.nearestBox ((s0 :: l).map fun s => s.bounds.minMaxDist2 p) 0 (-1) 0)
      ((s0 :: l).zip ((s0 :: l).map fun s => s.bounds.minMaxDist2 p)) 0 none = some r := by
  set L := s0 :: l with hL
  set f : SDF2 → V2 := fun s => s.bounds.minMaxDist2 p with hf
  have hpos : ∀ v ∈ L.map f, 0 ≤ v.x := by
    intro v hv
    obtain ⟨s, _, rfl⟩ := List.mem_map.mp hv
    exact SDF2.minMaxDist2_nonneg _ _
  rcases SDF2.nearestBox_spec (L.map f) 0 (-1) 0 hpos with ⟨j, v, hj, hidx, _⟩ | ⟨_, h, _⟩
  swap
  · rcases h with h | h
    · simp [hL] at h
    · norm_num at h
  rw [zero_add] at hidx
  rw [hidx]
  obtain ⟨n, hn⟩ : ∃ n, L[j]? = some n := by
    rw [List.getElem?_map] at hj
    cases h : L[j]? with
    | none => simp [h] at hj
    | some n => exact ⟨n, rfl⟩
  have hz : (L.zip (L.map f))[j]? = some (n, f n) := by
    rw [List.getElem?_zip_eq_some]
    exact ⟨hn, by rw [List.getElem?_map, hn]; rfl⟩
  cases hr : SDF2.prunedLoop min p ((L.map f).getD j ⟨0, 0⟩) j (L.zip (L.map f)) 0 none with
  | none => exact absurd (Or.inl (zero_add j)) (((SDF2.prunedLoop_spec p _ j (L.zip (L.map f)) 0 none).2 hr).2 j (n, f n) hz)
  | some r => exact ⟨r, rfl⟩

/-- A change of all operands that keeps their boxes and is monotone in their values passes through a union. -/
theorem SDF2.unionEval_map (F : SDF2 → SDF2) (φ : ℝ → ℝ) (s0 : SDF2) (l : List SDF2) (p : V2) (hb : ∀ x, (F x).bounds = x.bounds)
    (hv : ∀ x, (F x).eval p = φ (x.eval p)) (hφ : ∀ a b, φ (min a b) = min (φ a) (φ b)) :
    SDF2.unionEval min (F s0 :: l.map F) p = φ (SDF2.unionEval min (s0 :: l) p) := by
  have e : F s0 :: l.map F = (s0 :: l).map F := rfl
  rw [e]
  simp only [SDF2.unionEval]
  have e2 : ((s0 :: l).map F).map (fun s => s.bounds.minMaxDist2 p) = (s0 :: l).map fun s => s.bounds.minMaxDist2 p := by
    rw [List.map_map]; apply List.map_congr_left; intro x _; simp [hb]
  rw [e2]
  have e3 : ((s0 :: l).map F).zip ((s0 :: l).map fun s => s.bounds.minMaxDist2 p) =
      ((s0 :: l).zip ((s0 :: l).map fun s => s.bounds.minMaxDist2 p)).map fun x => (F x.1, x.2) := by
    rw [List.zip_map_left]; rfl
  rw [e3]
  have := SDF2.prunedLoop_map F φ p (((s0 :: l).map fun s => s.bounds.minMaxDist2 p).getD
    (SDF2.nearestBox ((s0 :: l).map fun s => s.bounds.minMaxDist2 p) 0 (-1) 0) ⟨0, 0⟩)
    (SDF2.nearestBox ((s0 :: l).map fun s => s.bounds.minMaxDist2 p) 0 (-1) 0) hv hφ
    ((s0 :: l).zip ((s0 :: l).map fun s => s.bounds.minMaxDist2 p)) 0 none
  simp only [Option.map_none] at this
  rw [this]
  obtain ⟨r, hr⟩ := SDF2.prunedLoop_some s0 l p
  rw [hr]
  rfl

/-- Which figures are joined decides the region and the bounding box, and, when every operand is at least as far as its box says, the value. -/
theorem C69_plane_union_set (s0 t0 : SDF2) (l m : List SDF2) (h : ∀ x, x ∈ s0 :: l ↔ x ∈ t0 :: m) (p : V2) :
    (SDF2.union s0 l).bounds = (SDF2.union t0 m).bounds ∧
    ((∀ s ∈ s0 :: l, s.Bounded) → ((SDF2.union s0 l).Inside p ↔ (SDF2.union t0 m).Inside p)) ∧
    ((∀ s ∈ s0 :: l, Lip2 s.eval ∧ s.AtLeastBoxDistance ∧ s.NonEmpty) → (SDF2.union s0 l).eval p = (SDF2.union t0 m).eval p) := by
  refine ⟨?_, fun hb => ?_, fun hb => ?_⟩
  · simp only [SDF2.union, SDF2.unionWith]
    exact extend_semilattice2.fold_set (fun x : SDF2 => x.bounds) h s0 t0 (by simp) (by simp)
  · rw [C16_union2 s0 l hb, C16_union2 t0 m fun s hs => hb s ((h s).mpr hs)]
    constructor
    · rintro ⟨s, hs, hi⟩; exact ⟨s, (h s).mp hs, hi⟩
    · rintro ⟨s, hs, hi⟩; exact ⟨s, (h s).mpr hs, hi⟩
  · obtain ⟨⟨a, ha, ea⟩, h1⟩ := C29_pruning_partial s0 l p hb
    obtain ⟨⟨b, hb', eb⟩, h2⟩ := C29_pruning_partial t0 m p fun s hs => hb s ((h s).mpr hs)
    apply le_antisymm
    · rw [← eb]; exact h1 b ((h b).mpr hb')
    · rw [← ea]; exact h2 a ((h a).mp ha)

/-- Discs meet the conditions, so three discs may be joined in any order. -/
example (p : V2) : (SDF2.union (C29_disc ⟨0, 0⟩) [C29_disc ⟨4, 0⟩, C29_disc ⟨0, 9⟩]).eval p =
    (SDF2.union (C29_disc ⟨0, 9⟩) [C29_disc ⟨0, 0⟩, C29_disc ⟨4, 0⟩]).eval p := by
  apply (C69_plane_union_set _ _ _ _ (by simp; tauto) p).2.2
  intro s hs
  simp only [List.mem_cons, List.not_mem_nil, or_false] at hs
  rcases hs with rfl | rfl | rfl <;> exact C29_disc_ok _

/-- The last condition is needed: when an operand claims to be nearer than its box, the order of the others decides whether it is looked at. -/
theorem C69_plane_order : ∃ (a b c : SDF2) (p : V2),
    (SDF2.union a [b, c]).eval p = 1 ∧ (SDF2.union b [a, c]).eval p = 1 / 2 := by
  refine ⟨⟨fun _ => 1, ⟨⟨1, 0⟩, ⟨2, 0⟩⟩⟩, ⟨fun _ => 1, ⟨⟨1, 0⟩, ⟨10, 0⟩⟩⟩, ⟨fun _ => 1 / 2, ⟨⟨3, 0⟩, ⟨4, 0⟩⟩⟩, ⟨0, 0⟩, ?_, ?_⟩ <;>
    norm_num [SDF2.union, SDF2.unionWith, SDF2.unionEval, List.map, Box2.minMaxDist2_eq, near1, far1, SDF2.nearestBox, SDF2.prunedLoop,
      V2.Overlap]

/-- Removing a figure from a union removes it from every part, and intersecting a union with a figure intersects every part. -/
theorem C69_plane_union_through (s0 b : SDF2) (l : List SDF2) :
    SDF2.difference (SDF2.union s0 l) b = SDF2.union (SDF2.difference s0 b) (l.map fun x => SDF2.difference x b) ∧
    SDF2.intersect (SDF2.union s0 l) b = SDF2.union (SDF2.intersect s0 b) (l.map fun x => SDF2.intersect x b) := by
  constructor
  · apply SDF2.eq_of
    · intro p
      exact (SDF2.unionEval_map (fun x => SDF2.difference x b) (fun v => max v (-b.eval p)) s0 l p (fun _ => rfl) (fun _ => rfl)
        (fun a b => max_min_distrib_right _ _ _)).symm
    · simp [SDF2.difference, SDF2.differenceWith, SDF2.union, SDF2.unionWith, List.foldl_map]
  · apply SDF2.eq_of
    · intro p
      exact (SDF2.unionEval_map (fun x => SDF2.intersect x b) (fun v => max v (b.eval p)) s0 l p (fun _ => rfl) (fun _ => rfl)
        (fun a b => max_min_distrib_right _ _ _)).symm
    · simp [SDF2.intersect, SDF2.intersectWith, SDF2.union, SDF2.unionWith, List.foldl_map]

/-- Cutting out two figures one after the other does not depend on the order, and cutting one out twice is cutting it out once. -/
theorem C69_plane_difference (s a b : SDF2) :
    SDF2.difference (SDF2.difference s a) b = SDF2.difference (SDF2.difference s b) a ∧
    SDF2.difference (SDF2.difference s a) a = SDF2.difference s a := by
  refine ⟨SDF2.eq_of (fun p => max_right_comm _ _ _) rfl, SDF2.eq_of (fun p => ?_) rfl⟩
  simp only [SDF2.difference, SDF2.differenceWith]; rw [max_assoc, max_self]

/-- Intersection is associative, commutative as far as values go (the bounding box is always that of the first operand), and idempotent; it may
be exchanged with a difference. -/
theorem C69_plane_intersect (a b c : SDF2) (p : V2) :
    SDF2.intersect (SDF2.intersect a b) c = SDF2.intersect a (SDF2.intersect b c) ∧
    (SDF2.intersect a b).eval p = (SDF2.intersect b a).eval p ∧ SDF2.intersect a a = a ∧
    SDF2.difference (SDF2.intersect a b) c = SDF2.intersect a (SDF2.difference b c) ∧
    SDF2.difference (SDF2.intersect a b) c = SDF2.intersect (SDF2.difference a c) b := by
  refine ⟨SDF2.eq_of (fun p => max_assoc _ _ _) rfl, max_comm _ _, SDF2.eq_of (fun p => max_self _) rfl,
    SDF2.eq_of (fun p => max_assoc _ _ _) rfl, SDF2.eq_of (fun p => max_right_comm _ _ _) rfl⟩

/-- Cuts along lines commute, repeating one changes nothing, and they pass through the boolean operations. -/
theorem C69_plane_cut (s t : SDF2) (l : List SDF2) (o n o' n' : V2) :
    (s.cut o n).cut o' n' = (s.cut o' n').cut o n ∧ (s.cut o n).cut o n = s.cut o n ∧
    (SDF2.difference s t).cut o n = SDF2.difference (s.cut o n) t ∧ (SDF2.intersect s t).cut o n = SDF2.intersect (s.cut o n) t ∧
    (SDF2.union s l).cut o n = SDF2.union (s.cut o n) (l.map fun x => x.cut o n) := by
  refine ⟨SDF2.eq_of (fun p => max_left_comm _ _ _) rfl, SDF2.eq_of (fun p => ?_) rfl, SDF2.eq_of (fun p => (max_assoc _ _ _).symm) rfl,
    SDF2.eq_of (fun p => (max_assoc _ _ _).symm) rfl, SDF2.eq_of (fun p => ?_) ?_⟩
  · simp only [SDF2.cut]; rw [← max_assoc, max_self]
  · simp only [SDF2.cut, SDF2.union, SDF2.unionWith]
    exact (SDF2.unionEval_map (fun x => x.cut o n) (fun v => max (V2.dot ⟨-(V2.unit n).y, (V2.unit n).x⟩ (V2.sub p o)) v) s l p (fun _ => rfl)
      (fun _ => rfl) (fun a b => max_min_distrib_left _ _ _)).symm
  · simp [SDF2.cut, SDF2.union, SDF2.unionWith, List.foldl_map]

/-- Transforms: the identity changes no value, two transforms are one, undoing one restores the shape. -/
theorem C69_plane_transform (s : SDF2) (a b : M33) (ha : a.Affine) (hb : b.Affine) (hda : a.toMatrix.det ≠ 0) (hdb : b.toMatrix.det ≠ 0) (p : V2) :
    (s.transform M33.identity).eval p = s.eval p ∧ ((s.transform a).transform b).eval p = (s.transform (b.mul a)).eval p ∧
    ((s.transform a).transform a.inverse).eval p = s.eval p := by
  have hda' : a.det ≠ 0 := by rwa [M33.det_eq]
  have hdb' : b.det ≠ 0 := by rwa [M33.det_eq]
  have hba : (b.mul a).det ≠ 0 := by
    rw [M33.det_eq, M33.toMatrix_mul, Matrix.det_mul]; exact mul_ne_zero hdb hda
  have hia : a.inverse.det ≠ 0 := by
    intro h
    have := congrArg (fun m : M33 => m.toMatrix.det) (M33.mul_inverse hda')
    simp only [M33.toMatrix_mul, Matrix.det_mul, M33.toMatrix_identity] at this
    rw [M33.det_eq] at h
    simp [h] at this
  refine ⟨?_, ?_, ?_⟩
  · have h : M33.identity.det ≠ 0 := by rw [M33.det_eq, M33.toMatrix_identity]; simp
    have := M33.mulPosition_inverse M33.affine_identity h p
    rw [M33.identity_mulPosition] at this
    simp only [SDF2.transform, this]
  · simp only [SDF2.transform]
    have h1 : b.mulPosition (a.mulPosition ((b.mul a).inverse.mulPosition p)) = p := by
      rw [← M33.mulPosition_mul ha]; exact M33.mulPosition_inverse (M33.affine_mul hb ha) hba p
    have h2 := congrArg (fun q => a.inverse.mulPosition (b.inverse.mulPosition q)) h1
    simp only [M33.inverse_mulPosition hb hdb', M33.inverse_mulPosition ha hda'] at h2
    rw [← h2]
  · simp only [SDF2.transform]
    have := M33.inverse_mulPosition (M33.affine_inverse ha hda') hia (a.mulPosition p)
    rw [M33.inverse_mulPosition ha hda'] at this
    rw [this, M33.inverse_mulPosition ha hda']

/-- Transforms pass through differences, intersections and offsets. -/
theorem C69_plane_transform_booleans (s t : SDF2) (m : M33) (d : ℝ) (p : V2) :
    (SDF2.difference s t).transform m = SDF2.difference (s.transform m) (t.transform m) ∧
    (SDF2.intersect s t).transform m = SDF2.intersect (s.transform m) (t.transform m) ∧
    ((s.offset d).transform m).eval p = ((s.transform m).offset d).eval p := ⟨rfl, rfl, rfl⟩

/-- Offsets add up, and an offset of zero changes nothing.  They pass through the boolean operations, outward on the part removed being
inward. -/
theorem C69_plane_offset (s t : SDF2) (d e : ℝ) :
    (s.offset d).offset e = s.offset (d + e) ∧ s.offset 0 = s ∧
    (SDF2.intersect s t).offset d = SDF2.intersect (s.offset d) (t.offset d) ∧
    (SDF2.difference s t).offset d = SDF2.difference (s.offset d) (t.offset (-d)) := by
  refine ⟨SDF2.eq_of (fun p => ?_) ?_, SDF2.eq_of (fun p => ?_) ?_, SDF2.eq_of (fun p => ?_) rfl, SDF2.eq_of (fun p => ?_) rfl⟩
  · simp only [SDF2.offset]; ring
  · simp only [SDF2.offset]
    rw [(Box2.new_center_size _ _).1, (Box2.new_center_size _ _).2]
    congr 1
    ext <;> simp only [V2.add, V2.elem] <;> ring
  · simp [SDF2.offset]
  · simp only [SDF2.offset]
    have : V2.add s.bounds.size (V2.elem (2 * 0)) = s.bounds.size := by ext <;> simp [V2.add, V2.elem]
    rw [this, Box2.new_self]
  · simp only [SDF2.offset, SDF2.intersect, SDF2.intersectWith]; rw [max_sub_sub_right]
  · simp only [SDF2.offset, SDF2.difference, SDF2.differenceWith]
    rw [← max_sub_sub_right]; congr 1; ring

/-- Scaling steps multiply, pass through the boolean operations, and scale offsets. -/
theorem C69_plane_scale (s t : SDF2) (j k d : ℝ) (hj : 0 < j) (hk : 0 < k) (p : V2) :
    ((s.scaleUniform j).scaleUniform k).eval p = (s.scaleUniform (j * k)).eval p ∧
    (SDF2.intersect s t).scaleUniform k = SDF2.intersect (s.scaleUniform k) (t.scaleUniform k) ∧
    (SDF2.difference s t).scaleUniform k = SDF2.difference (s.scaleUniform k) (t.scaleUniform k) ∧
    ((s.offset d).scaleUniform k).eval p = ((s.scaleUniform k).offset (k * d)).eval p := by
  refine ⟨?_, SDF2.eq_of (fun p => ?_) rfl, SDF2.eq_of (fun p => ?_) rfl, ?_⟩
  · simp only [SDF2.scaleUniform]
    have : V2.scale (1.0 / j) (V2.scale (1.0 / k) p) = V2.scale (1.0 / (j * k)) p := by
      ext <;> simp only [V2.scale] <;> norm_num <;> field_simp
    rw [this]; ring
  · simp only [SDF2.scaleUniform, SDF2.intersect, SDF2.intersectWith]; rw [max_mul_of_nonneg _ _ hk.le]
  · simp only [SDF2.scaleUniform, SDF2.difference, SDF2.differenceWith]; rw [max_mul_of_nonneg _ _ hk.le, neg_mul]
  · simp only [SDF2.scaleUniform, SDF2.offset]; ring

end Sdf
