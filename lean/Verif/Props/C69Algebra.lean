import Verif.Props.C16Booleans
import Verif.Props.C29Pruning
import Verif.Lemmas.Matrix

/-!
C69: building steps obey the laws one uses when rewriting a model.  The order, the grouping and the repetition of the operands of a sharp
union do not matter, cuts may be collected, transforms compose and pass through the boolean operations, and so on.  The statements are
about the values `Evaluate` returns at every point, not only about which points are inside.
-/

namespace Sdf

/-- Folding a commutative, associative and idempotent operation. -/
structure Semilattice' {α : Type} (op : α → α → α) : Prop where
  comm : ∀ a b, op a b = op b a
  assoc : ∀ a b c, op (op a b) c = op a (op b c)
  idem : ∀ a, op a a = a

namespace Semilattice'

variable {α β : Type} {op : α → α → α} (h : Semilattice' op) (f : β → α)
include h

theorem fold_out (l : List β) : ∀ a b, l.foldl (fun d x => op d (f x)) (op a b) = op a (l.foldl (fun d x => op d (f x)) b) := by
  induction l with
  | nil => intro a b; rfl
  | cons x t ih => intro a b; simp only [List.foldl_cons]; rw [h.assoc, ih]

theorem fold_absorb (l : List β) : ∀ b, ∀ x ∈ l, op (f x) (l.foldl (fun d x => op d (f x)) b) = l.foldl (fun d x => op d (f x)) b := by
  induction l with
  | nil => intro b x hx; simp at hx
  | cons y t ih =>
    intro b x hx
    simp only [List.foldl_cons]
    rcases List.mem_cons.mp hx with rfl | hx
    · rw [← h.fold_out, h.comm b, ← h.assoc, h.idem]
    · exact ih _ x hx

theorem fold_start (l : List β) (x y : β) (hx : x ∈ l) (hy : y ∈ l) :
    l.foldl (fun d x => op d (f x)) (f x) = l.foldl (fun d x => op d (f x)) (f y) := by
  rw [← h.fold_absorb f l (f x) y hy, ← h.fold_out, h.comm, h.fold_out, h.fold_absorb f l (f y) x hx]

/-- The fold depends only on which elements occur. -/
theorem fold_set {l m : List β} (hl : ∀ x, x ∈ l ↔ x ∈ m) (x y : β) (hx : x ∈ l) (hy : y ∈ m) :
    l.foldl (fun d x => op d (f x)) (f x) = m.foldl (fun d x => op d (f x)) (f y) := by
  have key : ∀ (l m : List β) (b : α), (∀ x ∈ l, x ∈ m) →
      op (m.foldl (fun d x => op d (f x)) b) (l.foldl (fun d x => op d (f x)) b) = m.foldl (fun d x => op d (f x)) b := by
    intro l m b
    induction l with
    | nil =>
      intro _
      simp only [List.foldl_nil]
      rw [h.comm, ← h.fold_out, h.idem]
    | cons z t ih =>
      intro hz
      simp only [List.foldl_cons]
      rw [h.comm b, h.fold_out, ← h.assoc, h.comm _ (f z), h.fold_absorb f m b z (hz z (by simp))]
      exact ih fun x hx => hz x (List.mem_cons_of_mem _ hx)
  rw [h.fold_start f m y x hy ((hl x).mp hx)]
  rw [← key m l (f x) fun z hz => (hl z).mpr hz, h.comm, key l m (f x) fun z hz => (hl z).mp hz]

end Semilattice'

theorem min_semilattice : Semilattice' (min : ℝ → ℝ → ℝ) := ⟨min_comm, min_assoc, min_self⟩

theorem extend_semilattice3 : Semilattice' Box3.extend := by
  refine ⟨fun a b => ?_, fun a b c => ?_, fun a => ?_⟩
  · simp [Box3.extend, V3.minElem, V3.maxElem, min_comm, max_comm]
  · simp [Box3.extend, V3.minElem, V3.maxElem, min_assoc, max_assoc]
  · simp [Box3.extend, V3.minElem, V3.maxElem]

theorem extend_semilattice2 : Semilattice' Box2.extend := by
  refine ⟨fun a b => ?_, fun a b c => ?_, fun a => ?_⟩
  · simp [Box2.extend, V2.minElem, V2.maxElem, min_comm, max_comm]
  · simp [Box2.extend, V2.minElem, V2.maxElem, min_assoc, max_assoc]
  · simp [Box2.extend, V2.minElem, V2.maxElem]

theorem SDF3.union_eval (s0 : SDF3) (l : List SDF3) (p : V3) :
    (SDF3.union s0 l).eval p = (s0 :: l).foldl (fun d x => min d (x.eval p)) (s0.eval p) := by
  simp [SDF3.union, SDF3.unionWith]

theorem SDF3.eq_of {s t : SDF3} (h1 : ∀ p, s.eval p = t.eval p) (h2 : s.bounds = t.bounds) : s = t := by
  cases s; cases t
  simp only [SDF3.mk.injEq]
  exact ⟨funext h1, h2⟩

theorem SDF2.eq_of {s t : SDF2} (h1 : ∀ p, s.eval p = t.eval p) (h2 : s.bounds = t.bounds) : s = t := by
  cases s; cases t
  simp only [SDF2.mk.injEq]
  exact ⟨funext h1, h2⟩

/-- A sharp union depends only on which shapes are joined: not on their order, nor on how often one is listed.  Value and bounding box are
the same. -/
theorem C69_union_set (s0 t0 : SDF3) (l m : List SDF3) (h : ∀ x, x ∈ s0 :: l ↔ x ∈ t0 :: m) : SDF3.union s0 l = SDF3.union t0 m := by
  apply SDF3.eq_of
  · intro p
    rw [SDF3.union_eval, SDF3.union_eval]
    exact min_semilattice.fold_set (fun x : SDF3 => x.eval p) h s0 t0 (by simp) (by simp)
  · simp only [SDF3.union, SDF3.unionWith]
    exact extend_semilattice3.fold_set (fun x : SDF3 => x.bounds) h s0 t0 (by simp) (by simp)

/-- In particular any two arrangements of the same shapes give the same union. -/
example (a b c : SDF3) : SDF3.union a [b, c] = SDF3.union c [a, b, a] := by
  apply C69_union_set
  simp; tauto

/-- A union of unions is the union of everything. -/
theorem C69_union_flatten (s0 : SDF3) (l m : List SDF3) : SDF3.union (SDF3.union s0 l) m = SDF3.union s0 (l ++ m) := by
  apply SDF3.eq_of
  · intro p; simp [SDF3.union, SDF3.unionWith]
  · simp only [SDF3.union, SDF3.unionWith, List.foldl_cons, List.foldl_append, extend_semilattice3.idem]

/-- Cutting several tools out one after the other is cutting out their union. -/
theorem C69_difference_union (s a : SDF3) (l : List SDF3) :
    SDF3.difference s (SDF3.union a l) = (a :: l).foldl SDF3.difference s := by
  induction l generalizing a s with
  | nil => simp [SDF3.difference, SDF3.differenceWith, SDF3.union, SDF3.unionWith]
  | cons b t ih =>
    rw [List.foldl_cons, ← ih]
    apply SDF3.eq_of
    · intro p
      simp only [SDF3.difference, SDF3.differenceWith]
      rw [SDF3.union_eval, SDF3.union_eval]
      simp only [List.foldl_cons, min_self]
      rw [min_semilattice.fold_out (fun x : SDF3 => x.eval p), ← max_neg_neg, max_assoc]
    · rfl

/-- Removing a tool from a union removes it from every part. -/
theorem C69_union_difference (s0 b : SDF3) (l : List SDF3) :
    SDF3.difference (SDF3.union s0 l) b = SDF3.union (SDF3.difference s0 b) (l.map fun x => SDF3.difference x b) := by
  apply SDF3.eq_of
  · intro p
    simp only [SDF3.difference, SDF3.differenceWith, SDF3.union, SDF3.unionWith, List.foldl_map]
    generalize s0.eval p = d
    induction l generalizing d with
    | nil => rfl
    | cons x t ih => simp only [List.foldl_cons]; rw [ih, max_min_distrib_right]
  · simp [SDF3.difference, SDF3.differenceWith, SDF3.union, SDF3.unionWith, List.foldl_map]

/-- Intersecting a union intersects every part. -/
theorem C69_intersect_union (a b : SDF3) (l : List SDF3) (p : V3) :
    SDF3.intersect a (SDF3.union b l) = SDF3.union (SDF3.intersect a b) (l.map fun x => SDF3.intersect a x) ∧
    (SDF3.intersect (SDF3.union b l) a).eval p = (SDF3.union (SDF3.intersect b a) (l.map fun x => SDF3.intersect x a)).eval p := by
  constructor
  · apply SDF3.eq_of
    · intro p
      simp only [SDF3.intersect, SDF3.intersectWith, SDF3.union, SDF3.unionWith, List.foldl_map]
      generalize b.eval p = d
      induction l generalizing d with
      | nil => rfl
      | cons x t ih => simp only [List.foldl_cons]; rw [ih, max_min_distrib_left]
    · simp only [SDF3.intersect, SDF3.intersectWith, SDF3.union, SDF3.unionWith, List.foldl_cons, List.foldl_map,
        extend_semilattice3.idem]
      induction l with
      | nil => rfl
      | cons x t ih => simp only [List.foldl_cons, extend_semilattice3.idem]; exact ih
  · simp only [SDF3.intersect, SDF3.intersectWith, SDF3.union, SDF3.unionWith, List.foldl_map]
    generalize b.eval p = d
    induction l generalizing d with
    | nil => rfl
    | cons x t ih => simp only [List.foldl_cons]; rw [ih, max_min_distrib_right]

/-- Intersection is associative, commutative as far as values go (the bounding box is always that of the first operand), and idempotent; it may
be exchanged with a difference. -/
theorem C69_intersect (a b c : SDF3) (p : V3) :
    SDF3.intersect (SDF3.intersect a b) c = SDF3.intersect a (SDF3.intersect b c) ∧
    (SDF3.intersect a b).eval p = (SDF3.intersect b a).eval p ∧ SDF3.intersect a a = a ∧
    SDF3.difference (SDF3.intersect a b) c = SDF3.intersect a (SDF3.difference b c) ∧
    SDF3.difference (SDF3.intersect a b) c = SDF3.intersect (SDF3.difference a c) b := by
  refine ⟨SDF3.eq_of (fun p => max_assoc _ _ _) rfl, max_comm _ _, SDF3.eq_of (fun p => max_self _) rfl,
    SDF3.eq_of (fun p => max_assoc _ _ _) rfl, SDF3.eq_of (fun p => max_right_comm _ _ _) rfl⟩

/-- Plane cuts commute, repeating one changes nothing, and they pass through the boolean operations. -/
theorem C69_cut (s t : SDF3) (l : List SDF3) (o n o' n' : V3) :
    (s.cut o n).cut o' n' = (s.cut o' n').cut o n ∧ (s.cut o n).cut o n = s.cut o n ∧
    (SDF3.difference s t).cut o n = SDF3.difference (s.cut o n) t ∧ (SDF3.intersect s t).cut o n = SDF3.intersect (s.cut o n) t ∧
    (SDF3.union s l).cut o n = SDF3.union (s.cut o n) (l.map fun x => x.cut o n) := by
  refine ⟨SDF3.eq_of (fun p => max_left_comm _ _ _) rfl, SDF3.eq_of (fun p => ?_) rfl, SDF3.eq_of (fun p => (max_assoc _ _ _).symm) rfl,
    SDF3.eq_of (fun p => (max_assoc _ _ _).symm) rfl, SDF3.eq_of (fun p => ?_) ?_⟩
  · simp only [SDF3.cut]; rw [← max_assoc, max_self]
  · simp only [SDF3.cut, SDF3.union, SDF3.unionWith, List.foldl_map]
    generalize s.eval p = d
    induction l generalizing d with
    | nil => rfl
    | cons x t ih => simp only [List.foldl_cons]; rw [ih, max_min_distrib_left]
  · simp [SDF3.cut, SDF3.union, SDF3.unionWith, List.foldl_map]

/-- Transforms: the identity changes no value, two transforms are one, undoing one restores the shape. -/
theorem C69_transform (s : SDF3) (a b : M44) (ha : a.Affine) (hb : b.Affine) (hda : a.toMatrix.det ≠ 0) (hdb : b.toMatrix.det ≠ 0) (p : V3) :
    (s.transform M44.identity).eval p = s.eval p ∧ ((s.transform a).transform b).eval p = (s.transform (b.mul a)).eval p ∧
    ((s.transform a).transform a.inverse).eval p = s.eval p := by
  have hda' : a.det ≠ 0 := by rwa [M44.det_eq]
  have hdb' : b.det ≠ 0 := by rwa [M44.det_eq]
  have hba : (b.mul a).det ≠ 0 := by
    rw [M44.det_eq, M44.toMatrix_mul, Matrix.det_mul]; exact mul_ne_zero hdb hda
  have hia : a.inverse.det ≠ 0 := by
    intro h
    have := congrArg (fun m : M44 => m.toMatrix.det) (M44.mul_inverse hda')
    simp only [M44.toMatrix_mul, Matrix.det_mul, M44.toMatrix_identity] at this
    rw [M44.det_eq] at h
    simp [h] at this
  refine ⟨?_, ?_, ?_⟩
  · have h : M44.identity.det ≠ 0 := by rw [M44.det_eq, M44.toMatrix_identity]; simp
    have := M44.mulPosition_inverse M44.affine_identity h p
    rw [M44.identity_mulPosition] at this
    simp only [SDF3.transform, this]
  · simp only [SDF3.transform]
    have h1 : b.mulPosition (a.mulPosition ((b.mul a).inverse.mulPosition p)) = p := by
      rw [← M44.mulPosition_mul ha]; exact M44.mulPosition_inverse (M44.affine_mul hb ha) hba p
    have h2 := congrArg (fun q => a.inverse.mulPosition (b.inverse.mulPosition q)) h1
    simp only [M44.inverse_mulPosition hb hdb', M44.inverse_mulPosition ha hda'] at h2
    rw [← h2]
  · simp only [SDF3.transform]
    have := M44.inverse_mulPosition (M44.affine_inverse ha hda') hia (a.mulPosition p)
    rw [M44.inverse_mulPosition ha hda'] at this
    rw [this, M44.inverse_mulPosition ha hda']

/-- A shift and a mirroring meet the conditions of `C69_transform`. -/
example : (M44.translate ⟨1, 2, 3⟩).Affine ∧ (M44.translate ⟨1, 2, 3⟩).toMatrix.det ≠ 0 ∧
    (M44.scale ⟨-1, 1, 1⟩).Affine ∧ (M44.scale ⟨-1, 1, 1⟩).toMatrix.det ≠ 0 := by
  refine ⟨⟨rfl, rfl, rfl, rfl⟩, ?_, ⟨rfl, rfl, rfl, rfl⟩, ?_⟩ <;> rw [← M44.det_eq] <;> norm_num [M44.det, M44.translate, M44.scale]

/-- Transforms pass through the boolean operations and through offsets. -/
theorem C69_transform_booleans (s t : SDF3) (l : List SDF3) (m : M44) (d : ℝ) (p : V3) :
    (SDF3.difference s t).transform m = SDF3.difference (s.transform m) (t.transform m) ∧
    (SDF3.intersect s t).transform m = SDF3.intersect (s.transform m) (t.transform m) ∧
    ((SDF3.union s l).transform m).eval p = (SDF3.union (s.transform m) (l.map fun x => x.transform m)).eval p ∧
    ((s.offset d).transform m).eval p = ((s.transform m).offset d).eval p := by
  refine ⟨rfl, rfl, ?_, rfl⟩
  simp [SDF3.transform, SDF3.union, SDF3.unionWith, List.foldl_map]

theorem Box3.new_center_size (c z : V3) : (Box3.new c z).center = c ∧ (Box3.new c z).size = z := by
  constructor <;> ext <;> simp only [Box3.new, Box3.center, Box3.size, V3.sub, V3.add, V3.scale] <;> norm_num <;> ring

theorem Box3.new_self (b : Box3) : Box3.new b.center b.size = b := by
  obtain ⟨⟨x, y, z⟩, ⟨u, v, w⟩⟩ := b
  simp only [Box3.new, Box3.center, Box3.size, V3.sub, V3.add, V3.scale, Box3.mk.injEq, V3.mk.injEq]
  norm_num
  and_intros <;> ring

theorem Box2.new_center_size (c z : V2) : (Box2.new c z).center = c ∧ (Box2.new c z).size = z := by
  constructor <;> ext <;> simp only [Box2.new, Box2.center, Box2.size, V2.sub, V2.add, V2.scale] <;> norm_num <;> ring

theorem Box2.new_self (b : Box2) : Box2.new b.center b.size = b := by
  obtain ⟨⟨x, y⟩, ⟨u, v⟩⟩ := b
  simp only [Box2.new, Box2.center, Box2.size, V2.sub, V2.add, V2.scale, Box2.mk.injEq, V2.mk.injEq]
  norm_num
  and_intros <;> ring

/-- Offsets add up, and an offset of zero changes nothing.  They pass through the boolean operations, outward on the part removed being
inward.  A shell is the grown shape without the shrunk one. -/
theorem C69_offset (s t : SDF3) (l : List SDF3) (d e : ℝ) (p : V3) :
    (s.offset d).offset e = s.offset (d + e) ∧ s.offset 0 = s ∧
    ((SDF3.union s l).offset d).eval p = (SDF3.union (s.offset d) (l.map fun x => x.offset d)).eval p ∧
    (SDF3.intersect s t).offset d = SDF3.intersect (s.offset d) (t.offset d) ∧
    (SDF3.difference s t).offset d = SDF3.difference (s.offset d) (t.offset (-d)) ∧
    (0 < d → (s.shell d).eval p = (SDF3.difference (s.offset (d / 2)) (s.offset (-(d / 2)))).eval p) := by
  refine ⟨SDF3.eq_of (fun p => ?_) ?_, SDF3.eq_of (fun p => ?_) ?_, ?_, SDF3.eq_of (fun p => ?_) rfl, SDF3.eq_of (fun p => ?_) rfl, ?_⟩
  · simp only [SDF3.offset]; ring
  · simp only [SDF3.offset]
    rw [(Box3.new_center_size _ _).1, (Box3.new_center_size _ _).2]
    congr 1
    ext <;> simp only [V3.add, V3.elem] <;> ring
  · simp [SDF3.offset]
  · simp only [SDF3.offset]
    have : V3.add s.bounds.size (V3.elem (2 * 0)) = s.bounds.size := by ext <;> simp [V3.add, V3.elem]
    rw [this, Box3.new_self]
  · simp only [SDF3.offset, SDF3.union, SDF3.unionWith, List.foldl_map]
    generalize s.eval p = v
    induction l generalizing v with
    | nil => rfl
    | cons x t ih => simp only [List.foldl_cons]; rw [ih, min_sub_sub_right]
  · simp only [SDF3.offset, SDF3.intersect, SDF3.intersectWith]; rw [max_sub_sub_right]
  · simp only [SDF3.offset, SDF3.difference, SDF3.differenceWith]
    rw [← max_sub_sub_right]; congr 1; ring
  · intro hd
    simp only [SDF3.shell, SDF3.offset, SDF3.difference, SDF3.differenceWith]
    rw [if_neg (by linarith)]
    simp only [abs, ← max_sub_sub_right]
    norm_num
    congr 1 <;> ring

/-- Scaling steps multiply, pass through the boolean operations, and scale offsets. -/
theorem C69_scale (s t : SDF3) (l : List SDF3) (j k d : ℝ) (hj : 0 < j) (hk : 0 < k) (p : V3) :
    ((s.scaleUniform j).scaleUniform k).eval p = (s.scaleUniform (j * k)).eval p ∧
    ((SDF3.union s l).scaleUniform k).eval p = (SDF3.union (s.scaleUniform k) (l.map fun x => x.scaleUniform k)).eval p ∧
    (SDF3.intersect s t).scaleUniform k = SDF3.intersect (s.scaleUniform k) (t.scaleUniform k) ∧
    (SDF3.difference s t).scaleUniform k = SDF3.difference (s.scaleUniform k) (t.scaleUniform k) ∧
    ((s.offset d).scaleUniform k).eval p = ((s.scaleUniform k).offset (k * d)).eval p := by
  refine ⟨?_, ?_, SDF3.eq_of (fun p => ?_) rfl, SDF3.eq_of (fun p => ?_) rfl, ?_⟩
  · simp only [SDF3.scaleUniform]
    have : V3.scale (1.0 / j) (V3.scale (1.0 / k) p) = V3.scale (1.0 / (j * k)) p := by
      ext <;> simp only [V3.scale] <;> norm_num <;> field_simp
    rw [this]; ring
  · simp only [SDF3.scaleUniform, SDF3.union, SDF3.unionWith, List.foldl_map]
    generalize s.eval _ = v
    induction l generalizing v with
    | nil => rfl
    | cons x t ih => simp only [List.foldl_cons]; rw [ih, min_mul_of_nonneg _ _ hk.le]
  · simp only [SDF3.scaleUniform, SDF3.intersect, SDF3.intersectWith]; rw [max_mul_of_nonneg _ _ hk.le]
  · simp only [SDF3.scaleUniform, SDF3.difference, SDF3.differenceWith]; rw [max_mul_of_nonneg _ _ hk.le, neg_mul]
  · simp only [SDF3.scaleUniform, SDF3.offset]; ring

/-- Blended unions are different: with a quadratic blend the order of three shapes matters. -/
theorem C69_blend_order : ∃ (a b c : SDF3) (p : V3),
    (SDF3.unionWith (minPoly 2 1) a [b, c]).eval p ≠ (SDF3.unionWith (minPoly 2 1) c [b, a]).eval p := by
  refine ⟨⟨fun _ => 0, ⟨⟨0, 0, 0⟩, ⟨0, 0, 0⟩⟩⟩, ⟨fun _ => 0, ⟨⟨0, 0, 0⟩, ⟨0, 0, 0⟩⟩⟩, ⟨fun _ => 1 / 2, ⟨⟨0, 0, 0⟩, ⟨0, 0, 0⟩⟩⟩, ⟨0, 0, 0⟩, ?_⟩
  have e0 : minPoly 2 1 0 0 = -(1 / 4) := by
    unfold minPoly; rw [if_neg (by norm_num)]; simp only [minQuad]; norm_num
  have e1 : minPoly 2 1 (1 / 2) 0 = -(1 / 16) := by
    unfold minPoly; rw [if_neg (by norm_num)]; simp only [minQuad]; norm_num [abs]
  have e2 : minPoly 2 1 (-(1 / 4)) (1 / 2) = -(17 / 64) := by
    unfold minPoly; rw [if_neg (by norm_num)]; simp only [minQuad]; norm_num [abs]
  have e3 : minPoly 2 1 (-(1 / 16)) 0 = -(289 / 1024) := by
    unfold minPoly; rw [if_neg (by norm_num)]; simp only [minQuad]; norm_num [abs]
  simp only [SDF3.unionWith, List.foldl_cons, List.foldl_nil]
  rw [e0, e1, e2, e3]
  norm_num

end Sdf
