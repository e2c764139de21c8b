import Verif.Model.Combine3
import Verif.Model.Combine2
import Verif.Lemmas.Matrix

/-! Helper lemmas about the minimum loops of arrays and rotational unions, and about boxes of corner images. -/

namespace Sdf

theorem foldl_lt {α : Type} (g : ℝ → α → ℝ) (P : α → Prop) (c : ℝ)
    (h : ∀ d a, g d a < c ↔ d < c ∨ P a) (l : List α) (d : ℝ) :
    l.foldl g d < c ↔ d < c ∨ ∃ a ∈ l, P a := by
  induction l generalizing d with
  | nil => simp
  | cons a l ih =>
    simp only [List.foldl_cons, ih, h, List.mem_cons, exists_eq_or_imp]
    tauto

theorem arrayEval3_lt (s : SDF3) (n0 n1 n2 : ℕ) (step p : V3) (c : ℝ) :
    SDF3.arrayEval min s n0 n1 n2 step p < c ↔ maxFloat64 < c ∨ ∃ j < n0, ∃ k < n1, ∃ l < n2,
      s.eval (V3.sub p ⟨(j : ℝ) * step.x, (k : ℝ) * step.y, (l : ℝ) * step.z⟩) < c := by
  unfold SDF3.arrayEval
  rw [foldl_lt _ (fun j : ℕ => ∃ k < n1, ∃ l < n2,
    s.eval (V3.sub p ⟨(j : ℝ) * step.x, (k : ℝ) * step.y, (l : ℝ) * step.z⟩) < c)]
  · simp only [List.mem_range]
  · intro d j
    rw [foldl_lt _ (fun k : ℕ => ∃ l < n2,
      s.eval (V3.sub p ⟨(j : ℝ) * step.x, (k : ℝ) * step.y, (l : ℝ) * step.z⟩) < c)]
    · simp only [List.mem_range]
    · intro d k
      rw [foldl_lt _ (fun l : ℕ =>
        s.eval (V3.sub p ⟨(j : ℝ) * step.x, (k : ℝ) * step.y, (l : ℝ) * step.z⟩) < c)]
      · simp only [List.mem_range]
      · intro d l
        simp only [min_lt_iff]

theorem arrayEval2_lt (s : SDF2) (n0 n1 : ℕ) (step p : V2) (c : ℝ) :
    SDF2.arrayEval min s n0 n1 step p < c ↔ maxFloat64 < c ∨ ∃ j < n0, ∃ k < n1,
      s.eval (V2.sub p ⟨(j : ℝ) * step.x, (k : ℝ) * step.y⟩) < c := by
  unfold SDF2.arrayEval
  rw [foldl_lt _ (fun j : ℕ => ∃ k < n1,
    s.eval (V2.sub p ⟨(j : ℝ) * step.x, (k : ℝ) * step.y⟩) < c)]
  · simp only [List.mem_range]
  · intro d j
    rw [foldl_lt _ (fun k : ℕ => s.eval (V2.sub p ⟨(j : ℝ) * step.x, (k : ℝ) * step.y⟩) < c)]
    · simp only [List.mem_range]
    · intro d k
      simp only [min_lt_iff]

theorem rotateUnionLoop3_lt (s : SDF3) (step : M44) (hs : step.Affine) (p : V3) (c : ℝ) (n : ℕ) (rot : M44) (d : ℝ) :
    SDF3.rotateUnionLoop min s step p n rot d < c ↔
      d < c ∨ ∃ i < n, s.eval (rot.mulPosition (step.mulPosition^[i] p)) < c := by
  induction n generalizing rot d with
  | zero => simp [SDF3.rotateUnionLoop]
  | succ n ih =>
    unfold SDF3.rotateUnionLoop
    rw [ih, min_lt_iff, or_assoc]
    apply or_congr_right
    constructor
    · rintro (h | ⟨i, hi, h⟩)
      · exact ⟨0, by omega, h⟩
      · refine ⟨i + 1, by omega, ?_⟩
        rw [M44.mulPosition_mul hs] at h
        rwa [Function.iterate_succ_apply']
    · rintro ⟨i, hi, h⟩
      cases i with
      | zero => left; exact h
      | succ i =>
        right
        refine ⟨i, by omega, ?_⟩
        rw [M44.mulPosition_mul hs]
        rwa [Function.iterate_succ_apply'] at h

theorem rotateUnionLoop2_lt (s : SDF2) (step : M33) (hs : step.Affine) (p : V2) (c : ℝ) (n : ℕ) (rot : M33) (d : ℝ) :
    SDF2.rotateUnionLoop min s step p n rot d < c ↔
      d < c ∨ ∃ i < n, s.eval (rot.mulPosition (step.mulPosition^[i] p)) < c := by
  induction n generalizing rot d with
  | zero => simp [SDF2.rotateUnionLoop]
  | succ n ih =>
    unfold SDF2.rotateUnionLoop
    rw [ih, min_lt_iff, or_assoc]
    apply or_congr_right
    constructor
    · rintro (h | ⟨i, hi, h⟩)
      · exact ⟨0, by omega, h⟩
      · refine ⟨i + 1, by omega, ?_⟩
        rw [M33.mulPosition_mul hs] at h
        rwa [Function.iterate_succ_apply']
    · rintro ⟨i, hi, h⟩
      cases i with
      | zero => left; exact h
      | succ i =>
        right
        refine ⟨i, by omega, ?_⟩
        rw [M33.mulPosition_mul hs]
        rwa [Function.iterate_succ_apply'] at h

/-- A linear function takes a value at some corner of the box not above its value at a point of the box. -/
theorem Box3.exists_vertex_le (b : Box3) {q : V3} (hq : b.Contains q) (c0 c1 c2 c3 : ℝ) :
    ∃ v ∈ b.vertices, c0 + c1 * v.x + c2 * v.y + c3 * v.z ≤ c0 + c1 * q.x + c2 * q.y + c3 * q.z := by
  obtain ⟨h1, h2, h3, h4, h5, h6⟩ := hq
  have key : ∀ (c l h t : ℝ), l ≤ t → t ≤ h → c * l ≤ c * t ∨ c * h ≤ c * t := by
    intro c l h t hl hh
    rcases le_total 0 c with hc | hc
    · left; exact mul_le_mul_of_nonneg_left hl hc
    · right; exact mul_le_mul_of_nonpos_left hh hc
  simp only [Box3.vertices, List.mem_cons, List.not_mem_nil, or_false, exists_eq_or_imp, exists_eq_left]
  rcases key c1 _ _ _ h1 h4 with e1 | e1 <;> rcases key c2 _ _ _ h2 h5 with e2 | e2 <;>
    rcases key c3 _ _ _ h3 h6 with e3 | e3
  · left; linarith
  · right; left; linarith
  · right; right; left; linarith
  · right; right; right; left; linarith
  · right; right; right; right; left; linarith
  · right; right; right; right; right; left; linarith
  · right; right; right; right; right; right; left; linarith
  · right; right; right; right; right; right; right; linarith

/-- As `Box3.exists_vertex_le`, in the plane. -/
theorem Box2.exists_vertex_le (b : Box2) {q : V2} (hq : b.Contains q) (c0 c1 c2 : ℝ) :
    ∃ v ∈ b.vertices, c0 + c1 * v.x + c2 * v.y ≤ c0 + c1 * q.x + c2 * q.y := by
  obtain ⟨h1, h2, h4, h5⟩ := hq
  have key : ∀ (c l h t : ℝ), l ≤ t → t ≤ h → c * l ≤ c * t ∨ c * h ≤ c * t := by
    intro c l h t hl hh
    rcases le_total 0 c with hc | hc
    · left; exact mul_le_mul_of_nonneg_left hl hc
    · right; exact mul_le_mul_of_nonpos_left hh hc
  simp only [Box2.vertices, List.mem_cons, List.not_mem_nil, or_false, exists_eq_or_imp, exists_eq_left]
  rcases key c1 _ _ _ h1 h4 with e1 | e1 <;> rcases key c2 _ _ _ h2 h5 with e2 | e2
  · left; linarith
  · right; right; left; linarith
  · right; left; linarith
  · right; right; right; linarith

theorem V3.foldl_minElem_le (l : List V3) (a : V3) :
    ((l.foldl V3.minElem a).x ≤ a.x ∧ (l.foldl V3.minElem a).y ≤ a.y ∧ (l.foldl V3.minElem a).z ≤ a.z) ∧
    ∀ v ∈ l, (l.foldl V3.minElem a).x ≤ v.x ∧ (l.foldl V3.minElem a).y ≤ v.y ∧ (l.foldl V3.minElem a).z ≤ v.z := by
  induction l generalizing a with
  | nil => simp
  | cons b l ih =>
    simp only [List.foldl_cons]
    obtain ⟨⟨h1, h2, h3⟩, h⟩ := ih (V3.minElem a b)
    refine ⟨⟨le_trans h1 (min_le_left _ _), le_trans h2 (min_le_left _ _), le_trans h3 (min_le_left _ _)⟩, ?_⟩
    intro v hv
    rcases List.mem_cons.mp hv with rfl | hv
    · exact ⟨le_trans h1 (min_le_right _ _), le_trans h2 (min_le_right _ _), le_trans h3 (min_le_right _ _)⟩
    · exact h v hv

theorem V3.le_foldl_maxElem (l : List V3) (a : V3) :
    (a.x ≤ (l.foldl V3.maxElem a).x ∧ a.y ≤ (l.foldl V3.maxElem a).y ∧ a.z ≤ (l.foldl V3.maxElem a).z) ∧
    ∀ v ∈ l, v.x ≤ (l.foldl V3.maxElem a).x ∧ v.y ≤ (l.foldl V3.maxElem a).y ∧ v.z ≤ (l.foldl V3.maxElem a).z := by
  induction l generalizing a with
  | nil => simp
  | cons b l ih =>
    simp only [List.foldl_cons]
    obtain ⟨⟨h1, h2, h3⟩, h⟩ := ih (V3.maxElem a b)
    refine ⟨⟨le_trans (le_max_left _ _) h1, le_trans (le_max_left _ _) h2, le_trans (le_max_left _ _) h3⟩, ?_⟩
    intro v hv
    rcases List.mem_cons.mp hv with rfl | hv
    · exact ⟨le_trans (le_max_right _ _) h1, le_trans (le_max_right _ _) h2, le_trans (le_max_right _ _) h3⟩
    · exact h v hv

theorem V2.foldl_minElem_le (l : List V2) (a : V2) :
    ((l.foldl V2.minElem a).x ≤ a.x ∧ (l.foldl V2.minElem a).y ≤ a.y) ∧
    ∀ v ∈ l, (l.foldl V2.minElem a).x ≤ v.x ∧ (l.foldl V2.minElem a).y ≤ v.y := by
  induction l generalizing a with
  | nil => simp
  | cons b l ih =>
    simp only [List.foldl_cons]
    obtain ⟨⟨h1, h2⟩, h⟩ := ih (V2.minElem a b)
    refine ⟨⟨le_trans h1 (min_le_left _ _), le_trans h2 (min_le_left _ _)⟩, ?_⟩
    intro v hv
    rcases List.mem_cons.mp hv with rfl | hv
    · exact ⟨le_trans h1 (min_le_right _ _), le_trans h2 (min_le_right _ _)⟩
    · exact h v hv

theorem V2.le_foldl_maxElem (l : List V2) (a : V2) :
    (a.x ≤ (l.foldl V2.maxElem a).x ∧ a.y ≤ (l.foldl V2.maxElem a).y) ∧
    ∀ v ∈ l, v.x ≤ (l.foldl V2.maxElem a).x ∧ v.y ≤ (l.foldl V2.maxElem a).y := by
  induction l generalizing a with
  | nil => simp
  | cons b l ih =>
    simp only [List.foldl_cons]
    obtain ⟨⟨h1, h2⟩, h⟩ := ih (V2.maxElem a b)
    refine ⟨⟨le_trans (le_max_left _ _) h1, le_trans (le_max_left _ _) h2⟩, ?_⟩
    intro v hv
    rcases List.mem_cons.mp hv with rfl | hv
    · exact ⟨le_trans (le_max_right _ _) h1, le_trans (le_max_right _ _) h2⟩
    · exact h v hv

theorem V3.setMin_le {l : List V3} {v : V3} (hv : v ∈ l) :
    (V3.setMin l).x ≤ v.x ∧ (V3.setMin l).y ≤ v.y ∧ (V3.setMin l).z ≤ v.z := by
  cases l with
  | nil => simp at hv
  | cons a l =>
    rcases List.mem_cons.mp hv with rfl | hv
    · exact (V3.foldl_minElem_le l v).1
    · exact (V3.foldl_minElem_le l a).2 v hv

theorem V3.le_setMax {l : List V3} {v : V3} (hv : v ∈ l) :
    v.x ≤ (V3.setMax l).x ∧ v.y ≤ (V3.setMax l).y ∧ v.z ≤ (V3.setMax l).z := by
  cases l with
  | nil => simp at hv
  | cons a l =>
    rcases List.mem_cons.mp hv with rfl | hv
    · exact (V3.le_foldl_maxElem l v).1
    · exact (V3.le_foldl_maxElem l a).2 v hv

theorem V2.setMin_le {l : List V2} {v : V2} (hv : v ∈ l) :
    (V2.setMin l).x ≤ v.x ∧ (V2.setMin l).y ≤ v.y := by
  cases l with
  | nil => simp at hv
  | cons a l =>
    rcases List.mem_cons.mp hv with rfl | hv
    · exact (V2.foldl_minElem_le l v).1
    · exact (V2.foldl_minElem_le l a).2 v hv

theorem V2.le_setMax {l : List V2} {v : V2} (hv : v ∈ l) :
    v.x ≤ (V2.setMax l).x ∧ v.y ≤ (V2.setMax l).y := by
  cases l with
  | nil => simp at hv
  | cons a l =>
    rcases List.mem_cons.mp hv with rfl | hv
    · exact (V2.le_foldl_maxElem l v).1
    · exact (V2.le_foldl_maxElem l a).2 v hv

/-- The corners' images under an affine map `m` bound the image of the box. -/
theorem Box3.map_vertices_contains (b : Box3) {q : V3} (hq : b.Contains q) (m : M44) :
    (⟨V3.setMin (b.vertices.map m.mulPosition), V3.setMax (b.vertices.map m.mulPosition)⟩ : Box3).Contains
      (m.mulPosition q) := by
  have lo : ∀ c0 c1 c2 c3 : ℝ, ∃ v ∈ b.vertices, c0 + c1 * v.x + c2 * v.y + c3 * v.z ≤ c0 + c1 * q.x + c2 * q.y + c3 * q.z :=
    fun c0 c1 c2 c3 => b.exists_vertex_le hq c0 c1 c2 c3
  have hmem : ∀ v ∈ b.vertices, m.mulPosition v ∈ b.vertices.map m.mulPosition := fun v hv => List.mem_map_of_mem hv
  refine ⟨?_, ?_, ?_, ?_, ?_, ?_⟩
  · obtain ⟨v, hv, h⟩ := lo m.x03 m.x00 m.x01 m.x02
    have := (V3.setMin_le (hmem v hv)).1
    simp only [M44.mulPosition] at this ⊢; linarith
  · obtain ⟨v, hv, h⟩ := lo m.x13 m.x10 m.x11 m.x12
    have := (V3.setMin_le (hmem v hv)).2.1
    simp only [M44.mulPosition] at this ⊢; linarith
  · obtain ⟨v, hv, h⟩ := lo m.x23 m.x20 m.x21 m.x22
    have := (V3.setMin_le (hmem v hv)).2.2
    simp only [M44.mulPosition] at this ⊢; linarith
  · obtain ⟨v, hv, h⟩ := lo (-m.x03) (-m.x00) (-m.x01) (-m.x02)
    have := (V3.le_setMax (hmem v hv)).1
    simp only [M44.mulPosition] at this ⊢; linarith
  · obtain ⟨v, hv, h⟩ := lo (-m.x13) (-m.x10) (-m.x11) (-m.x12)
    have := (V3.le_setMax (hmem v hv)).2.1
    simp only [M44.mulPosition] at this ⊢; linarith
  · obtain ⟨v, hv, h⟩ := lo (-m.x23) (-m.x20) (-m.x21) (-m.x22)
    have := (V3.le_setMax (hmem v hv)).2.2
    simp only [M44.mulPosition] at this ⊢; linarith

/-- As `Box3.map_vertices_contains`, in the plane. -/
theorem Box2.map_vertices_contains (b : Box2) {q : V2} (hq : b.Contains q) (m : M33) :
    (⟨V2.setMin (b.vertices.map m.mulPosition), V2.setMax (b.vertices.map m.mulPosition)⟩ : Box2).Contains
      (m.mulPosition q) := by
  have lo : ∀ c0 c1 c2 : ℝ, ∃ v ∈ b.vertices, c0 + c1 * v.x + c2 * v.y ≤ c0 + c1 * q.x + c2 * q.y :=
    fun c0 c1 c2 => b.exists_vertex_le hq c0 c1 c2
  have hmem : ∀ v ∈ b.vertices, m.mulPosition v ∈ b.vertices.map m.mulPosition := fun v hv => List.mem_map_of_mem hv
  refine ⟨?_, ?_, ?_, ?_⟩
  · obtain ⟨v, hv, h⟩ := lo m.x02 m.x00 m.x01
    have := (V2.setMin_le (hmem v hv)).1
    simp only [M33.mulPosition] at this ⊢; linarith
  · obtain ⟨v, hv, h⟩ := lo m.x12 m.x10 m.x11
    have := (V2.setMin_le (hmem v hv)).2
    simp only [M33.mulPosition] at this ⊢; linarith
  · obtain ⟨v, hv, h⟩ := lo (-m.x02) (-m.x00) (-m.x01)
    have := (V2.le_setMax (hmem v hv)).1
    simp only [M33.mulPosition] at this ⊢; linarith
  · obtain ⟨v, hv, h⟩ := lo (-m.x12) (-m.x10) (-m.x11)
    have := (V2.le_setMax (hmem v hv)).2
    simp only [M33.mulPosition] at this ⊢; linarith

/-- `a` contains the box `b`. -/
def Box3.Sub (b a : Box3) : Prop :=
  a.lo.x ≤ b.lo.x ∧ a.lo.y ≤ b.lo.y ∧ a.lo.z ≤ b.lo.z ∧ b.hi.x ≤ a.hi.x ∧ b.hi.y ≤ a.hi.y ∧ b.hi.z ≤ a.hi.z

/-- `a` contains the box `b`. -/
def Box2.Sub (b a : Box2) : Prop :=
  a.lo.x ≤ b.lo.x ∧ a.lo.y ≤ b.lo.y ∧ b.hi.x ≤ a.hi.x ∧ b.hi.y ≤ a.hi.y

theorem Box3.Sub.contains {b a : Box3} (h : b.Sub a) {p : V3} (hp : b.Contains p) : a.Contains p := by
  obtain ⟨h1, h2, h3, h4, h5, h6⟩ := h
  obtain ⟨g1, g2, g3, g4, g5, g6⟩ := hp
  exact ⟨by linarith, by linarith, by linarith, by linarith, by linarith, by linarith⟩

theorem Box2.Sub.contains {b a : Box2} (h : b.Sub a) {p : V2} (hp : b.Contains p) : a.Contains p := by
  obtain ⟨h1, h2, h4, h5⟩ := h
  obtain ⟨g1, g2, g4, g5⟩ := hp
  exact ⟨by linarith, by linarith, by linarith, by linarith⟩

theorem Box3.sub_trans {a b c : Box3} (h : a.Sub b) (h' : b.Sub c) : a.Sub c := by
  obtain ⟨h1, h2, h3, h4, h5, h6⟩ := h
  obtain ⟨g1, g2, g3, g4, g5, g6⟩ := h'
  exact ⟨by linarith, by linarith, by linarith, by linarith, by linarith, by linarith⟩

theorem Box2.sub_trans {a b c : Box2} (h : a.Sub b) (h' : b.Sub c) : a.Sub c := by
  obtain ⟨h1, h2, h4, h5⟩ := h
  obtain ⟨g1, g2, g4, g5⟩ := h'
  exact ⟨by linarith, by linarith, by linarith, by linarith⟩

theorem Box3.sub_refl (a : Box3) : a.Sub a := ⟨le_rfl, le_rfl, le_rfl, le_rfl, le_rfl, le_rfl⟩
theorem Box2.sub_refl (a : Box2) : a.Sub a := ⟨le_rfl, le_rfl, le_rfl, le_rfl⟩

theorem Box3.sub_extend_left (a b : Box3) : a.Sub (a.extend b) :=
  ⟨min_le_left _ _, min_le_left _ _, min_le_left _ _, le_max_left _ _, le_max_left _ _, le_max_left _ _⟩
theorem Box3.sub_extend_right (a b : Box3) : b.Sub (a.extend b) :=
  ⟨min_le_right _ _, min_le_right _ _, min_le_right _ _, le_max_right _ _, le_max_right _ _, le_max_right _ _⟩
theorem Box2.sub_extend_left (a b : Box2) : a.Sub (a.extend b) :=
  ⟨min_le_left _ _, min_le_left _ _, le_max_left _ _, le_max_left _ _⟩
theorem Box2.sub_extend_right (a b : Box2) : b.Sub (a.extend b) :=
  ⟨min_le_right _ _, min_le_right _ _, le_max_right _ _, le_max_right _ _⟩

theorem rotateUnionBox3_sub (step : M44) (n : ℕ) (v : List V3) (b : Box3) :
    b.Sub (SDF3.rotateUnionBox step n v b) ∧ ∀ i < n,
      (⟨V3.setMin ((List.map step.mulPosition)^[i] v), V3.setMax ((List.map step.mulPosition)^[i] v)⟩ : Box3).Sub
        (SDF3.rotateUnionBox step n v b) := by
  induction n generalizing v b with
  | zero => exact ⟨Box3.sub_refl _, by simp⟩
  | succ n ih =>
    unfold SDF3.rotateUnionBox
    obtain ⟨h1, h2⟩ := ih (v.map step.mulPosition) ⟨V3.minElem b.lo (V3.setMin v), V3.maxElem b.hi (V3.setMax v)⟩
    refine ⟨Box3.sub_trans (Box3.sub_extend_left b ⟨V3.setMin v, V3.setMax v⟩) h1, ?_⟩
    intro i hi
    cases i with
    | zero => exact Box3.sub_trans (Box3.sub_extend_right b ⟨V3.setMin v, V3.setMax v⟩) h1
    | succ i => exact h2 i (by omega)

theorem rotateUnionBox2_sub (step : M33) (n : ℕ) (v : List V2) (b : Box2) :
    b.Sub (SDF2.rotateUnionBox step n v b) ∧ ∀ i < n,
      (⟨V2.setMin ((List.map step.mulPosition)^[i] v), V2.setMax ((List.map step.mulPosition)^[i] v)⟩ : Box2).Sub
        (SDF2.rotateUnionBox step n v b) := by
  induction n generalizing v b with
  | zero => exact ⟨Box2.sub_refl _, by simp⟩
  | succ n ih =>
    unfold SDF2.rotateUnionBox
    obtain ⟨h1, h2⟩ := ih (v.map step.mulPosition)
      ⟨V2.minElem (V2.minElem b.lo (V2.setMin v)) (V2.setMin v), V2.maxElem b.hi (V2.setMax v)⟩
    have e1 : b.Sub ⟨V2.minElem (V2.minElem b.lo (V2.setMin v)) (V2.setMin v), V2.maxElem b.hi (V2.setMax v)⟩ :=
      ⟨le_trans (min_le_left _ _) (min_le_left _ _), le_trans (min_le_left _ _) (min_le_left _ _),
        le_max_left _ _, le_max_left _ _⟩
    have e2 : (⟨V2.setMin v, V2.setMax v⟩ : Box2).Sub
        ⟨V2.minElem (V2.minElem b.lo (V2.setMin v)) (V2.setMin v), V2.maxElem b.hi (V2.setMax v)⟩ :=
      ⟨min_le_right _ _, min_le_right _ _, le_max_right _ _, le_max_right _ _⟩
    refine ⟨Box2.sub_trans e1 h1, ?_⟩
    intro i hi
    cases i with
    | zero => exact Box2.sub_trans e2 h1
    | succ i => exact h2 i (by omega)

/-- Iterates of an affine map are given by an affine matrix. -/
theorem M44.exists_iterate (m : M44) (hm : m.Affine) (i : ℕ) :
    ∃ a : M44, a.Affine ∧ m.mulPosition^[i] = a.mulPosition := by
  induction i with
  | zero => exact ⟨M44.identity, M44.affine_identity, by funext p; simp [M44.identity_mulPosition]⟩
  | succ i ih =>
    obtain ⟨a, ha, e⟩ := ih
    refine ⟨m.mul a, M44.affine_mul hm ha, ?_⟩
    funext p
    rw [Function.iterate_succ_apply', e, M44.mulPosition_mul ha]

theorem M33.exists_iterate (m : M33) (hm : m.Affine) (i : ℕ) :
    ∃ a : M33, a.Affine ∧ m.mulPosition^[i] = a.mulPosition := by
  induction i with
  | zero => exact ⟨M33.identity, M33.affine_identity, by funext p; simp [M33.identity_mulPosition]⟩
  | succ i ih =>
    obtain ⟨a, ha, e⟩ := ih
    refine ⟨m.mul a, M33.affine_mul hm ha, ?_⟩
    funext p
    rw [Function.iterate_succ_apply', e, M33.mulPosition_mul ha]

theorem iterate_map {α : Type} (f : α → α) (i : ℕ) (l : List α) : (List.map f)^[i] l = l.map f^[i] := by
  induction i with
  | zero => simp
  | succ i ih =>
    rw [Function.iterate_succ_apply', ih, List.map_map, Function.iterate_succ']

end Sdf
