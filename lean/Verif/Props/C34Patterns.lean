import Verif.Model.Patterns
import Verif.Props.C16Booleans
import Verif.Props.C19Transform
import Verif.Props.C21Orient
import Verif.Lemmas.MaxFloat

/-!
C34: unions of placed copies.  The full statement, that every pattern or position list is accepted, is false of the code:
the constructors panic for some lists with fewer than two copies (`C34_line3_panics`, `C34_multi3_panics`,
`C34_orient3_panics`, `C34_line2_panics`, `C34_multi2_panics` say exactly when), and a pattern with characters outside
ASCII is spaced by its length in bytes (`C34_line_bytes`).  Where they do not panic, they return the union of the copies.
-/

namespace Sdf

theorem M44.translate_mulPosition (t q : V3) : (M44.translate t).mulPosition q = V3.add q t := by
  ext <;> simp [M44.translate, M44.mulPosition, V3.add]

theorem M33.translate_mulPosition (t q : V2) : (M33.translate t).mulPosition q = V2.add q t := by
  ext <;> simp [M33.translate, M33.mulPosition, V2.add]

theorem translate3_inside (s : SDF3) (t p : V3) :
    (s.transform (M44.translate t)).Inside p ↔ ∃ q, s.Inside q ∧ p = V3.add q t := by
  rw [C19_transform3_image s _ ⟨rfl, rfl, rfl, rfl⟩ (by rw [← M44.det_eq]; simp [M44.det, M44.translate])]
  simp only [M44.translate_mulPosition]
  exact ⟨fun ⟨q, a, b⟩ => ⟨q, a, b.symm⟩, fun ⟨q, a, b⟩ => ⟨q, a, b.symm⟩⟩

theorem translate2_inside (s : SDF2) (t p : V2) :
    (s.transform (M33.translate t)).Inside p ↔ ∃ q, s.Inside q ∧ p = V2.add q t := by
  rw [C19_transform2_image s _ ⟨rfl, rfl, rfl⟩ (by rw [← M33.det_eq]; simp [M33.det, M33.translate])]
  simp only [M33.translate_mulPosition]
  exact ⟨fun ⟨q, a, b⟩ => ⟨q, a, b.symm⟩, fun ⟨q, a, b⟩ => ⟨q, a, b.symm⟩⟩

theorem translate2_bounded (s : SDF2) (hb : s.Bounded) (t : V2) : (s.transform (M33.translate t)).Bounded := by
  intro p hp
  obtain ⟨q, hq, rfl⟩ := (translate2_inside s t p).mp hp
  have := C19_transform2_bounds s (M33.translate t) q (hb q hq)
  rwa [M33.translate_mulPosition] at this

theorem unionList3 {l : List SDF3} {u : SDF3} (h : SDF3.unionList l = some u) (p : V3) :
    u.Inside p ↔ ∃ s ∈ l, s.Inside p := by
  match l, h with
  | s0 :: s1 :: l, h =>
    cases h
    exact C16_union3 s0 (s1 :: l) p

theorem unionList3_none (l : List SDF3) : SDF3.unionList l = none ↔ l.length < 2 := by
  match l with
  | [] => simp [SDF3.unionList]
  | [a] => simp [SDF3.unionList]
  | a :: b :: l => simp [SDF3.unionList]

theorem unionList2 {l : List SDF2} {u : SDF2} (h : SDF2.unionList l = some u) (hb : ∀ s ∈ l, s.Bounded) (p : V2) :
    u.Inside p ↔ ∃ s ∈ l, s.Inside p := by
  match l, h with
  | s0 :: s1 :: l, h =>
    cases h
    exact C16_union2 s0 (s1 :: l) hb p

theorem unionList2_none (l : List SDF2) : SDF2.unionList l = none ↔ l.length < 2 := by
  match l with
  | [] => simp [SDF2.unionList]
  | [a] => simp [SDF2.unionList]
  | a :: b :: l => simp [SDF2.unionList]

theorem lineLoop3_mem (s : SDF3) (dx : V3) (cs : List Char) (x : V3) (o : SDF3) :
    o ∈ s.lineLoop dx cs x ↔ ∃ i : ℕ, cs[i]? = some 'x' ∧ o = s.transform (M44.translate (V3.add x (V3.scale i dx))) := by
  induction cs generalizing x with
  | nil => simp [SDF3.lineLoop]
  | cons c cs ih =>
    have shift : ∀ i : ℕ, V3.add (V3.add x dx) (V3.scale i dx) = V3.add x (V3.scale ((i + 1 : ℕ) : ℝ) dx) := by
      intro i; ext <;> simp only [V3.add, V3.scale] <;> push_cast <;> ring
    have zero : V3.add x (V3.scale ((0 : ℕ) : ℝ) dx) = x := by ext <;> simp [V3.add, V3.scale]
    have step : (∃ i : ℕ, (c :: cs)[i]? = some 'x' ∧ o = s.transform (M44.translate (V3.add x (V3.scale i dx)))) ↔
        (c = 'x' ∧ o = s.transform (M44.translate x)) ∨
        ∃ i : ℕ, cs[i]? = some 'x' ∧ o = s.transform (M44.translate (V3.add (V3.add x dx) (V3.scale i dx))) := by
      constructor
      · rintro ⟨i, h1, h2⟩
        match i with
        | 0 => exact .inl ⟨by simpa using h1, by rw [zero] at h2; exact h2⟩
        | i + 1 => exact .inr ⟨i, by simpa using h1, by rw [shift]; exact h2⟩
      · rintro (⟨h1, h2⟩ | ⟨i, h1, h2⟩)
        · exact ⟨0, by simp [h1], by rw [zero]; exact h2⟩
        · exact ⟨i + 1, by simpa using h1, by rw [← shift]; exact h2⟩
    rw [step, ← ih]
    rw [SDF3.lineLoop]
    split
    · rename_i h; simp [h]
    · rename_i h; simp [h]

theorem lineLoop3_length (s : SDF3) (dx : V3) (cs : List Char) (x : V3) :
    (s.lineLoop dx cs x).length = cs.count 'x' := by
  induction cs generalizing x with
  | nil => rfl
  | cons c cs ih =>
    unfold SDF3.lineLoop
    split
    · rename_i h; rw [List.length_cons, ih, h, List.count_cons_self]
    · rename_i h; rw [ih, List.count_cons_of_ne (by simpa using h)]

theorem lineLoop2_mem (s : SDF2) (dx : V2) (cs : List Char) (x : V2) (o : SDF2) :
    o ∈ s.lineLoop dx cs x ↔ ∃ i : ℕ, cs[i]? = some 'x' ∧ o = s.transform (M33.translate (V2.add x (V2.scale i dx))) := by
  induction cs generalizing x with
  | nil => simp [SDF2.lineLoop]
  | cons c cs ih =>
    have shift : ∀ i : ℕ, V2.add (V2.add x dx) (V2.scale i dx) = V2.add x (V2.scale ((i + 1 : ℕ) : ℝ) dx) := by
      intro i; ext <;> simp only [V2.add, V2.scale] <;> push_cast <;> ring
    have zero : V2.add x (V2.scale ((0 : ℕ) : ℝ) dx) = x := by ext <;> simp [V2.add, V2.scale]
    have step : (∃ i : ℕ, (c :: cs)[i]? = some 'x' ∧ o = s.transform (M33.translate (V2.add x (V2.scale i dx)))) ↔
        (c = 'x' ∧ o = s.transform (M33.translate x)) ∨
        ∃ i : ℕ, cs[i]? = some 'x' ∧ o = s.transform (M33.translate (V2.add (V2.add x dx) (V2.scale i dx))) := by
      constructor
      · rintro ⟨i, h1, h2⟩
        match i with
        | 0 => exact .inl ⟨by simpa using h1, by rw [zero] at h2; exact h2⟩
        | i + 1 => exact .inr ⟨i, by simpa using h1, by rw [shift]; exact h2⟩
      · rintro (⟨h1, h2⟩ | ⟨i, h1, h2⟩)
        · exact ⟨0, by simp [h1], by rw [zero]; exact h2⟩
        · exact ⟨i + 1, by simpa using h1, by rw [← shift]; exact h2⟩
    rw [step, ← ih]
    rw [SDF2.lineLoop]
    split
    · rename_i h; simp [h]
    · rename_i h; simp [h]

theorem lineLoop2_length (s : SDF2) (dx : V2) (cs : List Char) (x : V2) :
    (s.lineLoop dx cs x).length = cs.count 'x' := by
  induction cs generalizing x with
  | nil => rfl
  | cons c cs ih =>
    unfold SDF2.lineLoop
    split
    · rename_i h; rw [List.length_cons, ih, h, List.count_cons_self]
    · rename_i h; rw [ih, List.count_cons_of_ne (by simpa using h)]

theorem lineOf3_eq (s : SDF3) (p0 p1 : V3) (pattern : String) : s.lineOf p0 p1 pattern =
    SDF3.unionList (s.lineLoop (V3.scale (1 / (pattern.utf8ByteSize : ℝ)) (V3.sub p1 p0)) pattern.toList p0) := by
  unfold SDF3.lineOf
  by_cases h : pattern = ""
  · subst h; simp [SDF3.lineLoop]
  · simp [h]

theorem lineOf2_eq (s : SDF2) (p0 p1 : V2) (pattern : String) : s.lineOf p0 p1 pattern =
    match s.lineLoop (V2.scale (1 / (pattern.utf8ByteSize : ℝ)) (V2.sub p1 p0)) pattern.toList p0 with
    | [o] => some o
    | l => SDF2.unionList l := by
  unfold SDF2.lineOf
  by_cases h : pattern = ""
  · subst h; simp [SDF2.lineLoop]
  · simp only [ne_eq, h, not_false_eq_true, if_true]
    split <;> simp_all

/-- The copies of `LineOf3D`: for a pattern of ASCII characters (as many bytes as characters), the copy of the `i`-th of
`n` characters is moved by `p0 + (i/n)(p1 - p0)`, and the characters other than `x` give no copy. -/
theorem C34_line3_partial (s : SDF3) (p0 p1 : V3) (pattern : String) (hascii : pattern.utf8ByteSize = pattern.length)
    (u : SDF3) (h : s.lineOf p0 p1 pattern = some u) (p : V3) :
    u.Inside p ↔ ∃ i : ℕ, pattern.toList[i]? = some 'x' ∧ ∃ q, s.Inside q ∧
      p = V3.add q (V3.add p0 (V3.scale ((i : ℝ) / (pattern.length : ℝ)) (V3.sub p1 p0))) := by
  rw [lineOf3_eq] at h
  rw [unionList3 h, hascii]
  simp only [lineLoop3_mem]
  have sc : ∀ i : ℕ, V3.scale i (V3.scale (1 / (pattern.length : ℝ)) (V3.sub p1 p0)) =
      V3.scale ((i : ℝ) / (pattern.length : ℝ)) (V3.sub p1 p0) := by
    intro i; ext <;> simp only [V3.scale] <;> ring
  constructor
  · rintro ⟨o, ⟨i, hi, rfl⟩, ho⟩
    rw [sc] at ho
    exact ⟨i, hi, (translate3_inside s _ p).mp ho⟩
  · rintro ⟨i, hi, hq⟩
    refine ⟨_, ⟨i, hi, rfl⟩, ?_⟩
    rw [sc]
    exact (translate3_inside s _ p).mpr hq

/-- `LineOf3D` panics exactly when the pattern has fewer than two `x`. -/
theorem C34_line3_panics (s : SDF3) (p0 p1 : V3) (pattern : String) :
    s.lineOf p0 p1 pattern = none ↔ pattern.toList.count 'x' < 2 := by
  rw [lineOf3_eq, unionList3_none, lineLoop3_length]

/-- As `C34_line3_partial`, in the plane. -/
theorem C34_line2_partial (s : SDF2) (hb : s.Bounded) (p0 p1 : V2) (pattern : String)
    (hascii : pattern.utf8ByteSize = pattern.length) (u : SDF2) (h : s.lineOf p0 p1 pattern = some u) (p : V2) :
    u.Inside p ↔ ∃ i : ℕ, pattern.toList[i]? = some 'x' ∧ ∃ q, s.Inside q ∧
      p = V2.add q (V2.add p0 (V2.scale ((i : ℝ) / (pattern.length : ℝ)) (V2.sub p1 p0))) := by
  have sc : ∀ i : ℕ, V2.scale i (V2.scale (1 / (pattern.length : ℝ)) (V2.sub p1 p0)) =
      V2.scale ((i : ℝ) / (pattern.length : ℝ)) (V2.sub p1 p0) := by
    intro i; ext <;> simp only [V2.scale] <;> ring
  have key : u.Inside p ↔ ∃ o ∈ s.lineLoop (V2.scale (1 / (pattern.length : ℝ)) (V2.sub p1 p0)) pattern.toList p0,
      o.Inside p := by
    rw [lineOf2_eq, hascii] at h
    have hbl : ∀ o ∈ s.lineLoop (V2.scale (1 / (pattern.length : ℝ)) (V2.sub p1 p0)) pattern.toList p0, o.Bounded := by
      intro o ho
      obtain ⟨i, _, rfl⟩ := (lineLoop2_mem _ _ _ _ _).mp ho
      exact translate2_bounded s hb _
    generalize s.lineLoop (V2.scale (1 / (pattern.length : ℝ)) (V2.sub p1 p0)) pattern.toList p0 = l at h hbl ⊢
    split at h
    · cases h; simp
    · exact unionList2 h hbl p
  rw [key]
  simp only [lineLoop2_mem]
  constructor
  · rintro ⟨o, ⟨i, hi, rfl⟩, ho⟩
    rw [sc] at ho
    exact ⟨i, hi, (translate2_inside s _ p).mp ho⟩
  · rintro ⟨i, hi, hq⟩
    refine ⟨_, ⟨i, hi, rfl⟩, ?_⟩
    rw [sc]
    exact (translate2_inside s _ p).mpr hq

/-- `LineOf2D` panics exactly when the pattern has no `x`. -/
theorem C34_line2_panics (s : SDF2) (p0 p1 : V2) (pattern : String) :
    s.lineOf p0 p1 pattern = none ↔ 'x' ∉ pattern.toList := by
  have hl := lineLoop2_length s (V2.scale (1 / (pattern.utf8ByteSize : ℝ)) (V2.sub p1 p0)) pattern.toList p0
  rw [lineOf2_eq, ← List.count_eq_zero, ← hl]
  generalize s.lineLoop (V2.scale (1 / (pattern.utf8ByteSize : ℝ)) (V2.sub p1 p0)) pattern.toList p0 = l
  match l with
  | [] => simp [SDF2.unionList]
  | [a] => simp
  | a :: b :: l => simp [SDF2.unionList]

/-- Two characters of `éxx` carry a copy; the spacing is a quarter of the line (four bytes), not a third. -/
theorem C34_line_bytes : ∃ (s : SDF3) (p0 p1 p : V3) (u : SDF3), s.lineOf p0 p1 "éxx" = some u ∧ u.Inside p ∧
    ¬ ∃ i : ℕ, "éxx".toList[i]? = some 'x' ∧ ∃ q, s.Inside q ∧
      p = V3.add q (V3.add p0 (V3.scale ((i : ℝ) / ("éxx".length : ℝ)) (V3.sub p1 p0))) := by
  -- a shape that is a thin slab about the origin, copied along x from 0 to 12
  let s : SDF3 := ⟨fun p => |p.x| - 0.1, ⟨⟨-0.1, -1, -1⟩, ⟨0.1, 1, 1⟩⟩⟩
  have hlist : "éxx".toList = ['é', 'x', 'x'] := by decide
  have hbytes : ("éxx".utf8ByteSize : ℝ) = 4 := by
    have : "éxx".utf8ByteSize = 4 := by decide
    rw [this]; norm_num
  have hlen : ("éxx".length : ℝ) = 3 := by
    have : "éxx".length = 3 := by decide
    rw [this]; norm_num
  have hne : s.lineOf ⟨0, 0, 0⟩ ⟨12, 0, 0⟩ "éxx" ≠ none := by
    rw [Ne, C34_line3_panics, hlist]; decide
  obtain ⟨u, hu⟩ := Option.ne_none_iff_exists'.mp hne
  refine ⟨s, ⟨0, 0, 0⟩, ⟨12, 0, 0⟩, ⟨3, 0, 0⟩, u, hu, ?_, ?_⟩
  · rw [lineOf3_eq] at hu
    rw [unionList3 hu]
    refine ⟨_, (lineLoop3_mem _ _ _ _ _).mpr ⟨1, by rw [hlist]; rfl, rfl⟩, ?_⟩
    rw [translate3_inside]
    refine ⟨⟨0, 0, 0⟩, by show |(0 : ℝ)| - 0.1 < 0; norm_num, ?_⟩
    rw [hbytes]
    ext <;> norm_num [V3.add, V3.scale, V3.sub]
  · rintro ⟨i, hi, q, hq, hp⟩
    rw [hlen] at hp
    have hx := congrArg V3.x hp
    simp only [V3.add, V3.scale, V3.sub] at hx
    have hq' : |q.x| - 0.1 < 0 := hq
    have hqx := abs_lt.mp (by linarith : |q.x| < 0.1)
    rw [hlist] at hi
    match i, hi with
    | 1, _ => norm_num at hx hqx; linarith [hqx.1, hqx.2]
    | 2, _ => norm_num at hx hqx; linarith [hqx.1, hqx.2]

/-- The copies of `Multi3D`: one per position. -/
theorem C34_multi3_partial (s : SDF3) (positions : List V3) (u : SDF3) (h : s.multi positions = some u) (p : V3) :
    u.Inside p ↔ ∃ t ∈ positions, ∃ q, s.Inside q ∧ p = V3.add q t := by
  unfold SDF3.multi at h
  split at h
  · rename_i hl
    cases h
    rw [List.length_eq_zero_iff] at hl
    subst hl
    have hm := maxFloat64_pos
    simp only [SDF3.Inside, SDF3.emptyFrom, SDF3.empty, List.not_mem_nil, false_and, exists_false, iff_false, not_lt]
    exact hm.le
  · rw [unionList3 h]
    simp only [List.mem_map]
    constructor
    · rintro ⟨o, ⟨t, ht, rfl⟩, ho⟩
      exact ⟨t, ht, (translate3_inside s t p).mp ho⟩
    · rintro ⟨t, ht, hq⟩
      exact ⟨_, ⟨t, ht, rfl⟩, (translate3_inside s t p).mpr hq⟩

/-- `Multi3D` panics exactly for one position. -/
theorem C34_multi3_panics (s : SDF3) (positions : List V3) : s.multi positions = none ↔ positions.length = 1 := by
  unfold SDF3.multi
  split
  · rename_i h; simp [h]
  · rename_i h; rw [unionList3_none, List.length_map]; omega

/-- The copies of `Multi2D`: one per position. -/
theorem C34_multi2_partial (s : SDF2) (hb : s.Bounded) (positions : List V2) (u : SDF2) (h : s.multi positions = some u)
    (p : V2) : u.Inside p ↔ ∃ t ∈ positions, ∃ q, s.Inside q ∧ p = V2.add q t := by
  unfold SDF2.multi at h
  split at h
  · cases h
  · rw [unionList2 h (by
      intro o ho
      obtain ⟨t, _, rfl⟩ := List.mem_map.mp ho
      exact translate2_bounded s hb t)]
    simp only [List.mem_map]
    constructor
    · rintro ⟨o, ⟨t, ht, rfl⟩, ho⟩
      exact ⟨t, ht, (translate2_inside s t p).mp ho⟩
    · rintro ⟨t, ht, hq⟩
      exact ⟨_, ⟨t, ht, rfl⟩, (translate2_inside s t p).mpr hq⟩

/-- `Multi2D` panics exactly for fewer than two positions. -/
theorem C34_multi2_panics (s : SDF2) (positions : List V2) : s.multi positions = none ↔ positions.length < 2 := by
  unfold SDF2.multi
  split
  · rename_i h; simp [h]
  · rw [unionList2_none, List.length_map]

/-- The matrices of `Orient3D` are always invertible. -/
theorem M44.rotateToVec_inv (a b : V3) : (M44.rotateToVec a b).Affine ∧ (M44.rotateToVec a b).toMatrix.det ≠ 0 := by
  have idd : M44.identity.Affine ∧ M44.identity.toMatrix.det ≠ 0 :=
    ⟨⟨rfl, rfl, rfl, rfl⟩, by rw [← M44.det_eq]; simp [M44.det, M44.identity]⟩
  by_cases h0 : V3.EqualWithin a ⟨0, 0, 0⟩ epsilon ∨ V3.EqualWithin b ⟨0, 0, 0⟩ epsilon
  · have : M44.rotateToVec a b = M44.identity := by unfold M44.rotateToVec; rw [if_pos h0]
    rw [this]; exact idd
  by_cases ho : V3.EqualWithin (V3.scale (-1) (V3.unit a)) (V3.unit b) epsilon
  · unfold M44.rotateToVec
    rw [if_neg h0]
    dsimp only
    by_cases hs : V3.EqualWithin (V3.unit a) (V3.unit b) epsilon
    · rw [if_pos hs]; exact idd
    · rw [if_neg hs, if_pos ho]
      exact ⟨⟨rfl, rfl, rfl, rfl⟩, by rw [← M44.det_eq]; simp [M44.det]⟩
  · push Not at h0
    have hr := (C21_orient_partial a b h0.1 h0.2 ho).1
    exact ⟨hr.1, by
      have h1 := hr.2.2.2.2.2
      obtain ⟨⟨a1, a2, a3, a4⟩, -⟩ := hr
      rw [← M44.det_eq]
      have : (M44.rotateToVec a b).det = (M44.rotateToVec a b).linear.det := by
        rw [Matrix.det_fin_three]
        simp [M44.linear, M44.det, a1, a2, a3, a4]
        ring
      rw [this, h1]; norm_num⟩

/-- The copies of `Orient3D`: one per direction, turned by the matrix of C21. -/
theorem C34_orient3_partial (s : SDF3) (base : V3) (directions : List V3) (u : SDF3)
    (h : s.orient base directions = some u) (p : V3) :
    u.Inside p ↔ ∃ d ∈ directions, ∃ q, s.Inside q ∧ p = (M44.rotateToVec base d).mulPosition q := by
  have img : ∀ d, (s.transform (M44.rotateToVec base d)).Inside p ↔
      ∃ q, s.Inside q ∧ p = (M44.rotateToVec base d).mulPosition q := by
    intro d
    obtain ⟨ha, hd⟩ := M44.rotateToVec_inv base d
    rw [C19_transform3_image s _ ha hd]
    exact ⟨fun ⟨q, a, b⟩ => ⟨q, a, b.symm⟩, fun ⟨q, a, b⟩ => ⟨q, a, b.symm⟩⟩
  unfold SDF3.orient at h
  split at h
  · rename_i hl
    cases h
    rw [List.length_eq_zero_iff] at hl
    subst hl
    have hm := maxFloat64_pos
    simp only [SDF3.Inside, SDF3.emptyFrom, SDF3.empty, List.not_mem_nil, false_and, exists_false, iff_false, not_lt]
    exact hm.le
  · rw [unionList3 h]
    simp only [List.mem_map]
    constructor
    · rintro ⟨o, ⟨t, ht, rfl⟩, ho⟩
      exact ⟨t, ht, (img t).mp ho⟩
    · rintro ⟨t, ht, hq⟩
      exact ⟨_, ⟨t, ht, rfl⟩, (img t).mpr hq⟩

/-- `Orient3D` panics exactly for one direction. -/
theorem C34_orient3_panics (s : SDF3) (base : V3) (directions : List V3) :
    s.orient base directions = none ↔ directions.length = 1 := by
  unfold SDF3.orient
  split
  · rename_i h; simp [h]
  · rename_i h; rw [unionList3_none, List.length_map]; omega

/-! Non-vacuity: an accepted ASCII pattern with a gap. -/
example (s : SDF3) (p0 p1 : V3) : (∃ u, s.lineOf p0 p1 "x.x" = some u) ∧ "x.x".utf8ByteSize = "x.x".length := by
  refine ⟨Option.ne_none_iff_exists'.mp ?_, by decide⟩
  rw [Ne, C34_line3_panics]; decide

end Sdf
