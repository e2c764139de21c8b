import Verif.Model.Parts
import Verif.Props.C26Extrude
import Verif.Props.C29Trees
import Verif.Props.C33Constructors
import Verif.Props.C34Patterns

/-!
C35: panels and standoffs.  Missing from the full statement: a side without holes, euro-rack panels narrower than 8 HP and
standoffs without a hole all panic; the theorems say exactly when a part is returned and what it is.
-/

namespace Sdf
open Obj2 Obj3

theorem circle_some {r : ℝ} (h : 0 ≤ r) : ∃ s, Must2.circle r = some s := by
  unfold Must2.circle; rw [if_neg (not_lt.mpr h)]; exact ⟨_, rfl⟩

/-- `Panel` panics exactly when it has holes (a positive hole diameter) but one of the four sides has none. -/
theorem C35_panel_panics (k : PanelParams) :
    Obj2.panel k = none ↔ 0 < k.holeDiameter ∧ ∃ i, 'x' ∉ (k.holePattern i).toList := by
  unfold Obj2.panel
  norm_num only
  by_cases hd : k.holeDiameter ≤ 0
  · rw [if_pos hd]; simp [not_lt.mpr hd]
  rw [if_neg hd]
  push Not at hd
  obtain ⟨hole, hh⟩ := circle_some (r := 1 / 2 * k.holeDiameter) (by linarith)
  simp only [hd, true_and, hh, Option.bind_eq_bind, Option.bind_some]
  have key : ∀ p0 p1 i, hole.lineOf p0 p1 (k.holePattern i) = none ↔ 'x' ∉ (k.holePattern i).toList :=
    fun p0 p1 i => C34_line2_panics _ _ _ _
  have ex : (∃ i : Fin 4, 'x' ∉ (k.holePattern i).toList) ↔
      'x' ∉ (k.holePattern 0).toList ∨ 'x' ∉ (k.holePattern 1).toList ∨ 'x' ∉ (k.holePattern 2).toList ∨ 'x' ∉ (k.holePattern 3).toList := by
    constructor
    · rintro ⟨i, hi⟩; fin_cases i <;> simp_all
    · rintro (h | h | h | h) <;> exact ⟨_, h⟩
  rw [ex]
  generalize (⟨-(1 / 2) * k.size.x + k.holeMargin 3, 1 / 2 * k.size.y - k.holeMargin 0⟩ : V2) = a
  generalize (⟨1 / 2 * k.size.x - k.holeMargin 1, 1 / 2 * k.size.y - k.holeMargin 0⟩ : V2) = b
  generalize (⟨1 / 2 * k.size.x - k.holeMargin 1, -(1 / 2) * k.size.y + k.holeMargin 2⟩ : V2) = c
  generalize (⟨-(1 / 2) * k.size.x + k.holeMargin 3, -(1 / 2) * k.size.y + k.holeMargin 2⟩ : V2) = d
  rw [← key a b 0, ← key b c 1, ← key c d 2, ← key d a 3]
  rcases hole.lineOf a b (k.holePattern 0) with _ | h0 <;> rcases hole.lineOf b c (k.holePattern 1) with _ | h1 <;>
    rcases hole.lineOf c d (k.holePattern 2) with _ | h2 <;> rcases hole.lineOf d a (k.holePattern 3) with _ | h3 <;>
    simp [SDF2.unionList]

/-- `EuroRackPanel` panics exactly for less than one unit, at most one horizontal pitch, a negative corner radius, no hole
diameter (documented to mean the default) and for less than 8 horizontal pitches (meant to get two holes). -/
theorem C35_euroRack_panics (k : EuroRackParams) :
    Obj2.euroRackPanel k = none ↔ k.U < 1 ∨ k.HP < 8 ∨ k.cornerRadius < 0 ∨ k.holeDiameter ≤ 0 := by
  unfold Obj2.euroRackPanel
  by_cases h1 : k.U < 1
  · rw [if_pos h1]; simp [h1]
  rw [if_neg h1]
  by_cases h2 : k.HP ≤ 1
  · rw [if_pos h2]; simp only [true_iff]; right; left; linarith
  rw [if_neg h2]
  by_cases h3 : k.cornerRadius < 0
  · rw [if_pos h3]; simp [h3]
  rw [if_neg h3]
  by_cases h4 : k.holeDiameter ≤ 0
  · rw [if_pos h4]; simp [h4]
  rw [if_neg h4, C35_panel_panics]
  push Not at h4
  simp only [EuroRackParams.toPanel, h4, true_and, h1, h3, not_le.mpr h4, or_false, false_or]
  by_cases h5 : k.HP < 8
  · rw [if_pos h5]; simp only [h5, iff_true]; exact ⟨1, by decide⟩
  · rw [if_neg h5]; simp only [h5, iff_false, not_exists, not_not]
    intro i; fin_cases i <;> decide

/-- What is documented for the hole diameter, "0 for default", never works. -/
theorem C35_euroRack_default_panics (k : EuroRackParams) (h : k.holeDiameter = 0) : Obj2.euroRackPanel k = none :=
  (C35_euroRack_panics k).mpr (Or.inr (Or.inr (Or.inr h.le)))

/-- The centres of the holes along one side: one for each `x`, at equal steps from the first corner. -/
def HoleAt (p0 p1 : V2) (pattern : String) (c : V2) : Prop :=
  ∃ i : ℕ, pattern.toList[i]? = some 'x' ∧ c = V2.add p0 (V2.scale ((i : ℝ) / (pattern.utf8ByteSize : ℝ)) (V2.sub p1 p0))

theorem disc_moved {r : ℝ} (hr : 0 ≤ r) {s : SDF2} (hs : Must2.circle r = some s) (t p : V2) :
    (s.transform (M33.translate t)).eval p = V2.dist p t - r := by
  unfold Must2.circle at hs
  rw [if_neg (not_lt.mpr hr)] at hs
  cases hs
  have e := M33.inverse_mulPosition (M33.translate_affine t).1 (by rw [M33.det_eq]; exact (M33.translate_affine t).2) (V2.sub p t)
  rw [M33.translate_mulPosition, show V2.add (V2.sub p t) t = p by ext <;> simp [V2.add, V2.sub]] at e
  simp only [SDF2.transform, e]
  rfl

/-- A figure made of discs of radius `r`: its value is the distance to the nearest of their centres less `r`. -/
structure Discs (r : ℝ) (C : V2 → Prop) (s : SDF2) : Prop where
  assembled : Assembled (.fig s)
  boxed : ∀ c, Boxed .all c (.fig s)
  nonEmpty : s.NonEmpty
  attained : ∀ p, ∃ c, C c ∧ s.eval p = V2.dist p c - r
  least : ∀ p c, C c → s.eval p ≤ V2.dist p c - r

theorem M33.translate_rigid (t : V2) : (M33.translate t).Rigid :=
  ⟨(M33.translate_affine t).1, (M33.translate_affine t).2, M33.isometry_of_orth ((M33.orth_iff _).2 (by simp [M33.translate]))⟩

theorem Discs.one {r : ℝ} (hr : 0 ≤ r) {s : SDF2} (hs : Must2.circle r = some s) (t : V2) :
    Discs r (· = t) (s.transform (M33.translate t)) := by
  refine ⟨.move2 _ _ (.circle r s hs) (M33.translate_rigid t), fun c => .translate2 _ _ _ _ (.circle c r s hs), ⟨t, ?_, ?_⟩,
    fun p => ⟨t, rfl, disc_moved hr hs t p⟩, fun p c hc => by rw [disc_moved hr hs, hc]⟩
  · have hb : s.bounds.Contains ⟨0, 0⟩ := by
      unfold Must2.circle at hs
      rw [if_neg (not_lt.mpr hr)] at hs
      cases hs
      simp [Box2.Contains, V2.scale, hr]
    have := C19_transform2_bounds s (M33.translate t) _ hb
    rw [M33.translate_mulPosition] at this
    simpa [V2.add] using this
  · rw [disc_moved hr hs, V2.dist_eq_zero.mpr rfl]; linarith

theorem Discs.union {r : ℝ} {D : SDF2 → V2 → Prop} {s0 : SDF2} {l : List SDF2} (h : ∀ s ∈ s0 :: l, Discs r (D s) s) :
    Discs r (fun c => ∃ s ∈ s0 :: l, D s c) (SDF2.union s0 l) := by
  have hu : ∀ p, IsUnionValue (s0 :: l) p ((SDF2.union s0 l).eval p) := fun p =>
    C29_trees_partial s0 l p fun s hs => ⟨(h s hs).assembled, (h s hs).boxed, (h s hs).nonEmpty⟩
  have hle : ∀ p c, (∃ s ∈ s0 :: l, D s c) → (SDF2.union s0 l).eval p ≤ V2.dist p c - r := by
    rintro p c ⟨s, hs, hc⟩
    exact ((hu p).2 s hs).trans ((h s hs).least p c hc)
  refine ⟨.union2 _ _ (fun s hs => (h s hs).assembled) fun s hs => ⟨C29_boxed_far s (h s hs).boxed, (h s hs).nonEmpty⟩,
    fun c => .union2 _ _ _ _ fun s hs => (h s hs).boxed c, ?_, ?_, hle⟩
  · obtain ⟨q, hq, he⟩ := (h s0 (by simp)).nonEmpty
    refine ⟨q, ?_, ((hu q).2 s0 (by simp)).trans he⟩
    exact ((foldl_extend2_sub (s0 :: l) s0.bounds).2 s0 (by simp)).contains hq
  · intro p
    obtain ⟨s, hs, e⟩ := (hu p).1
    obtain ⟨c, hc, e'⟩ := (h s hs).attained p
    exact ⟨c, ⟨s, hs, hc⟩, by rw [← e']; first | exact e | exact e.symm⟩

theorem Discs.line {r : ℝ} (hr : 0 ≤ r) {s : SDF2} (hs : Must2.circle r = some s) {p0 p1 : V2} {pattern : String} {u : SDF2}
    (h : s.lineOf p0 p1 pattern = some u) : Discs r (HoleAt p0 p1 pattern) u := by
  rw [lineOf2_eq] at h
  have sc : ∀ i : ℕ, V2.scale i (V2.scale (1 / (pattern.utf8ByteSize : ℝ)) (V2.sub p1 p0)) =
      V2.scale ((i : ℝ) / (pattern.utf8ByteSize : ℝ)) (V2.sub p1 p0) := by
    intro i; ext <;> simp only [V2.scale] <;> ring
  have mem : ∀ o, o ∈ s.lineLoop (V2.scale (1 / (pattern.utf8ByteSize : ℝ)) (V2.sub p1 p0)) pattern.toList p0 ↔
      ∃ c, HoleAt p0 p1 pattern c ∧ o = s.transform (M33.translate c) := by
    intro o
    rw [lineLoop2_mem]
    simp only [sc, HoleAt]
    constructor
    · rintro ⟨i, a, b⟩; exact ⟨_, ⟨i, a, rfl⟩, b⟩
    · rintro ⟨_, ⟨i, a, rfl⟩, b⟩; exact ⟨i, a, b⟩
  have inj : ∀ a b, s.transform (M33.translate a) = s.transform (M33.translate b) → a = b := by
    intro a b e
    have := congrArg (fun s => s.eval a) e
    simp only [disc_moved hr hs] at this
    rw [V2.dist_eq_zero.mpr rfl] at this
    exact V2.dist_eq_zero.mp (by linarith)
  generalize s.lineLoop (V2.scale (1 / (pattern.utf8ByteSize : ℝ)) (V2.sub p1 p0)) pattern.toList p0 = l at h mem
  have all : ∀ o ∈ l, Discs r (fun c => o = s.transform (M33.translate c)) o := by
    intro o ho
    obtain ⟨c, _, rfl⟩ := (mem o).mp ho
    have h1 := Discs.one hr hs c
    refine ⟨h1.assembled, h1.boxed, h1.nonEmpty, fun p => ⟨c, rfl, disc_moved hr hs c p⟩, fun p c' hc' => ?_⟩
    rw [inj _ _ hc', disc_moved hr hs]
  have cover : ∀ c, (∃ o ∈ l, o = s.transform (M33.translate c)) ↔ HoleAt p0 p1 pattern c := by
    intro c
    constructor
    · rintro ⟨o, ho, e⟩
      obtain ⟨c', hc', e'⟩ := (mem o).mp ho
      rwa [inj c c' (e.symm.trans e')]
    · intro hc; exact ⟨_, (mem _).mpr ⟨c, hc, rfl⟩, rfl⟩
  have conv : ∀ {C C' : V2 → Prop} {u : SDF2}, (∀ c, C c ↔ C' c) → Discs r C u → Discs r C' u := by
    intro C C' u e hu
    have : C = C' := funext fun c => propext (e c)
    rwa [← this]
  match l, h, all, cover with
  | [o], h, all, cover =>
    cases h
    exact conv (fun c => by rw [← cover c]; simp [eq_comm]) (all u (by simp))
  | a :: b :: l, h, all, cover =>
    cases h
    exact conv cover (Discs.union all)

/-- Corners of the rectangle of holes: top left, top right, bottom right, bottom left. -/
noncomputable def PanelCorner (k : PanelParams) : Fin 4 → V2 :=
  ![⟨-(k.size.x / 2 - k.holeMargin 3), k.size.y / 2 - k.holeMargin 0⟩, ⟨k.size.x / 2 - k.holeMargin 1, k.size.y / 2 - k.holeMargin 0⟩,
    ⟨k.size.x / 2 - k.holeMargin 1, -(k.size.y / 2 - k.holeMargin 2)⟩,
    ⟨-(k.size.x / 2 - k.holeMargin 3), -(k.size.y / 2 - k.holeMargin 2)⟩]

/-- Where the panel has material: inside the rounded rectangle and farther than the radius from the centre of every hole; the
holes of a side start at its first corner (in the order above) and the pattern divides the way to the next one. -/
theorem C35_panel_shape (k : PanelParams) (hd : 0 < k.holeDiameter) (s : SDF2) (h : Obj2.panel k = some s) (p : V2) :
    s.Inside p ↔ (Must2.box k.size k.cornerRadius).Inside p ∧
      ∀ i c, HoleAt (PanelCorner k i) (PanelCorner k (i + 1)) (k.holePattern i) c → k.holeDiameter / 2 < V2.dist p c := by
  unfold Obj2.panel at h
  norm_num only at h
  rw [if_neg (not_le.mpr hd)] at h
  obtain ⟨hole, hh⟩ := circle_some (r := 1 / 2 * k.holeDiameter) (by linarith)
  simp only [hh, Option.bind_eq_bind, Option.bind_some, Option.bind_eq_some_iff, Option.some.injEq] at h
  obtain ⟨h0, e0, h1, e1, h2, e2, h3, e3, u, hu, rfl⟩ := h
  have hr : (0 : ℝ) ≤ 1 / 2 * k.holeDiameter := by linarith
  have c0 : (⟨-1 / 2 * k.size.x + k.holeMargin 3, 1 / 2 * k.size.y - k.holeMargin 0⟩ : V2) = PanelCorner k 0 := by
    simp only [PanelCorner]; ext <;> simp <;> ring
  have c1 : (⟨1 / 2 * k.size.x - k.holeMargin 1, 1 / 2 * k.size.y - k.holeMargin 0⟩ : V2) = PanelCorner k 1 := by
    simp only [PanelCorner]; ext <;> simp <;> ring
  have c2 : (⟨1 / 2 * k.size.x - k.holeMargin 1, -1 / 2 * k.size.y + k.holeMargin 2⟩ : V2) = PanelCorner k 2 := by
    simp only [PanelCorner]; ext <;> simp <;> ring
  have c3 : (⟨-1 / 2 * k.size.x + k.holeMargin 3, -1 / 2 * k.size.y + k.holeMargin 2⟩ : V2) = PanelCorner k 3 := by
    simp only [PanelCorner]; ext <;> simp <;> ring
  norm_num only at c0 c1 c2 c3
  rw [c0, c1] at e0
  rw [c1, c2] at e1
  rw [c2, c3] at e2
  rw [c3, c0] at e3
  have d0 := Discs.line hr hh e0
  have d1 := Discs.line hr hh e1
  have d2 := Discs.line hr hh e2
  have d3 := Discs.line hr hh e3
  cases hu
  have hv := C29_trees_partial h0 [h1, h2, h3] p (by
    intro s hs
    simp only [List.mem_cons, List.not_mem_nil, or_false] at hs
    rcases hs with rfl | rfl | rfl | rfl
    · exact ⟨d0.assembled, d0.boxed, d0.nonEmpty⟩
    · exact ⟨d1.assembled, d1.boxed, d1.nonEmpty⟩
    · exact ⟨d2.assembled, d2.boxed, d2.nonEmpty⟩
    · exact ⟨d3.assembled, d3.boxed, d3.nonEmpty⟩)
  obtain ⟨hv1, hv2⟩ := hv
  rw [C16_difference2]
  refine and_congr_right fun _ => ?_
  simp only [SDF2.Outside]
  constructor
  · intro hp i c hc
    have key : ∀ {C : V2 → Prop} {t : SDF2}, Discs (1 / 2 * k.holeDiameter) C t → t ∈ [h0, h1, h2, h3] → C c →
        k.holeDiameter / 2 < V2.dist p c := by
      intro C t ht hm hc
      have := hv2 t hm
      have := ht.least p c hc
      linarith
    fin_cases i
    · exact key d0 (by simp) hc
    · exact key d1 (by simp) hc
    · exact key d2 (by simp) hc
    · exact key d3 (by simp) hc
  · intro hp
    have key : ∀ {t : SDF2} (i : Fin 4), Discs (1 / 2 * k.holeDiameter) (HoleAt (PanelCorner k i) (PanelCorner k (i + 1)) (k.holePattern i)) t →
        0 < t.eval p := by
      intro t i ht
      obtain ⟨c, hc, e⟩ := ht.attained p
      have := hp i c hc
      rw [e]; linarith
    obtain ⟨s, hs, e⟩ := hv1
    rw [← e]
    simp only [List.mem_cons, List.not_mem_nil, or_false] at hs
    rcases hs with rfl | rfl | rfl | rfl
    · exact key 0 d0
    · exact key 1 d1
    · exact key 2 d2
    · exact key 3 d3

/-- Without holes the panel is the rounded rectangle. -/
theorem C35_panel_plain (k : PanelParams) (hd : k.holeDiameter ≤ 0) : Obj2.panel k = some (Must2.box k.size k.cornerRadius) := by
  unfold Obj2.panel; norm_num only; rw [if_pos hd]

/-- A panel of 100 by 60 with a hole in each corner: material in the middle, none at a corner hole. -/
example (s : SDF2) (h : Obj2.panel ⟨⟨100, 60⟩, 2, 4, fun _ => 5, fun _ => "x", 3⟩ = some s) :
    s.Inside ⟨0, 0⟩ ∧ ¬ s.Inside ⟨-45, 25⟩ := by
  rw [C35_panel_shape _ (by norm_num) s h, C35_panel_shape _ (by norm_num) s h]
  constructor
  · constructor
    · simp only [SDF2.Inside, Must2.box]
      rw [sdfBox2d_eq, boxFn2_neg] <;> simp only [V2.sub, V2.scale, V2.elem, V2.absElem] <;> norm_num
    · rintro i c ⟨j, hj, rfl⟩
      have hj0 : j = 0 := by
        have : j < 1 := by
          have := (List.getElem?_eq_some_iff.mp hj).1
          simpa using this
        omega
      subst hj0
      refine lt_of_lt_of_le ?_ (V2.abs_x_le _)
      fin_cases i <;> norm_num [PanelCorner, V2.add, V2.scale, V2.sub]
  · rintro ⟨-, h⟩
    have := h 0 ⟨-45, 25⟩ ⟨0, rfl, by simp [PanelCorner, V2.add, V2.scale]; norm_num⟩
    rw [V2.dist_eq_zero.mpr rfl] at this
    norm_num at this

/-- A euro-rack panel: 5.08 mm per pitch and 44.45 mm per unit less the gaps, with a hole 7.5 mm from the left or right and
3 mm from the top or bottom in each of its corners. -/
theorem C35_euroRack_shape (k : EuroRackParams) (s : SDF2) (h : Obj2.euroRackPanel k = some s) (p : V2) :
    s.Inside p ↔ (Must2.box ⟨k.HP * 5.08 - 0.24, k.U * 44.45 - 4.85⟩ k.cornerRadius).Inside p ∧
      ∀ sx sy : ℝ, (sx = 1 ∨ sx = -1) → (sy = 1 ∨ sy = -1) → k.holeDiameter / 2 <
        V2.dist p ⟨sx * ((k.HP * 5.08 - 0.24) / 2 - 7.5), sy * ((k.U * 44.45 - 4.85) / 2 - 3)⟩ := by
  have hn : ¬ (k.U < 1 ∨ k.HP < 8 ∨ k.cornerRadius < 0 ∨ k.holeDiameter ≤ 0) := by
    rw [← C35_euroRack_panics, h]; simp
  push Not at hn
  obtain ⟨n1, n2, n3, n4⟩ := hn
  unfold Obj2.euroRackPanel at h
  rw [if_neg (not_lt.mpr n1), if_neg (by linarith), if_neg (not_lt.mpr n3), if_neg (not_le.mpr n4)] at h
  have hx : k.hpSize = k.HP * 5.08 - 0.24 := by
    simp only [EuroRackParams.hpSize, erHP, erHPGap, millimetresPerInch]; norm_num
  have hy : k.uSize = k.U * 44.45 - 4.85 := by
    simp only [EuroRackParams.uSize, erU, erUGap, millimetresPerInch]; norm_num
  have hm : (3 * erHP * 0.5) - erHPGap = 7.5 := by simp only [erHP, erHPGap, millimetresPerInch]; norm_num
  rw [C35_panel_shape _ (by simpa [EuroRackParams.toPanel] using n4) s h]
  have hs : k.toPanel.size = ⟨k.HP * 5.08 - 0.24, k.U * 44.45 - 4.85⟩ := by simp only [EuroRackParams.toPanel, hx, hy]
  have hc : k.toPanel.cornerRadius = k.cornerRadius := rfl
  have hd : k.toPanel.holeDiameter = k.holeDiameter := rfl
  rw [hs, hc, hd]
  refine and_congr_right fun _ => ?_
  have hpat : ∀ i, k.toPanel.holePattern i = "x" := by
    intro i; simp only [EuroRackParams.toPanel]; rw [if_neg (not_lt.mpr n2)]; fin_cases i <;> rfl
  have hole : ∀ i c, HoleAt (PanelCorner k.toPanel i) (PanelCorner k.toPanel (i + 1)) (k.toPanel.holePattern i) c ↔
      c = PanelCorner k.toPanel i := by
    intro i c
    rw [hpat]
    constructor
    · rintro ⟨j, hj, rfl⟩
      have hj0 : j = 0 := by
        have : j < 1 := by simpa using (List.getElem?_eq_some_iff.mp hj).1
        omega
      subst hj0
      ext <;> simp [V2.add, V2.scale]
    · rintro rfl
      exact ⟨0, rfl, by ext <;> simp [V2.add, V2.scale]⟩
  simp only [hole, forall_eq]
  have corner : PanelCorner k.toPanel = ![⟨-1 * ((k.HP * 5.08 - 0.24) / 2 - 7.5), 1 * ((k.U * 44.45 - 4.85) / 2 - 3)⟩,
      ⟨1 * ((k.HP * 5.08 - 0.24) / 2 - 7.5), 1 * ((k.U * 44.45 - 4.85) / 2 - 3)⟩,
      ⟨1 * ((k.HP * 5.08 - 0.24) / 2 - 7.5), -1 * ((k.U * 44.45 - 4.85) / 2 - 3)⟩,
      ⟨-1 * ((k.HP * 5.08 - 0.24) / 2 - 7.5), -1 * ((k.U * 44.45 - 4.85) / 2 - 3)⟩] := by
    unfold PanelCorner
    rw [hs]
    have m0 : k.toPanel.holeMargin 0 = 3 := by simp [EuroRackParams.toPanel]; norm_num
    have m1 : k.toPanel.holeMargin 1 = 7.5 := by simp only [EuroRackParams.toPanel, hm]; rfl
    have m2 : k.toPanel.holeMargin 2 = 3 := by simp [EuroRackParams.toPanel]; norm_num
    have m3 : k.toPanel.holeMargin 3 = 7.5 := by simp only [EuroRackParams.toPanel, hm]; rfl
    rw [m0, m1, m2, m3]
    simp only [one_mul, neg_mul]
  rw [corner]
  constructor
  · intro h
    rintro sx sy (rfl | rfl) (rfl | rfl)
    · exact h 1
    · exact h 2
    · exact h 0
    · exact h 3
  · intro h i
    fin_cases i
    · exact h (-1) 1 (.inr rfl) (.inl rfl)
    · exact h 1 1 (.inl rfl) (.inl rfl)
    · exact h 1 (-1) (.inl rfl) (.inr rfl)
    · exact h (-1) (-1) (.inr rfl) (.inr rfl)

/-- The solid panel is there exactly when the flat one is and the thickness is positive; the ridges never prevent it. -/
theorem C35_euroRack3 (k : EuroRackParams) :
    Obj3.euroRackPanel k = none ↔ k.thickness ≤ 0 ∨ k.U < 1 ∨ k.HP < 8 ∨ k.cornerRadius < 0 ∨ k.holeDiameter ≤ 0 := by
  rw [← C35_euroRack_panics]
  unfold Obj3.euroRackPanel
  by_cases h : k.thickness ≤ 0
  · simp [h]
  rw [if_neg h]
  simp only [h, false_or]
  push Not at h
  rcases hp : Obj2.euroRackPanel k with _ | t
  · simp
  · have hn : ¬ (k.U < 1 ∨ k.HP < 8 ∨ k.cornerRadius < 0 ∨ k.holeDiameter ≤ 0) := by
      rw [← C35_euroRack_panics, hp]; simp
    push Not at hn
    have hy : k.uSize = k.U * 44.45 - 4.85 := by
      simp only [EuroRackParams.uSize, erU, erUGap, millimetresPerInch]; norm_num
    simp only [Option.bind_eq_bind, Option.bind_some, reduceCtorEq, iff_false]
    by_cases hr : k.ridge
    · rw [if_neg (by simp [hr])]
      obtain ⟨b, hb, -⟩ := (C33_box3 ⟨k.thickness, k.uSize - 18.0, k.thickness * 1.5⟩ 0).1
        ⟨h, by simp only [hy]; norm_num; linarith [hn.1], by norm_num; exact h, le_rfl⟩
      rw [hb]
      simp [SDF3.unionList]
    · rw [if_pos (by simp [hr])]; simp

/-- The panel as a solid: the flat panel over half the thickness up and down. -/
theorem C35_panel3 (k : PanelParams) :
    (Obj3.panel k = none ↔ k.thickness ≤ 0 ∨ Obj2.panel k = none) ∧
    ∀ s t, Obj3.panel k = some s → Obj2.panel k = some t → ∀ p, s.Inside p ↔ t.Inside ⟨p.x, p.y⟩ ∧ |p.z| < k.thickness / 2 := by
  unfold Obj3.panel
  constructor
  · by_cases h : k.thickness ≤ 0
    · simp [h]
    · rw [if_neg h]
      rcases Obj2.panel k with _ | t <;> simp [h]
  · intro s t hs ht p
    split at hs
    · cases hs
    · rw [ht] at hs
      cases hs
      rw [C26_extrude, and_comm]

theorem cyl0 {H R : ℝ} (hR : 0 < R) (hH : 0 ≤ H) : ∃ s, Must3.cylinder H R 0 = some s ∧
    (∀ p, s.Inside p ↔ V2.norm ⟨p.x, p.y⟩ < R ∧ |p.z| < H / 2) ∧
    (∀ p, s.Outside p ↔ R < V2.norm ⟨p.x, p.y⟩ ∨ H / 2 < |p.z|) := by
  refine ⟨_, by unfold Must3.cylinder; rw [if_neg (not_le.mpr hR), if_neg (lt_irrefl _), if_neg (by linarith), if_neg (by linarith)], ?_⟩
  have e : ∀ p : V3, sdfBox2d ⟨V2.norm ⟨p.x, p.y⟩, p.z⟩ ⟨R - 0, H / 2 - 0⟩ - 0 = boxFn2 ⟨V2.norm ⟨p.x, p.y⟩ - R, |p.z| - H / 2⟩ := by
    intro p
    rw [sdfBox2d_eq]
    simp only [V2.sub, V2.absElem, sub_zero, abs_of_nonneg (V2.norm_nonneg _)]
  constructor
  · intro p
    simp only [SDF3.Inside, e]
    by_cases h : V2.norm ⟨p.x, p.y⟩ - R > 0 ∧ |p.z| - H / 2 > 0
    · rw [boxFn2_pos _ h]
      have := V2.norm_nonneg ⟨V2.norm ⟨p.x, p.y⟩ - R, |p.z| - H / 2⟩
      constructor
      · intro h'; linarith
      · intro h'; linarith [h.1, h'.1]
    · rw [boxFn2_neg _ h, max_lt_iff]
      constructor <;> rintro ⟨a, b⟩ <;> constructor <;> simp only at * <;> linarith
  · intro p
    simp only [SDF3.Outside, e]
    by_cases h : V2.norm ⟨p.x, p.y⟩ - R > 0 ∧ |p.z| - H / 2 > 0
    · rw [boxFn2_pos _ h]
      have h1 : R < V2.norm ⟨p.x, p.y⟩ := by linarith [h.1]
      simp only [h1, true_or, iff_true]
      refine V2.norm_pos fun he => ?_
      have := congrArg V2.x he
      simp only at this
      linarith
    · rw [boxFn2_neg _ h, lt_max_iff]
      constructor <;> rintro (a | a) <;> [left; right; left; right] <;> simp only at * <;> linarith

theorem cyl0_none {H R : ℝ} : Must3.cylinder H R 0 = none ↔ R ≤ 0 ∨ H < 0 := by
  constructor
  · intro h
    by_contra hc
    push Not at hc
    obtain ⟨s, hs, -⟩ := cyl0 hc.1 hc.2
    rw [h] at hs; cases hs
  · intro h
    unfold Must3.cylinder
    by_cases h1 : R ≤ 0
    · rw [if_pos h1]
    · have h2 : H < 0 := h.resolve_left h1
      push Not at h1
      rw [if_neg (not_le.mpr h1), if_neg (lt_irrefl _), if_neg (by linarith), if_pos (by linarith)]

theorem web_some (k : StandoffParams) : ∃ w, pillarWeb k = some w := by
  unfold pillarWeb; exact ⟨_, rfl⟩

theorem body_none (k : StandoffParams) : pillarBody k = none ↔
    k.pillarDiameter ≤ 0 ∨ k.pillarHeight < 0 ∨ (0 < k.numberWebs ∧ k.webDiameter ≤ 0) := by
  have hp : pillar k = none ↔ k.pillarDiameter ≤ 0 ∨ k.pillarHeight < 0 := by
    unfold pillar
    rw [cyl0_none]
    norm_num only
    constructor <;> rintro (h | h)
    · left; linarith
    · exact .inr h
    · left; linarith
    · exact .inr h
  unfold pillarBody
  by_cases hn : k.numberWebs > 0
  · rw [if_pos hn]
    obtain ⟨w, hw⟩ := web_some k
    have hc := cyl0_none (H := k.pillarHeight) (R := k.webDiameter)
    have hn' : 0 < k.numberWebs := hn
    rcases h1 : pillar k with _ | s
    · rw [h1] at hp
      simp only [Option.bind_eq_bind, Option.bind_none, true_iff]
      simp only [true_iff] at hp
      tauto
    · rw [h1] at hp
      simp only [reduceCtorEq, false_iff, not_or] at hp
      rw [hw]
      simp only [Option.bind_eq_bind, Option.bind_some, SDF3.unionList, hn', true_and]
      rcases h2 : Must3.cylinder k.pillarHeight k.webDiameter 0 with _ | c
      · rw [h2] at hc
        simp only [true_iff] at hc
        simp only [Option.bind_none, true_iff]
        tauto
      · rw [h2] at hc
        simp only [reduceCtorEq, false_iff, not_or] at hc
        simp only [Option.bind_some, reduceCtorEq, false_iff]
        tauto
  · rw [if_neg hn, hp]
    have : ¬ 0 < k.numberWebs := hn
    simp [this]

/-- `Standoff` panics exactly for a pillar without width or of negative height, webs without width, and whenever there is no
hole: a zero depth or diameter, meant for "no hole", panics too. -/
theorem C35_standoff_panics (k : StandoffParams) :
    Obj3.standoff k = none ↔ k.pillarDiameter ≤ 0 ∨ k.pillarHeight < 0 ∨ (0 < k.numberWebs ∧ k.webDiameter ≤ 0) ∨
      k.holeDepth = 0 ∨ k.holeDiameter ≤ 0 := by
  have hb := body_none k
  unfold Obj3.standoff pillarHole
  norm_num only
  rcases h1 : pillarBody k with _ | s
  · rw [h1] at hb
    simp only [true_iff] at hb
    simp only [Option.bind_eq_bind, Option.bind_none, true_iff]
    tauto
  · rw [h1] at hb
    simp only [reduceCtorEq, false_iff, not_or] at hb
    simp only [Option.bind_eq_bind, Option.bind_some, hb, false_or]
    by_cases hh : k.holeDiameter = 0 ∨ k.holeDepth = 0
    · rw [if_pos hh]
      have : k.holeDepth = 0 ∨ k.holeDiameter ≤ 0 := hh.elim (fun h => .inr h.le) .inl
      simp only [Option.bind_some, this, iff_true]
      split <;> simp [SDF3.differenceNil, SDF3.unionNil]
    · rw [if_neg hh]
      push Not at hh
      simp only [hh.2, false_or]
      by_cases hneg : k.holeDiameter ≤ 0
      · rw [cyl0_none.mpr (.inl (by linarith))]; simp [hneg]
      · push Not at hneg
        obtain ⟨c, hc, -⟩ := cyl0 (H := |k.holeDepth|) (R := 1 / 2 * k.holeDiameter) (by linarith) (abs_nonneg _)
        rw [hc]
        simp only [Option.bind_some, not_le.mpr hneg, iff_false]
        split <;> simp [SDF3.differenceNil, SDF3.unionNil, SDF3.unionList]

/-- Distance of a point from the axis of the pillar. -/
noncomputable def axisDist (p : V3) : ℝ := V2.norm ⟨p.x, p.y⟩

theorem moved_cyl {H R : ℝ} (hR : 0 < R) (hH : 0 ≤ H) {c : SDF3} (hc : Must3.cylinder H R 0 = some c) (z : ℝ) (p : V3) :
    ((c.transform (M44.translate ⟨0, 0, z⟩)).Inside p ↔ axisDist p < R ∧ |p.z - z| < H / 2) ∧
    ((c.transform (M44.translate ⟨0, 0, z⟩)).Outside p ↔ R < axisDist p ∨ H / 2 < |p.z - z|) := by
  obtain ⟨c', hc', h1, h2⟩ := cyl0 hR hH
  rw [hc] at hc'
  cases hc'
  have e := M44.inverse_mulPosition (M44.translate_affine ⟨0, 0, z⟩).1 (by rw [M44.det_eq]; exact (M44.translate_affine _).2)
    (V3.sub p ⟨0, 0, z⟩)
  rw [M44.translate_mulPosition, show V3.add (V3.sub p ⟨0, 0, z⟩) ⟨0, 0, z⟩ = p by ext <;> simp [V3.add, V3.sub]] at e
  have e1 := h1 (V3.sub p ⟨0, 0, z⟩)
  have e2 := h2 (V3.sub p ⟨0, 0, z⟩)
  simp only [V3.sub, sub_zero] at e e1 e2
  simp only [SDF3.Inside, SDF3.Outside, SDF3.transform, e, axisDist] at e1 e2 ⊢
  exact ⟨e1, e2⟩

/-- The pillar with its webs: it contains the pillar as far as the webs reach (`webDiameter` is used as a radius), stays
within that reach and within the height of the pillar. -/
theorem body_shape (k : StandoffParams) (s : SDF3) (h : pillarBody k = some s) (p : V3) :
    (k.numberWebs ≤ 0 → (s.Inside p ↔ axisDist p < k.pillarDiameter / 2 ∧ |p.z| < k.pillarHeight / 2)) ∧
    (0 < k.numberWebs → (s.Inside p → axisDist p < k.webDiameter ∧ |p.z| < k.pillarHeight / 2) ∧
      (axisDist p < k.pillarDiameter / 2 → axisDist p < k.webDiameter → |p.z| < k.pillarHeight / 2 → s.Inside p)) := by
  have hn : ¬ (k.pillarDiameter ≤ 0 ∨ k.pillarHeight < 0 ∨ (0 < k.numberWebs ∧ k.webDiameter ≤ 0)) := by
    rw [← body_none, h]; simp
  push Not at hn
  obtain ⟨c, hc, hi, -⟩ := cyl0 (H := k.pillarHeight) (R := 0.5 * k.pillarDiameter) (by norm_num; linarith [hn.1]) hn.2.1
  have hi' : c.Inside p ↔ axisDist p < k.pillarDiameter / 2 ∧ |p.z| < k.pillarHeight / 2 := by
    rw [hi p, axisDist]; norm_num; rw [one_div, inv_mul_eq_div]; exact fun _ => Iff.rfl
  unfold pillarBody pillar at h
  constructor
  · intro hw
    rw [if_neg (by omega), hc] at h
    cases h
    exact hi'
  · intro hw
    rw [if_pos hw, hc] at h
    obtain ⟨w, hw'⟩ := web_some k
    obtain ⟨cut, hcut, hi2, -⟩ := cyl0 (H := k.pillarHeight) (R := k.webDiameter) (hn.2.2 hw) hn.2.1
    rw [hw', hcut] at h
    simp only [Option.bind_eq_bind, Option.bind_some, SDF3.unionList, Option.some.injEq] at h
    subst h
    rw [C16_intersect3, C16_union3, hi2 p]
    refine ⟨fun h => h.2, fun h1 h2 h3 => ⟨⟨c, by simp, hi'.mpr ⟨h1, h3⟩⟩, h2, h3⟩⟩

/-- The shape of a standoff: the pillar with its webs less the hole, which is bored `holeDepth` down from the top, or plus a
stub of that height for a negative depth. -/
theorem C35_standoff_shape (k : StandoffParams) (s : SDF3) (h : Obj3.standoff k = some s) (p : V3) :
    ∃ body, pillarBody k = some body ∧
    (0 < k.holeDepth → (s.Inside p ↔ body.Inside p ∧ ¬ (axisDist p ≤ k.holeDiameter / 2 ∧
      k.pillarHeight / 2 - k.holeDepth ≤ p.z ∧ p.z ≤ k.pillarHeight / 2))) ∧
    (k.holeDepth < 0 → (s.Inside p ↔ body.Inside p ∨ (axisDist p < k.holeDiameter / 2 ∧
      k.pillarHeight / 2 < p.z ∧ p.z < k.pillarHeight / 2 + -k.holeDepth))) := by
  have hn : ¬ (k.pillarDiameter ≤ 0 ∨ k.pillarHeight < 0 ∨ (0 < k.numberWebs ∧ k.webDiameter ≤ 0) ∨
      k.holeDepth = 0 ∨ k.holeDiameter ≤ 0) := by
    rw [← C35_standoff_panics, h]; simp
  push Not at hn
  obtain ⟨-, -, -, hd, hr⟩ := hn
  unfold Obj3.standoff pillarHole at h
  norm_num only at h
  rcases h1 : pillarBody k with _ | body
  · rw [h1] at h; cases h
  refine ⟨body, rfl, ?_⟩
  obtain ⟨c, hc, -⟩ := cyl0 (H := |k.holeDepth|) (R := 1 / 2 * k.holeDiameter) (by linarith) (abs_nonneg _)
  obtain ⟨hin, hout⟩ := moved_cyl (by linarith) (abs_nonneg _) hc (1 / 2 * (k.pillarHeight - k.holeDepth)) p
  rw [h1, if_neg (by rintro (h | h); exacts [hr.ne' h, hd h]), hc] at h
  simp only [Option.bind_eq_bind, Option.bind_some] at h
  constructor
  · intro hpos
    rw [if_pos hpos.le] at h
    cases h
    rw [C16_difference3, hout, abs_of_pos hpos, lt_abs]
    refine and_congr_right fun _ => ?_
    rw [not_and_or, not_and_or, not_le, not_le, not_le]
    constructor
    · rintro (h | h | h)
      · left; linarith
      · right; right; linarith
      · right; left; linarith
    · rintro (h | h | h)
      · left; linarith
      · right; right; linarith
      · right; left; linarith
  · intro hneg
    rw [if_neg (not_le.mpr hneg)] at h
    simp only [SDF3.unionNil, List.mapM_cons, List.mapM_nil, id, Option.bind_eq_bind, Option.bind_some, Option.pure_def,
      SDF3.unionList, Option.some.injEq] at h
    subst h
    rw [C16_union3]
    simp only [List.mem_cons, List.not_mem_nil, or_false, exists_eq_or_imp, exists_eq_left, hin, abs_of_neg hneg, abs_lt]
    refine or_congr_right (and_congr (by rw [one_div, inv_mul_eq_div]) ?_)
    constructor <;> rintro ⟨a, b⟩ <;> constructor <;> linarith

/-- Webs, pillar and hole together: what is certain about the material. -/
theorem C35_standoff_pillar (k : StandoffParams) (s : SDF3) (h : Obj3.standoff k = some s) (hw : k.numberWebs ≤ 0)
    (hd : 0 < k.holeDepth) (p : V3) : s.Inside p ↔ axisDist p < k.pillarDiameter / 2 ∧ |p.z| < k.pillarHeight / 2 ∧
      ¬ (axisDist p ≤ k.holeDiameter / 2 ∧ k.pillarHeight / 2 - k.holeDepth ≤ p.z) := by
  obtain ⟨body, hb, h1, -⟩ := C35_standoff_shape k s h p
  rw [h1 hd, (body_shape k body hb p).1 hw]
  constructor
  · rintro ⟨⟨a, b⟩, c⟩
    exact ⟨a, b, fun ⟨d, e⟩ => c ⟨d, e, (abs_lt.mp b).2.le⟩⟩
  · rintro ⟨a, b, c⟩
    exact ⟨⟨a, b⟩, fun ⟨d, e, _⟩ => c ⟨d, e⟩⟩

/-- With webs, nothing reaches farther than `webDiameter` from the axis or beyond the ends of the pillar. -/
theorem C35_standoff_webs (k : StandoffParams) (s : SDF3) (h : Obj3.standoff k = some s) (hw : 0 < k.numberWebs)
    (hd : 0 < k.holeDepth) (p : V3) (hp : s.Inside p) : axisDist p < k.webDiameter ∧ |p.z| < k.pillarHeight / 2 := by
  obtain ⟨body, hb, h1, -⟩ := C35_standoff_shape k s h p
  exact ((body_shape k body hb p).2 hw).1 (((h1 hd).mp hp).1)

/-- Non-vacuity: a usual standoff is returned. -/
example : ∃ s, Obj3.standoff ⟨10, 6, 5, 3, 4, 5, 9, 2⟩ = some s := by
  rw [← Option.ne_none_iff_exists', Ne, C35_standoff_panics]; norm_num

end Sdf
