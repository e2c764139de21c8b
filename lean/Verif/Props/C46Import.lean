import Verif.Props.C39Bih

/-! C46: importing a triangle model. -/

namespace Sdf

namespace Bih

theorem goInt_near {x y : ℝ} (h : goInt x = goInt y) : |x - y| < 2 := by
  unfold goInt at h
  rw [abs_lt]
  split_ifs at h with hx hy hy
  · have := Int.floor_le x; have := Int.lt_floor_add_one x; have := Int.floor_le y; have := Int.lt_floor_add_one y
    rw [h] at *
    constructor <;> linarith
  · have hy' : y < 0 := lt_of_not_ge hy
    have h1 : 0 ≤ ⌊x⌋ := Int.floor_nonneg.2 hx
    have h2 : ⌈y⌉ ≤ 0 := Int.ceil_le.2 (by simpa using hy'.le)
    have e1 : ⌊x⌋ = 0 := by omega
    have e2 : ⌈y⌉ = 0 := by omega
    have := Int.lt_floor_add_one x
    have := Int.ceil_lt_add_one y
    rw [e1] at *
    rw [e2] at *
    push_cast at *
    constructor <;> linarith
  · have hx' : x < 0 := lt_of_not_ge hx
    have h1 : 0 ≤ ⌊y⌋ := Int.floor_nonneg.2 hy
    have h2 : ⌈x⌉ ≤ 0 := Int.ceil_le.2 (by simpa using hx'.le)
    have e1 : ⌊y⌋ = 0 := by omega
    have e2 : ⌈x⌉ = 0 := by omega
    have := Int.lt_floor_add_one y
    have := Int.ceil_lt_add_one x
    rw [e1] at *
    rw [e2] at *
    push_cast at *
    constructor <;> linarith
  · have := Int.le_ceil x; have := Int.ceil_lt_add_one x; have := Int.le_ceil y; have := Int.ceil_lt_add_one y
    rw [h] at *
    constructor <;> linarith

/-- Closer than twice the tolerance along every axis. -/
def Near (tol : ℝ) (v w : V3) : Prop := |v.x - w.x| < 2 * tol ∧ |v.y - w.y| < 2 * tol ∧ |v.z - w.z| < 2 * tol

theorem cell_near {tol : ℝ} (ht : 0 < tol) {v w : V3} (h : cellOf tol v = cellOf tol w) : Near tol v w := by
  unfold cellOf at h
  simp only [Prod.mk.injEq] at h
  obtain ⟨h1, h2, h3⟩ := h
  have key : ∀ a b : ℝ, goInt ((a + 0.5 * tol) / tol) = goInt ((b + 0.5 * tol) / tol) → |a - b| < 2 * tol := by
    intro a b h
    have := goInt_near h
    rw [← sub_div, abs_div, abs_of_pos ht, div_lt_iff₀ ht] at this
    rwa [show a + 0.5 * tol - (b + 0.5 * tol) = a - b by ring] at this
  exact ⟨key _ _ h1, key _ _ h2, key _ _ h3⟩

open Classical in
/-- The vertex a cache holds for `v`. -/
noncomputable def Cache.get (tol : ℝ) (c : Cache) (v : V3) : Option V3 :=
  (c.find? fun e => decide (e.1 = cellOf tol v)).map (·.2)

theorem Cache.get_append {tol : ℝ} {c : Cache} {v w : V3} (h : c.get tol v = some w) (d : Cache) : (c ++ d).get tol v = some w := by
  unfold Cache.get at *
  rw [List.find?_append]
  cases hf : c.find? fun e => decide (e.1 = cellOf tol v) with
  | none => rw [hf] at h; cases h
  | some e => rw [hf] at h; simpa using h

theorem Cache.use_spec (tol : ℝ) (c : Cache) (v : V3) : ∃ d, (c.use tol v).2 = c ++ d ∧
    (c ++ d).get tol v = some (c.use tol v).1 ∧ ∀ e ∈ d, e = (cellOf tol v, v) := by
  unfold Cache.use
  cases hf : c.find? fun e => decide (e.1 = cellOf tol v) with
  | none =>
    refine ⟨[(cellOf tol v, v)], rfl, ?_, by simp⟩
    unfold Cache.get
    rw [List.find?_append, hf]
    simp
  | some e =>
    refine ⟨[], by simp, ?_, by simp⟩
    unfold Cache.get
    rw [List.append_nil, hf]
    rfl

/-- The corners of a list of triangles. -/
def IsCorner (l : List Tri) (v : V3) : Prop := ∃ t ∈ l, v = t.a ∨ v = t.b ∨ v = t.c

/-- A triangle with its corners replaced. -/
def mapTri (f : V3 → V3) (t : Tri) : Tri := ⟨f t.a, f t.b, f t.c⟩

/-- The merged triangles, read off a final cache. -/
theorem mergeLoop_spec (tol : ℝ) : ∀ (l : List Tri) (c : Cache), ∃ d : Cache,
    mergeLoop tol l c = l.map (mapTri fun v => ((c ++ d).get tol v).getD v) ∧
    (∀ v, IsCorner l v → ((c ++ d).get tol v).isSome) ∧
    (∀ e ∈ d, IsCorner l e.2 ∧ e.1 = cellOf tol e.2)
  | [], c => ⟨[], rfl, by rintro v ⟨t, ht, -⟩; simp at ht, by simp⟩
  | t :: rest, c => by
    obtain ⟨d1, e1, g1, m1⟩ := Cache.use_spec tol c t.a
    obtain ⟨d2, e2, g2, m2⟩ := Cache.use_spec tol (c ++ d1) t.b
    obtain ⟨d3, e3, g3, m3⟩ := Cache.use_spec tol (c ++ d1 ++ d2) t.c
    obtain ⟨d4, e4, g4, m4⟩ := mergeLoop_spec tol rest (c ++ d1 ++ d2 ++ d3)
    have ga := Cache.get_append (Cache.get_append (Cache.get_append g1 d2) d3) d4
    have gb := Cache.get_append (Cache.get_append g2 d3) d4
    have gc := Cache.get_append g3 d4
    have eq : c ++ (d1 ++ d2 ++ d3 ++ d4) = c ++ d1 ++ d2 ++ d3 ++ d4 := by simp
    refine ⟨d1 ++ d2 ++ d3 ++ d4, ?_, ?_, ?_⟩
    · rw [eq, mergeLoop, e1, e2, e3, e4, List.map_cons]
      congr 1
      simp only [mapTri, ga, gb, gc, Option.getD_some]
    · rw [eq]
      rintro v ⟨u, hu, hv⟩
      rcases List.mem_cons.1 hu with rfl | hu
      · rcases hv with rfl | rfl | rfl
        · rw [ga]; rfl
        · rw [gb]; rfl
        · rw [gc]; rfl
      · exact g4 v ⟨u, hu, hv⟩
    · intro e he
      simp only [List.mem_append] at he
      rcases he with ((he | he) | he) | he
      · rw [m1 e he]; exact ⟨⟨t, by simp, Or.inl rfl⟩, rfl⟩
      · rw [m2 e he]; exact ⟨⟨t, by simp, Or.inr (Or.inl rfl)⟩, rfl⟩
      · rw [m3 e he]; exact ⟨⟨t, by simp, Or.inr (Or.inr rfl)⟩, rfl⟩
      · obtain ⟨⟨u, hu, hv⟩, h2⟩ := m4 e he
        exact ⟨⟨u, List.mem_cons_of_mem _ hu, hv⟩, h2⟩

/-- What merging does, without the cache. -/
theorem merge_map (tol : ℝ) (l : List Tri) : ∃ f : V3 → V3, mergeLoop tol l [] = l.map (mapTri f) ∧
    (∀ v, IsCorner l v → IsCorner l (f v) ∧ cellOf tol (f v) = cellOf tol v) ∧
    (∀ v w, IsCorner l v → IsCorner l w → cellOf tol v = cellOf tol w → f v = f w) := by
  obtain ⟨d, e, hsome, hd⟩ := mergeLoop_spec tol l []
  simp only [List.nil_append] at e hsome
  refine ⟨_, e, ?_, ?_⟩
  · intro v hv
    obtain ⟨w, hw⟩ := Option.isSome_iff_exists.1 (hsome v hv)
    rw [hw, Option.getD_some]
    unfold Cache.get at hw
    rw [Option.map_eq_some_iff] at hw
    obtain ⟨x, hx, rfl⟩ := hw
    have hm := List.mem_of_find?_eq_some hx
    have hp := List.find?_some hx
    obtain ⟨h1, h2⟩ := hd x hm
    exact ⟨h1, by rw [← h2]; simpa using hp⟩
  · intro v w hv hw hc
    have : Cache.get tol d v = Cache.get tol d w := by unfold Cache.get; rw [hc]
    obtain ⟨x, hx⟩ := Option.isSome_iff_exists.1 (hsome v hv)
    rw [← this, hx, Option.getD_some, Option.getD_some]

/-- The tolerance the import works with: the given one, or one chosen from the shortest side. -/
noncomputable def effectiveTol (model : List Tri) (tol : ℝ) : ℝ := by
  classical exact if tol = 0 then Real.sqrt (sideRange model).1 / 256 else tol

theorem goInt_nonpos {x : ℝ} (h : x < 1) : goInt x ≤ 0 := by
  unfold goInt
  split_ifs with hx
  · exact le_of_eq (Int.floor_eq_zero_iff.2 ⟨hx, h⟩)
  · exact Int.ceil_le.2 (by simpa using (lt_of_not_ge hx).le)

theorem import_build {S : Sorter} {model : List Tri} (hm : model ≠ []) {tol : ℝ} {B : Bih} (h : importV2 S model tol = some B) :
    0 < effectiveTol model tol ∧ B = build S (mergeLoop (effectiveTol model tol) model []) (triBox model) := by
  have key : ∀ t : ℝ, ¬ goInt (max (triBox model).size.x (max (triBox model).size.y (triBox model).size.z) / t + 1e-12) ≤ 0 → 0 < t := by
    intro t hn
    by_contra hc
    have ht : t ≤ 0 := not_lt.1 hc
    apply hn
    apply goInt_nonpos
    obtain ⟨u, hu⟩ := List.exists_mem_of_ne_nil _ hm
    obtain ⟨⟨x1, -, -, x2, -, -⟩, -, -⟩ := triBox_corners model hu
    have hs : 0 ≤ max (triBox model).size.x (max (triBox model).size.y (triBox model).size.z) := by
      refine le_trans ?_ (le_max_left _ _)
      simp only [Box3.size, V3.sub]
      linarith
    have := div_nonpos_of_nonneg_of_nonpos hs ht
    norm_num
    linarith
  unfold importV2 at h
  dsimp only at h
  by_cases c1 : tol > Real.sqrt (sideRange model).2 / 2
  · rw [if_pos c1] at h; cases h
  rw [if_neg c1] at h
  have he : (if tol = 0 then Real.sqrt (sideRange model).1 / 256 else tol) = effectiveTol model tol := rfl
  rw [he] at h
  split_ifs at h with c3 c4
  cases h
  exact ⟨key _ c3, rfl⟩

/-- A successful import has one triangle per triangle of the model, up to order.  The corners are replaced by one rule for the whole
model: every corner becomes a corner of the model less than twice the tolerance away along every axis; corners of one cell of
the tolerance grid, in particular equal corners, become the same point. -/
theorem C46_triangles (S : Sorter) (model : List Tri) (hm : model ≠ []) (tol : ℝ) (B : Bih) (h : importV2 S model tol = some B) :
    0 < effectiveTol model tol ∧ ∃ f : V3 → V3, B.mesh.Perm (model.map (mapTri f)) ∧
      (∀ v, IsCorner model v → IsCorner model (f v) ∧ Near (effectiveTol model tol) v (f v)) ∧
      (∀ v w, IsCorner model v → IsCorner model w → cellOf (effectiveTol model tol) v = cellOf (effectiveTol model tol) w → f v = f w) := by
  obtain ⟨h0, rfl⟩ := import_build hm h
  obtain ⟨f, e, h1, h2⟩ := merge_map (effectiveTol model tol) model
  refine ⟨h0, f, ?_, fun v hv => ⟨(h1 v hv).1, cell_near h0 (h1 v hv).2.symm⟩, h2⟩
  have := (build_spec S (mergeLoop (effectiveTol model tol) model []) (triBox model)).1
  exact e ▸ this

/-- The bounds contain every corner of the model and of the imported mesh. -/
theorem C46_bounds (S : Sorter) (model : List Tri) (hm : model ≠ []) (tol : ℝ) (B : Bih) (h : importV2 S model tol = some B) :
    (∀ t ∈ model, Corners B.bb.Contains t) ∧ ∀ t ∈ B.mesh, Corners B.bb.Contains t := by
  obtain ⟨h0, e⟩ := import_build hm h
  obtain ⟨-, f, hp, h1, -⟩ := C46_triangles S model hm tol B h
  have hbb : B.bb = triBox model := by rw [e]; rfl
  rw [hbb]
  have hall : ∀ t ∈ model, Corners (triBox model).Contains t := fun t ht => triBox_corners _ ht
  have hv : ∀ v, IsCorner model v → (triBox model).Contains v := by
    rintro v ⟨t, ht, rfl | rfl | rfl⟩
    exacts [(hall t ht).1, (hall t ht).2.1, (hall t ht).2.2]
  refine ⟨hall, fun t ht => ?_⟩
  obtain ⟨u, hu, rfl⟩ := List.mem_map.1 (hp.mem_iff.1 ht)
  exact ⟨hv _ (h1 _ ⟨u, hu, Or.inl rfl⟩).1, hv _ (h1 _ ⟨u, hu, Or.inr (Or.inl rfl)⟩).1, hv _ (h1 _ ⟨u, hu, Or.inr (Or.inr rfl)⟩).1⟩

/-- Evaluating an imported mesh gives the distance to its nearest triangle, for queries no triangle is passed over for. -/
theorem C46_distance (S : Sorter) (model : List Tri) (hm : model ≠ []) (tol : ℝ) (B : Bih) (h : importV2 S model tol = some B)
    (p : V3) (hs : ∀ t ∈ B.mesh, ¬ Skipped t p) (hn : ∃ t ∈ B.mesh, ∃ q, t.Mem q ∧ V3.dist p q ^ 2 < maxFloat64) :
    ∃ v, B.evaluate p = some v ∧ (∃ t ∈ B.mesh, ∃ q, t.Mem q ∧ |v| = V3.dist p q) ∧ ∀ t ∈ B.mesh, ∀ q, t.Mem q → |v| ≤ V3.dist p q := by
  obtain ⟨-, hb⟩ := C46_bounds S model hm tol B h
  obtain ⟨-, e⟩ := import_build hm h
  have hp := (build_spec S (mergeLoop (effectiveTol model tol) model []) (triBox model)).1
  rw [← e] at hp
  have hbb : B.bb = triBox model := by rw [e]; rfl
  have hmem : ∀ t, t ∈ B.mesh ↔ t ∈ mergeLoop (effectiveTol model tol) model [] := fun t => hp.mem_iff
  simp only [hmem] at *
  have := C39_exact_partial S (mergeLoop (effectiveTol model tol) model []) (triBox model) (by rw [← hbb]; exact hb) p hs hn
  rwa [← e] at this

/-- Corners further apart than the tolerance can be merged: near zero the cells are twice as wide. -/
theorem C46_wide_cell : cellOf 1 ⟨-1.4, 0, 0⟩ = cellOf 1 ⟨0.4, 0, 0⟩ := by
  have h1 : goInt ((-1.4 + 0.5 * 1) / 1) = 0 := by
    unfold goInt
    rw [if_neg (by norm_num), Int.ceil_eq_zero_iff]
    constructor <;> norm_num
  have h2 : goInt ((0.4 + 0.5 * 1) / 1) = 0 := by
    unfold goInt
    rw [if_pos (by norm_num), Int.floor_eq_zero_iff]
    constructor <;> norm_num
  unfold cellOf
  simp only [h1, h2]

/-- What the tolerances are compared with: the lengths of the shortest and of the longest side in the model. -/
theorem C46_sides (model : List Tri) (hm : model ≠ [])
    (hs : ∀ t ∈ model, V3.dist t.b t.a ^ 2 ≤ maxFloat64 ∧ V3.dist t.c t.b ^ 2 ≤ maxFloat64 ∧ V3.dist t.a t.c ^ 2 ≤ maxFloat64) :
    IsLeast {d | ∃ t ∈ model, d = V3.dist t.b t.a ∨ d = V3.dist t.c t.b ∨ d = V3.dist t.a t.c} (Real.sqrt (sideRange model).1) ∧
    IsGreatest {d | ∃ t ∈ model, d = V3.dist t.b t.a ∨ d = V3.dist t.c t.b ∨ d = V3.dist t.a t.c} (Real.sqrt (sideRange model).2) := by
  have hn2 : ∀ u v : V3, V3.norm2 (V3.sub u v) = V3.dist u v ^ 2 := by
    intro u v
    rw [sq]; exact (V3.norm_sq _).symm
  have key : ∀ (l : List Tri) (r : ℝ × ℝ), 
      let r' := l.foldl (fun r t =>
        let s0 := V3.norm2 (V3.sub t.b t.a)
        let s1 := V3.norm2 (V3.sub t.c t.b)
        let s2 := V3.norm2 (V3.sub t.a t.c)
        (min (min (min r.1 s0) s1) s2, max (max (max r.2 s0) s1) s2)) r
      r'.1 ≤ r.1 ∧ r.2 ≤ r'.2 ∧
      (∀ t ∈ l, r'.1 ≤ V3.dist t.b t.a ^ 2 ∧ r'.1 ≤ V3.dist t.c t.b ^ 2 ∧ r'.1 ≤ V3.dist t.a t.c ^ 2 ∧
        V3.dist t.b t.a ^ 2 ≤ r'.2 ∧ V3.dist t.c t.b ^ 2 ≤ r'.2 ∧ V3.dist t.a t.c ^ 2 ≤ r'.2) ∧
      (r'.1 = r.1 ∨ ∃ t ∈ l, r'.1 = V3.dist t.b t.a ^ 2 ∨ r'.1 = V3.dist t.c t.b ^ 2 ∨ r'.1 = V3.dist t.a t.c ^ 2) ∧
      (r'.2 = r.2 ∨ ∃ t ∈ l, r'.2 = V3.dist t.b t.a ^ 2 ∨ r'.2 = V3.dist t.c t.b ^ 2 ∨ r'.2 = V3.dist t.a t.c ^ 2) := by
    intro l
    induction l with
    | nil => intro r; simp
    | cons t l ih =>
      intro r
      simp only [List.foldl_cons, hn2]
      obtain ⟨h1, h2, h3, h4, h5⟩ := ih (min (min (min r.1 (V3.dist t.b t.a ^ 2)) (V3.dist t.c t.b ^ 2)) (V3.dist t.a t.c ^ 2),
        max (max (max r.2 (V3.dist t.b t.a ^ 2)) (V3.dist t.c t.b ^ 2)) (V3.dist t.a t.c ^ 2))
      simp only [hn2] at h1 h2 h3 h4 h5
      generalize List.foldl _ _ l = q at *
      simp only [le_min_iff, max_le_iff] at h1 h2
      obtain ⟨⟨⟨a1, a2⟩, a3⟩, a4⟩ := h1
      obtain ⟨⟨⟨b1, b2⟩, b3⟩, b4⟩ := h2
      refine ⟨a1, b1, ?_, ?_, ?_⟩
      · intro u hu
        rcases List.mem_cons.mp hu with rfl | hu
        · exact ⟨a2, a3, a4, b2, b3, b4⟩
        · exact h3 u hu
      · rcases h4 with h4 | ⟨u, hu, h4⟩
        · rw [h4]
          rcases min_choice (min (min r.1 (V3.dist t.b t.a ^ 2)) (V3.dist t.c t.b ^ 2)) (V3.dist t.a t.c ^ 2) with e | e
          · rw [e]
            rcases min_choice (min r.1 (V3.dist t.b t.a ^ 2)) (V3.dist t.c t.b ^ 2) with e | e
            · rw [e]
              rcases min_choice r.1 (V3.dist t.b t.a ^ 2) with e | e
              · left; exact e
              · right; exact ⟨t, by simp, Or.inl e⟩
            · right; exact ⟨t, by simp, Or.inr (Or.inl e)⟩
          · right; exact ⟨t, by simp, Or.inr (Or.inr e)⟩
        · right; exact ⟨u, by simp [hu], h4⟩
      · rcases h5 with h5 | ⟨u, hu, h5⟩
        · rw [h5]
          rcases max_choice (max (max r.2 (V3.dist t.b t.a ^ 2)) (V3.dist t.c t.b ^ 2)) (V3.dist t.a t.c ^ 2) with e | e
          · rw [e]
            rcases max_choice (max r.2 (V3.dist t.b t.a ^ 2)) (V3.dist t.c t.b ^ 2) with e | e
            · rw [e]
              rcases max_choice r.2 (V3.dist t.b t.a ^ 2) with e | e
              · left; exact e
              · right; exact ⟨t, by simp, Or.inl e⟩
            · right; exact ⟨t, by simp, Or.inr (Or.inl e)⟩
          · right; exact ⟨t, by simp, Or.inr (Or.inr e)⟩
        · right; exact ⟨u, by simp [hu], h5⟩
  obtain ⟨-, -, h3, h4, h5⟩ := key model (maxFloat64, -maxFloat64)
  change ∀ t ∈ model, (sideRange model).1 ≤ _ ∧ _ at h3
  change (sideRange model).1 = _ ∨ ∃ t ∈ model, (sideRange model).1 = _ ∨ (sideRange model).1 = _ ∨ (sideRange model).1 = _ at h4
  change (sideRange model).2 = _ ∨ ∃ t ∈ model, (sideRange model).2 = _ ∨ (sideRange model).2 = _ ∨ (sideRange model).2 = _ at h5
  obtain ⟨t0, ht0⟩ := List.exists_mem_of_ne_nil model hm
  have hM : 0 < maxFloat64 := by norm_num [maxFloat64]
  have q4 : ∃ t ∈ model, (sideRange model).1 = V3.dist t.b t.a ^ 2 ∨ (sideRange model).1 = V3.dist t.c t.b ^ 2 ∨
      (sideRange model).1 = V3.dist t.a t.c ^ 2 := by
    rcases h4 with h4 | h4
    · exact ⟨t0, ht0, Or.inl (le_antisymm (h3 t0 ht0).1 (by rw [h4]; exact (hs t0 ht0).1))⟩
    · exact h4
  have q5 : ∃ t ∈ model, (sideRange model).2 = V3.dist t.b t.a ^ 2 ∨ (sideRange model).2 = V3.dist t.c t.b ^ 2 ∨
      (sideRange model).2 = V3.dist t.a t.c ^ 2 := by
    rcases h5 with h5 | h5
    · have h6 : V3.dist t0.b t0.a ^ 2 ≤ (sideRange model).2 := (h3 t0 ht0).2.2.2.1
      rw [h5] at h6
      nlinarith [sq_nonneg (V3.dist t0.b t0.a)]
    · exact h5
  have hq : ∀ u v : V3, Real.sqrt (V3.dist u v ^ 2) = V3.dist u v := fun u v => Real.sqrt_sq (V3.dist_nonneg u v)
  refine ⟨⟨?_, ?_⟩, ⟨?_, ?_⟩⟩
  · obtain ⟨t, ht, h⟩ := q4
    refine ⟨t, ht, ?_⟩
    rcases h with h | h | h <;> rw [h, hq] <;> simp
  · rintro d ⟨t, ht, h⟩
    have := h3 t ht
    rcases h with rfl | rfl | rfl
    · rw [← hq t.b t.a]; exact Real.sqrt_le_sqrt this.1
    · rw [← hq t.c t.b]; exact Real.sqrt_le_sqrt this.2.1
    · rw [← hq t.a t.c]; exact Real.sqrt_le_sqrt this.2.2.1
  · obtain ⟨t, ht, h⟩ := q5
    refine ⟨t, ht, ?_⟩
    rcases h with h | h | h <;> rw [h, hq] <;> simp
  · rintro d ⟨t, ht, h⟩
    have := h3 t ht
    rcases h with rfl | rfl | rfl
    · rw [← hq t.b t.a]; exact Real.sqrt_le_sqrt this.2.2.2.1
    · rw [← hq t.c t.b]; exact Real.sqrt_le_sqrt this.2.2.2.2.1
    · rw [← hq t.a t.c]; exact Real.sqrt_le_sqrt this.2.2.2.2.2

/-- Rejected tolerances. -/
theorem C46_rejects (S : Sorter) (model : List Tri) (hm : model ≠ []) (tol : ℝ) (h : tol < 0 ∨ Real.sqrt (sideRange model).2 / 2 < tol) :
    importV2 S model tol = none := by
  cases e : importV2 S model tol with
  | none => rfl
  | some B =>
    exfalso
    rcases h with h | h
    · have := (import_build hm e).1
      unfold effectiveTol at this
      rw [if_neg h.ne] at this
      linarith
    · unfold importV2 at e
      dsimp only at e
      rw [if_pos h] at e
      cases e

/-- A model that is imported. -/
example : ∃ B, importV2 ⟨fun _ l => l, fun _ _ => List.Perm.refl _⟩ [⟨⟨0, 0, 0⟩, ⟨1, 0, 0⟩, ⟨0, 1, 0⟩⟩] (1 / 10) = some B := by
  unfold importV2
  dsimp only
  have hb := big
  have hs : triBox [⟨⟨0, 0, 0⟩, ⟨1, 0, 0⟩, ⟨0, 1, 0⟩⟩] = ⟨⟨0, 0, 0⟩, ⟨1, 1, 0⟩⟩ := by
    have e1 : min maxFloat64 0 = (0 : ℝ) := min_eq_right (by linarith)
    have e2 : max (-maxFloat64) 0 = (0 : ℝ) := max_eq_right (by linarith)
    simp [triBox, emptyBox, Box3.includeV, V3.minElem, V3.maxElem, e1, e2]
  have hr : 1 ≤ (sideRange [⟨⟨0, 0, 0⟩, ⟨1, 0, 0⟩, ⟨0, 1, 0⟩⟩]).2 := by
    simp only [sideRange, List.foldl, V3.norm2, V3.sub]
    refine le_trans ?_ (le_max_right _ _)
    norm_num
  have hq : 1 ≤ Real.sqrt (sideRange [⟨⟨0, 0, 0⟩, ⟨1, 0, 0⟩, ⟨0, 1, 0⟩⟩]).2 := by
    rw [Real.one_le_sqrt]; exact hr
  rw [if_neg (by rw [not_lt]; linarith), hs]
  have h10 : ∀ x : ℝ, (if (1 / 10 : ℝ) = 0 then x else 1 / 10) = 1 / 10 := fun x => if_neg (by norm_num)
  rw [h10]
  have hg : goInt (max (Box3.size ⟨⟨0, 0, 0⟩, ⟨1, 1, 0⟩⟩).x (max (Box3.size ⟨⟨0, 0, 0⟩, ⟨1, 1, 0⟩⟩).y (Box3.size ⟨⟨0, 0, 0⟩, ⟨1, 1, 0⟩⟩).z) / (1 / 10) + 1e-12) = 10 := by
    simp only [Box3.size, V3.sub]
    norm_num
    unfold goInt
    rw [if_pos (by norm_num), Int.floor_eq_iff]
    norm_num
  rw [hg, if_neg (by norm_num), if_neg (by norm_num)]
  exact ⟨_, rfl⟩

end Bih

end Sdf
