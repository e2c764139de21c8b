import Verif.Lemmas.Polygon
import Verif.Lemmas.Union2
import Verif.Lemmas.Loops

/-! Helper lemmas about polygons: the whole outline. -/

namespace Sdf
namespace Must2
open Polygon

theorem zip_snoc (a x : V2) (vs : List V2) :
    (a :: vs).zip (vs ++ [x]) = (a :: vs).zip vs ++ [((a :: vs).getLast (List.cons_ne_nil _ _), x)] := by
  induction vs generalizing a with
  | nil => simp
  | cons b vs ih =>
    rw [List.cons_append, List.zip_cons_cons, ih b, List.zip_cons_cons, List.cons_append]
    simp

theorem sides_cons (a : V2) (vs : List V2) : sides (a :: vs) = (a :: vs).zip (vs ++ [a]) := by
  unfold sides; simp

theorem edges_close (a : V2) (vs : List V2) : edges ((a :: vs) ++ [a]) = sides (a :: vs) := by
  rw [sides_cons]
  unfold edges
  have h : ((a :: vs) ++ [a]).tail = (vs ++ [a]) ++ [] := by simp
  rw [h, List.zip_append (by simp)]
  simp

theorem chain_sum (f : V2 → ℝ) (a : V2) (vs : List V2) :
    (((a :: vs).zip vs).map fun e => f e.2 - f e.1).sum = f ((a :: vs).getLast (List.cons_ne_nil _ _)) - f a := by
  induction vs generalizing a with
  | nil => simp
  | cons b vs ih =>
    rw [List.zip_cons_cons, List.map_cons, List.sum_cons, ih b]
    simp

/-- What the rest of the argument needs to know about the edge list of a closed outline. -/
structure GoodEdges (v0 : V2) (v : List V2) (E : List (V2 × V2)) : Prop where
  ne : ∀ e ∈ E, e.1 ≠ e.2
  sides_eq : sides v = E ∨ sides v = E ++ [(v0, v0)]
  first : ∃ v1, (v0, v1) ∈ E
  closed : ∀ f : V2 → ℝ, (E.map fun e => f e.2 - f e.1).sum = 0
  fst : ∀ x, x ∈ v ↔ x ∈ E.map Prod.fst

theorem closeLoop_good (v0 v1 v2 : V2) (vs : List V2) (h : Proper (v0 :: v1 :: v2 :: vs)) :
    GoodEdges v0 (v0 :: v1 :: v2 :: vs) (edges (closeLoop v0 (v0 :: v1 :: v2 :: vs))) := by
  obtain ⟨_, hne, hends⟩ := h
  set tl := v1 :: v2 :: vs with htl
  have hlast : (v0 :: tl).getLast? = some ((v0 :: tl).getLast (List.cons_ne_nil _ _)) :=
    List.getLast?_eq_some_getLast _
  have hD : (v0 :: tl).getLastD v0 = (v0 :: tl).getLast (List.cons_ne_nil _ _) := by
    rw [List.getLastD_eq_getLast?, hlast]; rfl
  have hs : sides (v0 :: tl) = edges (v0 :: tl) ++ [((v0 :: tl).getLast (List.cons_ne_nil _ _), v0)] := by
    rw [sides_cons, zip_snoc]; rfl
  have hfst : ∀ (l : List V2) (a x : V2), (edges (a :: l)).map Prod.fst ++ [(a :: l).getLast (List.cons_ne_nil _ _)] = a :: l := by
    intro l
    induction l with
    | nil => intro a x; simp [edges]
    | cons b l ih => intro a x; have := ih b x; simp only [edges, List.tail_cons, List.zip_cons_cons, List.map_cons, List.cons_append] at this ⊢; rw [List.getLast_cons (List.cons_ne_nil _ _), this]
  rcases hends v0 _ rfl hlast with he | he
  · -- exactly closed
    have hc : closeLoop v0 (v0 :: tl) = v0 :: tl := by
      unfold closeLoop
      rw [if_neg]
      push Not
      rw [hD, ← he]
      constructor <;> rw [sub_self, abs_zero] <;> norm_num [tolerance]
    rw [hc]
    refine ⟨hne, Or.inr ?_, ⟨v1, by simp [edges, htl]⟩, fun f => ?_, fun x => ?_⟩
    · rw [hs, ← he]
    · have := chain_sum f v0 tl
      rw [← he, sub_self] at this
      exact this
    · have h1 := hfst tl v0 v0
      rw [← he] at h1
      have hv0 : v0 ∈ (edges (v0 :: tl)).map Prod.fst := by simp [edges, htl]
      constructor
      · intro hx
        rw [← h1, List.mem_append, List.mem_singleton] at hx
        rcases hx with hx | hx
        · exact hx
        · rw [hx]; exact hv0
      · intro hx
        rw [← h1]; exact List.mem_append_left _ hx
  · have hc : closeLoop v0 (v0 :: tl) = (v0 :: tl) ++ [v0] := by
      unfold closeLoop
      rw [if_pos]
      rw [hD]; exact he
    rw [hc, edges_close]
    have hne0 : (v0 :: tl).getLast (List.cons_ne_nil _ _) ≠ v0 := by
      intro h
      apply he
      rw [h]
      constructor <;> rw [sub_self, abs_zero] <;> norm_num
    refine ⟨?_, Or.inl rfl, ⟨v1, by simp [sides_cons, htl]⟩, fun f => ?_, fun x => ?_⟩
    · intro e he'
      rw [hs, List.mem_append, List.mem_singleton] at he'
      rcases he' with he' | he'
      · exact hne e he'
      · rw [he']; exact hne0
    · rw [hs, List.map_append, List.sum_append]
      have := chain_sum f v0 tl
      have h2 : (edges (v0 :: tl)).map (fun e => f e.2 - f e.1) = ((v0 :: tl).zip tl).map (fun e => f e.2 - f e.1) := rfl
      rw [h2, this]; simp
    · rw [hs, List.map_append]
      have := hfst tl v0 v0
      simp only [List.map_cons, List.map_nil]
      rw [this]

variable {v0 : V2} {v : List V2} {E : List (V2 × V2)}

theorem GoodEdges.outline (h : GoodEdges v0 v E) (q : V2) : Outline v q ↔ ∃ e ∈ E, OnSegment e.1 e.2 q := by
  unfold Outline
  rcases h.sides_eq with hs | hs <;> rw [hs]
  constructor
  · rintro ⟨e, he, hq⟩
    rcases List.mem_append.mp he with he | he
    · exact ⟨e, he, hq⟩
    · rw [List.mem_singleton] at he
      subst he
      obtain ⟨t, _, _, rfl⟩ := hq
      obtain ⟨v1, hv1⟩ := h.first
      refine ⟨_, hv1, 0, le_rfl, zero_le_one, ?_⟩
      ext <;> simp [V2.add, V2.scale, V2.sub]
  · rintro ⟨e, he, hq⟩
    exact ⟨e, List.mem_append_left _ he, hq⟩

theorem GoodEdges.winding (h : GoodEdges v0 v E) (p : V2) (hp : ¬ Outline v p) :
    IsWinding v p (E.map (segWn p)).sum ∧
      (E.map fun e => seenAngle p e.1 e.2).sum = 2 * Real.pi * ((E.map (segWn p)).sum : ℤ) := by
  have h1 : (E.map fun e => seenAngle p e.1 e.2).sum = 2 * Real.pi * ((E.map (segWn p)).sum : ℤ) := by
    have hoff : ∀ e ∈ E, ¬ OnSegment e.1 e.2 p := fun e he hq => hp ((h.outline p).mpr ⟨e, he, hq⟩)
    have hc := h.closed fun x => ang (toC x - toC p)
    have gen : ∀ F : List (V2 × V2), (∀ e ∈ F, ¬ OnSegment e.1 e.2 p) → (F.map fun e => seenAngle p e.1 e.2).sum =
        (F.map fun e => ang (toC e.2 - toC p) - ang (toC e.1 - toC p)).sum + 2 * Real.pi * ((F.map (segWn p)).sum : ℤ) := by
      intro F hF
      induction F with
      | nil => simp
      | cons e F ih =>
        simp only [List.map_cons, List.sum_cons]
        rw [ih (fun x hx => hF x (List.mem_cons_of_mem _ hx)), seenAngle_eq (hF e List.mem_cons_self)]
        push_cast
        ring
    rw [gen E hoff, hc, zero_add]
  refine ⟨?_, h1⟩
  unfold IsWinding
  rcases h.sides_eq with hs | hs <;> rw [hs]
  · exact h1
  · rw [List.map_append, List.sum_append, h1]
    have hv0 : toC v0 - toC p ≠ 0 := by
      intro h0
      apply hp
      rw [h.outline]
      obtain ⟨v1, hv1⟩ := h.first
      refine ⟨_, hv1, 0, le_rfl, zero_le_one, ?_⟩
      have hx : v0.x - p.x = 0 := congrArg Complex.re h0
      have hy : v0.y - p.y = 0 := congrArg Complex.im h0
      ext <;> simp [V2.add, V2.scale] <;> linarith
    simp [seenAngle, div_self hv0]

/-- The squared distance found by the loop. -/
noncomputable def polyDD (p : V2) (E : List (V2 × V2)) : ℝ := E.foldl (fun d e => min d (segDD p e)) maxFloat64

theorem polyDD_spec (p : V2) (E : List (V2 × V2)) : (polyDD p E = maxFloat64 ∨ ∃ e ∈ E, polyDD p E = segDD p e) ∧
    polyDD p E ≤ maxFloat64 ∧ ∀ e ∈ E, polyDD p E ≤ segDD p e := by
  unfold polyDD
  generalize maxFloat64 = M
  induction E generalizing M with
  | nil => simp
  | cons e E ih =>
    rw [List.foldl_cons]
    obtain ⟨h1, h2, h3⟩ := ih (min M (segDD p e))
    refine ⟨?_, le_trans h2 (min_le_left _ _), fun e' he' => ?_⟩
    · rcases h1 with h1 | ⟨e', he', h1⟩
      · rcases min_choice M (segDD p e) with h4 | h4
        · exact Or.inl (h1.trans h4)
        · exact Or.inr ⟨e, List.mem_cons_self, h1.trans h4⟩
      · exact Or.inr ⟨e', List.mem_cons_of_mem _ he', h1⟩
    · rcases List.mem_cons.mp he' with rfl | he'
      · exact le_trans h2 (min_le_right _ _)
      · exact h3 e' he'

theorem polyDD_nonneg (p : V2) (E : List (V2 × V2)) (hE : ∀ e ∈ E, e.1 ≠ e.2) : 0 ≤ polyDD p E := by
  rcases (polyDD_spec p E).1 with h | ⟨e, he, h⟩ <;> rw [h]
  · exact maxFloat64_pos.le
  · exact (segDD_dist p e (hE e he)).1

open Classical in
theorem polygonEval_eq (vs : List V2) (p : V2) (hE : ∀ e ∈ edges vs, e.1 ≠ e.2) :
    polygonEval vs p = if ((edges vs).map (segWn p)).sum ≠ 0 then -Real.sqrt (polyDD p (edges vs))
      else Real.sqrt (polyDD p (edges vs)) := by
  unfold polygonEval
  rw [foldl_polygonStep p _ hE]
  simp only [zero_add, polyDD]

theorem abs_polygonEval (vs : List V2) (p : V2) (hE : ∀ e ∈ edges vs, e.1 ≠ e.2) :
    |polygonEval vs p| = Real.sqrt (polyDD p (edges vs)) := by
  rw [polygonEval_eq vs p hE]
  split
  · rw [abs_neg, abs_of_nonneg (Real.sqrt_nonneg _)]
  · rw [abs_of_nonneg (Real.sqrt_nonneg _)]

theorem sqrt_polyDD_le (p q : V2) (hE : ∀ e ∈ E, e.1 ≠ e.2) (hq : ∃ e ∈ E, OnSegment e.1 e.2 q) :
    Real.sqrt (polyDD p E) ≤ V2.dist p q := by
  obtain ⟨e, he, hq⟩ := hq
  exact le_trans (Real.sqrt_le_sqrt ((polyDD_spec p E).2.2 e he)) ((segDD_dist p e (hE e he)).2.2 q hq)

theorem sqrt_polyDD_lip (p q : V2) (hE : ∀ e ∈ E, e.1 ≠ e.2) :
    Real.sqrt (polyDD q E) ≤ Real.sqrt (polyDD p E) + V2.dist p q := by
  rcases (polyDD_spec p E).1 with h | ⟨e, he, h⟩
  · have := Real.sqrt_le_sqrt (polyDD_spec q E).2.1
    rw [h]
    linarith [V2.dist_nonneg p q]
  · obtain ⟨⟨r, hr, hd⟩, _⟩ := (segDD_dist p e (hE e he)).2
    rw [h, ← hd]
    have h1 := sqrt_polyDD_le q r hE ⟨e, he, hr⟩
    have h2 := V2.dist_triangle q p r
    rw [V2.dist_comm q p] at h2
    linarith

theorem sqrt_polyDD_zero (p : V2) (hE : ∀ e ∈ E, e.1 ≠ e.2) :
    Real.sqrt (polyDD p E) = 0 ↔ ∃ e ∈ E, OnSegment e.1 e.2 p := by
  constructor
  · intro h
    rcases (polyDD_spec p E).1 with h1 | ⟨e, he, h1⟩
    · rw [h1] at h
      have := Real.sqrt_pos.mpr maxFloat64_pos
      linarith
    · obtain ⟨⟨r, hr, hd⟩, _⟩ := (segDD_dist p e (hE e he)).2
      rw [← h1, h] at hd
      have := V2.dist_eq_zero.mp hd
      rw [this]; exact ⟨e, he, hr⟩
  · intro h
    have := sqrt_polyDD_le p p hE h
    rw [V2.dist_eq_zero.mpr rfl] at this
    exact le_antisymm this (Real.sqrt_nonneg _)

/-- Moving from `p` to `q` without meeting the outline does not change the crossing count. -/
theorem GoodEdges.winding_const (h : GoodEdges v0 v E) (p q : V2)
    (hpath : ∀ t : ℝ, 0 ≤ t → t ≤ 1 → ¬ Outline v (V2.add p (V2.scale t (V2.sub q p)))) :
    (E.map (segWn p)).sum = (E.map (segWn q)).sum := by
  have hpi := Real.pi_pos
  set γ : ℝ → V2 := fun t => V2.add p (V2.scale t (V2.sub q p)) with hγ
  have γ0 : γ 0 = p := by ext <;> simp [hγ, V2.add, V2.scale]
  have γ1 : γ 1 = q := by ext <;> simp [hγ, V2.add, V2.scale, V2.sub]
  have hγc : Continuous fun t => toC (γ t) := by
    have : (fun t => toC (γ t)) = fun t : ℝ => toC p + (t : ℂ) * (toC q - toC p) := by
      funext t
      apply Complex.ext <;> simp [toC, hγ, V2.add, V2.scale, V2.sub]
    rw [this]
    fun_prop
  set W : ℝ → ℝ := fun t => (E.map fun e => seenAngle (γ t) e.1 e.2).sum with hW
  have hcont : ContinuousOn W (Set.Icc 0 1) := by
    have gen : ∀ F : List (V2 × V2), (∀ e ∈ F, e ∈ E) →
        ContinuousOn (fun t => (F.map fun e => seenAngle (γ t) e.1 e.2).sum) (Set.Icc 0 1) := by
      intro F hF
      induction F with
      | nil => simpa using continuousOn_const
      | cons e F ih =>
        simp only [List.map_cons, List.sum_cons]
        refine ContinuousOn.add ?_ (ih fun x hx => hF x (List.mem_cons_of_mem _ hx))
        intro t ht
        have hoff : ¬ OnSegment e.1 e.2 (γ t) := fun hq =>
          hpath t ht.1 ht.2 ((h.outline _).mpr ⟨e, hF e List.mem_cons_self, hq⟩)
        have hslit := ratio_slit hoff
        have hne : toC e.1 - toC (γ t) ≠ 0 := by
          intro h0
          rw [h0, div_zero] at hslit
          simp at hslit
        apply ContinuousAt.continuousWithinAt
        unfold seenAngle
        have h1 : ContinuousAt (fun t => (toC e.2 - toC (γ t)) / (toC e.1 - toC (γ t))) t :=
          ContinuousAt.div (continuousAt_const.sub hγc.continuousAt) (continuousAt_const.sub hγc.continuousAt) hne
        exact ContinuousAt.comp (f := fun t => (toC e.2 - toC (γ t)) / (toC e.1 - toC (γ t))) (g := Complex.arg)
          (Complex.continuousAt_arg hslit) h1
    exact gen E fun _ h => h
  have hval : ∀ t ∈ Set.Icc (0:ℝ) 1, W t = 2 * Real.pi * ((E.map (segWn (γ t))).sum : ℤ) :=
    fun t ht => (h.winding (γ t) (hpath t ht.1 ht.2)).2
  rw [← γ0, ← γ1]
  by_contra hne
  -- an intermediate value that is not a whole number of turns
  obtain ⟨c, hc, hcn⟩ : ∃ c ∈ Set.uIcc (W 0) (W 1), ∀ k : ℤ, c ≠ 2 * Real.pi * k := by
    rw [hval 0 ⟨le_rfl, zero_le_one⟩, hval 1 ⟨zero_le_one, le_rfl⟩]
    generalize (E.map (segWn (γ 0))).sum = m at hne
    generalize (E.map (segWn (γ 1))).sum = n at hne
    have nohalf : ∀ (j k : ℤ), 2 * Real.pi * ((j : ℝ) + 1 / 2) ≠ 2 * Real.pi * k := by
      intro j k h
      have h2 : (j : ℝ) + 1 / 2 = k := mul_left_cancel₀ (by positivity) h
      have h3 : (2 * j + 1 : ℝ) = 2 * k := by linarith
      have h4 : 2 * j + 1 = 2 * k := by exact_mod_cast h3
      omega
    rcases lt_or_gt_of_ne hne with hlt | hlt
    · refine ⟨2 * Real.pi * (m + 1 / 2), ?_, nohalf m⟩
      have : (m : ℝ) + 1 ≤ n := by exact_mod_cast hlt
      rw [Set.mem_uIcc]; left
      constructor <;> nlinarith
    · refine ⟨2 * Real.pi * (n + 1 / 2), ?_, nohalf n⟩
      have : (n : ℝ) + 1 ≤ m := by exact_mod_cast hlt
      rw [Set.mem_uIcc]; right
      constructor <;> nlinarith
  have hIVT := intermediate_value_uIcc (a := (0:ℝ)) (b := 1) (f := W) (by rwa [Set.uIcc_of_le zero_le_one])
  obtain ⟨t, ht, htc⟩ := hIVT hc
  rw [Set.uIcc_of_le zero_le_one] at ht
  exact hcn _ (htc.symm.trans (hval t ht))

/-- Outside the box of the corners nothing is wound around. -/
theorem GoodEdges.winding_outside (h : GoodEdges v0 v E) (b : Box2) (hb : ∀ x ∈ v, b.Contains x) (p : V2)
    (hp : ¬ b.Contains p) : (E.map (segWn p)).sum = 0 := by
  have hE : ∀ e ∈ E, b.Contains e.1 ∧ b.Contains e.2 := by
    intro e he
    refine ⟨hb _ ((h.fst _).mpr (List.mem_map_of_mem he)), ?_⟩
    apply hb
    have hmem : e ∈ sides v := by
      rcases h.sides_eq with hs | hs <;> rw [hs]
      · exact he
      · exact List.mem_append_left _ he
    have := (List.of_mem_zip hmem).2
    exact List.mem_rotate.mp this
  unfold Box2.Contains at hp hE
  by_cases hy1 : p.y < b.lo.y
  · apply List.sum_eq_zero
    intro x hx
    obtain ⟨e, he, rfl⟩ := List.mem_map.mp hx
    have := hE e he
    unfold segWn
    rw [if_neg (fun h => by linarith [h.1, this.1.2.1]), if_neg (fun h => by linarith [h.1, this.2.2.1])]
  by_cases hy2 : b.hi.y < p.y
  · apply List.sum_eq_zero
    intro x hx
    obtain ⟨e, he, rfl⟩ := List.mem_map.mp hx
    have := hE e he
    unfold segWn
    rw [if_neg (fun h => by linarith [h.2.1, this.2.2.2.2]), if_neg (fun h => by linarith [h.2.1, this.1.2.2.2])]
  push Not at hy1 hy2
  by_cases hx2 : b.hi.x < p.x
  · apply List.sum_eq_zero
    intro x hx
    obtain ⟨e, he, rfl⟩ := List.mem_map.mp hx
    obtain ⟨⟨_, _, a1, _⟩, ⟨_, _, b1, _⟩⟩ := hE e he
    have hcr : V2.cross (V2.sub e.1 p) (V2.sub e.2 p) = (e.1.x - p.x) * (e.2.y - p.y) - (e.1.y - p.y) * (e.2.x - p.x) := rfl
    unfold segWn
    generalize V2.cross (V2.sub e.1 p) (V2.sub e.2 p) = c at hcr
    rw [if_neg (fun h => by nlinarith [h.1, h.2.1, h.2.2, mul_pos (sub_pos.mpr (lt_of_le_of_lt a1 hx2)) (sub_pos.mpr h.2.1), mul_nonneg (sub_pos.mpr (lt_of_le_of_lt b1 hx2)).le (sub_nonneg.mpr h.1)]),
      if_neg (fun h => by nlinarith [h.1, h.2.1, h.2.2, mul_pos (sub_pos.mpr (lt_of_le_of_lt b1 hx2)) (sub_pos.mpr h.2.1), mul_nonneg (sub_pos.mpr (lt_of_le_of_lt a1 hx2)).le (sub_nonneg.mpr h.1)])]
  · have hx1 : p.x < b.lo.x := by
      by_contra hc
      exact hp ⟨not_lt.mp hc, hy1, not_lt.mp hx2, hy2⟩
    -- everything is to the right: crossings are the changes of the side of the horizontal through `p`
    have hwn : ∀ e ∈ E, ((segWn p e : ℤ) : ℝ) = (open Classical in if p.y < e.2.y then (1:ℝ) else 0) -
        (open Classical in if p.y < e.1.y then (1:ℝ) else 0) := by
      intro e he
      obtain ⟨⟨a1, _⟩, ⟨b1, _⟩⟩ := hE e he
      have a2 := sub_pos.mpr (lt_of_lt_of_le hx1 a1)
      have b2 := sub_pos.mpr (lt_of_lt_of_le hx1 b1)
      have hcr : V2.cross (V2.sub e.1 p) (V2.sub e.2 p) = (e.1.x - p.x) * (e.2.y - p.y) - (e.1.y - p.y) * (e.2.x - p.x) := rfl
      unfold segWn
      generalize V2.cross (V2.sub e.1 p) (V2.sub e.2 p) = c at hcr
      by_cases hA : p.y < e.1.y <;> by_cases hB : p.y < e.2.y
      · rw [if_neg (fun h => by linarith [h.1]), if_neg (fun h => by linarith [h.1]), if_pos hB, if_pos hA]; simp
      · rw [if_neg (fun h => by linarith [h.1]), if_pos ⟨not_lt.mp hB, hA, by
          nlinarith [mul_pos b2 (sub_pos.mpr hA), mul_nonneg a2.le (sub_nonneg.mpr (not_lt.mp hB))]⟩, if_neg hB, if_pos hA]
        simp
      · rw [if_pos ⟨not_lt.mp hA, hB, by
          nlinarith [mul_pos a2 (sub_pos.mpr hB), mul_nonneg b2.le (sub_nonneg.mpr (not_lt.mp hA))]⟩, if_pos hB, if_neg hA]
        simp
      · rw [if_neg (fun h => hB h.2.1), if_neg (fun h => hA h.2.1), if_neg hB, if_neg hA]; simp
    have hc := h.closed (fun x => open Classical in if p.y < x.y then (1:ℝ) else 0)
    have : (((E.map (segWn p)).sum : ℤ) : ℝ) = 0 := by
      rw [← hc]
      have gen : ∀ F : List (V2 × V2), (∀ e ∈ F, e ∈ E) → (((F.map (segWn p)).sum : ℤ) : ℝ) =
          (F.map fun e => (open Classical in if p.y < e.2.y then (1:ℝ) else 0) -
            (open Classical in if p.y < e.1.y then (1:ℝ) else 0)).sum := by
        intro F hF
        induction F with
        | nil => simp
        | cons e F ih =>
          simp only [List.map_cons, List.sum_cons]
          rw [Int.cast_add, hwn e (hF e List.mem_cons_self), ih fun x hx => hF x (List.mem_cons_of_mem _ hx)]
      exact gen E fun _ h => h
    exact_mod_cast this

end Must2
end Sdf
