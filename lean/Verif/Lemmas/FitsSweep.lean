import Verif.Lemmas.FitsOps

/-! Arrays, sweeps and slices preserve `Fits3`, `Fits2` and `Bounded`. -/

namespace Sdf

theorem foldl_invariant {α β : Type} (P : β → Prop) (F : β → α → β) (l : List α) (h : ∀ d, P d → ∀ a ∈ l, P (F d a)) {d : β}
    (hd : P d) : P (l.foldl F d) := by
  induction l generalizing d with
  | nil => exact hd
  | cons a l ih =>
    rw [List.foldl_cons]
    exact ih (fun d hd b hb => h d hd b (List.mem_cons_of_mem _ hb)) (h d hd a List.mem_cons_self)

theorem min_of {P : ℝ → Prop} {a b : ℝ} (ha : P a) (hb : P b) : P (min a b) := by
  rcases min_choice a b with h | h <;> rw [h] <;> assumption

/-! Arrays. -/

theorem Fits3.array {A : V3 → Prop} {c : ℝ} {s : SDF3} (hs : Fits3 A c s) (hc : c ≤ maxFloat64) (n0 n1 n2 : ℤ) (step : V3) :
    Fits3 A c (s.array n0 n1 n2 step) := by
  by_cases hn : n0 ≤ 0 ∨ n1 ≤ 0 ∨ n2 ≤ 0
  · unfold SDF3.array SDF3.arrayWith
    rw [if_pos hn]
    exact Fits3.empty hc _
  · intro u hu p
    have hb := C22_array3_bounds s n0 n1 n2 step
    set t := s.array n0 n1 n2 step with ht
    have he : t.eval p = SDF3.arrayEval min s n0.toNat n1.toNat n2.toNat step p := by
      rw [ht]; unfold SDF3.array SDF3.arrayWith; rw [if_neg hn]
    rw [he]
    set P : ℝ → Prop := fun d => ∃ q, t.bounds.Contains q ∧ min (V3.dot u (V3.sub p q)) c ≤ d with hP
    show P _
    obtain ⟨q0, hq0, _⟩ := hs u hu p
    have hpos : 0 < n0 ∧ 0 < n1 ∧ 0 < n2 := by push Not at hn; exact hn
    refine foldl_invariant P _ _ (fun d hd j hj => ?_)
      ⟨_, hb 0 0 0 (by simpa using hpos.1) (by simpa using hpos.2.1) (by simpa using hpos.2.2) q0 hq0, (min_le_right _ _).trans hc⟩
    refine foldl_invariant P _ _ (fun d hd k hk => ?_) hd
    refine foldl_invariant P _ _ (fun d hd l hl => ?_) hd
    rw [List.mem_range] at hj hk hl
    refine min_of hd ?_
    obtain ⟨q, hq, h⟩ := hs u hu (V3.sub p ⟨(j : ℝ) * step.x, (k : ℝ) * step.y, (l : ℝ) * step.z⟩)
    refine ⟨_, hb j k l (by omega) (by omega) (by omega) q hq, le_trans (le_of_eq ?_) h⟩
    congr 1
    simp only [V3.dot, V3.sub, V3.add]; ring

theorem Fits2.array {A : V2 → Prop} {c : ℝ} {s : SDF2} (hs : Fits2 A c s) (hc : c ≤ maxFloat64) (n0 n1 : ℤ) (step : V2) :
    Fits2 A c (s.array n0 n1 step) := by
  by_cases hn : n0 ≤ 0 ∨ n1 ≤ 0
  · unfold SDF2.array SDF2.arrayWith
    rw [if_pos hn]
    exact Fits2.empty hc _
  · intro u hu p
    have hb := C22_array2_bounds s n0 n1 step
    set t := s.array n0 n1 step with ht
    have he : t.eval p = SDF2.arrayEval min s n0.toNat n1.toNat step p := by
      rw [ht]; unfold SDF2.array SDF2.arrayWith; rw [if_neg hn]
    rw [he]
    set P : ℝ → Prop := fun d => ∃ q, t.bounds.Contains q ∧ min (V2.dot u (V2.sub p q)) c ≤ d with hP
    show P _
    obtain ⟨q0, hq0, _⟩ := hs u hu p
    have hpos : 0 < n0 ∧ 0 < n1 := by push Not at hn; exact hn
    refine foldl_invariant P _ _ (fun d hd j hj => ?_)
      ⟨_, hb 0 0 (by simpa using hpos.1) (by simpa using hpos.2) q0 hq0, (min_le_right _ _).trans hc⟩
    refine foldl_invariant P _ _ (fun d hd k hk => ?_) hd
    rw [List.mem_range] at hj hk
    refine min_of hd ?_
    obtain ⟨q, hq, h⟩ := hs u hu (V2.sub p ⟨(j : ℝ) * step.x, (k : ℝ) * step.y⟩)
    refine ⟨_, hb j k (by omega) (by omega) q hq, le_trans (le_of_eq ?_) h⟩
    congr 1
    simp only [V2.dot, V2.sub, V2.add]; ring

theorem SDF3.Bounded.array {s : SDF3} (hs : s.Bounded) (n0 n1 n2 : ℤ) (step : V3) : (s.array n0 n1 n2 step).Bounded := by
  intro p hp
  rw [C22_array3 _ _ _ _ _ _ _ maxFloat64_pos.le] at hp
  obtain ⟨j, k, l, hj, hk, hl, q, h, rfl⟩ := hp
  exact C22_array3_bounds s n0 n1 n2 step j k l hj hk hl _ (hs _ h)

theorem SDF2.Bounded.array {s : SDF2} (hs : s.Bounded) (n0 n1 : ℤ) (step : V2) : (s.array n0 n1 step).Bounded := by
  intro p hp
  rw [C22_array2 _ _ _ _ _ _ maxFloat64_pos.le] at hp
  obtain ⟨j, k, hj, hk, q, h, rfl⟩ := hp
  exact C22_array2_bounds s n0 n1 step j k hj hk _ (hs _ h)

/-! Rotational unions. -/

theorem iterate_inverse {α : Type} {f g : α → α} (h : ∀ x, f (g x) = x) (i : ℕ) (x : α) : f^[i] (g^[i] x) = x := by
  induction i generalizing x with
  | zero => rfl
  | succ i ih => rw [Function.iterate_succ_apply', Function.iterate_succ_apply, ih, h]

theorem rotateUnionLoop3_invariant (P : ℝ → Prop) (s : SDF3) (step : M44) (hs : step.Affine) (p : V3) (n : ℕ) (rot : M44) (d : ℝ)
    (hd : P d) (h : ∀ i < n, P (s.eval (rot.mulPosition (step.mulPosition^[i] p)))) :
    P (SDF3.rotateUnionLoop min s step p n rot d) := by
  induction n generalizing rot d with
  | zero => exact hd
  | succ n ih =>
    rw [SDF3.rotateUnionLoop]
    refine ih _ _ (min_of hd (h 0 (by omega))) fun i hi => ?_
    rw [M44.mulPosition_mul hs, ← Function.iterate_succ_apply' (f := step.mulPosition)]
    exact h (i + 1) (by omega)

theorem rotateUnionLoop2_invariant (P : ℝ → Prop) (s : SDF2) (step : M33) (hs : step.Affine) (p : V2) (n : ℕ) (rot : M33) (d : ℝ)
    (hd : P d) (h : ∀ i < n, P (s.eval (rot.mulPosition (step.mulPosition^[i] p)))) :
    P (SDF2.rotateUnionLoop min s step p n rot d) := by
  induction n generalizing rot d with
  | zero => exact hd
  | succ n ih =>
    rw [SDF2.rotateUnionLoop]
    refine ih _ _ (min_of hd (h 0 (by omega))) fun i hi => ?_
    rw [M33.mulPosition_mul hs, ← Function.iterate_succ_apply' (f := step.mulPosition)]
    exact h (i + 1) (by omega)

theorem Fits3.rotateUnion {c : ℝ} {s : SDF3} (hs : Fits3 Unit3 c s) (hc : c ≤ maxFloat64) (n : ℤ) {m : M44} (hm : m.Rigid) :
    Fits3 Unit3 c (s.rotateUnion n m) := by
  by_cases hn : n ≤ 0
  · unfold SDF3.rotateUnion SDF3.rotateUnionWith
    rw [if_pos hn]
    exact Fits3.empty hc _
  · intro u hu p
    have hd : m.det ≠ 0 := by rw [M44.det_eq]; exact hm.2.1
    have hb := C22_rotateUnion3_bounds s n m hm.1
    set t := s.rotateUnion n m with ht
    have he : t.eval p = SDF3.rotateUnionLoop min s m.inverse p n.toNat M44.identity maxFloat64 := by
      rw [ht]; unfold SDF3.rotateUnion SDF3.rotateUnionWith; rw [if_neg hn]
    rw [he]
    obtain ⟨q0, hq0, _⟩ := hs u hu p
    refine rotateUnionLoop3_invariant (fun d => ∃ q, t.bounds.Contains q ∧ min (V3.dot u (V3.sub p q)) c ≤ d) s _
      (M44.affine_inverse hm.1 hd) p _ _ _ ⟨_, hb 0 (by push_cast; omega) q0 hq0, (min_le_right _ _).trans hc⟩ fun i hi => ?_
    rw [M44.identity_mulPosition]
    obtain ⟨a, ha, e⟩ := M44.exists_iterate m hm.1 i
    have hiso : a.Isometry := by
      intro x y
      rw [← e]
      clear e hi
      induction i with
      | zero => rfl
      | succ i ih => rw [Function.iterate_succ_apply', Function.iterate_succ_apply', hm.2.2, ih]
    obtain ⟨q, hq, h⟩ := hs _ (hiso.pull_unit hu) (m.inverse.mulPosition^[i] p)
    refine ⟨_, hb i (by omega) q hq, ?_⟩
    rw [← M44.dot_pull, ← e, iterate_inverse (fun x => M44.mulPosition_inverse hm.1 hd x)] at h
    exact h

theorem Fits2.rotateUnion {c : ℝ} {s : SDF2} (hs : Fits2 Unit2 c s) (hc : c ≤ maxFloat64) (n : ℤ) {m : M33} (hm : m.Rigid) :
    Fits2 Unit2 c (s.rotateUnion n m) := by
  by_cases hn : n ≤ 0
  · unfold SDF2.rotateUnion SDF2.rotateUnionWith
    rw [if_pos hn]
    exact Fits2.empty hc _
  · intro u hu p
    have hd : m.det ≠ 0 := by rw [M33.det_eq]; exact hm.2.1
    have hb := C22_rotateUnion2_bounds s n m hm.1
    set t := s.rotateUnion n m with ht
    have he : t.eval p = SDF2.rotateUnionLoop min s m.inverse p n.toNat M33.identity maxFloat64 := by
      rw [ht]; unfold SDF2.rotateUnion SDF2.rotateUnionWith; rw [if_neg hn]
    rw [he]
    obtain ⟨q0, hq0, _⟩ := hs u hu p
    refine rotateUnionLoop2_invariant (fun d => ∃ q, t.bounds.Contains q ∧ min (V2.dot u (V2.sub p q)) c ≤ d) s _
      (M33.affine_inverse hm.1 hd) p _ _ _ ⟨_, hb 0 (by push_cast; omega) q0 hq0, (min_le_right _ _).trans hc⟩ fun i hi => ?_
    rw [M33.identity_mulPosition]
    obtain ⟨a, ha, e⟩ := M33.exists_iterate m hm.1 i
    have hiso : a.Isometry := by
      intro x y
      rw [← e]
      clear e hi
      induction i with
      | zero => rfl
      | succ i ih => rw [Function.iterate_succ_apply', Function.iterate_succ_apply', hm.2.2, ih]
    obtain ⟨q, hq, h⟩ := hs _ (hiso.pull_unit hu) (m.inverse.mulPosition^[i] p)
    refine ⟨_, hb i (by omega) q hq, ?_⟩
    rw [← M33.dot_pull, ← e, iterate_inverse (fun x => M33.mulPosition_inverse hm.1 hd x)] at h
    exact h

theorem SDF3.Bounded.rotateUnion {s : SDF3} (hs : s.Bounded) (n : ℤ) {m : M44} (ha : m.Affine) (hd : m.toMatrix.det ≠ 0) :
    (s.rotateUnion n m).Bounded := by
  intro p hp
  rw [C22_rotateUnion3 s n m ha hd p 0 maxFloat64_pos.le] at hp
  obtain ⟨i, hi, q, h, rfl⟩ := hp
  exact C22_rotateUnion3_bounds s n m ha i hi q (hs q h)

theorem SDF2.Bounded.rotateUnion {s : SDF2} (hs : s.Bounded) (n : ℤ) {m : M33} (ha : m.Affine) (hd : m.toMatrix.det ≠ 0) :
    (s.rotateUnion n m).Bounded := by
  intro p hp
  rw [C22_rotateUnion2 s n m ha hd p 0 maxFloat64_pos.le] at hp
  obtain ⟨i, hi, q, h, rfl⟩ := hp
  exact C22_rotateUnion2_bounds s n m ha i hi q (hs q h)

/-! Elongation. -/

theorem elongate3_contains (s : SDF3) (h p q : V3) (hq : s.bounds.Contains q) :
    (s.elongate h).bounds.Contains (V3.add q (V3.clamp p (V3.scale (-0.5) (V3.absElem h)) (V3.scale 0.5 (V3.absElem h)))) := by
  have key : ∀ x a : ℝ, -0.5 * |a| ≤ V2.clamp1 x (-0.5 * |a|) (0.5 * |a|) ∧ V2.clamp1 x (-0.5 * |a|) (0.5 * |a|) ≤ 0.5 * |a| := by
    intro x a
    have := abs_nonneg a
    unfold V2.clamp1
    norm_num
  obtain ⟨a1, a2, a3, a4, a5, a6⟩ := hq
  have hx := key p.x h.x
  have hy := key p.y h.y
  have hz := key p.z h.z
  simp only [SDF3.elongate, Box3.Contains, Box3.extend, Box3.translate, V3.minElem, V3.maxElem, V3.add, V3.clamp, V3.scale, V3.absElem]
  refine ⟨(min_le_right _ _).trans ?_, (min_le_right _ _).trans ?_, (min_le_right _ _).trans ?_, le_trans ?_ (le_max_left _ _),
    le_trans ?_ (le_max_left _ _), le_trans ?_ (le_max_left _ _)⟩ <;> linarith [hx.1, hx.2, hy.1, hy.2, hz.1, hz.2]

theorem elongate2_contains (s : SDF2) (h p q : V2) (hq : s.bounds.Contains q) :
    (s.elongate h).bounds.Contains (V2.add q (V2.clamp p (V2.scale 0.5 (V2.absElem h)) (V2.scale 0.5 (V2.absElem h)))) := by
  have e : ∀ x a : ℝ, V2.clamp1 x a a = a := fun x a => min_eq_left (le_max_right _ _)
  obtain ⟨a1, a2, a4, a5⟩ := hq
  simp only [SDF2.elongate, Box2.Contains, Box2.extend, Box2.translate, V2.minElem, V2.maxElem, V2.add, V2.clamp, V2.scale, V2.absElem, e]
  refine ⟨(min_le_right _ _).trans ?_, (min_le_right _ _).trans ?_, le_trans ?_ (le_max_left _ _),
    le_trans ?_ (le_max_left _ _)⟩ <;> linarith

theorem Fits3.elongate {A : V3 → Prop} {c : ℝ} {s : SDF3} (hs : Fits3 A c s) (h : V3) : Fits3 A c (s.elongate h) := by
  intro u hu p
  obtain ⟨q, hq, hle⟩ := hs u hu (V3.sub p (V3.clamp p (V3.scale (-0.5) (V3.absElem h)) (V3.scale 0.5 (V3.absElem h))))
  refine ⟨_, elongate3_contains s h p q hq, le_trans (le_of_eq ?_) hle⟩
  congr 1
  simp only [V3.dot, V3.sub, V3.add]; ring

theorem Fits2.elongate {A : V2 → Prop} {c : ℝ} {s : SDF2} (hs : Fits2 A c s) (h : V2) : Fits2 A c (s.elongate h) := by
  intro u hu p
  obtain ⟨q, hq, hle⟩ := hs u hu (V2.sub p (V2.clamp p (V2.scale 0.5 (V2.absElem h)) (V2.scale 0.5 (V2.absElem h))))
  refine ⟨_, elongate2_contains s h p q hq, le_trans (le_of_eq ?_) hle⟩
  congr 1
  simp only [V2.dot, V2.sub, V2.add]; ring

theorem SDF2.Bounded.elongate {s : SDF2} (hs : s.Bounded) (h : V2) : (s.elongate h).Bounded := by
  intro p hp
  have := elongate2_contains s h p _ (hs _ hp)
  have e : ∀ a b : V2, V2.add (V2.sub a b) b = a := fun a b => by ext <;> simp [V2.add, V2.sub]
  rwa [e] at this

end Sdf
