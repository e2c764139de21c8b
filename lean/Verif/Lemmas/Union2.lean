import Verif.Model.Combine2
import Verif.Lemmas.BoxDist
import Verif.Spec.Shape

/-! Helper lemmas about the pruned evaluation of `Union2D`. -/

namespace Sdf
namespace SDF2

theorem nearestBox_spec (vs : List V2) (i : ℕ) (best : ℝ) (idx : ℕ) (hv : ∀ v ∈ vs, 0 ≤ v.x) :
    (∃ j, ∃ v, vs[j]? = some v ∧ nearestBox vs i best idx = i + j ∧ (∀ w ∈ vs, v.x ≤ w.x) ∧
      (best < 0 ∨ v.x < best)) ∨
    (nearestBox vs i best idx = idx ∧ (vs = [] ∨ 0 ≤ best) ∧ ∀ w ∈ vs, best ≤ w.x) := by
  induction vs generalizing i best idx with
  | nil => right; simp [nearestBox]
  | cons v vs ih =>
    have hv' : ∀ w ∈ vs, 0 ≤ w.x := fun w hw => hv w (List.mem_cons_of_mem _ hw)
    have hv0 : 0 ≤ v.x := hv v List.mem_cons_self
    unfold nearestBox
    by_cases hb : best < 0 ∨ v.x < best
    · rw [if_pos hb]
      rcases ih (i + 1) v.x i hv' with ⟨j, w, h1, h2, h3, h4⟩ | ⟨h1, h2, h3⟩
      · left
        refine ⟨j + 1, w, by simpa using h1, by omega, ?_, ?_⟩
        · intro u hu
          rcases List.mem_cons.mp hu with rfl | hu
          · rcases h4 with h4 | h4
            · linarith
            · exact h4.le
          · exact h3 u hu
        · rcases hb with hb | hb
          · left; exact hb
          · right
            rcases h4 with h4 | h4 <;> linarith
      · left
        refine ⟨0, v, rfl, by omega, ?_, hb⟩
        intro u hu
        rcases List.mem_cons.mp hu with rfl | hu
        · exact le_rfl
        · exact h3 u hu
    · rw [if_neg hb]
      push Not at hb
      rcases ih (i + 1) best idx hv' with ⟨j, w, h1, h2, h3, h4⟩ | ⟨h1, h2, h3⟩
      · left
        refine ⟨j + 1, w, by simpa using h1, by omega, ?_, h4⟩
        intro u hu
        rcases List.mem_cons.mp hu with rfl | hu
        · rcases h4 with h4 | h4
          · linarith [hb.1]
          · linarith [hb.2]
        · exact h3 u hu
      · right
        refine ⟨h1, Or.inr hb.1, ?_⟩
        intro u hu
        rcases List.mem_cons.mp hu with rfl | hu
        · exact hb.2
        · exact h3 u hu

theorem prunedLoop_spec (p near : V2) (idx : ℕ) (l : List (SDF2 × V2)) (i : ℕ) (d : Option ℝ) :
    (∀ r, prunedLoop min p near idx l i d = some r →
      (d = some r ∨ ∃ sv ∈ l, sv.1.eval p = r) ∧ (∀ d', d = some d' → r ≤ d') ∧
      (∀ j sv, l[j]? = some sv → (i + j = idx ∨ V2.Overlap near sv.2) → r ≤ sv.1.eval p)) ∧
    (prunedLoop min p near idx l i d = none → d = none ∧
      ∀ j sv, l[j]? = some sv → ¬ (i + j = idx ∨ V2.Overlap near sv.2)) := by
  induction l generalizing i d with
  | nil =>
    refine ⟨fun r hr => ⟨Or.inl hr, fun d' hd' => ?_, fun j sv h => by simp at h⟩, fun h => ⟨h, fun j sv h => by simp at h⟩⟩
    simp only [prunedLoop] at hr
    rw [hr] at hd'; cases hd'; exact le_rfl
  | cons sv l ih =>
    obtain ⟨s, v⟩ := sv
    unfold prunedLoop
    by_cases hk : i = idx ∨ V2.Overlap near v
    · rw [if_pos hk]
      set x := s.eval p with hx
      set d1 : ℝ := (match d with | none => x | some d => min d x) with hd1
      have hle : d1 ≤ x := by
        rw [hd1]; cases d with
        | none => exact le_rfl
        | some d => exact min_le_right _ _
      obtain ⟨h1, h2⟩ := ih (i + 1) (some d1)
      refine ⟨fun r hr => ?_, fun h => absurd (h2 h).1 (by simp)⟩
      obtain ⟨a, b, c⟩ := h1 r hr
      refine ⟨?_, ?_, ?_⟩
      · rcases a with a | ⟨sv, hsv, e⟩
        · have a : d1 = r := by injection a
          rw [hd1] at a
          cases d with
          | none => right; exact ⟨(s, v), List.mem_cons_self, a⟩
          | some d =>
            rcases min_choice d x with e | e
            · left; simp only at a; rw [e] at a; rw [a]
            · right; simp only at a; rw [e] at a; exact ⟨(s, v), List.mem_cons_self, a⟩
        · right; exact ⟨sv, List.mem_cons_of_mem _ hsv, e⟩
      · intro d' hd'
        have := b d1 rfl
        subst hd'
        exact le_trans this (min_le_left _ _)
      · intro j sv hj hkeep
        cases j with
        | zero =>
          simp only [List.getElem?_cons_zero, Option.some.injEq] at hj
          subst hj
          exact le_trans (b d1 rfl) hle
        | succ j =>
          simp only [List.getElem?_cons_succ] at hj
          apply c j sv hj
          rcases hkeep with h | h
          · left; omega
          · right; exact h
    · rw [if_neg hk]
      obtain ⟨h1, h2⟩ := ih (i + 1) d
      refine ⟨fun r hr => ?_, fun h => ⟨(h2 h).1, ?_⟩⟩
      · obtain ⟨a, b, c⟩ := h1 r hr
        refine ⟨?_, b, ?_⟩
        · rcases a with a | ⟨sv, hsv, e⟩
          · left; exact a
          · right; exact ⟨sv, List.mem_cons_of_mem _ hsv, e⟩
        · intro j sv hj hkeep
          cases j with
          | zero =>
            simp only [List.getElem?_cons_zero, Option.some.injEq] at hj
            subst hj
            exact absurd hkeep (by simpa using hk)
          | succ j =>
            simp only [List.getElem?_cons_succ] at hj
            apply c j sv hj
            rcases hkeep with h | h
            · left; omega
            · right; exact h
      · intro j sv hj hkeep
        cases j with
        | zero =>
          simp only [List.getElem?_cons_zero, Option.some.injEq] at hj
          subst hj
          exact absurd hkeep (by simpa using hk)
        | succ j =>
          simp only [List.getElem?_cons_succ] at hj
          apply (h2 h).2 j sv hj
          rcases hkeep with h | h
          · left; omega
          · right; exact h

theorem minMaxDist2_nonneg (b : Box2) (p : V2) : 0 ≤ (b.minMaxDist2 p).x := by
  rw [Box2.minMaxDist2_eq]; exact add_nonneg (near1_nonneg _ _) (near1_nonneg _ _)

theorem minMaxDist2_nonneg' (b : Box2) (p : V2) : 0 ≤ (b.minMaxDist2 p).y := by
  rw [Box2.minMaxDist2_eq]; exact add_nonneg (far1_nonneg _ _) (far1_nonneg _ _)

theorem minMaxDist2_le (b : Box2) (p : V2) : (b.minMaxDist2 p).x ≤ (b.minMaxDist2 p).y := by
  rw [Box2.minMaxDist2_eq]
  have : ∀ l h, near1 l h ≤ far1 l h := by
    intro l h; unfold near1 far1
    split
    · exact le_max_of_le_left (mul_self_nonneg _)
    · exact le_trans (min_le_left _ _) (le_max_left _ _)
  exact add_le_add (this _ _) (this _ _)

/-- The pruned evaluation returns the value of one of the operands, and a lower bound of the values of all the
operands that are not pruned; the operand `n` of the nearest box is among these. -/
theorem unionEval_spec (s0 : SDF2) (l : List SDF2) (p : V2) :
    (∃ s ∈ s0 :: l, s.eval p = unionEval min (s0 :: l) p) ∧
    ∃ n ∈ s0 :: l, (∀ s ∈ s0 :: l, (n.bounds.minMaxDist2 p).x ≤ (s.bounds.minMaxDist2 p).x) ∧
      unionEval min (s0 :: l) p ≤ n.eval p ∧
      ∀ s ∈ s0 :: l, (s.bounds.minMaxDist2 p).x ≤ (n.bounds.minMaxDist2 p).y →
        unionEval min (s0 :: l) p ≤ s.eval p := by
  set L := s0 :: l with hL
  set f : SDF2 → V2 := fun s => s.bounds.minMaxDist2 p with hf
  have hpos : ∀ v ∈ L.map f, 0 ≤ v.x := by
    intro v hv
    obtain ⟨s, _, rfl⟩ := List.mem_map.mp hv
    exact minMaxDist2_nonneg _ _
  have hns := nearestBox_spec (L.map f) 0 (-1) 0 hpos
  rcases hns with ⟨j, v, hj, hidx, hmin, _⟩ | ⟨_, h, _⟩
  swap
  · rcases h with h | h
    · simp [hL] at h
    · norm_num at h
  rw [zero_add] at hidx
  have hjv : (L.map f).getD j ⟨0, 0⟩ = v := by simp [List.getD, hj]
  obtain ⟨n, hn, hnv⟩ : ∃ n, L[j]? = some n ∧ f n = v := by
    rw [List.getElem?_map] at hj
    cases h : L[j]? with
    | none => simp [h] at hj
    | some n => exact ⟨n, rfl, by simpa [h] using hj⟩
  have hzip : ∀ (k : ℕ) (s : SDF2), L[k]? = some s → (L.zip (L.map f))[k]? = some (s, f s) := by
    intro k s hk
    rw [List.getElem?_zip_eq_some]
    exact ⟨hk, by rw [List.getElem?_map, hk]; rfl⟩
  have hzip' : ∀ sv ∈ L.zip (L.map f), sv.1 ∈ L := by
    intro sv hsv
    exact (List.of_mem_zip (a := sv.1) (b := sv.2) hsv).1
  have hps := prunedLoop_spec p v j (L.zip (L.map f)) 0 none
  have hE : unionEval min L p = (prunedLoop min p v j (L.zip (L.map f)) 0 none).getD 0 := by
    unfold unionEval
    simp only [← hf]
    rw [hidx, hjv]
  cases hr : prunedLoop min p v j (L.zip (L.map f)) 0 none with
  | none =>
    exact absurd (Or.inl (zero_add j)) ((hps.2 hr).2 j (n, f n) (hzip j n hn))
  | some r =>
    rw [hr] at hE
    simp only [Option.getD_some] at hE
    rw [hE]
    obtain ⟨a, _, c⟩ := hps.1 r hr
    refine ⟨?_, n, List.mem_of_getElem? hn, ?_, ?_, ?_⟩
    · rcases a with a | ⟨sv, hsv, e⟩
      · cases a
      · exact ⟨sv.1, hzip' sv hsv, e⟩
    · intro s hs
      have := hmin (f s) (List.mem_map_of_mem hs)
      rw [← hnv] at this
      exact this
    · exact c j (n, f n) (hzip j n hn) (Or.inl (zero_add j))
    · intro s hs hle
      obtain ⟨k, hk⟩ := List.mem_iff_getElem?.mp hs
      apply c k (s, f s) (hzip k s hk)
      right
      rw [← hnv]
      refine ⟨hle, ?_⟩
      have h1 := hmin (f s) (List.mem_map_of_mem hs)
      rw [← hnv] at h1
      exact le_trans h1 (minMaxDist2_le _ _)

theorem foldl_min_spec {α : Type} (f : α → ℝ) (l : List α) (d : ℝ) :
    let r := l.foldl (fun d x => min d (f x)) d
    (r = d ∨ ∃ x ∈ l, r = f x) ∧ r ≤ d ∧ ∀ x ∈ l, r ≤ f x := by
  induction l generalizing d with
  | nil => simp
  | cons a l ih =>
    simp only [List.foldl_cons]
    obtain ⟨h1, h2, h3⟩ := ih (min d (f a))
    refine ⟨?_, le_trans h2 (min_le_left _ _), ?_⟩
    · rcases h1 with h1 | ⟨x, hx, h1⟩
      · rw [h1]
        rcases min_choice d (f a) with e | e
        · left; exact e
        · right; exact ⟨a, List.mem_cons_self, e⟩
      · right; exact ⟨x, List.mem_cons_of_mem _ hx, h1⟩
    · intro x hx
      rcases List.mem_cons.mp hx with rfl | hx
      · exact le_trans h2 (min_le_right _ _)
      · exact h3 x hx

end SDF2
end Sdf
