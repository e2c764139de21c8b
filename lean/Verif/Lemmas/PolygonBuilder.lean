import Verif.Model.PolygonBuilder
import Verif.Lemmas.Vec
import Mathlib.Data.List.Basic

/-! Helper lemmas about the polygon builder. -/

namespace Sdf
namespace Must2

theorem split_at {α : Type} {l : List α} {i : ℕ} {v : α} (h : l[i]? = some v) :
    ∃ A B, l = A ++ v :: B ∧ A.length = i := by
  obtain ⟨hi, hv⟩ := List.getElem?_eq_some_iff.mp h
  refine ⟨l.take i, l.drop (i + 1), ?_, by simp; omega⟩
  rw [← hv, List.getElem_cons_drop hi, List.take_append_drop]

theorem rotatePoints_normal (m : M22) (c : V2) (n : ℕ) (rv : V2) : ∀ v ∈ rotatePoints m c n rv, v.relative = false ∧ v.vtype = .normal := by
  induction n generalizing rv with
  | zero => simp [rotatePoints]
  | succ n ih =>
    intro v hv
    rw [rotatePoints, List.mem_cons] at hv
    rcases hv with rfl | hv
    · exact ⟨rfl, rfl⟩
    · exact ih _ v hv

theorem rotatePoints_length (m : M22) (c : V2) (n : ℕ) (rv : V2) : (rotatePoints m c n rv).length = n := by
  induction n generalizing rv with
  | zero => rfl
  | succ n ih => simp [rotatePoints, ih]

/-- The number of vertices of type `τ`. -/
def Builder.cnt (b : Builder) (τ : PVType) : ℕ := b.vlist.countP (fun v => v.vtype = τ)

theorem countP_normal {l : List PV} (h : ∀ v ∈ l, v.relative = false ∧ v.vtype = .normal) (τ : PVType) (hτ : τ ≠ .normal) :
    l.countP (fun v => v.vtype = τ) = 0 := by
  rw [List.countP_eq_zero]
  intro v hv
  rw [(h v hv).2]
  simpa using Ne.symm hτ

/-- What one `arcVertex` does. -/
theorem arcVertex_cases {b b' : Builder} {i : ℕ} {r : Bool} (h : b.arcVertex i = some (b', r)) :
    ∃ A v B, b.vlist = A ++ v :: B ∧ A.length = i ∧ b'.closed = b.closed ∧ b'.reverse = b.reverse ∧ b'.isNil = b.isNil ∧
      ((v.vtype ≠ .arc ∧ b' = b ∧ r = false) ∨
       (v.vtype = .arc ∧ r = false ∧ b'.vlist = A ++ { v with vtype := PVType.normal } :: B) ∨
       (v.vtype = .arc ∧ r = true ∧ 1 ≤ v.facets ∧ ∃ pv, b'.vlist = A ++ (arcPoints pv v.vertex v.radius v.facets ++ { v with vtype := PVType.normal } :: B))) := by
  unfold Builder.arcVertex at h
  split at h
  · simp at h
  · rename_i v hv
    obtain ⟨A, B, hl, hA⟩ := split_at hv
    refine ⟨A, v, B, hl, hA, ?_⟩
    split at h
    · rename_i hne
      simp only [Option.some.injEq, Prod.mk.injEq] at h
      obtain ⟨rfl, rfl⟩ := h
      exact ⟨rfl, rfl, rfl, Or.inl ⟨hne, rfl, rfl⟩⟩
    · rename_i hne
      have hne : v.vtype = .arc := not_not.mp hne
      have hset : b.vlist.set i { v with vtype := PVType.normal } = A ++ { v with vtype := PVType.normal } :: B := by
        rw [hl, List.set_append_right _ _ (by omega), hA]; simp
      simp only [hset] at h
      split at h
      · simp only [Option.some.injEq, Prod.mk.injEq] at h
        obtain ⟨rfl, rfl⟩ := h
        exact ⟨rfl, rfl, rfl, Or.inr (Or.inl ⟨hne, rfl, rfl⟩)⟩
      · rename_i pv hpv
        split at h
        · simp at h
        · rename_i hf
          simp only [Option.some.injEq, Prod.mk.injEq] at h
          obtain ⟨rfl, rfl⟩ := h
          refine ⟨rfl, rfl, rfl, Or.inr (Or.inr ⟨hne, rfl, by omega, pv.vertex, ?_⟩)⟩
          simp only
          rw [List.take_left' hA, List.drop_left' hA]

/-- What one `smoothVertex` does. -/
theorem smoothVertex_cases {b b' : Builder} {i : ℕ} {r : Bool} (h : b.smoothVertex i = some (b', r)) :
    ∃ A v B, b.vlist = A ++ v :: B ∧ A.length = i ∧
      ((b' = b ∧ r = false) ∨
       (v.vtype = .smooth ∧ r = true ∧ -1 ≤ v.facets ∧ b'.closed = b.closed ∧ b'.reverse = b.reverse ∧ b'.isNil = b.isNil ∧
        ∃ vp vn pts, smoothPoints vp v.vertex vn v.radius v.facets = some pts ∧ b'.vlist = A ++ (pts ++ B))) := by
  unfold Builder.smoothVertex at h
  split at h
  · simp at h
  · rename_i v hv
    obtain ⟨A, B, hl, hA⟩ := split_at hv
    refine ⟨A, v, B, hl, hA, ?_⟩
    split at h
    · simp only [Option.some.injEq, Prod.mk.injEq] at h
      obtain ⟨rfl, rfl⟩ := h
      exact Or.inl ⟨rfl, rfl⟩
    · rename_i hne
      have hne : v.vtype = .smooth := not_not.mp hne
      split at h
      · rename_i vp vn hvp hvn
        split at h
        · simp only [Option.some.injEq, Prod.mk.injEq] at h
          obtain ⟨rfl, rfl⟩ := h
          exact Or.inl ⟨rfl, rfl⟩
        · rename_i pts hpts
          split at h
          · simp at h
          · rename_i hf
            simp only [Option.some.injEq, Prod.mk.injEq] at h
            obtain ⟨rfl, rfl⟩ := h
            refine Or.inr ⟨hne, rfl, by omega, rfl, rfl, rfl, vp.vertex, vn.vertex, pts, hpts, ?_⟩
            simp only
            rw [hl, List.take_left' hA]
            congr 2
            have : A ++ v :: B = (A ++ [v]) ++ B := by simp
            rw [this, List.drop_left' (by simp [hA])]
      · simp only [Option.some.injEq, Prod.mk.injEq] at h
        obtain ⟨rfl, rfl⟩ := h
        exact Or.inl ⟨rfl, rfl⟩

theorem smoothPoints_normal {vp v vn : V2} {r : ℝ} {f : ℤ} {pts : List PV} (h : smoothPoints vp v vn r f = some pts) :
    (∀ p ∈ pts, p.relative = false ∧ p.vtype = .normal) ∧ pts.length = (f + 1).toNat := by
  unfold smoothPoints at h
  simp only at h
  split at h
  · simp at h
  · simp only [Option.some.injEq] at h
    rw [← h]
    exact ⟨rotatePoints_normal _ _ _ _, rotatePoints_length _ _ _ _⟩

theorem arcPoints_normal (a b : V2) (r : ℝ) (f : ℤ) :
    (∀ p ∈ arcPoints a b r f, p.relative = false ∧ p.vtype = .normal) ∧ (arcPoints a b r f).length = (f - 1).toNat :=
  ⟨rotatePoints_normal _ _ _ _, rotatePoints_length _ _ _ _⟩

/-- A step that can only lower the count of `τ`, and does so when it reports a change. -/
def Lowers (step : Builder → ℕ → Option (Builder × Bool)) (τ : PVType) : Prop :=
  ∀ b i b' r, step b i = some (b', r) → b'.cnt τ + (if r then 1 else 0) ≤ b.cnt τ

theorem arcVertex_lowers : Lowers Builder.arcVertex .arc := by
  intro b i b' r h
  obtain ⟨A, v, B, hl, _, _, _, _, h⟩ := arcVertex_cases h
  unfold Builder.cnt
  rcases h with ⟨_, rfl, rfl⟩ | ⟨hv, rfl, hb⟩ | ⟨hv, rfl, _, pv, hb⟩
  · simp
  · rw [hb, hl]; simp [hv]
  · rw [hb, hl]
    have := countP_normal (arcPoints_normal pv v.vertex v.radius v.facets).1 .arc (by simp)
    simp only [List.countP_append, List.countP_cons, this]
    simp [hv]

theorem smoothVertex_lowers : Lowers Builder.smoothVertex .smooth := by
  intro b i b' r h
  obtain ⟨A, v, B, hl, _, h⟩ := smoothVertex_cases h
  unfold Builder.cnt
  rcases h with ⟨rfl, rfl⟩ | ⟨hv, rfl, _, _, _, _, vp, vn, pts, hp, hb⟩
  · simp
  · rw [hb, hl]
    have := countP_normal (smoothPoints_normal hp).1 .smooth (by simp)
    simp only [List.countP_append, List.countP_cons, this]
    simp [hv]

theorem pass_lowers {step : Builder → ℕ → Option (Builder × Bool)} {τ : PVType} (hs : Lowers step τ) (is : List ℕ) :
    ∀ b b' r, pass step is b = some (b', r) → b'.cnt τ + (if r then 1 else 0) ≤ b.cnt τ := by
  induction is with
  | nil =>
    intro b b' r h
    simp only [pass, Option.some.injEq, Prod.mk.injEq] at h
    obtain ⟨rfl, rfl⟩ := h; simp
  | cons i is ih =>
    intro b b' r h
    rw [pass] at h
    split at h
    · simp at h
    · rename_i b1 r1 h1
      split at h
      · simp at h
      · rename_i b2 r2 h2
        simp only [Option.some.injEq, Prod.mk.injEq] at h
        obtain ⟨rfl, rfl⟩ := h
        have e1 := hs _ _ _ _ h1
        have e2 := ih _ _ _ h2
        cases r1 <;> cases r2 <;> simp at e1 e2 ⊢ <;> omega

theorem passes_terminates {step : Builder → ℕ → Option (Builder × Bool)} {τ : PVType} (hs : Lowers step τ) (fuel : ℕ) :
    ∀ b, b.cnt τ < fuel → passes step fuel b ≠ .outOfFuel := by
  induction fuel with
  | zero => intro b h; omega
  | succ n ih =>
    intro b h
    rw [passes]
    split
    · simp
    · rename_i b' hp
      have := pass_lowers hs _ _ _ _ hp
      simp at this
      exact ih b' (by omega)
    · simp

/-- Every property of builders kept by each step is kept by the passes. -/
theorem pass_inv {step : Builder → ℕ → Option (Builder × Bool)} (P : Builder → Prop)
    (hs : ∀ b i b' r, step b i = some (b', r) → P b → P b') (is : List ℕ) :
    ∀ b b' r, pass step is b = some (b', r) → P b → P b' := by
  induction is with
  | nil =>
    intro b b' r h hb
    simp only [pass, Option.some.injEq, Prod.mk.injEq] at h
    obtain ⟨rfl, rfl⟩ := h; exact hb
  | cons i is ih =>
    intro b b' r h hb
    rw [pass] at h
    split at h
    · simp at h
    · rename_i b1 r1 h1
      split at h
      · simp at h
      · rename_i b2 r2 h2
        simp only [Option.some.injEq, Prod.mk.injEq] at h
        obtain ⟨rfl, rfl⟩ := h
        exact ih _ _ _ h2 (hs _ _ _ _ h1 hb)

theorem passes_inv {step : Builder → ℕ → Option (Builder × Bool)} (P : Builder → Prop)
    (hs : ∀ b i b' r, step b i = some (b', r) → P b → P b') (fuel : ℕ) :
    ∀ b b', passes step fuel b = .ok b' → P b → P b' := by
  induction fuel with
  | zero => intro b b' h; simp [passes] at h
  | succ n ih =>
    intro b b' h hb
    rw [passes] at h
    split at h
    · simp at h
    · rename_i b1 hp
      exact ih b1 b' h (pass_inv P hs _ _ _ _ hp hb)
    · rename_i b1 hp
      simp only [Outcome.ok.injEq] at h
      rw [← h]
      exact pass_inv P hs _ _ _ _ hp hb

/-- The passes end with one that reports no change. -/
theorem passes_last {step : Builder → ℕ → Option (Builder × Bool)} (fuel : ℕ) :
    ∀ b b', passes step fuel b = .ok b' → ∃ b1, pass step (List.range b1.vlist.length) b1 = some (b', false) := by
  induction fuel with
  | zero => intro b b' h; simp [passes] at h
  | succ n ih =>
    intro b b' h
    rw [passes] at h
    split at h
    · simp at h
    · exact ih _ b' h
    · rename_i b1 hp
      simp only [Outcome.ok.injEq] at h
      rw [← h]
      exact ⟨b, hp⟩

/-- A pass without panic, given that steps do not panic on indices in range and keep an invariant. -/
theorem pass_total {step : Builder → ℕ → Option (Builder × Bool)} (P : Builder → Prop)
    (hs : ∀ b i, P b → i < b.vlist.length → ∃ b' r, step b i = some (b', r) ∧ P b' ∧ b.vlist.length ≤ b'.vlist.length)
    (is : List ℕ) : ∀ b, P b → (∀ i ∈ is, i < b.vlist.length) → ∃ b' r, pass step is b = some (b', r) ∧ P b' := by
  induction is with
  | nil => intro b hb _; exact ⟨b, false, rfl, hb⟩
  | cons i is ih =>
    intro b hb hi
    obtain ⟨b1, r1, h1, hb1, hl⟩ := hs b i hb (hi i List.mem_cons_self)
    obtain ⟨b2, r2, h2, hb2⟩ := ih b1 hb1 fun j hj => lt_of_lt_of_le (hi j (List.mem_cons_of_mem _ hj)) hl
    exact ⟨b2, r1 || r2, by rw [pass, h1]; simp only [h2], hb2⟩

theorem passes_total {step : Builder → ℕ → Option (Builder × Bool)} (P : Builder → Prop)
    (hs : ∀ b i, P b → i < b.vlist.length → ∃ b' r, step b i = some (b', r) ∧ P b' ∧ b.vlist.length ≤ b'.vlist.length)
    (fuel : ℕ) : ∀ b, P b → passes step fuel b ≠ .panic := by
  induction fuel with
  | zero => intro b _; simp [passes]
  | succ n ih =>
    intro b hb
    obtain ⟨b', r, h, hb'⟩ := pass_total P hs (List.range b.vlist.length) b hb (by simp)
    rw [passes, h]
    cases r
    · simp
    · exact ih b' hb'

end Must2
end Sdf
