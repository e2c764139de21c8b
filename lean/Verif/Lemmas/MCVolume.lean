import Verif.Lemmas.MCVolumeTable
import Verif.Lemmas.MCChain
import Mathlib.Tactic.FinCases
import Mathlib.Tactic.Positivity

/-!
Helper lemmas: what the triangles of one cell enclose, for vertices anywhere on their edges.
-/

namespace Sdf.MC

/-! ### Sums of monomials -/

def Mono.val (u : Fin 12 → ℝ) (m : Mono) : ℝ := (m.map u).prod

def total (u : Fin 12 → ℝ) (l : List Mono) : ℝ := (l.map (Mono.val u)).sum

theorem total_nil (u : Fin 12 → ℝ) : total u [] = 0 := rfl

theorem total_cons (u : Fin 12 → ℝ) (m : Mono) (l : List Mono) : total u (m :: l) = Mono.val u m + total u l := by
  simp [total]

theorem val_nil (u : Fin 12 → ℝ) : Mono.val u [] = 1 := rfl

theorem val_cons (u : Fin 12 → ℝ) (e : Fin 12) (m : Mono) : Mono.val u (e :: m) = u e * Mono.val u m := by
  simp [Mono.val]

theorem val_append (u : Fin 12 → ℝ) (l m : Mono) : Mono.val u (l ++ m) = Mono.val u l * Mono.val u m := by
  simp [Mono.val]

theorem eqE_iff (a b : Fin 12) : eqE a b = true ↔ a = b := by
  unfold eqE
  rw [Nat.beq_eq]
  exact Fin.ext_iff.symm

theorem eqM_eq : ∀ l m : Mono, eqM l m = true → l = m
  | [], [], _ => rfl
  | [], _ :: _, h => by simp [eqM] at h
  | _ :: _, [], h => by simp [eqM] at h
  | a :: l, b :: m, h => by
    simp only [eqM, Bool.and_eq_true] at h
    rw [(eqE_iff a b).mp h.1, eqM_eq l m h.2]

theorem drop_has (u : Fin 12 → ℝ) (e : Fin 12) : ∀ m : Mono, hasE e m = true → Mono.val u m = u e * Mono.val u (dropE e m)
  | [], h => by simp [hasE] at h
  | a :: l, h => by
    simp only [hasE, Bool.or_eq_true] at h
    unfold dropE
    cases hc : eqE e a
    · rw [hc] at h
      simp only [Bool.false_eq_true, false_or] at h
      simp only [val_cons, drop_has u e l h]
      ring
    · rw [(eqE_iff e a).mp hc]
      simp only [val_cons]

theorem drop_not (e : Fin 12) : ∀ m : Mono, hasE e m = false → dropE e m = m
  | [], _ => rfl
  | a :: l, h => by
    simp only [hasE, Bool.or_eq_false_iff] at h
    unfold dropE
    rw [h.1]
    simp only [drop_not e l h.2]

/-- A sum of monomials as a combination of what it is with one variable 0 and with it 1. -/
theorem total_split (u : Fin 12 → ℝ) (e : Fin 12) : ∀ l : List Mono,
    total u l = (1 - u e) * total u (set0 e l) + u e * total u (set1 e l)
  | [] => by simp [set0, set1, total_nil]
  | m :: r => by
    have ih := total_split u e r
    rw [set1, total_cons, total_cons]
    cases h : hasE e m
    · rw [set0, h, drop_not e m h]
      simp only [total_cons]
      linear_combination ih
    · rw [set0, h, drop_has u e m h]
      simp only
      linear_combination ih

theorem take_total (u : Fin 12 → ℝ) (m : Mono) : ∀ (l r : List Mono), takeM m l = some r → total u l = Mono.val u m + total u r
  | [], r, h => by simp [takeM] at h
  | a :: l, r, h => by
    unfold takeM at h
    cases hc : eqM m a
    · rw [hc] at h
      simp only at h
      cases ht : takeM m l with
      | none => rw [ht] at h; simp at h
      | some r' =>
        rw [ht] at h
        simp only [Option.some.injEq] at h
        rw [← h, total_cons, total_cons, take_total u m l r' ht]
        ring
    · rw [hc] at h
      simp only [Option.some.injEq] at h
      rw [← h, eqM_eq m a hc, total_cons]

theorem cancel_total (u : Fin 12 → ℝ) : ∀ (N P : List Mono),
    total u (cancel P N).1 - total u (cancel P N).2 = total u P - total u N
  | [], P => rfl
  | m :: N, P => by
    unfold cancel
    cases h : takeM m P with
    | none =>
      have ih := cancel_total u N P
      simp only [total_cons]
      linarith
    | some P' =>
      have ih := cancel_total u N P'
      have := take_total u m P P' h
      simp only [total_cons]
      linarith

theorem val_range {u : Fin 12 → ℝ} (hu : ∀ e, 0 ≤ u e ∧ u e ≤ 1) : ∀ m : Mono, 0 ≤ Mono.val u m ∧ Mono.val u m ≤ 1
  | [] => by rw [val_nil]; norm_num
  | e :: m => by
    have ih := val_range hu m
    rw [val_cons]
    exact ⟨mul_nonneg (hu e).1 ih.1, mul_le_one₀ (hu e).2 ih.1 ih.2⟩

theorem total_le {u : Fin 12 → ℝ} (hu : ∀ e, 0 ≤ u e ∧ u e ≤ 1) : ∀ l : List Mono, total u l ≤ l.length
  | [] => by simp [total_nil]
  | m :: l => by
    have := total_le hu l
    have := (val_range hu m).2
    rw [total_cons, List.length_cons]
    push_cast
    linarith

theorem ones_le {u : Fin 12 → ℝ} (hu : ∀ e, 0 ≤ u e ∧ u e ≤ 1) : ∀ l : List Mono, (ones l : ℝ) ≤ total u l
  | [] => by simp [ones, total_nil]
  | [] :: l => by
    have := ones_le hu l
    rw [ones, total_cons, val_nil]
    push_cast
    linarith
  | (e :: m) :: l => by
    have := ones_le hu l
    have := (val_range hu (e :: m)).1
    rw [ones, total_cons]
    linarith

theorem nonneg_sound {u : Fin 12 → ℝ} (hu : ∀ e, 0 ≤ u e ∧ u e ≤ 1) : ∀ (n : Nat) (P N : List Mono), nonneg n P N = true →
    total u N ≤ total u P
  | 0, _, _, h => by simp [nonneg] at h
  | n + 1, P0, N0, h => by
    unfold nonneg at h
    have hc := cancel_total u N0 P0
    set P := (cancel P0 N0).1
    set N := (cancel P0 N0).2
    simp only [Bool.or_eq_true] at h
    suffices total u N ≤ total u P by linarith
    rcases h with h | h
    · have h1 : (N.length : ℝ) ≤ ones P := by exact_mod_cast Nat.le_of_ble_eq_true h
      linarith [total_le hu N, ones_le hu P]
    · cases hf : firstE N with
      | none => rw [hf] at h; simp at h
      | some e =>
        rw [hf] at h
        simp only [Bool.and_eq_true] at h
        have a := nonneg_sound hu n _ _ h.1
        have b := nonneg_sound hu n _ _ h.2
        rw [total_split u e P, total_split u e N]
        have h0 : 0 ≤ 1 - u e := by linarith [(hu e).2]
        exact add_le_add (mul_le_mul_of_nonneg_left a h0) (mul_le_mul_of_nonneg_left b (hu e).1)

/-! ### The quantities of a cell -/

/-- The vertex on an edge of the unit cell. -/
def pt (e : Fin 12) (u : ℝ) : V3 := match e with
  | 0 => ⟨u, 0, 0⟩ | 1 => ⟨1, u, 0⟩ | 2 => ⟨u, 1, 0⟩ | 3 => ⟨0, u, 0⟩ | 4 => ⟨u, 0, 1⟩ | 5 => ⟨1, u, 1⟩
  | 6 => ⟨u, 1, 1⟩ | 7 => ⟨0, u, 1⟩ | 8 => ⟨0, 0, u⟩ | 9 => ⟨1, 0, u⟩ | 10 => ⟨1, 1, u⟩ | 11 => ⟨0, 1, u⟩

/-- Twice the signed area of the triangle's projection along z. -/
def flat (a b c : V3) : ℝ := (a.x * b.y + b.x * c.y + c.x * a.y) - (b.x * a.y + c.x * b.y + a.x * c.y)

/-- Six times the signed volume between the triangle and the plane z = 0. -/
def under (a b c : V3) : ℝ := (a.z + b.z + c.z) * flat a b c

def flatCell (u : Fin 12 → ℝ) (l : List (Fin 12 × Fin 12 × Fin 12)) : ℝ :=
  (l.map fun t => flat (pt t.2.2 (u t.2.2)) (pt t.2.1 (u t.2.1)) (pt t.1 (u t.1))).sum

def underCell (u : Fin 12 → ℝ) (l : List (Fin 12 × Fin 12 × Fin 12)) : ℝ :=
  (l.map fun t => under (pt t.2.2 (u t.2.2)) (pt t.2.1 (u t.2.1)) (pt t.1 (u t.1))).sum

def sideLen (b c : Bool) (u : ℝ) : ℝ := match b, c with
  | true, true => 1
  | true, false => u
  | false, true => 1 - u
  | false, false => 0

def sqXR (i : Fin 4) (u : ℝ) : ℝ := match i with | 0 => u | 1 => 1 | 2 => u | 3 => 0
def sqYR (i : Fin 4) (u : ℝ) : ℝ := match i with | 0 => 0 | 1 => u | 2 => 1 | 3 => u

/-- Twice the area of the inside of a unit square. -/
def area (b0 b1 b2 b3 : Bool) (u : Fin 4 → ℝ) : ℝ :=
  sideLen b1 b2 (u 1) + sideLen b3 b2 (u 2)
  + ((seg b0 b1 b2 b3).map fun e => sqXR e.1 (u e.1) * sqYR e.2 (u e.2) - sqXR e.2 (u e.2) * sqYR e.1 (u e.1)).sum

def bottom (b : Fin 8 → Bool) (u : Fin 12 → ℝ) : ℝ := area (b 0) (b 1) (b 2) (b 3) fun i => u (fZm i)
def top (b : Fin 8 → Bool) (u : Fin 12 → ℝ) : ℝ := area (b 4) (b 5) (b 6) (b 7) fun i => u (fZp i)

/-! ### They are the polynomials of the table -/

def valO (u : Fin 12 → ℝ) : Option Mono → ℝ
  | none => 0
  | some m => Mono.val u m

theorem coX_val (u : Fin 12 → ℝ) (e : Fin 12) : valO u (coX e) = (pt e (u e)).x := by
  fin_cases e <;> simp [coX, pt, valO, Mono.val]

theorem coY_val (u : Fin 12 → ℝ) (e : Fin 12) : valO u (coY e) = (pt e (u e)).y := by
  fin_cases e <;> simp [coY, pt, valO, Mono.val]

theorem coZ_val (u : Fin 12 → ℝ) (e : Fin 12) : valO u (coZ e) = (pt e (u e)).z := by
  fin_cases e <;> simp [coZ, pt, valO, Mono.val]

theorem mulO_val (u : Fin 12 → ℝ) (a b : Option Mono) : valO u (mulO a b) = valO u a * valO u b := by
  cases a <;> cases b <;> simp [mulO, valO, val_append]

theorem addO_total (u : Fin 12 → ℝ) : ∀ (l : List (Option Mono)) (r : List Mono), total u (addO l r) = (l.map (valO u)).sum + total u r
  | [], r => by simp [addO]
  | none :: l, r => by simp [addO, addO_total u l r, valO]
  | some m :: l, r => by simp [addO, total_cons, addO_total u l r, valO, add_assoc]

theorem times_val (u : Fin 12 → ℝ) (z : Option Mono) (l : List (Option Mono)) :
    ((times z l).map (valO u)).sum = valO u z * (l.map (valO u)).sum := by
  unfold times
  induction l with
  | nil => simp
  | cons a l ih => simp only [List.map_cons, List.sum_cons, ih, mulO_val]; ring

theorem flat_val (u : Fin 12 → ℝ) (a b c : Fin 12) :
    ((flatP a b c).map (valO u)).sum - ((flatN a b c).map (valO u)).sum = flat (pt a (u a)) (pt b (u b)) (pt c (u c)) := by
  simp only [flatP, flatN, List.map_cons, List.map_nil, List.sum_cons, List.sum_nil, mulO_val, coX_val, coY_val, flat]
  ring

theorem sumFlat_total (u : Fin 12 → ℝ) (P N : List Mono) : ∀ l,
    total u (sumFlat flatP l P) - total u (sumFlat flatN l N) = flatCell u l + (total u P - total u N)
  | [] => by simp [sumFlat, flatCell]
  | t :: l => by
    have ih := sumFlat_total u P N l
    have h := flat_val u t.2.2 t.2.1 t.1
    simp only [sumFlat, addO_total, flatCell, List.map_cons, List.sum_cons] at ih ⊢
    linarith

theorem sumUnder_total (u : Fin 12 → ℝ) (P N : List Mono) : ∀ l,
    total u (sumUnder flatP l P) - total u (sumUnder flatN l N) = underCell u l + (total u P - total u N)
  | [] => by simp [sumUnder, underCell]
  | t :: l => by
    have ih := sumUnder_total u P N l
    have h := flat_val u t.2.2 t.2.1 t.1
    simp only [sumUnder, addO_total, times_val, coZ_val, underCell, under, List.map_cons, List.sum_cons, ← h] at ih ⊢
    linarith

theorem side_total (u : Fin 12 → ℝ) (b c : Bool) (e : Fin 12) (P N : List Mono) :
    total u (sideP b c e P) - total u (sideN b c e N) = sideLen b c (u e) + (total u P - total u N) := by
  cases b <;> cases c <;> simp [sideP, sideN, sideLen, total_cons, val_nil, val_cons] <;> ring

theorem sqX_val (u : Fin 12 → ℝ) (f : Fin 4 → Fin 12) (i : Fin 4) : valO u (sqX f i) = sqXR i (u (f i)) := by
  fin_cases i <;> simp [sqX, sqXR, valO, Mono.val]

theorem sqY_val (u : Fin 12 → ℝ) (f : Fin 4 → Fin 12) (i : Fin 4) : valO u (sqY f i) = sqYR i (u (f i)) := by
  fin_cases i <;> simp [sqY, sqYR, valO, Mono.val]

theorem area_total (u : Fin 12 → ℝ) (f : Fin 4 → Fin 12) (b0 b1 b2 b3 : Bool) (P N : List Mono) :
    total u (areaP f b0 b1 b2 b3 P) - total u (areaN f b0 b1 b2 b3 N) = area b0 b1 b2 b3 (fun i => u (f i)) + (total u P - total u N) := by
  unfold areaP areaN area
  rw [side_total, side_total, addO_total, addO_total]
  have : ∀ l : List (Fin 4 × Fin 4),
      ((l.map fun e => mulO (sqX f e.1) (sqY f e.2)).map (valO u)).sum - ((l.map fun e => mulO (sqX f e.2) (sqY f e.1)).map (valO u)).sum
      = (l.map fun e => sqXR e.1 (u (f e.1)) * sqYR e.2 (u (f e.2)) - sqXR e.2 (u (f e.2)) * sqYR e.1 (u (f e.1))).sum := by
    intro l
    induction l with
    | nil => simp
    | cons a l ih =>
      simp only [List.map_cons, List.sum_cons, mulO_val, sqX_val, sqY_val] at ih ⊢
      linarith
  have := this (seg b0 b1 b2 b3)
  linarith

/-- The projected area of the triangles of a cell is what its bottom face has more inside than its top face. -/
theorem flat_cell (b : Fin 8 → Bool) (u : Fin 12 → ℝ) : flatCell u (row b) = bottom b u - top b u := by
  have h := forall_bits (P := fun b => flatCheck b = true) flat_table b
  unfold flatCheck at h
  have hc := cancel_total u (sumFlat flatN (row b) (topN b (botP b []))) (sumFlat flatP (row b) (topP b (botN b [])))
  have h1 := sumFlat_total u (topP b (botN b [])) (topN b (botP b [])) (row b)
  have h2 := area_total u fZp (b 4) (b 5) (b 6) (b 7) (botN b []) (botP b [])
  have h3 := area_total u fZm (b 0) (b 1) (b 2) (b 3) [] []
  have h4 : total u (cancel (sumFlat flatP (row b) (topP b (botN b []))) (sumFlat flatN (row b) (topN b (botP b [])))).1
      - total u (cancel (sumFlat flatP (row b) (topP b (botN b []))) (sumFlat flatN (row b) (topN b (botP b [])))).2 = 0 := by
    revert h
    generalize cancel (sumFlat flatP (row b) (topP b (botN b []))) (sumFlat flatN (row b) (topN b (botP b []))) = pr
    rcases pr with ⟨_ | ⟨_, _⟩, _ | ⟨_, _⟩⟩ <;> simp [noneLeft, total_nil]
  simp only [topP, topN, botP, botN, total_nil] at *
  unfold bottom top
  linarith

/-- Six times the volume a cell contributes is between 0 and 6. -/
theorem under_cell (b : Fin 8 → Bool) (u : Fin 12 → ℝ) (hu : ∀ e, 0 ≤ u e ∧ u e ≤ 1) :
    0 ≤ underCell u (row b) + 3 * top b u ∧ underCell u (row b) + 3 * top b u ≤ 6 := by
  have h1 := nonneg_sound hu _ _ _ (forall_bits (P := fun b => lowCheck b = true) low_table b)
  have h2 := nonneg_sound hu _ _ _ (forall_bits (P := fun b => highCheck b = true) high_table b)
  have e1 := sumUnder_total u (topP b (topP b (topP b []))) (topN b (topN b (topN b []))) (row b)
  have e2 := area_total u fZp (b 4) (b 5) (b 6) (b 7) (topP b (topP b [])) (topN b (topN b []))
  have e3 := area_total u fZp (b 4) (b 5) (b 6) (b 7) (topP b []) (topN b [])
  have e4 := area_total u fZp (b 4) (b 5) (b 6) (b 7) [] []
  simp only [total_cons, val_nil] at h2
  simp only [underP, underN, topP, topN, total_nil] at *
  unfold top
  constructor <;> linarith

end Sdf.MC
