import Verif.Model.MarchingCubes
import Mathlib.Data.List.Count
import Mathlib.Data.List.Perm.Basic
import Mathlib.Algebra.BigOperators.Group.Finset.Basic
import Mathlib.Tactic.Linarith
import Mathlib.Tactic.Ring
import Mathlib.Tactic.FieldSimp

/-! Helper lemmas: the boundary of the marching-cubes triangles of one cell, face by face. -/

namespace Sdf.MC

/-- bits of the corner pattern as a number. -/
def bitsToNat (b : Fin 8 → Bool) : Nat :=
  (List.finRange 8).foldl (fun idx i => if b i then idx ||| (1 <<< (i : Nat)) else idx) 0

noncomputable def neg (v : Fin 8 → ℝ) (x : ℝ) : Fin 8 → Bool := fun i =>
  open Classical in decide (v i < x)

theorem index_eq (v : Fin 8 → ℝ) (x : ℝ) : index v x = bitsToNat (neg v x) := by
  unfold index bitsToNat neg
  congr 1
  funext idx i
  by_cases h : v i < x <;> simp [h]

/-- A predicate checked for all 256 patterns holds of every corner assignment. -/
theorem forall_bits {P : (Fin 8 → Bool) → Prop}
    (h : ∀ b0 b1 b2 b3 b4 b5 b6 b7 : Bool, P ![b0, b1, b2, b3, b4, b5, b6, b7]) (b : Fin 8 → Bool) : P b := by
  have e : b = ![b 0, b 1, b 2, b 3, b 4, b 5, b 6, b 7] := by
    funext i; fin_cases i <;> rfl
  rw [e]; apply h

/-- directed edges (as pairs of cell edges) of the triangles of a pattern, in emission order. -/
def dirs (idx : Nat) : List (Fin 12 × Fin 12) :=
  (triples (triangleTable.getD idx [])).flatMap fun t => [(t.2.2, t.2.1), (t.2.1, t.1), (t.1, t.2.2)]

/-- marching squares on a face with corners 0..3 in cyclic order; local edge `i` joins corner `i` and `i+1`. -/
def seg (b0 b1 b2 b3 : Bool) : List (Fin 4 × Fin 4) :=
  match b0, b1, b2, b3 with
  | false, false, false, false => []
  | true, false, false, false => [(0, 3)]
  | false, true, false, false => [(1, 0)]
  | true, true, false, false => [(1, 3)]
  | false, false, true, false => [(2, 1)]
  | true, false, true, false => [(0, 3), (2, 1)]
  | false, true, true, false => [(2, 0)]
  | true, true, true, false => [(2, 3)]
  | false, false, false, true => [(3, 2)]
  | true, false, false, true => [(0, 2)]
  | false, true, false, true => [(1, 0), (3, 2)]
  | true, true, false, true => [(1, 2)]
  | false, false, true, true => [(3, 1)]
  | true, false, true, true => [(0, 1)]
  | false, true, true, true => [(3, 0)]
  | true, true, true, true => []

/-- local edges of the six faces as cell edges. -/
def fXm : Fin 4 → Fin 12 := ![3, 11, 7, 8]
def fXp : Fin 4 → Fin 12 := ![1, 10, 5, 9]
def fYm : Fin 4 → Fin 12 := ![0, 9, 4, 8]
def fYp : Fin 4 → Fin 12 := ![2, 10, 6, 11]
def fZm : Fin 4 → Fin 12 := ![0, 1, 2, 3]
def fZp : Fin 4 → Fin 12 := ![4, 5, 6, 7]

def mapP {α β : Type} (g : α → β) (l : List (α × α)) : List (β × β) := l.map fun e => (g e.1, g e.2)
def swapP {α : Type} (l : List (α × α)) : List (α × α) := l.map Prod.swap

def boundaryList (b : Fin 8 → Bool) : List (Fin 12 × Fin 12) :=
  dirs (bitsToNat b)
  ++ swapP (mapP fXm (seg (b 0) (b 3) (b 7) (b 4))) ++ mapP fXp (seg (b 1) (b 2) (b 6) (b 5))
  ++ mapP fYm (seg (b 0) (b 1) (b 5) (b 4)) ++ swapP (mapP fYp (seg (b 3) (b 2) (b 6) (b 7)))
  ++ swapP (mapP fZm (seg (b 0) (b 1) (b 2) (b 3))) ++ mapP fZp (seg (b 4) (b 5) (b 6) (b 7))

def code (e : Fin 12 × Fin 12) : Nat := e.1.val * 12 + e.2.val

theorem code_inj {a b : Fin 12 × Fin 12} (h : code a = code b) : a = b := by
  unfold code at h
  ext <;> omega

def balanced (l : List (Fin 12 × Fin 12)) : Bool :=
  let c := l.map code
  l.all fun e => Nat.beq (c.countP (Nat.beq (code e))) (c.countP (Nat.beq (code e.swap)))

set_option maxRecDepth 4000 in
theorem boundary_balanced_table : ∀ b0 b1 b2 b3 b4 b5 b6 b7 : Bool,
    balanced (boundaryList ![b0, b1, b2, b3, b4, b5, b6, b7]) = true := by decide +kernel

/-- Edge flags, triangle rows and corner signs agree for all 256 patterns. -/
theorem edge_flag_table : ∀ b0 b1 b2 b3 b4 b5 b6 b7 : Bool,
    let b : Fin 8 → Bool := ![b0, b1, b2, b3, b4, b5, b6, b7]
    ∀ e : Fin 12, Nat.beq (edgeTable.getD (bitsToNat b) 0 &&& (1 <<< (e : Nat))) 0
      = Bool.not (Bool.xor (b (pairTable e).1) (b (pairTable e).2)) := by decide +kernel

theorem tri_edges_table : ∀ b0 b1 b2 b3 b4 b5 b6 b7 : Bool,
    let b : Fin 8 → Bool := ![b0, b1, b2, b3, b4, b5, b6, b7]
    (triangleTable.getD (bitsToNat b) []).all
      (fun e => Bool.xor (b (pairTable e).1) (b (pairTable e).2)) = true := by decide +kernel

theorem tri_len_table : ∀ b0 b1 b2 b3 b4 b5 b6 b7 : Bool,
    let b : Fin 8 → Bool := ![b0, b1, b2, b3, b4, b5, b6, b7]
    Nat.ble (triangleTable.getD (bitsToNat b) []).length 15 = true
    ∧ (Nat.beq ((triangleTable.getD (bitsToNat b) []).length % 3) 0 = true)
    ∧ (Nat.beq (triangleTable.getD (bitsToNat b) []).length 0
        = (Bool.and (b 0) (b 1 && b 2 && b 3 && b 4 && b 5 && b 6 && b 7)
           || !(b 0 || b 1 || b 2 || b 3 || b 4 || b 5 || b 6 || b 7)))
    ∧ (Nat.beq (edgeTable.getD (bitsToNat b) 0) 0
        = (Bool.and (b 0) (b 1 && b 2 && b 3 && b 4 && b 5 && b 6 && b 7)
           || !(b 0 || b 1 || b 2 || b 3 || b 4 || b 5 || b 6 || b 7))) := by
  decide +kernel

end Sdf.MC
