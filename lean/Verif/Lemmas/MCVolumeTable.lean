import Verif.Lemmas.MCTable

/-!
Helper lemmas: what the triangles of one cell enclose, for all 256 patterns.  The quantities are polynomials in the places of the
vertices on their edges; they are written as lists of monomials, positive and negative ones apart, and the kernel checks that they
are not negative by setting one variable after another to 0 and to 1.
-/

namespace Sdf.MC

/-- A product of the places of vertices on the edges listed. -/
abbrev Mono := List (Fin 12)

def eqE (a b : Fin 12) : Bool := Nat.beq a.val b.val

def eqM : Mono → Mono → Bool
  | [], [] => true
  | a :: l, b :: m => eqE a b && eqM l m
  | _, _ => false

def hasE (e : Fin 12) : Mono → Bool
  | [] => false
  | a :: l => eqE e a || hasE e l

/-- The monomial with one factor `e` less. -/
def dropE (e : Fin 12) : Mono → Mono
  | [] => []
  | a :: l => match eqE e a with
    | true => l
    | false => a :: dropE e l

def set0 (e : Fin 12) : List Mono → List Mono
  | [] => []
  | m :: r => match hasE e m with
    | true => set0 e r
    | false => m :: set0 e r

def set1 (e : Fin 12) : List Mono → List Mono
  | [] => []
  | m :: r => dropE e m :: set1 e r

/-- Removes one copy of a monomial. -/
def takeM (m : Mono) : List Mono → Option (List Mono)
  | [] => none
  | a :: r => match eqM m a with
    | true => some r
    | false => match takeM m r with
      | some r' => some (a :: r')
      | none => none

/-- Removes common monomials. -/
def cancel (P : List Mono) : List Mono → List Mono × List Mono
  | [] => (P, [])
  | m :: N => match takeM m P with
    | some P' => cancel P' N
    | none => ((cancel P N).1, m :: (cancel P N).2)

def ones : List Mono → Nat
  | [] => 0
  | [] :: r => ones r + 1
  | (_ :: _) :: r => ones r

/-- The first variable of the monomials. -/
def firstE : List Mono → Option (Fin 12)
  | [] => none
  | [] :: r => firstE r
  | (e :: _) :: _ => some e

/-- The difference of two sums of monomials is not negative when all variables are between 0 and 1. -/
def nonneg : Nat → List Mono → List Mono → Bool
  | 0, _, _ => false
  | fuel + 1, P0, N0 =>
    match cancel P0 N0 with
    | (P, N) => Nat.ble N.length (ones P) || match firstE N with
      | none => false
      | some e => nonneg fuel (set0 e P) (set0 e N) && nonneg fuel (set1 e P) (set1 e N)

/-- Coordinates of the vertex on an edge of the unit cell: 0, 1 or its place on the edge. -/
def coX (e : Fin 12) : Option Mono := match e with
  | 0 => some [0] | 1 => some [] | 2 => some [2] | 3 => none | 4 => some [4] | 5 => some [] | 6 => some [6] | 7 => none
  | 8 => none | 9 => some [] | 10 => some [] | 11 => none
def coY (e : Fin 12) : Option Mono := match e with
  | 0 => none | 1 => some [1] | 2 => some [] | 3 => some [3] | 4 => none | 5 => some [5] | 6 => some [] | 7 => some [7]
  | 8 => none | 9 => none | 10 => some [] | 11 => some []
def coZ (e : Fin 12) : Option Mono := match e with
  | 0 => none | 1 => none | 2 => none | 3 => none | 4 => some [] | 5 => some [] | 6 => some [] | 7 => some []
  | 8 => some [8] | 9 => some [9] | 10 => some [10] | 11 => some [11]

/-- The ends of an edge, the one with smaller coordinates first. -/
def ends (e : Fin 12) : Fin 8 × Fin 8 := match e with
  | 0 => (0, 1) | 1 => (1, 2) | 2 => (3, 2) | 3 => (0, 3) | 4 => (4, 5) | 5 => (5, 6) | 6 => (7, 6) | 7 => (4, 7)
  | 8 => (0, 4) | 9 => (1, 5) | 10 => (2, 6) | 11 => (3, 7)

def mulO : Option Mono → Option Mono → Option Mono
  | some a, some b => some (a ++ b)
  | _, _ => none

def addO : List (Option Mono) → List Mono → List Mono
  | [], l => l
  | none :: r, l => addO r l
  | some m :: r, l => m :: addO r l

/-- Twice the projected area of a triangle: positive and negative terms. -/
def flatP (a b c : Fin 12) : List (Option Mono) := [mulO (coX a) (coY b), mulO (coX b) (coY c), mulO (coX c) (coY a)]
def flatN (a b c : Fin 12) : List (Option Mono) := [mulO (coX b) (coY a), mulO (coX c) (coY b), mulO (coX a) (coY c)]

def times (z : Option Mono) (l : List (Option Mono)) : List (Option Mono) := l.map fun m => mulO m z

def sumFlat (f : Fin 12 → Fin 12 → Fin 12 → List (Option Mono)) : List (Fin 12 × Fin 12 × Fin 12) → List Mono → List Mono
  | [], l => l
  | t :: r, l => addO (f t.2.2 t.2.1 t.1) (sumFlat f r l)

def sumUnder (f : Fin 12 → Fin 12 → Fin 12 → List (Option Mono)) : List (Fin 12 × Fin 12 × Fin 12) → List Mono → List Mono
  | [], l => l
  | t :: r, l => addO (times (coZ t.2.2) (f t.2.2 t.2.1 t.1)) (addO (times (coZ t.2.1) (f t.2.2 t.2.1 t.1))
      (addO (times (coZ t.1) (f t.2.2 t.2.1 t.1)) (sumUnder f r l)))

/-- Length of the part of a side between two corners that is inside. -/
def sideP (b c : Bool) (e : Fin 12) (l : List Mono) : List Mono := match b, c with
  | true, true => [] :: l
  | true, false => [e] :: l
  | false, true => [] :: l
  | false, false => l
def sideN (b c : Bool) (e : Fin 12) (l : List Mono) : List Mono := match b, c with
  | true, true => l
  | true, false => l
  | false, true => [e] :: l
  | false, false => l

def sqX (f : Fin 4 → Fin 12) (i : Fin 4) : Option Mono := match i with
  | 0 => some [f 0] | 1 => some [] | 2 => some [f 2] | 3 => none
def sqY (f : Fin 4 → Fin 12) (i : Fin 4) : Option Mono := match i with
  | 0 => none | 1 => some [f 1] | 2 => some [] | 3 => some [f 3]

/-- Twice the area of the inside of a face. -/
def areaP (f : Fin 4 → Fin 12) (b0 b1 b2 b3 : Bool) (l : List Mono) : List Mono :=
  sideP b1 b2 (f 1) (sideP b3 b2 (f 2) (addO ((seg b0 b1 b2 b3).map fun e => mulO (sqX f e.1) (sqY f e.2)) l))
def areaN (f : Fin 4 → Fin 12) (b0 b1 b2 b3 : Bool) (l : List Mono) : List Mono :=
  sideN b1 b2 (f 1) (sideN b3 b2 (f 2) (addO ((seg b0 b1 b2 b3).map fun e => mulO (sqX f e.2) (sqY f e.1)) l))

def botP (b : Fin 8 → Bool) := areaP fZm (b 0) (b 1) (b 2) (b 3)
def botN (b : Fin 8 → Bool) := areaN fZm (b 0) (b 1) (b 2) (b 3)
def topP (b : Fin 8 → Bool) := areaP fZp (b 4) (b 5) (b 6) (b 7)
def topN (b : Fin 8 → Bool) := areaN fZp (b 4) (b 5) (b 6) (b 7)

/-- The triangles of a pattern, as triples of edges in table order. -/
def row (b : Fin 8 → Bool) : List (Fin 12 × Fin 12 × Fin 12) := triples (triangleTable.getD (bitsToNat b) [])

def noneLeft : List Mono × List Mono → Bool
  | ([], []) => true
  | _ => false

def flatCheck (b : Fin 8 → Bool) : Bool :=
  noneLeft (cancel (sumFlat flatP (row b) (topP b (botN b []))) (sumFlat flatN (row b) (topN b (botP b []))))

def underP (b : Fin 8 → Bool) : List Mono := sumUnder flatP (row b) (topP b (topP b (topP b [])))
def underN (b : Fin 8 → Bool) : List Mono := sumUnder flatN (row b) (topN b (topN b (topN b [])))

def lowCheck (b : Fin 8 → Bool) : Bool := nonneg 13 (underP b) (underN b)
def highCheck (b : Fin 8 → Bool) : Bool := nonneg 13 ([] :: [] :: [] :: [] :: [] :: [] :: underN b) (underP b)

theorem flat_table : ∀ b0 b1 b2 b3 b4 b5 b6 b7 : Bool, flatCheck ![b0, b1, b2, b3, b4, b5, b6, b7] = true := by decide +kernel
theorem low_table : ∀ b0 b1 b2 b3 b4 b5 b6 b7 : Bool, lowCheck ![b0, b1, b2, b3, b4, b5, b6, b7] = true := by decide +kernel
theorem high_table : ∀ b0 b1 b2 b3 b4 b5 b6 b7 : Bool, highCheck ![b0, b1, b2, b3, b4, b5, b6, b7] = true := by decide +kernel

end Sdf.MC
