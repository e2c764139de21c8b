import Verif.Lemmas.MCVolumeTable

/-! Helper lemmas: the normals of the table's triangles against the directions from inside to outside, for all 256 patterns. -/

namespace Sdf.MC

def wedgeP (co co' : Fin 12 → Option Mono) (a b c : Fin 12) : List (Option Mono) :=
  [mulO (co a) (co' b), mulO (co b) (co' c), mulO (co c) (co' a)]
def wedgeN (co co' : Fin 12 → Option Mono) (a b c : Fin 12) : List (Option Mono) :=
  [mulO (co b) (co' a), mulO (co c) (co' b), mulO (co a) (co' c)]

/-- The component of the normal along the axis of an edge: 0, 2, 4, 6 are parallel to x, 1, 3, 5, 7 to y, 8 to 11 to z. -/
def alongP (e a b c : Fin 12) : List (Option Mono) := match e with
  | 0 => wedgeP coY coZ a b c | 1 => wedgeP coZ coX a b c | 2 => wedgeP coY coZ a b c | 3 => wedgeP coZ coX a b c
  | 4 => wedgeP coY coZ a b c | 5 => wedgeP coZ coX a b c | 6 => wedgeP coY coZ a b c | 7 => wedgeP coZ coX a b c
  | 8 => wedgeP coX coY a b c | 9 => wedgeP coX coY a b c | 10 => wedgeP coX coY a b c | 11 => wedgeP coX coY a b c
def alongN (e a b c : Fin 12) : List (Option Mono) := match e with
  | 0 => wedgeN coY coZ a b c | 1 => wedgeN coZ coX a b c | 2 => wedgeN coY coZ a b c | 3 => wedgeN coZ coX a b c
  | 4 => wedgeN coY coZ a b c | 5 => wedgeN coZ coX a b c | 6 => wedgeN coY coZ a b c | 7 => wedgeN coZ coX a b c
  | 8 => wedgeN coX coY a b c | 9 => wedgeN coX coY a b c | 10 => wedgeN coX coY a b c | 11 => wedgeN coX coY a b c

def pick {α : Type} (b : Bool) (x y : α) : α := match b with
  | true => x
  | false => y

/-- The normal times the sum of the directions from inside to outside along the edges of the corners. -/
def outP (s : Fin 8 → Bool) (a b c : Fin 12) : List Mono :=
  addO (pick (s (ends a).1) (alongP a a b c) (alongN a a b c)) (addO (pick (s (ends b).1) (alongP b a b c) (alongN b a b c))
    (addO (pick (s (ends c).1) (alongP c a b c) (alongN c a b c)) []))
def outN (s : Fin 8 → Bool) (a b c : Fin 12) : List Mono :=
  addO (pick (s (ends a).1) (alongN a a b c) (alongP a a b c)) (addO (pick (s (ends b).1) (alongN b a b c) (alongP b a b c))
    (addO (pick (s (ends c).1) (alongN c a b c) (alongP c a b c)) []))

/-- The difference of two sums of monomials is positive when all variables are strictly between 0 and 1. -/
def strict : Nat → List Mono → List Mono → Bool
  | 0, _, _ => false
  | fuel + 1, P0, N0 =>
    match cancel P0 N0 with
    | (P, N) => Nat.ble (N.length + 1) (ones P) || match N, P with
      | [], [] => false
      | [], _ :: _ => true
      | _ :: _, _ => match firstE N with
        | none => false
        | some e => (strict fuel (set0 e P) (set0 e N) && nonneg fuel (set1 e P) (set1 e N))
          || (nonneg fuel (set0 e P) (set0 e N) && strict fuel (set1 e P) (set1 e N))

def outCheck (s : Fin 8 → Bool) : Bool :=
  (row s).all fun t => nonneg 13 (outP s t.2.2 t.2.1 t.1) (outN s t.2.2 t.2.1 t.1) && strict 13 (outP s t.2.2 t.2.1 t.1) (outN s t.2.2 t.2.1 t.1)

theorem out_table : ∀ b0 b1 b2 b3 b4 b5 b6 b7 : Bool, outCheck ![b0, b1, b2, b3, b4, b5, b6, b7] = true := by decide +kernel

end Sdf.MC
