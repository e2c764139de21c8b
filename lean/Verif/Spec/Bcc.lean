import Verif.Model.Vec

/-!
What a body-centred cubic mesh is meant to be: the lattice of the corners and centres of a grid of unit cells, and the
tetrahedra spanned by the centres of two cells with a common face and an edge of that face.  Nothing here refers to the code.
-/

namespace Sdf
namespace Spec
namespace Bcc

/-- Points of the lattice: the corners of unit cells and the centres of unit cells, a cell being named by its lowest corner. -/
inductive Pt
  | corner (x y z : ℤ)
  | centre (x y z : ℤ)
  deriving DecidableEq

/-- The points of a grid of `d0` by `d1` by `d2` cells. -/
def InGrid (d0 d1 d2 : ℤ) : Pt → Prop
  | .corner x y z => 0 ≤ x ∧ x ≤ d0 ∧ 0 ≤ y ∧ y ≤ d1 ∧ 0 ≤ z ∧ z ≤ d2
  | .centre x y z => 0 ≤ x ∧ x < d0 ∧ 0 ≤ y ∧ y < d1 ∧ 0 ≤ z ∧ z < d2

/-- The corner (a, b, c) belongs to the cell (x, y, z). -/
def CornerOf (a b c x y z : ℤ) : Prop := (a = x ∨ a = x + 1) ∧ (b = y ∨ b = y + 1) ∧ (c = z ∨ c = z + 1)

/-- Twice the coordinates of a lattice point. -/
def Pt.twice : Pt → ℤ × ℤ × ℤ
  | .corner x y z => (2 * x, 2 * y, 2 * z)
  | .centre x y z => (2 * x + 1, 2 * y + 1, 2 * z + 1)

/-- Forty-eight times the signed volume of a tetrahedron. -/
def orient (X P Q Y : Pt) : ℤ :=
  let p := P.twice - X.twice
  let q := Q.twice - X.twice
  let y := Y.twice - X.twice
  (p.2.1 * q.2.2 - p.2.2 * q.2.1) * y.1 + (p.2.2 * q.1 - p.1 * q.2.2) * y.2.1 + (p.1 * q.2.1 - p.2.1 * q.1) * y.2.2

/-- The tetrahedra of the mesh: `X` is the centre of a cell, `Y` the centre of the cell before it along one of the axes, `P`
and `Q` are the ends of an edge of the face common to both, ordered so that all tetrahedra have the same orientation. -/
def Joins (d0 d1 d2 : ℤ) : Pt → Pt → Pt → Pt → Prop
  | .centre x y z, .corner a b c, .corner a' b' c', .centre x' y' z' =>
    InGrid d0 d1 d2 (.centre x y z) ∧ InGrid d0 d1 d2 (.centre x' y' z') ∧
    ((x' = x - 1 ∧ y' = y ∧ z' = z) ∨ (x' = x ∧ y' = y - 1 ∧ z' = z) ∨ (x' = x ∧ y' = y ∧ z' = z - 1)) ∧
    CornerOf a b c x y z ∧ CornerOf a b c x' y' z' ∧ CornerOf a' b' c' x y z ∧ CornerOf a' b' c' x' y' z' ∧
    (a - a') ^ 2 + (b - b') ^ 2 + (c - c') ^ 2 = 1 ∧
    orient (.centre x y z) (.corner a b c) (.corner a' b' c') (.centre x' y' z') < 0
  | _, _, _, _ => False

/-- Where a lattice point belongs, for cells of side `res` starting at `lo`. -/
noncomputable def Pt.position (lo : V3) (res : ℝ) : Pt → V3
  | .corner x y z => ⟨lo.x + x * res, lo.y + y * res, lo.z + z * res⟩
  | .centre x y z => ⟨lo.x + (x + 1 / 2) * res, lo.y + (y + 1 / 2) * res, lo.z + (z + 1 / 2) * res⟩

/-- Six times the signed volume of a tetrahedron in space. -/
noncomputable def volume6 (X P Q Y : V3) : ℝ :=
  let p := V3.sub P X
  let q := V3.sub Q X
  let y := V3.sub Y X
  (p.y * q.z - p.z * q.y) * y.x + (p.z * q.x - p.x * q.z) * y.y + (p.x * q.y - p.y * q.x) * y.z

end Bcc
end Spec
end Sdf
