import Verif.Model.NaiveTetra
import Mathlib.Tactic.Linarith
import Mathlib.Tactic.NormNum
import Mathlib.Tactic.FinCases

/-!
C66: the twelve naive tetrahedra of a cell fill its cube, without overlap, and fit those of the neighbouring cells.
-/

namespace Sdf.Bcc

/-- Where the nodes of a cubic cell are: `o` is the lowest corner, `L` the side. -/
noncomputable def cubeNode (o : V3) (L : ℝ) : Slot → V3
  | .i000 => ⟨o.x, o.y, o.z⟩
  | .ix00 => ⟨o.x + L, o.y, o.z⟩
  | .ixy0 => ⟨o.x + L, o.y + L, o.z⟩
  | .i0y0 => ⟨o.x, o.y + L, o.z⟩
  | .i00z => ⟨o.x, o.y, o.z + L⟩
  | .ix0z => ⟨o.x + L, o.y, o.z + L⟩
  | .ixyz => ⟨o.x + L, o.y + L, o.z + L⟩
  | .i0yz => ⟨o.x, o.y + L, o.z + L⟩
  | .ictr => ⟨o.x + L / 2, o.y + L / 2, o.z + L / 2⟩

/-- The point with the weights `a b c d` at the four corners. -/
def mixture (A B C D : V3) (a b c d : ℝ) : V3 :=
  ⟨a * A.x + b * B.x + c * C.x + d * D.x, a * A.y + b * B.y + c * C.y + d * D.y, a * A.z + b * B.z + c * C.z + d * D.z⟩

/-- The point is in the closed tetrahedron. -/
def InTet (A B C D p : V3) : Prop := ∃ a b c d : ℝ, 0 ≤ a ∧ 0 ≤ b ∧ 0 ≤ c ∧ 0 ≤ d ∧ a + b + c + d = 1 ∧ p = mixture A B C D a b c d

/-- The point is in the interior of the tetrahedron. -/
def InTetInterior (A B C D p : V3) : Prop := ∃ a b c d : ℝ, 0 < a ∧ 0 < b ∧ 0 < c ∧ 0 < d ∧ a + b + c + d = 1 ∧ p = mixture A B C D a b c d

/-- Six times the signed volume of a tetrahedron. -/
def volume6 (A B C D : V3) : ℝ := V3.dot (V3.sub B A) (V3.cross (V3.sub C A) (V3.sub D A))

/-- Every node of the cell is where it should be. -/
def Placed (n : Node) (pos : ℤ → V3) (o : V3) (L : ℝ) : Prop := ∀ s, pos (n.bccnod s) = cubeNode o L s

/-- The predicate of the positions of the corners of a tetrahedron. -/
def At (pos : ℤ → V3) (t : Tet) (P : V3 → V3 → V3 → V3 → Prop) : Prop := P (pos t.1) (pos t.2.1) (pos t.2.2.1) (pos t.2.2.2)

/-- Twelve tetrahedra of the same volume, a twelfth of the cube, and all oriented alike. -/
theorem C66_equal_volumes (n : Node) (pos : ℤ → V3) (o : V3) (L : ℝ) (h : Placed n pos o L) :
    n.naiveTetras.length = 12 ∧ ∀ t ∈ n.naiveTetras, At pos t fun A B C D => volume6 A B C D / 6 = -(L * L * L / 12) := by
  refine ⟨rfl, ?_⟩
  intro t ht
  simp only [Node.naiveTetras, List.mem_cons, List.not_mem_nil, or_false] at ht
  rcases ht with rfl | rfl | rfl | rfl | rfl | rfl | rfl | rfl | rfl | rfl | rfl | rfl <;>
    simp only [At, h _, cubeNode, volume6, V3.dot, V3.cross, V3.sub] <;> ring

/-- They lie in the cube. -/
theorem C66_inside (n : Node) (pos : ℤ → V3) (o : V3) {L : ℝ} (hL : 0 < L) (h : Placed n pos o L) (t : Tet) (ht : t ∈ n.naiveTetras) (p : V3)
    (hp : At pos t fun A B C D => InTet A B C D p) :
    (o.x ≤ p.x ∧ p.x ≤ o.x + L) ∧ (o.y ≤ p.y ∧ p.y ≤ o.y + L) ∧ o.z ≤ p.z ∧ p.z ≤ o.z + L := by
  have key : ∀ (a b c d x A B C D : ℝ), 0 ≤ a → 0 ≤ b → 0 ≤ c → 0 ≤ d → a + b + c + d = 1 → (x ≤ A ∧ A ≤ x + L) → (x ≤ B ∧ B ≤ x + L) →
      (x ≤ C ∧ C ≤ x + L) → (x ≤ D ∧ D ≤ x + L) → x ≤ a * A + b * B + c * C + d * D ∧ a * A + b * B + c * C + d * D ≤ x + L := by
    intro a b c d x A B C D ha hb hc hd hs hA hB hC hD
    have e1 := mul_le_mul_of_nonneg_left hA.1 ha
    have e2 := mul_le_mul_of_nonneg_left hB.1 hb
    have e3 := mul_le_mul_of_nonneg_left hC.1 hc
    have e4 := mul_le_mul_of_nonneg_left hD.1 hd
    have f1 := mul_le_mul_of_nonneg_left hA.2 ha
    have f2 := mul_le_mul_of_nonneg_left hB.2 hb
    have f3 := mul_le_mul_of_nonneg_left hC.2 hc
    have f4 := mul_le_mul_of_nonneg_left hD.2 hd
    have : a * x + b * x + c * x + d * x = x := by rw [← add_mul, ← add_mul, ← add_mul, hs, one_mul]
    have : a * (x + L) + b * (x + L) + c * (x + L) + d * (x + L) = x + L := by rw [← add_mul, ← add_mul, ← add_mul, hs, one_mul]
    constructor <;> linarith
  have cn : ∀ s, (o.x ≤ (cubeNode o L s).x ∧ (cubeNode o L s).x ≤ o.x + L) ∧ (o.y ≤ (cubeNode o L s).y ∧ (cubeNode o L s).y ≤ o.y + L) ∧
      (o.z ≤ (cubeNode o L s).z ∧ (cubeNode o L s).z ≤ o.z + L) := by
    intro s
    cases s <;> simp only [cubeNode] <;> and_intros <;> linarith
  obtain ⟨s1, s2, s3, s4, rfl⟩ : ∃ s1 s2 s3 s4, t = (n.bccnod s1, n.bccnod s2, n.bccnod s3, n.bccnod s4) := by
    simp only [Node.naiveTetras, List.mem_cons, List.not_mem_nil, or_false] at ht
    rcases ht with rfl | rfl | rfl | rfl | rfl | rfl | rfl | rfl | rfl | rfl | rfl | rfl <;> exact ⟨_, _, _, _, rfl⟩
  simp only [At, h _] at hp
  obtain ⟨a, b, c, d, ha, hb, hc, hd, hs, rfl⟩ := hp
  exact ⟨key _ _ _ _ _ _ _ _ _ ha hb hc hd hs (cn s1).1 (cn s2).1 (cn s3).1 (cn s4).1,
    key _ _ _ _ _ _ _ _ _ ha hb hc hd hs (cn s1).2.1 (cn s2).2.1 (cn s3).2.1 (cn s4).2.1,
    key _ _ _ _ _ _ _ _ _ ha hb hc hd hs (cn s1).2.2 (cn s2).2.2 (cn s3).2.2 (cn s4).2.2⟩

/-- A corner of the unit cube as numbers. -/
noncomputable def unitNode (s : Slot) : V3 := cubeNode ⟨0, 0, 0⟩ 1 s

theorem cubeNode_unit (o : V3) (L : ℝ) (s : Slot) : cubeNode o L s = V3.add o (V3.scale L (unitNode s)) := by
  cases s <;> simp only [unitNode, cubeNode, V3.add, V3.scale] <;> ext <;> simp only <;> ring

theorem mixture_unit (o : V3) (L : ℝ) (s1 s2 s3 s4 : Slot) {a b c d : ℝ} (hs : a + b + c + d = 1) :
    mixture (cubeNode o L s1) (cubeNode o L s2) (cubeNode o L s3) (cubeNode o L s4) a b c d
      = V3.add o (V3.scale L (mixture (unitNode s1) (unitNode s2) (unitNode s3) (unitNode s4) a b c d)) := by
  have : d = 1 - a - b - c := by linarith
  subst this
  simp only [cubeNode_unit, mixture, V3.add, V3.scale]
  ext <;> simp only <;> ring

/-- Coordinates relative to the cube. -/
theorem exists_unit (o : V3) {L : ℝ} (hL : 0 < L) (p : V3) : ∃ u, p = V3.add o (V3.scale L u) := by
  refine ⟨⟨(p.x - o.x) / L, (p.y - o.y) / L, (p.z - o.z) / L⟩, ?_⟩
  have : ∀ x y : ℝ, x = y + L * ((x - y) / L) := by intro x y; field_simp; ring
  ext <;> simp only [V3.add, V3.scale] <;> exact this _ _

theorem unit_cover (x y z : ℝ) (hx0 : 0 ≤ x) (hx1 : x ≤ 1) (hy0 : 0 ≤ y) (hy1 : y ≤ 1) (hz0 : 0 ≤ z) (hz1 : z ≤ 1) (n : Node) :
    ∃ s1 s2 s3 s4, (n.bccnod s1, n.bccnod s2, n.bccnod s3, n.bccnod s4) ∈ n.naiveTetras ∧
      InTet (unitNode s1) (unitNode s2) (unitNode s3) (unitNode s4) ⟨x, y, z⟩ := by
  have mk : ∀ (s1 s2 s3 s4 : Slot) (a b c d : ℝ), 0 ≤ a → 0 ≤ b → 0 ≤ c → 0 ≤ d → a + b + c + d = 1 →
      mixture (unitNode s1) (unitNode s2) (unitNode s3) (unitNode s4) a b c d = ⟨x, y, z⟩ →
      (n.bccnod s1, n.bccnod s2, n.bccnod s3, n.bccnod s4) ∈ n.naiveTetras →
      ∃ s1 s2 s3 s4, (n.bccnod s1, n.bccnod s2, n.bccnod s3, n.bccnod s4) ∈ n.naiveTetras ∧
      InTet (unitNode s1) (unitNode s2) (unitNode s3) (unitNode s4) ⟨x, y, z⟩ :=
    fun s1 s2 s3 s4 a b c d ha hb hc hd hs he hm => ⟨s1, s2, s3, s4, hm, a, b, c, d, ha, hb, hc, hd, hs, he.symm⟩
  -- the side the point is nearest to, then the half of that side
  by_cases X0 : x ≤ y ∧ x ≤ z ∧ x + y ≤ 1 ∧ x + z ≤ 1
  · rcases le_total z y with h | h
    · refine mk .i000 .i0yz .i0y0 .ictr (1 - x - y) (z - x) (y - z) (2 * x) ?_ ?_ ?_ ?_ ?_ ?_ (by simp [Node.naiveTetras]) <;>
        first | linarith | (simp only [mixture, unitNode, cubeNode]; ext <;> simp only <;> ring)
    · refine mk .i000 .i00z .i0yz .ictr (1 - x - z) (z - y) (y - x) (2 * x) ?_ ?_ ?_ ?_ ?_ ?_ (by simp [Node.naiveTetras]) <;>
        first | linarith | (simp only [mixture, unitNode, cubeNode]; ext <;> simp only <;> ring)
  · by_cases X1 : y ≤ x ∧ z ≤ x ∧ 1 ≤ x + y ∧ 1 ≤ x + z
    · rcases le_total z y with h | h
      · refine mk .ix00 .ixy0 .ixyz .ictr (x - y) (y - z) (x + z - 1) (2 * (1 - x)) ?_ ?_ ?_ ?_ ?_ ?_ (by simp [Node.naiveTetras]) <;>
          first | linarith | (simp only [mixture, unitNode, cubeNode]; ext <;> simp only <;> ring)
      · refine mk .ix00 .ixyz .ix0z .ictr (x - z) (x + y - 1) (z - y) (2 * (1 - x)) ?_ ?_ ?_ ?_ ?_ ?_ (by simp [Node.naiveTetras]) <;>
          first | linarith | (simp only [mixture, unitNode, cubeNode]; ext <;> simp only <;> ring)
    · by_cases Y0 : y ≤ x ∧ y ≤ z ∧ x + y ≤ 1 ∧ y + z ≤ 1
      · rcases le_total x z with h | h
        · refine mk .i000 .ix0z .i00z .ictr (1 - y - z) (x - y) (z - x) (2 * y) ?_ ?_ ?_ ?_ ?_ ?_ (by simp [Node.naiveTetras]) <;>
            first | linarith | (simp only [mixture, unitNode, cubeNode]; ext <;> simp only <;> ring)
        · refine mk .i000 .ix00 .ix0z .ictr (1 - x - y) (x - z) (z - y) (2 * y) ?_ ?_ ?_ ?_ ?_ ?_ (by simp [Node.naiveTetras]) <;>
            first | linarith | (simp only [mixture, unitNode, cubeNode]; ext <;> simp only <;> ring)
      · by_cases Y1 : x ≤ y ∧ z ≤ y ∧ 1 ≤ x + y ∧ 1 ≤ y + z
        · rcases le_total x z with h | h
          · refine mk .i0y0 .i0yz .ixyz .ictr (y - z) (z - x) (x + y - 1) (2 * (1 - y)) ?_ ?_ ?_ ?_ ?_ ?_ (by simp [Node.naiveTetras]) <;>
              first | linarith | (simp only [mixture, unitNode, cubeNode]; ext <;> simp only <;> ring)
          · refine mk .i0y0 .ixyz .ixy0 .ictr (y - x) (y + z - 1) (x - z) (2 * (1 - y)) ?_ ?_ ?_ ?_ ?_ ?_ (by simp [Node.naiveTetras]) <;>
              first | linarith | (simp only [mixture, unitNode, cubeNode]; ext <;> simp only <;> ring)
        · by_cases Z0 : z ≤ x ∧ z ≤ y ∧ x + z ≤ 1 ∧ y + z ≤ 1
          · rcases le_total y x with h | h
            · refine mk .i000 .ixy0 .ix00 .ictr (1 - x - z) (y - z) (x - y) (2 * z) ?_ ?_ ?_ ?_ ?_ ?_ (by simp [Node.naiveTetras]) <;>
                first | linarith | (simp only [mixture, unitNode, cubeNode]; ext <;> simp only <;> ring)
            · refine mk .i000 .i0y0 .ixy0 .ictr (1 - y - z) (y - x) (x - z) (2 * z) ?_ ?_ ?_ ?_ ?_ ?_ (by simp [Node.naiveTetras]) <;>
                first | linarith | (simp only [mixture, unitNode, cubeNode]; ext <;> simp only <;> ring)
          · have Z1 : x ≤ z ∧ y ≤ z ∧ 1 ≤ x + z ∧ 1 ≤ y + z := by
              rcases le_total x y with a | a <;> rcases le_total x z with b | b <;> rcases le_total y z with c | c <;>
                rcases le_total (x + y) 1 with d | d <;> rcases le_total (x + z) 1 with e | e <;> rcases le_total (y + z) 1 with f | f <;>
                first
                | (and_intros <;> assumption)
                | (exfalso; apply X0; and_intros <;> assumption)
                | (exfalso; apply X1; and_intros <;> assumption)
                | (exfalso; apply Y0; and_intros <;> assumption)
                | (exfalso; apply Y1; and_intros <;> assumption)
                | (exfalso; apply Z0; and_intros <;> assumption)
                | (exfalso; apply X0; and_intros <;> linarith)
                | (exfalso; apply X1; and_intros <;> linarith)
            obtain ⟨z1, z2, z3, z4⟩ := Z1
            rcases le_total y x with h | h
            · refine mk .i00z .ix0z .ixyz .ictr (z - x) (x - y) (y + z - 1) (2 * (1 - z)) ?_ ?_ ?_ ?_ ?_ ?_ (by simp [Node.naiveTetras]) <;>
                first | linarith | (simp only [mixture, unitNode, cubeNode]; ext <;> simp only <;> ring)
            · refine mk .i00z .ixyz .i0yz .ictr (z - y) (x + z - 1) (y - x) (2 * (1 - z)) ?_ ?_ ?_ ?_ ?_ ?_ (by simp [Node.naiveTetras]) <;>
                first | linarith | (simp only [mixture, unitNode, cubeNode]; ext <;> simp only <;> ring)

/-- Every point of the cube is in one of them. -/
theorem C66_cover (n : Node) (pos : ℤ → V3) (o : V3) {L : ℝ} (hL : 0 < L) (h : Placed n pos o L) (p : V3)
    (hx : o.x ≤ p.x ∧ p.x ≤ o.x + L) (hy : o.y ≤ p.y ∧ p.y ≤ o.y + L) (hz : o.z ≤ p.z ∧ p.z ≤ o.z + L) :
    ∃ t ∈ n.naiveTetras, At pos t fun A B C D => InTet A B C D p := by
  obtain ⟨⟨x, y, z⟩, rfl⟩ := exists_unit o hL p
  simp only [V3.add, V3.scale] at hx hy hz
  have lo : ∀ c u : ℝ, c ≤ c + L * u → 0 ≤ u := fun c u hh => by
    have : 0 ≤ L * u := by linarith
    exact nonneg_of_mul_nonneg_right this hL
  have hi : ∀ c u : ℝ, c + L * u ≤ c + L → u ≤ 1 := fun c u hh => by
    have : L * u ≤ L * 1 := by linarith
    exact le_of_mul_le_mul_left this hL
  obtain ⟨s1, s2, s3, s4, hm, a, b, c, d, ha, hb, hc, hd, hs, he⟩ := unit_cover x y z (lo _ _ hx.1) (hi _ _ hx.2) (lo _ _ hy.1) (hi _ _ hy.2)
    (lo _ _ hz.1) (hi _ _ hz.2) n
  refine ⟨_, hm, a, b, c, d, ha, hb, hc, hd, hs, ?_⟩
  simp only [h _]
  rw [mixture_unit o L s1 s2 s3 s4 hs, ← he]

/-- What the interior of each tetrahedron of the unit cube looks like. -/
theorem unit_interior {s1 s2 s3 s4 : Slot} {x y z : ℝ} (h : InTetInterior (unitNode s1) (unitNode s2) (unitNode s3) (unitNode s4) ⟨x, y, z⟩) :
    ∃ a b c d : ℝ, 0 < a ∧ 0 < b ∧ 0 < c ∧ 0 < d ∧ a + b + c + d = 1 ∧
      x = a * (unitNode s1).x + b * (unitNode s2).x + c * (unitNode s3).x + d * (unitNode s4).x ∧
      y = a * (unitNode s1).y + b * (unitNode s2).y + c * (unitNode s3).y + d * (unitNode s4).y ∧
      z = a * (unitNode s1).z + b * (unitNode s2).z + c * (unitNode s3).z + d * (unitNode s4).z := by
  obtain ⟨a, b, c, d, ha, hb, hc, hd, hs, he⟩ := h
  simp only [mixture, V3.mk.injEq] at he
  exact ⟨a, b, c, d, ha, hb, hc, hd, hs, he⟩

/-- Two different tetrahedra have no interior point in common. -/
theorem C66_disjoint (n : Node) (pos : ℤ → V3) (o : V3) {L : ℝ} (hL : 0 < L) (h : Placed n pos o L) (t t' : Tet) (ht : t ∈ n.naiveTetras)
    (ht' : t' ∈ n.naiveTetras) (p : V3) (hp : At pos t fun A B C D => InTetInterior A B C D p)
    (hp' : At pos t' fun A B C D => InTetInterior A B C D p) : t = t' := by
  obtain ⟨⟨x, y, z⟩, rfl⟩ := exists_unit o hL p
  have red : ∀ s1 s2 s3 s4, InTetInterior (pos (n.bccnod s1)) (pos (n.bccnod s2)) (pos (n.bccnod s3)) (pos (n.bccnod s4))
      (V3.add o (V3.scale L ⟨x, y, z⟩)) → InTetInterior (unitNode s1) (unitNode s2) (unitNode s3) (unitNode s4) ⟨x, y, z⟩ := by
    rintro s1 s2 s3 s4 ⟨a, b, c, d, ha, hb, hc, hd, hs, he⟩
    refine ⟨a, b, c, d, ha, hb, hc, hd, hs, ?_⟩
    simp only [h _] at he
    rw [mixture_unit o L s1 s2 s3 s4 hs] at he
    simp only [V3.add, V3.scale, V3.mk.injEq, add_right_inj, mul_eq_mul_left_iff, hL.ne', or_false] at he
    ext
    · exact he.1
    · exact he.2.1
    · exact he.2.2
  -- the side of the cube a tetrahedron stands on, and its half, as inequalities
  have shape : ∀ t ∈ n.naiveTetras, (At pos t fun A B C D => InTetInterior A B C D (V3.add o (V3.scale L ⟨x, y, z⟩))) →
      (t = (n.bccnod .i000, n.bccnod .i0yz, n.bccnod .i0y0, n.bccnod .ictr) ∧ x < z ∧ z < y ∧ x + y < 1) ∨
      (t = (n.bccnod .i000, n.bccnod .i00z, n.bccnod .i0yz, n.bccnod .ictr) ∧ x < y ∧ y < z ∧ x + z < 1) ∨
      (t = (n.bccnod .ix00, n.bccnod .ixy0, n.bccnod .ixyz, n.bccnod .ictr) ∧ z < y ∧ y < x ∧ 1 < x + z) ∨
      (t = (n.bccnod .ix00, n.bccnod .ixyz, n.bccnod .ix0z, n.bccnod .ictr) ∧ y < z ∧ z < x ∧ 1 < x + y) ∨
      (t = (n.bccnod .i000, n.bccnod .ix0z, n.bccnod .i00z, n.bccnod .ictr) ∧ y < x ∧ x < z ∧ y + z < 1) ∨
      (t = (n.bccnod .i000, n.bccnod .ix00, n.bccnod .ix0z, n.bccnod .ictr) ∧ y < z ∧ z < x ∧ x + y < 1) ∨
      (t = (n.bccnod .i0y0, n.bccnod .i0yz, n.bccnod .ixyz, n.bccnod .ictr) ∧ x < z ∧ z < y ∧ 1 < x + y) ∨
      (t = (n.bccnod .i0y0, n.bccnod .ixyz, n.bccnod .ixy0, n.bccnod .ictr) ∧ z < x ∧ x < y ∧ 1 < y + z) ∨
      (t = (n.bccnod .i000, n.bccnod .ixy0, n.bccnod .ix00, n.bccnod .ictr) ∧ z < y ∧ y < x ∧ x + z < 1) ∨
      (t = (n.bccnod .i000, n.bccnod .i0y0, n.bccnod .ixy0, n.bccnod .ictr) ∧ z < x ∧ x < y ∧ y + z < 1) ∨
      (t = (n.bccnod .i00z, n.bccnod .ix0z, n.bccnod .ixyz, n.bccnod .ictr) ∧ y < x ∧ x < z ∧ 1 < y + z) ∨
      (t = (n.bccnod .i00z, n.bccnod .ixyz, n.bccnod .i0yz, n.bccnod .ictr) ∧ x < y ∧ y < z ∧ 1 < x + z) := by
    intro t ht hp
    simp only [Node.naiveTetras, List.mem_cons, List.not_mem_nil, or_false] at ht
    have fin : ∀ {s1 s2 s3 : Slot} {A B C : Prop}, InTetInterior (pos (n.bccnod s1)) (pos (n.bccnod s2)) (pos (n.bccnod s3)) (pos (n.bccnod .ictr))
        (V3.add o (V3.scale L ⟨x, y, z⟩)) → (∀ a b c d : ℝ, 0 < a → 0 < b → 0 < c → 0 < d → a + b + c + d = 1 →
      x = a * (unitNode s1).x + b * (unitNode s2).x + c * (unitNode s3).x + d * (1 / 2) →
      y = a * (unitNode s1).y + b * (unitNode s2).y + c * (unitNode s3).y + d * (1 / 2) →
      z = a * (unitNode s1).z + b * (unitNode s2).z + c * (unitNode s3).z + d * (1 / 2) → A ∧ B ∧ C) → A ∧ B ∧ C := by
      intro s1 s2 s3 A B C hh hk
      obtain ⟨a, b, c, d, ha, hb, hc, hd, hs, hx, hy, hz⟩ := unit_interior (red _ _ _ _ hh)
      have hctr : unitNode .ictr = ⟨1 / 2, 1 / 2, 1 / 2⟩ := by simp only [unitNode, cubeNode, zero_add]
      rw [hctr] at hx hy hz
      exact hk a b c d ha hb hc hd hs hx hy hz
    rcases ht with h | h | h | h | h | h | h | h | h | h | h | h
    · refine Or.inl ⟨h, ?_⟩
      subst h; refine fin hp ?_
      intro a b c d ha hb hc hd hs hx hy hz
      simp only [unitNode, cubeNode] at hx hy hz
      and_intros <;> linarith
    · refine Or.inr (Or.inl ⟨h, ?_⟩)
      subst h; refine fin hp ?_
      intro a b c d ha hb hc hd hs hx hy hz
      simp only [unitNode, cubeNode] at hx hy hz
      and_intros <;> linarith
    · refine Or.inr (Or.inr (Or.inl ⟨h, ?_⟩))
      subst h; refine fin hp ?_
      intro a b c d ha hb hc hd hs hx hy hz
      simp only [unitNode, cubeNode] at hx hy hz
      and_intros <;> linarith
    · refine Or.inr (Or.inr (Or.inr (Or.inl ⟨h, ?_⟩)))
      subst h; refine fin hp ?_
      intro a b c d ha hb hc hd hs hx hy hz
      simp only [unitNode, cubeNode] at hx hy hz
      and_intros <;> linarith
    · refine Or.inr (Or.inr (Or.inr (Or.inr (Or.inl ⟨h, ?_⟩))))
      subst h; refine fin hp ?_
      intro a b c d ha hb hc hd hs hx hy hz
      simp only [unitNode, cubeNode] at hx hy hz
      and_intros <;> linarith
    · refine Or.inr (Or.inr (Or.inr (Or.inr (Or.inr (Or.inl ⟨h, ?_⟩)))))
      subst h; refine fin hp ?_
      intro a b c d ha hb hc hd hs hx hy hz
      simp only [unitNode, cubeNode] at hx hy hz
      and_intros <;> linarith
    · refine Or.inr (Or.inr (Or.inr (Or.inr (Or.inr (Or.inr (Or.inl ⟨h, ?_⟩))))))
      subst h; refine fin hp ?_
      intro a b c d ha hb hc hd hs hx hy hz
      simp only [unitNode, cubeNode] at hx hy hz
      and_intros <;> linarith
    · refine Or.inr (Or.inr (Or.inr (Or.inr (Or.inr (Or.inr (Or.inr (Or.inl ⟨h, ?_⟩)))))))
      subst h; refine fin hp ?_
      intro a b c d ha hb hc hd hs hx hy hz
      simp only [unitNode, cubeNode] at hx hy hz
      and_intros <;> linarith
    · refine Or.inr (Or.inr (Or.inr (Or.inr (Or.inr (Or.inr (Or.inr (Or.inr (Or.inl ⟨h, ?_⟩))))))))
      subst h; refine fin hp ?_
      intro a b c d ha hb hc hd hs hx hy hz
      simp only [unitNode, cubeNode] at hx hy hz
      and_intros <;> linarith
    · refine Or.inr (Or.inr (Or.inr (Or.inr (Or.inr (Or.inr (Or.inr (Or.inr (Or.inr (Or.inl ⟨h, ?_⟩)))))))))
      subst h; refine fin hp ?_
      intro a b c d ha hb hc hd hs hx hy hz
      simp only [unitNode, cubeNode] at hx hy hz
      and_intros <;> linarith
    · refine Or.inr (Or.inr (Or.inr (Or.inr (Or.inr (Or.inr (Or.inr (Or.inr (Or.inr (Or.inr (Or.inl ⟨h, ?_⟩))))))))))
      subst h; refine fin hp ?_
      intro a b c d ha hb hc hd hs hx hy hz
      simp only [unitNode, cubeNode] at hx hy hz
      and_intros <;> linarith
    · refine Or.inr (Or.inr (Or.inr (Or.inr (Or.inr (Or.inr (Or.inr (Or.inr (Or.inr (Or.inr (Or.inr ⟨h, ?_⟩))))))))))
      subst h; refine fin hp ?_
      intro a b c d ha hb hc hd hs hx hy hz
      simp only [unitNode, cubeNode] at hx hy hz
      and_intros <;> linarith
  rcases shape t ht hp with h | h | h | h | h | h | h | h | h | h | h | h <;>
    rcases shape t' ht' hp' with h' | h' | h' | h' | h' | h' | h' | h' | h' | h' | h' | h' <;>
    first
    | exact h.1.trans h'.1.symm
    | (exfalso; linarith [h.2.1, h.2.2.1, h.2.2.2, h'.2.1, h'.2.2.1, h'.2.2.2])

/-- The three corners of a tetrahedron other than the centre of the cell. -/
def outerCorners (pos : ℤ → V3) (t : Tet) : List V3 := [pos t.1, pos t.2.1, pos t.2.2.1]

/-- Neighbouring cells fit together: the triangles in which the tetrahedra of a cell meet the side they share with the next cell in the direction
of x, y or z are triangles of the tetrahedra of that cell as well. -/
theorem C66_fit (n n' : Node) (pos : ℤ → V3) (o o' : V3) {L : ℝ} (hL : 0 < L) (h : Placed n pos o L) (h' : Placed n' pos o' L)
    (t : Tet) (ht : t ∈ n.naiveTetras)
    (hside : (o' = ⟨o.x + L, o.y, o.z⟩ ∧ ∀ q ∈ outerCorners pos t, q.x = o.x + L) ∨
      (o' = ⟨o.x, o.y + L, o.z⟩ ∧ ∀ q ∈ outerCorners pos t, q.y = o.y + L) ∨
      (o' = ⟨o.x, o.y, o.z + L⟩ ∧ ∀ q ∈ outerCorners pos t, q.z = o.z + L)) :
    ∃ t' ∈ n'.naiveTetras, (outerCorners pos t').Perm (outerCorners pos t) := by
  have out : ∀ s1 s2 s3 : Slot, outerCorners pos (n.bccnod s1, n.bccnod s2, n.bccnod s3, n.bccnod .ictr) =
      [cubeNode o L s1, cubeNode o L s2, cubeNode o L s3] := by
    intro s1 s2 s3; simp only [outerCorners, h _]
  have out' : ∀ s1 s2 s3 : Slot, outerCorners pos (n'.bccnod s1, n'.bccnod s2, n'.bccnod s3, n'.bccnod .ictr) =
      [cubeNode o' L s1, cubeNode o' L s2, cubeNode o' L s3] := by
    intro s1 s2 s3; simp only [outerCorners, h' _]
  simp only [Node.naiveTetras, List.mem_cons, List.not_mem_nil, or_false] at ht
  have perm : ∀ a b c : V3, [a, c, b].Perm [a, b, c] := fun a b c => (List.Perm.swap b c []).cons a
  rcases hside with ⟨rfl, hq⟩ | ⟨rfl, hq⟩ | ⟨rfl, hq⟩
  · rcases ht with rfl | rfl | rfl | rfl | rfl | rfl | rfl | rfl | rfl | rfl | rfl | rfl <;> rw [out] at hq ⊢ <;>
      simp only [List.mem_cons, List.not_mem_nil, or_false, forall_eq_or_imp, forall_eq, cubeNode] at hq <;>
      first
      | (exfalso; linarith [hq.1, hq.2.1, hq.2.2])
      | exact ⟨(n'.bccnod .i000, n'.bccnod .i0yz, n'.bccnod .i0y0, n'.bccnod .ictr), by simp [Node.naiveTetras], by rw [out']; exact perm _ _ _⟩
      | exact ⟨(n'.bccnod .i000, n'.bccnod .i00z, n'.bccnod .i0yz, n'.bccnod .ictr), by simp [Node.naiveTetras], by rw [out']; exact perm _ _ _⟩
  · rcases ht with rfl | rfl | rfl | rfl | rfl | rfl | rfl | rfl | rfl | rfl | rfl | rfl <;> rw [out] at hq ⊢ <;>
      simp only [List.mem_cons, List.not_mem_nil, or_false, forall_eq_or_imp, forall_eq, cubeNode] at hq <;>
      first
      | (exfalso; linarith [hq.1, hq.2.1, hq.2.2])
      | exact ⟨(n'.bccnod .i000, n'.bccnod .ix0z, n'.bccnod .i00z, n'.bccnod .ictr), by simp [Node.naiveTetras], by rw [out']; exact perm _ _ _⟩
      | exact ⟨(n'.bccnod .i000, n'.bccnod .ix00, n'.bccnod .ix0z, n'.bccnod .ictr), by simp [Node.naiveTetras], by rw [out']; exact perm _ _ _⟩
  · rcases ht with rfl | rfl | rfl | rfl | rfl | rfl | rfl | rfl | rfl | rfl | rfl | rfl <;> rw [out] at hq ⊢ <;>
      simp only [List.mem_cons, List.not_mem_nil, or_false, forall_eq_or_imp, forall_eq, cubeNode] at hq <;>
      first
      | (exfalso; linarith [hq.1, hq.2.1, hq.2.2])
      | exact ⟨(n'.bccnod .i000, n'.bccnod .ixy0, n'.bccnod .ix00, n'.bccnod .ictr), by simp [Node.naiveTetras], by rw [out']; exact perm _ _ _⟩
      | exact ⟨(n'.bccnod .i000, n'.bccnod .i0y0, n'.bccnod .ixy0, n'.bccnod .ictr), by simp [Node.naiveTetras], by rw [out']; exact perm _ _ _⟩

/-- A cell that is placed: the nodes of the unit cube, numbered in order. -/
example : ∃ (n : Node) (pos : ℤ → V3), Placed n pos ⟨0, 0, 0⟩ 1 ∧ n.naiveTetras.length = 12 := by
  refine ⟨{ Node.zero with bccnod := fun s => s.index }, fun i => match i with
    | 0 => cubeNode ⟨0, 0, 0⟩ 1 .i000 | 1 => cubeNode ⟨0, 0, 0⟩ 1 .ix00 | 2 => cubeNode ⟨0, 0, 0⟩ 1 .ixy0 | 3 => cubeNode ⟨0, 0, 0⟩ 1 .i0y0
    | 4 => cubeNode ⟨0, 0, 0⟩ 1 .i00z | 5 => cubeNode ⟨0, 0, 0⟩ 1 .ix0z | 6 => cubeNode ⟨0, 0, 0⟩ 1 .ixyz | 7 => cubeNode ⟨0, 0, 0⟩ 1 .i0yz
    | _ => cubeNode ⟨0, 0, 0⟩ 1 .ictr, ?_, rfl⟩
  intro s
  cases s <;> rfl

end Sdf.Bcc
