import Verif.Model.Bcc
import Verif.Spec.Bcc
import Mathlib.Tactic

/-!
C43: the numbering of the nodes of a body-centred cubic mesh.
-/

namespace Sdf
namespace Bcc
open Spec.Bcc

/-! ### Cells and addresses -/

/-- Cells of the grid. -/
def G (d0 d1 d2 : ℤ) (c : Cell) : Prop := InGrid d0 d1 d2 (.centre c.i c.j c.k)

theorem mem_cells {d0 d1 d2 : ℤ} {c : Cell} : c ∈ cells d0 d1 d2 ↔ G d0 d1 d2 c := by
  obtain ⟨i, j, k⟩ := c
  simp only [cells, List.mem_flatMap, List.mem_range, List.mem_map, G, InGrid, Cell.mk.injEq]
  constructor
  · rintro ⟨a, ha, b, hb, e, he, rfl, rfl, rfl⟩
    omega
  · rintro ⟨h1, h2, h3, h4, h5, h6⟩
    exact ⟨i.toNat, by omega, j.toNat, by omega, k.toNat, by omega, by omega, by omega, by omega⟩

/-- The order in which cells are visited. -/
def Lex (a b : Cell) : Prop := a.i < b.i ∨ (a.i = b.i ∧ (a.j < b.j ∨ (a.j = b.j ∧ a.k < b.k)))

theorem cells_sorted (d0 d1 d2 : ℤ) : (cells d0 d1 d2).Pairwise Lex := by
  unfold cells
  rw [List.pairwise_flatMap]
  refine ⟨fun i _ => ?_, ?_⟩
  · rw [List.pairwise_flatMap]
    refine ⟨fun j _ => ?_, ?_⟩
    · rw [List.pairwise_map]
      exact List.pairwise_lt_range.imp (fun h => Or.inr ⟨rfl, Or.inr ⟨rfl, Int.ofNat_lt.2 h⟩⟩)
    · refine List.pairwise_lt_range.imp (fun {a b} h => ?_)
      simp only [List.mem_map, List.mem_range]
      rintro x ⟨k, _, rfl⟩ y ⟨k', _, rfl⟩
      exact Or.inr ⟨rfl, Or.inl (Int.ofNat_lt.2 h)⟩
  · refine List.pairwise_lt_range.imp (fun {a b} h => ?_)
    simp only [List.mem_flatMap, List.mem_map, List.mem_range]
    rintro x ⟨j, _, k, _, rfl⟩ y ⟨j', _, k', _, rfl⟩
    exact Or.inl (Int.ofNat_lt.2 h)

theorem Lex.irrefl {c : Cell} (h : Lex c c) : False := by simp only [Lex] at h; omega

theorem lex_total {c c' : Cell} (h : c ≠ c') : Lex c c' ∨ Lex c' c := by
  obtain ⟨i, j, k⟩ := c
  obtain ⟨i', j', k'⟩ := c'
  simp only [ne_eq, Cell.mk.injEq] at h
  simp only [Lex]
  omega

theorem lex_asymm {c c' : Cell} (h : Lex c c') (h' : Lex c' c) : False := by simp only [Lex] at h h'; omega

/-- The cells visited before a cell are the ones that come first in the order. -/
theorem mem_before {d0 d1 d2 : ℤ} {pre post : List Cell} {c : Cell} (h : cells d0 d1 d2 = pre ++ c :: post) (c' : Cell) :
    c' ∈ pre ↔ G d0 d1 d2 c' ∧ Lex c' c := by
  have hs := cells_sorted d0 d1 d2
  rw [h, List.pairwise_append, List.pairwise_cons] at hs
  obtain ⟨-, ⟨h2, -⟩, h3⟩ := hs
  constructor
  · intro hm
    exact ⟨mem_cells.1 (by rw [h]; simp [hm]), h3 _ hm _ (by simp)⟩
  · rintro ⟨hg, hl⟩
    have hm := mem_cells.2 hg
    rw [h, List.mem_append, List.mem_cons] at hm
    rcases hm with hm | rfl | hm
    · exact hm
    · exact absurd hl (fun h => h.irrefl)
    · exact absurd (h2 _ hm) (fun h => lex_asymm h hl)

/-- Address of a cell. -/
def addr (d1 d2 : ℤ) (c : Cell) : ℕ := (c.i * d1 * d2 + c.j * d2 + c.k).toNat

theorem div_mod_unique {a a' k k' d : ℤ} (hk : 0 ≤ k) (hkd : k < d) (hk' : 0 ≤ k') (hkd' : k' < d) (h : a * d + k = a' * d + k') :
    a = a' ∧ k = k' := by
  have hd : 0 < d := by omega
  have h1 : (a * d + k) / d = a := by
    rw [add_comm, Int.add_mul_ediv_right _ _ (by omega), Int.ediv_eq_zero_of_lt hk hkd, zero_add]
  have h2 : (a' * d + k') / d = a' := by
    rw [add_comm, Int.add_mul_ediv_right _ _ (by omega), Int.ediv_eq_zero_of_lt hk' hkd', zero_add]
  have : a = a' := by rw [← h1, h, h2]
  subst this
  exact ⟨rfl, by omega⟩

theorem addr_nonneg {d0 d1 d2 : ℤ} {c : Cell} (h : G d0 d1 d2 c) : 0 ≤ c.i * d1 * d2 + c.j * d2 + c.k := by
  simp only [G, InGrid] at h
  obtain ⟨h1, h2, h3, h4, h5, h6⟩ := h
  have : 0 ≤ d1 := by omega
  have : 0 ≤ d2 := by omega
  positivity

theorem addr_inj {d0 d1 d2 : ℤ} {c c' : Cell} (h : G d0 d1 d2 c) (h' : G d0 d1 d2 c') (he : addr d1 d2 c = addr d1 d2 c') : c = c' := by
  have e : c.i * d1 * d2 + c.j * d2 + c.k = c'.i * d1 * d2 + c'.j * d2 + c'.k := by
    have := addr_nonneg h
    have := addr_nonneg h'
    unfold addr at he
    omega
  obtain ⟨i, j, k⟩ := c
  obtain ⟨i', j', k'⟩ := c'
  simp only [G, InGrid] at h h' e
  have e2 : (i * d1 + j) * d2 + k = (i' * d1 + j') * d2 + k' := by linear_combination e
  obtain ⟨e3, e4⟩ := div_mod_unique (by omega) (by omega) (by omega) (by omega) e2
  obtain ⟨e5, e6⟩ := div_mod_unique (by omega) (by omega) (by omega) (by omega) e3
  simp [e4, e5, e6]

/-- `at` for given dimensions. -/
def atD (d0 d1 d2 : ℤ) (c : Cell) : Option ℕ := (Mat.mk (fun _ => Node.zero) d0 d1 d2).at c.i c.j c.k

theorem at_eq (m : Mat) (i j k : ℤ) : m.at i j k = atD m.d0 m.d1 m.d2 ⟨i, j, k⟩ := rfl

open Classical in
theorem atD_eq (d0 d1 d2 : ℤ) (c : Cell) : atD d0 d1 d2 c = if G d0 d1 d2 c then some (addr d1 d2 c) else none := by
  unfold atD Mat.at addr G InGrid
  dsimp only
  split_ifs <;> first | rfl | omega

theorem atD_some {d0 d1 d2 : ℤ} {c : Cell} {a : ℕ} (h : atD d0 d1 d2 c = some a) : G d0 d1 d2 c ∧ a = addr d1 d2 c := by
  classical
  rw [atD_eq] at h
  split_ifs at h with hg
  exact ⟨hg, (Option.some.inj h).symm⟩

theorem atD_of {d0 d1 d2 : ℤ} {c : Cell} (h : G d0 d1 d2 c) : atD d0 d1 d2 c = some (addr d1 d2 c) := by
  classical
  rw [atD_eq, if_pos h]

theorem atD_none {d0 d1 d2 : ℤ} {c : Cell} (h : ¬ G d0 d1 d2 c) : atD d0 d1 d2 c = none := by
  classical
  rw [atD_eq, if_neg h]

/-! ### Folding with a known prefix -/

theorem foldlM_prefix {α β : Type} (f : β → α → Option β) (L : List α) (Inv : List α → β → Prop)
    (hstep : ∀ pre c post st, L = pre ++ c :: post → Inv pre st → ∃ st', f st c = some st' ∧ Inv (pre ++ [c]) st') (st : β)
    (h0 : Inv [] st) : ∃ st', L.foldlM f st = some st' ∧ Inv L st' := by
  suffices H : ∀ (post pre : List α) (st : β), L = pre ++ post → Inv pre st → ∃ st', post.foldlM f st = some st' ∧ Inv L st' from
    H L [] st rfl h0
  intro post
  induction post with
  | nil =>
    intro pre st hL hI
    exact ⟨st, rfl, by rw [hL, List.append_nil]; exact hI⟩
  | cons c post ih =>
    intro pre st hL hI
    obtain ⟨st', h1, h2⟩ := hstep pre c post st hL hI
    obtain ⟨st'', h3, h4⟩ := ih (pre ++ [c]) st' (by rw [hL]; simp) h2
    exact ⟨st'', by rw [List.foldlM_cons, h1]; exact h3, h4⟩

/-! ### Building the cells -/

/-- A cell with all its links. -/
noncomputable def built (b : Box3) (res : ℝ) (d0 d1 d2 : ℤ) (c : Cell) : Node where
  bccnod := fun _ => -1
  pos := cellPos b res c
  xp := atD d0 d1 d2 ⟨c.i + 1, c.j, c.k⟩
  xm := atD d0 d1 d2 ⟨c.i - 1, c.j, c.k⟩
  yp := atD d0 d1 d2 ⟨c.i, c.j + 1, c.k⟩
  ym := atD d0 d1 d2 ⟨c.i, c.j - 1, c.k⟩
  zp := atD d0 d1 d2 ⟨c.i, c.j, c.k + 1⟩
  zm := atD d0 d1 d2 ⟨c.i, c.j, c.k - 1⟩
  hasMesh := true

theorem set_set (m : Mat) (a : ℕ) (n n' : Node) : (m.set a n).set a n' = m.set a n' := by
  simp [Mat.set]

theorem set_nodes (m : Mat) (a : ℕ) (n : Node) : (m.set a n).nodes a = n := by
  simp [Mat.set]

theorem set_nodes_ne (m : Mat) {a a' : ℕ} (h : a' ≠ a) (n : Node) : (m.set a n).nodes a' = m.nodes a' := by
  simp [Mat.set, Function.update_of_ne h]

theorem set_self (m : Mat) (a : ℕ) : m.set a (m.nodes a) = m := by
  simp [Mat.set]

theorem ifExists_same {m : Mat} {a : Option ℕ} {f : Node → Node}
    (h : ∀ a', a = some a' → (m.nodes a').hasMesh = true → f (m.nodes a') = m.nodes a') : m.ifExists a f = m := by
  unfold Mat.ifExists
  rcases a with _ | a
  · rfl
  · dsimp only
    split_ifs with hm
    · rw [h a rfl hm, set_self]
    · rfl

/-- What holds of the cells while they are being built: the ones visited are complete, the others are untouched. -/
def Building (b : Box3) (res : ℝ) (d0 d1 d2 : ℤ) (pre : List Cell) (m : Mat) : Prop :=
  (m.d0 = d0 ∧ m.d1 = d1 ∧ m.d2 = d2) ∧ (∀ c ∈ pre, m.nodes (addr d1 d2 c) = built b res d0 d1 d2 c) ∧
  ∀ c, G d0 d1 d2 c → c ∉ pre → (m.nodes (addr d1 d2 c)).hasMesh = false

theorem building_step {b : Box3} {res : ℝ} {d0 d1 d2 : ℤ} {pre post : List Cell} {c : Cell} {m : Mat}
    (hL : cells d0 d1 d2 = pre ++ c :: post) (h : Building b res d0 d1 d2 pre m) :
    m.setLevel0 c.i c.j c.k (freshNode b res c) = some (m.set (addr d1 d2 c) (built b res d0 d1 d2 c)) := by
  obtain ⟨⟨rfl, rfl, rfl⟩, hb, hu⟩ := h
  have hg : G m.d0 m.d1 m.d2 c := mem_cells.1 (by rw [hL]; simp)
  have key : ∀ (c' : Cell) (own back : Option ℕ → Node → Node) (n : Node), c' ≠ c →
      (back (some (addr m.d1 m.d2 c)) (built b res m.d0 m.d1 m.d2 c') = built b res m.d0 m.d1 m.d2 c') →
      (m.set (addr m.d1 m.d2 c) n).link (addr m.d1 m.d2 c) (atD m.d0 m.d1 m.d2 c') own back =
        m.set (addr m.d1 m.d2 c) (own (atD m.d0 m.d1 m.d2 c') n) := by
    intro c' own back n hne hf
    unfold Mat.link
    rw [set_nodes, set_set]
    apply ifExists_same
    intro a' ha' hm
    obtain ⟨hg', rfl⟩ := atD_some ha'
    have hna : addr m.d1 m.d2 c' ≠ addr m.d1 m.d2 c := fun e => hne (addr_inj hg' hg e)
    rw [set_nodes_ne m hna] at hm ⊢
    by_cases hp : c' ∈ pre
    · rw [hb c' hp, hf]
    · rw [hu c' hg' hp] at hm
      exact absurd hm (by simp)
  obtain ⟨i, j, k⟩ := c
  have hat : m.at i j k = some (addr m.d1 m.d2 ⟨i, j, k⟩) := by rw [at_eq, atD_of hg]
  have e := atD_of hg
  have d (n : Node) (i' j' k' : ℤ) : (m.set (addr m.d1 m.d2 ⟨i, j, k⟩) n).at i' j' k' = atD m.d0 m.d1 m.d2 ⟨i', j', k'⟩ := rfl
  unfold Mat.setLevel0
  rw [hat]
  dsimp only
  rw [d, key ⟨i - 1, j, k⟩ _ _ _ (by simp) (by simp [built, e])]
  rw [d, key ⟨i + 1, j, k⟩ _ _ _ (by simp) (by simp [built, e])]
  rw [d, key ⟨i, j - 1, k⟩ _ _ _ (by simp) (by simp [built, e])]
  rw [d, key ⟨i, j + 1, k⟩ _ _ _ (by simp) (by simp [built, e])]
  rw [d, key ⟨i, j, k - 1⟩ _ _ _ (by simp) (by simp [built, e])]
  rw [d, key ⟨i, j, k + 1⟩ _ _ _ (by simp) (by simp [built, e])]
  rfl

theorem built_cells (b : Box3) (res : ℝ) (d0 d1 d2 : ℤ) :
    ∃ m, (cells d0 d1 d2).foldlM (fun m c => m.setLevel0 c.i c.j c.k (freshNode b res c)) ⟨fun _ => Node.zero, d0, d1, d2⟩ = some m ∧
      Building b res d0 d1 d2 (cells d0 d1 d2) m := by
  apply foldlM_prefix _ _ (Building b res d0 d1 d2)
  · intro pre c post m hL hI
    refine ⟨_, building_step hL hI, ?_⟩
    have hg : G d0 d1 d2 c := mem_cells.1 (by rw [hL]; simp)
    obtain ⟨hd, hb, hu⟩ := hI
    refine ⟨hd, ?_, ?_⟩
    · intro c' hc'
      by_cases hcc : c' = c
      · rw [hcc, set_nodes]
      · have hp : c' ∈ pre := by simpa [hcc] using hc'
        have hg' : G d0 d1 d2 c' := mem_cells.1 (by rw [hL]; simp [hp])
        rw [set_nodes_ne _ (fun e => hcc (addr_inj hg' hg e)), hb c' hp]
    · intro c' hg' hc'
      simp only [List.mem_append, List.mem_singleton, not_or] at hc'
      rw [set_nodes_ne _ (fun e => hc'.2 (addr_inj hg' hg e)), hu c' hg' hc'.1]
  · exact ⟨⟨rfl, rfl, rfl⟩, by simp, fun c _ _ => rfl⟩

/-! ### Corners and lattice points -/

/-- Offsets of a corner within its cell. -/
def Slot.off : Slot → ℤ × ℤ × ℤ
  | .i000 => (0, 0, 0) | .ix00 => (1, 0, 0) | .ixy0 => (1, 1, 0) | .i0y0 => (0, 1, 0)
  | .i00z => (0, 0, 1) | .ix0z => (1, 0, 1) | .ixyz => (1, 1, 1) | .i0yz => (0, 1, 1) | .ictr => (0, 0, 0)

/-- The lattice point of a slot of a cell. -/
def pt (c : Cell) (s : Slot) : Pt :=
  if s = .ictr then .centre c.i c.j c.k else .corner (c.i + s.off.1) (c.j + s.off.2.1) (c.k + s.off.2.2)

theorem pt_inj {c : Cell} {s s' : Slot} (h : pt c s = pt c s') : s = s' := by
  revert h
  cases s <;> cases s' <;> simp [pt, Slot.off]

theorem pt_inGrid {d0 d1 d2 : ℤ} {c : Cell} (h : G d0 d1 d2 c) (s : Slot) : InGrid d0 d1 d2 (pt c s) := by
  simp only [G, InGrid] at h
  cases s <;> simp [pt, Slot.off, InGrid] <;> omega

theorem inGrid_pt {d0 d1 d2 : ℤ} (h0 : 0 < d0) (h1 : 0 < d1) (h2 : 0 < d2) {P : Pt} (h : InGrid d0 d1 d2 P) :
    ∃ c s, G d0 d1 d2 c ∧ pt c s = P := by
  rcases P with ⟨x, y, z⟩ | ⟨x, y, z⟩
  · simp only [InGrid] at h
    by_cases hx : x = 0 <;> by_cases hy : y = 0 <;> by_cases hz : z = 0
    · exact ⟨⟨0, 0, 0⟩, .i000, by simp only [G, InGrid]; omega, by simp [pt, Slot.off, hx, hy, hz]⟩
    · exact ⟨⟨0, 0, z - 1⟩, .i00z, by simp only [G, InGrid]; omega, by simp [pt, Slot.off, hx, hy]⟩
    · exact ⟨⟨0, y - 1, 0⟩, .i0y0, by simp only [G, InGrid]; omega, by simp [pt, Slot.off, hx, hz]⟩
    · exact ⟨⟨0, y - 1, z - 1⟩, .i0yz, by simp only [G, InGrid]; omega, by simp [pt, Slot.off, hx]⟩
    · exact ⟨⟨x - 1, 0, 0⟩, .ix00, by simp only [G, InGrid]; omega, by simp [pt, Slot.off, hy, hz]⟩
    · exact ⟨⟨x - 1, 0, z - 1⟩, .ix0z, by simp only [G, InGrid]; omega, by simp [pt, Slot.off, hy]⟩
    · exact ⟨⟨x - 1, y - 1, 0⟩, .ixy0, by simp only [G, InGrid]; omega, by simp [pt, Slot.off, hz]⟩
    · exact ⟨⟨x - 1, y - 1, z - 1⟩, .ixyz, by simp only [G, InGrid]; omega, by simp [pt, Slot.off]⟩
  · exact ⟨⟨x, y, z⟩, .ictr, h, by simp [pt]⟩

/-- The slots of the neighbouring cells that `neighborNode` looks at. -/
def adj (c : Cell) : Slot → (Cell × Slot) × (Cell × Slot) × (Cell × Slot)
  | .i000 => ((⟨c.i - 1, c.j, c.k⟩, .ix00), (⟨c.i, c.j - 1, c.k⟩, .i0y0), (⟨c.i, c.j, c.k - 1⟩, .i00z))
  | .ix00 => ((⟨c.i + 1, c.j, c.k⟩, .i000), (⟨c.i, c.j - 1, c.k⟩, .ixy0), (⟨c.i, c.j, c.k - 1⟩, .ix0z))
  | .ixy0 => ((⟨c.i + 1, c.j, c.k⟩, .i0y0), (⟨c.i, c.j + 1, c.k⟩, .ix00), (⟨c.i, c.j, c.k - 1⟩, .ixyz))
  | .i0y0 => ((⟨c.i - 1, c.j, c.k⟩, .ixy0), (⟨c.i, c.j + 1, c.k⟩, .i000), (⟨c.i, c.j, c.k - 1⟩, .i0yz))
  | .i00z => ((⟨c.i - 1, c.j, c.k⟩, .ix0z), (⟨c.i, c.j - 1, c.k⟩, .i0yz), (⟨c.i, c.j, c.k + 1⟩, .i000))
  | .ix0z => ((⟨c.i + 1, c.j, c.k⟩, .i00z), (⟨c.i, c.j - 1, c.k⟩, .ixyz), (⟨c.i, c.j, c.k + 1⟩, .ix00))
  | .ixyz => ((⟨c.i + 1, c.j, c.k⟩, .i0yz), (⟨c.i, c.j + 1, c.k⟩, .ix0z), (⟨c.i, c.j, c.k + 1⟩, .ixy0))
  | .i0yz => ((⟨c.i - 1, c.j, c.k⟩, .ixyz), (⟨c.i, c.j + 1, c.k⟩, .i00z), (⟨c.i, c.j, c.k + 1⟩, .i0y0))
  | .ictr => ((c, .ictr), (c, .ictr), (c, .ictr))

theorem adj_pt (c : Cell) (s : Slot) :
    pt (adj c s).1.1 (adj c s).1.2 = pt c s ∧ pt (adj c s).2.1.1 (adj c s).2.1.2 = pt c s ∧ pt (adj c s).2.2.1 (adj c s).2.2.2 = pt c s := by
  cases s <;> simp [adj, pt, Slot.off]

/-- If an earlier cell touches a corner of a cell, then so does one of the neighbours `neighborNode` looks at, and it is earlier
too; if none does, the cell is the first one that touches the corner. -/
theorem adj_first {d0 d1 d2 : ℤ} {c : Cell} {s : Slot} (hs : s ≠ .ictr) (hg : G d0 d1 d2 c)
    (h : ∀ q, q = (adj c s).1 ∨ q = (adj c s).2.1 ∨ q = (adj c s).2.2 → ¬ (G d0 d1 d2 q.1 ∧ Lex q.1 c)) :
    (s.off.1 = 0 → c.i = 0) ∧ (s.off.2.1 = 0 → c.j = 0) ∧ (s.off.2.2 = 0 → c.k = 0) := by
  have h1 := h _ (Or.inl rfl)
  have h2 := h _ (Or.inr (Or.inl rfl))
  have h3 := h _ (Or.inr (Or.inr rfl))
  simp only [G, InGrid, Lex] at h1 h2 h3 hg
  cases s <;> simp [adj, Slot.off] at h1 h2 h3 ⊢ <;>
    first | exact absurd rfl hs | omega

theorem first_alone {d0 d1 d2 : ℤ} {c c' : Cell} {s s' : Slot} (hs : s ≠ .ictr) (hg' : G d0 d1 d2 c') (hl : Lex c' c)
    (h : (s.off.1 = 0 → c.i = 0) ∧ (s.off.2.1 = 0 → c.j = 0) ∧ (s.off.2.2 = 0 → c.k = 0)) : pt c' s' ≠ pt c s := by
  simp only [G, InGrid] at hg'
  simp only [Lex] at hl
  cases s <;> cases s' <;> simp [pt, Slot.off] at h hs ⊢ <;> omega

/-! ### Numbering -/

/-- Where the code puts the point of a slot of the first cell that touches it: the vertices of a box are listed in another order
than the slots of a cell. -/
def swapped (p : ℤ × ℤ × ℤ) : ℤ × ℤ × ℤ :=
  if p = (1, 0, 0) then (0, 0, 1) else if p = (1, 1, 0) then (0, 1, 0) else if p = (0, 1, 0) then (0, 1, 1)
  else if p = (0, 0, 1) then (1, 0, 0) else if p = (1, 1, 1) then (1, 1, 0) else if p = (0, 1, 1) then (1, 1, 1) else p

/-- The position the code gives to a lattice point. -/
noncomputable def placed (lo : V3) (res : ℝ) : Pt → V3
  | .centre x y z => (Pt.centre x y z).position lo res
  | .corner x y z =>
    let i := max 0 (x - 1)
    let j := max 0 (y - 1)
    let k := max 0 (z - 1)
    let w := swapped (x - i, y - j, z - k)
    (Pt.corner (i + w.1) (j + w.2.1) (k + w.2.2)).position lo res

/-- The number of a slot of a cell. -/
def num (m : Mat) (c : Cell) (s : Slot) : ℤ := (m.nodes (addr m.d1 m.d2 c)).bccnod s

/-- What holds of the state when the pairs of cells and slots in `A` have their numbers. -/
structure Numbered (b : Box3) (res : ℝ) (d0 d1 d2 : ℤ) (A : Cell → Slot → Prop) (st : State) : Prop where
  dims : st.m.d0 = d0 ∧ st.m.d1 = d1 ∧ st.m.d2 = d2
  frame : ∀ c, G d0 d1 d2 c → ∃ f, st.m.nodes (addr d1 d2 c) = { built b res d0 d1 d2 c with bccnod := f }
  inside : ∀ c s, A c s → G d0 d1 d2 c
  count : st.n = st.nodes.length
  range : ∀ c s, A c s → 0 ≤ num st.m c s ∧ num st.m c s < st.n
  same : ∀ c s c' s', A c s → A c' s' → (num st.m c s = num st.m c' s' ↔ pt c s = pt c' s')
  used : ∀ n, 0 ≤ n → n < st.n → ∃ c s, A c s ∧ num st.m c s = n
  fresh : ∀ c s, G d0 d1 d2 c → ¬ A c s → num st.m c s = -1
  posn : ∀ c s, A c s → st.nodes[(num st.m c s).toNat]? = some (placed b.lo res (pt c s))

theorem num_setNum {d0 d1 d2 : ℤ} {m : Mat} (hd : m.d0 = d0 ∧ m.d1 = d1 ∧ m.d2 = d2) {c c' : Cell} (h : G d0 d1 d2 c)
    (h' : G d0 d1 d2 c') (s s' : Slot) (v : ℤ) :
    num (m.setNum (addr d1 d2 c) s v) c' s' = if c' = c ∧ s' = s then v else num m c' s' := by
  obtain ⟨rfl, rfl, rfl⟩ := hd
  by_cases hc : c' = c
  · subst hc
    have : num (m.setNum (addr m.d1 m.d2 c') s v) c' s' = Function.update (m.nodes (addr m.d1 m.d2 c')).bccnod s v s' := by
      show ((m.set _ _).nodes (addr m.d1 m.d2 c')).bccnod s' = _
      rw [set_nodes]
    rw [this]
    by_cases hs : s' = s
    · subst hs
      simp
    · rw [Function.update_of_ne hs, if_neg (fun e => hs e.2)]
      rfl
  · have hne : addr m.d1 m.d2 c' ≠ addr m.d1 m.d2 c := fun e => hc (addr_inj h' h e)
    rw [if_neg (fun e => hc e.1)]
    show ((m.set _ _).nodes (addr m.d1 m.d2 c')).bccnod s' = _
    rw [set_nodes_ne _ hne]
    rfl

theorem frame_setNum {b : Box3} {res : ℝ} {d0 d1 d2 : ℤ} {m : Mat} {c : Cell} (h : G d0 d1 d2 c) {s : Slot} {v : ℤ}
    (hf : ∀ c, G d0 d1 d2 c → ∃ f, m.nodes (addr d1 d2 c) = { built b res d0 d1 d2 c with bccnod := f }) :
    ∀ c', G d0 d1 d2 c' → ∃ f, (m.setNum (addr d1 d2 c) s v).nodes (addr d1 d2 c') = { built b res d0 d1 d2 c' with bccnod := f } := by
  intro c' hg'
  by_cases hc : c' = c
  · subst hc
    obtain ⟨f, hf⟩ := hf c' hg'
    refine ⟨Function.update f s v, ?_⟩
    unfold Mat.setNum
    rw [set_nodes, hf]
  · have hne : addr d1 d2 c' ≠ addr d1 d2 c := fun e => hc (addr_inj hg' h e)
    obtain ⟨f, hf⟩ := hf c' hg'
    refine ⟨f, ?_⟩
    unfold Mat.setNum
    rw [set_nodes_ne _ hne, hf]

/-- A new number for a lattice point that has none. -/
theorem Numbered.new {b : Box3} {res : ℝ} {d0 d1 d2 : ℤ} {A : Cell → Slot → Prop} {st : State} (h : Numbered b res d0 d1 d2 A st)
    {c : Cell} {s : Slot} (hg : G d0 d1 d2 c) (hA : ∀ c' s', A c' s' → pt c' s' ≠ pt c s) {p : V3} (hp : p = placed b.lo res (pt c s)) :
    Numbered b res d0 d1 d2 (fun c' s' => A c' s' ∨ (c' = c ∧ s' = s))
      { st with m := st.m.setNum (addr d1 d2 c) s st.n, n := st.n + 1, nodes := st.nodes ++ [p] } := by
  have hn : ∀ c' s', G d0 d1 d2 c' → num (st.m.setNum (addr d1 d2 c) s st.n) c' s' = if c' = c ∧ s' = s then st.n else num st.m c' s' :=
    fun c' s' hg' => num_setNum h.dims hg hg' s s' st.n
  have hold : ∀ c' s', A c' s' → num (st.m.setNum (addr d1 d2 c) s st.n) c' s' = num st.m c' s' := by
    intro c' s' ha
    rw [hn c' s' (h.inside _ _ ha), if_neg]
    rintro ⟨rfl, rfl⟩
    exact hA _ _ ha rfl
  have hnew : num (st.m.setNum (addr d1 d2 c) s st.n) c s = st.n := by rw [hn c s hg, if_pos ⟨rfl, rfl⟩]
  have hpos : 0 ≤ st.n := by rw [h.count]; omega
  refine ⟨h.dims, frame_setNum hg h.frame, ?_, ?_, ?_, ?_, ?_, ?_, ?_⟩
  · rintro c' s' (ha | ⟨rfl, rfl⟩)
    · exact h.inside _ _ ha
    · exact hg
  · simp [h.count]
  · rintro c' s' (ha | ⟨rfl, rfl⟩)
    · have := h.range _ _ ha
      dsimp only
      rw [hold _ _ ha]
      omega
    · dsimp only
      rw [hnew]
      omega
  · rintro c1 s1 c2 s2 (ha | ⟨rfl, rfl⟩) (hb | ⟨rfl, rfl⟩) <;> dsimp only
    · rw [hold _ _ ha, hold _ _ hb]
      exact h.same _ _ _ _ ha hb
    · rw [hold _ _ ha, hnew]
      have := h.range _ _ ha
      exact ⟨fun e => by omega, fun e => absurd e (hA _ _ ha)⟩
    · rw [hold _ _ hb, hnew]
      have := h.range _ _ hb
      exact ⟨fun e => by omega, fun e => absurd e.symm (hA _ _ hb)⟩
    · simp
  · intro n hn0 hn1
    dsimp only at hn1 ⊢
    by_cases hlt : n < st.n
    · obtain ⟨c', s', ha, e⟩ := h.used n hn0 hlt
      exact ⟨c', s', Or.inl ha, by rw [hold _ _ ha, e]⟩
    · exact ⟨c, s, Or.inr ⟨rfl, rfl⟩, by rw [hnew]; omega⟩
  · intro c' s' hg' ha
    simp only [not_or] at ha
    dsimp only
    rw [hn _ _ hg', if_neg ha.2]
    exact h.fresh _ _ hg' ha.1
  · rintro c' s' (ha | ⟨rfl, rfl⟩) <;> dsimp only
    · rw [hold _ _ ha]
      have hr := h.range _ _ ha
      have hc := h.count
      rw [List.getElem?_append_left (by omega)]
      exact h.posn _ _ ha
    · rw [hnew, h.count, hp]
      simp

/-- The number of a lattice point that has one already. -/
theorem Numbered.again {b : Box3} {res : ℝ} {d0 d1 d2 : ℤ} {A : Cell → Slot → Prop} {st : State} (h : Numbered b res d0 d1 d2 A st)
    {c c0 : Cell} {s s0 : Slot} (hg : G d0 d1 d2 c) (hA : ¬ A c s) (h0 : A c0 s0) (he : pt c0 s0 = pt c s) :
    Numbered b res d0 d1 d2 (fun c' s' => A c' s' ∨ (c' = c ∧ s' = s))
      { st with m := st.m.setNum (addr d1 d2 c) s (num st.m c0 s0) } := by
  have hn : ∀ c' s', G d0 d1 d2 c' → num (st.m.setNum (addr d1 d2 c) s (num st.m c0 s0)) c' s' =
      if c' = c ∧ s' = s then num st.m c0 s0 else num st.m c' s' :=
    fun c' s' hg' => num_setNum h.dims hg hg' s s' _
  have hold : ∀ c' s', A c' s' → num (st.m.setNum (addr d1 d2 c) s (num st.m c0 s0)) c' s' = num st.m c' s' := by
    intro c' s' ha
    rw [hn c' s' (h.inside _ _ ha), if_neg]
    rintro ⟨rfl, rfl⟩
    exact hA ha
  have hnew : num (st.m.setNum (addr d1 d2 c) s (num st.m c0 s0)) c s = num st.m c0 s0 := by rw [hn c s hg, if_pos ⟨rfl, rfl⟩]
  refine ⟨h.dims, frame_setNum hg h.frame, ?_, h.count, ?_, ?_, ?_, ?_, ?_⟩
  · rintro c' s' (ha | ⟨rfl, rfl⟩)
    · exact h.inside _ _ ha
    · exact hg
  · rintro c' s' (ha | ⟨rfl, rfl⟩) <;> dsimp only
    · rw [hold _ _ ha]
      exact h.range _ _ ha
    · rw [hnew]
      exact h.range _ _ h0
  · rintro c1 s1 c2 s2 (ha | ⟨rfl, rfl⟩) (hb | ⟨rfl, rfl⟩) <;> dsimp only
    · rw [hold _ _ ha, hold _ _ hb]
      exact h.same _ _ _ _ ha hb
    · rw [hold _ _ ha, hnew, h.same _ _ _ _ ha h0, he]
    · rw [hold _ _ hb, hnew, h.same _ _ _ _ h0 hb, he]
    · simp
  · intro n hn0 hn1
    dsimp only at hn1 ⊢
    obtain ⟨c', s', ha, e⟩ := h.used n hn0 hn1
    exact ⟨c', s', Or.inl ha, by rw [hold _ _ ha, e]⟩
  · intro c' s' hg' ha
    simp only [not_or] at ha
    dsimp only
    rw [hn _ _ hg', if_neg ha.2]
    exact h.fresh _ _ hg' ha.1
  · rintro c' s' (ha | ⟨rfl, rfl⟩) <;> dsimp only
    · rw [hold _ _ ha]
      exact h.posn _ _ ha
    · rw [hnew, ← he]
      exact h.posn _ _ h0

/-- The value `neighborNode` reads for one neighbour. -/
theorem nodeAt_eq {b : Box3} {res : ℝ} {d0 d1 d2 : ℤ} {A : Cell → Slot → Prop} {st : State} (h : Numbered b res d0 d1 d2 A st)
    (c : Cell) (s : Slot) :
    (A c s ∧ st.m.nodeAt (atD d0 d1 d2 c) s = num st.m c s) ∨ (¬ A c s ∧ st.m.nodeAt (atD d0 d1 d2 c) s = -1) := by
  by_cases hg : G d0 d1 d2 c
  · rw [atD_of hg]
    have e : st.m.nodeAt (some (addr d1 d2 c)) s = num st.m c s := by
      unfold num
      rw [h.dims.2.1, h.dims.2.2]
      rfl
    by_cases hA : A c s
    · exact Or.inl ⟨hA, e⟩
    · exact Or.inr ⟨hA, by rw [e]; exact h.fresh _ _ hg hA⟩
  · rw [atD_none hg]
    exact Or.inr ⟨fun ha => hg (h.inside _ _ ha), rfl⟩

theorem neighbors_eq {b : Box3} {res : ℝ} {d0 d1 d2 : ℤ} {m : Mat} {c : Cell} {f : Slot → ℤ} {s : Slot} (hs : s ≠ .ictr) :
    m.neighbors { built b res d0 d1 d2 c with bccnod := f } s =
      (m.nodeAt (atD d0 d1 d2 (adj c s).1.1) (adj c s).1.2, m.nodeAt (atD d0 d1 d2 (adj c s).2.1.1) (adj c s).2.1.2,
        m.nodeAt (atD d0 d1 d2 (adj c s).2.2.1) (adj c s).2.2.2) := by
  cases s <;> first | exact absurd rfl hs | rfl

/-- `neighborNode` finds the number of the corner if one of the three neighbours has it, and never panics. -/
theorem neighborNode_eq {b : Box3} {res : ℝ} {d0 d1 d2 : ℤ} {A : Cell → Slot → Prop} {st : State} (h : Numbered b res d0 d1 d2 A st)
    {c : Cell} {s : Slot} (hg : G d0 d1 d2 c) (hs : s ≠ .ictr) :
    (∃ c0 s0, A c0 s0 ∧ pt c0 s0 = pt c s ∧ st.m.neighborNode (st.m.nodes (addr d1 d2 c)) s = some (num st.m c0 s0)) ∨
    ((∀ q, q = (adj c s).1 ∨ q = (adj c s).2.1 ∨ q = (adj c s).2.2 → ¬ A q.1 q.2) ∧
      st.m.neighborNode (st.m.nodes (addr d1 d2 c)) s = some (-1)) := by
  obtain ⟨f, hf⟩ := h.frame c hg
  obtain ⟨p1, p2, p3⟩ := adj_pt c s
  have n1 := nodeAt_eq h (adj c s).1.1 (adj c s).1.2
  have n2 := nodeAt_eq h (adj c s).2.1.1 (adj c s).2.1.2
  have n3 := nodeAt_eq h (adj c s).2.2.1 (adj c s).2.2.2
  unfold Mat.neighborNode
  rw [hf, neighbors_eq hs]
  dsimp only
  have hsame : ∀ c s c' s', A c s → A c' s' → pt c s = pt c' s' → num st.m c s = num st.m c' s' :=
    fun c s c' s' h1 h2 e => (h.same _ _ _ _ h1 h2).2 e
  generalize hx : st.m.nodeAt (atD d0 d1 d2 (adj c s).1.1) (adj c s).1.2 = nx at n1 ⊢
  generalize hy : st.m.nodeAt (atD d0 d1 d2 (adj c s).2.1.1) (adj c s).2.1.2 = ny at n2 ⊢
  generalize hz : st.m.nodeAt (atD d0 d1 d2 (adj c s).2.2.1) (adj c s).2.2.2 = nz at n3 ⊢
  have r := h.range
  rcases n1 with ⟨a1, e1⟩ | ⟨a1, e1⟩
  · left
    refine ⟨_, _, a1, p1, ?_⟩
    have r1 := r _ _ a1
    have q2 : ny = nx ∨ ny = -1 := by
      rcases n2 with ⟨a2, e2⟩ | ⟨a2, e2⟩
      · left; rw [e1, e2]; exact hsame _ _ _ _ a2 a1 (p2.trans p1.symm)
      · right; exact e2
    have q3 : nz = nx ∨ nz = -1 := by
      rcases n3 with ⟨a3, e3⟩ | ⟨a3, e3⟩
      · left; rw [e1, e3]; exact hsame _ _ _ _ a3 a1 (p3.trans p1.symm)
      · right; exact e3
    rw [if_neg (by omega), ← e1]
    congr 1
    omega
  · rcases n2 with ⟨a2, e2⟩ | ⟨a2, e2⟩
    · left
      refine ⟨_, _, a2, p2, ?_⟩
      have r1 := r _ _ a2
      have q3 : nz = ny ∨ nz = -1 := by
        rcases n3 with ⟨a3, e3⟩ | ⟨a3, e3⟩
        · left; rw [e2, e3]; exact hsame _ _ _ _ a3 a2 (p3.trans p2.symm)
        · right; exact e3
      rw [if_neg (by omega), ← e2]
      congr 1
      omega
    · rcases n3 with ⟨a3, e3⟩ | ⟨a3, e3⟩
      · left
        refine ⟨_, _, a3, p3, ?_⟩
        have r1 := r _ _ a3
        rw [if_neg (by omega), ← e3]
        congr 1
        omega
      · right
        refine ⟨?_, ?_⟩
        · rintro q (rfl | rfl | rfl)
          · exact a1
          · exact a2
          · exact a3
        · rw [if_neg (by omega)]
          congr 1
          omega

/-! ### Positions -/

theorem box_eq {b : Box3} {res : ℝ} (hres : 0 < res) {d0 d1 d2 : ℤ} {c : Cell} {f : Slot → ℤ} :
    ({ built b res d0 d1 d2 c with bccnod := f } : Node).box res =
      ⟨⟨b.lo.x + c.i * res, b.lo.y + c.j * res, b.lo.z + c.k * res⟩,
       ⟨b.lo.x + (c.i + 1) * res, b.lo.y + (c.j + 1) * res, b.lo.z + (c.k + 1) * res⟩⟩ := by
  simp only [Node.box, built, Box3.centered, cellPos, V3.maxElem, V3.scale, V3.sub, V3.add, max_eq_left hres.le, Box3.mk.injEq,
    V3.mk.injEq]
  norm_num only
  refine ⟨⟨?_, ?_, ?_⟩, ?_, ?_, ?_⟩ <;> ring

theorem center_eq {b : Box3} {res : ℝ} (hres : 0 < res) {d0 d1 d2 : ℤ} {c : Cell} {f : Slot → ℤ} :
    (({ built b res d0 d1 d2 c with bccnod := f } : Node).box res).center = placed b.lo res (pt c .ictr) := by
  rw [box_eq hres]
  simp only [Box3.center, Box3.size, V3.add, V3.scale, V3.sub, pt, placed, Pt.position, if_true, V3.mk.injEq]
  norm_num only
  refine ⟨?_, ?_, ?_⟩ <;> ring

/-- The vertex of the box the code takes for a corner no earlier cell touches. -/
theorem vertex_eq {b : Box3} {res : ℝ} (hres : 0 < res) {d0 d1 d2 : ℤ} {c : Cell} {f : Slot → ℤ} {s : Slot} (hs : s ≠ .ictr)
    (hg : G d0 d1 d2 c) (h : (s.off.1 = 0 → c.i = 0) ∧ (s.off.2.1 = 0 → c.j = 0) ∧ (s.off.2.2 = 0 → c.k = 0)) :
    (({ built b res d0 d1 d2 c with bccnod := f } : Node).box res).vertices[s.index]? = some (placed b.lo res (pt c s)) := by
  rw [box_eq hres]
  obtain ⟨i, j, k⟩ := c
  simp only [G, InGrid] at hg
  obtain ⟨h1, -, h2, -, h3, -⟩ := hg
  cases s <;> simp [Slot.off] at h hs <;>
    simp [Box3.vertices, Slot.index, pt, Slot.off, placed, Pt.position, swapped, h, h1, h2, h3]

/-! ### The loops -/

theorem Numbered.congr {b : Box3} {res : ℝ} {d0 d1 d2 : ℤ} {A A' : Cell → Slot → Prop} {st : State} (h : Numbered b res d0 d1 d2 A st)
    (hA : ∀ c s, A c s ↔ A' c s) : Numbered b res d0 d1 d2 A' st := by
  have : A = A' := funext fun c => funext fun s => propext (hA c s)
  exact this ▸ h

/-- The corners of one cell. -/
theorem corners_ok {b : Box3} {res : ℝ} (hres : 0 < res) {d0 d1 d2 : ℤ} {pre post : List Cell} {c : Cell} {st : State}
    (hL : cells d0 d1 d2 = pre ++ c :: post)
    (h : Numbered b res d0 d1 d2 (fun c' s' => c' ∈ pre ∨ (c' = c ∧ s' = .ictr)) st) {vert : List V3}
    (hv : ∃ f, vert = (({ built b res d0 d1 d2 c with bccnod := f } : Node).box res).vertices) :
    ∃ st', corners.foldlM (cornerStep (addr d1 d2 c) vert) st = some st' ∧
      (Numbered b res d0 d1 d2 (fun c' s' => c' ∈ pre ∨ (c' = c ∧ (s' = .ictr ∨ s' ∈ corners))) st' ∧
        (∀ x, x ≠ addr d1 d2 c → st'.m.nodes x = st.m.nodes x) ∧ st'.tetras = st.tetras) := by
  obtain ⟨fv, rfl⟩ := hv
  have hg : G d0 d1 d2 c := mem_cells.1 (by rw [hL]; simp)
  have hcp : c ∉ pre := fun hm => ((mem_before hL c).1 hm).2.irrefl
  apply foldlM_prefix _ corners (fun done st' =>
    Numbered b res d0 d1 d2 (fun c' s' => c' ∈ pre ∨ (c' = c ∧ (s' = .ictr ∨ s' ∈ done))) st' ∧
      (∀ x, x ≠ addr d1 d2 c → st'.m.nodes x = st.m.nodes x) ∧ st'.tetras = st.tetras)
  · rintro done s rest st' hC ⟨hN, hF, hT⟩
    have hs : s ≠ .ictr := by
      intro e
      have : s ∈ corners := by rw [hC]; simp
      rw [e] at this
      simp [corners] at this
    have hsd : s ∉ done := by
      intro hm
      have hnd : corners.Nodup := by decide
      rw [hC] at hnd
      exact (List.nodup_append.1 hnd).2.2 s hm s (by simp) rfl
    have hA : ¬ (c ∈ pre ∨ (c = c ∧ (s = .ictr ∨ s ∈ done))) := by
      rintro (hm | ⟨-, hm | hm⟩)
      · exact hcp hm
      · exact hs hm
      · exact hsd hm
    have hset : ∀ v x, x ≠ addr d1 d2 c → (st'.m.setNum (addr d1 d2 c) s v).nodes x = st.m.nodes x := by
      intro v x hx
      unfold Mat.setNum
      rw [set_nodes_ne _ hx, hF x hx]
    have hiff : ∀ c' s', ((c' ∈ pre ∨ (c' = c ∧ (s' = .ictr ∨ s' ∈ done))) ∨ (c' = c ∧ s' = s)) ↔
        (c' ∈ pre ∨ (c' = c ∧ (s' = .ictr ∨ s' ∈ done ++ [s]))) := by
      intro c' s'
      simp only [List.mem_append, List.mem_singleton]
      tauto
    rcases neighborNode_eq hN hg hs with ⟨c0, s0, h0, hp, hn⟩ | ⟨hnone, hn⟩
    · have hr := (hN.range _ _ h0).1
      refine ⟨{ st' with m := st'.m.setNum (addr d1 d2 c) s (num st'.m c0 s0) }, ?_, (hN.again hg hA h0 hp).congr hiff, hset _, hT⟩
      unfold cornerStep
      rw [hn]
      dsimp only
      rw [if_neg (by omega)]
    · have hfirst := adj_first hs hg (fun q hq hq' => hnone q hq (Or.inl ((mem_before hL q.1).2 hq')))
      refine ⟨{ st' with m := st'.m.setNum (addr d1 d2 c) s st'.n, n := st'.n + 1, nodes := st'.nodes ++ [placed b.lo res (pt c s)] },
        ?_, (hN.new hg ?_ rfl).congr hiff, hset _, hT⟩
      · unfold cornerStep
        rw [hn]
        dsimp only
        rw [if_pos rfl, vertex_eq hres hs hg hfirst]
      · rintro c' s' (hm | ⟨rfl, hm⟩)
        · obtain ⟨hg', hl⟩ := (mem_before hL c').1 hm
          exact first_alone hs hg' hl hfirst
        · intro e
          have := pt_inj e
          rw [this] at hm
          exact hA (Or.inr ⟨rfl, hm⟩)
  · refine ⟨h.congr (fun c' s' => by simp), fun _ _ => rfl, rfl⟩

/-- What holds while the cells are numbered: the visited ones have all their numbers, and the tetrahedra found are theirs. -/
def Meshing (b : Box3) (res : ℝ) (d0 d1 d2 : ℤ) (pre : List Cell) (st : State) : Prop :=
  Numbered b res d0 d1 d2 (fun c _ => c ∈ pre) st ∧
    st.tetras = pre.flatMap fun c => st.m.tetras (st.m.nodes (addr d1 d2 c))

/-- The tetrahedra of a cell depend only on that cell and the three before it. -/
theorem tetras_congr {m m' : Mat} {n : Node} (h : ∀ a, n.zm = some a ∨ n.ym = some a ∨ n.xm = some a → m'.nodes a = m.nodes a) :
    m'.tetras n = m.tetras n := by
  unfold Mat.tetras
  dsimp only
  congr 1
  · congr 1
    · cases hz : n.zm with
      | none => rfl
      | some a => unfold Mat.side; dsimp only; rw [h a (Or.inl hz)]
    · cases hy : n.ym with
      | none => rfl
      | some a => unfold Mat.side; dsimp only; rw [h a (Or.inr (Or.inl hy))]
  · cases hx : n.xm with
    | none => rfl
    | some a => unfold Mat.side; dsimp only; rw [h a (Or.inr (Or.inr hx))]

theorem cell_ok {b : Box3} {res : ℝ} (hres : 0 < res) {d0 d1 d2 : ℤ} {pre post : List Cell} {c : Cell} {st : State}
    (hL : cells d0 d1 d2 = pre ++ c :: post) (h : Meshing b res d0 d1 d2 pre st) :
    ∃ st', cellStep res st c = some st' ∧ Meshing b res d0 d1 d2 (pre ++ [c]) st' := by
  obtain ⟨hN, hT⟩ := h
  have hg : G d0 d1 d2 c := mem_cells.1 (by rw [hL]; simp)
  have hcp : c ∉ pre := fun hm => ((mem_before hL c).1 hm).2.irrefl
  obtain ⟨f, hf⟩ := hN.frame c hg
  have hN1 := hN.new (c := c) (s := .ictr) hg (by
    intro c' s' hm e
    obtain ⟨hg', hl⟩ := (mem_before hL c').1 hm
    have : c' = c := by
      obtain ⟨i, j, k⟩ := c
      obtain ⟨i', j', k'⟩ := c'
      revert e
      cases s' <;> simp [pt]
    exact hcp (this ▸ hm)) (p := (({ built b res d0 d1 d2 c with bccnod := f } : Node).box res).center) (center_eq hres)
  obtain ⟨st', hfold, hN2, hF, hT2⟩ := corners_ok hres hL hN1 ⟨f, rfl⟩
  have hN3 : Numbered b res d0 d1 d2 (fun c' _ => c' ∈ pre ++ [c]) { st' with tetras := st'.tetras ++ st'.m.tetras (st'.m.nodes (addr d1 d2 c)) } := by
    have := hN2.congr (A' := fun c' _ => c' ∈ pre ++ [c]) (by
      intro c' s'
      have : s' = .ictr ∨ s' ∈ corners := by cases s' <;> simp [corners]
      simp only [List.mem_append, List.mem_singleton]
      tauto)
    exact ⟨this.dims, this.frame, this.inside, this.count, this.range, this.same, this.used, this.fresh, this.posn⟩
  refine ⟨_, ?_, hN3, ?_⟩
  · have ha : (c.i * st.m.d1 * st.m.d2 + c.j * st.m.d2 + c.k).toNat = addr d1 d2 c := by
      rw [hN.dims.2.1, hN.dims.2.2]; rfl
    unfold cellStep
    dsimp only
    rw [ha, hf]
    rw [hfold]
  · dsimp only
    rw [List.flatMap_append, hT2]
    dsimp only
    rw [hT]
    simp only [List.flatMap_cons, List.flatMap_nil, List.append_nil]
    congr 1
    apply List.flatMap_congr
    intro c' hm
    obtain ⟨hg', hl⟩ := (mem_before hL c').1 hm
    have old : ∀ c'', G d0 d1 d2 c'' → c'' ≠ c → st'.m.nodes (addr d1 d2 c'') = st.m.nodes (addr d1 d2 c'') := by
      intro c'' hg'' hne
      have hna : addr d1 d2 c'' ≠ addr d1 d2 c := fun e => hne (addr_inj hg'' hg e)
      rw [hF _ hna]
      unfold Mat.setNum
      rw [set_nodes_ne _ hna]
    have hne : c' ≠ c := fun e => hcp (e ▸ hm)
    rw [old c' hg' hne]
    symm
    apply tetras_congr
    obtain ⟨f', hf'⟩ := hN.frame c' hg'
    rw [hf']
    simp only [built]
    rintro a (ha | ha | ha) <;> obtain ⟨hga, rfl⟩ := atD_some ha <;> apply old _ hga <;> rintro rfl <;> simp only [Lex] at hl <;> omega

theorem mesh_ok {b : Box3} {res : ℝ} (hres : 0 < res) {d0 d1 d2 : ℤ} {m : Mat} (h : Building b res d0 d1 d2 (cells d0 d1 d2) m) :
    ∃ st, meshTetraBCC m res = some st ∧ Meshing b res d0 d1 d2 (cells d0 d1 d2) st := by
  obtain ⟨⟨h0, h1, h2⟩, hb, -⟩ := h
  unfold meshTetraBCC
  rw [h0, h1, h2]
  apply foldlM_prefix _ _ (Meshing b res d0 d1 d2)
  · intro pre c post st hL hI
    exact cell_ok hres hL hI
  · refine ⟨⟨⟨h0, h1, h2⟩, ?_, by simp, by simp, by simp, by simp, ?_, ?_, by simp⟩, by simp⟩
    · intro c hg
      exact ⟨fun _ => -1, by rw [hb c (mem_cells.2 hg)]; rfl⟩
    · intro n h0 h1
      dsimp only at h1
      omega
    · intro c s hg _
      unfold num
      dsimp only
      rw [h1, h2, hb c (mem_cells.2 hg)]
      rfl

/-! ### Tetrahedra -/

/-- The tetrahedra of a cell in terms of slots, for one of the three sides. -/
def sides (c : Cell) : List (Cell × List (Slot × Slot)) :=
  [(⟨c.i, c.j, c.k - 1⟩, [(.i000, .ix00), (.ix00, .ixy0), (.ixy0, .i0y0), (.i0y0, .i000)]),
   (⟨c.i, c.j - 1, c.k⟩, [(.ix00, .i000), (.ix0z, .ix00), (.i00z, .ix0z), (.i000, .i00z)]),
   (⟨c.i - 1, c.j, c.k⟩, [(.i000, .i0y0), (.i00z, .i000), (.i0yz, .i00z), (.i0y0, .i0yz)])]

theorem side_mem {b : Box3} {res : ℝ} {d0 d1 d2 : ℤ} {st : State} (hN : Numbered b res d0 d1 d2 (fun c _ => c ∈ cells d0 d1 d2) st)
    (c' : Cell) (mk : ℤ → List Tet) (t : Tet) :
    t ∈ st.m.side (atD d0 d1 d2 c') mk ↔
    G d0 d1 d2 c' ∧ t ∈ mk (num st.m c' .ictr) := by
  unfold Mat.side
  by_cases hg : G d0 d1 d2 c'
  · rw [atD_of hg]
    dsimp only
    obtain ⟨f, hf⟩ := hN.frame c' hg
    have hr := (hN.range c' .ictr (mem_cells.2 hg)).1
    have e : (st.m.nodes (addr d1 d2 c')).bccnod .ictr = num st.m c' .ictr := by
      unfold num
      rw [hN.dims.2.1, hN.dims.2.2]
    rw [e, if_pos ⟨by rw [hf]; rfl, hr⟩]
    simp [hg]
  · rw [atD_none hg]
    simp [hg]

theorem tetras_mem {b : Box3} {res : ℝ} {d0 d1 d2 : ℤ} {st : State} (hN : Numbered b res d0 d1 d2 (fun c _ => c ∈ cells d0 d1 d2) st)
    {c : Cell} (hg : G d0 d1 d2 c) (t : Tet) :
    t ∈ st.m.tetras (st.m.nodes (addr d1 d2 c)) ↔
      ∃ q ∈ sides c, G d0 d1 d2 q.1 ∧ ∃ e ∈ q.2, t = (num st.m c .ictr, num st.m c e.1, num st.m c e.2, num st.m q.1 .ictr) := by
  obtain ⟨f, hf⟩ := hN.frame c hg
  have e : ∀ s, num st.m c s = f s := by
    intro s
    unfold num
    rw [hN.dims.2.1, hN.dims.2.2, hf]
  rw [hf]
  unfold Mat.tetras
  simp only [built, List.mem_append]
  rw [side_mem hN, side_mem hN, side_mem hN]
  simp only [sides, List.mem_cons, List.not_mem_nil, or_false, exists_eq_or_imp, exists_eq_left, e, or_assoc]

/-- The tetrahedra of the specification, cell by cell. -/
theorem joins_iff (d0 d1 d2 : ℤ) (X P Q Y : Pt) :
    Joins d0 d1 d2 X P Q Y ↔ ∃ c, G d0 d1 d2 c ∧ ∃ q ∈ sides c, G d0 d1 d2 q.1 ∧ ∃ e ∈ q.2,
      X = pt c .ictr ∧ P = pt c e.1 ∧ Q = pt c e.2 ∧ Y = pt q.1 .ictr := by
  constructor
  · intro h
    rcases X with ⟨x, y, z⟩ | ⟨x, y, z⟩
    · simp [Joins] at h
    rcases P with ⟨a, b, c⟩ | ⟨a, b, c⟩
    swap
    · simp [Joins] at h
    rcases Q with ⟨a', b', c'⟩ | ⟨a', b', c'⟩
    swap
    · simp [Joins] at h
    rcases Y with ⟨x', y', z'⟩ | ⟨x', y', z'⟩
    · simp [Joins] at h
    simp only [Joins] at h
    obtain ⟨hX, hY, hxy, hP, hP', hQ, hQ', hd, ho⟩ := h
    refine ⟨⟨x, y, z⟩, hX, ?_⟩
    simp only [CornerOf] at hP hP' hQ hQ'
    rcases hxy with ⟨rfl, rfl, rfl⟩ | ⟨rfl, rfl, rfl⟩ | ⟨rfl, rfl, rfl⟩
    · refine ⟨_, List.mem_cons_of_mem _ (List.mem_cons_of_mem _ List.mem_cons_self), hY, ?_⟩
      obtain rfl : a = x := by omega
      obtain rfl : a' = a := by omega
      obtain ⟨-, hb, hc⟩ := hP
      obtain ⟨-, hb', hc'⟩ := hQ
      rcases hb with rfl | rfl <;> rcases hc with rfl | rfl <;> rcases hb' with rfl | rfl <;> rcases hc' with rfl | rfl <;>
        ring_nf at hd <;> (try omega) <;> simp [orient, Pt.twice] at ho <;> ring_nf at ho <;> (try omega) <;> simp [pt, Slot.off]
    · refine ⟨_, List.mem_cons_of_mem _ List.mem_cons_self, hY, ?_⟩
      obtain rfl : b = y := by omega
      obtain rfl : b' = b := by omega
      obtain ⟨hb, -, hc⟩ := hP
      obtain ⟨hb', -, hc'⟩ := hQ
      rcases hb with rfl | rfl <;> rcases hc with rfl | rfl <;> rcases hb' with rfl | rfl <;> rcases hc' with rfl | rfl <;>
        ring_nf at hd <;> (try omega) <;> simp [orient, Pt.twice] at ho <;> ring_nf at ho <;> (try omega) <;> simp [pt, Slot.off]
    · refine ⟨_, List.mem_cons_self, hY, ?_⟩
      obtain rfl : c = z := by omega
      obtain rfl : c' = c := by omega
      obtain ⟨hb, hc, -⟩ := hP
      obtain ⟨hb', hc', -⟩ := hQ
      rcases hb with rfl | rfl <;> rcases hc with rfl | rfl <;> rcases hb' with rfl | rfl <;> rcases hc' with rfl | rfl <;>
        ring_nf at hd <;> (try omega) <;> simp [orient, Pt.twice] at ho <;> ring_nf at ho <;> (try omega) <;> simp [pt, Slot.off]
  · rintro ⟨⟨i, j, k⟩, hg, q, hq, hgq, e, he, rfl, rfl, rfl, rfl⟩
    simp only [sides, List.mem_cons, List.not_mem_nil, or_false] at hq
    rcases hq with rfl | rfl | rfl <;> simp only [List.mem_cons, List.not_mem_nil, or_false] at he <;>
      rcases he with rfl | rfl | rfl | rfl <;>
      refine ⟨hg, hgq, ?_⟩ <;>
      simp [CornerOf, orient, Pt.twice, Slot.off] <;> ring_nf <;> omega

/-! ### The property -/

/-- The builder accepts a box exactly when it is more than two cells long in every direction. -/
theorem C43_accepted (b : Box3) {res : ℝ} (hres : 0 < res) :
    (∃ m, makeBCCMesh b res = some m) ↔ 2 * res < b.hi.x - b.lo.x ∧ 2 * res < b.hi.y - b.lo.y ∧ 2 * res < b.hi.z - b.lo.z := by
  have key : ∀ l : ℝ, ⌈l / res⌉ < 3 ↔ ¬ 2 * res < l := by
    intro l
    rw [not_lt, ← div_le_iff₀ hres, show ((2 : ℝ)) = ((2 : ℤ) : ℝ) by norm_num, ← Int.ceil_le]
    omega
  unfold makeBCCMesh
  dsimp only
  simp only [Box3.size, V3.sub, key]
  constructor
  · intro h
    by_contra hc
    rw [if_pos (by tauto)] at h
    simp at h
  · rintro ⟨h1, h2, h3⟩
    rw [if_neg (by tauto)]
    obtain ⟨m, hm, -⟩ := built_cells b res ⌈(b.hi.x - b.lo.x) / res⌉ ⌈(b.hi.y - b.lo.y) / res⌉ ⌈(b.hi.z - b.lo.z) / res⌉
    exact ⟨m, hm⟩

theorem make_built {b : Box3} {res : ℝ} {m : Mat} (h : makeBCCMesh b res = some m) :
    Building b res ⌈b.size.x / res⌉ ⌈b.size.y / res⌉ ⌈b.size.z / res⌉ (cells ⌈b.size.x / res⌉ ⌈b.size.y / res⌉ ⌈b.size.z / res⌉) m ∧
      3 ≤ ⌈b.size.x / res⌉ ∧ 3 ≤ ⌈b.size.y / res⌉ ∧ 3 ≤ ⌈b.size.z / res⌉ := by
  unfold makeBCCMesh at h
  dsimp only at h
  split_ifs at h with hc
  obtain ⟨m', hm', hB⟩ := built_cells b res ⌈b.size.x / res⌉ ⌈b.size.y / res⌉ ⌈b.size.z / res⌉
  rw [h] at hm'
  obtain rfl := Option.some.inj hm'
  exact ⟨hB, by omega⟩

/-- The numbering and the tetrahedra, for every box and every resolution the builder accepts: meshing does not panic; there is one
numbering of the lattice points of the grid, by the numbers below the number of nodes, with different numbers for different
points and every number used; the tetrahedra are exactly those joining the centres of two cells with a common face to the ends of
an edge of that face, all with the same orientation; the nodes are where `placed` says, which is right for the centres of cells. -/
theorem mesh_main {b : Box3} {res : ℝ} (hres : 0 < res) {m : Mat} (hm : makeBCCMesh b res = some m) :
    ∃ st, meshTetraBCC m res = some st ∧ ∃ N : Pt → ℤ,
      (∀ P, InGrid ⌈b.size.x / res⌉ ⌈b.size.y / res⌉ ⌈b.size.z / res⌉ P → 0 ≤ N P ∧ N P < st.nodes.length) ∧
      (∀ P Q, InGrid ⌈b.size.x / res⌉ ⌈b.size.y / res⌉ ⌈b.size.z / res⌉ P →
        InGrid ⌈b.size.x / res⌉ ⌈b.size.y / res⌉ ⌈b.size.z / res⌉ Q → N P = N Q → P = Q) ∧
      (∀ n : ℤ, 0 ≤ n → n < st.nodes.length → ∃ P, InGrid ⌈b.size.x / res⌉ ⌈b.size.y / res⌉ ⌈b.size.z / res⌉ P ∧ N P = n) ∧
      (∀ t, t ∈ st.tetras ↔ ∃ X P Q Y, Joins ⌈b.size.x / res⌉ ⌈b.size.y / res⌉ ⌈b.size.z / res⌉ X P Q Y ∧ t = (N X, N P, N Q, N Y)) ∧
      (∀ P, InGrid ⌈b.size.x / res⌉ ⌈b.size.y / res⌉ ⌈b.size.z / res⌉ P → st.nodes[(N P).toNat]? = some (placed b.lo res P)) := by
  classical
  obtain ⟨hB, h0, h1, h2⟩ := make_built hm
  generalize ⌈b.size.x / res⌉ = d0 at *
  generalize ⌈b.size.y / res⌉ = d1 at *
  generalize ⌈b.size.z / res⌉ = d2 at *
  obtain ⟨st, hst, hN, hT⟩ := mesh_ok hres hB
  refine ⟨st, hst, ?_⟩
  have hex : ∀ P, InGrid d0 d1 d2 P → ∃ q : Cell × Slot, G d0 d1 d2 q.1 ∧ pt q.1 q.2 = P := by
    intro P hP
    obtain ⟨c, s, h⟩ := inGrid_pt (by omega) (by omega) (by omega) hP
    exact ⟨(c, s), h⟩
  have : Nonempty (Cell × Slot) := ⟨(⟨0, 0, 0⟩, .i000)⟩
  choose! q hq1 hq2 using hex
  have hNum : ∀ c s, G d0 d1 d2 c → num st.m c s = num st.m (q (pt c s)).1 (q (pt c s)).2 := by
    intro c s hg
    have hi := pt_inGrid hg s
    rw [hN.same _ _ _ _ (mem_cells.2 hg) (mem_cells.2 (hq1 _ hi)), hq2 _ hi]
  refine ⟨fun P => num st.m (q P).1 (q P).2, ?_, ?_, ?_, ?_, ?_⟩
  · intro P hP
    rw [← hN.count]
    exact hN.range _ _ (mem_cells.2 (hq1 P hP))
  · intro P Q hP hQ e
    have := (hN.same _ _ _ _ (mem_cells.2 (hq1 P hP)) (mem_cells.2 (hq1 Q hQ))).1 e
    rwa [hq2 P hP, hq2 Q hQ] at this
  · intro n hn0 hn1
    obtain ⟨c, s, hA, e⟩ := hN.used n hn0 (by rw [hN.count]; exact hn1)
    exact ⟨pt c s, pt_inGrid (mem_cells.1 hA) s, by dsimp only; rw [← hNum c s (mem_cells.1 hA), e]⟩
  · intro t
    rw [hT, List.mem_flatMap]
    constructor
    · rintro ⟨c, hc, ht⟩
      have hg := mem_cells.1 hc
      obtain ⟨r, hr, hgr, e, he, rfl⟩ := (tetras_mem hN hg t).1 ht
      refine ⟨_, _, _, _, (joins_iff d0 d1 d2 _ _ _ _).2 ⟨c, hg, r, hr, hgr, e, he, rfl, rfl, rfl, rfl⟩, ?_⟩
      rw [hNum c _ hg, hNum c e.1 hg, hNum c e.2 hg, hNum r.1 _ hgr]
    · rintro ⟨X, P, Q, Y, hJ, rfl⟩
      obtain ⟨c, hg, r, hr, hgr, e, he, rfl, rfl, rfl, rfl⟩ := (joins_iff d0 d1 d2 _ _ _ _).1 hJ
      refine ⟨c, mem_cells.2 hg, (tetras_mem hN hg _).2 ⟨r, hr, hgr, e, he, ?_⟩⟩
      rw [hNum c .ictr hg, hNum c e.1 hg, hNum c e.2 hg, hNum r.1 .ictr hgr]
  · intro P hP
    rw [hN.posn _ _ (mem_cells.2 (hq1 P hP)), hq2 P hP]

/-- The numbering and the tetrahedra, for every box and every resolution the builder accepts: meshing does not panic; there is one
numbering of the lattice points of the grid (so a point has the same number for all cells that touch it) by the numbers below the
number of nodes, with different numbers for different points and every number used; the tetrahedra are exactly those joining
the centres of two cells with a common face to the ends of an edge of that face, all with the same orientation; and the node
of the centre of a cell is at the centre of the cell.  The positions of the corners are wrong: see the theorems below. -/
theorem C43_numbering_partial {b : Box3} {res : ℝ} (hres : 0 < res) {m : Mat} (hm : makeBCCMesh b res = some m) {d0 d1 d2 : ℤ}
    (hd0 : d0 = ⌈(b.hi.x - b.lo.x) / res⌉) (hd1 : d1 = ⌈(b.hi.y - b.lo.y) / res⌉) (hd2 : d2 = ⌈(b.hi.z - b.lo.z) / res⌉) :
    ∃ st, meshTetraBCC m res = some st ∧ ∃ N : Pt → ℤ,
      (∀ P, InGrid d0 d1 d2 P → 0 ≤ N P ∧ N P < st.nodes.length) ∧
      (∀ P Q, InGrid d0 d1 d2 P → InGrid d0 d1 d2 Q → N P = N Q → P = Q) ∧
      (∀ n : ℤ, 0 ≤ n → n < st.nodes.length → ∃ P, InGrid d0 d1 d2 P ∧ N P = n) ∧
      (∀ t, t ∈ st.tetras ↔ ∃ X P Q Y, Joins d0 d1 d2 X P Q Y ∧ t = (N X, N P, N Q, N Y)) ∧
      (∀ x y z, InGrid d0 d1 d2 (.centre x y z) → st.nodes[(N (.centre x y z)).toNat]? = some ((Pt.centre x y z).position b.lo res)) := by
  obtain ⟨st, h1, N, h2, h3, h4, h5, h6⟩ := mesh_main hres hm
  subst hd0 hd1 hd2
  exact ⟨st, h1, N, h2, h3, h4, h5, fun x y z h => h6 _ h⟩

/-- Every tetrahedron refers to four different nodes. -/
theorem C43_distinct {b : Box3} {res : ℝ} (hres : 0 < res) {m : Mat} (hm : makeBCCMesh b res = some m) {st : State}
    (hst : meshTetraBCC m res = some st) {t : Tet} (ht : t ∈ st.tetras) :
    [t.1, t.2.1, t.2.2.1, t.2.2.2].Nodup ∧ ∀ n ∈ [t.1, t.2.1, t.2.2.1, t.2.2.2], 0 ≤ n ∧ n < st.nodes.length := by
  obtain ⟨st', h1, N, h2, h3, h4, h5, h6⟩ := mesh_main hres hm
  rw [hst] at h1
  obtain rfl := Option.some.inj h1
  obtain ⟨X, P, Q, Y, hJ, rfl⟩ := (h5 t).1 ht
  clear hst hm
  generalize ⌈b.size.x / res⌉ = d0 at *
  generalize ⌈b.size.y / res⌉ = d1 at *
  generalize ⌈b.size.z / res⌉ = d2 at *
  rcases X with ⟨x, y, z⟩ | ⟨x, y, z⟩
  · simp [Joins] at hJ
  rcases P with ⟨u, v, w⟩ | ⟨u, v, w⟩
  swap
  · simp [Joins] at hJ
  rcases Q with ⟨u', v', w'⟩ | ⟨u', v', w'⟩
  swap
  · simp [Joins] at hJ
  rcases Y with ⟨x', y', z'⟩ | ⟨x', y', z'⟩
  · simp [Joins] at hJ
  simp only [Joins, CornerOf] at hJ
  obtain ⟨hX, hY, hxy, hP, -, hQ, -, hd, -⟩ := hJ
  have gP : InGrid d0 d1 d2 (.corner u v w) := by simp only [InGrid] at hX hY ⊢; omega
  have gQ : InGrid d0 d1 d2 (.corner u' v' w') := by simp only [InGrid] at hX hY ⊢; omega
  have hP' := h2 _ gP
  have hQ' := h2 _ gQ
  have hX' := h2 _ hX
  have hY' := h2 _ hY
  have ne : ∀ P Q, InGrid d0 d1 d2 P → InGrid d0 d1 d2 Q → P ≠ Q → N P ≠ N Q := fun P Q hP hQ h e => h (h3 P Q hP hQ e)
  constructor
  · simp only [List.nodup_cons, List.mem_cons, List.not_mem_nil, or_false, not_or, not_false_eq_true, List.nodup_nil, and_true]
    refine ⟨⟨ne _ _ hX gP (by simp), ne _ _ hX gQ (by simp), ne _ _ hX hY ?_⟩, ⟨ne _ _ gP gQ ?_, ne _ _ gP hY (by simp)⟩,
      ne _ _ gQ hY (by simp)⟩
    · simp only [ne_eq, Pt.centre.injEq]
      omega
    · simp only [ne_eq, Pt.corner.injEq]
      rintro ⟨rfl, rfl, rfl⟩
      simp at hd
  · intro n hn
    simp only [List.mem_cons, List.not_mem_nil, or_false] at hn
    rcases hn with rfl | rfl | rfl | rfl <;> assumption

theorem position_inj {lo : V3} {res : ℝ} (hres : 0 < res) {x y z x' y' z' : ℤ} :
    (Pt.corner x y z).position lo res = (Pt.corner x' y' z').position lo res ↔ x = x' ∧ y = y' ∧ z = z' := by
  simp [Pt.position, hres.ne']

theorem placed_iff {lo : V3} {res : ℝ} (hres : 0 < res) {x y z : ℤ} (hx : 0 ≤ x) (hy : 0 ≤ y) (hz : 0 ≤ z) :
    placed lo res (.corner x y z) = (Pt.corner x y z).position lo res ↔ (x = 0 ∧ y = 0 ∧ z = 0) ∨ (1 ≤ x ∧ y = 0 ∧ 1 ≤ z) := by
  unfold placed
  dsimp only
  rw [position_inj hres]
  have hcase : ∀ n : ℤ, 0 ≤ n → (n = 0 ∧ max 0 (n - 1) = 0) ∨ (1 ≤ n ∧ max 0 (n - 1) = n - 1) := by
    intro n hn
    rcases hn.eq_or_lt with h | h
    · left; omega
    · right; omega
  rcases hcase x hx with ⟨rfl, ex⟩ | ⟨h1, ex⟩ <;> rcases hcase y hy with ⟨rfl, ey⟩ | ⟨h2, ey⟩ <;>
    rcases hcase z hz with ⟨rfl, ez⟩ | ⟨h3, ez⟩ <;> simp only [ex, ey, ez] <;> simp [swapped] <;> omega

/-- The node of a corner is at that corner for the first corner of the grid and for the corners on the face of lowest y that are
on neither of its edges of lowest x and lowest z, and for no others. -/
theorem C43_corner_positions {b : Box3} {res : ℝ} (hres : 0 < res) {m : Mat} (hm : makeBCCMesh b res = some m) {d0 d1 d2 : ℤ}
    (hd0 : d0 = ⌈(b.hi.x - b.lo.x) / res⌉) (hd1 : d1 = ⌈(b.hi.y - b.lo.y) / res⌉) (hd2 : d2 = ⌈(b.hi.z - b.lo.z) / res⌉) {st : State}
    (hst : meshTetraBCC m res = some st) :
    ∃ N : Pt → ℤ, (∀ P Q, InGrid d0 d1 d2 P → InGrid d0 d1 d2 Q → N P = N Q → P = Q) ∧
      (∀ t, t ∈ st.tetras ↔ ∃ X P Q Y, Joins d0 d1 d2 X P Q Y ∧ t = (N X, N P, N Q, N Y)) ∧
      ∀ x y z, InGrid d0 d1 d2 (.corner x y z) →
        (st.nodes[(N (.corner x y z)).toNat]? = some ((Pt.corner x y z).position b.lo res) ↔
          (x = 0 ∧ y = 0 ∧ z = 0) ∨ (1 ≤ x ∧ y = 0 ∧ 1 ≤ z)) := by
  obtain ⟨st', h1, N, h2, h3, h4, h5, h6⟩ := mesh_main hres hm
  rw [hst] at h1
  obtain rfl := Option.some.inj h1
  subst hd0 hd1 hd2
  refine ⟨N, h3, h5, fun x y z h => ?_⟩
  rw [h6 _ h, Option.some_inj]
  simp only [InGrid] at h
  exact placed_iff hres h.1 h.2.2.1 h.2.2.2.2.1

/-- Not all nodes have a place of their own: in every mesh two nodes are at the same place. -/
theorem C43_nodes_coincide {b : Box3} {res : ℝ} (hres : 0 < res) {m : Mat} (hm : makeBCCMesh b res = some m) {st : State}
    (hst : meshTetraBCC m res = some st) :
    ∃ i j : ℕ, i ≠ j ∧ ∃ p, st.nodes[i]? = some p ∧ st.nodes[j]? = some p := by
  obtain ⟨-, e0, e1, e2⟩ := make_built hm
  obtain ⟨st', h1, N, h2, h3, h4, h5, h6⟩ := mesh_main hres hm
  rw [hst] at h1
  obtain rfl := Option.some.inj h1
  clear hst hm
  generalize ⌈b.size.x / res⌉ = d0 at *
  generalize ⌈b.size.y / res⌉ = d1 at *
  generalize ⌈b.size.z / res⌉ = d2 at *
  have g1 : InGrid d0 d1 d2 (.corner 1 0 1) := by simp only [InGrid]; omega
  have g2 : InGrid d0 d1 d2 (.corner 0 0 2) := by simp only [InGrid]; omega
  refine ⟨(N (.corner 1 0 1)).toNat, (N (.corner 0 0 2)).toNat, ?_, _, h6 _ g1, ?_⟩
  · intro e
    have := h3 _ _ g1 g2 (by have := h2 _ g1; have := h2 _ g2; omega)
    simp at this
  · rw [h6 _ g2]
    simp [placed, swapped, Pt.position]

/-- Not all tetrahedra have the same orientation in space: every mesh has one of negative and one of positive volume. -/
theorem C43_inverted {b : Box3} {res : ℝ} (hres : 0 < res) {m : Mat} (hm : makeBCCMesh b res = some m) {st : State}
    (hst : meshTetraBCC m res = some st) :
    ∃ t ∈ st.tetras, ∃ t' ∈ st.tetras, ∃ X P Q Y X' P' Q' Y' : V3,
      (st.nodes[t.1.toNat]? = some X ∧ st.nodes[t.2.1.toNat]? = some P ∧ st.nodes[t.2.2.1.toNat]? = some Q ∧
        st.nodes[t.2.2.2.toNat]? = some Y) ∧
      (st.nodes[t'.1.toNat]? = some X' ∧ st.nodes[t'.2.1.toNat]? = some P' ∧ st.nodes[t'.2.2.1.toNat]? = some Q' ∧
        st.nodes[t'.2.2.2.toNat]? = some Y') ∧
      volume6 X P Q Y < 0 ∧ 0 < volume6 X' P' Q' Y' := by
  obtain ⟨-, e0, e1, e2⟩ := make_built hm
  obtain ⟨st', h1, N, h2, h3, h4, h5, h6⟩ := mesh_main hres hm
  rw [hst] at h1
  obtain rfl := Option.some.inj h1
  clear hst hm
  generalize ⌈b.size.x / res⌉ = d0 at *
  generalize ⌈b.size.y / res⌉ = d1 at *
  generalize ⌈b.size.z / res⌉ = d2 at *
  have hp : 0 < res ^ 3 := by positivity
  refine ⟨_, (h5 _).2 ⟨.centre 1 1 1, .corner 1 1 1, .corner 2 1 1, .centre 1 1 0, ?_, rfl⟩,
    _, (h5 _).2 ⟨.centre 1 1 1, .corner 1 2 2, .corner 1 1 2, .centre 0 1 1, ?_, rfl⟩, _, _, _, _, _, _, _, _,
    ⟨h6 _ ?_, h6 _ ?_, h6 _ ?_, h6 _ ?_⟩, ⟨h6 _ ?_, h6 _ ?_, h6 _ ?_, h6 _ ?_⟩, ?_, ?_⟩
  · simp only [Joins, InGrid, CornerOf, orient, Pt.twice]
    norm_num
    omega
  · simp only [Joins, InGrid, CornerOf, orient, Pt.twice]
    norm_num
    omega
  all_goals first | (simp only [InGrid]; omega) | skip
  · simp [placed, swapped, Pt.position, volume6, V3.sub]
    nlinarith
  · simp [placed, swapped, Pt.position, volume6, V3.sub]
    nlinarith

/-- A box of three cells in every direction is accepted. -/
example : ∃ m st, makeBCCMesh ⟨⟨0, 0, 0⟩, ⟨3, 3, 3⟩⟩ 1 = some m ∧ meshTetraBCC m 1 = some st ∧ st.tetras ≠ [] := by
  obtain ⟨m, hm⟩ := (C43_accepted ⟨⟨0, 0, 0⟩, ⟨3, 3, 3⟩⟩ one_pos).2 (by norm_num)
  obtain ⟨st, h, -⟩ := C43_numbering_partial one_pos hm rfl rfl rfl
  obtain ⟨t, ht, -⟩ := C43_inverted one_pos hm h
  exact ⟨m, st, hm, h, fun e => by rw [e] at ht; simp at ht⟩

end Bcc
end Sdf
