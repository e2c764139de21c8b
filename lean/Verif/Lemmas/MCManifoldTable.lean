import Verif.Lemmas.MCTable
import Verif.Spec.Mesh

/-! Helper lemmas: how the triangles of the marching-cubes table fit together, checked over all 256 corner patterns. -/

namespace Sdf.MC

/-- Cell edges on the upper and the lower face across axis `a`, numbered alike: `up a i` of a cell is `dn a i` of the next cell. -/
def up : Fin 3 → Fin 4 → Fin 12 := ![fXp, fYp, fZp]
def dn : Fin 3 → Fin 4 → Fin 12 := ![fXm, fYm, fZm]

/-- Corners of those faces; local edge `i` joins corners `i` and `i + 1`. -/
def upc : Fin 3 → Fin 4 → Fin 8 := ![![1, 2, 6, 5], ![3, 2, 6, 7], ![4, 5, 6, 7]]
def dnc : Fin 3 → Fin 4 → Fin 8 := ![![0, 3, 7, 4], ![0, 1, 5, 4], ![0, 1, 2, 3]]

/-- The segments of a face with corner signs `b`, in the direction in which a cell on one side (`w`) traverses them. -/
def side (w : Bool) (b : Fin 4 → Bool) : List (Fin 4 × Fin 4) :=
  if w then seg (b 0) (b 1) (b 2) (b 3) else swapP (seg (b 0) (b 1) (b 2) (b 3))

def code4 (e : Fin 4 × Fin 4) : Nat := e.1.val * 4 + e.2.val

theorem code4_inj {a b : Fin 4 × Fin 4} (h : code4 a = code4 b) : a = b := by
  unfold code4 at h
  ext <;> omega

def has (l : List (Fin 12 × Fin 12)) (e : Fin 12 × Fin 12) : Bool := l.any fun f => Nat.beq (code f) (code e)
def has4 (l : List (Fin 4 × Fin 4)) (e : Fin 4 × Fin 4) : Bool := l.any fun f => Nat.beq (code4 f) (code4 e)

theorem has_iff (l : List (Fin 12 × Fin 12)) (e : Fin 12 × Fin 12) : has l e = true ↔ e ∈ l := by
  unfold has
  rw [List.any_eq_true]
  constructor
  · rintro ⟨f, hf, h⟩
    rwa [← code_inj (Nat.eq_of_beq_eq_true h)]
  · intro h
    exact ⟨e, h, by simp⟩

theorem has4_iff (l : List (Fin 4 × Fin 4)) (e : Fin 4 × Fin 4) : has4 l e = true ↔ e ∈ l := by
  unfold has4
  rw [List.any_eq_true]
  constructor
  · rintro ⟨f, hf, h⟩
    rwa [← code4_inj (Nat.eq_of_beq_eq_true h)]
  · intro h
    exact ⟨e, h, by simp⟩

set_option maxRecDepth 4000 in
theorem face_up_table : ∀ b0 b1 b2 b3 b4 b5 b6 b7 : Bool,
    let b : Fin 8 → Bool := ![b0, b1, b2, b3, b4, b5, b6, b7]
    ∀ (a : Fin 3) (i j : Fin 4),
      has (dirs (bitsToNat b)) (up a i, up a j) = has4 (side (a == 1) fun q => b (upc a q)) (i, j) := by decide +kernel

set_option maxRecDepth 4000 in
theorem face_dn_table : ∀ b0 b1 b2 b3 b4 b5 b6 b7 : Bool,
    let b : Fin 8 → Bool := ![b0, b1, b2, b3, b4, b5, b6, b7]
    ∀ (a : Fin 3) (i j : Fin 4),
      has (dirs (bitsToNat b)) (dn a i, dn a j) = has4 (side (a != 1) fun q => b (dnc a q)) (i, j) := by decide +kernel

/-- No directed edge occurs twice in a pattern. -/
def nodupCode : List Nat → Bool
  | [] => true
  | a :: l => l.all (fun b => !Nat.beq a b) && nodupCode l

theorem nodupCode_iff : ∀ l : List Nat, nodupCode l = true → l.Nodup
  | [], _ => List.nodup_nil
  | a :: l, h => by
    simp only [nodupCode, Bool.and_eq_true, List.all_eq_true] at h
    refine List.nodup_cons.mpr ⟨fun ha => ?_, nodupCode_iff l h.2⟩
    have := h.1 a ha
    simp at this

set_option maxRecDepth 4000 in
theorem dirs_nodup_table : ∀ b0 b1 b2 b3 b4 b5 b6 b7 : Bool,
    nodupCode ((dirs (bitsToNat ![b0, b1, b2, b3, b4, b5, b6, b7])).map code) = true := by decide +kernel

theorem dirs_nodup (b : Fin 8 → Bool) : (dirs (bitsToNat b)).Nodup := by
  have h := forall_bits (P := fun b => nodupCode ((dirs (bitsToNat b)).map code) = true) dirs_nodup_table b
  exact (nodupCode_iff _ h).of_map

theorem face_up (b : Fin 8 → Bool) (a : Fin 3) (i j : Fin 4) :
    (up a i, up a j) ∈ dirs (bitsToNat b) ↔ (i, j) ∈ side (a == 1) fun q => b (upc a q) := by
  rw [← has_iff, ← has4_iff]
  rw [forall_bits (P := fun b => ∀ (a : Fin 3) (i j : Fin 4),
      has (dirs (bitsToNat b)) (up a i, up a j) = has4 (side (a == 1) fun q => b (upc a q)) (i, j)) face_up_table b a i j]

theorem face_dn (b : Fin 8 → Bool) (a : Fin 3) (i j : Fin 4) :
    (dn a i, dn a j) ∈ dirs (bitsToNat b) ↔ (i, j) ∈ side (a != 1) fun q => b (dnc a q) := by
  rw [← has_iff, ← has4_iff]
  rw [forall_bits (P := fun b => ∀ (a : Fin 3) (i j : Fin 4),
      has (dirs (bitsToNat b)) (dn a i, dn a j) = has4 (side (a != 1) fun q => b (dnc a q)) (i, j)) face_dn_table b a i j]

/-- The cells on the two sides of a face traverse its segments in opposite directions. -/
theorem side_opposite (w : Bool) (b : Fin 4 → Bool) (i j : Fin 4) : (i, j) ∈ side w b ↔ (j, i) ∈ side (!w) b := by
  unfold side swapP
  cases w <;> simp

/-- No segment occurs in both directions. -/
theorem seg_antisymm : ∀ (b0 b1 b2 b3 : Bool) (i j : Fin 4), (i, j) ∈ seg b0 b1 b2 b3 → (j, i) ∉ seg b0 b1 b2 b3 := by decide

theorem side_antisymm (w : Bool) (b : Fin 4 → Bool) (i j : Fin 4) (h : (i, j) ∈ side w b) : (i, j) ∉ side (!w) b := by
  unfold side swapP at *
  cases w <;> simp at h ⊢
  · exact seg_antisymm _ _ _ _ _ _ h
  · exact seg_antisymm _ _ _ _ _ _ h

/-- Twice the middle of a cell edge, relative to the cell. -/
def mid (e : Fin 12) : Nat × Nat × Nat :=
  let p := cornerOffset (pairTable e).1
  let q := cornerOffset (pairTable e).2
  (p.1.toNat + q.1.toNat, p.2.1.toNat + q.2.1.toNat, p.2.2.toNat + q.2.2.toNat)

def unit (a : Fin 3) : ℤ × ℤ × ℤ := ![(1, 0, 0), (0, 1, 0), (0, 0, 1)] a

theorem mid_inj : ∀ e f : Fin 12, mid e = mid f → e = f := by decide +kernel

theorem mid_up : ∀ (a : Fin 3) (i : Fin 4), (((mid (up a i)).1 : ℤ), ((mid (up a i)).2.1 : ℤ), ((mid (up a i)).2.2 : ℤ))
    = (((mid (dn a i)).1 : ℤ) + 2 * (unit a).1, ((mid (dn a i)).2.1 : ℤ) + 2 * (unit a).2.1, ((mid (dn a i)).2.2 : ℤ) + 2 * (unit a).2.2) := by
  decide +kernel

/-- `mid e - mid e'` and `mid f - mid f'` are the same even vector. -/
def sameShift (e f e' f' : Fin 12) : Bool :=
  Nat.beq ((mid e).1 % 2) ((mid e').1 % 2) && Nat.beq ((mid e).2.1 % 2) ((mid e').2.1 % 2) && Nat.beq ((mid e).2.2 % 2) ((mid e').2.2 % 2)
    && Nat.beq ((mid e).1 + (mid f').1) ((mid f).1 + (mid e').1) && Nat.beq ((mid e).2.1 + (mid f').2.1) ((mid f).2.1 + (mid e').2.1)
    && Nat.beq ((mid e).2.2 + (mid f').2.2) ((mid f).2.2 + (mid e').2.2)

def onFace (e f e' f' : Fin 12) : Bool :=
  (List.finRange 3).any fun a => (List.finRange 4).any fun i => (List.finRange 4).any fun j =>
    (Nat.beq (code (e, f)) (code (up a i, up a j)) && Nat.beq (code (e', f')) (code (dn a i, dn a j)))
      || (Nat.beq (code (e, f)) (code (dn a i, dn a j)) && Nat.beq (code (e', f')) (code (up a i, up a j)))

theorem two_edges_table : ∀ e f e' f' : Fin 12,
    (!sameShift e f e' f' || Nat.beq e.val f.val || Nat.beq e.val e'.val || onFace e f e' f') = true := by
  decide +kernel

/-- Two distinct cell edges `e`, `f` of one cell that are the edges `e'`, `f'` of another cell lie on the face between the cells. -/
theorem two_edges (e f e' f' : Fin 12) (hne : e ≠ f) (x y z : ℤ) (hd : ¬ (x = 0 ∧ y = 0 ∧ z = 0))
    (e1 : ((mid e).1 : ℤ) = (mid e').1 + 2 * x) (e2 : ((mid e).2.1 : ℤ) = (mid e').2.1 + 2 * y) (e3 : ((mid e).2.2 : ℤ) = (mid e').2.2 + 2 * z)
    (f1 : ((mid f).1 : ℤ) = (mid f').1 + 2 * x) (f2 : ((mid f).2.1 : ℤ) = (mid f').2.1 + 2 * y) (f3 : ((mid f).2.2 : ℤ) = (mid f').2.2 + 2 * z) :
    ∃ a : Fin 3, ∃ i j : Fin 4, (e = up a i ∧ f = up a j ∧ e' = dn a i ∧ f' = dn a j) ∨ (e = dn a i ∧ f = dn a j ∧ e' = up a i ∧ f' = up a j) := by
  have h := two_edges_table e f e' f'
  have hs : sameShift e f e' f' = true := by
    unfold sameShift
    simp only [Bool.and_eq_true]
    refine ⟨⟨⟨⟨⟨?_, ?_⟩, ?_⟩, ?_⟩, ?_⟩, ?_⟩ <;> rw [Nat.beq_eq] <;> omega
  have h1 : Nat.beq e.val f.val = false := by
    rw [Bool.eq_false_iff]; intro h; exact hne (Fin.ext (Nat.eq_of_beq_eq_true h))
  have h2 : Nat.beq e.val e'.val = false := by
    rw [Bool.eq_false_iff]; intro h
    have := Fin.ext (Nat.eq_of_beq_eq_true h)
    subst this
    omega
  rw [hs, h1, h2] at h
  simp only [Bool.not_true, Bool.false_or] at h
  unfold onFace at h
  simp only [List.any_eq_true, Bool.or_eq_true, Bool.and_eq_true] at h
  obtain ⟨a, -, i, -, j, -, h⟩ := h
  refine ⟨a, i, j, ?_⟩
  rcases h with ⟨h, h'⟩ | ⟨h, h'⟩
  · left
    have := code_inj (Nat.eq_of_beq_eq_true h)
    have := code_inj (Nat.eq_of_beq_eq_true h')
    simp_all
  · right
    have := code_inj (Nat.eq_of_beq_eq_true h)
    have := code_inj (Nat.eq_of_beq_eq_true h')
    simp_all

end Sdf.MC
