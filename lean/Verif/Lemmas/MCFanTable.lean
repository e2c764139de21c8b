import Verif.Lemmas.MCManifoldTable
import Mathlib.Logic.Relation

/-! Helper lemmas: the triangles of a cell around one of its edge points form one fan. -/

namespace Sdf.MC

abbrev Triple := Fin 12 × Fin 12 × Fin 12

def memT (e : Fin 12) (t : Triple) : Bool := Nat.beq e.val t.1.val || Nat.beq e.val t.2.1.val || Nat.beq e.val t.2.2.val

/-- `s` and `t` share a point other than `e`. -/
def adjT (e : Fin 12) (s t : Triple) : Bool :=
  (!Nat.beq e.val s.1.val && memT s.1 t) || (!Nat.beq e.val s.2.1.val && memT s.2.1 t) || (!Nat.beq e.val s.2.2.val && memT s.2.2 t)

def codeT (t : Triple) : Nat := t.1.val * 144 + t.2.1.val * 12 + t.2.2.val

theorem codeT_inj {s t : Triple} (h : codeT s = codeT t) : s = t := by
  unfold codeT at h
  ext <;> omega

def fan (idx : Nat) (e : Fin 12) : List Triple := (triples (triangleTable.getD idx [])).filter (memT e)

def grow (e : Fin 12) (l S : List Triple) : Nat → List Triple
  | 0 => S
  | n + 1 => grow e l (l.filter fun t => S.any fun s => adjT e s t) n

def fanOk (e : Fin 12) (l : List Triple) : Bool :=
  match l with
  | [] => true
  | [_] => true
  | h :: r => let g := grow e l [h] 4; r.all fun t => g.any fun s => Nat.beq (codeT s) (codeT t)

set_option maxRecDepth 4000 in
theorem fan_table : ∀ b0 b1 b2 b3 b4 b5 b6 b7 : Bool, ∀ e : Fin 12,
    fanOk e (fan (bitsToNat ![b0, b1, b2, b3, b4, b5, b6, b7]) e) = true := by decide +kernel

theorem memT_iff (e : Fin 12) (t : Triple) : memT e t = true ↔ e = t.1 ∨ e = t.2.1 ∨ e = t.2.2 := by
  unfold memT
  simp only [Bool.or_eq_true, Nat.beq_eq, Fin.ext_iff, or_assoc]

theorem adjT_iff (e : Fin 12) (s t : Triple) : adjT e s t = true ↔ ∃ f, f ≠ e ∧ memT f s = true ∧ memT f t = true := by
  unfold adjT
  have hn : ∀ f : Fin 12, (!Nat.beq e.val f.val) = true ↔ f ≠ e := by
    intro f
    rw [Bool.not_eq_true', ← Bool.not_eq_true, Nat.beq_eq, ne_eq, Fin.ext_iff, eq_comm]
  simp only [Bool.or_eq_true, Bool.and_eq_true, hn]
  constructor
  · rintro ((⟨h, h'⟩ | ⟨h, h'⟩) | ⟨h, h'⟩)
    · exact ⟨_, h, by simp [memT], h'⟩
    · exact ⟨_, h, by simp [memT], h'⟩
    · exact ⟨_, h, by simp [memT], h'⟩
  · rintro ⟨f, h, h1, h2⟩
    rcases (memT_iff f s).mp h1 with rfl | rfl | rfl
    · exact Or.inl (Or.inl ⟨h, h2⟩)
    · exact Or.inl (Or.inr ⟨h, h2⟩)
    · exact Or.inr ⟨h, h2⟩

/-- Neighbours in a list of triples: both in it, both at `e`, sharing another point. -/
def Next (l : List Triple) (e : Fin 12) (s t : Triple) : Prop := s ∈ l ∧ t ∈ l ∧ ∃ f, f ≠ e ∧ memT f s = true ∧ memT f t = true

theorem grow_reach (e : Fin 12) (l : List Triple) (h : Triple) : ∀ (n : Nat) (S : List Triple),
    (∀ s ∈ S, s ∈ l ∧ Relation.ReflTransGen (Next l e) h s) → ∀ t ∈ grow e l S n, Relation.ReflTransGen (Next l e) h t
  | 0, S, hS, t, ht => (hS t ht).2
  | n + 1, S, hS, t, ht => by
    refine grow_reach e l h n _ ?_ t ht
    intro u hu
    obtain ⟨hul, hu⟩ := List.mem_filter.mp hu
    obtain ⟨s, hs, hsu⟩ := List.any_eq_true.mp hu
    exact ⟨hul, (hS s hs).2.tail ⟨(hS s hs).1, hul, (adjT_iff e s u).mp hsu⟩⟩

theorem Next.symm {l : List Triple} {e : Fin 12} {s t : Triple} (h : Next l e s t) : Next l e t s := by
  obtain ⟨h1, h2, f, h3, h4, h5⟩ := h
  exact ⟨h2, h1, f, h3, h5, h4⟩

/-- Any two triangles of a cell at the same edge point are joined by a chain of triangles at that point, neighbours sharing an edge. -/
theorem fan_connected (b : Fin 8 → Bool) (e : Fin 12) (s t : Triple) (hs : s ∈ fan (bitsToNat b) e) (ht : t ∈ fan (bitsToNat b) e) :
    Relation.ReflTransGen (Next (fan (bitsToNat b) e) e) s t := by
  have h := forall_bits (P := fun b => ∀ e : Fin 12, fanOk e (fan (bitsToNat b) e) = true) fan_table b e
  generalize fan (bitsToNat b) e = l at *
  match l, h, hs, ht with
  | [], _, hs, _ => exact absurd hs (by simp)
  | [a], _, hs, ht =>
    rw [List.mem_singleton.mp hs, List.mem_singleton.mp ht]
  | a :: c :: r, h, hs, ht =>
    have key : ∀ u ∈ a :: c :: r, Relation.ReflTransGen (Next (a :: c :: r) e) a u := by
      intro u hu
      rcases List.mem_cons.mp hu with rfl | hu
      · exact .refl
      · simp only [fanOk] at h
        have := List.all_eq_true.mp h u hu
        obtain ⟨w, hw, hwu⟩ := List.any_eq_true.mp this
        rw [← codeT_inj (Nat.eq_of_beq_eq_true hwu)]
        refine grow_reach e _ a 4 [a] ?_ w hw
        intro s hs
        rw [List.mem_singleton.mp hs]
        exact ⟨List.mem_cons_self, .refl⟩
    have : Std.Symm (Next (a :: c :: r) e) := ⟨fun _ _ => Next.symm⟩
    exact (Relation.ReflTransGen.stdSymm.symm _ _ (key s hs)).trans (key t ht)

/-- Every crossed edge of a face is the end of a segment. -/
theorem seg_covers : ∀ (b : Fin 4 → Bool) (i : Fin 4), b i ≠ b (i + 1) →
    ∃ j, (i, j) ∈ seg (b 0) (b 1) (b 2) (b 3) ∨ (j, i) ∈ seg (b 0) (b 1) (b 2) (b 3) := by decide +kernel

theorem side_covers (w : Bool) (b : Fin 4 → Bool) (i : Fin 4) (h : b i ≠ b (i + 1)) : ∃ j, (i, j) ∈ side w b ∨ (j, i) ∈ side w b := by
  obtain ⟨j, h⟩ := seg_covers b i h
  refine ⟨j, ?_⟩
  unfold side swapP
  cases w <;> simp <;> tauto

/-- The ends of face edge `i` are the face corners `i` and `i + 1`. -/
theorem up_ends : ∀ (a : Fin 3) (i : Fin 4), (pairTable (up a i) = (upc a i, upc a (i + 1))) ∨ pairTable (up a i) = (upc a (i + 1), upc a i) := by
  decide +kernel
theorem dn_ends : ∀ (a : Fin 3) (i : Fin 4), (pairTable (dn a i) = (dnc a i, dnc a (i + 1))) ∨ pairTable (dn a i) = (dnc a (i + 1), dnc a i) := by
  decide +kernel

/-- `e` of a cell is `e'` of a cell across a face. -/
def Across (e e' : Fin 12) : Prop := ∃ (a : Fin 3) (i : Fin 4), (e = up a i ∧ e' = dn a i) ∨ (e = dn a i ∧ e' = up a i)

instance (e e' : Fin 12) : Decidable (Across e e') := by unfold Across; infer_instance

/-- Two cells with a common edge are reached from each other across at most two faces through that edge. -/
theorem around : ∀ e e' : Fin 12, (mid e).1 % 2 = (mid e').1 % 2 → (mid e).2.1 % 2 = (mid e').2.1 % 2 → (mid e).2.2 % 2 = (mid e').2.2 % 2 →
    e = e' ∨ Across e e' ∨ ∃ e'', Across e e'' ∧ Across e'' e' := by decide +kernel

end Sdf.MC
