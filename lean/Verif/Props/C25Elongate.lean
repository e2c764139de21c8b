import Verif.Model.Combine3
import Verif.Model.Combine2
import Verif.Lemmas.Loops
import Verif.Lemmas.MaxFloat
import Verif.Spec.Shape

/-!
C25: elongation splits the shape at the coordinate planes and pulls the halves apart.  True of `Elongate3D`;
`Elongate2D` merely translates the shape by `|h|/2`.
-/

namespace Sdf

/-- Along one axis, pulling apart by `h ≥ 0`: the coordinate `x` of the elongated shape shows what the original
shape has at coordinate `y`.  Right of the middle slab the shape is shifted by `h/2`, left of it by `-h/2`, and in
the middle slab it is constantly the section at zero. -/
def Pulled (h x y : ℝ) : Prop :=
  (x > h / 2 ∧ y = x - h / 2) ∨ (x < -(h / 2) ∧ y = x + h / 2) ∨ (-(h / 2) ≤ x ∧ x ≤ h / 2 ∧ y = 0)

theorem C25_clamp (x h : ℝ) (hh : 0 ≤ h) : Pulled h x (x - V2.clamp1 x (-0.5 * h) (0.5 * h)) := by
  unfold Pulled V2.clamp1
  rcases lt_or_ge x (-(h / 2)) with h1 | h1
  · right; left
    refine ⟨h1, ?_⟩
    rw [max_eq_right (by linarith), min_eq_right (by linarith)]; ring
  · rw [max_eq_left (by linarith)]
    rcases lt_or_ge (h / 2) x with h2 | h2
    · left
      refine ⟨h2, ?_⟩
      rw [min_eq_left (by linarith)]; ring
    · right; right
      refine ⟨h1, h2, ?_⟩
      rw [min_eq_right (by linarith)]; ring

theorem Pulled.unique {h x y y' : ℝ} (hh : 0 ≤ h) (a : Pulled h x y) (b : Pulled h x y') : y = y' := by
  unfold Pulled at a b
  rcases a with a | a | a <;> rcases b with b | b | b <;> linarith [a.1, a.2, b.1, b.2]

/-- `Elongate3D`: the value at `p` is the value of the shape at the point pulled together along each axis. -/
theorem C25_elongate3 (s : SDF3) (h p q : V3) (hx : Pulled |h.x| p.x q.x) (hy : Pulled |h.y| p.y q.y)
    (hz : Pulled |h.z| p.z q.z) : (s.elongate h).eval p = s.eval q := by
  simp only [SDF3.elongate]
  congr 1
  ext
  · exact (C25_clamp p.x |h.x| (abs_nonneg _)).unique (abs_nonneg _) hx
  · exact (C25_clamp p.y |h.y| (abs_nonneg _)).unique (abs_nonneg _) hy
  · exact (C25_clamp p.z |h.z| (abs_nonneg _)).unique (abs_nonneg _) hz

/-- Every point has a pulled-together point, so `C25_elongate3` describes the whole shape. -/
theorem C25_elongate3_total (h p : V3) :
    ∃ q : V3, Pulled |h.x| p.x q.x ∧ Pulled |h.y| p.y q.y ∧ Pulled |h.z| p.z q.z :=
  ⟨⟨_, _, _⟩, C25_clamp p.x |h.x| (abs_nonneg _), C25_clamp p.y |h.y| (abs_nonneg _),
    C25_clamp p.z |h.z| (abs_nonneg _)⟩

/-- `p` is inside the elongated shape exactly when it is inside the translate of the shape by some `t` within
`[-|h|/2, |h|/2]` that is the clamped position of `p`. -/
theorem C25_elongate3_inside (s : SDF3) (h p : V3) :
    (s.elongate h).Inside p ↔ ∃ t q : V3, |t.x| ≤ |h.x| / 2 ∧ |t.y| ≤ |h.y| / 2 ∧ |t.z| ≤ |h.z| / 2 ∧
      p = V3.add q t ∧ s.Inside q ∧
      Pulled |h.x| p.x q.x ∧ Pulled |h.y| p.y q.y ∧ Pulled |h.z| p.z q.z := by
  have key : ∀ {h x y : ℝ}, 0 ≤ h → Pulled h x y → |x - y| ≤ h / 2 := by
    intro h x y hh hp
    rw [abs_le]
    rcases hp with ⟨a, b⟩ | ⟨a, b⟩ | ⟨a, b, c⟩ <;> constructor <;> linarith
  constructor
  · intro hin
    obtain ⟨q, a, b, c⟩ := C25_elongate3_total h p
    refine ⟨V3.sub p q, q, key (abs_nonneg _) a, key (abs_nonneg _) b, key (abs_nonneg _) c, ?_, ?_, a, b, c⟩
    · ext <;> simp [V3.add, V3.sub]
    · rw [SDF3.Inside, C25_elongate3 s h p q a b c] at hin; exact hin
  · rintro ⟨t, q, -, -, -, -, hq, a, b, c⟩
    rw [SDF3.Inside, C25_elongate3 s h p q a b c]; exact hq

theorem C25_pulled_zero (x : ℝ) : Pulled |0| x x := by
  simp only [abs_zero, Pulled]
  rcases lt_trichotomy 0 x with h | h | h
  · left; exact ⟨by linarith, by ring⟩
  · right; right; exact ⟨by linarith, by linarith, h.symm⟩
  · right; left; exact ⟨by linarith, by ring⟩

/-- Elongation by nothing changes nothing. -/
theorem C25_elongate3_zero (s : SDF3) (p : V3) : (s.elongate ⟨0, 0, 0⟩).eval p = s.eval p :=
  C25_elongate3 _ _ _ _ (C25_pulled_zero _) (C25_pulled_zero _) (C25_pulled_zero _)

/-- The bounds of the elongated shape are sufficient. -/
theorem C25_elongate3_bounds (s : SDF3) (hb : s.Bounded) (h : V3) : (s.elongate h).Bounded := by
  intro p hp
  obtain ⟨t, q, hx, hy, hz, rfl, hq, -⟩ := (C25_elongate3_inside s h p).mp hp
  obtain ⟨a1, a2, a3, a4, a5, a6⟩ := hb q hq
  rw [abs_le] at hx hy hz
  simp only [SDF3.elongate, Box3.Contains, Box3.extend, Box3.translate, V3.minElem, V3.maxElem, V3.add, V3.scale,
    V3.absElem, min_le_iff, le_max_iff]
  refine ⟨Or.inr ?_, Or.inr ?_, Or.inr ?_, Or.inl ?_, Or.inl ?_, Or.inl ?_⟩ <;> linarith

/-- `Elongate2D` is not an elongation: it translates the shape by `|h|/2`. -/
theorem C25_elongate2_translates (s : SDF2) (h p : V2) :
    (s.elongate h).eval p = s.eval ⟨p.x - |h.x| / 2, p.y - |h.y| / 2⟩ := by
  have e : ∀ x a : ℝ, V2.clamp1 x a a = a := fun x a => min_eq_left (le_max_right _ _)
  simp only [SDF2.elongate, V2.sub, V2.clamp, V2.scale, V2.absElem, e]
  congr 2 <;> ring

/-- What remains true in the plane: elongation by nothing changes nothing, and on the far side of the slab the
value is the one an elongation would have. -/
theorem C25_elongate2_partial (s : SDF2) (h p : V2) :
    (h = ⟨0, 0⟩ → (s.elongate h).eval p = s.eval p) ∧
    ((p.x > |h.x| / 2 ∨ h.x = 0) → (p.y > |h.y| / 2 ∨ h.y = 0) → ∀ q : V2, Pulled |h.x| p.x q.x → Pulled |h.y| p.y q.y →
      (s.elongate h).eval p = s.eval q) := by
  constructor
  · rintro rfl
    rw [C25_elongate2_translates]; simp
  · intro h1 h2 q hx hy
    rw [C25_elongate2_translates]
    have key : ∀ {h x y : ℝ}, (x > |h| / 2 ∨ h = 0) → Pulled |h| x y → x - |h| / 2 = y := by
      intro h x y h1 hp
      rcases h1 with h1 | rfl
      · exact Pulled.unique (abs_nonneg _) (Or.inl ⟨h1, rfl⟩) hp
      · have := (C25_pulled_zero x).unique (by simp) hp
        rw [← this]; simp
    rw [key h1 hx, key h2 hy]

/-- C25 is false in the plane: elongating the unit disc by 2 along x should contain `(-3/2, 0)`, whose pulled
point `(-1/2, 0)` is inside the disc, but does not. -/
theorem C25_elongate2_wrong : ∃ (s : SDF2) (h p q : V2), Pulled |h.x| p.x q.x ∧ Pulled |h.y| p.y q.y ∧
    s.Inside q ∧ ¬ (s.elongate h).Inside p := by
  refine ⟨⟨fun p => V2.norm p - 1, ⟨⟨-1, -1⟩, ⟨1, 1⟩⟩⟩, ⟨2, 0⟩, ⟨-3/2, 0⟩, ⟨-1/2, 0⟩, ?_, ?_, ?_, ?_⟩
  · right; left; norm_num
  · right; right; norm_num
  · simp only [SDF2.Inside]
    rw [V2.norm_eq_of (r := 1/2) (by norm_num) (by norm_num)]; norm_num
  · rw [SDF2.Inside, C25_elongate2_translates]
    simp only
    rw [V2.norm_eq_of (r := 5/2) (by norm_num) (by norm_num)]; norm_num

/-- Non-vacuity: the elongated unit ball contains a point the ball does not. -/
example : (SDF3.elongate ⟨fun p => V3.norm p - 1, ⟨⟨-1, -1, -1⟩, ⟨1, 1, 1⟩⟩⟩ ⟨2, 0, 0⟩).Inside ⟨-3/2, 0, 0⟩ := by
  rw [SDF3.Inside, C25_elongate3 _ _ _ ⟨-1/2, 0, 0⟩]
  · simp only
    rw [V3.norm_eq_of (r := 1/2) (by norm_num) (by norm_num)]; norm_num
  · right; left; norm_num
  · right; right; norm_num
  · right; right; norm_num

end Sdf
