import Verif.Spec.Trees
import Verif.Lemmas.Revolve
import Verif.Lemmas.Loops
import Verif.Props.C19Transform
import Verif.Props.C31Polygon
import Verif.Props.C29Pruning

/-! Helper lemmas: the constructors keep the 1-Lipschitz property. -/

namespace Sdf

theorem Lip3.const (c : ℝ) : Lip3 (fun _ => c) := fun p q => by simp [V3.dist_nonneg]
theorem Lip2.const (c : ℝ) : Lip2 (fun _ => c) := fun p q => by simp [V2.dist_nonneg]

theorem Lip3.max {f g : V3 → ℝ} (hf : Lip3 f) (hg : Lip3 g) : Lip3 (fun p => Max.max (f p) (g p)) :=
  fun p q => (abs_max_sub_max_le_max _ _ _ _).trans (max_le (hf p q) (hg p q))
theorem Lip3.min {f g : V3 → ℝ} (hf : Lip3 f) (hg : Lip3 g) : Lip3 (fun p => Min.min (f p) (g p)) :=
  fun p q => (abs_min_sub_min_le_max _ _ _ _).trans (max_le (hf p q) (hg p q))
theorem Lip2.max {f g : V2 → ℝ} (hf : Lip2 f) (hg : Lip2 g) : Lip2 (fun p => Max.max (f p) (g p)) :=
  fun p q => (abs_max_sub_max_le_max _ _ _ _).trans (max_le (hf p q) (hg p q))
theorem Lip2.min {f g : V2 → ℝ} (hf : Lip2 f) (hg : Lip2 g) : Lip2 (fun p => Min.min (f p) (g p)) :=
  fun p q => (abs_min_sub_min_le_max _ _ _ _).trans (max_le (hf p q) (hg p q))

theorem Lip3.neg {f : V3 → ℝ} (hf : Lip3 f) : Lip3 (fun p => -f p) := fun p q => by
  have := hf p q
  rwa [show -f p - -f q = -(f p - f q) by ring, abs_neg]
theorem Lip2.neg {f : V2 → ℝ} (hf : Lip2 f) : Lip2 (fun p => -f p) := fun p q => by
  have := hf p q
  rwa [show -f p - -f q = -(f p - f q) by ring, abs_neg]

theorem Lip3.sub {f : V3 → ℝ} (hf : Lip3 f) (c : ℝ) : Lip3 (fun p => f p - c) := fun p q => by
  simpa using hf p q
theorem Lip2.sub {f : V2 → ℝ} (hf : Lip2 f) (c : ℝ) : Lip2 (fun p => f p - c) := fun p q => by
  simpa using hf p q

theorem Lip3.abs {f : V3 → ℝ} (hf : Lip3 f) : Lip3 (fun p => |f p|) := fun p q =>
  (abs_abs_sub_abs_le _ _).trans (hf p q)

/-- Composition with a map that does not increase distances. -/
theorem Lip3.comp {f : V3 → ℝ} (hf : Lip3 f) {g : V3 → V3} (hg : ∀ p q, V3.dist (g p) (g q) ≤ V3.dist p q) : Lip3 (fun p => f (g p)) :=
  fun p q => (hf _ _).trans (hg p q)
theorem Lip2.comp {f : V2 → ℝ} (hf : Lip2 f) {g : V2 → V2} (hg : ∀ p q, V2.dist (g p) (g q) ≤ V2.dist p q) : Lip2 (fun p => f (g p)) :=
  fun p q => (hf _ _).trans (hg p q)
theorem Lip2.comp3 {f : V2 → ℝ} (hf : Lip2 f) {g : V3 → V2} (hg : ∀ p q, V2.dist (g p) (g q) ≤ V3.dist p q) : Lip3 (fun p => f (g p)) :=
  fun p q => (hf _ _).trans (hg p q)
theorem Lip3.comp2 {f : V3 → ℝ} (hf : Lip3 f) {g : V2 → V3} (hg : ∀ p q, V3.dist (g p) (g q) ≤ V2.dist p q) : Lip2 (fun p => f (g p)) :=
  fun p q => (hf _ _).trans (hg p q)

theorem Lip3.foldl {α : Type} {g : α → V3 → ℝ} (l : List α) (h : ∀ a ∈ l, Lip3 (g a)) {d : V3 → ℝ} (hd : Lip3 d) :
    Lip3 (fun p => l.foldl (fun d a => Min.min d (g a p)) (d p)) := by
  induction l generalizing d with
  | nil => exact hd
  | cons a l ih =>
    exact ih (fun b hb => h b (List.mem_cons_of_mem _ hb)) (hd.min (h a List.mem_cons_self))

theorem Lip3.foldl' {α : Type} {F : (ℝ → α → V3 → ℝ)} (l : List α)
    (h : ∀ a ∈ l, ∀ d : V3 → ℝ, Lip3 d → Lip3 (fun p => F (d p) a p)) {d : V3 → ℝ} (hd : Lip3 d) :
    Lip3 (fun p => l.foldl (fun d a => F d a p) (d p)) := by
  induction l generalizing d with
  | nil => exact hd
  | cons a l ih =>
    exact ih (fun b hb => h b (List.mem_cons_of_mem _ hb)) (h a List.mem_cons_self d hd)

theorem Lip2.foldl' {α : Type} {F : (ℝ → α → V2 → ℝ)} (l : List α)
    (h : ∀ a ∈ l, ∀ d : V2 → ℝ, Lip2 d → Lip2 (fun p => F (d p) a p)) {d : V2 → ℝ} (hd : Lip2 d) :
    Lip2 (fun p => l.foldl (fun d a => F d a p) (d p)) := by
  induction l generalizing d with
  | nil => exact hd
  | cons a l ih =>
    exact ih (fun b hb => h b (List.mem_cons_of_mem _ hb)) (h a List.mem_cons_self d hd)

theorem Lip2.foldl {α : Type} {g : α → V2 → ℝ} (l : List α) (h : ∀ a ∈ l, Lip2 (g a)) {d : V2 → ℝ} (hd : Lip2 d) :
    Lip2 (fun p => l.foldl (fun d a => Min.min d (g a p)) (d p)) :=
  Lip2.foldl' l (F := fun d a p => Min.min d (g a p)) (fun a ha _ hd => hd.min (h a ha)) hd

theorem V3.dist_sub (p q t : V3) : V3.dist (V3.sub p t) (V3.sub q t) = V3.dist p q := by
  unfold V3.dist; congr 1; simp [V3.sub]
theorem V2.dist_sub (p q t : V2) : V2.dist (V2.sub p t) (V2.sub q t) = V2.dist p q := by
  unfold V2.dist; congr 1; simp [V2.sub]

/-- A scalar product with a unit vector. -/
theorem Lip3.dot (n a : V3) (hn : V3.norm n = 1) : Lip3 (fun p => V3.dot n (V3.sub p a)) := fun p q => by
  have e : V3.dot n (V3.sub p a) - V3.dot n (V3.sub q a) = V3.dot n (V3.sub p q) := by simp only [V3.dot, V3.sub]; ring
  have e' : -(V3.dot n (V3.sub p q)) = V3.dot n (V3.sub q p) := by simp only [V3.dot, V3.sub]; ring
  have h1 := V3.dot_le n (V3.sub p q)
  have h2 := V3.dot_le n (V3.sub q p)
  rw [hn, one_mul] at h1 h2
  rw [e, abs_le]
  exact ⟨by rw [V3.norm_neg_sub] at h2; unfold V3.dist; linarith, h1⟩
theorem Lip2.dot (n a : V2) (hn : V2.norm n = 1) : Lip2 (fun p => V2.dot n (V2.sub p a)) := fun p q => by
  have e : V2.dot n (V2.sub p a) - V2.dot n (V2.sub q a) = V2.dot n (V2.sub p q) := by simp only [V2.dot, V2.sub]; ring
  have e' : -(V2.dot n (V2.sub p q)) = V2.dot n (V2.sub q p) := by simp only [V2.dot, V2.sub]; ring
  have h1 := V2.dot_le n (V2.sub p q)
  have h2 := V2.dot_le n (V2.sub q p)
  rw [hn, one_mul] at h1 h2
  rw [e, abs_le]
  exact ⟨by rw [V2.norm_neg_sub] at h2; unfold V2.dist; linarith, h1⟩

theorem drop_dist (p q : V3) : V2.dist ⟨p.x, p.y⟩ ⟨q.x, q.y⟩ ≤ V3.dist p q := by
  unfold V2.dist V3.dist
  refine V2.norm_le_of (V3.norm_nonneg _) ?_
  rw [V3.norm_sq]; simp only [V2.sub, V3.sub]
  nlinarith [mul_self_nonneg (p.z - q.z)]

theorem Lip3.absZ (h : ℝ) : Lip3 (fun p => |p.z| - h) := by
  refine Lip3.sub (Lip3.abs (f := fun p => p.z) fun p q => ?_) h
  exact V3.abs_z_le (V3.sub p q)

theorem clamp1_close (x y h : ℝ) : |(x - V2.clamp1 x (-(0.5 * h)) (0.5 * h)) - (y - V2.clamp1 y (-(0.5 * h)) (0.5 * h))| ≤ |x - y| := by
  wlog hxy : x ≤ y generalizing x y
  · have := this y x (by linarith)
    rw [abs_sub_comm, abs_sub_comm x y]
    exact this
  have mono : V2.clamp1 x (-(0.5 * h)) (0.5 * h) ≤ V2.clamp1 y (-(0.5 * h)) (0.5 * h) :=
    min_le_min_left _ (max_le_max_right _ hxy)
  have step : V2.clamp1 y (-(0.5 * h)) (0.5 * h) - V2.clamp1 x (-(0.5 * h)) (0.5 * h) ≤ y - x := by
    unfold V2.clamp1
    have h1 := abs_min_sub_min_le_max (0.5 * h) (Max.max y (-(0.5 * h))) (0.5 * h) (Max.max x (-(0.5 * h)))
    have h2 := abs_max_sub_max_le_max y (-(0.5 * h)) x (-(0.5 * h))
    rw [sub_self, abs_zero, max_eq_right (a := (0:ℝ)) (abs_nonneg _)] at h1
    rw [sub_self, abs_zero, max_eq_left (b := (0:ℝ)) (abs_nonneg _)] at h2
    rw [abs_of_nonneg (by linarith : (0:ℝ) ≤ y - x)] at h2
    linarith [le_abs_self (Min.min (0.5 * h) (Max.max y (-(0.5 * h))) - Min.min (0.5 * h) (Max.max x (-(0.5 * h))))]
  rw [abs_sub_comm x y, abs_of_nonneg (by linarith : (0:ℝ) ≤ y - x), abs_le]
  constructor <;> linarith

theorem roundJoin_eq (a b : ℝ) : SDF3.roundJoin a b = boxFn2 ⟨a, b⟩ := by
  unfold SDF3.roundJoin
  by_cases hb : b > 0
  · rw [if_pos hb]
    by_cases ha : a < 0
    · rw [if_pos ha, boxFn2_neg _ (fun h => absurd h.1 (not_lt.2 ha.le))]
      exact (max_eq_right (by linarith)).symm
    · rw [if_neg ha]
      rcases eq_or_lt_of_le (not_lt.1 ha) with h0 | h0
      · subst h0
        rw [boxFn2_neg _ (fun h => absurd h.1 (lt_irrefl _)), max_eq_right hb.le, zero_mul, zero_add, Real.sqrt_mul_self hb.le]
      · rw [boxFn2_pos _ ⟨h0, hb⟩]; rfl
  · rw [if_neg hb, boxFn2_neg _ (fun h => hb h.2)]
    by_cases ha : a < 0
    · rw [if_pos ha]
    · rw [if_neg ha, max_eq_left (by linarith)]

theorem Lip3.roundJoin {f : V2 → ℝ} (hf : Lip2 f) (h : ℝ) : Lip3 (fun p => SDF3.roundJoin (f ⟨p.x, p.y⟩) (|p.z| - h)) := by
  have key : ∀ p q : V3, V2.dist ⟨f ⟨p.x, p.y⟩, |p.z| - h⟩ ⟨f ⟨q.x, q.y⟩, |q.z| - h⟩ ≤ V3.dist p q := by
    intro p q
    unfold V2.dist
    refine V2.norm_le_of (V3.dist_nonneg _ _) ?_
    unfold V3.dist
    rw [V3.norm_sq]
    have h1 := hf ⟨p.x, p.y⟩ ⟨q.x, q.y⟩
    have h2 := V2.norm_sq (V2.sub ⟨p.x, p.y⟩ ⟨q.x, q.y⟩)
    have h3 := abs_abs_sub_abs_le p.z q.z
    have h1' := mul_self_le_mul_self (abs_nonneg _) h1
    have h3' := mul_self_le_mul_self (abs_nonneg _) h3
    rw [abs_mul_abs_self] at h1'
    rw [abs_mul_abs_self, abs_mul_abs_self] at h3'
    unfold V2.dist at h1'
    rw [h2] at h1'
    simp only [V2.sub, V3.sub] at h1' ⊢
    nlinarith
  intro p q
  simp only
  rw [roundJoin_eq, roundJoin_eq, abs_le]
  have h1 := boxFn2_lip ⟨f ⟨p.x, p.y⟩, |p.z| - h⟩ ⟨f ⟨q.x, q.y⟩, |q.z| - h⟩
  have h2 := boxFn2_lip ⟨f ⟨q.x, q.y⟩, |q.z| - h⟩ ⟨f ⟨p.x, p.y⟩, |p.z| - h⟩
  rw [V2.dist_comm] at h2
  have := key p q
  constructor <;> linarith

/-- The inverse of a rigid placement keeps distances too. -/
theorem M44.Rigid.inverse_dist {m : M44} (h : m.Rigid) (p q : V3) :
    V3.dist (m.inverse.mulPosition p) (m.inverse.mulPosition q) = V3.dist p q := by
  have hd : m.det ≠ 0 := by rw [M44.det_eq]; exact h.2.1
  rw [← h.2.2, M44.mulPosition_inverse h.1 hd, M44.mulPosition_inverse h.1 hd]
theorem M33.Rigid.inverse_dist {m : M33} (h : m.Rigid) (p q : V2) :
    V2.dist (m.inverse.mulPosition p) (m.inverse.mulPosition q) = V2.dist p q := by
  have hd : m.det ≠ 0 := by rw [M33.det_eq]; exact h.2.1
  rw [← h.2.2, M33.mulPosition_inverse h.1 hd, M33.mulPosition_inverse h.1 hd]

theorem rotateUnionLoop3_lip {s : SDF3} (hs : Lip3 s.eval) {step : M44} (ha : step.Affine)
    (hst : ∀ p q, V3.dist (step.mulPosition p) (step.mulPosition q) = V3.dist p q) (n : ℕ) :
    ∀ (rot : M44), (∀ p q, V3.dist (rot.mulPosition p) (rot.mulPosition q) = V3.dist p q) → ∀ d : V3 → ℝ, Lip3 d →
      Lip3 (fun p => SDF3.rotateUnionLoop Min.min s step p n rot (d p)) := by
  induction n with
  | zero => intro rot _ d hd; exact hd
  | succ n ih =>
    intro rot hr d hd
    refine ih (rot.mul step) ?_ (fun p => Min.min (d p) (s.eval (rot.mulPosition p))) (hd.min (hs.comp fun p q => (hr p q).le))
    intro p q
    rw [M44.mulPosition_mul ha, M44.mulPosition_mul ha, hr, hst]

theorem rotateUnionLoop2_lip {s : SDF2} (hs : Lip2 s.eval) {step : M33} (ha : step.Affine)
    (hst : ∀ p q, V2.dist (step.mulPosition p) (step.mulPosition q) = V2.dist p q) (n : ℕ) :
    ∀ (rot : M33), (∀ p q, V2.dist (rot.mulPosition p) (rot.mulPosition q) = V2.dist p q) → ∀ d : V2 → ℝ, Lip2 d →
      Lip2 (fun p => SDF2.rotateUnionLoop Min.min s step p n rot (d p)) := by
  induction n with
  | zero => intro rot _ d hd; exact hd
  | succ n ih =>
    intro rot hr d hd
    refine ih (rot.mul step) ?_ (fun p => Min.min (d p) (s.eval (rot.mulPosition p))) (hd.min (hs.comp fun p q => (hr p q).le))
    intro p q
    rw [M33.mulPosition_mul ha, M33.mulPosition_mul ha, hr, hst]

theorem Lip2.line (l round : ℝ) : Lip2 (Must2.line l round).eval := by
  rw [show (Must2.line l round).eval = fun p => sdfBox2d p ⟨l / 2, 0⟩ - round from funext (Sdf.line_eq l round)]
  exact Lip2.sub (sdfBox2d_lip _) _

end Sdf
