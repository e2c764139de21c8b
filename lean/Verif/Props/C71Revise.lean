import Verif.Spec.Revise
import Verif.Lemmas.Lip
import Verif.Lemmas.Blend
import Verif.Props.C29Pruning
import Verif.Props.C28Blends

/-!
C71: small revisions of the parts of a design make small changes of the model, and larger parts make a larger model.
-/

namespace Sdf

/-- `y` is between `x - g` and `x + s`. -/
def Off (g s x y : ℝ) : Prop := x - g ≤ y ∧ y ≤ x + s

theorem Off.refl {g s : ℝ} (hg : 0 ≤ g) (hs : 0 ≤ s) (x : ℝ) : Off g s x x := ⟨by linarith, by linarith⟩

theorem Off.neg {g s x y : ℝ} (h : Off g s x y) : Off s g (-x) (-y) := ⟨by linarith [h.2], by linarith [h.1]⟩

theorem Off.neg' {g s x y : ℝ} (h : Off g s (-x) (-y)) : Off s g x y := ⟨by linarith [h.2], by linarith [h.1]⟩

theorem Off.max {g s x y x' y' : ℝ} (h : Off g s x y) (h' : Off g s x' y') : Off g s (max x x') (max y y') := by
  obtain ⟨h1, h2⟩ := h
  obtain ⟨h3, h4⟩ := h'
  constructor
  · rw [sub_le_iff_le_add]
    refine max_le ?_ ?_
    · linarith [le_max_left y y']
    · linarith [le_max_right y y']
  · refine max_le ?_ ?_
    · linarith [le_max_left x x']
    · linarith [le_max_right x x']

theorem Blend.off {f : ℝ → ℝ → ℝ} {c : ℝ} (hf : Blend f c) {g s : ℝ} (hg : 0 ≤ g) (hs : 0 ≤ s) {x y x' y' : ℝ} (h : Off g s x y)
    (h' : Off g s x' y') : Off g s (f x x') (f y y') := by
  constructor
  · have h1 := hf.lip x (x - g) x' (x' - g)
    have h2 := hf.mono (x - g) y (x' - g) y' h.1 h'.1
    rw [show x - (x - g) = g by ring, show x' - (x' - g) = g by ring, max_self, abs_of_nonneg hg] at h1
    linarith [(abs_le.mp h1).2]
  · have h1 := hf.lip x (x + s) x' (x' + s)
    have h2 := hf.mono y (x + s) y' (x' + s) h.2 h'.2
    rw [show x - (x + s) = -s by ring, show x' - (x' + s) = -s by ring, max_self, abs_neg, abs_of_nonneg hs] at h1
    linarith [(abs_le.mp h1).1]

theorem BlendMax.off {f : ℝ → ℝ → ℝ} {c : ℝ} (hf : BlendMax f c) {g s : ℝ} (hg : 0 ≤ g) (hs : 0 ≤ s) {x y x' y' : ℝ} (h : Off g s x y)
    (h' : Off g s x' y') : Off g s (f x x') (f y y') := by
  have := Blend.off hf hs hg h.neg h'.neg
  simp only [neg_neg] at this
  exact this.neg'

theorem off_foldl {α : Type} {g s : ℝ} {F G : ℝ → α → ℝ} (l : List α) (h : ∀ a ∈ l, ∀ d d', Off g s d d' → Off g s (F d a) (G d' a))
    {d d' : ℝ} (hd : Off g s d d') : Off g s (l.foldl F d) (l.foldl G d') := by
  induction l generalizing d d' with
  | nil => exact hd
  | cons a l ih => exact ih (fun b hb => h b (List.mem_cons_of_mem _ hb)) (h a List.mem_cons_self _ _ hd)

theorem roundJoin_mono {a a' : ℝ} (b : ℝ) (h : a ≤ a') : SDF3.roundJoin a b ≤ SDF3.roundJoin a' b := by
  unfold SDF3.roundJoin
  by_cases hb : b > 0
  · rw [if_pos hb, if_pos hb]
    by_cases ha' : a' < 0
    · rw [if_pos ha', if_pos (h.trans_lt ha')]
    · rw [if_neg ha']
      by_cases ha : a < 0
      · rw [if_pos ha]
        exact Real.le_sqrt_of_sq_le (by nlinarith [mul_self_nonneg a'])
      · rw [if_neg ha]
        exact Real.sqrt_le_sqrt (by nlinarith [not_lt.mp ha])
  · rw [if_neg hb, if_neg hb]
    by_cases ha' : a' < 0
    · rw [if_pos ha', if_pos (h.trans_lt ha')]
      exact max_le_max_right _ h
    · rw [if_neg ha']
      by_cases ha : a < 0
      · rw [if_pos ha]
        exact max_le (by linarith) (by linarith)
      · rw [if_neg ha]; exact h

theorem roundJoin_lip (a a' b : ℝ) : |SDF3.roundJoin a b - SDF3.roundJoin a' b| ≤ |a - a'| := by
  rw [roundJoin_eq, roundJoin_eq]
  have d : ∀ x y : ℝ, V2.dist ⟨x, b⟩ ⟨y, b⟩ = |x - y| := fun x y => by
    simp [V2.dist, V2.sub, V2.norm, Real.sqrt_mul_self_eq_abs]
  have h1 := boxFn2_lip ⟨a, b⟩ ⟨a', b⟩
  have h2 := boxFn2_lip ⟨a', b⟩ ⟨a, b⟩
  rw [d] at h1 h2
  rw [abs_sub_comm a' a] at h2
  exact abs_sub_le_iff.mpr ⟨h1, h2⟩

theorem roundJoin_off {g s : ℝ} (hg : 0 ≤ g) (hs : 0 ≤ s) {x y : ℝ} (b : ℝ) (h : Off g s x y) :
    Off g s (SDF3.roundJoin x b) (SDF3.roundJoin y b) := by
  constructor
  · have h1 := roundJoin_lip x (x - g) b
    rw [show x - (x - g) = g by ring, abs_of_nonneg hg] at h1
    linarith [(abs_le.mp h1).2, roundJoin_mono b h.1]
  · have h1 := roundJoin_lip x (x + s) b
    rw [show x - (x + s) = -s by ring, abs_neg, abs_of_nonneg hs] at h1
    linarith [(abs_le.mp h1).1, roundJoin_mono b h.2]

/-- `Off` everywhere, for shapes of one kind. -/
def Shape.Off (g s : ℝ) : Shape → Shape → Prop
  | .fig a, .fig b => ∀ p, Sdf.Off g s (a.eval p) (b.eval p)
  | .sol a, .sol b => ∀ p, Sdf.Off g s (a.eval p) (b.eval p)
  | _, _ => False

theorem off_rotate2 {f : ℝ → ℝ → ℝ} {c g s : ℝ} (hf : Blend f c) (hg : 0 ≤ g) (hs : 0 ≤ s) {a b : SDF2} (h : ∀ p, Off g s (a.eval p) (b.eval p))
    (step : M33) (p : V2) (n : ℕ) : ∀ (rot : M33) (d d' : ℝ), Off g s d d' →
      Off g s (SDF2.rotateUnionLoop f a step p n rot d) (SDF2.rotateUnionLoop f b step p n rot d') := by
  induction n with
  | zero => intro _ _ _ h; exact h
  | succ n ih => intro rot d d' hd; exact ih _ _ _ (hf.off hg hs hd (h _))

theorem off_rotate3 {f : ℝ → ℝ → ℝ} {c g s : ℝ} (hf : Blend f c) (hg : 0 ≤ g) (hs : 0 ≤ s) {a b : SDF3} (h : ∀ p, Off g s (a.eval p) (b.eval p))
    (step : M44) (p : V3) (n : ℕ) : ∀ (rot : M44) (d d' : ℝ), Off g s d d' →
      Off g s (SDF3.rotateUnionLoop f a step p n rot d) (SDF3.rotateUnionLoop f b step p n rot d') := by
  induction n with
  | zero => intro _ _ _ h; exact h
  | succ n ih => intro rot d d' hd; exact ih _ _ _ (hf.off hg hs hd (h _))

theorem off_extrude {g s : ℝ} {a b : SDF2} (h : ∀ p, Off g s (a.eval p) (b.eval p)) {k k' : ℝ} (h1 : k' - k ≤ g) (h2 : k - k' ≤ s)
    (e : V3 → V2) (p : V3) : Off g s (SDF3.extrudeEval a k e p) (SDF3.extrudeEval b k' e p) :=
  (h _).max ⟨by linarith, by linarith⟩

/-- Pairs of a list, by membership in the list of first components. -/
theorem off_union2 {g s : ℝ} {a b : SDF2} {l : List (SDF2 × SDF2)} {p : V2} (h : Off g s (a.eval p) (b.eval p))
    (hl : ∀ x ∈ l, Off g s (x.1.eval p) (x.2.eval p))
    (ha : ∀ x ∈ a :: l.map Prod.fst, Lip2 x.eval ∧ x.AtLeastBoxDistance ∧ x.NonEmpty)
    (hb : ∀ x ∈ b :: l.map Prod.snd, Lip2 x.eval ∧ x.AtLeastBoxDistance ∧ x.NonEmpty) :
    Off g s ((SDF2.union a (l.map Prod.fst)).eval p) ((SDF2.union b (l.map Prod.snd)).eval p) := by
  obtain ⟨⟨u, hu, eu⟩, h1⟩ := C29_pruning_partial a _ p ha
  obtain ⟨⟨v, hv, ev⟩, h2⟩ := C29_pruning_partial b _ p hb
  constructor
  · rw [← ev]
    rcases List.mem_cons.mp hv with rfl | hv
    · linarith [h.1, h1 a List.mem_cons_self]
    · obtain ⟨x, hx, rfl⟩ := List.mem_map.mp hv
      linarith [(hl x hx).1, h1 x.1 (List.mem_cons_of_mem _ (List.mem_map_of_mem hx))]
  · rw [← eu]
    rcases List.mem_cons.mp hu with rfl | hu
    · linarith [h.2, h2 b List.mem_cons_self]
    · obtain ⟨x, hx, rfl⟩ := List.mem_map.mp hu
      linarith [(hl x hx).2, h2 x.2 (List.mem_cons_of_mem _ (List.mem_map_of_mem hx))]

theorem revised_off {g s : ℝ} {a b : Shape} (h : Revised g s a b) : 0 ≤ g ∧ 0 ≤ s ∧ a.Off g s b := by
  induction h with
  | part2 g s a b hg hs h => exact ⟨hg, hs, h⟩
  | part3 g s a b hg hs h => exact ⟨hg, hs, h⟩
  | move2 g s a b m _ ih => exact ⟨ih.1, ih.2.1, fun p => ih.2.2 _⟩
  | move3 g s a b m _ ih => exact ⟨ih.1, ih.2.1, fun p => ih.2.2 _⟩
  | scale2 g s a b k hk _ ih =>
    refine ⟨mul_nonneg hk.le ih.1, mul_nonneg hk.le ih.2.1, fun p => ?_⟩
    obtain ⟨h1, h2⟩ := ih.2.2 (V2.scale (1.0 / k) p)
    exact ⟨by simp only [SDF2.scaleUniform]; nlinarith, by simp only [SDF2.scaleUniform]; nlinarith⟩
  | scale3 g s a b k hk _ ih =>
    refine ⟨mul_nonneg hk.le ih.1, mul_nonneg hk.le ih.2.1, fun p => ?_⟩
    obtain ⟨h1, h2⟩ := ih.2.2 (V3.scale (1.0 / k) p)
    exact ⟨by simp only [SDF3.scaleUniform]; nlinarith, by simp only [SDF3.scaleUniform]; nlinarith⟩
  | union2 g s a b l _ _ ha hb ih ihl => exact ⟨ih.1, ih.2.1, fun p => off_union2 (ih.2.2 p) (fun x hx => (ihl x hx).2.2 p) ha hb⟩
  | union3 g s f c a b l hf _ _ ih ihl =>
    refine ⟨ih.1, ih.2.1, fun p => ?_⟩
    simp only [SDF3.unionWith, List.foldl_map]
    exact off_foldl l (fun x hx d d' hd => hf.off ih.1 ih.2.1 hd ((ihl x hx).2.2 p)) (ih.2.2 p)
  | difference2 g s f c a b _ _ hf _ _ ih ih' => exact ⟨ih.1, ih.2.1, fun p => hf.off ih.1 ih.2.1 (ih.2.2 p) (ih'.2.2 p).neg⟩
  | difference3 g s f c a b _ _ hf _ _ ih ih' => exact ⟨ih.1, ih.2.1, fun p => hf.off ih.1 ih.2.1 (ih.2.2 p) (ih'.2.2 p).neg⟩
  | intersect2 g s f c a b _ _ hf _ _ ih ih' => exact ⟨ih.1, ih.2.1, fun p => hf.off ih.1 ih.2.1 (ih.2.2 p) (ih'.2.2 p)⟩
  | intersect3 g s f c a b _ _ hf _ _ ih ih' => exact ⟨ih.1, ih.2.1, fun p => hf.off ih.1 ih.2.1 (ih.2.2 p) (ih'.2.2 p)⟩
  | cut2 g s a b c v _ ih => exact ⟨ih.1, ih.2.1, fun p => (Off.refl ih.1 ih.2.1 _).max (ih.2.2 p)⟩
  | cut3 g s a b c v _ ih => exact ⟨ih.1, ih.2.1, fun p => (Off.refl ih.1 ih.2.1 _).max (ih.2.2 p)⟩
  | offset2 g s g' s' d d' a b _ hg hs h1 h2 ih =>
    exact ⟨hg, hs, fun p => ⟨by simp only [SDF2.offset]; linarith [(ih.2.2 p).1], by simp only [SDF2.offset]; linarith [(ih.2.2 p).2]⟩⟩
  | offset3 g s g' s' d d' a b _ hg hs h1 h2 ih =>
    exact ⟨hg, hs, fun p => ⟨by simp only [SDF3.offset]; linarith [(ih.2.2 p).1], by simp only [SDF3.offset]; linarith [(ih.2.2 p).2]⟩⟩
  | shell g s e t t' a b _ ht ht' h1 h2 ih =>
    have he : 0 ≤ e := by linarith [ih.1, abs_nonneg (t - t')]
    refine ⟨he, he, fun p => ?_⟩
    obtain ⟨k1, k2⟩ := ih.2.2 p
    have k3 : |(|a.eval p| - |b.eval p|)| ≤ max g s := by
      refine (abs_abs_sub_abs_le_abs_sub _ _).trans (abs_le.mpr ⟨?_, ?_⟩)
      · linarith [le_max_right g s]
      · linarith [le_max_left g s]
    have k4 : max g s + |t - t'| / 2 ≤ e := by
      rcases max_choice g s with h | h <;> rw [h] <;> assumption
    simp only [SDF3.shell, if_neg (not_le.mpr ht), if_neg (not_le.mpr ht')]
    rw [abs_le] at k3
    have k5 := neg_abs_le (t - t')
    have k6 := le_abs_self (t - t')
    norm_num
    constructor <;> linarith
  | array2 g s f c a b n0 n1 step hf _ ih =>
    refine ⟨ih.1, ih.2.1, fun p => ?_⟩
    by_cases hn : n0 ≤ 0 ∨ n1 ≤ 0
    · simp only [SDF2.arrayWith, if_pos hn]
      exact Off.refl ih.1 ih.2.1 _
    · simp only [SDF2.arrayWith, if_neg hn]
      unfold SDF2.arrayEval
      refine off_foldl _ (fun _ _ d d' hd => ?_) (Off.refl ih.1 ih.2.1 _)
      refine off_foldl _ (fun _ _ d d' hd => ?_) hd
      exact hf.off ih.1 ih.2.1 hd (ih.2.2 _)
  | array3 g s f c a b n0 n1 n2 step hf _ ih =>
    refine ⟨ih.1, ih.2.1, fun p => ?_⟩
    by_cases hn : n0 ≤ 0 ∨ n1 ≤ 0 ∨ n2 ≤ 0
    · simp only [SDF3.arrayWith, if_pos hn]
      exact Off.refl ih.1 ih.2.1 _
    · simp only [SDF3.arrayWith, if_neg hn]
      unfold SDF3.arrayEval
      refine off_foldl _ (fun _ _ d d' hd => ?_) (Off.refl ih.1 ih.2.1 _)
      refine off_foldl _ (fun _ _ d d' hd => ?_) hd
      refine off_foldl _ (fun _ _ d d' hd => ?_) hd
      exact hf.off ih.1 ih.2.1 hd (ih.2.2 _)
  | rotate2 g s f c a b n m hf _ ih =>
    refine ⟨ih.1, ih.2.1, fun p => ?_⟩
    by_cases hn : n ≤ 0
    · simp only [SDF2.rotateUnionWith, if_pos hn]
      exact Off.refl ih.1 ih.2.1 _
    · simp only [SDF2.rotateUnionWith, if_neg hn]
      exact off_rotate2 hf ih.1 ih.2.1 ih.2.2 _ _ _ _ _ _ (Off.refl ih.1 ih.2.1 _)
  | rotate3 g s f c a b n m hf _ ih =>
    refine ⟨ih.1, ih.2.1, fun p => ?_⟩
    by_cases hn : n ≤ 0
    · simp only [SDF3.rotateUnionWith, if_pos hn]
      exact Off.refl ih.1 ih.2.1 _
    · simp only [SDF3.rotateUnionWith, if_neg hn]
      exact off_rotate3 hf ih.1 ih.2.1 ih.2.2 _ _ _ _ _ _ (Off.refl ih.1 ih.2.1 _)
  | copy2 g s a b a' b' n _ ha hb ih =>
    refine ⟨ih.1, ih.2.1, fun p => ?_⟩
    by_cases hn : n ≤ 0
    · simp [SDF2.rotateCopy, hn] at ha
    · simp only [SDF2.rotateCopy, if_neg hn, Option.some.injEq] at ha hb
      rw [← ha, ← hb]
      exact ih.2.2 _
  | copy3 g s a b n _ ih =>
    refine ⟨ih.1, ih.2.1, fun p => ?_⟩
    by_cases hn : n ≤ 0
    · simp only [SDF3.rotateCopy, if_pos hn]
      exact Off.refl ih.1 ih.2.1 _
    · simp only [SDF3.rotateCopy, if_neg hn]
      exact ih.2.2 _
  | elongate2 g s a b h _ ih => exact ⟨ih.1, ih.2.1, fun p => ih.2.2 _⟩
  | elongate3 g s a b h _ ih => exact ⟨ih.1, ih.2.1, fun p => ih.2.2 _⟩
  | slice g s a b c n _ ih => exact ⟨ih.1, ih.2.1, fun p => ih.2.2 _⟩
  | extrude g s a b h h' _ h1 h2 ih => exact ⟨ih.1, ih.2.1, fun p => off_extrude ih.2.2 (by linarith) (by linarith) _ p⟩
  | twist g s a b h t _ ih => exact ⟨ih.1, ih.2.1, fun p => off_extrude ih.2.2 (by linarith [ih.1]) (by linarith [ih.2.1]) _ p⟩
  | taper g s a b h k _ ih => exact ⟨ih.1, ih.2.1, fun p => off_extrude ih.2.2 (by linarith [ih.1]) (by linarith [ih.2.1]) _ p⟩
  | taperTwist g s a b h t k _ ih => exact ⟨ih.1, ih.2.1, fun p => off_extrude ih.2.2 (by linarith [ih.1]) (by linarith [ih.2.1]) _ p⟩
  | extrudeRounded g s a b h r _ ih =>
    refine ⟨ih.1, ih.2.1, fun p => ?_⟩
    unfold SDF3.extrudeRounded
    split_ifs
    · exact off_extrude ih.2.2 (by linarith [ih.1]) (by linarith [ih.2.1]) _ p
    · exact Off.refl ih.1 ih.2.1 _
    · exact Off.refl ih.1 ih.2.1 _
    · exact Off.refl ih.1 ih.2.1 _
    · obtain ⟨h1, h2⟩ := roundJoin_off ih.1 ih.2.1 (|p.z| - (h / 2 - r)) (ih.2.2 ⟨p.x, p.y⟩)
      exact ⟨by simp only; linarith, by simp only; linarith⟩
  | loft g s a b c d h r _ _ ih ih' =>
    refine ⟨ih.1, ih.2.1, fun p => ?_⟩
    unfold SDF3.loft
    split_ifs
    · exact Off.refl ih.1 ih.2.1 _
    · exact Off.refl ih.1 ih.2.1 _
    · exact Off.refl ih.1 ih.2.1 _
    · have hk : ∀ k : ℝ, 0 ≤ k → k ≤ 1 → Off g s (mix (a.eval ⟨p.x, p.y⟩) (c.eval ⟨p.x, p.y⟩) k) (mix (b.eval ⟨p.x, p.y⟩) (d.eval ⟨p.x, p.y⟩) k) := by
        intro k h0 h1
        obtain ⟨a1, a2⟩ := ih.2.2 ⟨p.x, p.y⟩
        obtain ⟨a3, a4⟩ := ih'.2.2 ⟨p.x, p.y⟩
        unfold mix
        constructor
        · nlinarith
        · nlinarith
      have hc : ∀ x : ℝ, 0 ≤ Sdf.clamp x 0 1 ∧ Sdf.clamp x 0 1 ≤ 1 := by
        intro x
        unfold Sdf.clamp
        split_ifs <;> constructor <;> linarith
      obtain ⟨h1, h2⟩ := roundJoin_off ih.1 ih.2.1 (|p.z| - (h / 2 - r)) (hk _ (hc (0.5 * p.z / (h / 2 - r) + 0.5)).1
        (hc (0.5 * p.z / (h / 2 - r) + 0.5)).2)
      exact ⟨by simp only; linarith, by simp only; linarith⟩
  | revolve g s a b theta _ ih =>
    refine ⟨ih.1, ih.2.1, fun p => ?_⟩
    by_cases ht : theta ≤ 0
    · simp only [SDF3.revolve, if_pos ht]
      exact Off.refl ih.1 ih.2.1 _
    · simp only [SDF3.revolve, if_neg ht, SDF3.revolveEval]
      refine (ih.2.2 _).max ?_
      split_ifs
      all_goals first | exact Off.refl ih.1 ih.2.1 _ | exact ih.2.2 _

/-- The value of a revised solid differs nowhere from the original by more than the parts do: it is lower by at most the growth and higher
by at most the shrinkage that was allowed. -/
theorem C71_change (g s : ℝ) (a b : SDF3) (h : Revised g s (.sol a) (.sol b)) (p : V3) :
    a.eval p - g ≤ b.eval p ∧ b.eval p ≤ a.eval p + s := (revised_off h).2.2 p

/-- The same for figures. -/
theorem C71_change2 (g s : ℝ) (a b : SDF2) (h : Revised g s (.fig a) (.fig b)) (p : V2) :
    a.eval p - g ≤ b.eval p ∧ b.eval p ≤ a.eval p + s := (revised_off h).2.2 p

/-- A part that only grows (and a tool that only shrinks) makes the model grow: nothing that was in it is lost. -/
theorem C71_larger (g : ℝ) (a b : SDF3) (h : Revised g 0 (.sol a) (.sol b)) (p : V3) :
    (a.eval p ≤ 0 → b.eval p ≤ 0) ∧ (a.eval p < 0 → b.eval p < 0) := by
  have := (C71_change g 0 a b h p).2
  constructor <;> intro h <;> linarith

/-- A part that only shrinks (and a tool that only grows) makes the model shrink: nothing is added. -/
theorem C71_smaller (s : ℝ) (a b : SDF3) (h : Revised 0 s (.sol a) (.sol b)) (p : V3) :
    (b.eval p ≤ 0 → a.eval p ≤ 0) ∧ (b.eval p < 0 → a.eval p < 0) := by
  have := (C71_change 0 s a b h p).1
  constructor <;> intro h <;> linarith

/-- When the parts are made to the tolerance `e`, a point that is in one model and not in the other has a value within `e` of nought in both:
only the skin of thickness `e` can change. -/
theorem C71_tolerance (e : ℝ) (a b : SDF3) (h : Revised e e (.sol a) (.sol b)) (p : V3)
    (hp : (a.eval p ≤ 0 ∧ 0 < b.eval p) ∨ (0 < a.eval p ∧ b.eval p ≤ 0)) : |a.eval p| ≤ e ∧ |b.eval p| ≤ e := by
  have h1 := C71_change e e a b h p
  rcases hp with ⟨h2, h3⟩ | ⟨h2, h3⟩ <;> refine ⟨abs_le.mpr ⟨?_, ?_⟩, abs_le.mpr ⟨?_, ?_⟩⟩ <;> linarith [h1.1, h1.2]

/-- Spheres and discs of different radius differ by exactly the difference of the radii. -/
theorem C71_radius (r r' g s : ℝ) (hg : r' - r ≤ g) (hs : r - r' ≤ s) :
    (∀ a b, Must3.sphere r = some a → Must3.sphere r' = some b → a.Differs g s b) ∧
    (∀ a b, Must2.circle r = some a → Must2.circle r' = some b → a.Differs g s b) := by
  constructor
  · intro a b ha hb p
    unfold Must3.sphere at ha hb
    split_ifs at ha hb
    cases ha; cases hb
    exact ⟨by simp only; linarith, by simp only; linarith⟩
  · intro a b ha hb p
    unfold Must2.circle at ha hb
    split_ifs at ha hb
    cases ha; cases hb
    exact ⟨by simp only; linarith, by simp only; linarith⟩

/-- Boxes of different size (and the same rounding) differ by at most half the length of the difference of the sizes. -/
theorem C71_box (size size' : V3) (round : ℝ) (a b : SDF3) (ha : Must3.box size round = some a) (hb : Must3.box size' round = some b) :
    a.Differs (V3.dist size size' / 2) (V3.dist size size' / 2) b := by
  unfold Must3.box at ha hb
  split_ifs at ha hb
  cases ha; cases hb
  intro p
  have d : ∀ u v : V3, V3.dist (V3.sub (V3.absElem p) (V3.sub (V3.scale 0.5 u) (V3.elem round)))
      (V3.sub (V3.absElem p) (V3.sub (V3.scale 0.5 v) (V3.elem round))) = V3.dist u v / 2 := by
    intro u v
    have : V3.sub (V3.sub (V3.absElem p) (V3.sub (V3.scale 0.5 u) (V3.elem round)))
        (V3.sub (V3.absElem p) (V3.sub (V3.scale 0.5 v) (V3.elem round))) = V3.scale (-(1 / 2)) (V3.sub u v) := by
      simp only [V3.sub, V3.scale, V3.elem, V3.mk.injEq]
      norm_num
      refine ⟨?_, ?_, ?_⟩ <;> ring
    rw [V3.dist, this, V3.norm_scale, V3.dist, abs_neg]
    norm_num
    ring
  have h1 := boxFn3_lip (V3.sub (V3.absElem p) (V3.sub (V3.scale 0.5 size) (V3.elem round)))
    (V3.sub (V3.absElem p) (V3.sub (V3.scale 0.5 size') (V3.elem round)))
  have h2 := boxFn3_lip (V3.sub (V3.absElem p) (V3.sub (V3.scale 0.5 size') (V3.elem round)))
    (V3.sub (V3.absElem p) (V3.sub (V3.scale 0.5 size) (V3.elem round)))
  rw [d] at h1 h2
  rw [V3.dist_comm size' size] at h2
  simp only [sdfBox3d_eq]
  constructor <;> linarith

/-- A part that does not overestimate distances, put up to `e` from its place, differs by at most `e`. -/
theorem C71_moved (s : SDF3) (hs : Lip3 s.eval) (e : ℝ) (m m' : M44) (h : ∀ p, V3.dist (m.inverse.mulPosition p) (m'.inverse.mulPosition p) ≤ e) :
    (s.transform m).Differs e e (s.transform m') := by
  intro p
  have := (abs_le.mp ((hs (m.inverse.mulPosition p) (m'.inverse.mulPosition p)).trans (h p)))
  simp only [SDF3.transform]
  constructor <;> linarith [this.1, this.2]

theorem blend_min : Blend min 0 where
  symm := min_comm
  le_min _ _ := le_rfl
  depth_le _ _ := by simp
  mono _ _ _ _ h h' := min_le_min h h'
  lip a a' b b' := abs_min_sub_min_le_max a b a' b'

theorem blend_max : BlendMax max 0 := by
  have : (fun a b : ℝ => -max (-a) (-b)) = min := by
    funext a b
    rw [max_neg_neg, neg_neg]
  unfold BlendMax
  rw [this]
  exact blend_min

/-- A ball with a bore: a ball a tenth larger and a bore a tenth smaller give a larger part, which differs by at most a tenth; and all of this
survives being blended with something else and thickened. -/
example (ball ball' bore bore' : SDF3) (h1 : Must3.sphere 5 = some ball) (h2 : Must3.sphere 5.1 = some ball') (h3 : Must3.sphere 3 = some bore)
    (h4 : Must3.sphere 2.9 = some bore') (other : SDF3) (k : ℝ) (hk : 0 < k) (p : V3)
    (hp : ((SDF3.unionWith (minPoly 2 k) (SDF3.difference ball bore) [other]).offset 1).eval p ≤ 0) :
    ((SDF3.unionWith (minPoly 2 k) (SDF3.difference ball' bore') [other]).offset 1).eval p ≤ 0 := by
  refine (C71_larger (1 / 10) _ _ (.offset3 (1 / 10) 0 _ _ 1 1 _ _ (.union3 (1 / 10) 0 _ _ _ _ [(other, other)] (C28_poly 2 (by norm_num) k hk)
    (.difference3 (1 / 10) 0 _ _ _ _ _ _ blend_max (.part3 _ _ _ _ (by norm_num) le_rfl ((C71_radius 5 5.1 _ _ (by norm_num) (by norm_num)).1 _ _ h1 h2))
      (.part3 _ _ _ _ le_rfl (by norm_num) ((C71_radius 3 2.9 _ _ (by norm_num) (by norm_num)).1 _ _ h3 h4))) ?_) (by norm_num) le_rfl (by norm_num)
      (by norm_num)) p).1 hp
  intro x hx
  rw [List.mem_singleton.mp hx]
  exact .part3 _ _ _ _ (by norm_num) le_rfl fun p => ⟨by norm_num, by norm_num⟩

/-- The allowance is needed in full: growing a ball by `e` takes every value down by `e`. -/
example (a b : SDF3) (e : ℝ) (ha : Must3.sphere 1 = some a) (hb : Must3.sphere (1 + e) = some b) (p : V3) : b.eval p = a.eval p - e := by
  unfold Must3.sphere at ha hb
  split_ifs at ha hb
  cases ha; cases hb
  simp only; ring

end Sdf
