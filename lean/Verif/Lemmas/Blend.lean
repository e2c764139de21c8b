import Verif.Spec.Blend
import Verif.Lemmas.Lip

/-! Helper lemmas: loops with a blend instead of the minimum. -/

namespace Sdf

theorem Blend.depth_nonneg {f : ℝ → ℝ → ℝ} {c : ℝ} (hf : Blend f c) : 0 ≤ c := by
  have h1 := hf.le_min 0 0
  have h2 := hf.depth_le 0 0
  linarith

theorem Blend.lip3 {f : ℝ → ℝ → ℝ} {c : ℝ} (hf : Blend f c) {a b : V3 → ℝ} (ha : Lip3 a) (hb : Lip3 b) :
    Lip3 (fun p => f (a p) (b p)) := fun p q => (hf.lip _ _ _ _).trans (max_le (ha p q) (hb p q))

theorem Blend.lip2 {f : ℝ → ℝ → ℝ} {c : ℝ} (hf : Blend f c) {a b : V2 → ℝ} (ha : Lip2 a) (hb : Lip2 b) :
    Lip2 (fun p => f (a p) (b p)) := fun p q => (hf.lip _ _ _ _).trans (max_le (ha p q) (hb p q))

theorem BlendMax.bounds {g : ℝ → ℝ → ℝ} {c : ℝ} (hg : BlendMax g c) (a b : ℝ) : max a b ≤ g a b ∧ g a b ≤ max a b + c := by
  have h1 := hg.le_min (-a) (-b)
  have h2 := hg.depth_le (-a) (-b)
  simp only [neg_neg, min_neg_neg] at h1 h2
  constructor <;> linarith

theorem BlendMax.lip {g : ℝ → ℝ → ℝ} {c : ℝ} (hg : BlendMax g c) (a a' b b' : ℝ) : |g a b - g a' b'| ≤ max |a - a'| |b - b'| := by
  have h := Blend.lip hg (-a) (-a') (-b) (-b')
  simp only [neg_neg] at h
  rwa [show -g a b - -g a' b' = -(g a b - g a' b') by ring, abs_neg, show -a - -a' = -(a - a') by ring, abs_neg,
    show -b - -b' = -(b - b') by ring, abs_neg] at h

theorem BlendMax.lip3 {g : ℝ → ℝ → ℝ} {c : ℝ} (hg : BlendMax g c) {a b : V3 → ℝ} (ha : Lip3 a) (hb : Lip3 b) :
    Lip3 (fun p => g (a p) (b p)) := fun p q => (BlendMax.lip hg _ _ _ _).trans (max_le (ha p q) (hb p q))

theorem BlendMax.lip2 {g : ℝ → ℝ → ℝ} {c : ℝ} (hg : BlendMax g c) {a b : V2 → ℝ} (ha : Lip2 a) (hb : Lip2 b) :
    Lip2 (fun p => g (a p) (b p)) := fun p q => (BlendMax.lip hg _ _ _ _).trans (max_le (ha p q) (hb p q))

theorem blendRotateLoop3_lip {f : ℝ → ℝ → ℝ} {c : ℝ} (hf : Blend f c) {s : SDF3} (hs : Lip3 s.eval) {step : M44} (ha : step.Affine)
    (hst : ∀ p q, V3.dist (step.mulPosition p) (step.mulPosition q) = V3.dist p q) (n : ℕ) :
    ∀ (rot : M44), (∀ p q, V3.dist (rot.mulPosition p) (rot.mulPosition q) = V3.dist p q) → ∀ d : V3 → ℝ, Lip3 d →
      Lip3 (fun p => SDF3.rotateUnionLoop f s step p n rot (d p)) := by
  induction n with
  | zero => intro rot _ d hd; exact hd
  | succ n ih =>
    intro rot hr d hd
    refine ih (rot.mul step) ?_ (fun p => f (d p) (s.eval (rot.mulPosition p))) (hf.lip3 hd (hs.comp fun p q => (hr p q).le))
    intro p q
    rw [M44.mulPosition_mul ha, M44.mulPosition_mul ha, hr, hst]

theorem blendRotateLoop2_lip {f : ℝ → ℝ → ℝ} {c : ℝ} (hf : Blend f c) {s : SDF2} (hs : Lip2 s.eval) {step : M33} (ha : step.Affine)
    (hst : ∀ p q, V2.dist (step.mulPosition p) (step.mulPosition q) = V2.dist p q) (n : ℕ) :
    ∀ (rot : M33), (∀ p q, V2.dist (rot.mulPosition p) (rot.mulPosition q) = V2.dist p q) → ∀ d : V2 → ℝ, Lip2 d →
      Lip2 (fun p => SDF2.rotateUnionLoop f s step p n rot (d p)) := by
  induction n with
  | zero => intro rot _ d hd; exact hd
  | succ n ih =>
    intro rot hr d hd
    refine ih (rot.mul step) ?_ (fun p => f (d p) (s.eval (rot.mulPosition p))) (hf.lip2 hd (hs.comp fun p q => (hr p q).le))
    intro p q
    rw [M33.mulPosition_mul ha, M33.mulPosition_mul ha, hr, hst]

theorem blendRotate3_lip {f : ℝ → ℝ → ℝ} {c : ℝ} (hf : Blend f c) {s : SDF3} (hs : Lip3 s.eval) (n : ℤ) {m : M44} (hm : m.Rigid) :
    Lip3 (s.rotateUnionWith f n m).eval := by
  unfold SDF3.rotateUnionWith
  split
  · exact Lip3.const _
  · have hd : m.det ≠ 0 := by rw [M44.det_eq]; exact hm.2.1
    exact blendRotateLoop3_lip hf hs (M44.affine_inverse hm.1 hd) hm.inverse_dist _ _
      (fun p q => by rw [M44.identity_mulPosition, M44.identity_mulPosition]) (fun _ => maxFloat64) (Lip3.const _)

theorem blendRotate2_lip {f : ℝ → ℝ → ℝ} {c : ℝ} (hf : Blend f c) {s : SDF2} (hs : Lip2 s.eval) (n : ℤ) {m : M33} (hm : m.Rigid) :
    Lip2 (s.rotateUnionWith f n m).eval := by
  unfold SDF2.rotateUnionWith
  split
  · exact Lip2.const _
  · have hd : m.det ≠ 0 := by rw [M33.det_eq]; exact hm.2.1
    exact blendRotateLoop2_lip hf hs (M33.affine_inverse hm.1 hd) hm.inverse_dist _ _
      (fun p q => by rw [M33.identity_mulPosition, M33.identity_mulPosition]) (fun _ => maxFloat64) (Lip2.const _)

theorem blendArray3_lip {f : ℝ → ℝ → ℝ} {c : ℝ} (hf : Blend f c) {s : SDF3} (hs : Lip3 s.eval) (n0 n1 n2 : ℤ) (step : V3) :
    Lip3 (s.arrayWith f n0 n1 n2 step).eval := by
  unfold SDF3.arrayWith
  split
  · exact Lip3.const _
  · refine Lip3.foldl' _ (d := fun _ => maxFloat64) (F := fun d (j : ℕ) p => _) (fun j _ d hd => ?_) (Lip3.const _)
    refine Lip3.foldl' _ (d := d) (F := fun d (k : ℕ) p => _) (fun k _ d hd => ?_) hd
    refine Lip3.foldl' _ (d := d) (F := fun d (l : ℕ) p => f d (s.eval (V3.sub p ⟨(j : ℝ) * step.x, (k : ℝ) * step.y, (l : ℝ) * step.z⟩)))
      (fun l _ d hd => ?_) hd
    exact hf.lip3 hd (hs.comp fun p q => (V3.dist_sub p q _).le)

theorem blendArray2_lip {f : ℝ → ℝ → ℝ} {c : ℝ} (hf : Blend f c) {s : SDF2} (hs : Lip2 s.eval) (n0 n1 : ℤ) (step : V2) :
    Lip2 (s.arrayWith f n0 n1 step).eval := by
  unfold SDF2.arrayWith
  split
  · exact Lip2.const _
  · refine Lip2.foldl' _ (d := fun _ => maxFloat64) (F := fun d (j : ℕ) p => _) (fun j _ d hd => ?_) (Lip2.const _)
    refine Lip2.foldl' _ (d := d) (F := fun d (k : ℕ) p => f d (s.eval (V2.sub p ⟨(j : ℝ) * step.x, (k : ℝ) * step.y⟩)))
      (fun k _ d hd => ?_) hd
    exact hf.lip2 hd (hs.comp fun p q => (V2.dist_sub p q _).le)

theorem blendUnion3_lip {f : ℝ → ℝ → ℝ} {c : ℝ} (hf : Blend f c) {s0 : SDF3} {l : List SDF3} (hl : ∀ s ∈ s0 :: l, Lip3 s.eval) :
    Lip3 (SDF3.unionWith f s0 l).eval :=
  Lip3.foldl' l (F := fun d (s : SDF3) p => f d (s.eval p))
    (fun s hs _ hd => hf.lip3 hd (hl s (List.mem_cons_of_mem _ hs))) (hl s0 List.mem_cons_self)

/-- The value `d` of a blend is at most the value `d'` of the minimum, and below it by at most `e`. -/
def Within (e d d' : ℝ) : Prop := d ≤ d' ∧ d' - e ≤ d

theorem Blend.within {f : ℝ → ℝ → ℝ} {c : ℝ} (hf : Blend f c) {e d d' : ℝ} (he : 0 ≤ e) (h : Within e d d') (x : ℝ) :
    Within (e + c) (f d x) (min d' x) := by
  obtain ⟨h1, h2⟩ := h
  refine ⟨(hf.le_min d x).trans (min_le_min_right _ h1), ?_⟩
  have h3 := hf.depth_le d x
  have h4 : min d' x - e ≤ min d x := by
    refine _root_.le_min ?_ ?_
    · linarith [min_le_left d' x]
    · linarith [min_le_right d' x]
  linarith

theorem within_foldl {α : Type} {F F' : ℝ → α → ℝ} {k : ℝ} (hk : 0 ≤ k) (l : List α)
    (h : ∀ a ∈ l, ∀ e d d', 0 ≤ e → Within e d d' → Within (e + k) (F d a) (F' d' a)) {e d d' : ℝ} (he : 0 ≤ e) (hd : Within e d d') :
    Within (e + l.length * k) (l.foldl F d) (l.foldl F' d') := by
  induction l generalizing e d d' with
  | nil => simpa using hd
  | cons a l ih =>
    have := ih (fun b hb => h b (List.mem_cons_of_mem _ hb)) (add_nonneg he hk) (h a List.mem_cons_self e d d' he hd)
    simp only [List.foldl_cons, List.length_cons]
    push_cast
    rwa [show e + ((l.length : ℝ) + 1) * k = e + k + l.length * k by ring]

theorem within_refl (d : ℝ) : Within 0 d d := ⟨le_rfl, by linarith⟩

theorem within_array3 {f : ℝ → ℝ → ℝ} {c : ℝ} (hf : Blend f c) (s : SDF3) (n0 n1 n2 : ℕ) (step p : V3) :
    Within (n0 * (n1 * (n2 * c))) (SDF3.arrayEval f s n0 n1 n2 step p) (SDF3.arrayEval min s n0 n1 n2 step p) := by
  have hc := hf.depth_nonneg
  unfold SDF3.arrayEval
  have := within_foldl (k := n1 * (n2 * c)) (by positivity) (List.range n0) (F := fun d (j : ℕ) =>
    (List.range n1).foldl (fun d (k : ℕ) => (List.range n2).foldl (fun d (l : ℕ) =>
        f d (s.eval (V3.sub p ⟨(j : ℝ) * step.x, (k : ℝ) * step.y, (l : ℝ) * step.z⟩))) d) d) (F' := fun d (j : ℕ) =>
    (List.range n1).foldl (fun d (k : ℕ) => (List.range n2).foldl (fun d (l : ℕ) =>
        min d (s.eval (V3.sub p ⟨(j : ℝ) * step.x, (k : ℝ) * step.y, (l : ℝ) * step.z⟩))) d) d) (fun j _ e d d' he hd => by
      have h1 := within_foldl (k := n2 * c) (by positivity) (List.range n1) (F := fun d (k : ℕ) => (List.range n2).foldl (fun d (l : ℕ) =>
        f d (s.eval (V3.sub p ⟨(j : ℝ) * step.x, (k : ℝ) * step.y, (l : ℝ) * step.z⟩))) d) (F' := fun d (k : ℕ) => (List.range n2).foldl (fun d (l : ℕ) =>
        min d (s.eval (V3.sub p ⟨(j : ℝ) * step.x, (k : ℝ) * step.y, (l : ℝ) * step.z⟩))) d) (fun k _ e d d' he hd => by
          have h2 := within_foldl (k := c) hc (List.range n2) (F := fun d (l : ℕ) =>
            f d (s.eval (V3.sub p ⟨(j : ℝ) * step.x, (k : ℝ) * step.y, (l : ℝ) * step.z⟩))) (F' := fun d (l : ℕ) =>
            min d (s.eval (V3.sub p ⟨(j : ℝ) * step.x, (k : ℝ) * step.y, (l : ℝ) * step.z⟩)))
            (fun l _ e d d' he hd => hf.within he hd _) he hd
          rwa [List.length_range] at h2) he hd
      rwa [List.length_range] at h1) le_rfl (within_refl maxFloat64)
  rwa [List.length_range, zero_add] at this

theorem within_array2 {f : ℝ → ℝ → ℝ} {c : ℝ} (hf : Blend f c) (s : SDF2) (n0 n1 : ℕ) (step p : V2) :
    Within (n0 * (n1 * c)) (SDF2.arrayEval f s n0 n1 step p) (SDF2.arrayEval min s n0 n1 step p) := by
  have hc := hf.depth_nonneg
  unfold SDF2.arrayEval
  have := within_foldl (k := n1 * c) (by positivity) (List.range n0) (F := fun d (j : ℕ) =>
    (List.range n1).foldl (fun d (k : ℕ) => f d (s.eval (V2.sub p ⟨(j : ℝ) * step.x, (k : ℝ) * step.y⟩))) d) (F' := fun d (j : ℕ) =>
    (List.range n1).foldl (fun d (k : ℕ) => min d (s.eval (V2.sub p ⟨(j : ℝ) * step.x, (k : ℝ) * step.y⟩))) d) (fun j _ e d d' he hd => by
      have h1 := within_foldl (k := c) hc (List.range n1) (F := fun d (k : ℕ) =>
        f d (s.eval (V2.sub p ⟨(j : ℝ) * step.x, (k : ℝ) * step.y⟩))) (F' := fun d (k : ℕ) =>
        min d (s.eval (V2.sub p ⟨(j : ℝ) * step.x, (k : ℝ) * step.y⟩))) (fun k _ e d d' he hd => hf.within he hd _) he hd
      rwa [List.length_range] at h1) le_rfl (within_refl maxFloat64)
  rwa [List.length_range, zero_add] at this

theorem within_rotate3 {f : ℝ → ℝ → ℝ} {c : ℝ} (hf : Blend f c) (s : SDF3) (step : M44) (p : V3) (n : ℕ) :
    ∀ (rot : M44) (e d d' : ℝ), 0 ≤ e → Within e d d' →
      Within (e + n * c) (SDF3.rotateUnionLoop f s step p n rot d) (SDF3.rotateUnionLoop min s step p n rot d') := by
  induction n with
  | zero => intro rot e d d' _ h; simpa [SDF3.rotateUnionLoop] using h
  | succ n ih =>
    intro rot e d d' he h
    have := ih (rot.mul step) _ _ _ (add_nonneg he hf.depth_nonneg) (hf.within he h (s.eval (rot.mulPosition p)))
    unfold SDF3.rotateUnionLoop
    push_cast
    rwa [show e + ((n : ℝ) + 1) * c = e + c + n * c by ring]

theorem within_rotate2 {f : ℝ → ℝ → ℝ} {c : ℝ} (hf : Blend f c) (s : SDF2) (step : M33) (p : V2) (n : ℕ) :
    ∀ (rot : M33) (e d d' : ℝ), 0 ≤ e → Within e d d' →
      Within (e + n * c) (SDF2.rotateUnionLoop f s step p n rot d) (SDF2.rotateUnionLoop min s step p n rot d') := by
  induction n with
  | zero => intro rot e d d' _ h; simpa [SDF2.rotateUnionLoop] using h
  | succ n ih =>
    intro rot e d d' he h
    have := ih (rot.mul step) _ _ _ (add_nonneg he hf.depth_nonneg) (hf.within he h (s.eval (rot.mulPosition p)))
    unfold SDF2.rotateUnionLoop
    push_cast
    rwa [show e + ((n : ℝ) + 1) * c = e + c + n * c by ring]

/-- The pruned loop chooses the same operands whatever the minimum function is. -/
theorem within_pruned {f : ℝ → ℝ → ℝ} {c : ℝ} (hf : Blend f c) (p near : V2) (idx : ℕ) (l : List (SDF2 × V2)) :
    ∀ (i : ℕ),
      (∀ e d d', 0 ≤ e → Within e d d' → ∃ r r', SDF2.prunedLoop f p near idx l i (some d) = some r ∧
        SDF2.prunedLoop min p near idx l i (some d') = some r' ∧ Within (e + l.length * c) r r') ∧
      ((SDF2.prunedLoop f p near idx l i none = none ∧ SDF2.prunedLoop min p near idx l i none = none) ∨
        ∃ r r', SDF2.prunedLoop f p near idx l i none = some r ∧ SDF2.prunedLoop min p near idx l i none = some r' ∧
          Within (((l.length - 1 : ℕ) : ℝ) * c) r r') := by
  have hc := hf.depth_nonneg
  have mono : ∀ e e' d d' : ℝ, e ≤ e' → Within e d d' → Within e' d d' := fun e e' d d' h hw => ⟨hw.1, by linarith [hw.2]⟩
  induction l with
  | nil =>
    intro i
    refine ⟨fun e d d' _ h => ⟨d, d', rfl, rfl, by simpa using h⟩, Or.inl ⟨rfl, rfl⟩⟩
  | cons sv l ih =>
    intro i
    obtain ⟨s, v⟩ := sv
    obtain ⟨h1, h2⟩ := ih (i + 1)
    have hlen : (((s, v) :: l).length : ℝ) = l.length + 1 := by simp
    by_cases hk : i = idx ∨ V2.Overlap near v
    · constructor
      · intro e d d' he hw
        obtain ⟨r, r', k1, k2, k3⟩ := h1 _ _ _ (add_nonneg he hc) (hf.within he hw (s.eval p))
        refine ⟨r, r', ?_, ?_, ?_⟩
        · unfold SDF2.prunedLoop; rw [if_pos hk]; exact k1
        · unfold SDF2.prunedLoop; rw [if_pos hk]; exact k2
        · rw [hlen, show e + ((l.length : ℝ) + 1) * c = e + c + l.length * c by ring]; exact k3
      · right
        obtain ⟨r, r', k1, k2, k3⟩ := h1 0 _ _ le_rfl (within_refl (s.eval p))
        refine ⟨r, r', ?_, ?_, ?_⟩
        · unfold SDF2.prunedLoop; rw [if_pos hk]; exact k1
        · unfold SDF2.prunedLoop; rw [if_pos hk]; exact k2
        · simpa using k3
    · constructor
      · intro e d d' he hw
        obtain ⟨r, r', k1, k2, k3⟩ := h1 _ _ _ he hw
        refine ⟨r, r', ?_, ?_, ?_⟩
        · unfold SDF2.prunedLoop; rw [if_neg hk]; exact k1
        · unfold SDF2.prunedLoop; rw [if_neg hk]; exact k2
        · rw [hlen]; exact mono _ _ _ _ (by nlinarith) k3
      · rcases h2 with ⟨k1, k2⟩ | ⟨r, r', k1, k2, k3⟩
        · left
          constructor
          · unfold SDF2.prunedLoop; rw [if_neg hk]; exact k1
          · unfold SDF2.prunedLoop; rw [if_neg hk]; exact k2
        · right
          refine ⟨r, r', ?_, ?_, ?_⟩
          · unfold SDF2.prunedLoop; rw [if_neg hk]; exact k1
          · unfold SDF2.prunedLoop; rw [if_neg hk]; exact k2
          · refine mono _ _ _ _ (mul_le_mul_of_nonneg_right ?_ hc) k3
            have : l.length - 1 ≤ ((s, v) :: l).length - 1 := by simp
            exact_mod_cast this

end Sdf
