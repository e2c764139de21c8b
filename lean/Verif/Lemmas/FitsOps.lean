import Verif.Lemmas.Fits
import Verif.Props.C17Lipschitz
import Verif.Props.C18Primitives
import Verif.Props.C19Transform
import Verif.Props.C23RotateCopy
import Verif.Props.C25Elongate
import Verif.Props.C26Extrude
import Verif.Props.C27Revolve

/-! The combinators preserve `Fits3`, `Fits2` and `Bounded`. -/

namespace Sdf

theorem min_sub_const (a c d : ℝ) : min (a - d) (c - d) = min a c - d := by
  rcases le_total a c with h | h
  · rw [min_eq_left h, min_eq_left (by linarith)]
  · rw [min_eq_right h, min_eq_right (by linarith)]

/-! Uniform scaling. -/

theorem Fits3.scale {A : V3 → Prop} {c : ℝ} {s : SDF3} (hs : Fits3 A c s) {k : ℝ} (hk : 0 < k) :
    Fits3 A (k * c) (s.scaleUniform k) := by
  obtain ⟨h1, _, h3, _⟩ := C19_scale3 s k hk
  intro u hu p
  obtain ⟨q, hq, h⟩ := hs u hu (V3.scale (1 / k) p)
  have hp : p = V3.scale k (V3.scale (1 / k) p) := by ext <;> simp only [V3.scale] <;> field_simp
  refine ⟨_, h3 q hq, ?_⟩
  rw [hp, h1]
  have e : V3.dot u (V3.sub (V3.scale k (V3.scale (1 / k) p)) (V3.scale k q)) =
      k * V3.dot u (V3.sub (V3.scale (1 / k) p) q) := by simp only [V3.dot, V3.sub, V3.scale]; ring
  rw [e, ← mul_min_of_nonneg _ _ hk.le]
  exact mul_le_mul_of_nonneg_left h hk.le

theorem Fits2.scale {A : V2 → Prop} {c : ℝ} {s : SDF2} (hs : Fits2 A c s) {k : ℝ} (hk : 0 < k) :
    Fits2 A (k * c) (s.scaleUniform k) := by
  obtain ⟨h1, _, h3, _⟩ := C19_scale2 s k hk
  intro u hu p
  obtain ⟨q, hq, h⟩ := hs u hu (V2.scale (1 / k) p)
  have hp : p = V2.scale k (V2.scale (1 / k) p) := by ext <;> simp only [V2.scale] <;> field_simp
  refine ⟨_, h3 q hq, ?_⟩
  rw [hp, h1]
  have e : V2.dot u (V2.sub (V2.scale k (V2.scale (1 / k) p)) (V2.scale k q)) =
      k * V2.dot u (V2.sub (V2.scale (1 / k) p) q) := by simp only [V2.dot, V2.sub, V2.scale]; ring
  rw [e, ← mul_min_of_nonneg _ _ hk.le]
  exact mul_le_mul_of_nonneg_left h hk.le

theorem SDF3.Bounded.scale {s : SDF3} (hs : s.Bounded) {k : ℝ} (hk : 0 < k) : (s.scaleUniform k).Bounded := by
  obtain ⟨_, h2, h3, _⟩ := C19_scale3 s k hk
  intro p hp
  have e : p = V3.scale k (V3.scale (1 / k) p) := by ext <;> simp only [V3.scale] <;> field_simp
  rw [e] at hp ⊢
  exact h3 _ (hs _ ((h2 _).mp hp))

theorem SDF2.Bounded.scale {s : SDF2} (hs : s.Bounded) {k : ℝ} (hk : 0 < k) : (s.scaleUniform k).Bounded := by
  obtain ⟨_, h2, h3, _⟩ := C19_scale2 s k hk
  intro p hp
  have e : p = V2.scale k (V2.scale (1 / k) p) := by ext <;> simp only [V2.scale] <;> field_simp
  rw [e] at hp ⊢
  exact h3 _ (hs _ ((h2 _).mp hp))

/-! Affine maps. -/

theorem SDF3.Bounded.transform {s : SDF3} (hs : s.Bounded) {m : M44} (ha : m.Affine) (hd : m.toMatrix.det ≠ 0) :
    (s.transform m).Bounded := by
  intro p hp
  obtain ⟨q, hq, rfl⟩ := (C19_transform3_image s m ha hd p).mp hp
  exact C19_transform3_bounds s m q (hs q hq)

theorem SDF2.Bounded.transform {s : SDF2} (hs : s.Bounded) {m : M33} (ha : m.Affine) (hd : m.toMatrix.det ≠ 0) :
    (s.transform m).Bounded := by
  intro p hp
  obtain ⟨q, hq, rfl⟩ := (C19_transform2_image s m ha hd p).mp hp
  exact C19_transform2_bounds s m q (hs q hq)

theorem M44.translate_affine (v : V3) : (M44.translate v).Affine ∧ (M44.translate v).toMatrix.det ≠ 0 := by
  refine ⟨⟨rfl, rfl, rfl, rfl⟩, ?_⟩
  rw [← M44.det_eq]; simp [M44.translate, M44.det]
theorem M33.translate_affine (v : V2) : (M33.translate v).Affine ∧ (M33.translate v).toMatrix.det ≠ 0 := by
  refine ⟨⟨rfl, rfl, rfl⟩, ?_⟩
  rw [← M33.det_eq]; simp [M33.translate, M33.det]
theorem M44.translate_pull (v u : V3) : (M44.translate v).pull u = u := by simp [M44.translate, M44.pull]
theorem M33.translate_pull (v u : V2) : (M33.translate v).pull u = u := by simp [M33.translate, M33.pull]

/-! Unions. -/

theorem foldl_extend3_sub (l : List SDF3) (b : Box3) : b.Sub (l.foldl (fun bb x => bb.extend x.bounds) b) ∧
    ∀ s ∈ l, s.bounds.Sub (l.foldl (fun bb x => bb.extend x.bounds) b) := by
  induction l generalizing b with
  | nil => exact ⟨Box3.sub_refl _, by simp⟩
  | cons a l ih =>
    rw [List.foldl_cons]
    obtain ⟨h1, h2⟩ := ih (b.extend a.bounds)
    refine ⟨Box3.sub_trans (Box3.sub_extend_left _ _) h1, fun s hs => ?_⟩
    rcases List.mem_cons.mp hs with rfl | hs
    · exact Box3.sub_trans (Box3.sub_extend_right _ _) h1
    · exact h2 s hs

theorem foldl_extend2_sub (l : List SDF2) (b : Box2) : b.Sub (l.foldl (fun bb x => bb.extend x.bounds) b) ∧
    ∀ s ∈ l, s.bounds.Sub (l.foldl (fun bb x => bb.extend x.bounds) b) := by
  induction l generalizing b with
  | nil => exact ⟨Box2.sub_refl _, by simp⟩
  | cons a l ih =>
    rw [List.foldl_cons]
    obtain ⟨h1, h2⟩ := ih (b.extend a.bounds)
    refine ⟨Box2.sub_trans (Box2.sub_extend_left _ _) h1, fun s hs => ?_⟩
    rcases List.mem_cons.mp hs with rfl | hs
    · exact Box2.sub_trans (Box2.sub_extend_right _ _) h1
    · exact h2 s hs

theorem union3_attained (s0 : SDF3) (l : List SDF3) (p : V3) : ∃ s ∈ s0 :: l, (SDF3.union s0 l).eval p = s.eval p := by
  show ∃ s ∈ s0 :: l, l.foldl (fun d x => min d (x.eval p)) (s0.eval p) = s.eval p
  have gen : ∀ (l : List SDF3) (d : ℝ), l.foldl (fun d x => min d (x.eval p)) d = d ∨
      ∃ s ∈ l, l.foldl (fun d x => min d (x.eval p)) d = s.eval p := by
    intro l
    induction l with
    | nil => exact fun d => .inl rfl
    | cons a l ih =>
      intro d
      rw [List.foldl_cons]
      rcases ih (min d (a.eval p)) with h | ⟨s, hs, h⟩
      · rw [h]
        rcases min_choice d (a.eval p) with h | h
        · exact .inl h
        · exact .inr ⟨a, List.mem_cons_self, h⟩
      · exact .inr ⟨s, List.mem_cons_of_mem _ hs, h⟩
  rcases gen l (s0.eval p) with h | ⟨s, hs, h⟩
  · exact ⟨s0, List.mem_cons_self, h⟩
  · exact ⟨s, List.mem_cons_of_mem _ hs, h⟩

theorem Fits3.union {A : V3 → Prop} {c : ℝ} {s0 : SDF3} {l : List SDF3} (h : ∀ s ∈ s0 :: l, Fits3 A c s) :
    Fits3 A c (SDF3.union s0 l) := by
  intro u hu p
  obtain ⟨s, hs, e⟩ := union3_attained s0 l p
  obtain ⟨q, hq, hle⟩ := h s hs u hu p
  exact ⟨q, ((foldl_extend3_sub (s0 :: l) s0.bounds).2 s hs).contains hq, e ▸ hle⟩

theorem SDF3.Bounded.union {s0 : SDF3} {l : List SDF3} (h : ∀ s ∈ s0 :: l, s.Bounded) : (SDF3.union s0 l).Bounded := by
  intro p hp
  obtain ⟨s, hs, e⟩ := union3_attained s0 l p
  exact ((foldl_extend3_sub (s0 :: l) s0.bounds).2 s hs).contains (h s hs p (e ▸ hp))

theorem Fits2.union {A : V2 → Prop} {c : ℝ} {s0 : SDF2} {l : List SDF2} (h : ∀ s ∈ s0 :: l, Fits2 A c s) :
    Fits2 A c (SDF2.union s0 l) := by
  intro u hu p
  obtain ⟨s, hs, e⟩ := (SDF2.unionEval_spec s0 l p).1
  obtain ⟨q, hq, hle⟩ := h s hs u hu p
  exact ⟨q, ((foldl_extend2_sub (s0 :: l) s0.bounds).2 s hs).contains hq, hle.trans_eq e⟩

theorem SDF2.Bounded.union {s0 : SDF2} {l : List SDF2} (h : ∀ s ∈ s0 :: l, s.Bounded) : (SDF2.union s0 l).Bounded := by
  intro p hp
  obtain ⟨s, hs, e⟩ := (SDF2.unionEval_spec s0 l p).1
  exact ((foldl_extend2_sub (s0 :: l) s0.bounds).2 s hs).contains (h s hs p (e.trans_lt hp))

theorem SDF3.Bounded.mono {s t : SDF3} (hs : s.Bounded) (hb : s.bounds = t.bounds) (h : ∀ p, s.eval p ≤ t.eval p) :
    t.Bounded := fun p hp => hb ▸ hs p ((h p).trans_lt hp)
theorem SDF2.Bounded.mono {s t : SDF2} (hs : s.Bounded) (hb : s.bounds = t.bounds) (h : ∀ p, s.eval p ≤ t.eval p) :
    t.Bounded := fun p hp => hb ▸ hs p ((h p).trans_lt hp)

/-! Offsets and shells. -/

theorem Fits3.shift {A : V3 → Prop} (hA : ∀ u, A u → Unit3 u) {c : ℝ} {s t : SDF3} (hs : Fits3 A c s) {d : ℝ} (hd : 0 ≤ d)
    (he : ∀ p, s.eval p - d ≤ t.eval p)
    (hb : ∀ p : V3, s.bounds.lo.x - d ≤ p.x → s.bounds.lo.y - d ≤ p.y → s.bounds.lo.z - d ≤ p.z → p.x ≤ s.bounds.hi.x + d →
      p.y ≤ s.bounds.hi.y + d → p.z ≤ s.bounds.hi.z + d → t.bounds.Contains p) : Fits3 A (c - d) t := by
  intro u hu p
  have hn : V3.norm u = 1 := hA u hu
  have hx := abs_le.mp ((V3.abs_x_le u).trans_eq hn)
  have hy := abs_le.mp ((V3.abs_y_le u).trans_eq hn)
  have hz := abs_le.mp ((V3.abs_z_le u).trans_eq hn)
  obtain ⟨q, ⟨a1, a2, a3, a4, a5, a6⟩, h⟩ := hs u hu p
  refine ⟨V3.add q (V3.scale d u), ?_, ?_⟩
  · apply hb <;> simp only [V3.add, V3.scale] <;> nlinarith [hx.1, hx.2, hy.1, hy.2, hz.1, hz.2]
  · have e : V3.dot u (V3.sub p (V3.add q (V3.scale d u))) = V3.dot u (V3.sub p q) - d := by
      have := V3.norm_sq u
      rw [hn] at this
      simp only [V3.dot, V3.sub, V3.add, V3.scale]
      linear_combination d * this
    rw [e, min_sub_const]
    linarith [he p]

theorem Fits2.shift {A : V2 → Prop} (hA : ∀ u, A u → Unit2 u) {c : ℝ} {s t : SDF2} (hs : Fits2 A c s) {d : ℝ} (hd : 0 ≤ d)
    (he : ∀ p, s.eval p - d ≤ t.eval p)
    (hb : ∀ p : V2, s.bounds.lo.x - d ≤ p.x → s.bounds.lo.y - d ≤ p.y → p.x ≤ s.bounds.hi.x + d →
      p.y ≤ s.bounds.hi.y + d → t.bounds.Contains p) : Fits2 A (c - d) t := by
  intro u hu p
  have hn : V2.norm u = 1 := hA u hu
  have hx := abs_le.mp ((V2.abs_x_le u).trans_eq hn)
  have hy := abs_le.mp ((V2.abs_y_le u).trans_eq hn)
  obtain ⟨q, ⟨a1, a2, a4, a5⟩, h⟩ := hs u hu p
  refine ⟨V2.add q (V2.scale d u), ?_, ?_⟩
  · apply hb <;> simp only [V2.add, V2.scale] <;> nlinarith [hx.1, hx.2, hy.1, hy.2]
  · have e : V2.dot u (V2.sub p (V2.add q (V2.scale d u))) = V2.dot u (V2.sub p q) - d := by
      have := V2.norm_sq u
      rw [hn] at this
      simp only [V2.dot, V2.sub, V2.add, V2.scale]
      linear_combination d * this
    rw [e, min_sub_const]
    linarith [he p]

theorem Fits3.grow {A : V3 → Prop} (hA : ∀ u, A u → Unit3 u) {c : ℝ} {s : SDF3} (hs : Fits3 A c s) {d : ℝ} (hd : 0 ≤ d) :
    Fits3 A (c - d) (s.offset d) :=
  hs.shift hA hd (fun _ => le_rfl) fun p h1 h2 h3 h4 h5 h6 => (Box3.offset_contains s.bounds d p).mpr ⟨h1, h2, h3, h4, h5, h6⟩

theorem Fits2.grow {A : V2 → Prop} (hA : ∀ u, A u → Unit2 u) {c : ℝ} {s : SDF2} (hs : Fits2 A c s) {d : ℝ} (hd : 0 ≤ d) :
    Fits2 A (c - d) (s.offset d) :=
  hs.shift hA hd (fun _ => le_rfl) fun p h1 h2 h4 h5 => (Box2.offset_contains s.bounds d p).mpr ⟨h1, h2, h4, h5⟩

theorem Fits3.shell {A : V3 → Prop} (hA : ∀ u, A u → Unit3 u) {c : ℝ} {s : SDF3} (hs : Fits3 A c s) {t : ℝ} (ht : 0 < t) :
    Fits3 A (c - t / 2) (s.shell t) := by
  unfold SDF3.shell
  rw [if_neg (not_le.mpr ht)]
  refine hs.shift hA (by linarith) (fun p => ?_) fun p h1 h2 h3 h4 h5 h6 => ?_
  · simp only
    have := le_abs_self (s.eval p)
    norm_num
    linarith
  · simp only [Box3.Contains, Box3.enlarge, V3.scale, V3.sub, V3.add]
    refine ⟨?_, ?_, ?_, ?_, ?_, ?_⟩ <;> norm_num <;> linarith

theorem Fits3.offset {c : ℝ} {s : SDF3} (hs : Fits3 Axis3 c s) {d : ℝ} (hx : 0 ≤ s.bounds.size.x + 2 * d)
    (hy : 0 ≤ s.bounds.size.y + 2 * d) (hz : 0 ≤ s.bounds.size.z + 2 * d) : Fits3 Axis3 (c - d) (s.offset d) := by
  intro u hu p
  obtain ⟨q, ⟨a1, a2, a3, a4, a5, a6⟩, h⟩ := hs u hu p
  simp only [Box3.size, V3.sub] at hx hy hz
  have hmem := fun r => (Box3.offset_contains s.bounds d r).mpr
  have main : ∀ r : V3, V3.dot u q + d ≤ V3.dot u r → min (V3.dot u (V3.sub p r)) (c - d) ≤ s.eval p - d := by
    intro r hr
    have e : V3.dot u (V3.sub p r) ≤ V3.dot u (V3.sub p q) - d := by
      simp only [V3.dot, V3.sub] at hr ⊢; linarith
    calc _ ≤ min (V3.dot u (V3.sub p q) - d) (c - d) := min_le_min_right _ e
      _ = _ := min_sub_const _ _ _
      _ ≤ _ := by linarith
  rcases hu with rfl | rfl | rfl | rfl | rfl | rfl
  · exact ⟨⟨s.bounds.hi.x + d, s.bounds.hi.y + d, s.bounds.hi.z + d⟩,
      hmem _ ⟨by simp only; linarith, by simp only; linarith, by simp only; linarith, le_rfl, le_rfl, le_rfl⟩,
      main _ (by simp only [V3.dot]; linarith)⟩
  · exact ⟨⟨s.bounds.lo.x - d, s.bounds.hi.y + d, s.bounds.hi.z + d⟩,
      hmem _ ⟨le_rfl, by simp only; linarith, by simp only; linarith, by simp only; linarith, le_rfl, le_rfl⟩,
      main _ (by simp only [V3.dot]; linarith)⟩
  · exact ⟨⟨s.bounds.hi.x + d, s.bounds.hi.y + d, s.bounds.hi.z + d⟩,
      hmem _ ⟨by simp only; linarith, by simp only; linarith, by simp only; linarith, le_rfl, le_rfl, le_rfl⟩,
      main _ (by simp only [V3.dot]; linarith)⟩
  · exact ⟨⟨s.bounds.lo.x - d, s.bounds.lo.y - d, s.bounds.hi.z + d⟩,
      hmem _ ⟨le_rfl, le_rfl, by simp only; linarith, by simp only; linarith, by simp only; linarith, le_rfl⟩,
      main _ (by simp only [V3.dot]; linarith)⟩
  · exact ⟨⟨s.bounds.hi.x + d, s.bounds.hi.y + d, s.bounds.hi.z + d⟩,
      hmem _ ⟨by simp only; linarith, by simp only; linarith, by simp only; linarith, le_rfl, le_rfl, le_rfl⟩,
      main _ (by simp only [V3.dot]; linarith)⟩
  · exact ⟨⟨s.bounds.lo.x - d, s.bounds.lo.y - d, s.bounds.lo.z - d⟩,
      hmem _ ⟨le_rfl, le_rfl, le_rfl, by simp only; linarith, by simp only; linarith, by simp only; linarith⟩,
      main _ (by simp only [V3.dot]; linarith)⟩

theorem Fits2.offset {c : ℝ} {s : SDF2} (hs : Fits2 Axis2 c s) {d : ℝ} (hx : 0 ≤ s.bounds.size.x + 2 * d)
    (hy : 0 ≤ s.bounds.size.y + 2 * d) : Fits2 Axis2 (c - d) (s.offset d) := by
  intro u hu p
  obtain ⟨q, ⟨a1, a2, a4, a5⟩, h⟩ := hs u hu p
  simp only [Box2.size, V2.sub] at hx hy
  have hmem := fun r => (Box2.offset_contains s.bounds d r).mpr
  have main : ∀ r : V2, V2.dot u q + d ≤ V2.dot u r → min (V2.dot u (V2.sub p r)) (c - d) ≤ s.eval p - d := by
    intro r hr
    have e : V2.dot u (V2.sub p r) ≤ V2.dot u (V2.sub p q) - d := by
      simp only [V2.dot, V2.sub] at hr ⊢; linarith
    calc _ ≤ min (V2.dot u (V2.sub p q) - d) (c - d) := min_le_min_right _ e
      _ = _ := min_sub_const _ _ _
      _ ≤ _ := by linarith
  rcases hu with rfl | rfl | rfl | rfl
  · exact ⟨⟨s.bounds.hi.x + d, s.bounds.hi.y + d⟩,
      hmem _ ⟨by simp only; linarith, by simp only; linarith, le_rfl, le_rfl⟩, main _ (by simp only [V2.dot]; linarith)⟩
  · exact ⟨⟨s.bounds.lo.x - d, s.bounds.hi.y + d⟩,
      hmem _ ⟨le_rfl, by simp only; linarith, by simp only; linarith, le_rfl⟩, main _ (by simp only [V2.dot]; linarith)⟩
  · exact ⟨⟨s.bounds.hi.x + d, s.bounds.hi.y + d⟩,
      hmem _ ⟨by simp only; linarith, by simp only; linarith, le_rfl, le_rfl⟩, main _ (by simp only [V2.dot]; linarith)⟩
  · exact ⟨⟨s.bounds.lo.x - d, s.bounds.lo.y - d⟩,
      hmem _ ⟨le_rfl, le_rfl, by simp only; linarith, by simp only; linarith⟩, main _ (by simp only [V2.dot]; linarith)⟩

end Sdf
