import Verif.Lemmas.OctreeCalls
import Verif.Lemmas.MCGrid
import Verif.Lemmas.Vec
import Verif.Spec.Shape

/-! Helper lemmas: geometry of the octree grid. -/

namespace Sdf.Octree

open Classical

/-- extent of the enlarged bounding box -/
noncomputable def longAxis (s : SDF3) : ℝ := (s.bounds.scaleAboutCenter 1.01).size.maxComp

theorem scaled_size (b : Box3) (k : ℝ) : (b.scaleAboutCenter k).size = V3.scale k b.size := by
  unfold Box3.scaleAboutCenter Box3.new Box3.size V3.scale V3.sub V3.add
  ext <;> simp <;> ring

theorem scaled_lo (b : Box3) (k : ℝ) : (b.scaleAboutCenter k).lo =
    ⟨(b.lo.x + b.hi.x) / 2 - k * (b.hi.x - b.lo.x) / 2, (b.lo.y + b.hi.y) / 2 - k * (b.hi.y - b.lo.y) / 2,
     (b.lo.z + b.hi.z) / 2 - k * (b.hi.z - b.lo.z) / 2⟩ := by
  unfold Box3.scaleAboutCenter Box3.new Box3.size Box3.center V3.scale V3.sub V3.add
  ext <;> simp [Box3.size, V3.sub] <;> ring

theorem longAxis_eq (s : SDF3) : longAxis s =
    1.01 * max (s.bounds.hi.z - s.bounds.lo.z)
      (max (s.bounds.hi.x - s.bounds.lo.x) (s.bounds.hi.y - s.bounds.lo.y)) := by
  unfold longAxis
  rw [scaled_size]
  simp only [V3.maxComp, V3.scale, Box3.size, V3.sub]
  rw [mul_max_of_nonneg _ _ (by norm_num), mul_max_of_nonneg _ _ (by norm_num)]

theorem longAxis_pos (s : SDF3) (h : s.bounds.Solid) : 0 < longAxis s := by
  rw [longAxis_eq]
  have : 0 < max (s.bounds.hi.z - s.bounds.lo.z)
      (max (s.bounds.hi.x - s.bounds.lo.x) (s.bounds.hi.y - s.bounds.lo.y)) :=
    lt_max_of_lt_left (by have := h.2.2; linarith)
  positivity

/-- number of halvings: depends only on `meshCells` -/
noncomputable def depth (m : ℤ) : Nat := ⌈Real.logb 2 (2 * (m : ℝ))⌉₊

theorem depth_ge (m : ℤ) (hm : 2 ≤ m) : 2 ≤ depth m := by
  unfold depth
  have hm' : (2 : ℝ) ≤ (m : ℝ) := by exact_mod_cast hm
  have : (1 : ℝ) < Real.logb 2 (2 * (m : ℝ)) := by
    rw [Real.lt_logb_iff_rpow_lt (by norm_num) (by linarith)]
    simp; linarith
  have h2 : 1 < ⌈Real.logb 2 (2 * (m : ℝ))⌉₊ := Nat.lt_ceil.mpr (by exact_mod_cast this)
  omega

theorem two_m_le (m : ℤ) (hm : 2 ≤ m) : 2 * (m : ℝ) ≤ 2 ^ depth m := by
  have hm' : (2 : ℝ) ≤ (m : ℝ) := by exact_mod_cast hm
  have h := Nat.le_ceil (Real.logb 2 (2 * (m : ℝ)))
  rw [Real.logb_le_iff_le_rpow (by norm_num) (by linarith)] at h
  rw [Real.rpow_natCast] at h
  exact h

structure InitFacts (s : SDF3) (m : ℤ) (oc : State) : Prop where
  m_ge : 2 ≤ m
  dc_s : oc.dc.s = s
  origin : oc.dc.origin = (s.bounds.scaleAboutCenter 1.01).lo
  res : oc.dc.resolution = longAxis s / (2 * m)
  levels : oc.dc.levels = depth m + 1
  todo : oc.todo = [⟨⟨0, 0, 0⟩, depth m⟩]
  unwritten : oc.unwritten = []
  cache : oc.cache = fun _ => none

theorem initial_facts {s : SDF3} {m : ℤ} {oc : State} (hs : s.bounds.Solid) (h : Initial s m oc) : InitFacts s m oc := by
  obtain ⟨oc0, h0, h1⟩ := h
  unfold new at h0
  by_cases hm : m < 2
  · simp [hm] at h0
  · rw [if_neg hm] at h0
    have hm' : (2 : ℝ) ≤ (m : ℝ) := by exact_mod_cast not_lt.mp hm
    have hl := longAxis_pos s hs
    have e : longAxis s / (0.5 * longAxis s / (m : ℝ)) = 2 * (m : ℝ) := by
      have : (m : ℝ) ≠ 0 := by linarith
      field_simp; norm_num
    have e' : (s.bounds.scaleAboutCenter 1.01).size.maxComp = longAxis s := rfl
    simp only [e', e] at h0
    split at h0
    · simp at h0
    · simp only [Option.some.injEq] at h0
      subst h0
      rw [h1]
      refine ⟨not_lt.mp hm, rfl, rfl, ?_, rfl, rfl, rfl, rfl⟩
      simp only
      have : (m : ℝ) ≠ 0 := by linarith
      field_simp; norm_num

theorem initial_ok {s : SDF3} {m : ℤ} {oc : State} (f : InitFacts s m oc) : StateOk oc := by
  constructor
  · rw [f.cache]; intro vi d h; simp at h
  · rw [f.todo]
    intro c hc
    simp only [List.mem_singleton] at hc
    subst hc
    have := depth_ge m f.m_ge
    have := f.levels
    unfold ValidCube; simp only; omega

/-! ### Leaves -/

/-- a level-1 cell with even offsets inside a cube -/
def CellIn (c : Cube) (n : Nat) (o : V3i) : Prop :=
  c.n = 1 ∧ ∃ i j k : ℤ, c.o = ⟨o.x + 2 * i, o.y + 2 * j, o.z + 2 * k⟩ ∧ 0 ≤ i ∧ i < 2 ^ (n - 1) ∧ 0 ≤ j ∧ j < 2 ^ (n - 1)
    ∧ 0 ≤ k ∧ k < 2 ^ (n - 1)

theorem mem_subCubes {c x : Cube} : x ∈ subCubes c ↔ x.n = c.n - 1 ∧
    ∃ a b d : ℤ, (a = 0 ∨ a = 1) ∧ (b = 0 ∨ b = 1) ∧ (d = 0 ∨ d = 1) ∧
      x.o = ⟨c.o.x + a * 2 ^ (c.n - 1), c.o.y + b * 2 ^ (c.n - 1), c.o.z + d * 2 ^ (c.n - 1)⟩ := by
  obtain ⟨xo, xn⟩ := x
  simp only [subCubes, List.mem_cons, List.not_mem_nil, or_false, Cube.mk.injEq, V3i.add]
  constructor
  · rintro (h | h | h | h | h | h | h | h) <;> obtain ⟨rfl, rfl⟩ := h
    · exact ⟨rfl, 0, 0, 0, by simp⟩
    · exact ⟨rfl, 1, 0, 0, by simp⟩
    · exact ⟨rfl, 1, 1, 0, by simp⟩
    · exact ⟨rfl, 0, 1, 0, by simp⟩
    · exact ⟨rfl, 0, 0, 1, by simp⟩
    · exact ⟨rfl, 1, 0, 1, by simp⟩
    · exact ⟨rfl, 1, 1, 1, by simp⟩
    · exact ⟨rfl, 0, 1, 1, by simp⟩
  · rintro ⟨rfl, a, b, d, ha, hb, hd, rfl⟩
    rcases ha with rfl | rfl <;> rcases hb with rfl | rfl <;> rcases hd with rfl | rfl <;> simp

theorem leaves_in (dc : Dc3) : ∀ (n : Nat) (o : V3i), ∀ c ∈ leaves dc n o, CellIn c n o
  | 0, o, c, h => by simp [leaves] at h
  | 1, o, c, h => by
    simp only [leaves, List.mem_singleton] at h
    subst h
    exact ⟨rfl, 0, 0, 0, by simp⟩
  | n + 2, o, c, h => by
    simp only [leaves, List.mem_flatMap] at h
    obtain ⟨x, hx, hc⟩ := h
    obtain ⟨hn, a, b, d, ha, hb, hd, hxo⟩ := mem_subCubes.mp (List.mem_of_mem_filter hx)
    obtain ⟨h1, i, j, k, hco, hi0, hi1, hj0, hj1, hk0, hk1⟩ := leaves_in dc (n + 1) x.o c hc
    simp only [Nat.add_sub_cancel] at hn hxo hi1 hj1 hk1
    have e : n + 2 - 1 = n + 1 := rfl
    rw [e] at hxo
    have hp : (2 : ℤ) ^ (n + 1) = 2 * 2 ^ n := by ring
    have h2 : (0 : ℤ) < 2 ^ n := by positivity
    refine ⟨h1, a * 2 ^ n + i, b * 2 ^ n + j, d * 2 ^ n + k, ?_, ?_⟩
    · rw [hco, hxo, hp]; ext <;> simp only <;> ring
    · simp only [e, hp]
      rcases ha with rfl | rfl <;> rcases hb with rfl | rfl <;> rcases hd with rfl | rfl <;>
        simp only [zero_mul, one_mul, zero_add] <;> refine ⟨?_, ?_, ?_, ?_, ?_, ?_⟩ <;> linarith

/-- Different sub-cubes contain different cells. -/
theorem leaves_disjoint (dc : Dc3) (n : Nat) (o : V3i) (x y : Cube) (hx : x ∈ subCubes ⟨o, n + 2⟩) (hy : y ∈ subCubes ⟨o, n + 2⟩)
    (c : Cube) (h1 : c ∈ leaves dc (n + 1) x.o) (h2 : c ∈ leaves dc (n + 1) y.o) : x = y := by
  obtain ⟨hn, a, b, d, ha, hb, hd, hxo⟩ := mem_subCubes.mp hx
  obtain ⟨hn', a', b', d', ha', hb', hd', hyo⟩ := mem_subCubes.mp hy
  obtain ⟨_, i, j, k, hco, hi0, hi1, hj0, hj1, hk0, hk1⟩ := leaves_in dc (n + 1) x.o c h1
  obtain ⟨_, i', j', k', hco', hi0', hi1', hj0', hj1', hk0', hk1'⟩ := leaves_in dc (n + 1) y.o c h2
  have e : n + 2 - 1 = n + 1 := rfl
  simp only [Nat.add_sub_cancel, e] at *
  have hp : (2 : ℤ) ^ (n + 1) = 2 * 2 ^ n := by ring
  have h2 : (0 : ℤ) < 2 ^ n := by positivity
  rw [hco, hxo, hyo, hp] at hco'
  simp only [V3i.mk.injEq] at hco'
  obtain ⟨e1, e2, e3⟩ := hco'
  have ea : a = a' := by rcases ha with rfl | rfl <;> rcases ha' with rfl | rfl <;> first | rfl | (exfalso; linarith)
  have eb : b = b' := by rcases hb with rfl | rfl <;> rcases hb' with rfl | rfl <;> first | rfl | (exfalso; linarith)
  have ed : d = d' := by rcases hd with rfl | rfl <;> rcases hd' with rfl | rfl <;> first | rfl | (exfalso; linarith)
  subst ea; subst eb; subst ed
  ext
  · rw [hxo, hyo]
  · rw [hxo, hyo]
  · rw [hxo, hyo]
  · omega

theorem subCubes_nodup (o : V3i) (n : Nat) : (subCubes ⟨o, n + 2⟩).Nodup := by
  have h2 : (2 : ℤ) ^ (n + 2 - 1) ≠ 0 := by positivity
  simp only [subCubes, V3i.add]
  generalize (2 : ℤ) ^ (n + 2 - 1) = s at h2
  simp [List.nodup_cons, h2]

theorem leaves_nodup (dc : Dc3) : ∀ (n : Nat) (o : V3i), (leaves dc n o).Nodup
  | 0, o => by simp [leaves]
  | 1, o => by simp [leaves]
  | n + 2, o => by
    simp only [leaves]
    rw [List.nodup_flatMap]
    refine ⟨fun x _ => leaves_nodup dc (n + 1) x.o, ?_⟩
    have hnd : ((subCubes ⟨o, n + 2⟩).filter fun c => ¬ Skipped dc c).Nodup := (subCubes_nodup o n).filter _
    refine List.Pairwise.imp_of_mem ?_ hnd
    intro x y hx hy hne c h1 h2
    exact hne (leaves_disjoint dc n o x y (List.mem_of_mem_filter hx) (List.mem_of_mem_filter hy) c h1 h2)

/-! ### Pruning is safe for 1-Lipschitz shapes -/

theorem hdiag_eq (dc : Dc3) (n : Nat) (hr : 0 ≤ dc.resolution) :
    dc.hdiag n = Real.sqrt 3 * (2 ^ n * dc.resolution / 2) := by
  unfold Dc3.hdiag
  have h : 0 ≤ (2 : ℝ) ^ n * dc.resolution := by positivity
  have e : 3.0 * ((2 : ℝ) ^ n * dc.resolution) * (2 ^ n * dc.resolution) = 3 * (2 ^ n * dc.resolution) ^ 2 := by
    norm_num; ring
  simp only [e]
  rw [Real.sqrt_mul (by norm_num), Real.sqrt_sq h]
  norm_num; ring

theorem dist_center_le (dc : Dc3) (hr : 0 ≤ dc.resolution) (n : Nat) (o q : V3i) (h : ℝ) (hh : h = 2 ^ n)
    (hx : |(q.x - (o.x : ℝ)) - h| ≤ h) (hy : |(q.y - (o.y : ℝ)) - h| ≤ h) (hz : |(q.z - (o.z : ℝ)) - h| ≤ h) :
    V3.dist (dc.pos q) (dc.pos ⟨o.x + 2 ^ n, o.y + 2 ^ n, o.z + 2 ^ n⟩) ≤ dc.hdiag (n + 1) := by
  rw [hdiag_eq dc _ hr]
  have h3 : (0 : ℝ) ≤ Real.sqrt 3 := Real.sqrt_nonneg 3
  have hs3 : Real.sqrt 3 * Real.sqrt 3 = 3 := Real.mul_self_sqrt (by norm_num)
  have e : (2 : ℝ) ^ (n + 1) * dc.resolution / 2 = h * dc.resolution := by rw [hh]; ring
  rw [e]
  have hpos : 0 ≤ h := by rw [hh]; positivity
  apply V3.norm_le_of (by positivity)
  simp only [V3.sub, Dc3.pos, V3.add, V3.scale, V3i.toV3]
  push_cast
  rw [← hh]
  have sq : ∀ u : ℝ, |u - h| ≤ h → (u - h) * (u - h) ≤ h * h := by
    intro u hu
    have := mul_self_le_mul_self (abs_nonneg _) hu
    rwa [abs_mul_abs_self] at this
  have h1 := sq _ hx
  have h2 := sq _ hy
  have h4 := sq _ hz
  have hrr := mul_self_nonneg dc.resolution
  have e2 : Real.sqrt 3 * (h * dc.resolution) * (Real.sqrt 3 * (h * dc.resolution))
      = 3 * (h * h) * (dc.resolution * dc.resolution) := by
    calc _ = (Real.sqrt 3 * Real.sqrt 3) * (h * h) * (dc.resolution * dc.resolution) := by ring
      _ = _ := by rw [hs3]
  rw [e2]
  nlinarith [mul_le_mul_of_nonneg_right h1 hrr, mul_le_mul_of_nonneg_right h2 hrr, mul_le_mul_of_nonneg_right h4 hrr]

/-- A cell with a negative corner and one that is not negative is not lost, if that corner is positive or no sub-cube with the cell has
a centre at a depth of exactly half the diagonal. -/
theorem leaves_complete_of (dc : Dc3) (hr : 0 ≤ dc.resolution) (hl : Lip3 dc.s.eval) : ∀ (n : Nat) (o : V3i) (c : Cube),
    1 ≤ n → CellIn c n o → (∃ a, dc.value (leafCorners c a) < 0) → (∃ b, 0 ≤ dc.value (leafCorners c b)) →
    ((∃ b, 0 < dc.value (leafCorners c b)) ∨ ∀ (m : Nat) (x : V3i), 1 ≤ m → m < n → CellIn c m x →
      (∃ i j k : ℤ, x = ⟨o.x + 2 ^ m * i, o.y + 2 ^ m * j, o.z + 2 ^ m * k⟩) →
      dc.value ⟨x.x + 2 ^ (m - 1), x.y + 2 ^ (m - 1), x.z + 2 ^ (m - 1)⟩ ≠ -dc.hdiag m) →
    c ∈ leaves dc n o
  | 0, _, _, h, _, _, _, _ => by omega
  | 1, o, c, _, ⟨h1, i, j, k, hco, hi⟩, _, _, _ => by
    simp only [Nat.sub_self, pow_zero] at hi
    have hi' : i = 0 := by omega
    have hj' : j = 0 := by omega
    have hk' : k = 0 := by omega
    subst hi'; subst hj'; subst hk'
    simp only [leaves, List.mem_singleton]
    ext <;> simp [hco, h1]
  | n + 2, o, c, _, ⟨h1, i, j, k, hco, hi0, hi1, hj0, hj1, hk0, hk1⟩, hneg, hpos, hex => by
    have e : n + 2 - 1 = n + 1 := rfl
    rw [e] at hi1 hj1 hk1
    have hp : (2 : ℤ) ^ (n + 1) = 2 * 2 ^ n := by ring
    have h2 : (0 : ℤ) < 2 ^ n := by positivity
    rw [hp] at hi1 hj1 hk1
    have split : ∀ t : ℤ, 0 ≤ t → t < 2 * 2 ^ n → ∃ a t' : ℤ, (a = 0 ∨ a = 1) ∧ t = a * 2 ^ n + t' ∧ 0 ≤ t' ∧ t' < 2 ^ n := by
      intro t h0 hlt
      by_cases h : t < 2 ^ n
      · exact ⟨0, t, Or.inl rfl, by ring, h0, h⟩
      · exact ⟨1, t - 2 ^ n, Or.inr rfl, by ring, by linarith, by linarith⟩
    obtain ⟨a, i', ha, rfl, hi0', hi1'⟩ := split i hi0 hi1
    obtain ⟨b, j', hb, rfl, hj0', hj1'⟩ := split j hj0 hj1
    obtain ⟨d, k', hd, rfl, hk0', hk1'⟩ := split k hk0 hk1
    let x : Cube := ⟨⟨o.x + a * 2 ^ (n + 1), o.y + b * 2 ^ (n + 1), o.z + d * 2 ^ (n + 1)⟩, n + 1⟩
    have hx : x ∈ subCubes ⟨o, n + 2⟩ := mem_subCubes.mpr ⟨rfl, a, b, d, ha, hb, hd, rfl⟩
    have hcx : CellIn c (n + 1) x.o := by
      refine ⟨h1, i', j', k', ?_, hi0', ?_, hj0', ?_, hk0', ?_⟩
      · rw [hco]; simp only [x, hp]; ext <;> simp only <;> ring
      · simpa using hi1'
      · simpa using hj1'
      · simpa using hk1'
    have hrec := leaves_complete_of dc hr hl (n + 1) x.o c (by omega) hcx hneg hpos (by
      rcases hex with hex | hex
      · exact Or.inl hex
      · refine Or.inr fun m y hm1 hmn hcy hy => hex m y hm1 (by omega) hcy ?_
        obtain ⟨i2, j2, k2, rfl⟩ := hy
        have e2 : (2 : ℤ) ^ (n + 1) = 2 ^ m * 2 ^ (n + 1 - m) := by rw [← pow_add]; congr 1; omega
        refine ⟨a * 2 ^ (n + 1 - m) + i2, b * 2 ^ (n + 1 - m) + j2, d * 2 ^ (n + 1 - m) + k2, ?_⟩
        ext <;> simp only [x, e2] <;> ring)
    simp only [leaves, List.mem_flatMap]
    refine ⟨x, ?_, hrec⟩
    rw [List.mem_filter]
    refine ⟨hx, ?_⟩
    simp only [decide_eq_true_eq]
    intro hsk
    unfold Skipped at hsk
    have en : x.n = n + 1 := rfl
    rw [en] at hsk
    simp only [Nat.add_sub_cancel] at hsk
    -- every corner of the cell is within hdiag of the centre
    have hdist : ∀ q : Fin 8, V3.dist (dc.pos (leafCorners c q))
        (dc.pos ⟨x.o.x + 2 ^ n, x.o.y + 2 ^ n, x.o.z + 2 ^ n⟩) ≤ dc.hdiag (n + 1) := by
      intro q
      have hxo : c.o = ⟨x.o.x + 2 * i', x.o.y + 2 * j', x.o.z + 2 * k'⟩ := by
        rw [hco]; simp only [x, hp]; ext <;> simp only <;> ring
      have key : ∀ t : ℤ, 0 ≤ t → t < 2 ^ n → ∀ u : ℤ, (u = 0 ∨ u = 2) → ∀ y : ℤ,
          |(((y + 2 * t + u : ℤ) : ℝ) - (y : ℝ)) - (2 : ℝ) ^ n| ≤ 2 ^ n := by
        intro t h0 hlt u hu y
        have h0' : (0 : ℝ) ≤ (t : ℝ) := by exact_mod_cast h0
        have h1' : (t : ℝ) + 1 ≤ (2 : ℝ) ^ n := by
          have : t + 1 ≤ 2 ^ n := by linarith
          exact_mod_cast this
        push_cast
        rw [abs_le]
        rcases hu with rfl | rfl <;> push_cast <;> constructor <;> linarith
      apply dist_center_le dc hr n x.o (leafCorners c q) (2 ^ n) rfl
      · fin_cases q <;> simp only [leafCorners, V3i.add, hxo] <;> first | exact key i' hi0' hi1' 0 (Or.inl rfl) x.o.x | exact key i' hi0' hi1' 2 (Or.inr rfl) x.o.x
      · fin_cases q <;> simp only [leafCorners, V3i.add, hxo] <;> first | exact key j' hj0' hj1' 0 (Or.inl rfl) x.o.y | exact key j' hj0' hj1' 2 (Or.inr rfl) x.o.y
      · fin_cases q <;> simp only [leafCorners, V3i.add, hxo] <;> first | exact key k' hk0' hk1' 0 (Or.inl rfl) x.o.z | exact key k' hk0' hk1' 2 (Or.inr rfl) x.o.z
    obtain ⟨qa, hqa⟩ := hneg
    have la := (abs_le.mp (hl (dc.pos (leafCorners c qa)) (dc.pos ⟨x.o.x + 2 ^ n, x.o.y + 2 ^ n, x.o.z + 2 ^ n⟩)))
    have da := hdist qa
    have lb := fun qb => (abs_le.mp (hl (dc.pos (leafCorners c qb)) (dc.pos ⟨x.o.x + 2 ^ n, x.o.y + 2 ^ n, x.o.z + 2 ^ n⟩)))
    unfold Dc3.value at hqa hsk
    rcases le_abs.mp hsk with h | h
    · linarith [la.1, la.2]
    · rcases hex with ⟨qb, hqb⟩ | hex
      · have db := hdist qb
        unfold Dc3.value at hqb
        linarith [(lb qb).1, (lb qb).2]
      · obtain ⟨qb, hqb⟩ := hpos
        have db := hdist qb
        unfold Dc3.value at hqb
        refine hex (n + 1) x.o (by omega) (by omega) hcx ⟨a, b, d, ?_⟩ ?_
        · ext <;> simp only [x] <;> ring
        · simp only [Nat.add_sub_cancel]
          unfold Dc3.value
          linarith [(lb qb).1, (lb qb).2]

/-- A cell with a strictly negative and a strictly positive corner is not lost. -/
theorem leaves_complete (dc : Dc3) (hr : 0 ≤ dc.resolution) (hl : Lip3 dc.s.eval) (n : Nat) (o : V3i) (c : Cube) (hn : 1 ≤ n)
    (hc : CellIn c n o) (hneg : ∃ a, dc.value (leafCorners c a) < 0) (hpos : ∃ b, 0 < dc.value (leafCorners c b)) :
    c ∈ leaves dc n o :=
  leaves_complete_of dc hr hl n o c hn hc hneg (by obtain ⟨b, hb⟩ := hpos; exact ⟨b, hb.le⟩) (Or.inl hpos)

/-- A cell of the grid with a negative corner and one that is not negative is not lost, if it is clear. -/
theorem leaves_complete_clear (dc : Dc3) (hr : 0 ≤ dc.resolution) (hl : Lip3 dc.s.eval) (c : Cube) (hn : 2 ≤ dc.levels)
    (hc : CellIn c (dc.levels - 1) ⟨0, 0, 0⟩) (hneg : ∃ a, dc.value (leafCorners c a) < 0) (hpos : ∃ b, 0 ≤ dc.value (leafCorners c b))
    (hclear : Clear dc c) :
    c ∈ leaves dc (dc.levels - 1) ⟨0, 0, 0⟩ := by
  refine leaves_complete_of dc hr hl _ _ c (by omega) hc hneg hpos ?_
  rcases hclear with h | h
  · obtain ⟨b, hb⟩ := hpos
    exact Or.inl ⟨b, lt_of_le_of_ne hb (Ne.symm (h b))⟩
  · refine Or.inr ?_
    rintro m x hm1 hmn ⟨-, i', j', k', hco, hi0, hi1, hj0, hj1, hk0, hk1⟩ ⟨i, j, k, rfl⟩
    have hp : (2 : ℤ) ^ m = 2 * 2 ^ (m - 1) := by
      obtain ⟨q, rfl⟩ := Nat.exists_eq_add_of_le' hm1
      simp only [Nat.add_sub_cancel]; ring
    have := h m i j k hm1 (by omega) (by rw [hco]; simp only [zero_add]; linarith) (by rw [hco]; simp only [zero_add]; nlinarith)
      (by rw [hco]; simp only [zero_add]; linarith) (by rw [hco]; simp only [zero_add]; nlinarith)
      (by rw [hco]; simp only [zero_add]; linarith) (by rw [hco]; simp only [zero_add]; nlinarith)
    simpa [Dc3.value] using this

end Sdf.Octree
