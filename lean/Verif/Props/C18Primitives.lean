import Verif.Lemmas.Revolve
import Verif.Spec.Shape

/-!
C18: primitive shapes report the exact signed distance.  For each primitive: the constructor accepts all valid
dimensions, the value is the exact signed distance to the surface (`Exact`), and it is negative exactly inside the
named geometric body.
-/

namespace Sdf

/-- The points strictly inside a body `B` rounded by `round`: within `round` of a point of `B`. -/
def Rounded3 (B : V3 → Prop) (round : ℝ) (p : V3) : Prop := ∃ q, B q ∧ V3.dist p q < round
/-- As `Rounded3`, in the plane. -/
def Rounded2 (B : V2 → Prop) (round : ℝ) (p : V2) : Prop := ∃ q, B q ∧ V2.dist p q < round

theorem rounded_of3 {g : V3 → ℝ} {B : V3 → Prop} {b : Box3} {c : ℝ} (hc : 0 < c) (hl : Lip3 g) (hB : ∀ q, g q ≤ 0 ↔ B q)
    (h : ∀ p, ∃ q, g q = 0 ∧ V3.dist p q = |g p - 0|) (p : V3) :
    SDF3.Inside ⟨fun p => g p - c, b⟩ p ↔ Rounded3 B c p := by
  show g p - c < 0 ↔ _
  constructor
  · intro hp
    rcases le_or_gt (g p) 0 with h0 | h0
    · exact ⟨p, (hB p).mp h0, by rw [V3.dist_eq_zero.mpr rfl]; exact hc⟩
    · obtain ⟨q, hq, hd⟩ := h p
      exact ⟨q, (hB q).mp hq.le, by rw [hd, sub_zero, abs_of_pos h0]; linarith⟩
  · rintro ⟨q, hq, hd⟩
    have := abs_le.mp (hl p q)
    linarith [(hB q).mpr hq]

theorem rounded_of2 {g : V2 → ℝ} {B : V2 → Prop} {b : Box2} {c : ℝ} (hc : 0 < c) (hl : Lip2 g) (hB : ∀ q, g q ≤ 0 ↔ B q)
    (h : ∀ p, ∃ q, g q = 0 ∧ V2.dist p q = |g p - 0|) (p : V2) :
    SDF2.Inside ⟨fun p => g p - c, b⟩ p ↔ Rounded2 B c p := by
  show g p - c < 0 ↔ _
  constructor
  · intro hp
    rcases le_or_gt (g p) 0 with h0 | h0
    · exact ⟨p, (hB p).mp h0, by rw [V2.dist_eq_zero.mpr rfl]; exact hc⟩
    · obtain ⟨q, hq, hd⟩ := h p
      exact ⟨q, (hB q).mp hq.le, by rw [hd, sub_zero, abs_of_pos h0]; linarith⟩
  · rintro ⟨q, hq, hd⟩
    have := abs_le.mp (hl p q)
    linarith [(hB q).mpr hq]

/-- Sphere: all radii `r > 0`. -/
theorem C18_sphere (r : ℝ) (hr : 0 < r) : ∃ s, Must3.sphere r = some s ∧ s.Exact ∧
    ∀ p, s.Inside p ↔ V3.dist p ⟨0, 0, 0⟩ < r := by
  refine ⟨_, if_neg (not_le.mpr hr), exact_sub3 (fun p q => V3.norm_sub_le p q) (norm3_level r hr.le), fun p => ?_⟩
  have : V3.sub p ⟨0, 0, 0⟩ = p := by ext <;> simp [V3.sub]
  rw [V3.dist, this]
  exact sub_neg

/-- Circle: all radii `r ≥ 0`. -/
theorem C18_circle (r : ℝ) (hr : 0 ≤ r) : ∃ s, Must2.circle r = some s ∧ s.Exact ∧
    ∀ p, s.Inside p ↔ V2.dist p ⟨0, 0⟩ < r := by
  refine ⟨_, if_neg (not_lt.mpr hr), exact_sub2 (fun p q => V2.norm_sub_le p q) (norm2_level r hr), fun p => ?_⟩
  have : V2.sub p ⟨0, 0⟩ = p := by ext <;> simp [V2.sub]
  rw [V2.dist, this]
  exact sub_neg

/-- 3D box: every positive size, every rounding up to half the shortest side.  Unrounded it is the open cuboid;
rounded it is the set of points within `round` of the cuboid shrunk by `round`. -/
theorem C18_box3 (size : V3) (round : ℝ) (hx : 0 < size.x) (hy : 0 < size.y) (hz : 0 < size.z) (h0 : 0 ≤ round)
    (hrx : round ≤ size.x / 2) (hry : round ≤ size.y / 2) (hrz : round ≤ size.z / 2) :
    ∃ s, Must3.box size round = some s ∧ s.Exact ∧
      (round = 0 → ∀ p, s.Inside p ↔ |p.x| < size.x / 2 ∧ |p.y| < size.y / 2 ∧ |p.z| < size.z / 2) ∧
      (0 < round → ∀ p, s.Inside p ↔ Rounded3 (fun q => |q.x| ≤ size.x / 2 - round ∧ |q.y| ≤ size.y / 2 - round ∧
        |q.z| ≤ size.z / 2 - round) round p) := by
  have hs : V3.sub (V3.scale 0.5 size) (V3.elem round) = ⟨size.x / 2 - round, size.y / 2 - round, size.z / 2 - round⟩ := by
    ext <;> simp only [V3.sub, V3.scale, V3.elem] <;> ring
  have hne : ¬ V3.LTEZero size := by unfold V3.LTEZero; push Not; exact ⟨hx, hy, hz⟩
  have lev : ∀ c, 0 ≤ c → ∀ p, ∃ q, sdfBox3d q ⟨size.x / 2 - round, size.y / 2 - round, size.z / 2 - round⟩ = c ∧
      V3.dist p q = |sdfBox3d p ⟨size.x / 2 - round, size.y / 2 - round, size.z / 2 - round⟩ - c| :=
    fun c hc p => sdfBox3d_level _ p (by simp only; linarith) (by simp only; linarith) (by simp only; linarith) c hc
  refine ⟨⟨fun p => sdfBox3d p ⟨size.x / 2 - round, size.y / 2 - round, size.z / 2 - round⟩ - round,
    ⟨V3.scale (-1) (V3.scale 0.5 size), V3.scale 0.5 size⟩⟩, ?_, exact_sub3 (sdfBox3d_lip _) (lev _ h0), ?_, ?_⟩
  · unfold Must3.box
    rw [if_neg hne, if_neg (not_lt.mpr h0)]
    simp only [hs]
  · rintro rfl p
    show _ - (0:ℝ) < 0 ↔ _
    rw [sub_zero, (sdfBox3d_le_zero _ _).2]; simp
  · intro hp
    exact rounded_of3 hp (sdfBox3d_lip _) (fun q => (sdfBox3d_le_zero q _).1) (lev 0 le_rfl)

/-- 2D box: every non-negative size, every rounding up to half the shorter side. -/
theorem C18_box2 (size : V2) (round : ℝ) (h0 : 0 ≤ round) (hrx : round ≤ size.x / 2) (hry : round ≤ size.y / 2) :
    (Must2.box size round).Exact ∧
      (round = 0 → ∀ p, (Must2.box size round).Inside p ↔ |p.x| < size.x / 2 ∧ |p.y| < size.y / 2) ∧
      (0 < round → ∀ p, (Must2.box size round).Inside p ↔
        Rounded2 (fun q => |q.x| ≤ size.x / 2 - round ∧ |q.y| ≤ size.y / 2 - round) round p) := by
  have hs : V2.sub (V2.scale 0.5 size) (V2.elem round) = ⟨size.x / 2 - round, size.y / 2 - round⟩ := by
    ext <;> simp only [V2.sub, V2.scale, V2.elem] <;> ring
  have lev : ∀ c, 0 ≤ c → ∀ p, ∃ q, sdfBox2d q ⟨size.x / 2 - round, size.y / 2 - round⟩ = c ∧
      V2.dist p q = |sdfBox2d p ⟨size.x / 2 - round, size.y / 2 - round⟩ - c| :=
    fun c hc p => sdfBox2d_level _ p (by simp only; linarith) (by simp only; linarith) c hc
  unfold Must2.box
  simp only [hs]
  refine ⟨exact_sub2 (sdfBox2d_lip _) (lev _ h0), ?_, ?_⟩
  · rintro rfl p
    show _ - (0:ℝ) < 0 ↔ _
    rw [sub_zero, (sdfBox2d_le_zero _ _).2]; simp
  · intro hp
    exact rounded_of2 hp (sdfBox2d_lip _) (fun q => (sdfBox2d_le_zero q _).1) (lev 0 le_rfl)

/-- Line: every length `l ≥ 0` and thickness `round ≥ 0`; it is the set of points within `round` of the segment from
`(-l/2, 0)` to `(l/2, 0)`. -/
theorem C18_line (l round : ℝ) (hl : 0 ≤ l) (h0 : 0 ≤ round) : (Must2.line l round).Exact ∧
    ∀ p, (Must2.line l round).Inside p ↔ Rounded2 (fun q => |q.x| ≤ l / 2 ∧ q.y = 0) round p := by
  have lev : ∀ c, 0 ≤ c → ∀ p, ∃ q, sdfBox2d q ⟨l / 2, 0⟩ = c ∧ V2.dist p q = |sdfBox2d p ⟨l / 2, 0⟩ - c| :=
    fun c hc p => sdfBox2d_level _ p (by simp only; linarith) (by simp only; linarith) c hc
  have e : Must2.line l round = ⟨fun p => sdfBox2d p ⟨l / 2, 0⟩ - round, (Must2.line l round).bounds⟩ := by
    rw [← funext (line_eq l round)]
  rw [e]
  refine ⟨exact_sub2 (sdfBox2d_lip _) (lev _ h0), fun p => ?_⟩
  have hB : ∀ q : V2, sdfBox2d q ⟨l / 2, 0⟩ ≤ 0 ↔ |q.x| ≤ l / 2 ∧ q.y = 0 := by
    intro q
    rw [(sdfBox2d_le_zero q _).1]
    simp only [abs_nonpos_iff]
  rcases h0.eq_or_lt with h | h
  · rw [← h]
    constructor
    · intro hp
      have hp : _ - (0:ℝ) < 0 := hp
      rw [sub_zero, (sdfBox2d_le_zero _ _).2] at hp
      exact absurd (abs_nonneg p.y) (not_le.mpr hp.2)
    · rintro ⟨q, _, hd⟩
      exact absurd hd (not_lt.mpr (V2.dist_nonneg _ _))
  · exact rounded_of2 h (sdfBox2d_lip _) hB (lev 0 le_rfl) p

/-- Cylinder about the z axis: every radius and height, every rounding up to the radius and half the height. -/
theorem C18_cylinder (height radius round : ℝ) (hr : 0 < radius) (h0 : 0 ≤ round) (hrr : round ≤ radius)
    (hh : 2 * round ≤ height) : ∃ s, Must3.cylinder height radius round = some s ∧ s.Exact ∧
      (round = 0 → ∀ p, s.Inside p ↔ V2.norm ⟨p.x, p.y⟩ < radius ∧ |p.z| < height / 2) ∧
      (0 < round → ∀ p, s.Inside p ↔
        Rounded3 (fun q => V2.norm ⟨q.x, q.y⟩ ≤ radius - round ∧ |q.z| ≤ height / 2 - round) round p) := by
  have lip := sdfBox2d_lip ⟨radius - round, height / 2 - round⟩
  have hsym : ∀ q : V2, sdfBox2d ⟨|q.x|, q.y⟩ ⟨radius - round, height / 2 - round⟩ =
      sdfBox2d q ⟨radius - round, height / 2 - round⟩ := by
    intro q
    rw [sdfBox2d_eq, sdfBox2d_eq]
    congr 2
    simp only [V2.absElem, abs_abs]
  have lev : ∀ c, 0 ≤ c → ∀ p : V3, ∃ q : V3, sdfBox2d q.radial ⟨radius - round, height / 2 - round⟩ = c ∧
      V3.dist p q = |sdfBox2d p.radial ⟨radius - round, height / 2 - round⟩ - c| :=
    fun c hc p => revolve_level (g := fun q => sdfBox2d q ⟨radius - round, height / 2 - round⟩) lip hsym c
      (fun p => sdfBox2d_level _ p (by simp only; linarith) (by simp only; linarith) c hc) p
  have hB : ∀ q : V3, sdfBox2d q.radial ⟨radius - round, height / 2 - round⟩ ≤ 0 ↔
      V2.norm ⟨q.x, q.y⟩ ≤ radius - round ∧ |q.z| ≤ height / 2 - round := by
    intro q
    rw [(sdfBox2d_le_zero _ _).1]
    simp only [V3.radial, abs_of_nonneg (V2.norm_nonneg _)]
  refine ⟨⟨fun p => sdfBox2d p.radial ⟨radius - round, height / 2 - round⟩ - round,
    ⟨V3.scale (-1) ⟨radius, radius, height / 2⟩, ⟨radius, radius, height / 2⟩⟩⟩, ?_,
    exact_sub3 (Lip2.revolve (g := fun q => sdfBox2d q ⟨radius - round, height / 2 - round⟩) lip) (lev _ h0), ?_, ?_⟩
  · unfold Must3.cylinder
    rw [if_neg (not_le.mpr hr), if_neg (not_lt.mpr h0), if_neg (not_lt.mpr hrr), if_neg (by norm_num; linarith)]
    rfl
  · rintro rfl p
    show _ - (0:ℝ) < 0 ↔ _
    rw [sub_zero, (sdfBox2d_le_zero _ _).2]
    simp [V3.radial, abs_of_nonneg (V2.norm_nonneg _)]
  · intro hp
    exact rounded_of3 hp (Lip2.revolve (g := fun q => sdfBox2d q ⟨radius - round, height / 2 - round⟩) lip) hB
      (lev 0 le_rfl)

/-- Capsule: the points within `radius` of the segment of length `height - 2*radius` on the z axis. -/
theorem C18_capsule (height radius : ℝ) (hr : 0 < radius) (hh : 2 * radius ≤ height) :
    ∃ s, Form3.capsule height radius = some ⟨some s, false⟩ ∧ s.Exact ∧
      ∀ p, s.Inside p ↔ Rounded3 (fun q => q.x = 0 ∧ q.y = 0 ∧ |q.z| ≤ height / 2 - radius) radius p := by
  obtain ⟨s, h1, h2, _, h4⟩ := C18_cylinder height radius radius hr hr.le le_rfl hh
  refine ⟨s, by simp only [Form3.capsule, Form3.cylinder, h1, recovered], h2, fun p => ?_⟩
  rw [h4 hr]
  have : ∀ q : V3, (V2.norm ⟨q.x, q.y⟩ ≤ radius - radius ∧ |q.z| ≤ height / 2 - radius) ↔
      (q.x = 0 ∧ q.y = 0 ∧ |q.z| ≤ height / 2 - radius) := by
    intro q
    rw [sub_self]
    constructor
    · rintro ⟨a, b⟩
      have h := V2.norm_eq_zero.mp (le_antisymm a (V2.norm_nonneg _))
      exact ⟨congrArg V2.x h, congrArg V2.y h, b⟩
    · rintro ⟨a, b, c⟩
      rw [a, b]
      exact ⟨(V2.norm_eq_zero.mpr rfl).le, c⟩
  unfold Rounded3
  simp only [this]

/-- Rounding a 3D box by more than half its shortest side is accepted by the constructor (it only rejects negative
roundings), and then the value need not be a distance: for the 2×2×2 box with `round = 3` no point at all has value
zero, so the solid is empty. -/
theorem C18_overrounded_box_wrong : ∃ s, Must3.box ⟨2, 2, 2⟩ 3 = some s ∧ (∀ p, 0 < s.eval p) ∧ ¬ s.Exact := by
  refine ⟨⟨fun p => sdfBox3d p ⟨-2, -2, -2⟩ - 3, ⟨V3.scale (-1) (V3.scale 0.5 ⟨2, 2, 2⟩), V3.scale 0.5 ⟨2, 2, 2⟩⟩⟩, ?_, ?_⟩
  · unfold Must3.box
    rw [if_neg (by unfold V3.LTEZero; norm_num), if_neg (by norm_num)]
    have : V3.sub (V3.scale 0.5 ⟨2, 2, 2⟩) (V3.elem 3) = ⟨-2, -2, -2⟩ := by
      ext <;> simp only [V3.sub, V3.scale, V3.elem] <;> norm_num
    simp only [this]
  · have pos : ∀ p : V3, 0 < sdfBox3d p ⟨-2, -2, -2⟩ - 3 := by
      intro p
      rw [sdfBox3d_eq]
      have hx := abs_nonneg p.x
      have hy := abs_nonneg p.y
      have hz := abs_nonneg p.z
      have h := boxFn3_ge (V3.sub (V3.absElem p) ⟨-2, -2, -2⟩) ⟨2/3, 2/3, 1/3⟩ (by norm_num) (by norm_num) (by norm_num)
        (V3.norm_eq_of zero_le_one (by norm_num))
      simp only [V3.dot, V3.sub, V3.absElem] at h
      refine sub_pos.mpr (lt_of_lt_of_le ?_ h)
      linarith
    refine ⟨pos, fun h => ?_⟩
    obtain ⟨⟨q, hq, _⟩, _⟩ := h.2 ⟨0, 0, 0⟩
    have hq : sdfBox3d q ⟨-2, -2, -2⟩ - 3 = 0 := hq
    linarith [pos q]

/-- Concrete instances: a rounded box, a rounded cylinder and a capsule meet the hypotheses. -/
example : (∃ s, Must3.box ⟨4, 3, 2⟩ (1/2) = some s ∧ s.Exact) ∧ (∃ s, Must3.cylinder 4 2 1 = some s ∧ s.Exact) :=
  ⟨let ⟨s, a, b, _⟩ := C18_box3 ⟨4, 3, 2⟩ (1/2) (by norm_num) (by norm_num) (by norm_num) (by norm_num) (by norm_num)
      (by norm_num) (by norm_num); ⟨s, a, b⟩,
   let ⟨s, a, b, _⟩ := C18_cylinder 4 2 1 (by norm_num) (by norm_num) (by norm_num) (by norm_num); ⟨s, a, b⟩⟩

end Sdf
