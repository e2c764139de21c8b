import Verif.Model.Combine3
import Verif.Model.Combine2
import Verif.Lemmas.Revolve
import Verif.Lemmas.MaxFloat
import Verif.Spec.Rotation

/-! C23: rotational copies. -/

namespace Sdf

theorem sawTooth_shift {x period : ℝ} (hp : 0 < period) (k : ℤ) : sawTooth (x + k * period) period = sawTooth x period := by
  unfold sawTooth
  have : (x + k * period + period / 2) / period = (x + period / 2) / period + k := by field_simp; ring
  simp only [this, Int.floor_add_intCast]
  push_cast; ring

theorem sawTooth_id {x period : ℝ} (hp : 0 < period) (h1 : -(period / 2) ≤ x) (h2 : x < period / 2) :
    sawTooth x period = x := by
  unfold sawTooth
  have : ⌊(x + period / 2) / period⌋ = 0 := by
    rw [Int.floor_eq_zero_iff]
    exact ⟨div_nonneg (by linarith) hp.le, by rw [div_lt_one hp]; linarith⟩
  simp only [this]
  field_simp
  ring

/-- The sawtooth moves by whole periods into the middle one. -/
theorem sawTooth_spec {x period : ℝ} (hp : 0 < period) :
    (∃ k : ℤ, sawTooth x period = x - k * period) ∧ -(period / 2) ≤ sawTooth x period ∧ sawTooth x period < period / 2 := by
  unfold sawTooth
  have h1 := Int.floor_le ((x + period / 2) / period)
  have h2 := Int.lt_floor_add_one ((x + period / 2) / period)
  refine ⟨⟨⌊(x + period / 2) / period⌋, ?_⟩, ?_, ?_⟩
  · simp only; field_simp; ring
  · simp only; nlinarith
  · simp only; nlinarith

theorem atan2_spec (x y r φ : ℝ) (hr : 0 < r) (hx : x = r * Real.cos φ) (hy : y = r * Real.sin φ) :
    ∃ m : ℤ, atan2 y x = φ + m * (2 * Real.pi) := by
  have hz : (⟨x, y⟩ : ℂ) = r * (Complex.cos φ + Complex.sin φ * Complex.I) := by
    apply Complex.ext
    · simp [hx, ← Complex.ofReal_cos, ← Complex.ofReal_sin]
    · simp [hy, ← Complex.ofReal_cos, ← Complex.ofReal_sin]
  unfold atan2
  rw [hz, Complex.arg_mul_cos_add_sin_mul_I_eq_toIocMod hr]
  refine ⟨-toIocDiv Real.two_pi_pos (-Real.pi) φ, ?_⟩
  rw [toIocMod]
  push_cast
  simp only [zsmul_eq_mul]
  ring

/-- The point of the first sector that `RotateCopy` evaluates, for a point given in polar coordinates. -/
theorem sector_point {n : ℤ} (hn : 0 < n) (x y r φ : ℝ) (hr : 0 ≤ r) (hx : x = r * Real.cos φ) (hy : y = r * Real.sin φ) :
    V2.polarToXY (V2.norm ⟨x, y⟩) (sawTooth (atan2 y x) (2 * Real.pi / n)) =
      V2.polarToXY r (sawTooth φ (2 * Real.pi / n)) := by
  have hn' : (0 : ℝ) < n := by exact_mod_cast hn
  have hp := Real.pi_pos
  have hnorm : V2.norm ⟨x, y⟩ = r := V2.norm_eq_of hr (by
    simp only; rw [hx, hy]; linear_combination (r * r) * Real.cos_sq_add_sin_sq φ)
  rw [hnorm]
  rcases hr.lt_or_eq with h | h
  · obtain ⟨m, hm⟩ := atan2_spec x y r φ h hx hy
    rw [hm]
    have : φ + m * (2 * Real.pi) = φ + ((m * n : ℤ) : ℝ) * (2 * Real.pi / n) := by push_cast; field_simp
    rw [this, sawTooth_shift (by positivity)]
  · rw [← h]; simp [V2.polarToXY]

theorem polar2 (x y : ℝ) : ∃ r φ, 0 ≤ r ∧ x = r * Real.cos φ ∧ y = r * Real.sin φ := by
  refine ⟨‖(⟨x, y⟩ : ℂ)‖, Complex.arg ⟨x, y⟩, norm_nonneg _, (Complex.norm_mul_cos_arg ⟨x, y⟩).symm,
    (Complex.norm_mul_sin_arg ⟨x, y⟩).symm⟩

/-- Adding whole turns does not matter, so one of the first `n` multiples of the step suffices. -/
theorem reduce_copies {n : ℤ} (hn : 0 < n) (k : ℤ) : ∃ j : ℕ, (j : ℤ) < n ∧ ∀ φ : ℝ,
    Real.cos (φ - k * (2 * Real.pi / n)) = Real.cos (φ - j * (2 * Real.pi / n)) ∧
    Real.sin (φ - k * (2 * Real.pi / n)) = Real.sin (φ - j * (2 * Real.pi / n)) := by
  have hn' : (n : ℝ) ≠ 0 := by exact_mod_cast hn.ne'
  refine ⟨(k % n).toNat, ?_, fun φ => ?_⟩
  · rw [Int.toNat_of_nonneg (Int.emod_nonneg _ hn.ne')]; exact Int.emod_lt_of_pos _ hn
  · have e : (k : ℝ) = ((k % n).toNat : ℝ) + n * ((k / n : ℤ) : ℝ) := by
      have h1 : (((k % n).toNat : ℤ) : ℝ) = ((k % n : ℤ) : ℝ) := by
        rw [Int.toNat_of_nonneg (Int.emod_nonneg _ hn.ne')]
      have h2 : (k : ℤ) = k % n + n * (k / n) := (Int.emod_add_mul_ediv k n).symm
      have h3 : (((k % n).toNat : ℕ) : ℝ) = ((k % n : ℤ) : ℝ) := by exact_mod_cast h1
      rw [h3]
      exact_mod_cast congrArg (fun z : ℤ => (z : ℝ)) h2
    have : φ - k * (2 * Real.pi / n) = φ - ((k % n).toNat : ℝ) * (2 * Real.pi / n) - ((k / n : ℤ) : ℝ) * (2 * Real.pi) := by
      rw [e]; field_simp; ring
    rw [this]
    exact ⟨Real.cos_sub_int_mul_two_pi _ _, Real.sin_sub_int_mul_two_pi _ _⟩

/-- `RotateCopy2D` of any figure contains exactly the `n` turned copies of the part of the figure in the sector about the x axis; what is
outside that sector is lost. -/
theorem C23_sector2 (s u : SDF2) (n : ℤ) (hu : s.rotateCopy n = some u) (p : V2) :
    u.Inside p ↔ ∃ j : ℕ, (j : ℤ) < n ∧ ∃ q, s.Inside q ∧ InSector (2 * Real.pi / n) q.x q.y ∧ p = V2.turned (j * (2 * Real.pi / n)) q := by
  unfold SDF2.rotateCopy at hu
  split at hu
  · cases hu
  rename_i hn
  push Not at hn
  cases hu
  have hn' : (0 : ℝ) < n := by exact_mod_cast hn
  have hp := Real.pi_pos
  have hθ : 0 < 2 * Real.pi / (n : ℝ) := by positivity
  simp only [SDF2.Inside]
  obtain ⟨r, φ, hr, hx, hy⟩ := polar2 p.x p.y
  have hpp : p = ⟨p.x, p.y⟩ := rfl
  constructor
  · intro h
    rw [hpp, sector_point hn p.x p.y r φ hr hx hy] at h
    obtain ⟨⟨k, hk⟩, hs1, hs2⟩ := sawTooth_spec (x := φ) hθ
    obtain ⟨j, hj, hcs⟩ := reduce_copies hn k
    refine ⟨j, hj, _, h, ⟨r, _, hr, hs1, hs2, rfl, rfl⟩, ?_⟩
    rw [hk]
    ext
    · simp only [V2.turned, V2.polarToXY]
      rw [(hcs φ).1, (hcs φ).2, hx]
      have := Real.cos_add (j * (2 * Real.pi / n)) (φ - j * (2 * Real.pi / n))
      rw [show (j : ℝ) * (2 * Real.pi / n) + (φ - j * (2 * Real.pi / n)) = φ by ring] at this
      linear_combination r * this
    · simp only [V2.turned, V2.polarToXY]
      rw [(hcs φ).1, (hcs φ).2, hy]
      have := Real.sin_add (j * (2 * Real.pi / n)) (φ - j * (2 * Real.pi / n))
      rw [show (j : ℝ) * (2 * Real.pi / n) + (φ - j * (2 * Real.pi / n)) = φ by ring] at this
      linear_combination r * this
  · rintro ⟨j, hj, q, hq, ⟨ρ, ψ, hρ, h1, h2, hqx, hqy⟩, rfl⟩
    have ex : (V2.turned (j * (2 * Real.pi / n)) q).x = ρ * Real.cos (ψ + j * (2 * Real.pi / n)) := by
      simp only [V2.turned, Real.cos_add, hqx, hqy]; ring
    have ey : (V2.turned (j * (2 * Real.pi / n)) q).y = ρ * Real.sin (ψ + j * (2 * Real.pi / n)) := by
      simp only [V2.turned, Real.sin_add, hqx, hqy]; ring
    have := sector_point hn _ _ ρ _ hρ ex ey
    rw [show (⟨(V2.turned (j * (2 * Real.pi / n)) q).x, (V2.turned (j * (2 * Real.pi / n)) q).y⟩ : V2) =
      V2.turned (j * (2 * Real.pi / n)) q from rfl] at this
    rw [this]
    have hsh := sawTooth_shift (x := ψ) hθ (j : ℤ)
    push_cast at hsh
    rw [hsh, sawTooth_id hθ h1 h2]
    have : V2.polarToXY ρ ψ = q := by ext <;> simp [V2.polarToXY, hqx, hqy]
    rw [this]
    exact hq

/-- `RotateCopy2D` of a figure inside one sector contains exactly the points of its `n` turned copies. -/
theorem C23_copies2 (s u : SDF2) (n : ℤ) (hu : s.rotateCopy n = some u)
    (hs : ∀ q, s.Inside q → InSector (2 * Real.pi / n) q.x q.y) (p : V2) :
    u.Inside p ↔ ∃ j : ℕ, (j : ℤ) < n ∧ ∃ q, s.Inside q ∧ p = V2.turned (j * (2 * Real.pi / n)) q := by
  rw [C23_sector2 s u n hu]
  exact exists_congr fun j => and_congr_right fun _ => exists_congr fun q =>
    ⟨fun ⟨a, _, b⟩ => ⟨a, b⟩, fun ⟨a, b⟩ => ⟨a, hs q a, b⟩⟩

/-- `RotateCopy3D` of any solid contains exactly the `n` turned copies of the part of the solid in the sector about the x axis; what is
outside that sector is lost. -/
theorem C23_sector3 (s : SDF3) (n : ℤ) (p : V3) :
    (s.rotateCopy n).Inside p ↔ ∃ j : ℕ, (j : ℤ) < n ∧ ∃ q, s.Inside q ∧ InSector (2 * Real.pi / n) q.x q.y ∧ p = V3.turned (j * (2 * Real.pi / n)) q := by
  unfold SDF3.rotateCopy
  split
  · rename_i hn
    have hm := maxFloat64_pos
    constructor
    · intro h
      exact absurd h (not_lt.mpr hm.le)
    · rintro ⟨j, hj, -⟩; omega
  rename_i hn
  push Not at hn
  have hn' : (0 : ℝ) < n := by exact_mod_cast hn
  have hp := Real.pi_pos
  have hθ : 0 < 2 * Real.pi / (n : ℝ) := by positivity
  simp only [SDF3.Inside, tau]
  obtain ⟨r, φ, hr, hx, hy⟩ := polar2 p.x p.y
  constructor
  · intro h
    rw [sector_point hn p.x p.y r φ hr hx hy] at h
    obtain ⟨⟨k, hk⟩, hs1, hs2⟩ := sawTooth_spec (x := φ) hθ
    obtain ⟨j, hj, hcs⟩ := reduce_copies hn k
    refine ⟨j, hj, _, h, ⟨r, _, hr, hs1, hs2, rfl, rfl⟩, ?_⟩
    rw [hk]
    ext
    · simp only [V3.turned, V2.polarToXY]
      rw [(hcs φ).1, (hcs φ).2, hx]
      have := Real.cos_add (j * (2 * Real.pi / n)) (φ - j * (2 * Real.pi / n))
      rw [show (j : ℝ) * (2 * Real.pi / n) + (φ - j * (2 * Real.pi / n)) = φ by ring] at this
      linear_combination r * this
    · simp only [V3.turned, V2.polarToXY]
      rw [(hcs φ).1, (hcs φ).2, hy]
      have := Real.sin_add (j * (2 * Real.pi / n)) (φ - j * (2 * Real.pi / n))
      rw [show (j : ℝ) * (2 * Real.pi / n) + (φ - j * (2 * Real.pi / n)) = φ by ring] at this
      linear_combination r * this
    · rfl
  · rintro ⟨j, hj, q, hq, ⟨ρ, ψ, hρ, h1, h2, hqx, hqy⟩, rfl⟩
    have ex : (V3.turned (j * (2 * Real.pi / n)) q).x = ρ * Real.cos (ψ + j * (2 * Real.pi / n)) := by
      simp only [V3.turned, Real.cos_add, hqx, hqy]; ring
    have ey : (V3.turned (j * (2 * Real.pi / n)) q).y = ρ * Real.sin (ψ + j * (2 * Real.pi / n)) := by
      simp only [V3.turned, Real.sin_add, hqx, hqy]; ring
    rw [sector_point hn _ _ ρ _ hρ ex ey]
    have hsh := sawTooth_shift (x := ψ) hθ (j : ℤ)
    push_cast at hsh
    rw [hsh, sawTooth_id hθ h1 h2]
    have : (⟨(V2.polarToXY ρ ψ).x, (V2.polarToXY ρ ψ).y, (V3.turned (j * (2 * Real.pi / n)) q).z⟩ : V3) = q := by
      ext <;> simp [V2.polarToXY, hqx, hqy, V3.turned]
    rw [this]
    exact hq

/-- `RotateCopy3D` of a solid inside one sector contains exactly the points of its `n` turned copies. -/
theorem C23_copies3 (s : SDF3) (n : ℤ)
    (hs : ∀ q, s.Inside q → InSector (2 * Real.pi / n) q.x q.y) (p : V3) :
    (s.rotateCopy n).Inside p ↔ ∃ j : ℕ, (j : ℤ) < n ∧ ∃ q, s.Inside q ∧ p = V3.turned (j * (2 * Real.pi / n)) q := by
  rw [C23_sector3 s n]
  exact exists_congr fun j => and_congr_right fun _ => exists_congr fun q =>
    ⟨fun ⟨a, _, b⟩ => ⟨a, b⟩, fun ⟨a, b⟩ => ⟨a, hs q a, b⟩⟩

/-- `RotateCopy2D` is unchanged by a turn through one `n`-th of a full turn, whatever the figure. -/
theorem C23_invariant2 (s u : SDF2) (n : ℤ) (hu : s.rotateCopy n = some u) (p : V2) :
    u.eval (V2.turned (2 * Real.pi / n) p) = u.eval p := by
  unfold SDF2.rotateCopy at hu
  split at hu
  · cases hu
  rename_i hn
  push Not at hn
  cases hu
  have hn' : (0 : ℝ) < n := by exact_mod_cast hn
  have hp := Real.pi_pos
  have hθ : 0 < 2 * Real.pi / (n : ℝ) := by positivity
  obtain ⟨r, φ, hr, hx, hy⟩ := polar2 p.x p.y
  have ex : (V2.turned (2 * Real.pi / n) p).x = r * Real.cos (φ + 2 * Real.pi / n) := by
    simp only [V2.turned, Real.cos_add, hx, hy]; ring
  have ey : (V2.turned (2 * Real.pi / n) p).y = r * Real.sin (φ + 2 * Real.pi / n) := by
    simp only [V2.turned, Real.sin_add, hx, hy]; ring
  have e1 := sector_point hn _ _ r _ hr ex ey
  have e2 := sector_point hn _ _ r _ hr hx hy
  have hsh := sawTooth_shift (x := φ) hθ 1
  rw [Int.cast_one, one_mul] at hsh
  rw [hsh, ← e2] at e1
  exact congrArg s.eval e1

/-- `RotateCopy3D` is unchanged by a turn through one `n`-th of a full turn, whatever the solid. -/
theorem C23_invariant3 (s : SDF3) (n : ℤ) (p : V3) :
    (s.rotateCopy n).eval (V3.turned (2 * Real.pi / n) p) = (s.rotateCopy n).eval p := by
  unfold SDF3.rotateCopy
  split
  · rfl
  rename_i hn
  push Not at hn
  have hn' : (0 : ℝ) < n := by exact_mod_cast hn
  have hp := Real.pi_pos
  have hθ : 0 < 2 * Real.pi / (n : ℝ) := by positivity
  obtain ⟨r, φ, hr, hx, hy⟩ := polar2 p.x p.y
  have ex : (V3.turned (2 * Real.pi / n) p).x = r * Real.cos (φ + 2 * Real.pi / n) := by
    simp only [V3.turned, Real.cos_add, hx, hy]; ring
  have ey : (V3.turned (2 * Real.pi / n) p).y = r * Real.sin (φ + 2 * Real.pi / n) := by
    simp only [V3.turned, Real.sin_add, hx, hy]; ring
  have e1 := sector_point hn _ _ r _ hr ex ey
  have e2 := sector_point hn _ _ r _ hr hx hy
  have hsh := sawTooth_shift (x := φ) hθ 1
  rw [Int.cast_one, one_mul] at hsh
  rw [hsh, ← e2] at e1
  simp only [tau]
  rw [e1]
  rfl

/-- `RotateCopy2D` panics exactly when asked for no copy. -/
theorem C23_panics2 (s : SDF2) (n : ℤ) : s.rotateCopy n = none ↔ n ≤ 0 := by
  unfold SDF2.rotateCopy
  split <;> simp_all

/-- The largest radius found over a list of vertices. -/
theorem foldl_max_spec {α : Type} (f : α → ℝ) (l : List α) (r0 : ℝ) :
    let m := l.foldl (fun r v => open Classical in if f v > r then f v else r) r0
    r0 ≤ m ∧ ∀ v ∈ l, f v ≤ m := by
  induction l generalizing r0 with
  | nil => simp
  | cons a l ih =>
    simp only [List.foldl_cons]
    have := ih (open Classical in if f a > r0 then f a else r0)
    simp only at this
    have h1 : r0 ≤ (open Classical in if f a > r0 then f a else r0) := by split <;> linarith
    have h2 : f a ≤ (open Classical in if f a > r0 then f a else r0) := by split <;> linarith
    refine ⟨h1.trans this.1, fun v hv => ?_⟩
    rcases List.mem_cons.mp hv with rfl | hv
    · exact h2.trans this.1
    · exact this.2 v hv

/-- One of the corners of a rectangle is at least as far from the origin as a given point of it. -/
theorem corner_far {lx ly hx hy x y : ℝ} (h1 : lx ≤ x) (h2 : x ≤ hx) (h3 : ly ≤ y) (h4 : y ≤ hy) :
    ∃ a b : ℝ, (a = lx ∨ a = hx) ∧ (b = ly ∨ b = hy) ∧ V2.norm ⟨x, y⟩ ≤ V2.norm ⟨a, b⟩ := by
  have pick : ∀ l h t : ℝ, l ≤ t → t ≤ h → ∃ a, (a = l ∨ a = h) ∧ |t| ≤ |a| := by
    intro l h t hl hh
    rcases le_total 0 t with h0 | h0
    · exact ⟨h, .inr rfl, by rw [abs_of_nonneg h0]; exact hh.trans (le_abs_self h)⟩
    · exact ⟨l, .inl rfl, by rw [abs_of_nonpos h0]; exact (neg_le_neg hl).trans (neg_le_abs l)⟩
  obtain ⟨a, ha, ha'⟩ := pick lx hx x h1 h2
  obtain ⟨b, hb, hb'⟩ := pick ly hy y h3 h4
  exact ⟨a, b, ha, hb, V2.norm_mono ha' hb'⟩

/-- The bounding boxes contain all the copies. -/
theorem C23_bounds2 (s u : SDF2) (n : ℤ) (hu : s.rotateCopy n = some u) (hb : s.Bounded) : u.Bounded := by
  unfold SDF2.rotateCopy at hu
  split at hu
  · cases hu
  rename_i hn
  push Not at hn
  cases hu
  intro p hp
  obtain ⟨r, φ, hr, hx, hy⟩ := polar2 p.x p.y
  have hc := hb _ hp
  have hnorm : V2.norm (V2.polarToXY (V2.norm p) (sawTooth (atan2 p.y p.x) (2 * Real.pi / n))) = V2.norm p := by
    refine V2.norm_eq_of (V2.norm_nonneg _) ?_
    simp only [V2.polarToXY]
    linear_combination (V2.norm p * V2.norm p) * Real.cos_sq_add_sin_sq (sawTooth (atan2 p.y p.x) (2 * Real.pi / n))
  generalize V2.polarToXY (V2.norm p) (sawTooth (atan2 p.y p.x) (2 * Real.pi / n)) = q at hc hnorm
  obtain ⟨a, b, ha, hb', hle⟩ := corner_far hc.1 hc.2.2.1 hc.2.1 hc.2.2.2
  have hmem : (⟨a, b⟩ : V2) ∈ s.bounds.vertices := by
    rcases ha with rfl | rfl <;> rcases hb' with rfl | rfl <;> simp [Box2.vertices]
  have hmax := (foldl_max_spec V2.norm s.bounds.vertices 0).2 _ hmem
  have hpn := hle.trans hmax
  change V2.norm q ≤ _ at hpn
  rw [hnorm] at hpn
  have h1 := abs_le.mp ((V2.abs_x_le p).trans hpn)
  have h2 := abs_le.mp ((V2.abs_y_le p).trans hpn)
  refine ⟨?_, ?_, h1.2, h2.2⟩
  · show -1 * _ ≤ _; rw [neg_one_mul]; exact h1.1
  · show -1 * _ ≤ _; rw [neg_one_mul]; exact h2.1

/-- The bounding boxes contain all the copies. -/
theorem C23_bounds3 (s : SDF3) (n : ℤ) (hb : s.Bounded) : (s.rotateCopy n).Bounded := by
  unfold SDF3.rotateCopy
  split
  · intro p hp
    exact absurd hp (not_lt.mpr maxFloat64_pos.le)
  rename_i hn
  push Not at hn
  intro p hp
  have hc := hb _ hp
  have hnorm : V2.norm (V2.polarToXY (V2.norm ⟨p.x, p.y⟩) (sawTooth (atan2 p.y p.x) (tau / n))) = V2.norm ⟨p.x, p.y⟩ := by
    refine V2.norm_eq_of (V2.norm_nonneg _) ?_
    simp only [V2.polarToXY]
    linear_combination (V2.norm ⟨p.x, p.y⟩ * V2.norm ⟨p.x, p.y⟩) *
      Real.cos_sq_add_sin_sq (sawTooth (atan2 p.y p.x) (tau / n))
  generalize V2.polarToXY (V2.norm ⟨p.x, p.y⟩) (sawTooth (atan2 p.y p.x) (tau / n)) = q at hc hnorm
  obtain ⟨a1, a2, a3, a4, a5, a6⟩ := hc
  simp only at a1 a2 a3 a4 a5 a6
  obtain ⟨a, b, ha, hb', hle⟩ := corner_far a1 a4 a2 a5
  have hmem : (⟨a, b, s.bounds.lo.z⟩ : V3) ∈ s.bounds.vertices := by
    rcases ha with rfl | rfl <;> rcases hb' with rfl | rfl <;> simp [Box3.vertices]
  have hmax := (foldl_max_spec (fun v : V3 => Real.sqrt (v.x * v.x + v.y * v.y)) s.bounds.vertices 0).2 _ hmem
  have hpn := hle.trans hmax
  change V2.norm q ≤ _ at hpn
  rw [hnorm] at hpn
  have h1 := abs_le.mp ((V2.abs_x_le ⟨p.x, p.y⟩).trans hpn)
  have h2 := abs_le.mp ((V2.abs_y_le ⟨p.x, p.y⟩).trans hpn)
  exact ⟨h1.1, h2.1, a3, h1.2, h2.2, a6⟩

/-! Non-vacuity: a small disc about `(2, 0)` lies in a sector of a quarter turn. -/
example (q : V2) (h : V2.dist q ⟨2, 0⟩ < 1) : InSector (2 * Real.pi / ((4 : ℤ) : ℝ)) q.x q.y := by
  have hx := (V2.abs_x_le (V2.sub q ⟨2, 0⟩)).trans_lt h
  have hy := (V2.abs_y_le (V2.sub q ⟨2, 0⟩)).trans_lt h
  simp only [V2.sub, sub_zero] at hx hy
  rw [abs_lt] at hx hy
  have hp := Real.pi_pos
  have h1 : |q.y| < q.x := abs_lt.mpr ⟨by linarith, by linarith⟩
  have hxp : 0 < q.x := by linarith
  have hlt := Complex.abs_arg_lt_pi_div_two_iff.mpr (Or.inl (show 0 < (⟨q.x, q.y⟩ : ℂ).re from hxp))
  set a := Complex.arg ⟨q.x, q.y⟩ with ha
  have c1 : q.x = ‖(⟨q.x, q.y⟩ : ℂ)‖ * Real.cos a := (Complex.norm_mul_cos_arg ⟨q.x, q.y⟩).symm
  have c2 : q.y = ‖(⟨q.x, q.y⟩ : ℂ)‖ * Real.sin a := (Complex.norm_mul_sin_arg ⟨q.x, q.y⟩).symm
  have hr : 0 < ‖(⟨q.x, q.y⟩ : ℂ)‖ := by
    rcases (norm_nonneg (⟨q.x, q.y⟩ : ℂ)).lt_or_eq with h | h
    · exact h
    · rw [← h, zero_mul] at c1; linarith
  refine ⟨_, a, norm_nonneg _, ?_, ?_, c1, c2⟩
  · by_contra hn
    push Not at hn
    have hs := Real.sin_neg_of_neg_of_neg_pi_lt (x := a + Real.pi / 4) (by push_cast at hn; linarith) (by linarith [(abs_lt.mp hlt).1])
    rw [Real.sin_add, Real.cos_pi_div_four, Real.sin_pi_div_four] at hs
    have : 0 < Real.sqrt 2 / 2 := by positivity
    have : Real.sin a + Real.cos a < 0 := by nlinarith
    nlinarith [(abs_lt.mp h1).1]
  · by_contra hn
    push Not at hn
    have hs := Real.sin_nonneg_of_nonneg_of_le_pi (x := a - Real.pi / 4) (by push_cast at hn; linarith) (by linarith [(abs_lt.mp hlt).2])
    rw [Real.sin_sub, Real.cos_pi_div_four, Real.sin_pi_div_four] at hs
    have : 0 < Real.sqrt 2 / 2 := by positivity
    have : Real.cos a ≤ Real.sin a := by nlinarith
    nlinarith [(abs_lt.mp h1).2]

end Sdf
