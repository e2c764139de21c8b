import Verif.Model.Vec
import Mathlib.Tactic.Linarith
import Mathlib.Tactic.Ring
import Mathlib.Tactic.FieldSimp
import Mathlib.Tactic.Positivity

/-! Helper lemmas about vectors and norms. -/

namespace Sdf

theorem sqrt_le_of_sq {a b : ℝ} (hb : 0 ≤ b) (h : a ≤ b * b) : Real.sqrt a ≤ b := by
  rw [Real.sqrt_le_left hb]; nlinarith

namespace V2

theorem norm_nonneg (a : V2) : 0 ≤ norm a := Real.sqrt_nonneg _

theorem norm_sq (a : V2) : norm a * norm a = a.x * a.x + a.y * a.y :=
  Real.mul_self_sqrt (by nlinarith [mul_self_nonneg a.x, mul_self_nonneg a.y])

theorem norm_eq_of {a : V2} {r : ℝ} (hr : 0 ≤ r) (h : a.x * a.x + a.y * a.y = r * r) :
    norm a = r := by
  unfold norm; rw [h]; exact Real.sqrt_mul_self hr

theorem norm_le_of {a : V2} {r : ℝ} (hr : 0 ≤ r) (h : a.x * a.x + a.y * a.y ≤ r * r) :
    norm a ≤ r := sqrt_le_of_sq hr h

theorem le_norm_of {a : V2} {r : ℝ} (h : r * r ≤ a.x * a.x + a.y * a.y) : r ≤ norm a :=
  Real.le_sqrt_of_sq_le (by nlinarith)

theorem norm_mono {a b : V2} (hx : |a.x| ≤ |b.x|) (hy : |a.y| ≤ |b.y|) : norm a ≤ norm b := by
  apply Real.sqrt_le_sqrt
  have h1 := mul_self_le_mul_self (abs_nonneg _) hx
  have h2 := mul_self_le_mul_self (abs_nonneg _) hy
  rw [abs_mul_abs_self, abs_mul_abs_self] at h1 h2
  linarith

theorem dot_le (a b : V2) : dot a b ≤ norm a * norm b := by
  have ha := norm_nonneg a
  have hb := norm_nonneg b
  have h := norm_sq a
  have h' := norm_sq b
  have : (dot a b) ^ 2 ≤ (norm a * norm b) ^ 2 := by
    have e : (norm a * norm b) ^ 2 = (a.x * a.x + a.y * a.y) * (b.x * b.x + b.y * b.y) := by
      rw [← h, ← h']; ring
    rw [e]; unfold dot; nlinarith [sq_nonneg (a.x * b.y - a.y * b.x)]
  exact le_trans (le_abs_self _) (abs_le_of_sq_le_sq this (by positivity))

theorem norm_add_le (a b : V2) : norm (add a b) ≤ norm a + norm b := by
  apply norm_le_of (add_nonneg (norm_nonneg a) (norm_nonneg b))
  have := dot_le a b
  have h := norm_sq a
  have h' := norm_sq b
  unfold dot at this
  simp only [add]
  nlinarith

theorem norm_scale (k : ℝ) (a : V2) : norm (scale k a) = |k| * norm a := by
  apply norm_eq_of (mul_nonneg (abs_nonneg k) (norm_nonneg a))
  have h := norm_sq a
  have hk := abs_mul_abs_self k
  simp only [scale]
  calc k * a.x * (k * a.x) + k * a.y * (k * a.y) = (k * k) * (a.x * a.x + a.y * a.y) := by ring
    _ = |k| * norm a * (|k| * norm a) := by rw [← h, ← hk]; ring

theorem norm_neg_sub (a b : V2) : norm (sub a b) = norm (sub b a) := by
  unfold norm sub; congr 1; ring

theorem dist_comm (a b : V2) : dist a b = dist b a := norm_neg_sub a b

theorem dist_nonneg (a b : V2) : 0 ≤ dist a b := norm_nonneg _

theorem dist_triangle (a b c : V2) : dist a c ≤ dist a b + dist b c := by
  have := norm_add_le (sub a b) (sub b c)
  have e : add (sub a b) (sub b c) = sub a c := by ext <;> simp [add, sub]
  rwa [e] at this

theorem norm_sub_le (a b : V2) : |norm a - norm b| ≤ dist a b := by
  have h1 := norm_add_le (sub a b) b
  have h2 := norm_add_le (sub b a) a
  have e1 : add (sub a b) b = a := by ext <;> simp [add, sub]
  have e2 : add (sub b a) a = b := by ext <;> simp [add, sub]
  rw [e1] at h1; rw [e2] at h2
  rw [norm_neg_sub b a] at h2
  rw [abs_le]; unfold dist; constructor <;> linarith

theorem abs_x_le (a : V2) : |a.x| ≤ norm a := by
  rw [← Real.sqrt_sq_eq_abs]; apply Real.sqrt_le_sqrt; nlinarith [mul_self_nonneg a.y]

theorem abs_y_le (a : V2) : |a.y| ≤ norm a := by
  rw [← Real.sqrt_sq_eq_abs]; apply Real.sqrt_le_sqrt; nlinarith [mul_self_nonneg a.x]

theorem norm_eq_zero {a : V2} : norm a = 0 ↔ a = ⟨0, 0⟩ := by
  constructor
  · intro h
    have hx := abs_x_le a
    have hy := abs_y_le a
    rw [h] at hx hy
    ext
    · exact abs_eq_zero.mp (le_antisymm hx (abs_nonneg _))
    · exact abs_eq_zero.mp (le_antisymm hy (abs_nonneg _))
  · rintro rfl; simp [norm]

theorem norm_pos {a : V2} (h : a ≠ ⟨0, 0⟩) : 0 < norm a :=
  lt_of_le_of_ne (norm_nonneg a) (fun h' => h (norm_eq_zero.mp h'.symm))

theorem dist_eq_zero {a b : V2} : dist a b = 0 ↔ a = b := by
  unfold dist
  rw [norm_eq_zero]
  constructor
  · intro h
    have h1 := congrArg V2.x h
    have h2 := congrArg V2.y h
    simp only [sub] at h1 h2
    ext <;> linarith
  · rintro rfl; ext <;> simp [sub]

theorem norm2_eq (a : V2) : norm2 a = norm a * norm a := (norm_sq a).symm

theorem norm_unit {a : V2} (h : a ≠ ⟨0, 0⟩) : norm (unit a) = 1 := by
  have hp := norm_pos h
  unfold unit
  rw [norm_scale, abs_of_pos (by positivity)]
  field_simp

end V2

namespace V3

theorem norm_nonneg (a : V3) : 0 ≤ norm a := Real.sqrt_nonneg _

theorem norm_sq (a : V3) : norm a * norm a = a.x * a.x + a.y * a.y + a.z * a.z :=
  Real.mul_self_sqrt (by nlinarith [mul_self_nonneg a.x, mul_self_nonneg a.y, mul_self_nonneg a.z])

theorem norm_eq_of {a : V3} {r : ℝ} (hr : 0 ≤ r)
    (h : a.x * a.x + a.y * a.y + a.z * a.z = r * r) : norm a = r := by
  unfold norm; rw [h]; exact Real.sqrt_mul_self hr

theorem norm_le_of {a : V3} {r : ℝ} (hr : 0 ≤ r)
    (h : a.x * a.x + a.y * a.y + a.z * a.z ≤ r * r) : norm a ≤ r := sqrt_le_of_sq hr h

theorem le_norm_of {a : V3} {r : ℝ} (h : r * r ≤ a.x * a.x + a.y * a.y + a.z * a.z) :
    r ≤ norm a := Real.le_sqrt_of_sq_le (by nlinarith)

theorem norm_mono {a b : V3} (hx : |a.x| ≤ |b.x|) (hy : |a.y| ≤ |b.y|) (hz : |a.z| ≤ |b.z|) :
    norm a ≤ norm b := by
  apply Real.sqrt_le_sqrt
  have h1 := mul_self_le_mul_self (abs_nonneg _) hx
  have h2 := mul_self_le_mul_self (abs_nonneg _) hy
  have h3 := mul_self_le_mul_self (abs_nonneg _) hz
  rw [abs_mul_abs_self, abs_mul_abs_self] at h1 h2 h3
  linarith

theorem dot_le (a b : V3) : dot a b ≤ norm a * norm b := by
  have ha := norm_nonneg a
  have hb := norm_nonneg b
  have h := norm_sq a
  have h' := norm_sq b
  have : (dot a b) ^ 2 ≤ (norm a * norm b) ^ 2 := by
    have e : (norm a * norm b) ^ 2
        = (a.x * a.x + a.y * a.y + a.z * a.z) * (b.x * b.x + b.y * b.y + b.z * b.z) := by
      rw [← h, ← h']; ring
    rw [e]; unfold dot
    nlinarith [sq_nonneg (a.x * b.y - a.y * b.x), sq_nonneg (a.x * b.z - a.z * b.x),
      sq_nonneg (a.y * b.z - a.z * b.y)]
  exact le_trans (le_abs_self _) (abs_le_of_sq_le_sq this (by positivity))

theorem norm_add_le (a b : V3) : norm (add a b) ≤ norm a + norm b := by
  apply norm_le_of (add_nonneg (norm_nonneg a) (norm_nonneg b))
  have := dot_le a b
  have h := norm_sq a
  have h' := norm_sq b
  unfold dot at this
  simp only [add]
  nlinarith

theorem norm_scale (k : ℝ) (a : V3) : norm (scale k a) = |k| * norm a := by
  apply norm_eq_of (mul_nonneg (abs_nonneg k) (norm_nonneg a))
  have h := norm_sq a
  have hk := abs_mul_abs_self k
  simp only [scale]
  calc k * a.x * (k * a.x) + k * a.y * (k * a.y) + k * a.z * (k * a.z)
      = (k * k) * (a.x * a.x + a.y * a.y + a.z * a.z) := by ring
    _ = |k| * norm a * (|k| * norm a) := by rw [← h, ← hk]; ring

theorem norm_neg_sub (a b : V3) : norm (sub a b) = norm (sub b a) := by
  unfold norm sub; congr 1; ring

theorem dist_comm (a b : V3) : dist a b = dist b a := norm_neg_sub a b

theorem dist_nonneg (a b : V3) : 0 ≤ dist a b := norm_nonneg _

theorem dist_triangle (a b c : V3) : dist a c ≤ dist a b + dist b c := by
  have := norm_add_le (sub a b) (sub b c)
  have e : add (sub a b) (sub b c) = sub a c := by ext <;> simp [add, sub]
  rwa [e] at this

theorem norm_sub_le (a b : V3) : |norm a - norm b| ≤ dist a b := by
  have h1 := norm_add_le (sub a b) b
  have h2 := norm_add_le (sub b a) a
  have e1 : add (sub a b) b = a := by ext <;> simp [add, sub]
  have e2 : add (sub b a) a = b := by ext <;> simp [add, sub]
  rw [e1] at h1; rw [e2] at h2
  rw [norm_neg_sub b a] at h2
  rw [abs_le]; unfold dist; constructor <;> linarith

theorem abs_x_le (a : V3) : |a.x| ≤ norm a := by
  rw [← Real.sqrt_sq_eq_abs]; apply Real.sqrt_le_sqrt
  nlinarith [mul_self_nonneg a.y, mul_self_nonneg a.z]

theorem abs_y_le (a : V3) : |a.y| ≤ norm a := by
  rw [← Real.sqrt_sq_eq_abs]; apply Real.sqrt_le_sqrt
  nlinarith [mul_self_nonneg a.x, mul_self_nonneg a.z]

theorem abs_z_le (a : V3) : |a.z| ≤ norm a := by
  rw [← Real.sqrt_sq_eq_abs]; apply Real.sqrt_le_sqrt
  nlinarith [mul_self_nonneg a.x, mul_self_nonneg a.y]

theorem norm_eq_zero {a : V3} : norm a = 0 ↔ a = ⟨0, 0, 0⟩ := by
  constructor
  · intro h
    have hx := abs_x_le a
    have hy := abs_y_le a
    have hz := abs_z_le a
    rw [h] at hx hy hz
    ext
    · exact abs_eq_zero.mp (le_antisymm hx (abs_nonneg _))
    · exact abs_eq_zero.mp (le_antisymm hy (abs_nonneg _))
    · exact abs_eq_zero.mp (le_antisymm hz (abs_nonneg _))
  · rintro rfl; simp [norm]

theorem norm_pos {a : V3} (h : a ≠ ⟨0, 0, 0⟩) : 0 < norm a :=
  lt_of_le_of_ne (norm_nonneg a) (fun h' => h (norm_eq_zero.mp h'.symm))

theorem dist_eq_zero {a b : V3} : dist a b = 0 ↔ a = b := by
  unfold dist
  rw [norm_eq_zero]
  constructor
  · intro h
    have h1 := congrArg V3.x h
    have h2 := congrArg V3.y h
    have h3 := congrArg V3.z h
    simp only [sub] at h1 h2 h3
    ext <;> linarith
  · rintro rfl; ext <;> simp [sub]

theorem norm2_eq (a : V3) : norm2 a = norm a * norm a := (norm_sq a).symm

theorem norm_unit {a : V3} (h : a ≠ ⟨0, 0, 0⟩) : norm (unit a) = 1 := by
  have hp := norm_pos h
  unfold unit
  rw [norm_scale, abs_of_pos (by positivity)]
  field_simp

end V3

end Sdf
