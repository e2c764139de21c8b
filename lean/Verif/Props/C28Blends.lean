import Verif.Model.Utils
import Verif.Lemmas.Vec
import Verif.Spec.Blend

/-!
C28: the smooth minimum functions.  `MaxPoly` is the dual of `MinPoly` for degrees two and more; for degree one it is not
(`C28_max_degree_one_wrong`), and for degree zero it divides by zero.
-/

namespace Sdf

/-- The common polynomial form. -/
theorem minPoly_eq (n : ℕ) (hn : 2 ≤ n) (k : ℝ) (hk : 0 < k) (a b : ℝ) :
    minPoly n k a b = min a b - (max (k - |a - b|) 0 / k) ^ n * k * (0.5 / n) := by
  unfold minPoly
  rw [if_neg (by push Not; exact ⟨by omega, hk⟩)]
  match n, hn with
  | 2, _ => show minQuad a b k = _; simp only [minQuad]; push_cast; ring
  | 3, _ => show minCubic a b k = _; simp only [minCubic]; rw [show (1.0 / 6.0 : ℝ) = 0.5 / ((3 : ℕ) : ℝ) by norm_num]; ring
  | m + 4, _ => rfl

theorem pow_sub_le {x y : ℝ} (hy : 0 ≤ y) (hxy : y ≤ x) (hx : x ≤ 1) (n : ℕ) : x ^ n - y ^ n ≤ n * (x - y) := by
  induction n with
  | zero => simp
  | succ n ih =>
    have h1 : 0 ≤ x ^ n - y ^ n := sub_nonneg.mpr (pow_le_pow_left₀ hy hxy n)
    have h2 : y ^ n ≤ 1 := pow_le_one₀ hy (hxy.trans hx)
    have : x ^ (n + 1) - y ^ (n + 1) = x * (x ^ n - y ^ n) + y ^ n * (x - y) := by ring
    rw [this]
    push_cast
    nlinarith

/-- A function that grows with either argument and moves with both is 1-Lipschitz. -/
theorem lip_of_mono {f : ℝ → ℝ → ℝ} (mono : ∀ a a' b b', a ≤ a' → b ≤ b' → f a b ≤ f a' b')
    (shift : ∀ a b t, f (a + t) (b + t) = f a b + t) (a a' b b' : ℝ) : |f a b - f a' b'| ≤ max |a - a'| |b - b'| := by
  set m := max |a - a'| |b - b'|
  have h1 : |a - a'| ≤ m := le_max_left _ _
  have h2 : |b - b'| ≤ m := le_max_right _ _
  rw [abs_le] at h1 h2 ⊢
  constructor
  · have := mono a' (a + m) b' (b + m) (by linarith [h1.1]) (by linarith [h2.1])
    rw [shift] at this; linarith
  · have := mono a (a' + m) b (b' + m) (by linarith [h1.2]) (by linarith [h2.2])
    rw [shift] at this; linarith

/-- The blending term as a function of the difference. -/
theorem poly_blend (n : ℕ) (hn : 1 ≤ n) (k : ℝ) (hk : 0 < k) :
    Blend (fun a b => min a b - (max (k - |a - b|) 0 / k) ^ n * k * (0.5 / n)) (k / (2 * n)) := by
  have hn0 : (0 : ℝ) < n := by exact_mod_cast hn
  have hx0 : ∀ d : ℝ, 0 ≤ max (k - d) 0 / k := fun d => div_nonneg (le_max_right _ _) hk.le
  have hx1 : ∀ d : ℝ, 0 ≤ d → max (k - d) 0 / k ≤ 1 := fun d hd => by
    rw [div_le_one hk]; exact max_le (by linarith) hk.le
  -- growth of the blending term
  have key : ∀ d d' : ℝ, 0 ≤ d → d ≤ d' →
      (max (k - d) 0 / k) ^ n * k * (0.5 / n) - (max (k - d') 0 / k) ^ n * k * (0.5 / n) ≤ (d' - d) / 2 := by
    intro d d' hd hdd
    have hle : max (k - d') 0 / k ≤ max (k - d) 0 / k := by
      refine div_le_div_of_nonneg_right (max_le_max (by linarith) le_rfl) hk.le
    have h1 := pow_sub_le (hx0 d') hle (hx1 d hd) n
    have h2 : max (k - d) 0 / k - max (k - d') 0 / k ≤ (d' - d) / k := by
      rw [← sub_div]
      refine div_le_div_of_nonneg_right ?_ hk.le
      rcases le_total (k - d) 0 with h | h
      · rw [max_eq_right h]; linarith [le_max_right (k - d') 0]
      · rw [max_eq_left h]; linarith [le_max_left (k - d') 0]
    have h3 : (max (k - d) 0 / k) ^ n * k * (0.5 / n) - (max (k - d') 0 / k) ^ n * k * (0.5 / n) =
        ((max (k - d) 0 / k) ^ n - (max (k - d') 0 / k) ^ n) * (k * (0.5 / n)) := by ring
    rw [h3]
    have h4 : ((max (k - d) 0 / k) ^ n - (max (k - d') 0 / k) ^ n) ≤ n * ((d' - d) / k) :=
      h1.trans (mul_le_mul_of_nonneg_left h2 hn0.le)
    have h5 : 0 ≤ k * (0.5 / (n : ℝ)) := by positivity
    refine (mul_le_mul_of_nonneg_right h4 h5).trans (le_of_eq ?_)
    field_simp
    ring
  have anti : ∀ d d' : ℝ, d ≤ d' →
      (max (k - d') 0 / k) ^ n * k * (0.5 / n) ≤ (max (k - d) 0 / k) ^ n * k * (0.5 / n) := by
    intro d d' hdd
    have hle : max (k - d') 0 / k ≤ max (k - d) 0 / k := by
      refine div_le_div_of_nonneg_right (max_le_max (by linarith) le_rfl) hk.le
    have := pow_le_pow_left₀ (hx0 d') hle n
    have h5 : 0 ≤ k * (0.5 / (n : ℝ)) := by positivity
    have := mul_le_mul_of_nonneg_right this h5
    linarith
  -- growing with the first argument
  have mono1 : ∀ a a' b : ℝ, a ≤ a' → min a b - (max (k - |a - b|) 0 / k) ^ n * k * (0.5 / n) ≤
      min a' b - (max (k - |a' - b|) 0 / k) ^ n * k * (0.5 / n) := by
    intro a a' b haa
    have hmin : ∀ x y : ℝ, min x y = (x + y) / 2 - |x - y| / 2 := by
      intro x y
      rcases le_total x y with h | h
      · rw [min_eq_left h, abs_of_nonpos (by linarith)]; ring
      · rw [min_eq_right h, abs_of_nonneg (by linarith)]; ring
    rw [hmin a b, hmin a' b]
    rcases le_total |a - b| |a' - b| with h | h
    · have h1 := anti _ _ h
      have h2 : |a' - b| ≤ |a - b| + (a' - a) := by
        have := abs_add_le (a - b) (a' - a)
        rw [abs_of_nonneg (sub_nonneg.mpr haa)] at this
        calc |a' - b| = |a - b + (a' - a)| := by congr 1; ring
          _ ≤ _ := this
      linarith
    · have h1 := key _ _ (abs_nonneg (a' - b)) h
      linarith
  have symm : ∀ a b : ℝ, min a b - (max (k - |a - b|) 0 / k) ^ n * k * (0.5 / n) =
      min b a - (max (k - |b - a|) 0 / k) ^ n * k * (0.5 / n) := fun a b => by rw [min_comm, abs_sub_comm]
  have mono : ∀ a a' b b' : ℝ, a ≤ a' → b ≤ b' → min a b - (max (k - |a - b|) 0 / k) ^ n * k * (0.5 / n) ≤
      min a' b' - (max (k - |a' - b'|) 0 / k) ^ n * k * (0.5 / n) := by
    intro a a' b b' h1 h2
    have s1 := mono1 a a' b h1
    have s2 := mono1 b b' a' h2
    rw [symm b a', symm b' a'] at s2
    exact s1.trans s2
  refine ⟨symm, fun a b => ?_, fun a b => ?_, mono, ?_⟩
  · have : 0 ≤ (max (k - |a - b|) 0 / k) ^ n * k * (0.5 / n) := by
      have := pow_nonneg (hx0 |a - b|) n
      have h5 : 0 ≤ k * (0.5 / (n : ℝ)) := by positivity
      nlinarith
    show min a b - _ ≤ _
    linarith
  · have h1 := pow_le_one₀ (hx0 |a - b|) (hx1 _ (abs_nonneg (a - b))) (n := n)
    have h5 : 0 ≤ k * (0.5 / (n : ℝ)) := by positivity
    have h6 : k * (0.5 / (n : ℝ)) = k / (2 * n) := by field_simp; norm_num
    show _ ≤ min a b - _
    nlinarith
  · refine lip_of_mono mono fun a b t => ?_
    rw [min_add_add_right, show a + t - (b + t) = a - b by ring]
    ring

/-- `MinPoly` of every degree from one on is a valid blend, at most `k/(2n)` below the minimum. -/
theorem C28_poly (n : ℕ) (hn : 1 ≤ n) (k : ℝ) (hk : 0 < k) : Blend (minPoly n k) (k / (2 * n)) := by
  rcases Nat.lt_or_ge n 2 with h | h
  · obtain rfl : n = 1 := by omega
    have : minPoly (1 : ℕ) k = min := by
      funext a b
      unfold minPoly
      rw [if_neg (by push Not; exact ⟨by norm_num, hk⟩)]
      rfl
    rw [this]
    refine ⟨min_comm, fun _ _ => le_rfl, fun a b => ?_, fun a a' b b' h1 h2 => min_le_min h1 h2, fun a a' b b' => ?_⟩
    · have : 0 < k / (2 * ((1 : ℕ) : ℝ)) := by positivity
      linarith
    · exact lip_of_mono (f := min) (fun a a' b b' h1 h2 => min_le_min h1 h2) (fun a b t => min_add_add_right a b t) a a' b b'
  · have : minPoly n k = fun a b => min a b - (max (k - |a - b|) 0 / k) ^ n * k * (0.5 / n) := by
      funext a b; exact minPoly_eq n h k hk a b
    rw [this]
    exact poly_blend n hn k hk

/-- It leaves the minimum alone exactly where the distances differ by at least `k`. -/
theorem C28_poly_local (n : ℕ) (hn : 2 ≤ n) (k : ℝ) (hk : 0 < k) (a b : ℝ) : minPoly n k a b = min a b ↔ k ≤ |a - b| := by
  rw [minPoly_eq n hn k hk]
  have hn0 : (0 : ℝ) < n := by have : 0 < n := by omega
                               exact_mod_cast this
  have h5 : 0 < k * (0.5 / (n : ℝ)) := by positivity
  constructor
  · intro h
    by_contra hlt
    have h1 : 0 < (max (k - |a - b|) 0 / k) ^ n := by
      have : 0 < max (k - |a - b|) 0 := lt_max_of_lt_left (by linarith)
      positivity
    nlinarith [mul_pos h1 h5]
  · intro h
    rw [max_eq_right (by linarith)]
    rw [zero_div, zero_pow (by omega)]
    ring

/-- The full depth is reached where the distances are equal. -/
theorem C28_poly_depth (n : ℕ) (hn : 2 ≤ n) (k : ℝ) (hk : 0 < k) (a : ℝ) : minPoly n k a a = a - k / (2 * n) := by
  rw [minPoly_eq n hn k hk]
  have hn0 : (0 : ℝ) < n := by have : 0 < n := by omega
                               exact_mod_cast this
  rw [min_self, sub_self, abs_zero, sub_zero, max_eq_left hk.le, div_self hk.ne', one_pow, one_mul]
  congr 1
  field_simp
  norm_num

/-- Degree one is the plain minimum. -/
theorem C28_poly_one (k : ℝ) (hk : 0 < k) (a b : ℝ) : minPoly 1 k a b = min a b := by
  unfold minPoly
  rw [if_neg (by push Not; exact ⟨by norm_num, hk⟩)]
  rfl

/-- Degree zero, the chamfer: symmetric and never above the minimum. -/
theorem C28_poly_zero (k : ℝ) (hk : 0 < k) (a b : ℝ) : minPoly 0 k a b = minPoly 0 k b a ∧ minPoly 0 k a b ≤ min a b := by
  unfold minPoly
  rw [if_neg (by push Not; exact ⟨by norm_num, hk⟩), if_neg (by push Not; exact ⟨by norm_num, hk⟩)]
  refine ⟨?_, min_le_left _ _⟩
  show min (min a b) _ = min (min b a) _
  rw [min_comm a b]; congr 1; ring

/-- `MaxPoly` is the dual of `MinPoly` for every degree from two on. -/
theorem C28_max_dual_partial (n : ℕ) (hn : 2 ≤ n) (k : ℝ) (hk : 0 < k) (a b : ℝ) :
    maxPoly n k a b = -minPoly n k (-a) (-b) := by
  rw [minPoly_eq n hn k hk]
  unfold maxPoly
  rw [if_neg (by push Not; exact ⟨by omega, hk⟩)]
  unfold maxPolyGen
  simp only [Int.toNat_natCast]
  rw [show -a - -b = b - a by ring]

/-- Blending over no distance, or less: `MinPoly` is the minimum. -/
theorem C28_min_no_blend (n : ℤ) (k : ℝ) (hk : k ≤ 0) (a b : ℝ) : minPoly n k a b = min a b := by
  unfold minPoly
  rw [if_pos (Or.inr hk), max_eq_right (by linarith [abs_nonneg (a - b)]), sub_zero]

/-- Blending over no distance, or less: `MaxPoly` is not the maximum but the minimum. -/
theorem C28_max_no_blend_wrong (n : ℤ) (k : ℝ) (hk : k ≤ 0) (a b : ℝ) : maxPoly n k a b = min a b := by
  unfold maxPoly
  rw [if_pos (Or.inr hk), max_eq_right (by linarith [abs_nonneg (b - a)]), sub_zero, neg_neg]

/-- For a negative degree `MinPoly` stays at or below the minimum, while `MaxPoly` can be far below the maximum. -/
theorem C28_negative_degree_wrong (n : ℤ) (hn : n < 0) (k : ℝ) :
    (∀ a b, minPoly n k a b ≤ min a b) ∧ ∀ a b, k ≤ |b - a| → maxPoly n k a b = min a b := by
  constructor
  · intro a b
    unfold minPoly
    rw [if_pos (Or.inl hn)]
    linarith [le_max_right (k - |a - b|) 0]
  · intro a b h
    unfold maxPoly
    rw [if_pos (Or.inl hn), max_eq_right (by linarith), sub_zero, neg_neg]

/-- For degree one `MaxPoly` is not the maximum, hence not the dual of `MinPoly`. -/
theorem C28_max_degree_one_wrong : maxPoly 1 1 0 0 = 1 / 2 ∧ -minPoly 1 1 (-0) (-0) = 0 := by
  constructor
  · unfold maxPoly maxPolyGen
    rw [if_neg (by norm_num)]
    norm_num
  · rw [C28_poly_one 1 one_pos]; norm_num

/-- `MinExp` is a valid blend, at most `log 2 / k` below the minimum. -/
theorem C28_exp (k : ℝ) (hk : 0 < k) : Blend (minExp k) (Real.log 2 / k) := by
  have mono : ∀ a a' b b' : ℝ, a ≤ a' → b ≤ b' → minExp k a b ≤ minExp k a' b' := by
    intro a a' b b' h1 h2
    unfold minExp
    refine div_le_div_of_nonneg_right (neg_le_neg (Real.log_le_log (by positivity) (add_le_add ?_ ?_))) hk.le
    · exact Real.exp_le_exp.mpr (by nlinarith)
    · exact Real.exp_le_exp.mpr (by nlinarith)
  have shift : ∀ a b t : ℝ, minExp k (a + t) (b + t) = minExp k a b + t := by
    intro a b t
    unfold minExp
    have : Real.exp (-k * (a + t)) + Real.exp (-k * (b + t)) =
        Real.exp (-k * t) * (Real.exp (-k * a) + Real.exp (-k * b)) := by
      rw [mul_add (Real.exp _), ← Real.exp_add, ← Real.exp_add]; congr 2 <;> ring
    rw [this, Real.log_mul (Real.exp_pos _).ne' (by positivity), Real.log_exp]
    field_simp
    ring
  have symm : ∀ a b : ℝ, minExp k a b = minExp k b a := fun a b => by unfold minExp; rw [add_comm]
  have le1 : ∀ a b : ℝ, minExp k a b ≤ a := by
    intro a b
    unfold minExp
    rw [div_le_iff₀ hk]
    have : Real.log (Real.exp (-k * a)) ≤ Real.log (Real.exp (-k * a) + Real.exp (-k * b)) :=
      Real.log_le_log (Real.exp_pos _) (by linarith [Real.exp_pos (-k * b)])
    rw [Real.log_exp] at this
    linarith
  refine ⟨symm, fun a b => le_min (le1 a b) (by rw [symm]; exact le1 b a), fun a b => ?_, mono,
    lip_of_mono mono shift⟩
  unfold minExp
  rw [le_div_iff₀ hk, sub_mul, div_mul_cancel₀ _ hk.ne']
  have h1 : Real.exp (-k * a) ≤ Real.exp (-k * min a b) := Real.exp_le_exp.mpr (by nlinarith [min_le_left a b])
  have h2 : Real.exp (-k * b) ≤ Real.exp (-k * min a b) := Real.exp_le_exp.mpr (by nlinarith [min_le_right a b])
  have h3 : Real.log (Real.exp (-k * a) + Real.exp (-k * b)) ≤ Real.log (2 * Real.exp (-k * min a b)) :=
    Real.log_le_log (by positivity) (by linarith)
  rw [Real.log_mul (by norm_num) (Real.exp_pos _).ne', Real.log_exp] at h3
  linarith

/-- `MinRound`: symmetric, never above the minimum, equal to it exactly outside the fillet (one of the distances at least
`k`), growing with either argument, and at most `(√2 - 1)k` below the minimum outside both shapes. -/
theorem C28_round (k : ℝ) :
    (∀ a b, minRound k a b = minRound k b a) ∧ (∀ a b, minRound k a b ≤ min a b) ∧
    (∀ a b, minRound k a b = min a b ↔ k ≤ max a b) ∧
    (∀ a a' b b', a ≤ a' → b ≤ b' → minRound k a b ≤ minRound k a' b') ∧
    (∀ a b, 0 ≤ k → 0 ≤ a → 0 ≤ b → min a b - (Real.sqrt 2 - 1) * k ≤ minRound k a b) := by
  have hN : ∀ a b, minRound k a b = max k (min a b) -
      Real.sqrt (max (k - a) 0 * max (k - a) 0 + max (k - b) 0 * max (k - b) 0) := fun a b => rfl
  have symm : ∀ a b, minRound k a b = minRound k b a := fun a b => by
    rw [hN, hN, min_comm, add_comm]
  have mono1 : ∀ a a' b, a ≤ a' → minRound k a b ≤ minRound k a' b := by
    intro a a' b h
    rw [hN, hN]
    have h1 : max k (min a b) ≤ max k (min a' b) := max_le_max le_rfl (min_le_min h le_rfl)
    have h2 : max (k - a') 0 ≤ max (k - a) 0 := max_le_max (by linarith) le_rfl
    have h3 := Real.sqrt_le_sqrt (show max (k - a') 0 * max (k - a') 0 + max (k - b) 0 * max (k - b) 0 ≤
      max (k - a) 0 * max (k - a) 0 + max (k - b) 0 * max (k - b) 0 by
        nlinarith [le_max_right (k - a') 0, le_max_right (k - a) 0])
    linarith
  -- the fillet
  have le1 : ∀ a b, a ≤ b → minRound k a b ≤ a ∧ (minRound k a b = a ↔ k ≤ b) := by
    intro a b hab
    rw [hN, min_eq_left hab]
    rcases le_total k a with h | h
    · rw [max_eq_right h, max_eq_right (by linarith : k - a ≤ 0), max_eq_right (by linarith : k - b ≤ 0)]
      simp [h.trans hab]
    · rw [max_eq_left h, max_eq_left (by linarith : 0 ≤ k - a)]
      have h0 : k - a ≤ Real.sqrt ((k - a) * (k - a) + max (k - b) 0 * max (k - b) 0) := by
        refine Real.le_sqrt_of_sq_le ?_
        nlinarith [mul_self_nonneg (max (k - b) 0)]
      refine ⟨by linarith, fun he => ?_, fun hb => ?_⟩
      · by_contra hlt
        have hpos : 0 < max (k - b) 0 := lt_max_of_lt_left (by linarith)
        have : k - a < Real.sqrt ((k - a) * (k - a) + max (k - b) 0 * max (k - b) 0) := by
          refine Real.lt_sqrt_of_sq_lt ?_
          nlinarith
        linarith
      · rw [max_eq_right (by linarith : k - b ≤ 0)]
        rw [mul_zero, add_zero, Real.sqrt_mul_self (by linarith)]
        ring
  refine ⟨symm, fun a b => ?_, fun a b => ?_, fun a a' b b' h1 h2 => ?_, fun a b hk ha hb => ?_⟩
  · rcases le_total a b with h | h
    · rw [min_eq_left h]; exact (le1 a b h).1
    · rw [min_eq_right h, symm]; exact (le1 b a h).1
  · rcases le_total a b with h | h
    · rw [min_eq_left h, max_eq_right h]; exact (le1 a b h).2
    · rw [min_eq_right h, max_eq_left h, symm]; exact (le1 b a h).2
  · refine (mono1 a a' b h1).trans ?_
    rw [symm a' b, symm a' b']
    exact mono1 b b' a' h2
  · rw [hN]
    set m := min a b
    have hm : 0 ≤ m := le_min ha hb
    have hsq : 1 ≤ Real.sqrt 2 := Real.le_sqrt_of_sq_le (by norm_num)
    have h1 : max (k - a) 0 ≤ max (k - m) 0 := max_le_max (by linarith [min_le_left a b]) le_rfl
    have h2 : max (k - b) 0 ≤ max (k - m) 0 := max_le_max (by linarith [min_le_right a b]) le_rfl
    have h3 : Real.sqrt (max (k - a) 0 * max (k - a) 0 + max (k - b) 0 * max (k - b) 0) ≤ Real.sqrt 2 * max (k - m) 0 := by
      rw [Real.sqrt_le_left (by positivity)]
      rw [mul_pow, Real.sq_sqrt (by norm_num)]
      nlinarith [le_max_right (k - a) 0, le_max_right (k - b) 0]
    rcases le_total k m with h | h
    · rw [max_eq_right (by linarith : k - m ≤ 0)] at h3
      rw [max_eq_right h]
      nlinarith
    · rw [max_eq_left (by linarith : 0 ≤ k - m)] at h3
      rw [max_eq_left h]
      nlinarith

/-- `MinRound` moves by at most the Euclidean change of its arguments. -/
theorem C28_round_lip (k a a' b b' : ℝ) :
    |minRound k a b - minRound k a' b'| ≤ Real.sqrt ((a - a') * (a - a') + (b - b') * (b - b')) := by
  -- one side suffices
  suffices h : ∀ a a' b b' : ℝ, minRound k a b - minRound k a' b' ≤ Real.sqrt ((a - a') * (a - a') + (b - b') * (b - b')) by
    rw [abs_le]
    refine ⟨?_, h a a' b b'⟩
    have := h a' a b' b
    rw [show (a' - a) * (a' - a) + (b' - b) * (b' - b) = (a - a') * (a - a') + (b - b') * (b - b') by ring] at this
    linarith
  intro a a' b b'
  have hN : ∀ a b, minRound k a b = max k (min a b) - V2.norm ⟨max (k - a) 0, max (k - b) 0⟩ := fun a b => rfl
  set D := Real.sqrt ((a - a') * (a - a') + (b - b') * (b - b')) with hD
  have hD0 : 0 ≤ D := Real.sqrt_nonneg _
  have hD2 : D * D = (a - a') * (a - a') + (b - b') * (b - b') :=
    Real.mul_self_sqrt (by nlinarith [mul_self_nonneg (a - a'), mul_self_nonneg (b - b')])
  have ha : a - a' ≤ D := Real.le_sqrt_of_sq_le (by nlinarith [mul_self_nonneg (b - b')])
  have hb : b - b' ≤ D := Real.le_sqrt_of_sq_le (by nlinarith [mul_self_nonneg (a - a')])
  rw [hN, hN]
  set u := max (k - a') 0
  set v := max (k - b') 0
  have hu0 : 0 ≤ u := le_max_right _ _
  have hv0 : 0 ≤ v := le_max_right _ _
  have hw : V2.norm ⟨u, v⟩ * V2.norm ⟨u, v⟩ = u * u + v * v := Real.mul_self_sqrt (by nlinarith [mul_self_nonneg u, mul_self_nonneg v])
  set w := V2.norm ⟨u, v⟩ with hwd
  have hw0 : 0 ≤ w := V2.norm_nonneg _
  have hwuv : w ≤ u + v := by nlinarith
  rcases hw0.lt_or_eq with hwp | hwz
  · -- (a', b') in the fillet or beyond
    have hm' : min a' b' ≤ k := by
      by_contra hlt
      have h1 : k < a' := lt_of_lt_of_le (not_le.mp hlt) (min_le_left _ _)
      have h2 : k < b' := lt_of_lt_of_le (not_le.mp hlt) (min_le_right _ _)
      have e1 : u = 0 := max_eq_right (by linarith)
      have e2 : v = 0 := max_eq_right (by linarith)
      rw [e1, e2] at hwuv; linarith
    rw [max_eq_left hm']
    -- Cauchy-Schwarz along (u, v)
    have cs : (a - a') * u + (b - b') * v ≤ D * w := by
      refine le_of_sq_le_sq ?_ (by positivity)
      have : (D * w) ^ 2 = ((a - a') * (a - a') + (b - b') * (b - b')) * (u * u + v * v) := by rw [← hD2, ← hw]; ring
      rw [this]
      nlinarith [mul_self_nonneg ((a - a') * v - (b - b') * u)]
    have hua : u * (k - a') = u * u := by
      rcases le_total (k - a') 0 with h | h
      · have : u = 0 := max_eq_right h
        rw [this]; ring
      · have : u = k - a' := max_eq_left h
        rw [this]
    have hvb : v * (k - b') = v * v := by
      rcases le_total (k - b') 0 with h | h
      · have : v = 0 := max_eq_right h
        rw [this]; ring
      · have : v = k - b' := max_eq_left h
        rw [this]
    rcases le_total k (min a b) with hm | hm
    · have hk1 : k ≤ a := hm.trans (min_le_left _ _)
      have hk2 : k ≤ b := hm.trans (min_le_right _ _)
      have n0 : V2.norm ⟨max (k - a) 0, max (k - b) 0⟩ = 0 := by
        rw [max_eq_right (by linarith), max_eq_right (by linarith)]; simp [V2.norm]
      rw [n0, max_eq_right hm]
      set m := min a b
      have hma : m ≤ a := min_le_left _ _
      have hmb : m ≤ b := min_le_right _ _
      have : (m - k) * (u + v) + (u * u + v * v) ≤ (a - a') * u + (b - b') * v := by nlinarith
      have h2 : (m - k + w) * w ≤ D * w := by nlinarith
      have := le_of_mul_le_mul_right h2 hwp
      linarith
    · rw [max_eq_left hm]
      set x := max (k - a) 0
      set y := max (k - b) 0
      have hx0 : 0 ≤ x := le_max_right _ _
      have hy0 : 0 ≤ y := le_max_right _ _
      have hz : V2.norm ⟨x, y⟩ * V2.norm ⟨x, y⟩ = x * x + y * y := Real.mul_self_sqrt (by nlinarith [mul_self_nonneg x, mul_self_nonneg y])
      set z := V2.norm ⟨x, y⟩
      have hz0 : 0 ≤ z := V2.norm_nonneg _
      -- z w ≥ x u + y v
      have cs2 : x * u + y * v ≤ z * w := by
        refine le_of_sq_le_sq ?_ (by positivity)
        have : (z * w) ^ 2 = (x * x + y * y) * (u * u + v * v) := by rw [← hz, ← hw]; ring
        rw [this]
        nlinarith [mul_self_nonneg (x * v - y * u)]
      have hxk : k - a ≤ x := le_max_left _ _
      have hyk : k - b ≤ y := le_max_left _ _
      have h2 : (w - z) * w ≤ D * w := by nlinarith
      have := le_of_mul_le_mul_right h2 hwp
      linarith
  · -- outside the fillet
    have hz0 : 0 ≤ V2.norm ⟨max (k - a) 0, max (k - b) 0⟩ := V2.norm_nonneg _
    have hu : u = 0 := by nlinarith
    have hv : v = 0 := by nlinarith
    have h1 : k ≤ a' := by have := le_max_left (k - a') 0; change _ ≤ u at this; linarith
    have h2 : k ≤ b' := by have := le_max_left (k - b') 0; change _ ≤ v at this; linarith
    rw [max_eq_right (le_min h1 h2), ← hwz]
    have : max k (min a b) ≤ min a' b' + D := by
      refine max_le ?_ ?_
      · linarith [le_min h1 h2]
      · rw [← min_add_add_right]
        exact min_le_min (by linarith) (by linarith)
    linarith

/-- `MinPow` for positive distances: symmetric, never above the minimum, at most a factor `2^(1/k)` below it. -/
theorem C28_pow (k a b : ℝ) (hk : 0 < k) (ha : 0 < a) (hb : 0 < b) :
    minPow k a b = minPow k b a ∧ minPow k a b ≤ min a b ∧ min a b / 2 ^ (1 / k) ≤ minPow k a b := by
  unfold minPow
  have hA : 0 < a ^ k := Real.rpow_pos_of_pos ha k
  have hB : 0 < b ^ k := Real.rpow_pos_of_pos hb k
  have hm : 0 < min a b := lt_min ha hb
  have hM : min a b ^ k = min (a ^ k) (b ^ k) := by
    rcases le_total a b with h | h
    · rw [min_eq_left h, min_eq_left (Real.rpow_le_rpow ha.le h hk.le)]
    · rw [min_eq_right h, min_eq_right (Real.rpow_le_rpow hb.le h hk.le)]
  have hback : min a b = (min a b ^ k) ^ (1 / k) := by
    rw [← Real.rpow_mul hm.le, mul_one_div_cancel hk.ne', Real.rpow_one]
  refine ⟨by simp only; rw [mul_comm, add_comm], ?_, ?_⟩
  · simp only
    rw [hback, hM]
    refine Real.rpow_le_rpow (by positivity) ?_ (by positivity)
    rw [div_le_iff₀ (by positivity)]
    rcases le_total (a ^ k) (b ^ k) with h | h
    · rw [min_eq_left h]; nlinarith
    · rw [min_eq_right h]; nlinarith
  · simp only
    rw [hback, hM, ← Real.div_rpow (by positivity) (by norm_num)]
    refine Real.rpow_le_rpow (by positivity) ?_ (by positivity)
    rw [div_le_div_iff₀ (by norm_num) (by positivity)]
    rcases le_total (a ^ k) (b ^ k) with h | h
    · rw [min_eq_left h]; nlinarith
    · rw [min_eq_right h]; nlinarith

/-! Non-vacuity: a blend that really blends. -/
example : minPoly 2 1 0 0 = -1 / 4 := by
  have := C28_poly_depth 2 le_rfl 1 one_pos 0
  norm_num at this ⊢
  exact_mod_cast this

end Sdf
