import Verif.Lemmas.Rounding
import Verif.Lemmas.FitsSolid
import Verif.Props.C62Convex
import Verif.Props.C33Constructors

/-! Lemmas for C63: the profile that `ChamferedCylinder` revolves. -/

namespace Sdf
open Polygon Must2

/-- The chamfer of a right angle, in coordinates. -/
theorem chamfer_points {p x n : V2} {d a b : ℝ} (hd : 0 < d) (hright : V2.dot (V2.sub p x) (V2.sub n x) = 0)
    (ha : V2.dist p x = a) (hb : V2.dist n x = b) (hda : d ≤ a) (hdb : d ≤ b) :
    smoothPoints p x n d 1 = some [PV.plain (V2.add x (V2.scale (d / a) (V2.sub p x))), PV.plain (V2.add x (V2.scale (d / b) (V2.sub n x)))] := by
  subst ha hb
  have e1 : V2.dist p x * V2.dist p x = (p.x - x.x) * (p.x - x.x) + (p.y - x.y) * (p.y - x.y) := V2.norm_sq _
  have e2 : V2.dist n x * V2.dist n x = (n.x - x.x) * (n.x - x.x) + (n.y - x.y) * (n.y - x.y) := V2.norm_sq _
  have hcross : |V2.cross (V2.sub p x) (V2.sub n x)| = V2.dist p x * V2.dist n x := by
    have : V2.cross (V2.sub p x) (V2.sub n x) ^ 2 = (V2.dist p x * V2.dist n x) ^ 2 := by
      have : (V2.dist p x * V2.dist n x) ^ 2 = (V2.dist p x * V2.dist p x) * (V2.dist n x * V2.dist n x) := by ring
      rw [this, e1, e2]
      simp only [V2.cross, V2.dot, V2.sub] at hright ⊢
      linear_combination -((p.x - x.x) * (n.x - x.x) + (p.y - x.y) * (n.y - x.y)) * hright
    rw [← abs_of_nonneg (mul_nonneg (V2.dist_nonneg p x) (V2.dist_nonneg n x))]
    exact sq_eq_sq_iff_abs_eq_abs _ _ |>.mp this
  have hpos : 0 < V2.dist p x * V2.dist n x := mul_pos (by linarith) (by linarith)
  have hnd : V2.cross (V2.sub p x) (V2.sub n x) ≠ 0 := by
    rw [← abs_pos, hcross]; exact hpos
  obtain ⟨pts, hpts⟩ := (C32_smooth_fits p x n d 1 hnd).mpr (by
    rw [hright, add_zero, hcross, mul_comm]
    exact mul_le_mul_of_nonneg_left (le_min hda hdb) hpos.le)
  obtain ⟨c, P, Q, a, -, hp2, hQ, hdist, hP, hPd, hQ', hQd, hlen⟩ := C32_smooth p x n d 1 hd le_rfl hnd pts hpts
  have hp3 : pts = [PV.plain P, PV.plain Q] := by
    rw [hp2, show ((1 : ℤ) + 1).toNat = 2 by rfl]
    simp only [List.range_succ, List.range_zero, List.nil_append, List.map_cons, List.map_nil, List.cons_append]
    rw [← hQ]; simp [turn_zero]
  have hdP : V2.dist P x = d := by
    rw [hcross, hright, add_zero] at hlen
    exact mul_right_cancel₀ hpos.ne' hlen
  have hdQ : V2.dist Q x = d := by
    rw [← hdP]
    obtain ⟨t, t0, t1, hPt⟩ := hP
    obtain ⟨t', t0', t1', hQt⟩ := hQ'
    have hPx : P.x - x.x = t * (p.x - x.x) := by rw [hPt]; simp [V2.add, V2.scale, V2.sub]
    have hPy : P.y - x.y = t * (p.y - x.y) := by rw [hPt]; simp [V2.add, V2.scale, V2.sub]
    have hQx : Q.x - x.x = t' * (n.x - x.x) := by rw [hQt]; simp [V2.add, V2.scale, V2.sub]
    have hQy : Q.y - x.y = t' * (n.y - x.y) := by rw [hQt]; simp [V2.add, V2.scale, V2.sub]
    have eP : V2.dist P x * V2.dist P x = (P.x - x.x) * (P.x - x.x) + (P.y - x.y) * (P.y - x.y) := V2.norm_sq _
    have eQ : V2.dist Q x * V2.dist Q x = (Q.x - x.x) * (Q.x - x.x) + (Q.y - x.y) * (Q.y - x.y) := V2.norm_sq _
    have ePc : V2.dist P c * V2.dist P c = (P.x - c.x) * (P.x - c.x) + (P.y - c.y) * (P.y - c.y) := V2.norm_sq _
    have eQc : V2.dist Q c * V2.dist Q c = (Q.x - c.x) * (Q.x - c.x) + (Q.y - c.y) * (Q.y - c.y) := V2.norm_sq _
    have hdQc : V2.dist Q c = V2.dist P c := by rw [← hQ, turn_dist]
    refine (mul_self_inj_of_nonneg (V2.dist_nonneg _ _) (V2.dist_nonneg _ _)).mp ?_
    rw [hdQc, ePc] at eQc
    rw [eP, eQ]
    simp only [V2.dot, V2.sub] at hPd hQd
    have h1 : (P.x - c.x) * (P.x - x.x) + (P.y - c.y) * (P.y - x.y) = 0 := by rw [hPx, hPy]; linear_combination t * hPd
    have h2 : (Q.x - c.x) * (Q.x - x.x) + (Q.y - c.y) * (Q.y - x.y) = 0 := by rw [hQx, hQy]; linear_combination t' * hQd
    linear_combination eQc - 2 * h1 + 2 * h2
  rw [hpts, hp3, onSegment_dist hP hdP (by linarith), onSegment_dist hQ' hdQ (by linarith)]

/-- The corners of the profile at one end, going up: the corner itself, or the two ends of its chamfer of width `d`. -/
noncomputable def lowerCorner (l r d : ℝ) : List V2 := open Classical in if d = 0 then [⟨r, -l⟩] else [⟨r - d, -l⟩, ⟨r, -l + d⟩]
noncomputable def upperCorner (l r d : ℝ) : List V2 := open Classical in if d = 0 then [⟨r, l⟩] else [⟨r, l - d⟩, ⟨r - d, l⟩]

theorem plain_chamfer (x : V2) {size : ℝ} (h : size ≠ 0) : (PV.plain x).chamfer size = ⟨false, .smooth, x, 1, size * Must2.sqrtHalf⟩ := by
  rw [PV.chamfer, if_pos h]; rfl

theorem lower_points {l r d e : ℝ} (hd : 0 < d) (hr : d ≤ r) (hl : d ≤ e + l) :
    smoothPoints ⟨0, -l⟩ ⟨r, -l⟩ ⟨r, e⟩ d 1 = some [PV.plain ⟨r - d, -l⟩, PV.plain ⟨r, -l + d⟩] := by
  rw [chamfer_points (a := r) (b := e + l) hd (by simp [V2.dot, V2.sub]) (dist_of_sq (by linarith) (by simp only; ring))
    (dist_of_sq (by linarith) (by simp only; ring)) hr hl]
  have h1 : r ≠ 0 := by linarith
  have h2 : e + l ≠ 0 := by linarith
  simp only [V2.add, V2.scale, V2.sub, Option.some.injEq, List.cons.injEq, and_true]
  constructor
  · congr 2
    · field_simp; ring
    · ring
  · congr 2
    · ring
    · field_simp; ring

theorem upper_points {l r d e : ℝ} (hd : 0 < d) (hr : d ≤ r) (hl : d ≤ l - e) :
    smoothPoints ⟨r, e⟩ ⟨r, l⟩ ⟨0, l⟩ d 1 = some [PV.plain ⟨r, l - d⟩, PV.plain ⟨r - d, l⟩] := by
  rw [chamfer_points (a := l - e) (b := r) hd (by simp [V2.dot, V2.sub]) (dist_of_sq (by linarith) (by simp only; ring))
    (dist_of_sq (by linarith) (by simp only; ring)) hl hr]
  have h1 : r ≠ 0 := by linarith
  have h2 : l - e ≠ 0 := by linarith
  simp only [V2.add, V2.scale, V2.sub, Option.some.injEq, List.cons.injEq, and_true]
  constructor
  · congr 2
    · ring
    · field_simp; ring
  · congr 2
    · field_simp; ring
    · ring

theorem both_smooth (v0 x1 x2 v3 P1 Q1 P2 Q2 : V2) (r1 r2 : ℝ) (h1 : smoothPoints v0 x1 x2 r1 1 = some [PV.plain P1, PV.plain Q1])
    (h2 : smoothPoints Q1 x2 v3 r2 1 = some [PV.plain P2, PV.plain Q2]) (fuel : ℕ) :
    ∃ b', Builder.vertices (fuel + 2) ⟨false, false, false, [PV.plain v0, ⟨false, .smooth, x1, 1, r1⟩, ⟨false, .smooth, x2, 1, r2⟩, PV.plain v3]⟩ =
      .ok ([v0, P1, Q1, P2, Q2, v3], b') := by
  set b : Builder := ⟨false, false, false, [PV.plain v0, ⟨false, .smooth, x1, 1, r1⟩, ⟨false, .smooth, x2, 1, r2⟩, PV.plain v3]⟩ with hb
  set b1 : Builder := ⟨false, false, false, [PV.plain v0, PV.plain P1, PV.plain Q1, ⟨false, .smooth, x2, 1, r2⟩, PV.plain v3]⟩ with hb1
  set b2 : Builder := ⟨false, false, false, [PV.plain v0, PV.plain P1, PV.plain Q1, PV.plain P2, PV.plain Q2, PV.plain v3]⟩ with hb2
  have s0 : b.smoothVertex 0 = some (b, false) := smoothVertex_idle b 0 (by simp [hb]) (by simp [hb, PV.plain])
  have s1 : b.smoothVertex 1 = some (b1, true) := by
    unfold Builder.smoothVertex
    simp [hb, hb1, Builder.prevVertex, Builder.nextVertex, PV.plain] at h1 ⊢
    rw [h1]
    rfl
  have s2 : b1.smoothVertex 2 = some (b1, false) := smoothVertex_idle b1 2 (by simp [hb1]) (by simp [hb1, PV.plain])
  have s3 : b1.smoothVertex 3 = some (b2, true) := by
    unfold Builder.smoothVertex
    simp [hb1, hb2, Builder.prevVertex, Builder.nextVertex, PV.plain] at h2 ⊢
    rw [h2]
    rfl
  have hpass : pass Builder.smoothVertex (List.range b.vlist.length) b = some (b2, true) := by
    rw [show List.range b.vlist.length = [0, 1, 2, 3] from rfl]
    simp only [pass, s0, s1, s2, s3]
    rfl
  have hp : passes Builder.smoothVertex (fuel + 1 + 1) b = .ok b2 := by
    rw [passes, hpass]
    simp only
    refine passes_idle _ b2 (fun j hj => smoothVertex_idle b2 j hj fun v hv => ?_) fuel
    have hv := List.mem_of_getElem? hv
    simp only [hb2, List.mem_cons, List.not_mem_nil, or_false] at hv
    rcases hv with rfl | rfl | rfl | rfl | rfl | rfl <;> simp [PV.plain]
  have := vertices_smooth b b2 rfl rfl (by
    intro v hv
    simp only [hb, List.mem_cons, List.not_mem_nil, or_false] at hv
    rcases hv with rfl | rfl | rfl | rfl <;> simp [PV.plain]) (fuel + 1) hp
  exact ⟨b2, by rw [this]; rfl⟩

/-- The corners of the profile. -/
theorem chamfer_vertices {l r kb kt : ℝ} (hr : 0 < r) (hb : 0 ≤ kb) (ht : 0 ≤ kt) (hb1 : kb * Must2.sqrtHalf ≤ 1)
    (ht1 : kt * Must2.sqrtHalf ≤ 1) (hfit : r * kb * Must2.sqrtHalf + r * kt * Must2.sqrtHalf ≤ 2 * l) (fuel : ℕ) :
    ∃ b', (Must3.chamferProfile l r kb kt).vertices (fuel + 2) =
      .ok (⟨0, -l⟩ :: (lowerCorner l r (r * kb * Must2.sqrtHalf) ++ (upperCorner l r (r * kt * Must2.sqrtHalf) ++ [⟨0, l⟩])), b') := by
  have hsq : 0 < Must2.sqrtHalf := by norm_num [Must2.sqrtHalf]
  have hprof : Must3.chamferProfile l r kb kt = ⟨false, false, false, [PV.plain ⟨0, -l⟩, (PV.plain ⟨r, -l⟩).chamfer (r * kb),
      (PV.plain ⟨r, l⟩).chamfer (r * kt), PV.plain ⟨0, l⟩]⟩ := rfl
  have hpl : ∀ z : V2, (PV.plain z).relative = false ∧ (PV.plain z).vtype = .normal := fun z => ⟨rfl, rfl⟩
  have small : ∀ k, k * Must2.sqrtHalf ≤ 1 → r * k * Must2.sqrtHalf ≤ r := fun k h => by
    rw [mul_assoc]; nlinarith
  have pos : ∀ k, 0 < k → 0 < r * k * Must2.sqrtHalf := fun k h => by positivity
  rw [hprof]
  unfold lowerCorner upperCorner
  rcases hb.lt_or_eq with hb | rfl
  · rw [plain_chamfer _ (mul_pos hr hb).ne', if_neg (pos _ hb).ne']
    rcases ht.lt_or_eq with ht | rfl
    · rw [plain_chamfer _ (mul_pos hr ht).ne', if_neg (pos _ ht).ne']
      have := pos _ ht
      exact both_smooth _ _ _ _ _ _ _ _ _ _ (lower_points (pos _ hb) (small _ hb1) (by linarith))
        (upper_points (pos _ ht) (small _ ht1) (by linarith)) fuel
    · rw [mul_zero, (C32_no_effect (PV.plain ⟨r, l⟩) 0 0).2.2.2.2, if_pos (by ring)]
      obtain ⟨b', vs, h1, h2⟩ := C32_smooth_vertices ⟨false, false, false, [PV.plain ⟨0, -l⟩, ⟨false, .smooth, ⟨r, -l⟩, 1, r * kb * Must2.sqrtHalf⟩,
        PV.plain ⟨r, l⟩, PV.plain ⟨0, l⟩]⟩ [] [PV.plain ⟨0, l⟩] ⟨0, -l⟩ ⟨r, l⟩ ⟨r, -l⟩ _ 1 _ rfl rfl (by norm_num) (by simp)
        (by simp [PV.plain]) (lower_points (pos _ hb) (small _ hb1) (by linarith)) fuel
      exact ⟨b', by rw [h1]; simp only [Bool.false_eq_true, if_false] at h2; rw [h2]; rfl⟩
  · rw [mul_zero, (C32_no_effect (PV.plain ⟨r, -l⟩) 0 0).2.2.2.2, if_pos (by ring)]
    rcases ht.lt_or_eq with ht | rfl
    · rw [plain_chamfer _ (mul_pos hr ht).ne', if_neg (pos _ ht).ne']
      obtain ⟨b', vs, h1, h2⟩ := C32_smooth_vertices ⟨false, false, false, [PV.plain ⟨0, -l⟩, PV.plain ⟨r, -l⟩,
        ⟨false, .smooth, ⟨r, l⟩, 1, r * kt * Must2.sqrtHalf⟩, PV.plain ⟨0, l⟩]⟩ [PV.plain ⟨0, -l⟩] [] ⟨r, -l⟩ ⟨0, l⟩ ⟨r, l⟩ _ 1 _ rfl rfl
        (by norm_num) (by simp [PV.plain]) (by simp) (upper_points (pos _ ht) (small _ ht1) (by linarith)) fuel
      exact ⟨b', by rw [h1]; simp only [Bool.false_eq_true, if_false] at h2; rw [h2]; rfl⟩
    · rw [mul_zero, (C32_no_effect (PV.plain ⟨r, l⟩) 0 0).2.2.2.2, if_pos (by ring)]
      have h := C32_plain ⟨false, false, false, [PV.plain ⟨0, -l⟩, PV.plain ⟨r, -l⟩, PV.plain ⟨r, l⟩, PV.plain ⟨0, l⟩]⟩ rfl
        (by simp [PV.plain]) (fuel + 1)
      exact ⟨_, by rw [h]; rfl⟩

/-- The region that the profile encloses. -/
def InChamfered (l r db dt ρ z : ℝ) : Prop :=
  0 < ρ ∧ ρ < r ∧ -l < z ∧ z < l ∧ ρ - z < r + l - db ∧ ρ + z < r + l - dt

/-- What is beyond it. -/
def BeyondChamfered (l r db dt ρ z : ℝ) : Prop :=
  ρ < 0 ∨ r < ρ ∨ z < -l ∨ l < z ∨ r + l - db < ρ - z ∨ r + l - dt < ρ + z

set_option linter.unusedSimpArgs false in
set_option linter.unusedTactic false in
set_option linter.unreachableTactic false in
theorem chamfer_polygon {l r db dt : ℝ} (hl : 1 / 10 ^ 9 < 2 * l) (hb : 0 ≤ db) (ht : 0 ≤ dt) (hb1 : db < r)
    (ht1 : dt < r) (hfit : db + dt < 2 * l) : ∃ s, Must2.polygon (⟨0, -l⟩ :: (lowerCorner l r db ++ (upperCorner l r dt ++ [⟨0, l⟩]))) = some s ∧
      Lip2 s.eval ∧ ∀ ρ z, (s.eval ⟨ρ, z⟩ < 0 ↔ InChamfered l r db dt ρ z) ∧ (0 < s.eval ⟨ρ, z⟩ ↔ BeyondChamfered l r db dt ρ z) := by
  have hl0 : 0 < l := by have : (0 : ℝ) < 1 / 10 ^ 9 := by norm_num
                         linarith
  have hr0 : 0 < r := by linarith
  have hends : ∀ (a b : V2), a = ⟨0, -l⟩ → b = ⟨0, l⟩ → ¬ V2.EqualWithin a b (1 / 1000000000) := by
    rintro a b rfl rfl ⟨-, h⟩
    simp only at h
    rw [abs_of_neg (by linarith)] at h
    norm_num at h hl
    linarith
  -- a point strictly within
  obtain ⟨ρ0, z0, hm⟩ : ∃ ρ0 z0, InChamfered l r db dt ρ0 z0 := by
    refine ⟨min (r - db) (r - dt) / 2, (db - dt) / 2, ?_⟩
    have h1 : 0 < min (r - db) (r - dt) := lt_min (by linarith) (by linarith)
    have h2 := min_le_left (r - db) (r - dt)
    have h3 := min_le_right (r - db) (r - dt)
    exact ⟨by linarith, by linarith, by linarith, by linarith, by linarith, by linarith⟩
  have main : ∀ v : List V2, Proper v → (∀ e ∈ sides v, ∀ w ∈ v, 0 ≤ leftOf e w) →
      (∀ ρ z, (∀ e ∈ sides v, 0 < leftOf e ⟨ρ, z⟩) ↔ InChamfered l r db dt ρ z) →
      (∀ ρ z, (∃ e ∈ sides v, leftOf e ⟨ρ, z⟩ < 0) ↔ BeyondChamfered l r db dt ρ z) →
      ∃ s, Must2.polygon v = some s ∧ Lip2 s.eval ∧
        ∀ ρ z, (s.eval ⟨ρ, z⟩ < 0 ↔ InChamfered l r db dt ρ z) ∧ (0 < s.eval ⟨ρ, z⟩ ↔ BeyondChamfered l r db dt ρ z) := by
    intro v hv hc hi ho
    obtain ⟨s, hs⟩ : ∃ s, Must2.polygon v = some s := by
      have := (C31_refuse v).not.mpr (not_lt.mpr hv.1)
      exact Option.ne_none_iff_exists'.mp this
    have hcv : ConvexAbout 1 v ⟨ρ0, z0⟩ := by
      refine ⟨.inl rfl, fun e he w hw => ?_, fun e he => ?_⟩
      · rw [one_mul]; exact hc e he w hw
      · rw [one_mul]; exact (hi ρ0 z0).mpr hm e he
    refine ⟨s, hs, C31_lipschitz v hv s hs, fun ρ z => ?_⟩
    have := C62_convex 1 v _ hcv hv s hs ⟨ρ, z⟩
    simp only [one_mul] at this
    rw [← hi, ← ho]
    exact this
  unfold lowerCorner upperCorner
  have l1 : ∀ x ρ z : ℝ, leftOf (⟨0, -l⟩, ⟨x, -l⟩) ⟨ρ, z⟩ = x * (z + l) := fun x ρ z => by
    simp only [leftOf, V2.cross, V2.sub]; ring
  have l2 : ∀ ρ z : ℝ, leftOf (⟨r - db, -l⟩, ⟨r, -l + db⟩) ⟨ρ, z⟩ = db * (r + l - db - (ρ - z)) := fun ρ z => by
    simp only [leftOf, V2.cross, V2.sub]; ring
  have l3 : ∀ y0 y1 ρ z : ℝ, leftOf (⟨r, y0⟩, ⟨r, y1⟩) ⟨ρ, z⟩ = (y1 - y0) * (r - ρ) := fun y0 y1 ρ z => by
    simp only [leftOf, V2.cross, V2.sub]; ring
  have l4 : ∀ ρ z : ℝ, leftOf (⟨r, l - dt⟩, ⟨r - dt, l⟩) ⟨ρ, z⟩ = dt * (r + l - dt - (ρ + z)) := fun ρ z => by
    simp only [leftOf, V2.cross, V2.sub]; ring
  have l5 : ∀ x ρ z : ℝ, leftOf (⟨x, l⟩, ⟨0, l⟩) ⟨ρ, z⟩ = x * (l - z) := fun x ρ z => by
    simp only [leftOf, V2.cross, V2.sub]; ring
  have l6 : ∀ ρ z : ℝ, leftOf (⟨0, l⟩, ⟨0, -l⟩) ⟨ρ, z⟩ = 2 * l * ρ := fun ρ z => by
    simp only [leftOf, V2.cross, V2.sub]; ring
  have p1 : 0 < r - db := by linarith
  have p5 : 0 < r - dt := by linarith
  have p6 : 0 < 2 * l := by linarith
  have neg : ∀ k z : ℝ, 0 < k → (k * z < 0 ↔ z < 0) := fun k z hk => by
    rw [← neg_pos, ← mul_neg, mul_pos_iff_of_pos_left hk, neg_pos]
  by_cases hdb : db = 0 <;> by_cases hdt : dt = 0
  all_goals first | rw [if_pos hdb] | rw [if_neg hdb]
  all_goals first | rw [if_pos hdt] | rw [if_neg hdt]
  · subst hdb hdt
    have p3 : 0 < l - -l := by linarith
    refine main _ ⟨by simp, ?_, ?_⟩ ?_ ?_ ?_
    · simp only [List.cons_append, List.nil_append, List.tail_cons, List.zip_cons_cons, List.zip_nil_right, List.forall_mem_cons, ne_eq, V2.mk.injEq,
        List.not_mem_nil, false_imp_iff, implies_true, and_true]
      refine ⟨?_, ?_, ?_⟩ <;> intro h <;> first | linarith | linarith [h.1, h.2]
    · intro a b ha hb
      exact .inr (hends a b (by simpa using ha.symm) (by simpa using hb.symm))
    · simp only [sides, List.cons_append, List.nil_append, List.rotate_cons_succ, List.rotate_zero, List.zip_cons_cons, List.zip_nil_right, List.forall_mem_cons, List.exists_mem_cons_iff, l1, l2, l3, l4, l5, l6, List.not_mem_nil, false_and, exists_false, or_false, false_imp_iff, implies_true, and_true]
      refine ⟨⟨?_, ?_, ?_, ?_⟩, ⟨?_, ?_, ?_, ?_⟩, ⟨?_, ?_, ?_, ?_⟩, ⟨?_, ?_, ?_, ?_⟩⟩
      all_goals first | exact mul_nonneg (by linarith) (by linarith)
    · intro ρ z
      simp only [sides, List.cons_append, List.nil_append, List.rotate_cons_succ, List.rotate_zero, List.zip_cons_cons, List.zip_nil_right, List.forall_mem_cons, List.exists_mem_cons_iff, l1, l2, l3, l4, l5, l6, List.not_mem_nil, false_and, exists_false, or_false, false_imp_iff, implies_true, and_true, mul_pos_iff_of_pos_left, hr0, p3, hr0, p6]
      unfold InChamfered
      constructor
      · rintro ⟨h0, h1, h2, h3⟩
        exact ⟨by linarith, by linarith, by linarith, by linarith, by linarith, by linarith⟩
      · rintro ⟨h0, h1, h2, h3, h4, h5⟩
        exact ⟨by linarith, by linarith, by linarith, by linarith⟩
    · intro ρ z
      simp only [sides, List.cons_append, List.nil_append, List.rotate_cons_succ, List.rotate_zero, List.zip_cons_cons, List.zip_nil_right, List.forall_mem_cons, List.exists_mem_cons_iff, l1, l2, l3, l4, l5, l6, List.not_mem_nil, false_and, exists_false, or_false, false_imp_iff, implies_true, and_true, neg _ _ hr0, neg _ _ p3, neg _ _ hr0, neg _ _ p6]
      unfold BeyondChamfered
      constructor
      · rintro (h | h | h | h)
        all_goals first
          | exact .inl (by linarith)
          | exact .inr (.inl (by linarith))
          | exact .inr (.inr (.inl (by linarith)))
          | exact .inr (.inr (.inr (.inl (by linarith))))
          | exact .inr (.inr (.inr (.inr (.inl (by linarith)))))
          | exact .inr (.inr (.inr (.inr (.inr (by linarith)))))
      · intro h
        by_contra hc
        push Not at hc
        obtain ⟨h0, h1, h2, h3⟩ := hc
        rcases h with h | h | h | h | h | h <;> linarith
  · subst hdb
    have p4 : 0 < dt := lt_of_le_of_ne ht (Ne.symm hdt)
    have p3 : 0 < l - dt - -l := by linarith
    refine main _ ⟨by simp, ?_, ?_⟩ ?_ ?_ ?_
    · simp only [List.cons_append, List.nil_append, List.tail_cons, List.zip_cons_cons, List.zip_nil_right, List.forall_mem_cons, ne_eq, V2.mk.injEq,
        List.not_mem_nil, false_imp_iff, implies_true, and_true]
      refine ⟨?_, ?_, ?_, ?_⟩ <;> intro h <;> first | linarith | linarith [h.1, h.2]
    · intro a b ha hb
      exact .inr (hends a b (by simpa using ha.symm) (by simpa using hb.symm))
    · simp only [sides, List.cons_append, List.nil_append, List.rotate_cons_succ, List.rotate_zero, List.zip_cons_cons, List.zip_nil_right, List.forall_mem_cons, List.exists_mem_cons_iff, l1, l2, l3, l4, l5, l6, List.not_mem_nil, false_and, exists_false, or_false, false_imp_iff, implies_true, and_true]
      refine ⟨⟨?_, ?_, ?_, ?_, ?_⟩, ⟨?_, ?_, ?_, ?_, ?_⟩, ⟨?_, ?_, ?_, ?_, ?_⟩, ⟨?_, ?_, ?_, ?_, ?_⟩, ⟨?_, ?_, ?_, ?_, ?_⟩⟩
      all_goals first | exact mul_nonneg (by linarith) (by linarith)
    · intro ρ z
      simp only [sides, List.cons_append, List.nil_append, List.rotate_cons_succ, List.rotate_zero, List.zip_cons_cons, List.zip_nil_right, List.forall_mem_cons, List.exists_mem_cons_iff, l1, l2, l3, l4, l5, l6, List.not_mem_nil, false_and, exists_false, or_false, false_imp_iff, implies_true, and_true, mul_pos_iff_of_pos_left, hr0, p3, p4, p5, p6]
      unfold InChamfered
      constructor
      · rintro ⟨h0, h1, h2, h3, h4⟩
        exact ⟨by linarith, by linarith, by linarith, by linarith, by linarith, by linarith⟩
      · rintro ⟨h0, h1, h2, h3, h4, h5⟩
        exact ⟨by linarith, by linarith, by linarith, by linarith, by linarith⟩
    · intro ρ z
      simp only [sides, List.cons_append, List.nil_append, List.rotate_cons_succ, List.rotate_zero, List.zip_cons_cons, List.zip_nil_right, List.forall_mem_cons, List.exists_mem_cons_iff, l1, l2, l3, l4, l5, l6, List.not_mem_nil, false_and, exists_false, or_false, false_imp_iff, implies_true, and_true, neg _ _ hr0, neg _ _ p3, neg _ _ p4, neg _ _ p5, neg _ _ p6]
      unfold BeyondChamfered
      constructor
      · rintro (h | h | h | h | h)
        all_goals first
          | exact .inl (by linarith)
          | exact .inr (.inl (by linarith))
          | exact .inr (.inr (.inl (by linarith)))
          | exact .inr (.inr (.inr (.inl (by linarith))))
          | exact .inr (.inr (.inr (.inr (.inl (by linarith)))))
          | exact .inr (.inr (.inr (.inr (.inr (by linarith)))))
      · intro h
        by_contra hc
        push Not at hc
        obtain ⟨h0, h1, h2, h3, h4⟩ := hc
        rcases h with h | h | h | h | h | h <;> linarith
  · subst hdt
    have p2 : 0 < db := lt_of_le_of_ne hb (Ne.symm hdb)
    have p3 : 0 < l - (-l + db) := by linarith
    refine main _ ⟨by simp, ?_, ?_⟩ ?_ ?_ ?_
    · simp only [List.cons_append, List.nil_append, List.tail_cons, List.zip_cons_cons, List.zip_nil_right, List.forall_mem_cons, ne_eq, V2.mk.injEq,
        List.not_mem_nil, false_imp_iff, implies_true, and_true]
      refine ⟨?_, ?_, ?_, ?_⟩ <;> intro h <;> first | linarith | linarith [h.1, h.2]
    · intro a b ha hb
      exact .inr (hends a b (by simpa using ha.symm) (by simpa using hb.symm))
    · simp only [sides, List.cons_append, List.nil_append, List.rotate_cons_succ, List.rotate_zero, List.zip_cons_cons, List.zip_nil_right, List.forall_mem_cons, List.exists_mem_cons_iff, l1, l2, l3, l4, l5, l6, List.not_mem_nil, false_and, exists_false, or_false, false_imp_iff, implies_true, and_true]
      refine ⟨⟨?_, ?_, ?_, ?_, ?_⟩, ⟨?_, ?_, ?_, ?_, ?_⟩, ⟨?_, ?_, ?_, ?_, ?_⟩, ⟨?_, ?_, ?_, ?_, ?_⟩, ⟨?_, ?_, ?_, ?_, ?_⟩⟩
      all_goals first | exact mul_nonneg (by linarith) (by linarith)
    · intro ρ z
      simp only [sides, List.cons_append, List.nil_append, List.rotate_cons_succ, List.rotate_zero, List.zip_cons_cons, List.zip_nil_right, List.forall_mem_cons, List.exists_mem_cons_iff, l1, l2, l3, l4, l5, l6, List.not_mem_nil, false_and, exists_false, or_false, false_imp_iff, implies_true, and_true, mul_pos_iff_of_pos_left, p1, p2, p3, hr0, p6]
      unfold InChamfered
      constructor
      · rintro ⟨h0, h1, h2, h3, h4⟩
        exact ⟨by linarith, by linarith, by linarith, by linarith, by linarith, by linarith⟩
      · rintro ⟨h0, h1, h2, h3, h4, h5⟩
        exact ⟨by linarith, by linarith, by linarith, by linarith, by linarith⟩
    · intro ρ z
      simp only [sides, List.cons_append, List.nil_append, List.rotate_cons_succ, List.rotate_zero, List.zip_cons_cons, List.zip_nil_right, List.forall_mem_cons, List.exists_mem_cons_iff, l1, l2, l3, l4, l5, l6, List.not_mem_nil, false_and, exists_false, or_false, false_imp_iff, implies_true, and_true, neg _ _ p1, neg _ _ p2, neg _ _ p3, neg _ _ hr0, neg _ _ p6]
      unfold BeyondChamfered
      constructor
      · rintro (h | h | h | h | h)
        all_goals first
          | exact .inl (by linarith)
          | exact .inr (.inl (by linarith))
          | exact .inr (.inr (.inl (by linarith)))
          | exact .inr (.inr (.inr (.inl (by linarith))))
          | exact .inr (.inr (.inr (.inr (.inl (by linarith)))))
          | exact .inr (.inr (.inr (.inr (.inr (by linarith)))))
      · intro h
        by_contra hc
        push Not at hc
        obtain ⟨h0, h1, h2, h3, h4⟩ := hc
        rcases h with h | h | h | h | h | h <;> linarith
  · have p2 : 0 < db := lt_of_le_of_ne hb (Ne.symm hdb)
    have p4 : 0 < dt := lt_of_le_of_ne ht (Ne.symm hdt)
    have p3 : 0 < l - dt - (-l + db) := by linarith
    refine main _ ⟨by simp, ?_, ?_⟩ ?_ ?_ ?_
    · simp only [List.cons_append, List.nil_append, List.tail_cons, List.zip_cons_cons, List.zip_nil_right, List.forall_mem_cons, ne_eq, V2.mk.injEq,
        List.not_mem_nil, false_imp_iff, implies_true, and_true]
      refine ⟨?_, ?_, ?_, ?_, ?_⟩ <;> intro h <;> first | linarith | linarith [h.1, h.2]
    · intro a b ha hb
      exact .inr (hends a b (by simpa using ha.symm) (by simpa using hb.symm))
    · simp only [sides, List.cons_append, List.nil_append, List.rotate_cons_succ, List.rotate_zero, List.zip_cons_cons, List.zip_nil_right, List.forall_mem_cons, List.exists_mem_cons_iff, l1, l2, l3, l4, l5, l6, List.not_mem_nil, false_and, exists_false, or_false, false_imp_iff, implies_true, and_true]
      refine ⟨⟨?_, ?_, ?_, ?_, ?_, ?_⟩, ⟨?_, ?_, ?_, ?_, ?_, ?_⟩, ⟨?_, ?_, ?_, ?_, ?_, ?_⟩, ⟨?_, ?_, ?_, ?_, ?_, ?_⟩, ⟨?_, ?_, ?_, ?_, ?_, ?_⟩, ⟨?_, ?_, ?_, ?_, ?_, ?_⟩⟩
      all_goals first | exact mul_nonneg (by linarith) (by linarith)
    · intro ρ z
      simp only [sides, List.cons_append, List.nil_append, List.rotate_cons_succ, List.rotate_zero, List.zip_cons_cons, List.zip_nil_right, List.forall_mem_cons, List.exists_mem_cons_iff, l1, l2, l3, l4, l5, l6, List.not_mem_nil, false_and, exists_false, or_false, false_imp_iff, implies_true, and_true, mul_pos_iff_of_pos_left, p1, p2, p3, p4, p5, p6]
      unfold InChamfered
      constructor
      · rintro ⟨h0, h1, h2, h3, h4, h5⟩
        exact ⟨by linarith, by linarith, by linarith, by linarith, by linarith, by linarith⟩
      · rintro ⟨h0, h1, h2, h3, h4, h5⟩
        exact ⟨by linarith, by linarith, by linarith, by linarith, by linarith, by linarith⟩
    · intro ρ z
      simp only [sides, List.cons_append, List.nil_append, List.rotate_cons_succ, List.rotate_zero, List.zip_cons_cons, List.zip_nil_right, List.forall_mem_cons, List.exists_mem_cons_iff, l1, l2, l3, l4, l5, l6, List.not_mem_nil, false_and, exists_false, or_false, false_imp_iff, implies_true, and_true, neg _ _ p1, neg _ _ p2, neg _ _ p3, neg _ _ p4, neg _ _ p5, neg _ _ p6]
      unfold BeyondChamfered
      constructor
      · rintro (h | h | h | h | h | h)
        all_goals first
          | exact .inl (by linarith)
          | exact .inr (.inl (by linarith))
          | exact .inr (.inr (.inl (by linarith)))
          | exact .inr (.inr (.inr (.inl (by linarith))))
          | exact .inr (.inr (.inr (.inr (.inl (by linarith)))))
          | exact .inr (.inr (.inr (.inr (.inr (by linarith)))))
      · intro h
        by_contra hc
        push Not at hc
        obtain ⟨h0, h1, h2, h3, h4, h5⟩ := hc
        rcases h with h | h | h | h | h | h <;> linarith

end Sdf
