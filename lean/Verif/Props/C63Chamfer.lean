import Verif.Lemmas.ChamferProfile
import Verif.Props.C35Bolts

/-! C63: what `ChamferedCylinder` cuts off. -/

namespace Sdf
open Must2 Polygon Thread

/-- The plain cylinder about the `z` axis with radius `r` between the heights `-l` and `l`, its lower and upper rim cut off at 45 degrees so
that `db` and `dt` are gone of its side and of its ends. -/
def InChamferedCylinder (l r db dt : ℝ) (p : V3) : Prop :=
  axisDist p < r ∧ |p.z| < l ∧ axisDist p - p.z < r + l - db ∧ axisDist p + p.z < r + l - dt

/-- Beyond it: outside and not on its surface. -/
def BeyondChamferedCylinder (l r db dt : ℝ) (p : V3) : Prop :=
  r < axisDist p ∨ l < |p.z| ∨ r + l - db < axisDist p - p.z ∨ r + l - dt < axisDist p + p.z

theorem must_chamfered (s : SDF3) (kb kt : ℝ) (hb : 0 ≤ kb) (ht : 0 ≤ kt) (hr : 0 < s.bounds.hi.x) (hl : 1 / 10 ^ 9 < 2 * s.bounds.hi.z)
    (hb1 : kb * Must2.sqrtHalf < 1) (ht1 : kt * Must2.sqrtHalf < 1)
    (hfit : s.bounds.hi.x * kb * Must2.sqrtHalf + s.bounds.hi.x * kt * Must2.sqrtHalf < 2 * s.bounds.hi.z) (fuel : ℕ) :
    ∃ c, Must3.chamferedCylinder (fuel + 2) (some s) kb kt = .ok c ∧ ∀ p,
      (c.Inside p ↔ s.Inside p ∧ 0 < axisDist p ∧
        InChamferedCylinder s.bounds.hi.z s.bounds.hi.x (s.bounds.hi.x * kb * Must2.sqrtHalf) (s.bounds.hi.x * kt * Must2.sqrtHalf) p) ∧
      (0 < c.eval p ↔ 0 < s.eval p ∨
        BeyondChamferedCylinder s.bounds.hi.z s.bounds.hi.x (s.bounds.hi.x * kb * Must2.sqrtHalf) (s.bounds.hi.x * kt * Must2.sqrtHalf) p) := by
  have hsq : 0 < Must2.sqrtHalf := by norm_num [Must2.sqrtHalf]
  have lt : ∀ k, k * Must2.sqrtHalf < 1 → s.bounds.hi.x * k * Must2.sqrtHalf < s.bounds.hi.x := fun k h => by
    rw [mul_assoc]; nlinarith
  obtain ⟨b', hv⟩ := chamfer_vertices hr hb ht hb1.le ht1.le hfit.le fuel
  obtain ⟨q, hq, -, hreg⟩ := chamfer_polygon hl (by positivity) (by positivity) (lt _ hb1) (lt _ ht1) hfit
  refine ⟨SDF3.intersect s (SDF3.revolve q (2 * Real.pi)), ?_, fun p => ?_⟩
  · unfold Must3.chamferedCylinder
    simp only [hv, hq]
  have h0 : 0 ≤ axisDist p := V2.norm_nonneg _
  obtain ⟨h1, h2⟩ := hreg (axisDist p) p.z
  have hrev : (SDF3.revolve q (2 * Real.pi)).eval p = q.eval ⟨axisDist p, p.z⟩ := by
    rw [revolve_full q (by norm_num [tolerance])]; rfl
  constructor
  · rw [C16_intersect3, SDF3.Inside, SDF3.Inside, hrev, h1, InChamfered, InChamferedCylinder, abs_lt]
    tauto
  · rw [show (SDF3.intersect s (SDF3.revolve q (2 * Real.pi))).eval p = max (s.eval p) ((SDF3.revolve q (2 * Real.pi)).eval p) from rfl,
      lt_max_iff, hrev, h2, BeyondChamfered, BeyondChamferedCylinder, lt_abs]
    have : ¬ axisDist p < 0 := not_lt.mpr h0
    have : p.z < -s.bounds.hi.z ↔ s.bounds.hi.z < -p.z := by constructor <;> intro h <;> linarith
    tauto

/-- `ChamferedCylinder` of a shape with the chamfer factors `kb` and `kt` is what the shape has in common with the cylinder up to the upper
limits of its bounds whose rims are cut off at 45 degrees, with chamfers of length `kb` and `kt` times the radius (`h` is `√½` to 15 digits, so
that a chamfer of length `k` takes `k h` off each face) -- but for the axis, which never belongs to it. -/
theorem C63_chamfered_partial : ∃ h : ℝ, |Real.sqrt 2 * h - 1| ≤ 1 / 10 ^ 15 ∧
    ∀ (s : SDF3) (kb kt : ℝ), 0 ≤ kb → 0 ≤ kt → 0 < s.bounds.hi.x → 1 / 10 ^ 9 < 2 * s.bounds.hi.z → kb * h < 1 → kt * h < 1 →
      s.bounds.hi.x * kb * h + s.bounds.hi.x * kt * h < 2 * s.bounds.hi.z →
      ∀ fuel ≥ 2, ∃ c, Form3.chamferedCylinder fuel (some s) kb kt = .ok ⟨some c, false⟩ ∧ ∀ p,
        (c.Inside p ↔ s.Inside p ∧ 0 < axisDist p ∧
          InChamferedCylinder s.bounds.hi.z s.bounds.hi.x (s.bounds.hi.x * kb * h) (s.bounds.hi.x * kt * h) p) ∧
        (0 < c.eval p ↔ 0 < s.eval p ∨
          BeyondChamferedCylinder s.bounds.hi.z s.bounds.hi.x (s.bounds.hi.x * kb * h) (s.bounds.hi.x * kt * h) p) := by
  refine ⟨Must2.sqrtHalf, sqrtHalf_close, fun s kb kt h1 h2 h3 h4 h5 h6 h7 fuel hf => ?_⟩
  obtain ⟨m, rfl⟩ := Nat.exists_eq_add_of_le' hf
  obtain ⟨c, hc, h⟩ := must_chamfered s kb kt h1 h2 h3 h4 h5 h6 h7 m
  exact ⟨c, by rw [Form3.chamferedCylinder, hc], h⟩

/-- The full claim is false: the middle of a plain cylinder, chamfered at both ends, is not inside it. -/
theorem C63_axis_wrong : ∃ s c, Form3.cylinder 10 3 0 = some ⟨some s, false⟩ ∧ Form3.chamferedCylinder 2 (some s) 0.5 0.5 = .ok ⟨some c, false⟩ ∧
    s.Inside ⟨0, 0, 0⟩ ∧ InChamferedCylinder 5 3 (3 * 0.5 * 0.8) (3 * 0.5 * 0.8) ⟨0, 0, 0⟩ ∧ ¬ c.Inside ⟨0, 0, 0⟩ ∧ c.Inside ⟨1 / 10 ^ 9, 0, 0⟩ := by
  obtain ⟨s, hs, hf⟩ := (C33_cylinder 10 3 0).1 ⟨by norm_num, le_rfl, by norm_num, by norm_num⟩
  have hsh := (rounded_cyl hs)
  have hbx : s.bounds.hi.x = 3 ∧ s.bounds.hi.z = 5 := by
    unfold Must3.cylinder at hs
    norm_num at hs
    subst hs
    constructor <;> norm_num
  obtain ⟨c, hc, h⟩ := must_chamfered s 0.5 0.5 (by norm_num) (by norm_num) (by rw [hbx.1]; norm_num) (by rw [hbx.2]; norm_num)
    (by norm_num [Must2.sqrtHalf]) (by norm_num [Must2.sqrtHalf]) (by rw [hbx.1, hbx.2]; norm_num [Must2.sqrtHalf]) 0
  have a0 : axisDist ⟨0, 0, 0⟩ = 0 := by simp [axisDist, V2.norm]
  have a1 : axisDist ⟨1 / 10 ^ 9, 0, 0⟩ = 1 / 10 ^ 9 := by
    unfold axisDist
    rw [show (⟨(⟨1 / 10 ^ 9, 0, 0⟩ : V3).x, (⟨1 / 10 ^ 9, 0, 0⟩ : V3).y⟩ : V2) = V2.scale (1 / 10 ^ 9) ⟨1, 0⟩ by simp [V2.scale], V2.norm_scale,
      V2.norm_eq_of zero_le_one (by norm_num), abs_of_pos (by norm_num), mul_one]
  refine ⟨s, c, hf, by rw [Form3.chamferedCylinder, hc], ?_, ?_, ?_, ?_⟩
  · exact (hsh _).2 (by rw [a0]; norm_num) (by norm_num) (by norm_num)
  · unfold InChamferedCylinder; rw [a0]; norm_num
  · rw [(h _).1, a0]; simp
  · rw [(h _).1, InChamferedCylinder, hbx.1, hbx.2, a1]
    refine ⟨(hsh _).2 (by rw [a1]; norm_num) (by norm_num) (by norm_num), by norm_num, by norm_num, by norm_num, ?_, ?_⟩ <;>
      norm_num [Must2.sqrtHalf]

/-- So no bolt has its axis inside, from the end of the shank on: the threaded part of every bolt is pierced. -/
theorem C63_bolt_wrong (k : BoltParms) (t : Threader) (f : SDF2) (hk : k.thread = some t) (ht : t.thread = .ok ⟨some f, false⟩)
    (hF : 0 < t.params.hexF2F) (hs : k.style = .hex) (h1 : 0 < t.params.radius) (h2 : 0.08 * t.params.hexHeight ≤ t.params.radius)
    (h3 : 0 ≤ k.shankLength) (h4 : k.shankLength < k.totalLength) (h0 : t.params.taper = 0) (hy : 0 < f.bounds.hi.y)
    (hlen : 1 / 10 ^ 9 < k.totalLength - k.shankLength) (hch : f.bounds.hi.y < 2 * (k.totalLength - k.shankLength)) :
    ∃ n, ∀ fuel ≥ n, ∃ u, bolt fuel k = .ok ⟨some u, false⟩ ∧ ∀ p, axisDist p = 0 → t.params.hexHeight / 2 + k.shankLength ≤ p.z → ¬ u.Inside p := by
  obtain ⟨n, hn⟩ := bolt_parts k t f hk ht hF (.inl hs) h1 h2 h3 h4
  refine ⟨n + 2, fun fuel hf => ?_⟩
  obtain ⟨head, shank, sc, ch, hhead, hsh, hsc, hch', hb⟩ := hn fuel (by omega)
  refine ⟨_, hb, fun p ha hz => ?_⟩
  have hhead' : hexHead t.params.hexRadius t.params.hexHeight false = ⟨some head, false⟩ := by
    rcases hhead with h | h
    · exact h.2
    · rw [hs] at h; cases h.1
  have hh0 : 0 < t.params.hexHeight := by rw [hexHeight_eq]; have := (hexRadius_pos t.params).mpr hF; positivity
  have hbx : sc.bounds.hi.x = f.bounds.hi.y ∧ sc.bounds.hi.z = (k.totalLength - k.shankLength) / 2 := by
    obtain ⟨-, g, hg, rfl⟩ := screw_ok hsc
    rw [ht] at hg
    cases hg
    simp [screwOf, h0]
  obtain ⟨m, rfl⟩ := Nat.exists_eq_add_of_le' (show 2 ≤ fuel by omega)
  obtain ⟨c, hc, h⟩ := must_chamfered sc 0 0.5 le_rfl (by norm_num) (by rw [hbx.1]; exact hy) (by rw [hbx.2]; linarith)
    (by norm_num) (by norm_num [Must2.sqrtHalf]) (by rw [hbx.1, hbx.2]; norm_num [Must2.sqrtHalf]; linarith) m
  rw [hc] at hch'
  cases hch'
  rw [C16_union3]
  simp only [List.mem_cons, List.not_mem_nil, or_false, exists_eq_or_imp, exists_eq_left, translate3_inside]
  rintro (h | ⟨q, h, rfl⟩ | ⟨q, hq, rfl⟩)
  · have := abs_lt.mp (hexHead_height hhead' h)
    linarith
  · have := abs_lt.mp ((rounded_cyl hsh q).1 h).2
    simp only [V3.add] at hz
    linarith
  · have := ((h q).1.mp hq).2.1
    simp only [axisDist, V3.add, add_zero] at ha this
    linarith

end Sdf
