import Verif.Model.Chamfer
import Verif.Props.C32PolygonBuilder

/-!
C33: the error-returning constructors.  A panic of the underlying `must2`/`must3` constructor is reported as an error, a
shape is returned exactly for the dimensions listed here.  `form2.Nagon` breaks the rule: with fewer than three corners it
returns neither a polygon nor an error (`C33_nagon_silent`).
-/

namespace Sdf
open Must2

/-- `form` wraps `must`: for valid dimensions both give the same shape and there is no error; for all others `must`
panics and `form` returns an error and no shape. -/
def Wraps {α : Type} (must : Option α) (form : Option (Returned α)) (valid : Prop) : Prop :=
  (valid → ∃ s, must = some s ∧ form = some ⟨some s, false⟩) ∧ (¬ valid → must = none ∧ form = some ⟨none, true⟩)

theorem C33_sphere (r : ℝ) : Wraps (Must3.sphere r) (Form3.sphere r) (0 < r) := by
  unfold Wraps Form3.sphere Must3.sphere
  constructor
  · intro h; rw [if_neg (by linarith)]; exact ⟨_, rfl, rfl⟩
  · intro h; rw [if_pos (by linarith)]; exact ⟨rfl, rfl⟩

theorem C33_box3 (size : V3) (round : ℝ) :
    Wraps (Must3.box size round) (Form3.box size round) (0 < size.x ∧ 0 < size.y ∧ 0 < size.z ∧ 0 ≤ round) := by
  unfold Wraps Form3.box Must3.box V3.LTEZero
  constructor
  · rintro ⟨h1, h2, h3, h4⟩
    rw [if_neg (by simp only [not_or, not_le]; exact ⟨h1, h2, h3⟩), if_neg (by linarith)]
    exact ⟨_, rfl, rfl⟩
  · intro h
    split_ifs with h1 h2
    · exact ⟨rfl, rfl⟩
    · exact ⟨rfl, rfl⟩
    · simp only [not_or, not_le] at h1
      exact absurd ⟨h1.1, h1.2.1, h1.2.2, not_lt.mp h2⟩ h

theorem C33_cylinder (height radius round : ℝ) :
    Wraps (Must3.cylinder height radius round) (Form3.cylinder height radius round)
      (0 < radius ∧ 0 ≤ round ∧ round ≤ radius ∧ 2 * round ≤ height) := by
  unfold Wraps Form3.cylinder Must3.cylinder
  constructor
  · rintro ⟨h1, h2, h3, h4⟩
    rw [if_neg (by linarith), if_neg (by linarith), if_neg (by linarith), if_neg (by norm_num; linarith)]
    exact ⟨_, rfl, rfl⟩
  · intro h
    split_ifs with h1 h2 h3 h4
    · exact ⟨rfl, rfl⟩
    · exact ⟨rfl, rfl⟩
    · exact ⟨rfl, rfl⟩
    · exact ⟨rfl, rfl⟩
    · norm_num at h4
      exact absurd ⟨not_le.mp h1, not_lt.mp h2, not_lt.mp h3, h4⟩ h

theorem C33_capsule (height radius : ℝ) :
    Wraps (Must3.cylinder height radius radius) (Form3.capsule height radius) (0 < radius ∧ 2 * radius ≤ height) := by
  have := C33_cylinder height radius radius
  refine ⟨fun h => this.1 ⟨h.1, h.1.le, le_rfl, h.2⟩, fun h => this.2 fun h' => h ⟨h'.1, h'.2.2.2⟩⟩

theorem C33_cone (height r0 r1 round : ℝ) :
    Wraps (Must3.cone height r0 r1 round) (Form3.cone height r0 r1 round) (0 < height ∧ 0 ≤ round ∧ 2 * round ≤ height) := by
  unfold Wraps Form3.cone Must3.cone
  constructor
  · rintro ⟨h1, h2, h4⟩
    rw [if_neg (by linarith), if_neg (by linarith), if_neg (by norm_num; linarith)]
    exact ⟨_, rfl, rfl⟩
  · intro h
    split_ifs with h1 h2 h4
    · exact ⟨rfl, rfl⟩
    · exact ⟨rfl, rfl⟩
    · exact ⟨rfl, rfl⟩
    · norm_num at h4
      exact absurd ⟨not_le.mp h1, not_lt.mp h2, h4⟩ h

theorem C33_circle (r : ℝ) : Wraps (Must2.circle r) (Form2.circle r) (0 ≤ r) := by
  unfold Wraps Form2.circle Must2.circle
  constructor
  · intro h; rw [if_neg (by linarith)]; exact ⟨_, rfl, rfl⟩
  · intro h; rw [if_pos (by linarith)]; exact ⟨rfl, rfl⟩

theorem C33_box2 (size : V2) (round : ℝ) : Wraps (some (Must2.box size round)) (Form2.box size round) True :=
  ⟨fun _ => ⟨_, rfl, rfl⟩, fun h => absurd trivial h⟩

theorem C33_line (l round : ℝ) : Wraps (some (Must2.line l round)) (Form2.line l round) True :=
  ⟨fun _ => ⟨_, rfl, rfl⟩, fun h => absurd trivial h⟩

theorem C33_polygon (v : List V2) : Wraps (Must2.polygon v) (Form2.polygon v) (3 ≤ v.length) := by
  unfold Wraps Form2.polygon
  constructor
  · intro h
    match v, h with
    | a :: b :: c :: t, _ => exact ⟨_, rfl, rfl⟩
  · intro h
    match v, h with
    | [], _ => exact ⟨rfl, rfl⟩
    | [_], _ => exact ⟨rfl, rfl⟩
    | [_, _], _ => exact ⟨rfl, rfl⟩
    | _ :: _ :: _ :: _, h => simp at h

/-- A regular polygon with at least three corners: the corners lie on the circle at multiples of `2π/n`. -/
theorem C33_nagon_partial (n : ℤ) (r : ℝ) (hn : 3 ≤ n) : Form2.nagon n r = some ⟨some ((List.range n.toNat).map fun i : ℕ =>
    (⟨r * Real.cos (i * (2 * Real.pi / n)), r * Real.sin (i * (2 * Real.pi / n))⟩ : V2)), false⟩ := by
  unfold Form2.nagon Must2.nagon
  rw [if_neg (by omega)]
  congr 3
  refine List.map_congr_left fun i _ => ?_
  rw [rotate_iter]
  simp only [M22.rotate, M22.mulPosition, V2.mk.injEq]
  constructor <;> ring

/-- With fewer corners there is neither a polygon nor an error. -/
theorem C33_nagon_silent (n : ℤ) (r : ℝ) (hn : n < 3) : Form2.nagon n r = some ⟨none, false⟩ := by
  unfold Form2.nagon Must2.nagon
  rw [if_pos hn]

theorem chamfer_valid (x : V2) (k : ℝ) : ((PV.plain x).chamfer k).Valid ∧ ((PV.plain x).chamfer k).relative = false ∧
    ((PV.plain x).chamfer k).vtype ≠ .arc := by
  unfold PV.chamfer
  split
  · exact ⟨Or.inr le_rfl, rfl, by simp⟩
  · exact ⟨Or.inl rfl, rfl, by simp [PV.plain]⟩

theorem vertices_length (b b' : Builder) (fuel : ℕ) (vs : List V2) (hr : b.Resolvable) (hv : ∀ v ∈ b.vlist, v.Valid)
    (h : b.vertices fuel = .ok (vs, b')) : b.vlist.length ≤ vs.length := by
  unfold Builder.vertices at h
  by_cases hn : b.isNil = true
  · rw [if_pos hn] at h; simp at h
  rw [if_neg hn] at h
  rcases hfx : b.fixups fuel with c | _ | _
  · rw [hfx] at h
    simp only [Outcome.ok.injEq, Prod.mk.injEq] at h
    obtain ⟨hvs, rfl⟩ := h
    unfold Builder.fixups at hfx
    rw [C32_relative b hr] at hfx
    simp only at hfx
    split at hfx
    · rename_i b2 h2
      let P : Builder → Prop := fun c => (∀ v ∈ c.vlist, v.Valid) ∧ b.vlist.length ≤ c.vlist.length
      have s1 : P b2 := by
        refine passes_inv P ?_ fuel _ b2 h2 ⟨resolve_valid _ hv _, by simp [resolve_length]⟩
        intro c i c' r hstep hc
        have hi : i < c.vlist.length := by
          obtain ⟨A, v, B, hl, hA, _⟩ := arcVertex_cases hstep
          rw [hl]; simp; omega
        obtain ⟨c'', r', h', hb', hlen⟩ := arcVertex_total c i hc.1 hi
        rw [hstep] at h'
        simp only [Option.some.injEq, Prod.mk.injEq] at h'
        rw [h'.1]; exact ⟨hb', hc.2.trans hlen⟩
      have s2 : P c := by
        refine passes_inv P ?_ fuel _ c hfx s1
        intro c i c' r hstep hc
        have hi : i < c.vlist.length := by
          obtain ⟨A, v, B, hl, hA, _⟩ := smoothVertex_cases hstep
          rw [hl]; simp; omega
        obtain ⟨c'', r', h', hb', hlen⟩ := smoothVertex_total c i hc.1 hi
        rw [hstep] at h'
        simp only [Option.some.injEq, Prod.mk.injEq] at h'
        rw [h'.1]; exact ⟨hb', hc.2.trans hlen⟩
      refine s2.2.trans ?_
      rw [← hvs]
      split <;> simp
    · rename_i r h2
      rw [hfx] at h2
      exact absurd rfl (h2 c)
  · rw [hfx] at h; simp at h
  · rw [hfx] at h; simp at h

/-- `ChamferedCylinder`, which has no `recover`, never panics for any shape and any chamfers, and reports no error. -/
theorem C33_chamfered_cylinder (s : SDF3) (kb kt : ℝ) :
    ∃ n, ∀ fuel ≥ n, ∃ c, Form3.chamferedCylinder fuel (some s) kb kt = .ok ⟨some c, false⟩ ∧
      Must3.chamferedCylinder fuel (some s) kb kt = .ok c := by
  set b := Must3.chamferProfile s.bounds.hi.z s.bounds.hi.x kb kt with hb
  have hl : b.vlist = [PV.plain ⟨0, -s.bounds.hi.z⟩, (PV.plain ⟨s.bounds.hi.x, -s.bounds.hi.z⟩).chamfer (s.bounds.hi.x * kb),
      (PV.plain ⟨s.bounds.hi.x, s.bounds.hi.z⟩).chamfer (s.bounds.hi.x * kt), PV.plain ⟨0, s.bounds.hi.z⟩] := rfl
  have hr : b.Resolvable := Or.inl ⟨_, by rw [hl]; rfl, rfl⟩
  have hv : ∀ v ∈ b.vlist, v.Valid := by
    intro v hv
    rw [hl] at hv
    simp only [List.mem_cons, List.not_mem_nil, or_false] at hv
    rcases hv with rfl | rfl | rfl | rfl
    · exact Or.inl rfl
    · exact (chamfer_valid _ _).1
    · exact (chamfer_valid _ _).1
    · exact Or.inl rfl
  obtain ⟨n, hn⟩ := C32_no_panic_partial b rfl hr hv
  refine ⟨n, fun fuel hf => ?_⟩
  obtain ⟨vs, b', h⟩ := hn fuel hf
  have hlen := vertices_length b b' fuel vs hr hv h
  rw [hl] at hlen
  obtain ⟨p, hp, -⟩ := (C33_polygon vs).1 (by simp at hlen; omega)
  have key : Must3.chamferedCylinder fuel (some s) kb kt = .ok (SDF3.intersect s (SDF3.revolve p (2 * Real.pi))) := by
    unfold Must3.chamferedCylinder
    simp only
    rw [← hb, h]
    simp only [hp]
  exact ⟨_, by rw [Form3.chamferedCylinder, key], key⟩

/-! Non-vacuity: accepted and refused dimensions. -/
example : ∃ s, Form3.cylinder 2 1 0.25 = some ⟨some s, false⟩ := by
  obtain ⟨s, _, h⟩ := (C33_cylinder 2 1 0.25).1 (by norm_num); exact ⟨s, h⟩
example : Form3.cylinder 2 1 3 = some ⟨none, true⟩ := ((C33_cylinder 2 1 3).2 (by norm_num)).2

end Sdf
