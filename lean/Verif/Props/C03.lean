import Verif.Props.C02

/-!
C03: the stream of triangles does not depend on the buffers passed to `ReadTriangles`.
-/

namespace Sdf.Octree

/-- Two complete reads of the same shape at the same resolution, with any sequences of non-empty buffers (of any
sizes and initial contents), deliver the same multiset of triangles. -/
theorem C03_stream_independent_of_buffers (deg : Tri → Bool) (s : SDF3) (meshCells : ℤ) (hb : s.bounds.Solid)
    (oc₁ oc₁' oc₂ oc₂' : State) (outs₁ outs₂ : List (List Tri))
    (h₁ : new s meshCells = some oc₁) (h₂ : new s meshCells = some oc₂)
    (r₁ : Calls deg oc₁ outs₁ oc₁' true) (r₂ : Calls deg oc₂ outs₂ oc₂' true) :
    outs₁.flatten.Perm outs₂.flatten := by
  rw [h₁] at h₂
  simp only [Option.some.injEq] at h₂
  subst h₂
  exact (complete_perm hb ⟨oc₁, h₁, rfl⟩ r₁).trans (complete_perm hb ⟨oc₁, h₁, rfl⟩ r₂).symm

/-- At every moment, what has been delivered is part of what a complete read delivers: nothing is duplicated or
altered along the way. -/
theorem C03_prefix_subperm (deg : Tri → Bool) (s : SDF3) (meshCells : ℤ) (hb : s.bounds.Solid)
    (oc oc₁ oc₂ : State) (outs₁ outs₂ : List (List Tri)) (h : new s meshCells = some oc) (eof : Bool)
    (r₁ : Calls deg oc outs₁ oc₁ eof) (r₂ : Calls deg oc outs₂ oc₂ true) :
    outs₁.flatten.Subperm outs₂.flatten := by
  have h0 : Initial s meshCells oc := ⟨oc, h, rfl⟩
  have f := initial_facts hb h0
  have hs := calls_spec (initial_ok f) r₁
  have hp := hs.perm
  simp only [pending, f.todo, f.unwritten, List.nil_append, List.flatMap_cons, List.flatMap_nil, List.append_nil] at hp
  have hc := complete_perm hb h0 r₂
  rw [f.levels] at hc
  exact (List.sublist_append_left _ _).subperm.trans (hp.symm.trans hc.symm).subperm

/-- Complete reads exist for the unit ball, for any buffers: see `C04`. Here: one call exists. -/
example : ∃ oc oc' r, new unitBall 2 = some oc ∧ ReadTriangles (fun _ => false) oc [default] oc' r := by
  obtain ⟨oc, h⟩ : ∃ oc, new unitBall 2 = some oc := Option.ne_none_iff_exists'.mp
    ((not_congr (C02_new_panics_iff unitBall 2 unitBall_solid)).mpr (by norm_num))
  obtain ⟨oc', r, hr⟩ := read_progress (fun _ => false) (initial_ok (initial_facts (oc := oc) unitBall_solid ⟨oc, h, rfl⟩))
    [default] (by simp)
  exact ⟨oc, oc', r, h, hr⟩

end Sdf.Octree
