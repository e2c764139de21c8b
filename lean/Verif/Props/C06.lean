import Verif.Props.C04

/-!
C06: concurrent rendering gives the same mesh.
-/

namespace Sdf.Octree

/-- Reading a renderer to the end with `k₁` goroutines and another one with `k₂` goroutines (0 means single-threaded),
under any schedules and with any buffers, delivers the same multiset of triangles. The triangles counted are exactly
those in `dst[:n]` of each call, so in concurrent mode they are packed at the front of the buffer. -/
theorem C06_concurrent_same_mesh (deg : Tri → Bool) (s : SDF3) (meshCells : ℤ) (hb : s.bounds.Solid) (oc oc₁' oc₂' : State)
    (k₁ k₂ : Nat) (outs₁ outs₂ : List (List Tri)) (h : new s meshCells = some oc)
    (r₁ : Calls deg { oc with concurrent := k₁ } outs₁ oc₁' true)
    (r₂ : Calls deg { oc with concurrent := k₂ } outs₂ oc₂' true) :
    outs₁.flatten.Perm outs₂.flatten :=
  (complete_perm hb (oc := { oc with concurrent := k₁ }) ⟨oc, h, rfl⟩ r₁).trans
    (complete_perm hb (oc := { oc with concurrent := k₂ }) ⟨oc, h, rfl⟩ r₂).symm

/-- One threaded call: nothing is lost or duplicated between the workers.  What the call delivers at the front of the
buffer, together with what a complete read delivers afterwards, is what a complete read from before would deliver. -/
theorem C06_threaded_call_packs (deg : Tri → Bool) (s : SDF3) (meshCells : ℤ) (hb : s.bounds.Solid) (oc oc' : State)
    (eof : Bool) (hr : Reachable deg s meshCells oc eof) (dst : List Tri) (r : ReadResult)
    (h : ReadTriangles deg oc dst oc' r)
    (outs outs' : List (List Tri)) (e e' : State) (h1 : Calls deg oc outs e true) (h2 : Calls deg oc' outs' e' true) :
    outs.flatten.Perm (r.dst.take r.n ++ outs'.flatten) := by
  obtain ⟨oc0, o0, h0, hc⟩ := hr
  have hok := (calls_spec (initial_ok (initial_facts hb h0)) hc).ok
  have hs := read_spec hok h
  have f1 := calls_spec hok h1
  have f2 := calls_spec hs.ok h2
  have z1 : pending deg e = [] := by
    obtain ⟨a, b⟩ := f1.eof_done rfl; unfold pending; rw [a, b]; rfl
  have z2 : pending deg e' = [] := by
    obtain ⟨a, b⟩ := f2.eof_done rfl; unfold pending; rw [a, b]; rfl
  have p1 := f1.perm
  have p2 := f2.perm
  rw [z1, List.append_nil] at p1
  rw [z2, List.append_nil] at p2
  exact p1.symm.trans (hs.perm.trans (List.Perm.append_left _ p2))

/-- A pool of four workers on the unit ball runs to completion. -/
example : ∃ oc outs oc', new unitBall 2 = some oc ∧ Calls (fun _ => false) { oc with concurrent := 4 } outs oc' true := by
  obtain ⟨oc, h⟩ : ∃ oc, new unitBall 2 = some oc := Option.ne_none_iff_exists'.mp
    ((not_congr (C02_new_panics_iff unitBall 2 unitBall_solid)).mpr (by norm_num))
  obtain ⟨outs, oc', hc⟩ := calls_extend (deg := fun _ => false) (fun _ => [default, default, default, default, default, default]) (by simp) (measure { oc with concurrent := 4 })
    { oc with concurrent := 4 } { oc with concurrent := 4 } []
    (initial_ok (initial_facts (oc := { oc with concurrent := 4 }) unitBall_solid ⟨oc, h, rfl⟩)) .nil (le_refl _)
  exact ⟨oc, outs, oc', h, hc⟩

end Sdf.Octree
