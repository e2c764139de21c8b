import Verif.Lemmas.RenderAll
import Verif.Props.C04

/-!
C05: does `RenderAll` return every triangle the renderer delivers?  It does not: triangles delivered together with
`io.EOF` are dropped (/repo/render/io.go:17-21).
-/

namespace Sdf.Octree

/-- What `RenderAll` does return: exactly the triangles of all calls but the last one, which is the call that
returned `io.EOF`.  Missing for the full property: the triangles of that last call. -/
theorem C05_renderAll_partial (deg : Tri → Bool) (oc oc' : State) (result : List Tri)
    (h : RenderAll deg oc oc' result) :
    ∃ outs last, Calls deg oc (outs ++ [last]) oc' true ∧ result = outs.flatten := by
  induction h with
  | stop _ hr he =>
    have := Calls.more .nil hr
    rw [he] at this
    exact ⟨[], _, this, rfl⟩
  | more _ hr he _ ih =>
    obtain ⟨outs, last, hc, rfl⟩ := ih
    exact ⟨_ :: outs, last, calls_cons hr he hc, rfl⟩

/-- On a fresh renderer everything is returned except for fewer than 1024 triangles, those of the last call. -/
theorem C05_renderAll_fresh_partial (deg : Tri → Bool) (s : SDF3) (meshCells : ℤ) (hb : s.bounds.Solid) (oc oc' oc₂ : State)
    (result : List Tri) (h0 : Initial s meshCells oc) (h : RenderAll deg oc oc' result)
    (outs : List (List Tri)) (hc : Calls deg oc outs oc₂ true) :
    ∃ lost, (result ++ lost).Perm outs.flatten ∧ lost.length < 1024 := by
  obtain ⟨outs', last, hc', rfl⟩ := C05_renderAll_partial deg oc oc' result h
  refine ⟨last, ?_, ?_⟩
  · have := (complete_perm hb h0 hc').trans (complete_perm hb h0 hc).symm
    simpa using this
  · have key : ∀ {oc oc' result}, StateOk oc → RenderAll deg oc oc' result → ∀ {L : List Tri},
        (pending deg oc).Perm (result ++ L) → L.length < 1024 := by
      intro oc oc' result hok h
      induction h with
      | stop hlen hr he =>
        rename_i ocA buf ocB r
        intro L hp
        have hs := read_spec hok hr
        obtain ⟨e1, e2⟩ := hs.eof he
        have hp2 := hs.perm
        simp only [pending, e1, e2, List.flatMap_nil, List.append_nil] at hp2
        have := hp2.length_eq
        have hp' := hp.length_eq
        simp only [List.nil_append] at hp'
        cases hr with
        | full => simp at he
        | eof _ hl ht =>
          simp only [pending, ht, List.flatMap_nil, List.append_nil] at hp'
          omega
        | single => simp at he
        | threaded => simp at he
      | more hlen hr he _ ih =>
        intro L hp
        have hs := read_spec hok hr
        apply ih hs.ok (L := L)
        have hp2 := hs.perm
        rw [List.append_assoc] at hp
        exact (List.perm_append_left_iff _).mp (hp2.symm.trans hp)
    have f := initial_facts hb h0
    have hs := calls_spec (initial_ok f) hc'
    refine key (initial_ok f) h (L := last) ?_
    obtain ⟨e1, e2⟩ := hs.eof_done rfl
    have := hs.perm
    have e : pending deg oc' = [] := by unfold pending; rw [e1, e2]; rfl
    rw [e] at this
    simpa using this

/-! ### The loss -/

/-- `RenderAll` does lose triangles: there are renderers, reached from a fresh renderer of the unit ball by ordinary
`ReadTriangles` calls, that still deliver triangles when read to the end, but for which `RenderAll` returns none.
This holds for every degeneracy test that only rejects triangles with two equal corners. -/
theorem C05_renderAll_loses_triangles (deg : Tri → Bool)
    (hdeg : ∀ t, deg t = true → t.a = t.b ∨ t.b = t.c ∨ t.c = t.a) :
    ∃ oc oc', Reachable deg unitBall 2 oc false ∧ RenderAll deg oc oc' [] ∧
      ∃ outs oc₂, Calls deg oc outs oc₂ true ∧ outs.flatten ≠ [] := by
  obtain ⟨oc, h⟩ : ∃ oc, new unitBall 2 = some oc := Option.ne_none_iff_exists'.mp
    ((not_congr (C02_new_panics_iff unitBall 2 unitBall_solid)).mpr (by norm_num))
  obtain ⟨hr, ho, hl, hs, ht, hu, hc⟩ := ball_setup oc h
  have hi : Initial unitBall 2 oc := ⟨oc, h, rfl⟩
  have hok := initial_ok (initial_facts unitBall_solid hi)
  -- first call: splits the top cube
  obtain ⟨oc1, r1, d1, c1, u1, t1, ok1⟩ := read_single deg hok hc [default] (by simp [hu]) (by simp [ht])
  have hp : pass deg oc.dc 1 0 oc.todo = ([], 1, children oc.dc ⟨⟨0, 0, 0⟩, 2⟩, []) := by
    rw [ht]; simp [pass, ownTris]
  simp only [hu, List.length_nil, List.length_singleton, Nat.sub_zero, hp] at r1 u1 t1
  obtain ⟨L, hL, hLn⟩ : ∃ L, children oc.dc ⟨⟨0, 0, 0⟩, 2⟩ = L ++ [lastLeaf] ∧ ∀ c ∈ L ++ [lastLeaf], c.n = 1 :=
    ball_children oc.dc hr ho hs
  have t1' : oc1.todo = L ++ [lastLeaf] := by rw [t1, ht, ← hL]; rfl
  obtain ⟨outs, oc2, hcalls, ok2, t2, u2⟩ := drain deg L oc1 lastLeaf ok1 c1 u1 t1' hLn
  have hne := ball_last_leaf deg hdeg oc.dc hr ho hs
  rw [d1] at u2
  have hlen := leafTris_length deg oc.dc lastLeaf
  -- the call of RenderAll returns the buffered triangles together with EOF
  have hend := ReadTriangles.eof (deg := deg) (oc := oc2) (dst := List.replicate 1024 default)
    (List.ne_nil_of_length_pos (by rw [List.length_replicate]; norm_num))
    (by rw [u2, List.length_replicate]; omega) t2
  refine ⟨oc2, _, ⟨oc, _, hi, calls_cons r1 rfl hcalls⟩, RenderAll.stop List.length_replicate hend rfl, ?_⟩
  have := Calls.more .nil hend
  refine ⟨_, _, this, ?_⟩
  simp only [List.nil_append, List.flatten_singleton]
  rw [List.take_left' rfl, u2]
  exact hne

example : ∀ t : Tri, (fun _ => false) t = true → t.a = t.b ∨ t.b = t.c ∨ t.c = t.a := by simp

end Sdf.Octree
