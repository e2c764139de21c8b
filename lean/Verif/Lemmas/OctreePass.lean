import Verif.Lemmas.OctreeTerm

/-! Helper lemmas: exact effect of single-threaded passes, used for witnesses. -/

namespace Sdf.Octree

open Classical

/-- One pass over the work list, as a function: triangles written, cubes processed, new cubes, triangles pushed. -/
noncomputable def pass (deg : Tri → Bool) (dc : Dc3) (room : Nat) : Nat → List Cube → List Tri × Nat × List Cube × List Tri
  | _, [] => ([], 0, [], [])
  | n, c :: t =>
    if n = room then ([], 0, [], [])
    else if n + 5 > room then ([], 1, children dc c, ownTris deg dc c)
    else
      let r := pass deg dc room (n + (ownTris deg dc c).length) t
      (ownTris deg dc c ++ r.1, r.2.1 + 1, children dc c ++ r.2.2.1, r.2.2.2)

theorem readTriangles_pass (deg : Tri → Bool) (dc : Dc3) (room : Nat) (todo : List Cube) (hv : ∀ c ∈ todo, ValidCube dc c) :
    ∀ n, (readTriangles deg dc room n todo).result dc.value
        = some ((pass deg dc room n todo).1, (pass deg dc room n todo).2.1, (pass deg dc room n todo).2.2.1)
      ∧ (readTriangles deg dc room n todo).pushes dc.value = (pass deg dc room n todo).2.2.2 := by
  induction todo with
  | nil => intro n; exact ⟨rfl, rfl⟩
  | cons c t ih =>
    intro n
    unfold readTriangles pass
    by_cases h1 : n = room
    · simp [h1, Prog.result, Prog.pushes]
    · have hc := hv c (by simp)
      by_cases h2 : n + 5 > room
      · have h2' : n + MC.maxTriangles > room := h2
        simp only [h1, h2, h2', if_false, if_true]
        have hp := processCube_spec deg dc MC.maxTriangles (le_refl _) c hc
        rw [Prog.result_bind, Prog.pushes_bind, hp.1, hp.2]
        exact ⟨rfl, by simp [Prog.pushes]⟩
      · have h2' : ¬ n + MC.maxTriangles > room := h2
        simp only [h1, h2, h2', if_false]
        have hp := processCube_spec deg dc (room - n) (by omega) c hc
        have hi := ih (fun x hx => hv x (List.mem_cons_of_mem _ hx)) (n + (ownTris deg dc c).length)
        rw [Prog.result_bind, Prog.pushes_bind, hp.1, hp.2]
        simp only [Option.bind_some, List.nil_append]
        rw [Prog.result_bind, Prog.pushes_bind, hi.1, hi.2]
        exact ⟨rfl, by simp [Prog.pushes]⟩

/-- A single-threaded call exists and has the effect described by `pass`. -/
theorem read_single (deg : Tri → Bool) {oc : State} (hok : StateOk oc) (hconc : oc.concurrent = 0) (dst : List Tri)
    (hu : oc.unwritten.length < dst.length) (ht : oc.todo ≠ []) :
    let r := pass deg oc.dc (dst.length - oc.unwritten.length) 0 oc.todo
    ∃ oc', ReadTriangles deg oc dst oc'
        ⟨oc.unwritten.length + r.1.length, oc.unwritten ++ r.1 ++ dst.drop (oc.unwritten.length + r.1.length), false⟩
      ∧ oc'.dc = oc.dc ∧ oc'.concurrent = 0 ∧ oc'.unwritten = r.2.2.2 ∧ oc'.todo = (oc.todo ++ r.2.2.1).drop r.2.1
      ∧ StateOk oc' := by
  intro r
  have hd : dst ≠ [] := by intro h; simp [h] at hu
  obtain ⟨hres, hpush⟩ := readTriangles_pass deg oc.dc (dst.length - oc.unwritten.length) oc.todo hok.valid 0
  obtain ⟨sh', rs, h⟩ := pool_completes oc.dc _
    ((⟨oc.cache, []⟩ : Shared), [Thread.run (readTriangles deg oc.dc (dst.length - oc.unwritten.length) 0 oc.todo)])
    hok.coh (by simp [ThreadOk]) (by simp [Thread.result, hres]) (le_refl _)
  have hlen : rs.length = 1 := by
    have := (poolSteps_inv h hok.coh (by simp [ThreadOk])).res
    simpa using congrArg List.length this
  obtain ⟨a, rfl⟩ := List.length_eq_one_iff.mp hlen
  obtain ⟨out, k, cs⟩ := a
  obtain ⟨c1, c2, c3⟩ := poolRuns_spec (ps := [readTriangles deg oc.dc (dst.length - oc.unwritten.length) 0 oc.todo]) h hok.coh
  simp only [List.map_cons, List.map_nil, hres, List.cons.injEq, Option.some.injEq, Prod.mk.injEq, and_true] at c2
  obtain ⟨rfl, rfl, rfl⟩ := c2
  have hr := ReadTriangles.single hd hu ht (Or.inl (by omega)) h
  have hs := read_spec hok hr
  refine ⟨_, hr, rfl, hconc, ?_, rfl, hs.ok⟩
  -- a single worker pushes its triangles in one append
  have key : ∀ (s t : Shared × List (Thread (List Tri × Nat × List Cube))), PoolSteps oc.dc s t → s.2.length = 1 →
      Coherent oc.dc s.1.cache → (∀ th ∈ s.2, ThreadOk oc.dc th) →
      t.2.length = 1 ∧ t.1.unwritten ++ t.2.flatMap (Thread.pushes oc.dc.value) = s.1.unwritten ++ s.2.flatMap (Thread.pushes oc.dc.value) := by
    intro s t hst hs1 hcoh hth
    induction hst with
    | refl => exact ⟨hs1, rfl⟩
    | tail hsteps hstep ih =>
      obtain ⟨hl, he⟩ := ih
      have hinv := poolSteps_inv hsteps hcoh hth
      rw [← he]
      cases hstep with
      | step hts =>
        rename_i sh sh' pre th th' post
        simp only [List.length_append, List.length_cons] at hl
        have hpre : pre = [] := List.length_eq_zero_iff.mp (by omega)
        have hpost : post = [] := List.length_eq_zero_iff.mp (by omega)
        subst hpre; subst hpost
        refine ⟨by simp, ?_⟩
        have hok' := hinv.ok th (by simp)
        have hcoh' := hinv.coh
        cases hts with
        | hit hh =>
          have := hcoh' _ _ hh
          subst this
          simp [Thread.pushes, Prog.pushes]
        | miss => simp [Thread.pushes, Prog.pushes]
        | fill =>
          rename_i vi d k
          have hd : d = oc.dc.value vi := hok'
          subst hd
          simp [Thread.pushes]
        | push => simp [Thread.pushes, Prog.pushes]
  obtain ⟨_, he⟩ := key _ _ h rfl hok.coh (by simp [ThreadOk])
  simpa [Thread.pushes, Prog.pushes, hpush] using he

end Sdf.Octree
