import Verif.Lemmas.OctreeThreads

/-! Helper lemmas: one `ReadTriangles` call and sequences of calls. -/

namespace Sdf.Octree

open Classical

structure StateOk (oc : State) : Prop where
  coh : Coherent oc.dc oc.cache
  valid : ∀ c ∈ oc.todo, ValidCube oc.dc c

/-- everything still to be delivered -/
noncomputable def pending (deg : Tri → Bool) (oc : State) : List Tri :=
  oc.unwritten ++ oc.todo.flatMap (mesh deg oc.dc)

/-- decreases with every call that does not return EOF -/
def measure (oc : State) : Nat := weight oc.todo + oc.unwritten.length

structure ReadSpec (deg : Tri → Bool) (oc : State) (dst : List Tri) (oc' : State) (r : ReadResult) : Prop where
  ok : StateOk oc'
  dc : oc'.dc = oc.dc
  conc : oc'.concurrent = oc.concurrent
  n_le : r.n ≤ dst.length
  len : r.dst.length = dst.length
  perm : (pending deg oc).Perm (r.dst.take r.n ++ pending deg oc')
  eof : r.eof = true → oc'.unwritten = [] ∧ oc'.todo = []
  dec : r.eof = false → measure oc' < measure oc

theorem mul_pred_add (a c : Nat) (h : 1 ≤ c) : a * (c - 1) + a = a * c := by
  obtain ⟨m, rfl⟩ : ∃ m, c = m + 1 := ⟨c - 1, by omega⟩
  simp [Nat.mul_add]

theorem getD_workLens (len c i : Nat) (hi : i < c) :
    (workLens len c).getD i 0 = (sliceOf len c i).2 - (sliceOf len c i).1 := by
  simp [workLens, List.getD, hi]

theorem getD_cubeWork (todo : List Cube) (c i : Nat) (hi : i < c) :
    (cubeWork todo c).getD i [] = (todo.drop (sliceOf todo.length c i).1).take
      ((sliceOf todo.length c i).2 - (sliceOf todo.length c i).1) := by
  simp [cubeWork, List.getD, hi]

theorem read_spec {deg : Tri → Bool} {oc oc' : State} {dst : List Tri} {r : ReadResult}
    (hok : StateOk oc) (h : ReadTriangles deg oc dst oc' r) : ReadSpec deg oc dst oc' r := by
  cases h with
  | full h1 h2 h3 =>
    have hpos : 0 < dst.length := List.length_pos_iff.mpr h1
    constructor
    · exact ⟨hok.coh, hok.valid⟩
    · rfl
    · rfl
    · simp
    · simp [h3]
    · simp [pending, List.take_take]
      rw [← List.append_assoc, List.take_append_drop]
    · simp
    · intro _; simp [measure]; omega
  | eof h1 h2 h3 =>
    constructor
    · exact ⟨hok.coh, hok.valid⟩
    · rfl
    · rfl
    · simp; omega
    · simp; omega
    · simp [pending]
    · intro _; exact ⟨rfl, h3⟩
    · simp
  | single h1 h2 h3 h4 h5 =>
    rename_i out k cs sh'
    obtain ⟨c1, c2, c3⟩ := poolRuns_spec h5 hok.coh
    obtain ⟨out', k', cs', hr, hs⟩ := readTriangles_spec deg oc.dc (dst.length - oc.unwritten.length) oc.todo
      hok.valid 0 (Nat.zero_le _)
    simp only [List.map_cons, List.map_nil, hr, List.cons.injEq, Option.some.injEq, Prod.mk.injEq, and_true] at c2
    obtain ⟨rfl, rfl, rfl⟩ := c2
    simp only [List.nil_append, List.flatMap_cons, List.flatMap_nil, List.append_nil] at c3
    generalize (readTriangles deg oc.dc (dst.length - oc.unwritten.length) 0 oc.todo).pushes oc.dc.value = pushed at hs c3
    have hroom := hs.room_ok
    have hkle := hs.k_le
    have hkpos := hs.k_pos (by omega) h3
    have hdrop : (oc.todo ++ cs').drop k' = oc.todo.drop k' ++ cs' := by
      rw [List.drop_append_of_le_length hkle]
    constructor
    · refine ⟨c1, ?_⟩
      intro c hc
      simp only [hdrop, List.mem_append] at hc
      rcases hc with hc | hc
      · exact hok.valid c (List.mem_of_mem_drop hc)
      · exact hs.valid c hc
    · rfl
    · rfl
    · simp only; omega
    · simp only [List.length_append, List.length_drop]; omega
    · have e : (oc.unwritten ++ out' ++ dst.drop (oc.unwritten.length + out'.length)).take
          (oc.unwritten.length + out'.length) = oc.unwritten ++ out' := by
        rw [← List.length_append]; exact List.take_left' rfl
      simp only [pending, e, hdrop, List.flatMap_append]
      have hw : oc.todo.flatMap (mesh deg oc.dc) = (oc.todo.take k').flatMap (mesh deg oc.dc)
          ++ (oc.todo.drop k').flatMap (mesh deg oc.dc) := by
        rw [← List.flatMap_append, List.take_append_drop]
      rw [hw]
      have p1 := hs.meshEq
      rw [List.perm_iff_count] at p1 c3 ⊢
      intro t
      have a := p1 t
      have b := c3 t
      simp only [List.count_append] at a b ⊢
      omega
    · simp
    · intro _
      have hlen := c3.length_eq
      have := hs.pushed_le
      have := hs.wt
      have hww : weight oc.todo = weight (oc.todo.take k') + weight (oc.todo.drop k') := by
        rw [← weight_append, List.take_append_drop]
      simp only [measure, hdrop, weight_append]
      omega
  | threaded h1 h2 h3 h4 h5 =>
    rename_i sh' rs
    obtain ⟨c1, c2, c3⟩ := poolRuns_spec h5 hok.coh
    push Not at h4
    obtain ⟨hc1, hc2, hc3⟩ := h4
    have hflat := cubeWork_flatten oc.todo oc.concurrent hc1
    obtain ⟨i1, i2, i3, i4, K, i5, i6, i7⟩ := passes_combine deg oc.dc
      (workLens (dst.length - oc.unwritten.length) oc.concurrent) (cubeWork oc.todo oc.concurrent) rs
      (by simp [workLens, cubeWork])
      (by
        intro w hw c hc
        apply hok.valid
        rw [← hflat]
        exact List.mem_flatten.mpr ⟨w, hw, hc⟩) c2
    rw [hflat] at i3 i5
    have hdl : (dst.drop oc.unwritten.length).length = dst.length - oc.unwritten.length := List.length_drop ..
    have hT := threadedDst_spec oc.concurrent hc1 (rs.map Prod.fst) (dst.drop oc.unwritten.length)
      (by simp [i1, workLens]) (by
        intro i hi
        have := i2 i
        rw [getD_workLens _ _ _ hi] at this
        rw [hdl]; exact this)
    have hsum : ((rs.map Prod.fst).map List.length).sum ≤ dst.length - oc.unwritten.length := by
      have h := congrArg List.length hT.1
      rw [List.length_take, List.length_flatten, hT.2, hdl] at h
      omega
    have hK : 0 < K := by
      apply i7
      refine ⟨oc.concurrent - 1, ?_, ?_⟩
      · rw [getD_workLens _ _ _ (by omega), sliceOf_last]
        simp only
        have hpos : 0 < dst.length - oc.unwritten.length := by omega
        generalize dst.length - oc.unwritten.length = len at hpos
        by_cases hd : len / oc.concurrent = 0
        · rw [hd]; omega
        · have := Nat.div_mul_le_self len oc.concurrent
          have h' := mul_pred_add (len / oc.concurrent) oc.concurrent hc1
          have hd' := Nat.pos_of_ne_zero hd
          generalize len / oc.concurrent = q at *
          generalize q * (oc.concurrent - 1) = u at *
          omega
      · rw [getD_cubeWork _ _ _ (by omega), sliceOf_last]
        have hpos : 0 < oc.todo.length := List.length_pos_iff.mpr h3
        have hlt : oc.todo.length / oc.concurrent * (oc.concurrent - 1) < oc.todo.length := by
          have := Nat.div_mul_le_self oc.todo.length oc.concurrent
          have hd : 0 < oc.todo.length / oc.concurrent := Nat.div_pos hc2 (by omega)
          have h' := mul_pred_add (oc.todo.length / oc.concurrent) oc.concurrent hc1
          omega
        intro h
        have := congrArg List.length h
        rw [List.length_take, List.length_drop] at this
        simp at this
        omega
    simp only [List.nil_append] at c3
    constructor
    · exact ⟨c1, i4⟩
    · rfl
    · rfl
    · simp only; omega
    · simp only [List.length_append, hT.2, hdl]; omega
    · have e : (oc.unwritten ++ threadedDst oc.concurrent (rs.map Prod.fst) (dst.drop oc.unwritten.length)).take
          (oc.unwritten.length + ((rs.map Prod.fst).map List.length).sum) = oc.unwritten ++ (rs.map Prod.fst).flatten := by
        rw [List.take_append, List.take_of_length_le (by omega), Nat.add_sub_cancel_left, hT.1]
      simp only [pending, e]
      rw [List.perm_iff_count] at i3 c3 ⊢
      intro t
      have a := i3 t
      have b := c3 t
      simp only [List.count_append, threadedTodo] at a b ⊢
      omega
    · simp
    · intro _
      have hlen := c3.length_eq
      simp only [measure, threadedTodo]
      omega

/-- A call with a non-empty slice always completes: no panic, no deadlock. -/
theorem read_progress (deg : Tri → Bool) {oc : State} (hok : StateOk oc) (dst : List Tri) (hd : dst ≠ []) :
    ∃ oc' r, ReadTriangles deg oc dst oc' r := by
  by_cases h1 : dst.length ≤ oc.unwritten.length
  · have : oc.unwritten ≠ [] := by
      intro h; rw [h] at h1
      exact hd (List.length_eq_zero_iff.mp (by simpa using h1))
    exact ⟨_, _, .full hd this h1⟩
  · by_cases h2 : oc.todo = []
    · exact ⟨_, _, .eof hd (by omega) h2⟩
    · by_cases h3 : oc.concurrent < 1 ∨ oc.todo.length < oc.concurrent ∨ dst.length < oc.concurrent
      · obtain ⟨out, k, cs, hr, hs⟩ := readTriangles_spec deg oc.dc (dst.length - oc.unwritten.length) oc.todo
          hok.valid 0 (Nat.zero_le _)
        obtain ⟨sh', rs, h⟩ := pool_completes oc.dc _
          ((⟨oc.cache, []⟩ : Shared), [Thread.run (readTriangles deg oc.dc (dst.length - oc.unwritten.length) 0 oc.todo)])
          hok.coh (by simp [ThreadOk]) (by simp [Thread.result, hr]) (le_refl _)
        have hlen : rs.length = 1 := by
          have := (poolSteps_inv h hok.coh (by simp [ThreadOk])).res
          simpa using congrArg List.length this
        obtain ⟨a, rfl⟩ := List.length_eq_one_iff.mp hlen
        obtain ⟨out, k, cs⟩ := a
        exact ⟨_, _, .single hd (by omega) h2 h3 h⟩
      · have hc1 : 1 ≤ oc.concurrent := by push Not at h3; exact h3.1
        have hflat := cubeWork_flatten oc.todo oc.concurrent hc1
        obtain ⟨sh', rs, h⟩ := pool_completes oc.dc _
          ((⟨oc.cache, []⟩ : Shared), (List.zipWith (fun l cs => readTriangles deg oc.dc l 0 cs)
          (workLens (dst.length - oc.unwritten.length) oc.concurrent)
          (cubeWork oc.todo oc.concurrent)).map Thread.run)
          hok.coh (by
            intro th hth
            obtain ⟨p, _, rfl⟩ := List.mem_map.mp hth
            trivial) (by
            intro th hth
            obtain ⟨p, hp, rfl⟩ := List.mem_map.mp hth
            rw [List.zipWith_eq_zipWith_take_min] at hp
            obtain ⟨i, hi, rfl⟩ := List.mem_iff_getElem.mp hp
            simp only [List.getElem_zipWith, List.getElem_take]
            obtain ⟨out, k, cs, hr, _⟩ := readTriangles_spec deg oc.dc
              ((workLens (dst.length - oc.unwritten.length) oc.concurrent)[i]'(by simp at hi; omega))
              ((cubeWork oc.todo oc.concurrent)[i]'(by simp at hi; omega)) (by
                intro c hc
                apply hok.valid
                rw [← hflat]
                exact List.mem_flatten.mpr ⟨_, List.getElem_mem _, hc⟩) 0 (Nat.zero_le _)
            simp [Thread.result, hr]) (le_refl _)
        exact ⟨_, _, .threaded hd (by omega) h2 h3 h⟩

structure CallsSpec (deg : Tri → Bool) (oc : State) (outs : List (List Tri)) (oc' : State) (eof : Bool) : Prop where
  ok : StateOk oc'
  dc : oc'.dc = oc.dc
  perm : (pending deg oc).Perm (outs.flatten ++ pending deg oc')
  eof_done : eof = true → oc'.unwritten = [] ∧ oc'.todo = []
  bound : eof = false → outs.length + measure oc' ≤ measure oc

theorem calls_spec {deg : Tri → Bool} {oc oc' : State} {outs : List (List Tri)} {eof : Bool}
    (hok : StateOk oc) (h : Calls deg oc outs oc' eof) : CallsSpec deg oc outs oc' eof := by
  induction h with
  | nil => exact ⟨hok, rfl, by simp, by simp, by simp⟩
  | more _ hr ih =>
    have hi := ih
    have hs := read_spec hi.ok hr
    constructor
    · exact hs.ok
    · rw [hs.dc, hi.dc]
    · have p1 := hi.perm
      have p2 := hs.perm
      rw [List.perm_iff_count] at p1 p2 ⊢
      intro t
      have a := p1 t
      have b := p2 t
      simp only [List.count_append, List.flatten_append, List.flatten_singleton] at a b ⊢
      omega
    · exact hs.eof
    · intro h
      have := hs.dec h
      have := hi.bound rfl
      simp only [List.length_append, List.length_singleton]
      omega

end Sdf.Octree
