import Verif.Lemmas.RenderAll
import Verif.Lemmas.MCAccuracy
import Verif.Lemmas.MCManifold

/-!
Helper lemmas: the queue of a single-threaded `RenderAll`, followed by counting triangles only.  `cnt` gives the number of triangles of a
leaf, `kids` the sub-cubes that are not skipped.
-/

namespace Sdf.Octree

open Classical

/-- One pass over the work list, counting only: cubes processed, new cubes, and the cube whose triangles were put aside. -/
def passN (cnt : Cube → Nat) (kids : Cube → List Cube) (room : Nat) : Nat → List Cube → Nat × List Cube × Option Cube
  | _, [] => (0, [], none)
  | n, c :: t =>
    if n = room then (0, [], none)
    else if room < n + 5 then (1, kids c, some c)
    else
      let r := passN cnt kids room (n + cnt c) t
      (r.1 + 1, kids c ++ r.2.1, r.2.2)

/-- All passes of a `RenderAll`: the cube whose triangles are buffered at the end, if any. -/
def runN (cnt : Cube → Nat) (kids : Cube → List Cube) : Nat → List Cube → Option Cube → Option (Option Cube)
  | 0, _, _ => none
  | _ + 1, [], u => some u
  | f + 1, c :: t, u =>
    let r := passN cnt kids (1024 - u.elim 0 cnt) 0 (c :: t)
    runN cnt kids f (((c :: t) ++ r.2.1).drop r.1) r.2.2

theorem pass_passN (deg : Tri → Bool) (dc : Dc3) (cnt : Cube → Nat) (kids : Cube → List Cube) (room : Nat) (todo : List Cube)
    (hk : ∀ c, children dc c = kids c) (hc : ∀ c, (ownTris deg dc c).length = cnt c) : ∀ n,
    (pass deg dc room n todo).2 = ((passN cnt kids room n todo).1, (passN cnt kids room n todo).2.1,
      (passN cnt kids room n todo).2.2.elim [] (ownTris deg dc)) := by
  induction todo with
  | nil => intro n; rfl
  | cons c t ih =>
    intro n
    unfold pass passN
    by_cases h1 : n = room
    · simp [h1]
    · by_cases h2 : n + 5 > room
      · have h2' : room < n + 5 := h2
        rw [if_neg h1, if_pos h2, if_neg h1, if_pos h2', hk]
        rfl
      · have h2' : ¬ room < n + 5 := h2
        rw [if_neg h1, if_neg h2, if_neg h1, if_neg h2', hk, hc]
        have := ih (n + cnt c)
        simp only [Prod.ext_iff] at this
        simp only [this.1, this.2.1, this.2.2]

/-- Whatever the steps in between, a call of a renderer with one worker has the effect of `pass`. -/
theorem read_single_any (deg : Tri → Bool) {oc oc' : State} (hok : StateOk oc) (hconc : oc.concurrent = 0) (dst : List Tri)
    (hu : oc.unwritten.length < dst.length) (ht : oc.todo ≠ []) (r : ReadResult) (h : ReadTriangles deg oc dst oc' r) :
    oc'.dc = oc.dc ∧ oc'.concurrent = 0 ∧ oc'.unwritten = (pass deg oc.dc (dst.length - oc.unwritten.length) 0 oc.todo).2.2.2
      ∧ oc'.todo = (oc.todo ++ (pass deg oc.dc (dst.length - oc.unwritten.length) 0 oc.todo).2.2.1).drop
          (pass deg oc.dc (dst.length - oc.unwritten.length) 0 oc.todo).2.1 := by
  cases h with
  | full _ _ h3 => omega
  | eof _ _ h3 => exact absurd h3 ht
  | threaded _ _ _ h4 => exact absurd (Or.inl (by omega)) h4
  | single h1 h2 h3 h4 h5 =>
    rename_i out k cs sh'
    obtain ⟨hres, hpush⟩ := readTriangles_pass deg oc.dc (dst.length - oc.unwritten.length) oc.todo hok.valid 0
    obtain ⟨c1, c2, c3⟩ := poolRuns_spec (ps := [readTriangles deg oc.dc (dst.length - oc.unwritten.length) 0 oc.todo]) h5 hok.coh
    simp only [List.map_cons, List.map_nil, hres, List.cons.injEq, Option.some.injEq, Prod.mk.injEq, and_true] at c2
    obtain ⟨rfl, rfl, rfl⟩ := c2
    refine ⟨rfl, hconc, ?_, rfl⟩
    have key : ∀ (s t : Shared × List (Thread (List Tri × Nat × List Cube))), PoolSteps oc.dc s t → s.2.length = 1 →
        Coherent oc.dc s.1.cache → (∀ th ∈ s.2, ThreadOk oc.dc th) →
        t.2.length = 1 ∧ t.1.unwritten ++ t.2.flatMap (Thread.pushes oc.dc.value) = s.1.unwritten ++ s.2.flatMap (Thread.pushes oc.dc.value) := by
      intro s t hst hs1 hcoh hth
      induction hst with
      | refl => exact ⟨hs1, rfl⟩
      | tail hsteps hstep ih =>
        obtain ⟨hl, he⟩ := ih
        have hinv := poolSteps_inv hsteps hcoh hth
        rw [← he]
        cases hstep with
        | step hts =>
          rename_i sh sh' pre th th' post
          simp only [List.length_append, List.length_cons] at hl
          have hpre : pre = [] := List.length_eq_zero_iff.mp (by omega)
          have hpost : post = [] := List.length_eq_zero_iff.mp (by omega)
          subst hpre; subst hpost
          refine ⟨by simp, ?_⟩
          have hok' := hinv.ok th (by simp)
          have hcoh' := hinv.coh
          cases hts with
          | hit hh =>
            have := hcoh' _ _ hh
            subst this
            simp [Thread.pushes, Prog.pushes]
          | miss => simp [Thread.pushes, Prog.pushes]
          | fill =>
            rename_i vi d k
            have hd : d = oc.dc.value vi := hok'
            subst hd
            simp [Thread.pushes]
          | push => simp [Thread.pushes, Prog.pushes]
    obtain ⟨_, he⟩ := key _ _ h5 rfl hok.coh (by simp [ThreadOk])
    simpa [Thread.pushes, Prog.pushes, hpush] using he

/-- What `RenderAll` leaves out is what the counting run has buffered at the end. -/
theorem renderAll_lost (deg : Tri → Bool) (cnt : Cube → Nat) (kids : Cube → List Cube) (dc : Dc3)
    (hk : ∀ c, children dc c = kids c) (hc : ∀ c, (ownTris deg dc c).length = cnt c) : ∀ (f : Nat) (oc oc' : State) (result : List Tri)
    (u u' : Option Cube), StateOk oc → oc.concurrent = 0 → oc.dc = dc → oc.unwritten = u.elim [] (ownTris deg dc) →
    runN cnt kids f oc.todo u = some u' → RenderAll deg oc oc' result →
    (pending deg oc).Perm (result ++ u'.elim [] (ownTris deg dc)) := by
  intro f
  induction f with
  | zero => intro oc oc' result u u' _ _ _ _ h; simp [runN] at h
  | succ f ih =>
    intro oc oc' result u u' hok hconc hdc hu hrun hr
    have hulen : oc.unwritten.length = u.elim 0 cnt := by
      rw [hu]; cases u with
      | none => rfl
      | some c => exact hc c
    have hu5 : oc.unwritten.length ≤ 5 := by
      rw [hu]; cases u with
      | none => simp
      | some c => exact ownTris_length deg dc c
    cases hr with
    | stop hlen hrd he =>
      cases hrd with
      | full => simp at he
      | single => simp at he
      | threaded => simp at he
      | eof _ hl ht =>
        rw [ht] at hrun
        simp only [runN, Option.some.injEq] at hrun
        subst hrun
        simp only [pending, ht, List.flatMap_nil, List.append_nil, List.nil_append, hu]
        exact List.Perm.refl _
    | more hlen hrd he hrest =>
      rename_i buf oc1 r rest
      have ht : oc.todo ≠ [] := by
        cases hrd with
        | full _ _ h => omega
        | eof => simp at he
        | single _ _ h => exact h
        | threaded _ _ h => exact h
      obtain ⟨g1, g2, g3, g4⟩ := read_single_any deg hok hconc buf (by omega) ht r hrd
      have hs := read_spec hok hrd
      have hp := pass_passN deg dc cnt kids (buf.length - oc.unwritten.length) oc.todo hk hc 0
      rw [hdc] at g3 g4
      rw [hp] at g3 g4
      simp only at g3 g4
      rw [hlen, hulen] at g3 g4
      obtain ⟨c, t, hct⟩ := List.exists_cons_of_ne_nil ht
      rw [hct] at hrun g3 g4
      unfold runN at hrun
      simp only at hrun
      rw [← g4] at hrun
      have := ih oc1 oc' rest _ u' hs.ok g2 (g1.trans hdc) g3 hrun hrest
      refine hs.perm.trans ?_
      rw [List.append_assoc]
      exact List.Perm.append_left _ this

/-- Triangles of a leaf none of whose corners is near the surface. -/
theorem leafTris_far (deg : Tri → Bool) (hdeg : ∀ t, deg t = true → t.a = t.b ∨ t.b = t.c ∨ t.c = t.a) (dc : Dc3)
    (hr : 0 < dc.resolution) (c : Cube) (hfar : ∀ a, MC.epsilon ≤ |dc.value (leafCorners c a)|) :
    leafTris deg dc c = MC.rawTriangles (fun i => dc.pos (leafCorners c i)) (fun i => dc.value (leafCorners c i)) 0 := by
  unfold leafTris
  rw [List.filter_eq_self]
  intro t ht
  have e : (fun i => dc.pos (leafCorners c i)) = cellCorners (MC.gridPos (dc.pos c.o) (2 * dc.resolution)) (0, 0, 0) := by
    funext i
    fin_cases i <;> simp [leafCorners, cellCorners, MC.gridPos, Dc3.pos, V3.add, V3.scale, V3i.toV3, V3i.add] <;>
      (try constructor) <;> (try constructor) <;> ring
  rw [e] at ht
  have := MC.raw_distinct (dc.pos c.o) (r := 2 * dc.resolution) (by linarith) _ (0, 0, 0) hfar t ht
  simp only [Bool.not_eq_true', ← Bool.not_eq_true]
  exact fun h => this (hdeg t h)

end Sdf.Octree
