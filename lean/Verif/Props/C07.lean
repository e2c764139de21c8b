import Verif.Lemmas.OctreeTerm
import Verif.Props.C02

/-!
C07: the distance cache is transparent under any interleaving.
-/

namespace Sdf.Octree

/-- The distance `Evaluate` gives at the position of a grid vertex. -/
def trueDistance (dc : Dc3) (vi : V3i) : ℝ := dc.s.eval (dc.pos vi)

/-- For any number of goroutines running any programs over the cache, started with an empty cache, after any interleaving
of their atomic steps:
* every cached entry is the true distance;
* whenever a goroutine's lookup succeeds it continues with the true distance, and whenever it fails it evaluates
  the true distance, which is also what it writes back and continues with. -/
theorem C07_cache_transparent {α : Type} (dc : Dc3) (ps : List (Prog α)) (sh : Shared) (ts : List (Thread α))
    (h : PoolSteps dc (⟨fun _ => none, []⟩, ps.map .run) (sh, ts)) :
    (∀ vi d, sh.cache vi = some d → d = trueDistance dc vi)
    ∧ (∀ vi d k, Thread.filling vi d k ∈ ts → d = trueDistance dc vi)
    ∧ (∀ vi (k : ℝ → Prog α) sh' t', Thread.run (.eval vi k) ∈ ts → ThreadStep dc sh (.run (.eval vi k)) sh' t' →
        t' = .run (k (trueDistance dc vi)) ∨ t' = .filling vi (trueDistance dc vi) k) := by
  have hi := poolSteps_inv h (by intro vi d h; simp at h) (by
    intro th hth
    obtain ⟨p, _, rfl⟩ := List.mem_map.mp hth
    trivial)
  refine ⟨hi.coh, ?_, ?_⟩
  · intro vi d k hm
    exact hi.ok _ hm
  · intro vi k sh' t' _ hstep
    cases hstep with
    | hit hh =>
      left
      have := hi.coh _ _ hh
      subst this
      rfl
    | miss hh => right; rfl

/-- What a program computes when every lookup returns the true distance, without any cache. -/
def Prog.ideal {α : Type} (dc : Dc3) : Prog α → Option α
  | .ret a => some a
  | .eval vi k => (k (trueDistance dc vi)).ideal dc
  | .push _ k => k.ideal dc
  | .panic => none

/-- When all goroutines have finished, each has the result it would have had with no cache and no other goroutines. -/
theorem C07_results_as_without_cache {α : Type} (dc : Dc3) (ps : List (Prog α)) (sh : Shared) (rs : List α)
    (h : PoolRuns dc ⟨fun _ => none, []⟩ ps sh rs) : ps.map (Prog.ideal dc) = rs.map some := by
  have e : ∀ p : Prog α, p.ideal dc = p.result dc.value := by
    intro p
    induction p with
    | ret a => rfl
    | eval vi k ih => exact ih _
    | push ts k ih => exact ih
    | panic => rfl
  have := (poolRuns_spec h (by intro vi d h; simp at h)).2.1
  rw [← this]
  exact List.map_congr_left fun p _ => e p

/-- Two goroutines looking up the same vertex can run interleaved to completion. -/
example (dc : Dc3) (vi : V3i) : ∃ sh, PoolRuns dc ⟨fun _ => none, []⟩ [.eval vi .ret, .eval vi .ret] sh
    [trueDistance dc vi, trueDistance dc vi] := by
  refine ⟨_, .tail (.tail (.tail (.tail .refl
    (.step (pre := []) (.miss rfl))) (.step (pre := [_]) (post := []) (.miss rfl)))
    (.step (pre := []) .fill)) (.step (pre := [_]) (post := []) .fill)⟩

end Sdf.Octree
