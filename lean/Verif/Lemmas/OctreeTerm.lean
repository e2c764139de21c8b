import Verif.Lemmas.OctreeDense

/-! Helper lemmas: termination of sequences of calls and of a single call. -/

namespace Sdf.Octree

/-- From any reachable state, calls with given buffers reach EOF. -/
theorem calls_extend {deg : Tri → Bool} (bufs : Nat → List Tri) (hbuf : ∀ i, bufs i ≠ []) :
    ∀ (N : Nat) (oc0 oc : State) (outs : List (List Tri)), StateOk oc0 → Calls deg oc0 outs oc false →
      measure oc ≤ N → ∃ outs' oc', Calls deg oc0 outs' oc' true := by
  intro N
  induction N with
  | zero =>
    intro oc0 oc outs h0 hc hm
    have ho := (calls_spec h0 hc).ok
    obtain ⟨oc', r, hr⟩ := read_progress deg ho (bufs outs.length) (hbuf _)
    cases he : r.eof with
    | true => have := Calls.more hc hr; rw [he] at this; exact ⟨_, oc', this⟩
    | false => have := (read_spec ho hr).dec he; omega
  | succ N ih =>
    intro oc0 oc outs h0 hc hm
    have ho := (calls_spec h0 hc).ok
    obtain ⟨oc', r, hr⟩ := read_progress deg ho (bufs outs.length) (hbuf _)
    cases he : r.eof with
    | true => have := Calls.more hc hr; rw [he] at this; exact ⟨_, oc', this⟩
    | false =>
      have hd := (read_spec ho hr).dec he
      have hc' := Calls.more hc hr
      rw [he] at hc'
      exact ih oc0 oc' _ h0 hc' (by omega)

/-- A pool whose threads compute a result cannot run forever. -/
theorem pool_no_infinite {dc : Dc3} {α : Type} (f : Nat → Shared × List (Thread α))
    (hc : Coherent dc (f 0).1.cache) (hok : ∀ th ∈ (f 0).2, ThreadOk dc th)
    (hstep : ∀ i, PoolStep dc (f i) (f (i + 1))) : False := by
  have inv : ∀ i, PoolSteps dc (f 0) (f i) := by
    intro i
    induction i with
    | zero => exact .refl
    | succ i ih => exact .tail ih (hstep i)
  have cost : ∀ i, (((f i).2.map (Thread.cost dc.value)).sum) + i ≤ ((f 0).2.map (Thread.cost dc.value)).sum := by
    intro i
    induction i with
    | zero => simp
    | succ i ih =>
      have hi := poolSteps_inv (inv i) hc hok
      have := poolStep_cost hi.coh hi.ok (hstep i)
      omega
  have := cost (((f 0).2.map (Thread.cost dc.value)).sum + 1)
  omega

end Sdf.Octree
