import Verif.Lemmas.OctreeTerm
import Verif.Props.C02

/-!
C04: `ReadTriangles` terminates and respects the reader protocol.
-/

namespace Sdf.Octree

/-- Renderer states a caller can be in: after some calls on a fresh renderer (any number of goroutines),
none of which returned `io.EOF`, or with the last one having returned it. -/
def Reachable (deg : Tri → Bool) (s : SDF3) (meshCells : ℤ) (oc : State) (eof : Bool) : Prop :=
  ∃ oc0 outs, Initial s meshCells oc0 ∧ Calls deg oc0 outs oc eof

/-- Every call writes within the caller's slice. -/
theorem C04_count_in_range (deg : Tri → Bool) (s : SDF3) (meshCells : ℤ) (hb : s.bounds.Solid) (oc oc' : State) (eof : Bool)
    (hr : Reachable deg s meshCells oc eof) (dst : List Tri) (r : ReadResult) (h : ReadTriangles deg oc dst oc' r) :
    r.n ≤ dst.length ∧ r.dst.length = dst.length := by
  obtain ⟨oc0, outs, h0, hc⟩ := hr
  have hs := read_spec (calls_spec (initial_ok (initial_facts hb h0)) hc).ok h
  exact ⟨hs.n_le, hs.len⟩

/-- There is a bound, known before the first call, on the number of calls that do not return `io.EOF`, whatever the
buffers and the goroutine schedules. -/
theorem C04_eof_after_boundedly_many_calls (deg : Tri → Bool) (s : SDF3) (meshCells : ℤ) (hb : s.bounds.Solid) (oc0 : State)
    (h0 : Initial s meshCells oc0) :
    ∃ N, ∀ outs oc, Calls deg oc0 outs oc false → outs.length ≤ N :=
  ⟨measure oc0, fun _ _ hc => by
    have := (calls_spec (initial_ok (initial_facts hb h0)) hc).bound rfl
    omega⟩

/-- A call with a non-empty slice can always complete without panicking, and it cannot with an empty one. -/
theorem C04_call_completes_iff_nonempty (deg : Tri → Bool) (s : SDF3) (meshCells : ℤ) (hb : s.bounds.Solid) (oc : State)
    (eof : Bool) (hr : Reachable deg s meshCells oc eof) (dst : List Tri) :
    (∃ oc' r, ReadTriangles deg oc dst oc' r) ↔ dst ≠ [] := by
  obtain ⟨oc0, outs, h0, hc⟩ := hr
  constructor
  · rintro ⟨oc', r, h⟩
    cases h <;> assumption
  · exact read_progress deg (calls_spec (initial_ok (initial_facts hb h0)) hc).ok dst

/-- The goroutines of a call cannot run forever, whatever the scheduler does, and as long as one of them has not
finished some goroutine can take a step: no deadlock, no panic, no livelock.  `ps` are the programs of the workers. -/
theorem C04_workers_terminate (deg : Tri → Bool) (s : SDF3) (meshCells : ℤ) (hb : s.bounds.Solid) (oc : State)
    (eof : Bool) (hr : Reachable deg s meshCells oc eof)
    (ps : List (Prog (List Tri × Nat × List Cube)))
    (hps : ∀ p ∈ ps, ∃ room work, p = readTriangles deg oc.dc room 0 work ∧ ∀ c ∈ work, c ∈ oc.todo) :
    (¬ ∃ f : Nat → Shared × List (Thread (List Tri × Nat × List Cube)),
        f 0 = (⟨oc.cache, []⟩, ps.map .run) ∧ ∀ i, PoolStep oc.dc (f i) (f (i + 1)))
    ∧ ∀ st, PoolSteps oc.dc (⟨oc.cache, []⟩, ps.map .run) st →
        (∃ rs : List (List Tri × Nat × List Cube), st.2 = rs.map fun a => .run (.ret a)) ∨ ∃ st', PoolStep oc.dc st st' := by
  obtain ⟨oc0, outs, h0, hc⟩ := hr
  have hok := (calls_spec (initial_ok (initial_facts hb h0)) hc).ok
  have hfresh : ∀ th ∈ (ps.map Thread.run), ThreadOk oc.dc th := by
    intro th hth
    obtain ⟨p, _, rfl⟩ := List.mem_map.mp hth
    trivial
  have hres : ∀ th ∈ (ps.map Thread.run), (Thread.result oc.dc.value th).isSome := by
    intro th hth
    obtain ⟨p, hp, rfl⟩ := List.mem_map.mp hth
    obtain ⟨room, work, rfl, hw⟩ := hps p hp
    obtain ⟨out, k, cs, hr, _⟩ := readTriangles_spec deg oc.dc room work (fun c hc => hok.valid c (hw c hc)) 0 (Nat.zero_le _)
    simp [Thread.result, hr]
  constructor
  · rintro ⟨f, hf0, hf⟩
    exact pool_no_infinite f (by rw [hf0]; exact hok.coh) (by rw [hf0]; exact hfresh) hf
  · intro st hst
    have hi := poolSteps_inv hst hok.coh hfresh
    refine finished_or_step oc.dc st.1 st.2 ?_
    intro t ht
    have : Thread.result oc.dc.value t ∈ st.2.map (Thread.result oc.dc.value) := List.mem_map_of_mem ht
    rw [hi.res] at this
    obtain ⟨t0, ht0, he⟩ := List.mem_map.mp this
    rw [← he]
    exact hres t0 ht0

/-- After `io.EOF`, every further call returns `(0, io.EOF)` and leaves the buffer alone. -/
theorem C04_after_eof (deg : Tri → Bool) (s : SDF3) (meshCells : ℤ) (hb : s.bounds.Solid) (oc oc' : State)
    (hr : Reachable deg s meshCells oc true) (dst : List Tri) (r : ReadResult) (h : ReadTriangles deg oc dst oc' r) :
    r.n = 0 ∧ r.eof = true ∧ r.dst = dst ∧ oc' = oc := by
  obtain ⟨oc0, outs, h0, hc⟩ := hr
  obtain ⟨e1, e2⟩ := (calls_spec (initial_ok (initial_facts hb h0)) hc).eof_done rfl
  cases h with
  | full _ h _ => exact absurd e1 h
  | eof _ _ _ =>
    refine ⟨by simp [e1], rfl, by simp [e1], ?_⟩
    cases oc
    simp only at e1
    simp [e1]
  | single _ _ h => exact absurd e2 h
  | threaded _ _ h => exact absurd e2 h

/-- Every shape with a solid bounding box has complete runs, for any buffers: hypotheses of C03–C06 are met. -/
example (bufs : Nat → List Tri) (hbuf : ∀ i, bufs i ≠ []) :
    ∃ oc outs oc', new unitBall 2 = some oc ∧ Calls (fun _ => false) oc outs oc' true := by
  obtain ⟨oc, h⟩ : ∃ oc, new unitBall 2 = some oc := Option.ne_none_iff_exists'.mp
    ((not_congr (C02_new_panics_iff unitBall 2 unitBall_solid)).mpr (by norm_num))
  obtain ⟨outs, oc', hc⟩ := calls_extend (deg := fun _ => false) bufs hbuf (measure oc) oc oc []
    (initial_ok (initial_facts (oc := oc) unitBall_solid ⟨oc, h, rfl⟩)) .nil (le_refl _)
  exact ⟨oc, outs, oc', h, hc⟩

end Sdf.Octree
