import Verif.Model.Octree
import Mathlib.Data.List.Perm.Basic
import Mathlib.Tactic.Linarith

/-! Helper lemmas: the meaning of programs over the shared cache, for every interleaving. -/

namespace Sdf.Octree

/-- Result when every distance is the true one. -/
def Prog.result {α : Type} (f : V3i → ℝ) : Prog α → Option α
  | .ret a => some a
  | .eval vi k => (k (f vi)).result f
  | .push _ k => k.result f
  | .panic => none

/-- Triangles pushed when every distance is the true one. -/
def Prog.pushes {α : Type} (f : V3i → ℝ) : Prog α → List Tri
  | .ret _ => []
  | .eval vi k => (k (f vi)).pushes f
  | .push ts k => ts ++ k.pushes f
  | .panic => []

/-- Number of atomic steps at most. -/
def Prog.cost {α : Type} (f : V3i → ℝ) : Prog α → Nat
  | .ret _ => 0
  | .eval vi k => 2 + (k (f vi)).cost f
  | .push _ k => 1 + k.cost f
  | .panic => 0

theorem Prog.result_bind {α β : Type} (f : V3i → ℝ) (p : Prog α) (g : α → Prog β) :
    (p.bind g).result f = (p.result f).bind fun a => (g a).result f := by
  induction p with
  | ret a => rfl
  | eval vi k ih => simpa [Prog.bind, Prog.result] using ih (f vi)
  | push ts k ih => simpa [Prog.bind, Prog.result] using ih
  | panic => rfl

theorem Prog.pushes_bind {α β : Type} (f : V3i → ℝ) (p : Prog α) (g : α → Prog β) :
    (p.bind g).pushes f = p.pushes f ++ (match p.result f with | some a => (g a).pushes f | none => []) := by
  induction p with
  | ret a => rfl
  | eval vi k ih => simpa [Prog.bind, Prog.result, Prog.pushes] using ih (f vi)
  | push ts k ih => simp [Prog.bind, Prog.result, Prog.pushes, ih]
  | panic => rfl

def Coherent (dc : Dc3) (cache : V3i → Option ℝ) : Prop := ∀ vi d, cache vi = some d → d = dc.value vi

def ThreadOk (dc : Dc3) {α : Type} : Thread α → Prop
  | .run _ => True
  | .filling vi d _ => d = dc.value vi

def Thread.result {α : Type} (f : V3i → ℝ) : Thread α → Option α
  | .run p => p.result f
  | .filling vi _ k => (k (f vi)).result f

def Thread.pushes {α : Type} (f : V3i → ℝ) : Thread α → List Tri
  | .run p => p.pushes f
  | .filling vi _ k => (k (f vi)).pushes f

def Thread.cost {α : Type} (f : V3i → ℝ) : Thread α → Nat
  | .run p => p.cost f
  | .filling vi _ k => 1 + (k (f vi)).cost f

/-- The pool invariant relative to the start. -/
structure PoolInv (dc : Dc3) {α : Type} (s t : Shared × List (Thread α)) : Prop where
  coh : Coherent dc t.1.cache
  ok : ∀ th ∈ t.2, ThreadOk dc th
  res : t.2.map (Thread.result dc.value) = s.2.map (Thread.result dc.value)
  push : (t.1.unwritten ++ t.2.flatMap (Thread.pushes dc.value)).Perm
    (s.1.unwritten ++ s.2.flatMap (Thread.pushes dc.value))

theorem threadStep_inv {dc : Dc3} {α : Type} {sh sh' : Shared} {t t' : Thread α}
    (h : ThreadStep dc sh t sh' t') (hc : Coherent dc sh.cache) (ht : ThreadOk dc t) :
    Coherent dc sh'.cache ∧ ThreadOk dc t' ∧ t'.result dc.value = t.result dc.value
    ∧ (∃ l, sh'.unwritten = sh.unwritten ++ l ∧ t.pushes dc.value = l ++ t'.pushes dc.value)
    ∧ t'.cost dc.value < t.cost dc.value := by
  cases h with
  | hit h =>
    have := hc _ _ h
    subst this
    exact ⟨hc, trivial, rfl, ⟨[], by simp, rfl⟩, by simp [Thread.cost, Prog.cost]⟩
  | miss h =>
    refine ⟨hc, rfl, rfl, ⟨[], by simp, rfl⟩, ?_⟩
    simp [Thread.cost, Prog.cost]
  | fill =>
    rename_i vi d k
    have hd : d = dc.value vi := ht
    subst hd
    refine ⟨?_, trivial, rfl, ⟨[], by simp, rfl⟩, by simp [Thread.cost]⟩
    intro w e hw
    simp only at hw
    split at hw
    · rename_i h; subst h; simpa using hw.symm
    · exact hc _ _ hw
  | push =>
    exact ⟨hc, trivial, rfl, ⟨_, rfl, rfl⟩, by simp [Thread.cost, Prog.cost]⟩

theorem poolStep_inv {dc : Dc3} {α : Type} {s t u : Shared × List (Thread α)}
    (hs : PoolInv dc s t) (h : PoolStep dc t u) : PoolInv dc s u := by
  cases h with
  | step h =>
    rename_i sh sh' pre th th' post
    obtain ⟨hc, hok, hres, hpush⟩ := hs
    have ⟨h1, h2, h3, ⟨l, h4, h5⟩, _⟩ := threadStep_inv h hc (hok th (by simp))
    refine ⟨h1, ?_, ?_, ?_⟩
    · intro x hx
      simp only [List.mem_append, List.mem_cons] at hx
      rcases hx with hx | hx | hx
      · exact hok x (by simp [hx])
      · subst hx; exact h2
      · exact hok x (by simp [hx])
    · rw [← hres]; simp [h3]
    · refine List.Perm.trans ?_ hpush
      simp only [List.flatMap_append, List.flatMap_cons, h4, h5]
      -- move `l` across the pushes of the earlier threads
      rw [List.append_assoc]
      apply List.Perm.append_left
      simp only [List.append_assoc]
      rw [← List.append_assoc, ← List.append_assoc (List.flatMap _ pre)]
      exact List.Perm.append_right _ List.perm_append_comm

theorem poolSteps_inv {dc : Dc3} {α : Type} {s t : Shared × List (Thread α)}
    (h : PoolSteps dc s t) (hc : Coherent dc s.1.cache) (hok : ∀ th ∈ s.2, ThreadOk dc th) : PoolInv dc s t := by
  induction h with
  | refl => exact ⟨hc, hok, rfl, List.Perm.refl _⟩
  | tail _ h ih => exact poolStep_inv ih h

/-- Completed pool: every worker returned its sequential result and the appended triangles are a
rearrangement of the workers' pushes. -/
theorem poolRuns_spec {dc : Dc3} {α : Type} {sh sh' : Shared} {ps : List (Prog α)} {rs : List α}
    (h : PoolRuns dc sh ps sh' rs) (hc : Coherent dc sh.cache) :
    Coherent dc sh'.cache ∧ ps.map (Prog.result dc.value) = rs.map some
    ∧ sh'.unwritten.Perm (sh.unwritten ++ ps.flatMap (Prog.pushes dc.value)) := by
  have hi := poolSteps_inv h hc (by intro th hth; simp at hth; obtain ⟨p, _, rfl⟩ := hth; trivial)
  refine ⟨hi.coh, ?_, ?_⟩
  · have := hi.res
    simp only [List.map_map] at this
    exact this.symm
  · have := hi.push
    simp only [List.flatMap_map] at this
    have e : (rs.flatMap fun a => Thread.pushes dc.value (Thread.run (Prog.ret a))) = [] := by
      simp [Thread.pushes, Prog.pushes]
    rw [e, List.append_nil] at this
    exact this

/-- Total remaining cost of the pool: every step decreases it. -/
theorem poolStep_cost {dc : Dc3} {α : Type} {t u : Shared × List (Thread α)}
    (hc : Coherent dc t.1.cache) (hok : ∀ th ∈ t.2, ThreadOk dc th) (h : PoolStep dc t u) :
    (u.2.map (Thread.cost dc.value)).sum < (t.2.map (Thread.cost dc.value)).sum := by
  cases h with
  | step h =>
    rename_i sh sh' pre th th' post
    have := (threadStep_inv h hc (hok th (by simp))).2.2.2.2
    simp only [List.map_append, List.map_cons, List.sum_append, List.sum_cons]
    omega

/-- A thread that is not finished and not panicked can step. -/
theorem thread_progress (dc : Dc3) {α : Type} (sh : Shared) (t : Thread α) (hr : (t.result dc.value).isSome) :
    (∃ a, t = .run (.ret a)) ∨ ∃ sh' t', ThreadStep dc sh t sh' t' := by
  cases t with
  | filling vi d k => exact Or.inr ⟨_, _, .fill⟩
  | run p =>
    cases p with
    | ret a => exact Or.inl ⟨a, rfl⟩
    | eval vi k =>
      right
      cases h : sh.cache vi with
      | none => exact ⟨_, _, .miss h⟩
      | some d => exact ⟨_, _, .hit h⟩
    | push ts k => exact Or.inr ⟨_, _, .push⟩
    | panic => simp [Thread.result, Prog.result] at hr

theorem finished_or_step (dc : Dc3) {α : Type} (sh : Shared) (ts : List (Thread α))
    (hr : ∀ t ∈ ts, (t.result dc.value).isSome) :
    (∃ rs : List α, ts = rs.map fun a => Thread.run (Prog.ret a)) ∨ ∃ u, PoolStep dc (sh, ts) u := by
  induction ts with
  | nil => exact Or.inl ⟨[], rfl⟩
  | cons t r ih =>
    rcases thread_progress dc sh t (hr t List.mem_cons_self) with ⟨a, rfl⟩ | ⟨sh', t', h⟩
    · rcases ih (fun x hx => hr x (List.mem_cons_of_mem _ hx)) with ⟨rs, rfl⟩ | ⟨u, hu⟩
      · exact Or.inl ⟨a :: rs, rfl⟩
      · right
        cases hu with
        | step h =>
          rename_i sh' pre th th' post
          exact ⟨(sh', (Thread.run (Prog.ret a) :: pre) ++ th' :: post), .step (pre := Thread.run (Prog.ret a) :: pre) h⟩
    · exact Or.inr ⟨(sh', t' :: r), .step (pre := []) h⟩

theorem PoolSteps.head {dc : Dc3} {α : Type} {s t u : Shared × List (Thread α)}
    (h : PoolStep dc s t) (h' : PoolSteps dc t u) : PoolSteps dc s u := by
  induction h' with
  | refl => exact .tail .refl h
  | tail _ hs ih => exact .tail ih hs

/-- From any coherent, panic-free pool some (in fact every) schedule completes. -/
theorem pool_completes (dc : Dc3) {α : Type} (m : Nat) : ∀ (s : Shared × List (Thread α)),
    Coherent dc s.1.cache → (∀ th ∈ s.2, ThreadOk dc th) →
    (∀ t ∈ s.2, (t.result dc.value).isSome) →
    (s.2.map (Thread.cost dc.value)).sum ≤ m →
    ∃ (sh' : Shared) (rs : List α), PoolSteps dc s (sh', rs.map fun a => Thread.run (Prog.ret a)) := by
  induction m with
  | zero =>
    intro s hc hok hr hm
    rcases finished_or_step dc s.1 s.2 hr with ⟨rs, h⟩ | ⟨u, hu⟩
    · exact ⟨s.1, rs, by rw [← h]; exact .refl⟩
    · have := poolStep_cost hc hok hu; omega
  | succ m ih =>
    intro s hc hok hr hm
    rcases finished_or_step dc s.1 s.2 hr with ⟨rs, h⟩ | ⟨u, hu⟩
    · exact ⟨s.1, rs, by rw [← h]; exact .refl⟩
    · have hcost := poolStep_cost hc hok hu
      have hinv := poolStep_inv (s := s) ⟨hc, hok, rfl, List.Perm.refl _⟩ hu
      have hr' : ∀ t ∈ u.2, (t.result dc.value).isSome := by
        intro t ht
        have : t.result dc.value ∈ s.2.map (Thread.result dc.value) := by
          rw [← hinv.res]; exact List.mem_map_of_mem ht
        obtain ⟨t0, ht0, e⟩ := List.mem_map.mp this
        rw [← e]; exact hr t0 ht0
      obtain ⟨sh', rs, h⟩ := ih u hinv.coh hinv.ok hr' (by omega)
      exact ⟨sh', rs, .head hu h⟩

end Sdf.Octree
