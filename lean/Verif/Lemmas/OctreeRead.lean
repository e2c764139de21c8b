import Verif.Lemmas.OctreeProg
import Verif.Lemmas.MCChain
import Verif.Spec.Octree

/-! Helper lemmas: sequential meaning of `readTriangles` and of the threaded consolidation. -/

namespace Sdf.Octree

open Classical

def ValidCube (dc : Dc3) (c : Cube) : Prop := 1 ≤ c.n ∧ c.n < dc.levels

theorem isEmpty_result (dc : Dc3) (c : Cube) (h : ValidCube dc c) :
    (isEmpty dc c).result dc.value = some (decide (Skipped dc c)) := by
  have : ¬ (c.n = 0 ∨ dc.levels ≤ c.n) := by unfold ValidCube at h; omega
  unfold isEmpty
  rw [if_neg this]
  rfl

theorem isEmpty_pushes (dc : Dc3) (c : Cube) : (isEmpty dc c).pushes dc.value = [] := by
  unfold isEmpty; split <;> rfl

theorem evalAll_spec (f : V3i → ℝ) (l : List V3i) :
    (evalAll l).result f = some (l.map f) ∧ (evalAll l).pushes f = [] := by
  induction l with
  | nil => exact ⟨rfl, rfl⟩
  | cons a t ih =>
    simp only [evalAll, Prog.result, Prog.pushes, Prog.result_bind, Prog.pushes_bind, ih.1, ih.2]
    exact ⟨rfl, rfl⟩

theorem filterEmpty_spec (dc : Dc3) (l : List Cube) (h : ∀ c ∈ l, ValidCube dc c) :
    (filterEmpty dc l).result dc.value = some (l.filter fun c => ¬ Skipped dc c)
    ∧ (filterEmpty dc l).pushes dc.value = [] := by
  induction l with
  | nil => exact ⟨rfl, rfl⟩
  | cons a t ih =>
    have iht := ih (fun c hc => h c (List.mem_cons_of_mem _ hc))
    have ha := isEmpty_result dc a (h a List.mem_cons_self)
    simp only [filterEmpty, Prog.result_bind, Prog.pushes_bind, ha, iht.1, iht.2, isEmpty_pushes]
    refine ⟨?_, rfl⟩
    by_cases hs : Skipped dc a <;> simp [hs, Prog.result]

/-- children of a cube that is subdivided -/
noncomputable def children (dc : Dc3) (c : Cube) : List Cube :=
  if c.n = 1 then [] else (subCubes c).filter fun c => ¬ Skipped dc c

/-- triangles of a cube when it is a leaf -/
noncomputable def ownTris (deg : Tri → Bool) (dc : Dc3) (c : Cube) : List Tri :=
  if c.n = 1 then leafTris deg dc c else []

theorem subCubes_level (c x : Cube) (h : x ∈ subCubes c) : x.n = c.n - 1 := by
  simp only [subCubes, List.mem_cons, List.not_mem_nil, or_false] at h
  rcases h with h | h | h | h | h | h | h | h <;> rw [h]

theorem raw_length_le (p : Fin 8 → V3) (v : Fin 8 → ℝ) (x : ℝ) : (MC.rawTriangles p v x).length ≤ 5 := by
  rw [MC.rawTriangles_eq, List.length_map, MC.triples_length]
  have := (MC.len_facts (MC.neg v x)).1
  omega

theorem leafTris_length (deg : Tri → Bool) (dc : Dc3) (c : Cube) : (leafTris deg dc c).length ≤ 5 :=
  le_trans (List.length_filter_le _ _) (raw_length_le _ _ _)

theorem ownTris_length (deg : Tri → Bool) (dc : Dc3) (c : Cube) : (ownTris deg dc c).length ≤ 5 := by
  unfold ownTris; split
  · exact leafTris_length _ _ _
  · simp

theorem processCube_spec (deg : Tri → Bool) (dc : Dc3) (dstLen : Nat) (hd : 5 ≤ dstLen) (c : Cube)
    (hc : ValidCube dc c) :
    (processCube deg dc dstLen c).result dc.value = some (ownTris deg dc c, children dc c)
    ∧ (processCube deg dc dstLen c).pushes dc.value = [] := by
  unfold processCube ownTris children
  by_cases h1 : c.n = 1
  · simp only [h1, if_true]
    have he := evalAll_spec dc.value (List.ofFn (leafCorners c))
    rw [Prog.result_bind, Prog.pushes_bind, he.1, he.2]
    have hv : (fun i : Fin 8 => ((List.ofFn (leafCorners c)).map dc.value).getD i 0)
        = fun i => dc.value (leafCorners c i) := by
      funext i
      simp [List.getD]
      fin_cases i <;> rfl
    have hm : ¬ dstLen < MC.maxTriangles := by unfold MC.maxTriangles; omega
    simp only [Option.bind_some, hv, MC.toTriangles, hm, if_false]
    exact ⟨rfl, rfl⟩
  · have h0 : c.n ≠ 0 := by unfold ValidCube at hc; omega
    simp only [h1, h0, if_false]
    have hf := filterEmpty_spec dc (subCubes c) (by
      intro x hx
      have := subCubes_level c x hx
      unfold ValidCube at hc ⊢
      omega)
    rw [Prog.result_bind, Prog.pushes_bind, hf.1, hf.2]
    exact ⟨rfl, rfl⟩

/-- weight of a work list: strictly decreases when a cube is replaced by its children -/
def weight (l : List Cube) : Nat := (l.map fun c => 9 ^ c.n).sum

theorem weight_append (a b : List Cube) : weight (a ++ b) = weight a + weight b := by simp [weight]
theorem weight_cons (a : Cube) (b : List Cube) : weight (a :: b) = 9 ^ a.n + weight b := by simp [weight]

theorem children_weight (dc : Dc3) (c : Cube) (hc : ValidCube dc c) : weight (children dc c) + 9 ≤ 9 ^ c.n := by
  unfold children
  split
  · rename_i h; rw [h]; simp [weight]
  · rename_i h
    have h1 : weight ((subCubes c).filter fun c => ¬ Skipped dc c) ≤ weight (subCubes c) := by
      unfold weight
      exact List.Sublist.sum_le_sum ((List.filter_sublist).map _) (by simp)
    have h2 : weight (subCubes c) = 8 * 9 ^ (c.n - 1) := by
      simp [weight, subCubes]; ring
    obtain ⟨m, hm⟩ : ∃ m, c.n = m + 2 := ⟨c.n - 2, by unfold ValidCube at hc; omega⟩
    rw [hm] at h2 ⊢
    have e : m + 2 - 1 = m + 1 := rfl
    rw [e] at h2
    have : 9 ^ (m + 2) = 9 * 9 ^ (m + 1) := by ring
    have h9 : 9 ≤ 9 ^ (m + 1) := by
      calc 9 = 9 ^ 1 := by norm_num
        _ ≤ 9 ^ (m + 1) := Nat.pow_le_pow_right (by norm_num) (by omega)
    omega

theorem children_valid (dc : Dc3) (c : Cube) (hc : ValidCube dc c) : ∀ x ∈ children dc c, ValidCube dc x := by
  unfold children
  split
  · simp
  · intro x hx
    have := subCubes_level c x (List.mem_of_mem_filter hx)
    unfold ValidCube at hc ⊢; omega

/-- One unfolding of the mesh of a cube. -/
theorem mesh_unfold (deg : Tri → Bool) (dc : Dc3) (c : Cube) (hc : ValidCube dc c) :
    mesh deg dc c = ownTris deg dc c ++ (children dc c).flatMap (mesh deg dc) := by
  obtain ⟨o, n⟩ := c
  unfold ownTris children mesh
  match n, hc with
  | 0, hc => exact absurd hc.1 (by simp)
  | 1, _ => simp [leaves]
  | n + 2, _ =>
    simp only [leaves, List.flatMap_assoc]
    have : n + 2 ≠ 1 := by omega
    simp only [this, if_false, List.nil_append]
    apply List.flatMap_congr
    intro x hx
    have hl := subCubes_level _ x (List.mem_of_mem_filter hx)
    simp only at hl
    rw [hl]; rfl

/-- What one pass over (part of) the work list achieves. -/
structure PassSpec (deg : Tri → Bool) (dc : Dc3) (room : Nat) (todo : List Cube)
    (out : List Tri) (k : Nat) (cs : List Cube) (pushed : List Tri) : Prop where
  room_ok : out.length ≤ room
  k_le : k ≤ todo.length
  k_pos : 0 < room → todo ≠ [] → 0 < k
  meshEq : ((todo.take k).flatMap (mesh deg dc)).Perm (out ++ pushed ++ cs.flatMap (mesh deg dc))
  valid : ∀ c ∈ cs, ValidCube dc c
  wt : weight cs + 9 * k ≤ weight (todo.take k)
  pushed_le : pushed.length ≤ 5 * k

theorem readTriangles_spec (deg : Tri → Bool) (dc : Dc3) (dstLen : Nat) (todo : List Cube)
    (hv : ∀ c ∈ todo, ValidCube dc c) : ∀ n ≤ dstLen,
    ∃ out k cs, (readTriangles deg dc dstLen n todo).result dc.value = some (out, k, cs)
      ∧ PassSpec deg dc (dstLen - n) todo out k cs ((readTriangles deg dc dstLen n todo).pushes dc.value) := by
  induction todo with
  | nil =>
    intro n hn
    refine ⟨[], 0, [], rfl, ?_⟩
    constructor <;> simp [readTriangles, Prog.pushes, weight]
  | cons c t ih =>
    intro n hn
    have hc := hv c List.mem_cons_self
    have hvt : ∀ c ∈ t, ValidCube dc c := fun x hx => hv x (List.mem_cons_of_mem _ hx)
    unfold readTriangles
    by_cases h1 : n = dstLen
    · rw [if_pos h1]
      refine ⟨[], 0, [], rfl, ?_⟩
      constructor <;> simp [Prog.pushes, weight]
      omega
    · rw [if_neg h1]
      by_cases h2 : n + MC.maxTriangles > dstLen
      · rw [if_pos h2]
        obtain ⟨hr, hp⟩ := processCube_spec deg dc MC.maxTriangles (le_refl 5) c hc
        refine ⟨[], 1, children dc c, ?_, ?_⟩
        · rw [Prog.result_bind, hr]; rfl
        · have e : ((processCube deg dc MC.maxTriangles c).bind fun x =>
              Prog.push x.1 (Prog.ret (([] : List Tri), 1, x.2))).pushes dc.value = ownTris deg dc c := by
            rw [Prog.pushes_bind, hr, hp]; simp [Prog.pushes]
          have e' : (Prog.pushes dc.value ((processCube deg dc MC.maxTriangles c).bind fun x =>
              match x with | (tri, cubes) => Prog.push tri (Prog.ret (([] : List Tri), 1, cubes)))) = ownTris deg dc c := e
          rw [e']
          constructor
          · simp
          · simp
          · simp
          · simp [mesh_unfold deg dc c hc]
          · exact children_valid dc c hc
          · have := children_weight dc c hc
            simp [weight] at this ⊢
            omega
          · have := ownTris_length deg dc c; omega
      · rw [if_neg h2]
        have hroom : 5 ≤ dstLen - n := by unfold MC.maxTriangles at h2; omega
        obtain ⟨hr, hp⟩ := processCube_spec deg dc (dstLen - n) hroom c hc
        have hl := ownTris_length deg dc c
        obtain ⟨out, k, cs, hr2, hs⟩ := ih hvt (n + (ownTris deg dc c).length) (by omega)
        refine ⟨ownTris deg dc c ++ out, k + 1, children dc c ++ cs, ?_, ?_⟩
        · rw [Prog.result_bind, hr]
          simp only [Option.bind_some, Prog.result_bind, hr2]
          rfl
        · rw [Prog.pushes_bind, hr, hp]
          simp only [List.nil_append, Prog.pushes_bind, hr2]
          have e : ∀ l : List Tri, l ++ Prog.pushes dc.value (Prog.ret
              (ownTris deg dc c ++ out, k + 1, children dc c ++ cs)) = l := by
            intro l; simp [Prog.pushes]
          rw [e]
          generalize (readTriangles deg dc dstLen (n + (ownTris deg dc c).length) t).pushes dc.value = pushed at hs
          constructor
          · have := hs.room_ok; simp; omega
          · have := hs.k_le; simp; omega
          · simp
          · simp only [List.take_succ_cons, List.flatMap_cons, List.flatMap_append, mesh_unfold deg dc c hc]
            rw [List.append_assoc, List.append_assoc, List.append_assoc]
            apply List.Perm.append_left
            have h := hs.meshEq
            calc ((children dc c).flatMap (mesh deg dc) ++ (t.take k).flatMap (mesh deg dc)).Perm
                  ((children dc c).flatMap (mesh deg dc) ++ (out ++ pushed ++ cs.flatMap (mesh deg dc))) :=
                    List.Perm.append_left _ h
              _ = (((children dc c).flatMap (mesh deg dc) ++ (out ++ pushed)) ++ cs.flatMap (mesh deg dc)) := by
                    simp
              _ |>.Perm (((out ++ pushed) ++ (children dc c).flatMap (mesh deg dc)) ++ cs.flatMap (mesh deg dc)) :=
                    List.Perm.append_right _ List.perm_append_comm
              _ = _ := by simp
          · intro x hx
            rcases List.mem_append.mp hx with hx | hx
            · exact children_valid dc c hc x hx
            · exact hs.valid x hx
          · have := hs.wt
            have := children_weight dc c hc
            simp only [List.take_succ_cons, weight_append, weight_cons]
            omega
          · have := hs.pushed_le; omega

end Sdf.Octree
