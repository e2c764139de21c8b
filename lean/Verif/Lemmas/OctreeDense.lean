import Verif.Lemmas.OctreeGrid

/-! Helper lemmas: octree leaves against the dense grid. -/

namespace Sdf.Octree

open Classical

theorem flatMap_perm_of_subset {α β : Type} (f : α → List β) : ∀ (A B : List α), A.Nodup → B.Nodup → A ⊆ B →
    (∀ b ∈ B, b ∉ A → f b = []) → (A.flatMap f).Perm (B.flatMap f) := by
  intro A B hA hB hAB h
  have h1 : (B.filter (· ∈ A)).Perm A := by
    rw [List.perm_ext_iff_of_nodup (hB.filter _) hA]
    intro a
    simp only [List.mem_filter, decide_eq_true_eq]
    exact ⟨fun h => h.2, fun h => ⟨hAB h, h⟩⟩
  have h2 : (B.filter (· ∈ A)).flatMap f = B.flatMap f := by
    clear h1 hB hAB hA
    induction B with
    | nil => rfl
    | cons b t ih =>
      have iht := ih (fun x hx => h x (List.mem_cons_of_mem _ hx))
      by_cases hb : b ∈ A
      · rw [List.filter_cons_of_pos (by simpa using hb)]
        simp only [List.flatMap_cons, iht]
      · rw [List.filter_cons_of_neg (by simpa using hb)]
        simp only [List.flatMap_cons, iht, h b (by simp) hb, List.nil_append]
  rw [← h2]
  exact (h1.symm.flatMap_right f)

theorem mem_offsets {k : Nat} {x : ℤ} : x ∈ offsets k ↔ ∃ i : ℤ, x = 2 * i ∧ 0 ≤ i ∧ i < k := by
  unfold offsets
  simp only [List.mem_map, List.mem_range]
  constructor
  · rintro ⟨i, hi, rfl⟩; exact ⟨i, rfl, by omega, by omega⟩
  · rintro ⟨i, rfl, h0, h1⟩; exact ⟨i.toNat, by omega, by omega⟩

theorem mem_allCells {n : Nat} {c : Cube} : c ∈ allCells n ↔ CellIn c n ⟨0, 0, 0⟩ := by
  unfold allCells CellIn
  simp only [List.mem_flatMap, List.mem_map, mem_offsets]
  push_cast
  constructor
  · rintro ⟨i, ⟨-, hi⟩, j, ⟨-, hj⟩, k, ⟨-, hk⟩, rfl⟩
    exact ⟨rfl, i, j, k, by simp, hi.1, hi.2, hj.1, hj.2, hk.1, hk.2⟩
  · rintro ⟨h1, i, j, k, h, a, b, c', d, e, f⟩
    refine ⟨i, ⟨rfl, a, b⟩, j, ⟨rfl, c', d⟩, k, ⟨rfl, e, f⟩, ?_⟩
    ext <;> simp [h, h1]

theorem offsets_nodup (k : Nat) : (offsets k).Nodup := by
  unfold offsets
  refine List.Nodup.map ?_ List.nodup_range
  intro a b h
  simp only at h
  omega

theorem allCells_nodup (n : Nat) : (allCells n).Nodup := by
  unfold allCells
  rw [List.nodup_flatMap]
  refine ⟨fun x _ => ?_, ?_⟩
  · rw [List.nodup_flatMap]
    refine ⟨fun y _ => ?_, ?_⟩
    · refine List.Nodup.map ?_ (offsets_nodup _)
      intro a b h
      simpa using h
    · refine List.Pairwise.imp ?_ (offsets_nodup _)
      intro a b hab c h1 h2
      simp only [List.mem_map] at h1 h2
      obtain ⟨u, _, rfl⟩ := h1
      obtain ⟨w, _, h⟩ := h2
      simp at h; exact hab h.1.symm
  · refine List.Pairwise.imp ?_ (offsets_nodup _)
    intro a b hab c h1 h2
    simp only [List.mem_map, List.mem_flatMap] at h1 h2
    obtain ⟨_, _, u, _, rfl⟩ := h1
    obtain ⟨_, _, w, _, h⟩ := h2
    simp at h; exact hab h.1.symm

theorem complete_perm {deg : Tri → Bool} {s : SDF3} {m : ℤ} {oc oc' : State} {outs : List (List Tri)}
    (hb : s.bounds.Solid) (h0 : Initial s m oc) (h : Calls deg oc outs oc' true) :
    outs.flatten.Perm (mesh deg oc.dc ⟨⟨0, 0, 0⟩, oc.dc.levels - 1⟩) := by
  have f := initial_facts hb h0
  have hs := calls_spec (initial_ok f) h
  obtain ⟨e1, e2⟩ := hs.eof_done rfl
  have hp := hs.perm
  simp only [pending, e1, e2, f.todo, f.unwritten, List.flatMap_nil, List.append_nil, List.nil_append,
    List.flatMap_cons] at hp
  rw [f.levels]
  exact hp.symm

theorem res_pos {s : SDF3} {m : ℤ} {oc : State} (hb : s.bounds.Solid) (f : InitFacts s m oc) : 0 < oc.dc.resolution := by
  rw [f.res]
  have := longAxis_pos s hb
  have : (2 : ℝ) ≤ (m : ℝ) := by exact_mod_cast f.m_ge
  positivity

end Sdf.Octree
