import Verif.Lemmas.Omesh

/-!
C49, continued: which nodes the smoother counts as the neighbours of a node.
-/

namespace Sdf
namespace Bcc

theorem lastSeen_mem {c : ℤ} : ∀ {l : List ℤ} {e : ℤ}, c ∈ l → lastSeen c l e = c := by
  intro l
  induction l with
  | nil => intro e h; simp at h
  | cons x l ih =>
    intro e h
    unfold lastSeen
    split_ifs with hx
    · exact hx.symm
    · exact ih ((List.mem_cons.mp h).resolve_left hx)

theorem lastSeen_eq {c : ℤ} : ∀ {l : List ℤ} {e : ℤ}, lastSeen c l e = c → c ∈ l ∨ (l = [] ∧ e = c) := by
  intro l
  induction l with
  | nil => intro e h; exact Or.inr ⟨rfl, h⟩
  | cons x l ih =>
    intro e h
    unfold lastSeen at h
    split_ifs at h with hx
    · left; simp [hx]
    · rcases ih h with h | ⟨-, h⟩
      · left; exact List.mem_cons_of_mem _ h
      · exact absurd h.symm hx

theorem addConnection_spec (conn : List ℤ) (c : ℤ) (hn : conn.Nodup) :
    (addConnection conn c).Nodup ∧ (∀ x, x ∈ conn → x ∈ addConnection conn c) ∧ (∀ x, x ∈ addConnection conn c → x ∈ conn ∨ x = c) ∧
    (c ≠ 0 → c ∈ addConnection conn c) := by
  unfold addConnection
  split_ifs with h
  · refine ⟨?_, fun x hx => by simp [hx], fun x hx => by simpa using hx, fun _ => by simp⟩
    rw [List.nodup_append]
    refine ⟨hn, by simp, ?_⟩
    intro a ha b hb
    rw [List.mem_singleton] at hb
    subst hb
    rintro rfl
    exact h (lastSeen_mem ha).symm
  · rw [ne_eq, not_not] at h
    refine ⟨hn, fun x hx => hx, fun x hx => Or.inl hx, fun h0 => ?_⟩
    rcases lastSeen_eq h.symm with h | ⟨-, h⟩
    · exact h
    · exact absurd h.symm h0

/-- What is known of the connections while the mesh is assembled: `D k c` tells that `c` was offered to node `k`. -/
def Links (D : ℕ → ℤ → Prop) (om : List ONode) : Prop :=
  ∀ (k : ℕ) on, om[k]? = some on → on.connectivity.Nodup ∧ (∀ c ∈ on.connectivity, D k c) ∧ (∀ c, c ≠ 0 → D k c → c ∈ on.connectivity) ∧
    (on.tetras = [] → on.connectivity = [])

/-- The numbers of the first three corners. -/
def First3 (t : Tet) (c : ℤ) : Prop := c = t.1 ∨ c = t.2.1 ∨ c = t.2.2.1

theorem three_spec (t : Tet) (i : ℕ) (conn : List ℤ) (hn : conn.Nodup) :
    let r := [0, 1, 2].foldl (fun l j => addConnection l (corner t ((i + j + 1) % 3))) conn
    r.Nodup ∧ (∀ x, x ∈ conn → x ∈ r) ∧ (∀ x, x ∈ r → x ∈ conn ∨ First3 t x) ∧ (∀ x, First3 t x → x ≠ 0 → x ∈ r) := by
  simp only [List.foldl_cons, List.foldl_nil]
  obtain ⟨a1, a2, a3, a4⟩ := addConnection_spec conn (corner t ((i + 0 + 1) % 3)) hn
  obtain ⟨b1, b2, b3, b4⟩ := addConnection_spec _ (corner t ((i + 1 + 1) % 3)) a1
  obtain ⟨c1, c2, c3, c4⟩ := addConnection_spec _ (corner t ((i + 2 + 1) % 3)) b1
  have hf : ∀ j, First3 t (corner t (j % 3)) := by
    intro j
    have : j % 3 < 3 := Nat.mod_lt _ (by norm_num)
    unfold First3
    interval_cases j % 3 <;> simp [corner]
  refine ⟨c1, fun x hx => c2 _ (b2 _ (a2 _ hx)), ?_, ?_⟩
  · intro x hx
    rcases c3 x hx with hx | rfl
    · rcases b3 x hx with hx | rfl
      · rcases a3 x hx with hx | rfl
        · exact Or.inl hx
        · exact Or.inr (hf _)
      · exact Or.inr (hf _)
    · exact Or.inr (hf _)
  · intro x hx h0
    have hj : ∃ j < 3, x = corner t j := by
      rcases hx with rfl | rfl | rfl
      exacts [⟨0, by norm_num, rfl⟩, ⟨1, by norm_num, rfl⟩, ⟨2, by norm_num, rfl⟩]
    obtain ⟨j, hj, rfl⟩ := hj
    have : j = (i + 0 + 1) % 3 ∨ j = (i + 1 + 1) % 3 ∨ j = (i + 2 + 1) % 3 := by omega
    rcases this with e | e | e
    · rw [e] at h0 ⊢; exact c2 _ (b2 _ (a4 h0))
    · rw [e] at h0 ⊢; exact c2 _ (b4 h0)
    · rw [e] at h0 ⊢; exact c4 h0

theorem addCorner_links {nodes : List V3} {D : ℕ → ℤ → Prop} {om om' : List ONode} (h : Links D om) (idx : ℕ) (t : Tet) (i : ℕ)
    (hr : addCorner nodes idx t om i = some om') : Links (fun k c => D k c ∨ ((k : ℤ) = corner t i ∧ First3 t c)) om' := by
  unfold addCorner at hr
  dsimp only at hr
  split_ifs at hr with h0
  split at hr
  swap; · cases hr
  rename_i on p e1 e2
  rw [Option.some.injEq] at hr
  subst hr
  obtain ⟨g1, g2, g3, g4⟩ := h _ _ e1
  have hk : (((corner t i).toNat : ℕ) : ℤ) = corner t i := by omega
  set on1 : ONode := if on.tetras = [] then ⟨some p, [], []⟩ else on with hon1
  have hc : on1.connectivity = on.connectivity := by
    rw [hon1]; split_ifs with he
    · exact (g4 he).symm
    · rfl
  clear_value on1
  intro k on' hk'
  by_cases c1 : (corner t i).toNat = k
  · subst c1
    rw [List.getElem?_set_self (List.getElem?_eq_some_iff.1 e1).1] at hk'
    cases hk'
    obtain ⟨a1, a2, a3, a4⟩ := three_spec t i on1.connectivity (by rw [hc]; exact g1)
    refine ⟨a1, ?_, ?_, by simp⟩
    · intro c hx
      rcases a3 c hx with hx | hx
      · left; rw [hc] at hx; exact g2 c hx
      · right; exact ⟨hk, hx⟩
    · rintro c hc0 (hD | ⟨-, hD⟩)
      · exact a2 c (by rw [hc]; exact g3 c hc0 hD)
      · exact a4 c hD hc0
  · rw [List.getElem?_set_ne c1] at hk'
    obtain ⟨b1, b2, b3, b4⟩ := h _ _ hk'
    refine ⟨b1, fun c hx => Or.inl (b2 c hx), ?_, b4⟩
    rintro c hc0 (hD | ⟨hD, -⟩)
    · exact b3 c hc0 hD
    · exact absurd (show (corner t i).toNat = k by omega) c1

theorem Links.congr {D D' : ℕ → ℤ → Prop} {om : List ONode} (h : Links D om) (e : ∀ k c, D k c ↔ D' k c) : Links D' om := by
  have : D = D' := funext fun k => funext fun c => propext (e k c)
  exact this ▸ h

/-- The node `k` is a corner of `t`. -/
def CornerOf (t : Tet) (k : ℕ) : Prop := (k : ℤ) = t.1 ∨ (k : ℤ) = t.2.1 ∨ (k : ℤ) = t.2.2.1 ∨ (k : ℤ) = t.2.2.2

theorem tetra_links {nodes : List V3} {D : ℕ → ℤ → Prop} {om om' : List ONode} (h : Links D om) (idx : ℕ) (t : Tet)
    (hr : [0, 1, 2, 3].foldlM (addCorner nodes idx t) om = some om') : Links (fun k c => D k c ∨ (CornerOf t k ∧ First3 t c)) om' := by
  simp only [List.foldlM_cons, List.foldlM_nil, Option.bind_eq_bind, Option.bind_eq_some_iff] at hr
  obtain ⟨o0, h0, o1, h1, o2, h2, o3, h3, h4⟩ := hr
  cases h4
  refine (addCorner_links (addCorner_links (addCorner_links (addCorner_links h idx t 0 h0) idx t 1 h1) idx t 2 h2) idx t 3 h3).congr ?_
  intro k c
  simp only [corner, CornerOf]
  tauto

/-- The neighbours of a node, each once, are the first three corners of the tetrahedra around it: all of them except possibly node 0, and
nothing else.  (Not the fourth corners, and the node itself may be among them: `C49_connectivity_wrong`.) -/
theorem C49_connections_partial (nodes : List V3) (ts : List Tet) (om : List ONode) (h : newOmesh nodes ts = some om) (k : ℕ) (on : ONode)
    (hk : om[k]? = some on) :
    on.connectivity.Nodup ∧ (∀ c ∈ on.connectivity, ∃ t ∈ ts, CornerOf t k ∧ First3 t c) ∧
    ∀ t ∈ ts, CornerOf t k → ∀ c, First3 t c → c ≠ 0 → c ∈ on.connectivity := by
  have key : ∀ (l : List (Tet × ℕ)) (D : ℕ → ℤ → Prop) (om om' : List ONode), Links D om →
      l.foldlM (fun onodes t => [0, 1, 2, 3].foldlM (addCorner nodes t.2 t.1) onodes) om = some om' →
      Links (fun k c => D k c ∨ ∃ t ∈ l, CornerOf t.1 k ∧ First3 t.1 c) om' := by
    intro l
    induction l with
    | nil =>
      intro D om om' h hr
      cases hr
      exact h.congr (by simp)
    | cons t l ih =>
      intro D om om' h hr
      rw [List.foldlM_cons, Option.bind_eq_bind, Option.bind_eq_some_iff] at hr
      obtain ⟨o1, h1, h2⟩ := hr
      refine (ih _ o1 om' (tetra_links h t.2 t.1 h1) h2).congr ?_
      intro k c
      simp only [List.mem_cons, exists_eq_or_imp, or_assoc]
  unfold newOmesh at h
  have base : Links (fun _ _ => False) (List.replicate nodes.length ONode.zero) := by
    intro k on hk
    rw [List.getElem?_replicate] at hk
    split_ifs at hk
    cases hk
    simp [ONode.zero]
  obtain ⟨g1, g2, g3, -⟩ := key _ _ _ _ base h k on hk
  refine ⟨g1, ?_, ?_⟩
  · intro c hc
    rcases g2 c hc with h | ⟨t, ht, h⟩
    · exact h.elim
    · exact ⟨t.1, List.fst_mem_of_mem_zipIdx ht, h⟩
  · intro t ht hk c hc h0
    obtain ⟨i, hi⟩ := List.mem_iff_getElem?.mp ht
    exact g3 c h0 (Or.inr ⟨(t, i), List.mem_zipIdx_iff_getElem?.mpr hi, hk, hc⟩)

/-- Two tetrahedra sharing a face give node 1 the neighbours 2, 0, 1 and 4. -/
example (a b c d e : V3) : ((newOmesh [a, b, c, d, e] [(0, 1, 2, 3), (4, 2, 1, 3)]).bind (fun om => om[1]?)).map ONode.connectivity =
    some [2, 0, 1, 4] := by
  simp [newOmesh, addCorner, corner, addConnection, lastSeen, ONode.zero, List.replicate]

end Bcc
end Sdf
