import Verif.Model.Omesh
import Verif.Props.C43Bcc

/-! Lemmas about the node lists of tetrahedral meshes. -/

namespace Sdf
namespace Bcc

/-- The node numbers of a tetrahedron are numbers of nodes. -/
def TetOk (L : ℕ) (t : Tet) : Prop := ∀ i, 0 ≤ corner t i ∧ corner t i < L

/-- The connections are numbers of nodes. -/
def ConnOk (L : ℕ) (om : List ONode) : Prop := om.length = L ∧ ∀ (k : ℕ) on, om[k]? = some on → ∀ c ∈ on.connectivity, 0 ≤ c ∧ c < L

theorem corner_mod (t : Tet) (i : ℕ) : ∃ j < 3, corner t (i % 3) = corner t j := ⟨i % 3, Nat.mod_lt _ (by norm_num), rfl⟩

theorem mem_addConnection {conn : List ℤ} {c x : ℤ} (h : x ∈ addConnection conn c) : x ∈ conn ∨ x = c := by
  unfold addConnection at h
  split_ifs at h
  · simpa using h
  · exact Or.inl h

/-- What is known of the nodes while the mesh is assembled, `T` telling the nodes met so far. -/
structure Assembled (nodes : List V3) (T : ℕ → Prop) (om : List ONode) : Prop where
  conn : ConnOk nodes.length om
  met : ∀ k on p, om[k]? = some on → nodes[k]? = some p → T k → on.tetras ≠ [] ∧ on.pos = some p
  unmet : ∀ k on, om[k]? = some on → ¬ T k → on = ONode.zero

theorem addCorner_ok {nodes : List V3} {T : ℕ → Prop} {om : List ONode} (h : Assembled nodes T om) (idx : ℕ) {t : Tet}
    (ht : TetOk nodes.length t) (i : ℕ) :
    ∃ om', addCorner nodes idx t om i = some om' ∧ Assembled nodes (fun k => T k ∨ (k : ℤ) = corner t i) om' := by
  obtain ⟨hn0, hn1⟩ := ht i
  set n := corner t i with hn
  have hlt : n.toNat < nodes.length := by omega
  have hlt' : n.toNat < om.length := by rw [h.conn.1]; exact hlt
  have e1 : om[n.toNat]? = some om[n.toNat] := List.getElem?_eq_getElem hlt'
  have e2 : nodes[n.toNat]? = some nodes[n.toNat] := List.getElem?_eq_getElem hlt
  set on := om[n.toNat] with hon
  set p := nodes[n.toNat] with hp
  set on1 : ONode := if on.tetras = [] then ⟨some p, [], []⟩ else on with hon1
  set conn := [0, 1, 2].foldl (fun l j => addConnection l (corner t ((i + j + 1) % 3))) on1.connectivity with hconn
  refine ⟨om.set n.toNat { on1 with tetras := on1.tetras ++ [(idx, i)], connectivity := conn }, ?_, ?_⟩
  · unfold addCorner
    dsimp only
    rw [← hn, if_neg (by omega), e1, e2]
  have c1 : ∀ c ∈ on1.connectivity, 0 ≤ c ∧ c < nodes.length := by
    rw [hon1]
    split_ifs
    · simp
    · exact h.conn.2 _ _ e1
  have c2 : ∀ c ∈ conn, 0 ≤ c ∧ c < nodes.length := by
    intro c hc
    rw [hconn] at hc
    simp only [List.foldl_cons, List.foldl_nil] at hc
    rcases mem_addConnection hc with hc | rfl
    · rcases mem_addConnection hc with hc | rfl
      · rcases mem_addConnection hc with hc | rfl
        · exact c1 c hc
        · exact ht _
      · exact ht _
    · exact ht _
  have p1 : on1.pos = some p := by
    rw [hon1]
    split_ifs with he
    · rfl
    · by_cases hT : T n.toNat
      · exact (h.met _ _ _ e1 e2 hT).2
      · have := h.unmet _ _ e1 hT
        exact absurd (by rw [this]; rfl) he
  refine ⟨⟨by rw [List.length_set]; exact h.conn.1, ?_⟩, ?_, ?_⟩
  · intro k on' hk
    rw [List.getElem?_set] at hk
    split_ifs at hk with h1
    · cases hk
      exact c2
    · exact h.conn.2 _ _ hk
  · intro k on' q hk hq hT
    rw [List.getElem?_set] at hk
    split_ifs at hk with h1
    · cases hk
      subst h1
      rw [e2] at hq
      exact ⟨by simp, p1.trans hq⟩
    · rcases hT with hT | hT
      · exact h.met _ _ _ hk hq hT
      · omega
  · intro k on' hk hT
    rw [List.getElem?_set] at hk
    split_ifs at hk with h1
    · exact absurd (Or.inr (by omega)) hT
    · exact h.unmet _ _ hk (fun h => hT (Or.inl h))

theorem Assembled.congr {nodes : List V3} {T T' : ℕ → Prop} {om : List ONode} (h : Assembled nodes T om) (e : ∀ k, T k ↔ T' k) :
    Assembled nodes T' om := by
  have : T = T' := funext fun k => propext (e k)
  exact this ▸ h

theorem tetra_ok {nodes : List V3} {T : ℕ → Prop} {om : List ONode} (h : Assembled nodes T om) (idx : ℕ) {t : Tet}
    (ht : TetOk nodes.length t) :
    ∃ om', [0, 1, 2, 3].foldlM (addCorner nodes idx t) om = some om' ∧
      Assembled nodes (fun k => T k ∨ ∃ i ∈ [0, 1, 2, 3], (k : ℤ) = corner t i) om' := by
  obtain ⟨o0, e0, h0⟩ := addCorner_ok h idx ht 0
  obtain ⟨o1, e1, h1⟩ := addCorner_ok h0 idx ht 1
  obtain ⟨o2, e2, h2⟩ := addCorner_ok h1 idx ht 2
  obtain ⟨o3, e3, h3⟩ := addCorner_ok h2 idx ht 3
  refine ⟨o3, ?_, h3.congr ?_⟩
  · simp only [List.foldlM_cons, List.foldlM_nil, e0, e1, e2, e3, Option.bind_eq_bind, Option.bind_some]
    rfl
  · intro k
    simp only [List.mem_cons, List.not_mem_nil, or_false, exists_eq_or_imp, exists_eq_left]
    tauto

/-- Some tetrahedron of the list has this node. -/
def UsedBy (ts : List Tet) (n : ℕ) : Prop := ∃ t ∈ ts, (n : ℤ) = t.1 ∨ (n : ℤ) = t.2.1 ∨ (n : ℤ) = t.2.2.1 ∨ (n : ℤ) = t.2.2.2

theorem usedBy_corner (t : Tet) (k : ℕ) : (∃ i ∈ [0, 1, 2, 3], (k : ℤ) = corner t i) ↔
    ((k : ℤ) = t.1 ∨ (k : ℤ) = t.2.1 ∨ (k : ℤ) = t.2.2.1 ∨ (k : ℤ) = t.2.2.2) := by
  simp only [List.mem_cons, List.not_mem_nil, or_false, exists_eq_or_imp, exists_eq_left, corner]

theorem newOmesh_ok {nodes : List V3} {ts : List Tet} (ht : ∀ t ∈ ts, TetOk nodes.length t) :
    ∃ om, newOmesh nodes ts = some om ∧ Assembled nodes (UsedBy ts) om := by
  unfold newOmesh
  have key : ∀ (l : List (Tet × ℕ)) (T : ℕ → Prop) (om : List ONode), (∀ t ∈ l, TetOk nodes.length t.1) → Assembled nodes T om →
      ∃ om', l.foldlM (fun onodes t => [0, 1, 2, 3].foldlM (addCorner nodes t.2 t.1) onodes) om = some om' ∧
        Assembled nodes (fun k => T k ∨ UsedBy (l.map Prod.fst) k) om' := by
    intro l
    induction l with
    | nil =>
      intro T om _ h
      exact ⟨om, rfl, h.congr (by simp [UsedBy])⟩
    | cons t l ih =>
      intro T om hl h
      obtain ⟨o1, e1, h1⟩ := tetra_ok h t.2 (hl t (by simp))
      obtain ⟨o2, e2, h2⟩ := ih _ o1 (fun t ht => hl t (by simp [ht])) h1
      refine ⟨o2, ?_, h2.congr ?_⟩
      · rw [List.foldlM_cons, e1]
        exact e2
      · intro k
        simp only [usedBy_corner]
        simp only [UsedBy, List.map_cons, List.mem_cons, exists_eq_or_imp, or_assoc]
  have hl : ∀ t ∈ ts.zipIdx, TetOk nodes.length t.1 := by
    intro t h
    exact ht t.1 (List.fst_mem_of_mem_zipIdx h)
  have base : Assembled nodes (fun _ => False) (List.replicate nodes.length ONode.zero) := by
    refine ⟨⟨by simp, ?_⟩, ?_, ?_⟩
    · intro k on hk
      rw [List.getElem?_replicate] at hk
      split_ifs at hk
      cases hk
      simp [ONode.zero]
    · intro _ _ _ _ _ h
      exact h.elim
    · intro k on hk _
      rw [List.getElem?_replicate] at hk
      split_ifs at hk
      cases hk
      rfl
  obtain ⟨om, e, h⟩ := key _ _ _ hl base
  refine ⟨om, e, h.congr ?_⟩
  intro k
  rw [List.zipIdx_map_fst]
  simp

/-! ### One pass -/

/-- Everything but the positions agrees. -/
def SameLinks (om om' : List ONode) : Prop :=
  om'.length = om.length ∧ ∀ (k : ℕ) on, om[k]? = some on → ∃ on', om'[k]? = some on' ∧ on'.connectivity = on.connectivity ∧ on'.tetras = on.tetras

theorem SameLinks.trans {a b c : List ONode} (h1 : SameLinks a b) (h2 : SameLinks b c) : SameLinks a c := by
  refine ⟨h2.1.trans h1.1, fun k on hk => ?_⟩
  obtain ⟨o1, e1, c1, t1⟩ := h1.2 k on hk
  obtain ⟨o2, e2, c2, t2⟩ := h2.2 k o1 e1
  exact ⟨o2, e2, c2.trans c1, t2.trans t1⟩

theorem SameLinks.connOk {L : ℕ} {om om' : List ONode} (h : SameLinks om om') (hc : ConnOk L om) : ConnOk L om' := by
  refine ⟨h.1.trans hc.1, fun k on hk => ?_⟩
  have hlt : k < om.length := by
    rw [← h.1]
    exact (List.getElem?_eq_some_iff.1 hk).1
  obtain ⟨on', e, hconn, -⟩ := h.2 k _ (List.getElem?_eq_getElem hlt)
  rw [hk] at e
  cases e
  rw [hconn]
  exact hc.2 k _ (List.getElem?_eq_getElem hlt)

theorem sumOf_ok {L : ℕ} {om : List ONode} (h : om.length = L) : ∀ (l : List ℤ) (sum : Option V3), (∀ c ∈ l, 0 ≤ c ∧ c < L) →
    ∃ r, sumOf om l sum = some r
  | [], sum, _ => ⟨sum, rfl⟩
  | c :: l, sum, hl => by
    have hc := hl c (by simp)
    have hlt : c.toNat < om.length := by omega
    obtain ⟨r, e⟩ := sumOf_ok h l (sum.bind fun a => om[c.toNat].pos.map fun b => V3.add a b) (fun c hc => hl c (by simp [hc]))
    refine ⟨r, ?_⟩
    rw [sumOf, if_neg (by omega), List.getElem?_eq_getElem hlt]
    exact e

theorem average_ok {L : ℕ} {om : List ONode} (h : om.length = L) {conn : List ℤ} (hc : ∀ c ∈ conn, 0 ≤ c ∧ c < L) :
    ∃ r, average om conn = some r ∧ (conn = [] → r = none) := by
  obtain ⟨r, e⟩ := sumOf_ok h conn (some ⟨0, 0, 0⟩) hc
  unfold average
  rw [e]
  refine ⟨_, rfl, fun hn => by dsimp only; rw [if_pos hn]⟩

/-- The smoothing loop: it never fails; it leaves the nodes before `i` and everything from the first boundary node on, and puts nodes
without connections at no position. -/
theorem smooth_ok {L : ℕ} : ∀ (bs : List Bool) (i : ℕ) (om : List ONode), ConnOk L om → i + bs.length = L →
    ∃ om', smooth bs i om = some om' ∧ SameLinks om om' ∧ (∀ k < i, om'[k]? = om[k]?) ∧
      (∀ k j : ℕ, i + j ≤ k → bs[j]? = some true → om'[k]? = om[k]?) ∧
      (∀ (k : ℕ) on, om[k]? = some on → on.connectivity = [] → ∃ on', om'[k]? = some on' ∧ (on'.pos = on.pos ∨ on'.pos = none) ∧
        (i ≤ k → (∀ j : ℕ, i + j ≤ k → bs[j]? ≠ some true) → on'.pos = none))
  | [], i, om, h, hi => by
    refine ⟨om, rfl, ⟨rfl, fun k on hk => ⟨on, hk, rfl, rfl⟩⟩, fun _ _ => rfl, fun _ _ _ _ => rfl, ?_⟩
    intro k on hk hc
    refine ⟨on, hk, Or.inl rfl, fun hik => ?_⟩
    have := (List.getElem?_eq_some_iff.1 hk).1
    rw [h.1] at this
    simp at hi
    omega
  | true :: bs, i, om, h, hi => by
    refine ⟨om, rfl, ⟨rfl, fun k on hk => ⟨on, hk, rfl, rfl⟩⟩, fun _ _ => rfl, fun _ _ _ _ => rfl, ?_⟩
    intro k on hk hc
    exact ⟨on, hk, Or.inl rfl, fun hik hb => absurd rfl (hb 0 hik)⟩
  | false :: bs, i, om, h, hi => by
    have hlt : i < om.length := by rw [h.1]; simp at hi; omega
    have e1 : om[i]? = some om[i] := List.getElem?_eq_getElem hlt
    set nod := om[i] with hnod
    obtain ⟨p, ep, hp⟩ := average_ok h.1 (h.2 i nod e1)
    have hsame : SameLinks om (om.set i { nod with pos := p }) := by
      refine ⟨by simp, fun k on hk => ?_⟩
      rw [List.getElem?_set]
      split_ifs with h1
      · subst h1
        have := Option.some.inj (e1.symm.trans hk)
        exact ⟨_, rfl, by rw [← this], by rw [← this]⟩
      · exact ⟨on, hk, rfl, rfl⟩
    obtain ⟨om', e, hs, hb, ht, hz⟩ := smooth_ok bs (i + 1) _ (hsame.connOk h) (by simp at hi; omega)
    refine ⟨om', ?_, hsame.trans hs, ?_, ?_, ?_⟩
    · rw [smooth, e1]
      dsimp only
      rw [ep]
      exact e
    · intro k hk
      rw [hb k (by omega), List.getElem?_set_ne (by omega)]
    · intro k j hk hj
      cases j with
      | zero => simp at hj
      | succ j =>
        rw [ht k j (by omega) (by simpa using hj), List.getElem?_set_ne (by omega)]
    · intro k on hk hc
      by_cases hki : k = i
      · subst hki
        have hon := Option.some.inj (e1.symm.trans hk)
        rw [← hon] at hc
        have : om'[k]? = some { nod with pos := p } := by
          rw [hb k (by omega), List.getElem?_set_self hlt]
        exact ⟨_, this, Or.inr (hp hc), fun _ _ => hp hc⟩
      · obtain ⟨on', e', hor, hn⟩ := hz k on (by rw [List.getElem?_set_ne (Ne.symm hki)]; exact hk) hc
        refine ⟨on', e', hor, fun hik hb' => hn (by omega) ?_⟩
        intro j hj
        have := hb' (j + 1) (by omega)
        simpa using this

theorem compressNode_links (c : ℝ) (s : SDF3) (n : ONode) :
    (compressNode c s n).connectivity = n.connectivity ∧ (compressNode c s n).tetras = n.tetras := by
  unfold compressNode
  cases n.pos with
  | none => exact ⟨rfl, rfl⟩
  | some p => dsimp only; split_ifs <;> exact ⟨rfl, rfl⟩

theorem compress_links (c : ℝ) (s : SDF3) (om : List ONode) : SameLinks om (om.map (compressNode c s)) := by
  refine ⟨by simp, fun k on hk => ⟨compressNode c s on, by simp [hk], compressNode_links c s on⟩⟩

theorem pass_ok {L : ℕ} {om : List ONode} (h : ConnOk L om) (s : SDF3) {c : ℝ} (h0 : 0 ≤ c) (h1 : c ≤ 1) :
    ∃ om', compressAndSmooth c s om = some om' ∧ SameLinks om om' ∧
      (∀ (k j : ℕ) (on onj : ONode), j ≤ k → om[j]? = some onj → isOutside s onj.pos = true → om[k]? = some on → om'[k]? = some (compressNode c s on)) ∧
      (∀ (k : ℕ) (on : ONode), om[k]? = some on → on.connectivity = [] → ∃ on' : ONode, om'[k]? = some on' ∧
        (on'.pos = (compressNode c s on).pos ∨ on'.pos = none) ∧
        ((∀ j ≤ k, ∀ onj : ONode, om[j]? = some onj → isOutside s onj.pos = false) → on'.pos = none)) := by
  have hsame := compress_links c s om
  obtain ⟨om', e, hs, -, ht, hz⟩ := smooth_ok (L := L) (om.map fun n => isOutside s n.pos) 0 _ (hsame.connOk h) (by simp [h.1])
  refine ⟨om', ?_, hsame.trans hs, ?_, ?_⟩
  · unfold compressAndSmooth
    rw [if_neg (by push Not; exact ⟨h1, h0⟩)]
    exact e
  · intro k j on onj hj ej hb hk
    rw [ht k j (by omega) (by simp [ej, hb])]
    simp [hk]
  · intro k on hk hc
    obtain ⟨on', e', hor, hn⟩ := hz k (compressNode c s on) (by simp [hk]) (by rw [(compressNode_links c s on).1, hc])
    refine ⟨on', e', hor, fun hb => hn (by omega) ?_⟩
    intro j hj e
    rw [List.getElem?_map, Option.map_eq_some_iff] at e
    obtain ⟨onj, ej, et⟩ := e
    rw [hb j (by omega) onj ej] at et
    cases et

theorem compressNode_inside {c : ℝ} {s : SDF3} {n : ONode} (h : isOutside s n.pos = false) : compressNode c s n = n := by
  unfold compressNode
  cases hp : n.pos with
  | none => rfl
  | some p =>
    dsimp only
    rw [hp] at h
    simp only [isOutside, valueAt, Option.map_some, decide_eq_false_iff_not] at h
    rw [if_neg h]

theorem passes_ok {L : ℕ} (s : SDF3) : ∀ (l : List ℕ) (om : List ONode), ConnOk L om → (∀ i ∈ l, i ≤ 6) →
    ∃ om', l.foldlM (fun om (iter : ℕ) => compressAndSmooth ((iter : ℝ) / 6) s om) om = some om' ∧ SameLinks om om' ∧
      (∀ (k : ℕ) (on : ONode), om[k]? = some on → on.connectivity = [] → (on.pos = none → ∃ on', om'[k]? = some on' ∧ on'.pos = none)) ∧
      (s.eval ⟨0, 0, 0⟩ ≤ 0 → ∀ (k : ℕ) (on : ONode), om[k]? = some on → on.connectivity = [] → (on.pos = some ⟨0, 0, 0⟩ ∨ on.pos = none) →
        ∃ on', om'[k]? = some on' ∧ (on'.pos = some ⟨0, 0, 0⟩ ∨ on'.pos = none))
  | [], om, _, _ => ⟨om, rfl, ⟨rfl, fun k on hk => ⟨on, hk, rfl, rfl⟩⟩, fun k on hk _ hp => ⟨on, hk, hp⟩, fun _ k on hk _ hp => ⟨on, hk, hp⟩⟩
  | i :: l, om, h, hl => by
    have hi : (i : ℝ) ≤ 6 := by exact_mod_cast hl i (by simp)
    obtain ⟨o1, e1, s1, -, z1⟩ := pass_ok h s (c := (i : ℝ) / 6) (by positivity) (by linarith)
    obtain ⟨o2, e2, s2, n2, z2⟩ := passes_ok s l o1 (s1.connOk h) (fun j hj => hl j (by simp [hj]))
    refine ⟨o2, ?_, s1.trans s2, ?_, ?_⟩
    · rw [List.foldlM_cons, e1]
      exact e2
    · intro k on hk hc hp
      obtain ⟨on', e', hor, -⟩ := z1 k on hk hc
      have hcomp : compressNode ((i : ℝ) / 6) s on = on := compressNode_inside (by rw [hp]; rfl)
      rw [hcomp, hp, or_self] at hor
      obtain ⟨on'', e'', c'', -⟩ := s1.2 k on hk
      rw [e'] at e''
      cases e''
      exact n2 k on' e' (c''.trans hc) hor
    · intro h0 k on hk hc hp
      obtain ⟨on', e', hor, -⟩ := z1 k on hk hc
      have hcomp : compressNode ((i : ℝ) / 6) s on = on := compressNode_inside (by
        rcases hp with hp | hp <;> rw [hp]
        · simpa [isOutside, valueAt] using h0
        · rfl)
      rw [hcomp] at hor
      obtain ⟨on'', e'', c'', -⟩ := s1.2 k on hk
      rw [e'] at e''
      cases e''
      refine z2 h0 k on' e' (c''.trans hc) ?_
      rcases hor with hor | hor
      · rw [hor]; exact hp
      · exact Or.inr hor

end Bcc
end Sdf
