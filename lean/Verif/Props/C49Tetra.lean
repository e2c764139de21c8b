import Verif.Lemmas.OmeshMean
import Verif.Props.C18Primitives
import Verif.Model.Combine3
import Verif.Lemmas.Revolve

/-! C49: tetrahedral meshes of shapes. -/

namespace Sdf
namespace Bcc
open Spec.Bcc

/-- A tetrahedron with a corner strictly inside the shape. -/
def Touches (s : SDF3) (nodes : List V3) (t : Tet) : Prop :=
  ∃ n ∈ [t.1, t.2.1, t.2.2.1, t.2.2.2], ∃ p, nodes[n.toNat]? = some p ∧ s.eval p < 0

open Classical in
theorem keep_ok {s : SDF3} {nodes : List V3} : ∀ {ts : List Tet},
    (∀ t ∈ ts, ∀ n ∈ [t.1, t.2.1, t.2.2.1, t.2.2.2], 0 ≤ n ∧ n < nodes.length) →
    keep s nodes ts = some (ts.filter fun t => decide (Touches s nodes t))
  | [], _ => rfl
  | t :: ts, h => by
    have ih := keep_ok (s := s) (ts := ts) (fun t ht => h t (by simp [ht]))
    have h0 := h t (by simp) t.1 (by simp)
    have h1 := h t (by simp) t.2.1 (by simp)
    have h2 := h t (by simp) t.2.2.1 (by simp)
    have h3 := h t (by simp) t.2.2.2 (by simp)
    have e0 : nodes[t.1.toNat]? = some (nodes[t.1.toNat]'(by omega)) := List.getElem?_eq_getElem _
    have e1 : nodes[t.2.1.toNat]? = some (nodes[t.2.1.toNat]'(by omega)) := List.getElem?_eq_getElem _
    have e2 : nodes[t.2.2.1.toNat]? = some (nodes[t.2.2.1.toNat]'(by omega)) := List.getElem?_eq_getElem _
    have e3 : nodes[t.2.2.2.toNat]? = some (nodes[t.2.2.2.toNat]'(by omega)) := List.getElem?_eq_getElem _
    rw [keep, if_neg (by omega), e0, e1, e2, e3, ih]
    dsimp only
    rw [Option.map_some, List.filter_cons]
    congr 1
    have : Touches s nodes t ↔ s.eval (nodes[t.1.toNat]'(by omega)) < 0 ∨ s.eval (nodes[t.2.1.toNat]'(by omega)) < 0 ∨
        s.eval (nodes[t.2.2.1.toNat]'(by omega)) < 0 ∨ s.eval (nodes[t.2.2.2.toNat]'(by omega)) < 0 := by
      unfold Touches
      simp only [List.mem_cons, List.not_mem_nil, or_false, exists_eq_or_imp, exists_eq_left, e0, e1, e2, e3, Option.some.injEq,
        exists_eq_left']
    simp only [decide_eq_true_eq, this]

theorem tetOk_of {L : ℕ} {t : Tet} (h : ∀ n ∈ [t.1, t.2.1, t.2.2.1, t.2.2.2], 0 ≤ n ∧ n < (L : ℤ)) : TetOk L t := by
  intro i
  rcases i with _ | _ | _ | i <;> simp only [corner] <;> apply h <;> simp

open Classical in
/-- Everything known of the result. -/
theorem mesh_spec (s : SDF3) {res : ℝ} (hres : 0 < res) {m : Mat} (hm : makeBCCMesh s.bounds res = some m) {st : State}
    (hst : meshTetraBCC m res = some st) :
    ∃ om om', newOmesh st.nodes (st.tetras.filter fun t => decide (Touches s st.nodes t)) = some om ∧
      Assembled st.nodes (UsedBy (st.tetras.filter fun t => decide (Touches s st.nodes t))) om ∧
      [1, 2, 3, 4, 5, 6].foldlM (fun om (iter : ℕ) => compressAndSmooth ((iter : ℝ) / 6) s om) om = some om' ∧
      uniformTetrahedronMesh res s = some (om'.map fun n => n.pos, st.tetras.filter fun t => decide (Touches s st.nodes t)) := by
  have hr := fun t ht => (C43_distinct hres hm hst (t := t) ht).2
  obtain ⟨om, e1, h1⟩ := newOmesh_ok (nodes := st.nodes) (ts := st.tetras.filter fun t => decide (Touches s st.nodes t))
    (fun t ht => tetOk_of (hr t (List.mem_of_mem_filter ht)))
  obtain ⟨om', e2, -⟩ := passes_ok s [1, 2, 3, 4, 5, 6] om h1.conn (by simp)
  refine ⟨om, om', e1, h1, e2, ?_⟩
  unfold uniformTetrahedronMesh
  simp only [hm, hst, keep_ok (s := s) hr, e1, Option.bind_eq_bind, Option.bind_some]
  rw [e2]
  rfl

open Classical in
/-- The mesh: for every shape whose box is more than two cells wide in every direction, the tetrahedra returned are those of the lattice
over the box that have a corner strictly inside, in the same order and with the same numbers, and there is a node for every
node of the lattice, so that all numbers are numbers of nodes.
Not claimed: that the nodes returned have coordinates, which is false (`C49_not_numbers_wrong`). -/
theorem C49_selected_partial (s : SDF3) {res : ℝ} (hres : 0 < res) (hb : 2 * res < s.bounds.hi.x - s.bounds.lo.x ∧
    2 * res < s.bounds.hi.y - s.bounds.lo.y ∧ 2 * res < s.bounds.hi.z - s.bounds.lo.z) :
    ∃ m st ns, makeBCCMesh s.bounds res = some m ∧ meshTetraBCC m res = some st ∧
      uniformTetrahedronMesh res s = some (ns, st.tetras.filter fun t => decide (Touches s st.nodes t)) ∧
      ns.length = st.nodes.length ∧
      ∀ t ∈ st.tetras.filter fun t => decide (Touches s st.nodes t), [t.1, t.2.1, t.2.2.1, t.2.2.2].Nodup ∧
        ∀ n ∈ [t.1, t.2.1, t.2.2.1, t.2.2.2], 0 ≤ n ∧ n < ns.length := by
  obtain ⟨m, hm⟩ := (C43_accepted s.bounds hres).2 hb
  obtain ⟨st, hst, -⟩ := mesh_main hres hm
  obtain ⟨om, om', e1, h1, e2, e3⟩ := mesh_spec s hres hm hst
  obtain ⟨om'', e2', hs, -⟩ := passes_ok s [1, 2, 3, 4, 5, 6] om h1.conn (by simp)
  rw [e2] at e2'
  cases e2'
  have hl : (om'.map fun n => n.pos).length = st.nodes.length := by
    rw [List.length_map, hs.1, h1.conn.1]
  refine ⟨m, st, _, hm, hst, e3, hl, ?_⟩
  intro t ht
  rw [hl]
  exact C43_distinct hres hm hst (List.mem_of_mem_filter ht)

/-- Coarser resolutions make it panic. -/
theorem C49_refused (s : SDF3) {res : ℝ} (hres : 0 < res) (hb : ¬ (2 * res < s.bounds.hi.x - s.bounds.lo.x ∧
    2 * res < s.bounds.hi.y - s.bounds.lo.y ∧ 2 * res < s.bounds.hi.z - s.bounds.lo.z)) : uniformTetrahedronMesh res s = none := by
  unfold uniformTetrahedronMesh
  cases hm : makeBCCMesh s.bounds res with
  | none => rfl
  | some m => exact absurd ((C43_accepted s.bounds hres).1 ⟨m, hm⟩) hb

open Classical in
/-- The nodes that no returned tetrahedron uses lose their place: if the origin is not outside the shape they are returned at the origin
or with coordinates that are not numbers, and the first node, if unused, with coordinates that are not numbers. -/
theorem C49_unused_wrong (s : SDF3) {res : ℝ} (hres : 0 < res) {m : Mat} (hm : makeBCCMesh s.bounds res = some m) {st : State}
    (hst : meshTetraBCC m res = some st) (h0 : s.eval ⟨0, 0, 0⟩ ≤ 0) {ns : List (Option V3)} {ts : List Tet}
    (h : uniformTetrahedronMesh res s = some (ns, ts)) (n : ℕ) (hn : n < st.nodes.length) (hu : ¬ UsedBy ts n) :
    (ns[n]? = some (some ⟨0, 0, 0⟩) ∨ ns[n]? = some none) ∧ (n = 0 → ns[n]? = some none) := by
  obtain ⟨om, om', e1, h1, e2, e3⟩ := mesh_spec s hres hm hst
  rw [h] at e3
  simp only [Option.some.injEq, Prod.mk.injEq] at e3
  obtain ⟨rfl, rfl⟩ := e3
  have hlt : n < om.length := by rw [h1.conn.1]; exact hn
  have ez : om[n]? = some ONode.zero := by
    have := List.getElem?_eq_getElem hlt
    rw [this, h1.unmet n _ this hu]
  obtain ⟨om'', e2', hs, -, hz⟩ := passes_ok s [1, 2, 3, 4, 5, 6] om h1.conn (by simp)
  rw [e2] at e2'
  cases e2'
  constructor
  · obtain ⟨on', e', hor⟩ := hz h0 n _ ez rfl (Or.inl rfl)
    rw [List.getElem?_map, e', Option.map_some]
    rcases hor with h | h <;> rw [h] <;> simp
  · rintro rfl
    obtain ⟨o1, f1, s1, -, z1⟩ := pass_ok h1.conn s (c := ((1 : ℕ) : ℝ) / 6) (by positivity) (by norm_num)
    obtain ⟨on', e', -, hnone⟩ := z1 0 _ ez rfl
    have hp := hnone (by
      intro j hj onj ej
      obtain rfl : j = 0 := by omega
      rw [ez] at ej
      cases ej
      simpa [isOutside, valueAt, ONode.zero] using h0)
    obtain ⟨on'', e'', c'', -⟩ := s1.2 0 _ ez
    rw [e'] at e''
    cases e''
    obtain ⟨o2, f2, -, z2, -⟩ := passes_ok s [2, 3, 4, 5, 6] o1 (s1.connOk h1.conn) (by simp)
    rw [List.foldlM_cons, f1] at e2
    have : some o2 = some om' := f2.symm.trans e2
    cases this
    obtain ⟨on3, e3, hp3⟩ := z2 0 on' e' c'' hp
    rw [List.getElem?_map, e3, Option.map_some, hp3]

/-- One pass over the nodes of a mesh: a node outside the shape moves against the direction in which the value grows, by the value there
times the factor; and as soon as a node is outside, neither it nor any later node is smoothed, so that later nodes that are not outside
do not move at all. -/
theorem C49_pass {L : ℕ} {om : List ONode} (h : ConnOk L om) (s : SDF3) {c : ℝ} (h0 : 0 ≤ c) (h1 : c ≤ 1) {j : ℕ} {onj : ONode} {q : V3}
    (hj : om[j]? = some onj) (hq : onj.pos = some q) (hout : 0 < s.eval q) :
    ∃ om', compressAndSmooth c s om = some om' ∧ ∀ (k : ℕ) (on : ONode) (p : V3), j ≤ k → om[k]? = some on → on.pos = some p →
      ∃ on', om'[k]? = some on' ∧ (s.eval p ≤ 0 → on'.pos = some p) ∧
        (0 < s.eval p → gradient p 1e-6 s.eval ≠ ⟨0, 0, 0⟩ →
          on'.pos = some (V3.sub p (V3.scale (c * s.eval p) (V3.unit (gradient p 1e-6 s.eval))))) := by
  obtain ⟨om', e, -, hk, -⟩ := pass_ok h s h0 h1
  refine ⟨om', e, fun k on p hjk ek hp => ⟨_, hk k j on onj hjk hj (by simpa [isOutside, valueAt, hq] using hout) ek, ?_, ?_⟩⟩
  · intro hi
    rw [compressNode_inside (by simpa [isOutside, valueAt, hp] using hi), hp]
  · intro ho hg
    unfold compressNode
    rw [hp]
    dsimp only
    rw [if_pos ho, if_neg hg]

/-- A mesh of one tetrahedron with a node outside the half-space below the plane `z = 0`. -/
example : ∃ om onj, newOmesh [⟨0, 0, 1⟩, ⟨0, 0, -1⟩, ⟨1, 0, -1⟩, ⟨0, 1, -1⟩] [(0, 1, 2, 3)] = some om ∧ ConnOk 4 om ∧ om[0]? = some onj ∧
    onj.pos = some ⟨0, 0, 1⟩ ∧ (0 : ℝ) < (⟨0, 0, 1⟩ : V3).z := by
  obtain ⟨om, h1, h2⟩ := newOmesh_ok (nodes := [⟨0, 0, 1⟩, ⟨0, 0, -1⟩, ⟨1, 0, -1⟩, ⟨0, 1, -1⟩]) (ts := [(0, 1, 2, 3)]) (by
    intro t ht
    obtain rfl := List.mem_singleton.1 ht
    exact tetOk_of (by simp))
  have hl : om.length = 4 := h2.conn.1
  refine ⟨om, _, h1, h2.conn, List.getElem?_eq_getElem (by omega), ?_, by norm_num⟩
  exact (h2.met 0 _ _ (List.getElem?_eq_getElem (by omega)) rfl ⟨_, List.mem_singleton.2 rfl, Or.inl rfl⟩).2

/-- The second half of a pass: as long as no node so far was outside the shape, a node is put at the mean of the nodes it is connected to,
where nodes with smaller numbers count with their new places and the others with the places the first half gave them. -/
theorem C49_mean {L : ℕ} {om om' : List ONode} (h : ConnOk L om) (s : SDF3) {c : ℝ} (hpass : compressAndSmooth c s om = some om')
    (k : ℕ) (on : ONode) (hk : om[k]? = some on) (hne : on.connectivity ≠ [])
    (hin : ∀ j ≤ k, ∀ onj p, om[j]? = some onj → onj.pos = some p → s.eval p ≤ 0) (P : ℤ → V3)
    (hP : ∀ c' ∈ on.connectivity, if c' < k then ∃ on', om'[c'.toNat]? = some on' ∧ on'.pos = some (P c')
      else ∃ on', om[c'.toNat]? = some on' ∧ (compressNode c s on').pos = some (P c')) :
    ∃ on', om'[k]? = some on' ∧
      on'.pos = some (V3.scale (1 / (on.connectivity.length : ℝ)) ((on.connectivity.map P).foldr V3.add ⟨0, 0, 0⟩)) := by
  unfold compressAndSmooth at hpass
  split_ifs at hpass
  have hlk : k < om.length := (List.getElem?_eq_some_iff.1 hk).1
  have hconn : (compressNode c s on).connectivity = on.connectivity := (compressNode_links c s on).1
  have key := smooth_mean (L := L) P (om.map fun n => isOutside s n.pos) 0 k (om.map (compressNode c s)) om' ((compress_links c s om).connOk h)
    (by simp [h.1]) hpass ?_ (compressNode c s on) (by simp [hk]) (by rw [hconn]; exact hne) ?_
  · rw [hconn] at key
    simpa [sumV] using key
  · intro j hj
    have hlj : j < om.length := by omega
    rw [List.getElem?_map, List.getElem?_eq_getElem hlj, Option.map_some]
    congr 1
    unfold isOutside valueAt
    cases hp : om[j].pos with
    | none => rfl
    | some p =>
      have := hin j hj _ p (List.getElem?_eq_getElem hlj) hp
      simpa using this
  · rw [hconn]
    intro c' hc'
    have h1 := hP c' hc'
    rw [Nat.zero_add]
    split_ifs at h1 ⊢ with hlt
    · exact h1
    · obtain ⟨on', e, hp⟩ := h1
      exact ⟨_, by simp [e], hp⟩

/-- Two connected nodes inside: the first is put where the second is. -/
example (s : SDF3) (p q : V3) (hp : s.eval p ≤ 0) :
    ∃ om : List ONode, ConnOk 2 om ∧ (∃ on, om[0]? = some on ∧ on.connectivity ≠ [])
      ∧ ∀ j ≤ 0, ∀ onj p, om[j]? = some onj → onj.pos = some p → s.eval p ≤ 0 := by
  refine ⟨[⟨some p, [0], [1]⟩, ⟨some q, [0], [0]⟩], ⟨rfl, ?_⟩, ⟨_, rfl, by simp⟩, ?_⟩
  · intro k on hk c' hc'
    match k with
    | 0 => simp at hk; subst hk; simp at hc'; subst hc'; norm_num
    | 1 => simp at hk; subst hk; simp at hc'; subst hc'; norm_num
    | k + 2 => simp at hk
  · intro j hj onj p' e hp'
    obtain rfl : j = 0 := by omega
    simp at e; subst e; simp at hp'; subst hp'
    exact hp

/-- The factors other than those between 0 and 1 are refused. -/
theorem C49_factor (om : List ONode) (s : SDF3) {c : ℝ} (h : c < 0 ∨ 1 < c) : compressAndSmooth c s om = none := by
  unfold compressAndSmooth
  rw [if_pos (by tauto)]

/-- The differences `gradient` takes of a linear function are its slopes times twice the step. -/
theorem C49_gradient (n p : V3) (c tol : ℝ) : gradient p tol (fun q => V3.dot n q - c) = V3.scale (2 * tol) n := by
  ext <;> simp only [gradient, V3.dot, V3.add, V3.scale] <;> ring

/-- Moving a node towards a plane by a factor reduces its distance by that factor. -/
theorem C49_towards_plane (n p : V3) (hn : V3.norm n = 1) (d c : ℝ) (s : SDF3) (hs : ∀ q, s.eval q = V3.dot n q - d) :
    s.eval (V3.sub p (V3.scale (c * s.eval p) (V3.unit (gradient p 1e-6 s.eval)))) = (1 - c) * s.eval p := by
  have e : s.eval = fun q => V3.dot n q - d := funext hs
  have hd : V3.dot n n = 1 := by
    have := V3.norm_sq n
    rw [hn] at this
    simpa [V3.dot, V3.norm2] using this.symm
  have hu : V3.unit (gradient p 1e-6 s.eval) = n := by
    rw [e, C49_gradient]
    unfold V3.unit
    rw [V3.norm_scale, hn, abs_of_pos (by norm_num)]
    ext <;> simp only [V3.scale] <;> norm_num <;> ring
  rw [hu, hs, hs]
  have : V3.dot n (V3.sub p (V3.scale (c * (V3.dot n p - d)) n)) = V3.dot n p - c * (V3.dot n p - d) * V3.dot n n := by
    simp only [V3.dot, V3.sub, V3.scale]; ring
  rw [this, hd]
  ring

/-- `laplacian` is zero for every function, point and step. -/
theorem C49_laplacian_wrong (f : V3 → ℝ) (p : V3) (tol : ℝ) : laplacian p tol f = 0 := by
  simp [laplacian, divergence, V3.sub]

/-- For a single tetrahedron with the nodes 0, 1, 2 and 3: node 0 is connected to itself and not to node 3, node 2 is not connected to node
0, and no node is connected to node 3. -/
theorem C49_connectivity_wrong (a b c d : V3) :
    (newOmesh [a, b, c, d] [(0, 1, 2, 3)]).map (List.map ONode.connectivity) = some [[1, 2, 0], [2, 0, 1], [1, 2], [1, 2, 0]] := by
  simp [newOmesh, addCorner, corner, addConnection, lastSeen, ONode.zero, List.replicate]

/-! ### A concrete mesh -/

theorem cellStep_nodes {res : ℝ} {st st' : State} {c : Cell} (h : cellStep res st c = some st') :
    ∃ l, st'.nodes = st.nodes ++ ((st.m.nodes (c.i * st.m.d1 * st.m.d2 + c.j * st.m.d2 + c.k).toNat).box res).center :: l := by
  have key : ∀ (l : List Slot) (a : ℕ) (vert : List V3) (st st' : State), l.foldlM (cornerStep a vert) st = some st' →
      ∃ r, st'.nodes = st.nodes ++ r := by
    intro l a vert
    induction l with
    | nil => intro st st' h; cases h; exact ⟨[], by simp⟩
    | cons x l ih =>
      intro st st' h
      rw [List.foldlM_cons, Option.bind_eq_bind, Option.bind_eq_some_iff] at h
      obtain ⟨s1, h1, h2⟩ := h
      obtain ⟨r, hr⟩ := ih s1 st' h2
      have : ∃ r, s1.nodes = st.nodes ++ r := by
        unfold cornerStep at h1
        split at h1
        · cases h1
        · split_ifs at h1
          · split at h1
            · cases h1
            · cases h1; exact ⟨_, rfl⟩
          · cases h1; exact ⟨[], by simp⟩
      obtain ⟨r', hr'⟩ := this
      exact ⟨r' ++ r, by rw [hr, hr', List.append_assoc]⟩
  unfold cellStep at h
  dsimp only at h
  split at h
  · cases h
  · rename_i s1 hs
    cases h
    obtain ⟨r, hr⟩ := key _ _ _ _ _ hs
    exact ⟨r, by rw [hr]; simp⟩

/-- The first node is the centre of the first cell. -/
theorem first_node {b : Box3} {res : ℝ} (hres : 0 < res) {m : Mat} (hm : makeBCCMesh b res = some m) {st : State}
    (hst : meshTetraBCC m res = some st) : st.nodes[0]? = some ((Pt.centre 0 0 0).position b.lo res) := by
  obtain ⟨⟨⟨h0, h1, h2⟩, hb, -⟩, g0, g1, g2⟩ := make_built hm
  have hg : G m.d0 m.d1 m.d2 ⟨0, 0, 0⟩ := by simp only [G, InGrid]; omega
  have hc : ∃ l, cells m.d0 m.d1 m.d2 = ⟨0, 0, 0⟩ :: l := by
    unfold cells
    obtain ⟨a, ha⟩ := Nat.exists_eq_succ_of_ne_zero (show m.d0.toNat ≠ 0 by omega)
    obtain ⟨a', ha'⟩ := Nat.exists_eq_succ_of_ne_zero (show m.d1.toNat ≠ 0 by omega)
    obtain ⟨a'', ha''⟩ := Nat.exists_eq_succ_of_ne_zero (show m.d2.toNat ≠ 0 by omega)
    rw [ha, ha', ha'']
    simp [List.range_succ_eq_map]
  obtain ⟨l, hl⟩ := hc
  unfold meshTetraBCC at hst
  rw [hl, List.foldlM_cons, Option.bind_eq_bind, Option.bind_eq_some_iff] at hst
  obtain ⟨s1, e1, e2⟩ := hst
  obtain ⟨r, hr⟩ := cellStep_nodes e1
  have hrest : ∀ (l : List Cell) (st st' : State), l.foldlM (cellStep res) st = some st' → ∃ r, st'.nodes = st.nodes ++ r := by
    intro l
    induction l with
    | nil => intro st st' h; cases h; exact ⟨[], by simp⟩
    | cons x l ih =>
      intro st st' h
      rw [List.foldlM_cons, Option.bind_eq_bind, Option.bind_eq_some_iff] at h
      obtain ⟨s1, h1, h2⟩ := h
      obtain ⟨r, hr⟩ := cellStep_nodes h1
      obtain ⟨r', hr'⟩ := ih _ _ h2
      exact ⟨_, by rw [hr', hr, List.append_assoc]⟩
  obtain ⟨r', hr'⟩ := hrest _ _ _ e2
  rw [hr', hr]
  simp only [List.nil_append, List.cons_append, List.getElem?_cons_zero, Option.some.injEq]
  have ha : ((0 : ℤ) * m.d1 * m.d2 + 0 * m.d2 + 0).toNat = addr m.d1 m.d2 ⟨0, 0, 0⟩ := rfl
  rw [ha]
  have := hb ⟨0, 0, 0⟩ (mem_cells.2 (by rw [← h0, ← h1, ← h2]; exact hg))
  rw [← h1, ← h2] at this
  rw [this]
  have := center_eq (b := b) hres (d0 := ⌈b.size.x / res⌉) (d1 := ⌈b.size.y / res⌉) (d2 := ⌈b.size.z / res⌉) (c := ⟨0, 0, 0⟩) (f := (built b res ⌈b.size.x / res⌉ ⌈b.size.y / res⌉ ⌈b.size.z / res⌉ ⟨0, 0, 0⟩).bccnod)
  rw [h1, h2]
  exact this

theorem swapped_range : ∀ p : ℤ × ℤ × ℤ, (p.1 = 0 ∨ p.1 = 1) → (p.2.1 = 0 ∨ p.2.1 = 1) → (p.2.2 = 0 ∨ p.2.2 = 1) → (swapped p).1 ≤ 1 := by
  rintro ⟨a, b, c⟩ (rfl | rfl) (rfl | rfl) (rfl | rfl) <;> decide

/-- The cube of side 20 about the origin, cut down to the ball of radius 1: the ball, with the box of the cube. -/
noncomputable def ballInCube : SDF3 :=
  ⟨fun p => max (sdfBox3d p ⟨10, 10, 10⟩ - 0) (V3.norm p - 1), ⟨⟨-10, -10, -10⟩, ⟨10, 10, 10⟩⟩⟩

theorem ballInCube_built : ∃ c b, Must3.box ⟨20, 20, 20⟩ 0 = some c ∧ Must3.sphere 1 = some b ∧ c.intersect b = ballInCube := by
  obtain ⟨c, hc⟩ : ∃ c, Must3.box ⟨20, 20, 20⟩ 0 = some c := by
    unfold Must3.box
    rw [if_neg (by simp [V3.LTEZero]), if_neg (by simp)]
    exact ⟨_, rfl⟩
  refine ⟨c, _, hc, by unfold Must3.sphere; rw [if_neg (by norm_num)], ?_⟩
  unfold Must3.box at hc
  rw [if_neg (by simp [V3.LTEZero]), if_neg (by simp)] at hc
  obtain rfl := Option.some.inj hc
  have e1 : V3.scale 0.5 ⟨20, 20, 20⟩ = (⟨10, 10, 10⟩ : V3) := by ext <;> simp only [V3.scale] <;> norm_num
  have e2 : V3.sub ⟨10, 10, 10⟩ (V3.elem 0) = (⟨10, 10, 10⟩ : V3) := by ext <;> simp [V3.sub, V3.elem]
  have e3 : V3.scale (-1) ⟨10, 10, 10⟩ = (⟨-10, -10, -10⟩ : V3) := by ext <;> simp [V3.scale]
  simp only [SDF3.intersect, SDF3.intersectWith, ballInCube, e1, e2, e3]

theorem ballInCube_out {p : V3} (h : p.x ≤ -2) : ¬ ballInCube.eval p < 0 := by
  have := V3.abs_x_le p
  rw [abs_le] at this
  have h2 : V3.norm p - 1 ≤ ballInCube.eval p := le_max_right _ _
  linarith [this.1]

open Classical in
/-- A ball in its roomy box, with cells of side 5: the mesh is made, and its first node, which is the centre of the first cell and at distance
`√168.75 - 1` from the ball, comes back with coordinates that are not numbers. -/
theorem C49_not_numbers_wrong : ∃ ns ts, uniformTetrahedronMesh 5 ballInCube = some (ns, ts) ∧ ns[0]? = some none := by
  have hres : (0 : ℝ) < 5 := by norm_num
  obtain ⟨m, st, ns, hm, hst, hu, hl, -⟩ := C49_selected_partial ballInCube hres (by simp only [ballInCube]; norm_num)
  refine ⟨ns, _, hu, ?_⟩
  have hf := first_node hres hm hst
  obtain ⟨hlt, -⟩ := List.getElem?_eq_some_iff.1 hf
  have h00 : ballInCube.eval ⟨0, 0, 0⟩ ≤ 0 := by
    have e0 : V3.norm ⟨0, 0, 0⟩ = 0 := by simp [V3.norm]
    refine max_le ?_ (by rw [e0]; norm_num)
    rw [sub_zero]
    exact (sdfBox3d_le_zero _ _).1.2 (by simp)
  refine (C49_unused_wrong ballInCube hres hm hst h00 hu 0 hlt ?_).2 rfl
  rintro ⟨t, ht, h0⟩
  rw [List.mem_filter, decide_eq_true_eq] at ht
  obtain ⟨ht, n, hn, p, hp, hin⟩ := ht
  obtain ⟨st', h1, N, h2, h3, h4, h5, h6⟩ := mesh_main hres hm
  rw [hst] at h1
  obtain rfl := Option.some.inj h1
  obtain ⟨X, P, Q, Y, hJ, rfl⟩ := (h5 t).1 ht
  have g0 : 3 ≤ ⌈ballInCube.bounds.size.x / 5⌉ ∧ 3 ≤ ⌈ballInCube.bounds.size.y / 5⌉ ∧ 3 ≤ ⌈ballInCube.bounds.size.z / 5⌉ := by
    obtain ⟨-, g0, g1, g2⟩ := make_built hm
    exact ⟨g0, g1, g2⟩
  generalize ⌈ballInCube.bounds.size.x / 5⌉ = d0 at *
  generalize ⌈ballInCube.bounds.size.y / 5⌉ = d1 at *
  generalize ⌈ballInCube.bounds.size.z / 5⌉ = d2 at *
  obtain ⟨P0, hP0, hN0⟩ := h4 0 le_rfl (by exact_mod_cast hlt)
  have hpos := h6 P0 hP0
  rw [hN0, show (0 : ℤ).toNat = 0 from rfl, hf] at hpos
  have hpos := Option.some.inj hpos
  obtain rfl : P0 = .centre 0 0 0 := by
    cases P0 with
    | corner x y z =>
      exfalso
      simp only [placed, Pt.position, V3.mk.injEq] at hpos
      obtain ⟨hx, -⟩ := hpos
      generalize max 0 (x - 1) + _ = k at hx
      have : (1 : ℝ) = ((2 * k : ℤ) : ℝ) := by push_cast; linarith
      have : (1 : ℤ) = 2 * k := by exact_mod_cast this
      omega
    | centre x y z =>
      simp only [placed, Pt.position, V3.mk.injEq] at hpos
      obtain ⟨hx, hy, hz⟩ := hpos
      have hx : (x : ℝ) = 0 := by push_cast at hx; linarith
      have hy : (y : ℝ) = 0 := by push_cast at hy; linarith
      have hz : (z : ℝ) = 0 := by push_cast at hz; linarith
      norm_cast at hx hy hz
      rw [hx, hy, hz]
  -- the corners of the tetrahedra at that node are far from the ball
  have hcor : ∀ a b c, CornerOf a b c 0 0 0 → (placed ballInCube.bounds.lo 5 (.corner a b c)).x ≤ -2 := by
    rintro a b c ⟨ha, hb, hc⟩
    have hw := swapped_range (a - max 0 (a - 1), b - max 0 (b - 1), c - max 0 (c - 1)) (by rcases ha with rfl | rfl <;> simp)
      (by rcases hb with rfl | rfl <;> simp) (by rcases hc with rfl | rfl <;> simp)
    have ha' : max 0 (a - 1) = 0 := by omega
    simp only [placed, Pt.position]
    generalize (swapped _).1 = w at *
    rw [ha']
    have hw' : (w : ℝ) ≤ 1 := by exact_mod_cast hw
    simp only [ballInCube]
    push_cast
    linarith
  have hcen : ∀ x y z : ℤ, x ≤ 1 → (placed ballInCube.bounds.lo 5 (.centre x y z)).x ≤ -2 := by
    intro x y z hx
    have hx' : (x : ℝ) ≤ 1 := by exact_mod_cast hx
    simp only [placed, Pt.position, ballInCube]
    linarith
  have hfar : ∀ R, InGrid d0 d1 d2 R → (placed ballInCube.bounds.lo 5 R).x ≤ -2 → n ≠ N R := by
    rintro R hR hx rfl
    rw [h6 R hR] at hp
    obtain rfl := Option.some.inj hp
    exact ballInCube_out hx hin
  cases X with
  | corner => exact hJ
  | centre x y z =>
    cases P with
    | centre => exact hJ
    | corner a b c =>
      cases Q with
      | centre => exact hJ
      | corner a' b' c' =>
        cases Y with
        | corner => exact hJ
        | centre x' y' z' =>
          obtain ⟨hX, hY, hn', hc1, hc2, hc3, hc4, -, -⟩ := hJ
          have hP : InGrid d0 d1 d2 (.corner a b c) := by simp only [InGrid, CornerOf] at *; omega
          have hQ : InGrid d0 d1 d2 (.corner a' b' c') := by simp only [InGrid, CornerOf] at *; omega
          have hor : (x = 0 ∧ y = 0 ∧ z = 0) ∨ (x' = 0 ∧ y' = 0 ∧ z' = 0) := by
            rcases h0 with h | h | h | h
            · have := h3 _ _ hX hP0 (h.symm.trans hN0.symm); simp only [Pt.centre.injEq] at this; exact Or.inl this
            · have := h3 _ _ hP hP0 (h.symm.trans hN0.symm); cases this
            · have := h3 _ _ hQ hP0 (h.symm.trans hN0.symm); cases this
            · have := h3 _ _ hY hP0 (h.symm.trans hN0.symm); simp only [Pt.centre.injEq] at this; exact Or.inr this
          have hx1 : x ≤ 1 ∧ x' ≤ 1 := by omega
          have hcc : CornerOf a b c 0 0 0 ∧ CornerOf a' b' c' 0 0 0 := by
            rcases hor with ⟨rfl, rfl, rfl⟩ | ⟨rfl, rfl, rfl⟩
            · exact ⟨hc1, hc3⟩
            · exact ⟨hc2, hc4⟩
          simp only [List.mem_cons, List.not_mem_nil, or_false] at hn
          rcases hn with h | h | h | h
          · exact hfar _ hX (hcen _ _ _ hx1.1) h
          · exact hfar _ hP (hcor _ _ _ hcc.1) h
          · exact hfar _ hQ (hcor _ _ _ hcc.2) h
          · exact hfar _ hY (hcen _ _ _ hx1.2) h

end Bcc
end Sdf
