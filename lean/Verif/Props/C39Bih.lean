import Verif.Props.C42Triangle

/-! C39: nearest-triangle search with a bounding interval hierarchy. -/

namespace Sdf

namespace Bih

/-- The three corners of `t` satisfy `P`. -/
def Corners (P : V3 → Prop) (t : Tri) : Prop := P t.a ∧ P t.b ∧ P t.c

/-- The nodes from `idx` down form a tree over the triangles `lo ≤ i < hi`. -/
inductive Tree (nodes : List Node) (mesh : List Tri) : ℕ → ℕ → ℕ → Prop
  | leaf {idx lo hi : ℕ} : nodes[idx]? = some (.leaf lo hi) → lo ≤ hi → hi ≤ mesh.length → Tree nodes mesh idx lo hi
  | split {idx lo mid hi child : ℕ} {ax : Axis} {lc rc : ℝ} : nodes[idx]? = some (.split ax child lc rc) → idx < child →
      lo ≤ mid → mid ≤ hi → Tree nodes mesh child lo mid → Tree nodes mesh (child + 1) mid hi →
      (∀ i t, lo ≤ i → i < mid → mesh[i]? = some t → Corners (fun v => ax.of v ≤ lc) t) →
      (∀ i t, mid ≤ i → i < hi → mesh[i]? = some t → Corners (fun v => rc ≤ ax.of v) t) → Tree nodes mesh idx lo hi

/-- What a search over the triangles `lo ≤ i < hi`, started with `cur`, delivers. -/
structure Found (mesh : List Tri) (target : V3) (lo hi : ℕ) (cur out : Best) : Prop where
  le : out.d2 ≤ cur.d2
  all : ∀ i t d, lo ≤ i → i < hi → mesh[i]? = some t → minDistTri t target = some d → out.d2 ≤ V3.norm2 d
  src : out = cur ∨ ∃ i t, lo ≤ i ∧ i < hi ∧ mesh[i]? = some t ∧ out.idx = some i ∧ minDistTri t target = some out.vec ∧
    out.d2 = V3.norm2 out.vec

theorem Found.comp {mesh : List Tri} {target : V3} {lo mid hi : ℕ} {a b c : Best} (h1 : lo ≤ mid) (h2 : mid ≤ hi)
    (f : Found mesh target lo mid a b) (g : Found mesh target mid hi b c) : Found mesh target lo hi a c := by
  refine ⟨g.le.trans f.le, fun i t d hl hh ht hd => ?_, ?_⟩
  · rcases lt_or_ge i mid with h | h
    · exact g.le.trans (f.all i t d hl h ht hd)
    · exact g.all i t d h hh ht hd
  · rcases g.src with e | ⟨i, t, hl, hh, r⟩
    · subst e
      rcases f.src with e | ⟨i, t, hl, hh, r⟩
      · exact Or.inl e
      · exact Or.inr ⟨i, t, hl, by omega, r⟩
    · exact Or.inr ⟨i, t, by omega, hh, r⟩

theorem Found.comp' {mesh : List Tri} {target : V3} {lo mid hi : ℕ} {a b c : Best} (h1 : lo ≤ mid) (h2 : mid ≤ hi)
    (f : Found mesh target mid hi a b) (g : Found mesh target lo mid b c) : Found mesh target lo hi a c := by
  refine ⟨g.le.trans f.le, fun i t d hl hh ht hd => ?_, ?_⟩
  · rcases lt_or_ge i mid with h | h
    · exact g.all i t d hl h ht hd
    · exact g.le.trans (f.all i t d h hh ht hd)
  · rcases g.src with e | ⟨i, t, hl, hh, r⟩
    · subst e
      rcases f.src with e | ⟨i, t, hl, hh, r⟩
      · exact Or.inl e
      · exact Or.inr ⟨i, t, by omega, hh, r⟩
    · exact Or.inr ⟨i, t, hl, by omega, r⟩

theorem tri_found {mesh : List Tri} {target : V3} {i : ℕ} {t : Tri} (ht : mesh[i]? = some t) (cur : Best) :
    Found mesh target i (i + 1) cur (cur.tri target i t) := by
  unfold Best.tri
  cases hd : minDistTri t target with
  | none =>
    refine ⟨le_rfl, fun j u d hl hh hu hd' => ?_, Or.inl rfl⟩
    obtain rfl : j = i := by omega
    rw [ht] at hu; cases hu
    rw [hd] at hd'; cases hd'
  | some d =>
    dsimp only
    split_ifs with c
    · refine ⟨c.le, fun j u d' hl hh hu hd' => ?_, Or.inr ⟨i, t, le_rfl, by omega, ht, rfl, hd, rfl⟩⟩
      obtain rfl : j = i := by omega
      rw [ht] at hu; cases hu
      rw [hd] at hd'; cases hd'
      exact le_rfl
    · refine ⟨le_rfl, fun j u d' hl hh hu hd' => ?_, Or.inl rfl⟩
      obtain rfl : j = i := by omega
      rw [ht] at hu; cases hu
      rw [hd] at hd'; cases hd'
      exact not_lt.1 c

theorem scan_found (mesh : List Tri) (target : V3) : ∀ (n i : ℕ) (cur : Best), i + n ≤ mesh.length →
    ∃ out, scan mesh target n i cur = some out ∧ Found mesh target i (i + n) cur out
  | 0, i, cur, _ => ⟨cur, rfl, le_rfl, fun j _ _ hl hh => by omega, Or.inl rfl⟩
  | n + 1, i, cur, h => by
    have hi : i < mesh.length := by omega
    have ht : mesh[i]? = some mesh[i] := List.getElem?_eq_getElem hi
    obtain ⟨out, e, f⟩ := scan_found mesh target n (i + 1) (cur.tri target i mesh[i]) (by omega)
    refine ⟨out, ?_, ?_⟩
    · rw [scan, ht]
      exact e
    · have := (tri_found (target := target) ht cur).comp (by omega) (by omega) f
      rwa [show i + 1 + n = i + (n + 1) by omega] at this

/-- A point of a triangle whose corners are in a box is in the box. -/
theorem mem_box {t : Tri} {bb : Box3} (h : Corners bb.Contains t) {q : V3} (hq : t.Mem q) : bb.Contains q := by
  obtain ⟨u, v, w, hu, hv, hw, hs, rfl⟩ := hq
  obtain ⟨⟨a1, a2, a3, a4, a5, a6⟩, ⟨b1, b2, b3, b4, b5, b6⟩, c1, c2, c3, c4, c5, c6⟩ := h
  have hu' : u = 1 - v - w := by linarith
  have key : ∀ l a b c : ℝ, l ≤ a → l ≤ b → l ≤ c → l ≤ u * a + v * b + w * c := by
    intro l a b c h1 h2 h3
    have := mul_le_mul_of_nonneg_left h1 hu
    have := mul_le_mul_of_nonneg_left h2 hv
    have := mul_le_mul_of_nonneg_left h3 hw
    have e : u * l + v * l + w * l = l := by rw [← add_mul, ← add_mul, hs, one_mul]
    linarith
  have key2 : ∀ l a b c : ℝ, a ≤ l → b ≤ l → c ≤ l → u * a + v * b + w * c ≤ l := by
    intro l a b c h1 h2 h3
    have := mul_le_mul_of_nonneg_left h1 hu
    have := mul_le_mul_of_nonneg_left h2 hv
    have := mul_le_mul_of_nonneg_left h3 hw
    have e : u * l + v * l + w * l = l := by rw [← add_mul, ← add_mul, hs, one_mul]
    linarith
  refine ⟨?_, ?_, ?_, ?_, ?_, ?_⟩ <;> simp only [V3.add, V3.scale] <;> first | (apply key <;> assumption) | (apply key2 <;> assumption)

/-- No point of a box is nearer than `minDistBox` says. -/
theorem minDistBox_le {bb : Box3} {q : V3} (h : bb.Contains q) (p : V3) : minDistBox p bb ≤ V3.norm2 (V3.sub p q) := by
  have one : ∀ x lo hi y : ℝ, lo ≤ y → y ≤ hi → max 0 (max (x - hi) (lo - x)) * max 0 (max (x - hi) (lo - x)) ≤ (x - y) * (x - y) := by
    intro x lo hi y h1 h2
    have hm : max 0 (max (x - hi) (lo - x)) ≤ |x - y| := by
      refine max_le (abs_nonneg _) (max_le ?_ ?_)
      · exact le_trans (by linarith) (le_abs_self _)
      · exact le_trans (by linarith) (neg_le_abs _)
    calc _ ≤ |x - y| * |x - y| := mul_self_le_mul_self (le_max_left _ _) hm
      _ = _ := abs_mul_abs_self _
  obtain ⟨h1, h2, h3, h4, h5, h6⟩ := h
  have e1 := one p.x bb.lo.x bb.hi.x q.x (by assumption) (by assumption)
  have e2 := one p.y bb.lo.y bb.hi.y q.y (by assumption) (by assumption)
  have e3 := one p.z bb.lo.z bb.hi.z q.z (by assumption) (by assumption)
  simp only [minDistBox, V3.norm2, V3.sub]
  norm_num
  linarith

/-- A part of the mesh that is skipped. -/
theorem skip_found {mesh : List Tri} {target : V3} {lo hi : ℕ} {bb : Box3} {cur : Best}
    (hb : ∀ i t, lo ≤ i → i < hi → mesh[i]? = some t → Corners bb.Contains t) (hc : ¬ minDistBox target bb < cur.d2) :
    Found mesh target lo hi cur cur := by
  refine ⟨le_rfl, fun i t d hl hh ht hd => ?_, Or.inl rfl⟩
  have hm := (C42_tree_partial t target d hd).1
  have := minDistBox_le (mem_box (hb i t hl hh ht) hm) target
  have e : V3.sub target (V3.sub target d) = d := by ext <;> simp [V3.sub]
  rw [e] at this
  exact (not_lt.1 hc).trans this

theorem contains_left {bb : Box3} {ax : Axis} {lc : ℝ} {v : V3} (h : bb.Contains v) (hl : ax.of v ≤ lc) :
    (⟨bb.lo, ax.set bb.hi lc⟩ : Box3).Contains v := by
  obtain ⟨h1, h2, h3, h4, h5, h6⟩ := h
  cases ax <;> simp only [Axis.of] at hl <;> refine ⟨?_, ?_, ?_, ?_, ?_, ?_⟩ <;> simp only [Axis.set] <;> assumption

theorem contains_right {bb : Box3} {ax : Axis} {rc : ℝ} {v : V3} (h : bb.Contains v) (hl : rc ≤ ax.of v) :
    (⟨ax.set bb.lo rc, bb.hi⟩ : Box3).Contains v := by
  obtain ⟨h1, h2, h3, h4, h5, h6⟩ := h
  cases ax <;> simp only [Axis.of] at hl <;> refine ⟨?_, ?_, ?_, ?_, ?_, ?_⟩ <;> simp only [Axis.set] <;> assumption

theorem Tree.lt {nodes : List Node} {mesh : List Tri} {idx lo hi : ℕ} (h : Tree nodes mesh idx lo hi) : idx < nodes.length := by
  cases h with
  | leaf h _ _ => exact (List.getElem?_eq_some_iff.1 h).1
  | split h _ _ _ _ _ _ _ => exact (List.getElem?_eq_some_iff.1 h).1

theorem search_found {nodes : List Node} {mesh : List Tri} (target : V3) {idx lo hi : ℕ} (h : Tree nodes mesh idx lo hi) :
    ∀ (fuel : ℕ) (bb : Box3) (cur : Best), nodes.length ≤ idx + fuel →
      (∀ i t, lo ≤ i → i < hi → mesh[i]? = some t → Corners bb.Contains t) →
      ∃ out, search nodes mesh target fuel idx bb cur = some out ∧ Found mesh target lo hi cur out := by
  induction h with
  | @leaf idx lo hi hn hle hlen =>
    intro fuel bb cur hf hb
    have : idx < nodes.length := (List.getElem?_eq_some_iff.1 hn).1
    obtain ⟨f, rfl⟩ : ∃ f, fuel = f + 1 := ⟨fuel - 1, by omega⟩
    obtain ⟨out, e, hfound⟩ := scan_found mesh target (hi - lo) lo cur (by omega)
    refine ⟨out, ?_, ?_⟩
    · rw [search, hn]; exact e
    · rwa [show lo + (hi - lo) = hi by omega] at hfound
  | @split idx lo mid hi child ax lc rc hn hlt h1 h2 t1 t2 hl hr ih1 ih2 =>
    intro fuel bb cur hf hb
    have : idx < nodes.length := (List.getElem?_eq_some_iff.1 hn).1
    obtain ⟨f, rfl⟩ : ∃ f, fuel = f + 1 := ⟨fuel - 1, by omega⟩
    have hbl : ∀ i t, lo ≤ i → i < mid → mesh[i]? = some t → Corners (⟨bb.lo, ax.set bb.hi lc⟩ : Box3).Contains t := by
      intro i t hi1 hi2 ht
      obtain ⟨x, y, z⟩ := hb i t hi1 (by omega) ht
      obtain ⟨x', y', z'⟩ := hl i t hi1 hi2 ht
      exact ⟨contains_left x x', contains_left y y', contains_left z z'⟩
    have hbr : ∀ i t, mid ≤ i → i < hi → mesh[i]? = some t → Corners (⟨ax.set bb.lo rc, bb.hi⟩ : Box3).Contains t := by
      intro i t hi1 hi2 ht
      obtain ⟨x, y, z⟩ := hb i t (by omega) hi2 ht
      obtain ⟨x', y', z'⟩ := hr i t hi1 hi2 ht
      exact ⟨contains_right x x', contains_right y y', contains_right z z'⟩
    have left : ∀ c : Best, ∃ out, (if minDistBox target ⟨bb.lo, ax.set bb.hi lc⟩ < c.d2 then
        search nodes mesh target f child ⟨bb.lo, ax.set bb.hi lc⟩ c else some c) = some out ∧ Found mesh target lo mid c out := by
      intro c
      split_ifs with hc
      · exact ih1 f _ c (by omega) hbl
      · exact ⟨c, rfl, skip_found hbl hc⟩
    have right : ∀ c : Best, ∃ out, (if minDistBox target ⟨ax.set bb.lo rc, bb.hi⟩ < c.d2 then
        search nodes mesh target f (child + 1) ⟨ax.set bb.lo rc, bb.hi⟩ c else some c) = some out ∧ Found mesh target mid hi c out := by
      intro c
      split_ifs with hc
      · exact ih2 f _ c (by omega) hbr
      · exact ⟨c, rfl, skip_found hbr hc⟩
    rw [search, hn]
    dsimp only
    by_cases hd : minDistBox target ⟨bb.lo, ax.set bb.hi lc⟩ < minDistBox target ⟨ax.set bb.lo rc, bb.hi⟩
    · rw [if_pos hd]
      obtain ⟨o1, e1, f1⟩ := left cur
      obtain ⟨o2, e2, f2⟩ := right o1
      rw [e1, Option.bind_some, e2]
      exact ⟨o2, rfl, f1.comp h1 h2 f2⟩
    · rw [if_neg hd]
      obtain ⟨o1, e1, f1⟩ := right cur
      obtain ⟨o2, e2, f2⟩ := left o1
      rw [e1, Option.bind_some, e2]
      exact ⟨o2, rfl, f1.comp' h1 h2 f2⟩

theorem includeV_mono {b : Box3} {v w : V3} (h : b.Contains v) : (b.includeV w).Contains v := by
  obtain ⟨h1, h2, h3, h4, h5, h6⟩ := h
  refine ⟨?_, ?_, ?_, ?_, ?_, ?_⟩ <;> simp only [Box3.includeV, V3.minElem, V3.maxElem] <;>
    first | exact (min_le_left _ _).trans (by assumption) | exact le_trans (by assumption) (le_max_left _ _)

theorem includeV_self (b : Box3) (w : V3) : (b.includeV w).Contains w := by
  refine ⟨?_, ?_, ?_, ?_, ?_, ?_⟩ <;> simp only [Box3.includeV, V3.minElem, V3.maxElem] <;>
    first | exact min_le_right _ _ | exact le_max_right _ _

/-- The box of some triangles contains their corners. -/
theorem triBox_corners (l : List Tri) {t : Tri} (h : t ∈ l) : Corners (triBox l).Contains t := by
  have key : ∀ (l : List Tri) (b : Box3),
      (∀ v, b.Contains v → (l.foldl (fun b t => ((b.includeV t.a).includeV t.b).includeV t.c) b).Contains v) ∧
      (∀ t ∈ l, Corners (l.foldl (fun b t => ((b.includeV t.a).includeV t.b).includeV t.c) b).Contains t) := by
    intro l
    induction l with
    | nil => intro b; exact ⟨fun _ h => h, by simp⟩
    | cons u l ih =>
      intro b
      obtain ⟨h1, h2⟩ := ih (((b.includeV u.a).includeV u.b).includeV u.c)
      refine ⟨fun v hv => h1 v (includeV_mono (includeV_mono (includeV_mono hv))), ?_⟩
      intro t ht
      rcases List.mem_cons.1 ht with rfl | ht
      · exact ⟨h1 _ (includeV_mono (includeV_mono (includeV_self _ _))), h1 _ (includeV_mono (includeV_self _ _)), h1 _ (includeV_self _ _)⟩
      · exact h2 t ht
  exact (key l emptyBox).2 t h

theorem axis_hi {bb : Box3} {v : V3} (h : bb.Contains v) (ax : Axis) : ax.of bb.lo ≤ ax.of v ∧ ax.of v ≤ ax.of bb.hi := by
  obtain ⟨h1, h2, h3, h4, h5, h6⟩ := h
  cases ax <;> refine ⟨?_, ?_⟩ <;> assumption

/-- What `subdivide` builds. -/
theorem subdivide_spec (S : Sorter) : ∀ (n : ℕ) (b : List Node) (bihIdx meshIdx : ℕ) (mesh : List Tri) (bb : Box3),
    mesh.length = n → bihIdx < b.length →
    (subdivide S b bihIdx meshIdx mesh bb).2.Perm mesh ∧
    b.length ≤ (subdivide S b bihIdx meshIdx mesh bb).1.length ∧
    (∀ j, j < b.length → j ≠ bihIdx → (subdivide S b bihIdx meshIdx mesh bb).1[j]? = b[j]?) ∧
    (∀ (N : List Node) (M : List Tri), N[bihIdx]? = (subdivide S b bihIdx meshIdx mesh bb).1[bihIdx]? →
      (∀ j, b.length ≤ j → j < (subdivide S b bihIdx meshIdx mesh bb).1.length → N[j]? = (subdivide S b bihIdx meshIdx mesh bb).1[j]?) →
      (∀ i, i < mesh.length → M[meshIdx + i]? = (subdivide S b bihIdx meshIdx mesh bb).2[i]?) →
      meshIdx + mesh.length ≤ M.length →
      Tree N M bihIdx meshIdx (meshIdx + mesh.length)) := by
  intro n
  induction n using Nat.strong_induction_on with
  | _ n ih =>
    intro b bihIdx meshIdx mesh bb hn hidx
    rw [subdivide]
    by_cases hle : mesh.length ≤ 4
    · rw [dif_pos hle]
      dsimp only
      refine ⟨List.Perm.refl _, by simp, fun j _ hj => ?_, fun N M hN _ _ hM => ?_⟩
      · rw [List.getElem?_set_ne (Ne.symm hj)]
      · rw [List.getElem?_set_self hidx] at hN
        exact Tree.leaf (by rw [hN, Nat.add_comm]) (by omega) hM
    · rw [dif_neg hle]
      dsimp only
      generalize hax : clipAxis bb = ax
      have hperm := S.perm ax mesh
      generalize S.sort ax mesh = m at *
      have hml : m.length = mesh.length := hperm.length_eq
      generalize hhalf : m.length / 2 = half
      have l1 : (m.take half).length = half := by rw [List.length_take]; omega
      have l2 : (m.drop half).length = mesh.length - half := by rw [List.length_drop]; omega
      have hb0 : (b ++ [Node.zero, Node.zero]).length = b.length + 2 := by simp
      obtain ⟨p1, n1, k1, t1⟩ := ih half (by omega) (b ++ [Node.zero, Node.zero]) b.length meshIdx (m.take half) (triBox (m.take half)) l1 (by omega)
      generalize hr1 : subdivide S (b ++ [Node.zero, Node.zero]) b.length meshIdx (m.take half) (triBox (m.take half)) = r1 at *
      obtain ⟨p2, n2, k2, t2⟩ := ih (mesh.length - half) (by omega) r1.1 (b.length + 1) (meshIdx + half) (m.drop half) (triBox (m.drop half)) l2 (by omega)
      generalize hr2 : subdivide S r1.1 (b.length + 1) (meshIdx + half) (m.drop half) (triBox (m.drop half)) = r2 at *
      have q1 : r1.2.length = half := by rw [p1.length_eq, l1]
      have q2 : r2.2.length = mesh.length - half := by rw [p2.length_eq, l2]
      refine ⟨?_, ?_, ?_, ?_⟩
      · refine (p1.append p2).trans ?_
        rw [List.take_append_drop]
        exact hperm
      · rw [List.length_set]; omega
      · intro j hj hne
        rw [List.getElem?_set_ne (Ne.symm hne), k2 j (by omega) (by omega), k1 j (by omega) (by omega),
          List.getElem?_append_left hj]
      · intro N M hN hNr hM hMl
        have hsz : bihIdx < r2.1.length := by omega
        rw [List.getElem?_set_self hsz] at hN
        have hNr' : ∀ j, b.length ≤ j → j < r2.1.length → N[j]? = r2.1[j]? := by
          intro j h1 h2
          rw [hNr j h1 (by rw [List.length_set]; exact h2), List.getElem?_set_ne (by omega)]
        have hM1 : ∀ i, i < half → M[meshIdx + i]? = r1.2[i]? := by
          intro i hi
          rw [hM i (by omega), List.getElem?_append_left (by omega)]
        have hM2 : ∀ i, i < mesh.length - half → M[meshIdx + half + i]? = r2.2[i]? := by
          intro i hi
          rw [Nat.add_assoc, hM (half + i) (by omega), List.getElem?_append_right (by omega), q1]
          congr 1
          omega
        have T1 := t1 N M (by rw [hNr' _ le_rfl (by omega), k2 _ (by omega) (by omega)])
          (fun j h1 h2 => by
            rw [hNr' j (by omega) (by omega), k2 j h2 (by omega)])
          (fun i hi => hM1 i (by omega)) (by omega)
        have T2 := t2 N M (hNr' _ (by omega) (by omega)) (fun j h1 h2 => hNr' j (by omega) h2)
          (fun i hi => hM2 i (by omega)) (by omega)
        rw [l1] at T1
        rw [l2, show meshIdx + half + (mesh.length - half) = meshIdx + mesh.length by omega] at T2
        refine Tree.split hN (by omega) (by omega) (by omega) T1 T2 ?_ ?_
        · intro i t h1 h2 ht
          obtain ⟨k, rfl⟩ : ∃ k, i = meshIdx + k := ⟨i - meshIdx, by omega⟩
          rw [hM1 k (by omega)] at ht
          have hmem : t ∈ m.take half := p1.mem_iff.1 (List.mem_of_getElem? ht)
          obtain ⟨x, y, z⟩ := triBox_corners _ hmem
          exact ⟨(axis_hi x ax).2, (axis_hi y ax).2, (axis_hi z ax).2⟩
        · intro i t h1 h2 ht
          obtain ⟨k, rfl⟩ : ∃ k, i = meshIdx + half + k := ⟨i - meshIdx - half, by omega⟩
          rw [hM2 k (by omega)] at ht
          have hmem : t ∈ m.drop half := p2.mem_iff.1 (List.mem_of_getElem? ht)
          obtain ⟨x, y, z⟩ := triBox_corners _ hmem
          exact ⟨(axis_hi x ax).1, (axis_hi y ax).1, (axis_hi z ax).1⟩

theorem build_spec (S : Sorter) (mesh : List Tri) (bb : Box3) :
    (build S mesh bb).mesh.Perm mesh ∧ Tree (build S mesh bb).nodes (build S mesh bb).mesh 0 0 mesh.length := by
  obtain ⟨p, n, k, t⟩ := subdivide_spec S mesh.length [Node.zero] 0 0 mesh bb rfl (by simp)
  refine ⟨p, ?_⟩
  have := t (build S mesh bb).nodes (build S mesh bb).mesh rfl (fun _ _ _ => rfl) (fun i _ => by simp [build]) (by
    simp only [Nat.zero_add]
    exact p.length_eq.ge)
  rwa [Nat.zero_add] at this

theorem nearest_found (S : Sorter) (mesh : List Tri) (bb : Box3) (hb : ∀ t ∈ mesh, Corners bb.Contains t) (p : V3) :
    ∃ out, (build S mesh bb).nearest p = some out ∧
      Found (build S mesh bb).mesh p 0 mesh.length ⟨maxFloat64, ⟨0, 0, 0⟩, none⟩ out := by
  obtain ⟨hp, ht⟩ := build_spec S mesh bb
  exact search_found p ht _ _ _ (by omega) (fun i t _ _ hi => hb t (hp.mem_iff.1 (List.mem_of_getElem? hi)))

/-- The triangles the search passes over for a query (no distance is computed for them): the angle at the first corner is a right
angle, or the first two corners are equal, and the query projects onto the edge from the first to the third corner. -/
def Skipped (t : Tri) (p : V3) : Prop :=
  V3.dot (V3.sub p t.a) (V3.sub t.b t.a) = 0 ∧ V3.dot (V3.sub t.b t.a) (V3.sub t.c t.a) = 0

theorem sqrt_norm2 (v : V3) : Real.sqrt (V3.norm2 v) = V3.norm v := rfl

theorem dist_vec (p d : V3) : V3.dist p (V3.sub p d) = V3.norm d := by
  have e : V3.sub p (V3.sub p d) = d := by ext <;> simp [V3.sub]
  unfold V3.dist
  rw [e]

/-- For every mesh, every order the sorting may produce and every query: evaluation ends without a panic.  Either it gives
MaxFloat64, and then every triangle is passed over or too far away, or its size is the distance to the nearest of the
triangles that are not passed over, and its sign is the side of that triangle the query is on. -/
theorem C39_scan (S : Sorter) (mesh : List Tri) (bb : Box3) (hb : ∀ t ∈ mesh, Corners bb.Contains t) (p : V3) :
    ∃ v, (build S mesh bb).evaluate p = some v ∧
      ((v = maxFloat64 ∧ ∀ t ∈ mesh, ¬ Skipped t p → ∀ q, t.Mem q → maxFloat64 ≤ V3.dist p q ^ 2) ∨
       (∃ t ∈ mesh, ¬ Skipped t p ∧ ∃ q, t.IsClosest p q ∧
          ((0 ≤ V3.dot (faceNormal t) (V3.sub p q) ∧ v = V3.dist p q) ∨ (V3.dot (faceNormal t) (V3.sub p q) < 0 ∧ v = -V3.dist p q)) ∧
          ∀ t' ∈ mesh, ¬ Skipped t' p → ∀ q', t'.Mem q' → V3.dist p q ≤ V3.dist p q')) := by
  obtain ⟨out, e, f⟩ := nearest_found S mesh bb hb p
  have hp := (build_spec S mesh bb).1
  unfold evaluate
  rw [e, Option.bind_some]
  have hall : ∀ t ∈ mesh, ¬ Skipped t p → ∀ q, t.Mem q → out.d2 ≤ V3.dist p q ^ 2 := by
    intro t ht hs q hq
    obtain ⟨i, hi⟩ := List.mem_iff_getElem?.1 (hp.mem_iff.2 ht)
    have hlt : i < mesh.length := by
      rw [← hp.length_eq]
      exact (List.getElem?_eq_some_iff.1 hi).1
    cases hd : minDistTri t p with
    | none => exact absurd ((C42_tree_nan t p).1 hd) hs
    | some d =>
      have h1 := f.all i t d (by omega) hlt hi hd
      have h2 := (C42_tree_partial t p d hd).2 q hq
      rw [dist_vec] at h2
      have h3 : V3.norm2 d = V3.norm d ^ 2 := by
        rw [← sqrt_norm2, Real.sq_sqrt]
        unfold V3.norm2
        nlinarith [mul_self_nonneg d.x, mul_self_nonneg d.y, mul_self_nonneg d.z]
      have h4 : 0 ≤ V3.norm d := Real.sqrt_nonneg _
      rw [h3] at h1
      exact h1.trans (pow_le_pow_left₀ h4 h2 2)
  rcases f.src with rfl | ⟨i, t, -, hlt, ht, hidx, hd, hd2⟩
  · exact ⟨maxFloat64, rfl, Or.inl ⟨rfl, hall⟩⟩
  · rw [hidx]
    dsimp only
    rw [ht, Option.map_some]
    have hmem : t ∈ mesh := hp.mem_iff.1 (List.mem_of_getElem? ht)
    have hcl := C42_tree_partial t p _ hd
    have hns : ¬ Skipped t p := by
      intro hs
      rw [(C42_tree_nan t p).2 hs] at hd
      cases hd
    have hsub : V3.sub p (V3.sub p out.vec) = out.vec := by ext <;> simp [V3.sub]
    refine ⟨_, rfl, Or.inr ⟨t, hmem, hns, V3.sub p out.vec, hcl, ?_, ?_⟩⟩
    · rw [dist_vec, hsub, hd2, sqrt_norm2]
      by_cases hc : V3.dot (faceNormal t) out.vec ≥ 0
      · rw [if_pos hc]; exact Or.inl ⟨hc, rfl⟩
      · rw [if_neg hc]; exact Or.inr ⟨lt_of_not_ge hc, rfl⟩
    · intro t' ht' hs' q' hq'
      have := hall t' ht' hs' q' hq'
      rw [hd2] at this
      rw [dist_vec, ← sqrt_norm2]
      have h2 := Real.sqrt_le_sqrt this
      rwa [Real.sqrt_sq (show 0 ≤ V3.dist p q' from Real.sqrt_nonneg _)] at h2

/-- If no triangle is passed over and some triangle is nearer than the square root of MaxFloat64: the size of the value is the
distance to the mesh.  (Missing from the full property: triangles passed over, see `C39_skip_wrong`.) -/
theorem C39_exact_partial (S : Sorter) (mesh : List Tri) (bb : Box3) (hb : ∀ t ∈ mesh, Corners bb.Contains t) (p : V3)
    (hs : ∀ t ∈ mesh, ¬ Skipped t p) (hn : ∃ t ∈ mesh, ∃ q, t.Mem q ∧ V3.dist p q ^ 2 < maxFloat64) :
    ∃ v, (build S mesh bb).evaluate p = some v ∧ (∃ t ∈ mesh, ∃ q, t.Mem q ∧ |v| = V3.dist p q) ∧
      ∀ t ∈ mesh, ∀ q, t.Mem q → |v| ≤ V3.dist p q := by
  obtain ⟨v, e, h⟩ := C39_scan S mesh bb hb p
  refine ⟨v, e, ?_⟩
  rcases h with ⟨-, h⟩ | ⟨t, ht, -, q, hq, hv, h⟩
  · obtain ⟨t, ht, q, hq, hlt⟩ := hn
    exact absurd (h t ht (hs t ht) q hq) (not_le.2 hlt)
  · have h0 : 0 ≤ V3.dist p q := Real.sqrt_nonneg _
    have hv' : |v| = V3.dist p q := by
      rcases hv with ⟨-, rfl⟩ | ⟨-, rfl⟩
      · exact abs_of_nonneg h0
      · rw [abs_neg, abs_of_nonneg h0]
    exact ⟨⟨t, ht, q, hq.1, hv'⟩, fun t' ht' q' hq' => by rw [hv']; exact h t' ht' (hs t' ht') q' hq'⟩

/-- The size of the value does not depend on the order the sorting produces (the shape of the tree) nor on the box. -/
theorem C39_shape (S S' : Sorter) (mesh : List Tri) (bb bb' : Box3) (hb : ∀ t ∈ mesh, Corners bb.Contains t)
    (hb' : ∀ t ∈ mesh, Corners bb'.Contains t) (p : V3) :
    ((build S mesh bb).nearest p).map (·.d2) = ((build S' mesh bb').nearest p).map (·.d2) := by
  have key : ∀ (S S' : Sorter) (bb bb' : Box3), (∀ t ∈ mesh, Corners bb.Contains t) → (∀ t ∈ mesh, Corners bb'.Contains t) →
      ∃ x y, (build S mesh bb).nearest p = some x ∧ (build S' mesh bb').nearest p = some y ∧ x.d2 ≤ y.d2 := by
    intro S S' bb bb' hb hb'
    obtain ⟨x, ex, fx⟩ := nearest_found S mesh bb hb p
    obtain ⟨y, ey, fy⟩ := nearest_found S' mesh bb' hb' p
    refine ⟨x, y, ex, ey, ?_⟩
    rcases fy.src with rfl | ⟨i, t, -, hlt, ht, hidx, hd, hd2⟩
    · exact fx.le
    · have hmem : t ∈ mesh := (build_spec S' mesh bb').1.mem_iff.1 (List.mem_of_getElem? ht)
      obtain ⟨j, hj⟩ := List.mem_iff_getElem?.1 ((build_spec S mesh bb).1.mem_iff.2 hmem)
      have hlt : j < mesh.length := by
        rw [← (build_spec S mesh bb).1.length_eq]
        exact (List.getElem?_eq_some_iff.1 hj).1
      rw [hd2]
      exact fx.all j t _ (by omega) hlt hj hd
  obtain ⟨x, y, ex, ey, h1⟩ := key S S' bb bb' hb hb'
  obtain ⟨y', x', ey', ex', h2⟩ := key S' S bb' bb hb' hb
  rw [ex] at ex'; cases ex'
  rw [ey] at ey'; cases ey'
  rw [ex, ey, Option.map_some, Option.map_some, le_antisymm h1 h2]

/-- A mesh of one triangle and a query at distance 1 from it for which the value is MaxFloat64. -/
theorem C39_skip_wrong (S : Sorter) : let t : Tri := ⟨⟨0, 0, 0⟩, ⟨1, 0, 0⟩, ⟨0, 1, 0⟩⟩
    t.NonDegenerate ∧ (build S [t] (triBox [t])).evaluate ⟨0, 1 / 2, 1⟩ = some maxFloat64 ∧
      ∃ q, t.Mem q ∧ V3.dist ⟨0, 1 / 2, 1⟩ q = 1 := by
  intro t
  refine ⟨C42_tree_nan_witness.1, ?_, ⟨0, 1 / 2, 0⟩, ?_, ?_⟩
  · obtain ⟨v, e, h⟩ := C39_scan S [t] (triBox [t]) (fun u hu => triBox_corners _ hu) ⟨0, 1 / 2, 1⟩
    rcases h with ⟨rfl, -⟩ | ⟨u, hu, hs, -⟩
    · exact e
    · rw [List.mem_singleton] at hu
      rw [hu] at hs
      exact absurd (by simp [Skipped, V3.dot, V3.sub, t]) hs
  · refine ⟨1 / 2, 0, 1 / 2, by norm_num, le_rfl, by norm_num, by norm_num, ?_⟩
    ext <;> simp [V3.add, V3.scale, t]
  · simp [V3.dist, V3.norm, V3.sub]

/-- The hypotheses of `C39_exact_partial` hold for a concrete mesh and query. -/
example : let t : Tri := ⟨⟨0, 0, 0⟩, ⟨1, 0, 0⟩, ⟨0, 1, 0⟩⟩
    (∀ u ∈ [t], Corners (triBox [t]).Contains u) ∧ (∀ u ∈ [t], ¬ Skipped u ⟨1, 1, 1⟩) ∧
      ∃ u ∈ [t], ∃ q, u.Mem q ∧ V3.dist ⟨1, 1, 1⟩ q ^ 2 < maxFloat64 := by
  intro t
  refine ⟨fun u hu => triBox_corners _ hu, ?_, t, by simp, t.a, ?_, ?_⟩
  · intro u hu
    rw [List.mem_singleton] at hu
    rw [hu]
    simp [Skipped, V3.dot, V3.sub, t]
  · exact ⟨1, 0, 0, zero_le_one, le_rfl, le_rfl, by norm_num, by ext <;> simp [V3.add, V3.scale]⟩
  · rw [← V3.norm2_eq_dist]
    have := big
    simp only [V3.norm2, V3.sub, t]
    norm_num
    linarith

/-- There is a way of sorting. -/
example : Sorter := ⟨fun _ l => l, fun _ _ => List.Perm.refl _⟩

end Bih

end Sdf
