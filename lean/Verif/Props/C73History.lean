import Verif.Spec.History
import Verif.Model.Forms

/-!
C73: what a model is depends on how it was built and on the blends set last, and on nothing else that happens.
-/

namespace Sdf.Heap

open Classical

/-- The same fields with other blends. -/
def Kind.reblend (mn mx : ℝ → ℝ → ℝ) : Kind → Kind
  | .part s => .part s
  | .step k r => .step k r
  | .rep k r _ => .rep k r mn
  | .diff r0 r1 _ => .diff r0 r1 mx
  | .inter r0 r1 _ => .inter r0 r1 mx
  | .union sl _ => .union sl mn

theorem mapM_mono {f g : Option ℕ → Option SDF3} (h : ∀ x s, f x = some s → g x = some s) (l : List (Option ℕ)) (v : List SDF3)
    (hv : l.mapM f = some v) : l.mapM g = some v := by
  induction l generalizing v with
  | nil => simpa using hv
  | cons x l ih =>
    simp only [List.mapM_cons, Option.bind_eq_bind, Option.bind_eq_some_iff, Option.pure_def, Option.some.injEq] at hv ⊢
    obtain ⟨s, hs, v', hv', rfl⟩ := hv
    exact ⟨s, h x s hs, v', ih v' hv', rfl⟩

theorem mapM_congr {f g : Option ℕ → Option SDF3} (l : List (Option ℕ)) (h : ∀ x ∈ l, f x = g x) : l.mapM f = l.mapM g := by
  induction l with
  | nil => rfl
  | cons x l ih =>
    rw [List.mapM_cons, List.mapM_cons, h x List.mem_cons_self, ih fun y hy => h y (List.mem_cons_of_mem _ hy)]

theorem solid_mono {look look' : ℕ → Option SDF3} (h : ∀ i s, look i = some s → look' i = some s) (arrs : List (List (Option ℕ))) (k : Kind) (v : SDF3)
    (hv : k.solid look arrs = some v) : k.solid look' arrs = some v := by
  cases k with
  | part s => exact hv
  | step k r =>
    simp only [Kind.solid, Option.map_eq_some_iff] at hv ⊢
    obtain ⟨s, hs, e⟩ := hv
    exact ⟨s, h _ _ hs, e⟩
  | rep k r mn =>
    simp only [Kind.solid, Option.map_eq_some_iff] at hv ⊢
    obtain ⟨s, hs, e⟩ := hv
    exact ⟨s, h _ _ hs, e⟩
  | diff r0 r1 mx =>
    simp only [Kind.solid, Option.bind_eq_some_iff, Option.map_eq_some_iff] at hv ⊢
    obtain ⟨s, hs, s', hs', e⟩ := hv
    exact ⟨s, h _ _ hs, s', h _ _ hs', e⟩
  | inter r0 r1 mx =>
    simp only [Kind.solid, Option.bind_eq_some_iff, Option.map_eq_some_iff] at hv ⊢
    obtain ⟨s, hs, s', hs', e⟩ := hv
    exact ⟨s, h _ _ hs, s', h _ _ hs', e⟩
  | union sl mn =>
    simp only [Kind.solid] at hv ⊢
    cases hl : (elems arrs sl).mapM (fun x => x.bind look) with
    | none => rw [hl] at hv; cases hv
    | some l =>
      rw [hl] at hv
      rw [mapM_mono (g := fun x => x.bind look') (fun x s hx => ?_) _ _ hl]
      · exact hv
      · cases x with
        | none => cases hx
        | some i => exact h i s hx

theorem step_box (k : Step) (s s' : SDF3) (h : s.bounds = s'.bounds) : (k.apply s).bounds = (k.apply s').bounds := by
  cases k <;> simp only [Step.apply, SDF3.transform, SDF3.scaleUniform, SDF3.elongate, SDF3.cut, SDF3.rotateCopy, SDF3.offset, SDF3.shell, h]
  all_goals split <;> simp [SDF3.emptyFrom, SDF3.empty, h]

theorem rep_box (k : Rep) (mn mn' : ℝ → ℝ → ℝ) (s s' : SDF3) (h : s.bounds = s'.bounds) : (k.apply mn s).bounds = (k.apply mn' s').bounds := by
  cases k <;> simp only [Rep.apply, SDF3.arrayWith, SDF3.rotateUnionWith] <;> split <;> simp [SDF3.emptyFrom, SDF3.empty, h]

theorem mapM_box {f g : Option ℕ → Option SDF3} (h : ∀ x, (f x).map SDF3.bounds = (g x).map SDF3.bounds) (l : List (Option ℕ)) (v : List SDF3)
    (hv : l.mapM f = some v) : ∃ w, l.mapM g = some w ∧ w.map SDF3.bounds = v.map SDF3.bounds := by
  induction l generalizing v with
  | nil => exact ⟨[], by simpa using hv⟩
  | cons x l ih =>
    simp only [List.mapM_cons, Option.bind_eq_bind, Option.bind_eq_some_iff, Option.pure_def, Option.some.injEq] at hv ⊢
    obtain ⟨s, hs, v', hv', rfl⟩ := hv
    obtain ⟨w, hw, e⟩ := ih v' hv'
    have := h x
    rw [hs] at this
    obtain ⟨s', hs', e'⟩ := Option.map_eq_some_iff.mp this.symm
    exact ⟨s' :: w, ⟨s', hs', w, hw, rfl⟩, by simp [e, e']⟩

theorem extend_map (l : List SDF3) (b : Box3) :
    l.foldl (fun bb x => bb.extend x.bounds) b = (l.map SDF3.bounds).foldl (fun bb x => bb.extend x) b := by
  rw [List.foldl_map]

theorem union_box (mn mn' : ℝ → ℝ → ℝ) (s s' : SDF3) (l l' : List SDF3) (h : (s :: l).map SDF3.bounds = (s' :: l').map SDF3.bounds) :
    (SDF3.unionWith mn s l).bounds = (SDF3.unionWith mn' s' l').bounds := by
  simp only [SDF3.unionWith]
  rw [extend_map, extend_map, h]
  rw [List.map_cons, List.map_cons, List.cons.injEq] at h
  rw [h.1]

/-- The box of an object depends on the boxes of its operands only. -/
theorem solid_box {look look' : ℕ → Option SDF3} (h : ∀ i, (look i).map SDF3.bounds = (look' i).map SDF3.bounds)
    (arrs : List (List (Option ℕ))) (k : Kind) (mn mx : ℝ → ℝ → ℝ) (v : SDF3) (hv : k.solid look arrs = some v) :
    ∃ w, (k.reblend mn mx).solid look' arrs = some w ∧ w.bounds = v.bounds := by
  have get : ∀ i s, look i = some s → ∃ s', look' i = some s' ∧ s'.bounds = s.bounds := fun i s hs => by
    have := h i
    rw [hs] at this
    exact Option.map_eq_some_iff.mp this.symm
  cases k with
  | part s =>
    simp only [Kind.solid, Option.some.injEq] at hv
    exact ⟨s, rfl, by rw [hv]⟩
  | step k r =>
    simp only [Kind.solid, Option.map_eq_some_iff] at hv
    obtain ⟨s, hs, rfl⟩ := hv
    obtain ⟨s', hs', e⟩ := get _ _ hs
    exact ⟨k.apply s', by simp only [Kind.reblend, Kind.solid, hs', Option.map_some], step_box k s' s e⟩
  | rep k r f =>
    simp only [Kind.solid, Option.map_eq_some_iff] at hv
    obtain ⟨s, hs, rfl⟩ := hv
    obtain ⟨s', hs', e⟩ := get _ _ hs
    exact ⟨k.apply mn s', by simp only [Kind.reblend, Kind.solid, hs', Option.map_some], rep_box k _ _ s' s e⟩
  | diff r0 r1 f =>
    simp only [Kind.solid, Option.bind_eq_some_iff, Option.map_eq_some_iff] at hv
    obtain ⟨s, hs, t, ht, rfl⟩ := hv
    obtain ⟨s', hs', e⟩ := get _ _ hs
    obtain ⟨t', ht', -⟩ := get _ _ ht
    exact ⟨s'.differenceWith mx t', by simp only [Kind.reblend, Kind.solid, hs', ht', Option.map_some, Option.bind_some], e⟩
  | inter r0 r1 f =>
    simp only [Kind.solid, Option.bind_eq_some_iff, Option.map_eq_some_iff] at hv
    obtain ⟨s, hs, t, ht, rfl⟩ := hv
    obtain ⟨s', hs', e⟩ := get _ _ hs
    obtain ⟨t', ht', -⟩ := get _ _ ht
    exact ⟨s'.intersectWith mx t', by simp only [Kind.reblend, Kind.solid, hs', ht', Option.map_some, Option.bind_some], e⟩
  | union sl f =>
    simp only [Kind.solid] at hv
    cases hl : (elems arrs sl).mapM (fun x => x.bind look) with
    | none => rw [hl] at hv; cases hv
    | some l =>
      rw [hl] at hv
      obtain ⟨w, hw, e⟩ := mapM_box (g := fun x => x.bind look') (fun x => by cases x with | none => rfl | some i => exact h i) _ _ hl
      cases l with
      | nil => cases hv
      | cons s l =>
        cases w with
        | nil => cases e
        | cons s' l' =>
          simp only [Option.some.injEq] at hv
          refine ⟨SDF3.unionWith mn s' l', by simp only [Kind.reblend, Kind.solid, hw], ?_⟩
          rw [← hv]
          exact union_box _ _ _ _ _ _ e

/-- The memory holds what is expected, when the blends are the given ones. -/
structure Good (h : List Act) (mn mx : ℕ → ℝ → ℝ → ℝ) (m : Mem) (st : List SDF3 × List (List (Option ℕ))) : Prop where
  arrs : m.arrs = st.2
  len : m.objs.length = st.1.length
  obj : ∀ (r : ℕ) o, m.objs[r]? = some o → ∃ v, st.1[r]? = some v ∧
    (o.kind.reblend (mn r) (mx r)).solid (fun i => if i < r then st.1[i]? else none) m.arrs = some v ∧ o.bb = v.bounds
  uni : ∀ (r : ℕ) sl mn bb, m.objs[r]? = some ⟨.union sl mn, bb⟩ → Act.union sl ∈ h

theorem expect_make (mn mx : ℕ → ℝ → ℝ → ℝ) (a : Act) (k : Kind) (hk : a.kind = some k) (vals : List SDF3) (arrs : List (List (Option ℕ))) (v : SDF3)
    (hv : (k.reblend (mn vals.length) (mx vals.length)).solid (fun i => vals[i]?) arrs = some v) :
    expectStep mn mx (vals, arrs) a = (vals ++ [v], arrs) := by
  cases a with
  | part s =>
    simp only [Act.kind, Option.some.injEq] at hk; subst hk
    simp only [Kind.reblend, Kind.solid, Option.some.injEq] at hv
    simp only [expectStep, hv]
  | step s r =>
    simp only [Act.kind, Option.some.injEq] at hk; subst hk
    simp only [Kind.reblend, Kind.solid, Option.map_eq_some_iff] at hv
    obtain ⟨x, hx, rfl⟩ := hv
    cases s <;> simp only [expectStep, hx, Option.map_some, Option.toList_some, Step.apply]
  | rep s r =>
    simp only [Act.kind, Option.some.injEq] at hk; subst hk
    simp only [Kind.reblend, Kind.solid, Option.map_eq_some_iff] at hv
    obtain ⟨x, hx, rfl⟩ := hv
    cases s <;> simp only [expectStep, hx, Option.map_some, Option.toList_some, Rep.apply]
  | difference r0 r1 =>
    simp only [Act.kind, Option.some.injEq] at hk; subst hk
    simp only [Kind.reblend, Kind.solid, Option.bind_eq_some_iff, Option.map_eq_some_iff] at hv
    obtain ⟨x, hx, y, hy, rfl⟩ := hv
    simp only [expectStep, hx, hy, Option.map_some, Option.bind_some, Option.toList_some]
  | intersect r0 r1 =>
    simp only [Act.kind, Option.some.injEq] at hk; subst hk
    simp only [Kind.reblend, Kind.solid, Option.bind_eq_some_iff, Option.map_eq_some_iff] at hv
    obtain ⟨x, hx, y, hy, rfl⟩ := hv
    simp only [expectStep, hx, hy, Option.map_some, Option.bind_some, Option.toList_some]
  | union sl =>
    simp only [Act.kind, Option.some.injEq] at hk; subst hk
    simp only [Kind.reblend, Kind.solid, elems] at hv
    simp only [expectStep]
    cases hl : List.mapM (fun x : Option ℕ => x.bind fun i => vals[i]?) (((arrs.getD sl.arr []).drop sl.off).take sl.len) with
    | none => rw [hl] at hv; cases hv
    | some l =>
      rw [hl] at hv
      cases l with
      | nil => cases hv
      | cons s0 l =>
        simp only [Option.some.injEq] at hv
        simp only [hv]
  | list l => cases hk
  | setMin r f => cases hk
  | setMax r f => cases hk
  | store a i x => cases hk

theorem good_make (h : List Act) (mn mx : ℕ → ℝ → ℝ → ℝ) (m m' : Mem) (st : List SDF3 × List (List (Option ℕ))) (hg : Good h mn mx m st) (a : Act) (k : Kind)
    (hk : a.kind = some k) (hm : m.make k = some m') : Good (h ++ [a]) mn mx m' (expectStep mn mx st a) := by
  obtain ⟨vals, arrs⟩ := st
  have harr : m.arrs = arrs := hg.arrs
  have hlen : m.objs.length = vals.length := hg.len
  unfold Mem.make at hm
  split at hm
  swap
  · cases hm
  rw [Option.map_eq_some_iff] at hm
  obtain ⟨s, hs, rfl⟩ := hm
  have hbox : ∀ i, (((m.box i).map fun b => (⟨fun _ => 0, b⟩ : SDF3)).map SDF3.bounds) = (vals[i]?).map SDF3.bounds := fun i => by
    unfold Mem.box
    cases ho : m.objs[i]? with
    | none =>
      rw [List.getElem?_eq_none_iff, hlen, ← List.getElem?_eq_none_iff] at ho
      rw [ho]; rfl
    | some o =>
      obtain ⟨v, hv, -, e⟩ := hg.obj i o ho
      have hv' : vals[i]? = some v := hv
      rw [hv']
      simp [e]
  obtain ⟨v, hv, hb⟩ := solid_box hbox m.arrs k (mn vals.length) (mx vals.length) s hs
  rw [harr] at hv
  rw [expect_make mn mx a k hk vals arrs v hv]
  refine ⟨harr, by simp [hlen], fun r o ho => ?_, fun r sl f bb ho => ?_⟩
  · by_cases hr : r < m.objs.length
    · rw [List.getElem?_append_left hr] at ho
      obtain ⟨w, hw, hw', e⟩ := hg.obj r o ho
      refine ⟨w, ?_, ?_, e⟩
      · rw [List.getElem?_append_left (by rw [← hlen]; exact hr)]; exact hw
      · refine Eq.trans ?_ hw'
        congr 1
        funext i
        by_cases hi : i < r
        · rw [if_pos hi, if_pos hi, List.getElem?_append_left (by omega)]
        · rw [if_neg hi, if_neg hi]
    · rw [List.getElem?_append_right (by omega)] at ho
      have hr' : r = m.objs.length := by
        by_contra hne
        rw [List.getElem?_eq_none (by simp only [List.length_cons, List.length_nil]; omega)] at ho
        cases ho
      subst hr'
      rw [Nat.sub_self, List.getElem?_cons_zero, Option.some.injEq] at ho
      subst ho
      refine ⟨v, by rw [hlen]; simp, ?_, hb.symm⟩
      simp only
      rw [harr, hlen]
      refine Eq.trans ?_ hv
      congr 1
      funext i
      by_cases hi : i < vals.length
      · rw [if_pos hi, List.getElem?_append_left hi]
      · rw [if_neg hi, List.getElem?_eq_none (by omega)]
  · rw [List.mem_append]
    by_cases hr : r < m.objs.length
    · rw [List.getElem?_append_left hr] at ho
      exact Or.inl (hg.uni r sl f bb ho)
    · rw [List.getElem?_append_right (by omega)] at ho
      obtain ⟨hmem⟩ := List.mem_of_getElem? ho |> List.mem_singleton.mp |> fun h => PLift.up h
      right
      rw [List.mem_singleton]
      have hk' : k = .union sl f := (congrArg Obj.kind hmem).symm
      subst hk'
      cases a <;> simp [Act.kind] at hk
      rw [hk.1]

theorem good_set (h : List Act) (mn mx : ℕ → ℝ → ℝ → ℝ) (m : Mem) (st : List SDF3 × List (List (Option ℕ))) (hg : Good h mn mx m st) (a : Act) (r : ℕ) (o : Obj)
    (ho : m.objs[r]? = some o) (k : Kind) (hk : ∀ f g, k.reblend f g = o.kind.reblend f g)
    (hu : ∀ sl f, k = .union sl f → ∃ f', o.kind = .union sl f') :
    Good (h ++ [a]) mn mx ⟨m.objs.set r ⟨k, o.bb⟩, m.arrs⟩ st := by
  refine ⟨hg.arrs, by simp [hg.len], fun r' o' ho' => ?_, fun r' sl f bb ho' => ?_⟩
  · by_cases he : r = r'
    · subst he
      rw [List.getElem?_set_self (List.getElem?_eq_some_iff.mp ho).1, Option.some.injEq] at ho'
      subst ho'
      simp only [hk]
      exact hg.obj r o ho
    · rw [List.getElem?_set_ne he] at ho'
      exact hg.obj r' o' ho'
  · rw [List.mem_append]
    left
    by_cases he : r = r'
    · subst he
      rw [List.getElem?_set_self (List.getElem?_eq_some_iff.mp ho).1, Option.some.injEq] at ho'
      obtain ⟨f', hf'⟩ := hu sl f (congrArg Obj.kind ho')
      exact hg.uni r sl f' o.bb (by rw [ho, ← hf'])
    · rw [List.getElem?_set_ne he] at ho'
      exact hg.uni r' sl f bb ho'

theorem elems_spared (arrs : List (List (Option ℕ))) (sl : Slice) (a i : ℕ) (x : Option ℕ) (h : a = sl.arr → sl.off ≤ i → sl.off + sl.len ≤ i) :
    elems (arrs.set a ((arrs.getD a []).set i x)) sl = elems arrs sl := by
  unfold elems
  by_cases ha : a = sl.arr
  · subst ha
    by_cases hl : sl.arr < arrs.length
    · have e : (arrs.set sl.arr ((arrs.getD sl.arr []).set i x)).getD sl.arr [] = (arrs.getD sl.arr []).set i x := by
        simp [List.getD_eq_getElem?_getD, List.getElem?_set_self hl]
      rw [e]
      apply List.ext_getElem?
      intro j
      rw [List.getElem?_take, List.getElem?_take]
      split
      · rename_i hj
        rw [List.getElem?_drop, List.getElem?_drop, List.getElem?_set_ne]
        intro he
        have := h rfl (by omega)
        omega
      · rfl
    · rw [List.set_eq_of_length_le (by omega)]
  · have e : (arrs.set a ((arrs.getD a []).set i x)).getD sl.arr [] = arrs.getD sl.arr [] := by
      simp [List.getD_eq_getElem?_getD, List.getElem?_set_ne ha]
    rw [e]

theorem good_arrs (h : List Act) (mn mx : ℕ → ℝ → ℝ → ℝ) (m : Mem) (st : List SDF3 × List (List (Option ℕ))) (hg : Good h mn mx m st) (a : Act)
    (arrs' : List (List (Option ℕ))) (he : ∀ (r : ℕ) sl f bb, m.objs[r]? = some ⟨.union sl f, bb⟩ → elems arrs' sl = elems m.arrs sl) :
    Good (h ++ [a]) mn mx ⟨m.objs, arrs'⟩ (st.1, arrs') := by
  refine ⟨rfl, hg.len, fun r o ho => ?_, fun r sl f bb ho => List.mem_append_left _ (hg.uni r sl f bb ho)⟩
  obtain ⟨v, hv, hs, e⟩ := hg.obj r o ho
  refine ⟨v, hv, ?_, e⟩
  obtain ⟨k, bb⟩ := o
  cases k with
  | union sl f =>
    simp only [Kind.reblend, Kind.solid] at hs ⊢
    rw [he r sl f bb ho]
    exact hs
  | _ => exact hs

theorem run_append (h : List Act) (a : Act) : Mem.run (h ++ [a]) = (Mem.run h).bind fun m => m.act a := by
  unfold Mem.run
  rw [List.foldlM_append]
  simp only [List.foldlM_cons, List.foldlM_nil, Option.bind_eq_bind, Option.pure_def]
  congr 1
  funext m
  cases m.act a <;> rfl

theorem act_make (m : Mem) (a : Act) (k : Kind) (hk : a.kind = some k) : m.act a = m.make k := by
  cases a <;> simp [Act.kind] at hk <;> simp [Mem.act, Act.kind, hk]

theorem spares_init (h : List Act) (a : Act) (hs : Spares (h ++ [a])) : Spares h := by
  intro h1 h2 h3 sl b i x e
  refine hs h1 h2 (h3 ++ [a]) sl b i x ?_
  rw [e]; simp

theorem spares_last (h : List Act) (a i : ℕ) (x : Option ℕ) (hs : Spares (h ++ [.store a i x])) (sl : Slice) (hm : Act.union sl ∈ h) :
    a = sl.arr → sl.off ≤ i → sl.off + sl.len ≤ i := by
  obtain ⟨h1, h2, rfl⟩ := List.append_of_mem hm
  exact hs h1 h2 [] sl a i x (by simp)

theorem withMin_reblend (k k' : Kind) (f : ℝ → ℝ → ℝ) (h : k.withMin f = some k') : ∀ g g', k'.reblend g g' = k.reblend g g' := by
  cases k <;> simp [Kind.withMin] at h <;> subst h <;> intros <;> rfl

theorem withMax_reblend (k k' : Kind) (f : ℝ → ℝ → ℝ) (h : k.withMax f = some k') : ∀ g g', k'.reblend g g' = k.reblend g g' := by
  cases k <;> simp [Kind.withMax] at h <;> subst h <;> intros <;> rfl

theorem reblend_union (k k' : Kind) (h : ∀ g g', k'.reblend g g' = k.reblend g g') (sl : Slice) (f : ℝ → ℝ → ℝ) (hk : k' = .union sl f) :
    ∃ f', k = .union sl f' := by
  subst hk
  have := h min max
  cases k <;> simp [Kind.reblend] at this
  exact ⟨_, by rw [this]⟩

/-- Every run keeps memory and expectation together, for all blends that may be set later. -/
theorem good_run (mn mx : ℕ → ℝ → ℝ → ℝ) (h : List Act) : ∀ (_ : Spares h) (m : Mem) (_ : Mem.run h = some m),
    Good h mn mx m (h.foldl (expectStep mn mx) ([], [])) := by
  induction h using List.reverseRecOn with
  | nil =>
    intro _ m hm
    simp only [Mem.run, List.foldlM_nil, Option.pure_def, Option.some.injEq] at hm
    subst hm
    exact ⟨rfl, rfl, fun r o ho => by simp at ho, fun r sl f bb ho => by simp at ho⟩
  | append_singleton h a ih =>
    intro hs m' hm'
    rw [run_append, Option.bind_eq_some_iff] at hm'
    obtain ⟨m, hm, ha⟩ := hm'
    have hg := ih (spares_init h a hs) m hm
    rw [List.foldl_append, List.foldl_cons, List.foldl_nil]
    set st := h.foldl (expectStep mn mx) ([], []) with hst
    by_cases hk : ∃ k, a.kind = some k
    · obtain ⟨k, hk⟩ := hk
      rw [act_make m a k hk] at ha
      exact good_make h mn mx m m' st hg a k hk ha
    · cases a with
      | list l =>
        simp only [Mem.act, Option.some.injEq] at ha
        subst ha
        have := good_arrs h mn mx m st hg (.list l) (m.arrs ++ [l]) fun r sl f bb ho => by
          obtain ⟨v, -, hv, -⟩ := hg.obj r _ ho
          have hlt : sl.arr < m.arrs.length := by
            by_contra hge
            have e : elems m.arrs sl = [] := by
              unfold elems
              rw [List.getD_eq_getElem?_getD, List.getElem?_eq_none (by omega)]
              simp
            simp [Kind.reblend, Kind.solid, e] at hv
          unfold elems
          rw [List.getD_eq_getElem?_getD, List.getD_eq_getElem?_getD, List.getElem?_append_left hlt]
        simp only [expectStep]
        rw [← hg.arrs]
        exact this
      | store b i x =>
        simp only [Mem.act] at ha
        split at ha
        swap
        · cases ha
        rw [Option.some.injEq] at ha
        subst ha
        have := good_arrs h mn mx m st hg (.store b i x) (m.arrs.set b ((m.arrs.getD b []).set i x)) fun r sl f bb ho =>
          elems_spared _ _ _ _ _ (spares_last h b i x hs sl (hg.uni r sl f bb ho))
        simp only [expectStep]
        rw [← hg.arrs]
        exact this
      | setMin r f =>
        simp only [Mem.act, Option.bind_eq_some_iff, Option.map_eq_some_iff] at ha
        obtain ⟨o, ho, k, hk', rfl⟩ := ha
        exact good_set h mn mx m st hg _ r o ho k (withMin_reblend _ _ _ hk') (reblend_union _ _ (withMin_reblend _ _ _ hk'))
      | setMax r f =>
        simp only [Mem.act, Option.bind_eq_some_iff, Option.map_eq_some_iff] at ha
        obtain ⟨o, ho, k, hk', rfl⟩ := ha
        exact good_set h mn mx m st hg _ r o ho k (withMax_reblend _ _ _ hk') (reblend_union _ _ (withMax_reblend _ _ _ hk'))
      | _ => exact absurd ⟨_, rfl⟩ hk

theorem act_length (m m' : Mem) (a : Act) (h : m.act a = some m') : m.objs.length ≤ m'.objs.length := by
  by_cases hk : ∃ k, a.kind = some k
  · obtain ⟨k, hk⟩ := hk
    rw [act_make m a k hk] at h
    unfold Mem.make at h
    split at h
    · obtain ⟨s, -, rfl⟩ := Option.map_eq_some_iff.mp h
      simp
    · cases h
  · cases a with
    | list l => simp only [Mem.act, Option.some.injEq] at h; subst h; exact le_refl _
    | store b i x =>
      simp only [Mem.act] at h
      split at h
      · rw [Option.some.injEq] at h; subst h; exact le_refl _
      · cases h
    | setMin r f =>
      simp only [Mem.act, Option.bind_eq_some_iff, Option.map_eq_some_iff] at h
      obtain ⟨o, ho, k, hk', rfl⟩ := h
      simp
    | setMax r f =>
      simp only [Mem.act, Option.bind_eq_some_iff, Option.map_eq_some_iff] at h
      obtain ⟨o, ho, k, hk', rfl⟩ := h
      simp
    | _ => exact absurd ⟨_, rfl⟩ hk

theorem lastMin_append (h : List Act) (a : Act) (r : ℕ) :
    lastMin (h ++ [a]) r = match a with | .setMin r' g => if r' = r then g else lastMin h r | _ => lastMin h r := by
  unfold lastMin
  rw [List.foldl_append]
  rfl

theorem lastMax_append (h : List Act) (a : Act) (r : ℕ) :
    lastMax (h ++ [a]) r = match a with | .setMax r' g => if r' = r then g else lastMax h r | _ => lastMax h r := by
  unfold lastMax
  rw [List.foldl_append]
  rfl

/-- Every object has the blends set last. -/
theorem blends (h : List Act) : ∀ (m : Mem) (_ : Mem.run h = some m),
    (∀ r, m.objs.length ≤ r → lastMin h r = min ∧ lastMax h r = max) ∧
    ∀ (r : ℕ) o, m.objs[r]? = some o → o.kind.reblend (lastMin h r) (lastMax h r) = o.kind := by
  induction h using List.reverseRecOn with
  | nil =>
    intro m hm
    simp only [Mem.run, List.foldlM_nil, Option.pure_def, Option.some.injEq] at hm
    subst hm
    exact ⟨fun r _ => ⟨rfl, rfl⟩, fun r o ho => by simp at ho⟩
  | append_singleton h a ih =>
    intro m' hm'
    rw [run_append, Option.bind_eq_some_iff] at hm'
    obtain ⟨m, hm, ha⟩ := hm'
    obtain ⟨i1, i2⟩ := ih m hm
    have hlen := act_length m m' a ha
    by_cases hk : ∃ k, a.kind = some k
    · obtain ⟨k, hk⟩ := hk
      have e1 : ∀ r, lastMin (h ++ [a]) r = lastMin h r := fun r => by rw [lastMin_append]; cases a <;> first | rfl | (simp [Act.kind] at hk)
      have e2 : ∀ r, lastMax (h ++ [a]) r = lastMax h r := fun r => by rw [lastMax_append]; cases a <;> first | rfl | (simp [Act.kind] at hk)
      simp only [e1, e2]
      refine ⟨fun r hr => i1 r (by omega), fun r o ho => ?_⟩
      rw [act_make m a k hk] at ha
      unfold Mem.make at ha
      split at ha
      swap
      · cases ha
      obtain ⟨s, -, rfl⟩ := Option.map_eq_some_iff.mp ha
      by_cases hr : r < m.objs.length
      · rw [List.getElem?_append_left hr] at ho
        exact i2 r o ho
      · rw [List.getElem?_append_right (by omega)] at ho
        have ho' := List.mem_singleton.mp (List.mem_of_getElem? ho)
        subst ho'
        rw [(i1 r (by omega)).1, (i1 r (by omega)).2]
        cases a <;> simp [Act.kind] at hk <;> subst hk <;> rfl
    · cases a with
      | list l =>
        simp only [Mem.act, Option.some.injEq] at ha; subst ha
        exact ⟨fun r hr => by rw [lastMin_append, lastMax_append]; exact i1 r hr, fun r o ho => by rw [lastMin_append, lastMax_append]; exact i2 r o ho⟩
      | store b i x =>
        simp only [Mem.act] at ha
        split at ha
        swap
        · cases ha
        rw [Option.some.injEq] at ha; subst ha
        exact ⟨fun r hr => by rw [lastMin_append, lastMax_append]; exact i1 r hr, fun r o ho => by rw [lastMin_append, lastMax_append]; exact i2 r o ho⟩
      | setMin r' f =>
        simp only [Mem.act, Option.bind_eq_some_iff, Option.map_eq_some_iff] at ha
        obtain ⟨o', ho', k, hk', rfl⟩ := ha
        have hlt := (List.getElem?_eq_some_iff.mp ho').1
        refine ⟨fun r hr => ?_, fun r o ho => ?_⟩
        · rw [List.length_set] at hr
          rw [lastMin_append, lastMax_append]
          simp only
          rw [if_neg (by omega)]
          exact i1 r hr
        · rw [lastMin_append, lastMax_append]
          simp only
          by_cases he : r' = r
          · subst he
            rw [if_pos rfl]
            rw [List.getElem?_set_self hlt, Option.some.injEq] at ho
            subst ho
            have := i2 r' o' ho'
            cases hkk : o'.kind <;> rw [hkk] at hk' <;> simp [Kind.withMin] at hk' <;> subst hk' <;> rfl
          · rw [if_neg he]
            rw [List.getElem?_set_ne he] at ho
            exact i2 r o ho
      | setMax r' f =>
        simp only [Mem.act, Option.bind_eq_some_iff, Option.map_eq_some_iff] at ha
        obtain ⟨o', ho', k, hk', rfl⟩ := ha
        have hlt := (List.getElem?_eq_some_iff.mp ho').1
        refine ⟨fun r hr => ?_, fun r o ho => ?_⟩
        · rw [List.length_set] at hr
          rw [lastMin_append, lastMax_append]
          simp only
          rw [if_neg (by omega)]
          exact i1 r hr
        · rw [lastMin_append, lastMax_append]
          simp only
          by_cases he : r' = r
          · subst he
            rw [if_pos rfl]
            rw [List.getElem?_set_self hlt, Option.some.injEq] at ho
            subst ho
            cases hkk : o'.kind <;> rw [hkk] at hk' <;> simp [Kind.withMax] at hk' <;> subst hk' <;> rfl
          · rw [if_neg he]
            rw [List.getElem?_set_ne he] at ho
            exact i2 r o ho
      | _ => exact absurd ⟨_, rfl⟩ hk

/-- **C73 (proved part).**  After any program that leaves alone the slices it has given to unions, however it mixes building, setting and
changing blends and using its arrays, every object evaluates, without end of calls or `nil`, to the solid its building steps describe with the blends that were
set last, and returns its box. -/
theorem C73_history_partial (h : List Act) (hs : Spares h) (m : Mem) (hm : Mem.run h = some m) :
    m.objs.length = (expected h).length ∧ ∀ (r : ℕ) s, (expected h)[r]? = some s → ∀ n, r < n → m.value n r = some s := by
  have hg := good_run (lastMin h) (lastMax h) h hs m hm
  have hb := (blends h m hm).2
  refine ⟨hg.len, fun r => ?_⟩
  induction r using Nat.strong_induction_on with
  | _ r ih =>
    intro s hr n hn
    obtain ⟨n, rfl⟩ : ∃ n', n = n' + 1 := ⟨n - 1, by omega⟩
    have hlt : r < m.objs.length := by
      have h1 := (List.getElem?_eq_some_iff.mp hr).1
      have h2 := hg.len
      unfold expected at h1
      omega
    obtain ⟨o, ho⟩ : ∃ o, m.objs[r]? = some o := ⟨_, List.getElem?_eq_getElem hlt⟩
    obtain ⟨v, hv, hsol, e⟩ := hg.obj r o ho
    have hvs : v = s := by
      have hr' : (h.foldl (expectStep (lastMin h) (lastMax h)) ([], [])).1[r]? = some s := hr
      rw [hr'] at hv
      exact (Option.some.inj hv).symm
    subst hvs
    rw [hb r o ho] at hsol
    have := solid_mono (look' := m.value n) (fun i s hi => by
      by_cases hir : i < r
      · rw [if_pos hir] at hi
        exact ih i hir s hi n (by omega)
      · rw [if_neg hir] at hi; cases hi) m.arrs o.kind v hsol
    simp only [Mem.value, ho, Option.bind_some, this, Option.map_some, e]

/-- **C73 (boxes).**  Nothing that happens later changes the box of an object, or takes the object away. -/
theorem C73_box (h h' : List Act) (m m' : Mem) (hm : Mem.run h = some m) (hm' : Mem.run (h ++ h') = some m') (r : ℕ) (b : Box3) (hb : m.box r = some b) :
    m'.box r = some b := by
  induction h' using List.reverseRecOn generalizing m' with
  | nil =>
    rw [List.append_nil, hm, Option.some.injEq] at hm'
    rwa [← hm']
  | append_singleton h' a ih =>
    rw [← List.append_assoc, run_append, Option.bind_eq_some_iff] at hm'
    obtain ⟨m1, hm1, ha⟩ := hm'
    have hb1 := ih m1 hm1
    unfold Mem.box at hb1 ⊢
    obtain ⟨o, ho, hob⟩ := Option.map_eq_some_iff.mp hb1
    have hlt := (List.getElem?_eq_some_iff.mp ho).1
    by_cases hk : ∃ k, a.kind = some k
    · obtain ⟨k, hk⟩ := hk
      rw [act_make m1 a k hk] at ha
      unfold Mem.make at ha
      split at ha
      · obtain ⟨s, -, rfl⟩ := Option.map_eq_some_iff.mp ha
        rw [List.getElem?_append_left hlt, ho, Option.map_some, hob]
      · cases ha
    · cases a with
      | list l => simp only [Mem.act, Option.some.injEq] at ha; subst ha; exact hb1
      | store b' i x =>
        simp only [Mem.act] at ha
        split at ha
        · rw [Option.some.injEq] at ha; subst ha; exact hb1
        · cases ha
      | setMin r' f =>
        simp only [Mem.act, Option.bind_eq_some_iff, Option.map_eq_some_iff] at ha
        obtain ⟨o', ho', k, -, rfl⟩ := ha
        by_cases he : r' = r
        · subst he
          rw [ho, Option.some.injEq] at ho'
          rw [List.getElem?_set_self hlt, ← ho', Option.map_some, hob]
        · rw [List.getElem?_set_ne he]; exact hb1
      | setMax r' f =>
        simp only [Mem.act, Option.bind_eq_some_iff, Option.map_eq_some_iff] at ha
        obtain ⟨o', ho', k, -, rfl⟩ := ha
        by_cases he : r' = r
        · subst he
          rw [ho, Option.some.injEq] at ho'
          rw [List.getElem?_set_self hlt, ← ho', Option.map_some, hob]
        · rw [List.getElem?_set_ne he]; exact hb1
      | _ => exact absurd ⟨_, rfl⟩ hk

theorem uses_solid (m : Mem) (r r' : ℕ) (k : Kind) (bb : Box3) (ho : m.objs[r']? = some ⟨k, bb⟩) (hu : ¬ m.Uses r r') (look look' : ℕ → Option SDF3)
    (h : ∀ i, ¬ m.Uses r i → look' i = look i) : k.solid look' m.arrs = k.solid look m.arrs := by
  cases k with
  | part s => rfl
  | step k s => simp only [Kind.solid, h s fun hs => hu (.step ho hs)]
  | rep k s mn => simp only [Kind.solid, h s fun hs => hu (.rep ho hs)]
  | diff s0 s1 mx => simp only [Kind.solid, h s0 fun hs => hu (.diff0 ho hs), h s1 fun hs => hu (.diff1 ho hs)]
  | inter s0 s1 mx => simp only [Kind.solid, h s0 fun hs => hu (.inter0 ho hs), h s1 fun hs => hu (.inter1 ho hs)]
  | union sl mn =>
    simp only [Kind.solid]
    rw [mapM_congr (f := fun x => x.bind look') (g := fun x => x.bind look) (elems m.arrs sl) fun x hx => by
      cases x with
      | none => rfl
      | some i => exact h i fun hs => hu (.union ho hx hs)]

/-- **C73 (setters).**  Setting the blend of an object changes nothing but that object and what is built from it: everything else keeps its value, in every
memory. -/
theorem C73_unrelated (m m' : Mem) (r : ℕ) (f : ℝ → ℝ → ℝ) (h : m.act (.setMin r f) = some m' ∨ m.act (.setMax r f) = some m') (n r' : ℕ) (hu : ¬ m.Uses r r') :
    m'.value n r' = m.value n r' := by
  obtain ⟨o, k, rfl⟩ : ∃ (o : Obj) (k : Kind), m' = ⟨m.objs.set r ⟨k, o.bb⟩, m.arrs⟩ := by
    rcases h with h | h <;> simp only [Mem.act, Option.bind_eq_some_iff, Option.map_eq_some_iff] at h <;> obtain ⟨o, -, k, -, e⟩ := h <;> exact ⟨o, k, e.symm⟩
  induction n generalizing r' with
  | zero => rfl
  | succ n ih =>
    simp only [Mem.value]
    have hne : r ≠ r' := fun he => hu (he ▸ .self)
    rw [List.getElem?_set_ne hne]
    cases ho : m.objs[r']? with
    | none => rfl
    | some o' =>
      obtain ⟨k', bb'⟩ := o'
      simp only [Option.bind_some]
      rw [uses_solid m r r' k' bb' ho hu (m.value n) _ fun i hi => ih i hi]

/-- A sphere as a part. -/
noncomputable def ball (r : ℝ) : SDF3 := ⟨fun p => V3.norm p - r, ⟨V3.scale (-1) ⟨r, r, r⟩, ⟨r, r, r⟩⟩⟩

theorem ball_eq (r : ℝ) (hr : 0 < r) : Must3.sphere r = some (ball r) := by
  unfold Must3.sphere
  rw [if_neg (by linarith)]
  rfl

/-- Two small spheres and a large one; the small ones are put in a list and joined. -/
noncomputable def joined : List Act := [.part (ball 1), .part (ball 1), .part (ball 10), .list [some 0, some 1], .union ⟨0, 0, 2⟩]

/-- The memory after that. -/
noncomputable def joinedMem (arr : List (Option ℕ)) : Mem :=
  ⟨[⟨.part (ball 1), (ball 1).bounds⟩, ⟨.part (ball 1), (ball 1).bounds⟩, ⟨.part (ball 10), (ball 10).bounds⟩,
    ⟨.union ⟨0, 0, 2⟩ min, (SDF3.unionWith min (ball 1) [ball 1]).bounds⟩], [arr]⟩

theorem joined_run : Mem.run joined = some (joinedMem [some 0, some 1]) := by
  simp [Mem.run, joined, Mem.act, Act.kind, Mem.make, Kind.Enough, Kind.solid, elems, Mem.box, joinedMem, SDF3.unionWith]

theorem joined_store (i : ℕ) (x : Option ℕ) (hi : i < 2) :
    Mem.run (joined ++ [.store 0 i x]) = some (joinedMem ([some 0, some 1].set i x)) := by
  rw [run_append, joined_run]
  simp [Mem.act, joinedMem, hi]

/-- **C73 (the claim that fails).**  `Union3D` keeps the slice it is given.  A program that uses the slice again after the union was made changes the union: here
a point that was outside is inside, and as the box is that of the old solids, it is outside the box of the solid it is in. -/
theorem C73_alias_wrong : Must3.sphere 1 = some (ball 1) ∧ Must3.sphere 10 = some (ball 10) ∧ ∃ m m' s s' p, Mem.run joined = some m ∧
    Mem.run (joined ++ [.store 0 1 (some 2)]) = some m' ∧ (∀ n, 4 ≤ n → m.value n 3 = some s ∧ m'.value n 3 = some s') ∧
    0 < s.eval p ∧ s'.eval p < 0 ∧ ¬ s'.bounds.Contains p := by
  refine ⟨ball_eq 1 (by norm_num), ball_eq 10 (by norm_num), _, _, SDF3.unionWith min (ball 1) [ball 1],
    ⟨(SDF3.unionWith min (ball 1) [ball 10]).eval, (SDF3.unionWith min (ball 1) [ball 1]).bounds⟩, ⟨5, 0, 0⟩, joined_run,
    joined_store 1 (some 2) (by norm_num), ?_, ?_, ?_, ?_⟩
  · intro n hn
    obtain ⟨n, rfl⟩ : ∃ n', n = n' + 4 := ⟨n - 4, by omega⟩
    constructor <;> simp [Mem.value, joinedMem, Kind.solid, elems]
  · have : V3.norm ⟨5, 0, 0⟩ = 5 := by
      simp only [V3.norm]
      rw [show (5 : ℝ) * 5 + 0 * 0 + 0 * 0 = 5 ^ 2 by norm_num]
      exact Real.sqrt_sq (by norm_num)
    simp only [SDF3.unionWith, ball, List.foldl_cons, List.foldl_nil, this]
    norm_num
  · have : V3.norm ⟨5, 0, 0⟩ = 5 := by
      simp only [V3.norm]
      rw [show (5 : ℝ) * 5 + 0 * 0 + 0 * 0 = 5 ^ 2 by norm_num]
      exact Real.sqrt_sq (by norm_num)
    simp only [SDF3.unionWith, ball, List.foldl_cons, List.foldl_nil, this]
    norm_num
  · simp only [SDF3.unionWith, ball, List.foldl_cons, List.foldl_nil, Box3.Contains, Box3.extend, V3.maxElem, V3.minElem, max_self, min_self]
    intro h
    have := h.2.2
    norm_num at h

/-- **C73 (the claim that fails, continued).**  Storing the union itself in its own slice makes its evaluation go on forever. -/
theorem C73_cycle_wrong : ∃ m, Mem.run (joined ++ [.store 0 0 (some 3)]) = some m ∧ ∀ n, m.value n 3 = none := by
  refine ⟨_, joined_store 0 (some 3) (by norm_num), fun n => ?_⟩
  induction n with
  | zero => rfl
  | succ n ih =>
    simp only [Mem.value]
    simp [joinedMem, Kind.solid, elems]
    have ih' : (joinedMem [some 3, some 1]).value n 3 = none := ih
    simp only [joinedMem] at ih'
    simp [ih']

/-- The points a polygon works with are those of the slice, closed; of the array the slice is part of, only the element after the slice can change, and it
does not if the slice has no room to grow. -/
theorem C73_polygon_partial (arr : List V2) (sl : Points) (v0 : V2) (vs : List V2) (hv : (arr.drop sl.off).take sl.len = v0 :: vs) :
    (closePoints arr sl).1 = Must2.closeLoop v0 (v0 :: vs) ∧ (∀ i, i ≠ sl.off + sl.len → (closePoints arr sl).2[i]? = arr[i]?) ∧
    (sl.cap ≤ sl.len → (closePoints arr sl).2 = arr) := by
  unfold closePoints Must2.closeLoop
  simp only [hv, List.headD_cons]
  by_cases h : V2.EqualWithin v0 ((v0 :: vs).getLastD v0) Must2.tolerance
  · rw [if_neg (not_not.mpr h), if_neg (not_not.mpr h)]
    exact ⟨rfl, fun _ _ => rfl, fun _ => rfl⟩
  · rw [if_pos h, if_pos h]
    refine ⟨rfl, fun i hi => ?_, fun hc => ?_⟩
    · simp only
      split
      · rw [List.getElem?_set_ne (Ne.symm hi)]
      · rfl
    · simp only
      rw [if_neg (by omega)]

/-- **C73 (the claim that fails, continued).**  `Polygon` on the first three of four points of an array replaces the caller's fourth point. -/
theorem C73_polygon_overwrites_wrong : (closePoints [⟨0, 0⟩, ⟨1, 0⟩, ⟨0, 1⟩, ⟨7, 7⟩] ⟨0, 3, 4⟩).2 = [⟨0, 0⟩, ⟨1, 0⟩, ⟨0, 1⟩, ⟨0, 0⟩] := by
  unfold closePoints
  have h : ¬ V2.EqualWithin ⟨0, 0⟩ ⟨0, 1⟩ Must2.tolerance := by
    simp only [V2.EqualWithin, Must2.tolerance]
    norm_num
  simp [h]

/-- A program that meets the hypotheses of `C73_history_partial` and does something. -/
example : Spares (joined ++ [.setMin 3 max, .setMin 3 (fun a b => min a b - 1)]) ∧
    ∃ m, Mem.run (joined ++ [.setMin 3 max, .setMin 3 (fun a b => min a b - 1)]) = some m ∧
      (expected (joined ++ [.setMin 3 max, .setMin 3 (fun a b => min a b - 1)]))[3]? = some (SDF3.unionWith (fun a b => min a b - 1) (ball 1) [ball 1]) := by
  refine ⟨?_, ?_⟩
  · intro h1 h2 h3 sl a i x e
    have : Act.store a i x ∈ joined ++ [.setMin 3 max, .setMin 3 (fun a b => min a b - 1)] := by rw [e]; simp
    simp [joined] at this
  · have e : joined ++ [.setMin 3 max, .setMin 3 (fun a b => min a b - 1)] =
        (joined ++ [.setMin 3 max]) ++ [.setMin 3 (fun a b => min a b - 1)] := by simp
    refine ⟨⟨[⟨.part (ball 1), (ball 1).bounds⟩, ⟨.part (ball 1), (ball 1).bounds⟩, ⟨.part (ball 10), (ball 10).bounds⟩,
      ⟨.union ⟨0, 0, 2⟩ fun a b => min a b - 1, (SDF3.unionWith min (ball 1) [ball 1]).bounds⟩], [[some 0, some 1]]⟩, ?_, ?_⟩
    · rw [e, run_append, run_append, joined_run]
      simp [Mem.act, joinedMem, Kind.withMin]
    · simp [expected, joined, expectStep, lastMin]

end Sdf.Heap
