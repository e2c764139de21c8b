import Verif.Lemmas.PolygonBuilder
import Verif.Lemmas.Fillet
import Verif.Spec.Polygon
import Verif.Spec.PolygonBuilder

/-!
C32: the polygon builder.  `Vertices` always terminates; it does not panic when the first vertex of an open polygon is
absolute and facet counts are positive; it is stable, keeps plain vertices in order and places facets on the fillet or
arc.  An open polygon starting with a relative vertex panics (`C32_relative_first_panics`).
-/

namespace Sdf
open Must2

/-- `Vertices` terminates for every builder: some number of passes is enough, and so is any larger one. -/
theorem C32_terminates (b : Builder) : ∃ n, ∀ fuel ≥ n, b.vertices fuel ≠ .outOfFuel := by
  by_cases hnil : b.isNil = true
  · exact ⟨0, fun fuel _ => by rw [Builder.vertices, if_pos hnil]; simp⟩
  have key : ∃ n, ∀ fuel ≥ n, b.fixups fuel ≠ .outOfFuel := by
    unfold Builder.fixups
    rcases hr : b.relToAbs with _ | ⟨b1, f⟩
    · exact ⟨0, fun fuel _ => by simp⟩
    · -- enough for the arcs, and for the smoothing of whatever vertices there are
      refine ⟨b1.cnt .arc + b1.cnt .smooth + 1, fun fuel hf => ?_⟩
      simp only
      split
      · rename_i b2 h2
        refine passes_terminates smoothVertex_lowers fuel b2 ?_
        have : b2.cnt .smooth ≤ b1.cnt .smooth := by
          refine passes_inv (fun b => b.cnt .smooth ≤ b1.cnt .smooth) ?_ fuel b1 b2 h2 le_rfl
          intro b i b' r h hb
          refine le_trans ?_ hb
          obtain ⟨A, v, B, hl, _, _, _, _, h⟩ := arcVertex_cases h
          unfold Builder.cnt
          rcases h with ⟨_, rfl, rfl⟩ | ⟨hv, rfl, hb⟩ | ⟨hv, rfl, _, pv, hb⟩
          · exact le_rfl
          · rw [hb, hl]; simp [hv]
          · rw [hb, hl]
            have := countP_normal (arcPoints_normal pv v.vertex v.radius v.facets).1 .smooth (by simp)
            simp only [List.countP_append, List.countP_cons, this]
            simp [hv]
        omega
      · rename_i r h2
        exact passes_terminates arcVertex_lowers fuel b1 (by omega)
  obtain ⟨n, hn⟩ := key
  refine ⟨n, fun fuel hf => ?_⟩
  rw [Builder.vertices, if_neg hnil]
  have := hn fuel hf
  split
  · simp
  · simp
  · rename_i h; exact absurd h this

theorem resolve_cons_abs (p : V2) (v : PV) (vs : List PV) (h : v.relative = false) :
    resolve p (v :: vs) = v :: resolve v.vertex vs := by
  cases v
  simp only at h
  subst h
  rfl

/-- From index `i ≥ 1` on, `relToAbs` resolves every vertex against its predecessor. -/
theorem relToAbsFrom_resolve (rest : List PV) : ∀ (b : Builder) (done : List PV) (pv : PV), b.vlist = done ++ pv :: rest →
    pv.relative = false →
    b.relToAbsFrom (done.length + 1) rest.length = some ({ b with vlist := done ++ pv :: resolve pv.vertex rest }, true) := by
  induction rest with
  | nil =>
    intro b done pv hb _
    simp [Builder.relToAbsFrom, resolve, ← hb]
  | cons v rest ih =>
    intro b done pv hb hpv
    rw [List.length_cons, Builder.relToAbsFrom]
    have e1 : b.vlist[done.length + 1]? = some v := by rw [hb]; simp
    have e2 : b.prevVertex (done.length + 1) = some pv := by
      rw [Builder.prevVertex, if_neg (by omega), hb]; simp
    rw [e1]
    simp only [e2]
    by_cases hv : v.relative = true
    · rw [if_pos hv, hpv, if_neg (by simp)]
      have hs : b.vlist.set (done.length + 1) { v with vertex := V2.add v.vertex pv.vertex, relative := false } =
          (done ++ [pv]) ++ { v with vertex := V2.add v.vertex pv.vertex, relative := false } :: rest := by
        rw [hb, List.set_append_right _ _ (by omega)]; simp
      rw [hs]
      have := ih { b with vlist := (done ++ [pv]) ++ { v with vertex := V2.add v.vertex pv.vertex, relative := false } :: rest }
        (done ++ [pv]) { v with vertex := V2.add v.vertex pv.vertex, relative := false } rfl rfl
      simp only [List.length_append, List.length_cons, List.length_nil] at this
      rw [this]
      simp [resolve, hv]
    · rw [if_neg hv]
      have hv' : v.relative = false := by simpa using hv
      have := ih b (done ++ [pv]) v (by rw [hb]; simp) hv'
      simp only [List.length_append, List.length_cons, List.length_nil] at this
      rw [this]
      rw [resolve_cons_abs _ _ _ hv']
      simp

/-- Relative vertices are resolved against their predecessors whenever that is possible at all. -/
theorem C32_relative (b : Builder) (h : b.Resolvable) :
    b.relToAbs = some ({ b with vlist := resolve b.start b.vlist }, true) := by
  unfold Builder.relToAbs
  rcases hl : b.vlist with _ | ⟨v, vs⟩
  · rcases h with ⟨v, hv, _⟩ | ⟨_, v, hv, _⟩ <;> simp [hl] at hv
  · rw [List.length_cons, Builder.relToAbsFrom]
    have e1 : b.vlist[0]? = some v := by rw [hl]; rfl
    rw [e1]
    simp only
    by_cases hv : v.relative = true
    · rw [if_pos hv]
      rcases h with ⟨w, hw, hr⟩ | ⟨hc, w, hw, hr⟩
      · rw [hl] at hw
        simp at hw
        rw [hw] at hv; simp [hv] at hr
      · have e2 : b.prevVertex 0 = some w := by
          rw [Builder.prevVertex, if_pos rfl, if_pos hc, ← List.getLast?_eq_getElem?]; exact hw
        simp only [e2]
        rw [hr, if_neg (by simp)]
        have hs : b.vlist.set 0 { v with vertex := V2.add v.vertex w.vertex, relative := false } =
            [] ++ { v with vertex := V2.add v.vertex w.vertex, relative := false } :: vs := by rw [hl]; rfl
        rw [hs]
        have := relToAbsFrom_resolve vs { b with vlist := [] ++ { v with vertex := V2.add v.vertex w.vertex, relative := false } :: vs }
          [] { v with vertex := V2.add v.vertex w.vertex, relative := false } rfl rfl
        simp only [List.length_nil] at this
        rw [this]
        simp [resolve, hv, Builder.start, hw]
    · have hv' : v.relative = false := by simpa using hv
      rw [if_neg hv]
      have := relToAbsFrom_resolve vs b [] v (by rw [hl]; rfl) hv'
      simp only [List.length_nil] at this
      rw [this]
      rw [resolve_cons_abs _ _ _ hv']
      simp

theorem resolve_absolute (l : List PV) : ∀ p, ∀ v ∈ resolve p l, v.relative = false := by
  induction l with
  | nil => simp [resolve]
  | cons v l ih =>
    intro p w hw
    rw [resolve, List.mem_cons] at hw
    rcases hw with rfl | hw
    · rfl
    · exact ih _ w hw

theorem resolve_valid (l : List PV) (h : ∀ v ∈ l, v.Valid) : ∀ p, ∀ v ∈ resolve p l, v.Valid := by
  induction l with
  | nil => simp [resolve]
  | cons v l ih =>
    intro p w hw
    rw [resolve, List.mem_cons] at hw
    rcases hw with rfl | hw
    · exact h v List.mem_cons_self
    · exact ih (fun x hx => h x (List.mem_cons_of_mem _ hx)) _ w hw

theorem resolve_length (l : List PV) : ∀ p, (resolve p l).length = l.length := by
  induction l with
  | nil => simp [resolve]
  | cons v l ih => intro p; simp [resolve, ih]

theorem resolve_plain (l : List PV) (h : ∀ v ∈ l, v.relative = false) (p : V2) : resolve p l = l := by
  induction l generalizing p with
  | nil => rfl
  | cons v l ih =>
    rw [resolve_cons_abs _ _ _ (h v List.mem_cons_self), ih (fun x hx => h x (List.mem_cons_of_mem _ hx))]

theorem arcVertex_total (b : Builder) (i : ℕ) (hb : ∀ v ∈ b.vlist, v.Valid) (hi : i < b.vlist.length) :
    ∃ b' r, b.arcVertex i = some (b', r) ∧ (∀ v ∈ b'.vlist, v.Valid) ∧ b.vlist.length ≤ b'.vlist.length := by
  have hex : ∃ b' r, b.arcVertex i = some (b', r) := by
    unfold Builder.arcVertex
    rw [List.getElem?_eq_getElem hi]
    simp only
    split
    · exact ⟨_, _, rfl⟩
    · rename_i hne
      split
      · exact ⟨_, _, rfl⟩
      · split
        · rename_i hf
          rcases hb _ (List.getElem_mem hi) with h | h
          · rw [h] at hne; simp at hne
          · omega
        · exact ⟨_, _, rfl⟩
  obtain ⟨b', r, h⟩ := hex
  refine ⟨b', r, h, ?_⟩
  obtain ⟨A, v, B, hl, _, _, _, _, h⟩ := arcVertex_cases h
  rcases h with ⟨_, rfl, rfl⟩ | ⟨hv, rfl, hb'⟩ | ⟨hv, rfl, hf, pv, hb'⟩
  · exact ⟨hb, le_rfl⟩
  · rw [hb', hl]
    refine ⟨fun w hw => ?_, by simp⟩
    rw [List.mem_append, List.mem_cons] at hw
    rcases hw with hw | rfl | hw
    · exact hb w (by rw [hl]; simp [hw])
    · exact Or.inl rfl
    · exact hb w (by rw [hl]; simp [hw])
  · rw [hb', hl]
    refine ⟨fun w hw => ?_, by simp⟩
    rw [List.mem_append, List.mem_append, List.mem_cons] at hw
    rcases hw with hw | hw | rfl | hw
    · exact hb w (by rw [hl]; simp [hw])
    · exact Or.inl ((arcPoints_normal _ _ _ _).1 w hw).2
    · exact Or.inl rfl
    · exact hb w (by rw [hl]; simp [hw])

theorem smoothVertex_total (b : Builder) (i : ℕ) (hb : ∀ v ∈ b.vlist, v.Valid) (hi : i < b.vlist.length) :
    ∃ b' r, b.smoothVertex i = some (b', r) ∧ (∀ v ∈ b'.vlist, v.Valid) ∧ b.vlist.length ≤ b'.vlist.length := by
  have hex : ∃ b' r, b.smoothVertex i = some (b', r) := by
    unfold Builder.smoothVertex
    rw [List.getElem?_eq_getElem hi]
    simp only
    split
    · exact ⟨_, _, rfl⟩
    · rename_i hne
      split
      · split
        · exact ⟨_, _, rfl⟩
        · split
          · rename_i hf
            rcases hb _ (List.getElem_mem hi) with h | h
            · rw [h] at hne; simp at hne
            · omega
          · exact ⟨_, _, rfl⟩
      · exact ⟨_, _, rfl⟩
  obtain ⟨b', r, h⟩ := hex
  refine ⟨b', r, h, ?_⟩
  obtain ⟨A, v, B, hl, _, h⟩ := smoothVertex_cases h
  rcases h with ⟨rfl, rfl⟩ | ⟨hv, rfl, hf, _, _, _, vp, vn, pts, hp, hb'⟩
  · exact ⟨hb, le_rfl⟩
  · have hv1 : 1 ≤ v.facets := by
      rcases hb v (by rw [hl]; simp) with h | h
      · rw [h] at hv; simp at hv
      · exact h
    have hlen := (smoothPoints_normal hp).2
    rw [hb', hl]
    refine ⟨fun w hw => ?_, by simp [hlen]; omega⟩
    rw [List.mem_append, List.mem_append] at hw
    rcases hw with hw | hw | hw
    · exact hb w (by rw [hl]; simp [hw])
    · exact Or.inl ((smoothPoints_normal hp).1 w hw).2
    · exact hb w (by rw [hl]; simp [hw])

/-- `Vertices` neither panics nor runs for ever when at least one vertex was added, relative vertices can be resolved and
facet counts are positive. -/
theorem C32_no_panic_partial (b : Builder) (hn : b.isNil = false) (hr : b.Resolvable) (hv : ∀ v ∈ b.vlist, v.Valid) :
    ∃ n, ∀ fuel ≥ n, ∃ vs b', b.vertices fuel = .ok (vs, b') := by
  obtain ⟨n, hterm⟩ := C32_terminates b
  refine ⟨n, fun fuel hf => ?_⟩
  have h1 := hterm fuel hf
  have hp : b.fixups fuel ≠ .panic := by
    unfold Builder.fixups
    rw [C32_relative b hr]
    simp only
    have hv1 : ∀ v ∈ ({ b with vlist := resolve b.start b.vlist } : Builder).vlist, v.Valid := resolve_valid _ hv _
    split
    · rename_i b2 h2
      refine passes_total (fun b => ∀ v ∈ b.vlist, v.Valid) smoothVertex_total fuel b2 ?_
      refine passes_inv (fun b => ∀ v ∈ b.vlist, v.Valid) ?_ fuel _ b2 h2 hv1
      intro b i b' r h hb
      have hi : i < b.vlist.length := by
        obtain ⟨A, v, B, hl, hA, _⟩ := arcVertex_cases h
        rw [hl]; simp; omega
      obtain ⟨b'', r', h', hb', _⟩ := arcVertex_total b i hb hi
      rw [h] at h'
      simp only [Option.some.injEq, Prod.mk.injEq] at h'
      rw [h'.1]; exact hb'
    · rename_i r h2
      exact passes_total (fun b => ∀ v ∈ b.vlist, v.Valid) arcVertex_total fuel _ hv1
  unfold Builder.vertices at h1 ⊢
  rw [hn, if_neg (by simp)] at h1 ⊢
  rcases hfx : b.fixups fuel with b' | _ | _
  · exact ⟨_, _, rfl⟩
  · exact absurd hfx hp
  · rw [hfx] at h1; simp at h1

/-- An open polygon whose first vertex is relative makes `Vertices` panic (nil dereference), whatever follows. -/
theorem C32_relative_first_panics (x : V2) (vs : List PV) (fuel : ℕ) :
    Builder.vertices fuel ⟨false, false, false, (PV.plain x).rel :: vs⟩ = .panic := by
  simp [Builder.vertices, Builder.fixups, Builder.relToAbs, Builder.relToAbsFrom, PV.rel, PV.plain, Builder.prevVertex]

/-- A pass that reports no change has turned every visited arc into a plain vertex, and did nothing else. -/
theorem pass_arc_false (is : List ℕ) : ∀ (b b' : Builder), pass Builder.arcVertex is b = some (b', false) →
    b'.vlist.length = b.vlist.length ∧ ∀ j v, b'.vlist[j]? = some v → v.vtype = .arc → j ∉ is := by
  induction is with
  | nil =>
    intro b b' h
    simp only [pass, Option.some.injEq, Prod.mk.injEq] at h
    rw [h.1]; exact ⟨rfl, by simp⟩
  | cons i is ih =>
    intro b b' h
    rw [pass] at h
    split at h
    · simp at h
    · rename_i b1 r1 h1
      split at h
      · simp at h
      · rename_i b2 r2 h2
        simp only [Option.some.injEq, Prod.mk.injEq, Bool.or_eq_false_iff] at h
        obtain ⟨rfl, rfl, rfl⟩ := h
        obtain ⟨hlen, hno⟩ := ih b1 b2 h2
        obtain ⟨A, v, B, hl, hA, _, _, _, hc⟩ := arcVertex_cases h1
        have hi : ∀ w, b1.vlist[i]? = some w → w.vtype ≠ .arc := by
          rcases hc with ⟨hv, rfl, _⟩ | ⟨hv, _, hb⟩ | ⟨_, h, _⟩
          · intro w hw
            rw [hl, ← hA] at hw; simp at hw
            rw [← hw]; exact hv
          · intro w hw
            rw [hb, ← hA] at hw; simp at hw
            rw [← hw]; simp
          · simp at h
        have hlen1 : b1.vlist.length = b.vlist.length := by
          rcases hc with ⟨hv, rfl, _⟩ | ⟨hv, _, hb⟩ | ⟨_, h, _⟩
          · rfl
          · rw [hb, hl]; simp
          · simp at h
        refine ⟨hlen.trans hlen1, fun j w hw hwt hj => ?_⟩
        rcases List.mem_cons.mp hj with rfl | hj
        · -- arcs are never created
          have : ∀ (is : List ℕ) (c c' : Builder), pass Builder.arcVertex is c = some (c', false) →
              (∀ w, c.vlist[j]? = some w → w.vtype ≠ .arc) → ∀ w, c'.vlist[j]? = some w → w.vtype ≠ .arc := by
            intro is
            induction is with
            | nil =>
              intro c c' h hc
              simp only [pass, Option.some.injEq, Prod.mk.injEq] at h
              rw [← h.1]; exact hc
            | cons k is ih =>
              intro c c' h hc
              rw [pass] at h
              split at h
              · simp at h
              · rename_i c1 s1 g1
                split at h
                · simp at h
                · rename_i c2 s2 g2
                  simp only [Option.some.injEq, Prod.mk.injEq, Bool.or_eq_false_iff] at h
                  obtain ⟨rfl, rfl, rfl⟩ := h
                  refine ih c1 c2 g2 ?_
                  obtain ⟨A, v, B, hl, hA, _, _, _, hcc⟩ := arcVertex_cases g1
                  rcases hcc with ⟨hv, rfl, _⟩ | ⟨hv, _, hb⟩ | ⟨_, h, _⟩
                  · exact hc
                  · intro w hw
                    rw [hb] at hw
                    rcases Nat.lt_trichotomy j A.length with h | h | h
                    · rw [List.getElem?_append_left h] at hw
                      exact hc w (by rw [hl, List.getElem?_append_left h]; exact hw)
                    · rw [h] at hw; simp at hw; rw [← hw]; simp
                    · rw [List.getElem?_append_right h.le] at hw
                      refine hc w ?_
                      rw [hl, List.getElem?_append_right h.le]
                      obtain ⟨k, hk⟩ : ∃ k, j - A.length = k + 1 := ⟨j - A.length - 1, by omega⟩
                      rw [hk, List.getElem?_cons_succ] at hw ⊢
                      exact hw
                  · simp at h
          exact this is b1 b2 h2 hi w hw hwt
        · exact hno j w hw hwt hj

theorem pass_smooth_false (is : List ℕ) : ∀ (b b' : Builder), pass Builder.smoothVertex is b = some (b', false) → b' = b := by
  induction is with
  | nil =>
    intro b b' h
    simp only [pass, Option.some.injEq, Prod.mk.injEq] at h
    exact h.1.symm
  | cons i is ih =>
    intro b b' h
    rw [pass] at h
    split at h
    · simp at h
    · rename_i b1 r1 h1
      split at h
      · simp at h
      · rename_i b2 r2 h2
        simp only [Option.some.injEq, Prod.mk.injEq, Bool.or_eq_false_iff] at h
        obtain ⟨rfl, rfl, rfl⟩ := h
        obtain ⟨A, v, B, hl, hA, hc⟩ := smoothVertex_cases h1
        rcases hc with ⟨rfl, _⟩ | ⟨_, h, _⟩
        · exact ih _ _ h2
        · simp at h

theorem pass_arc_none (b : Builder) (hb : ∀ v ∈ b.vlist, v.vtype ≠ .arc) (is : List ℕ) (hi : ∀ i ∈ is, i < b.vlist.length) :
    pass Builder.arcVertex is b = some (b, false) := by
  induction is with
  | nil => rfl
  | cons i is ih =>
    have h1 : b.arcVertex i = some (b, false) := by
      have hi := hi i List.mem_cons_self
      unfold Builder.arcVertex
      rw [List.getElem?_eq_getElem hi]
      simp only
      rw [if_pos (hb _ (List.getElem_mem hi))]
    rw [pass, h1]
    simp only [ih fun j hj => hi j (List.mem_cons_of_mem _ hj)]
    rfl

theorem relToAbsFrom_absolute (b : Builder) (hb : ∀ v ∈ b.vlist, v.relative = false) (n : ℕ) : ∀ i, i + n ≤ b.vlist.length →
    b.relToAbsFrom i n = some (b, true) := by
  induction n with
  | zero => intro i _; rfl
  | succ n ih =>
    intro i hi
    rw [Builder.relToAbsFrom, List.getElem?_eq_getElem (by omega)]
    simp only
    rw [hb _ (List.getElem_mem _), if_neg (by simp)]
    exact ih (i + 1) (by omega)

/-- Calling `Vertices` again gives the same vertices (and leaves the builder as it is), whenever the relative vertices
could be resolved. -/
theorem C32_stable (b b' : Builder) (fuel : ℕ) (vs : List V2) (hr : b.Resolvable) (h : b.vertices fuel = .ok (vs, b')) :
    b'.vertices fuel = .ok (vs, b') := by
  unfold Builder.vertices at h ⊢
  by_cases hn : b.isNil = true
  · rw [if_pos hn] at h; simp at h
  rw [if_neg hn] at h
  rcases hfx : b.fixups fuel with c | _ | _
  · rw [hfx] at h
    simp only [Outcome.ok.injEq, Prod.mk.injEq] at h
    obtain ⟨hvs, rfl⟩ := h
    unfold Builder.fixups at hfx
    rw [C32_relative b hr] at hfx
    simp only at hfx
    split at hfx
    · rename_i b2 h2
      -- facts about the final state
      have hrel2 : (∀ v ∈ b2.vlist, v.relative = false) ∧ b2.isNil = b.isNil := by
        refine passes_inv (fun c => (∀ v ∈ c.vlist, v.relative = false) ∧ c.isNil = b.isNil) ?_ fuel _ b2 h2
          ⟨resolve_absolute _ _, rfl⟩
        intro c i c' r hstep hc
        obtain ⟨A, v, B, hl, _, _, _, hnil, hh⟩ := arcVertex_cases hstep
        refine ⟨?_, hnil.trans hc.2⟩
        rcases hh with ⟨_, rfl, rfl⟩ | ⟨hv, rfl, hb'⟩ | ⟨hv, rfl, hf, pv, hb'⟩
        · exact hc.1
        · rw [hb']
          intro w hw
          rw [List.mem_append, List.mem_cons] at hw
          rcases hw with hw | rfl | hw
          · exact hc.1 w (by rw [hl]; simp [hw])
          · exact hc.1 v (by rw [hl]; simp)
          · exact hc.1 w (by rw [hl]; simp [hw])
        · rw [hb']
          intro w hw
          rw [List.mem_append, List.mem_append, List.mem_cons] at hw
          rcases hw with hw | hw | rfl | hw
          · exact hc.1 w (by rw [hl]; simp [hw])
          · exact ((arcPoints_normal _ _ _ _).1 w hw).1
          · exact hc.1 v (by rw [hl]; simp)
          · exact hc.1 w (by rw [hl]; simp [hw])
      have harc2 : ∀ v ∈ b2.vlist, v.vtype ≠ .arc := by
        obtain ⟨b1, h1⟩ := passes_last fuel _ _ h2
        obtain ⟨hlen, hno⟩ := pass_arc_false _ _ _ h1
        intro v hv hva
        obtain ⟨j, hj⟩ := List.mem_iff_getElem?.mp hv
        have hjl := (List.getElem?_eq_some_iff.mp hj).1
        exact hno j v hj hva (List.mem_range.mpr (by omega))
      have hfin : (∀ v ∈ c.vlist, v.relative = false) ∧ (∀ v ∈ c.vlist, v.vtype ≠ .arc) ∧ c.isNil = b.isNil := by
        refine passes_inv (fun c => (∀ v ∈ c.vlist, v.relative = false) ∧ (∀ v ∈ c.vlist, v.vtype ≠ .arc) ∧ c.isNil = b.isNil)
          ?_ fuel b2 c hfx ⟨hrel2.1, harc2, hrel2.2⟩
        intro c i c' r hstep hc
        obtain ⟨A, v, B, hl, _, hh⟩ := smoothVertex_cases hstep
        rcases hh with ⟨rfl, rfl⟩ | ⟨hv, rfl, hf, _, _, hnil, vp, vn, pts, hp, hb'⟩
        · exact hc
        · have hn := (smoothPoints_normal hp).1
          rw [hb']
          refine ⟨fun w hw => ?_, fun w hw => ?_, hnil.trans hc.2.2⟩
          · rw [List.mem_append, List.mem_append] at hw
            rcases hw with hw | hw | hw
            · exact hc.1 w (by rw [hl]; simp [hw])
            · exact (hn w hw).1
            · exact hc.1 w (by rw [hl]; simp [hw])
          · rw [List.mem_append, List.mem_append] at hw
            rcases hw with hw | hw | hw
            · exact hc.2.1 w (by rw [hl]; simp [hw])
            · rw [(hn w hw).2]; simp
            · exact hc.2.1 w (by rw [hl]; simp [hw])
      have hsm : pass Builder.smoothVertex (List.range c.vlist.length) c = some (c, false) := by
        obtain ⟨b1, h1⟩ := passes_last fuel _ _ hfx
        have := pass_smooth_false _ _ _ h1
        subst this
        exact h1
      rw [if_neg (by rw [hfin.2.2]; exact hn)]
      have : c.fixups fuel = .ok c := by
        unfold Builder.fixups Builder.relToAbs
        rw [relToAbsFrom_absolute c hfin.1 _ 0 (by omega)]
        simp only
        have hf : ∃ k, fuel = k + 1 := by
          cases fuel with
          | zero => simp [passes] at h2
          | succ k => exact ⟨k, rfl⟩
        obtain ⟨k, rfl⟩ := hf
        have e1 : passes Builder.arcVertex (k + 1) c = .ok c := by
          rw [passes, pass_arc_none c hfin.2.1 _ (by simp)]
        rw [e1]
        simp only
        rw [passes, hsm]
      rw [this]
      simp only [hvs]
    · rename_i r h2
      rw [hfx] at h2
      exact absurd rfl (h2 c)
  · rw [hfx] at h; simp at h
  · rw [hfx] at h; simp at h

/-- The side directions of a corner. -/
theorem corner_units {vp v vn : V2} (hnd : V2.cross (V2.sub vp v) (V2.sub vn v) ≠ 0) :
    0 < V2.norm (V2.sub vp v) ∧ 0 < V2.norm (V2.sub vn v) ∧
    V2.dot (V2.unit (V2.sub vp v)) (V2.unit (V2.sub vp v)) = 1 ∧ V2.dot (V2.unit (V2.sub vn v)) (V2.unit (V2.sub vn v)) = 1 ∧
    V2.cross (V2.unit (V2.sub vn v)) (V2.unit (V2.sub vp v)) ≠ 0 := by
  generalize V2.sub vp v = a at *
  generalize V2.sub vn v = b at *
  have ha : 0 < V2.norm a := by
    refine lt_of_le_of_ne (V2.norm_nonneg a) fun h => hnd ?_
    have := V2.norm_eq_zero.mp h.symm
    rw [this]; simp [V2.cross]
  have hb : 0 < V2.norm b := by
    refine lt_of_le_of_ne (V2.norm_nonneg b) fun h => hnd ?_
    have := V2.norm_eq_zero.mp h.symm
    rw [this]; simp [V2.cross]
  refine ⟨ha, hb, unit_dot_self ha.ne', unit_dot_self hb.ne', ?_⟩
  have : V2.cross (V2.unit b) (V2.unit a) = -(V2.cross a b) / (V2.norm a * V2.norm b) := by
    simp only [V2.cross, V2.unit, V2.scale]
    field_simp
    ring
  rw [this]
  exact div_ne_zero (neg_ne_zero.mpr hnd) (by positivity)

/-- A smoothed corner `vp`, `v`, `vn` is replaced by `facets + 1` equally spaced points of a circular arc of the given
radius that starts on one side, ends on the other and is tangent to both there; the last equation gives the distance of
the tangent points from the corner. -/
theorem C32_smooth (vp v vn : V2) (r : ℝ) (f : ℤ) (hr : 0 < r) (hf : 1 ≤ f)
    (hnd : V2.cross (V2.sub vp v) (V2.sub vn v) ≠ 0) (pts : List PV) (h : smoothPoints vp v vn r f = some pts) :
    ∃ (c P Q : V2) (a : ℝ), |f * a| < Real.pi ∧
      pts = (List.range (f + 1).toNat).map (fun k : ℕ => PV.plain (turn c (k * a) P)) ∧ turn c (f * a) P = Q ∧
      V2.dist P c = r ∧
      Polygon.OnSegment v vp P ∧ V2.dot (V2.sub P c) (V2.sub vp v) = 0 ∧
      Polygon.OnSegment v vn Q ∧ V2.dot (V2.sub Q c) (V2.sub vn v) = 0 ∧
      V2.dist P v * |V2.cross (V2.sub vp v) (V2.sub vn v)| =
        r * (V2.dist vp v * V2.dist vn v + V2.dot (V2.sub vp v) (V2.sub vn v)) := by
  obtain ⟨hA, hB, hu, hw, hS⟩ := corner_units hnd
  obtain ⟨e1, e2, e3, e4⟩ := fillet _ _ hu hw hS r
  unfold V2.dist
  unfold smoothPoints at h
  dsimp only at h
  split at h
  · simp at h
  rename_i hfit
  simp only [not_or, not_lt] at hfit
  simp only [Option.some.injEq] at h
  rw [rotatePoints_eq] at h
  rw [e1] at hfit h
  rw [e2] at h
  have hSa : 0 < |V2.cross (V2.unit (V2.sub vn v)) (V2.unit (V2.sub vp v))| := abs_pos.mpr hS
  set A := V2.norm (V2.sub vp v) with hAd
  set B := V2.norm (V2.sub vn v) with hBd
  have ea : V2.sub vp v = V2.scale A (V2.unit (V2.sub vp v)) := by
    rw [V2.unit, ← hAd]
    simp only [V2.scale, V2.sub, V2.mk.injEq]
    constructor <;> field_simp
  have eb : V2.sub vn v = V2.scale B (V2.unit (V2.sub vn v)) := by
    rw [V2.unit, ← hBd]
    simp only [V2.scale, V2.sub, V2.mk.injEq]
    constructor <;> field_simp
  generalize V2.unit (V2.sub vp v) = u at *
  generalize V2.unit (V2.sub vn v) = w at *
  set S := V2.cross w u with hSd
  set C := V2.dot u w with hCd
  set θ := Real.arccos C with hθ
  have h1 : C ^ 2 + S ^ 2 = 1 := by
    rw [hCd, hSd]; simp only [V2.dot, V2.cross] at hu hw ⊢
    linear_combination (w.x * w.x + w.y * w.y) * hu + hw
  have hCl : -1 < C := by
    have : 0 < S ^ 2 := by positivity
    nlinarith
  have hCu : C < 1 := by
    have : 0 < S ^ 2 := by positivity
    nlinarith
  have hf0 : (f : ℝ) ≠ 0 := by
    have : (1 : ℝ) ≤ f := by exact_mod_cast hf
    positivity
  have hfa : (f : ℝ) * (sign S * (Real.pi - θ) / f) = sign S * (Real.pi - θ) := by field_simp
  set k := r * (1 + C) / |S| with hk
  have hk0 : 0 < k := by rw [hk]; have : 0 < 1 + C := by linarith
                         positivity
  set c := V2.add v (V2.scale (r / |S|) (V2.add u w)) with hc
  have hback : V2.add c (V2.sub (V2.add v (V2.scale k u)) c) = V2.add v (V2.scale k u) := by
    simp [V2.add, V2.sub]
  rw [hback] at h
  have hσ := sign_sq hS
  have hσS := Must2.sign_mul_abs S
  set σ := sign S with hσd
  have hinv : r / |S| * S = r * σ := by
    rw [div_mul_eq_mul_div, div_eq_iff hSa.ne', mul_assoc, hσS]
  have hkr : k = r / |S| * (1 + C) := by rw [hk]; ring
  set ρ := r / |S| with hρ
  have hQ : turn c (f * (σ * (Real.pi - θ) / f)) (V2.add v (V2.scale k u)) = V2.add v (V2.scale k w) := by
    rw [hfa]
    simp only [turn, e3, e4, hc, V2.add, V2.scale, V2.mk.injEq, hkr]
    simp only [V2.cross, V2.dot] at hSd hCd hu hw
    have hwx : w.x = C * u.x + S * u.y := by rw [hSd, hCd]; linear_combination -w.x * hu
    have hwy : w.y = C * u.y - S * u.x := by rw [hSd, hCd]; linear_combination -w.y * hu
    constructor
    · linear_combination ρ * (S * hwy - u.x * h1)
    · linear_combination ρ * (-S * hwx - u.y * h1)
  refine ⟨c, V2.add v (V2.scale k u), V2.add v (V2.scale k w), σ * (Real.pi - θ) / f, ?_, h.symm, hQ, ?_, ?_, ?_, ?_, ?_, ?_⟩
  · rw [hfa, abs_mul]
    have : |σ| = 1 := by
      have : |σ| * |σ| = 1 := by rw [← abs_mul, hσ, abs_one]
      nlinarith [abs_nonneg σ]
    have hθ0 : 0 < θ := Real.arccos_pos.mpr hCu
    have := Real.arccos_le_pi C
    rw [‹|σ| = 1›, one_mul, abs_of_nonneg (by linarith)]
    linarith
  · rw [V2.norm, Real.sqrt_eq_iff_mul_self_eq (by nlinarith [mul_self_nonneg (V2.sub (V2.add v (V2.scale k u)) c).x, mul_self_nonneg (V2.sub (V2.add v (V2.scale k u)) c).y]) hr.le]
    have hr2 : r * r = ρ ^ 2 * S ^ 2 := by
      have : (ρ * S) ^ 2 = (r * σ) ^ 2 := by rw [hinv]
      linear_combination -this - r ^ 2 * hσ
    have hr3 : r * r = ρ ^ 2 * (1 - C ^ 2) := by rw [hr2]; linear_combination ρ ^ 2 * h1
    simp only [V2.sub, V2.add, V2.scale, hc, hkr]
    rw [hr3]
    simp only [V2.dot] at hCd hu hw
    linear_combination ρ ^ 2 * (C ^ 2 * hu + hw + 2 * C * hCd)
  · refine ⟨k / A, by positivity, (div_le_one hA).mpr hfit.1, ?_⟩
    rw [ea]
    simp only [V2.add, V2.scale, V2.mk.injEq]
    constructor <;> field_simp
  · rw [ea]
    simp only [V2.sub, V2.add, V2.scale, V2.dot, hc, hkr] at *
    linear_combination ρ * A * (C * hu  + hCd)
  · refine ⟨k / B, by positivity, (div_le_one hB).mpr hfit.2, ?_⟩
    rw [eb]
    simp only [V2.add, V2.scale, V2.mk.injEq]
    constructor <;> field_simp
  · rw [eb]
    simp only [V2.sub, V2.add, V2.scale, V2.dot, hc, hkr] at *
    linear_combination ρ * B * (C * hw  + hCd)
  · have hPv : V2.norm (V2.sub (V2.add v (V2.scale k u)) v) = k := by
      rw [V2.norm, Real.sqrt_eq_iff_mul_self_eq (by simp only [V2.sub, V2.add, V2.scale]; nlinarith [mul_self_nonneg (k * u.x), mul_self_nonneg (k * u.y)]) hk0.le]
      simp only [V2.sub, V2.add, V2.scale]
      simp only [V2.dot] at hu
      linear_combination k ^ 2 * hu
    have hcr : V2.cross (V2.sub vp v) (V2.sub vn v) = -(A * B * S) := by
      rw [ea, eb, hSd]; simp only [V2.cross, V2.scale]; ring
    have hdt : V2.dot (V2.sub vp v) (V2.sub vn v) = A * B * C := by
      rw [ea, eb, hCd]; simp only [V2.dot, V2.scale]; ring
    rw [hPv, hcr, hdt, abs_neg, abs_mul, abs_of_pos (mul_pos hA hB), hk]
    field_simp

/-- The corner is smoothed exactly if the tangent points fit on both sides. -/
theorem C32_smooth_fits (vp v vn : V2) (r : ℝ) (f : ℤ) (hnd : V2.cross (V2.sub vp v) (V2.sub vn v) ≠ 0) :
    (∃ pts, smoothPoints vp v vn r f = some pts) ↔
      r * (V2.dist vp v * V2.dist vn v + V2.dot (V2.sub vp v) (V2.sub vn v)) ≤
        |V2.cross (V2.sub vp v) (V2.sub vn v)| * min (V2.dist vp v) (V2.dist vn v) := by
  obtain ⟨hA, hB, hu, hw, hS⟩ := corner_units hnd
  obtain ⟨e1, -, -, -⟩ := fillet _ _ hu hw hS r
  unfold smoothPoints
  dsimp only
  rw [e1]
  have hSa : 0 < |V2.cross (V2.unit (V2.sub vn v)) (V2.unit (V2.sub vp v))| := abs_pos.mpr hS
  have eS : |V2.cross (V2.sub vp v) (V2.sub vn v)| =
      V2.dist vp v * V2.dist vn v * |V2.cross (V2.unit (V2.sub vn v)) (V2.unit (V2.sub vp v))| := by
    unfold V2.dist
    rw [← abs_of_pos (mul_pos hA hB), ← abs_mul, ← abs_neg]
    congr 1
    simp only [V2.cross, V2.unit, V2.scale]
    field_simp
    ring
  have eC : V2.dot (V2.sub vp v) (V2.sub vn v) =
      V2.dist vp v * V2.dist vn v * V2.dot (V2.unit (V2.sub vp v)) (V2.unit (V2.sub vn v)) := by
    unfold V2.dist
    simp only [V2.dot, V2.unit, V2.scale]
    field_simp
  rw [eS, eC]
  unfold V2.dist
  set A := V2.norm (V2.sub vp v)
  set B := V2.norm (V2.sub vn v)
  set S := |V2.cross (V2.unit (V2.sub vn v)) (V2.unit (V2.sub vp v))|
  set C := V2.dot (V2.unit (V2.sub vp v)) (V2.unit (V2.sub vn v))
  have hAB : 0 < A * B := mul_pos hA hB
  have key : r * (A * B + A * B * C) ≤ A * B * S * min A B ↔ r * (1 + C) / S ≤ min A B := by
    rw [div_le_iff₀ hSa]
    constructor
    · intro h; refine le_of_mul_le_mul_left ?_ hAB; linarith
    · intro h; have := mul_le_mul_of_nonneg_left h hAB.le; linarith
  rw [key, le_min_iff]
  split
  · rename_i h
    constructor
    · rintro ⟨_, h⟩; simp at h
    · rintro ⟨h1, h2⟩; rcases h with h | h <;> linarith
  · rename_i h
    simp only [not_or, not_lt] at h
    exact ⟨fun _ => h, fun _ => ⟨_, rfl⟩⟩

/-- The points put between the ends `a`, `b` of an arc: with the ends they are equally spaced on a circle of the given
radius, going from `a` to `b` by at most half a turn, clockwise for a positive and counter-clockwise for a negative
radius. -/
theorem C32_arc (a b : V2) (r : ℝ) (f : ℤ) (hf : 1 ≤ f) (hne : a ≠ b) (hr : V2.dist a b ≤ 2 * |r|) :
    ∃ (c : V2) (t : ℝ), V2.dist a c = |r| ∧ turn c (f * t) a = b ∧
      (0 < r → -Real.pi ≤ f * t ∧ f * t ≤ 0) ∧ (r < 0 → 0 ≤ f * t ∧ f * t ≤ Real.pi) ∧
      arcPoints a b r f = (List.range (f - 1).toNat).map fun k : ℕ => PV.plain (turn c ((k + 1) * t) a) := by
  unfold arcPoints
  dsimp only
  have hL : 0 < V2.norm (V2.sub b a) := by
    refine lt_of_le_of_ne (V2.norm_nonneg _) fun h => hne ?_
    have := V2.norm_eq_zero.mp h.symm
    simp only [V2.sub, V2.mk.injEq] at this
    obtain ⟨a1, a2⟩ := a
    obtain ⟨b1, b2⟩ := b
    simp only [V2.mk.injEq] at this ⊢
    constructor <;> linarith [this.1, this.2]
  have hd : V2.dist a b = V2.norm (V2.sub b a) := by
    unfold V2.dist V2.norm V2.sub; congr 1; simp only; ring
  rw [hd] at hr
  have hr0 : r ≠ 0 := by rintro rfl; simp at hr; linarith
  have hu := unit_dot_self hL.ne'
  set L := V2.norm (V2.sub b a) with hLd
  have eb : V2.sub b a = V2.scale L (V2.unit (V2.sub b a)) := by
    rw [V2.unit, ← hLd]
    simp only [V2.scale, V2.sub, V2.mk.injEq]
    constructor <;> field_simp
  have hmid : V2.norm (V2.sub (V2.scale 0.5 (V2.add a b)) a) = L / 2 := by
    rw [hLd, V2.norm, V2.norm, Real.sqrt_eq_iff_mul_self_eq (by nlinarith [mul_self_nonneg (V2.sub (V2.scale 0.5 (V2.add a b)) a).x, mul_self_nonneg (V2.sub (V2.scale 0.5 (V2.add a b)) a).y]) (by positivity)]
    have := Real.mul_self_sqrt (show 0 ≤ (V2.sub b a).x * (V2.sub b a).x + (V2.sub b a).y * (V2.sub b a).y by nlinarith [mul_self_nonneg (V2.sub b a).x, mul_self_nonneg (V2.sub b a).y])
    simp only [V2.sub, V2.scale, V2.add] at this ⊢
    linear_combination (-1/4) * this
  rw [hmid]
  set e := V2.unit (V2.sub b a) with he
  set σ := sign r with hσd
  have hσ : σ * σ = 1 := sign_sq hr0
  have hdisc : 0 ≤ |r| * |r| - L / 2 * (L / 2) := by nlinarith
  set h := Real.sqrt (|r| * |r| - L / 2 * (L / 2)) with hh
  have hh0 : 0 ≤ h := Real.sqrt_nonneg _
  have hh2 : h * h = |r| * |r| - L / 2 * (L / 2) := Real.mul_self_sqrt hdisc
  set c := V2.add (V2.scale 0.5 (V2.add a b)) (V2.scale h (V2.scale σ ⟨e.y, -e.x⟩)) with hc
  have hR : 0 < |r| := abs_pos.mpr hr0
  simp only [V2.dot] at hu
  simp only [V2.sub, V2.scale, V2.mk.injEq] at eb
  -- the two radii
  have eac : V2.sub a c = ⟨-(L / 2) * e.x - h * σ * e.y, -(L / 2) * e.y + h * σ * e.x⟩ := by
    simp only [V2.sub, hc, V2.add, V2.scale, V2.mk.injEq]
    constructor
    · linear_combination (-1/2) * eb.1
    · linear_combination (-1/2) * eb.2
  have ebc : V2.sub b c = ⟨(L / 2) * e.x - h * σ * e.y, (L / 2) * e.y + h * σ * e.x⟩ := by
    simp only [V2.sub, hc, V2.add, V2.scale, V2.mk.injEq]
    constructor
    · linear_combination (1/2) * eb.1
    · linear_combination (1/2) * eb.2
  have na : V2.norm (V2.sub a c) = |r| := by
    rw [eac, V2.norm, Real.sqrt_eq_iff_mul_self_eq (by simp only; nlinarith [mul_self_nonneg (-(L / 2) * e.x - h * σ * e.y), mul_self_nonneg (-(L / 2) * e.y + h * σ * e.x)]) hR.le]
    simp only
    linear_combination (L ^ 2 / 4 + h ^ 2 * (σ * σ)) * hu + h ^ 2 * hσ + hh2
  have nb : V2.norm (V2.sub b c) = |r| := by
    rw [ebc, V2.norm, Real.sqrt_eq_iff_mul_self_eq (by simp only; nlinarith [mul_self_nonneg ((L / 2) * e.x - h * σ * e.y), mul_self_nonneg ((L / 2) * e.y + h * σ * e.x)]) hR.le]
    simp only
    linear_combination (L ^ 2 / 4 + h ^ 2 * (σ * σ)) * hu + h ^ 2 * hσ + hh2
  have hC : V2.dot (V2.unit (V2.sub a c)) (V2.unit (V2.sub b c)) = (h * h - L / 2 * (L / 2)) / (|r| * |r|) := by
    rw [V2.unit, V2.unit, na, nb, eac, ebc]
    simp only [V2.dot, V2.scale]
    field_simp
    linear_combination (h ^ 2 * (σ * σ) * 4 - L ^ 2) * hu + 4 * h ^ 2 * hσ
  rw [hC]
  set C := (h * h - L / 2 * (L / 2)) / (|r| * |r|) with hCd
  have hRR : 0 < |r| * |r| := by positivity
  have hS : C ^ 2 + (L * h / (|r| * |r|)) ^ 2 = 1 := by
    rw [hCd, div_pow, div_pow, ← add_div, div_eq_one_iff_eq (by positivity)]
    have : |r| * |r| = h * h + L / 2 * (L / 2) := by linarith
    rw [this]; ring
  have hS0 : 0 ≤ L * h / (|r| * |r|) := by positivity
  have hCl : -1 ≤ C := by nlinarith
  have hCu : C ≤ 1 := by nlinarith
  have hf0 : (f : ℝ) ≠ 0 := by
    have : (1 : ℝ) ≤ f := by exact_mod_cast hf
    positivity
  have hft : (f : ℝ) * (-σ * Real.arccos C / f) = -(σ * Real.arccos C) := by field_simp
  have hcos : Real.cos (-(σ * Real.arccos C)) = C := by
    rw [Real.cos_neg, cos_sign hr0, Real.cos_arccos hCl hCu]
  have hsin : Real.sin (-(σ * Real.arccos C)) = -(σ * (L * h / (|r| * |r|))) := by
    rw [Real.sin_neg, sin_sign hr0, Real.sin_arccos]
    congr 2
    rw [Real.sqrt_eq_iff_mul_self_eq (by nlinarith) hS0]
    linear_combination -hS
  refine ⟨c, -σ * Real.arccos C / f, na, ?_, ?_, ?_, ?_⟩
  · rw [hft]
    have hx : (V2.sub a c).x = a.x - c.x := rfl
    have hy : (V2.sub a c).y = a.y - c.y := rfl
    have hx' : (V2.sub b c).x = b.x - c.x := rfl
    have hy' : (V2.sub b c).y = b.y - c.y := rfl
    rw [eac] at hx hy
    rw [ebc] at hx' hy'
    simp only at hx hy hx' hy'
    have hRe : |r| * |r| = h * h + L / 2 * (L / 2) := by linarith
    have hd0 : h * h + L / 2 * (L / 2) ≠ 0 := by rw [← hRe]; positivity
    have : turn c (-(σ * Real.arccos C)) a = ⟨c.x + (b.x - c.x), c.y + (b.y - c.y)⟩ := by
      rw [turn, hcos, hsin, ← hx, ← hy, ← hx', ← hy', hCd, hRe]
      simp only [V2.mk.injEq]
      constructor
      · congr 1
        field_simp
        linear_combination (8 * L * h ^ 2 * e.x) * hσ
      · congr 1
        field_simp
        linear_combination (8 * L * h ^ 2 * e.y) * hσ
    rw [this]; simp
  · intro hr1
    have : σ = 1 := by rw [hσd, sign, if_neg hr0, if_neg (by linarith)]
    rw [hft, this]
    constructor <;> linarith [Real.arccos_le_pi C, Real.arccos_nonneg C]
  · intro hr1
    have : σ = -1 := by rw [hσd, sign, if_neg hr0, if_pos hr1]
    rw [hft, this]
    constructor <;> linarith [Real.arccos_le_pi C, Real.arccos_nonneg C]
  · rw [rotatePoints_eq]
    refine List.map_congr_left fun k _ => ?_
    congr 1
    generalize -σ * Real.arccos C / f = t
    simp only [turn, M22.rotate, M22.mulPosition, V2.add, V2.sub]
    rw [show ((k : ℝ) + 1) * t = k * t + t by ring, Real.cos_add, Real.sin_add]
    simp only [V2.mk.injEq]
    constructor <;> ring

theorem pass_append (step : Builder → ℕ → Option (Builder × Bool)) (l1 l2 : List ℕ) : ∀ (b b1 b2 : Builder) (r1 r2 : Bool),
    pass step l1 b = some (b1, r1) → pass step l2 b1 = some (b2, r2) → pass step (l1 ++ l2) b = some (b2, r1 || r2) := by
  induction l1 with
  | nil =>
    intro b b1 b2 r1 r2 h1 h2
    simp only [pass, Option.some.injEq, Prod.mk.injEq] at h1
    rw [← h1.1] at h2
    rw [← h1.2]; simpa using h2
  | cons i l1 ih =>
    intro b b1 b2 r1 r2 h1 h2
    rw [pass] at h1
    rw [List.cons_append, pass]
    rcases hs : step b i with _ | ⟨c, s⟩
    · rw [hs] at h1; simp at h1
    · rw [hs] at h1
      simp only at h1 ⊢
      rcases hp : pass step l1 c with _ | ⟨c', s'⟩
      · rw [hp] at h1; simp at h1
      · rw [hp] at h1
        simp only [Option.some.injEq, Prod.mk.injEq] at h1
        obtain ⟨rfl, rfl⟩ := h1
        rw [ih c c' b2 s' r2 hp h2, Bool.or_assoc]

theorem pass_idle (step : Builder → ℕ → Option (Builder × Bool)) (b : Builder) (is : List ℕ)
    (h : ∀ i ∈ is, step b i = some (b, false)) : pass step is b = some (b, false) := by
  induction is with
  | nil => rfl
  | cons i is ih =>
    rw [pass, h i List.mem_cons_self]
    simp only [ih fun j hj => h j (List.mem_cons_of_mem _ hj)]
    rfl

/-- One effective step, everything else idle: two passes. -/
theorem passes_once (step : Builder → ℕ → Option (Builder × Bool)) (b b' : Builder) (i : ℕ) (hi : i < b.vlist.length)
    (h1 : ∀ j < b.vlist.length, j ≠ i → step b j = some (b, false)) (h2 : step b i = some (b', true))
    (h3 : ∀ j < b'.vlist.length, step b' j = some (b', false)) (hlen : b.vlist.length ≤ b'.vlist.length) (fuel : ℕ) :
    passes step (fuel + 2) b = .ok b' := by
  obtain ⟨l1, l2, hl, hn⟩ := List.eq_append_cons_of_mem (List.mem_range.mpr hi)
  have hp : pass step (List.range b.vlist.length) b = some (b', true) := by
    have hm : ∀ j ∈ l1 ++ i :: l2, j < b.vlist.length := fun j hj => by rw [← hl] at hj; exact List.mem_range.mp hj
    rw [hl]
    refine pass_append step l1 (i :: l2) b b b' false true (pass_idle step b l1 fun j hj => h1 j (hm j (by simp [hj])) ?_) ?_
    · rintro rfl; exact hn hj
    · rw [pass, h2]
      simp only [pass_idle step b' l2 fun j hj => h3 j (lt_of_lt_of_le (hm j (by simp [hj])) hlen)]
      rfl
  rw [passes, hp]
  simp only
  rw [passes, pass_idle step b' _ fun j hj => h3 j (List.mem_range.mp hj)]

theorem passes_idle (step : Builder → ℕ → Option (Builder × Bool)) (b : Builder)
    (h3 : ∀ j < b.vlist.length, step b j = some (b, false)) (fuel : ℕ) :
    passes step (fuel + 1) b = .ok b := by
  rw [passes, pass_idle step b _ fun j hj => h3 j (List.mem_range.mp hj)]

theorem arcVertex_idle (b : Builder) (j : ℕ) (hj : j < b.vlist.length) (h : ∀ v, b.vlist[j]? = some v → v.vtype ≠ .arc) :
    b.arcVertex j = some (b, false) := by
  unfold Builder.arcVertex
  rw [List.getElem?_eq_getElem hj]
  simp only
  rw [if_pos (h _ (List.getElem?_eq_getElem hj))]

theorem smoothVertex_idle (b : Builder) (j : ℕ) (hj : j < b.vlist.length) (h : ∀ v, b.vlist[j]? = some v → v.vtype ≠ .smooth) :
    b.smoothVertex j = some (b, false) := by
  unfold Builder.smoothVertex
  rw [List.getElem?_eq_getElem hj]
  simp only
  rw [if_pos (h _ (List.getElem?_eq_getElem hj))]

/-- Absolute vertices without further specification are returned as they are. -/
theorem C32_plain (b : Builder) (hn : b.isNil = false) (hv : ∀ v ∈ b.vlist, v.relative = false ∧ v.vtype = .normal) (fuel : ℕ) :
    b.vertices (fuel + 1) = .ok (if b.reverse then (b.vlist.map PV.vertex).reverse else b.vlist.map PV.vertex, b) := by
  have h1 : b.fixups (fuel + 1) = .ok b := by
    unfold Builder.fixups Builder.relToAbs
    rw [relToAbsFrom_absolute b (fun v h => (hv v h).1) _ 0 (by omega)]
    simp only
    rw [passes_idle _ b (fun j hj => arcVertex_idle b j hj (fun v h => by rw [(hv _ (List.mem_of_getElem? h)).2]; simp))]
    simp only
    rw [passes_idle _ b (fun j hj => smoothVertex_idle b j hj (fun v h => by rw [(hv _ (List.mem_of_getElem? h)).2]; simp))]
  unfold Builder.vertices
  rw [hn, if_neg (by simp), h1]

/-- Vertices that are neither smoothed nor arc ends keep their (resolved) positions and their order, whatever happens
to the other vertices. -/
theorem C32_order (b b' : Builder) (fuel : ℕ) (vs : List V2) (hr : b.Resolvable) (h : b.vertices fuel = .ok (vs, b')) :
    (plainPositions (resolve b.start b.vlist)).Sublist (if b.reverse then vs.reverse else vs) := by
  unfold Builder.vertices at h
  by_cases hn : b.isNil = true
  · rw [if_pos hn] at h; simp at h
  rw [if_neg hn] at h
  rcases hfx : b.fixups fuel with c | _ | _
  · rw [hfx] at h
    simp only [Outcome.ok.injEq, Prod.mk.injEq] at h
    obtain ⟨hvs, rfl⟩ := h
    unfold Builder.fixups at hfx
    rw [C32_relative b hr] at hfx
    simp only at hfx
    split at hfx
    · rename_i b2 h2
      set l0 := plainPositions (resolve b.start b.vlist) with hl0
      have s1 : l0.Sublist (plainPositions b2.vlist) ∧ b2.reverse = b.reverse := by
        refine passes_inv (fun c => l0.Sublist (plainPositions c.vlist) ∧ c.reverse = b.reverse) ?_ fuel _ b2 h2
          ⟨List.Sublist.refl _, rfl⟩
        intro c i c' r hstep hc
        obtain ⟨A, v, B, hl, _, _, hrev, _, hh⟩ := arcVertex_cases hstep
        refine ⟨hc.1.trans ?_, hrev.trans hc.2⟩
        rw [hl]
        unfold plainPositions
        rcases hh with ⟨_, rfl, rfl⟩ | ⟨hv, rfl, hb'⟩ | ⟨hv, rfl, hf, pv, hb'⟩
        · rw [hl]
        · rw [hb']
          simp only [List.filter_append, List.filter_cons, hv, List.map_append]
          refine List.Sublist.append (List.Sublist.refl _) ?_
          simp
        · rw [hb']
          simp only [List.filter_append, List.filter_cons, hv, List.map_append]
          refine List.Sublist.append (List.Sublist.refl _) ?_
          refine List.Sublist.trans ?_ (List.sublist_append_right _ _)
          simp
      have s2 : l0.Sublist (plainPositions c.vlist) ∧ c.reverse = b.reverse := by
        refine passes_inv (fun c => l0.Sublist (plainPositions c.vlist) ∧ c.reverse = b.reverse) ?_ fuel _ c hfx s1
        intro c i c' r hstep hc
        obtain ⟨A, v, B, hl, _, hh⟩ := smoothVertex_cases hstep
        rcases hh with ⟨rfl, rfl⟩ | ⟨hv, rfl, hf, _, hrev, _, vp, vn, pts, hp, hb'⟩
        · exact hc
        · refine ⟨hc.1.trans ?_, hrev.trans hc.2⟩
          rw [hl, hb']
          unfold plainPositions
          simp only [List.filter_append, List.filter_cons, hv, List.map_append]
          refine List.Sublist.append (List.Sublist.refl _) ?_
          refine List.Sublist.trans ?_ (List.sublist_append_right _ _)
          simp
      have s3 : (plainPositions c.vlist).Sublist (c.vlist.map PV.vertex) := List.filter_sublist.map _
      refine (s2.1.trans s3).trans ?_
      rw [← hvs, ← s2.2]
      split <;> simp
    · rename_i r h2
      rw [hfx] at h2
      exact absurd rfl (h2 c)
  · rw [hfx] at h; simp at h
  · rw [hfx] at h; simp at h

/-- A polygon with one smoothed vertex: `Vertices` returns the other vertices with the fillet points of `C32_smooth` in the
place of the smoothed one. -/
theorem C32_smooth_vertices (b : Builder) (A B : List PV) (p n x : V2) (r : ℝ) (f : ℤ) (pts : List PV) (hn : b.isNil = false)
    (hl : b.vlist = A ++ PV.plain p :: ⟨false, .smooth, x, f, r⟩ :: PV.plain n :: B) (hf : 0 ≤ f)
    (hA : ∀ v ∈ A, v.relative = false ∧ v.vtype = .normal) (hB : ∀ v ∈ B, v.relative = false ∧ v.vtype = .normal)
    (hp : smoothPoints p x n r f = some pts) (fuel : ℕ) :
    ∃ b' vs, b.vertices (fuel + 2) = .ok (vs, b') ∧ (if b.reverse then vs.reverse else vs) =
      A.map PV.vertex ++ p :: (pts.map PV.vertex ++ n :: B.map PV.vertex) := by
  have hpts := (smoothPoints_normal hp).1
  have hplen := (smoothPoints_normal hp).2
  have hrel : ∀ v ∈ b.vlist, v.relative = false := by
    intro v hv
    rw [hl] at hv
    simp only [List.mem_append, List.mem_cons] at hv
    rcases hv with h | rfl | rfl | rfl | h
    · exact (hA v h).1
    · rfl
    · rfl
    · rfl
    · exact (hB v h).1
  have harc : ∀ v ∈ b.vlist, v.vtype ≠ .arc := by
    intro v hv
    rw [hl] at hv
    simp only [List.mem_append, List.mem_cons] at hv
    rcases hv with h | rfl | rfl | rfl | h
    · rw [(hA v h).2]; simp
    · simp [PV.plain]
    · simp
    · simp [PV.plain]
    · rw [(hB v h).2]; simp
  set b' : Builder := { b with vlist := A ++ PV.plain p :: (pts ++ PV.plain n :: B) } with hb'
  have hnorm : ∀ v ∈ b'.vlist, v.vtype = .normal := by
    intro v hv
    simp only [hb', List.mem_append, List.mem_cons] at hv
    rcases hv with h | rfl | h | rfl | h
    · exact (hA v h).2
    · rfl
    · exact (hpts v h).2
    · rfl
    · exact (hB v h).2
  have hi : A.length + 1 < b.vlist.length := by rw [hl]; simp
  have hsm : passes Builder.smoothVertex (fuel + 2) b = .ok b' := by
    refine passes_once _ b b' (A.length + 1) hi (fun j hj hne => ?_) ?_ (fun j hj => ?_) ?_ fuel
    · refine smoothVertex_idle b j hj ?_
      intro y hg hs
      rcases Nat.lt_trichotomy j A.length with h | h | h
      · have : y ∈ A := by
          rw [hl, List.getElem?_append_left h] at hg
          exact List.mem_of_getElem? hg
        rw [(hA _ this).2] at hs; simp at hs
      · rw [hl, h] at hg
        simp at hg
        rw [← hg] at hs
        simp [PV.plain] at hs
      · obtain ⟨k, rfl⟩ : ∃ k, j = A.length + 2 + k := ⟨j - A.length - 2, by omega⟩
        have : y ∈ PV.plain n :: B := by
          rw [hl, List.getElem?_append_right (by omega), show A.length + 2 + k - A.length = k + 1 + 1 by omega,
            List.getElem?_cons_succ, List.getElem?_cons_succ] at hg
          exact List.mem_of_getElem? hg
        rcases List.mem_cons.mp this with h | h
        · rw [h] at hs; simp [PV.plain] at hs
        · rw [(hB _ h).2] at hs; simp at hs
    · unfold Builder.smoothVertex
      have e1 : b.vlist[A.length + 1]? = some ⟨false, .smooth, x, f, r⟩ := by rw [hl]; simp
      have e2 : b.prevVertex (A.length + 1) = some (PV.plain p) := by
        rw [Builder.prevVertex, if_neg (by omega), hl]; simp
      have e3 : b.nextVertex (A.length + 1) = some (PV.plain n) := by
        rw [Builder.nextVertex, if_neg (by rw [hl]; simp; omega), hl]
        rw [List.getElem?_append_right (by omega), show A.length + 1 + 1 - A.length = 2 by omega]
        rfl
      rw [e1]
      simp only [e2, e3]
      rw [if_neg (by simp)]
      simp only [PV.plain] at hp ⊢
      rw [hp]
      simp only
      rw [if_neg (by omega)]
      simp only [hb', Option.some.injEq, Prod.mk.injEq, and_true]
      congr 1
      rw [hl]
      rw [List.take_append, List.drop_append, List.take_of_length_le (show A.length ≤ A.length + 1 by omega),
        List.drop_of_length_le (show A.length ≤ A.length + 1 + 1 by omega), show A.length + 1 + 1 - A.length = 2 by omega]
      simp [PV.plain]
    · exact smoothVertex_idle b' j hj (fun v h => by rw [hnorm _ (List.mem_of_getElem? h)]; simp)
    · rw [hl]; simp [hb', hplen]; omega
  refine ⟨b', if b'.reverse then (b'.vlist.map PV.vertex).reverse else b'.vlist.map PV.vertex, ?_, ?_⟩
  · unfold Builder.vertices
    rw [hn, if_neg (by simp)]
    have : b.fixups (fuel + 2) = .ok b' := by
      unfold Builder.fixups Builder.relToAbs
      rw [relToAbsFrom_absolute b hrel _ 0 (by omega)]
      simp only
      rw [passes_idle _ b (fun j hj => arcVertex_idle b j hj (fun v h => harc _ (List.mem_of_getElem? h)))]
      simp only
      exact hsm
    rw [this]
  · show (if b.reverse then _ else _) = _
    have hrv : b'.reverse = b.reverse := rfl
    rw [hrv]
    split <;> simp [hb', PV.plain]

/-- A polygon with one arc: `Vertices` returns the vertices with the arc points of `C32_arc` before the arc's end. -/
theorem C32_arc_vertices (b : Builder) (A B : List PV) (p x : V2) (r : ℝ) (f : ℤ) (hn : b.isNil = false)
    (hl : b.vlist = A ++ PV.plain p :: ⟨false, .arc, x, f, r⟩ :: B) (hf : 1 ≤ f)
    (hA : ∀ v ∈ A, v.relative = false ∧ v.vtype = .normal) (hB : ∀ v ∈ B, v.relative = false ∧ v.vtype = .normal) (fuel : ℕ) :
    ∃ b' vs, b.vertices (fuel + 2) = .ok (vs, b') ∧ (if b.reverse then vs.reverse else vs) =
      A.map PV.vertex ++ p :: ((arcPoints p x r f).map PV.vertex ++ x :: B.map PV.vertex) := by
  have hpts := (arcPoints_normal p x r f).1
  have hrel : ∀ v ∈ b.vlist, v.relative = false := by
    intro v hv
    rw [hl] at hv
    simp only [List.mem_append, List.mem_cons] at hv
    rcases hv with h | rfl | rfl | h
    · exact (hA v h).1
    · rfl
    · rfl
    · exact (hB v h).1
  set b' : Builder := { b with vlist := A ++ PV.plain p :: (arcPoints p x r f ++ ⟨false, .normal, x, f, r⟩ :: B) } with hb'
  have hnorm : ∀ v ∈ b'.vlist, v.vtype = .normal := by
    intro v hv
    simp only [hb', List.mem_append, List.mem_cons] at hv
    rcases hv with h | rfl | h | rfl | h
    · exact (hA v h).2
    · rfl
    · exact (hpts v h).2
    · rfl
    · exact (hB v h).2
  have hi : A.length + 1 < b.vlist.length := by rw [hl]; simp
  have hsm : passes Builder.arcVertex (fuel + 2) b = .ok b' := by
    refine passes_once _ b b' (A.length + 1) hi (fun j hj hne => ?_) ?_ (fun j hj => ?_) ?_ fuel
    · refine arcVertex_idle b j hj ?_
      intro y hg hs
      rcases Nat.lt_trichotomy j A.length with h | h | h
      · have : y ∈ A := by
          rw [hl, List.getElem?_append_left h] at hg
          exact List.mem_of_getElem? hg
        rw [(hA _ this).2] at hs; simp at hs
      · rw [hl, h] at hg
        simp at hg
        rw [← hg] at hs
        simp [PV.plain] at hs
      · obtain ⟨k, rfl⟩ : ∃ k, j = A.length + 2 + k := ⟨j - A.length - 2, by omega⟩
        have : y ∈ B := by
          rw [hl, List.getElem?_append_right (by omega), show A.length + 2 + k - A.length = k + 1 + 1 by omega,
            List.getElem?_cons_succ, List.getElem?_cons_succ] at hg
          exact List.mem_of_getElem? hg
        rw [(hB _ this).2] at hs; simp at hs
    · unfold Builder.arcVertex
      have e1 : b.vlist[A.length + 1]? = some ⟨false, .arc, x, f, r⟩ := by rw [hl]; simp
      have e4 : b.vlist.set (A.length + 1) ⟨false, .normal, x, f, r⟩ = A ++ PV.plain p :: ⟨false, .normal, x, f, r⟩ :: B := by
        rw [hl, List.set_append_right _ _ (by omega)]; simp
      have e2 : Builder.prevVertex { b with vlist := b.vlist.set (A.length + 1) ⟨false, .normal, x, f, r⟩ } (A.length + 1) = some (PV.plain p) := by
        rw [Builder.prevVertex, if_neg (by omega), e4]; simp
      rw [e1]
      simp only
      rw [if_neg (by simp)]
      simp only [e2]
      rw [if_neg (by omega)]
      simp only [hb', Option.some.injEq, Prod.mk.injEq, and_true]
      congr 1
      rw [e4, List.take_append, List.drop_append, List.take_of_length_le (show A.length ≤ A.length + 1 by omega),
        List.drop_of_length_le (show A.length ≤ A.length + 1 by omega)]
      simp [PV.plain]
    · exact arcVertex_idle b' j hj (fun v h => by rw [hnorm _ (List.mem_of_getElem? h)]; simp)
    · rw [hl]; simp [hb']
  refine ⟨b', if b'.reverse then (b'.vlist.map PV.vertex).reverse else b'.vlist.map PV.vertex, ?_, ?_⟩
  · unfold Builder.vertices
    rw [hn, if_neg (by simp)]
    have : b.fixups (fuel + 2) = .ok b' := by
      unfold Builder.fixups Builder.relToAbs
      rw [relToAbsFrom_absolute b hrel _ 0 (by omega)]
      simp only
      rw [hsm]
      simp only
      exact passes_idle _ b' (fun j hj => smoothVertex_idle b' j hj (fun v h => by rw [hnorm _ (List.mem_of_getElem? h)]; simp)) _
    rw [this]
  · show (if b.reverse then _ else _) = _
    have hrv : b'.reverse = b.reverse := rfl
    rw [hrv]
    split <;> simp [hb', PV.plain]

/-- A closed polygon whose first and last vertices are both relative. -/
noncomputable def dangling : Builder :=
  ⟨true, false, false, [(PV.plain ⟨1, 0⟩).rel, PV.plain ⟨3, 0⟩, ((PV.plain ⟨0, 2⟩).smooth 0.1 1).rel]⟩

theorem dangling_vlist : dangling.vlist = [⟨true, .normal, ⟨1, 0⟩, 0, 0⟩, PV.plain ⟨3, 0⟩, ⟨true, .smooth, ⟨0, 2⟩, 1, 0.1⟩] := by
  have h : (0.1 : ℝ) ≠ 0 := by norm_num
  simp [dangling, PV.plain, PV.rel, PV.smooth, h]

/-- Without that condition `Vertices` is not stable: the error about unresolvable relative vertices is dropped, and a
second call returns other vertices than the first. -/
theorem C32_unstable : ∃ vs vs' b' b'', dangling.vertices 2 = .ok (vs, b') ∧ b'.vertices 2 = .ok (vs', b'') ∧ vs ≠ vs' := by
  have hl := dangling_vlist
  have hnd : V2.cross (V2.sub ⟨3, 0⟩ ⟨0, 2⟩) (V2.sub ⟨1, 0⟩ ⟨0, 2⟩) ≠ 0 := by norm_num [V2.cross, V2.sub]
  have d1 : V2.dist ⟨3, 0⟩ ⟨0, 2⟩ = Real.sqrt 13 := by simp only [V2.dist, V2.norm, V2.sub]; congr 1; norm_num
  have d2 : V2.dist ⟨1, 0⟩ ⟨0, 2⟩ = Real.sqrt 5 := by simp only [V2.dist, V2.norm, V2.sub]; congr 1; norm_num
  obtain ⟨pts, hp⟩ := (C32_smooth_fits ⟨3, 0⟩ ⟨0, 2⟩ ⟨1, 0⟩ 0.1 1 hnd).mpr (by
    rw [d1, d2]
    have e1 : |V2.cross (V2.sub ⟨3, 0⟩ ⟨0, 2⟩) (V2.sub ⟨1, 0⟩ ⟨0, 2⟩)| = 4 := by norm_num [V2.cross, V2.sub]
    have e2 : V2.dot (V2.sub ⟨3, 0⟩ ⟨0, 2⟩) (V2.sub ⟨1, 0⟩ ⟨0, 2⟩) = 7 := by norm_num [V2.dot, V2.sub]
    rw [e1, e2]
    have h5 : 2 ≤ Real.sqrt 5 := Real.le_sqrt_of_sq_le (by norm_num)
    have h5' : Real.sqrt 5 ≤ 3 := Real.sqrt_le_iff.mpr ⟨by norm_num, by norm_num⟩
    have h13 : 2 ≤ Real.sqrt 13 := Real.le_sqrt_of_sq_le (by norm_num)
    have h13' : Real.sqrt 13 ≤ 4 := Real.sqrt_le_iff.mpr ⟨by norm_num, by norm_num⟩
    have : 2 ≤ min (Real.sqrt 13) (Real.sqrt 5) := le_min h13 h5
    nlinarith)
  obtain ⟨c, P, Q, a, -, hpts, hQ, -, -, -, ⟨t, ht0, ht1, hseg⟩, -⟩ := C32_smooth ⟨3, 0⟩ ⟨0, 2⟩ ⟨1, 0⟩ 0.1 1 (by norm_num) (by norm_num) hnd pts hp
  have hQ0 : Q.y ≠ 0 ∨ Q.x ≠ 0 := by
    rw [hseg]
    simp only [V2.add, V2.scale, V2.sub]
    by_contra h
    simp only [not_or, not_not] at h
    linarith [h.1, h.2]
  have hpts2 : pts = [PV.plain (turn c 0 P), PV.plain Q] := by
    rw [hpts, ← hQ]
    simp [List.range_succ]
  rw [turn_zero] at hpts2
  set b' : Builder := ⟨true, false, false, [⟨true, .normal, ⟨1, 0⟩, 0, 0⟩, PV.plain ⟨3, 0⟩, PV.plain P, PV.plain Q]⟩ with hb'
  set b'' : Builder := ⟨true, false, false, [PV.plain (V2.add ⟨1, 0⟩ Q), PV.plain ⟨3, 0⟩, PV.plain P, PV.plain Q]⟩ with hb''
  have g1 : dangling.vertices 2 = .ok ([⟨1, 0⟩, ⟨3, 0⟩, P, Q], b') := by
    have hrel : dangling.relToAbs = some (dangling, false) := by
      rw [Builder.relToAbs, hl]
      simp only [List.length_cons, Builder.relToAbsFrom, hl, Builder.prevVertex]
      simp [dangling]
    have harc : passes Builder.arcVertex 2 dangling = .ok dangling := by
      refine passes_idle _ _ (fun j hj => arcVertex_idle _ j hj fun v hv => ?_) 1
      have := List.mem_of_getElem? hv
      rw [hl] at this
      simp only [List.mem_cons, List.not_mem_nil, or_false] at this
      rcases this with rfl | rfl | rfl <;> simp [PV.plain]
    have hsm : passes Builder.smoothVertex 2 dangling = .ok b' := by
      refine passes_once _ dangling b' 2 (by rw [hl]; simp) (fun j hj hne => ?_) ?_ (fun j hj => ?_) ?_ 0
      · refine smoothVertex_idle _ j hj fun v hv => ?_
        rw [hl] at hv hj
        simp only [List.length_cons, List.length_nil] at hj
        have h3 : j = 0 ∨ j = 1 := by omega
        rcases h3 with rfl | rfl
        · simp at hv; rw [← hv]; simp
        · simp at hv; rw [← hv]; simp [PV.plain]
      · unfold Builder.smoothVertex
        have e1 : dangling.vlist[2]? = some ⟨true, .smooth, ⟨0, 2⟩, 1, 0.1⟩ := by rw [hl]; rfl
        have e2 : dangling.prevVertex 2 = some (PV.plain ⟨3, 0⟩) := by
          rw [Builder.prevVertex, if_neg (by omega), hl]; rfl
        have e3 : dangling.nextVertex 2 = some ⟨true, .normal, ⟨1, 0⟩, 0, 0⟩ := by
          rw [Builder.nextVertex, hl]; simp [dangling]
        rw [e1]
        simp only [e2, e3]
        rw [if_neg (by simp)]
        simp only [PV.plain]
        rw [hp]
        simp only
        rw [if_neg (by omega), hl, hpts2]
        simp [hb', dangling, PV.plain]
      · refine smoothVertex_idle _ j hj fun v hv => ?_
        have := List.mem_of_getElem? hv
        rw [hb'] at this
        simp only [List.mem_cons, List.not_mem_nil, or_false] at this
        rcases this with rfl | rfl | rfl | rfl <;> simp [PV.plain]
      · rw [hl]; simp [hb']
    unfold Builder.vertices Builder.fixups
    rw [hrel]
    simp only
    rw [harc]
    simp only
    rw [hsm]
    simp [dangling, hb', PV.plain]
  have g2 : b'.vertices 2 = .ok ([V2.add ⟨1, 0⟩ Q, ⟨3, 0⟩, P, Q], b'') := by
    have hrel : b'.relToAbs = some (b'', true) := by
      have := C32_relative b' (Or.inr ⟨rfl, PV.plain Q, rfl, rfl⟩)
      rw [this]
      simp [hb', hb'', resolve, Builder.start, PV.plain]
    have hn : ∀ v ∈ b''.vlist, v.vtype = .normal := by
      intro v hv
      rw [hb''] at hv
      simp only [List.mem_cons, List.not_mem_nil, or_false] at hv
      rcases hv with rfl | rfl | rfl | rfl <;> simp [PV.plain]
    unfold Builder.vertices Builder.fixups
    rw [hrel]
    simp only
    rw [passes_idle _ b'' (fun j hj => arcVertex_idle _ j hj fun v hv => by rw [hn v (List.mem_of_getElem? hv)]; simp) 1]
    simp only
    rw [passes_idle _ b'' (fun j hj => smoothVertex_idle _ j hj fun v hv => by rw [hn v (List.mem_of_getElem? hv)]; simp) 1]
    simp [hb', hb'', PV.plain]
  refine ⟨_, _, _, _, g1, g2, ?_⟩
  intro h
  simp only [List.cons.injEq, V2.add, V2.mk.injEq] at h
  rcases hQ0 with h0 | h0
  · exact h0 (by linarith [h.1.2])
  · exact h0 (by linarith [h.1.1])

/-! Non-vacuity. -/

/-- A closed polygon with a relative first vertex, a rounded corner and an arc. -/
noncomputable def sample : Builder :=
  ((((Builder.new.add (PV.plain ⟨1, 0⟩).rel).add ((PV.plain ⟨0, 5⟩).rel.smooth 0.5 3)).add ((PV.plain ⟨7, 7⟩).arc 9 5)).add (PV.plain ⟨3, -4⟩)).close

example : sample.isNil = false ∧ sample.Resolvable ∧ (∀ v ∈ sample.vlist, v.Valid) := by
  refine ⟨rfl, Or.inr ⟨rfl, PV.plain ⟨3, -4⟩, rfl, rfl⟩, fun v hv => ?_⟩
  simp only [sample, Builder.close, Builder.add, Builder.new, List.nil_append, List.cons_append, List.mem_cons,
    List.not_mem_nil, or_false] at hv
  rcases hv with rfl | rfl | rfl | rfl
  · exact Or.inl rfl
  · right; rw [PV.smooth, if_pos (by norm_num)]; norm_num
  · right; rw [PV.arc, if_pos (by norm_num)]; norm_num
  · exact Or.inl rfl

example : ∃ n, ∀ fuel ≥ n, ∃ vs b', sample.vertices fuel = .ok (vs, b') ∧ b'.vertices fuel = .ok (vs, b') := by
  have h2 : sample.Resolvable := Or.inr ⟨rfl, PV.plain ⟨3, -4⟩, rfl, rfl⟩
  obtain ⟨n, h⟩ := C32_no_panic_partial sample rfl h2 (by
    intro v hv
    simp only [sample, Builder.close, Builder.add, Builder.new, List.nil_append, List.cons_append, List.mem_cons,
      List.not_mem_nil, or_false] at hv
    rcases hv with rfl | rfl | rfl | rfl
    · exact Or.inl rfl
    · right; rw [PV.smooth, if_pos (by norm_num)]; norm_num
    · right; rw [PV.arc, if_pos (by norm_num)]; norm_num
    · exact Or.inl rfl)
  refine ⟨n, fun fuel hf => ?_⟩
  obtain ⟨vs, b', hv⟩ := h fuel hf
  exact ⟨vs, b', hv, C32_stable _ _ _ _ h2 hv⟩

/-- A right angle with sides of length 2 and a fillet of radius 1. -/
example : V2.cross (V2.sub ⟨2, 0⟩ ⟨0, 0⟩) (V2.sub ⟨0, 2⟩ ⟨0, 0⟩) ≠ 0 ∧ ∃ pts, smoothPoints ⟨2, 0⟩ ⟨0, 0⟩ ⟨0, 2⟩ 1 4 = some pts := by
  have h : V2.cross (V2.sub ⟨2, 0⟩ ⟨0, 0⟩) (V2.sub ⟨0, 2⟩ ⟨0, 0⟩) ≠ 0 := by norm_num [V2.cross, V2.sub]
  refine ⟨h, (C32_smooth_fits _ _ _ _ _ h).mpr ?_⟩
  have e1 : V2.dist ⟨2, 0⟩ ⟨0, 0⟩ = 2 := by
    simp only [V2.dist, V2.norm, V2.sub]; rw [Real.sqrt_eq_iff_mul_self_eq] <;> norm_num
  have e2 : V2.dist ⟨0, 2⟩ ⟨0, 0⟩ = 2 := by
    simp only [V2.dist, V2.norm, V2.sub]; rw [Real.sqrt_eq_iff_mul_self_eq] <;> norm_num
  rw [e1, e2]
  norm_num [V2.cross, V2.sub, V2.dot]

/-- An arc of radius 2 over a chord of length 2. -/
example : (⟨0, 0⟩ : V2) ≠ ⟨2, 0⟩ ∧ V2.dist ⟨0, 0⟩ ⟨2, 0⟩ ≤ 2 * |(2 : ℝ)| := by
  refine ⟨by simp, ?_⟩
  have e1 : V2.dist ⟨0, 0⟩ ⟨2, 0⟩ = 2 := by
    simp only [V2.dist, V2.norm, V2.sub]; rw [Real.sqrt_eq_iff_mul_self_eq] <;> norm_num
  rw [e1]; norm_num

end Sdf
