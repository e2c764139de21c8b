import Verif.Lemmas.RenderLossBox
import Verif.Props.C05
import Verif.Props.C08
import Verif.Props.C18Primitives

/-!
C05, fresh renderers: `RenderAll` loses triangles of an ordinary box rendered from the start with one worker.
-/

namespace Sdf.Octree

open Classical

/-- `RenderAll` of a renderer whose calls keep the invariant always comes to an end. -/
theorem renderAll_exists (deg : Tri → Bool) : ∀ (N : Nat) (oc : State), StateOk oc → measure oc ≤ N →
    ∃ oc' result, RenderAll deg oc oc' result := by
  intro N
  induction N with
  | zero =>
    intro oc hok hm
    obtain ⟨oc', r, hr⟩ := read_progress deg hok (List.replicate 1024 default)
      (List.ne_nil_of_length_pos (by rw [List.length_replicate]; norm_num))
    cases he : r.eof with
    | true => exact ⟨oc', [], .stop List.length_replicate hr he⟩
    | false => have := (read_spec hok hr).dec he; omega
  | succ N ih =>
    intro oc hok hm
    obtain ⟨oc', r, hr⟩ := read_progress deg hok (List.replicate 1024 default)
      (List.ne_nil_of_length_pos (by rw [List.length_replicate]; norm_num))
    cases he : r.eof with
    | true => exact ⟨oc', [], .stop List.length_replicate hr he⟩
    | false =>
      obtain ⟨oc2, rest, h2⟩ := ih oc' (read_spec hok hr).ok (by have := (read_spec hok hr).dec he; omega)
      exact ⟨oc2, _, .more List.length_replicate hr he h2⟩

/-- With one worker, `RenderAll` of a fresh renderer returns everything but at most five triangles, those of one cell.  Missing for
the full property: these five. -/
theorem C05_single_worker_partial (deg : Tri → Bool) (s : SDF3) (meshCells : ℤ) (hb : s.bounds.Solid) (oc oc' oc₂ : State)
    (result : List Tri) (h0 : new s meshCells = some oc) (h : RenderAll deg oc oc' result)
    (outs : List (List Tri)) (hc : Calls deg oc outs oc₂ true) :
    ∃ lost, (result ++ lost).Perm outs.flatten ∧ lost.length ≤ 5 := by
  have hi : Initial s meshCells oc := ⟨oc, h0, rfl⟩
  have f := initial_facts hb hi
  have hconc : oc.concurrent = 0 := by
    unfold new at h0
    split at h0
    · simp at h0
    · simp only at h0
      split at h0
      · simp at h0
      · simp only [Option.some.injEq] at h0; rw [← h0]
  have key : ∀ {oc oc' result}, StateOk oc → oc.concurrent = 0 → oc.unwritten.length ≤ 5 → RenderAll deg oc oc' result →
      ∃ lost : List Tri, (pending deg oc).Perm (result ++ lost) ∧ lost.length ≤ 5 := by
    intro oc oc' result hok hconc hu h
    induction h with
    | stop hlen hr he =>
      cases hr with
      | full => simp at he
      | single => simp at he
      | threaded => simp at he
      | eof _ hl ht =>
        exact ⟨_, by simp only [pending, ht, List.flatMap_nil, List.append_nil, List.nil_append]; exact List.Perm.refl _, hu⟩
    | more hlen hr he hrest ih =>
      rename_i ocA buf oc1 r oc2 rest
      have ht : ocA.todo ≠ [] := by
        cases hr with
        | full _ _ h => omega
        | eof => simp at he
        | single _ _ h => exact h
        | threaded _ _ h => exact h
      obtain ⟨g1, g2, g3, g4⟩ := read_single_any deg hok hconc buf (by omega) ht r hr
      have hs := read_spec hok hr
      have hu1 : oc1.unwritten.length ≤ 5 := by
        rw [g3]
        generalize buf.length - ocA.unwritten.length = room
        have : ∀ (todo : List Cube) (n : Nat), (pass deg ocA.dc room n todo).2.2.2.length ≤ 5 := by
          intro todo
          induction todo with
          | nil => intro n; simp [pass]
          | cons c t ih =>
            intro n
            unfold pass
            by_cases h1 : n = room
            · simp [h1]
            · rw [if_neg h1]
              by_cases h2 : n + 5 > room
              · rw [if_pos h2]; exact ownTris_length deg _ c
              · rw [if_neg h2]; exact ih _
        exact this _ _
      obtain ⟨lost, hl, h5⟩ := ih hs.ok g2 hu1
      refine ⟨lost, hs.perm.trans ?_, h5⟩
      rw [List.append_assoc]
      exact List.Perm.append_left _ hl
  obtain ⟨lost, hp, h5⟩ := key (initial_ok f) hconc (by rw [f.unwritten]; simp) h
  refine ⟨lost, ?_, h5⟩
  have hs := calls_spec (initial_ok f) hc
  obtain ⟨e1, e2⟩ := hs.eof_done rfl
  have := hs.perm
  have e : pending deg oc₂ = [] := by unfold pending; rw [e1, e2]; rfl
  rw [e, List.append_nil] at this
  exact hp.symm.trans this

/-- The renderer of the box. -/
theorem box_setup (s : SDF3) (hs : Must3.box ⟨60, 25, 9⟩ 0 = some s) (oc : State) (h : new s 30 = some oc) :
    s.bounds.Solid ∧ Lip3 s.eval ∧ s.Bounded ∧ BoxDc oc.dc ∧ oc.dc.levels = 7 ∧ oc.todo = [⟨⟨0, 0, 0⟩, 6⟩] ∧ oc.unwritten = []
    ∧ oc.concurrent = 0 := by
  obtain ⟨s', h1, h2, h3, h4⟩ := C18_box3 ⟨60, 25, 9⟩ 0 (by norm_num) (by norm_num) (by norm_num) le_rfl (by norm_num) (by norm_num)
    (by norm_num)
  rw [hs] at h1
  cases h1
  have hev : ∀ p, s.eval p = sdfBox3d p ⟨30, 12.5, 4.5⟩ := by
    intro p
    unfold Must3.box at hs
    split_ifs at hs
    cases hs
    simp only [V3.sub, V3.scale, V3.elem]
    norm_num
  have hbd : s.bounds = ⟨⟨-30, -12.5, -4.5⟩, ⟨30, 12.5, 4.5⟩⟩ := by
    unfold Must3.box at hs
    split_ifs at hs
    cases hs
    simp only [V3.scale]
    norm_num
  have hsol : s.bounds.Solid := by rw [hbd]; unfold Box3.Solid; norm_num
  have f := initial_facts (oc := oc) hsol ⟨oc, h, rfl⟩
  have hd : depth 30 = 6 := by
    unfold depth
    have h1 : Real.logb 2 (2 * ((30 : ℤ) : ℝ)) ≤ 6 := by
      rw [Real.logb_le_iff_le_rpow (by norm_num) (by norm_num)]
      norm_num
    have h2 : 5 < Real.logb 2 (2 * ((30 : ℤ) : ℝ)) := by
      rw [Real.lt_logb_iff_rpow_lt (by norm_num) (by norm_num)]
      norm_num
    rw [Nat.ceil_eq_iff (by norm_num)]
    constructor
    · push_cast at h2 ⊢; linarith
    · push_cast at h1 ⊢; exact h1
  refine ⟨hsol, ?_, ?_, ⟨?_, ?_, ?_⟩, by rw [f.levels, hd], by rw [f.todo, hd], f.unwritten, ?_⟩
  · intro p q
    rw [hev, hev]
    exact sdfBox3d_lip _ p q
  · intro p hp
    rw [hbd]
    have := (h3 rfl p).mp hp
    simp only [abs_lt] at this
    norm_num at this ⊢
    unfold Box3.Contains
    simp only
    and_intros <;> linarith [this.1.1, this.1.2, this.2.1.1, this.2.1.2, this.2.2.1, this.2.2.2]
  · rw [f.res, longAxis_eq, hbd]; norm_num
  · rw [f.origin, scaled_lo, hbd]; ext <;> norm_num
  · intro p; rw [f.dc_s, hev]
  · unfold new at h
    rw [if_neg (by norm_num)] at h
    simp only at h
    split at h
    · simp at h
    · simp only [Option.some.injEq] at h; rw [← h]

/-- The two triangles of the last cell are not a closed surface. -/
theorem endLeaf_open (deg : Tri → Bool) (hdeg : ∀ t, deg t = true → t.a = t.b ∨ t.b = t.c ∨ t.c = t.a) {dc : Dc3} (hd : BoxDc dc) :
    (ownTris deg dc endLeaf).length = 2 ∧ ¬ Closed (ownTris deg dc endLeaf) := by
  have hl := leaf_box deg hdeg hd endLeaf
  have hfar := leafTris_far deg hdeg dc (by rw [hd.res]; norm_num) endLeaf (fun a => (value_sign hd _).2)
  rw [rowZ] at hl
  have hown : ownTris deg dc endLeaf = leafTris deg dc endLeaf := by unfold ownTris; exact if_pos rfl
  have hdist : ∀ t ∈ leafTris deg dc endLeaf, ¬ (t.a = t.b ∨ t.b = t.c ∨ t.c = t.a) := by
    intro t ht
    rw [hfar] at ht
    have e : (fun i => dc.pos (leafCorners endLeaf i)) = cellCorners (MC.gridPos (dc.pos endLeaf.o) (2 * dc.resolution)) (0, 0, 0) := by
      funext i
      fin_cases i <;> simp [leafCorners, cellCorners, MC.gridPos, Dc3.pos, V3.add, V3.scale, V3i.toV3, V3i.add] <;>
        (try constructor) <;> (try constructor) <;> ring
    rw [e] at ht
    exact MC.raw_distinct _ (by rw [hd.res]; norm_num) _ _ (fun a => (value_sign hd _).2) t ht
  rw [hl] at hdist
  rw [hown, hl]
  refine ⟨rfl, ?_⟩
  have hx : ∀ (p1 p2 : V3) (v1 v2 : ℝ), p1.x = p2.x → (MC.interpolate p1 p2 v1 v2 0).x = p1.x := by
    intro p1 p2 v1 v2 h
    unfold MC.interpolate
    simp only
    split_ifs <;> simp [h]
  have h39 : MC.ptsAll (fun i => dc.pos (leafCorners endLeaf i)) (fun i => dc.value (leafCorners endLeaf i)) 0 3
      ≠ MC.ptsAll (fun i => dc.pos (leafCorners endLeaf i)) (fun i => dc.value (leafCorners endLeaf i)) 0 9 := by
    intro h
    have h' := congrArg V3.x h
    unfold MC.ptsAll at h'
    rw [hx _ _ _ _ (by simp [MC.pairTable, leafCorners, Dc3.pos, V3.add, V3.scale, V3i.toV3, V3i.add]),
      hx _ _ _ _ (by simp [MC.pairTable, leafCorners, Dc3.pos, V3.add, V3.scale, V3i.toV3, V3i.add])] at h'
    simp [MC.pairTable, leafCorners, Dc3.pos, V3.add, V3.scale, V3i.toV3, V3i.add, endLeaf, hd.res] at h'
    norm_num at h'
  generalize MC.ptsAll (fun i => dc.pos (leafCorners endLeaf i)) (fun i => dc.value (leafCorners endLeaf i)) 0 = P at hdist h39 ⊢
  have d1 := hdist _ (List.mem_cons_self ..)
  have d2 := hdist _ (List.mem_cons_of_mem _ (List.mem_cons_self ..))
  simp only [List.map_cons, List.map_nil, not_or] at d1 d2 ⊢
  obtain ⟨a1, a2, a3⟩ := d1
  obtain ⟨b1, b2, b3⟩ := d2
  intro hcl
  have := hcl (P 3) (P 8)
  unfold edgeCount at this
  simp only [List.flatMap_cons, List.flatMap_nil, List.append_nil, Tri.edges] at this
  have hpos : 0 < List.count (P 3, P 8) ([(P 3, P 8), (P 8, P 1), (P 1, P 3)] ++ [(P 1, P 8), (P 8, P 9), (P 9, P 1)]) :=
    List.count_pos_iff.mpr (by simp)
  rw [this] at hpos
  have hm := List.count_pos_iff.mp hpos
  simp only [List.cons_append, List.nil_append, List.mem_cons, Prod.mk.injEq, List.not_mem_nil, or_false] at hm
  rcases hm with h | h | h | h | h | h
  · exact a1 h.2
  · exact a3 h.2.symm
  · exact a2 h.1
  · exact b1 h.1.symm
  · exact h39 h.2
  · exact b2 h.1

/-- A fresh, single-threaded renderer of an ordinary box: `RenderAll` always finishes, always leaves out exactly two of the triangles that
reading to `io.EOF` delivers, and what it returns is not closed although what the renderer delivers is. -/
theorem C05_fresh_box_loses_wrong (deg : Tri → Bool) (hdeg : ∀ t, deg t = true → t.a = t.b ∨ t.b = t.c ∨ t.c = t.a) :
    ∃ s oc, Must3.box ⟨60, 25, 9⟩ 0 = some s ∧ new s 30 = some oc ∧ (∃ oc' result, RenderAll deg oc oc' result) ∧
      (∃ outs oc₂, Calls deg oc outs oc₂ true) ∧
      ∀ oc' result, RenderAll deg oc oc' result → ∀ outs oc₂, Calls deg oc outs oc₂ true →
        (∃ lost, (result ++ lost).Perm outs.flatten ∧ lost.length = 2) ∧ Closed outs.flatten ∧ ¬ Closed result := by
  obtain ⟨s, hs, -⟩ := C18_box3 ⟨60, 25, 9⟩ 0 (by norm_num) (by norm_num) (by norm_num) le_rfl (by norm_num) (by norm_num) (by norm_num)
  have hsol : s.bounds.Solid := by
    unfold Must3.box at hs
    split_ifs at hs
    cases hs
    unfold Box3.Solid
    simp only [V3.scale]
    norm_num
  obtain ⟨oc, h⟩ : ∃ oc, new s 30 = some oc := Option.ne_none_iff_exists'.mp
    ((not_congr (C02_new_panics_iff s 30 hsol)).mpr (by norm_num))
  obtain ⟨-, hlip, hbd, hdc, hlev, htodo, hun, hconc⟩ := box_setup s hs oc h
  have hi : Initial s 30 oc := ⟨oc, h, rfl⟩
  have f := initial_facts hsol hi
  have hok := initial_ok f
  refine ⟨s, oc, hs, h, renderAll_exists deg _ oc hok le_rfl, calls_extend (fun _ => [default]) (by simp) _ oc oc [] hok .nil le_rfl, ?_⟩
  intro oc' result hr outs oc₂ hcalls
  have hlost := renderAll_lost deg cntZ kidsZ oc.dc (kids_box hdc) (cnt_box deg hdeg hdc) 20 oc oc' result none (some endLeaf)
    hok hconc rfl hun (by rw [htodo]; exact runZ) hr
  simp only [Option.elim_some] at hlost
  have hsp := calls_spec hok hcalls
  obtain ⟨e1, e2⟩ := hsp.eof_done rfl
  have hperm := hsp.perm
  have e : pending deg oc₂ = [] := by unfold pending; rw [e1, e2]; rfl
  rw [e, List.append_nil] at hperm
  have hfull := hlost.symm.trans hperm
  obtain ⟨hlen, hopen⟩ := endLeaf_open deg hdeg hdc
  have hclosed : Closed outs.flatten := by
    apply C08_octree_mesh_closed s 30 hsol hlip hbd deg hdeg oc oc₂ outs hi hcalls
    intro c _
    left
    intro a h0
    have := (value_sign hdc (leafCorners c a)).2
    unfold Dc3.value at this
    rw [h0, abs_zero] at this
    unfold MC.epsilon at this
    norm_num at this
  refine ⟨⟨_, hfull, hlen⟩, hclosed, ?_⟩
  intro hcr
  apply hopen
  have h1 := (closed_perm hfull).mpr hclosed
  intro p q
  have a := h1 p q
  have b := hcr p q
  unfold edgeCount at a b ⊢
  rw [List.flatMap_append, List.count_append, List.count_append] at a
  omega

/-- The hypothesis on `deg` holds of the test that rejects nothing. -/
example : ∀ t : Tri, (fun _ => false) t = true → t.a = t.b ∨ t.b = t.c ∨ t.c = t.a := by simp

end Sdf.Octree
