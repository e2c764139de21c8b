import Verif.Model.Mf3
import Mathlib.Data.List.Nodup
import Mathlib.Data.List.Count
import Mathlib.Tactic.Linarith
import Mathlib.Tactic.NormNum

/-!
C14: 3MF export is lossless and deduplicated.
-/

namespace Sdf.Mf3

open Classical

/-- The corners of a list of triangles, in order. -/
def corners (ts : List Tri) : List V3 := ts.flatMap fun t => [t.a, t.b, t.c]

/-- Bookkeeping invariant after the corners `L`. -/
structure Inv (a : Acc) (L : List V3) : Prop where
  nodup : a.vertices.Nodup
  mem : ∀ v, v ∈ a.vertices ↔ v ∈ L
  get : ∀ v i c, a.vmap v = some (i, c) → a.vertices[i]? = some v ∧ c = L.count v
  none : ∀ v, a.vmap v = none → v ∉ L

theorem inv_start : Inv ⟨fun _ => none, []⟩ [] := ⟨by simp, by simp, by simp, by simp⟩

theorem inv_corner {a : Acc} {L : List V3} (h : Inv a L) (v : V3) :
    Inv (a.corner v).1 (L ++ [v]) ∧ (a.corner v).1.vertices[(a.corner v).2]? = some v ∧
      ∃ ext, (a.corner v).1.vertices = a.vertices ++ ext := by
  unfold Acc.corner
  cases hv : a.vmap v with
  | none =>
    have hnot := h.none v hv
    refine ⟨⟨?_, ?_, ?_, ?_⟩, by simp, _, rfl⟩
    · simp only
      rw [List.nodup_append]
      exact ⟨h.nodup, by simp, fun x hx y hy => by
        rw [List.mem_singleton] at hy; subst hy; rintro rfl; exact hnot ((h.mem _).1 hx)⟩
    · intro w; simp [h.mem w]
    · intro w i c hw
      simp only at hw ⊢
      by_cases e : w = v
      · subst e
        rw [Function.update_self] at hw
        cases hw
        exact ⟨by simp, by simp [List.count_eq_zero_of_not_mem hnot]⟩
      · rw [Function.update_of_ne e] at hw
        obtain ⟨h1, h2⟩ := h.get w i c hw
        refine ⟨?_, ?_⟩
        · rw [List.getElem?_append_left]
          · exact h1
          · exact (List.getElem?_eq_some_iff.1 h1).1
        · rw [List.count_append, h2, List.count_singleton]
          simp [Ne.symm e]
    · intro w hw
      simp only at hw
      by_cases e : w = v
      · subst e; rw [Function.update_self] at hw; cases hw
      · rw [Function.update_of_ne e] at hw
        simp [h.none w hw, e]
  | some p =>
    obtain ⟨idx, count⟩ := p
    obtain ⟨g1, g2⟩ := h.get v idx count hv
    have hmem : v ∈ L := (h.mem v).1 (List.mem_of_getElem? g1)
    refine ⟨⟨h.nodup, ?_, ?_, ?_⟩, g1, [], by simp⟩
    · intro w
      simp only [h.mem w, List.mem_append, List.mem_singleton]
      exact ⟨Or.inl, fun hw => hw.elim id fun e => e ▸ hmem⟩
    · intro w i c hw
      simp only at hw ⊢
      by_cases e : w = v
      · subst e
        rw [Function.update_self] at hw
        cases hw
        exact ⟨g1, by rw [List.count_append, ← g2]; simp⟩
      · rw [Function.update_of_ne e] at hw
        obtain ⟨h1, h2⟩ := h.get w i c hw
        refine ⟨h1, ?_⟩
        rw [List.count_append, h2, List.count_singleton]
        simp [Ne.symm e]
    · intro w hw
      simp only at hw
      by_cases e : w = v
      · subst e; rw [Function.update_self] at hw; cases hw
      · rw [Function.update_of_ne e] at hw
        simp [h.none w hw, e]

theorem getElem?_ext {l ext : List V3} {i : Nat} {v : V3} (h : l[i]? = some v) : (l ++ ext)[i]? = some v := by
  rw [List.getElem?_append_left (List.getElem?_eq_some_iff.1 h).1]; exact h

/-- The 3MF triangle `x` stands for the triangle `t`. -/
def Stands (vertices : List V3) (x : Triangle) (t : Tri) : Prop :=
  vertices[x.v1]? = some t.a ∧ vertices[x.v2]? = some t.b ∧ vertices[x.v3]? = some t.c

theorem inv_tri {a : Acc} {L : List V3} (h : Inv a L) (t : Tri) :
    Inv (a.tri t).1 (L ++ [t.a, t.b, t.c]) ∧ Stands (a.tri t).1.vertices (a.tri t).2 t ∧
      ∃ ext, (a.tri t).1.vertices = a.vertices ++ ext := by
  obtain ⟨i1, g1, e1, h1⟩ := inv_corner h t.a
  obtain ⟨i2, g2, e2, h2⟩ := inv_corner i1 t.b
  obtain ⟨i3, g3, e3, h3⟩ := inv_corner i2 t.c
  refine ⟨?_, ⟨?_, ?_, g3⟩, e1 ++ (e2 ++ e3), ?_⟩
  · simpa [Acc.tri] using i3
  · simp only [Acc.tri]; rw [h3, h2]; exact getElem?_ext (getElem?_ext g1)
  · simp only [Acc.tri]; rw [h3]; exact getElem?_ext g2
  · simp only [Acc.tri]; rw [h3, h2, h1]; simp

theorem inv_tris (ts : List Tri) : ∀ {a : Acc} {L : List V3}, Inv a L →
    Inv (a.tris ts).1 (L ++ corners ts) ∧ (a.tris ts).2.length = ts.length ∧
      (∀ (k : Nat) (x : Triangle) (t : Tri), (a.tris ts).2[k]? = some x → ts[k]? = some t → Stands (a.tris ts).1.vertices x t) ∧
      ∃ ext, (a.tris ts).1.vertices = a.vertices ++ ext := by
  induction ts with
  | nil => intro a L h; exact ⟨by simpa [corners, Acc.tris] using h, rfl, by simp [Acc.tris], [], by simp [Acc.tris]⟩
  | cons t ts ih =>
    intro a L h
    obtain ⟨i1, g1, e1, h1⟩ := inv_tri h t
    obtain ⟨i2, l2, g2, e2, h2⟩ := ih i1
    refine ⟨by simpa [corners, Acc.tris] using i2, by simp [Acc.tris, l2], ?_, e1 ++ e2, ?_⟩
    · intro k x u hx hu
      cases k with
      | zero =>
        simp only [Acc.tris, List.getElem?_cons_zero, Option.some.injEq] at hx hu
        subst hx; subst hu
        simp only [Acc.tris]
        rw [h2]
        exact ⟨getElem?_ext g1.1, getElem?_ext g1.2.1, getElem?_ext g1.2.2⟩
      | succ k =>
        simp only [Acc.tris, List.getElem?_cons_succ] at hx hu
        exact g2 k x u hx hu
    · simp only [Acc.tris]; rw [h2, h1]; simp

/-- The object added for `src`: its vertices are pairwise distinct and are exactly the corners of the triangles, there is one 3MF
triangle per triangle, and looking its indices up (they are in range) gives exactly the corners of that triangle. -/
theorem C14_lossless (m m' : Doc) (src : List Tri) (ok : Prop) (h : m.addObject src m' ok) :
    ∃ obj, m'.objects = m.objects ++ [obj] ∧ obj.mesh.vertices.Nodup ∧
      (∀ v, v ∈ obj.mesh.vertices ↔ ∃ t ∈ src, v = t.a ∨ v = t.b ∨ v = t.c) ∧
      obj.mesh.triangles.length = src.length ∧
      ∀ (k : Nat) (x : Triangle) (t : Tri), obj.mesh.triangles[k]? = some x → src[k]? = some t →
        obj.mesh.vertices[x.v1]? = some t.a ∧ obj.mesh.vertices[x.v2]? = some t.b ∧ obj.mesh.vertices[x.v3]? = some t.c := by
  obtain ⟨rfl, -⟩ := h
  obtain ⟨i, l, g, -⟩ := inv_tris src inv_start
  refine ⟨_, rfl, i.nodup, fun v => ?_, l, g⟩
  rw [i.mem v]
  simp [corners]

/-- `AddObject` reports an error exactly when some vertex occurs fewer than three times as a corner. -/
theorem C14_rejected_iff (m m' : Doc) (src : List Tri) (ok : Prop) (h : m.addObject src m' ok) :
    ¬ ok ↔ ∃ v, 0 < (corners src).count v ∧ (corners src).count v < 3 := by
  obtain ⟨-, hok⟩ := h
  obtain ⟨i, -, -, -⟩ := inv_tris src inv_start
  rw [List.nil_append] at i
  rw [hok, not_not]
  constructor
  · rintro ⟨v, idx, count, hv, hlt⟩
    obtain ⟨h1, h2⟩ := i.get v idx count hv
    refine ⟨v, List.count_pos_iff.2 ((i.mem v).1 (List.mem_of_getElem? h1)), h2 ▸ hlt⟩
  · rintro ⟨v, h1, h2⟩
    cases hv : ((⟨fun _ => none, []⟩ : Acc).tris src).1.vmap v with
    | none => exact absurd (List.count_pos_iff.1 h1) (i.none v hv)
    | some p => exact ⟨v, p.1, p.2, hv, (i.get v p.1 p.2 hv).2 ▸ h2⟩

/-- A document built by `AddObject` alone has one build item per object, with ids 1, 2, 3, … -/
theorem C14_ids (m m' : Doc) (src : List Tri) (ok : Prop) (h : m.addObject src m' ok)
    (hm : m.objects.map Obj.id = (List.range m.objects.length).map (· + 1) ∧ m.build = m.objects.map Obj.id) :
    m'.objects.map Obj.id = (List.range m'.objects.length).map (· + 1) ∧ m'.build = m'.objects.map Obj.id := by
  obtain ⟨rfl, -⟩ := h
  obtain ⟨h1, h2⟩ := hm
  constructor
  · simp only [List.map_append, h1, List.length_append, List.length_singleton, List.range_succ]
    simp
  · simp [h2]

/-- Every list of triangles can be added. -/
theorem C14_total (m : Doc) (src : List Tri) : ∃ m' ok, m.addObject src m' ok := ⟨_, _, rfl, Iff.rfl⟩

/-- Both outcomes occur: a single triangle is rejected, a tetrahedron accepted. -/
example : (∃ v, 0 < (corners [⟨⟨0, 0, 0⟩, ⟨1, 0, 0⟩, ⟨0, 1, 0⟩⟩]).count v ∧ (corners [⟨⟨0, 0, 0⟩, ⟨1, 0, 0⟩, ⟨0, 1, 0⟩⟩]).count v < 3) :=
  ⟨⟨0, 0, 0⟩, by simp [corners], by simp [corners]⟩

example : ¬ ∃ v, 0 < (corners [⟨⟨0, 0, 0⟩, ⟨1, 0, 0⟩, ⟨0, 1, 0⟩⟩, ⟨⟨0, 0, 0⟩, ⟨0, 1, 0⟩, ⟨0, 0, 1⟩⟩, ⟨⟨0, 0, 0⟩, ⟨0, 0, 1⟩, ⟨1, 0, 0⟩⟩,
    ⟨⟨1, 0, 0⟩, ⟨0, 0, 1⟩, ⟨0, 1, 0⟩⟩]).count v ∧ (corners [⟨⟨0, 0, 0⟩, ⟨1, 0, 0⟩, ⟨0, 1, 0⟩⟩, ⟨⟨0, 0, 0⟩, ⟨0, 1, 0⟩, ⟨0, 0, 1⟩⟩,
    ⟨⟨0, 0, 0⟩, ⟨0, 0, 1⟩, ⟨1, 0, 0⟩⟩, ⟨⟨1, 0, 0⟩, ⟨0, 0, 1⟩, ⟨0, 1, 0⟩⟩]).count v < 3 := by
  rintro ⟨v, h1, h2⟩
  have := List.count_pos_iff.1 h1
  simp only [corners, List.flatMap_cons, List.flatMap_nil, List.append_nil, List.cons_append, List.nil_append,
    List.mem_cons, List.not_mem_nil, or_false] at this
  have hv : v = ⟨0, 0, 0⟩ ∨ v = ⟨1, 0, 0⟩ ∨ v = ⟨0, 1, 0⟩ ∨ v = ⟨0, 0, 1⟩ := by tauto
  rcases hv with rfl | rfl | rfl | rfl <;> simp [corners] at h2

end Sdf.Mf3
