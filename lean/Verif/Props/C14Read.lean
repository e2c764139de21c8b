import Verif.Props.C14

/-!
C14: the mesh read back from a 3MF document.
-/

namespace Sdf.Mf3

open Classical

/-- Reading a 3MF mesh: look up the three vertices of every triangle; `none` when an index is out of range. -/
def Mesh.decode (m : Mesh) : Option (List Tri) :=
  m.triangles.mapM fun x => do
    let a ← m.vertices[x.v1]?
    let b ← m.vertices[x.v2]?
    let c ← m.vertices[x.v3]?
    pure ⟨a, b, c⟩

theorem mapM_of_getElem? {α β : Type} (f : α → Option β) : ∀ (l : List α) (l' : List β), l.length = l'.length →
    (∀ (k : Nat) x y, l[k]? = some x → l'[k]? = some y → f x = some y) → l.mapM f = some l' := by
  intro l
  induction l with
  | nil =>
    intro l' hl _
    have : l' = [] := List.length_eq_zero_iff.mp (by simpa using hl.symm)
    subst this
    rfl
  | cons x l ih =>
    intro l' hl h
    cases l' with
    | nil => simp at hl
    | cons y l' =>
      have h0 := h 0 x y rfl rfl
      have hr := ih l' (by simpa using hl) fun k x y hx hy => h (k + 1) x y hx hy
      rw [List.mapM_cons, h0, hr]
      rfl

/-- Reading the mesh of the object added for `src` gives back exactly `src`, in order. -/
theorem C14_read_back (m m' : Doc) (src : List Tri) (ok : Prop) (h : m.addObject src m' ok) :
    ∃ obj, m'.objects = m.objects ++ [obj] ∧ m'.build = m.build ++ [obj.id] ∧ obj.mesh.decode = some src := by
  have h' := h
  obtain ⟨rfl, -⟩ := h'
  obtain ⟨obj, h1, -, -, h4, h5⟩ := C14_lossless _ _ src ok h
  have he := List.append_cancel_left h1
  simp only [List.cons.injEq, and_true] at he
  refine ⟨obj, h1, by rw [← he], ?_⟩
  unfold Mesh.decode
  apply mapM_of_getElem? _ _ _ h4
  intro k x t hx ht
  obtain ⟨a1, a2, a3⟩ := h5 k x t hx ht
  rw [a1, a2, a3]
  rfl

end Sdf.Mf3
