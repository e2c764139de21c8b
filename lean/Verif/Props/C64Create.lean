import Verif.Model.Create3MF
import Verif.Props.C05Fresh
import Verif.Props.C14Read

/-!
C64: does the 3MF document of a rendering hold the whole mesh?  It does not always.
-/

namespace Sdf.Mf3

open Classical

/-- The document `Create3MF` saves for a fresh single-threaded renderer holds one object, built once; reading its mesh gives everything the
renderer delivers but at most five triangles.  Missing for a complete file: these five, which `RenderAll` drops. -/
theorem C64_create_partial (deg : Tri → Bool) (s : SDF3) (meshCells : ℤ) (hb : s.bounds.Solid) (oc oc' oc₂ : Octree.State)
    (h0 : Octree.new s meshCells = some oc) (doc : Doc) (warned : Prop) (h : Create3MF deg oc oc' doc warned)
    (outs : List (List Tri)) (hc : Octree.Calls deg oc outs oc₂ true) :
    ∃ obj tris lost, doc.objects = [obj] ∧ doc.build = [obj.id] ∧ obj.mesh.decode = some tris ∧
      (tris ++ lost).Perm outs.flatten ∧ lost.length ≤ 5 := by
  obtain ⟨t, ok, hr, ha, -⟩ := h
  obtain ⟨obj, h1, h2, h3⟩ := C14_read_back _ _ t ok ha
  obtain ⟨lost, hp, h5⟩ := Octree.C05_single_worker_partial deg s meshCells hb oc oc' oc₂ t h0 hr outs hc
  exact ⟨obj, t, lost, by rw [h1]; rfl, by rw [h2]; rfl, h3, hp, h5⟩

/-- The 3MF document of a plain box of sides 60, 25 and 9 rendered with 30 cells is not closed: two of the triangles the renderer delivers are missing.  The
document exists, so the statement is not empty. -/
theorem C64_create_box_wrong (deg : Tri → Bool) (hdeg : ∀ t, deg t = true → t.a = t.b ∨ t.b = t.c ∨ t.c = t.a) :
    ∃ s oc, Must3.box ⟨60, 25, 9⟩ 0 = some s ∧ Octree.new s 30 = some oc ∧ (∃ oc' doc warned, Create3MF deg oc oc' doc warned) ∧
      ∀ oc' doc warned, Create3MF deg oc oc' doc warned →
        ∃ obj tris, doc.objects = [obj] ∧ obj.mesh.decode = some tris ∧ ¬ Closed tris := by
  obtain ⟨s, oc, hs, hoc, ⟨oc1, res, hr1⟩, ⟨outs, oc2, hc2⟩, hall⟩ := Octree.C05_fresh_box_loses_wrong deg hdeg
  refine ⟨s, oc, hs, hoc, ?_, ?_⟩
  · obtain ⟨doc, ok, hd⟩ := C14_total new3MF res
    exact ⟨oc1, doc, ¬ ok, res, ok, hr1, hd, Iff.rfl⟩
  · rintro oc' doc warned ⟨t, ok, hr, ha, -⟩
    obtain ⟨obj, h1, h2, h3⟩ := C14_read_back _ _ t ok ha
    exact ⟨obj, t, by rw [h1]; rfl, h3, (hall oc' t hr outs oc2 hc2).2.2⟩

end Sdf.Mf3
