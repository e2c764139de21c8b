import Verif.Model.Mf3File
import Verif.Props.C14Read
import Mathlib.Tactic.IntervalCases

/-!
C70: a 3MF file can be opened.  The reader is the specification `ThreeMf.read`, which knows the file format and nothing of the program.
-/

namespace Sdf.Mf3

open ThreeMf

/-- The document after adding the triangle lists `srcs` one by one to an empty one. -/
inductive Added : List (List Tri) → Doc → Prop
  | none : Added [] new3MF
  | add {srcs : List (List Tri)} {m m' : Doc} {src : List Tri} {ok : Prop} : Added srcs m → m.addObject src m' ok → Added (srcs ++ [src]) m'

/-- All coordinates of some triangles satisfy `R`. -/
def AllCoords (R : ℝ → Prop) (l : List Tri) : Prop :=
  ∀ t ∈ l, ∀ v, v = t.a ∨ v = t.b ∨ v = t.c → R v.x ∧ R v.y ∧ R v.z

theorem mapM_map_some {α β γ : Type} (f : β → Option γ) (g : α → β) (h : α → γ) : ∀ (l : List α), (∀ x ∈ l, f (g x) = some (h x)) →
    (l.map g).mapM f = some (l.map h) := by
  intro l
  induction l with
  | nil => intro _; rfl
  | cons x t ih =>
    intro hx
    rw [List.map_cons, List.mapM_cons, hx x (by simp), ih fun y hy => hx y (List.mem_cons_of_mem _ hy)]
    rfl

theorem filter_map_all {α : Type} (g : α → Xml) (n : String) (hn : ∀ x, (g x).name = n) (l : List α) (m : String) (a : List (String × String)) (t : String) :
    (Xml.elem m a t (l.map g)).all n = l.map g := by
  simp only [Xml.all, Xml.kids]
  rw [List.filter_eq_self]
  intro x hx
  obtain ⟨y, _, rfl⟩ := List.mem_map.mp hx
  simp [hn]

variable {N : Numbers} {R : ℝ → Prop}

theorem readVertex_xml (hN : N.Faithful R) (v : V3) (hv : R v.x ∧ R v.y ∧ R v.z) : readVertex N (xmlVertex N v) = some v := by
  have e1 : (xmlVertex N v).attr "x" = some (N.real v.x) := rfl
  have e2 : (xmlVertex N v).attr "y" = some (N.real v.y) := rfl
  have e3 : (xmlVertex N v).attr "z" = some (N.real v.z) := rfl
  unfold readVertex
  rw [e1, e2, e3, Option.bind_some, Option.bind_some, Option.bind_some, hN.real _ hv.1, hN.real _ hv.2.1, hN.real _ hv.2.2]
  rfl

theorem readMesh_xml (hN : N.Faithful R) (m : Mesh) (hv : ∀ v ∈ m.vertices, R v.x ∧ R v.y ∧ R v.z) : readMesh N (xmlMesh N m) = m.decode := by
  have e1 : (xmlMesh N m).child "vertices" = some (.elem "vertices" [] "" (m.vertices.map (xmlVertex N))) := rfl
  have e2 : (xmlMesh N m).child "triangles" = some (.elem "triangles" [] "" (m.triangles.map (xmlTriangle N))) := rfl
  unfold readMesh
  rw [e1, e2]
  simp only [Option.bind_eq_bind, Option.bind_some]
  rw [filter_map_all (xmlVertex N) "vertex" (fun _ => rfl), filter_map_all (xmlTriangle N) "triangle" (fun _ => rfl)]
  rw [mapM_map_some (readVertex N) (xmlVertex N) id m.vertices fun v h => readVertex_xml hN v (hv v h), List.map_id]
  simp only [Option.bind_some]
  unfold Mesh.decode
  rw [List.mapM_map]
  congr 1
  funext x
  have e1 : (xmlTriangle N x).attr "v1" = some (N.int x.v1) := rfl
  have e2 : (xmlTriangle N x).attr "v2" = some (N.int x.v2) := rfl
  have e3 : (xmlTriangle N x).attr "v3" = some (N.int x.v3) := rfl
  simp only [Function.comp, readTriangle, e1, e2, e3, Option.bind_eq_bind, Option.bind_some, hN.int]

/-- What is known of a document made by adding objects. -/
theorem added_inv {srcs : List (List Tri)} {m : Doc} (h : Added srcs m) :
    m.objects.map Obj.id = (List.range m.objects.length).map (· + 1) ∧ m.build = m.objects.map Obj.id ∧
    m.objects.map (fun o => o.mesh.decode) = srcs.map some ∧
    ∀ o ∈ m.objects, ∀ v ∈ o.mesh.vertices, ∃ src ∈ srcs, ∃ t ∈ src, v = t.a ∨ v = t.b ∨ v = t.c := by
  induction h with
  | none => simp [new3MF]
  | add h ha ih =>
    rename_i srcs m m' src ok
    obtain ⟨i1, i2, i3, i4⟩ := ih
    obtain ⟨j1, j2⟩ := C14_ids m m' src ok ha ⟨i1, i2⟩
    obtain ⟨obj, k1, -, k3⟩ := C14_read_back m m' src ok ha
    obtain ⟨obj', l1, -, l3, -⟩ := C14_lossless m m' src ok ha
    have : obj' = obj := by
      rw [k1] at l1; simpa using (List.append_cancel_left l1).symm
    subst this
    refine ⟨j1, j2, ?_, ?_⟩
    · rw [k1]; simp [i3, k3]
    · intro o ho v hv
      rw [k1] at ho
      rcases List.mem_append.mp ho with ho | ho
      · obtain ⟨s, hs, t, ht, e⟩ := i4 o ho v hv
        exact ⟨s, List.mem_append_left _ hs, t, ht, e⟩
      · rw [List.mem_singleton] at ho
        subst ho
        obtain ⟨t, ht, e⟩ := (l3 v).mp hv
        exact ⟨src, by simp, t, ht, e⟩

theorem find_object (hN : N.Faithful R) (l : List Obj) (o : Obj) (ho : o ∈ l) (hid : (l.map Obj.id).Nodup) :
    (l.map (xmlObject N)).find? (fun x => (x.attr "id").bind N.readInt = some o.id) = some (xmlObject N o) := by
  have e : ∀ o, (xmlObject N o).attr "id" = some (N.int o.id) := fun _ => rfl
  induction l with
  | nil => simp at ho
  | cons x t ih =>
    rw [List.map_cons, List.find?_cons]
    simp only [e, Option.bind_some, hN.int, Option.some.injEq]
    rw [List.map_cons, List.nodup_cons] at hid
    rcases List.mem_cons.mp ho with rfl | ho
    · simp
    · have : x.id ≠ o.id := fun h => hid.1 (h ▸ List.mem_map_of_mem ho)
      simp only [this, decide_false]
      exact ih ho hid.2

theorem readModel_xml (hN : N.Faithful R) {srcs : List (List Tri)} {m : Doc} (h : Added srcs m) (hR : ∀ s ∈ srcs, AllCoords R s) :
    readModel N (xmlModel N m) = some srcs := by
  obtain ⟨i1, i2, i3, i4⟩ := added_inv h
  have e1 : (xmlModel N m).child "resources" = some (.elem "resources" [] "" (m.objects.map (xmlObject N))) := rfl
  have e2 : (xmlModel N m).child "build" = some (.elem "build" [] "" (m.build.map (xmlItem N))) := rfl
  unfold readModel
  rw [if_pos ⟨rfl, rfl, rfl⟩, e1, e2]
  simp only [Option.bind_eq_bind, Option.bind_some]
  rw [filter_map_all (xmlItem N) "item" (fun _ => rfl), i2, List.map_map]
  have hnd : (m.objects.map Obj.id).Nodup := by
    rw [i1]; exact List.Nodup.map (fun a b h => by simpa using h) List.nodup_range
  have key : ∀ o ∈ m.objects, readItem N (.elem "resources" [] "" (m.objects.map (xmlObject N))) (xmlItem N o.id) = o.mesh.decode := by
    intro o ho
    have f1 : (xmlItem N o.id).attr "objectid" = some (N.int o.id) := rfl
    have f2 : (xmlObject N o).child "mesh" = some (xmlMesh N o.mesh) := rfl
    unfold readItem
    rw [f1, Option.bind_some, hN.int]
    simp only [Option.bind_eq_bind, Option.bind_some]
    rw [filter_map_all (xmlObject N) "object" (fun _ => rfl), find_object hN _ o ho hnd]
    simp only [Option.bind_some, f2]
    apply readMesh_xml hN
    intro v hv
    obtain ⟨s, hs, t, ht, e⟩ := i4 o ho v hv
    exact hR s hs t ht v e
  apply mapM_of_getElem?
  · have := congrArg List.length i3
    simpa using this
  · intro k x y hx hy
    rw [List.getElem?_map] at hx
    cases ho : m.objects[k]? with
    | none => simp [ho] at hx
    | some o =>
      rw [ho] at hx
      simp only [Option.map_some, Option.some.injEq, Function.comp] at hx
      subst hx
      rw [key o (List.mem_of_getElem? ho)]
      have := congrArg (fun l => l[k]?) i3
      simp only [List.getElem?_map, ho, hy, Option.map_some, Option.some.injEq] at this
      exact this

/-- Opening a file that was saved without error gives back, for every object, exactly the triangles it was made from, in order. -/
theorem C70_opens (hN : N.Faithful R) (srcs : List (List Tri)) (hR : ∀ s ∈ srcs, AllCoords R s) (m : Doc) (h : Added srcs m)
    (ok : Nat → Bool) (file : Option File) (hc : m.create N ok = (file, true)) : ∃ f, file = some f ∧ ThreeMf.read N f = some srcs := by
  unfold Doc.create at hc
  simp only at hc
  split at hc; · simp at hc
  split at hc; · simp at hc
  split at hc; · simp at hc
  split at hc; · simp at hc
  split at hc; · simp at hc
  split at hc; · simp at hc
  split at hc; · simp at hc
  simp only [Prod.mk.injEq] at hc
  obtain ⟨rfl, h9⟩ := hc
  refine ⟨_, rfl, ?_⟩
  rw [h9]
  unfold ThreeMf.read
  set f : File := ⟨[("3D/3dmodel.model", .whole (xmlModel N m)), ("_rels/.rels", .whole xmlRelationships),
    ("[Content_Types].xml", .whole xmlContent)], true⟩
  have p1 : f.part "[Content_Types].xml" = some xmlContent := rfl
  have p2 : f.part "_rels/.rels" = some xmlRelationships := rfl
  have p3 : f.part "3D/3dmodel.model" = some (xmlModel N m) := rfl
  have t1 : HasType xmlContent "3D/3dmodel.model" "application/vnd.ms-package.3dmanufacturing-3dmodel+xml" :=
    ⟨"3D/3dmodel", "model", rfl, _, rfl, rfl⟩
  have t2 : HasType xmlContent "_rels/.rels" "application/vnd.openxmlformats-package.relationships+xml" := ⟨"_rels/", "rels", rfl, _, rfl, rfl⟩
  have r1 : (xmlRelationships.all "Relationship").find? (fun r =>
      r.attr "Type" = some "http://schemas.microsoft.com/3dmanufacturing/2013/01/3dmodel") =
      some (.elem "Relationship" [("Target", "3D/3dmodel.model"), ("Id", "rel0"),
        ("Type", "http://schemas.microsoft.com/3dmanufacturing/2013/01/3dmodel")] "" []) := rfl
  have r2 : (Xml.elem "Relationship" [("Target", "3D/3dmodel.model"), ("Id", "rel0"),
        ("Type", "http://schemas.microsoft.com/3dmanufacturing/2013/01/3dmodel")] "" []).attr "Target" = some "3D/3dmodel.model" := rfl
  rw [p1, p2]
  simp only [Option.bind_eq_bind, Option.bind_some]
  rw [r1]
  simp only [Option.bind_some]
  rw [r2]
  simp only [Option.bind_some]
  rw [if_pos ⟨t1, t2⟩, p3]
  exact readModel_xml hN h hR

/-- A file left behind by a save that reported an error, wherever it failed, is not accepted by any reader. -/
theorem C70_failed (m : Doc) (ok : Nat → Bool) (f : File) (hc : m.create N ok = (some f, false)) : ThreeMf.read N f = none := by
  have key : f.part "[Content_Types].xml" = none := by
    unfold Doc.create at hc
    simp only at hc
    split at hc; · simp at hc
    all_goals
      repeat' split at hc
      all_goals
        simp only [Prod.mk.injEq, Option.some.injEq] at hc
        obtain ⟨rfl, h⟩ := hc
        unfold File.part
        cases h9 : ok 9
        · simp
        · first
          | (rw [h9] at h; cases h)
          | rfl
  unfold ThreeMf.read
  rw [key]
  rfl

/-- Saving succeeds exactly when nothing fails. -/
theorem C70_success (m : Doc) (ok : Nat → Bool) : (m.create N ok).2 = true ↔ ∀ i < 10, ok i = true := by
  unfold Doc.create
  simp only
  constructor
  · intro h
    repeat' split at h
    all_goals first | (simp at h; done) | skip
    rename_i h0 h1 h2 h3 h4 h5 h6
    simp at h h0 h1 h2 h3 h4 h5 h6
    intro i hi
    interval_cases i <;> simp_all
  · intro h
    simp [h]

/-- The file of a rendering, saved without error, opens to one mesh: the triangles `RenderAll` returned. -/
theorem C70_rendering (hN : N.Faithful R) (deg : Tri → Bool) (oc oc' : Octree.State) (doc : Doc) (warned : Prop)
    (h : Create3MF deg oc oc' doc warned) :
    ∃ t, Octree.RenderAll deg oc oc' t ∧ (AllCoords R t → ∀ ok file, doc.create N ok = (file, true) →
      ∃ f, file = some f ∧ ThreeMf.read N f = some [t]) := by
  obtain ⟨t, ok, h1, h2, -⟩ := h
  refine ⟨t, h1, fun hR ok file hc => ?_⟩
  exact C70_opens hN [t] (by simpa using hR) doc (Added.add Added.none h2) ok file hc

/-- Not every reference resolves: each object names a property group 0, and the file has no property groups at all. -/
theorem C70_properties_wrong (m : Doc) (hm : m.objects ≠ []) : ¬ PropertiesResolve (xmlModel N m) := by
  intro h
  obtain ⟨o, t, ht⟩ := List.exists_cons_of_ne_nil hm
  have e1 : (xmlModel N m).child "resources" = some (.elem "resources" [] "" (m.objects.map (xmlObject N))) := rfl
  obtain ⟨g, hg, hn, -⟩ := h _ e1 (xmlObject N o) (by
    rw [filter_map_all (xmlObject N) "object" (fun _ => rfl), ht]; simp) (N.int 0) rfl
  simp only [Xml.kids, List.mem_map] at hg
  obtain ⟨x, -, rfl⟩ := hg
  exact hn rfl

/-- Numbers can be written faithfully: here the natural numbers, in unary. -/
example : ∃ N : Numbers, N.Faithful fun v => ∃ n : ℕ, v = n := by
  refine ⟨⟨fun n => String.ofList (List.replicate n 'I'), fun v => String.ofList (List.replicate ⌊v⌋₊ 'I'), fun s => some s.toList.length,
    fun s => some s.toList.length⟩, fun n => ?_, ?_⟩
  · simp
  · rintro v ⟨n, rfl⟩; simp

/-- Documents of any number of objects exist, and saving them without a failure succeeds. -/
example (t u : List Tri) : ∃ m, Added [t, u] m ∧ (m.create N fun _ => true).2 = true := by
  obtain ⟨m1, ok1, h1⟩ := C14_total new3MF t
  obtain ⟨m2, ok2, h2⟩ := C14_total m1 u
  exact ⟨m2, Added.add (Added.add Added.none h1) h2, rfl⟩

end Sdf.Mf3
