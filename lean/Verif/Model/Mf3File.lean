import Verif.Model.Create3MF
import Verif.Spec.ThreeMf

/-!
The file behind a 3MF document, /repo/render/3mf.go: the XML elements the struct tags ask for and the parts of the zip archive.  Text is not
modelled: an XML document is its tree, and how numbers are printed is the parameter `N`.
-/

namespace Sdf.Mf3

open ThreeMf

/-- /repo/render/3mf.go:100-104 `mf3Vertex`. -/
def xmlVertex (N : Numbers) (v : V3) : Xml := .elem "vertex" [("x", N.real v.x), ("y", N.real v.y), ("z", N.real v.z)] "" []

/-- /repo/render/3mf.go:106-110 `mf3Triangle`. -/
def xmlTriangle (N : Numbers) (t : Triangle) : Xml := .elem "triangle" [("v1", N.int t.v1), ("v2", N.int t.v2), ("v3", N.int t.v3)] "" []

/-- /repo/render/3mf.go:95-98 `mf3Mesh`. -/
def xmlMesh (N : Numbers) (m : Mesh) : Xml :=
  .elem "mesh" [] "" [.elem "vertices" [] "" (m.vertices.map (xmlVertex N)), .elem "triangles" [] "" (m.triangles.map (xmlTriangle N))]

/-- /repo/render/3mf.go:85-93 `mf3object`, filled in as by lines 146-157.  All objects have the name `Create3MF` gives. -/
def xmlObject (N : Numbers) (o : Obj) : Xml :=
  .elem "object" [("id", N.int o.id), ("name", "SDFMesh"), ("partnumber", "SDFMesh" ++ "-" ++ N.int o.id), ("pid", N.int 0),
    ("pindex", N.int 0), ("type", "model")] "" [xmlMesh N o.mesh]

/-- /repo/render/3mf.go:75-78 `item`: an empty transform is omitted. -/
def xmlItem (N : Numbers) (id : Nat) : Xml := .elem "item" [("objectid", N.int id)] "" []

/-- /repo/render/3mf.go:80-83 `modelMetadata`, as given by lines 20-25, 35-37 and 51-54. -/
def xmlMetadata : List Xml :=
  [.elem "metadata" [("name", "author")] "anonymous" [],
   .elem "metadata" [("name", "generator")] "Generated by github.com/soypat/sdf. Please report bugs." [],
   .elem "metadata" [("name", "Title")] "SDF" []]

/-- /repo/render/3mf.go:58-73 `model` and `resources`, with the strings of lines 13-18 and 46-56. -/
def xmlModel (N : Numbers) (m : Doc) : Xml :=
  .elem "model" [("unit", "millimeter"), ("xml:lang", "en-US"), ("xmlns", "http://schemas.microsoft.com/3dmanufacturing/core/2015/02")] ""
    (xmlMetadata ++ [.elem "resources" [] "" (m.objects.map (xmlObject N)), .elem "build" [] "" (m.build.map (xmlItem N))])

/-- /repo/render/3mf.go:218-238 `relationships`. -/
def xmlRelationships : Xml :=
  .elem "Relationships" [("xmlns", "http://schemas.openxmlformats.org/package/2006/relationships")] ""
    [.elem "Relationship" [("Target", "3D/3dmodel.model"), ("Id", "rel0"),
      ("Type", "http://schemas.microsoft.com/3dmanufacturing/2013/01/3dmodel")] "" []]

/-- /repo/render/3mf.go:240-244 `mf3Content`. -/
def xmlContent : Xml :=
  .elem "Types" [("xmlns", "http://schemas.openxmlformats.org/package/2006/content-types")] ""
    [.elem "Default" [("Extension", "model"), ("ContentType", "application/vnd.ms-package.3dmanufacturing-3dmodel+xml")] "" [],
     .elem "Default" [("Extension", "rels"), ("ContentType", "application/vnd.openxmlformats-package.relationships+xml")] "" []]

/-- /repo/render/3mf.go:170-216 `Create`: the file that is left and whether the error is nil.  `ok i` tells whether the i-th call that can
fail does not: opening the file, then `Create`, header and `Encode` of the first two parts, `Create` and `Write` of the third, and `Close`.
A part whose writing fails breaks off.  `Close` also runs when an earlier call failed (line 177). -/
def Doc.create (N : Numbers) (ok : Nat → Bool) (m : Doc) : Option File × Bool :=
  let model := ("3D/3dmodel.model", Content.whole (xmlModel N m))
  let rels := ("_rels/.rels", Content.whole xmlRelationships)
  let content := ("[Content_Types].xml", Content.whole xmlContent)
  if !ok 0 then (none, false)
  else if !ok 1 then (some ⟨[], ok 9⟩, false)
  else if !ok 2 || !ok 3 then (some ⟨[("3D/3dmodel.model", .torn)], ok 9⟩, false)
  else if !ok 4 then (some ⟨[model], ok 9⟩, false)
  else if !ok 5 || !ok 6 then (some ⟨[model, ("_rels/.rels", .torn)], ok 9⟩, false)
  else if !ok 7 then (some ⟨[model, rels], ok 9⟩, false)
  else if !ok 8 then (some ⟨[model, rels, ("[Content_Types].xml", .torn)], ok 9⟩, false)
  else (some ⟨[model, rels, content], ok 9⟩, ok 9)

end Sdf.Mf3
