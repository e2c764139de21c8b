import Verif.Model.MarchingCubes

/-!
How a 3MF file is read, after the Open Packaging Conventions and the 3MF Core Specification: the package, the relationship that names the
model part, content types by file extension, and the elements of the model part.  Nothing here refers to the program.
-/

namespace Sdf.ThreeMf

/-- An XML element. -/
inductive Xml where
  | elem (name : String) (attrs : List (String × String)) (text : String) (kids : List Xml)

namespace Xml

def name : Xml → String
  | elem n _ _ _ => n

def kids : Xml → List Xml
  | elem _ _ _ k => k

/-- The value of an attribute. -/
def attr (x : Xml) (key : String) : Option String :=
  match x with
  | elem _ a _ _ => (a.find? fun p => p.1 = key).map Prod.snd

/-- All children of some name. -/
def all (x : Xml) (n : String) : List Xml := x.kids.filter fun k => k.name = n

/-- The first child of some name. -/
def child (x : Xml) (n : String) : Option Xml := x.kids.find? fun k => k.name = n

end Xml

/-- What is stored under a name: a complete document, or one that breaks off. -/
inductive Content where
  | whole (x : Xml)
  | torn

/-- A zip archive; without its directory at the end none of it can be found. -/
structure File where
  parts : List (String × Content)
  directory : Bool

/-- How numbers are written and read. -/
structure Numbers where
  int : ℕ → String
  real : ℝ → String
  readInt : String → Option ℕ
  readReal : String → Option ℝ

/-- Whole numbers survive being written and read, and so do the real numbers of `R` (those a float64 can hold). -/
structure Numbers.Faithful (N : Numbers) (R : ℝ → Prop) : Prop where
  int : ∀ n, N.readInt (N.int n) = some n
  real : ∀ v, R v → N.readReal (N.real v) = some v

/-- The document stored under a name. -/
def File.part (f : File) (name : String) : Option Xml :=
  if f.directory then
    match f.parts.find? fun p => p.1 = name with
    | some (_, .whole x) => some x
    | _ => none
  else none

/-- The content type of a part, found by its extension. -/
def HasType (types : Xml) (part type : String) : Prop :=
  ∃ stem ext, part = stem ++ "." ++ ext ∧
    ∃ d, (types.all "Default").find? (fun d => d.attr "Extension" = some ext) = some d ∧ d.attr "ContentType" = some type

/-- A `vertex` element. -/
def readVertex (N : Numbers) (x : Xml) : Option V3 := do
  let a ← (x.attr "x").bind N.readReal
  let b ← (x.attr "y").bind N.readReal
  let c ← (x.attr "z").bind N.readReal
  pure ⟨a, b, c⟩

/-- A `triangle` element, given the vertices of its mesh. -/
def readTriangle (N : Numbers) (vs : List V3) (x : Xml) : Option Tri := do
  let i ← (x.attr "v1").bind N.readInt
  let j ← (x.attr "v2").bind N.readInt
  let k ← (x.attr "v3").bind N.readInt
  let a ← vs[i]?
  let b ← vs[j]?
  let c ← vs[k]?
  pure ⟨a, b, c⟩

/-- A `mesh` element. -/
def readMesh (N : Numbers) (x : Xml) : Option (List Tri) := do
  let v ← x.child "vertices"
  let t ← x.child "triangles"
  let vs ← (v.all "vertex").mapM (readVertex N)
  (t.all "triangle").mapM (readTriangle N vs)

/-- An `item` of the build: the mesh of the object it names. -/
def readItem (N : Numbers) (resources item : Xml) : Option (List Tri) := do
  let id ← (item.attr "objectid").bind N.readInt
  let o ← (resources.all "object").find? fun o => (o.attr "id").bind N.readInt = some id
  let m ← o.child "mesh"
  readMesh N m

/-- The model part, in millimetres: the meshes to be built. -/
def readModel (N : Numbers) (root : Xml) : Option (List (List Tri)) := do
  if root.name = "model" ∧ root.attr "xmlns" = some "http://schemas.microsoft.com/3dmanufacturing/core/2015/02" ∧
      root.attr "unit" = some "millimeter" then
    let r ← root.child "resources"
    let b ← root.child "build"
    (b.all "item").mapM (readItem N r)
  else none

open Classical in
/-- Reading a 3MF file: the meshes it asks to be built. -/
noncomputable def read (N : Numbers) (f : File) : Option (List (List Tri)) := do
  let types ← f.part "[Content_Types].xml"
  let rels ← f.part "_rels/.rels"
  let rel ← (rels.all "Relationship").find? fun r =>
    r.attr "Type" = some "http://schemas.microsoft.com/3dmanufacturing/2013/01/3dmodel"
  let target ← rel.attr "Target"
  if HasType types target "application/vnd.ms-package.3dmanufacturing-3dmodel+xml" ∧
      HasType types "_rels/.rels" "application/vnd.openxmlformats-package.relationships+xml" then
    let root ← f.part target
    readModel N root
  else none

/-- Every property group an object refers to is among the resources: the attribute `pid` is the id of a resource that is not an object. -/
def PropertiesResolve (root : Xml) : Prop :=
  ∀ r, root.child "resources" = some r → ∀ o ∈ r.all "object", ∀ pid, o.attr "pid" = some pid →
    ∃ g ∈ r.kids, g.name ≠ "object" ∧ g.attr "id" = some pid

end Sdf.ThreeMf
