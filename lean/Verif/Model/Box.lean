import Verif.Model.Vec

/-!
Axis aligned boxes: /repo/internal/d2/box.go and /repo/internal/d3/box.go.
-/

namespace Sdf

/-- /repo/internal/d2/box.go:11 `Box` (gonum `r2.Box`); `lo`/`hi` are the fields `Min`/`Max`. -/
@[ext] structure Box2 where
  lo : V2
  hi : V2

/-- /repo/internal/d3/box.go:11 `Box` (gonum `r3.Box`); `lo`/`hi` are the fields `Min`/`Max`. -/
@[ext] structure Box3 where
  lo : V3
  hi : V3

instance : Inhabited Box2 := ⟨⟨default, default⟩⟩
instance : Inhabited Box3 := ⟨⟨default, default⟩⟩

namespace Box2

/-- /repo/internal/d2/box.go:14-17 `NewBox2`. -/
noncomputable def new (center size : V2) : Box2 :=
  let half := V2.scale 0.5 size
  ⟨V2.sub center half, V2.add center half⟩

/-- /repo/internal/d2/box.go:25-30 `Extend`. -/
noncomputable def extend (a b : Box2) : Box2 := ⟨V2.minElem a.lo b.lo, V2.maxElem a.hi b.hi⟩

/-- /repo/internal/d2/box.go:33-35 `Include`. -/
noncomputable def includeV (a : Box2) (v : V2) : Box2 := ⟨V2.minElem a.lo v, V2.maxElem a.hi v⟩

/-- /repo/internal/d2/box.go:38-40 `Translate`. -/
def translate (a : Box2) (v : V2) : Box2 := ⟨V2.add a.lo v, V2.add a.hi v⟩

/-- /repo/internal/d2/box.go:43-45 `Size`. -/
def size (a : Box2) : V2 := V2.sub a.hi a.lo

/-- /repo/internal/d2/box.go:48-51 `Center`. -/
noncomputable def center (a : Box2) : V2 := V2.add a.lo (V2.scale 0.5 a.size)

/-- /repo/internal/d2/box.go:54-57 `ScaleAboutCenter`. -/
noncomputable def scaleAboutCenter (a : Box2) (k : ℝ) : Box2 := new a.center (V2.scale k a.size)

/-- /repo/internal/d2/box.go:60-63 `Enlarge`. -/
noncomputable def enlarge (a : Box2) (v : V2) : Box2 :=
  let v := V2.scale 0.5 v
  ⟨V2.sub a.lo v, V2.add a.hi v⟩

/-- /repo/internal/d2/box.go:66-69 `Contains`. -/
def Contains (a : Box2) (v : V2) : Prop :=
  a.lo.x ≤ v.x ∧ a.lo.y ≤ v.y ∧ v.x ≤ a.hi.x ∧ v.y ≤ a.hi.y

/-- /repo/internal/d2/box.go:72-79 `Vertices`. -/
def vertices (a : Box2) : List V2 :=
  [a.lo, ⟨a.hi.x, a.lo.y⟩, ⟨a.lo.x, a.hi.y⟩, a.hi]

/-- /repo/internal/d2/box.go:93-131 `MinMaxDist2`; the result is the pair (min, max) that the code
packs in a vector. -/
noncomputable def minMaxDist2 (a : Box2) (p : V2) : V2 :=
  let a := a.translate (V2.scale (-1) p)
  let d := a.vertices.map V2.norm2
  let minV := d.tail.foldl min d.head!
  let maxV := d.foldl max 0
  let withinX := a.lo.x < 0 ∧ a.hi.x > 0
  let withinY := a.lo.y < 0 ∧ a.hi.y > 0
  open Classical in
  let minD :=
    if withinX ∧ withinY then 0
    else
      let m1 := if withinX then
          let d := min |a.hi.y| |a.lo.y|
          min minV (d * d)
        else minV
      if withinY then
        let d := min |a.hi.x| |a.lo.x|
        min m1 (d * d)
      else m1
  ⟨minD, maxV⟩

end Box2

namespace Box3

/-- /repo/internal/d3/box.go:14-17 `NewBox`. -/
noncomputable def new (center size : V3) : Box3 :=
  let half := V3.scale 0.5 size
  ⟨V3.sub center half, V3.add center half⟩

/-- /repo/internal/d3/box.go:21-25 `CenteredBox`. -/
noncomputable def centered (center size : V3) : Box3 :=
  let size := V3.maxElem size ⟨0, 0, 0⟩
  let half := V3.scale 0.5 size
  ⟨V3.sub center half, V3.add center half⟩

/-- /repo/internal/d3/box.go:33-38 `Extend`. -/
noncomputable def extend (a b : Box3) : Box3 := ⟨V3.minElem a.lo b.lo, V3.maxElem a.hi b.hi⟩

/-- /repo/internal/d3/box.go:41-46 `Include`. -/
noncomputable def includeV (a : Box3) (v : V3) : Box3 := ⟨V3.minElem a.lo v, V3.maxElem a.hi v⟩

/-- /repo/internal/d3/box.go:49-51 `Translate`. -/
def translate (a : Box3) (v : V3) : Box3 := ⟨V3.add a.lo v, V3.add a.hi v⟩

/-- /repo/internal/d3/box.go:54-56 `Size`. -/
def size (a : Box3) : V3 := V3.sub a.hi a.lo

/-- /repo/internal/d3/box.go:59-62 `Center`. -/
noncomputable def center (a : Box3) : V3 := V3.add a.lo (V3.scale 0.5 a.size)

/-- /repo/internal/d3/box.go:65-67 `ScaleAboutCenter`. -/
noncomputable def scaleAboutCenter (a : Box3) (k : ℝ) : Box3 := new a.center (V3.scale k a.size)

/-- /repo/internal/d3/box.go:70-76 `Enlarge`. -/
noncomputable def enlarge (a : Box3) (v : V3) : Box3 :=
  let v := V3.scale 0.5 v
  ⟨V3.sub a.lo v, V3.add a.hi v⟩

/-- /repo/internal/d3/box.go:79-82 `Contains`. -/
def Contains (a : Box3) (v : V3) : Prop :=
  a.lo.x ≤ v.x ∧ a.lo.y ≤ v.y ∧ a.lo.z ≤ v.z ∧ v.x ≤ a.hi.x ∧ v.y ≤ a.hi.y ∧ v.z ≤ a.hi.z

/-- /repo/internal/d3/box.go:85-96 `Vertices`. -/
def vertices (a : Box3) : List V3 :=
  [a.lo, ⟨a.lo.x, a.lo.y, a.hi.z⟩, ⟨a.lo.x, a.hi.y, a.lo.z⟩, ⟨a.lo.x, a.hi.y, a.hi.z⟩,
   ⟨a.hi.x, a.lo.y, a.lo.z⟩, ⟨a.hi.x, a.lo.y, a.hi.z⟩, ⟨a.hi.x, a.hi.y, a.lo.z⟩, a.hi]

/-- /repo/internal/d3/box.go:100-142 `MinMaxDist2`; the result is the pair (min, max). -/
noncomputable def minMaxDist2 (a : Box3) (p : V3) : ℝ × ℝ :=
  let a := a.translate (V3.scale (-1) p)
  let d := a.vertices.map V3.norm2
  let minV := d.tail.foldl min d.head!
  let maxV := d.foldl max 0
  let withinX := a.lo.x < 0 ∧ a.hi.x > 0
  let withinY := a.lo.y < 0 ∧ a.hi.y > 0
  let withinZ := a.lo.z < 0 ∧ a.hi.z > 0
  open Classical in
  let minD :=
    if withinX ∧ withinY ∧ withinZ then 0
    else
      let m1 := if withinX ∧ withinY then
          let d := min |a.hi.z| |a.lo.z|
          min minV (d * d)
        else minV
      let m2 := if withinX ∧ withinZ then
          let d := min |a.hi.y| |a.lo.y|
          min m1 (d * d)
        else m1
      if withinY ∧ withinZ then
        let d := min |a.hi.x| |a.lo.x|
        min m2 (d * d)
      else m2
  (minD, maxV)

end Box3

end Sdf
