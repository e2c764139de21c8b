import Verif.Model.MarchingCubes
import Verif.Model.Sdf
import Mathlib.Analysis.SpecialFunctions.Log.Base
import Mathlib.Algebra.Order.Floor.Semiring

/-!
The octree renderer, /repo/render/octree_renderer.go, and RenderAll, /repo/render/io.go.

Code that runs concurrently (`readTriangles` and everything below it) is modelled as a program `Prog` whose
steps are the accesses to shared state: looking up or filling the distance cache (`eval`) and appending to the
`unwritten` buffer (`push`).  Writes into the destination slice go to memory owned by one worker and are
modelled by the worker's result.  The debugging counters `triangles`, `cubes`, `cubesP`, which nothing reads, are
left out.  Go `int` coordinates are modelled by `ℤ`.
-/

namespace Sdf

/-- /repo/veci.go:11 `V3i`. -/
@[ext] structure V3i where
  x : ℤ
  y : ℤ
  z : ℤ
deriving DecidableEq

namespace V3i
/-- /repo/veci.go:44-46 `V3i.Add`. -/
def add (a b : V3i) : V3i := ⟨a.x + b.x, a.y + b.y, a.z + b.z⟩
/-- /repo/veci.go:29-31 `V3i.AddScalar`. -/
def addScalar (a : V3i) (b : ℤ) : V3i := ⟨a.x + b, a.y + b, a.z + b⟩
/-- /repo/veci.go:34-36 `V3i.ToV3`. -/
def toV3 (a : V3i) : V3 := ⟨a.x, a.y, a.z⟩
end V3i

namespace Octree

/-- /repo/render/octree_renderer.go:29-32 `cube`. -/
@[ext] structure Cube where
  o : V3i
  n : Nat
deriving DecidableEq

/-- /repo/render/octree_renderer.go:233-240 `dc3` without the cache, which is part of the shared state;
`levels` is `len(hdiag)`. -/
structure Dc3 where
  origin : V3
  resolution : ℝ
  levels : Nat
  s : SDF3

/-- /repo/render/octree_renderer.go:244: position of a grid vertex. -/
def Dc3.pos (dc : Dc3) (vi : V3i) : V3 := V3.add dc.origin (V3.scale dc.resolution vi.toV3)

/-- /repo/render/octree_renderer.go:252: the SDF evaluated at a grid vertex. -/
def Dc3.value (dc : Dc3) (vi : V3i) : ℝ := dc.s.eval (dc.pos vi)

/-- /repo/render/octree_renderer.go:281-285: entry `i` of the half-diagonal table. -/
noncomputable def Dc3.hdiag (dc : Dc3) (i : Nat) : ℝ :=
  let s := (2 ^ i : ℝ) * dc.resolution
  0.5 * Real.sqrt (3.0 * s * s)

/-- Programs over the state shared between goroutines.
`eval vi k`: call `dc.Evaluate(vi)` and continue with the returned distance.
`push ts k`: `oc.unwritten.Write(ts)` under the lock.  `panic`: a Go panic. -/
inductive Prog (α : Type) : Type
  | ret (a : α)
  | eval (vi : V3i) (k : ℝ → Prog α)
  | push (ts : List Tri) (k : Prog α)
  | panic

/-- Sequencing of programs. -/
def Prog.bind {α β : Type} : Prog α → (α → Prog β) → Prog β
  | .ret a, f => f a
  | .eval vi k, f => .eval vi fun d => (k d).bind f
  | .push ts k, f => .push ts (k.bind f)
  | .panic, _ => .panic

/-- /repo/render/octree_renderer.go:259-265 `IsEmpty`.  For level 0, `1 << (c.n-1)` is a shift by a
wrapped-around count; for a level beyond the table, the index panics.  Both are modelled as `panic` and shown
unreachable. -/
noncomputable def isEmpty (dc : Dc3) (c : Cube) : Prog Bool :=
  if c.n = 0 ∨ dc.levels ≤ c.n then .panic
  else
    let s : ℤ := 2 ^ (c.n - 1)
    .eval (c.o.addScalar s) fun d => .ret (open Classical in decide (|d| ≥ dc.hdiag c.n))

/-- /repo/render/octree_renderer.go:203-214: the eight sub-cubes, in this order. -/
def subCubes (c : Cube) : List Cube :=
  let n := c.n - 1
  let s : ℤ := 2 ^ n
  [⟨c.o.add ⟨0, 0, 0⟩, n⟩, ⟨c.o.add ⟨s, 0, 0⟩, n⟩, ⟨c.o.add ⟨s, s, 0⟩, n⟩, ⟨c.o.add ⟨0, s, 0⟩, n⟩,
   ⟨c.o.add ⟨0, 0, s⟩, n⟩, ⟨c.o.add ⟨s, 0, s⟩, n⟩, ⟨c.o.add ⟨s, s, s⟩, n⟩, ⟨c.o.add ⟨0, s, s⟩, n⟩]

/-- /repo/render/octree_renderer.go:189-196: the eight corners of a leaf cell, in this order. -/
def leafCorners (c : Cube) : Fin 8 → V3i :=
  ![c.o.add ⟨0, 0, 0⟩, c.o.add ⟨2, 0, 0⟩, c.o.add ⟨2, 2, 0⟩, c.o.add ⟨0, 2, 0⟩,
    c.o.add ⟨0, 0, 2⟩, c.o.add ⟨2, 0, 2⟩, c.o.add ⟨2, 2, 2⟩, c.o.add ⟨0, 2, 2⟩]

/-- Evaluate a list of grid vertices in order, collecting the distances. -/
def evalAll : List V3i → Prog (List ℝ)
  | [] => .ret []
  | vi :: r => .eval vi fun d => (evalAll r).bind fun ds => .ret (d :: ds)

/-- /repo/render/octree_renderer.go:216-220: keep the candidates that are not empty. -/
noncomputable def filterEmpty (dc : Dc3) : List Cube → Prog (List Cube)
  | [] => .ret []
  | c :: r => (isEmpty dc c).bind fun e =>
      (filterEmpty dc r).bind fun cs => .ret (if e then cs else c :: cs)

/-- /repo/render/octree_renderer.go:186-228 `processCube`: triangles written and new cubes.  `dstLen` is the
length of the slice it may write to.  A level-0 cube never occurs; the code would compute a wrapped-around
level, modelled as `panic`. -/
noncomputable def processCube (deg : Tri → Bool) (dc : Dc3) (dstLen : Nat) (c : Cube) :
    Prog (List Tri × List Cube) :=
  if c.n = 1 then
    (evalAll (List.ofFn (leafCorners c))).bind fun ds =>
      match MC.toTriangles deg dstLen (fun i => dc.pos (leafCorners c i)) (fun i => ds.getD i 0) 0 with
      | none => .panic
      | some ts => .ret (ts, [])
  else if c.n = 0 then .panic
  else (filterEmpty dc (subCubes c)).bind fun cs => .ret ([], cs)

/-- /repo/render/octree_renderer.go:107-130 `readTriangles`: loop over `todo`; `n` is the number of triangles
already in `dst` (of length `dstLen`).  Returns the triangles written from here on, the number of cubes
processed and the new cubes. -/
noncomputable def readTriangles (deg : Tri → Bool) (dc : Dc3) (dstLen : Nat) :
    (n : Nat) → List Cube → Prog (List Tri × Nat × List Cube)
  | _, [] => .ret ([], 0, [])
  | n, c :: todo =>
    if n = dstLen then .ret ([], 0, [])
    else if n + MC.maxTriangles > dstLen then
      (processCube deg dc MC.maxTriangles c).bind fun (tri, cubes) =>
        .push tri (.ret ([], 1, cubes))
    else
      (processCube deg dc (dstLen - n) c).bind fun (tri, cubes) =>
        (readTriangles deg dc dstLen (n + tri.length) todo).bind fun (ts, k, cs) =>
          .ret (tri ++ ts, k + 1, cubes ++ cs)

/-! ### Execution with the shared cache -/

/-- State shared by the goroutines: the distance cache and the `unwritten` buffer. -/
structure Shared where
  cache : V3i → Option ℝ
  unwritten : List Tri

/-- A goroutine: about to run a program, or having missed in the cache and evaluated the SDF, about to
write the distance back (between /repo/render/octree_renderer.go:252 and 254). -/
inductive Thread (α : Type) : Type
  | run (p : Prog α)
  | filling (vi : V3i) (d : ℝ) (k : ℝ → Prog α)

/-- One atomic step of a goroutine (/repo/render/octree_renderer.go:243-256, 117-119, 289-302).  Each lookup,
each write-back and each append happens under a lock; the evaluation itself does not. -/
inductive ThreadStep (dc : Dc3) {α : Type} : Shared → Thread α → Shared → Thread α → Prop
  | hit {sh vi k d} : sh.cache vi = some d →
      ThreadStep dc sh (.run (.eval vi k)) sh (.run (k d))
  | miss {sh vi k} : sh.cache vi = none →
      ThreadStep dc sh (.run (.eval vi k)) sh (.filling vi (dc.value vi) k)
  | fill {sh vi d k} :
      ThreadStep dc sh (.filling vi d k)
        { sh with cache := fun w => if w = vi then some d else sh.cache w } (.run (k d))
  | push {sh ts k} :
      ThreadStep dc sh (.run (.push ts k)) { sh with unwritten := sh.unwritten ++ ts } (.run k)

/-- Any goroutine may take the next step. -/
inductive PoolStep (dc : Dc3) {α : Type} : Shared × List (Thread α) → Shared × List (Thread α) → Prop
  | step {sh sh' pre t t' post} : ThreadStep dc sh t sh' t' →
      PoolStep dc (sh, pre ++ t :: post) (sh', pre ++ t' :: post)

/-- Reflexive-transitive closure: an execution of the pool. -/
inductive PoolSteps (dc : Dc3) {α : Type} : Shared × List (Thread α) → Shared × List (Thread α) → Prop
  | refl {s} : PoolSteps dc s s
  | tail {s t u} : PoolSteps dc s t → PoolStep dc t u → PoolSteps dc s u

/-- The pool started with programs `ps` ran to completion with results `rs` (after `wg.Wait()`). -/
def PoolRuns (dc : Dc3) {α : Type} (sh : Shared) (ps : List (Prog α)) (sh' : Shared) (rs : List α) : Prop :=
  PoolSteps dc (sh, ps.map .run) (sh', rs.map fun a => .run (.ret a))

/-! ### ReadTriangles -/

/-- /repo/render/octree_renderer.go:14-27 `octree`. -/
structure State where
  dc : Dc3
  cache : V3i → Option ℝ
  todo : List Cube
  unwritten : List Tri
  concurrent : Nat

/-- Go `copy(dst[i:], dst[j:])` on one slice, `i ≤ j`: memory move of `dst[j..]` to position `i`. -/
def moveDown {α : Type} (dst : List α) (i j : Nat) : List α :=
  let src := dst.drop j
  dst.take i ++ src ++ dst.drop (i + src.length)

/-- /repo/render/octree_renderer.go:136,145-152: the slice of length `len` handed to worker `i` of `c`: start
and end offsets. -/
def sliceOf (len c i : Nat) : Nat × Nat :=
  let div := len / c
  if i = c - 1 then (div * i, len) else (div * i, div * i + div)

/-- /repo/render/octree_renderer.go:162-171: moving the workers' output together.  `w` are the lengths
`len(work[i])`. -/
def consolidate {α : Type} (div conc : Nat) : (i : Nat) → (offset : Nat) → List Nat → List α → List α
  | _, _, [], dst => dst
  | i, offset, w :: ws, dst =>
    let start := div * i - offset
    if i ≠ conc - 1 ∧ w ≠ div then
      consolidate div conc (i + 1) (offset + (div - w)) ws (moveDown dst (start + w) (start + div))
    else consolidate div conc (i + 1) offset ws dst

/-- The destination after the workers wrote their triangles at the front of their slices
(/repo/render/octree_renderer.go:153). -/
def writeSlices {α : Type} (len c : Nat) (outs : List (List α)) (dst : List α) : List α :=
  (List.range c).flatMap fun i =>
    let (a, b) := sliceOf len c i
    let out := outs.getD i []
    out ++ (dst.drop (a + out.length)).take (b - a - out.length)

/-- /repo/render/octree_renderer.go:146-152: lengths of the workers' slices of `dst`. -/
def workLens (len c : Nat) : List Nat :=
  (List.range c).map fun i => (sliceOf len c i).2 - (sliceOf len c i).1

/-- /repo/render/octree_renderer.go:146-152: the workers' shares of `todo`. -/
def cubeWork (todo : List Cube) (c : Nat) : List (List Cube) :=
  (List.range c).map fun i =>
    (todo.drop (sliceOf todo.length c i).1).take ((sliceOf todo.length c i).2 - (sliceOf todo.length c i).1)

/-- /repo/render/octree_renderer.go:163,173-179: the work list after a threaded round, from the workers' processed
counts and new cubes. -/
def threadedTodo (todo : List Cube) (c : Nat) (rs : List (Nat × List Cube)) : List Cube :=
  (List.zipWith (fun w r => List.drop r.1 w ++ r.2) (cubeWork todo c) rs).flatten

/-- The destination slice after `readTrianglesThreaded`. -/
def threadedDst {α : Type} (c : Nat) (outs : List (List α)) (dst : List α) : List α :=
  consolidate (dst.length / c) c 0 0 (outs.map List.length) (writeSlices dst.length c outs dst)

/-- Outcome of a `ReadTriangles` call: `n`, the destination afterwards, and whether the error is `io.EOF`
(the only error this renderer returns). -/
structure ReadResult where
  n : Nat
  dst : List Tri
  eof : Bool

/-- /repo/render/octree_renderer.go:72-99 `ReadTriangles` together with `readTrianglesThreaded` (lines 134-182).
A relation because of the goroutine schedule. `dst` is the caller's slice.  No rule applies to an empty
slice: that is the panic of lines 73-75. -/
inductive ReadTriangles (deg : Tri → Bool) : State → List Tri → State → ReadResult → Prop
  /-- lines 76-81: the buffered triangles fill `dst`. -/
  | full {oc dst} : dst ≠ [] → oc.unwritten ≠ [] → dst.length ≤ oc.unwritten.length →
      ReadTriangles deg oc dst { oc with unwritten := oc.unwritten.drop dst.length }
        ⟨dst.length, oc.unwritten.take dst.length, false⟩
  /-- lines 82-85. -/
  | eof {oc dst} : dst ≠ [] → oc.unwritten.length < dst.length → oc.todo = [] →
      ReadTriangles deg oc dst { oc with unwritten := [] }
        ⟨oc.unwritten.length, oc.unwritten ++ dst.drop oc.unwritten.length, true⟩
  /-- lines 88-93. -/
  | single {oc dst out k cs sh'} : dst ≠ [] → oc.unwritten.length < dst.length → oc.todo ≠ [] →
      (oc.concurrent < 1 ∨ oc.todo.length < oc.concurrent ∨ dst.length < oc.concurrent) →
      PoolRuns oc.dc ⟨oc.cache, []⟩
        [readTriangles deg oc.dc (dst.length - oc.unwritten.length) 0 oc.todo] sh' [(out, k, cs)] →
      ReadTriangles deg oc dst
        { oc with cache := sh'.cache, unwritten := sh'.unwritten, todo := (oc.todo ++ cs).drop k }
        ⟨oc.unwritten.length + out.length,
         oc.unwritten ++ out ++ dst.drop (oc.unwritten.length + out.length), false⟩
  /-- lines 95, 134-182. -/
  | threaded {oc dst sh'} {rs : List (List Tri × Nat × List Cube)} :
      dst ≠ [] → oc.unwritten.length < dst.length → oc.todo ≠ [] →
      ¬ (oc.concurrent < 1 ∨ oc.todo.length < oc.concurrent ∨ dst.length < oc.concurrent) →
      PoolRuns oc.dc ⟨oc.cache, []⟩
        (List.zipWith (fun l cs => readTriangles deg oc.dc l 0 cs)
          (workLens (dst.length - oc.unwritten.length) oc.concurrent)
          (cubeWork oc.todo oc.concurrent)) sh' rs →
      ReadTriangles deg oc dst
        { oc with cache := sh'.cache, unwritten := sh'.unwritten,
                  todo := threadedTodo oc.todo oc.concurrent (rs.map Prod.snd) }
        ⟨oc.unwritten.length + ((rs.map Prod.fst).map List.length).sum,
         oc.unwritten ++ threadedDst oc.concurrent (rs.map Prod.fst) (dst.drop oc.unwritten.length), false⟩

/-- /repo/render/octree_renderer.go:39-68 `NewOctreeRenderer`; `none` models the panics of lines 40-42 and 268-270.
The allocation sizes of lines 55-60 are left out. -/
noncomputable def new (s : SDF3) (meshCells : ℤ) : Option State :=
  if meshCells < 2 then none
  else
    let bb := s.bounds.scaleAboutCenter 1.01
    let longAxis := bb.size.maxComp
    let resolution := 0.5 * bb.size.maxComp / (meshCells : ℝ)
    let levels := ⌈Real.logb 2 (longAxis / resolution)⌉₊ + 1
    if levels ≥ 64 then none
    else some {
      dc := ⟨bb.lo, resolution, levels, s⟩
      cache := fun _ => none
      todo := [⟨⟨0, 0, 0⟩, levels - 1⟩]
      unwritten := []
      concurrent := 0 }

/-- /repo/render/io.go:11-27 `RenderAll` applied to an octree renderer: read into a buffer of 1024 triangles until
an error; the triangles of a call that returns an error are not appended (lines 17-21).  `buf` is the buffer content
before each call. -/
inductive RenderAll (deg : Tri → Bool) : State → State → List Tri → Prop
  | stop {oc buf oc' r} : buf.length = 1024 → ReadTriangles deg oc buf oc' r → r.eof = true →
      RenderAll deg oc oc' []
  | more {oc buf oc' r oc'' result} : buf.length = 1024 → ReadTriangles deg oc buf oc' r → r.eof = false →
      RenderAll deg oc' oc'' result → RenderAll deg oc oc'' (r.dst.take r.n ++ result)

end Octree

end Sdf
