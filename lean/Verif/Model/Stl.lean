import Verif.Model.MarchingCubes

/-!
Binary STL: /repo/render/stl.go.

Bytes are `Fin 256`.  A `float32` is represented by its bit pattern, `Fin (2^32)` (`math.Float32bits`); the conversions
`float32(x)` and `float64(f)` are parameters (`Conv`), so the theorems hold for every rounding.  Errors of the
underlying file or writer are not modelled.
-/

namespace Sdf.Stl

abbrev Byte := Fin 256

/-- Bit pattern of a `float32`. -/
abbrev F32 := Fin (2 ^ 32)

/-- The number conversions used by the code: `float32(x)` and `float64(f)`. -/
structure Conv where
  f32 : ℝ → F32
  f64 : F32 → ℝ

/-- `[3]float32`. -/
@[ext] structure F3 where
  x : F32
  y : F32
  z : F32

/-- /repo/render/stl.go:224-230 `stlTriangle` (the attribute count is always written as 0). -/
@[ext] structure StlTri where
  normal : F3
  v1 : F3
  v2 : F3
  v3 : F3

/-- `binary.LittleEndian.PutUint32`: the four bytes, least significant first. -/
def putU32 (v : F32) : List Byte :=
  [⟨v / 256 ^ 0 % 256, Nat.mod_lt _ (by norm_num)⟩, ⟨v / 256 ^ 1 % 256, Nat.mod_lt _ (by norm_num)⟩,
   ⟨v / 256 ^ 2 % 256, Nat.mod_lt _ (by norm_num)⟩, ⟨v / 256 ^ 3 % 256, Nat.mod_lt _ (by norm_num)⟩]

/-- `binary.LittleEndian.Uint32` of the bytes at offset `o` (missing bytes read as 0; the callers check the length). -/
def getU32 (b : List Byte) (o : Nat) : F32 :=
  ⟨(b.getD o 0).val + 256 * (b.getD (o + 1) 0).val + 65536 * (b.getD (o + 2) 0).val + 16777216 * (b.getD (o + 3) 0).val, by
    have := (b.getD o 0).isLt; have := (b.getD (o + 1) 0).isLt; have := (b.getD (o + 2) 0).isLt
    have := (b.getD (o + 3) 0).isLt; omega⟩

/-- /repo/render/stl.go:255-260 `put3F32`. -/
def putF3 (f : F3) : List Byte := putU32 f.x ++ putU32 f.y ++ putU32 f.z

/-- /repo/render/stl.go:262-267 `get3F32`. -/
def getF3 (b : List Byte) (o : Nat) : F3 := ⟨getU32 b o, getU32 b (o + 4), getU32 b (o + 8)⟩

/-- /repo/render/stl.go:232-242 `stlTriangle.put`. -/
def StlTri.put (t : StlTri) : List Byte := putF3 t.normal ++ putF3 t.v1 ++ putF3 t.v2 ++ putF3 t.v3 ++ [0, 0]

/-- /repo/render/stl.go:244-253 `stlTriangle.get`. -/
def StlTri.get (b : List Byte) : StlTri := ⟨getF3 b 0, getF3 b 12, getF3 b 24, getF3 b 36⟩

/-- /repo/render/stl.go:68-77 `stlHeader` and `put` into a zeroed 84-byte buffer; `binary.Write` of the struct writes the same bytes. -/
def headerBytes (count : F32) : List Byte := List.replicate 80 0 ++ putU32 count

def Conv.f3 (c : Conv) (v : V3) : F3 := ⟨c.f32 v.x, c.f32 v.y, c.f32 v.z⟩

/-- gonum `Triangle.Normal`: the cross product of two sides. -/
def triNormal (t : Tri) : V3 := V3.cross (V3.sub t.b t.a) (V3.sub t.c t.b)

/-- Quiet NaN. -/
def nan32 : F32 := ⟨0x7FC00000, by norm_num⟩

open Classical in
/-- `r3.Unit(triangle.Normal())` as `float32`s; `r3.Unit` of the zero vector is three NaNs. -/
noncomputable def Conv.unitNormal (c : Conv) (t : Tri) : F3 :=
  if triNormal t = ⟨0, 0, 0⟩ then ⟨nan32, nan32, nan32⟩ else c.f3 (V3.unit (triNormal t))

/-- /repo/render/stl.go:46-59 and 112-125: the STL record of a triangle. -/
noncomputable def Conv.record (c : Conv) (t : Tri) : StlTri := ⟨c.unitNormal t, c.f3 t.a, c.f3 t.b, c.f3 t.c⟩

/-- /repo/render/stl.go:22-66 `WriteSTL`; `none` is an error return. -/
noncomputable def writeSTL (c : Conv) (model : List Tri) : Option (List Byte) :=
  if model.length = 0 then none
  else if h : model.length > 2 ^ 32 - 1 then none
  else some (headerBytes ⟨model.length, by omega⟩ ++ model.flatMap fun t => (c.record t).put)

/-! ### Reading -/

/-- Outcome of `validate`: no error, the non-fatal normal mismatch, or another error. -/
inductive Check
  | ok
  | normalMismatch
  | bad
deriving DecidableEq

/-- `IsNaN` or `IsInf`: all exponent bits set. -/
def F32.Bad (f : F32) : Prop := f.val / 2 ^ 23 % 256 = 255

/-- /repo/render/stl.go:269-273 `bad3F32`. -/
def F3.Bad (f : F3) : Prop := F32.Bad f.x ∨ F32.Bad f.y ∨ F32.Bad f.z

/-- /repo/render/stl.go:297-299 `r3From3F32`. -/
def Conv.vec (c : Conv) (f : F3) : V3 := ⟨c.f64 f.x, c.f64 f.y, c.f64 f.z⟩

/-- /repo/render/stl.go:321-325 `equalWithin3F32` (the float32 subtraction is taken as exact). -/
def Conv.Within (a b : V3) (tol : ℝ) : Prop := |a.x - b.x| ≤ tol ∧ |a.y - b.y| ≤ tol ∧ |a.z - b.z| ≤ tol

/-- /repo/render/stl.go:313-319 `degenerate`. -/
def Conv.Degenerate (c : Conv) (t : StlTri) (tol : ℝ) : Prop :=
  Conv.Within (c.vec t.v1) (c.vec t.v2) tol ∨ Conv.Within (c.vec t.v2) (c.vec t.v3) tol ∨
    Conv.Within (c.vec t.v3) (c.vec t.v1) tol

/-- /repo/render/stl.go:301-310 `normalFromVertices` before the conversion to float32. -/
noncomputable def Conv.rawNormal (c : Conv) (t : StlTri) : V3 :=
  V3.cross (V3.sub (V3.scale 10 (c.vec t.v2)) (V3.scale 10 (c.vec t.v1)))
    (V3.sub (V3.scale 10 (c.vec t.v3)) (V3.scale 10 (c.vec t.v1)))

/-- /repo/render/stl.go:289-293: the stored normal agrees with neither the computed one nor its opposite.  A zero computed
normal gives NaNs, which agree with nothing. -/
def Conv.Mismatch (c : Conv) (t : StlTri) : Prop :=
  let n := c.vec (c.f3 (V3.unit (c.rawNormal t)))
  c.rawNormal t = ⟨0, 0, 0⟩ ∨
    ¬ Conv.Within n (c.vec t.normal) (5 / 100) ∧ ¬ Conv.Within (V3.scale (-1) n) (c.vec t.normal) (5 / 100)

open Classical in
/-- /repo/render/stl.go:277-295 `validate`. -/
noncomputable def Conv.validate (c : Conv) (t : StlTri) : Check :=
  if F3.Bad t.normal then .bad
  else if F3.Bad t.v1 ∨ F3.Bad t.v2 ∨ F3.Bad t.v3 then .bad
  else if c.Degenerate t (1 / 10 ^ 12) then .bad
  else if c.Mismatch t then .normalMismatch
  else .ok

/-- An `io.Reader` over given bytes: the i-th `Read` call returns at most `size i` bytes (at least one if there are any
left).  `eager` says whether the reader reports `io.EOF` together with the last bytes, as the `io.Reader` contract
allows, or only on the following call. -/
structure Source where
  size : Nat → Nat
  eager : Bool

/-- State of a reader: bytes left and calls made so far. -/
structure SourceState where
  rest : List Byte
  calls : Nat

/-- One `Read` call with a slice of length `want ≥ 1`: bytes read, whether `err` is `io.EOF`, new state. -/
def Source.read (src : Source) (want : Nat) (st : SourceState) : List Byte × Bool × SourceState :=
  if st.rest = [] then ([], true, ⟨[], st.calls + 1⟩)
  else
    let k := min want (max 1 (src.size st.calls))
    (st.rest.take k, src.eager && decide (st.rest.length ≤ k), ⟨st.rest.drop k, st.calls + 1⟩)

/-- /repo/render/stl.go:195-202: fill the 50-byte buffer; `none` is the error return.  `need` bytes are still missing.
Every call reads at least one byte, so `need` is enough fuel. -/
def fill (src : Source) : (need : Nat) → SourceState → Option (List Byte × SourceState)
  | 0, st => some ([], st)
  | need + 1, st =>
    let r := src.read (need + 1) st
    if r.2.1 then none
    else
      (fill src (need + 1 - max 1 r.1.length) r.2.2).map fun p => (r.1 ++ p.1, p.2)
  termination_by need _ => need
  decreasing_by have := le_max_left 1 (src.read (need + 1) st).1.length; omega

/-- What `readBinarySTL` returns: the triangles and whether the error is nil, the normal mismatch warning, or "too many
mismatches"; `failed` is a nil slice with an error. -/
inductive ReadOutcome
  | triangles (ts : List Tri) (mismatch : Bool)
  | tooManyMismatches (ts : List Tri)
  | failed

/-- /repo/render/stl.go:327-333 `stlTriangle.Triangle`. -/
def Conv.triangle (c : Conv) (t : StlTri) : Tri := ⟨c.vec t.v1, c.vec t.v2, c.vec t.v3⟩

/-- /repo/render/stl.go:194-220: the loop, with `count` triangles left, `mism` mismatches so far and the triangles
read so far. -/
noncomputable def readLoop (c : Conv) (src : Source) : (count : Nat) → (mism : Nat) → List Tri → SourceState → ReadOutcome
  | 0, mism, out, _ => .triangles out (mism ≠ 0)
  | count + 1, mism, out, st =>
    match fill src 50 st with
    | none => .failed
    | some (b, st') =>
      let d := StlTri.get b
      match c.validate d with
      | .ok => readLoop c src count mism (out ++ [c.triangle d]) st'
      | .normalMismatch =>
        if mism + 1 > 10000 then .tooManyMismatches out
        else readLoop c src count (mism + 1) (out ++ [c.triangle d]) st'
      | .bad => .failed

/-- `binary.Read` of the 84-byte header via `io.ReadFull`, which accepts data together with `io.EOF`. -/
def readFull (src : Source) : (need : Nat) → SourceState → Option (List Byte × SourceState)
  | 0, st => some ([], st)
  | need + 1, st =>
    let r := src.read (need + 1) st
    if r.1.length = need + 1 then some (r.1, r.2.2)
    else if r.2.1 then none
    else (readFull src (need + 1 - max 1 r.1.length) r.2.2).map fun p => (r.1 ++ p.1, p.2)
  termination_by need _ => need
  decreasing_by have := le_max_left 1 (src.read (need + 1) st).1.length; omega

/-- /repo/render/stl.go:172-221 `readBinarySTL` (on a 64-bit machine, where `int(header.Count)` does not wrap). -/
noncomputable def readBinarySTL (c : Conv) (src : Source) (bytes : List Byte) : ReadOutcome :=
  match readFull src 84 ⟨bytes, 0⟩ with
  | none => .failed
  | some (h, st) =>
    let count := getU32 h 80
    if count.val = 0 then .failed else readLoop c src count 0 [] st

/-! ### Streaming -/

/-- Errors a renderer can return. -/
inductive RErr
  | eof
  | other
deriving DecidableEq

/-- /repo/render/render.go:7-9 `Renderer`: `read s len ts e s'` says that a `ReadTriangles` call in state `s` with a slice of
length `len` may store the triangles `ts` in `dst[:n]`, return the error `e` and end in state `s'`. -/
structure Renderer where
  State : Type
  read : State → Nat → List Tri → Option RErr → State → Prop

/-- /repo/render/stl.go:79 `trianglesInBuffer`. -/
def trianglesInBuffer : Nat := 2 ^ 14

/-- Overwrite bytes at an offset (Go: writing into `b[o:]`). -/
def writeAt (b : List Byte) (o : Nat) (x : List Byte) : List Byte := b.take o ++ x ++ b.drop (o + x.length)

/-- /repo/render/stl.go:111-127: the inner loop storing the triangles from index `it` on. -/
noncomputable def putAll (c : Conv) : List Byte → Nat → List Tri → List Byte
  | b, _, [] => b
  | b, it, t :: ts => putAll c (writeAt b (it * 50) ((c.record t).put)) (it + 1) ts

/-- Outcome of a `Read` call: bytes written, buffer afterwards, error; or one of the two panics. -/
inductive SOut
  | ret (n : Nat) (b : List Byte) (err : Option RErr)
  | panic

/-- /repo/render/stl.go:101-129, the loop of `stlReader.Read`, entered with index `it` and buffer `b`. -/
inductive StlLoop (c : Conv) (r : Renderer) (ntMax : Nat) : (it : Nat) → List Byte → r.State → SOut → r.State → Prop
  | done {it b s} : ¬ it < ntMax → StlLoop c r ntMax it b s (.ret (it * 50) b none) s
  | tooMany {it b s ts e s'} : it < ntMax → r.read s (min ntMax (b.length / 50 - it)) ts e s' → ts.length > ntMax →
      StlLoop c r ntMax it b s .panic s'
  | overflow {it b s ts e s'} : it < ntMax → r.read s (min ntMax (b.length / 50 - it)) ts e s' → ¬ ts.length > ntMax →
      ts.length * 50 > b.length - it * 50 → StlLoop c r ntMax it b s .panic s'
  | stop {it b s ts e s'} : it < ntMax → r.read s (min ntMax (b.length / 50 - it)) ts (some e) s' →
      ¬ ts.length > ntMax → ¬ ts.length * 50 > b.length - it * 50 →
      StlLoop c r ntMax it b s (.ret ((it + ts.length) * 50) (putAll c b it ts) (some e)) s'
  | next {it b s ts s' o s''} : it < ntMax → r.read s (min ntMax (b.length / 50 - it)) ts none s' →
      ¬ ts.length > ntMax → ¬ ts.length * 50 > b.length - it * 50 →
      StlLoop c r ntMax (it + ts.length) (putAll c b it ts) s' o s'' → StlLoop c r ntMax it b s o s''

/-- /repo/render/stl.go:86-130 `stlReader.Read` with a byte slice `b` (holding arbitrary bytes before the call).  A slice of fewer
than 50 bytes gives an error other than `io.EOF`. -/
inductive StlRead (c : Conv) (r : Renderer) : List Byte → r.State → SOut → r.State → Prop
  | small {b s} : min (b.length / 50) trianglesInBuffer = 0 → StlRead c r b s (.ret 0 b (some .other)) s
  | loop {b s o s'} : min (b.length / 50) trianglesInBuffer ≠ 0 →
      StlLoop c r (min (b.length / 50) trianglesInBuffer) 0 b s o s' → StlRead c r b s o s'

/-- `io.CopyBuffer` from the reader: copy until an error; `io.EOF` is success.  The buffer may have any content and any
length at each call (`os.File.ReadFrom` substitutes its own 32 KiB buffer for the one passed in line 147). -/
inductive Copy (c : Conv) (r : Renderer) (minLen : Nat) : r.State → List Byte → (failed : Bool) → r.State → Prop
  | more {s b n b' s' w f s''} : minLen ≤ b.length → StlRead c r b s (.ret n b' none) s' → Copy c r minLen s' w f s'' →
      Copy c r minLen s (b'.take n ++ w) f s''
  | stop {s b n b' e s'} : minLen ≤ b.length → StlRead c r b s (.ret n b' (some e)) s' →
      Copy c r minLen s (b'.take n) (e ≠ .eof) s'

/-- A file is a byte list; writing beyond its end fills the gap with zeros. -/
def fileWrite (f : List Byte) (o : Nat) (x : List Byte) : List Byte :=
  (f ++ List.replicate (o - f.length) 0).take o ++ x ++ f.drop (o + x.length)

/-- /repo/render/stl.go:132-163 `createSTL`, successful run: the bytes of the file. -/
inductive CreateSTL (c : Conv) (r : Renderer) (minLen : Nat) : r.State → List Byte → r.State → Prop
  | mk {s w s'} : Copy c r minLen s w false s' →
      CreateSTL c r minLen s
        (fileWrite (if w = [] then [] else fileWrite [] 84 w) 0
          (headerBytes ⟨w.length / 50 % 2 ^ 32, Nat.mod_lt _ (by norm_num)⟩)) s'

end Sdf.Stl
