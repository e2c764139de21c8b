import Verif.Model.Stl

/-!
Failing writers and interrupted exports: the same functions of /repo/render/stl.go as in `Model/Stl`, with the errors of the
writer and of the file.
-/

namespace Sdf.Stl

/-- An `io.Writer`: the number of bytes it takes, whether it returns an error, and its state afterwards.  Any behaviour is
allowed. -/
structure Writer where
  State : Type
  write : State → List Byte → Nat × Bool × State

/-- `io.Copy(w, bytes.NewReader(b))`, which is one `Write` call (`bytes.Reader.WriteTo`): the bytes taken, whether the error is
nil, and the state afterwards.  A short write without an error gives `io.ErrShortWrite`. -/
def Writer.copy (w : Writer) (s : w.State) (b : List Byte) : List Byte × Bool × w.State :=
  let r := w.write s b
  (b.take r.1, !r.2.1 && decide (b.length ≤ r.1), r.2.2)

/-- /repo/render/stl.go:38 and 45-64: one copy after the other, until one fails. -/
def Writer.copyAll (w : Writer) : List (List Byte) → w.State → List Byte × Bool × w.State
  | [], s => ([], true, s)
  | b :: bs, s =>
    let r := w.copy s b
    if r.2.1 then
      let q := w.copyAll bs r.2.2
      (r.1 ++ q.1, q.2)
    else r

open Classical in
/-- /repo/render/stl.go:22-66 `WriteSTL`: the bytes the writer took and whether the error is nil. -/
noncomputable def writeSTLTo (c : Conv) (w : Writer) (s : w.State) (model : List Tri) : List Byte × Bool :=
  if model.length = 0 then ([], false)
  else if h : model.length > 2 ^ 32 - 1 then ([], false)
  else
    let r := w.copyAll (headerBytes ⟨model.length, by omega⟩ :: model.map fun t => (c.record t).put) s
    (r.1, r.2.1)

/-- Some rounds of `io.CopyBuffer` (see `Copy`): `w` is what the reader has delivered so far. -/
inductive CopySome (c : Conv) (r : Renderer) (minLen : Nat) : r.State → List Byte → Prop
  | none {s} : CopySome c r minLen s []
  | more {s b n b' s' w} : minLen ≤ b.length → StlRead c r b s (.ret n b' none) s' → CopySome c r minLen s' w →
      CopySome c r minLen s (b'.take n ++ w)
  | last {s b n b' e s'} : minLen ≤ b.length → StlRead c r b s (.ret n b' (some e)) s' → CopySome c r minLen s (b'.take n)

/-- /repo/render/stl.go:132-163 `createSTL`: what the file may hold when the function has returned an error or has been
interrupted, from line 134 (which empties the file) on.  A write may have been done in part.  `headerBytesDone` counts the bytes of the
header that have been written. -/
inductive Interrupted (c : Conv) (r : Renderer) (minLen : Nat) (s : r.State) : (headerBytesDone : Nat) → List Byte → Prop
  | copying {w w'} : CopySome c r minLen s w → w' <+: w → Interrupted c r minLen s 0 (if w' = [] then [] else fileWrite [] 84 w')
  | header {w s'} (k : Nat) : Copy c r minLen s w false s' → k < 84 →
      Interrupted c r minLen s k (fileWrite (if w = [] then [] else fileWrite [] 84 w) 0
        ((headerBytes ⟨w.length / 50 % 2 ^ 32, Nat.mod_lt _ (by norm_num)⟩).take k))

end Sdf.Stl
