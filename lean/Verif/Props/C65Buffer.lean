import Verif.Model.Create3MF

/-!
C65: the triangle buffer is a first-in first-out queue.
-/

namespace Sdf.TriangleBuffer

/-- One use of the buffer: a write of triangles, or a read into a slice. -/
inductive Op
  | write (t : List Tri)
  | read (t : List Tri)

/-- The buffer after a series of uses, everything written and everything read. -/
def run (b : TriangleBuffer) : List Op → TriangleBuffer × List Tri × List Tri
  | [] => (b, [], [])
  | .write t :: ops =>
    let r := run (b.write t).1 ops
    (r.1, t ++ r.2.1, r.2.2)
  | .read t :: ops =>
    let r := run (b.read t).1 ops
    (r.1, r.2.1, (b.read t).2.1.take (b.read t).2.2 ++ r.2.2)

/-- The buffer is a first-in first-out queue: whatever the series of writes and reads, what was read followed by what is
still in the buffer is what it held at the start followed by what was written, in order. -/
theorem C65_buffer_fifo (ops : List Op) : ∀ b : TriangleBuffer, (run b ops).2.2 ++ (run b ops).1.buf = b.buf ++ (run b ops).2.1 := by
  induction ops with
  | nil => intro b; simp [run]
  | cons op ops ih =>
    intro b
    cases op with
    | write t =>
      simp only [run]
      rw [ih]
      simp [TriangleBuffer.write]
    | read t =>
      simp only [run]
      rw [List.append_assoc, ih]
      simp only [TriangleBuffer.read]
      rw [List.take_left' (by simp), ← List.append_assoc, List.take_append_drop]

/-- A read fills the slice as far as possible, leaves the rest of it alone, and shortens the buffer by the number returned. -/
theorem C65_buffer_read (b : TriangleBuffer) (t : List Tri) :
    (b.read t).2.2 = min t.length b.len ∧ (b.read t).2.1.length = t.length ∧ (b.read t).2.1.drop (b.read t).2.2 = t.drop (b.read t).2.2 ∧
      (b.read t).1.len + (b.read t).2.2 = b.len ∧ (b.write t).1.len = b.len + t.length ∧ (b.write t).2 = t.length := by
  simp only [TriangleBuffer.read, TriangleBuffer.write, TriangleBuffer.len]
  refine ⟨trivial, ?_, ?_, ?_, by simp, trivial⟩
  · simp only [List.length_append, List.length_take, List.length_drop]; omega
  · rw [List.drop_left' (by simp)]
  · simp only [List.length_drop]; omega

example : (run ⟨[]⟩ [.write [default, default], .read [default]]).1.buf.length = 1 := by simp [run, TriangleBuffer.write, TriangleBuffer.read]

end Sdf.TriangleBuffer
