import Verif.Model.Stl

/-!
Specification vocabulary for the STL and streaming properties.
-/

namespace Sdf.Stl

/-- Little-endian value of the four bytes at offset `o`. -/
def le32 (b : List Byte) (o : Nat) : Nat :=
  (b.getD o 0).val + 256 * (b.getD (o + 1) 0).val + 256 ^ 2 * (b.getD (o + 2) 0).val + 256 ^ 3 * (b.getD (o + 3) 0).val

/-- A run of `ReadTriangles` calls with arbitrary slice lengths ≥ 1, the last of which returns an error: the triangles
delivered by all calls together, and the error. -/
inductive Renderer.Delivers (r : Renderer) : r.State → List Tri → RErr → r.State → Prop
  | last {s len ts e s'} : 1 ≤ len → r.read s len ts (some e) s' → Renderer.Delivers r s ts e s'
  | call {s len ts s' out e s''} : 1 ≤ len → r.read s len ts none s' → Renderer.Delivers r s' out e s'' →
      Renderer.Delivers r s (ts ++ out) e s''

/-- States reached by calls that returned no error. -/
inductive Renderer.Reaches (r : Renderer) : r.State → r.State → Prop
  | refl {s} : Renderer.Reaches r s s
  | call {s s' s'' len ts} : Renderer.Reaches r s s' → 1 ≤ len → r.read s' len ts none s'' → Renderer.Reaches r s s''

/-- The reader protocol: no call, from this state on, stores more triangles than the slice holds. -/
def Renderer.Ok (r : Renderer) (s : r.State) : Prop :=
  ∀ s', r.Reaches s s' → ∀ len ts e s'', 1 ≤ len → r.read s' len ts e s'' → ts.length ≤ len

/-- A triangle whose float32 version is usable: finite coordinates, non-zero area before rounding, and no two corners
within 1e-12 of each other after rounding. -/
def Conv.Fine (c : Conv) (t : Tri) : Prop :=
  ¬ (c.f3 t.a).Bad ∧ ¬ (c.f3 t.b).Bad ∧ ¬ (c.f3 t.c).Bad ∧ triNormal t ≠ ⟨0, 0, 0⟩ ∧
    ¬ c.Degenerate (c.record t) (1 / 10 ^ 12)

/-- The triangle with its corners rounded to float32. -/
def Conv.rounded (c : Conv) (t : Tri) : Tri :=
  ⟨⟨c.f64 (c.f32 t.a.x), c.f64 (c.f32 t.a.y), c.f64 (c.f32 t.a.z)⟩,
   ⟨c.f64 (c.f32 t.b.x), c.f64 (c.f32 t.b.y), c.f64 (c.f32 t.b.z)⟩,
   ⟨c.f64 (c.f32 t.c.x), c.f64 (c.f32 t.c.y), c.f64 (c.f32 t.c.z)⟩⟩

/-- Numbers of magnitude at most 1 convert to finite float32 values. -/
def Conv.Sane (c : Conv) : Prop := ∀ x : ℝ, |x| ≤ 1 → ¬ F32.Bad (c.f32 x)

/-- The triangles of a binary STL file as any program reads them: as many as the number at byte 80 says, 50 bytes each from byte 84 on; of
each, the nine numbers after the normal are the corners. -/
def storedTriangles (c : Conv) (bytes : List Byte) : List Tri :=
  (List.range (le32 bytes 80)).map fun k =>
    let w : Nat → ℝ := fun j => c.f64 (Fin.ofNat (2 ^ 32) (le32 bytes (84 + 50 * k + 12 + 4 * j)))
    ⟨⟨w 0, w 1, w 2⟩, ⟨w 3, w 4, w 5⟩, ⟨w 6, w 7, w 8⟩⟩

end Sdf.Stl
