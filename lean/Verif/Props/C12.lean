import Verif.Lemmas.StlStream
import Mathlib.Tactic.IntervalCases

/-!
C12: STL files have the standard size and layout.
-/

namespace Sdf.Stl

/-- The twelve numbers of the record of a triangle, in file order: unit normal, then the three corners. -/
noncomputable def twelve (c : Conv) (t : Tri) : List Nat :=
  let n := c.unitNormal t
  [n.x, n.y, n.z, c.f32 t.a.x, c.f32 t.a.y, c.f32 t.a.z, c.f32 t.b.x, c.f32 t.b.y, c.f32 t.b.z,
    c.f32 t.c.x, c.f32 t.c.y, c.f32 t.c.z].map fun f : F32 => f.val

theorem le32_append (pre : List Byte) (v : F32) (post : List Byte) (o : Nat) (ho : o = pre.length) :
    le32 (pre ++ (putU32 v ++ post)) o = v.val := by
  have := congrArg Fin.val (getU32_append pre v post o ho)
  rw [← this]
  simp only [le32, getU32, Nat.reducePow]

theorem le32_record (c : Conv) (pre : List Byte) (t : Tri) (post : List Byte) (o : Nat) (ho : o = pre.length) (j : Nat)
    (hj : j < 12) : le32 (pre ++ ((c.record t).put ++ post)) (o + 4 * j) = (twelve c t).getD j 0 := by
  subst ho
  have key : ∀ (x : F32) (l r : List Byte), (c.record t).put ++ post = l ++ (putU32 x ++ r) → l.length = 4 * j →
      le32 (pre ++ ((c.record t).put ++ post)) (pre.length + 4 * j) = x.val := by
    intro x l r h hl
    rw [h, ← List.append_assoc]
    exact le32_append _ _ _ _ (by simp [hl])
  let N := (c.record t).normal
  let A := (c.record t).v1
  let B := (c.record t).v2
  let D := (c.record t).v3
  interval_cases j
  · exact key N.x [] _ rfl rfl
  · exact key N.y (putU32 N.x) _ rfl rfl
  · exact key N.z (putU32 N.x ++ putU32 N.y) _ rfl rfl
  · exact key A.x (putF3 N) _ rfl rfl
  · exact key A.y (putF3 N ++ putU32 A.x) _ rfl rfl
  · exact key A.z (putF3 N ++ putU32 A.x ++ putU32 A.y) _ rfl rfl
  · exact key B.x (putF3 N ++ putF3 A) _ rfl rfl
  · exact key B.y (putF3 N ++ putF3 A ++ putU32 B.x) _ rfl rfl
  · exact key B.z (putF3 N ++ putF3 A ++ putU32 B.x ++ putU32 B.y) _ rfl rfl
  · exact key D.x (putF3 N ++ putF3 A ++ putF3 B) _ rfl rfl
  · exact key D.y (putF3 N ++ putF3 A ++ putF3 B ++ putU32 D.x) _ rfl rfl
  · exact key D.z (putF3 N ++ putF3 A ++ putF3 B ++ putU32 D.x ++ putU32 D.y) _ rfl rfl

/-- Layout of header followed by the records of `model`. -/
theorem layout (c : Conv) (model : List Tri) (n : F32) :
    let bytes := headerBytes n ++ model.flatMap fun t => (c.record t).put
    bytes.length = 84 + 50 * model.length ∧ le32 bytes 80 = n.val ∧ (∀ i < 80, bytes.getD i 0 = 0) ∧
      ∀ (k : Nat) (hk : k < model.length), (∀ j < 12, le32 bytes (84 + 50 * k + 4 * j) = (twelve c model[k]).getD j 0) ∧
        bytes.getD (84 + 50 * k + 48) 0 = 0 ∧ bytes.getD (84 + 50 * k + 49) 0 = 0 := by
  intro bytes
  refine ⟨by simp only [bytes, List.length_append, header_length, flatMap_length], ?_, ?_, ?_⟩
  · have h := le32_append (List.replicate 80 0) n (model.flatMap fun t => (c.record t).put) 80 (List.length_replicate).symm
    simp only [bytes, headerBytes, List.append_assoc]
    exact h
  · intro i hi
    simp only [bytes, headerBytes, List.getD, List.append_assoc]
    rw [List.getElem?_append_left (by rw [List.length_replicate]; exact hi)]
    rw [List.getElem?_replicate_of_lt hi]
    rfl
  · intro k hk
    have hs : model = model.take k ++ model[k] :: model.drop (k + 1) := by simp
    have hb : bytes = (headerBytes n ++ (model.take k).flatMap fun t => (c.record t).put) ++
        ((c.record model[k]).put ++ (model.drop (k + 1)).flatMap fun t => (c.record t).put) := by
      have h2 : (model.flatMap fun t => (c.record t).put) = ((model.take k).flatMap fun t => (c.record t).put) ++
        ((c.record model[k]).put ++ (model.drop (k + 1)).flatMap fun t => (c.record t).put) := by
        conv_lhs => rw [hs]
        rw [List.flatMap_append, List.flatMap_cons]
      simp only [bytes, List.append_assoc, h2]
    have hl : 84 + 50 * k = (headerBytes n ++ (model.take k).flatMap fun t => (c.record t).put).length := by
      rw [List.length_append, header_length, flatMap_length, List.length_take]; omega
    refine ⟨fun j hj => ?_, ?_, ?_⟩
    · rw [hb]
      exact le32_record c _ _ _ _ hl j hj
    · rw [hb, hl]
      simp only [List.getD]
      rw [List.getElem?_append_right (by omega), Nat.add_sub_cancel_left]
      rfl
    · rw [hb, hl]
      simp only [List.getD]
      rw [List.getElem?_append_right (by omega), Nat.add_sub_cancel_left]
      rfl

/-- Whatever `WriteSTL` writes has the standard layout: 80 zero bytes, the count, then 50 bytes per triangle: twelve
float32 values and two zero bytes. -/
theorem C12_writeSTL_layout (c : Conv) (model : List Tri) (bytes : List Byte) (h : writeSTL c model = some bytes) :
    bytes.length = 84 + 50 * model.length ∧ le32 bytes 80 = model.length ∧ (∀ i < 80, bytes.getD i 0 = 0) ∧
      ∀ (k : Nat) (hk : k < model.length), (∀ j < 12, le32 bytes (84 + 50 * k + 4 * j) = (twelve c model[k]).getD j 0) ∧
        bytes.getD (84 + 50 * k + 48) 0 = 0 ∧ bytes.getD (84 + 50 * k + 49) 0 = 0 := by
  unfold writeSTL at h
  split_ifs at h with h1 h2
  cases h
  exact layout c model ⟨model.length, by omega⟩

/-- `WriteSTL` succeeds exactly for 1 to 2^32-1 triangles. -/
theorem C12_writeSTL_accepts (c : Conv) (model : List Tri) :
    (∃ bytes, writeSTL c model = some bytes) ↔ model ≠ [] ∧ model.length < 2 ^ 32 := by
  unfold writeSTL
  split_ifs with h1 h2
  · simp_all
  · simp; omega
  · simp only [Option.some.injEq, exists_eq', true_iff]
    exact ⟨fun h => h1 (by simp [h]), by omega⟩

/-- The same layout for a finished `CreateSTL` with fewer than 2^32 triangles (possibly none), whose body holds exactly
the triangles delivered by the renderer. -/
theorem C12_createSTL_layout (c : Conv) (r : Renderer) (minLen : Nat) (hm : 50 ≤ minLen) (s s' : r.State) (hok : r.Ok s)
    (bytes : List Byte) (h : CreateSTL c r minLen s bytes s') :
    ∃ model, r.Delivers s model .eof s' ∧ (model.length < 2 ^ 32 →
      bytes.length = 84 + 50 * model.length ∧ le32 bytes 80 = model.length ∧ (∀ i < 80, bytes.getD i 0 = 0) ∧
      ∀ (k : Nat) (hk : k < model.length), (∀ j < 12, le32 bytes (84 + 50 * k + 4 * j) = (twelve c model[k]).getD j 0) ∧
        bytes.getD (84 + 50 * k + 48) 0 = 0 ∧ bytes.getD (84 + 50 * k + 49) 0 = 0) := by
  cases h with
  | mk hc =>
    obtain ⟨out, e, hd, rfl, he⟩ := copy_spec hm hc hok
    have : e = .eof := he.1 rfl
    subst this
    refine ⟨out, hd, fun hlt => ?_⟩
    rw [file_bytes _ _ (header_length _)]
    have hn : (out.flatMap fun t => (c.record t).put).length / 50 % 2 ^ 32 = out.length := by
      rw [flatMap_length, Nat.mul_div_cancel_left _ (by norm_num), Nat.mod_eq_of_lt hlt]
    have hl := layout c out ⟨(out.flatMap fun t => (c.record t).put).length / 50 % 2 ^ 32, Nat.mod_lt _ (by norm_num)⟩
    simp only [hn] at hl ⊢
    exact hl

example (c : Conv) : writeSTL c [⟨⟨0, 0, 0⟩, ⟨1, 0, 0⟩, ⟨0, 1, 0⟩⟩] ≠ none := by simp [writeSTL]

end Sdf.Stl
