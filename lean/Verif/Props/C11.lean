import Verif.Lemmas.StlIeee

/-!
C11: STL round trip.

The full claim — reading back what `WriteSTL` wrote gives the triangles rounded to float32, for every non-empty mesh of
fine triangles — is false: the reader gives up at the 10001st triangle whose stored normal does not match the rounded
corners.  It holds up to that limit.
-/

namespace Sdf.Stl

/-- Neither rejected nor counted out: a triangle `Fine` in the sense of the specification passes `validate`, perhaps
with the normal mismatch warning. -/
theorem fine_validate (c : Conv) (hs : c.Sane) (t : Tri) (h : c.Fine t) : c.validate (c.record t) ≠ .bad := by
  obtain ⟨ha, hb, hc, hn, hd⟩ := h
  have hunit : ¬ F3.Bad (c.record t).normal := by
    simp only [Conv.record, Conv.unitNormal]
    rw [if_neg hn]
    have hle : ∀ v : V3, |(V3.unit v).x| ≤ 1 ∧ |(V3.unit v).y| ≤ 1 ∧ |(V3.unit v).z| ≤ 1 := by
      intro v
      have h0 : 0 ≤ V3.norm v := Real.sqrt_nonneg _
      have hsq : V3.norm v * V3.norm v = v.x * v.x + v.y * v.y + v.z * v.z := by
        rw [V3.norm]; exact Real.mul_self_sqrt (by nlinarith [mul_self_nonneg v.x, mul_self_nonneg v.y, mul_self_nonneg v.z])
      have key : ∀ x : ℝ, x * x ≤ V3.norm v * V3.norm v → |1 / V3.norm v * x| ≤ 1 := by
        intro x hx
        rcases h0.eq_or_lt with h0 | h0
        · rw [← h0]; simp
        · rw [abs_mul, abs_of_pos (by positivity : 0 < 1 / V3.norm v), one_div, inv_mul_le_iff₀ h0, mul_one]
          exact abs_le_of_sq_le_sq (by nlinarith) h0.le
      refine ⟨key _ ?_, key _ ?_, key _ ?_⟩ <;> rw [hsq] <;>
        nlinarith [mul_self_nonneg v.x, mul_self_nonneg v.y, mul_self_nonneg v.z]
    rintro (h | h | h)
    · exact hs _ (hle _).1 h
    · exact hs _ (hle _).2.1 h
    · exact hs _ (hle _).2.2 h
  unfold Conv.validate
  rw [if_neg hunit, if_neg (by rintro (h | h | h); exacts [ha h, hb h, hc h]), if_neg hd]
  split_ifs <;> simp

/-- Round trip for every mesh of fine triangles at most 10000 of which trigger the normal warning, from every reader
that delivers the bytes in arbitrary pieces and reports the end of the data separately.  The error is the warning
if and only if some triangle triggers it, and nil otherwise. -/
theorem C11_round_trip_partial (c : Conv) (hs : c.Sane) (src : Source) (he : src.eager = false) (model : List Tri)
    (bytes : List Byte) (hw : writeSTL c model = some bytes) (hf : ∀ t ∈ model, c.Fine t)
    (hm : (model.filter fun t => c.validate (c.record t) = .normalMismatch).length ≤ 10000) :
    ∃ warn, readBinarySTL c src bytes = .triangles (model.map c.rounded) warn ∧
      (warn = true ↔ ∃ t ∈ model, c.validate (c.record t) = .normalMismatch) := by
  unfold writeSTL at hw
  split_ifs at hw with h1 h2
  cases hw
  obtain ⟨calls, hr⟩ := readBinary_header c src he ⟨model.length, by omega⟩ (model.flatMap fun t => (c.record t).put) h1
  rw [hr]
  obtain ⟨m, e1, e2⟩ := readLoop_ok c src he model 0 [] calls (fun t ht => fine_validate c hs t (hf t ht)) (by simpa using hm)
  refine ⟨m, ?_, by simpa using e2⟩
  rw [e1]
  rfl

/-- The side a stored normal points to does not matter: a record with the opposite normal is checked with the same outcome. -/
theorem C11_either_side (c : Conv) (r r' : StlTri) (h1 : r'.v1 = r.v1) (h2 : r'.v2 = r.v2) (h3 : r'.v3 = r.v3)
    (hb : F3.Bad r'.normal ↔ F3.Bad r.normal) (hn : c.vec r'.normal = V3.scale (-1) (c.vec r.normal)) :
    c.validate r' = c.validate r := by
  have hm : c.Mismatch r' ↔ c.Mismatch r := by
    have hraw : c.rawNormal r' = c.rawNormal r := by simp [Conv.rawNormal, h1, h2, h3]
    simp only [Conv.Mismatch, hraw, hn]
    generalize c.vec (c.f3 (V3.unit (c.rawNormal r))) = n
    generalize c.vec r.normal = w
    have e1 : Conv.Within n (V3.scale (-1) w) (5 / 100) ↔ Conv.Within (V3.scale (-1) n) w (5 / 100) := by
      simp only [Conv.Within, V3.scale]
      have : ∀ a b : ℝ, |a - -1 * b| = |-1 * a - b| := fun a b => by rw [← abs_neg]; congr 1; ring
      rw [this, this, this]
    have e2 : Conv.Within (V3.scale (-1) n) (V3.scale (-1) w) (5 / 100) ↔ Conv.Within n w (5 / 100) := by
      simp only [Conv.Within, V3.scale]
      have : ∀ a b : ℝ, |-1 * a - -1 * b| = |a - b| := fun a b => by rw [← abs_neg]; congr 1; ring
      rw [this, this, this]
    rw [e1, e2, and_comm (a := ¬ Conv.Within (V3.scale (-1) n) w (5 / 100))]
  have hd : c.Degenerate r' (1 / 10 ^ 12) ↔ c.Degenerate r (1 / 10 ^ 12) := by simp [Conv.Degenerate, h1, h2, h3]
  unfold Conv.validate
  by_cases a : F3.Bad r.normal
  · rw [if_pos (hb.mpr a), if_pos a]
  rw [if_neg (fun h => a (hb.mp h)), if_neg a, h1, h2, h3]
  by_cases a : F3.Bad r.v1 ∨ F3.Bad r.v2 ∨ F3.Bad r.v3
  · rw [if_pos a, if_pos a]
  rw [if_neg a, if_neg a]
  by_cases a : c.Degenerate r (1 / 10 ^ 12)
  · rw [if_pos (hd.mpr a), if_pos a]
  rw [if_neg (fun h => a (hd.mp h)), if_neg a]
  by_cases a : c.Mismatch r
  · rw [if_pos (hm.mpr a), if_pos a]
  · rw [if_neg (fun h => a (hm.mp h)), if_neg a]

/-- Non-vacuity: the normals (1, 0, 0) and (-1, 0, 0). -/
example : ∃ r r' : StlTri, r'.v1 = r.v1 ∧ r'.v2 = r.v2 ∧ r'.v3 = r.v3 ∧ (F3.Bad r'.normal ↔ F3.Bad r.normal) ∧
    ieee.vec r'.normal = V3.scale (-1) (ieee.vec r.normal) ∧ ieee.vec r.normal = ⟨1, 0, 0⟩ := by
  refine ⟨⟨⟨⟨0x3F800000, by norm_num⟩, zero32, zero32⟩, ⟨zero32, zero32, zero32⟩, ⟨zero32, zero32, zero32⟩, ⟨zero32, zero32, zero32⟩⟩,
    ⟨⟨⟨0xBF800000, by norm_num⟩, zero32, zero32⟩, ⟨zero32, zero32, zero32⟩, ⟨zero32, zero32, zero32⟩, ⟨zero32, zero32, zero32⟩⟩,
    rfl, rfl, rfl, ?_, ?_, ?_⟩
  · simp [F3.Bad, F32.Bad]
  · simp only [Conv.vec, ieee, decode_zero, decode_one, decode_neg_one, V3.scale]; norm_num
  · simp only [Conv.vec, ieee, decode_zero, decode_one]

/-- `WriteSTL` rejects an empty mesh. -/
theorem C11_empty_rejected (c : Conv) : writeSTL c [] = none := by simp [writeSTL]

theorem slivers_truncate (src : Source) (he : src.eager = false) (l : List Tri) (n : F32) (hn : n.val = l.length)
    (hlen : 10000 < l.length) (h : ∀ t ∈ l, t = sliver) :
    ∃ bytes, writeSTL ieee l = some bytes ∧
      readBinarySTL ieee src bytes = .tooManyMismatches ((l.take 10000).map ieee.rounded) := by
  refine ⟨_, writeSTL_eq ieee l n hn (by intro h; rw [h] at hlen; simp at hlen), ?_⟩
  obtain ⟨calls, hr⟩ := readBinary_header ieee src he n (l.flatMap fun t => (ieee.record t).put) (by omega)
  rw [hr, hn, readLoop_mism ieee src he l 0 [] calls (fun t ht => by rw [h t ht]; exact sliver_validate) (by omega) (by omega),
    List.nil_append]
  rfl

/-- The full claim fails: 10001 fine triangles, written and read back with IEEE rounding, give only the first 10000 and an
error. -/
theorem C11_round_trip_truncates (src : Source) (he : src.eager = false) :
    ∃ model bytes, model.length = 10001 ∧ (∀ t ∈ model, ieee.Fine t) ∧ writeSTL ieee model = some bytes ∧
      readBinarySTL ieee src bytes = .tooManyMismatches ((model.take 10000).map ieee.rounded) := by
  obtain ⟨l, hl⟩ : ∃ l, l = List.replicate 10001 sliver := ⟨_, rfl⟩
  have hlen : l.length = 10001 := by rw [hl, List.length_replicate]
  have hs : ∀ t ∈ l, t = sliver := fun t ht => by rw [hl] at ht; exact List.eq_of_mem_replicate ht
  obtain ⟨bytes, h1, h2⟩ := slivers_truncate src he l ⟨10001, by norm_num⟩ hlen.symm (by omega) hs
  exact ⟨l, bytes, hlen, fun t ht => by rw [hs t ht]; exact sliver_fine, h1, h2⟩

/-- A degenerate triangle (two corners equal after rounding) in an otherwise readable file makes the read fail. -/
theorem C11_degenerate_fails (c : Conv) (src : Source) (he : src.eager = false) (model : List Tri)
    (bytes : List Byte) (hw : writeSTL c model = some bytes) (t : Tri) (ht : t ∈ model)
    (hd : (c.rounded t).a = (c.rounded t).b)
    (hm : (model.filter fun t => c.validate (c.record t) = .normalMismatch).length ≤ 10000) :
    readBinarySTL c src bytes = .failed := by
  unfold writeSTL at hw
  split_ifs at hw with h1 h2
  cases hw
  obtain ⟨calls, hr⟩ := readBinary_header c src he ⟨model.length, by omega⟩ (model.flatMap fun t => (c.record t).put) h1
  rw [hr]
  refine readLoop_bad c src he model 0 [] calls ⟨t, ht, ?_⟩ (by simpa using hm)
  have hdeg : c.Degenerate (c.record t) (1 / 10 ^ 12) := by
    left
    have e : c.vec (c.record t).v1 = c.vec (c.record t).v2 := hd
    rw [e]
    simp [Conv.Within]
  unfold Conv.validate
  split_ifs <;> rfl

/-- A reader that returns `io.EOF` together with the last bytes, as `io.Reader` permits, makes the read fail even though
all the data was there. -/
theorem C11_eof_with_data_fails (c : Conv) (src : Source) (he : src.eager = true) (hbig : ∀ i, 50 ≤ src.size i) (t : Tri)
    (bytes : List Byte) (hw : writeSTL c [t] = some bytes) : readBinarySTL c src bytes = .failed := by
  rw [writeSTL_eq c [t] ⟨1, by norm_num⟩ rfl (by simp)] at hw
  cases hw
  have hfail : ∀ (rest : List Byte) (calls : Nat), rest.length = 50 → fill src 50 ⟨rest, calls⟩ = none := by
    intro rest calls hl
    have hne : rest ≠ [] := by intro e; rw [e] at hl; simp at hl
    rw [fill]
    have : (src.read 50 ⟨rest, calls⟩).2.1 = true := by
      have := hbig calls
      simp only [Source.read, hne, if_false, he, Bool.true_and, decide_eq_true_eq, hl]
      exact le_min le_rfl (le_trans this (le_max_right _ _))
    rw [if_pos this]
  have hfull : ∀ (need : Nat) (st : SourceState), need < st.rest.length → ∃ calls,
      readFull src need st = some (st.rest.take need, ⟨st.rest.drop need, calls⟩) := by
    intro need
    induction need using Nat.strong_induction_on with
    | _ need ih =>
      intro st h
      match need, ih, h with
      | 0, _, _ => exact ⟨st.calls, by simp [readFull]⟩
      | need + 1, ih, h =>
        have hne : st.rest ≠ [] := by intro e; rw [e] at h; simp at h
        rw [readFull]
        set k := min (need + 1) (max 1 (src.size st.calls)) with hk
        have hk1 : 1 ≤ k := le_min (by omega) (le_max_left _ _)
        have hk2 : k ≤ need + 1 := min_le_left _ _
        have hr : src.read (need + 1) st = (st.rest.take k, false, ⟨st.rest.drop k, st.calls + 1⟩) := by
          have : ¬ st.rest.length ≤ k := by omega
          simp only [Source.read, hne, if_false, he, ← hk, this, decide_false, Bool.and_false]
        rw [hr]
        have hl : (st.rest.take k).length = k := by rw [List.length_take]; omega
        simp only [hl, max_eq_right hk1]
        by_cases hkn : k = need + 1
        · exact ⟨st.calls + 1, by simp [hkn]⟩
        · obtain ⟨calls, hc⟩ := ih (need + 1 - k) (by omega) ⟨st.rest.drop k, st.calls + 1⟩ (by simp; omega)
          refine ⟨calls, ?_⟩
          rw [hc]
          simp only [hkn, Bool.false_eq_true, if_false, Option.map_some, List.drop_drop]
          rw [← List.take_add, show k + (need + 1 - k) = need + 1 by omega]
  obtain ⟨calls, hc⟩ := hfull 84 ⟨headerBytes ⟨1, by norm_num⟩ ++ [t].flatMap fun t => (c.record t).put, 0⟩
    (by rw [List.length_append, header_length, flatMap_length]; simp)
  simp only at hc
  rw [List.take_left' (header_length _), List.drop_left' (header_length _)] at hc
  have hg : getU32 (headerBytes ⟨1, by norm_num⟩) 80 = ⟨1, by norm_num⟩ := by
    simpa using getU32_header ⟨1, by norm_num⟩ []
  rw [readBinarySTL, hc]
  simp only [hg]
  rw [if_neg (by norm_num), readLoop, hfail _ _ (by rw [flatMap_length]; simp)]

/-- The hypotheses of the round trip are met: IEEE rounding, a one-triangle mesh, one byte per call. -/
example : ieee.Sane ∧ (∀ t ∈ [sliver], ieee.Fine t) ∧ ([sliver].filter fun t => ieee.validate (ieee.record t) = .normalMismatch).length ≤ 10000 ∧
    writeSTL ieee [sliver] ≠ none ∧ (⟨fun _ => 1, false⟩ : Source).eager = false :=
  ⟨ieee_sane, by simpa using sliver_fine, (List.length_filter_le _ _).trans (by simp), by simp [writeSTL], rfl⟩

end Sdf.Stl
