import Verif.Model.Stl
import Mathlib.Tactic.Linarith

namespace Sdf.Stl

theorem putU32_length (v : F32) : (putU32 v).length = 4 := rfl

theorem putF3_length (f : F3) : (putF3 f).length = 12 := rfl

theorem put_length (t : StlTri) : t.put.length = 50 := rfl

theorem header_length (n : F32) : (headerBytes n).length = 84 := by
  simp [headerBytes, putU32_length]

theorem flatMap_length (c : Conv) (l : List Tri) : (l.flatMap fun t => (c.record t).put).length = 50 * l.length := by
  induction l with
  | nil => rfl
  | cons t l ih => rw [List.flatMap_cons, List.length_append, ih, put_length, List.length_cons]; ring

theorem getU32_append (pre : List Byte) (v : F32) (post : List Byte) (o : Nat) (ho : o = pre.length) :
    getU32 (pre ++ (putU32 v ++ post)) o = v := by
  subst ho
  apply Fin.ext
  have hv := v.isLt
  have e : ∀ i : Nat, (pre ++ (putU32 v ++ post)).getD (pre.length + i) 0 = (putU32 v ++ post).getD i 0 := by
    intro i
    simp [List.getD, List.getElem?_append_right]
  have e0 := e 0
  simp only [Nat.add_zero] at e0
  simp only [getU32, e0, e 1, e 2, e 3]
  simp [putU32, List.getD]
  omega

theorem getF3_append (pre : List Byte) (f : F3) (post : List Byte) (o : Nat) (ho : o = pre.length) :
    getF3 (pre ++ (putF3 f ++ post)) o = f := by
  subst ho
  have h1 := getU32_append pre f.x (putU32 f.y ++ (putU32 f.z ++ post)) pre.length rfl
  have h2 := getU32_append (pre ++ putU32 f.x) f.y (putU32 f.z ++ post) (pre.length + 4) (by simp [putU32_length])
  have h3 := getU32_append (pre ++ putU32 f.x ++ putU32 f.y) f.z post (pre.length + 8) (by simp [putU32_length])
  simp only [List.append_assoc] at h1 h2 h3
  simp only [getF3, putF3, List.append_assoc, h1, h2, h3]

theorem get_put (t : StlTri) (post : List Byte) : StlTri.get (t.put ++ post) = t := by
  have h1 := getF3_append [] t.normal (putF3 t.v1 ++ (putF3 t.v2 ++ (putF3 t.v3 ++ ([0, 0] ++ post)))) 0 rfl
  have h2 := getF3_append (putF3 t.normal) t.v1 (putF3 t.v2 ++ (putF3 t.v3 ++ ([0, 0] ++ post))) 12 rfl
  have h3 := getF3_append (putF3 t.normal ++ putF3 t.v1) t.v2 (putF3 t.v3 ++ ([0, 0] ++ post)) 24 rfl
  have h4 := getF3_append (putF3 t.normal ++ putF3 t.v1 ++ putF3 t.v2) t.v3 ([0, 0] ++ post) 36 rfl
  simp only [List.append_assoc, List.nil_append] at h1 h2 h3 h4
  simp only [StlTri.get, StlTri.put, List.append_assoc, h1, h2, h3, h4]

/-- A reader that reports EOF on its own delivers exactly the bytes asked for, if there are that many. -/
theorem fill_lazy (src : Source) (he : src.eager = false) : ∀ (need : Nat) (st : SourceState),
    need ≤ st.rest.length → ∃ calls, fill src need st = some (st.rest.take need, ⟨st.rest.drop need, calls⟩) := by
  intro need
  induction need using Nat.strong_induction_on with
  | _ need ih =>
    intro st h
    match need, ih, h with
    | 0, _, _ => exact ⟨st.calls, by simp [fill]⟩
    | need + 1, ih, h =>
      have hne : st.rest ≠ [] := by intro e; rw [e] at h; simp at h
      rw [fill]
      have hr : src.read (need + 1) st = (st.rest.take (min (need + 1) (max 1 (src.size st.calls))), false,
          ⟨st.rest.drop (min (need + 1) (max 1 (src.size st.calls))), st.calls + 1⟩) := by
        simp [Source.read, hne, he]
      set k := min (need + 1) (max 1 (src.size st.calls)) with hk
      have hk1 : 1 ≤ k := le_min (by omega) (le_max_left _ _)
      have hk2 : k ≤ need + 1 := min_le_left _ _
      rw [hr]
      have hl : (st.rest.take k).length = k := by rw [List.length_take]; omega
      simp only [hl, max_eq_right hk1]
      obtain ⟨calls, hc⟩ := ih (need + 1 - k) (by omega) ⟨st.rest.drop k, st.calls + 1⟩ (by simp; omega)
      refine ⟨calls, ?_⟩
      rw [hc]
      simp only [Bool.false_eq_true, if_false, Option.map_some, List.drop_drop]
      rw [← List.take_add, show k + (need + 1 - k) = need + 1 by omega]

theorem readFull_lazy (src : Source) (he : src.eager = false) : ∀ (need : Nat) (st : SourceState),
    need ≤ st.rest.length → ∃ calls, readFull src need st = some (st.rest.take need, ⟨st.rest.drop need, calls⟩) := by
  intro need
  induction need using Nat.strong_induction_on with
  | _ need ih =>
    intro st h
    match need, ih, h with
    | 0, _, _ => exact ⟨st.calls, by simp [readFull]⟩
    | need + 1, ih, h =>
      have hne : st.rest ≠ [] := by intro e; rw [e] at h; simp at h
      rw [readFull]
      have hr : src.read (need + 1) st = (st.rest.take (min (need + 1) (max 1 (src.size st.calls))), false,
          ⟨st.rest.drop (min (need + 1) (max 1 (src.size st.calls))), st.calls + 1⟩) := by
        simp [Source.read, hne, he]
      set k := min (need + 1) (max 1 (src.size st.calls)) with hk
      have hk1 : 1 ≤ k := le_min (by omega) (le_max_left _ _)
      have hk2 : k ≤ need + 1 := min_le_left _ _
      rw [hr]
      have hl : (st.rest.take k).length = k := by rw [List.length_take]; omega
      simp only [hl, max_eq_right hk1]
      by_cases hkn : k = need + 1
      · exact ⟨st.calls + 1, by simp [hkn]⟩
      · obtain ⟨calls, hc⟩ := ih (need + 1 - k) (by omega) ⟨st.rest.drop k, st.calls + 1⟩ (by simp; omega)
        refine ⟨calls, ?_⟩
        rw [hc]
        simp only [hkn, Bool.false_eq_true, if_false, Option.map_some, List.drop_drop]
        rw [← List.take_add, show k + (need + 1 - k) = need + 1 by omega]

/-- The read loop on the records of a list of triangles none of which is rejected. -/
theorem readLoop_ok (c : Conv) (src : Source) (he : src.eager = false) :
    ∀ (l : List Tri) (mism : Nat) (out : List Tri) (calls : Nat),
    (∀ t ∈ l, c.validate (c.record t) ≠ .bad) →
    mism + (l.filter fun t => c.validate (c.record t) = .normalMismatch).length ≤ 10000 →
    ∃ m, readLoop c src l.length mism out ⟨l.flatMap fun t => (c.record t).put, calls⟩ =
        .triangles (out ++ l.map fun t => c.triangle (c.record t)) m ∧
      (m = true ↔ mism ≠ 0 ∨ ∃ t ∈ l, c.validate (c.record t) = .normalMismatch) := by
  intro l
  induction l with
  | nil =>
    intro mism out calls _ _
    exact ⟨decide (mism ≠ 0), by simp [readLoop], by simp⟩
  | cons t l ih =>
    intro mism out calls hb hm
    have hlen : 50 ≤ ((t :: l).flatMap fun t => (c.record t).put).length := by rw [flatMap_length]; simp
    obtain ⟨calls', hf⟩ := fill_lazy src he 50 ⟨(t :: l).flatMap fun t => (c.record t).put, calls⟩ hlen
    have ht : ((t :: l).flatMap fun t => (c.record t).put).take 50 = (c.record t).put := by
      rw [List.flatMap_cons, List.take_left' (put_length _)]
    have hd : ((t :: l).flatMap fun t => (c.record t).put).drop 50 = l.flatMap fun t => (c.record t).put := by
      rw [List.flatMap_cons, List.drop_left' (put_length _)]
    rw [ht, hd] at hf
    have hg : StlTri.get (c.record t).put = c.record t := by simpa using get_put (c.record t) []
    rw [List.length_cons, readLoop, hf]
    simp only [hg]
    rcases hv : c.validate (c.record t) with _ | _ | _
    · obtain ⟨m, h1, h2⟩ := ih mism (out ++ [c.triangle (c.record t)]) calls'
        (fun u hu => hb u (List.mem_cons_of_mem _ hu)) (by rw [List.filter_cons, hv] at hm; simpa using hm)
      refine ⟨m, by rw [h1]; simp, h2.trans ?_⟩
      simp [hv]
    · rw [List.filter_cons, hv] at hm
      simp only [decide_true, if_true, List.length_cons] at hm
      obtain ⟨m, h1, h2⟩ := ih (mism + 1) (out ++ [c.triangle (c.record t)]) calls'
        (fun u hu => hb u (List.mem_cons_of_mem _ hu)) (by omega)
      refine ⟨m, ?_, h2.trans ?_⟩
      · simp only [gt_iff_lt]
        rw [if_neg (by omega), h1]
        simp
      · simp [hv]
    · exact absurd hv (hb t (List.mem_cons_self ..))

/-- A rejected triangle makes the whole read fail (if the mismatch limit is not hit first). -/
theorem readLoop_bad (c : Conv) (src : Source) (he : src.eager = false) :
    ∀ (l : List Tri) (mism : Nat) (out : List Tri) (calls : Nat),
    (∃ t ∈ l, c.validate (c.record t) = .bad) →
    mism + (l.filter fun t => c.validate (c.record t) = .normalMismatch).length ≤ 10000 →
    readLoop c src l.length mism out ⟨l.flatMap fun t => (c.record t).put, calls⟩ = .failed := by
  intro l
  induction l with
  | nil => intro mism out calls h _; simp at h
  | cons t l ih =>
    intro mism out calls hb hm
    have hlen : 50 ≤ ((t :: l).flatMap fun t => (c.record t).put).length := by rw [flatMap_length]; simp
    obtain ⟨calls', hf⟩ := fill_lazy src he 50 ⟨(t :: l).flatMap fun t => (c.record t).put, calls⟩ hlen
    have ht : ((t :: l).flatMap fun t => (c.record t).put).take 50 = (c.record t).put := by
      rw [List.flatMap_cons, List.take_left' (put_length _)]
    have hd : ((t :: l).flatMap fun t => (c.record t).put).drop 50 = l.flatMap fun t => (c.record t).put := by
      rw [List.flatMap_cons, List.drop_left' (put_length _)]
    rw [ht, hd] at hf
    have hg : StlTri.get (c.record t).put = c.record t := by simpa using get_put (c.record t) []
    rw [List.length_cons, readLoop, hf]
    simp only [hg]
    rcases hv : c.validate (c.record t) with _ | _ | _
    · have hb' : ∃ t ∈ l, c.validate (c.record t) = .bad := by
        obtain ⟨u, hu, hu'⟩ := hb
        rcases List.mem_cons.1 hu with rfl | h
        · rw [hv] at hu'; cases hu'
        · exact ⟨u, h, hu'⟩
      exact ih mism _ calls' hb' (by rw [List.filter_cons, hv] at hm; simpa using hm)
    · rw [List.filter_cons, hv] at hm
      simp only [decide_true, if_true, List.length_cons] at hm
      have hb' : ∃ t ∈ l, c.validate (c.record t) = .bad := by
        obtain ⟨u, hu, hu'⟩ := hb
        rcases List.mem_cons.1 hu with rfl | h
        · rw [hv] at hu'; cases hu'
        · exact ⟨u, h, hu'⟩
      simp only [gt_iff_lt]
      rw [if_neg (by omega)]
      exact ih (mism + 1) _ calls' hb' (by omega)
    · rfl

/-- With nothing but mismatching triangles, reading stops at the mismatch limit. -/
theorem readLoop_mism (c : Conv) (src : Source) (he : src.eager = false) :
    ∀ (l : List Tri) (mism : Nat) (out : List Tri) (calls : Nat),
    (∀ t ∈ l, c.validate (c.record t) = .normalMismatch) → mism ≤ 10000 → 10000 < mism + l.length →
    readLoop c src l.length mism out ⟨l.flatMap fun t => (c.record t).put, calls⟩ =
      .tooManyMismatches (out ++ (l.take (10000 - mism)).map fun t => c.triangle (c.record t)) := by
  intro l
  induction l with
  | nil => intro mism out calls _ h1 h2; simp at h2; omega
  | cons t l ih =>
    intro mism out calls hb h1 h2
    have hlen : 50 ≤ ((t :: l).flatMap fun t => (c.record t).put).length := by rw [flatMap_length]; simp
    obtain ⟨calls', hf⟩ := fill_lazy src he 50 ⟨(t :: l).flatMap fun t => (c.record t).put, calls⟩ hlen
    have ht : ((t :: l).flatMap fun t => (c.record t).put).take 50 = (c.record t).put := by
      rw [List.flatMap_cons, List.take_left' (put_length _)]
    have hd : ((t :: l).flatMap fun t => (c.record t).put).drop 50 = l.flatMap fun t => (c.record t).put := by
      rw [List.flatMap_cons, List.drop_left' (put_length _)]
    rw [ht, hd] at hf
    have hg : StlTri.get (c.record t).put = c.record t := by simpa using get_put (c.record t) []
    rw [List.length_cons, readLoop, hf]
    simp only [hg, hb t (List.mem_cons_self ..), gt_iff_lt]
    by_cases hm : 10000 < mism + 1
    · rw [if_pos hm, show 10000 - mism = 0 by omega]; simp
    · rw [if_neg hm, ih (mism + 1) _ calls' (fun u hu => hb u (List.mem_cons_of_mem _ hu)) (by omega)
        (by rw [List.length_cons] at h2; omega),
        show 10000 - mism = (10000 - (mism + 1)) + 1 by omega]
      simp [List.take_succ_cons]

theorem getU32_header (n : F32) (post : List Byte) : getU32 (headerBytes n ++ post) 80 = n := by
  have := getU32_append (List.replicate 80 0) n post 80 (by simp)
  simpa [headerBytes] using this

theorem readBinary_header (c : Conv) (src : Source) (he : src.eager = false) (n : F32) (body : List Byte)
    (hn : n.val ≠ 0) : ∃ calls, readBinarySTL c src (headerBytes n ++ body) = readLoop c src n.val 0 [] ⟨body, calls⟩ := by
  obtain ⟨calls, h⟩ := readFull_lazy src he 84 ⟨headerBytes n ++ body, 0⟩ (by simp [header_length])
  simp only at h
  rw [List.take_left' (header_length n), List.drop_left' (header_length n)] at h
  have hg : getU32 (headerBytes n) 80 = n := by simpa using getU32_header n []
  refine ⟨calls, ?_⟩
  rw [readBinarySTL, h]
  simp only [hg, hn, if_false]

theorem writeSTL_eq (c : Conv) (l : List Tri) (n : F32) (hn : n.val = l.length) (h0 : l ≠ []) :
    writeSTL c l = some (headerBytes n ++ l.flatMap fun t => (c.record t).put) := by
  have h1 : l.length ≠ 0 := by simpa using h0
  have h2 : ¬ l.length > 2 ^ 32 - 1 := by have := n.isLt; omega
  have h3 : (⟨l.length, by omega⟩ : F32) = n := Fin.ext hn.symm
  rw [writeSTL, if_neg h1, dif_neg h2, h3]

/-! ### streaming -/

theorem writeAt_length (b : List Byte) (o : Nat) (x : List Byte) (h : o + x.length ≤ b.length) :
    (writeAt b o x).length = b.length := by
  simp [writeAt]; omega

theorem writeAt_take (b : List Byte) (o : Nat) (x : List Byte) (h : o + x.length ≤ b.length) :
    (writeAt b o x).take (o + x.length) = b.take o ++ x := by
  rw [writeAt, List.take_left']
  simp; omega

theorem putAll_spec (c : Conv) : ∀ (ts : List Tri) (b : List Byte) (it : Nat), (it + ts.length) * 50 ≤ b.length →
    (putAll c b it ts).length = b.length ∧
      (putAll c b it ts).take ((it + ts.length) * 50) = b.take (it * 50) ++ ts.flatMap fun t => (c.record t).put := by
  intro ts
  induction ts with
  | nil => intro b it h; simp [putAll]
  | cons t ts ih =>
    intro b it h
    rw [List.length_cons] at h
    have h0 : it * 50 + ((c.record t).put).length ≤ b.length := by rw [put_length]; omega
    have hl := writeAt_length b (it * 50) ((c.record t).put) h0
    obtain ⟨h1, h2⟩ := ih (writeAt b (it * 50) ((c.record t).put)) (it + 1) (by rw [hl]; omega)
    refine ⟨by rw [putAll, h1, hl], ?_⟩
    rw [putAll, List.length_cons, show it + (ts.length + 1) = it + 1 + ts.length by omega, h2]
    have h3 := writeAt_take b (it * 50) ((c.record t).put) h0
    rw [put_length] at h3
    rw [show (it + 1) * 50 = it * 50 + 50 by ring, h3, List.flatMap_cons, List.append_assoc]

end Sdf.Stl
