import Verif.Lemmas.StlStream
import Verif.Lemmas.StlIeee
import Verif.Model.StlFail
import Verif.Spec.Stl

/-! C68: interrupted or failed STL exports are recognised. -/

namespace Sdf.Stl

/-! ### What reading needs -/

theorem source_read {src : Source} {want : Nat} {st : SourceState} (hw : 1 ≤ want) (hne : st.rest ≠ []) :
    ∃ k, 1 ≤ k ∧ k ≤ want ∧ (src.read want st).1 = st.rest.take k ∧ (src.read want st).2.2.rest = st.rest.drop k := by
  refine ⟨min want (max 1 (src.size st.calls)), le_min hw (le_max_left _ _), min_le_left _ _, ?_, ?_⟩ <;> simp [Source.read, hne]

theorem fill_some {src : Source} : ∀ (need : Nat) (st st' : SourceState) (b : List Byte), fill src need st = some (b, st') →
    need ≤ st.rest.length ∧ b = st.rest.take need ∧ st'.rest = st.rest.drop need := by
  intro need
  induction need using Nat.strong_induction_on with
  | _ need ih =>
    intro st st' b h
    match need, ih, h with
    | 0, _, h =>
      rw [fill] at h
      simp only [Option.some.injEq, Prod.mk.injEq] at h
      obtain ⟨rfl, rfl⟩ := h
      simp
    | need + 1, ih, h =>
      rw [fill] at h
      by_cases hne : st.rest = []
      · simp [Source.read, hne] at h
      · obtain ⟨k, h1, h2, e1, e2⟩ := source_read (src := src) (want := need + 1) (by omega) hne
        by_cases hf : (src.read (need + 1) st).2.1 = true
        · simp [hf] at h
        · simp only [hf, Bool.false_eq_true, if_false, Option.map_eq_some_iff, Prod.mk.injEq] at h
          obtain ⟨⟨b1, st1⟩, h3, h4, h5⟩ := h
          have hpos : 1 ≤ (src.read (need + 1) st).1.length := by
            rw [e1, List.length_take]
            have := List.length_pos_of_ne_nil hne
            omega
          rw [max_eq_right hpos] at h3
          have hlt : need + 1 - (src.read (need + 1) st).1.length < need + 1 := by omega
          obtain ⟨g1, g2, g3⟩ := ih _ hlt _ _ _ h3
          simp only at h4 h5
          rw [e2, List.length_drop] at g1
          rw [e1, List.length_take] at g1
          have hk : k ≤ st.rest.length := by omega
          have hl : (src.read (need + 1) st).1.length = k := by rw [e1, List.length_take]; omega
          refine ⟨by omega, ?_, ?_⟩
          · rw [← h4, g2, e1, e2, List.length_take, min_eq_left hk, ← List.take_add, show k + (need + 1 - k) = need + 1 by omega]
          · rw [← h5, g3, e2, hl, List.drop_drop, show k + (need + 1 - k) = need + 1 by omega]

theorem readFull_some {src : Source} : ∀ (need : Nat) (st st' : SourceState) (b : List Byte), readFull src need st = some (b, st') →
    need ≤ st.rest.length ∧ b = st.rest.take need ∧ st'.rest = st.rest.drop need := by
  intro need
  induction need using Nat.strong_induction_on with
  | _ need ih =>
    intro st st' b h
    match need, ih, h with
    | 0, _, h =>
      rw [readFull] at h
      simp only [Option.some.injEq, Prod.mk.injEq] at h
      obtain ⟨rfl, rfl⟩ := h
      simp
    | need + 1, ih, h =>
      rw [readFull] at h
      by_cases hne : st.rest = []
      · simp [Source.read, hne] at h
      · obtain ⟨k, h1, h2, e1, e2⟩ := source_read (src := src) (want := need + 1) (by omega) hne
        by_cases hfull : (src.read (need + 1) st).1.length = need + 1
        · simp only [hfull, if_true, Option.some.injEq, Prod.mk.injEq] at h
          obtain ⟨rfl, rfl⟩ := h
          have hl := hfull
          rw [e1, List.length_take] at hl
          have hk : k = need + 1 := by omega
          subst hk
          exact ⟨by omega, e1, e2⟩
        · by_cases hf : (src.read (need + 1) st).2.1 = true
          · simp [hfull, hf] at h
          · simp only [hfull, hf, Bool.false_eq_true, if_false, Option.map_eq_some_iff, Prod.mk.injEq] at h
            obtain ⟨⟨b1, st1⟩, h3, h4, h5⟩ := h
            have hpos : 1 ≤ (src.read (need + 1) st).1.length := by
              rw [e1, List.length_take]
              have := List.length_pos_of_ne_nil hne
              omega
            rw [max_eq_right hpos] at h3
            have hlt : need + 1 - (src.read (need + 1) st).1.length < need + 1 := by omega
            obtain ⟨g1, g2, g3⟩ := ih _ hlt _ _ _ h3
            simp only at h4 h5
            rw [e2, List.length_drop] at g1
            rw [e1, List.length_take] at g1
            have hk : k ≤ st.rest.length := by omega
            have hl : (src.read (need + 1) st).1.length = k := by rw [e1, List.length_take]; omega
            refine ⟨by omega, ?_, ?_⟩
            · rw [← h4, g2, e1, e2, List.length_take, min_eq_left hk, ← List.take_add, show k + (need + 1 - k) = need + 1 by omega]
            · rw [← h5, g3, e2, hl, List.drop_drop, show k + (need + 1 - k) = need + 1 by omega]

theorem getU32_take (l : List Byte) (n o : Nat) (h : o + 4 ≤ n) : getU32 (l.take n) o = getU32 l o := by
  have e : ∀ j, j < n → (l.take n).getD j 0 = l.getD j 0 := fun j hj => by
    rw [List.getD_eq_getElem?_getD, List.getD_eq_getElem?_getD, List.getElem?_take_of_lt hj]
  simp only [getU32, e o (by omega), e (o + 1) (by omega), e (o + 2) (by omega), e (o + 3) (by omega)]

theorem get_take (l : List Byte) : StlTri.get (l.take 50) = StlTri.get l := by
  simp only [StlTri.get, getF3]
  repeat rw [getU32_take _ _ _ (by norm_num)]

theorem readLoop_some {c : Conv} {src : Source} : ∀ (count mism : Nat) (out : List Tri) (st : SourceState) (ts : List Tri) (m : Bool),
    readLoop c src count mism out st = .triangles ts m →
    50 * count ≤ st.rest.length ∧ ts = out ++ (List.range count).map fun k => c.triangle (StlTri.get (st.rest.drop (50 * k))) := by
  intro count
  induction count with
  | zero =>
    intro mism out st ts m h
    simp only [readLoop, ReadOutcome.triangles.injEq] at h
    simp [h.1]
  | succ count ih =>
    intro mism out st ts m h
    rw [readLoop] at h
    rcases hf : fill src 50 st with _ | ⟨b, st'⟩
    · rw [hf] at h; simp at h
    · rw [hf] at h
      obtain ⟨g1, g2, g3⟩ := fill_some _ _ _ _ hf
      simp only at h
      have key : ∀ mism', readLoop c src count mism' (out ++ [c.triangle (StlTri.get b)]) st' = .triangles ts m →
          50 * (count + 1) ≤ st.rest.length ∧
            ts = out ++ (List.range (count + 1)).map fun k => c.triangle (StlTri.get (st.rest.drop (50 * k))) := by
        intro mism' h'
        obtain ⟨i1, i2⟩ := ih _ _ _ _ _ h'
        rw [g3] at i1 i2
        rw [List.length_drop] at i1
        refine ⟨by omega, ?_⟩
        rw [i2, g2, get_take, List.range_succ_eq_map, List.map_cons, List.map_map, List.append_assoc, List.singleton_append]
        simp only [Nat.mul_zero, List.drop_zero, List.drop_drop]
        congr 3
        funext k
        simp only [Function.comp_apply]
        rw [show 50 + 50 * k = 50 * k.succ by omega]
      rcases hv : c.validate (StlTri.get b) with _ | _ | _
      · rw [hv] at h; exact key _ h
      · rw [hv] at h
        simp only at h
        split at h
        · simp at h
        · exact key _ h
      · rw [hv] at h; simp at h

theorem getU32_le32 (b : List Byte) (o : Nat) : (getU32 b o).val = le32 b o := by
  simp [getU32, le32]

theorem getU32_drop (b : List Byte) (d o : Nat) : getU32 (b.drop d) o = Fin.ofNat (2 ^ 32) (le32 b (d + o)) := by
  have e : ∀ j, (b.drop d).getD j 0 = b.getD (d + j) 0 := fun j => by
    rw [List.getD_eq_getElem?_getD, List.getD_eq_getElem?_getD, List.getElem?_drop]
  apply Fin.ext
  have hlt : le32 b (d + o) < 2 ^ 32 := by rw [← getU32_le32]; exact (getU32 b (d + o)).isLt
  rw [Fin.val_ofNat, Nat.mod_eq_of_lt hlt, ← getU32_le32]
  simp only [getU32, e, Nat.add_assoc]

/-- Whatever the file holds and however its bytes arrive: when reading succeeds, the triangles are those stored in the file, there is at least
one, and the file is long enough to hold all of them. -/
theorem C68_read_is_stored (c : Conv) (src : Source) (file : List Byte) (ts : List Tri) (m : Bool)
    (h : readBinarySTL c src file = .triangles ts m) :
    ts = storedTriangles c file ∧ 1 ≤ le32 file 80 ∧ 84 + 50 * le32 file 80 ≤ file.length := by
  rw [readBinarySTL] at h
  rcases hf : readFull src 84 ⟨file, 0⟩ with _ | ⟨b, st⟩
  · rw [hf] at h; simp at h
  · rw [hf] at h
    obtain ⟨g1, g2, g3⟩ := readFull_some _ _ _ _ hf
    simp only at g1 g2 g3 h
    have hc : (getU32 b 80).val = le32 file 80 := by rw [g2, getU32_take _ _ _ (by norm_num), getU32_le32]
    by_cases h0 : (getU32 b 80).val = 0
    · rw [if_pos h0] at h; simp at h
    · rw [if_neg h0] at h
      obtain ⟨i1, i2⟩ := readLoop_some _ _ _ _ _ _ h
      rw [hc] at i1 i2 h0
      rw [g3, List.length_drop] at i1
      refine ⟨?_, by omega, by omega⟩
      rw [i2, List.nil_append, storedTriangles]
      refine List.map_congr_left fun k _ => ?_
      rw [g3, List.drop_drop]
      simp only [StlTri.get, Conv.triangle, Conv.vec, getF3, getU32_drop]

/-- A truncated STL file is never read as a model: every strict prefix of a written file is rejected. -/
theorem C68_truncated_rejected (c : Conv) (src : Source) (model : List Tri) (file : List Byte) (hw : writeSTL c model = some file)
    (k : Nat) (hk : k < file.length) (ts : List Tri) (m : Bool) : readBinarySTL c src (file.take k) ≠ .triangles ts m := by
  intro h
  obtain ⟨-, h1, h2⟩ := C68_read_is_stored c src _ _ _ h
  have hne : model ≠ [] := by
    rintro rfl
    simp [writeSTL] at hw
  have hsmall : model.length < 2 ^ 32 := by
    by_contra hc
    rw [writeSTL, if_neg (by simpa using hne), dif_pos (by omega)] at hw
    simp at hw
  rw [writeSTL_eq c model ⟨model.length, hsmall⟩ rfl hne, Option.some.injEq] at hw
  rw [List.length_take, min_eq_left hk.le] at h2
  have e : le32 (file.take k) 80 = model.length := by
    rw [← getU32_le32, getU32_take _ _ _ (by omega), ← hw, getU32_header]
  rw [e] at h2
  rw [← hw, List.length_append, header_length, flatMap_length] at hk
  omega

/-! ### Writing to a writer that may fail -/

theorem copyAll_spec (w : Writer) : ∀ (l : List (List Byte)) (s : w.State),
    (w.copyAll l s).1 <+: l.flatten ∧ ((w.copyAll l s).2.1 = true → (w.copyAll l s).1 = l.flatten) := by
  intro l
  induction l with
  | nil => intro s; simp [Writer.copyAll]
  | cons b bs ih =>
    intro s
    rw [Writer.copyAll]
    by_cases hok : (w.copy s b).2.1 = true
    · obtain ⟨i1, i2⟩ := ih (w.copy s b).2.2
      have hb : (w.copy s b).1 = b := by
        simp only [Writer.copy, Bool.and_eq_true, Bool.not_eq_true', decide_eq_true_eq] at hok ⊢
        exact List.take_of_length_le hok.2
      simp only [hok, if_true, List.flatten_cons, hb]
      refine ⟨(List.prefix_append_right_inj b).mpr i1, fun h => ?_⟩
      rw [i2 h]
    · simp only [hok, Bool.false_eq_true, if_false]
      refine ⟨?_, fun h => absurd h (by simp)⟩
      exact (List.take_prefix _ _).trans (List.prefix_append _ _)

/-- Whatever the writer does: it is given a prefix of the file, and all of it when `WriteSTL` returns no error. -/
theorem C68_write_prefix (c : Conv) (w : Writer) (s : w.State) (model : List Tri) (file : List Byte) (hw : writeSTL c model = some file) :
    (writeSTLTo c w s model).1 <+: file ∧ ((writeSTLTo c w s model).2 = true → (writeSTLTo c w s model).1 = file) := by
  rw [writeSTL] at hw
  rw [writeSTLTo]
  by_cases h1 : model.length = 0
  · rw [if_pos h1] at hw; simp at hw
  · by_cases h2 : model.length > 2 ^ 32 - 1
    · rw [if_neg h1, dif_pos h2] at hw; simp at hw
    · rw [if_neg h1, dif_neg h2, Option.some.injEq] at hw
      rw [if_neg h1, dif_neg h2]
      have := copyAll_spec w (headerBytes ⟨model.length, by omega⟩ :: model.map fun t => (c.record t).put) s
      rw [List.flatten_cons, ← List.flatMap_def, hw] at this
      exact this

/-- A model `WriteSTL` refuses leaves nothing behind, and an error is returned. -/
theorem C68_write_refused (c : Conv) (w : Writer) (s : w.State) (model : List Tri) (hw : writeSTL c model = none) :
    writeSTLTo c w s model = ([], false) := by
  rw [writeSTL] at hw
  rw [writeSTLTo]
  by_cases h1 : model.length = 0
  · rw [if_pos h1]
  · by_cases h2 : model.length > 2 ^ 32 - 1
    · rw [if_neg h1, dif_pos h2]
    · rw [if_neg h1, dif_neg h2] at hw; simp at hw

/-- What a failed `WriteSTL` leaves behind is rejected on reading, unless all of the file had been written. -/
theorem C68_write_failure (c : Conv) (w : Writer) (s : w.State) (src : Source) (model : List Tri) (file : List Byte)
    (hw : writeSTL c model = some file) (hall : (writeSTLTo c w s model).1 ≠ file) (ts : List Tri) (m : Bool) :
    readBinarySTL c src (writeSTLTo c w s model).1 ≠ .triangles ts m := by
  obtain ⟨hp, -⟩ := C68_write_prefix c w s model file hw
  rw [List.prefix_iff_eq_take] at hp
  rw [hp]
  refine C68_truncated_rejected c src model file hw _ ?_ ts m
  by_contra hc
  rw [List.take_of_length_le (by omega)] at hp
  exact hall hp

/-! ### Interrupted streaming -/

theorem reject_zero (c : Conv) (src : Source) (file : List Byte) (h : le32 file 80 = 0) (ts : List Tri) (m : Bool) :
    readBinarySTL c src file ≠ .triangles ts m := by
  intro hr
  have := (C68_read_is_stored c src file ts m hr).2.1
  omega

theorem le32_zeros (w : List Byte) (n : Nat) (hn : 84 ≤ n) : le32 (List.replicate n 0 ++ w) 80 = 0 := by
  have e : ∀ j, j < 84 → (List.replicate n (0 : Byte) ++ w).getD j 0 = 0 := fun j hj => by
    rw [List.getD_eq_getElem?_getD, List.getElem?_append_left (by simp; omega), List.getElem?_replicate_of_lt (by omega)]
    rfl
  unfold le32
  rw [e 80 (by norm_num), e (80 + 1) (by norm_num), e (80 + 2) (by norm_num), e (80 + 3) (by norm_num)]
  rfl

/-- An export by `CreateSTL` that fails or is interrupted at any point, before the last four bytes of the header are being written, leaves a
file that is rejected on reading. -/
theorem C68_interrupted_partial (c : Conv) (r : Renderer) (minLen : Nat) (s : r.State) (k : Nat) (file : List Byte)
    (h : Interrupted c r minLen s k file) (hk : k ≤ 80) (src : Source) (ts : List Tri) (m : Bool) :
    readBinarySTL c src file ≠ .triangles ts m := by
  refine reject_zero c src file ?_ ts m
  have hempty : le32 ([] : List Byte) 80 = 0 := by simp [le32]
  cases h with
  | copying hc hp =>
    rename_i w w'
    by_cases hw : w' = []
    · rw [if_pos hw]; exact hempty
    · rw [if_neg hw, fileWrite_end]; exact le32_zeros _ _ le_rfl
  | header hc hlt =>
    rename_i w s' hlt
    have hz : ∀ n : F32, (headerBytes n).take k = List.replicate k 0 := fun n => by
      rw [headerBytes, List.take_append_of_le_length (by simp; omega), List.take_replicate, min_eq_left hk]
    rw [hz, fileWrite_start, List.length_replicate]
    by_cases hw : w = []
    · rw [if_pos hw, List.drop_nil, List.append_nil]
      have e : ∀ j, (List.replicate k (0 : Byte)).getD j 0 = 0 := fun j => by
        rw [List.getD_eq_getElem?_getD, List.getElem?_replicate]
        split <;> rfl
      unfold le32
      rw [e, e, e, e]
      rfl
    · rw [if_neg hw, fileWrite_end, List.drop_append_of_le_length (by simp; omega), List.drop_replicate, ← List.append_assoc,
        List.replicate_append_replicate, show k + (84 - k) = 84 by omega]
      exact le32_zeros _ _ le_rfl

/-- The bytes of a file whose header has been written up to byte `k`. -/
theorem torn_getD (n : F32) (w : List Byte) (k : Nat) (hk : k < 84) (j : Nat) :
    (fileWrite (if w = [] then [] else fileWrite [] 84 w) 0 ((headerBytes n).take k)).getD j 0 =
      if j < k ∨ 84 ≤ j then (headerBytes n ++ w).getD j 0 else 0 := by
  have hl : ((headerBytes n).take k).length = k := by rw [List.length_take, header_length]; omega
  rw [fileWrite_start, hl]
  simp only [List.getD_eq_getElem?_getD]
  by_cases h1 : j < k
  · rw [if_pos (Or.inl h1), List.getElem?_append_left (by omega), List.getElem?_take_of_lt h1,
      List.getElem?_append_left (by rw [header_length]; omega)]
  · rw [List.getElem?_append_right (by omega), hl, List.getElem?_drop, show k + (j - k) = j by omega]
    by_cases h2 : 84 ≤ j
    · rw [if_pos (Or.inr h2), List.getElem?_append_right (by rw [header_length]; omega), header_length]
      by_cases hw : w = []
      · rw [if_pos hw, hw]; simp
      · rw [if_neg hw, fileWrite_end, List.getElem?_append_right (by simp; omega), List.length_replicate]
    · rw [if_neg (show ¬ (j < k ∨ 84 ≤ j) by omega)]
      by_cases hw : w = []
      · rw [if_pos hw]; simp
      · rw [if_neg hw, fileWrite_end, List.getElem?_append_left (by simp; omega), List.getElem?_replicate_of_lt (by omega)]
        rfl

/-- While the last four bytes of the header are being written, a reader can see a shorter model: some of the first triangles of the complete
one. -/
theorem C68_torn_is_prefix (c : Conv) (r : Renderer) (minLen : Nat) (s s' : r.State) (w : List Byte) (k : Nat) (hk : k < 84)
    (hc : Copy c r minLen s w false s') (file : List Byte) (n : F32) (hn : n = ⟨w.length / 50 % 2 ^ 32, Nat.mod_lt _ (by norm_num)⟩)
    (hf : file = fileWrite (if w = [] then [] else fileWrite [] 84 w) 0 ((headerBytes n).take k)) (src : Source) (ts : List Tri) (m : Bool)
    (h : readBinarySTL c src file = .triangles ts m) :
    Interrupted c r minLen s k file ∧ ts <+: storedTriangles c (headerBytes n ++ w) := by
  refine ⟨by rw [hf, hn]; exact Interrupted.header k hc hk, ?_⟩
  obtain ⟨h1, -, -⟩ := C68_read_is_stored c src file ts m h
  have hg : ∀ j, file.getD j 0 = if j < k ∨ 84 ≤ j then (headerBytes n ++ w).getD j 0 else 0 := fun j => by
    rw [hf]; exact torn_getD n w k hk j
  have hcount : le32 file 80 ≤ le32 (headerBytes n ++ w) 80 := by
    have hle : ∀ j, (file.getD j 0).val ≤ ((headerBytes n ++ w).getD j 0).val := fun j => by
      rw [hg]; split <;> simp
    unfold le32
    have := hle 80
    have := hle (80 + 1)
    have := hle (80 + 2)
    have := hle (80 + 3)
    omega
  have hbody : ∀ o, 84 ≤ o → le32 file o = le32 (headerBytes n ++ w) o := fun o ho => by
    unfold le32
    rw [hg, hg, hg, hg, if_pos (Or.inr ho), if_pos (Or.inr (by omega)), if_pos (Or.inr (by omega)), if_pos (Or.inr (by omega))]
  rw [h1, storedTriangles, storedTriangles, List.prefix_iff_eq_take, List.length_map, List.length_range, List.map_take.symm, List.take_range,
    min_eq_left hcount]
  refine List.map_congr_left fun i _ => ?_
  simp only
  rw [hbody _ (by omega), hbody _ (by omega), hbody _ (by omega), hbody _ (by omega), hbody _ (by omega), hbody _ (by omega),
    hbody _ (by omega), hbody _ (by omega), hbody _ (by omega)]

/-! ### The shorter model can be read -/

/-- A renderer that delivers `n` times the same triangle, its state, and then `io.EOF` together with the last of them. -/
def repeated (t : Tri) : Renderer where
  State := Nat
  read n len ts e n' := ts = List.replicate (min len n) t ∧ e = (if n ≤ len then some .eof else none) ∧ n' = n - min len n

/-- The triangle (0,0,0), (1,0,0), (0,1,0). -/
def corner : Tri := ⟨⟨0, 0, 0⟩, ⟨1, 0, 0⟩, ⟨0, 1, 0⟩⟩

theorem corner_record : (ieee.vec (ieee.record corner).v1 = ⟨0, 0, 0⟩ ∧ ieee.vec (ieee.record corner).v2 = ⟨1, 0, 0⟩ ∧
    ieee.vec (ieee.record corner).v3 = ⟨0, 1, 0⟩) ∧ ieee.vec (ieee.record corner).normal = ⟨0, 0, 1⟩ := by
  have hu : V3.unit (triNormal corner) = ⟨0, 0, 1⟩ := by
    simp [V3.unit, triNormal, corner, V3.cross, V3.sub, V3.norm, V3.scale]
  have hne : triNormal corner ≠ ⟨0, 0, 0⟩ := by simp [triNormal, corner, V3.cross, V3.sub]
  refine ⟨⟨?_, ?_, ?_⟩, ?_⟩
  · simp [Conv.record, Conv.vec, Conv.f3, corner, ieee_zero]
  · simp [Conv.record, Conv.vec, Conv.f3, corner, ieee_zero, ieee_one]
  · simp [Conv.record, Conv.vec, Conv.f3, corner, ieee_zero, ieee_one]
  · simp only [Conv.record, Conv.unitNormal, hne, if_false, hu]
    simp [Conv.vec, Conv.f3, ieee_zero, ieee_one]

theorem corner_ok : ieee.validate (ieee.record corner) = .ok := by
  obtain ⟨⟨h1, h2, h3⟩, h4⟩ := corner_record
  have hne : triNormal corner ≠ ⟨0, 0, 0⟩ := by simp [triNormal, corner, V3.cross, V3.sub]
  have b0 : ¬ F3.Bad (ieee.record corner).normal := by
    simp only [Conv.record, Conv.unitNormal, hne, if_false]
    simp [F3.Bad, Conv.f3, ieee_fine]
  have b1 : ¬ (F3.Bad (ieee.record corner).v1 ∨ F3.Bad (ieee.record corner).v2 ∨ F3.Bad (ieee.record corner).v3) := by
    simp [F3.Bad, Conv.record, Conv.f3, ieee_fine]
  have b2 : ¬ ieee.Degenerate (ieee.record corner) (1 / 10 ^ 12) := by
    rw [Conv.Degenerate, h1, h2, h3]
    simp only [Conv.Within]
    norm_num
  have hraw : ieee.rawNormal (ieee.record corner) = ⟨0, 0, 100⟩ := by
    simp only [Conv.rawNormal, h1, h2, h3, V3.cross, V3.sub, V3.scale]
    norm_num
  have b3 : ¬ ieee.Mismatch (ieee.record corner) := by
    rw [Conv.Mismatch, hraw, h4]
    have hu : V3.unit ⟨0, 0, 100⟩ = ⟨0, 0, 1⟩ := by
      have : V3.norm ⟨0, 0, 100⟩ = 100 := V3.norm_eq_of (by norm_num) (by norm_num)
      simp [V3.unit, this, V3.scale]
    rw [hu]
    simp only [Conv.vec, Conv.f3, ieee_zero, ieee_one, Conv.Within]
    norm_num
  simp only [Conv.validate, b0, b1, b2, b3, if_false]

/-- `CreateSTL` copies such a rendering in one go. -/
theorem repeated_copy (c : Conv) (t : Tri) (n : Nat) (hn : 1 ≤ n ∧ n ≤ 16384) :
    (repeated t).read n n (List.replicate n t) (some .eof) (0 : Nat) ∧
    Copy c (repeated t) 50 n ((List.replicate n t).flatMap fun t => (c.record t).put) false (0 : Nat) := by
  have hread : (repeated t).read n n (List.replicate n t) (some .eof) (0 : Nat) := by simp [repeated]
  refine ⟨hread, ?_⟩
  let b : List Byte := List.replicate (n * 50) 0
  have hb : b.length = n * 50 := by simp [b]
  have hmin : min (b.length / 50) trianglesInBuffer = n := by
    rw [hb, Nat.mul_div_cancel _ (by norm_num)]
    simp only [trianglesInBuffer]
    omega
  have hput := putAll_spec c (List.replicate n t) b 0 (by simp [hb])
  have hstop := @Copy.stop c (repeated t) 50 n b ((0 + (List.replicate n t).length) * 50) (putAll c b 0 (List.replicate n t)) .eof (0 : Nat)
    (by rw [hb]; omega)
    (StlRead.loop (by rw [hmin]; omega) (by
      rw [hmin]
      refine StlLoop.stop (by omega) ?_ (by simp) (by simp [hb])
      rw [hb, Nat.mul_div_cancel _ (by norm_num), Nat.sub_zero, min_self]
      exact hread))
  rw [hput.2] at hstop
  simpa using hstop

/-- The code does not keep the promise while the last bytes of the header are written: of a model of 257 triangles, when only the first byte of
the count has reached the file, every program that reads the file gets one triangle and no error. -/
theorem C68_torn_header_wrong : ∃ file, Interrupted ieee (repeated corner) 50 (257 : Nat) 81 file ∧
    (∃ s' : Nat, (repeated corner).Delivers (257 : Nat) (List.replicate 257 corner) .eof s') ∧
    ∀ src : Source, src.eager = false → readBinarySTL ieee src file = .triangles [ieee.triangle (ieee.record corner)] false := by
  obtain ⟨hread, hcopy⟩ := repeated_copy ieee corner 257 (by norm_num)
  generalize hts : List.replicate 257 corner = ts at hread hcopy
  generalize hw : (ts.flatMap fun t => (ieee.record t).put) = w at hcopy
  have hlen : w.length = 12850 := by
    rw [← hw, flatMap_length, ← hts, List.length_replicate]
  have hn : w.length / 50 % 2 ^ 32 = 257 := by rw [hlen]; norm_num
  refine ⟨_, Interrupted.header 81 hcopy (by norm_num), ⟨0, .last (by norm_num) hread⟩, fun src he => ?_⟩
  have hne : w ≠ [] := by intro h; rw [h] at hlen; simp at hlen
  have hfile : fileWrite (if w = [] then [] else fileWrite [] 84 w) 0
      ((headerBytes ⟨w.length / 50 % 2 ^ 32, Nat.mod_lt _ (by norm_num)⟩).take 81) = headerBytes ⟨1, by norm_num⟩ ++ w := by
    have e1 : (headerBytes ⟨w.length / 50 % 2 ^ 32, Nat.mod_lt _ (by norm_num)⟩).take 81 = List.replicate 80 0 ++ [1] := by
      have : (⟨w.length / 50 % 2 ^ 32, Nat.mod_lt _ (by norm_num)⟩ : F32) = ⟨257, by norm_num⟩ := Fin.ext hn
      rw [this]
      rfl
    rw [e1, fileWrite_start, if_neg hne, fileWrite_end]
    have e2 : (List.replicate 80 (0 : Byte) ++ [1]).length = 81 := by simp
    rw [e2, List.drop_append_of_le_length (by simp), List.drop_replicate]
    have e3 : headerBytes ⟨1, by norm_num⟩ = List.replicate 80 0 ++ [1] ++ List.replicate 3 0 := rfl
    rw [e3]
    simp only [List.append_assoc]
  rw [hfile]
  obtain ⟨calls, hb⟩ := readBinary_header ieee src he ⟨1, by norm_num⟩ w (by norm_num)
  rw [hb]
  obtain ⟨calls', hfill⟩ := fill_lazy src he 50 ⟨w, calls⟩ (by simp [hlen])
  have htake : w.take 50 = (ieee.record corner).put := by
    rw [← hw, ← hts, show (257 : Nat) = 256 + 1 from rfl, List.replicate_succ, List.flatMap_cons, List.take_left' (put_length _)]
  rw [readLoop, hfill, htake]
  have hg : StlTri.get (ieee.record corner).put = ieee.record corner := by simpa using get_put (ieee.record corner) []
  simp only [hg, corner_ok, readLoop, List.nil_append]
  simp

/-- Non-vacuity: a file to truncate, and a writer that takes 100 bytes and then fails. -/
example : (∃ file, writeSTL ieee [corner] = some file ∧ file.length = 134) ∧
    ∃ (w : Writer) (s : w.State), (writeSTLTo ieee w s [corner]).1.length = 100 ∧ (writeSTLTo ieee w s [corner]).2 = false := by
  refine ⟨⟨_, writeSTL_eq ieee [corner] ⟨1, by norm_num⟩ rfl (by simp), by simp [header_length, put_length]⟩,
    ⟨Nat, fun room b => (min room b.length, decide (room < b.length), room - b.length)⟩, (100 : Nat), ?_, ?_⟩
  · simp [writeSTLTo, Writer.copyAll, Writer.copy, header_length, put_length]
  · simp [writeSTLTo, Writer.copyAll, Writer.copy, header_length, put_length]

end Sdf.Stl
