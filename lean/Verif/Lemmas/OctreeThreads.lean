import Verif.Lemmas.OctreeRead
import Mathlib.Data.List.Count

/-! Helper lemmas: splitting the work among goroutines and putting the output together again. -/

namespace Sdf.Octree

open Classical

theorem consolidate_aux {α : Type} (div c : Nat) (L : List (List α × List α)) :
    ∀ (i offset : Nat) (done junk : List α), i + L.length = c →
      (∀ p ∈ L.dropLast, p.1.length + p.2.length = div) → offset ≤ div * i → done.length = div * i - offset →
      let dst := done ++ L.flatMap (fun p => p.1 ++ p.2) ++ junk
      (consolidate div c i offset (L.map fun p => p.1.length) dst).take
          (done.length + (L.map fun p => p.1.length).sum) = done ++ L.flatMap (fun p => p.1)
      ∧ (consolidate div c i offset (L.map fun p => p.1.length) dst).length = dst.length := by
  induction L with
  | nil => intro i offset done junk _ _ _ _; simp [consolidate]
  | cons p L ih =>
    intro i offset done junk hi hd ho hl
    by_cases hL : L = []
    · subst hL
      have : i = c - 1 := by simp at hi; omega
      have e : List.take (done.length + p.1.length) (done ++ (p.1 ++ (p.2 ++ junk))) = done ++ p.1 := by
        rw [← List.length_append, ← List.append_assoc]; exact List.take_left' rfl
      simp [consolidate, this, e]
    · have hp : p.1.length + p.2.length = div := hd p (by rw [List.dropLast_cons_of_ne_nil hL]; simp)
      have hd' : ∀ p ∈ L.dropLast, p.1.length + p.2.length = div := by
        intro x hx; exact hd x (by rw [List.dropLast_cons_of_ne_nil hL]; simp [hx])
      have hLl : 0 < L.length := List.length_pos_iff.mpr hL
      have hne : i ≠ c - 1 := by simp at hi; omega
      simp only [List.map_cons, consolidate]
      by_cases hw : p.1.length = div
      · have h2 : p.2 = [] := by
          have : p.2.length = 0 := by omega
          exact List.length_eq_zero_iff.mp this
        rw [if_neg (by tauto)]
        have := ih (i + 1) offset (done ++ p.1) junk (by simp at hi ⊢; omega) hd'
          (by rw [Nat.mul_add]; omega) (by rw [List.length_append, hl, hw, Nat.mul_add]; omega)
        obtain ⟨h3, h4⟩ := this
        simp only [List.flatMap_cons, h2, List.append_nil, List.append_assoc, List.length_append, List.sum_cons] at h3 h4 ⊢
        rw [← Nat.add_assoc]
        exact ⟨h3, h4⟩
      · rw [if_pos ⟨hne, hw⟩]
        have hmove : moveDown (done ++ (p :: L).flatMap (fun p => p.1 ++ p.2) ++ junk)
            (div * i - offset + p.1.length) (div * i - offset + div)
            = (done ++ p.1) ++ L.flatMap (fun p => p.1 ++ p.2) ++
              (junk ++ (done ++ (p :: L).flatMap (fun p => p.1 ++ p.2) ++ junk).drop
                (div * i - offset + p.1.length + (L.flatMap (fun p => p.1 ++ p.2) ++ junk).length)) := by
          unfold moveDown
          rw [← hl]
          have e : done ++ (p :: L).flatMap (fun p => p.1 ++ p.2) ++ junk
              = (done ++ p.1) ++ (p.2 ++ (L.flatMap (fun p => p.1 ++ p.2) ++ junk)) := by simp
          have e1 : (done ++ (p :: L).flatMap (fun p => p.1 ++ p.2) ++ junk).take (done.length + p.1.length)
              = done ++ p.1 := by
            rw [e, ← List.length_append, List.take_left']; rfl
          have e2 : (done ++ (p :: L).flatMap (fun p => p.1 ++ p.2) ++ junk).drop (done.length + div)
              = L.flatMap (fun p => p.1 ++ p.2) ++ junk := by
            rw [e, ← List.append_assoc]
            apply List.drop_left'
            simp; omega
          simp only [e1, e2]
          simp only [List.append_assoc]
        rw [hmove]
        have := ih (i + 1) (offset + (div - p.1.length)) (done ++ p.1)
          (junk ++ (done ++ (p :: L).flatMap (fun p => p.1 ++ p.2) ++ junk).drop
                (div * i - offset + p.1.length + (L.flatMap (fun p => p.1 ++ p.2) ++ junk).length))
          (by simp at hi ⊢; omega) hd'
          (by rw [Nat.mul_add]; omega) (by rw [List.length_append, hl, Nat.mul_add]; omega)
        obtain ⟨h3, h4⟩ := this
        refine ⟨?_, ?_⟩
        · have e : done.length + (p.1.length :: L.map fun p => p.1.length).sum
              = (done ++ p.1).length + (L.map fun p => p.1.length).sum := by
            simp; omega
          rw [e, h3]; simp
        · rw [h4]
          simp only [List.length_append, List.length_drop, List.flatMap_cons]
          omega

theorem sliceOf_lt {len c i : Nat} (h : i < c - 1) : sliceOf len c i = (len / c * i, len / c * i + len / c) := by
  unfold sliceOf; rw [if_neg (by omega)]

theorem sliceOf_last (len c : Nat) : sliceOf len c (c - 1) = (len / c * (c - 1), len) := by
  unfold sliceOf; rw [if_pos rfl]

theorem slice_prefix {α : Type} (l : List α) (c : Nat) : ∀ m ≤ c - 1,
    ((List.range m).map fun i => (l.drop (sliceOf l.length c i).1).take
      ((sliceOf l.length c i).2 - (sliceOf l.length c i).1)).flatten = l.take (l.length / c * m) := by
  intro m
  induction m with
  | zero => simp
  | succ m ih =>
    intro hm
    rw [List.range_succ, List.map_append, List.flatten_append, ih (by omega), List.map_singleton, List.flatten_singleton,
      sliceOf_lt (by omega)]
    simp only
    rw [Nat.add_sub_cancel_left, ← List.take_add, Nat.mul_add, Nat.mul_one]

theorem div_mul_le (len c : Nat) (hc : 1 ≤ c) : len / c * (c - 1) ≤ len :=
  le_trans (Nat.mul_le_mul_left _ (by omega)) (Nat.div_mul_le_self len c)

/-- The slices of a list are a partition of it. -/
theorem slice_flatten {α : Type} (l : List α) (c : Nat) (hc : 1 ≤ c) :
    ((List.range c).map fun i => (l.drop (sliceOf l.length c i).1).take
      ((sliceOf l.length c i).2 - (sliceOf l.length c i).1)).flatten = l := by
  obtain ⟨m, rfl⟩ : ∃ m, c = m + 1 := ⟨c - 1, by omega⟩
  rw [List.range_succ, List.map_append, List.flatten_append, slice_prefix l (m + 1) m (by omega), List.map_singleton,
    List.flatten_singleton]
  have := sliceOf_last l.length (m + 1)
  simp only [Nat.add_sub_cancel] at this
  rw [this]
  simp only
  rw [← List.length_drop, List.take_length, List.take_append_drop]

theorem cubeWork_flatten (todo : List Cube) (c : Nat) (hc : 1 ≤ c) : (cubeWork todo c).flatten = todo :=
  slice_flatten todo c hc

theorem slice_bounds (len c i : Nat) (hi : i < c) :
    (sliceOf len c i).1 ≤ (sliceOf len c i).2 ∧ (sliceOf len c i).2 ≤ len := by
  by_cases h : i = c - 1
  · subst h; rw [sliceOf_last]; exact ⟨div_mul_le len c (by omega), le_refl _⟩
  · rw [sliceOf_lt (by omega)]
    refine ⟨by simp, ?_⟩
    calc len / c * i + len / c = len / c * (i + 1) := by ring
      _ ≤ len / c * (c - 1) := Nat.mul_le_mul_left _ (by omega)
      _ ≤ len := div_mul_le len c (by omega)

/-- The threaded output is packed at the front of the destination. -/
theorem threadedDst_spec {α : Type} (c : Nat) (hc : 1 ≤ c) (outs : List (List α)) (dst : List α)
    (hl : outs.length = c)
    (hfit : ∀ i < c, (outs.getD i []).length ≤ (sliceOf dst.length c i).2 - (sliceOf dst.length c i).1) :
    (threadedDst c outs dst).take (outs.map List.length).sum = outs.flatten
    ∧ (threadedDst c outs dst).length = dst.length := by
  let L : List (List α × List α) := (List.range c).map fun i =>
    (outs.getD i [], (dst.drop ((sliceOf dst.length c i).1 + (outs.getD i []).length)).take
      ((sliceOf dst.length c i).2 - (sliceOf dst.length c i).1 - (outs.getD i []).length))
  have houts : outs = L.map Prod.fst := by
    apply List.ext_getElem
    · simp [L, hl]
    · intro i h1 h2
      simp [L, List.getD, h1]
  have hw : writeSlices dst.length c outs dst = L.flatMap fun p => p.1 ++ p.2 := by
    unfold writeSlices
    simp only [L, List.flatMap_map]
  have hlen : ∀ i < c, (outs.getD i []).length + ((dst.drop ((sliceOf dst.length c i).1 + (outs.getD i []).length)).take
      ((sliceOf dst.length c i).2 - (sliceOf dst.length c i).1 - (outs.getD i []).length)).length
      = (sliceOf dst.length c i).2 - (sliceOf dst.length c i).1 := by
    intro i hi
    have h1 := hfit i hi
    have h2 := slice_bounds dst.length c i hi
    rw [List.length_take, List.length_drop]
    omega
  have hdrop : ∀ p ∈ L.dropLast, p.1.length + p.2.length = dst.length / c := by
    intro p hp
    obtain ⟨i, hi, rfl⟩ := List.mem_iff_getElem.mp hp
    simp only [List.length_dropLast, L, List.length_map, List.length_range] at hi
    simp only [List.getElem_dropLast, L, List.getElem_map, List.getElem_range]
    rw [hlen i (by omega), sliceOf_lt hi]
    simp
  have haux := consolidate_aux (dst.length / c) c L 0 0 [] [] (by simp [L]) hdrop (by simp) (by simp)
  simp only [List.nil_append, List.append_nil, List.length_nil, Nat.zero_add] at haux
  have hmap : outs.map List.length = L.map fun p => p.1.length := by
    rw [houts]; simp [List.map_map, Function.comp_def]
  unfold threadedDst
  rw [hw, hmap]
  refine ⟨?_, ?_⟩
  · rw [haux.1]
    conv_rhs => rw [houts]
    rw [List.flatMap_def]
  · rw [haux.2]
    rw [List.length_flatMap]
    have : (L.map fun p => (p.1 ++ p.2).length) = (List.range c).map fun i =>
        ((dst.drop (sliceOf dst.length c i).1).take ((sliceOf dst.length c i).2 - (sliceOf dst.length c i).1)).length := by
      simp only [L, List.map_map]
      apply List.map_congr_left
      intro i hi
      have hi := List.mem_range.mp hi
      have := hlen i hi
      have h2 := slice_bounds dst.length c i hi
      simp only [Function.comp, List.length_append]
      rw [this, List.length_take, List.length_drop]
      omega
    rw [this]
    have := congrArg List.length (slice_flatten dst c hc)
    rw [List.length_flatten, List.map_map] at this
    exact this

/-- Combining the workers' passes. -/
theorem passes_combine (deg : Tri → Bool) (dc : Dc3) : ∀ (work : List Nat) (cw : List (List Cube))
    (rs : List (List Tri × Nat × List Cube)), work.length = cw.length →
    (∀ w ∈ cw, ∀ c ∈ w, ValidCube dc c) →
    (List.zipWith (fun l cs => readTriangles deg dc l 0 cs) work cw).map (Prog.result dc.value) = rs.map some →
    let ps := List.zipWith (fun l cs => readTriangles deg dc l 0 cs) work cw
    let todo' := (List.zipWith (fun w r => List.drop r.1 w ++ r.2) cw (rs.map Prod.snd)).flatten
    rs.length = work.length
    ∧ (∀ i, ((rs.map Prod.fst).getD i []).length ≤ work.getD i 0)
    ∧ (cw.flatten.flatMap (mesh deg dc)).Perm
        ((rs.map Prod.fst).flatten ++ ps.flatMap (Prog.pushes dc.value) ++ todo'.flatMap (mesh deg dc))
    ∧ (∀ c ∈ todo', ValidCube dc c)
    ∧ ∃ K, weight todo' + 9 * K ≤ weight cw.flatten ∧ (ps.flatMap (Prog.pushes dc.value)).length ≤ 5 * K
        ∧ ((∃ i, 0 < work.getD i 0 ∧ cw.getD i [] ≠ []) → 0 < K) := by
  intro work
  induction work with
  | nil =>
    intro cw rs h1 _ h3
    have : cw = [] := by
      cases cw with
      | nil => rfl
      | cons => simp at h1
    subst this
    have : rs = [] := by
      cases rs with
      | nil => rfl
      | cons => simp at h3
    subst this
    simp [weight]
  | cons l work ih =>
    intro cw rs h1 h2 h3
    cases cw with
    | nil => simp at h1
    | cons w cw =>
      cases rs with
      | nil => simp at h3
      | cons r rs =>
        simp only [List.zipWith_cons_cons, List.map_cons, List.cons.injEq] at h3
        obtain ⟨h3a, h3b⟩ := h3
        obtain ⟨out, k, cs, hr, hs⟩ := readTriangles_spec deg dc l w (h2 w List.mem_cons_self) 0 (Nat.zero_le _)
        rw [hr] at h3a
        obtain rfl : (out, k, cs) = r := by simpa using h3a
        obtain ⟨i1, i2, i3, i4, K, i5, i6, i7⟩ := ih cw rs (by simpa using h1)
          (fun x hx => h2 x (List.mem_cons_of_mem _ hx)) h3b
        simp only [List.zipWith_cons_cons, List.map_cons, List.flatten_cons, List.flatMap_cons, List.flatMap_append]
        generalize (readTriangles deg dc l 0 w).pushes dc.value = pushed at hs
        have hw : w.flatMap (mesh deg dc) = (w.take k).flatMap (mesh deg dc) ++ (w.drop k).flatMap (mesh deg dc) := by
          rw [← List.flatMap_append, List.take_append_drop]
        refine ⟨by simp [i1], ?_, ?_, ?_, K + k, ?_, ?_, ?_⟩
        · intro i
          cases i with
          | zero => simpa using hs.room_ok
          | succ i => simpa using i2 i
        · rw [hw]
          have p1 := hs.meshEq
          rw [List.perm_iff_count] at p1 i3 ⊢
          intro t
          have a := p1 t
          have b := i3 t
          simp only [List.count_append] at a b ⊢
          omega
        · intro c hc
          simp only [List.mem_append] at hc
          rcases hc with (hc | hc) | hc
          · exact h2 w List.mem_cons_self c (List.mem_of_mem_drop hc)
          · exact hs.valid c hc
          · exact i4 c hc
        · have hww : weight w = weight (w.take k) + weight (w.drop k) := by
            rw [← weight_append, List.take_append_drop]
          have := hs.wt
          simp only [weight_append]
          omega
        · have := hs.pushed_le
          simp only [List.length_append]; omega
        · rintro ⟨i, hi1, hi2⟩
          cases i with
          | zero =>
            have := hs.k_pos (by simpa using hi1) (by simpa using hi2)
            omega
          | succ i =>
            have := i7 ⟨i, by simpa using hi1, by simpa using hi2⟩
            omega

end Sdf.Octree
