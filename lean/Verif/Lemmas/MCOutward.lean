import Verif.Lemmas.MCOutwardTable
import Verif.Lemmas.MCVolumeGrid

/-! Helper lemmas: the normals of the triangles of one cell point from inside to outside. -/

namespace Sdf.MC

open Classical

theorem val_pos {u : Fin 12 → ℝ} (hu : ∀ e, 0 < u e ∧ u e < 1) : ∀ m : Mono, 0 < Mono.val u m
  | [] => by rw [val_nil]; norm_num
  | e :: m => by rw [val_cons]; exact mul_pos (hu e).1 (val_pos hu m)

theorem strict_sound {u : Fin 12 → ℝ} (hu : ∀ e, 0 < u e ∧ u e < 1) : ∀ (n : Nat) (P N : List Mono), strict n P N = true →
    total u N < total u P
  | 0, _, _, h => by simp [strict] at h
  | n + 1, P0, N0, h => by
    have hu' : ∀ e, 0 ≤ u e ∧ u e ≤ 1 := fun e => ⟨(hu e).1.le, (hu e).2.le⟩
    unfold strict at h
    have hc := cancel_total u N0 P0
    set P := (cancel P0 N0).1
    set N := (cancel P0 N0).2
    simp only [Bool.or_eq_true] at h
    suffices total u N < total u P by linarith
    rcases h with h | h
    · have h1 : ((N.length + 1 : Nat) : ℝ) ≤ ones P := by exact_mod_cast Nat.le_of_ble_eq_true h
      push_cast at h1
      linarith [total_le hu' N, ones_le hu' P]
    · split at h
      · simp at h
      · rename_i m r e1 e2
        rw [show N = [] from e1, show P = m :: r from e2, total_nil, total_cons]
        have := val_pos hu m
        have : (ones r : ℝ) ≤ total u r := ones_le hu' r
        have : (0 : ℝ) ≤ ones r := Nat.cast_nonneg _
        linarith
      · split at h
        · simp at h
        · rename_i e _
          simp only [Bool.or_eq_true, Bool.and_eq_true] at h
          rw [total_split u e P, total_split u e N]
          have h0 : 0 < 1 - u e := by linarith [(hu e).2]
          rcases h with ⟨ha, hb⟩ | ⟨ha, hb⟩
          · have a := strict_sound hu n _ _ ha
            have b := nonneg_sound hu' n _ _ hb
            exact add_lt_add_of_lt_of_le (mul_lt_mul_of_pos_left a h0) (mul_le_mul_of_nonneg_left b (hu e).1.le)
          · have a := nonneg_sound hu' n _ _ ha
            have b := strict_sound hu n _ _ hb
            exact add_lt_add_of_le_of_lt (mul_le_mul_of_nonneg_left a h0.le) (mul_lt_mul_of_pos_left b (hu e).1)

/-- The axis of an edge. -/
def axis (e : Fin 12) : V3 := match e with
  | 0 => ⟨1, 0, 0⟩ | 1 => ⟨0, 1, 0⟩ | 2 => ⟨1, 0, 0⟩ | 3 => ⟨0, 1, 0⟩ | 4 => ⟨1, 0, 0⟩ | 5 => ⟨0, 1, 0⟩
  | 6 => ⟨1, 0, 0⟩ | 7 => ⟨0, 1, 0⟩ | 8 => ⟨0, 0, 1⟩ | 9 => ⟨0, 0, 1⟩ | 10 => ⟨0, 0, 1⟩ | 11 => ⟨0, 0, 1⟩

/-- From inside to outside along an edge. -/
def outward (s : Fin 8 → Bool) (e : Fin 12) : V3 := pick (s (ends e).1) (axis e) (V3.scale (-1) (axis e))

theorem along_val (u : Fin 12 → ℝ) (e a b c : Fin 12) :
    ((alongP e a b c).map (valO u)).sum - ((alongN e a b c).map (valO u)).sum
      = V3.dot (V3.cross (V3.sub (pt b (u b)) (pt a (u a))) (V3.sub (pt c (u c)) (pt a (u a)))) (axis e) := by
  fin_cases e <;> simp only [alongP, alongN, wedgeP, wedgeN, List.map_cons, List.map_nil, List.sum_cons, List.sum_nil, mulO_val,
    coX_val, coY_val, coZ_val, V3.dot, V3.cross, V3.sub, axis] <;> ring

theorem pick_val (u : Fin 12 → ℝ) (s : Bool) (e a b c : Fin 12) :
    ((pick s (alongP e a b c) (alongN e a b c)).map (valO u)).sum - ((pick s (alongN e a b c) (alongP e a b c)).map (valO u)).sum
      = V3.dot (V3.cross (V3.sub (pt b (u b)) (pt a (u a))) (V3.sub (pt c (u c)) (pt a (u a)))) (pick s (axis e) (V3.scale (-1) (axis e))) := by
  have h := along_val u e a b c
  cases s
  · simp only [pick]
    have e2 : ∀ n : V3, V3.dot n (V3.scale (-1) (axis e)) = - V3.dot n (axis e) := fun n => by simp only [V3.dot, V3.scale]; ring
    rw [e2, ← h]; ring
  · exact h

theorem out_total (u : Fin 12 → ℝ) (s : Fin 8 → Bool) (a b c : Fin 12) :
    total u (outP s a b c) - total u (outN s a b c)
      = V3.dot (V3.cross (V3.sub (pt b (u b)) (pt a (u a))) (V3.sub (pt c (u c)) (pt a (u a))))
        (V3.add (V3.add (outward s a) (outward s b)) (outward s c)) := by
  have ha := pick_val u (s (ends a).1) a a b c
  have hb := pick_val u (s (ends b).1) b a b c
  have hc := pick_val u (s (ends c).1) c a b c
  simp only [outP, outN, addO_total, total_nil]
  have e2 : ∀ n p q r : V3, V3.dot n (V3.add (V3.add p q) r) = V3.dot n p + V3.dot n q + V3.dot n r := fun n p q r => by
    simp only [V3.dot, V3.add]; ring
  rw [e2]
  unfold outward
  linarith

/-- In the unit cell. -/
theorem out_unit (s : Fin 8 → Bool) (t : Fin 12 × Fin 12 × Fin 12) (ht : t ∈ row s) (u : Fin 12 → ℝ) (hu : ∀ e, 0 ≤ u e ∧ u e ≤ 1) :
    let F := V3.dot (V3.cross (V3.sub (pt t.2.1 (u t.2.1)) (pt t.2.2 (u t.2.2))) (V3.sub (pt t.1 (u t.1)) (pt t.2.2 (u t.2.2))))
        (V3.add (V3.add (outward s t.2.2) (outward s t.2.1)) (outward s t.1))
    0 ≤ F ∧ ((0 < u t.1 ∧ u t.1 < 1) → (0 < u t.2.1 ∧ u t.2.1 < 1) → (0 < u t.2.2 ∧ u t.2.2 < 1) → 0 < F) := by
  intro F
  have h := forall_bits (P := fun b => outCheck b = true) out_table s
  have h' := List.all_eq_true.mp h t ht
  simp only [Bool.and_eq_true] at h'
  constructor
  · have := nonneg_sound hu _ _ _ h'.1
    have e := out_total u s t.2.2 t.2.1 t.1
    simp only [F]
    linarith
  · intro h1 h2 h3
    -- other edges do not matter
    let w : Fin 12 → ℝ := fun e => if e = t.1 ∨ e = t.2.1 ∨ e = t.2.2 then u e else 1 / 2
    have hw : ∀ e, 0 < w e ∧ w e < 1 := by
      intro e
      simp only [w]
      split_ifs with he
      · rcases he with rfl | rfl | rfl
        · exact h1
        · exact h2
        · exact h3
      · norm_num
    have := strict_sound hw _ _ _ h'.2
    have e := out_total w s t.2.2 t.2.1 t.1
    have e1 : w t.1 = u t.1 := if_pos (Or.inl rfl)
    have e2 : w t.2.1 = u t.2.1 := if_pos (Or.inr (Or.inl rfl))
    have e3 : w t.2.2 = u t.2.2 := if_pos (Or.inr (Or.inr rfl))
    rw [e1, e2, e3] at e
    simp only [F]
    linarith

/-- The inside and the outside end of an edge. -/
def inEnd (s : Fin 8 → Bool) (e : Fin 12) : Fin 8 := pick (s (ends e).1) (ends e).1 (ends e).2
def outEnd (s : Fin 8 → Bool) (e : Fin 12) : Fin 8 := pick (s (ends e).1) (ends e).2 (ends e).1

theorem ends_adjacent : ∀ e : Fin 12, AdjacentCorners (ends e).1 (ends e).2 ∧ AdjacentCorners (ends e).2 (ends e).1 := by decide

theorem cube_ends (o : V3) (r : ℝ) (e : Fin 12) : V3.sub (cube o r (ends e).2) (cube o r (ends e).1) = V3.scale r (axis e) := by
  fin_cases e <;> simp [ends, cube, cornerOffset, V3.sub, V3.scale, axis]

theorem cube_out (o : V3) (r : ℝ) (s : Fin 8 → Bool) (e : Fin 12) :
    V3.sub (cube o r (outEnd s e)) (cube o r (inEnd s e)) = V3.scale r (outward s e) := by
  have h := cube_ends o r e
  unfold inEnd outEnd outward
  cases s (ends e).1
  · simp only [pick]
    have : V3.sub (cube o r (ends e).1) (cube o r (ends e).2) = V3.scale (-1) (V3.sub (cube o r (ends e).2) (cube o r (ends e).1)) := by
      ext <;> simp only [V3.sub, V3.scale] <;> ring
    rw [this, h]
    ext <;> simp only [V3.scale] <;> ring
  · simp only [pick]
    exact h

/-- What is needed of one corner of a triangle. -/
theorem corner_facts (o : V3) (r : ℝ) (v : Fin 8 → ℝ) (x : ℝ) (e : Fin 12) (he : e ∈ triangleTable.getD (bitsToNat (neg v x)) []) :
    let i := inEnd (neg v x) e
    let q := outEnd (neg v x) e
    AdjacentCorners i q ∧ v i < x ∧ x ≤ v q
    ∧ (∃ u : ℝ, 0 ≤ u ∧ u ≤ 1 ∧ ptsAll (cube o r) v x e = V3.add (cube o r i) (V3.scale u (V3.sub (cube o r q) (cube o r i))))
    ∧ ((epsilon ≤ |x - v i| ∧ epsilon ≤ |x - v q|) → 0 < cellU v x e ∧ cellU v x e < 1) := by
  intro i q
  have hs := tri_edge_sign (neg v x) e he
  have hs' : neg v x (ends e).1 ≠ neg v x (ends e).2 := by
    rcases ends_pair e with h | h <;> rw [h]
    · exact hs
    · exact hs.symm
  have hsv : (v (ends e).1 < x) ≠ (v (ends e).2 < x) := by
    intro hc
    apply hs'
    simp [neg, hc]
  have hu : cellU v x e = interpT (v (ends e).1) (v (ends e).2) x := by
    unfold cellU place
    rw [if_pos hsv]
  have hpt : ptsAll (cube o r) v x e = V3.add (cube o r (ends e).1) (V3.scale (cellU v x e) (V3.sub (cube o r (ends e).2) (cube o r (ends e).1))) := by
    rw [ptsAll_cube o r v x e hs, ← cube_edge]
    rfl
  have hur := place_range (v (ends e).1) (v (ends e).2) x
  have hur : 0 ≤ cellU v x e ∧ cellU v x e ≤ 1 := hur
  have hT : epsilon ≤ |x - v (ends e).1| → epsilon ≤ |x - v (ends e).2| →
      interpT (v (ends e).1) (v (ends e).2) x = (x - v (ends e).1) / (v (ends e).2 - v (ends e).1) := by
    intro h1 h2
    unfold interpT
    rw [if_neg (fun h => absurd h.1 (not_lt.mpr h1)), if_neg (fun h => absurd h.1 (not_lt.mpr h2)), if_neg (fun h => absurd h.1 (not_lt.mpr h1))]
  have heps : (0 : ℝ) < epsilon := by unfold epsilon; norm_num
  obtain ⟨adj1, adj2⟩ := ends_adjacent e
  by_cases hin : v (ends e).1 < x
  · have hb : neg v x (ends e).1 = true := by simp [neg, hin]
    have ei : i = (ends e).1 := by simp only [i, inEnd, hb, pick]
    have eq : q = (ends e).2 := by simp only [q, outEnd, hb, pick]
    have hout : x ≤ v (ends e).2 := by
      by_contra hc
      exact hsv (by simp [hin, not_le.mp hc])
    rw [ei, eq]
    refine ⟨adj1, hin, hout, ⟨cellU v x e, hur.1, hur.2, hpt⟩, ?_⟩
    rintro ⟨h1, h2⟩
    have hlt : x < v (ends e).2 := by
      rcases lt_or_eq_of_le hout with h | h
      · exact h
      · rw [← h, sub_self, abs_zero] at h2; linarith
    rw [hu, hT h1 h2]
    have : 0 < v (ends e).2 - v (ends e).1 := by linarith
    exact ⟨div_pos (by linarith) this, (div_lt_one this).mpr (by linarith)⟩
  · have hb : neg v x (ends e).1 = false := by simp [neg, not_lt.mp hin]
    have ei : i = (ends e).2 := by simp only [i, inEnd, hb, pick]
    have eq : q = (ends e).1 := by simp only [q, outEnd, hb, pick]
    have hin2 : v (ends e).2 < x := by
      by_contra hc
      exact hsv (by simp [hin, hc])
    rw [ei, eq]
    refine ⟨adj2, hin2, not_lt.mp hin, ⟨1 - cellU v x e, by linarith, by linarith, ?_⟩, ?_⟩
    · rw [hpt]
      ext <;> simp only [V3.add, V3.scale, V3.sub] <;> ring
    · rintro ⟨h1, h2⟩
      have hlt : x < v (ends e).1 := by
        rcases lt_or_eq_of_le (not_lt.mp hin) with h | h
        · exact h
        · rw [← h, sub_self, abs_zero] at h2; linarith
      rw [hu, hT h2 h1]
      have : v (ends e).2 - v (ends e).1 < 0 := by linarith
      refine ⟨div_pos_of_neg_of_neg (by linarith) this, ?_⟩
      rw [div_lt_one_of_neg this]
      linarith

theorem cross_place (o : V3) (r : ℝ) (a b c d1 d2 d3 : V3) :
    V3.dot (V3.cross (V3.sub (place3 o r b) (place3 o r a)) (V3.sub (place3 o r c) (place3 o r a)))
      (V3.add (V3.add (V3.scale r d1) (V3.scale r d2)) (V3.scale r d3))
    = r ^ 3 * V3.dot (V3.cross (V3.sub b a) (V3.sub c a)) (V3.add (V3.add d1 d2) d3) := by
  simp only [V3.dot, V3.cross, V3.sub, V3.add, V3.scale, place3]
  ring

/-- Triangles of a cube. -/
theorem out_cube (o : V3) {r : ℝ} (hr : 0 < r) (v : Fin 8 → ℝ) (x : ℝ) (t : Tri) (ht : t ∈ rawTriangles (cube o r) v x) :
    ∃ i q : Fin 3 → Fin 8, (∀ k, AdjacentCorners (i k) (q k) ∧ v (i k) < x ∧ x ≤ v (q k)
        ∧ ∃ u : ℝ, 0 ≤ u ∧ u ≤ 1 ∧ t.vertex k = V3.add (cube o r (i k)) (V3.scale u (V3.sub (cube o r (q k)) (cube o r (i k)))))
      ∧ (let D := V3.add (V3.add (V3.sub (cube o r (q 0)) (cube o r (i 0))) (V3.sub (cube o r (q 1)) (cube o r (i 1))))
          (V3.sub (cube o r (q 2)) (cube o r (i 2)))
        0 ≤ V3.dot t.normal D
        ∧ ((∀ k, epsilon ≤ |x - v (i k)| ∧ epsilon ≤ |x - v (q k)|) → 0 < V3.dot t.normal D)) := by
  rw [rawTriangles_eq, List.mem_map] at ht
  obtain ⟨⟨e1, e2, e3⟩, he, rfl⟩ := ht
  obtain ⟨m1, m2, m3⟩ := triples_mem _ _ he
  have f1 := corner_facts o r v x e1 m1
  have f2 := corner_facts o r v x e2 m2
  have f3 := corner_facts o r v x e3 m3
  have hu := out_unit (neg v x) (e1, e2, e3) he (cellU v x) (fun e => place_range _ _ _)
  refine ⟨![inEnd (neg v x) e3, inEnd (neg v x) e2, inEnd (neg v x) e1], ![outEnd (neg v x) e3, outEnd (neg v x) e2, outEnd (neg v x) e1], ?_, ?_⟩
  · intro k
    fin_cases k
    · exact ⟨f3.1, f3.2.1, f3.2.2.1, f3.2.2.2.1⟩
    · exact ⟨f2.1, f2.2.1, f2.2.2.1, f2.2.2.2.1⟩
    · exact ⟨f1.1, f1.2.1, f1.2.2.1, f1.2.2.2.1⟩
  · have hr3 : 0 < r ^ 3 := by positivity
    simp only [Matrix.cons_val_zero, Matrix.cons_val_one, Matrix.cons_val]
    rw [cube_out, cube_out, cube_out, Tri.normal]
    simp only [ptsAll_cube o r v x e1 (tri_edge_sign _ e1 m1), ptsAll_cube o r v x e2 (tri_edge_sign _ e2 m2),
      ptsAll_cube o r v x e3 (tri_edge_sign _ e3 m3)]
    rw [cross_place]
    refine ⟨mul_nonneg hr3.le hu.1, fun h => mul_pos hr3 (hu.2 ?_ ?_ ?_)⟩
    · exact f1.2.2.2.2 (h 2)
    · exact f2.2.2.2.2 (h 1)
    · exact f3.2.2.2.2 (h 0)

end Sdf.MC
