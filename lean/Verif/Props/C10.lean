import Verif.Lemmas.OctreeRead
import Verif.Lemmas.MCGrid

/-!
C10: a marching-cubes cell never overflows the triangle buffer.
-/

namespace Sdf.MC

/-- `mcToTriangles` panics exactly when there is room for fewer than five triangles. -/
theorem C10_panics_iff (deg : Tri → Bool) (dstLen : Nat) (p : Fin 8 → V3) (v : Fin 8 → ℝ) (x : ℝ) :
    toTriangles deg dstLen p v x = none ↔ dstLen < 5 := by
  unfold toTriangles maxTriangles
  split <;> simp [*]

/-- It writes at most five triangles. -/
theorem C10_at_most_five (deg : Tri → Bool) (dstLen : Nat) (p : Fin 8 → V3) (v : Fin 8 → ℝ) (x : ℝ) (ts : List Tri)
    (h : toTriangles deg dstLen p v x = some ts) : ts.length ≤ 5 ∧ ts.length ≤ dstLen := by
  unfold toTriangles maxTriangles at h
  split at h
  · simp at h
  · simp only [Option.some.injEq] at h
    subst h
    have h1 := List.length_filter_le (fun t => !deg t) (rawTriangles p v x)
    have h2 := Octree.raw_length_le p v x
    omega

/-- A cell whose corners are all on the same side yields no triangle. -/
theorem C10_none_without_sign_change (deg : Tri → Bool) (dstLen : Nat) (p : Fin 8 → V3) (v : Fin 8 → ℝ) (x : ℝ)
    (ts : List Tri) (h : toTriangles deg dstLen p v x = some ts) (hm : ¬ Mixed v x) : ts = [] := by
  unfold toTriangles at h
  rw [raw_nil_of_not_mixed p v x hm] at h
  split at h
  · simp at h
  · simpa using h.symm

/-- A cell with a sign change yields at least one triangle before the degeneracy filter, and all of them when the filter
keeps everything. -/
theorem C10_some_with_sign_change (dstLen : Nat) (hd : 5 ≤ dstLen) (p : Fin 8 → V3) (v : Fin 8 → ℝ) (x : ℝ)
    (hm : Mixed v x) : ∃ t ts, toTriangles (fun _ => false) dstLen p v x = some (t :: ts) := by
  obtain ⟨⟨a, ha⟩, ⟨b, hb⟩⟩ := hm
  obtain ⟨h1, h2, h3, h4⟩ := len_facts (neg v x)
  have hne : triangleTable.getD (bitsToNat (neg v x)) [] ≠ [] := by
    intro h
    rcases h3.mp h with h | h
    · have := h b; simp [neg] at this; linarith
    · have := h a; simp [neg] at this; linarith
  have hpos : 0 < (triangleTable.getD (bitsToNat (neg v x)) []).length := List.length_pos_iff.mpr hne
  have hl : 0 < (rawTriangles p v x).length := by
    rw [rawTriangles_eq, List.length_map, triples_length]; omega
  have hm : ¬ dstLen < maxTriangles := by unfold maxTriangles; omega
  unfold toTriangles
  rw [if_neg hm]
  have hf : (rawTriangles p v x).filter (fun t => !(fun _ => false) t) = rawTriangles p v x := by simp
  rw [hf]
  obtain ⟨t, ts, h⟩ := List.exists_cons_of_length_pos hl
  exact ⟨t, ts, by rw [h]⟩

example : Mixed (fun i : Fin 8 => if i = 0 then -1 else 1) 0 := ⟨⟨0, by norm_num⟩, ⟨1, by norm_num⟩⟩
example : ¬ Mixed (fun _ : Fin 8 => 1) 0 := by rintro ⟨⟨a, h⟩, _⟩; linarith

end Sdf.MC
