import Verif.Props.C46Import

/-! C46, continued: the bounds of an imported mesh are no larger than they need to be. -/

namespace Sdf

namespace Bih

/-- Every box around all corners of the model is around the bounds of the import. -/
theorem C46_bounds_tight (S : Sorter) (model : List Tri) (hm : model ≠ []) (tol : ℝ) (B : Bih) (h : importV2 S model tol = some B)
    (hf : ∀ v, IsCorner model v → |v.x| ≤ maxFloat64 ∧ |v.y| ≤ maxFloat64 ∧ |v.z| ≤ maxFloat64)
    (b : Box3) (hb : ∀ t ∈ model, Corners b.Contains t) : b.Contains B.bb.lo ∧ b.Contains B.bb.hi := by
  obtain ⟨-, e⟩ := import_build hm h
  have hbb : B.bb = triBox model := by rw [e]; rfl
  rw [hbb]
  have key : ∀ (l : List Tri) (c : Box3), (∀ t ∈ l, Corners b.Contains t) →
      (b.lo.x ≤ c.lo.x ∧ b.lo.y ≤ c.lo.y ∧ b.lo.z ≤ c.lo.z) ∧ (c.hi.x ≤ b.hi.x ∧ c.hi.y ≤ b.hi.y ∧ c.hi.z ≤ b.hi.z) →
      let r := l.foldl (fun b t => ((b.includeV t.a).includeV t.b).includeV t.c) c
      (b.lo.x ≤ r.lo.x ∧ b.lo.y ≤ r.lo.y ∧ b.lo.z ≤ r.lo.z) ∧ (r.hi.x ≤ b.hi.x ∧ r.hi.y ≤ b.hi.y ∧ r.hi.z ≤ b.hi.z) := by
    intro l
    induction l with
    | nil => intro c _ hc; exact hc
    | cons t l ih =>
      intro c hl hc
      simp only [List.foldl_cons]
      apply ih _ fun u hu => hl u (List.mem_cons_of_mem _ hu)
      obtain ⟨⟨a1, a2, a3, a4, a5, a6⟩, ⟨b1, b2, b3, b4, b5, b6⟩, ⟨c1, c2, c3, c4, c5, c6⟩⟩ := hl t (by simp)
      obtain ⟨⟨d1, d2, d3⟩, d4, d5, d6⟩ := hc
      simp only [Box3.includeV, V3.minElem, V3.maxElem, le_min_iff, max_le_iff]
      and_intros <;> assumption
  obtain ⟨t, ht⟩ := List.exists_mem_of_ne_nil _ hm
  obtain ⟨⟨a1, a2, a3, a4, a5, a6⟩, -, -⟩ := hb t ht
  obtain ⟨f1, f2, f3⟩ := hf t.a ⟨t, ht, .inl rfl⟩
  rw [abs_le] at f1 f2 f3
  obtain ⟨⟨r1, r2, r3⟩, r4, r5, r6⟩ := key model emptyBox hb (by
    simp only [emptyBox]
    refine ⟨⟨?_, ?_, ?_⟩, ?_, ?_, ?_⟩ <;> linarith)
  obtain ⟨⟨g1, g2, g3, g4, g5, g6⟩, -, -⟩ := triBox_corners model ht
  unfold triBox at *
  exact ⟨⟨r1, r2, r3, by linarith, by linarith, by linarith⟩, by linarith, by linarith, by linarith, r4, r5, r6⟩

end Bih

end Sdf
