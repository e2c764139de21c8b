import Verif.Model.Thread

/-! C38: the lookup tables of the thread package. -/

namespace Sdf
open Thread

/-- The entries of the table: nominal size, diameter, threads per inch, flat-to-flat distance, all in inches, as the
standard lists them. -/
noncomputable def nptStandard : List (ℝ × ℝ × ℝ × ℝ) :=
  [(1/8, 405/1000, 27, 112/254), (1/4, 540/1000, 18, 157/254), (3/8, 675/1000, 18, 175/254), (1/2, 840/1000, 14, 224/254),
   (3/4, 1050/1000, 14, 269/254), (1, 1315/1000, 23/2, 351/254), (5/4, 1660/1000, 23/2, 445/254),
   (3/2, 1900/1000, 23/2, 508/254), (2, 2375/1000, 23/2, 635/254), (5/2, 2875/1000, 8, 762/254),
   (3, 3500/1000, 8, 889/254), (4, 4500/1000, 8, 1173/254)]

theorem nptLoop_spec (npt : NPT) (x : ℝ) (l : List NptSpec) :
    ((nptLoop npt x l).2 = true ∧ (nptLoop npt x l).1 = npt ∧ ∀ a ∈ l, ¬ |a.N - x| < 1 / 32) ∨
    ((nptLoop npt x l).2 = false ∧ ∃ a ∈ l, |a.N - x| < 1 / 32 ∧ (nptLoop npt x l).1 = ⟨a.D, a.tpi, a.ftof⟩) := by
  induction l with
  | nil => left; simp [nptLoop]
  | cons a l ih =>
    rw [nptLoop]
    by_cases h : |a.N - x| < 1 / 32
    · right; rw [if_pos h]; exact ⟨rfl, a, by simp, h, rfl⟩
    · rw [if_neg h]
      rcases ih with ⟨h1, h2, h3⟩ | ⟨h1, b, hb, h2, h3⟩
      · left; refine ⟨h1, h2, ?_⟩
        intro b hb
        rcases List.mem_cons.mp hb with rfl | hb
        · exact h
        · exact h3 b hb
      · right; exact ⟨h1, b, by simp [hb], h2, h3⟩

theorem npt_table : nptLookupTable.map (fun a => (a.N, a.D, a.tpi, a.ftof)) = nptStandard := by
  unfold nptLookupTable nptStandard
  simp only [List.map_cons, List.map_nil]
  norm_num

theorem npt_standard (a : NptSpec) (ha : a ∈ nptLookupTable) : (a.N, a.D, a.tpi, a.ftof) ∈ nptStandard := by
  rw [← npt_table]; exact List.mem_map.mpr ⟨a, ha, rfl⟩

/-- `SetFromNominal` returns no error exactly when the size is within 1/32 inch of a nominal size of the standard. -/
theorem C38_npt_found (npt : NPT) (x : ℝ) :
    (npt.setFromNominal x).2 = false ↔ ∃ e ∈ nptStandard, |x - e.1| < 1 / 32 := by
  unfold NPT.setFromNominal
  rcases nptLoop_spec npt x nptLookupTable with ⟨h1, -, h3⟩ | ⟨h1, a, ha, h2, -⟩
  · rw [h1]
    simp only [Bool.true_eq_false, false_iff, not_exists, not_and]
    intro e he
    rw [← npt_table] at he
    obtain ⟨a, ha, rfl⟩ := List.mem_map.mp he
    rw [abs_sub_comm]; exact h3 a ha
  · rw [h1]
    simp only [true_iff]
    exact ⟨_, npt_standard a ha, by rw [abs_sub_comm]; exact h2⟩

/-- No size is near two entries. -/
theorem C38_npt_unique (x : ℝ) (e : ℝ × ℝ × ℝ × ℝ) (he : e ∈ nptStandard) (e' : ℝ × ℝ × ℝ × ℝ) (he' : e' ∈ nptStandard)
    (h : |x - e.1| < 1 / 32) (h' : |x - e'.1| < 1 / 32) : e = e' := by
  have key : ∀ e ∈ nptStandard, ∀ e' ∈ nptStandard, e ≠ e' → 1 / 16 ≤ |e.1 - e'.1| := by
    have hp : nptStandard.Pairwise (fun e e' => 1 / 16 ≤ e'.1 - e.1) := by
      unfold nptStandard
      simp only [List.pairwise_cons, List.mem_cons, List.not_mem_nil, or_false, forall_eq_or_imp, forall_eq, List.Pairwise.nil,
        and_true, false_implies, implies_true]
      norm_num
    have hR : nptStandard.Pairwise (fun e e' : ℝ × ℝ × ℝ × ℝ => e ≠ e' → 1 / 16 ≤ |e.1 - e'.1|) :=
      hp.imp fun h _ => by rw [abs_sub_comm]; exact h.trans (le_abs_self _)
    intro e he e' he'
    have : Std.Symm (fun e e' : ℝ × ℝ × ℝ × ℝ => e ≠ e' → 1 / 16 ≤ |e.1 - e'.1|) :=
      ⟨fun a b hab h => by rw [abs_sub_comm]; exact hab h.symm⟩
    exact hR.forall_of_forall (fun a _ h => absurd rfl h) he he'
  by_contra hne
  have h1 := key e he e' he' hne
  rw [abs_lt] at h h'
  rcases abs_cases (e.1 - e'.1) with ⟨h2, -⟩ | ⟨h2, -⟩ <;> rw [h2] at h1 <;> linarith [h.1, h.2, h'.1, h'.2]

/-- On success the value holds the data of the entry the size is near to, whatever it held before. -/
theorem C38_npt_value (npt : NPT) (x : ℝ) (e : ℝ × ℝ × ℝ × ℝ) (he : e ∈ nptStandard) (h : |x - e.1| < 1 / 32) :
    npt.setFromNominal x = (⟨e.2.1, e.2.2.1, e.2.2.2⟩, false) := by
  have hf := (C38_npt_found npt x).mpr ⟨e, he, h⟩
  rcases nptLoop_spec npt x nptLookupTable with ⟨h1, -, -⟩ | ⟨-, a, ha, h2, h3⟩
  · unfold NPT.setFromNominal at hf; rw [h1] at hf; cases hf
  · have := C38_npt_unique x e he _ (npt_standard a ha) h (by rw [abs_sub_comm]; exact h2)
    subst this
    exact Prod.ext h3 hf

/-- On an error the value is unchanged. -/
theorem C38_npt_unchanged (npt : NPT) (x : ℝ) (h : (npt.setFromNominal x).2 = true) : (npt.setFromNominal x).1 = npt := by
  unfold NPT.setFromNominal at *
  rcases nptLoop_spec npt x nptLookupTable with ⟨-, h2, -⟩ | ⟨h1, -⟩
  · exact h2
  · rw [h1] at h; cases h

/-- Half an inch, a little off. -/
example (npt : NPT) : npt.setFromNominal 0.51 = (⟨840/1000, 14, 224/254⟩, false) :=
  C38_npt_value npt 0.51 (1/2, 840/1000, 14, 224/254) (by simp [nptStandard]) (by rw [abs_lt]; norm_num)

/-- 0.3 inch is no nominal size. -/
example (npt : NPT) : npt.setFromNominal 0.3 = (npt, true) := by
  have h : (npt.setFromNominal 0.3).2 = true := by
    by_contra hc
    rw [Bool.not_eq_true, C38_npt_found] at hc
    obtain ⟨e, he, h⟩ := hc
    simp only [nptStandard, List.mem_cons, List.not_mem_nil, or_false] at he
    rcases he with rfl | rfl | rfl | rfl | rfl | rfl | rfl | rfl | rfl | rfl | rfl | rfl <;> (rw [abs_lt] at h; norm_num at h)
  exact Prod.ext (C38_npt_unchanged npt _ h) h

/-- The flat-to-flat distances of metric hexagons, in millimetres. -/
noncomputable def metricStandard : List ℝ :=
  [7/4, 2, 16/5, 4, 5, 6, 7, 8, 10, 13, 17, 19, 24, 30, 36, 46, 55, 65, 75, 85, 95]

/-- The rule of thumb for the flat-to-flat distance: a multiple of the radius that shrinks with the size; 86 near M56. -/
def Estimate (r est : ℝ) : Prop :=
  (27 < r ∧ r < 29 ∧ est = 86) ∨
  (¬ (27 < r ∧ r < 29) ∧ ((r < 3/5 ∧ est = 16/5 * r) ∨ (3/5 ≤ r ∧ r < 19/10 ∧ est = 9/2 * r) ∨
    (19/10 ≤ r ∧ r < 21/10 ∧ est = 4 * r) ∨ (21/10 ≤ r ∧ est = 7/2 * r)))

theorem estF2F_spec (r est : ℝ) (h : Estimate r est) : estF2F r = est := by
  have e : |r - 28| < 1 ↔ 27 < r ∧ r < 29 := by
    rw [abs_lt]; constructor <;> intro h <;> constructor <;> linarith [h.1, h.2]
  unfold estF2F
  rcases h with ⟨h1, h2, rfl⟩ | ⟨h0, ⟨h1, rfl⟩ | ⟨h1, h2, rfl⟩ | ⟨h1, h2, rfl⟩ | ⟨h1, rfl⟩⟩
  · rw [if_pos (e.mpr ⟨h1, h2⟩)]
  all_goals rw [if_neg (fun h => h0 (e.mp h))]
  · rw [if_pos (by norm_num; linarith)]; norm_num
  · rw [if_neg (by norm_num; linarith), if_pos (by norm_num; linarith)]; norm_num
  · rw [if_neg (by norm_num; linarith), if_neg (by norm_num; linarith), if_pos (by norm_num; linarith)]
  · rw [if_neg (by norm_num; linarith), if_neg (by norm_num; linarith), if_neg (by norm_num; linarith)]; norm_num

theorem f2fLoop_spec (est : ℝ) (l : List ℝ) (hl : l.Pairwise (fun a b => b ≤ a)) :
    (∃ v, f2fLoop est l = some v ∧ v ∈ l ∧ v < est - 1/100 ∧ ∀ w ∈ l, w < est - 1/100 → w ≤ v) ∨
    (f2fLoop est l = none ∧ ∀ w ∈ l, ¬ w < est - 1/100) := by
  induction l with
  | nil => right; simp [f2fLoop]
  | cons a l ih =>
    rw [List.pairwise_cons] at hl
    rw [f2fLoop]
    by_cases h : est - 1e-2 > a
    · left; rw [if_pos h]; norm_num at h
      refine ⟨a, rfl, by simp, by linarith, ?_⟩
      intro w hw _
      rcases List.mem_cons.mp hw with rfl | hw
      · exact le_rfl
      · exact hl.1 w hw
    · rw [if_neg h]; norm_num at h
      have ha : ¬ a < est - 1/100 := by linarith
      rcases ih hl.2 with ⟨v, h1, h2, h3, h4⟩ | ⟨h1, h2⟩
      · left; refine ⟨v, h1, by simp [h2], h3, fun w hw hlt => ?_⟩
        rcases List.mem_cons.mp hw with rfl | hw
        · exact absurd hlt ha
        · exact h4 w hw hlt
      · right; refine ⟨h1, fun w hw => ?_⟩
        rcases List.mem_cons.mp hw with rfl | hw
        · exact ha
        · exact h2 w hw

/-- The hexagon of a metric thread is the largest of the standard ones below the rule of thumb (less 0.01), the smallest
standard one if there is none below. -/
theorem C38_metric (D P est : ℝ) (h : Estimate (D / 2) est) :
    (basicParams D P).hexF2F ∈ metricStandard ∧
    (∀ v ∈ metricStandard, v < est - 1/100 → v ≤ (basicParams D P).hexF2F) ∧
    ((basicParams D P).hexF2F < est - 1/100 ∨ (basicParams D P).hexF2F = 7/4 ∧ ∀ v ∈ metricStandard, est - 1/100 ≤ v) := by
  have ht : metricF2FTable = metricStandard := by
    unfold metricF2FTable metricStandard; norm_num
  have hs : metricStandard.reverse.Pairwise (fun a b => b ≤ a) := by
    rw [List.pairwise_reverse]
    unfold metricStandard
    simp only [List.pairwise_cons, List.mem_cons, List.not_mem_nil, or_false, forall_eq_or_imp, forall_eq, List.Pairwise.nil,
      and_true, false_implies, implies_true]
    norm_num
  have hv : (basicParams D P).hexF2F = (f2fLoop est metricStandard.reverse).getD (7/4) := by
    simp only [basicParams, metricf2f, estF2F_spec _ _ h, ht]
    norm_num
  rw [hv]
  rcases f2fLoop_spec est _ hs with ⟨v, h1, h2, h3, h4⟩ | ⟨h1, h2⟩
  · rw [h1]
    exact ⟨List.mem_reverse.mp h2, fun w hw => h4 w (List.mem_reverse.mpr hw), Or.inl h3⟩
  · rw [h1]
    refine ⟨by simp [metricStandard], fun w hw hlt => absurd hlt (h2 w (List.mem_reverse.mpr hw)),
      Or.inr ⟨rfl, fun w hw => not_lt.mp (h2 w (List.mem_reverse.mpr hw))⟩⟩

/-- M8: 13 mm across flats. -/
example (P : ℝ) : (basicParams 8 P).hexF2F = 13 := by
  obtain ⟨h1, h2, h3⟩ := C38_metric 8 P 14 (Or.inr ⟨by norm_num, by norm_num⟩)
  have h4 := h2 13 (by simp [metricStandard]) (by norm_num)
  rcases h3 with h3 | ⟨h3, -⟩
  · simp only [metricStandard, List.mem_cons, List.not_mem_nil, or_false] at h1
    rcases h1 with h | h | h | h | h | h | h | h | h | h | h | h | h | h | h | h | h | h | h | h | h <;>
      first | exact h | (exfalso; linarith)
  · rw [h3] at h4; norm_num at h4

/-- The thread parameters of NPT: the nominal radius, the pitch of its threads per inch, one right-handed start, the
standard taper of 1/32 per unit length on the radius, and the given hexagon. -/
theorem C38_npt_params (npt : NPT) (h : 0 < npt.F2F) :
    npt.params.radius = npt.D / 2 ∧ npt.params.pitch = 1 / npt.TPI ∧ npt.params.starts = 1 ∧
      Real.tan npt.params.taper = 1 / 32 ∧ npt.params.hexF2F = npt.F2F := by
  simp only [NPT.params, basicParams]
  refine ⟨trivial, by norm_num, trivial, ?_, if_pos h⟩
  rw [Real.tan_arctan]; norm_num

end Sdf
