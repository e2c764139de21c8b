import Verif.Lemmas.Lip
import Verif.Lemmas.Cone
import Verif.Lemmas.Blend

/-! C17: distances are never overestimated through composition. -/

namespace Sdf

/-- Either kind of shape is 1-Lipschitz. -/
def Shape.Lip : Shape → Prop
  | .fig s => Lip2 s.eval
  | .sol s => Lip3 s.eval

theorem slice_frame {n : V3} (hn : n ≠ ⟨0, 0, 0⟩) : ∃ u v : V3, V3.norm u = 1 ∧ V3.norm v = 1 ∧ V3.dot u v = 0 ∧
    u = V3.unit (SDF2.sliceAxis n) ∧ v = V3.unit (V3.cross n (SDF2.sliceAxis n)) ∧ V3.dot u n = 0 ∧ V3.dot v n = 0 := by
  have hperp : V3.dot (SDF2.sliceAxis n) n = 0 := by
    unfold SDF2.sliceAxis
    split_ifs with h1 h2 h3 <;> (simp [V3.dot, *]; try ring)
  have hne : SDF2.sliceAxis n ≠ ⟨0, 0, 0⟩ := by
    unfold SDF2.sliceAxis
    split_ifs with h1 h2 h3
    · intro h; simpa using congrArg V3.x h
    · intro h; simpa using congrArg V3.y h
    · intro h; simpa using congrArg V3.z h
    · intro h; exact h2 (by simpa using congrArg V3.x h)
  generalize SDF2.sliceAxis n = u at *
  have hc : V3.cross n u ≠ ⟨0, 0, 0⟩ := by
    intro h
    have lag : V3.dot (V3.cross n u) (V3.cross n u) = V3.dot n n * V3.dot u u - V3.dot u n ^ 2 := by
      simp only [V3.dot, V3.cross]; ring
    rw [h, hperp] at lag
    have p1 := V3.norm_pos hn
    have p2 := V3.norm_pos hne
    have q1 := V3.norm_sq n
    have q2 := V3.norm_sq u
    simp only [V3.dot] at lag
    rw [← q1, ← q2] at lag
    nlinarith [mul_pos (mul_pos p1 p1) (mul_pos p2 p2)]
  refine ⟨V3.unit u, V3.unit (V3.cross n u), V3.norm_unit hne, V3.norm_unit hc, ?_, rfl, rfl, ?_, ?_⟩
  · simp only [V3.unit, V3.dot, V3.scale, V3.cross]; ring
  · have : V3.dot (V3.unit u) n = 1 / V3.norm u * V3.dot u n := by simp only [V3.unit, V3.dot, V3.scale]; ring
    rw [this, hperp, mul_zero]
  · simp only [V3.unit, V3.dot, V3.scale, V3.cross]; ring

theorem slice_dist {u v : V3} (hu : V3.norm u = 1) (hv : V3.norm v = 1) (huv : V3.dot u v = 0) (a : V3) (p q : V2) :
    V3.dist (V3.add (V3.add a (V3.scale p.x u)) (V3.scale p.y v)) (V3.add (V3.add a (V3.scale q.x u)) (V3.scale q.y v)) = V2.dist p q := by
  refine V3.norm_eq_of (V2.dist_nonneg _ _) ?_
  unfold V2.dist
  rw [V2.norm_sq]
  have h1 := V3.norm_sq u
  have h2 := V3.norm_sq v
  rw [hu] at h1
  rw [hv] at h2
  simp only [V3.sub, V3.add, V3.scale, V2.sub, V3.dot] at *
  linear_combination (-(p.x - q.x) ^ 2) * h1 - (p.y - q.y) ^ 2 * h2 + 2 * (p.x - q.x) * (p.y - q.y) * huv

theorem union2_lip {s0 : SDF2} {l : List SDF2} (hl : ∀ s ∈ s0 :: l, Lip2 s.eval)
    (h : ∀ s ∈ s0 :: l, s.AtLeastBoxDistance ∧ s.NonEmpty) : Lip2 (SDF2.union s0 l).eval := by
  have e : (SDF2.union s0 l).eval = fun p => SDF2.unionEvalSlow Min.min s0 l p := by
    funext p
    exact C29_agree_partial s0 l p fun s hs => ⟨hl s hs, h s hs⟩
  rw [e]
  exact Lip2.foldl (g := fun s : SDF2 => s.eval) l (fun s hs => hl s (List.mem_cons_of_mem _ hs)) (hl s0 List.mem_cons_self)

theorem revolve_lip {s : SDF2} (hs : Lip2 s.eval) (theta : ℝ) : Lip3 (SDF3.revolve s theta).eval := by
  unfold SDF3.revolve
  split
  · exact Lip3.const _
  · dsimp only
    generalize goMod _ tau = th
    have ha : Lip3 (fun p : V3 => s.eval ⟨Real.sqrt (p.x * p.x + p.y * p.y), p.z⟩) := hs.revolve
    have hy : Lip3 (fun p : V3 => -p.y) := Lip3.neg (f := fun p => p.y) fun p q => V3.abs_y_le (V3.sub p q)
    have hd : Lip3 (fun p : V3 => V2.dot ⟨-Real.sin th, Real.cos th⟩ ⟨p.x, p.y⟩) := by
      have h0 := Lip2.dot ⟨-Real.sin th, Real.cos th⟩ ⟨0, 0⟩
        (V2.norm_eq_of zero_le_one (by simp only; nlinarith [Real.sin_sq_add_cos_sq th]))
      have h1 := Lip2.comp3 h0 (g := fun p : V3 => ⟨p.x, p.y⟩) drop_dist
      simpa [V2.sub] using h1
    unfold SDF3.revolveEval
    dsimp only
    by_cases h0 : th ≠ 0
    · simp only [if_pos h0]
      by_cases h1 : th < Real.pi
      · simp only [if_pos h1]; exact ha.max (hy.max hd)
      · simp only [if_neg h1]; exact ha.max (hy.min hd)
    · simp only [if_neg h0]; exact ha.max ha

theorem rotate3_lip {s : SDF3} (hs : Lip3 s.eval) (n : ℤ) {m : M44} (hm : m.Rigid) : Lip3 (s.rotateUnion n m).eval := by
  unfold SDF3.rotateUnion SDF3.rotateUnionWith
  split
  · exact Lip3.const _
  · have hd : m.det ≠ 0 := by rw [M44.det_eq]; exact hm.2.1
    exact rotateUnionLoop3_lip hs (M44.affine_inverse hm.1 hd) hm.inverse_dist _ _
      (fun p q => by rw [M44.identity_mulPosition, M44.identity_mulPosition]) (fun _ => maxFloat64) (Lip3.const _)

theorem rotate2_lip {s : SDF2} (hs : Lip2 s.eval) (n : ℤ) {m : M33} (hm : m.Rigid) : Lip2 (s.rotateUnion n m).eval := by
  unfold SDF2.rotateUnion SDF2.rotateUnionWith
  split
  · exact Lip2.const _
  · have hd : m.det ≠ 0 := by rw [M33.det_eq]; exact hm.2.1
    exact rotateUnionLoop2_lip hs (M33.affine_inverse hm.1 hd) hm.inverse_dist _ _
      (fun p q => by rw [M33.identity_mulPosition, M33.identity_mulPosition]) (fun _ => maxFloat64) (Lip2.const _)

theorem array3_lip {s : SDF3} (hs : Lip3 s.eval) (n0 n1 n2 : ℤ) (step : V3) : Lip3 (s.array n0 n1 n2 step).eval := by
  unfold SDF3.array SDF3.arrayWith
  split
  · exact Lip3.const _
  · refine Lip3.foldl' _ (d := fun _ => maxFloat64) (F := fun d (j : ℕ) p => _) (fun j _ d hd => ?_) (Lip3.const _)
    refine Lip3.foldl' _ (d := d) (F := fun d (k : ℕ) p => _) (fun k _ d hd => ?_) hd
    refine Lip3.foldl' _ (d := d) (F := fun d (l : ℕ) p => Min.min d (s.eval (V3.sub p ⟨(j : ℝ) * step.x, (k : ℝ) * step.y, (l : ℝ) * step.z⟩)))
      (fun l _ d hd => ?_) hd
    exact hd.min (hs.comp fun p q => (V3.dist_sub p q _).le)

theorem array2_lip {s : SDF2} (hs : Lip2 s.eval) (n0 n1 : ℤ) (step : V2) : Lip2 (s.array n0 n1 step).eval := by
  unfold SDF2.array SDF2.arrayWith
  split
  · exact Lip2.const _
  · refine Lip2.foldl' _ (d := fun _ => maxFloat64) (F := fun d (j : ℕ) p => _) (fun j _ d hd => ?_) (Lip2.const _)
    refine Lip2.foldl' _ (d := d) (F := fun d (k : ℕ) p => Min.min d (s.eval (V2.sub p ⟨(j : ℝ) * step.x, (k : ℝ) * step.y⟩)))
      (fun k _ d hd => ?_) hd
    exact hd.min (hs.comp fun p q => (V2.dist_sub p q _).le)

/-- Every assembled shape has a 1-Lipschitz distance estimate. -/
theorem assembled_lip {x : Shape} (h : Assembled x) : x.Lip := by
  induction h with
  | circle r s h =>
    unfold Must2.circle at h
    split at h
    · simp at h
    · cases h; exact Lip2.sub (f := V2.norm) (fun p q => V2.norm_sub_le p q) r
  | box2 size round => exact Lip2.sub (sdfBox2d_lip _) _
  | line l round => exact Lip2.line l round
  | polygon v s hv hs => exact C31_lipschitz v hv s hs
  | move2 s m _ hm ih => exact (C19_transform2_rigid s m hm.1 hm.2.1 hm.2.2).1 ih
  | scale2 s k _ hk ih => exact (C19_scale2 s k hk).2.2.2.1 ih
  | center2 s _ ih =>
    have hdet : (M33.translate (V2.scale (-1) s.bounds.center)).det = 1 := by simp [M33.translate, M33.det]
    refine (C19_transform2_rigid s _ ⟨rfl, rfl, rfl⟩ (by rw [← M33.det_eq, hdet]; norm_num) ?_).1 ih
    refine M33.isometry_of_orth ((M33.orth_iff _).2 ?_)
    simp [M33.translate]
  | union2 s0 l _ hb ih => exact union2_lip ih hb
  | difference2 s0 s1 _ _ i0 i1 => exact Lip2.max i0 (Lip2.neg i1)
  | intersect2 s0 s1 _ _ i0 i1 => exact Lip2.max i0 i1
  | cut2 s a v _ hv ih =>
    refine Lip2.max (Lip2.dot _ _ ?_) ih
    have h1 := V2.norm_sq (V2.unit v)
    rw [V2.norm_unit hv] at h1
    exact V2.norm_eq_of zero_le_one (by simp only; linarith)
  | offset2 s d _ ih => exact Lip2.sub ih d
  | array2 s n0 n1 step _ ih => exact array2_lip ih n0 n1 step
  | rotateUnion2 s n m _ hm ih => exact rotate2_lip ih n hm
  | elongate2 s h _ ih =>
    refine Lip2.comp ih fun p q => ?_
    unfold V2.clamp V2.clamp1 V2.dist
    refine V2.norm_mono ?_ ?_ <;> simp [V2.sub]
  | slice s a n _ hn ih =>
    obtain ⟨u, v, hu, hv, huv, eu, ev, -⟩ := slice_frame hn
    refine Lip3.comp2 ih fun p q => ?_
    rw [← eu, ← ev]
    exact (slice_dist hu hv huv a p q).le
  | sphere r s h =>
    unfold Must3.sphere at h
    split at h
    · simp at h
    · cases h; exact Lip3.sub (f := V3.norm) (fun p q => V3.norm_sub_le p q) r
  | box3 size round s h =>
    unfold Must3.box at h
    split at h
    · simp at h
    · split at h
      · simp at h
      · cases h; exact Lip3.sub (sdfBox3d_lip _) _
  | cylinder height radius round s h =>
    unfold Must3.cylinder at h
    split_ifs at h
    cases h
    exact Lip3.sub (Lip2.revolve (g := fun p => sdfBox2d p ⟨radius - round, height / 2 - round⟩) (sdfBox2d_lip _)) _
  | cone height r0 r1 round s h =>
    unfold Must3.cone at h
    split_ifs at h with g1 g2 g3
    cases h
    norm_num at g3
    have := Lip2.revolve (cone_lip (coneData_frustum (r0 := r0) (r1 := r1) (not_le.1 g1) g3))
    intro p q
    simpa [V3.radial] using this p q
  | move3 s m _ hm ih => exact (C19_transform3_rigid s m hm.1 hm.2.1 hm.2.2).1 ih
  | scale3 s k _ hk ih => exact (C19_scale3 s k hk).2.2.2.1 ih
  | union3 s0 l _ ih =>
    exact Lip3.foldl (g := fun s : SDF3 => s.eval) l (fun s hs => ih s (List.mem_cons_of_mem _ hs)) (ih s0 List.mem_cons_self)
  | difference3 s0 s1 _ _ i0 i1 => exact Lip3.max i0 (Lip3.neg i1)
  | intersect3 s0 s1 _ _ i0 i1 => exact Lip3.max i0 i1
  | cut3 s a n _ hn ih =>
    refine Lip3.max (Lip3.dot _ _ ?_) ih
    rw [V3.norm_scale, V3.norm_unit hn]; norm_num
  | offset3 s d _ ih => exact Lip3.sub ih d
  | shell s t _ ih =>
    unfold SDF3.shell
    split
    · exact Lip3.const _
    · exact Lip3.sub (Lip3.abs ih) _
  | array3 s n0 n1 n2 step _ ih => exact array3_lip ih n0 n1 n2 step
  | rotateUnion3 s n m _ hm ih => exact rotate3_lip ih n hm
  | elongate3 s h _ ih =>
    refine Lip3.comp ih fun p q => ?_
    unfold V3.clamp V3.dist
    have e : ∀ x : ℝ, -0.5 * x = -(0.5 * x) := fun x => by ring
    refine V3.norm_mono ?_ ?_ ?_ <;> simp only [V3.sub, V3.scale, V3.absElem, e] <;> exact clamp1_close _ _ _
  | extrude s height _ ih => exact Lip3.max (ih.comp3 drop_dist) (Lip3.absZ _)
  | extrudeRounded s height round _ ih =>
    unfold SDF3.extrudeRounded
    split_ifs
    · exact Lip3.max (ih.comp3 drop_dist) (Lip3.absZ _)
    · exact Lip3.const _
    · exact Lip3.const _
    · exact Lip3.const _
    · exact Lip3.sub (Lip3.roundJoin ih _) _
  | revolve s theta _ ih => exact revolve_lip ih theta
  | blendUnion3 f d s0 l hf _ ih => exact blendUnion3_lip hf ih
  | blendArray3 f d s n0 n1 n2 step hf _ ih => exact blendArray3_lip hf ih n0 n1 n2 step
  | blendArray2 f d s n0 n1 step hf _ ih => exact blendArray2_lip hf ih n0 n1 step
  | blendRotate3 f d s n m hf _ hm ih => exact blendRotate3_lip hf ih n hm
  | blendRotate2 f d s n m hf _ hm ih => exact blendRotate2_lip hf ih n hm
  | blendDifference3 g d s0 s1 hg _ _ i0 i1 => exact BlendMax.lip3 hg i0 (Lip3.neg i1)
  | blendDifference2 g d s0 s1 hg _ _ i0 i1 => exact BlendMax.lip2 hg i0 (Lip2.neg i1)
  | blendIntersect3 g d s0 s1 hg _ _ i0 i1 => exact BlendMax.lip3 hg i0 i1
  | blendIntersect2 g d s0 s1 hg _ _ i0 i1 => exact BlendMax.lip2 hg i0 i1

/-- Solids: the estimate changes by at most the distance moved. -/
theorem C17_solid_partial (s : SDF3) (h : Assembled (.sol s)) : Lip3 s.eval := assembled_lip h

/-- Figures: the estimate changes by at most the distance moved. -/
theorem C17_figure_partial (s : SDF2) (h : Assembled (.fig s)) : Lip2 s.eval := assembled_lip h

/-- The size of the value never exceeds the distance to any point of the surface; and the ball of that radius is entirely
inside or entirely outside. -/
theorem C17_never_over_partial (s : SDF3) (h : Assembled (.sol s)) (p q : V3) :
    (s.eval q = 0 → |s.eval p| ≤ V3.dist p q) ∧
    (V3.dist p q < |s.eval p| → (s.Inside q ↔ s.Inside p) ∧ (s.Outside q ↔ s.Outside p)) := by
  have hl := C17_solid_partial s h p q
  refine ⟨fun hq => by rwa [hq, sub_zero] at hl, fun hd => ?_⟩
  unfold SDF3.Inside SDF3.Outside
  have := abs_le.1 hl
  rcases abs_cases (s.eval p) with ⟨e, h0⟩ | ⟨e, h0⟩ <;> rw [e] at hd <;>
    refine ⟨⟨fun h => ?_, fun h => ?_⟩, ⟨fun h => ?_, fun h => ?_⟩⟩ <;> linarith [this.1, this.2]

/-- The planar union of a disc with an empty array is not 1-Lipschitz: the operands' boxes decide which of them is asked, and
near the box of the empty one the disc is skipped. -/
theorem C17_union2_wrong : ∃ s0 s1 : SDF2, Lip2 s0.eval ∧ Lip2 s1.eval ∧ s0 = SDF2.array (C29_disc ⟨0, 0⟩) 0 1 ⟨1, 1⟩ ∧
    s1 = C29_disc ⟨4, 0⟩ ∧ ¬ Lip2 (SDF2.union s0 [s1]).eval := by
  have e : SDF2.array (C29_disc ⟨0, 0⟩) 0 1 ⟨1, 1⟩ = ⟨fun _ => maxFloat64, ⟨⟨0, 0⟩, ⟨0, 0⟩⟩⟩ := by
    simp only [SDF2.array, SDF2.arrayWith, SDF2.emptyFrom, SDF2.empty, C29_disc, Box2.center, Box2.size,
      V2.add, V2.sub, V2.scale]
    norm_num
  refine ⟨_, _, array2_lip (C29_disc_ok _).1 _ _ _, (C29_disc_ok _).1, rfl, rfl, fun h => ?_⟩
  have h1 : (SDF2.union (SDF2.array (C29_disc ⟨0, 0⟩) 0 1 ⟨1, 1⟩) [C29_disc ⟨4, 0⟩]).eval ⟨0, 0⟩ = maxFloat64 := by
    rw [e]
    simp only [SDF2.union, SDF2.unionWith, SDF2.unionEval, List.map, Box2.minMaxDist2_eq, C29_disc, V2.add, V2.sub,
      near1, far1, SDF2.nearestBox, SDF2.prunedLoop, V2.Overlap, List.zip, List.zipWith]
    norm_num [SDF2.nearestBox, SDF2.prunedLoop, V2.Overlap, List.getD]
  have h2 : (SDF2.union (SDF2.array (C29_disc ⟨0, 0⟩) 0 1 ⟨1, 1⟩) [C29_disc ⟨4, 0⟩]).eval ⟨4, 0⟩ = -1 := by
    rw [e]
    have hz : V2.norm ⟨4 - 4, 0 - 0⟩ = 0 := V2.norm_eq_of le_rfl (by norm_num)
    simp only [SDF2.union, SDF2.unionWith, SDF2.unionEval, List.map, Box2.minMaxDist2_eq, C29_disc, V2.add, V2.sub,
      near1, far1, SDF2.nearestBox, SDF2.prunedLoop, V2.Overlap, List.zip, List.zipWith, hz]
    norm_num [SDF2.nearestBox, SDF2.prunedLoop, V2.Overlap, List.getD]
  have h3 := h ⟨0, 0⟩ ⟨4, 0⟩
  rw [h1, h2, show V2.dist ⟨0, 0⟩ ⟨4, 0⟩ = 4 from V2.norm_eq_of (by norm_num) (by simp only [V2.sub]; norm_num)] at h3
  linarith [le_abs_self (maxFloat64 - -1), maxFloat64_gt]

/-- Non-vacuity: a shelled union of a moved ball and a rounded extrusion of a disc with a square hole. -/
example (s : SDF3) (hs : Must3.sphere 2 = some s) (c : SDF2) (hc : Must2.circle 3 = some c) :
    Assembled (.sol (SDF3.shell (SDF3.union (s.transform (M44.translate ⟨1, 2, 3⟩))
      [SDF3.extrudeRounded (SDF2.difference c (Must2.box ⟨1, 1⟩ 0)) 4 1]) 0.25)) := by
  refine .shell _ _ (.union3 _ _ fun t ht => ?_)
  simp only [List.mem_cons, List.not_mem_nil, or_false] at ht
  rcases ht with rfl | rfl
  · refine .move3 _ _ (.sphere 2 s hs) ⟨⟨rfl, rfl, rfl, rfl⟩, ?_, ?_⟩
    · rw [← M44.det_eq]; norm_num [M44.translate, M44.det]
    · refine M44.isometry_of_orth ((M44.orth_iff _).2 ?_)
      simp [M44.translate]
  · exact .extrudeRounded _ _ _ (.difference2 _ _ (.circle 3 c hc) (.box2 _ _))

end Sdf
