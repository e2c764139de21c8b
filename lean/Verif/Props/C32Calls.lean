import Verif.Props.C32Local

/-!
C32: the calls of the polygon builder.  What chamfering means for a right angle, which calls have no effect, that dropping a
vertex undoes adding it, that the ends of open polygons stay, and that closed polygons are smoothed around their seam.
-/

namespace Sdf
open Polygon Must2

/-- Smoothing or bending with a zero radius or no facets, and chamfering by nothing, leave a vertex as it is. -/
theorem C32_no_effect (v : PV) (r : ℝ) (f : ℤ) : v.smooth 0 f = v ∧ v.smooth r 0 = v ∧ v.arc 0 f = v ∧ v.arc r 0 = v ∧ v.chamfer 0 = v := by
  refine ⟨if_neg ?_, if_neg ?_, if_neg ?_, if_neg ?_, if_neg ?_⟩ <;> simp

/-- Dropping a vertex undoes adding one; there is nothing to drop from an empty builder. -/
theorem C32_drop (b : Builder) (v : PV) : (∃ b', (b.add v).drop = some b' ∧ (b.isNil = false → ∀ fuel, b'.vertices fuel = b.vertices fuel) ∧
    ∀ w fuel, (b'.add w).vertices fuel = (b.add w).vertices fuel) ∧ Builder.new.drop = none := by
  constructor
  · have hne : b.vlist ++ [v] ≠ [] := by simp
    refine ⟨⟨b.closed, b.reverse, false, b.vlist⟩, ?_, ?_, ?_⟩
    · simp [Builder.drop, Builder.add]
    · intro h fuel
      cases b
      simp only at h
      subst h
      rfl
    · intro w fuel
      rfl
  · simp [Builder.drop, Builder.new]

theorem sqrtHalf_close : |Real.sqrt 2 * Must2.sqrtHalf - 1| ≤ 1 / 10 ^ 15 := by
  have h0 : 0 < Real.sqrt 2 := by positivity
  have h1 : Real.sqrt 2 ≤ 1.4142135623730951 := by
    rw [Real.sqrt_le_left (by norm_num)]; norm_num
  have h2 : 1.4142135623730950 ≤ Real.sqrt 2 := by
    exact Real.le_sqrt_of_sq_le (by norm_num)
  unfold Must2.sqrtHalf
  rw [abs_le]
  constructor <;> norm_num at * <;> linarith

/-- A chamfered right angle: two points take the place of the vertex, one on each adjacent side at the same distance from the
corner, and the new side between them has the requested length (up to the rounding of the constant 1/√2). -/
theorem C32_chamfer (b : Builder) (A B : List PV) (p n x : V2) (size : ℝ) (hs : 0 < size) (hn : b.isNil = false)
    (hl : b.vlist = A ++ PV.plain p :: (PV.plain x).chamfer size :: PV.plain n :: B)
    (hA : ∀ v ∈ A, v.relative = false ∧ v.vtype = .normal) (hB : ∀ v ∈ B, v.relative = false ∧ v.vtype = .normal)
    (hright : V2.dot (V2.sub p x) (V2.sub n x) = 0) (hp : size ≤ V2.dist p x) (hq : size ≤ V2.dist n x) (fuel : ℕ) :
    ∃ b' vs P Q, b.vertices (fuel + 2) = .ok (vs, b') ∧
      (if b.reverse then vs.reverse else vs) = A.map PV.vertex ++ p :: P :: Q :: n :: B.map PV.vertex ∧
      OnSegment x p P ∧ OnSegment x n Q ∧ V2.dist P x = V2.dist Q x ∧ |V2.dist P Q - size| ≤ size / 10 ^ 15 := by
  have hsq : 0 < Must2.sqrtHalf := by norm_num [Must2.sqrtHalf]
  have hsq1 : Must2.sqrtHalf < 1 := by norm_num [Must2.sqrtHalf]
  have hr : 0 < size * Must2.sqrtHalf := mul_pos hs hsq
  have hc : (PV.plain x).chamfer size = ⟨false, .smooth, x, 1, size * Must2.sqrtHalf⟩ := by
    rw [PV.chamfer, if_pos hs.ne']; rfl
  rw [hc] at hl
  have e1 : V2.dist p x * V2.dist p x = (p.x - x.x) * (p.x - x.x) + (p.y - x.y) * (p.y - x.y) := V2.norm_sq _
  have e2 : V2.dist n x * V2.dist n x = (n.x - x.x) * (n.x - x.x) + (n.y - x.y) * (n.y - x.y) := V2.norm_sq _
  have hcross : |V2.cross (V2.sub p x) (V2.sub n x)| = V2.dist p x * V2.dist n x := by
    have : V2.cross (V2.sub p x) (V2.sub n x) ^ 2 = (V2.dist p x * V2.dist n x) ^ 2 := by
      have : (V2.dist p x * V2.dist n x) ^ 2 = (V2.dist p x * V2.dist p x) * (V2.dist n x * V2.dist n x) := by ring
      rw [this, e1, e2]
      simp only [V2.cross, V2.dot, V2.sub] at hright ⊢
      linear_combination -((p.x - x.x) * (n.x - x.x) + (p.y - x.y) * (n.y - x.y)) * hright
    rw [← abs_of_nonneg (mul_nonneg (V2.dist_nonneg p x) (V2.dist_nonneg n x))]
    exact sq_eq_sq_iff_abs_eq_abs _ _ |>.mp this
  have hpos : 0 < V2.dist p x * V2.dist n x := mul_pos (by linarith) (by linarith)
  have hnd : V2.cross (V2.sub p x) (V2.sub n x) ≠ 0 := by
    rw [← abs_pos, hcross]; exact hpos
  have hrs : size * Must2.sqrtHalf ≤ min (V2.dist p x) (V2.dist n x) := by
    rw [le_min_iff]; constructor <;> nlinarith
  obtain ⟨pts, hpts⟩ := (C32_smooth_fits p x n (size * Must2.sqrtHalf) 1 hnd).mpr (by
    rw [hright, add_zero, hcross, mul_comm]
    exact mul_le_mul_of_nonneg_left hrs hpos.le)
  obtain ⟨c, P, Q, a, -, hp2, hQ, hdist, hP, hPd, hQ', hQd, hlen⟩ := C32_smooth p x n (size * Must2.sqrtHalf) 1 hr le_rfl hnd pts hpts
  obtain ⟨b', vs, hv, hvs⟩ := C32_smooth_vertices b A B p n x (size * Must2.sqrtHalf) 1 pts hn hl (by norm_num) hA hB hpts fuel
  have hp3 : pts.map PV.vertex = [P, Q] := by
    rw [hp2, show ((1 : ℤ) + 1).toNat = 2 by rfl]
    simp only [List.range_succ, List.range_zero, List.nil_append, List.map_cons, List.map_nil, PV.plain, List.cons_append]
    rw [← hQ]; simp [turn_zero]
  have hdP : V2.dist P x = size * Must2.sqrtHalf := by
    rw [hcross, hright, add_zero] at hlen
    exact mul_right_cancel₀ hpos.ne' hlen
  obtain ⟨t, t0, t1, hPt⟩ := hP
  obtain ⟨t', t0', t1', hQt⟩ := hQ'
  have hPx : P.x - x.x = t * (p.x - x.x) := by rw [hPt]; simp [V2.add, V2.scale, V2.sub]
  have hPy : P.y - x.y = t * (p.y - x.y) := by rw [hPt]; simp [V2.add, V2.scale, V2.sub]
  have hQx : Q.x - x.x = t' * (n.x - x.x) := by rw [hQt]; simp [V2.add, V2.scale, V2.sub]
  have hQy : Q.y - x.y = t' * (n.y - x.y) := by rw [hQt]; simp [V2.add, V2.scale, V2.sub]
  have eP : V2.dist P x * V2.dist P x = (P.x - x.x) * (P.x - x.x) + (P.y - x.y) * (P.y - x.y) := V2.norm_sq _
  have eQ : V2.dist Q x * V2.dist Q x = (Q.x - x.x) * (Q.x - x.x) + (Q.y - x.y) * (Q.y - x.y) := V2.norm_sq _
  have ePQ : V2.dist P Q * V2.dist P Q = (P.x - Q.x) * (P.x - Q.x) + (P.y - Q.y) * (P.y - Q.y) := V2.norm_sq _
  have ePc : V2.dist P c * V2.dist P c = (P.x - c.x) * (P.x - c.x) + (P.y - c.y) * (P.y - c.y) := V2.norm_sq _
  have eQc : V2.dist Q c * V2.dist Q c = (Q.x - c.x) * (Q.x - c.x) + (Q.y - c.y) * (Q.y - c.y) := V2.norm_sq _
  have hdQc : V2.dist Q c = V2.dist P c := by rw [← hQ, turn_dist]
  have hdQ : V2.dist Q x = V2.dist P x := by
    refine (mul_self_inj_of_nonneg (V2.dist_nonneg _ _) (V2.dist_nonneg _ _)).mp ?_
    rw [hdQc, ePc] at eQc
    rw [eP, eQ]
    simp only [V2.dot, V2.sub] at hPd hQd
    have h1 : (P.x - c.x) * (P.x - x.x) + (P.y - c.y) * (P.y - x.y) = 0 := by rw [hPx, hPy]; linear_combination t * hPd
    have h2 : (Q.x - c.x) * (Q.x - x.x) + (Q.y - c.y) * (Q.y - x.y) = 0 := by rw [hQx, hQy]; linear_combination t' * hQd
    linear_combination eQc - 2 * h1 + 2 * h2
  have hPQ : V2.dist P Q = size * (Real.sqrt 2 * Must2.sqrtHalf) := by
    refine (mul_self_inj_of_nonneg (V2.dist_nonneg _ _) (by positivity)).mp ?_
    have h3 : (P.x - x.x) * (Q.x - x.x) + (P.y - x.y) * (Q.y - x.y) = 0 := by
      rw [hPx, hPy, hQx, hQy]; simp only [V2.dot, V2.sub] at hright; linear_combination t * t' * hright
    have h4 : V2.dist P Q * V2.dist P Q = 2 * (size * Must2.sqrtHalf * (size * Must2.sqrtHalf)) := by
      rw [hdQ, hdP] at eQ
      rw [hdP] at eP
      rw [ePQ]; linear_combination -eP - eQ - 2 * h3
    rw [h4]
    have h2 := Real.mul_self_sqrt (show (0 : ℝ) ≤ 2 by norm_num)
    linear_combination -(size * Must2.sqrtHalf * (size * Must2.sqrtHalf)) * h2
  refine ⟨b', vs, P, Q, hv, ?_, ⟨t, t0, t1, hPt⟩, ⟨t', t0', t1', hQt⟩, hdQ.symm, ?_⟩
  · rw [hvs, hp3]; rfl
  · rw [hPQ, show size * (Real.sqrt 2 * Must2.sqrtHalf) - size = size * (Real.sqrt 2 * Must2.sqrtHalf - 1) by ring, abs_mul, abs_of_pos hs]
    have := mul_le_mul_of_nonneg_left sqrtHalf_close hs.le
    calc _ ≤ _ := this
      _ = _ := by ring

theorem arc_open_first {b b' : Builder} {r : Bool} (hc : b.closed = false) (h : b.arcVertex 0 = some (b', r)) : r = false := by
  unfold Builder.arcVertex at h
  split at h
  · cases h
  · split at h
    · simp only [Option.some.injEq, Prod.mk.injEq] at h; exact h.2.symm
    · simp only [Builder.prevVertex, hc, if_true, Bool.false_eq_true, if_false, Option.some.injEq, Prod.mk.injEq] at h
      exact h.2.symm

theorem smooth_open_ends {b b' : Builder} {i : ℕ} {r : Bool} (hc : b.closed = false) (hi : i = 0 ∨ i + 1 = b.vlist.length)
    (h : b.smoothVertex i = some (b', r)) : r = false := by
  unfold Builder.smoothVertex at h
  split at h
  · cases h
  · split at h
    · simp only [Option.some.injEq, Prod.mk.injEq] at h; exact h.2.symm
    · have hnone : b.prevVertex i = none ∨ b.nextVertex i = none := by
        rcases hi with rfl | hi
        · left; simp [Builder.prevVertex, hc]
        · right; simp [Builder.nextVertex, hc, hi]
      rcases hnone with hn | hn
      · rw [hn] at h
        simp only [Option.some.injEq, Prod.mk.injEq] at h; exact h.2.symm
      · rw [hn] at h
        split at h
        · rename_i h2; cases h2
        · simp only [Option.some.injEq, Prod.mk.injEq] at h; exact h.2.symm

/-- The first and the last vertex of an open polygon stay where they are, also if they are marked to be smoothed or, the first
one, to end an arc. -/
theorem C32_open_ends (b b' : Builder) (fuel : ℕ) (vs : List V2) (hc : b.closed = false) (hr : b.Resolvable)
    (h : b.vertices fuel = .ok (vs, b')) :
    (if b.reverse then vs.reverse else vs).head? = (resolve b.start b.vlist).head?.map PV.vertex ∧
    (if b.reverse then vs.reverse else vs).getLast? = (resolve b.start b.vlist).getLast?.map PV.vertex := by
  unfold Builder.vertices at h
  by_cases hn : b.isNil = true
  · rw [if_pos hn] at h; simp at h
  rw [if_neg hn] at h
  rcases hfx : b.fixups fuel with c | _ | _
  · rw [hfx] at h
    simp only [Outcome.ok.injEq, Prod.mk.injEq] at h
    obtain ⟨hvs, -⟩ := h
    unfold Builder.fixups at hfx
    rw [C32_relative b hr] at hfx
    simp only at hfx
    rcases hp : passes Builder.arcVertex fuel { b with vlist := resolve b.start b.vlist } with b2 | _ | _
    · rw [hp] at hfx
      simp only at hfx
      set L := resolve b.start b.vlist with hL
      let I : Builder → Prop := fun c => c.closed = false ∧ c.reverse = b.reverse ∧
        c.vlist.head?.map PV.vertex = L.head?.map PV.vertex ∧ c.vlist.getLast?.map PV.vertex = L.getLast?.map PV.vertex
      have i0 : I { b with vlist := L } := ⟨hc, rfl, rfl, rfl⟩
      have i1 : I b2 := by
        refine passes_inv I ?_ fuel _ _ hp i0
        intro c i c' r hstep hI
        obtain ⟨A, v, B, hl, hi, h1, h2, -, hh⟩ := arcVertex_cases hstep
        obtain ⟨hI1, hI2, hI3, hI4⟩ := hI
        rcases hh with ⟨-, rfl, -⟩ | ⟨-, -, hb⟩ | ⟨-, hrt, -, pv, hb⟩
        · exact ⟨hI1, hI2, hI3, hI4⟩
        · refine ⟨h1.trans hI1, h2.trans hI2, ?_, ?_⟩
          · rw [← hI3, hb, hl]; cases A <;> simp
          · rw [← hI4, hb, hl]; rcases List.eq_nil_or_concat B with rfl | ⟨B', w, rfl⟩ <;> simp [List.getLast?_append, List.getLast?_cons]
        · have hA : A ≠ [] := by
            rintro rfl
            simp only [List.length_nil] at hi
            subst hi
            rw [hrt] at hstep
            exact absurd (arc_open_first hI1 hstep) (by simp)
          refine ⟨h1.trans hI1, h2.trans hI2, ?_, ?_⟩
          · rw [← hI3, hb, hl]; cases A with
            | nil => exact absurd rfl hA
            | cons a A => simp
          · rw [← hI4, hb, hl]; rcases List.eq_nil_or_concat B with rfl | ⟨B', w, rfl⟩ <;> simp [List.getLast?_append, List.getLast?_cons]
      have i2 : I c := by
        refine passes_inv I ?_ fuel _ _ hfx i1
        intro c i c' r hstep hI
        obtain ⟨A, v, B, hl, hi, hh⟩ := smoothVertex_cases hstep
        obtain ⟨hI1, hI2, hI3, hI4⟩ := hI
        rcases hh with ⟨rfl, -⟩ | ⟨-, hrt, -, h1, h2, -, vp, vn, pts, -, hb⟩
        · exact ⟨hI1, hI2, hI3, hI4⟩
        · rw [hrt] at hstep
          have hA : A ≠ [] := by
            rintro rfl
            exact absurd (smooth_open_ends hI1 (Or.inl hi.symm) hstep) (by simp)
          have hB : B ≠ [] := by
            rintro rfl
            exact absurd (smooth_open_ends hI1 (Or.inr (by rw [hl]; simp [hi])) hstep) (by simp)
          refine ⟨h1.trans hI1, h2.trans hI2, ?_, ?_⟩
          · rw [← hI3, hb, hl]; cases A with
            | nil => exact absurd rfl hA
            | cons a A => simp
          · rw [← hI4, hb, hl]
            obtain ⟨B', w, rfl⟩ := (List.eq_nil_or_concat B).resolve_left hB
            simp [List.getLast?_append, List.getLast?_cons]
      obtain ⟨-, hI2, hI3, hI4⟩ := i2
      have hvs' : (if b.reverse then vs.reverse else vs) = c.vlist.map PV.vertex := by
        rw [← hvs, hI2]; split <;> simp
      rw [hvs', List.head?_map, List.getLast?_map]
      exact ⟨hI3, hI4⟩
    · rw [hp] at hfx; simp at hfx
    · rw [hp] at hfx; simp at hfx
  · rw [hfx] at h; simp at h
  · rw [hfx] at h; simp at h

/-- One smoothed vertex among plain ones, wherever its neighbours are found. -/
theorem smooth_vertices_at (b : Builder) (A B : List PV) (p n x : V2) (r : ℝ) (f : ℤ) (pts : List PV) (hn : b.isNil = false)
    (hl : b.vlist = A ++ ⟨false, .smooth, x, f, r⟩ :: B) (hf : 0 ≤ f) (hprev : b.prevVertex A.length = some (PV.plain p))
    (hnext : b.nextVertex A.length = some (PV.plain n))
    (hA : ∀ v ∈ A, v.relative = false ∧ v.vtype = .normal) (hB : ∀ v ∈ B, v.relative = false ∧ v.vtype = .normal)
    (hp : smoothPoints p x n r f = some pts) (fuel : ℕ) :
    ∃ b' vs, b.vertices (fuel + 2) = .ok (vs, b') ∧ (if b.reverse then vs.reverse else vs) =
      A.map PV.vertex ++ (pts.map PV.vertex ++ B.map PV.vertex) := by
  have hpts := (smoothPoints_normal hp).1
  have hplen := (smoothPoints_normal hp).2
  have hrel : ∀ v ∈ b.vlist, v.relative = false := by
    intro v hv
    rw [hl] at hv
    simp only [List.mem_append, List.mem_cons] at hv
    rcases hv with h | rfl | h
    · exact (hA v h).1
    · rfl
    · exact (hB v h).1
  have harc : ∀ v ∈ b.vlist, v.vtype ≠ .arc := by
    intro v hv
    rw [hl] at hv
    simp only [List.mem_append, List.mem_cons] at hv
    rcases hv with h | rfl | h
    · rw [(hA v h).2]; simp
    · simp
    · rw [(hB v h).2]; simp
  set b' : Builder := { b with vlist := A ++ (pts ++ B) } with hb'
  have hnorm : ∀ v ∈ b'.vlist, v.vtype = .normal := by
    intro v hv
    simp only [hb', List.mem_append] at hv
    rcases hv with h | h | h
    · exact (hA v h).2
    · exact (hpts v h).2
    · exact (hB v h).2
  have hi : A.length < b.vlist.length := by rw [hl]; simp
  have hsm : passes Builder.smoothVertex (fuel + 2) b = .ok b' := by
    refine passes_once _ b b' A.length hi (fun j hj hne => ?_) ?_ (fun j hj => ?_) ?_ fuel
    · refine smoothVertex_idle b j hj ?_
      intro y hg hs
      rcases Nat.lt_or_gt_of_ne hne with h | h
      · rw [hl, List.getElem?_append_left h] at hg
        rw [(hA _ (List.mem_of_getElem? hg)).2] at hs; simp at hs
      · obtain ⟨k, rfl⟩ : ∃ k, j = A.length + 1 + k := ⟨j - A.length - 1, by omega⟩
        rw [hl, List.getElem?_append_right (by omega), show A.length + 1 + k - A.length = k + 1 by omega,
            List.getElem?_cons_succ] at hg
        rw [(hB _ (List.mem_of_getElem? hg)).2] at hs; simp at hs
    · unfold Builder.smoothVertex
      have e1 : b.vlist[A.length]? = some ⟨false, .smooth, x, f, r⟩ := by rw [hl]; simp
      rw [e1]
      simp only [hprev, hnext]
      rw [if_neg (by simp)]
      simp only [PV.plain] at hp ⊢
      rw [hp]
      simp only
      rw [if_neg (by omega)]
      simp only [hb', Option.some.injEq, Prod.mk.injEq, and_true]
      congr 1
      rw [hl]
      simp
    · exact smoothVertex_idle b' j hj (fun v h => by rw [hnorm _ (List.mem_of_getElem? h)]; simp)
    · rw [hl]; simp [hb', hplen]; omega
  refine ⟨b', if b'.reverse then (b'.vlist.map PV.vertex).reverse else b'.vlist.map PV.vertex, ?_, ?_⟩
  · unfold Builder.vertices
    rw [hn, if_neg (by simp)]
    have : b.fixups (fuel + 2) = .ok b' := by
      unfold Builder.fixups Builder.relToAbs
      rw [relToAbsFrom_absolute b hrel _ 0 (by omega)]
      simp only
      rw [passes_idle _ b (fun j hj => arcVertex_idle b j hj (fun v h => harc _ (List.mem_of_getElem? h)))]
      simp only
      exact hsm
    rw [this]
  · show (if b.reverse then _ else _) = _
    have hrv : b'.reverse = b.reverse := rfl
    rw [hrv]
    split <;> simp [hb']

/-- In a closed polygon the first vertex is smoothed between the last and the second one, and the last vertex between the one
before it and the first one: the fillet is that of `C32_smooth` for these neighbours. -/
theorem C32_smooth_seam (b : Builder) (B : List PV) (p n x : V2) (r : ℝ) (f : ℤ) (pts : List PV) (hn : b.isNil = false)
    (hc : b.closed = true) (hf : 0 ≤ f) (hB : ∀ v ∈ B, v.relative = false ∧ v.vtype = .normal)
    (hp : smoothPoints p x n r f = some pts) (fuel : ℕ) :
    (b.vlist = ⟨false, .smooth, x, f, r⟩ :: PV.plain n :: (B ++ [PV.plain p]) → ∃ b' vs, b.vertices (fuel + 2) = .ok (vs, b') ∧
      (if b.reverse then vs.reverse else vs) = pts.map PV.vertex ++ n :: (B.map PV.vertex ++ [p])) ∧
    (b.vlist = PV.plain n :: (B ++ [PV.plain p, ⟨false, .smooth, x, f, r⟩]) → ∃ b' vs, b.vertices (fuel + 2) = .ok (vs, b') ∧
      (if b.reverse then vs.reverse else vs) = n :: (B.map PV.vertex ++ p :: pts.map PV.vertex)) := by
  have hpl : ∀ z : V2, (PV.plain z).relative = false ∧ (PV.plain z).vtype = .normal := fun z => ⟨rfl, rfl⟩
  constructor
  · intro hl
    obtain ⟨b', vs, h1, h2⟩ := smooth_vertices_at b [] (PV.plain n :: (B ++ [PV.plain p])) p n x r f pts hn hl hf
      (by rw [Builder.prevVertex, if_pos (by simp), if_pos hc, hl]; simp)
      (by rw [Builder.nextVertex, if_neg (by rw [hl]; simp), hl]; simp) (by simp)
      (by
        intro v hv
        simp only [List.mem_cons, List.mem_append, List.not_mem_nil, or_false] at hv
        rcases hv with rfl | h | rfl
        · exact hpl n
        · exact hB v h
        · exact hpl p) hp fuel
    exact ⟨b', vs, h1, by rw [h2]; simp [PV.plain]⟩
  · intro hl
    have hl' : b.vlist = (PV.plain n :: (B ++ [PV.plain p])) ++ ⟨false, .smooth, x, f, r⟩ :: [] := by rw [hl]; simp
    obtain ⟨b', vs, h1, h2⟩ := smooth_vertices_at b (PV.plain n :: (B ++ [PV.plain p])) [] p n x r f pts hn hl' hf
      (by
        rw [Builder.prevVertex, if_neg (by simp), hl']
        rw [List.getElem?_append_left (by simp)]; simp)
      (by rw [Builder.nextVertex, if_pos (by rw [hl']; simp), if_pos hc, hl']; simp)
      (by
        intro v hv
        simp only [List.mem_cons, List.mem_append, List.not_mem_nil, or_false] at hv
        rcases hv with rfl | h | rfl
        · exact hpl n
        · exact hB v h
        · exact hpl p) (by simp) hp fuel
    exact ⟨b', vs, h1, by rw [h2]; simp [PV.plain]⟩

/-- Non-vacuity: the right angle at (2, 0) of an open chain is chamfered by one. -/
example : ∃ b' vs P Q, (Builder.mk false false false [PV.plain ⟨0, 0⟩, (PV.plain ⟨2, 0⟩).chamfer 1, PV.plain ⟨2, 2⟩]).vertices 2 = .ok (vs, b') ∧
    vs = [⟨0, 0⟩, P, Q, ⟨2, 2⟩] ∧ OnSegment ⟨2, 0⟩ ⟨0, 0⟩ P ∧ OnSegment ⟨2, 0⟩ ⟨2, 2⟩ Q ∧ V2.dist P ⟨2, 0⟩ = V2.dist Q ⟨2, 0⟩ ∧
    |V2.dist P Q - 1| ≤ 1 / 10 ^ 15 := by
  have hd : ∀ u v : V2, (u.x - v.x) * (u.x - v.x) + (u.y - v.y) * (u.y - v.y) = 2 * 2 → 1 ≤ V2.dist u v := by
    intro u v h
    have e : V2.dist u v * V2.dist u v = _ := V2.norm_sq _
    simp only [V2.sub] at e
    rw [h] at e
    nlinarith [V2.dist_nonneg u v]
  obtain ⟨b', vs, P, Q, h1, h2, h3, h4, h5, h6⟩ := C32_chamfer
    (Builder.mk false false false [PV.plain ⟨0, 0⟩, (PV.plain ⟨2, 0⟩).chamfer 1, PV.plain ⟨2, 2⟩]) [] [] ⟨0, 0⟩ ⟨2, 2⟩ ⟨2, 0⟩ 1
    one_pos rfl rfl (by simp) (by simp) (by norm_num [V2.dot, V2.sub]) (hd _ _ (by norm_num)) (hd _ _ (by norm_num)) 0
  exact ⟨b', vs, P, Q, h1, by simpa using h2, h3, h4, h5, h6⟩

end Sdf
