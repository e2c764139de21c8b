import Verif.Lemmas.OctreePass
import Verif.Lemmas.Ball

/-! Helper lemmas for `RenderAll`. -/

namespace Sdf.Octree

theorem calls_cons {deg : Tri → Bool} {oc oc' oc'' : State} {dst : List Tri} {r : ReadResult} {outs : List (List Tri)}
    {eof : Bool} (h : ReadTriangles deg oc dst oc' r) (he : r.eof = false) (hc : Calls deg oc' outs oc'' eof) :
    Calls deg oc (r.dst.take r.n :: outs) oc'' eof := by
  induction hc with
  | nil =>
    have := Calls.more .nil h
    rwa [he] at this
  | more _ hr ih => exact Calls.more ih hr

open Classical in
/-- From a state with work left and nothing buffered, reading one triangle at a time leads to a state whose work list is
empty while the triangles of the last leaf are still buffered. -/
theorem drain (deg : Tri → Bool) : ∀ (L : List Cube) (oc : State) (last : Cube), StateOk oc → oc.concurrent = 0 →
    oc.unwritten = [] → oc.todo = L ++ [last] → (∀ c ∈ L ++ [last], c.n = 1) →
    ∃ outs oc', Calls deg oc outs oc' false ∧ StateOk oc' ∧ oc'.todo = [] ∧ oc'.unwritten = leafTris deg oc.dc last := by
  intro L
  induction L with
  | nil =>
    intro oc last hok hc hu ht hn
    have hn1 := hn last (by simp)
    obtain ⟨oc', hr, h1, h2, h3, h4, h5⟩ := read_single deg hok hc [default] (by simp [hu]) (by simp [ht])
    have hp : pass deg oc.dc 1 0 oc.todo = ([], 1, [], leafTris deg oc.dc last) := by
      rw [ht]; simp [pass, children, ownTris, hn1]
    simp only [hu, List.length_nil, List.length_singleton, Nat.sub_zero, hp] at hr h3 h4
    have := Calls.more .nil hr
    exact ⟨_, oc', this, h5, by rw [h4, ht]; rfl, h3⟩
  | cons c L ih =>
    intro oc last hok hc hu ht hn
    have hn1 := hn c (by simp)
    obtain ⟨oc', hr, h1, h2, h3, h4, h5⟩ := read_single deg hok hc [default] (by simp [hu]) (by simp [ht])
    have hp : pass deg oc.dc 1 0 oc.todo = ([], 1, [], leafTris deg oc.dc c) := by
      rw [ht]; simp [pass, children, ownTris, hn1]
    simp only [hu, List.length_nil, List.length_singleton, Nat.sub_zero, hp] at hr h3 h4
    have c1 := Calls.more .nil hr
    have ht' : oc'.todo = L ++ [last] := by rw [h4, ht]; simp
    by_cases he : oc'.unwritten = []
    · obtain ⟨outs, oc2, hcalls, g1, g2, g3⟩ := ih oc' last h5 h2 he ht' (fun x hx => hn x (by simp at hx ⊢; tauto))
      refine ⟨_, oc2, calls_cons hr rfl hcalls, g1, g2, by rw [g3, h1]⟩
    · have hfull : ReadTriangles deg oc' (List.replicate oc'.unwritten.length default)
          { oc' with unwritten := oc'.unwritten.drop (List.replicate oc'.unwritten.length (default : Tri)).length }
          ⟨(List.replicate oc'.unwritten.length (default : Tri)).length,
           oc'.unwritten.take (List.replicate oc'.unwritten.length (default : Tri)).length, false⟩ := by
        apply ReadTriangles.full
        · intro h
          apply he
          have := congrArg List.length h
          simpa using this
        · exact he
        · simp
      have hs := read_spec h5 hfull
      obtain ⟨outs, oc2, hcalls, g1, g2, g3⟩ := ih _ last hs.ok h2 (by simp) ht' (fun x hx => hn x (by simp at hx ⊢; tauto))
      exact ⟨_, oc2, calls_cons hr rfl (calls_cons hfull rfl hcalls), g1, g2, by rw [g3, ← h1]⟩

/-- The last of the eight leaf cells of the unit ball rendered with `meshCells = 2`. -/
def lastLeaf : Cube := ⟨⟨0, 2, 2⟩, 1⟩

theorem ball_setup (oc : State) (h : new unitBall 2 = some oc) :
    oc.dc.resolution = 0.505 ∧ oc.dc.origin = ⟨-1.01, -1.01, -1.01⟩ ∧ oc.dc.levels = 3 ∧ oc.dc.s = unitBall
    ∧ oc.todo = [⟨⟨0, 0, 0⟩, 2⟩] ∧ oc.unwritten = [] ∧ oc.concurrent = 0 := by
  have f := initial_facts (oc := oc) unitBall_solid ⟨oc, h, rfl⟩
  have hd : depth 2 = 2 := by
    unfold depth
    have : Real.logb 2 (2 * ((2 : ℤ) : ℝ)) = 2 := by
      rw [show (2 * ((2 : ℤ) : ℝ)) = 2 ^ (2 : ℝ) by norm_num]
      exact Real.logb_rpow (by norm_num) (by norm_num)
    rw [this]; norm_num
  refine ⟨?_, ?_, by rw [f.levels, hd], f.dc_s, by rw [f.todo, hd], f.unwritten, ?_⟩
  · rw [f.res, longAxis_eq]; simp only [unitBall]; norm_num
  · rw [f.origin, scaled_lo]; simp only [unitBall]; ext <;> norm_num
  · unfold new at h
    rw [if_neg (by norm_num)] at h
    simp only at h
    split at h
    · simp at h
    · simp only [Option.some.injEq] at h; rw [← h]

theorem ball_pos (dc : Dc3) (hr : dc.resolution = 0.505) (ho : dc.origin = ⟨-1.01, -1.01, -1.01⟩) (q : V3i) :
    dc.pos q = ⟨0.505 * (q.x - 2), 0.505 * (q.y - 2), 0.505 * (q.z - 2)⟩ := by
  simp only [Dc3.pos, V3.add, V3.scale, V3i.toV3, hr, ho]
  ext <;> simp only <;> ring

theorem ball_value_pos (dc : Dc3) (hr : dc.resolution = 0.505) (ho : dc.origin = ⟨-1.01, -1.01, -1.01⟩) (hs : dc.s = unitBall)
    (q : V3i) (hq : 4 ≤ (q.x - 2) * (q.x - 2) + (q.y - 2) * (q.y - 2) + (q.z - 2) * (q.z - 2)) : 0.01 ≤ dc.value q := by
  unfold Dc3.value
  rw [hs, ball_pos dc hr ho]
  simp only [unitBall]
  have hq' : (4 : ℝ) ≤ ((q.x : ℝ) - 2) * (q.x - 2) + (q.y - 2) * (q.y - 2) + (q.z - 2) * (q.z - 2) := by exact_mod_cast hq
  have h : (1.01 : ℝ) ≤ V3.norm ⟨0.505 * ((q.x : ℝ) - 2), 0.505 * ((q.y : ℝ) - 2), 0.505 * ((q.z : ℝ) - 2)⟩ := by
    apply V3.le_norm_of
    nlinarith
  linarith

theorem ball_last_not_skipped (dc : Dc3) (hr : dc.resolution = 0.505) (ho : dc.origin = ⟨-1.01, -1.01, -1.01⟩)
    (hs : dc.s = unitBall) : ¬ Skipped dc lastLeaf := by
  unfold Skipped
  rw [hdiag_eq dc _ (by rw [hr]; norm_num), hr]
  simp only [lastLeaf, Nat.sub_self, pow_zero, pow_one]
  unfold Dc3.value
  rw [hs, ball_pos dc hr ho]
  simp only [unitBall]
  push_cast
  have hn : V3.norm ⟨0.505 * ((1 : ℝ) - 2), 0.505 * ((3 : ℝ) - 2), 0.505 * ((3 : ℝ) - 2)⟩ = Real.sqrt 3 * 0.505 := by
    apply V3.norm_eq_of (by positivity)
    have := Real.mul_self_sqrt (show (0 : ℝ) ≤ 3 by norm_num)
    simp only
    nlinarith
  rw [hn]
  have h3 : (1.7 : ℝ) < Real.sqrt 3 := by
    rw [Real.lt_sqrt (by norm_num)]; norm_num
  rw [not_le, abs_lt]
  constructor <;> nlinarith

open Classical in
theorem ball_children (dc : Dc3) (hr : dc.resolution = 0.505) (ho : dc.origin = ⟨-1.01, -1.01, -1.01⟩) (hs : dc.s = unitBall) :
    ∃ L, children dc ⟨⟨0, 0, 0⟩, 2⟩ = L ++ [lastLeaf] ∧ ∀ c ∈ L ++ [lastLeaf], c.n = 1 := by
  have hsk := ball_last_not_skipped dc hr ho hs
  have e : subCubes ⟨⟨0, 0, 0⟩, 2⟩ = (subCubes ⟨⟨0, 0, 0⟩, 2⟩).dropLast ++ [lastLeaf] := by
    simp [subCubes, lastLeaf, V3i.add]
  have hc : children dc ⟨⟨0, 0, 0⟩, 2⟩ = ((subCubes ⟨⟨0, 0, 0⟩, 2⟩).dropLast.filter fun c => ¬ Skipped dc c) ++ [lastLeaf] := by
    unfold children
    rw [if_neg (by decide)]
    conv_lhs => rw [e]
    rw [List.filter_append]
    congr 1
    simp [hsk]
  refine ⟨_, hc, ?_⟩
  intro c hmem
  rw [← hc] at hmem
  have : c ∈ subCubes ⟨⟨0, 0, 0⟩, 2⟩ := by
    unfold children at hmem
    rw [if_neg (by decide)] at hmem
    exact List.mem_of_mem_filter hmem
  have := subCubes_level _ _ this
  simpa using this

theorem ball_last_leaf (deg : Tri → Bool) (hdeg : ∀ t, deg t = true → t.a = t.b ∨ t.b = t.c ∨ t.c = t.a)
    (dc : Dc3) (hr : dc.resolution = 0.505) (ho : dc.origin = ⟨-1.01, -1.01, -1.01⟩) (hs : dc.s = unitBall) :
    leafTris deg dc lastLeaf ≠ [] := by
  have hv : ∀ i, i ≠ 1 → 0.01 ≤ dc.value (leafCorners lastLeaf i) := by
    intro i hi
    apply ball_value_pos dc hr ho hs
    fin_cases i <;> first | (exact absurd rfl hi) | decide
  have h1 : dc.value (leafCorners lastLeaf 1) = -1 := by
    unfold Dc3.value
    rw [hs, ball_pos dc hr ho]
    simp [unitBall, leafCorners, lastLeaf, V3i.add, V3.norm]
  have hneg : MC.neg (fun i => dc.value (leafCorners lastLeaf i)) 0 = fun i => decide (i = 1) := by
    funext i
    unfold MC.neg
    by_cases hi : i = 1
    · subst hi; simp [h1]
    · have := hv i hi
      simp only [hi, decide_false, decide_eq_false_iff_not]
      linarith
  unfold leafTris
  rw [MC.rawTriangles_eq, hneg]
  have htab : MC.triples (MC.triangleTable.getD (MC.bitsToNat fun i => decide (i = 1)) []) = [(0, 1, 9)] := by decide +kernel
  rw [htab]
  simp only [List.map_cons, List.map_nil]
  rw [List.filter_cons_of_pos]
  · simp
  · simp only [Bool.not_eq_true']
    by_contra hd
    have hd' := hdeg _ (by simpa using hd)
    have key : ∀ a b : Fin 8, ∀ i : Fin 12, MC.pairTable i = (a, b) → MC.ptsAll (fun i => dc.pos (leafCorners lastLeaf i))
        (fun i => dc.value (leafCorners lastLeaf i)) 0 i = MC.interpolate (dc.pos (leafCorners lastLeaf a)) (dc.pos (leafCorners lastLeaf b))
          (dc.value (leafCorners lastLeaf a)) (dc.value (leafCorners lastLeaf b)) 0 := by
      intro a b i h; simp [MC.ptsAll, h]
    have e0 := key 0 1 0 (by decide)
    have e1 := key 1 2 1 (by decide)
    have e9 := key 1 5 9 (by decide)
    have hi : ∀ b : Fin 8, b ≠ 1 → ∃ t : ℝ, 0 < t ∧ MC.interpolate (dc.pos (leafCorners lastLeaf 1)) (dc.pos (leafCorners lastLeaf b))
          (dc.value (leafCorners lastLeaf 1)) (dc.value (leafCorners lastLeaf b)) 0 = V3.scale t (dc.pos (leafCorners lastLeaf b)) := by
      intro b hb
      have hvb := hv b hb
      refine ⟨1 / (dc.value (leafCorners lastLeaf b) + 1), by positivity, ?_⟩
      unfold MC.interpolate
      have c1 : ¬ |(0 : ℝ) - dc.value (leafCorners lastLeaf 1)| < MC.epsilon := by
        rw [h1]; unfold MC.epsilon; norm_num
      have c2 : ¬ |(0 : ℝ) - dc.value (leafCorners lastLeaf b)| < MC.epsilon := by
        unfold MC.epsilon; rw [zero_sub, abs_neg, abs_of_pos (by linarith)]
        norm_num at hvb ⊢; linarith
      simp only [c1, c2, false_and, if_false]
      have hp1 : dc.pos (leafCorners lastLeaf 1) = ⟨0, 0, 0⟩ := by
        rw [ball_pos dc hr ho]; simp [leafCorners, lastLeaf, V3i.add]
      rw [hp1, h1]
      simp only [V3.scale]
      ext <;> simp
    rw [MC.interpolate_symm _ _ _ _ _ (by rw [h1]; have := hv 0 (by decide); linarith)] at e0
    obtain ⟨t0, p0, q0⟩ := hi 0 (by decide)
    obtain ⟨t2, p2, q2⟩ := hi 2 (by decide)
    obtain ⟨t5, p5, q5⟩ := hi 5 (by decide)
    rw [q0] at e0; rw [q2] at e1; rw [q5] at e9
    rw [e0, e1, e9] at hd'
    simp only [ball_pos dc hr ho, V3.scale, leafCorners, lastLeaf, V3i.add] at hd'
    simp [V3.ext_iff] at hd'
    rcases hd' with h | h | h
    all_goals (norm_num at h; linarith)

end Sdf.Octree
