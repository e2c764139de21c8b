import Verif.Lemmas.BoxDist
import Verif.Spec.Shape

/-!
C30: `MinMaxDist2` returns the squared distance from a point to the nearest and to the farthest point of a box.

True in the plane (`C30_box2`).  In space the farthest distance is right (`C30_box3_far`) but the nearest one is
false of the code: the edges of the box are forgotten (`C30_box3_near_wrong`).  It is proved for the points that
do not lie within the box's extent along exactly one axis, and is never too small (`C30_box3_near_partial`).
-/

namespace Sdf

/-- The squared distances from `p` to the points of a box. -/
def Box2.dist2s (b : Box2) (p : V2) : Set ℝ :=
  {d | ∃ q : V2, b.Contains q ∧ d = (q.x - p.x) ^ 2 + (q.y - p.y) ^ 2}

/-- The squared distances from `p` to the points of a box. -/
def Box3.dist2s (b : Box3) (p : V3) : Set ℝ :=
  {d | ∃ q : V3, b.Contains q ∧ d = (q.x - p.x) ^ 2 + (q.y - p.y) ^ 2 + (q.z - p.z) ^ 2}

/-- In the plane, for every non-empty box and every point. -/
theorem C30_box2 (b : Box2) (hx : b.lo.x ≤ b.hi.x) (hy : b.lo.y ≤ b.hi.y) (p : V2) :
    IsLeast (b.dist2s p) (b.minMaxDist2 p).x ∧ IsGreatest (b.dist2s p) (b.minMaxDist2 p).y := by
  rw [Box2.minMaxDist2_eq]
  have hx' : b.lo.x - p.x ≤ b.hi.x - p.x := by linarith
  have hy' : b.lo.y - p.y ≤ b.hi.y - p.y := by linarith
  obtain ⟨s, s1, s2, s3⟩ := near1_mem hx'
  obtain ⟨t, t1, t2, t3⟩ := near1_mem hy'
  obtain ⟨u, u1, u2, u3⟩ := far1_mem hx'
  obtain ⟨v, v1, v2, v3⟩ := far1_mem hy'
  refine ⟨⟨⟨⟨s + p.x, t + p.y⟩, ⟨?_, ?_, ?_, ?_⟩, ?_⟩, ?_⟩, ⟨⟨⟨u + p.x, v + p.y⟩, ⟨?_, ?_, ?_, ?_⟩, ?_⟩, ?_⟩⟩
  · simp only; linarith
  · simp only; linarith
  · simp only; linarith
  · simp only; linarith
  · simp only [s3, t3]; ring
  · rintro d ⟨q, ⟨q1, q2, q3, q4⟩, rfl⟩
    have h1 := near1_le (l := b.lo.x - p.x) (h := b.hi.x - p.x) (t := q.x - p.x) (by linarith) (by linarith)
    have h2 := near1_le (l := b.lo.y - p.y) (h := b.hi.y - p.y) (t := q.y - p.y) (by linarith) (by linarith)
    simp only; nlinarith
  · simp only; linarith
  · simp only; linarith
  · simp only; linarith
  · simp only; linarith
  · simp only [u3, v3]; ring
  · rintro d ⟨q, ⟨q1, q2, q3, q4⟩, rfl⟩
    have h1 := le_far1 (l := b.lo.x - p.x) (h := b.hi.x - p.x) (t := q.x - p.x) (by linarith) (by linarith)
    have h2 := le_far1 (l := b.lo.y - p.y) (h := b.hi.y - p.y) (t := q.y - p.y) (by linarith) (by linarith)
    simp only; nlinarith

/-- In space, the second result is the squared distance to the farthest point. -/
theorem C30_box3_far (b : Box3) (hx : b.lo.x ≤ b.hi.x) (hy : b.lo.y ≤ b.hi.y) (hz : b.lo.z ≤ b.hi.z)
    (p : V3) : IsGreatest (b.dist2s p) (b.minMaxDist2 p).2 := by
  rw [(Box3.minMaxDist2_eq b p).1]
  have hx' : b.lo.x - p.x ≤ b.hi.x - p.x := by linarith
  have hy' : b.lo.y - p.y ≤ b.hi.y - p.y := by linarith
  have hz' : b.lo.z - p.z ≤ b.hi.z - p.z := by linarith
  obtain ⟨u, u1, u2, u3⟩ := far1_mem hx'
  obtain ⟨v, v1, v2, v3⟩ := far1_mem hy'
  obtain ⟨w, w1, w2, w3⟩ := far1_mem hz'
  refine ⟨⟨⟨u + p.x, v + p.y, w + p.z⟩, ⟨?_, ?_, ?_, ?_, ?_, ?_⟩, ?_⟩, ?_⟩
  · simp only; linarith
  · simp only; linarith
  · simp only; linarith
  · simp only; linarith
  · simp only; linarith
  · simp only; linarith
  · simp only [u3, v3, w3]; ring
  · rintro d ⟨q, ⟨q1, q2, q3, q4, q5, q6⟩, rfl⟩
    have h1 := le_far1 (l := b.lo.x - p.x) (h := b.hi.x - p.x) (t := q.x - p.x) (by linarith) (by linarith)
    have h2 := le_far1 (l := b.lo.y - p.y) (h := b.hi.y - p.y) (t := q.y - p.y) (by linarith) (by linarith)
    have h3 := le_far1 (l := b.lo.z - p.z) (h := b.hi.z - p.z) (t := q.z - p.z) (by linarith) (by linarith)
    nlinarith

/-- In space, the first result is the squared distance to the nearest point for every point that is not
strictly within the box's extent along exactly one axis; for the others it is at least that.  Missing: the
points beside an edge of the box, for which the claim is false (`C30_box3_near_wrong`). -/
theorem C30_box3_near_partial (b : Box3) (hx : b.lo.x ≤ b.hi.x) (hy : b.lo.y ≤ b.hi.y) (hz : b.lo.z ≤ b.hi.z)
    (p : V3) :
    (∃ d, IsLeast (b.dist2s p) d ∧ d ≤ (b.minMaxDist2 p).1) ∧
    (let X := b.lo.x < p.x ∧ p.x < b.hi.x
     let Y := b.lo.y < p.y ∧ p.y < b.hi.y
     let Z := b.lo.z < p.z ∧ p.z < b.hi.z
     ¬ (X ∧ ¬ Y ∧ ¬ Z) → ¬ (¬ X ∧ Y ∧ ¬ Z) → ¬ (¬ X ∧ ¬ Y ∧ Z) →
      IsLeast (b.dist2s p) (b.minMaxDist2 p).1) := by
  have key : IsLeast (b.dist2s p) (near1 (b.lo.x - p.x) (b.hi.x - p.x) + near1 (b.lo.y - p.y) (b.hi.y - p.y)
      + near1 (b.lo.z - p.z) (b.hi.z - p.z)) := by
    have hx' : b.lo.x - p.x ≤ b.hi.x - p.x := by linarith
    have hy' : b.lo.y - p.y ≤ b.hi.y - p.y := by linarith
    have hz' : b.lo.z - p.z ≤ b.hi.z - p.z := by linarith
    obtain ⟨u, u1, u2, u3⟩ := near1_mem hx'
    obtain ⟨v, v1, v2, v3⟩ := near1_mem hy'
    obtain ⟨w, w1, w2, w3⟩ := near1_mem hz'
    refine ⟨⟨⟨u + p.x, v + p.y, w + p.z⟩, ⟨?_, ?_, ?_, ?_, ?_, ?_⟩, ?_⟩, ?_⟩
    · simp only; linarith
    · simp only; linarith
    · simp only; linarith
    · simp only; linarith
    · simp only; linarith
    · simp only; linarith
    · simp only [u3, v3, w3]; ring
    · rintro d ⟨q, ⟨q1, q2, q3, q4, q5, q6⟩, rfl⟩
      have h1 := near1_le (l := b.lo.x - p.x) (h := b.hi.x - p.x) (t := q.x - p.x) (by linarith) (by linarith)
      have h2 := near1_le (l := b.lo.y - p.y) (h := b.hi.y - p.y) (t := q.y - p.y) (by linarith) (by linarith)
      have h3 := near1_le (l := b.lo.z - p.z) (h := b.hi.z - p.z) (t := q.z - p.z) (by linarith) (by linarith)
      nlinarith
  obtain ⟨_, h1, h2⟩ := Box3.minMaxDist2_eq b p
  refine ⟨⟨_, key, h1⟩, ?_⟩
  intro X Y Z a1 a2 a3
  rw [h2 a1 a2 a3]
  exact key

/-- Beside an edge the nearest distance is wrong: for the cube [-1,1]³ and the point (0,2,2) the code answers 3,
the true squared distance, to (0,1,1), being 2. -/
theorem C30_box3_near_wrong :
    ∃ (b : Box3) (p : V3), b.Solid ∧ (b.minMaxDist2 p).1 = 3 ∧ IsLeast (b.dist2s p) 2 := by
  refine ⟨⟨⟨-1, -1, -1⟩, ⟨1, 1, 1⟩⟩, ⟨0, 2, 2⟩, ⟨by norm_num, by norm_num, by norm_num⟩, ?_, ⟨?_, ?_⟩⟩
  · unfold Box3.minMaxDist2
    simp only [Box3.translate, Box3.vertices, V3.add, V3.scale, List.map, V3.norm2, List.tail, List.head!,
      List.foldl]
    norm_num
  · exact ⟨⟨0, 1, 1⟩, by norm_num [Box3.Contains], by norm_num⟩
  · rintro d ⟨q, ⟨q1, q2, q3, q4, q5, q6⟩, rfl⟩
    simp only at *
    nlinarith

/-- The hypotheses are met by a concrete box and a point outside it, at squared distance 5. -/
example : IsLeast ((⟨⟨0, 0⟩, ⟨2, 1⟩⟩ : Box2).dist2s ⟨4, 2⟩) 5 := by
  have h := (C30_box2 ⟨⟨0, 0⟩, ⟨2, 1⟩⟩ (by norm_num) (by norm_num) ⟨4, 2⟩).1
  rw [Box2.minMaxDist2_eq] at h
  norm_num [near1] at h
  exact h

end Sdf
