import Verif.Props.C32Calls

/-!
C32: polygons drawn by absolute and relative moves in Cartesian and polar coordinates, and bent sides.
-/

namespace Sdf
open Polygon Must2

/-- One vertex of a polygon as the caller gives it: a point, an offset from the previous vertex, or either of them by its length and angle. -/
inductive Move
  | to (p : V2)
  | by (d : V2)
  | toPolar (r θ : ℝ)
  | byPolar (r θ : ℝ)

/-- The calls that add the vertex: `Add(x, y)`, followed by `.Rel()` or `.Polar()` or both. -/
noncomputable def Move.call : Move → PV
  | .to p => PV.plain p
  | .by d => (PV.plain d).rel
  | .toPolar r θ => (PV.plain ⟨r, θ⟩).polar
  | .byPolar r θ => (PV.plain ⟨r, θ⟩).polar.rel

/-- Where the move leads from `p`. -/
noncomputable def Move.from (p : V2) : Move → V2
  | .to q => q
  | .by d => ⟨p.x + d.x, p.y + d.y⟩
  | .toPolar r θ => ⟨r * Real.cos θ, r * Real.sin θ⟩
  | .byPolar r θ => ⟨p.x + r * Real.cos θ, p.y + r * Real.sin θ⟩

/-- The points visited by the moves from `p`. -/
noncomputable def visited : V2 → List Move → List V2
  | _, [] => []
  | p, m :: ms => m.from p :: visited (m.from p) ms

theorem resolve_moves (ms : List Move) : ∀ p, (resolve p (ms.map Move.call)).map PV.vertex = visited p ms ∧
    ∀ v ∈ resolve p (ms.map Move.call), v.relative = false ∧ v.vtype = .normal := by
  induction ms with
  | nil => intro p; simp [resolve, visited]
  | cons m ms ih =>
    intro p
    have e : (if m.call.relative then V2.add m.call.vertex p else m.call.vertex) = m.from p := by
      cases m <;> simp [Move.call, Move.from, PV.plain, PV.rel, PV.polar, V2.add, V2.polarToXY, add_comm]
    have hn : m.call.vtype = .normal := by cases m <;> rfl
    simp only [List.map_cons, resolve, visited, e]
    refine ⟨by rw [(ih _).1], ?_⟩
    intro v hv
    rcases List.mem_cons.mp hv with rfl | hv
    · exact ⟨rfl, hn⟩
    · exact (ih _).2 v hv

theorem add_all (vs : List PV) : ∀ b : Builder, (vs.foldl Builder.add b).vlist = b.vlist ++ vs ∧
    (vs.foldl Builder.add b).closed = b.closed ∧ (vs.foldl Builder.add b).reverse = b.reverse ∧
    (b.isNil = false → (vs.foldl Builder.add b).isNil = false) := by
  induction vs with
  | nil => simp
  | cons v vs ih =>
    intro b
    obtain ⟨h1, h2, h3, h4⟩ := ih (b.add v)
    refine ⟨by rw [List.foldl_cons, h1]; simp [Builder.add], h2, h3, fun _ => h4 rfl⟩

/-- A polygon that starts at a point and goes on by moves of any kind has as its vertices the points visited, in order. -/
theorem C32_moves (p : V2) (ms : List Move) (fuel : ℕ) :
    ∃ b', (ms.foldl (fun b m => b.add m.call) (Builder.new.add (PV.plain p))).vertices (fuel + 1) = .ok (p :: visited p ms, b') := by
  have hf : ms.foldl (fun b m => b.add m.call) (Builder.new.add (PV.plain p)) = (ms.map Move.call).foldl Builder.add (Builder.new.add (PV.plain p)) := by
    rw [List.foldl_map]
  rw [hf]
  obtain ⟨h1, h2, h3, h4⟩ := add_all (ms.map Move.call) (Builder.new.add (PV.plain p))
  set b := (ms.map Move.call).foldl Builder.add (Builder.new.add (PV.plain p)) with hb
  have hl : b.vlist = PV.plain p :: ms.map Move.call := by rw [h1]; simp [Builder.add, Builder.new]
  have hr : b.Resolvable := Or.inl ⟨PV.plain p, by rw [hl]; rfl, rfl⟩
  have hres : resolve b.start b.vlist = PV.plain p :: resolve p (ms.map Move.call) := by
    rw [hl]; simp [resolve, PV.plain]
  obtain ⟨e1, e2⟩ := resolve_moves ms p
  have hnorm : ∀ v ∈ resolve b.start b.vlist, v.vtype = .normal := by
    intro v hv
    rw [hres] at hv
    rcases List.mem_cons.mp hv with rfl | hv
    · rfl
    · exact (e2 v hv).2
  have hfix : b.fixups (fuel + 1) = .ok { b with vlist := resolve b.start b.vlist } := by
    unfold Builder.fixups
    rw [C32_relative b hr]
    simp only
    rw [passes_idle _ _ (fun j hj => arcVertex_idle _ j hj (fun v h => by rw [hnorm _ (List.mem_of_getElem? h)]; simp))]
    simp only
    rw [passes_idle _ _ (fun j hj => smoothVertex_idle _ j hj (fun v h => by rw [hnorm _ (List.mem_of_getElem? h)]; simp))]
  refine ⟨{ b with vlist := resolve b.start b.vlist }, ?_⟩
  unfold Builder.vertices
  rw [h4 rfl, if_neg (by simp), hfix]
  have h3' : b.reverse = false := h3
  have h4' : b.isNil = false := h4 rfl
  simp only [h3', h4', Bool.false_eq_true, if_false, hres, List.map_cons, e1]
  rfl

/-- A square of side 2 drawn by a step to the right, a polar step upwards, a step back and the polar coordinates of the start. -/
example : visited ⟨1, 1⟩ [.by ⟨2, 0⟩, .byPolar 2 (Real.pi / 2), .by ⟨-2, 0⟩, .toPolar (Real.sqrt 2) (Real.pi / 4)] =
    [⟨3, 1⟩, ⟨3, 3⟩, ⟨1, 3⟩, ⟨1, 1⟩] := by
  have h : Real.sqrt 2 * (Real.sqrt 2 / 2) = 1 := by
    have := Real.mul_self_sqrt (show (0 : ℝ) ≤ 2 by norm_num)
    linarith
  simp [visited, Move.from, h]
  norm_num

/-- A side bent by `Arc(radius, facets)`: the polygon goes from the previous vertex to the new one over equally spaced points of a circle of
that radius, turning by at most half a turn, clockwise for a positive and counter-clockwise for a negative radius. -/
theorem C32_arc_call (b : Builder) (A B : List PV) (p x : V2) (r : ℝ) (f : ℤ) (hn : b.isNil = false)
    (hl : b.vlist = A ++ PV.plain p :: (PV.plain x).arc r f :: B) (hf : 1 ≤ f) (h0 : r ≠ 0) (hne : p ≠ x) (hr : V2.dist p x ≤ 2 * |r|)
    (hA : ∀ v ∈ A, v.relative = false ∧ v.vtype = .normal) (hB : ∀ v ∈ B, v.relative = false ∧ v.vtype = .normal) (fuel : ℕ) :
    ∃ b' vs c, ∃ t : ℝ, b.vertices (fuel + 2) = .ok (vs, b') ∧ V2.dist p c = |r| ∧ turn c (f * t) p = x ∧
      (0 < r → -Real.pi ≤ f * t ∧ f * t ≤ 0) ∧ (r < 0 → 0 ≤ f * t ∧ f * t ≤ Real.pi) ∧
      (if b.reverse then vs.reverse else vs) =
        A.map PV.vertex ++ p :: ((List.range (f - 1).toNat).map (fun k : ℕ => turn c ((k + 1) * t) p) ++ x :: B.map PV.vertex) := by
  have hc : (PV.plain x).arc r f = ⟨false, .arc, x, f, r⟩ := by
    rw [PV.arc, if_pos ⟨h0, by omega⟩]; rfl
  rw [hc] at hl
  obtain ⟨b', vs, h1, h2⟩ := C32_arc_vertices b A B p x r f hn hl hf hA hB fuel
  obtain ⟨c, t, g1, g2, g3, g4, g5⟩ := C32_arc p x r f hf hne hr
  refine ⟨b', vs, c, t, h1, g1, g2, g3, g4, ?_⟩
  rw [h2, g5, List.map_map]
  rfl

/-- A corner rounded by `Smooth(radius, facets)`, with sides long enough: in its place are `facets + 1` equally spaced points of a circle of
that radius, the first on one adjacent side, the last on the other, and the circle touches both sides there. -/
theorem C32_smooth_call (b : Builder) (A B : List PV) (p n x : V2) (r : ℝ) (f : ℤ) (hn : b.isNil = false)
    (hl : b.vlist = A ++ PV.plain p :: (PV.plain x).smooth r f :: PV.plain n :: B) (hf : 1 ≤ f) (hr : 0 < r)
    (hA : ∀ v ∈ A, v.relative = false ∧ v.vtype = .normal) (hB : ∀ v ∈ B, v.relative = false ∧ v.vtype = .normal)
    (hnd : V2.cross (V2.sub p x) (V2.sub n x) ≠ 0)
    (hfit : r * (V2.dist p x * V2.dist n x + V2.dot (V2.sub p x) (V2.sub n x)) ≤
      |V2.cross (V2.sub p x) (V2.sub n x)| * min (V2.dist p x) (V2.dist n x))
    (fuel : ℕ) :
    ∃ b' vs c P Q, ∃ a : ℝ, b.vertices (fuel + 2) = .ok (vs, b') ∧ |f * a| < Real.pi ∧ turn c (f * a) P = Q ∧ V2.dist P c = r ∧
      OnSegment x p P ∧ V2.dot (V2.sub P c) (V2.sub p x) = 0 ∧ OnSegment x n Q ∧ V2.dot (V2.sub Q c) (V2.sub n x) = 0 ∧
      (if b.reverse then vs.reverse else vs) =
        A.map PV.vertex ++ p :: ((List.range (f + 1).toNat).map (fun k : ℕ => turn c (k * a) P) ++ n :: B.map PV.vertex) := by
  have hc : (PV.plain x).smooth r f = ⟨false, .smooth, x, f, r⟩ := by
    rw [PV.smooth, if_pos ⟨hr.ne', by omega⟩]; rfl
  rw [hc] at hl
  obtain ⟨pts, hpts⟩ := (C32_smooth_fits p x n r f hnd).mpr hfit
  obtain ⟨b', vs, h1, h2⟩ := C32_smooth_vertices b A B p n x r f pts hn hl (by omega) hA hB hpts fuel
  obtain ⟨c, P, Q, a, g1, g2, g3, g4, g5, g6, g7, g8, -⟩ := C32_smooth p x n r f hr hf hnd pts hpts
  refine ⟨b', vs, c, P, Q, a, h1, g1, g3, g4, g5, g6, g7, g8, ?_⟩
  rw [h2, g2, List.map_map]
  rfl

/-- The corner at the origin between sides of length 2 along the axes, rounded with radius 1 in 3 facets, meets the hypotheses, and the side
from (0, 2) to (2, 2) bent with radius 2 those of `C32_arc_call`. -/
example : V2.cross (V2.sub ⟨2, 0⟩ ⟨0, 0⟩) (V2.sub ⟨0, 2⟩ ⟨0, 0⟩) ≠ 0 ∧
    (1 : ℝ) * (V2.dist ⟨2, 0⟩ ⟨0, 0⟩ * V2.dist ⟨0, 2⟩ ⟨0, 0⟩ + V2.dot (V2.sub ⟨2, 0⟩ ⟨0, 0⟩) (V2.sub ⟨0, 2⟩ ⟨0, 0⟩)) ≤
      |V2.cross (V2.sub ⟨2, 0⟩ ⟨0, 0⟩) (V2.sub ⟨0, 2⟩ ⟨0, 0⟩)| * min (V2.dist ⟨2, 0⟩ ⟨0, 0⟩) (V2.dist ⟨0, 2⟩ ⟨0, 0⟩) ∧
    (⟨0, 2⟩ : V2) ≠ ⟨2, 2⟩ ∧ V2.dist ⟨0, 2⟩ ⟨2, 2⟩ ≤ 2 * |(2 : ℝ)| := by
  have e1 : V2.dist ⟨2, 0⟩ ⟨0, 0⟩ = 2 := by
    simp only [V2.dist, V2.norm, V2.sub]; rw [Real.sqrt_eq_iff_mul_self_eq] <;> norm_num
  have e2 : V2.dist ⟨0, 2⟩ ⟨0, 0⟩ = 2 := by
    simp only [V2.dist, V2.norm, V2.sub]; rw [Real.sqrt_eq_iff_mul_self_eq] <;> norm_num
  have e3 : V2.dist ⟨0, 2⟩ ⟨2, 2⟩ = 2 := by
    simp only [V2.dist, V2.norm, V2.sub]; rw [Real.sqrt_eq_iff_mul_self_eq] <;> norm_num
  rw [e1, e2, e3]
  norm_num [V2.cross, V2.sub, V2.dot]

end Sdf
