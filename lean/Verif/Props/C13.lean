import Verif.Lemmas.StlStream
import Verif.Props.C04

/-!
C13: streaming `CreateSTL` writes the same file as `WriteSTL`.
-/

namespace Sdf.Stl

/-- A finished `CreateSTL` on a renderer obeying the reader protocol has read the renderer to its end, and the file is
byte for byte what `WriteSTL` writes for the triangles delivered, for every sequence of copy buffers of at least 50
bytes, every splitting by the renderer, and `io.EOF` with or without data. -/
theorem C13_createSTL_eq_writeSTL (c : Conv) (r : Renderer) (s s' : r.State) (hok : r.Ok s) (bytes : List Byte)
    (h : CreateSTL c r 50 s bytes s') :
    ∃ model, r.Delivers s model .eof s' ∧ (model ≠ [] → model.length < 2 ^ 32 → writeSTL c model = some bytes) ∧
      (model = [] → bytes = List.replicate 84 0) := by
  cases h with
  | mk hc =>
    obtain ⟨out, e, hd, rfl, he⟩ := copy_spec le_rfl hc hok
    have : e = .eof := he.1 rfl
    subst this
    rw [file_bytes _ _ (header_length _)]
    have hn : (out.flatMap fun t => (c.record t).put).length / 50 = out.length := by
      rw [flatMap_length, Nat.mul_div_cancel_left _ (by norm_num)]
    refine ⟨out, hd, fun hne hlt => ?_, fun he => ?_⟩
    · have h0 : out.length ≠ 0 := by simpa using hne
      simp only [hn, Nat.mod_eq_of_lt hlt]
      rw [writeSTL, if_neg h0, dif_neg (by omega)]
    · subst he
      have : headerBytes ⟨0, by norm_num⟩ = List.replicate 84 0 := by
        rw [headerBytes, show (84 : Nat) = 80 + 4 from rfl, List.replicate_add]; rfl
      simpa using this

/-- If the renderer's complete output is a fixed list, however it is read, then so is the file. -/
theorem C13_file_determined (c : Conv) (r : Renderer) (s : r.State) (hok : r.Ok s) (model : List Tri)
    (hmodel : ∀ out e s', r.Delivers s out e s' → out = model) (hne : model ≠ []) (hlt : model.length < 2 ^ 32)
    (bytes : List Byte) (s' : r.State) (h : CreateSTL c r 50 s bytes s') : writeSTL c model = some bytes := by
  obtain ⟨out, hd, h1, _⟩ := C13_createSTL_eq_writeSTL c r s s' hok bytes h
  have := hmodel _ _ _ hd
  subst this
  exact h1 hne hlt

/-- `Read` neither panics nor overruns the slice, and without an error it returns at least one triangle, so the copy loop never
spins. -/
theorem C13_read_no_panic (c : Conv) (r : Renderer) (s s' : r.State) (hok : r.Ok s) (b : List Byte) (hb : 50 ≤ b.length)
    (o : SOut) (h : StlRead c r b s o s') :
    ∃ n b' err, o = .ret n b' err ∧ n ≤ b.length ∧ n % 50 = 0 ∧ b'.length = b.length ∧ (err = none → 50 ≤ n) := by
  obtain ⟨n, b', err, out, e0, e1, e2, e3, _, _, e6⟩ := stlRead_spec h hok hb
  exact ⟨n, b', err, e0, e3, by omega, e1, fun he => by have := (e6 he).2.1; omega⟩

/-! ### the octree renderer behind `CreateSTL` -/

/-- The octree renderer, as seen through the `Renderer` interface. -/
def octree (deg : Tri → Bool) : Renderer where
  State := Octree.State
  read oc len ts e oc' := ∃ dst r, dst.length = len ∧ Octree.ReadTriangles deg oc dst oc' r ∧ ts = r.dst.take r.n ∧
    e = if r.eof then some .eof else none

theorem octree_reaches {deg : Tri → Bool} {oc oc' : (octree deg).State} (h : (octree deg).Reaches oc oc') :
    ∃ outs, Octree.Calls deg oc outs oc' false := by
  induction h with
  | refl => exact ⟨[], .nil⟩
  | call _ _ hr ih =>
    obtain ⟨outs, ho⟩ := ih
    obtain ⟨dst, r, _, h1, _, h3⟩ := hr
    have h4 : r.eof = false := by cases hr : r.eof <;> simp_all
    exact ⟨_, h4 ▸ Octree.Calls.more ho h1⟩

theorem octree_delivers {deg : Tri → Bool} {oc oc' : (octree deg).State} {out : List Tri} {e : RErr}
    (h : (octree deg).Delivers oc out e oc') : ∀ {oc0 outs0}, Octree.Calls deg oc0 outs0 oc false →
      ∃ outs, Octree.Calls deg oc0 (outs0 ++ outs) oc' true ∧ outs.flatten = out := by
  induction h with
  | last _ hr =>
    intro oc0 outs0 h0
    obtain ⟨dst, r, _, h1, h2, h3⟩ := hr
    have h4 : r.eof = true := by cases hr : r.eof <;> simp_all
    exact ⟨[r.dst.take r.n], h4 ▸ Octree.Calls.more h0 h1, by simp [h2]⟩
  | call _ hr _ ih =>
    intro oc0 outs0 h0
    obtain ⟨dst, r, _, h1, h2, h3⟩ := hr
    have h4 : r.eof = false := by cases hr : r.eof <;> simp_all
    obtain ⟨outs, g1, g2⟩ := ih (h4 ▸ Octree.Calls.more h0 h1)
    exact ⟨r.dst.take r.n :: outs, by simpa using g1, by simp [h2, g2]⟩

/-- `CreateSTL` with a fresh octree renderer, any number of goroutines and any schedule: the file is what `WriteSTL` writes
for some ordering of the complete mesh, as obtained by any other complete read. -/
theorem C13_createSTL_octree (c : Conv) (deg : Tri → Bool) (s : SDF3) (meshCells : ℤ) (hb : s.bounds.Solid)
    (oc oc' : Octree.State) (h0 : Octree.Initial s meshCells oc) (bytes : List Byte)
    (h : CreateSTL c (octree deg) 50 oc bytes oc')
    (outs : List (List Tri)) (oc₂ : Octree.State) (hc : Octree.Calls deg oc outs oc₂ true) :
    ∃ model, model.Perm outs.flatten ∧
      (model ≠ [] → model.length < 2 ^ 32 → writeSTL c model = some bytes) ∧ (model = [] → bytes = List.replicate 84 0) := by
  have hok : (octree deg).Ok oc := by
    intro s' hs len ts e s'' _ hr
    obtain ⟨outs', ho⟩ := octree_reaches hs
    obtain ⟨dst, r, h1, h2, h3, _⟩ := hr
    have := (Octree.C04_count_in_range deg s meshCells hb s' s'' false ⟨oc, outs', h0, ho⟩ dst r h2).1
    rw [h3, List.length_take]
    omega
  obtain ⟨model, hd, h1, h2⟩ := C13_createSTL_eq_writeSTL c (octree deg) oc oc' hok bytes h
  obtain ⟨outs', g1, g2⟩ := octree_delivers hd (.nil : Octree.Calls deg oc [] oc false)
  refine ⟨model, ?_, h1, h2⟩
  rw [← g2]
  rw [List.nil_append] at g1
  exact (Octree.complete_perm hb h0 g1).trans (Octree.complete_perm hb h0 hc).symm

/-- Non-vacuity: a renderer holding a list, delivering one triangle per call. -/
def oneByOne : Renderer where
  State := List Tri
  read s _ ts e s' := ts = s.take 1 ∧ s' = s.drop 1 ∧ e = if s.length ≤ 1 then some .eof else none

example (c : Conv) (t u : Tri) : (oneByOne.Ok [t, u]) ∧ ∃ bytes s', CreateSTL c oneByOne 50 [t, u] bytes s' := by
  constructor
  · rintro s' _ len ts e s'' hl ⟨h, _⟩
    have h1 : (List.take 1 (show List Tri from s')).length ≤ 1 := List.length_take_le ..
    exact h ▸ h1.trans hl
  · have h1 : StlRead c oneByOne (List.replicate 60 0) [t, u] (.ret 50 (putAll c (List.replicate 60 0) 0 [t]) none) [u] := by
      refine .loop (by simp [trianglesInBuffer]) (.next (ts := [t]) (by simp [trianglesInBuffer]) ⟨rfl, rfl, rfl⟩
        (by simp [trianglesInBuffer]) (by simp) ?_)
      have := StlLoop.done (c := c) (r := oneByOne) (ntMax := min ((List.replicate 60 (0 : Byte)).length / 50) trianglesInBuffer)
        (it := 0 + [t].length) (b := putAll c (List.replicate 60 0) 0 [t]) (s := [u]) (by simp [trianglesInBuffer])
      simpa using this
    have h2 : StlRead c oneByOne (List.replicate 60 0) [u] (.ret 50 (putAll c (List.replicate 60 0) 0 [u]) (some .eof)) [] := by
      have := StlLoop.stop (c := c) (r := oneByOne) (ntMax := min ((List.replicate 60 (0 : Byte)).length / 50) trianglesInBuffer)
        (it := 0) (b := List.replicate 60 0) (s := [u]) (ts := [u]) (e := .eof) (s' := []) (by simp [trianglesInBuffer])
        ⟨rfl, rfl, rfl⟩ (by simp [trianglesInBuffer]) (by simp)
      exact .loop (by simp [trianglesInBuffer]) this
    have h3 := Copy.stop (minLen := 50) (by simp) h2
    have h4 := Copy.more (minLen := 50) (by simp) h1 h3
    exact ⟨_, _, .mk h4⟩

end Sdf.Stl
