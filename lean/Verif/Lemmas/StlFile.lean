import Verif.Props.C12
import Verif.Props.C13

/-! Helper lemmas: the bytes of a file that `CreateSTL` writes with the octree renderer, and that it finishes. -/

namespace Sdf.Stl

open Octree

theorem create_bytes (c : Conv) (r : Renderer) (s s' : r.State) (hok : r.Ok s) (bytes : List Byte) (h : CreateSTL c r 50 s bytes s') :
    ∃ model, r.Delivers s model .eof s' ∧
      bytes = headerBytes ⟨model.length % 2 ^ 32, Nat.mod_lt _ (by norm_num)⟩ ++ (model.flatMap fun t => (c.record t).put) := by
  cases h with
  | mk hc =>
    obtain ⟨out, e, hd, rfl, he⟩ := copy_spec (le_refl 50) hc hok
    have : e = .eof := he.1 rfl
    subst this
    refine ⟨out, hd, ?_⟩
    rw [file_bytes _ _ (header_length _)]
    simp only [flatMap_length, Nat.mul_div_cancel_left _ (show 0 < 50 by norm_num)]

/-- What is stored in the file of a finished `CreateSTL`: the rounded triangles of some complete rendering. -/
theorem stored_octree (c : Conv) (deg : Tri → Bool) (s : SDF3) (meshCells : ℤ) (hb : s.bounds.Solid)
    (oc oc' : State) (h0 : Initial s meshCells oc) (bytes : List Byte) (h : CreateSTL c (octree deg) 50 oc bytes oc')
    (hsize : bytes.length < 84 + 50 * 2 ^ 32) :
    ∃ outs, Calls deg oc outs oc' true ∧ storedTriangles c bytes = outs.flatten.map c.rounded := by
  have hok : (octree deg).Ok oc := by
    intro s' hs len ts e s'' _ hr
    obtain ⟨outs', ho⟩ := octree_reaches hs
    obtain ⟨dst, r, h1, h2, h3, _⟩ := hr
    have := (Octree.C04_count_in_range deg s meshCells hb s' s'' false ⟨oc, outs', h0, ho⟩ dst r h2).1
    rw [h3, List.length_take]
    omega
  have hlen : ∀ model : List Tri, bytes = headerBytes ⟨model.length % 2 ^ 32, Nat.mod_lt _ (by norm_num)⟩ ++ (model.flatMap fun t => (c.record t).put) →
      bytes.length = 84 + 50 * model.length := by
    intro model he
    rw [he, List.length_append, header_length, flatMap_length]
  obtain ⟨model, hd, hl⟩ : ∃ model, (octree deg).Delivers oc model .eof oc' ∧
      bytes = headerBytes ⟨model.length % 2 ^ 32, Nat.mod_lt _ (by norm_num)⟩ ++ (model.flatMap fun t => (c.record t).put) := by
    exact create_bytes c (octree deg) oc oc' hok bytes h
  have hn : model.length < 2 ^ 32 := by
    have := hlen model hl
    omega
  have lay := layout c model ⟨model.length % 2 ^ 32, Nat.mod_lt _ (by norm_num)⟩
  rw [← hl] at lay
  obtain ⟨-, l2, -, l4⟩ := lay
  simp only [Nat.mod_eq_of_lt hn] at l2
  obtain ⟨outs, g1, g2⟩ := octree_delivers hd (.nil : Octree.Calls deg oc [] oc false)
  rw [List.nil_append] at g1
  refine ⟨outs, g1, ?_⟩
  rw [g2]
  unfold storedTriangles
  rw [l2]
  apply List.ext_getElem
  · simp
  intro k h1 h2
  have hk : k < model.length := by simpa using h1
  have h12 := (l4 k hk).1
  have word : ∀ j < 9, le32 bytes (84 + 50 * k + 12 + 4 * j) = (twelve c model[k]).getD (j + 3) 0 := by
    intro j hj
    have := h12 (j + 3) (by omega)
    rw [← this]
    congr 1
    ring
  simp only [List.getElem_map, List.getElem_range]
  rw [word 0 (by norm_num), word 1 (by norm_num), word 2 (by norm_num), word 3 (by norm_num), word 4 (by norm_num),
    word 5 (by norm_num), word 6 (by norm_num), word 7 (by norm_num), word 8 (by norm_num)]
  simp only [twelve, List.map_cons, List.map_nil, List.getD_cons_succ, List.getD_cons_zero, Nat.zero_add]
  have hof : ∀ v : F32, (Fin.ofNat (2 ^ 32) v.val : F32) = v := by
    intro v
    ext
    simp [Fin.ofNat]
  simp only [hof]
  rfl

theorem loop_finishes (c : Conv) (deg : Tri → Bool) (ntMax : Nat) : ∀ (n : Nat) (oc : State) (it : Nat) (b : List Byte), measure oc ≤ n →
    StateOk oc → it < ntMax → ntMax * 50 ≤ b.length →
    ∃ k b' e oc', StlLoop c (octree deg) ntMax it b oc (.ret k b' e) oc' ∧ StateOk oc' ∧ (e = some .eof ∨ e = none ∧ measure oc' < measure oc) := by
  intro n
  induction n with
  | zero =>
    intro oc it b hm hok hit hb
    have hpos : 0 < min ntMax (b.length / 50 - it) := by omega
    obtain ⟨oc', r, hr⟩ := read_progress deg hok (List.replicate (min ntMax (b.length / 50 - it)) default)
      (List.ne_nil_of_length_pos (by rw [List.length_replicate]; exact hpos))
    have hs := read_spec hok hr
    have hn := hs.n_le
    rw [List.length_replicate] at hn
    have he : r.eof = true := by
      by_contra hc
      have := hs.dec (by simpa using hc)
      omega
    have hlen : (r.dst.take r.n).length = r.n := by
      rw [List.length_take, hs.len, List.length_replicate]; omega
    exact ⟨_, _, _, oc', .stop hit ⟨_, r, List.length_replicate, hr, rfl, by rw [if_pos he]⟩ (by omega) (by omega), hs.ok, Or.inl rfl⟩
  | succ n ih =>
    intro oc it b hm hok hit hb
    have hpos : 0 < min ntMax (b.length / 50 - it) := by omega
    obtain ⟨oc', r, hr⟩ := read_progress deg hok (List.replicate (min ntMax (b.length / 50 - it)) default)
      (List.ne_nil_of_length_pos (by rw [List.length_replicate]; exact hpos))
    have hs := read_spec hok hr
    have hn := hs.n_le
    rw [List.length_replicate] at hn
    have hlen : (r.dst.take r.n).length = r.n := by
      rw [List.length_take, hs.len, List.length_replicate]; omega
    by_cases he : r.eof = true
    · exact ⟨_, _, _, oc', .stop hit ⟨_, r, List.length_replicate, hr, rfl, by rw [if_pos he]⟩ (by omega) (by omega), hs.ok, Or.inl rfl⟩
    · have hd := hs.dec (by simpa using he)
      have hread : (octree deg).read oc (min ntMax (b.length / 50 - it)) (r.dst.take r.n) none oc' :=
        ⟨_, r, List.length_replicate, hr, rfl, by rw [if_neg he]⟩
      have hpl := (putAll_spec c (r.dst.take r.n) b it (by omega)).1
      by_cases hmore : it + (r.dst.take r.n).length < ntMax
      · obtain ⟨k, b', e, oc2, h1, h2, h3⟩ := ih oc' (it + (r.dst.take r.n).length) (putAll c b it (r.dst.take r.n)) (by omega) hs.ok hmore (by omega)
        refine ⟨k, b', e, oc2, .next hit hread (by omega) (by omega) h1, h2, ?_⟩
        rcases h3 with h3 | ⟨h3, h4⟩
        · exact Or.inl h3
        · exact Or.inr ⟨h3, by omega⟩
      · exact ⟨_, _, none, oc', .next hit hread (by omega) (by omega) (.done hmore), hs.ok, Or.inr ⟨rfl, hd⟩⟩

theorem copy_finishes (c : Conv) (deg : Tri → Bool) : ∀ (n : Nat) (oc : State), measure oc ≤ n → StateOk oc →
    ∃ w oc', Copy c (octree deg) 50 oc w false oc' := by
  intro n
  induction n with
  | zero =>
    intro oc hm hok
    obtain ⟨k, b', e, oc', h1, h2, h3⟩ := loop_finishes c deg 1 0 oc 0 (List.replicate 50 0) hm hok (by norm_num) (by simp)
    rcases h3 with rfl | ⟨-, h4⟩
    · have := Copy.stop (c := c) (r := octree deg) (minLen := 50) (b := List.replicate 50 0) (by simp)
        (.loop (by simp [trianglesInBuffer]) (by simpa [trianglesInBuffer] using h1))
      exact ⟨_, oc', by simpa using this⟩
    · omega
  | succ n ih =>
    intro oc hm hok
    obtain ⟨k, b', e, oc', h1, h2, h3⟩ := loop_finishes c deg 1 _ oc 0 (List.replicate 50 0) hm hok (by norm_num) (by simp)
    rcases h3 with rfl | ⟨rfl, h4⟩
    · have := Copy.stop (c := c) (r := octree deg) (minLen := 50) (b := List.replicate 50 0) (by simp)
        (.loop (by simp [trianglesInBuffer]) (by simpa [trianglesInBuffer] using h1))
      exact ⟨_, oc', by simpa using this⟩
    · obtain ⟨w, oc2, hw⟩ := ih oc' (by omega) h2
      exact ⟨_, oc2, .more (b := List.replicate 50 0) (by simp) (.loop (by simp [trianglesInBuffer]) (by simpa [trianglesInBuffer] using h1)) hw⟩

end Sdf.Stl
