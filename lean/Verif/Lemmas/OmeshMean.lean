import Verif.Lemmas.Omesh

/-! Helper lemmas: smoothing puts a node at the mean of the nodes it is connected to. -/

namespace Sdf
namespace Bcc

/-- Sum of a list of positions. -/
def sumV (l : List V3) : V3 := l.foldr V3.add ⟨0, 0, 0⟩

theorem sumOf_val (om : List ONode) (P : ℤ → V3) : ∀ (l : List ℤ) (a : V3),
    (∀ c ∈ l, 0 ≤ c ∧ ∃ on, om[c.toNat]? = some on ∧ on.pos = some (P c)) →
    sumOf om l (some a) = some (some (V3.add a (sumV (l.map P))))
  | [], a, _ => by
    simp only [sumOf, sumV, List.map_nil, List.foldr_nil]
    congr 2
    ext <;> simp [V3.add]
  | c :: l, a, h => by
    obtain ⟨h0, on, e, hp⟩ := h c (by simp)
    have ih := sumOf_val om P l (V3.add a (P c)) (fun c hc => h c (by simp [hc]))
    rw [sumOf, if_neg (by omega), e]
    simp only [hp, Option.bind_some, Option.map_some]
    rw [ih]
    simp only [sumV, List.map_cons, List.foldr_cons]
    congr 2
    ext <;> simp only [V3.add] <;> ring

theorem average_val (om : List ONode) (P : ℤ → V3) (l : List ℤ) (hne : l ≠ [])
    (h : ∀ c ∈ l, 0 ≤ c ∧ ∃ on, om[c.toNat]? = some on ∧ on.pos = some (P c)) :
    average om l = some (some (V3.scale (1 / (l.length : ℝ)) (sumV (l.map P)))) := by
  unfold average
  rw [sumOf_val om P l _ h]
  simp only [Option.map_some, if_neg hne]
  congr 2
  ext <;> simp [V3.scale, V3.add]

theorem smooth_mean {L : ℕ} (P : ℤ → V3) : ∀ (bs : List Bool) (i n : ℕ) (om om' : List ONode), ConnOk L om → i + bs.length = L →
    smooth bs i om = some om' → (∀ j ≤ n, bs[j]? = some false) → ∀ on, om[i + n]? = some on → on.connectivity ≠ [] →
    (∀ c ∈ on.connectivity, ∃ onc, (if c < ((i + n : ℕ) : ℤ) then om'[c.toNat]? else om[c.toNat]?) = some onc ∧ onc.pos = some (P c)) →
    ∃ on', om'[i + n]? = some on' ∧ on'.pos = some (V3.scale (1 / (on.connectivity.length : ℝ)) (sumV (on.connectivity.map P)))
  | [], i, n, om, om', _, _, _, hb, _, _, _, _ => by
    have := hb 0 (by omega)
    simp at this
  | true :: bs, i, n, om, om', _, _, _, hb, _, _, _, _ => by
    have := hb 0 (by omega)
    simp at this
  | false :: bs, i, n, om, om', h, hi, hs, hb, on, hon, hne, hP => by
    have hlt : i < om.length := by rw [h.1]; simp at hi; omega
    have e1 : om[i]? = some om[i] := List.getElem?_eq_getElem hlt
    set nod := om[i] with hnod
    obtain ⟨p, ep, -⟩ := average_ok h.1 (h.2 i nod e1)
    have hsame : SameLinks om (om.set i { nod with pos := p }) := by
      refine ⟨by simp, fun k on hk => ?_⟩
      rw [List.getElem?_set]
      split_ifs with h1
      · subst h1
        have := Option.some.inj (e1.symm.trans hk)
        exact ⟨_, rfl, by rw [← this], by rw [← this]⟩
      · exact ⟨on, hk, rfl, rfl⟩
    have hs' : smooth bs (i + 1) (om.set i { nod with pos := p }) = some om' := by
      rw [smooth, e1] at hs
      dsimp only at hs
      rw [ep] at hs
      exact hs
    have hlen : i + 1 + bs.length = L := by simp at hi; omega
    obtain ⟨om'', e, -, hkeep, -⟩ := smooth_ok bs (i + 1) _ (hsame.connOk h) hlen
    rw [hs'] at e
    cases e
    cases n with
    | zero =>
      rw [Nat.add_zero] at hon hP ⊢
      have hnod' : nod = on := Option.some.inj (e1.symm.trans hon)
      refine ⟨{ nod with pos := p }, by rw [hkeep i (by omega), List.getElem?_set_self hlt], ?_⟩
      have hav := average_val om P on.connectivity hne ?_
      · rw [hnod', hav] at ep
        exact (Option.some.inj ep).symm
      · intro c hc
        have hc' := h.2 i on hon c hc
        refine ⟨hc'.1, ?_⟩
        obtain ⟨onc, e2, hp⟩ := hP c hc
        split_ifs at e2 with hci
        · rw [hkeep c.toNat (by omega), List.getElem?_set_ne (by omega)] at e2
          exact ⟨onc, e2, hp⟩
        · exact ⟨onc, e2, hp⟩
    | succ n =>
      have ea : i + (n + 1) = i + 1 + n := by omega
      rw [ea] at hon hP ⊢
      refine smooth_mean P bs (i + 1) n _ om' (hsame.connOk h) hlen hs' ?_ on ?_ hne ?_
      · intro j hj
        have := hb (j + 1) (by omega)
        simpa using this
      · rw [List.getElem?_set_ne (by omega)]
        exact hon
      · intro c hc
        have hc' := h.2 _ on hon c hc
        obtain ⟨onc, e2, hp⟩ := hP c hc
        refine ⟨onc, ?_, hp⟩
        split_ifs at e2 ⊢ with hci
        · exact e2
        · rw [List.getElem?_set_ne (by push_cast at hci; omega)]
          exact e2

end Bcc
end Sdf
