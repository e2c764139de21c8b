import Verif.Lemmas.Stl
import Verif.Spec.Stl

namespace Sdf.Stl

theorem reaches_trans {r : Renderer} {s s' s'' : r.State} (h : r.Reaches s s') (h' : r.Reaches s' s'') : r.Reaches s s'' := by
  induction h' with
  | refl => exact h
  | call _ hl hr ih => exact .call ih hl hr

theorem ok_step {r : Renderer} {s s' : r.State} {len : Nat} {ts : List Tri} (h : r.Ok s) (hl : 1 ≤ len)
    (hr : r.read s len ts none s') : r.Ok s' :=
  fun s'' hs => h s'' (reaches_trans (.call .refl hl hr) hs)

/-- What the loop of `Read` has done when it returns: either it filled the buffer with calls that returned no error, or
the renderer returned an error. -/
theorem stlLoop_spec {c : Conv} {r : Renderer} {ntMax it : Nat} {b : List Byte} {s s' : r.State} {o : SOut}
    (h : StlLoop c r ntMax it b s o s') (hok : r.Ok s) (hm : ntMax ≤ b.length / 50) (hit : it * 50 ≤ b.length) :
    ∃ n b' err out, o = .ret n b' err ∧ b'.length = b.length ∧ n = (it + out.length) * 50 ∧ n ≤ b.length ∧
      b'.take n = b.take (it * 50) ++ (out.flatMap fun t => (c.record t).put) ∧
      (∀ e, err = some e → r.Delivers s out e s') ∧
      (err = none → r.Ok s' ∧ ntMax ≤ it + out.length ∧ r.Reaches s s' ∧
        ∀ out' e s'', r.Delivers s' out' e s'' → r.Delivers s (out ++ out') e s'') := by
  induction h with
  | @done it b s hn =>
    exact ⟨_, _, _, [], rfl, rfl, by simp, hit, by simp, by simp, fun _ => ⟨hok, by simpa using hn, .refl, by simp⟩⟩
  | @tooMany it b s ts e s' hlt hr hgt =>
    have := hok s .refl _ ts e s' (by omega) hr
    omega
  | @overflow it b s ts e s' hlt hr hgt ho =>
    have := hok s .refl _ ts e s' (by omega) hr
    omega
  | @stop it b s ts e s' hlt hr h1 h2 =>
    obtain ⟨p1, p2⟩ := putAll_spec c ts b it (by omega)
    exact ⟨_, _, _, ts, rfl, p1, rfl, by omega, p2, fun e' he => by
      cases he; exact .last (len := min ntMax (b.length / 50 - it)) (by omega) hr, fun h => by cases h⟩
  | @next it b s ts s' o s'' hlt hr h1 h2 hrest ih =>
    obtain ⟨p1, p2⟩ := putAll_spec c ts b it (by omega)
    have hl : 1 ≤ min ntMax (b.length / 50 - it) := by omega
    obtain ⟨n, b', err, out, rfl, e1, e2, e3, e4, e5, e6⟩ :=
      ih (ok_step hok hl hr) (by rw [p1]; exact hm) (by rw [p1]; omega)
    refine ⟨n, b', err, ts ++ out, rfl, by rw [e1, p1], by rw [e2, List.length_append]; ring, by rw [p1] at e3; exact e3,
      by rw [e4, p2, List.flatMap_append, List.append_assoc], fun e he => .call hl hr (e5 e he), fun he => ?_⟩
    obtain ⟨f1, f2, f3, f4⟩ := e6 he
    refine ⟨f1, by rw [List.length_append]; omega, reaches_trans (.call .refl hl hr) f3, fun out' e s3 hd => ?_⟩
    rw [List.append_assoc]
    exact .call hl hr (f4 out' e s3 hd)

theorem stlRead_spec {c : Conv} {r : Renderer} {b : List Byte} {s s' : r.State} {o : SOut}
    (h : StlRead c r b s o s') (hok : r.Ok s) (hb : 50 ≤ b.length) :
    ∃ n b' err out, o = .ret n b' err ∧ b'.length = b.length ∧ n = out.length * 50 ∧ n ≤ b.length ∧
      b'.take n = (out.flatMap fun t => (c.record t).put) ∧
      (∀ e, err = some e → r.Delivers s out e s') ∧
      (err = none → r.Ok s' ∧ 1 ≤ out.length ∧ r.Reaches s s' ∧
        ∀ out' e s'', r.Delivers s' out' e s'' → r.Delivers s (out ++ out') e s'') := by
  have ht : 0 < trianglesInBuffer := by simp [trianglesInBuffer]
  cases h with
  | small h0 => exfalso; omega
  | loop h0 hl =>
    obtain ⟨n, b', err, out, e0, e1, e2, e3, e4, e5, e6⟩ := stlLoop_spec hl hok (min_le_left _ _) (by simp)
    refine ⟨n, b', err, out, e0, e1, by simpa using e2, e3, by simpa using e4, e5, fun he => ?_⟩
    obtain ⟨f1, f2, f3, f4⟩ := e6 he
    exact ⟨f1, by omega, f3, f4⟩

theorem copy_spec {c : Conv} {r : Renderer} {minLen : Nat} (hm : 50 ≤ minLen) {s s' : r.State} {w : List Byte} {f : Bool}
    (h : Copy c r minLen s w f s') (hok : r.Ok s) :
    ∃ out e, r.Delivers s out e s' ∧ w = (out.flatMap fun t => (c.record t).put) ∧ (f = false ↔ e = .eof) := by
  induction h with
  | more hb hr _ ih =>
    obtain ⟨n, b', err, out, e0, e1, e2, e3, e4, e5, e6⟩ := stlRead_spec hr hok (hm.trans hb)
    cases e0
    obtain ⟨f1, f2, f3, f4⟩ := e6 rfl
    obtain ⟨out', e, g1, g2, g3⟩ := ih f1
    exact ⟨out ++ out', e, f4 _ _ _ g1, by rw [e4, g2, List.flatMap_append], g3⟩
  | @stop s b n b' e s' hb hr =>
    obtain ⟨n, b', err, out, e0, e1, e2, e3, e4, e5, e6⟩ := stlRead_spec hr hok (hm.trans hb)
    cases e0
    exact ⟨out, e, e5 _ rfl, e4, by simp⟩

theorem fileWrite_start (f x : List Byte) : fileWrite f 0 x = x ++ f.drop x.length := by
  simp [fileWrite]

theorem fileWrite_end (x : List Byte) (o : Nat) : fileWrite [] o x = List.replicate o 0 ++ x := by
  simp [fileWrite]

/-- Header over the streamed body. -/
theorem file_bytes (hd w : List Byte) (h : hd.length = 84) :
    fileWrite (if w = [] then [] else fileWrite [] 84 w) 0 hd = hd ++ w := by
  by_cases hw : w = []
  · simp [hw, fileWrite]
  · rw [if_neg hw, fileWrite_end, fileWrite_start, h, List.drop_left' (by simp)]

end Sdf.Stl
