import Verif.Model.History

/-! What a program that builds models is expected to build: solids are values, and an object's blend is the one set last. -/

namespace Sdf.Heap

/-- The minimum function set last for object `r`. -/
noncomputable def lastMin (h : List Act) (r : ℕ) : ℝ → ℝ → ℝ :=
  h.foldl (fun f a => match a with | .setMin r' g => if r' = r then g else f | _ => f) min

/-- The maximum function set last for object `r`. -/
noncomputable def lastMax (h : List Act) (r : ℕ) : ℝ → ℝ → ℝ :=
  h.foldl (fun f a => match a with | .setMax r' g => if r' = r then g else f | _ => f) max

/-- One action on values: the solids built so far and the contents of the arrays.  Object `r` is to have the blends `mn r` and `mx r`. -/
noncomputable def expectStep (mn mx : ℕ → ℝ → ℝ → ℝ) (st : List SDF3 × List (List (Option ℕ))) : Act → List SDF3 × List (List (Option ℕ))
  | .part s => (st.1 ++ [s], st.2)
  | .step (.transform m) r => (st.1 ++ ((st.1[r]?).map fun s => s.transform m).toList, st.2)
  | .step (.scale k) r => (st.1 ++ ((st.1[r]?).map fun s => s.scaleUniform k).toList, st.2)
  | .step (.elongate h) r => (st.1 ++ ((st.1[r]?).map fun s => s.elongate h).toList, st.2)
  | .step (.cut a n) r => (st.1 ++ ((st.1[r]?).map fun s => s.cut a n).toList, st.2)
  | .step (.rotateCopy num) r => (st.1 ++ ((st.1[r]?).map fun s => s.rotateCopy num).toList, st.2)
  | .step (.offset d) r => (st.1 ++ ((st.1[r]?).map fun s => s.offset d).toList, st.2)
  | .step (.shell t) r => (st.1 ++ ((st.1[r]?).map fun s => s.shell t).toList, st.2)
  | .rep (.array n0 n1 n2 v) r => (st.1 ++ ((st.1[r]?).map fun s => s.arrayWith (mn st.1.length) n0 n1 n2 v).toList, st.2)
  | .rep (.rotateUnion num m) r => (st.1 ++ ((st.1[r]?).map fun s => s.rotateUnionWith (mn st.1.length) num m).toList, st.2)
  | .difference r0 r1 =>
    (st.1 ++ ((st.1[r0]?).bind fun s0 => (st.1[r1]?).map fun s1 => s0.differenceWith (mx st.1.length) s1).toList, st.2)
  | .intersect r0 r1 =>
    (st.1 ++ ((st.1[r0]?).bind fun s0 => (st.1[r1]?).map fun s1 => s0.intersectWith (mx st.1.length) s1).toList, st.2)
  | .union sl =>
    match ((((st.2.getD sl.arr []).drop sl.off).take sl.len).mapM fun x => x.bind fun r => st.1[r]?) with
    | some (s0 :: l) => (st.1 ++ [SDF3.unionWith (mn st.1.length) s0 l], st.2)
    | _ => st
  | .list l => (st.1, st.2 ++ [l])
  | .store a i x => (st.1, st.2.set a ((st.2.getD a []).set i x))
  | .setMin _ _ => st
  | .setMax _ _ => st

/-- The solids a program is expected to build, in the order of their objects. -/
noncomputable def expected (h : List Act) : List SDF3 := (h.foldl (expectStep (lastMin h) (lastMax h)) ([], [])).1

/-- The program never assigns to an element of a slice it has given to a union. -/
def Spares (h : List Act) : Prop :=
  ∀ h1 h2 h3 sl a i x, h = h1 ++ Act.union sl :: (h2 ++ Act.store a i x :: h3) → a = sl.arr → sl.off ≤ i → sl.off + sl.len ≤ i

/-- Object `r'` is object `r`, or is built from it. -/
inductive Mem.Uses (m : Mem) (r : ℕ) : ℕ → Prop
  | self : m.Uses r r
  | step {r' k s bb} : m.objs[r']? = some ⟨.step k s, bb⟩ → m.Uses r s → m.Uses r r'
  | rep {r' k s mn bb} : m.objs[r']? = some ⟨.rep k s mn, bb⟩ → m.Uses r s → m.Uses r r'
  | diff0 {r' s0 s1 mx bb} : m.objs[r']? = some ⟨.diff s0 s1 mx, bb⟩ → m.Uses r s0 → m.Uses r r'
  | diff1 {r' s0 s1 mx bb} : m.objs[r']? = some ⟨.diff s0 s1 mx, bb⟩ → m.Uses r s1 → m.Uses r r'
  | inter0 {r' s0 s1 mx bb} : m.objs[r']? = some ⟨.inter s0 s1 mx, bb⟩ → m.Uses r s0 → m.Uses r r'
  | inter1 {r' s0 s1 mx bb} : m.objs[r']? = some ⟨.inter s0 s1 mx, bb⟩ → m.Uses r s1 → m.Uses r r'
  | union {r' sl mn bb s} : m.objs[r']? = some ⟨.union sl mn, bb⟩ → some s ∈ elems m.arrs sl → m.Uses r s → m.Uses r r'

end Sdf.Heap
