import Verif.Spec.Trees

/-! What a revision of a design is: the same building steps, carried out on parts that differ. -/

namespace Sdf

/-- The values of the second figure lie between those of the first less `g` and those of the first plus `s`: nowhere
does it grow by more than `g` or shrink by more than `s`. -/
def SDF2.Differs (g s : ℝ) (a b : SDF2) : Prop := ∀ p, a.eval p - g ≤ b.eval p ∧ b.eval p ≤ a.eval p + s
/-- The same for solids. -/
def SDF3.Differs (g s : ℝ) (a b : SDF3) : Prop := ∀ p, a.eval p - g ≤ b.eval p ∧ b.eval p ≤ a.eval p + s

/-- `Revised g s a b`: `b` comes from the steps that gave `a`, carried out on parts that are each up to `g` larger and `s`
smaller where material is added, and up to `s` larger and `g` smaller where it is taken away.  Offsets, shell thicknesses and
heights of extrusions may differ as well, as much as the allowance has room for. -/
inductive Revised : ℝ → ℝ → Shape → Shape → Prop
  | part2 (g s : ℝ) (a b : SDF2) : 0 ≤ g → 0 ≤ s → a.Differs g s b → Revised g s (.fig a) (.fig b)
  | part3 (g s : ℝ) (a b : SDF3) : 0 ≤ g → 0 ≤ s → a.Differs g s b → Revised g s (.sol a) (.sol b)
  | move2 (g s : ℝ) (a b : SDF2) (m : M33) : Revised g s (.fig a) (.fig b) → Revised g s (.fig (a.transform m)) (.fig (b.transform m))
  | move3 (g s : ℝ) (a b : SDF3) (m : M44) : Revised g s (.sol a) (.sol b) → Revised g s (.sol (a.transform m)) (.sol (b.transform m))
  | scale2 (g s : ℝ) (a b : SDF2) (k : ℝ) : 0 < k → Revised g s (.fig a) (.fig b) →
      Revised (k * g) (k * s) (.fig (a.scaleUniform k)) (.fig (b.scaleUniform k))
  | scale3 (g s : ℝ) (a b : SDF3) (k : ℝ) : 0 < k → Revised g s (.sol a) (.sol b) →
      Revised (k * g) (k * s) (.sol (a.scaleUniform k)) (.sol (b.scaleUniform k))
  | union2 (g s : ℝ) (a b : SDF2) (l : List (SDF2 × SDF2)) : Revised g s (.fig a) (.fig b) →
      (∀ x ∈ l, Revised g s (.fig x.1) (.fig x.2)) →
      (∀ x ∈ a :: l.map Prod.fst, Lip2 x.eval ∧ x.AtLeastBoxDistance ∧ x.NonEmpty) →
      (∀ x ∈ b :: l.map Prod.snd, Lip2 x.eval ∧ x.AtLeastBoxDistance ∧ x.NonEmpty) →
      Revised g s (.fig (SDF2.union a (l.map Prod.fst))) (.fig (SDF2.union b (l.map Prod.snd)))
  | union3 (g s : ℝ) (f : ℝ → ℝ → ℝ) (depth : ℝ) (a b : SDF3) (l : List (SDF3 × SDF3)) : Blend f depth →
      Revised g s (.sol a) (.sol b) → (∀ x ∈ l, Revised g s (.sol x.1) (.sol x.2)) →
      Revised g s (.sol (SDF3.unionWith f a (l.map Prod.fst))) (.sol (SDF3.unionWith f b (l.map Prod.snd)))
  | difference2 (g s : ℝ) (f : ℝ → ℝ → ℝ) (depth : ℝ) (a b c d : SDF2) : BlendMax f depth → Revised g s (.fig a) (.fig b) →
      Revised s g (.fig c) (.fig d) → Revised g s (.fig (SDF2.differenceWith f a c)) (.fig (SDF2.differenceWith f b d))
  | difference3 (g s : ℝ) (f : ℝ → ℝ → ℝ) (depth : ℝ) (a b c d : SDF3) : BlendMax f depth → Revised g s (.sol a) (.sol b) →
      Revised s g (.sol c) (.sol d) → Revised g s (.sol (SDF3.differenceWith f a c)) (.sol (SDF3.differenceWith f b d))
  | intersect2 (g s : ℝ) (f : ℝ → ℝ → ℝ) (depth : ℝ) (a b c d : SDF2) : BlendMax f depth → Revised g s (.fig a) (.fig b) →
      Revised g s (.fig c) (.fig d) → Revised g s (.fig (SDF2.intersectWith f a c)) (.fig (SDF2.intersectWith f b d))
  | intersect3 (g s : ℝ) (f : ℝ → ℝ → ℝ) (depth : ℝ) (a b c d : SDF3) : BlendMax f depth → Revised g s (.sol a) (.sol b) →
      Revised g s (.sol c) (.sol d) → Revised g s (.sol (SDF3.intersectWith f a c)) (.sol (SDF3.intersectWith f b d))
  | cut2 (g s : ℝ) (a b : SDF2) (c v : V2) : Revised g s (.fig a) (.fig b) → Revised g s (.fig (a.cut c v)) (.fig (b.cut c v))
  | cut3 (g s : ℝ) (a b : SDF3) (c n : V3) : Revised g s (.sol a) (.sol b) → Revised g s (.sol (a.cut c n)) (.sol (b.cut c n))
  | offset2 (g s g' s' d d' : ℝ) (a b : SDF2) : Revised g s (.fig a) (.fig b) → 0 ≤ g' → 0 ≤ s' → g + (d' - d) ≤ g' →
      s + (d - d') ≤ s' → Revised g' s' (.fig (a.offset d)) (.fig (b.offset d'))
  | offset3 (g s g' s' d d' : ℝ) (a b : SDF3) : Revised g s (.sol a) (.sol b) → 0 ≤ g' → 0 ≤ s' → g + (d' - d) ≤ g' →
      s + (d - d') ≤ s' → Revised g' s' (.sol (a.offset d)) (.sol (b.offset d'))
  | shell (g s e t t' : ℝ) (a b : SDF3) : Revised g s (.sol a) (.sol b) → 0 < t → 0 < t' → g + |t - t'| / 2 ≤ e →
      s + |t - t'| / 2 ≤ e → Revised e e (.sol (a.shell t)) (.sol (b.shell t'))
  | array2 (g s : ℝ) (f : ℝ → ℝ → ℝ) (depth : ℝ) (a b : SDF2) (n0 n1 : ℤ) (step : V2) : Blend f depth → Revised g s (.fig a) (.fig b) →
      Revised g s (.fig (a.arrayWith f n0 n1 step)) (.fig (b.arrayWith f n0 n1 step))
  | array3 (g s : ℝ) (f : ℝ → ℝ → ℝ) (depth : ℝ) (a b : SDF3) (n0 n1 n2 : ℤ) (step : V3) : Blend f depth → Revised g s (.sol a) (.sol b) →
      Revised g s (.sol (a.arrayWith f n0 n1 n2 step)) (.sol (b.arrayWith f n0 n1 n2 step))
  | rotate2 (g s : ℝ) (f : ℝ → ℝ → ℝ) (depth : ℝ) (a b : SDF2) (n : ℤ) (m : M33) : Blend f depth → Revised g s (.fig a) (.fig b) →
      Revised g s (.fig (a.rotateUnionWith f n m)) (.fig (b.rotateUnionWith f n m))
  | rotate3 (g s : ℝ) (f : ℝ → ℝ → ℝ) (depth : ℝ) (a b : SDF3) (n : ℤ) (m : M44) : Blend f depth → Revised g s (.sol a) (.sol b) →
      Revised g s (.sol (a.rotateUnionWith f n m)) (.sol (b.rotateUnionWith f n m))
  | copy2 (g s : ℝ) (a b a' b' : SDF2) (n : ℤ) : Revised g s (.fig a) (.fig b) → a.rotateCopy n = some a' → b.rotateCopy n = some b' →
      Revised g s (.fig a') (.fig b')
  | copy3 (g s : ℝ) (a b : SDF3) (n : ℤ) : Revised g s (.sol a) (.sol b) → Revised g s (.sol (a.rotateCopy n)) (.sol (b.rotateCopy n))
  | elongate2 (g s : ℝ) (a b : SDF2) (h : V2) : Revised g s (.fig a) (.fig b) → Revised g s (.fig (a.elongate h)) (.fig (b.elongate h))
  | elongate3 (g s : ℝ) (a b : SDF3) (h : V3) : Revised g s (.sol a) (.sol b) → Revised g s (.sol (a.elongate h)) (.sol (b.elongate h))
  | slice (g s : ℝ) (a b : SDF3) (c n : V3) : Revised g s (.sol a) (.sol b) → Revised g s (.fig (SDF2.slice a c n)) (.fig (SDF2.slice b c n))
  | extrude (g s : ℝ) (a b : SDF2) (h h' : ℝ) : Revised g s (.fig a) (.fig b) → (h' - h) / 2 ≤ g → (h - h') / 2 ≤ s →
      Revised g s (.sol (SDF3.extrude a h)) (.sol (SDF3.extrude b h'))
  | twist (g s : ℝ) (a b : SDF2) (h t : ℝ) : Revised g s (.fig a) (.fig b) →
      Revised g s (.sol (SDF3.twistExtrude a h t)) (.sol (SDF3.twistExtrude b h t))
  | taper (g s : ℝ) (a b : SDF2) (h : ℝ) (k : V2) : Revised g s (.fig a) (.fig b) →
      Revised g s (.sol (SDF3.scaleExtrude a h k)) (.sol (SDF3.scaleExtrude b h k))
  | taperTwist (g s : ℝ) (a b : SDF2) (h t : ℝ) (k : V2) : Revised g s (.fig a) (.fig b) →
      Revised g s (.sol (SDF3.scaleTwistExtrude a h t k)) (.sol (SDF3.scaleTwistExtrude b h t k))
  | extrudeRounded (g s : ℝ) (a b : SDF2) (h r : ℝ) : Revised g s (.fig a) (.fig b) →
      Revised g s (.sol (SDF3.extrudeRounded a h r)) (.sol (SDF3.extrudeRounded b h r))
  | loft (g s : ℝ) (a b c d : SDF2) (h r : ℝ) : Revised g s (.fig a) (.fig b) → Revised g s (.fig c) (.fig d) →
      Revised g s (.sol (SDF3.loft a c h r)) (.sol (SDF3.loft b d h r))
  | revolve (g s : ℝ) (a b : SDF2) (theta : ℝ) : Revised g s (.fig a) (.fig b) →
      Revised g s (.sol (SDF3.revolve a theta)) (.sol (SDF3.revolve b theta))

end Sdf
