import Verif.Lemmas.Blend
import Verif.Lemmas.FitsForms
import Verif.Props.C23RotateCopy
import Verif.Props.C25Elongate
import Verif.Props.C26Extrude
import Verif.Props.C27Revolve
import Verif.Props.C36Screw

/-! Every graded shape has the property of its grade. -/

namespace Sdf

/-- What a grade says of a shape. -/
def Shape.Fits : Grade → ℝ → Shape → Prop
  | .inside, _, .fig s => s.Bounded
  | .inside, _, .sol s => s.Bounded
  | .axes, c, .fig s => Fits2 Axis2 c s
  | .axes, c, .sol s => Fits3 Axis3 c s
  | .all, c, .fig s => Fits2 Unit2 c s
  | .all, c, .sol s => Fits3 Unit3 c s

theorem fig_fits {g : Grade} {c c' : ℝ} {s t : SDF2} (h : Shape.Fits g c (.fig s)) (h0 : s.Bounded → t.Bounded)
    (h1 : ∀ A : V2 → Prop, Fits2 A c s → Fits2 A c' t) : Shape.Fits g c' (.fig t) := by
  cases g
  · exact h0 h
  · exact h1 _ h
  · exact h1 _ h

theorem sol_fits {g : Grade} {c c' : ℝ} {s t : SDF3} (h : Shape.Fits g c (.sol s)) (h0 : s.Bounded → t.Bounded)
    (h1 : ∀ A : V3 → Prop, Fits3 A c s → Fits3 A c' t) : Shape.Fits g c' (.sol t) := by
  cases g
  · exact h0 h
  · exact h1 _ h
  · exact h1 _ h

theorem boxed_fits {g : Grade} {c : ℝ} {x : Shape} (h : Boxed g c x) : x.Fits g c := by
  induction h with
  | all_axes c x _ ih =>
    cases x with
    | fig s => exact Fits2.anti (fun u hu => hu.unit) ih
    | sol s => exact Fits3.anti (fun u hu => hu.unit) ih
  | axes_inside c c' x hc _ ih =>
    cases x with
    | fig s => exact Fits2.bounded hc ih
    | sol s => exact Fits3.bounded hc ih
  | circle c r s hs => exact circle_fits hs
  | box2 c size round h0 hx hy => exact box2_fits h0 hx hy
  | line c l round hl h0 => exact line_fits hl h0
  | polygon c v s h hs hc => exact polygon_fits h hs hc
  | affine2 c s m _ ha hd ih => exact SDF2.Bounded.transform ih ha hd
  | rigid2 c s m _ hm ih => exact Fits2.transform ih hm.1 hm.2.1 fun u hu => hm.2.2.pull_unit hu
  | translate2 g c s v _ ih =>
    exact fig_fits ih (fun h => h.transform (M33.translate_affine v).1 (M33.translate_affine v).2)
      fun A h => h.transform (M33.translate_affine v).1 (M33.translate_affine v).2
        fun u hu => by rwa [M33.translate_pull]
  | center2 g c s _ ih =>
    exact fig_fits ih (fun h => h.transform (M33.translate_affine _).1 (M33.translate_affine _).2)
      fun A h => h.transform (M33.translate_affine _).1 (M33.translate_affine _).2
        fun u hu => by rwa [M33.translate_pull]
  | scale2 g c s k _ hk ih => exact fig_fits ih (fun h => h.scale hk) fun A h => h.scale hk
  | union2 g c s0 l _ ih =>
    cases g
    · exact SDF2.Bounded.union ih
    · exact Fits2.union ih
    · exact Fits2.union ih
  | difference2 g c s0 s1 _ ih =>
    exact fig_fits ih (fun h => h.mono rfl fun p => le_max_left _ _)
      fun A h => h.mono (Box2.sub_refl _) fun p => le_max_left _ _
  | intersect2 g c s0 s1 _ ih =>
    exact fig_fits ih (fun h => h.mono rfl fun p => le_max_left _ _)
      fun A h => h.mono (Box2.sub_refl _) fun p => le_max_left _ _
  | blendDifference2 f e g c s0 s1 hf _ ih =>
    exact fig_fits ih (fun h => h.mono rfl fun p => (le_max_left _ _).trans (hf.bounds _ _).1)
      fun A h => h.mono (Box2.sub_refl _) fun p => (le_max_left _ _).trans (hf.bounds _ _).1
  | blendIntersect2 f e g c s0 s1 hf _ ih =>
    exact fig_fits ih (fun h => h.mono rfl fun p => (le_max_left _ _).trans (hf.bounds _ _).1)
      fun A h => h.mono (Box2.sub_refl _) fun p => (le_max_left _ _).trans (hf.bounds _ _).1
  | cut2 g c s a v _ _ ih =>
    exact fig_fits ih (fun h => h.mono rfl fun p => le_max_right _ _)
      fun A h => h.mono (Box2.sub_refl _) fun p => le_max_right _ _
  | grow2 c s d _ hd ih => exact Fits2.grow (fun _ h => h) ih hd
  | offset2 c s d _ hx hy ih => exact Fits2.offset ih hx hy
  | array2 g c s n0 n1 step _ hc ih => exact fig_fits ih (fun h => h.array _ _ _) fun A h => h.array hc _ _ _
  | rotateUnion2 c s n m _ hc hm ih => exact Fits2.rotateUnion ih hc n hm
  | affineUnion2 c s n m _ ha hd ih => exact SDF2.Bounded.rotateUnion ih n ha hd
  | rotateCopy2 g c s t n _ hg ht ih =>
    cases g
    · exact C23_bounds2 s t n ht ih
    · exact absurd rfl hg
    · exact Fits2.rotateCopy ih ht
  | elongate2 g c s h _ ih => exact fig_fits ih (fun k => k.elongate h) fun A k => k.elongate h
  | slice g c s a n _ hg hn ih =>
    cases g
    · exact SDF3.Bounded.slice ih a hn
    · exact absurd rfl hg
    · exact Fits3.slice ih a hn
  | sphere c r s hs => exact sphere_fits hs
  | box3 c size round s hs hx hy hz => exact box3_fits hs hx hy hz
  | cylinder c height radius round s hs => exact cylinder_fits hs
  | cone c height r0 r1 round s hs h0 h1 => exact cone_fits hs h0 h1
  | affine3 c s m _ ha hd ih => exact SDF3.Bounded.transform ih ha hd
  | rigid3 c s m _ hm ih => exact Fits3.transform ih hm.1 hm.2.1 fun u hu => hm.2.2.pull_unit hu
  | translate3 g c s v _ ih =>
    exact sol_fits ih (fun h => h.transform (M44.translate_affine v).1 (M44.translate_affine v).2)
      fun A h => h.transform (M44.translate_affine v).1 (M44.translate_affine v).2
        fun u hu => by rwa [M44.translate_pull]
  | scale3 g c s k _ hk ih => exact sol_fits ih (fun h => h.scale hk) fun A h => h.scale hk
  | union3 g c s0 l _ ih =>
    cases g
    · exact SDF3.Bounded.union ih
    · exact Fits3.union ih
    · exact Fits3.union ih
  | difference3 g c s0 s1 _ ih =>
    exact sol_fits ih (fun h => h.mono rfl fun p => le_max_left _ _)
      fun A h => h.mono (Box3.sub_refl _) fun p => le_max_left _ _
  | intersect3 g c s0 s1 _ ih =>
    exact sol_fits ih (fun h => h.mono rfl fun p => le_max_left _ _)
      fun A h => h.mono (Box3.sub_refl _) fun p => le_max_left _ _
  | blendDifference3 f e g c s0 s1 hf _ ih =>
    exact sol_fits ih (fun h => h.mono rfl fun p => (le_max_left _ _).trans (hf.bounds _ _).1)
      fun A h => h.mono (Box3.sub_refl _) fun p => (le_max_left _ _).trans (hf.bounds _ _).1
  | blendIntersect3 f e g c s0 s1 hf _ ih =>
    exact sol_fits ih (fun h => h.mono rfl fun p => (le_max_left _ _).trans (hf.bounds _ _).1)
      fun A h => h.mono (Box3.sub_refl _) fun p => (le_max_left _ _).trans (hf.bounds _ _).1
  | cut3 g c s a n _ _ ih =>
    exact sol_fits ih (fun h => h.mono rfl fun p => le_max_right _ _)
      fun A h => h.mono (Box3.sub_refl _) fun p => le_max_right _ _
  | grow3 c s d _ hd ih => exact Fits3.grow (fun _ h => h) ih hd
  | offset3 c s d _ hx hy hz ih => exact Fits3.offset ih hx hy hz
  | shell g c s t _ hg ht ih =>
    cases g
    · exact absurd rfl hg
    · exact Fits3.shell (fun _ h => h.unit) ih ht
    · exact Fits3.shell (fun _ h => h) ih ht
  | array3 g c s n0 n1 n2 step _ hc ih => exact sol_fits ih (fun h => h.array _ _ _ _) fun A h => h.array hc _ _ _ _
  | rotateUnion3 c s n m _ hc hm ih => exact Fits3.rotateUnion ih hc n hm
  | affineUnion3 c s n m _ ha hd ih => exact SDF3.Bounded.rotateUnion ih n ha hd
  | rotateCopy3 g c s n _ hc hg ih =>
    cases g
    · exact C23_bounds3 s n ih
    · exact absurd rfl hg
    · exact Fits3.rotateCopy ih hc n
  | elongate3 g c s h _ ih => exact sol_fits ih (fun k => C25_elongate3_bounds s k h) fun A k => k.elongate h
  | extrude g c s height _ hg hh ih =>
    cases g
    · exact (C26_bounds s ih height ⟨1, 1⟩ one_pos one_pos).1
    · exact Fits2.extrude ih hh
    · exact absurd rfl hg
  | scaleExtrude c s height scale _ _ hx hy ih => exact (C26_bounds s ih height scale hx hy).2
  | twistExtrude c s height twist _ _ hx hy ih => exact C26_twist_bounds_partial s ih hx hy height twist
  | extrudeRounded g c s height round _ hg hr hh ih =>
    cases g
    · exact absurd rfl hg
    · exact Fits2.extrudeRounded over_axis ih hr hh
    · exact Fits2.extrudeRounded over_unit ih hr hh
  | loft g c s0 s1 height round _ _ hg hr hh ih0 ih1 =>
    cases g
    · exact absurd rfl hg
    · exact Fits2.loft over_axis ih0 ih1 hr hh
    · exact Fits2.loft over_unit ih0 ih1 hr hh
  | loftSharp c s0 s1 height _ _ ih0 ih1 => exact loft_bounded ih0 ih1 height
  | revolve c s theta _ ht ih => exact C27_bounds s ih ht
  | revolveFull g c s theta _ ht ih =>
    cases g
    · exact revolve_bounded ih ht
    · exact Fits2.revolve over_axis ih ht
    · exact Fits2.revolve over_unit ih ht
  | screw c length t f s _ ht h0 h1 hs ih => exact (C36_bounds_partial length t f s hs ht h0 h1).1 ih

end Sdf
