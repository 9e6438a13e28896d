import Verif.Model.Svg
import Verif.Spec.Json
import Verif.Spec.Engine
import Verif.Spec.HazardRegion

/-!
# Specification of pictures

What an SVG document shows, as a program that displays it would show it: a `use` element shows the definition it refers to, turned and
moved as its attribute `transform` says.
-/

namespace Jagua

variable {K : Type*} [Field K] [LinearOrder K]

/-- `translate(tx ty), rotate(degrees)`: first turned about the origin, then moved. -/
def SvgTransform.apply (tr : Trig K) (toRadians : K → K) (t : SvgTransform K) (v : Point K) : Point K :=
  transPt t.tx t.ty (rotPt (tr.cos (toRadians t.degrees)) (tr.sin (toRadians t.degrees)) v)

/-- The part of the plane that a `use` element covers. -/
def Svg.shown (tr : Trig K) (toRadians : K → K) (svg : Svg K) (u : SvgUse K) : Set (Point K) :=
  match svg.items.find? fun d => d.id = u.href with
  | some d => u.transform.apply tr toRadians '' region d.path.points
  | none => ∅

/-- `Q` covers `P`, and is `P` if it was not changed. -/
def DrawnOver (exact : Prop) (P Q : List (Point K)) : Prop := region P ⊆ region Q ∧ (exact → region Q = region P)

/-- `Q` is covered by `P`, and is `P` if it was not changed. -/
def DrawnUnder (exact : Prop) (P Q : List (Point K)) : Prop := region Q ⊆ region P ∧ (exact → region Q = region P)

/-- The picture shows the placed items: it defines every item once, by an outline that is that of the input or covers it, and uses
these definitions in the order of the output, each placed as in the output. -/
structure JsonInstance.ShownIn (tr : Trig K) (toRadians : K → K) (exact : Prop) (ji : JsonInstance K) (placed : List (JsonPlacedItem K))
    (svg : Svg K) : Prop where
  ids : svg.items.map (·.id) = List.range ji.items.length
  shapes : ∀ (i : ℕ) j, ji.items[i]? = some j → ∃ d, svg.items[i]? = some d ∧ DrawnOver exact j.shape.corners d.path.points
  uses : List.Forall₂ (fun (p : JsonPlacedItem K) (u : SvgUse K) => u.href = p.index ∧ ∀ v, u.transform.apply tr toRadians v = p.place tr v)
    placed svg.uses

/-- The picture shows the bin, in the coordinates of the input: its outline is that of the input or inside it, the holes and zones are
those of the input or cover them. -/
structure JsonBin.ShownIn (exact : Prop) (b : JsonBin K) (svg : Svg K) : Prop where
  outer : DrawnUnder exact b.shape.corners svg.outer.points
  holes : List.Forall₂ (fun h (p : SvgPath K) => DrawnOver exact h p.points) b.shape.holes svg.holes
  zones : ∀ z ∈ b.zones, ∃ s ∈ svg.zones, s.quality = z.quality ∧ DrawnOver exact z.shape.corners s.path.points
  noMore : ∀ s ∈ svg.zones, ∃ z ∈ b.zones, z.quality = s.quality ∧ DrawnOver exact z.shape.corners s.path.points

/-- The drawn bin is in view. -/
def Svg.InView (svg : Svg K) : Prop := ∀ p ∈ region svg.outer.points,
  svg.viewBox.1 ≤ p.x ∧ p.x ≤ svg.viewBox.1 + svg.viewBox.2.2.1 ∧ svg.viewBox.2.1 ≤ p.y ∧ p.y ≤ svg.viewBox.2.1 + svg.viewBox.2.2.2

/-- What is seen is a packing: the shown items do not touch each other, the drawn holes or drawn zones of too low a quality, and lie inside the
drawn outline of the bin. -/
structure Svg.Packed (tr : Trig K) (toRadians : K → K) (ji : JsonInstance K) (svg : Svg K) : Prop where
  apart : svg.uses.Pairwise fun a c => Disjoint (svg.shown tr toRadians a) (svg.shown tr toRadians c)
  inside : ∀ u ∈ svg.uses, svg.shown tr toRadians u ⊆ interior svg.outer.points
  holes : ∀ u ∈ svg.uses, ∀ h ∈ svg.holes, Disjoint (svg.shown tr toRadians u) (region h.points)
  zones : ∀ u ∈ svg.uses, ∀ j, ji.items[u.href]? = some j → ∀ z ∈ svg.zones, (∀ q, j.baseQuality = some q → z.quality < q) →
    Disjoint (svg.shown tr toRadians u) (region z.path.points)

/-- Converting an angle to degrees and back gives the same angle, up to whole turns. -/
def SvgEnv.DegreesBack (env : SvgEnv K) : Prop := ∀ a, SameTurn env.tr (env.toRadians (env.toDegrees a)) a

/-- What the options ask for can be drawn: the theme has a color for every quality; if surrogates are to be drawn, every shape gets one
with poles; if the grid is to be drawn, there is one, without changes that are not committed, and its cells know the zones of all qualities. -/
structure SvgOptions.Drawable (env : SvgEnv K) (opts : SvgOptions) (hpg : Option (HPG K)) : Prop where
  colors : opts.theme.qzFill.length = nQualities
  surrogates : opts.surrogate = true → ∀ s, ∃ x, (env.surr s).surrogate = some x ∧ x.poles ≠ []
  grid : opts.hazProxGrid = true → ∃ g, hpg = some g ∧ g.isDirty = false ∧ ∀ c, some c ∈ g.grid.cells → c.qz.length = nQualities

/-- The picture of the quadtree of an engine: the drawn rectangles cover its box and nothing else; green ones are free of hazards, red ones
are inside a hazard, and the others contain a point of the outline of a hazard. -/
structure SvgTree.Shows {n : ℕ} (d : SvgTree K) (c : CDE K n) : Prop where
  covers : ∀ p ∈ c.bbox.pts, ∃ P ∈ d.entire ++ d.part ++ d.free, p ∈ region P
  inside : ∀ P ∈ d.entire ++ d.part ++ d.free, region P ⊆ c.bbox.pts
  free : ∀ P ∈ d.free, ∀ h ∈ c.allHazards, Disjoint (region P) (openHaz h.entity.position h.shape.val.points)
  entire : ∀ P ∈ d.entire, ∃ h ∈ c.allHazards, region P ⊆ openHaz h.entity.position h.shape.val.points
  part : 0 < n → ∀ P ∈ d.part, ∃ h ∈ c.allHazards, ∃ w ∈ region P, w ∈ bdry h.shape.val.points

end Jagua
