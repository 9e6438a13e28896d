import Verif.Model.Polygon
import Verif.Model.Hazard
import Mathlib.Analysis.SpecialFunctions.Trigonometric.Basic
import Mathlib.Analysis.SpecialFunctions.Complex.Arg

/-!
# Transformations

Model of `jagua-rs/src/geometry/transformation.rs`, `d_transformation.rs` and of
the implementations of `Transformable` and `TransformableFrom`.
-/

namespace Jagua

variable {K : Type*} [Arith K] [LinearOrder K]

/-- The functions `sin`, `cos` and `atan2` of the float type, as a parameter. -/
structure Trig (K : Type*) where
  sin : K → K
  cos : K → K
  /-- `y.atan2(x)` is `atan2 y x` -/
  atan2 : K → K → K

/-- The mathematical functions. -/
noncomputable def Trig.real : Trig ℝ := ⟨Real.sin, Real.cos, fun y x => Complex.arg ⟨x, y⟩⟩

/-- `transformation.rs:13-15` `Transformation`: a 3 × 3 matrix. -/
@[ext] structure Transf (K : Type*) where
  m00 : K
  m01 : K
  m02 : K
  m10 : K
  m11 : K
  m12 : K
  m20 : K
  m21 : K
  m22 : K
  deriving DecidableEq, Repr

namespace Transf

/-- `transformation.rs:104` `EMPTY_MATRIX` and `empty` (18-22). -/
def empty : Transf K := ⟨1, 0, 0, 0, 1, 0, 0, 0, 1⟩

/-- `transformation.rs:106-112` `rot_m`. -/
def rotM (tr : Trig K) (angle : K) : Transf K :=
  ⟨tr.cos angle, -tr.sin angle, 0, tr.sin angle, tr.cos angle, 0, 0, 0, 1⟩

/-- `transformation.rs:114-119` `transl_m`. -/
def translM (tx ty : K) : Transf K := ⟨1, 0, tx, 0, 1, ty, 0, 0, 1⟩

/-- `transformation.rs:122-130` `rot_transl_m`. -/
def rotTranslM (tr : Trig K) (angle tx ty : K) : Transf K :=
  ⟨tr.cos angle, -tr.sin angle, tx, tr.sin angle, tr.cos angle, ty, 0, 0, 1⟩

/-- `transformation.rs:133-145` `transl_rot_m`. -/
def translRotM (tr : Trig K) (tx ty angle : K) : Transf K :=
  ⟨tr.cos angle, -tr.sin angle, tx * tr.cos angle - ty * tr.sin angle,
   tr.sin angle, tr.cos angle, tx * tr.sin angle + ty * tr.cos angle, 0, 0, 1⟩

/-- `transformation.rs:148-169` `dot_prod`. -/
def dotProd (l r : Transf K) : Transf K :=
  ⟨l.m00 * r.m00 + l.m01 * r.m10 + l.m02 * r.m20,
   l.m00 * r.m01 + l.m01 * r.m11 + l.m02 * r.m21,
   l.m00 * r.m02 + l.m01 * r.m12 + l.m02 * r.m22,
   l.m10 * r.m00 + l.m11 * r.m10 + l.m12 * r.m20,
   l.m10 * r.m01 + l.m11 * r.m11 + l.m12 * r.m21,
   l.m10 * r.m02 + l.m11 * r.m12 + l.m12 * r.m22,
   l.m20 * r.m00 + l.m21 * r.m10 + l.m22 * r.m20,
   l.m20 * r.m01 + l.m21 * r.m11 + l.m22 * r.m21,
   l.m20 * r.m02 + l.m21 * r.m12 + l.m22 * r.m22⟩

/-- `transformation.rs:176-181`: the determinant as computed in `inverse`. -/
def det (m : Transf K) : K :=
  m.m00 * m.m11 * m.m22 + m.m01 * m.m12 * m.m20 + m.m02 * m.m10 * m.m21
    - m.m02 * m.m11 * m.m20 - m.m01 * m.m10 * m.m22 - m.m00 * m.m12 * m.m21

/-- `transformation.rs:172-200` `inverse` (division by zero, which gives a
non-number in the code, does not happen for the transformations of the code). -/
def inverse (m : Transf K) : Transf K :=
  ⟨(m.m11 * m.m22 - m.m12 * m.m21) / m.det,
   (m.m02 * m.m21 - m.m01 * m.m22) / m.det,
   (m.m01 * m.m12 - m.m02 * m.m11) / m.det,
   (m.m12 * m.m20 - m.m10 * m.m22) / m.det,
   (m.m00 * m.m22 - m.m02 * m.m20) / m.det,
   (m.m02 * m.m10 - m.m00 * m.m12) / m.det,
   (m.m10 * m.m21 - m.m11 * m.m20) / m.det,
   (m.m01 * m.m20 - m.m00 * m.m21) / m.det,
   (m.m00 * m.m11 - m.m01 * m.m10) / m.det⟩

/-- `transformation.rs:24-28` `from_translation`. -/
def fromTranslation (tx ty : K) : Transf K := translM tx ty

/-- `transformation.rs:30-34` `from_rotation`. -/
def fromRotation (tr : Trig K) (angle : K) : Transf K := rotM tr angle

/-- `transformation.rs:36-40` `from_dt`, also `DTransformation::compose`. -/
def fromDt (tr : Trig K) (dt : DTransf K) : Transf K := rotTranslM tr dt.rotation dt.tx dt.ty

/-- `transformation.rs:42-45` `rotate`. -/
def rotate (tr : Trig K) (self : Transf K) (angle : K) : Transf K := dotProd (rotM tr angle) self

/-- `transformation.rs:47-50` `translate`. -/
def translate (self : Transf K) (tx ty : K) : Transf K := dotProd (translM tx ty) self

/-- `transformation.rs:52-55` `rotate_translate`. -/
def rotateTranslate (tr : Trig K) (self : Transf K) (angle tx ty : K) : Transf K :=
  dotProd (rotTranslM tr angle tx ty) self

/-- `transformation.rs:57-60` `translate_rotate`. -/
def translateRotate (tr : Trig K) (self : Transf K) (tx ty angle : K) : Transf K :=
  dotProd (translRotM tr tx ty angle) self

/-- `transformation.rs:62-65` `transform`. -/
def transform (self other : Transf K) : Transf K := dotProd other self

/-- `transformation.rs:67-69` `transform_from_decomposed`. -/
def transformFromDecomposed (tr : Trig K) (self : Transf K) (dt : DTransf K) : Transf K :=
  self.rotateTranslate tr dt.rotation dt.tx dt.ty

/-- `transformation.rs:84-89` `decompose`. -/
def decompose (tr : Trig K) (m : Transf K) : DTransf K := ⟨tr.atan2 m.m10 m.m00, m.m02, m.m12⟩

end Transf

/-- `primitives/point.rs:27-33` `TRANSFORM_FORMULA`. -/
def Point.transform (p : Point K) (t : Transf K) : Point K :=
  ⟨t.m00 * p.x + t.m01 * p.y + t.m02 * 1, t.m10 * p.x + t.m11 * p.y + t.m12 * 1⟩

/-- `primitives/edge.rs:111-119`. -/
def Edge.transform (e : Edge K) (t : Transf K) : Edge K := ⟨e.start.transform t, e.stop.transform t⟩

/-- `primitives/circle.rs:58-66`: only the centre moves. -/
def Circle.transform (c : Circle K) (t : Transf K) : Circle K := ⟨c.center.transform t, c.radius⟩

/-- `sp_surrogate.rs:70-95`. -/
def Surrogate.transform (s : Surrogate K) (t : Transf K) : Surrogate K :=
  { s with
    poles := s.poles.map (·.transform t)
    polesBoundingCircle := s.polesBoundingCircle.transform t
    piers := s.piers.map (·.transform t) }

/-- `simple_polygon.rs:217-246`. -/
def SPoly.transform (s : SPoly K) (t : Transf K) : SPoly K :=
  let pts := s.points.map (·.transform t)
  { s with
    points := pts
    bbox := boundingBox pts
    poi := s.poi.transform t
    surrogate := s.surrogate.map (·.transform t) }

/-- Overwrite the elements of a buffer with transformed reference elements, as
the `zip` loops of `transform_from` do: elements without counterpart stay. -/
def overwrite {α : Type*} (g : α → α → α) : List α → List α → List α
  | [], _ => []
  | b :: bs, [] => b :: bs
  | b :: bs, r :: rs => g b r :: overwrite g bs rs

/-- `primitives/point.rs:19-25` `transform_from`. -/
def Point.transformFrom (_self ref : Point K) (t : Transf K) : Point K := ref.transform t

/-- `primitives/edge.rs:121-129` `transform_from`. -/
def Edge.transformFrom (self ref : Edge K) (t : Transf K) : Edge K :=
  ⟨self.start.transformFrom ref.start t, self.stop.transformFrom ref.stop t⟩

/-- `primitives/circle.rs:67-73` `transform_from`: the radius of the buffer is kept. -/
def Circle.transformFrom (self ref : Circle K) (t : Transf K) : Circle K :=
  ⟨self.center.transformFrom ref.center t, self.radius⟩

/-- `sp_surrogate.rs:98-125` `transform_from`. (The length assertions are debug
assertions.) -/
def Surrogate.transformFrom (self ref : Surrogate K) (t : Transf K) : Surrogate K :=
  { self with
    poles := overwrite (·.transformFrom · t) self.poles ref.poles
    polesBoundingCircle := self.polesBoundingCircle.transformFrom ref.polesBoundingCircle t
    piers := overwrite (·.transformFrom · t) self.piers ref.piers }

/-- `simple_polygon.rs:248-275` `transform_from`; `none` is the panic of
`reference.surrogate()` when the reference has none. -/
def SPoly.transformFrom (self ref : SPoly K) (t : Transf K) : Option (SPoly K) :=
  let pts := overwrite (·.transformFrom · t) self.points ref.points
  let poi := self.poi.transformFrom ref.poi t
  match self.surrogate, ref.surrogate with
  | none, _ => some { self with points := pts, bbox := boundingBox pts, poi := poi }
  | some ss, some rs => some { self with
      points := pts, bbox := boundingBox pts, poi := poi, surrogate := some (ss.transformFrom rs t) }
  | some _, none => none

/-- `simple_polygon.rs:168-175` `center_around_centroid`. -/
def SPoly.centerAroundCentroid (s : SPoly K) : SPoly K × Transf K :=
  let c := s.centroid
  let t := Transf.fromTranslation (-c.x) (-c.y)
  (s.transform t, t)

/-- `io/parser.rs:565-568` `centering_transformation`. -/
def SPoly.centeringTransformation (s : SPoly K) : DTransf K := ⟨0, -s.centroid.x, -s.centroid.y⟩

/-- `io/parser.rs:475-488` `internal_to_absolute_transform`. -/
def internalToAbsolute (tr : Trig K) (placed : DTransf K) (itemPre binPre : Transf K) : Transf K :=
  ((Transf.empty.transform itemPre).transformFromDecomposed tr placed).transform binPre.inverse

/-- `io/parser.rs:490-503` `absolute_to_internal_transform`. -/
def absoluteToInternal (tr : Trig K) (abs : DTransf K) (itemPre binPre : Transf K) : Transf K :=
  ((Transf.empty.transform itemPre.inverse).transformFromDecomposed tr abs).transform binPre

end Jagua
