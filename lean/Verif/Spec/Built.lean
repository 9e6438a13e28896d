import Verif.Model.Transformation
import Verif.Spec.Motion

/-!
# Specification: what a sequence of transformation calls should do

`Built tr t g` says that the transformation `t` results from some sequence of
calls of the public functions, and that `g` is the map of the plane a reader of
the calls expects. The maps are composed as functions, not as matrices.
-/

namespace Jagua

variable {K : Type*} [Field K] [LinearOrder K]

inductive Built (tr : Trig K) : Transf K → (Point K → Point K) → Prop
  | empty : Built tr .empty id
  | fromTranslation (tx ty) : Built tr (.fromTranslation tx ty) (transPt tx ty)
  | fromRotation (a) : Built tr (.fromRotation tr a) (rotPt (tr.cos a) (tr.sin a))
  | fromDt (d : DTransf K) :
      Built tr (.fromDt tr d) fun p => transPt d.tx d.ty (rotPt (tr.cos d.rotation) (tr.sin d.rotation) p)
  | rotate {t g} (a) : Built tr t g → Built tr (t.rotate tr a) fun p => rotPt (tr.cos a) (tr.sin a) (g p)
  | translate {t g} (tx ty) : Built tr t g → Built tr (t.translate tx ty) fun p => transPt tx ty (g p)
  | rotateTranslate {t g} (a tx ty) : Built tr t g →
      Built tr (t.rotateTranslate tr a tx ty) fun p => transPt tx ty (rotPt (tr.cos a) (tr.sin a) (g p))
  | translateRotate {t g} (tx ty a) : Built tr t g →
      Built tr (t.translateRotate tr tx ty a) fun p => rotPt (tr.cos a) (tr.sin a) (transPt tx ty (g p))
  | transform {t g u h} : Built tr t g → Built tr u h → Built tr (t.transform u) fun p => h (g p)
  | transformFromDecomposed {t g} (d : DTransf K) : Built tr t g →
      Built tr (t.transformFromDecomposed tr d)
        fun p => transPt d.tx d.ty (rotPt (tr.cos d.rotation) (tr.sin d.rotation) (g p))
  | inverse {t g g'} : Built tr t g → (∀ p, g (g' p) = p) → Built tr t.inverse g'

end Jagua
