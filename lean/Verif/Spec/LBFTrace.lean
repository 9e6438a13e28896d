import Verif.Model.LBF
import Verif.Spec.Sets
import Verif.Spec.HazardRegion

/-!
# Specification of what a search of a layout draws and takes
-/

namespace Jagua

section Any
variable {K : Type*} [Arith K] [LinearOrder K] {n : ℕ} {R : Type*}

/-- The transformations that the uniform sampling draws on the way from one state to another, in order. -/
inductive UniTrace (lenv : LEnv K n R) (env : Env K) (layout : Layout K n) (item : Item K) (surr : Surrogate K) (irr : List (HazardEntity K)) :
    UniState K × R → List (Transf K) → UniState K × R → Prop
  | nil (s) : UniTrace lenv env layout item surr irr s [] s
  | cons {s s' s'' t r ts} : s.1.sampler.sample lenv env.tr s.2 = some (t, r) → uniStep lenv env layout item surr irr s.1 s.2 = some s' →
    UniTrace lenv env layout item surr irr s' ts s'' → UniTrace lenv env layout item surr irr s (t :: ts) s''

/-- The transformations that the local search draws on the way from one state to another, in order; `budget` is the number of
samples in all. -/
inductive LsTrace (lenv : LEnv K n R) (env : Env K) (layout : Layout K n) (item : Item K) (surr : Surrogate K) (irr : List (HazardEntity K))
    (budget : ℕ) : LsState K × R → List (DTransf K) → LsState K × R → Prop
  | nil (s) : LsTrace lenv env layout item surr irr budget s [] s
  | cons {s s' s'' ds} : lsStep lenv env layout item surr irr (((budget - (ds.length + 1) : ℕ) : K) / budget) s.1 s.2 = some s' →
    LsTrace lenv env layout item surr irr budget s' ds s'' →
    LsTrace lenv env layout item surr irr budget s ((s.1.sampler.sample lenv s.2).1 :: ds) s''

/-- What a search of a layout has drawn by its end: `uni` in the uniform sampling and `loc` in the local search that follows
if the uniform sampling found a placement. -/
structure Drew (lenv : LEnv K n R) (env : Env K) (cfg : LbfConfig) (layout : Layout K n) (item : Item K) (r : R)
    (uni : List (Transf K)) (loc : List (DTransf K)) : Prop where
  run : ∃ surr sampler u, item.shape.surrogate = some surr ∧ HPGSampler.new lenv item layout = some (some sampler) ∧
    UniTrace lenv env layout item surr (lbfIrrelevant item layout) (⟨sampler, { item.shape with surrogate := none }, none⟩, r) uni u ∧
    uni.length = cfg.nSamples - cfg.lsBudget ∧
    ((u.1.best = none ∧ loc = []) ∨ ∃ best l, u.1.best = some best ∧ loc.length = cfg.lsBudget ∧
      LsTrace lenv env layout item surr (lbfIrrelevant item layout) cfg.lsBudget
        (⟨LSSampler.fromDefaults lenv item best.1 layout.bin.outer.val.bbox, u.1.buffer, best⟩, u.2) loc l)

/-- The engine finds no collision, neither for the surrogate nor for the shape itself. -/
def Item.Goes (f : Fpa K) (layout : Layout K n) (item : Item K) (t : Transf K) : Prop :=
  (∃ surr, item.shape.surrogate = some surr ∧ layout.cde.surrogateHits surr t (lbfIrrelevant item layout) = some false) ∧
  layout.cde.polyCollides f (item.shape.transform t) (lbfIrrelevant item layout) = some false

end Any

section Exact
variable {K : Type*} [Field K] [LinearOrder K] {n : ℕ}

/-- `c` is ten times the coordinate of the rightmost corner plus the coordinate of the topmost corner. -/
def LeftBottom (pts : List (Point K)) (c : K) : Prop :=
  ∃ v ∈ pts, ∃ w ∈ pts, (∀ u ∈ pts, u.x ≤ v.x ∧ u.y ≤ w.y) ∧ c = 10 * v.x + w.y

/-- The placed item lies in the box of the engine and has no point in common with a hazard that matters to it. -/
def Item.Free (layout : Layout K n) (item : Item K) (t : Transf K) : Prop :=
  region (item.shape.transform t).points ⊆ layout.cde.bbox.pts ∧
  ∀ h ∈ layout.cde.allHazards, h.entity ∉ lbfIrrelevant item layout →
    Disjoint (region (item.shape.transform t).points) (closedHaz h.entity.position h.shape.val.points)

end Exact

end Jagua
