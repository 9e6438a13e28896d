import Verif.Spec.HPG
import Verif.Spec.Sets

/-!
# When the values of the proximity grid are the smallest ones

Vocabulary for the conditions under which the grid is exact.
-/

namespace Jagua

variable {K : Type*} [Field K] [LinearOrder K] {n : ℕ}

/-- The square root is off by at most `ε`, in either direction. -/
structure HEnv.SqrtWithin (env : HEnv K) (ε : K) : Prop where
  eps : 0 ≤ ε
  nonneg : ∀ x, 0 ≤ x → 0 ≤ env.sqrt x
  low : ∀ x, 0 ≤ x → x ≤ (env.sqrt x + ε) ^ 2
  high : ∀ x a, 0 ≤ x → 0 ≤ a → x ≤ a ^ 2 → env.sqrt x ≤ a + ε

/-- The number of cells is rounded up to a natural number. -/
def HEnv.CeilExact (env : HEnv K) : Prop := ∀ (x : K) (m : ℕ), env.ceil x ≤ m ↔ x ≤ m

/-- Every point of the box lies in a cell of the grid. -/
def HPG.Covers (g : HPG K) (box : AARect K) : Prop :=
  ∀ p ∈ box.pts, ∃ x, some x ∈ g.grid.cells ∧ p ∈ x.bbox.pts

/-- The centre of every cell is closer to the box than to the corners of the cell. -/
def HPG.Hugs (g : HPG K) (box : AARect K) : Prop :=
  ∀ x, some x ∈ g.grid.cells → ∃ p ∈ box.pts, sqDist x.centroid p < sqDist x.centroid ⟨x.bbox.xMin, x.bbox.yMin⟩

/-- The box lies in the bounding box of the engine. In each direction, it starts where the
bounding box starts, or it is as long as four cell radii. -/
structure HPG.Roomy (g : HPG K) (bbox box : AARect K) : Prop where
  left : bbox.xMin ≤ box.xMin
  bottom : bbox.yMin ≤ box.yMin
  width : bbox.xMin = box.xMin ∨ 4 * g.cellRadius ≤ box.xMax - box.xMin
  height : bbox.yMin = box.yMin ∨ 4 * g.cellRadius ≤ box.yMax - box.yMin

/-- The poles lie in the box and in their bounding circle. -/
structure Surrogate.FitsIn (s : Surrogate K) (bbox : AARect K) : Prop where
  radius : ∀ pole ∈ s.poles, 0 ≤ pole.radius
  width : ∀ pole ∈ s.poles, bbox.xMin + pole.radius ≤ pole.center.x ∧ pole.center.x + pole.radius ≤ bbox.xMax
  height : ∀ pole ∈ s.poles, bbox.yMin + pole.radius ≤ pole.center.y ∧ pole.center.y + pole.radius ≤ bbox.yMax
  circle : 0 ≤ s.polesBoundingCircle.radius
  bounded : ∀ pole ∈ s.poles, pole.pts ⊆ s.polesBoundingCircle.pts

/-- Histories as in `HReach`, except that hazards are deregistered instantly only while the
grid can be read, i.e. no lazy deregistration is pending. -/
inductive HTidy (env : HEnv K) (o : SearchOracle K) (bbox : AARect K) (statics : List (Hazard K)) (nCells : ℕ)
    (φ : HazardEntity K → Hazard K) : HCDE K n ⊕ HSnap K → Prop
  | new {c : HCDE K n} : HCDE.new env o n bbox statics nCells = some c → HTidy env o bbox statics nCells φ (.inl c)
  | register {c c' : HCDE K n} {h : Hazard K} : HTidy env o bbox statics nCells φ (.inl c) → (CDEOp.register h).Pre c.cde →
      h.erase = φ h.entity → c.register env o h = some c' → HTidy env o bbox statics nCells φ (.inl c')
  | deregister {c c' : HCDE K n} {e : HazardEntity K} {ci : Bool} : HTidy env o bbox statics nCells φ (.inl c) →
      (CDEOp.deregister e ci).Pre c.cde → (ci = true → c.hazProxGrid ≠ some none) → c.deregister env o e ci = some c' →
      HTidy env o bbox statics nCells φ (.inl c')
  | flush {c c' : HCDE K n} : HTidy env o bbox statics nCells φ (.inl c) → c.flush env = some c' →
      HTidy env o bbox statics nCells φ (.inl c')
  | commit {c c' : HCDE K n} : HTidy env o bbox statics nCells φ (.inl c) → c.commit env = some c' →
      HTidy env o bbox statics nCells φ (.inl c')
  | snapshot {c c' : HCDE K n} {s : HSnap K} : HTidy env o bbox statics nCells φ (.inl c) →
      c.createSnapshot env = some (c', s) → HTidy env o bbox statics nCells φ (.inr s)
  | restore {c c' : HCDE K n} {s : HSnap K} : HTidy env o bbox statics nCells φ (.inl c) →
      HTidy env o bbox statics nCells φ (.inr s) → c.restore env o s = some c' → HTidy env o bbox statics nCells φ (.inl c')

end Jagua
