import Verif.Model.LBFGrid
import Verif.Spec.HPG

/-!
# Specification vocabulary for runs of the optimizer with proximity grids
-/

namespace Jagua

variable {K : Type*} [Arith K] [LinearOrder K] {n : ℕ} {R : Type*}

/-- The grid of a layout computed from scratch: that of its empty bin, in which everything that lies in the layout is registered. -/
def Layout.freshGrid (henv : HEnv K) (nCells : ℕ) (l : Layout K n) : Option (Option (HPG K)) :=
  if nCells = 0 then some none
  else ((HPG.new henv l.cde.bbox l.cde.statics nCells).bind fun g => l.cde.dynamics.foldlM (HPG.register henv) g).map some

/-- The search that computes the grid of a layout from scratch whenever it looks at it. -/
def LEnv.fresh (lenv : LEnv K n R) (henv : HEnv K) (nCells : ℕ) : LEnv K n R :=
  { lenv with grid := fun l => (l.freshGrid henv nCells).bind readCells }

/-- An item that can be registered in a grid wherever it is placed: its shape has a surrogate with at least one pole, and poles of nonnegative
radius. -/
structure Item.GridReady (item : Item K) : Prop where
  surrogate : ∃ s, item.shape.surrogate = some s ∧ s.poles ≠ [] ∧ ∀ pole ∈ s.poles, 0 ≤ pole.radius
  points : item.shape.points ≠ []

/-- The states a strip packing problem goes through while the optimizer places items (`lbf_optimizer.rs:62-116`): the first strip; the state after the placement a
search found was made; the state after the strip was made longer because a search failed. -/
inductive GridSP.Run (lenv : LEnv K n R) (henv : HEnv K) (nCells : ℕ) (env : StripEnv K) (cfg : LbfConfig) (inst : SPInstance K) : GridSP K n → R → Prop
  | start {addr : ℕ} {width : K} {s : GridSP K n} {r : R} : GridSP.new henv nCells env n addr inst width = some s → Run lenv henv nCells env cfg inst s r
  | place {s : GridSP K n} {r r' : R} {i : ℕ} {m : ℤ} {item : Item K × ℕ} {opt : PlacingOption K} {addr : ℕ} {q : (LayoutIndex × SlotKey) × GridSP K n} :
    Run lenv henv nCells env cfg inst s r → s.p.missing[i]? = some m → 0 < m → s.p.inst.items[i]? = some item →
    findPlacementG lenv env.toEnv cfg item.1 [((.real 0, s.p.layout), s.grid)] r = some (some opt, r') → s.placeItem henv env.toEnv addr opt = some q →
    Run lenv henv nCells env cfg inst q.2 r'
  | grow {s s' : GridSP K n} {r r' : R} {i : ℕ} {item : Item K × ℕ} {addr : ℕ} {addrs : ℕ → ℕ} :
    Run lenv henv nCells env cfg inst s r → s.p.inst.items[i]? = some item →
    findPlacementG lenv env.toEnv cfg item.1 [((.real 0, s.p.layout), s.grid)] r = some (none, r') →
    s.modifyInBack henv nCells env addr addrs (s.p.layout.bin.outer.val.bbox.width * (11 / 10)) = some s' → Run lenv henv nCells env cfg inst s' r'

section Exact

variable {K : Type*} [Field K] [LinearOrder K] {n : ℕ}

/-- The discs that stand for the shape of an item lie in it: the one of its pole of inaccessibility and the poles of its surrogate. -/
structure Item.Inscribed (item : Item K) : Prop where
  poi : item.shape.poi.pts ⊆ region item.shape.points
  poles : ∀ s, item.shape.surrogate = some s → ∀ p ∈ s.poles, 0 ≤ p.radius ∧ p.pts ⊆ region item.shape.points

/-- What the search assumes about an item: the discs of the shape lie in it, the base quality exists, and hazards are filtered by it; no disc is as wide
as the largest number. -/
structure Item.Searchable (henv : HEnv K) (item : Item K) : Prop where
  inscribed : item.Inscribed
  quality : item.baseQuality.getD nQualities ≤ nQualities
  filter : item.hazardFilter = item.baseQuality
  radius : item.shape.poi.radius < henv.fmax

end Exact

end Jagua
