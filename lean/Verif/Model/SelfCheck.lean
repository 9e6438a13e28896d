import Verif.Model.LBF

/-!
# Checks a caller can run on layouts and engines

Model of those public functions of `jagua-rs/src/util/assertions.rs` that no debug assertion uses. What they print is left
out. Functions return `none` where the code would panic.
-/

namespace Jagua

variable {K : Type*} [Arith K] [LinearOrder K] {n : ℕ}

/-- `assertions.rs:90-96` `all_bins_and_items_centered`; `zero` is the test `zero` of the external crate `almost`. -/
def allBinsAndItemsCentered (zero : K → Bool) (items : List (Item K × ℕ)) (bins : List (Bin K n × ℕ)) : Bool :=
  (items.map (fun x => x.1.shape.centroid) ++ bins.map (fun b => b.1.outer.val.centroid)).all fun c => zero c.x && zero c.y

/-- `assertions.rs:98-120` `item_to_place_does_not_collide`. `shape.surrogate()` panics if there is none. -/
def itemToPlaceDoesNotCollide (env : Env K) (item : Item K) (t : Transf K) (l : Layout K n) : Option Bool :=
  let shape := item.shape.transform t
  let irr := match item.hazardFilter with
    | none => []
    | some q => generateIrrelevant (.quality q) l.cde.allHazards
  item.shape.surrogate.bind fun surr => (l.cde.surrogateHits surr t irr).bind fun hit =>
  if hit then some false else (l.cde.polyCollides env.f shape irr).map fun collides => !collides

/-- `assertions.rs:124-135`: the filter for a placed item, which leaves out the item itself and what its own filter
leaves out. -/
def PlacedItem.selfFilter (pi : PlacedItem K) : HazardFilter K :=
  match pi.hazardFilter with
  | none => .combined [.entities [pi.entity]]
  | some q => .combined [.entities [pi.entity], .quality q]

/-- `assertions.rs:123-142`: the loop over the placed items. -/
def collisionFreeLoop (env : Env K) (l : Layout K n) : List (PlacedItem K) → Option Bool
  | [] => some true
  | pi :: pis => (l.cde.polyCollides env.f pi.shape.val (generateIrrelevant pi.selfFilter l.cde.allHazards)).bind fun collides =>
    if collides then some false else collisionFreeLoop env l pis

/-- `assertions.rs:122-144` `layout_is_collision_free`. -/
def layoutIsCollisionFree (env : Env K) (l : Layout K n) : Option Bool := collisionFreeLoop env l l.placed.values

namespace QTNode

/-- `assertions.rs:146-171` `qt_node_contains_no_deactivated_hazards` without the stack trace. -/
def noDeactivated {n : ℕ} : QTNode K n → Bool
  | leaf _ v => v.hazards.all (·.active)
  | node _ v cs => v.hazards.all (·.active) && [0, 1, 2, 3].all fun i : Fin 4 => (cs i).noDeactivated

/-- `assertions.rs:230-254` `hz_entity_same_everywhere`. -/
def sameEverywhere {n : ℕ} (e : HazardEntity K) (active : Bool) : QTNode K n → Bool
  | leaf _ v => match v.hazards.find? fun h => h.entity = e with
    | some h => h.active == active
    | none => true
  | node _ v cs => (match v.hazards.find? fun h => h.entity = e with
    | some h => h.active == active
    | none => true) && [0, 1, 2, 3].all fun i : Fin 4 => (cs i).sameEverywhere e active

/-- `qt_node.rs:110-120` `get_number_of_children`. -/
def numberOfChildren {n : ℕ} : QTNode K n → ℕ
  | leaf _ _ => 0
  | node _ _ cs => 4 + ([0, 1, 2, 3].map fun i : Fin 4 => (cs i).numberOfChildren).sum

end QTNode

namespace CDE

/-- `assertions.rs:214-228` `qt_hz_entity_activation_consistent`; `unique` only leaves out pairs that were checked already. -/
def activationConsistent (c : CDE K n) : Bool :=
  c.tree.hazards.hazards.all fun h => c.tree.sameEverywhere h.entity h.active

/-- `cd_engine.rs:224-226` `number_of_nodes`. -/
def numberOfNodes (c : CDE K n) : ℕ := 1 + c.tree.numberOfChildren

/-- `cd_engine.rs:232-237` `smallest_qt_node_dimension`; the level of the root is the depth the engine was made with. -/
def smallestNodeDimension (c : CDE K n) : K := c.tree.bbox.width / 2 ^ n

/-- `cd_engine.rs:260-262` `has_uncommitted_deregisters`. -/
def hasUncommitted (c : CDE K n) : Bool := !c.uncommitted.isEmpty

end CDE

end Jagua
