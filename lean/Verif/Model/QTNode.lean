import Verif.Model.QTHazardVec

/-!
# Quadtree nodes

Model of `collision_detection/quadtree/qt_node.rs`. The level of a node is the
index of the type: a node at level `0` has no children, the children of a node
at level `n + 1` are at level `n` (`qt_node.rs:25-32, 102-108`). Panics are
`none`. `f` is the float comparison used by the point-in-polygon test, `o` the
binary search.
-/

namespace Jagua

variable {K : Type*} [Arith K] [LinearOrder K]

/-- `qt_node.rs:13-22` `QTNode`: `leaf` is `children: None`. -/
inductive QTNode (K : Type*) : ℕ → Type _
  | leaf {n : ℕ} (bbox : AARect K) (hazards : QTHazardVec K) : QTNode K n
  | node {n : ℕ} (bbox : AARect K) (hazards : QTHazardVec K) (children : Fin 4 → QTNode K n) : QTNode K (n + 1)

/-- `tribool::Tribool`. -/
inductive Tribool
  | true
  | false
  | indeterminate
  deriving DecidableEq, Repr

namespace QTNode

/-- field `bbox` -/
def bbox {n : ℕ} : QTNode K n → AARect K
  | leaf b _ => b
  | node b _ _ => b

/-- field `hazards` -/
def hazards {n : ℕ} : QTNode K n → QTHazardVec K
  | leaf _ h => h
  | node _ h _ => h

/-- `qt_node.rs:25-32` `new`. -/
def new (n : ℕ) (bbox : AARect K) : QTNode K n := leaf bbox .empty

/-- `qt_node.rs:35-46` `register_to_children`, given the registration function
of the children. -/
def registerToChildren {n : ℕ} (f : Fpa K) (reg : QTNode K n → QTHazard K → Option (QTNode K n))
    (children : Fin 4 → QTNode K n) (h : QTHazard K) : Option (Fin 4 → QTNode K n) :=
  match h.constrict f (fun i => (children i).bbox) with
  | none => none
  | some cs => seq4 fun i => match cs i with
    | none => some (children i)
    | some c => reg (children i) c

/-- `qt_node.rs:34-62` `register_hazard` and `generate_children` (102-108). -/
def register (f : Fpa K) (o : SearchOracle K) : {n : ℕ} → QTNode K n → QTHazard K → Option (QTNode K n)
  | 0, leaf b v, h => some (leaf b (v.add o h))
  | _ + 1, leaf b v, h =>
    if h.presence.isPartial then
      match (v.hazards.foldlM (registerToChildren f (register f o)) fun i => new _ (b.quadrants i)) with
      | none => none
      | some cs => match registerToChildren f (register f o) cs h with
        | none => none
        | some cs => some (node b (v.add o h) cs)
    else some (leaf b (v.add o h))
  | _ + 1, node b v cs, h =>
    match registerToChildren f (register f o) cs h with
    | none => none
    | some cs => some (node b (v.add o h) cs)

/-- `qt_node.rs:64-80` `deregister_hazard`. -/
def deregister {n : ℕ} (e : HazardEntity K) : QTNode K n → Option (QTNode K n)
  | leaf b v => (v.remove e).map fun r => leaf b r.1
  | node b v cs =>
    match v.remove e with
    | none => none
    | some (v', none) => some (node b v' cs)
    | some (v', some _) =>
      if v'.hazards = [] ∨ v'.hasOnlyEntire then some (leaf b v')
      else (seq4 fun i => (cs i).deregister e).map fun cs' => node b v' cs'

/-- `qt_node.rs:82-89` `activate_hazard`. -/
def activate {n : ℕ} (o : SearchOracle K) (e : HazardEntity K) : QTNode K n → QTNode K n
  | leaf b v => leaf b (v.activate o e).1
  | node b v cs =>
    node b (v.activate o e).1 (if (v.activate o e).2 then fun i => (cs i).activate o e else cs)

/-- `qt_node.rs:91-100` `deactivate_hazard`. -/
def deactivate {n : ℕ} (o : SearchOracle K) (e : HazardEntity K) : QTNode K n → Option (QTNode K n)
  | leaf b v => (v.deactivate o e).map fun r => leaf b r.1
  | node b v cs =>
    match v.deactivate o e with
    | none => none
    | some (v', false) => some (node b v' cs)
    | some (v', true) => (seq4 fun i => (cs i).deactivate o e).map fun cs' => node b v' cs'

/-- Lazy search through the results of the four children: first panic or first
hit, in order. -/
def firstSome4 {α : Type*} (f : Fin 4 → Option (Option α)) : Option (Option α) :=
  match f 0 with
  | none => none
  | some (some a) => some (some a)
  | some none => match f 1 with
    | none => none
    | some (some a) => some (some a)
    | some none => match f 2 with
      | none => none
      | some (some a) => some (some a)
      | some none => f 3

/-- `qt_node.rs:155-169`: search the active relevant hazards of a node without
children. -/
def findPartial (q : Queryable K) (irr : List (HazardEntity K)) : List (QTHazard K) → Option (Option (HazardEntity K))
  | [] => some none
  | h :: hs =>
    if irr.contains h.entity then findPartial q irr hs
    else match h.presence with
      | .none => findPartial q irr hs
      | .entire => none
      | .partly p => match p.collides q with
        | none => none
        | some true => some (some h.entity)
        | some false => findPartial q irr hs

/-- `qt_node.rs:129-175` `collides`. -/
def collides {n : ℕ} (q : Queryable K) (irr : List (HazardEntity K)) : QTNode K n → Option (Option (HazardEntity K))
  | leaf b v => match v.strongest irr with
    | none => none
    | some none => some none
    | some (some s) =>
      if q.rect b then match s.presence with
        | .none => some none
        | .entire => some (some s.entity)
        | .partly _ => match v.activeHazards with
          | none => none
          | some hs => findPartial q irr hs
      else some none
  | node b v cs => match v.strongest irr with
    | none => none
    | some none => some none
    | some (some s) =>
      if q.rect b then match s.presence with
        | .none => some none
        | .entire => some (some s.entity)
        | .partly _ => firstSome4 fun i => (cs i).collides q irr
      else some none

/-- `qt_node.rs:199-213`: collecting loop of a node without children. -/
def collectPartial (q : Queryable K) : List (QTHazard K) → List (HazardEntity K) → Option (List (HazardEntity K))
  | [], det => some det
  | h :: hs, det =>
    if det.contains h.entity then collectPartial q hs det
    else match h.presence with
      | .none => collectPartial q hs det
      | .entire => none
      | .partly p => match p.collides q with
        | none => none
        | some true => collectPartial q hs (det ++ [h.entity])
        | some false => collectPartial q hs det

/-- Sequential composition over the four children. -/
def chain4 {σ : Type*} (f : Fin 4 → σ → Option σ) (s : σ) : Option σ :=
  (f 0 s).bind fun s => (f 1 s).bind fun s => (f 2 s).bind fun s => f 3 s

/-- `qt_node.rs:179-219` `collect_collisions`. -/
def collect {n : ℕ} (q : Queryable K) : QTNode K n → List (HazardEntity K) → Option (List (HazardEntity K))
  | leaf b v, det => match v.strongest det with
    | none => none
    | some none => some det
    | some (some s) =>
      if q.rect b then match s.presence with
        | .none => some det
        | .entire => some (det ++ [s.entity])
        | .partly _ => match v.activeHazards with
          | none => none
          | some hs => collectPartial q hs det
      else some det
  | node b v cs, det => match v.strongest det with
    | none => none
    | some none => some det
    | some (some s) =>
      if q.rect b then match s.presence with
        | .none => some det
        | .entire => some (det ++ [s.entity])
        | .partly _ => chain4 (fun i => (cs i).collect q) det
      else some det

/-- `qt_node.rs:237-246, 272-281`: combination of the answers of the children. -/
def triboolLoop (f : Fin 4 → Option Tribool) : List (Fin 4) → Tribool → Option Tribool
  | [], r => some r
  | i :: is, r => match f i with
    | none => none
    | some .true => some .true
    | some .indeterminate => triboolLoop f is .indeterminate
    | some .false => triboolLoop f is r

/-- `qt_node.rs:225-252` `definitely_collides`; `qrect` is the test of the
entity against a rectangle. -/
def definitelyCollides {n : ℕ} (qrect : AARect K → Bool) (irr : List (HazardEntity K)) : QTNode K n → Option Tribool
  | leaf b v => match v.strongest irr with
    | none => none
    | some none => some .false
    | some (some s) => match qrect b, s.presence with
      | false, _ => some .false
      | _, .none => some .false
      | true, .entire => some .true
      | true, .partly _ => some .indeterminate
  | node b v cs => match v.strongest irr with
    | none => none
    | some none => some .false
    | some (some s) => match qrect b, s.presence with
      | false, _ => some .false
      | _, .none => some .false
      | true, .entire => some .true
      | true, .partly _ => triboolLoop (fun i => (cs i).definitelyCollides qrect irr) [0, 1, 2, 3] .false

/-- `qt_node.rs:258-288` `definitely_collides_with`. -/
def definitelyCollidesWith {n : ℕ} (qrect : AARect K → Bool) (e : HazardEntity K) : QTNode K n → Option Tribool
  | leaf b v => match v.get e with
    | none => some .false
    | some h => if qrect b then match h.presence with
        | .none => some .false
        | .entire => some .true
        | .partly _ => some .indeterminate
      else some .false
  | node b v cs => match v.get e with
    | none => some .false
    | some h => if qrect b then match h.presence with
        | .none => some .false
        | .entire => some .true
        | .partly _ => triboolLoop (fun i => (cs i).definitelyCollidesWith qrect e) [0, 1, 2, 3] .false
      else some .false

end QTNode

end Jagua
