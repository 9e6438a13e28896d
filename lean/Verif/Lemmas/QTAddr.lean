import Verif.Lemmas.QTQuery

/-!
# Addresses of shapes do not matter

What the quadtree answers about a hazard depends on the polygon, not on the
address at which it is stored.
-/

set_option linter.unusedSectionVars false

namespace Jagua

variable {K : Type*} [Arith K] [LinearOrder K]

/-- forget the address of a shape -/
def Arc.erase {α : Type*} (a : Arc α) : Arc α := ⟨0, a.val⟩

/-- forget addresses in a presence -/
def Presence.erase : Presence K → Presence K
  | .none => .none
  | .entire => .entire
  | .partly p => .partly ⟨p.shape.erase, p.edges⟩

/-- forget addresses in a tree hazard -/
def QTHazard.erase (h : QTHazard K) : QTHazard K := { h with presence := h.presence.erase }

theorem Presence.OK.erase {p : Presence K} (h : p.OK) : p.erase.OK := by
  rcases p with _ | ⟨s, _ | idx⟩ | _
  · exact h
  · exact h
  · exact h
  · exact h

theorem edgeResult_erase (quad : AARect K) (shape : Arc (SPoly K)) (idx : List ℕ) :
    edgeResult quad shape.erase idx = (edgeResult quad shape idx).map Presence.erase := by
  unfold edgeResult
  have : shape.erase.val = shape.val := rfl
  rw [this]
  split <;> rfl

theorem resolveValue_erase (f : Fpa K) (e : HazardEntity K) (s : SPoly K) (quads : Fin 4 → AARect K)
    (st : Fin 4 → Option (Presence K)) (i : Fin 4) :
    resolveValue f e s quads (fun j => (st j).map Presence.erase) i = resolveValue f e s quads st i := by
  unfold resolveValue
  dsimp only
  rcases st (AARect.quadrantNeighborLayout i).1 with _ | _ | _ | _ <;>
    rcases st (AARect.quadrantNeighborLayout i).2 with _ | _ | _ | _ <;> rfl

theorem resolveValue_cases (f : Fpa K) (e : HazardEntity K) (s : SPoly K) (quads : Fin 4 → AARect K)
    (st : Fin 4 → Option (Presence K)) (i : Fin 4) : (resolveValue f e s quads st i).erase = resolveValue f e s quads st i := by
  unfold resolveValue
  split
  · rfl
  · rfl
  · rfl
  · rfl
  · unfold centroidPresence
    split <;> rfl

theorem resolveStep_erase (f : Fpa K) (e : HazardEntity K) (s : SPoly K) (quads : Fin 4 → AARect K)
    (st : Fin 4 → Option (Presence K)) (i : Fin 4) :
    resolveStep f e s quads (fun j => (st j).map Presence.erase) i =
      fun j => (resolveStep f e s quads st i j).map Presence.erase := by
  unfold resolveStep
  rw [Option.isNone_map]
  by_cases h : (st i).isNone = true
  · rw [if_pos h, if_pos h]
    funext j
    by_cases hj : j = i
    · subst hj
      rw [Function.update_self, Function.update_self, resolveValue_erase, Option.map_some, resolveValue_cases]
    · rw [Function.update_of_ne hj, Function.update_of_ne hj]
  · rw [if_neg h, if_neg h]

theorem resolve_erase (f : Fpa K) (e : HazardEntity K) (s : SPoly K) (quads : Fin 4 → AARect K) (l : List (Fin 4))
    (st : Fin 4 → Option (Presence K)) :
    l.foldl (resolveStep f e s quads) (fun j => (st j).map Presence.erase) =
      fun j => (l.foldl (resolveStep f e s quads) st j).map Presence.erase := by
  induction l generalizing st with
  | nil => rfl
  | cons i l ih => rw [List.foldl_cons, List.foldl_cons, resolveStep_erase, ih]

theorem constrictP_erase (f : Fpa K) (e : HazardEntity K) {p : Presence K} (hp : p.OK) (quads : Fin 4 → AARect K) :
    constrictP f e p.erase quads = (constrictP f e p quads).map fun g i => (g i).erase := by
  cases p with
  | none => rfl
  | entire => rfl
  | partly p =>
    have hp' : (Presence.partly (PartialHaz.mk p.shape.erase p.edges)).OK := hp.erase
    show constrictP f e (Presence.partly ⟨p.shape.erase, p.edges⟩) quads = _
    unfold constrictP
    have hv : p.shape.erase.val = p.shape.val := rfl
    dsimp only
    rw [hv]
    cases [0, 1, 2, 3].find? (fun i : Fin 4 => p.shape.val.bbox.relationTo (quads i) = .enclosed) with
    | some j =>
      dsimp only
      rw [Option.map_some]
      congr 1
      funext i
      dsimp only
      split <;> rfl
    | none =>
      dsimp only
      rw [seq4_some (g := fun i => edgeResult (quads i) p.shape p.indices) (fun i => edgePhase_eq _ _ hp),
        seq4_some (g := fun i => (edgeResult (quads i) p.shape p.indices).map Presence.erase) (fun i => by
          rw [edgePhase_eq _ _ hp']
          congr 1
          exact edgeResult_erase _ _ _)]
      dsimp only
      rw [resolve_erase, seq4_map]

theorem new_erase (e : HazardEntity K) (p : Presence K) (a : Bool) :
    QTHazard.new e p.erase a = (QTHazard.new e p a).map QTHazard.erase := by
  cases p <;> rfl

theorem constrictTo_erase (f : Fpa K) (r : AARect K) (i : Fin 4) {h : QTHazard K} (hp : h.presence.OK) :
    constrictTo f r i h.erase = (constrictTo f r i h).map QTHazard.erase := by
  unfold constrictTo
  have h1 : h.erase.entity = h.entity := rfl
  have h2 : h.erase.presence = h.presence.erase := rfl
  have h3 : h.erase.active = h.active := rfl
  rw [h1, h2, h3, constrictP_erase f _ hp]
  cases constrictP f h.entity h.presence r.quadrants with
  | none => rfl
  | some g => exact new_erase _ _ _

/-- what `coll1` says about a quadrant -/
def subColl (f : Fpa K) (q : Queryable K) (n : ℕ) (r : AARect K) (h : QTHazard K) (i : Fin 4) : Bool :=
  match constrictTo f r i h with
  | none => false
  | some c => coll1 f q n (r.quadrants i) c

/-- what `def1` says about a quadrant -/
def subDef (f : Fpa K) (qr : AARect K → Bool) (n : ℕ) (r : AARect K) (h : QTHazard K) (i : Fin 4) : Tribool :=
  match constrictTo f r i h with
  | none => .false
  | some c => def1 f qr n (r.quadrants i) c

theorem coll1_succ (f : Fpa K) (q : Queryable K) (n : ℕ) (r : AARect K) (e : HazardEntity K) (p : PartialHaz K) (a : Bool) :
    coll1 f q (n + 1) r ⟨e, .partly p, a⟩ = (q.rect r && [0, 1, 2, 3].any (subColl f q n r ⟨e, .partly p, a⟩)) := rfl

theorem def1_succ (f : Fpa K) (qr : AARect K → Bool) (n : ℕ) (r : AARect K) (e : HazardEntity K) (p : PartialHaz K)
    (a : Bool) : def1 f qr (n + 1) r ⟨e, .partly p, a⟩ = if qr r then
        if ∃ i, subDef f qr n r ⟨e, .partly p, a⟩ i = .true then .true
        else if ∃ i, subDef f qr n r ⟨e, .partly p, a⟩ i = .indeterminate then .indeterminate
        else .false
      else .false := rfl

theorem coll1_erase (f : Fpa K) (q : Queryable K) (n : ℕ) (r : AARect K) {h : QTHazard K} (hp : h.presence.OK) :
    coll1 f q n r h.erase = coll1 f q n r h := by
  induction n generalizing r h with
  | zero =>
    obtain ⟨e, p, a⟩ := h
    cases p <;> rfl
  | succ n ih =>
    have hc : subColl f q n r h.erase = subColl f q n r h := by
      funext i
      unfold subColl
      rw [constrictTo_erase f r i hp]
      cases hc : constrictTo f r i h with
      | none => rfl
      | some c => exact ih _ (constrictTo_some hp hc).2.2
    obtain ⟨e, p, a⟩ := h
    cases p with
    | none => rfl
    | entire => rfl
    | partly p =>
      rw [coll1_succ, ← hc]
      rfl

theorem def1_erase (f : Fpa K) (qr : AARect K → Bool) (n : ℕ) (r : AARect K) {h : QTHazard K} (hp : h.presence.OK) :
    def1 f qr n r h.erase = def1 f qr n r h := by
  induction n generalizing r h with
  | zero =>
    obtain ⟨e, p, a⟩ := h
    cases p <;> rfl
  | succ n ih =>
    have hc : subDef f qr n r h.erase = subDef f qr n r h := by
      funext i
      unfold subDef
      rw [constrictTo_erase f r i hp]
      cases hc : constrictTo f r i h with
      | none => rfl
      | some c => exact ih _ (constrictTo_some hp hc).2.2
    obtain ⟨e, p, a⟩ := h
    cases p with
    | none => rfl
    | entire => rfl
    | partly p =>
      rw [def1_succ]
      simp only [← hc]
      rfl

end Jagua
