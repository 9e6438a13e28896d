import Verif.Model.QTNode
import Verif.Lemmas.QTConstrict

/-!
# The quadtree is determined by its hazards

`Canon f node r hs`: the node with box `r` is what the hazards `hs` (as handed to
this node) determine, up to the order inside the hazard lists. All mutators
preserve it.
-/

set_option linter.unusedSectionVars false

namespace Jagua

variable {K : Type*} [Arith K] [LinearOrder K]

/-- hazards handed to quadrant `i` -/
def childHaz (f : Fpa K) (r : AARect K) (i : Fin 4) (hs : List (QTHazard K)) : List (QTHazard K) :=
  hs.filterMap (constrictTo f r i)

/-- The node represents exactly the hazards `hs`. -/
def QTNode.Canon (f : Fpa K) : {n : ℕ} → QTNode K n → AARect K → List (QTHazard K) → Prop
  | n, .leaf b v, r, hs => b = r ∧ VecInv v hs ∧ (n = 0 ∨ ∀ h ∈ hs, h.presence.isPartial = false)
  | _, .node b v cs, r, hs => b = r ∧ VecInv v hs ∧ (∃ h ∈ hs, h.presence.isPartial = true)
      ∧ ∀ i, (cs i).Canon f (r.quadrants i) (childHaz f r i hs)

/-- all presences are usable -/
def AllOK (hs : List (QTHazard K)) : Prop := ∀ h ∈ hs, h.presence.OK

theorem AllOK.child {f : Fpa K} {r : AARect K} {i : Fin 4} {hs : List (QTHazard K)} (h : AllOK hs) :
    AllOK (childHaz f r i hs) := by
  intro c hc
  obtain ⟨x, hx, hxc⟩ := List.mem_filterMap.1 hc
  exact (constrictTo_some (h x hx) hxc).2.2

theorem AllOK.perm {hs hs' : List (QTHazard K)} (h : AllOK hs) (p : hs.Perm hs') : AllOK hs' :=
  fun x hx => h x (p.mem_iff.2 hx)

theorem DistinctEntities.child {f : Fpa K} {r : AARect K} {i : Fin 4} {hs : List (QTHazard K)}
    (h : DistinctEntities hs) : DistinctEntities (childHaz f r i hs) := by
  unfold DistinctEntities childHaz at *
  rw [List.pairwise_filterMap]
  refine h.imp ?_
  intro a b hab a' ha b' hb
  rw [(constrictTo_entity ha).1, (constrictTo_entity hb).1]
  exact hab

theorem QTNode.Canon.bbox_eq {f : Fpa K} {n : ℕ} {nd : QTNode K n} {r : AARect K} {hs : List (QTHazard K)}
    (h : nd.Canon f r hs) : nd.bbox = r := by
  cases nd with
  | leaf b v => exact h.1
  | node b v cs => exact h.1

theorem QTNode.Canon.vec {f : Fpa K} {n : ℕ} {nd : QTNode K n} {r : AARect K} {hs : List (QTHazard K)}
    (h : nd.Canon f r hs) : VecInv nd.hazards hs := by
  cases nd with
  | leaf b v => exact h.2.1
  | node b v cs => exact h.2.1

theorem QTNode.Canon.perm {f : Fpa K} {n : ℕ} {nd : QTNode K n} {r : AARect K} {hs hs' : List (QTHazard K)}
    (h : nd.Canon f r hs) (p : hs.Perm hs') : nd.Canon f r hs' := by
  induction nd generalizing r hs hs' with
  | leaf b v =>
    obtain ⟨h1, h2, h3⟩ := h
    exact ⟨h1, h2.of_perm p, h3.imp id fun h x hx => h x (p.mem_iff.2 hx)⟩
  | node b v cs ih =>
    obtain ⟨h1, h2, ⟨x, hx, hxp⟩, h4⟩ := h
    exact ⟨h1, h2.of_perm p, ⟨x, p.mem_iff.1 hx, hxp⟩, fun i => ih i (h4 i) (p.filterMap _)⟩

theorem QTNode.canon_new (f : Fpa K) (n : ℕ) (r : AARect K) : (QTNode.new n r).Canon f r [] :=
  ⟨rfl, vecInv_empty, .inr (by simp)⟩

theorem childHaz_cons (f : Fpa K) (r : AARect K) (i : Fin 4) (h : QTHazard K) (hs : List (QTHazard K)) :
    childHaz f r i (h :: hs) = match constrictTo f r i h with
      | none => childHaz f r i hs
      | some c => c :: childHaz f r i hs := by
  unfold childHaz
  rw [List.filterMap_cons]
  split <;> simp_all

theorem QTNode.registerToChildren_canon {f : Fpa K} {n : ℕ}
    {reg : QTNode K n → QTHazard K → Option (QTNode K n)}
    (hreg : ∀ (nd : QTNode K n) (r : AARect K) (hs : List (QTHazard K)) (h : QTHazard K), nd.Canon f r hs →
      AllOK hs → h.presence.OK → ∃ nd', reg nd h = some nd' ∧ nd'.Canon f r (h :: hs))
    {cs : Fin 4 → QTNode K n} {r : AARect K} {hs : List (QTHazard K)} (hok : AllOK hs)
    (hc : ∀ i, (cs i).Canon f (r.quadrants i) (childHaz f r i hs)) {h : QTHazard K} (hh : h.presence.OK) :
    ∃ cs', registerToChildren f reg cs h = some cs' ∧
      ∀ i, (cs' i).Canon f (r.quadrants i) (childHaz f r i (h :: hs)) := by
  have hb : (fun i => (cs i).bbox) = r.quadrants := by
    funext i
    exact (hc i).bbox_eq
  unfold registerToChildren
  rw [hb, constrict_ok f hh r]
  dsimp only
  have : ∀ i, ∃ nd', (match constrictTo f r i h with
      | none => some (cs i)
      | some c => reg (cs i) c) = some nd' ∧ nd'.Canon f (r.quadrants i) (childHaz f r i (h :: hs)) := by
    intro i
    rw [childHaz_cons]
    rcases hci : constrictTo f r i h with _ | c
    · exact ⟨cs i, rfl, hc i⟩
    · exact hreg _ _ _ _ (hc i) hok.child (constrictTo_some hh hci).2.2
  choose g hg hg' using this
  exact ⟨g, seq4_some hg, hg'⟩

/-- registering all hazards of a list to the children, one after the other -/
theorem QTNode.foldlM_canon {f : Fpa K} {n : ℕ}
    {reg : QTNode K n → QTHazard K → Option (QTNode K n)}
    (hreg : ∀ (nd : QTNode K n) (r : AARect K) (hs : List (QTHazard K)) (h : QTHazard K), nd.Canon f r hs →
      AllOK hs → h.presence.OK → ∃ nd', reg nd h = some nd' ∧ nd'.Canon f r (h :: hs))
    (l : List (QTHazard K)) {cs : Fin 4 → QTNode K n} {r : AARect K} {hs : List (QTHazard K)} (hok : AllOK hs)
    (hl : AllOK l) (hc : ∀ i, (cs i).Canon f (r.quadrants i) (childHaz f r i hs)) :
    ∃ cs', l.foldlM (registerToChildren f reg) cs = some cs' ∧
      ∀ i, (cs' i).Canon f (r.quadrants i) (childHaz f r i (l ++ hs)) := by
  induction l generalizing cs hs with
  | nil => exact ⟨cs, rfl, hc⟩
  | cons a l ih =>
    have ha := hl a List.mem_cons_self
    obtain ⟨cs1, h1, h2⟩ := registerToChildren_canon hreg hok hc ha
    have hok' : AllOK (a :: hs) := by
      intro x hx
      rcases List.mem_cons.1 hx with rfl | hx
      · exact ha
      · exact hok x hx
    obtain ⟨cs2, h3, h4⟩ := ih hok' (fun x hx => hl x (List.mem_cons_of_mem _ hx)) h2
    refine ⟨cs2, ?_, ?_⟩
    · rw [List.foldlM_cons, h1]
      exact h3
    · intro i
      refine (h4 i).perm (List.Perm.filterMap _ ?_)
      simp

theorem QTNode.register_canon {f : Fpa K} {o : SearchOracle K} {n : ℕ} (nd : QTNode K n) (r : AARect K)
    (hs : List (QTHazard K)) (h : QTHazard K) (hc : nd.Canon f r hs) (hok : AllOK hs) (hh : h.presence.OK) :
    ∃ nd', nd.register f o h = some nd' ∧ nd'.Canon f r (h :: hs) := by
  induction n generalizing r hs h with
  | zero =>
    cases nd with
    | leaf b v =>
      obtain ⟨h1, h2, h3⟩ := hc
      exact ⟨_, rfl, h1, h2.add o h, .inl rfl⟩
  | succ n ih =>
    cases nd with
    | leaf b v =>
      obtain ⟨h1, h2, h3⟩ := hc
      subst h1
      have h3' := h3.resolve_left (Nat.succ_ne_zero n)
      rw [QTNode.register]
      by_cases hp : h.presence.isPartial = true
      · rw [if_pos hp]
        have hvok : AllOK v.hazards := hok.perm h2.perm.symm
        obtain ⟨cs1, e1, c1⟩ := foldlM_canon ih v.hazards (cs := fun i => QTNode.new n (b.quadrants i)) (r := b)
          (hs := []) (fun x hx => by simp at hx) hvok (fun i => canon_new f n _)
        rw [e1]
        dsimp only
        rw [List.append_nil] at c1
        obtain ⟨cs2, e2, c2⟩ := registerToChildren_canon ih hvok c1 hh
        rw [e2]
        refine ⟨_, rfl, rfl, h2.add o h, ⟨h, List.mem_cons_self, hp⟩, ?_⟩
        intro i
        exact (c2 i).perm ((h2.perm.cons h).filterMap _)
      · rw [if_neg hp]
        refine ⟨_, rfl, rfl, h2.add o h, .inr ?_⟩
        intro x hx
        rcases List.mem_cons.1 hx with rfl | hx
        · simpa using hp
        · exact h3' x hx
    | node b v cs =>
      obtain ⟨h1, h2, ⟨x, hx, hxp⟩, h4⟩ := hc
      rw [QTNode.register]
      obtain ⟨cs2, e2, c2⟩ := registerToChildren_canon ih hok h4 hh
      rw [e2]
      exact ⟨_, rfl, h1, h2.add o h, ⟨x, List.mem_cons_of_mem _ hx, hxp⟩, c2⟩

theorem childHaz_filter (f : Fpa K) (r : AARect K) (i : Fin 4) (hs : List (QTHazard K)) (e : HazardEntity K) :
    childHaz f r i (hs.filter fun h => h.entity ≠ e) = (childHaz f r i hs).filter fun h => h.entity ≠ e := by
  induction hs with
  | nil => rfl
  | cons a hs ih =>
    rw [childHaz_cons]
    by_cases ha : a.entity = e
    · rw [List.filter_cons_of_neg (by simpa using ha), ih]
      rcases hc : constrictTo f r i a with _ | c
      · rfl
      · have := (constrictTo_entity hc).1
        rw [List.filter_cons_of_neg (by simpa [this] using ha)]
    · rw [List.filter_cons_of_pos (by simpa using ha), childHaz_cons, ih]
      rcases hc : constrictTo f r i a with _ | c
      · rfl
      · have := (constrictTo_entity hc).1
        dsimp only
        rw [List.filter_cons_of_pos (by simpa [this] using ha)]

theorem presence_cases {p : Presence K} (h : p.OK) : p.isPartial = true ∨ p.isEntire = true := by
  cases p with
  | none => exact h.elim
  | entire => exact .inr rfl
  | partly => exact .inl rfl

theorem QTNode.deregister_canon {f : Fpa K} {n : ℕ} (nd : QTNode K n) (r : AARect K)
    (hs : List (QTHazard K)) (e : HazardEntity K) (hc : nd.Canon f r hs) (hok : AllOK hs) (hd : DistinctEntities hs) :
    ∃ nd', nd.deregister e = some nd' ∧ nd'.Canon f r (hs.filter fun h => h.entity ≠ e) := by
  induction nd generalizing r hs with
  | leaf b v =>
    obtain ⟨h1, h2, h3⟩ := hc
    obtain ⟨v', rr, e1, i1, _, _⟩ := h2.remove hd e
    refine ⟨.leaf b v', ?_, h1, i1, h3.imp id ?_⟩
    · rw [QTNode.deregister, e1]; rfl
    · intro h x hx
      exact h x (List.mem_filter.1 hx).1
  | node b v cs ih =>
    obtain ⟨h1, h2, h3, h4⟩ := hc
    obtain ⟨v', rr, e1, i1, n1, n2⟩ := h2.remove hd e
    rw [QTNode.deregister, e1]
    rcases rr with _ | x
    · have hself : hs.filter (fun h => h.entity ≠ e) = hs := by
        rw [List.filter_eq_self]
        simpa using n1.1 rfl
      rw [hself] at i1 ⊢
      exact ⟨_, rfl, h1, i1, h3, h4⟩
    · dsimp only
      split_ifs with hcond
      · refine ⟨_, rfl, h1, i1, .inr ?_⟩
        intro y hy
        have hy' := i1.mem.2 hy
        rcases hcond with hcond | hcond
        · rw [hcond] at hy'; simp at hy'
        · have := List.all_eq_true.1 hcond y hy'
          cases hp : y.presence <;> simp_all [Presence.isEntire, Presence.isPartial]
      · have : ∀ i, ∃ nd', (cs i).deregister e = some nd' ∧
            nd'.Canon f (r.quadrants i) (childHaz f r i (hs.filter fun h => h.entity ≠ e)) := by
          intro i
          rw [childHaz_filter]
          exact ih i _ _ (h4 i) hok.child hd.child
        choose g hg hg' using this
        rw [seq4_some hg]
        refine ⟨_, rfl, h1, i1, ?_, hg'⟩
        push Not at hcond
        have := hcond.2
        rw [ne_eq, Bool.not_eq_true] at this
        unfold QTHazardVec.hasOnlyEntire at this
        rw [List.all_eq_false] at this
        obtain ⟨y, hy, hye⟩ := this
        have hy' := i1.mem.1 hy
        refine ⟨y, hy', ?_⟩
        exact (presence_cases (hok y (List.mem_filter.1 hy').1)).resolve_right hye

theorem childHaz_setActive (f : Fpa K) (r : AARect K) (i : Fin 4) (hs : List (QTHazard K)) (e : HazardEntity K) (b : Bool) :
    childHaz f r i (hs.map (setActive e b)) = (childHaz f r i hs).map (setActive e b) := by
  unfold childHaz
  rw [List.filterMap_map, List.map_filterMap]
  congr 1
  funext h
  exact constrictTo_setActive f r i e b h

theorem child_entity_ne {f : Fpa K} {r : AARect K} {i : Fin 4} {hs : List (QTHazard K)} {e : HazardEntity K}
    (h : ∀ x ∈ hs, x.entity ≠ e) : ∀ x ∈ childHaz f r i hs, x.entity ≠ e := by
  intro x hx
  obtain ⟨y, hy, hyx⟩ := List.mem_filterMap.1 hx
  rw [(constrictTo_entity hyx).1]
  exact h y hy

theorem child_active {f : Fpa K} {r : AARect K} {i : Fin 4} {hs : List (QTHazard K)} {e : HazardEntity K} {b : Bool}
    (h : ∀ x ∈ hs, x.entity = e → x.active = b) : ∀ x ∈ childHaz f r i hs, x.entity = e → x.active = b := by
  intro x hx hxe
  obtain ⟨y, hy, hyx⟩ := List.mem_filterMap.1 hx
  rw [(constrictTo_entity hyx).2]
  rw [(constrictTo_entity hyx).1] at hxe
  exact h y hy hxe

theorem QTNode.activate_canon {f : Fpa K} {o : SearchOracle K} {n : ℕ} (nd : QTNode K n) (r : AARect K)
    (hs : List (QTHazard K)) (e : HazardEntity K) (hc : nd.Canon f r hs) (hd : DistinctEntities hs)
    (ha : ∀ x ∈ hs, x.entity = e → x.active = false) :
    (nd.activate o e).Canon f r (hs.map (setActive e true)) := by
  induction nd generalizing r hs with
  | leaf b v =>
    obtain ⟨h1, h2, h3⟩ := hc
    refine ⟨h1, (h2.activate hd o e ha).1, h3.imp id ?_⟩
    intro h x hx
    obtain ⟨y, hy, rfl⟩ := List.mem_map.1 hx
    rw [setActive_presence]
    exact h y hy
  | node b v cs ih =>
    obtain ⟨h1, h2, ⟨x, hx, hxp⟩, h4⟩ := hc
    obtain ⟨i1, i2⟩ := h2.activate hd o e ha
    refine ⟨h1, i1, ⟨_, List.mem_map_of_mem hx, by rw [setActive_presence]; exact hxp⟩, ?_⟩
    intro i
    rw [childHaz_setActive]
    split_ifs with hm
    · exact ih i _ _ (h4 i) hd.child (child_active ha)
    · have := i2.1 (by simpa using hm)
      rw [map_setActive_self (child_entity_ne this)]
      exact h4 i

theorem QTNode.deactivate_canon {f : Fpa K} {o : SearchOracle K} {n : ℕ} (nd : QTNode K n) (r : AARect K)
    (hs : List (QTHazard K)) (e : HazardEntity K) (hc : nd.Canon f r hs) (hd : DistinctEntities hs)
    (ha : ∀ x ∈ hs, x.entity = e → x.active = true) :
    ∃ nd', nd.deactivate o e = some nd' ∧ nd'.Canon f r (hs.map (setActive e false)) := by
  induction nd generalizing r hs with
  | leaf b v =>
    obtain ⟨h1, h2, h3⟩ := hc
    obtain ⟨v', m, e1, i1, _⟩ := h2.deactivate hd o e ha
    refine ⟨.leaf b v', ?_, h1, i1, h3.imp id ?_⟩
    · rw [QTNode.deactivate, e1]; rfl
    · intro h x hx
      obtain ⟨y, hy, rfl⟩ := List.mem_map.1 hx
      rw [setActive_presence]
      exact h y hy
  | node b v cs ih =>
    obtain ⟨h1, h2, ⟨x, hx, hxp⟩, h4⟩ := hc
    obtain ⟨v', m, e1, i1, i2⟩ := h2.deactivate hd o e ha
    have hex : ∃ h ∈ hs.map (setActive e false), h.presence.isPartial = true :=
      ⟨_, List.mem_map_of_mem hx, by rw [setActive_presence]; exact hxp⟩
    rw [QTNode.deactivate, e1]
    cases m with
    | false =>
      refine ⟨_, rfl, h1, i1, hex, ?_⟩
      intro i
      rw [childHaz_setActive, map_setActive_self (child_entity_ne (i2.1 rfl))]
      exact h4 i
    | true =>
      have : ∀ i, ∃ nd', (cs i).deactivate o e = some nd' ∧
          nd'.Canon f (r.quadrants i) (childHaz f r i (hs.map (setActive e false))) := by
        intro i
        rw [childHaz_setActive]
        exact ih i _ _ (h4 i) hd.child (child_active ha)
      choose g hg hg' using this
      dsimp only
      rw [seq4_some hg]
      exact ⟨_, rfl, h1, i1, hex, hg'⟩

end Jagua
