import Verif.Model.QTHazardVec
import Mathlib.Data.List.InsertIdx
import Mathlib.Data.List.Perm.Basic
import Mathlib.Data.List.Sort

/-!
# The hazard list of a node: invariants
-/

set_option linter.unusedSectionVars false

namespace Jagua

variable {K : Type*} [Arith K] [LinearOrder K]

theorem Presence.rank_le (p : Presence K) : p.rank ≤ 2 := by cases p <;> simp [Presence.rank]

theorem QTHazard.strength_active {h : QTHazard K} (ha : h.active = true) : h.strength = 3 + h.presence.rank := by
  simp [QTHazard.strength, ha]

theorem QTHazard.strength_inactive {h : QTHazard K} (ha : h.active = false) : h.strength = h.presence.rank := by
  simp [QTHazard.strength, ha]

/-- A search oracle exists: insert in front of the first element that is not stronger. -/
def SearchOracle.first : SearchOracle K where
  pos l h := l.findIdx (fun x => decide (x.strength ≤ h.strength))
  pos_le l h := List.findIdx_le_length
  sorted l h hs := by
    induction l with
    | nil => exact List.pairwise_singleton _ _
    | cons a l ih =>
      unfold StrengthSorted at *
      rw [List.pairwise_cons] at hs
      rw [List.findIdx_cons]
      by_cases hc : a.strength ≤ h.strength
      · simp only [hc, decide_true, cond_true, List.insertIdx_zero, List.pairwise_cons]
        refine ⟨?_, hs⟩
        intro x hx
        rcases List.mem_cons.1 hx with rfl | hx
        · exact hc
        · exact (hs.1 x hx).trans hc
      · simp only [hc, decide_false, cond_false, List.insertIdx_succ_cons, List.pairwise_cons]
        refine ⟨?_, ih hs.2⟩
        intro x hx
        rcases (List.mem_insertIdx (by exact List.findIdx_le_length)).1 hx with rfl | hx
        · exact (not_le.1 hc).le
        · exact hs.1 x hx

/-- The hazard list `v` represents the hazards `hs`: same hazards up to order,
sorted by strength, with a correct counter. -/
structure VecInv (v : QTHazardVec K) (hs : List (QTHazard K)) : Prop where
  perm : v.hazards.Perm hs
  sorted : StrengthSorted v.hazards
  count : v.nActive = v.hazards.countP (·.active)

theorem VecInv.of_perm {v : QTHazardVec K} {hs hs' : List (QTHazard K)} (h : VecInv v hs) (p : hs.Perm hs') :
    VecInv v hs' := ⟨h.perm.trans p, h.sorted, h.count⟩

theorem VecInv.mem {v : QTHazardVec K} {hs : List (QTHazard K)} (h : VecInv v hs) {x : QTHazard K} :
    x ∈ v.hazards ↔ x ∈ hs := h.perm.mem_iff

theorem vecInv_empty : VecInv (K := K) .empty [] :=
  ⟨List.Perm.refl _, List.Pairwise.nil, rfl⟩

theorem take_active {l : List (QTHazard K)} (h : StrengthSorted l) :
    l.take (l.countP (·.active)) = l.filter (·.active) := by
  induction l with
  | nil => rfl
  | cons a l ih =>
    unfold StrengthSorted at h
    rw [List.pairwise_cons] at h
    by_cases ha : a.active = true
    · simp [ha, ih h.2]
    · have ha' : a.active = false := by simpa using ha
      have hall : ∀ x ∈ l, x.active = false := by
        intro x hx
        by_contra hx'
        have hx'' : x.active = true := by simpa using hx'
        have := h.1 x hx
        rw [QTHazard.strength_active hx'', QTHazard.strength_inactive ha'] at this
        have := a.presence.rank_le
        omega
      have h0 : l.countP (·.active) = 0 := by
        rw [List.countP_eq_zero]
        intro x hx
        simp [hall x hx]
      have h1 : l.filter (·.active) = [] := by
        rw [List.filter_eq_nil_iff]
        intro x hx
        simp [hall x hx]
      simp [ha', h0, h1]

theorem VecInv.activeHazards_eq {v : QTHazardVec K} {hs : List (QTHazard K)} (h : VecInv v hs) :
    v.activeHazards = some (v.hazards.filter (·.active)) := by
  unfold QTHazardVec.activeHazards
  rw [h.count, if_pos List.countP_le_length, take_active h.sorted]

theorem VecInv.add {v : QTHazardVec K} {hs : List (QTHazard K)} (h : VecInv v hs) (o : SearchOracle K)
    (x : QTHazard K) : VecInv (v.add o x) (x :: hs) := by
  have hp : (v.hazards.insertIdx (o.pos v.hazards x) x).Perm (x :: v.hazards) :=
    List.perm_insertIdx _ _ (o.pos_le _ _)
  refine ⟨hp.trans (h.perm.cons x), o.sorted _ _ h.sorted, ?_⟩
  unfold QTHazardVec.add
  dsimp only
  rw [hp.countP_eq, h.count, List.countP_cons]

/-- no two hazards have the same entity -/
def DistinctEntities (hs : List (QTHazard K)) : Prop := hs.Pairwise fun a b => a.entity ≠ b.entity

theorem DistinctEntities.perm {l l' : List (QTHazard K)} (h : DistinctEntities l) (p : l.Perm l') :
    DistinctEntities l' := p.pairwise h (fun h => Ne.symm h)

theorem DistinctEntities.eq {l : List (QTHazard K)} (h : DistinctEntities l) {a b : QTHazard K} (ha : a ∈ l) (hb : b ∈ l)
    (he : a.entity = b.entity) : a = b := by
  induction l with
  | nil => simp at ha
  | cons c l ih =>
    unfold DistinctEntities at *
    rw [List.pairwise_cons] at h
    rcases List.mem_cons.1 ha with ha' | ha' <;> rcases List.mem_cons.1 hb with hb' | hb'
    · rw [ha', hb']
    · subst ha'; exact absurd he (h.1 b hb')
    · subst hb'; exact absurd he.symm (h.1 a ha')
    · exact ih h.2 ha' hb'

theorem eraseP_eq_filter {l : List (QTHazard K)} (h : DistinctEntities l) (e : HazardEntity K) :
    l.eraseP (fun h => h.entity = e) = l.filter (fun h => h.entity ≠ e) := by
  induction l with
  | nil => rfl
  | cons a l ih =>
    unfold DistinctEntities at *
    rw [List.pairwise_cons] at h
    by_cases ha : a.entity = e
    · rw [List.eraseP_cons_of_pos (by simpa using ha), List.filter_cons_of_neg (by simpa using ha)]
      rw [List.filter_eq_self.2]
      intro x hx
      have := h.1 x hx
      rw [ha] at this
      simpa using this.symm
    · rw [List.eraseP_cons_of_neg (by simpa using ha), List.filter_cons_of_pos (by simpa using ha), ih h.2]

theorem perm_cons_filter {l : List (QTHazard K)} (h : DistinctEntities l) {x : QTHazard K} (hx : x ∈ l) :
    l.Perm (x :: l.filter (fun h => h.entity ≠ x.entity)) := by
  induction l with
  | nil => simp at hx
  | cons a l ih =>
    unfold DistinctEntities at *
    rw [List.pairwise_cons] at h
    rcases List.mem_cons.1 hx with rfl | hx
    · rw [List.filter_cons_of_neg (by simp), List.filter_eq_self.2]
      intro y hy
      simpa using (h.1 y hy).symm
    · rw [List.filter_cons_of_pos (by simpa using h.1 x hx)]
      exact ((ih h.2 hx).cons a).trans (List.Perm.swap _ _ _)

theorem StrengthSorted.filter {l : List (QTHazard K)} (h : StrengthSorted l) (p : QTHazard K → Bool) :
    StrengthSorted (l.filter p) := List.Pairwise.filter p h

/-- Removing an entity removes exactly that hazard. -/
theorem VecInv.remove {v : QTHazardVec K} {hs : List (QTHazard K)} (h : VecInv v hs) (hd : DistinctEntities hs)
    (e : HazardEntity K) :
    ∃ v' r, v.remove e = some (v', r) ∧ VecInv v' (hs.filter fun h => h.entity ≠ e)
      ∧ (r = none ↔ ∀ x ∈ hs, x.entity ≠ e) ∧ (r = none → v' = v) := by
  unfold QTHazardVec.remove
  split
  · rename_i hf
    rw [List.find?_eq_none] at hf
    have hno : ∀ x ∈ hs, x.entity ≠ e := by
      intro x hx
      simpa using hf x (h.mem.2 hx)
    refine ⟨v, none, rfl, ?_, by simpa using hno, fun _ => rfl⟩
    rw [List.filter_eq_self.2 (by simpa using hno)]
    exact h
  · rename_i x hf
    have hx : x ∈ v.hazards := List.mem_of_find?_eq_some hf
    have hxe : x.entity = e := by simpa using List.find?_some hf
    have hdv := hd.perm h.perm.symm
    have hp := perm_cons_filter hdv hx
    rw [hxe] at hp
    have hcount : v.nActive = (if x.active then 1 else 0)
        + (v.hazards.filter (fun h => h.entity ≠ e)).countP (·.active) := by
      rw [h.count, hp.countP_eq, List.countP_cons, add_comm]
    have hs' : QTHazardVec.subOrPanic v.nActive (if x.active then 1 else 0)
        = some ((v.hazards.filter (fun h => h.entity ≠ e)).countP (·.active)) := by
      unfold QTHazardVec.subOrPanic
      rw [if_pos (by omega)]
      congr 1
      omega
    refine ⟨⟨v.hazards.eraseP (fun h => h.entity = e),
      (v.hazards.filter (fun h => h.entity ≠ e)).countP (·.active)⟩, some x, ?_, ?_, ?_, by simp⟩
    · simp only [hs']
    · rw [eraseP_eq_filter hdv]
      exact ⟨h.perm.filter _, h.sorted.filter _, rfl⟩
    · simp only [reduceCtorEq, false_iff, not_forall]
      exact ⟨x, h.mem.1 hx, by simpa using hxe⟩

/-- replace the activity flag of an entity -/
def setActive (e : HazardEntity K) (b : Bool) (h : QTHazard K) : QTHazard K :=
  if h.entity = e then { h with active := b } else h

theorem setActive_entity (e : HazardEntity K) (b : Bool) (h : QTHazard K) : (setActive e b h).entity = h.entity := by
  unfold setActive; split <;> rfl

theorem setActive_presence (e : HazardEntity K) (b : Bool) (h : QTHazard K) : (setActive e b h).presence = h.presence := by
  unfold setActive; split <;> rfl

theorem map_setActive_self {hs : List (QTHazard K)} {e : HazardEntity K} {b : Bool} (h : ∀ x ∈ hs, x.entity ≠ e) :
    hs.map (setActive e b) = hs := by
  conv_rhs => rw [← List.map_id hs]
  apply List.map_congr_left
  intro x hx
  simp [setActive, h x hx]

theorem perm_setActive {hs : List (QTHazard K)} (hd : DistinctEntities hs) {x : QTHazard K} (hx : x ∈ hs) (b : Bool) :
    (hs.map (setActive x.entity b)).Perm ({ x with active := b } :: hs.filter (fun h => h.entity ≠ x.entity)) := by
  have hp := (perm_cons_filter hd hx).map (setActive x.entity b)
  rw [List.map_cons, map_setActive_self (hs := hs.filter _) (by simp)] at hp
  simpa [setActive] using hp

theorem VecInv.activate {v : QTHazardVec K} {hs : List (QTHazard K)} (h : VecInv v hs) (hd : DistinctEntities hs)
    (o : SearchOracle K) (e : HazardEntity K) (ha : ∀ x ∈ hs, x.entity = e → x.active = false) :
    VecInv (v.activate o e).1 (hs.map (setActive e true)) ∧ ((v.activate o e).2 = false ↔ ∀ x ∈ hs, x.entity ≠ e) := by
  unfold QTHazardVec.activate
  split
  · rename_i hf
    rw [List.find?_eq_none] at hf
    have hno : ∀ x ∈ hs, x.entity ≠ e := by
      intro x hx
      simpa using hf x (h.mem.2 hx)
    rw [map_setActive_self hno]
    exact ⟨h, by simpa using hno⟩
  · rename_i x hf
    have hx : x ∈ v.hazards := List.mem_of_find?_eq_some hf
    have hxe : x.entity = e := by simpa using List.find?_some hf
    subst hxe
    have hdv := hd.perm h.perm.symm
    have hxa := ha x (h.mem.1 hx) rfl
    refine ⟨?_, ?_⟩
    · rw [eraseP_eq_filter hdv]
      have h1 : VecInv (⟨v.hazards.filter (fun h => h.entity ≠ x.entity), v.nActive⟩ : QTHazardVec K)
          (hs.filter (fun h => h.entity ≠ x.entity)) := by
        refine ⟨h.perm.filter _, h.sorted.filter _, ?_⟩
        dsimp only
        rw [h.count, (perm_cons_filter hdv hx).countP_eq, List.countP_cons]
        simp [hxa]
      exact (h1.add o _).of_perm (perm_setActive hd (h.mem.1 hx) true).symm
    · simp only [Bool.true_eq_false, false_iff, not_forall]
      exact ⟨x, h.mem.1 hx, by simp⟩

theorem VecInv.deactivate {v : QTHazardVec K} {hs : List (QTHazard K)} (h : VecInv v hs) (hd : DistinctEntities hs)
    (o : SearchOracle K) (e : HazardEntity K) (ha : ∀ x ∈ hs, x.entity = e → x.active = true) :
    ∃ v' m, v.deactivate o e = some (v', m) ∧ VecInv v' (hs.map (setActive e false))
      ∧ (m = false ↔ ∀ x ∈ hs, x.entity ≠ e) := by
  unfold QTHazardVec.deactivate
  split
  · rename_i hf
    rw [List.find?_eq_none] at hf
    have hno : ∀ x ∈ hs, x.entity ≠ e := by
      intro x hx
      simpa using hf x (h.mem.2 hx)
    rw [map_setActive_self hno]
    exact ⟨v, false, rfl, h, by simpa using hno⟩
  · rename_i x hf
    have hx : x ∈ v.hazards := List.mem_of_find?_eq_some hf
    have hxe : x.entity = e := by simpa using List.find?_some hf
    subst hxe
    have hdv := hd.perm h.perm.symm
    have hxa := ha x (h.mem.1 hx) rfl
    have hcount : v.nActive = (v.hazards.filter (fun h => h.entity ≠ x.entity)).countP (·.active) + 1 := by
      rw [h.count, (perm_cons_filter hdv hx).countP_eq, List.countP_cons]
      simp [hxa]
    have hsub : QTHazardVec.subOrPanic v.nActive 1
        = some ((v.hazards.filter (fun h => h.entity ≠ x.entity)).countP (·.active)) := by
      unfold QTHazardVec.subOrPanic
      rw [if_pos (by omega)]
      congr 1
      omega
    simp only [hsub]
    refine ⟨_, _, rfl, ?_, ?_⟩
    · rw [eraseP_eq_filter hdv]
      have h1 : VecInv (⟨v.hazards.filter (fun h => h.entity ≠ x.entity),
          (v.hazards.filter (fun h => h.entity ≠ x.entity)).countP (·.active)⟩ : QTHazardVec K)
          (hs.filter (fun h => h.entity ≠ x.entity)) :=
        ⟨h.perm.filter _, h.sorted.filter _, rfl⟩
      exact (h1.add o _).of_perm (perm_setActive hd (h.mem.1 hx) false).symm
    · simp only [Bool.true_eq_false, false_iff, not_forall]
      exact ⟨x, h.mem.1 hx, by simp⟩

/-- `strongest` on a valid list: never panics, finds a strongest active relevant
hazard. -/
theorem VecInv.strongest {v : QTHazardVec K} {hs : List (QTHazard K)} (h : VecInv v hs) (irr : List (HazardEntity K)) :
    ∃ r, v.strongest irr = some r ∧
      (r = none → ∀ x ∈ hs, x.active = true → x.entity ∈ irr) ∧
      ∀ s, r = some s → s ∈ hs ∧ s.active = true ∧ s.entity ∉ irr ∧
        ∀ x ∈ hs, x.active = true → x.entity ∉ irr → x.presence.rank ≤ s.presence.rank := by
  have key : ∀ (l : List (QTHazard K)), StrengthSorted l → (∀ x ∈ l, x.active = true) →
      (l.find? (fun h => !irr.contains h.entity) = none → ∀ x ∈ l, x.entity ∈ irr) ∧
      ∀ s, l.find? (fun h => !irr.contains h.entity) = some s → s ∈ l ∧ s.entity ∉ irr ∧
        ∀ x ∈ l, x.entity ∉ irr → x.presence.rank ≤ s.presence.rank := by
    intro l hl ha
    constructor
    · intro hn x hx
      rw [List.find?_eq_none] at hn
      simpa using hn x hx
    · intro s hs
      induction l with
      | nil => simp at hs
      | cons a l ih =>
        unfold StrengthSorted at hl
        rw [List.pairwise_cons] at hl
        by_cases hai : a.entity ∈ irr
        · rw [List.find?_cons_of_neg (by simpa using hai)] at hs
          obtain ⟨h1, h2, h3⟩ := ih hl.2 (fun x hx => ha x (List.mem_cons_of_mem _ hx)) hs
          refine ⟨List.mem_cons_of_mem _ h1, h2, ?_⟩
          intro x hx hxi
          rcases List.mem_cons.1 hx with rfl | hx
          · exact absurd hai hxi
          · exact h3 x hx hxi
        · rw [List.find?_cons_of_pos (by simpa using hai)] at hs
          obtain rfl := Option.some.inj hs
          refine ⟨List.mem_cons_self, hai, ?_⟩
          intro x hx _
          rcases List.mem_cons.1 hx with rfl | hx
          · exact le_rfl
          · have := hl.1 x hx
            rw [QTHazard.strength_active (ha x (List.mem_cons_of_mem _ hx)),
              QTHazard.strength_active (ha a List.mem_cons_self)] at this
            omega
  have hft := take_active h.sorted
  rw [← h.count] at hft
  have hfs := h.sorted.filter (·.active)
  have hfa : ∀ x ∈ v.hazards.filter (·.active), x.active = true := by
    intro x hx
    exact (List.mem_filter.1 hx).2
  obtain ⟨k1, k2⟩ := key _ hfs hfa
  have hmem : ∀ x, x ∈ v.hazards.filter (·.active) ↔ x ∈ hs ∧ x.active = true := by
    intro x
    rw [List.mem_filter, h.mem]
  unfold QTHazardVec.strongest
  split_ifs with h0 h1 h2
  · refine ⟨none, rfl, ?_, by simp⟩
    intro _ x hx hxa
    have : v.hazards.countP (·.active) = 0 := by rw [← h.count]; exact h0
    rw [List.countP_eq_zero] at this
    exact absurd hxa (this x (h.mem.2 hx))
  · subst h1
    rcases hv : v.hazards with _ | ⟨a, l⟩
    · rw [h.count, hv] at h0
      simp at h0
    · have ha : a.active = true := by
        have h1 : v.hazards.filter (·.active) ≠ [] := by
          intro h1
          rw [h1] at hft
          rcases List.take_eq_nil_iff.1 hft with h | h
          · exact h0 h
          · rw [hv] at h; simp at h
        rw [← hft, hv] at hfa
        obtain ⟨n, hn⟩ := Nat.exists_eq_succ_of_ne_zero h0
        rw [hn] at hfa
        exact hfa a (by simp)
      refine ⟨some a, rfl, by simp, ?_⟩
      intro s hs'
      obtain rfl := Option.some.inj hs'
      have := k2 a (by rw [hv]; simp [ha])
      refine ⟨((hmem a).1 this.1).1, ha, this.2.1, ?_⟩
      intro x hx hxa hxi
      exact this.2.2 x ((hmem x).2 ⟨hx, hxa⟩) hxi
  · rw [hft]
    refine ⟨_, rfl, ?_, ?_⟩
    · intro hn x hx hxa
      exact k1 hn x ((hmem x).2 ⟨hx, hxa⟩)
    · intro s hs'
      obtain ⟨a, b, c⟩ := k2 s hs'
      refine ⟨((hmem s).1 a).1, ((hmem s).1 a).2, b, ?_⟩
      intro x hx hxa hxi
      exact c x ((hmem x).2 ⟨hx, hxa⟩) hxi
  · exact absurd (by rw [h.count]; exact List.countP_le_length) h2

/-- `get` finds the active hazard of an entity. -/
theorem VecInv.get {v : QTHazardVec K} {hs : List (QTHazard K)} (h : VecInv v hs) (hd : DistinctEntities hs)
    (e : HazardEntity K) :
    (v.get e = none ↔ ∀ x ∈ hs, x.active = true → x.entity ≠ e) ∧
    ∀ x, v.get e = some x ↔ x ∈ hs ∧ x.active = true ∧ x.entity = e := by
  unfold QTHazardVec.get
  constructor
  · rw [List.find?_eq_none]
    constructor
    · intro hn x hx hxa
      simpa using hn x (List.mem_filter.2 ⟨h.mem.2 hx, hxa⟩)
    · intro hn x hx
      obtain ⟨h1, h2⟩ := List.mem_filter.1 hx
      simpa using hn x (h.mem.1 h1) h2
  · intro x
    constructor
    · intro hx
      have h1 := List.mem_of_find?_eq_some hx
      obtain ⟨h1, h2⟩ := List.mem_filter.1 h1
      exact ⟨h.mem.1 h1, h2, by simpa using List.find?_some hx⟩
    · rintro ⟨hx, hxa, hxe⟩
      cases hf : (v.hazards.filter (·.active)).find? (fun h => decide (h.entity = e)) with
      | none =>
        rw [List.find?_eq_none] at hf
        have := hf x (List.mem_filter.2 ⟨h.mem.2 hx, hxa⟩)
        simp [hxe] at this
      | some y =>
        have h1 := List.mem_of_find?_eq_some hf
        obtain ⟨h1, h2⟩ := List.mem_filter.1 h1
        have h3 : y.entity = e := by simpa using List.find?_some hf
        rw [hd.eq (h.mem.1 h1) hx (h3.trans hxe.symm)]

end Jagua
