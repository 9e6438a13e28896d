import Verif.Model.Debug
import Verif.Lemmas.QTCanon
import Verif.Lemmas.QTAddr
import Verif.Lemmas.RectGeo2

/-!
# Debug builds: the quadtree
-/

set_option linter.unusedSectionVars false

namespace Jagua

section vec

variable {K : Type*} [Arith K] [LinearOrder K]

theorem assertThen_pos {α : Type*} {c : Bool} (h : c = true) (a : Option α) : assertThen c a = a := by
  unfold assertThen
  rw [if_pos h]

theorem assertThen_neg {α : Type*} {c : Bool} (h : c = false) (a : Option α) : assertThen c a = none := by
  unfold assertThen
  rw [if_neg (by simp [h])]

theorem VecInv.addDbg_eq {v : QTHazardVec K} {hs : List (QTHazard K)} (h : VecInv v hs) (o : SearchOracle K) {x : QTHazard K}
    (hx : ∀ y ∈ hs, y.entity ≠ x.entity) : v.addDbg o x = some (v.add o x) := by
  unfold QTHazardVec.addDbg
  refine assertThen_pos ?_ _
  rw [decide_eq_true_iff, List.length_eq_zero_iff, List.filter_eq_nil_iff]
  intro y hy
  simp [hx y (h.mem.1 hy)]

theorem distinct_filter_le {l : List (QTHazard K)} (h : DistinctEntities l) (p : QTHazard K → Bool) {e : HazardEntity K}
    (hp : ∀ x, p x = true → x.entity = e) : (l.filter p).length ≤ 1 := by
  have h1 : DistinctEntities (l.filter p) := List.Pairwise.filter p h
  match hl : l.filter p with
  | [] => simp
  | [_] => simp
  | a :: b :: m =>
    rw [hl] at h1
    have hm : ∀ x ∈ l.filter p, x.entity = e := fun x hx => hp x (List.mem_filter.1 hx).2
    rw [hl] at hm
    unfold DistinctEntities at h1
    rw [List.pairwise_cons] at h1
    exact absurd ((hm a (by simp)).trans (hm b (by simp)).symm) (h1.1 b (by simp))

theorem VecInv.removeDbg_eq {v : QTHazardVec K} {hs : List (QTHazard K)} (h : VecInv v hs) (hd : DistinctEntities hs)
    (e : HazardEntity K) : v.removeDbg e = v.remove e := by
  unfold QTHazardVec.removeDbg
  refine assertThen_pos ?_ _
  rw [decide_eq_true_iff]
  refine distinct_filter_le (hd.perm h.perm.symm) _ (e := e) ?_
  intro x hx
  simp only [Bool.and_eq_true, decide_eq_true_eq] at hx
  exact hx.1

theorem windowsSorted_of {l : List (QTHazard K)} (h : StrengthSorted l) : QTHazardVec.windowsSorted l = true := by
  induction l with
  | nil => rfl
  | cons a l ih =>
    unfold StrengthSorted at h
    rw [List.pairwise_cons] at h
    cases l with
    | nil => rfl
    | cons b l =>
      rw [QTHazardVec.windowsSorted, Bool.and_eq_true]
      exact ⟨decide_eq_true (h.1 b (by simp)), ih h.2⟩

theorem VecInv.strongestDbg_eq {v : QTHazardVec K} {hs : List (QTHazard K)} (h : VecInv v hs) (irr : List (HazardEntity K)) :
    v.strongestDbg irr = v.strongest irr := by
  unfold QTHazardVec.strongestDbg
  rw [assertThen_pos, assertThen_pos (windowsSorted_of h.sorted)]
  rw [decide_eq_true_iff, h.count, List.countP_eq_length_filter]

theorem VecInv.activateDbg_eq {v : QTHazardVec K} {hs : List (QTHazard K)} (h : VecInv v hs) (hd : DistinctEntities hs)
    (o : SearchOracle K) (e : HazardEntity K) (ha : ∀ x ∈ hs, x.entity = e → x.active = false) :
    v.activateDbg o e = some (v.activate o e) := by
  unfold QTHazardVec.activateDbg QTHazardVec.activate
  generalize hf : List.find? _ v.hazards = r
  rcases r with _ | x
  · rfl
  · dsimp only
    have hx := List.mem_of_find?_eq_some hf
    have he : x.entity = e := by simpa using List.find?_some hf
    rw [assertThen_pos (by rw [ha x (h.mem.1 hx) he]; rfl)]
    unfold QTHazardVec.addDbg
    rw [assertThen_pos]
    · rfl
    · rw [decide_eq_true_iff, List.length_eq_zero_iff, List.filter_eq_nil_iff]
      intro y hy
      dsimp only at hy
      rw [eraseP_eq_filter (hd.perm h.perm.symm)] at hy
      have := (List.mem_filter.1 hy).2
      simp_all

theorem VecInv.deactivateDbg_eq {v : QTHazardVec K} {hs : List (QTHazard K)} (h : VecInv v hs) (hd : DistinctEntities hs)
    (o : SearchOracle K) (e : HazardEntity K) (ha : ∀ x ∈ hs, x.entity = e → x.active = true) :
    v.deactivateDbg o e = v.deactivate o e := by
  unfold QTHazardVec.deactivateDbg QTHazardVec.deactivate
  generalize hf : List.find? _ v.hazards = r
  rcases r with _ | x
  · rfl
  · dsimp only
    have hx := List.mem_of_find?_eq_some hf
    have he : x.entity = e := by simpa using List.find?_some hf
    rw [assertThen_pos (ha x (h.mem.1 hx) he)]
    rcases QTHazardVec.subOrPanic v.nActive 1 with _ | m
    · rfl
    · dsimp only
      unfold QTHazardVec.addDbg
      rw [assertThen_pos]
      · rfl
      · rw [decide_eq_true_iff, List.length_eq_zero_iff, List.filter_eq_nil_iff]
        intro y hy
        dsimp only at hy
        rw [eraseP_eq_filter (hd.perm h.perm.symm)] at hy
        have := (List.mem_filter.1 hy).2
        simp_all

end vec

variable {K : Type*} [Field K] [LinearOrder K] [IsStrictOrderedRing K]

theorem quadrants_layout {r : AARect K} (hv : r.Valid) : quadrantsValidLayout r.quadrants = true := by
  obtain ⟨h0, h1, h2, h3⟩ := quadrants_eq hv
  obtain ⟨hx, hy⟩ := hv
  have a1 : (r.xMin + r.xMax) / 2 < r.xMax := by linarith
  have a2 : r.xMin < (r.xMin + r.xMax) / 2 := by linarith
  have a3 : (r.yMin + r.yMax) / 2 < r.yMax := by linarith
  have a4 : r.yMin < (r.yMin + r.yMax) / 2 := by linarith
  generalize (r.xMin + r.xMax) / 2 = mx at *
  generalize (r.yMin + r.yMax) / 2 = my at *
  unfold quadrantsValidLayout
  simp only [List.all_cons, List.all_nil, AARect.quadrantNeighborLayout, h0, h1, h2, h3, sharedCorners, AARect.corners]
  simp [List.find?_cons, List.filter_cons, hx.ne, hx.ne', hy.ne, hy.ne', a1.ne, a1.ne', a2.ne, a2.ne', a3.ne, a3.ne', a4.ne,
    a4.ne', List.find?_isSome]

namespace QTNode

theorem registerToChildrenDbg_eq {f : Fpa K} {n : ℕ} {reg regD : QTNode K n → QTHazard K → Option (QTNode K n)}
    (hreg : ∀ (nd : QTNode K n) (r : AARect K) (hs : List (QTHazard K)) (h : QTHazard K), nd.Canon f r hs → r.Valid →
      AllOK hs → h.presence.OK → DistinctEntities (h :: hs) → regD nd h = reg nd h)
    {cs : Fin 4 → QTNode K n} {r : AARect K} (hv : r.Valid) {hs : List (QTHazard K)} (hok : AllOK hs)
    (hc : ∀ i, (cs i).Canon f (r.quadrants i) (childHaz f r i hs)) {h : QTHazard K} (hh : h.presence.OK)
    (hd : DistinctEntities (h :: hs)) : registerToChildrenDbg f regD cs h = registerToChildren f reg cs h := by
  have hb : (fun i => (cs i).bbox) = r.quadrants := by
    funext i
    exact (hc i).bbox_eq
  unfold registerToChildrenDbg registerToChildren QTHazard.constrictDbg
  rw [hb, assertThen_pos (quadrants_layout hv), constrict_ok f hh r]
  dsimp only
  congr 1
  funext i
  rcases hci : constrictTo f r i h with _ | c
  · rfl
  · refine hreg _ _ _ _ (hc i) (quadrants_valid hv i) hok.child (constrictTo_some hh hci).2.2 ?_
    have := hd.child (f := f) (r := r) (i := i)
    rw [childHaz_cons, hci] at this
    exact this

theorem foldlMDbg_eq {f : Fpa K} {n : ℕ} {reg regD : QTNode K n → QTHazard K → Option (QTNode K n)}
    (hcan : ∀ (nd : QTNode K n) (r : AARect K) (hs : List (QTHazard K)) (h : QTHazard K), nd.Canon f r hs →
      AllOK hs → h.presence.OK → ∃ nd', reg nd h = some nd' ∧ nd'.Canon f r (h :: hs))
    (hreg : ∀ (nd : QTNode K n) (r : AARect K) (hs : List (QTHazard K)) (h : QTHazard K), nd.Canon f r hs → r.Valid →
      AllOK hs → h.presence.OK → DistinctEntities (h :: hs) → regD nd h = reg nd h)
    (l : List (QTHazard K)) {cs : Fin 4 → QTNode K n} {r : AARect K} (hv : r.Valid) {hs : List (QTHazard K)} (hok : AllOK hs)
    (hl : AllOK l) (hc : ∀ i, (cs i).Canon f (r.quadrants i) (childHaz f r i hs)) (hd : DistinctEntities (l ++ hs)) :
    l.foldlM (registerToChildrenDbg f regD) cs = l.foldlM (registerToChildren f reg) cs := by
  induction l generalizing cs hs with
  | nil => rfl
  | cons a l ih =>
    have ha := hl a List.mem_cons_self
    have hp : ((a :: l) ++ hs).Perm (l ++ a :: hs) := by simpa using List.perm_middle.symm
    have hd' := hd.perm hp
    have hda : DistinctEntities (a :: hs) := by
      unfold DistinctEntities at hd' ⊢
      exact (List.pairwise_append.1 hd').2.1
    rw [List.foldlM_cons, List.foldlM_cons, registerToChildrenDbg_eq hreg hv hok hc ha hda]
    obtain ⟨cs1, h1, h2⟩ := registerToChildren_canon hcan hok hc ha
    rw [h1]
    refine ih (hs := a :: hs) ?_ (fun x hx => hl x (List.mem_cons_of_mem _ hx)) h2 hd'
    intro x hx
    rcases List.mem_cons.1 hx with rfl | hx
    · exact ha
    · exact hok x hx

theorem Canon.registerDbg_eq {f : Fpa K} {o : SearchOracle K} {n : ℕ} (nd : QTNode K n) (r : AARect K)
    (hs : List (QTHazard K)) (h : QTHazard K) (hc : nd.Canon f r hs) (hv : r.Valid) (hok : AllOK hs) (hh : h.presence.OK)
    (hd : DistinctEntities (h :: hs)) : nd.registerDbg f o h = nd.register f o h := by
  have hne : ∀ y ∈ hs, y.entity ≠ h.entity := by
    intro y hy
    unfold DistinctEntities at hd
    rw [List.pairwise_cons] at hd
    exact (hd.1 y hy).symm
  induction n generalizing r hs h with
  | zero =>
    cases nd with
    | leaf b v =>
      rw [registerDbg, hc.2.1.addDbg_eq o hne]
      rfl
  | succ n ih =>
    have ih' : ∀ (nd : QTNode K n) (r : AARect K) (hs : List (QTHazard K)) (h : QTHazard K), nd.Canon f r hs → r.Valid →
        AllOK hs → h.presence.OK → DistinctEntities (h :: hs) → nd.registerDbg f o h = nd.register f o h := by
      intro nd r hs h h1 h2 h3 h4 h5
      refine ih nd r hs h h1 h2 h3 h4 h5 ?_
      intro y hy
      unfold DistinctEntities at h5
      rw [List.pairwise_cons] at h5
      exact (h5.1 y hy).symm
    cases nd with
    | leaf b v =>
      obtain ⟨h1, h2, h3⟩ := hc
      subst h1
      rw [registerDbg, register, h2.addDbg_eq o hne]
      by_cases hp : h.presence.isPartial = true
      · rw [if_pos hp, if_pos hp]
        have hvok : AllOK v.hazards := hok.perm h2.perm.symm
        have hdv : DistinctEntities (v.hazards ++ []) := by
          rw [List.append_nil]
          unfold DistinctEntities at hd
          rw [List.pairwise_cons] at hd
          exact DistinctEntities.perm hd.2 h2.perm.symm
        have hc0 : ∀ i, (QTNode.new n (b.quadrants i)).Canon f (b.quadrants i) (childHaz f b i []) := fun i => canon_new f n _
        rw [foldlMDbg_eq register_canon ih' v.hazards hv (hs := []) (fun x hx => by simp at hx) hvok hc0 hdv]
        obtain ⟨cs1, e1, c1⟩ := foldlM_canon (register_canon (o := o)) v.hazards (cs := fun i => QTNode.new n (b.quadrants i)) (r := b)
          (hs := []) (fun x hx => by simp at hx) hvok hc0
        rw [e1]
        dsimp only
        rw [List.append_nil] at c1
        rw [registerToChildrenDbg_eq ih' hv hvok c1 hh (hd.perm (h2.perm.symm.cons h))]
        rfl
      · rw [if_neg hp, if_neg hp]
        rfl
    | node b v cs =>
      obtain ⟨h1, h2, h3, h4⟩ := hc
      rw [registerDbg, register, registerToChildrenDbg_eq ih' hv hok h4 hh hd, h2.addDbg_eq o hne]
      rfl

theorem Canon.deregisterDbg_eq {f : Fpa K} {n : ℕ} (nd : QTNode K n) (r : AARect K)
    (hs : List (QTHazard K)) (e : HazardEntity K) (hc : nd.Canon f r hs) (hd : DistinctEntities hs) :
    nd.deregisterDbg e = nd.deregister e := by
  induction nd generalizing r hs with
  | leaf b v => rw [deregisterDbg, deregister, hc.2.1.removeDbg_eq hd]
  | node b v cs ih =>
    obtain ⟨h1, h2, h3, h4⟩ := hc
    have hcs : (fun i => (cs i).deregisterDbg e) = fun i => (cs i).deregister e := by
      funext i
      exact ih i _ _ (h4 i) hd.child
    rw [deregisterDbg, deregister, h2.removeDbg_eq hd, hcs]
    rfl

theorem Canon.activateDbg_eq {f : Fpa K} {o : SearchOracle K} {n : ℕ} (nd : QTNode K n) (r : AARect K)
    (hs : List (QTHazard K)) (e : HazardEntity K) (hc : nd.Canon f r hs) (hd : DistinctEntities hs)
    (ha : ∀ x ∈ hs, x.entity = e → x.active = false) : nd.activateDbg o e = some (nd.activate o e) := by
  induction nd generalizing r hs with
  | leaf b v => rw [activateDbg, activate, hc.2.1.activateDbg_eq hd o e ha]; rfl
  | node b v cs ih =>
    obtain ⟨h1, h2, h3, h4⟩ := hc
    have hcs : seq4 (fun i => (cs i).activateDbg o e) = some fun i => (cs i).activate o e :=
      seq4_some fun i => ih i _ _ (h4 i) hd.child (child_active ha)
    rw [activateDbg, activate, h2.activateDbg_eq hd o e ha, hcs]
    rcases hva : v.activate o e with ⟨v', b'⟩
    cases b' <;> rfl

theorem Canon.deactivateDbg_eq {f : Fpa K} {o : SearchOracle K} {n : ℕ} (nd : QTNode K n) (r : AARect K)
    (hs : List (QTHazard K)) (e : HazardEntity K) (hc : nd.Canon f r hs) (hd : DistinctEntities hs)
    (ha : ∀ x ∈ hs, x.entity = e → x.active = true) : nd.deactivateDbg o e = nd.deactivate o e := by
  induction nd generalizing r hs with
  | leaf b v => rw [deactivateDbg, deactivate, hc.2.1.deactivateDbg_eq hd o e ha]
  | node b v cs ih =>
    obtain ⟨h1, h2, h3, h4⟩ := hc
    have hcs : (fun i => (cs i).deactivateDbg o e) = fun i => (cs i).deactivate o e := by
      funext i
      exact ih i _ _ (h4 i) hd.child (child_active ha)
    rw [deactivateDbg, deactivate, h2.deactivateDbg_eq hd o e ha, hcs]
    rfl

theorem Canon.collidesDbg_eq {f : Fpa K} {n : ℕ} (q : Queryable K) (irr : List (HazardEntity K)) (nd : QTNode K n) (r : AARect K)
    (hs : List (QTHazard K)) (hc : nd.Canon f r hs) : nd.collidesDbg q irr = nd.collides q irr := by
  induction nd generalizing r hs with
  | leaf b v => rw [collidesDbg, collides, hc.2.1.strongestDbg_eq]; rfl
  | node b v cs ih =>
    obtain ⟨h1, h2, h3, h4⟩ := hc
    have hcs : (fun i => (cs i).collidesDbg q irr) = fun i => (cs i).collides q irr := by
      funext i
      exact ih i _ _ (h4 i)
    rw [collidesDbg, collides, h2.strongestDbg_eq, hcs]
    rfl

theorem Canon.collectDbg_eq {f : Fpa K} {n : ℕ} (q : Queryable K) (nd : QTNode K n) (r : AARect K)
    (hs : List (QTHazard K)) (hc : nd.Canon f r hs) (det : List (HazardEntity K)) : nd.collectDbg q det = nd.collect q det := by
  induction nd generalizing r hs det with
  | leaf b v => rw [collectDbg, collect, hc.2.1.strongestDbg_eq]; rfl
  | node b v cs ih =>
    obtain ⟨h1, h2, h3, h4⟩ := hc
    have hcs : (fun i => (cs i).collectDbg q) = fun i => (cs i).collect q := by
      funext i det
      exact ih i _ _ (h4 i) det
    rw [collectDbg, collect, h2.strongestDbg_eq, hcs]
    rfl

theorem Canon.definitelyCollidesDbg_eq {f : Fpa K} {n : ℕ} (qr : AARect K → Bool) (irr : List (HazardEntity K)) (nd : QTNode K n)
    (r : AARect K) (hs : List (QTHazard K)) (hc : nd.Canon f r hs) :
    nd.definitelyCollidesDbg qr irr = nd.definitelyCollides qr irr := by
  induction nd generalizing r hs with
  | leaf b v => rw [definitelyCollidesDbg, definitelyCollides, hc.2.1.strongestDbg_eq]; rfl
  | node b v cs ih =>
    obtain ⟨h1, h2, h3, h4⟩ := hc
    have hcs : (fun i => (cs i).definitelyCollidesDbg qr irr) = fun i => (cs i).definitelyCollides qr irr := by
      funext i
      exact ih i _ _ (h4 i)
    rw [definitelyCollidesDbg, definitelyCollides, h2.strongestDbg_eq, hcs]
    rfl

theorem Canon.noDanglingBelow {f : Fpa K} {n : ℕ} (nd : QTNode K n) (r : AARect K) (hs : List (QTHazard K))
    (hc : nd.Canon f r hs) (parent : List (HazardEntity K)) (hp : ∀ x ∈ hs, x.entity ∈ parent) :
    nd.noDanglingBelow parent = true := by
  induction nd generalizing r hs parent with
  | leaf b v =>
    rw [QTNode.noDanglingBelow, List.all_eq_true]
    intro x hx
    simpa using hp x (hc.2.1.mem.1 hx)
  | node b v cs ih =>
    obtain ⟨h1, h2, h3, h4⟩ := hc
    rw [QTNode.noDanglingBelow, Bool.and_eq_true, List.all_eq_true, List.all_eq_true]
    refine ⟨fun x hx => by simpa using hp x (h2.mem.1 hx), fun i _ => ih i _ _ (h4 i) _ ?_⟩
    intro x hx
    obtain ⟨y, hy, hyx⟩ := List.mem_filterMap.1 hx
    rw [(constrictTo_entity hyx).1]
    exact List.mem_map_of_mem (f := (·.entity)) (h2.mem.2 hy)

theorem Canon.noDangling {f : Fpa K} {n : ℕ} (nd : QTNode K n) (r : AARect K) (hs : List (QTHazard K))
    (hc : nd.Canon f r hs) : nd.noDangling = true := by
  cases nd with
  | leaf b v => rfl
  | node b v cs =>
    obtain ⟨h1, h2, h3, h4⟩ := hc
    rw [QTNode.noDangling, List.all_eq_true]
    intro i _
    refine Canon.noDanglingBelow _ _ _ (h4 i) _ ?_
    intro x hx
    obtain ⟨y, hy, hyx⟩ := List.mem_filterMap.1 hx
    rw [(constrictTo_entity hyx).1]
    exact List.mem_map_of_mem (f := (·.entity)) (h2.mem.2 hy)

/-- the active hazards of two lists are the same up to the addresses of their shapes -/
def SameActive (hs hs' : List (QTHazard K)) : Prop :=
  ∀ x ∈ hs, x.active = true → ∃ y ∈ hs', y.active = true ∧ y.erase = x.erase

theorem SameActive.child {f : Fpa K} {r : AARect K} {i : Fin 4} {hs hs' : List (QTHazard K)} (h : SameActive hs hs')
    (hok : AllOK hs) (hok' : AllOK hs') : SameActive (childHaz f r i hs) (childHaz f r i hs') := by
  intro x hx ha
  obtain ⟨y, hy, hyx⟩ := List.mem_filterMap.1 hx
  rw [(constrictTo_entity hyx).2] at ha
  obtain ⟨z, hz, hza, he⟩ := h y hy ha
  have e1 := constrictTo_erase f r i (hok y hy)
  have e2 := constrictTo_erase f r i (hok' z hz)
  rw [he, e1, hyx] at e2
  rcases hw : constrictTo f r i z with _ | w
  · rw [hw] at e2; simp at e2
  · rw [hw] at e2
    refine ⟨w, List.mem_filterMap.2 ⟨z, hz, hw⟩, ?_, ?_⟩
    · rw [(constrictTo_entity hw).2]; exact hza
    · simpa using e2.symm

theorem rank_erase (p : Presence K) : p.erase.rank = p.rank := by cases p <;> rfl

theorem isPartial_erase (p : Presence K) : p.erase.isPartial = p.isPartial := by cases p <;> rfl

theorem keys_sub {v w : QTHazardVec K} {hs hs' : List (QTHazard K)} (hv : VecInv v hs) (hw : VecInv w hs')
    (h : SameActive hs hs') : ((activeKeys v).all fun x => (activeKeys w).contains x) = true := by
  unfold activeKeys
  rw [hv.activeHazards_eq, hw.activeHazards_eq, List.all_eq_true]
  intro k hk
  obtain ⟨x, hx, rfl⟩ := List.mem_map.1 hk
  obtain ⟨hx1, hx2⟩ := List.mem_filter.1 hx
  obtain ⟨y, hy, hya, he⟩ := h x (hv.mem.1 hx1) hx2
  rw [List.contains_iff_mem]
  refine List.mem_map.2 ⟨y, List.mem_filter.2 ⟨hw.mem.2 hy, hya⟩, ?_⟩
  have e1 : y.entity = x.entity := show y.erase.entity = x.erase.entity by rw [he]
  have e2 : y.active = x.active := show y.erase.active = x.erase.active by rw [he]
  have e3 : y.presence.erase = x.presence.erase := congrArg QTHazard.presence he
  rw [e1, e2, ← rank_erase y.presence, e3, rank_erase]

theorem sameActive_of {v w : QTHazardVec K} {hs hs' : List (QTHazard K)} (hv : VecInv v hs) (hw : VecInv w hs')
    (h : SameActive hs hs') (h' : SameActive hs' hs) : sameActive v w = true := by
  unfold sameActive
  rw [keys_sub hv hw h, keys_sub hw hv h']
  rfl

theorem anyActivePartial_of {v : QTHazardVec K} {hs hs' : List (QTHazard K)} (hv : VecInv v hs) (h : SameActive hs hs')
    (hp : ∀ y ∈ hs', y.presence.isPartial = false) : anyActivePartial v = false := by
  unfold anyActivePartial
  rw [hv.activeHazards_eq, Option.getD_some, List.any_eq_false]
  intro x hx
  obtain ⟨hx1, hx2⟩ := List.mem_filter.1 hx
  obtain ⟨y, hy, hya, he⟩ := h x (hv.mem.1 hx1) hx2
  have e3 : y.presence.erase = x.presence.erase := congrArg QTHazard.presence he
  rw [← isPartial_erase, ← e3, isPartial_erase, hp y hy]
  simp

theorem Canon.nodesMatch {f : Fpa K} {n : ℕ} (nd nd' : QTNode K n) (r : AARect K) (hs hs' : List (QTHazard K))
    (hc : nd.Canon f r hs) (hc' : nd'.Canon f r hs') (hok : AllOK hs) (hok' : AllOK hs')
    (h : SameActive hs hs') (h' : SameActive hs' hs) : nd.nodesMatch nd' = true := by
  induction n generalizing r hs hs' with
  | zero =>
    cases nd with
    | leaf b v => cases nd' with
      | leaf b' w => rw [QTNode.nodesMatch]; exact sameActive_of hc.2.1 hc'.2.1 h h'
  | succ n ih =>
    cases nd with
    | leaf b v =>
      have hv := hc.2.1
      have hnp := hc.2.2.resolve_left (Nat.succ_ne_zero n)
      cases nd' with
      | leaf b' w => rw [QTNode.nodesMatch]; exact sameActive_of hv hc'.2.1 h h'
      | node b' w ds =>
        rw [QTNode.nodesMatch, sameActive_of hv hc'.2.1 h h', anyActivePartial_of hc'.2.1 h' hnp]
        rfl
    | node b v cs =>
      have hv := hc.2.1
      cases nd' with
      | leaf b' w =>
        rw [QTNode.nodesMatch, sameActive_of hv hc'.2.1 h h',
          anyActivePartial_of hv h (hc'.2.2.resolve_left (Nat.succ_ne_zero n))]
        rfl
      | node b' w ds =>
        rw [QTNode.nodesMatch, sameActive_of hv hc'.2.1 h h', Bool.true_and, List.all_eq_true]
        intro i _
        exact ih _ _ _ _ _ (hc.2.2.2 i) (hc'.2.2.2 i) hok.child hok'.child (h.child hok hok') (h'.child hok' hok)

end QTNode

end Jagua
