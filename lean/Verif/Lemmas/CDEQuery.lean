import Verif.Lemmas.CDEInv
import Verif.Lemmas.QTAddr
import Verif.Spec.Engine

/-!
# Queries of the collision detection engine depend on the registered hazards only
-/

set_option linter.unusedSectionVars false

namespace Jagua

variable {K : Type*} [Arith K] [LinearOrder K] {n : ℕ}

theorem mem_treeHaz_active {c : CDE K n} {x : QTHazard K} :
    (x ∈ c.treeHaz ∧ x.active = true) ↔ ∃ h ∈ c.allHazards, x = QTHazard.ofHazard h := by
  unfold CDE.treeHaz CDE.allHazards
  simp only [List.append_assoc, List.mem_append, List.mem_map]
  constructor
  · rintro ⟨⟨h, hh, rfl⟩ | ⟨h, hh, rfl⟩ | ⟨h, hh, rfl⟩, ha⟩
    · exact ⟨h, .inl hh, rfl⟩
    · exact ⟨h, .inr hh, rfl⟩
    · simp [QTHazard.ofInactive] at ha
  · rintro ⟨h, hh | hh, rfl⟩
    · exact ⟨.inl ⟨h, hh, rfl⟩, rfl⟩
    · exact ⟨.inr (.inl ⟨h, hh, rfl⟩), rfl⟩

/-- `quadtree.collides` in terms of the registered hazards. -/
theorem CDE.Inv.collides {f : Fpa K} {c : CDE K n} (hi : c.Inv f) (q : Queryable K) (irr : List (HazardEntity K)) :
    ∃ res, c.tree.collides q irr = some res ∧
      (res.isSome = true ↔ ∃ h ∈ c.allHazards, h.entity ∉ irr ∧ coll1 f q n c.bbox (QTHazard.ofHazard h) = true) ∧
      ∀ e, res = some e → ∃ h ∈ c.allHazards, h.entity = e ∧ h.entity ∉ irr ∧
        coll1 f q n c.bbox (QTHazard.ofHazard h) = true := by
  obtain ⟨res, h1, h2, h3⟩ := QTNode.collides_spec c.tree c.bbox c.treeHaz hi.canon (treeHaz_ok c) q irr
  refine ⟨res, h1, ?_, ?_⟩
  · rw [h2]
    constructor
    · rintro ⟨x, hx, ha, hr⟩
      obtain ⟨h, hh, rfl⟩ := mem_treeHaz_active.1 ⟨hx, ha⟩
      exact ⟨h, hh, hr⟩
    · rintro ⟨h, hh, hr⟩
      obtain ⟨hx, ha⟩ := mem_treeHaz_active.2 ⟨h, hh, rfl⟩
      exact ⟨_, hx, ha, hr⟩
  · intro e he
    obtain ⟨x, hx, hxe, ha, hr⟩ := h3 e he
    obtain ⟨h, hh, rfl⟩ := mem_treeHaz_active.1 ⟨hx, ha⟩
    exact ⟨h, hh, hxe, hr⟩

theorem CDE.Inv.hits {f : Fpa K} {c : CDE K n} (hi : c.Inv f) (q : Queryable K) (irr : List (HazardEntity K)) :
    ∃ b, c.hits q irr = some b ∧
      (b = true ↔ ∃ h ∈ c.allHazards, h.entity ∉ irr ∧ coll1 f q n c.bbox (QTHazard.ofHazard h) = true) := by
  obtain ⟨res, h1, h2, _⟩ := hi.collides q irr
  exact ⟨res.isSome, by unfold CDE.hits; rw [h1]; rfl, h2⟩

theorem CDE.Inv.definitely {f : Fpa K} {c : CDE K n} (hi : c.Inv f) (qr : AARect K → Bool) (irr : List (HazardEntity K)) :
    ∃ t, c.tree.definitelyCollides qr irr = some t ∧
      (t = .true ↔ ∃ h ∈ c.allHazards, h.entity ∉ irr ∧ def1 f qr n c.bbox (QTHazard.ofHazard h) = .true) ∧
      (t = .false ↔ ∀ h ∈ c.allHazards, h.entity ∉ irr → def1 f qr n c.bbox (QTHazard.ofHazard h) = .false) := by
  obtain ⟨res, h1, h2, h3⟩ := QTNode.definitelyCollides_spec c.tree c.bbox c.treeHaz hi.canon (treeHaz_ok c) qr irr
  refine ⟨res, h1, ?_, ?_⟩
  · rw [h2]
    constructor
    · rintro ⟨x, hx, ha, hr⟩
      obtain ⟨h, hh, rfl⟩ := mem_treeHaz_active.1 ⟨hx, ha⟩
      exact ⟨h, hh, hr⟩
    · rintro ⟨h, hh, hr⟩
      obtain ⟨hx, ha⟩ := mem_treeHaz_active.2 ⟨h, hh, rfl⟩
      exact ⟨_, hx, ha, hr⟩
  · rw [h3]
    constructor
    · intro hall h hh
      obtain ⟨hx, ha⟩ := mem_treeHaz_active.2 ⟨h, hh, rfl⟩
      exact hall _ hx ha
    · intro hall x hx ha
      obtain ⟨h, hh, rfl⟩ := mem_treeHaz_active.1 ⟨hx, ha⟩
      exact hall h hh

theorem CDE.Inv.definitelyWith {f : Fpa K} {c : CDE K n} (hi : c.Inv f) (qr : AARect K → Bool) (e : HazardEntity K) :
    ((∀ h ∈ c.allHazards, h.entity ≠ e) → c.tree.definitelyCollidesWith qr e = some .false) ∧
    ∀ h ∈ c.allHazards, h.entity = e →
      c.tree.definitelyCollidesWith qr e = some (def1 f qr n c.bbox (QTHazard.ofHazard h)) := by
  obtain ⟨h1, h2⟩ := QTNode.definitelyCollidesWith_spec c.tree c.bbox c.treeHaz hi.canon (treeHaz_ok c)
    hi.distinctTree qr e
  constructor
  · intro hn
    apply h1
    intro x hx ha
    obtain ⟨h, hh, rfl⟩ := mem_treeHaz_active.1 ⟨hx, ha⟩
    exact hn h hh
  · intro h hh he
    obtain ⟨hx, ha⟩ := mem_treeHaz_active.2 ⟨h, hh, rfl⟩
    exact h2 _ hx ha he

theorem ofHazard_erase (h : Hazard K) : QTHazard.ofHazard h.erase = (QTHazard.ofHazard h).erase := rfl

theorem coll1_hazard (f : Fpa K) (q : Queryable K) (r : AARect K) (h : Hazard K) :
    coll1 f q n r (QTHazard.ofHazard h.erase) = coll1 f q n r (QTHazard.ofHazard h) := coll1_erase f q n r (ofHazard_ok h)

theorem def1_hazard (f : Fpa K) (qr : AARect K → Bool) (r : AARect K) (h : Hazard K) :
    def1 f qr n r (QTHazard.ofHazard h.erase) = def1 f qr n r (QTHazard.ofHazard h) := def1_erase f qr n r (ofHazard_ok h)

/-- Two engines over the same box with the same registered hazards, up to the
addresses of the shapes. -/
structure CDE.Same (f : Fpa K) (c d : CDE K n) : Prop where
  inv₁ : c.Inv f
  inv₂ : d.Inv f
  bbox : c.bbox = d.bbox
  haz : ∀ h, h ∈ c.allHazards.map Hazard.erase ↔ h ∈ d.allHazards.map Hazard.erase

theorem CDE.Same.symm {f : Fpa K} {c d : CDE K n} (h : c.Same f d) : d.Same f c :=
  ⟨h.inv₂, h.inv₁, h.bbox.symm, fun x => (h.haz x).symm⟩

theorem CDE.Same.trans {f : Fpa K} {c d e : CDE K n} (h : c.Same f d) (h' : d.Same f e) : c.Same f e :=
  ⟨h.inv₁, h'.inv₂, h.bbox.trans h'.bbox, fun x => (h.haz x).trans (h'.haz x)⟩

theorem CDE.Same.mem {f : Fpa K} {c d : CDE K n} (hs : c.Same f d) {h : Hazard K} (hh : h ∈ c.allHazards) :
    ∃ h' ∈ d.allHazards, h'.erase = h.erase :=
  List.mem_map.1 ((hs.haz _).1 (List.mem_map_of_mem hh))

theorem erase_entity {h h' : Hazard K} (e : h'.erase = h.erase) : h'.entity = h.entity := by
  show h'.erase.entity = h.erase.entity
  rw [e]

theorem erase_active {h h' : Hazard K} (e : h'.erase = h.erase) : h'.active = h.active := by
  show h'.erase.active = h.erase.active
  rw [e]

theorem erase_val {h h' : Hazard K} (e : h'.erase = h.erase) : h'.shape.val = h.shape.val := by
  show h'.erase.shape.val = h.erase.shape.val
  rw [e]

/-- statements about the registered hazards that do not see addresses -/
theorem CDE.Same.exists_iff {f : Fpa K} {c d : CDE K n} (hs : c.Same f d) {P : Hazard K → Prop}
    (hP : ∀ h h', h'.erase = h.erase → P h → P h') : (∃ h ∈ c.allHazards, P h) ↔ ∃ h ∈ d.allHazards, P h := by
  constructor
  · rintro ⟨h, hh, hp⟩
    obtain ⟨h', hh', e⟩ := hs.mem hh
    exact ⟨h', hh', hP h h' e hp⟩
  · rintro ⟨h, hh, hp⟩
    obtain ⟨h', hh', e⟩ := hs.symm.mem hh
    exact ⟨h', hh', hP h h' e hp⟩

theorem CDE.Same.forall_iff {f : Fpa K} {c d : CDE K n} (hs : c.Same f d) {P : Hazard K → Prop}
    (hP : ∀ h h', h'.erase = h.erase → P h → P h') : (∀ h ∈ c.allHazards, P h) ↔ ∀ h ∈ d.allHazards, P h := by
  constructor
  · intro H h hh
    obtain ⟨h', hh', e⟩ := hs.symm.mem hh
    exact hP h' h e.symm (H h' hh')
  · intro H h hh
    obtain ⟨h', hh', e⟩ := hs.mem hh
    exact hP h' h e.symm (H h' hh')

theorem bool_ext {a b : Bool} (h : a = true ↔ b = true) : a = b := by
  cases a <;> cases b <;> simp_all

theorem tribool_ext {a b : Tribool} (h : a = .true ↔ b = .true) (h' : a = .false ↔ b = .false) : a = b := by
  cases a <;> cases b <;> simp_all

theorem CDE.Same.hits {f : Fpa K} {c d : CDE K n} (hs : c.Same f d) (q : Queryable K) (irr : List (HazardEntity K)) :
    c.hits q irr = d.hits q irr := by
  obtain ⟨b, e1, s1⟩ := hs.inv₁.hits q irr
  obtain ⟨b', e2, s2⟩ := hs.inv₂.hits q irr
  rw [e1, e2]
  congr 1
  apply bool_ext
  rw [s1, s2, hs.bbox]
  refine hs.exists_iff ?_
  rintro h h' e ⟨h1, h2⟩
  exact ⟨erase_entity e ▸ h1, by rw [← coll1_hazard, e, coll1_hazard]; exact h2⟩

theorem CDE.Same.definitely {f : Fpa K} {c d : CDE K n} (hs : c.Same f d) (qr : AARect K → Bool)
    (irr : List (HazardEntity K)) : c.tree.definitelyCollides qr irr = d.tree.definitelyCollides qr irr := by
  obtain ⟨b, e1, s1, t1⟩ := hs.inv₁.definitely qr irr
  obtain ⟨b', e2, s2, t2⟩ := hs.inv₂.definitely qr irr
  rw [e1, e2]
  congr 1
  apply tribool_ext
  · rw [s1, s2, hs.bbox]
    refine hs.exists_iff ?_
    rintro h h' e ⟨h1, h2⟩
    exact ⟨erase_entity e ▸ h1, by rw [← def1_hazard, e, def1_hazard]; exact h2⟩
  · rw [t1, t2, hs.bbox]
    refine hs.forall_iff ?_
    intro h h' e h1 h2
    rw [← def1_hazard, e, def1_hazard]
    exact h1 (erase_entity e ▸ h2)

theorem CDE.Same.definitelyWith {f : Fpa K} {c d : CDE K n} (hs : c.Same f d) (qr : AARect K → Bool)
    (e : HazardEntity K) : c.tree.definitelyCollidesWith qr e = d.tree.definitelyCollidesWith qr e := by
  obtain ⟨s1, t1⟩ := hs.inv₁.definitelyWith qr e
  obtain ⟨s2, t2⟩ := hs.inv₂.definitelyWith qr e
  by_cases h : ∃ x ∈ c.allHazards, x.entity = e
  · obtain ⟨x, hx, he⟩ := h
    obtain ⟨y, hy, hxy⟩ := hs.mem hx
    rw [t1 x hx he, t2 y hy ((erase_entity hxy).trans he), hs.bbox, ← def1_hazard, ← hxy, def1_hazard]
  · push Not at h
    rw [s1 h, s2 fun x hx hxe => by
      obtain ⟨y, hy, hxy⟩ := hs.symm.mem hx
      exact h y hy ((erase_entity hxy).trans hxe)]

theorem anyM_congr {α : Type*} {f g : α → Option Bool} {l : List α} (h : ∀ a ∈ l, f a = g a) :
    CDE.anyM f l = CDE.anyM g l := by
  induction l with
  | nil => rfl
  | cons a l ih =>
    rw [CDE.anyM, CDE.anyM, h a List.mem_cons_self, ih fun x hx => h x (List.mem_cons_of_mem _ hx)]

theorem anyM_some {α : Type*} {f : α → Option Bool} {g : α → Bool} {l : List α} (h : ∀ a ∈ l, f a = some (g a)) :
    CDE.anyM f l = some (l.any g) := by
  induction l with
  | nil => rfl
  | cons a l ih =>
    rw [CDE.anyM, h a List.mem_cons_self, ih fun x hx => h x (List.mem_cons_of_mem _ hx), List.any_cons]
    cases g a <;> rfl

theorem CDE.Inv.containedTest_some {f : Fpa K} {c : CDE K n} (hi : c.Inv f) (s : SPoly K) {h : Hazard K}
    (hh : h ∈ c.allHazards) : ∃ b, c.containedTest f s h = some b := by
  unfold CDE.containedTest
  cases h.shape.val.bbox.almostRelationTo f s.bbox with
  | surrounding =>
    dsimp only
    rw [(hi.definitelyWith _ h.entity).2 h hh rfl]
    cases def1 f (fun r => r.collidesPoint s.poi.center) n c.bbox (QTHazard.ofHazard h) <;> exact ⟨_, rfl⟩
  | enclosed => exact ⟨_, rfl⟩
  | disjoint => exact ⟨_, rfl⟩
  | intersecting => exact ⟨_, rfl⟩

theorem CDE.Same.containedTest {f : Fpa K} {c d : CDE K n} (hs : c.Same f d) (s : SPoly K) (h : Hazard K) :
    c.containedTest f s h = d.containedTest f s h := by
  unfold CDE.containedTest
  rw [hs.definitelyWith]

theorem CDE.Inv.byContainment {f : Fpa K} {c : CDE K n} (hi : c.Inv f) (s : SPoly K) (irr : List (HazardEntity K)) :
    ∃ b, c.byContainment f s irr = some b ∧ (b = true ↔ ∃ h ∈ c.allHazards, h.active = true ∧ h.entity ∉ irr ∧
      c.containedTest f s h = some true) := by
  unfold CDE.byContainment
  rw [anyM_some (g := fun h => (c.containedTest f s h).getD false)]
  · refine ⟨_, rfl, ?_⟩
    rw [List.any_eq_true]
    constructor
    · rintro ⟨h, hm, ht⟩
      obtain ⟨h1, h2⟩ := List.mem_filter.1 hm
      obtain ⟨b, hb⟩ := hi.containedTest_some s h1
      rw [hb] at ht
      simp only [Option.getD_some] at ht
      subst ht
      simp only [Bool.and_eq_true, Bool.not_eq_true', List.contains_eq_mem, decide_eq_false_iff_not] at h2
      exact ⟨h, h1, h2.1, h2.2, hb⟩
    · rintro ⟨h, h1, h2, h3, h4⟩
      refine ⟨h, List.mem_filter.2 ⟨h1, by simp [h2, h3]⟩, by rw [h4]; rfl⟩
  · intro h hm
    obtain ⟨b, hb⟩ := hi.containedTest_some s (List.mem_filter.1 hm).1
    rw [hb]
    rfl

theorem CDE.Same.byContainment {f : Fpa K} {c d : CDE K n} (hs : c.Same f d) (s : SPoly K)
    (irr : List (HazardEntity K)) : c.byContainment f s irr = d.byContainment f s irr := by
  obtain ⟨b, e1, s1⟩ := hs.inv₁.byContainment s irr
  obtain ⟨b', e2, s2⟩ := hs.inv₂.byContainment s irr
  rw [e1, e2]
  congr 1
  apply bool_ext
  rw [s1, s2]
  refine (hs.exists_iff ?_).trans ?_
  · rintro h h' e ⟨h1, h2, h3⟩
    refine ⟨erase_active e ▸ h1, erase_entity e ▸ h2, ?_⟩
    unfold CDE.containedTest at h3 ⊢
    rw [erase_entity e, erase_val e]
    exact h3
  · simp only [hs.containedTest]

theorem CDE.Same.byEdge {f : Fpa K} {c d : CDE K n} (hs : c.Same f d) (s : SPoly K)
    (irr : List (HazardEntity K)) : c.byEdgeIntersection s irr = d.byEdgeIntersection s irr :=
  anyM_congr fun _ _ => hs.hits _ _

theorem CDE.Same.polyCollides {f : Fpa K} {c d : CDE K n} (hs : c.Same f d) (s : SPoly K)
    (irr : List (HazardEntity K)) : c.polyCollides f s irr = d.polyCollides f s irr := by
  unfold CDE.polyCollides
  rw [hs.bbox, hs.byEdge, hs.byContainment]

theorem CDE.Same.surrogateCollides {f : Fpa K} {c d : CDE K n} (hs : c.Same f d) (poles : List (Circle K))
    (piers : List (Edge K)) (irr : List (HazardEntity K)) :
    c.surrogateCollides poles piers irr = d.surrogateCollides poles piers irr :=
  anyM_congr fun _ _ => hs.hits _ _

theorem CDE.Inv.byEdge {f : Fpa K} {c : CDE K n} (hi : c.Inv f) (s : SPoly K) (irr : List (HazardEntity K)) :
    ∃ b, c.byEdgeIntersection s irr = some b ∧ (b = true ↔ ∃ e ∈ s.edges, ∃ h ∈ c.allHazards, h.entity ∉ irr ∧
      coll1 f e.toQuery n c.bbox (QTHazard.ofHazard h) = true) := by
  unfold CDE.byEdgeIntersection
  rw [anyM_some (g := fun e => (c.hits e.toQuery irr).getD false)]
  · refine ⟨_, rfl, ?_⟩
    rw [List.any_eq_true]
    refine exists_congr fun e => and_congr_right fun _ => ?_
    obtain ⟨b, hb, hb'⟩ := hi.hits e.toQuery irr
    rw [hb, Option.getD_some]
    exact hb'
  · intro e _
    obtain ⟨b, hb, _⟩ := hi.hits e.toQuery irr
    rw [hb]
    rfl

theorem CDE.Inv.surrogate {f : Fpa K} {c : CDE K n} (hi : c.Inv f) (poles : List (Circle K)) (piers : List (Edge K))
    (irr : List (HazardEntity K)) :
    ∃ b, c.surrogateCollides poles piers irr = some b ∧ (b = true ↔
      (∃ p ∈ poles, ∃ h ∈ c.allHazards, h.entity ∉ irr ∧ coll1 f p.toQuery n c.bbox (QTHazard.ofHazard h) = true) ∨
      ∃ p ∈ piers, ∃ h ∈ c.allHazards, h.entity ∉ irr ∧ coll1 f p.toQuery n c.bbox (QTHazard.ofHazard h) = true) := by
  unfold CDE.surrogateCollides
  rw [anyM_some (g := fun q => (c.hits q irr).getD false)]
  · refine ⟨_, rfl, ?_⟩
    have key : ∀ q, (c.hits q irr).getD false = true ↔
        ∃ h ∈ c.allHazards, h.entity ∉ irr ∧ coll1 f q n c.bbox (QTHazard.ofHazard h) = true := by
      intro q
      obtain ⟨b, hb, hb'⟩ := hi.hits q irr
      rw [hb, Option.getD_some]
      exact hb'
    rw [List.any_append, Bool.or_eq_true, List.any_eq_true, List.any_eq_true]
    simp only [List.mem_map, exists_exists_and_eq_and, key]
  · intro q _
    obtain ⟨b, hb, _⟩ := hi.hits q irr
    rw [hb]
    rfl

theorem CDE.Inv.polyCollides_some {f : Fpa K} {c : CDE K n} (hi : c.Inv f) (s : SPoly K) (irr : List (HazardEntity K)) :
    ∃ b, c.polyCollides f s irr = some b := by
  unfold CDE.polyCollides
  obtain ⟨b, hb, _⟩ := hi.byEdge s irr
  obtain ⟨b', hb', _⟩ := hi.byContainment s irr
  cases c.bbox.relationTo s.bbox with
  | surrounding =>
    dsimp only
    rw [hb, hb']
    cases b <;> exact ⟨_, rfl⟩
  | enclosed => exact ⟨_, rfl⟩
  | disjoint => exact ⟨_, rfl⟩
  | intersecting => exact ⟨_, rfl⟩

end Jagua
