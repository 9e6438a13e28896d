import Verif.Lemmas.CDEGeo
import Verif.Spec.Examples

/-! # C02 - C04, C09, C10: the quadtree and its queries -/

set_option linter.unusedSectionVars false

namespace Jagua

variable {K : Type*} [Arith K] [LinearOrder K]

/-! ## C02 The hazard list of a node -/

/-- Calls on the hazard list of a node, paired with what they mean for the plain
list of stored hazards. Callers add an entity that is not stored yet, activate
entities that are not active and deactivate entities that are active. -/
inductive VecRun (o : SearchOracle K) : QTHazardVec K → List (QTHazard K) → Prop
  | empty : VecRun o .empty []
  | add {v hs} (x) : VecRun o v hs → (∀ h ∈ hs, h.entity ≠ x.entity) → VecRun o (v.add o x) (x :: hs)
  | remove {v hs v' r} (e) : VecRun o v hs → v.remove e = some (v', r) → VecRun o v' (hs.filter fun h => h.entity ≠ e)
  | activate {v hs} (e) : VecRun o v hs → (∀ h ∈ hs, h.entity = e → h.active = false) →
      VecRun o (v.activate o e).1 (hs.map fun h => if h.entity = e then { h with active := true } else h)
  | deactivate {v hs v' r} (e) : VecRun o v hs → (∀ h ∈ hs, h.entity = e → h.active = true) →
      v.deactivate o e = some (v', r) →
      VecRun o v' (hs.map fun h => if h.entity = e then { h with active := false } else h)

theorem VecRun.inv {o : SearchOracle K} {v : QTHazardVec K} {hs : List (QTHazard K)} (h : VecRun o v hs) :
    VecInv v hs ∧ DistinctEntities hs := by
  induction h with
  | empty => exact ⟨vecInv_empty, List.Pairwise.nil⟩
  | add x _ hx ih => exact ⟨ih.1.add o x, List.pairwise_cons.2 ⟨fun h hh => (hx h hh).symm, ih.2⟩⟩
  | remove e _ hr ih =>
    obtain ⟨v', r, h1, h2, _⟩ := ih.1.remove ih.2 e
    rw [hr] at h1
    obtain ⟨rfl, rfl⟩ := Prod.mk.inj (Option.some.inj h1)
    exact ⟨h2, ih.2.filter _⟩
  | activate e _ hx ih =>
    refine ⟨(ih.1.activate ih.2 o e hx).1, ?_⟩
    exact (List.pairwise_map.2 (ih.2.imp fun {a b} hab => by
      change (setActive e true a).entity ≠ (setActive e true b).entity
      rw [setActive_entity, setActive_entity]; exact hab))
  | deactivate e _ hx hr ih =>
    obtain ⟨v', m, h1, h2, _⟩ := ih.1.deactivate ih.2 o e hx
    rw [hr] at h1
    obtain ⟨rfl, rfl⟩ := Prod.mk.inj (Option.some.inj h1)
    refine ⟨h2, ?_⟩
    exact (List.pairwise_map.2 (ih.2.imp fun {a b} hab => by
      change (setActive e false a).entity ≠ (setActive e false b).entity
      rw [setActive_entity, setActive_entity]; exact hab))

/-- C02: no call panics. -/
theorem C02_never_panics {o : SearchOracle K} {v : QTHazardVec K} {hs : List (QTHazard K)} (h : VecRun o v hs)
    (e : HazardEntity K) (irr : List (HazardEntity K)) :
    (∃ r, v.remove e = some r) ∧ ((∀ h ∈ hs, h.entity = e → h.active = true) → ∃ r, v.deactivate o e = some r) ∧
    (∃ r, v.strongest irr = some r) ∧ ∃ r, v.activeHazards = some r := by
  obtain ⟨hi, hd⟩ := h.inv
  refine ⟨?_, ?_, ?_, ?_⟩
  · obtain ⟨v', r, h1, _⟩ := hi.remove hd e
    exact ⟨_, h1⟩
  · intro hx
    obtain ⟨v', r, h1, _⟩ := hi.deactivate hd o e hx
    exact ⟨_, h1⟩
  · obtain ⟨r, h1, _⟩ := hi.strongest irr
    exact ⟨r, h1⟩
  · exact ⟨_, hi.activeHazards_eq⟩

/-- C02: the list holds exactly the stored hazards, active ones first and by
decreasing presence within the active and the inactive ones; the counter is the
number of active hazards. -/
theorem C02_ordered_and_counted {o : SearchOracle K} {v : QTHazardVec K} {hs : List (QTHazard K)} (h : VecRun o v hs) :
    v.hazards.Perm hs ∧ v.nActive = (hs.filter (·.active)).length ∧
    v.hazards.Pairwise (fun a b => (b.active = true → a.active = true) ∧
      (a.active = b.active → b.presence.rank ≤ a.presence.rank)) ∧
    v.activeHazards = some (v.hazards.filter (·.active)) := by
  obtain ⟨hi, hd⟩ := h.inv
  refine ⟨hi.perm, ?_, ?_, hi.activeHazards_eq⟩
  · rw [hi.count, hi.perm.countP_eq, List.countP_eq_length_filter]
  · refine hi.sorted.imp ?_
    intro a b hab
    have ha := a.presence.rank_le
    have hb := b.presence.rank_le
    unfold QTHazard.strength at hab
    constructor
    · intro hb'
      by_contra ha'
      simp only [hb', ha', if_true, if_false] at hab
      omega
    · intro he
      rw [he] at hab
      omega

/-- C02: `strongest` returns an active relevant hazard of maximal presence, or
nothing exactly when there is no active relevant hazard. -/
theorem C02_strongest {o : SearchOracle K} {v : QTHazardVec K} {hs : List (QTHazard K)} (h : VecRun o v hs)
    (irr : List (HazardEntity K)) :
    (v.strongest irr = some none ↔ ∀ x ∈ hs, x.active = true → x.entity ∈ irr) ∧
    ∀ s, v.strongest irr = some (some s) → s ∈ hs ∧ s.active = true ∧ s.entity ∉ irr ∧
      ∀ x ∈ hs, x.active = true → x.entity ∉ irr → x.presence.rank ≤ s.presence.rank := by
  obtain ⟨hi, hd⟩ := h.inv
  obtain ⟨r, h1, h2, h3⟩ := hi.strongest irr
  rw [h1]
  refine ⟨⟨fun hr => h2 (Option.some.inj hr), ?_⟩, fun s hs => h3 s (Option.some.inj hs)⟩
  intro hall
  cases r with
  | none => rfl
  | some s =>
    obtain ⟨a, b, c, _⟩ := h3 s rfl
    exact absurd (hall s a b) c

/-- C02: looking up an entity finds it exactly when it is stored and active. -/
theorem C02_get {o : SearchOracle K} {v : QTHazardVec K} {hs : List (QTHazard K)} (h : VecRun o v hs)
    (e : HazardEntity K) (x : QTHazard K) : v.get e = some x ↔ x ∈ hs ∧ x.active = true ∧ x.entity = e := by
  obtain ⟨hi, hd⟩ := h.inv
  exact (hi.get hd e).2 x

/-- A run that uses all four calls. -/
example : ∃ v : QTHazardVec ℚ, VecRun SearchOracle.first v
    [⟨.binHole 1, .entire, true⟩, ⟨.binExterior, .partly ⟨⟨0, Ex.bin⟩, .all⟩, false⟩] := by
  have h1 := VecRun.add (o := SearchOracle.first) (⟨.binExterior, .partly ⟨⟨0, Ex.bin⟩, .all⟩, true⟩ : QTHazard ℚ) .empty
    (by simp)
  have h2 := VecRun.add (⟨.binHole 1, .entire, true⟩ : QTHazard ℚ) h1 (by simp)
  have h3 := VecRun.add (⟨.binHole 2, .entire, true⟩ : QTHazard ℚ) h2 (by simp)
  obtain ⟨⟨v4, r4⟩, e4⟩ := (C02_never_panics h3 (.binHole 2) []).1
  have h4 := VecRun.remove (.binHole 2) h3 e4
  simp at h4
  obtain ⟨⟨v5, r5⟩, e5⟩ := (C02_never_panics h4 .binExterior []).2.1 (by simp)
  have h5 := VecRun.deactivate .binExterior h4 (by simp) e5
  simp at h5
  obtain ⟨⟨v6, r6⟩, e6⟩ := (C02_never_panics h5 (.binHole 1) []).2.1 (by simp)
  have h6 := VecRun.deactivate (.binHole 1) h5 (by simp) e6
  simp at h6
  have h7 := VecRun.activate (.binHole 1) h6 (by simp)
  simp at h7
  exact ⟨_, h7⟩

variable {K : Type*} [Field K] [LinearOrder K] [IsStrictOrderedRing K] {n : ℕ}

/-! ## C03 No missed edge -/

/-- C03: if no collision is reported for an edge inside the engine's box, then
every edge of every relevant hazard is parallel to it or disjoint from it. -/
theorem C03_edge_not_missed {o : SearchOracle K} {c : CDE K n} (hr : c.Reachable Fpa.exact o) (hg : c.Good)
    {irr : List (HazardEntity K)} {e : Edge K} (hin : e.pts ⊆ c.bbox.pts)
    (h : c.tree.collides e.toQuery irr = some none) :
    ∀ x ∈ c.allHazards, x.entity ∉ irr → ∀ e' ∈ x.shape.val.edges, ¬ e.Parallel e' → e.pts ∩ e'.pts = ∅ := by
  intro x hx hxi e' he' hpar
  obtain ⟨res, h1, h2, _⟩ := hr.inv.collides e.toQuery irr
  rw [h] at h1
  obtain rfl := Option.some.inj h1
  rw [Set.eq_empty_iff_forall_notMem]
  rintro w ⟨hw, hw'⟩
  have ht : e.toQuery.edge e' = true := (collidesEdge_iff e e').2 ⟨hpar, w, hw, hw'⟩
  have := h2.2 ⟨x, hx, hxi, hg.complete hx (queryOK_edge e) he' ht hw hw' (hin hw)⟩
  simp at this

/-- C03: if no collision is reported for a circle, then the outline of no
relevant hazard meets it inside the engine's box. -/
theorem C03_circle_not_missed {o : SearchOracle K} {c : CDE K n} (hr : c.Reachable Fpa.exact o) (hg : c.Good)
    {irr : List (HazardEntity K)} {ci : Circle K} (h : c.tree.collides ci.toQuery irr = some none) :
    ∀ x ∈ c.allHazards, x.entity ∉ irr → ∀ w ∈ ci.pts, w ∈ c.bbox.pts → w ∉ bdry x.shape.val.points := by
  intro x hx hxi w hw hwr hwb
  obtain ⟨res, h1, h2, _⟩ := hr.inv.collides ci.toQuery irr
  rw [h] at h1
  obtain rfl := Option.some.inj h1
  obtain ⟨e', he', hwe⟩ := mem_bdry_iff.1 hwb
  have ht : ci.toQuery.edge e' = true := (circle_collidesEdge_iff ci e').2 ⟨w, hwe, hw⟩
  have := h2.2 ⟨x, hx, hxi, hg.complete hx (queryOK_circle ci) he' ht hw hwe hwr⟩
  simp at this

/-- C03: the same for rectangles. -/
theorem C03_rect_not_missed {o : SearchOracle K} {c : CDE K n} (hr : c.Reachable Fpa.exact o) (hg : c.Good)
    {irr : List (HazardEntity K)} {b : AARect K} (hb : b.Valid) (h : c.tree.collides b.toQuery irr = some none) :
    ∀ x ∈ c.allHazards, x.entity ∉ irr → ∀ w ∈ b.pts, w ∈ c.bbox.pts → w ∉ bdry x.shape.val.points := by
  intro x hx hxi w hw hwr hwb
  obtain ⟨res, h1, h2, _⟩ := hr.inv.collides b.toQuery irr
  rw [h] at h1
  obtain rfl := Option.some.inj h1
  obtain ⟨e', he', hwe⟩ := mem_bdry_iff.1 hwb
  have ht : b.toQuery.edge e' = true := (rect_collidesEdge_iff b e' hb).2 ⟨w, hwe, hw⟩
  have := h2.2 ⟨x, hx, hxi, hg.complete hx (queryOK_rect b hb) he' ht hw hwe hwr⟩
  simp at this

/-- Non-trivial instance: an edge, a circle and a rectangle next to the square of
the example engine, for which nothing is reported. -/
example : ∃ c : CDE ℚ 2, c.Reachable Fpa.exact SearchOracle.first ∧ c.Good ∧ c.allHazards = [Ex.hBin, Ex.hSq] ∧
    c.tree.collides (Edge.mk ⟨1, 1⟩ ⟨4, 7⟩).toQuery [] = some none ∧
    c.tree.collides (Circle.mk ⟨3, 5⟩ 1).toQuery [] = some none ∧
    c.tree.collides (AARect.mk 1 1 4 7).toQuery [] = some none := by
  obtain ⟨c, h1, h2, h3, h4, h5, _, hc⟩ := Ex.exists_engine
  have : (Ex.start.bind (Ex.runChecked Ex.ops)).map (fun c => (c.tree.collides (Edge.mk ⟨1, 1⟩ ⟨4, 7⟩).toQuery [],
      c.tree.collides (Circle.mk ⟨3, 5⟩ 1).toQuery [], c.tree.collides (AARect.mk 1 1 4 7).toQuery []))
      = some (some none, some none, some none) := by decide +kernel
  rw [hc] at this
  simp only [Option.map_some, Option.some.injEq, Prod.mk.injEq] at this
  exact ⟨c, h1, Ex.good h2 h3 h5, by unfold CDE.allHazards; rw [h2, h3]; rfl, this⟩

/-! ## C04 No phantom -/

/-- C04: an entity reported for an edge, circle or rectangle belongs to a
registered, relevant hazard whose closed forbidden region shares a point with the
query object. -/
theorem C04_no_phantom {o : SearchOracle K} {c : CDE K n} (hr : c.Reachable Fpa.exact o) (hg : c.Good)
    {irr : List (HazardEntity K)} {ent : HazardEntity K} :
    (∀ e : Edge K, c.tree.collides e.toQuery irr = some (some ent) → ∃ x ∈ c.allHazards, x.entity = ent ∧ ent ∉ irr ∧
      ∃ w ∈ e.pts, w ∈ closedHaz ent.position x.shape.val.points) ∧
    (∀ ci : Circle K, c.tree.collides ci.toQuery irr = some (some ent) → ∃ x ∈ c.allHazards, x.entity = ent ∧ ent ∉ irr ∧
      ∃ w ∈ ci.pts, w ∈ closedHaz ent.position x.shape.val.points) ∧
    (∀ b : AARect K, b.Valid → c.tree.collides b.toQuery irr = some (some ent) → ∃ x ∈ c.allHazards, x.entity = ent ∧
      ent ∉ irr ∧ ∃ w ∈ b.pts, w ∈ closedHaz ent.position x.shape.val.points) := by
  have key : ∀ (q : Queryable K) (S : Set (Point K)), QueryOK q S → c.tree.collides q irr = some (some ent) →
      ∃ x ∈ c.allHazards, x.entity = ent ∧ ent ∉ irr ∧ ∃ w ∈ S, w ∈ closedHaz ent.position x.shape.val.points := by
    intro q S hq h
    obtain ⟨res, h1, _, h3⟩ := hr.inv.collides q irr
    rw [h] at h1
    obtain ⟨x, hx, he, hxi, hc⟩ := h3 ent (Option.some.inj h1).symm
    obtain ⟨w, hw, hwc⟩ := hg.sound hx hq hc
    exact ⟨x, hx, he, he ▸ hxi, w, hw, he ▸ hwc⟩
  exact ⟨fun e => key _ _ (queryOK_edge e), fun ci => key _ _ (queryOK_circle ci), fun b hb => key _ _ (queryOK_rect b hb)⟩

/-- Non-trivial instance: reported entities, an item and the outside of the bin. -/
example : ∃ c : CDE ℚ 2, c.Reachable Fpa.exact SearchOracle.first ∧ c.Good ∧
    c.tree.collides (Edge.mk ⟨1, 1⟩ ⟨6, 7⟩).toQuery [] = some (some Ex.hSq.entity) ∧
    c.tree.collides (Circle.mk ⟨1, 2⟩ 2).toQuery [] = some (some .binExterior) := by
  obtain ⟨c, h1, h2, h3, h4, h5, _, hc⟩ := Ex.exists_engine
  have : (Ex.start.bind (Ex.runChecked Ex.ops)).map (fun c => (c.tree.collides (Edge.mk ⟨1, 1⟩ ⟨6, 7⟩).toQuery [],
      c.tree.collides (Circle.mk ⟨1, 2⟩ 2).toQuery []))
      = some (some (some Ex.hSq.entity), some (some .binExterior)) := by decide +kernel
  rw [hc] at this
  simp only [Option.map_some, Option.some.injEq, Prod.mk.injEq] at this
  exact ⟨c, h1, Ex.good h2 h3 h5, this⟩

/-! ## C09 Collecting everything -/

/-- C09 is violated: a reachable engine with a bin, a zone of low quality and an
item placed in it. An edge of the query polygon intersects edges of the item, and
yet `collect_poly_collisions` reports only the zone. -/
theorem C09_collecting_misses_hazard : ∃ (c : CDE ℚ 3) (e e' : Edge ℚ),
    c.Reachable Fpa.exact SearchOracle.first ∧ Ex.hSmall ∈ c.allHazards ∧
    e ∈ Ex.wedge.edges ∧ e' ∈ Ex.hSmall.shape.val.edges ∧ e.collidesEdge e' = true ∧
    c.collectPolyCollisions Fpa.exact Ex.wedge [] [] = some [Ex.hZone.entity] ∧
    c.polyCollides Fpa.exact Ex.wedge [Ex.hZone.entity] = some true := by
  obtain ⟨c, hc⟩ : ∃ c, (CDE.new Fpa.exact SearchOracle.first 3 ⟨0, 0, 8, 8⟩ [Ex.hBin, Ex.hZone]).bind
      (Ex.runChecked [.register Ex.hSmall]) = some c := Option.isSome_iff_exists.1 (by decide +kernel)
  have h : ((CDE.new Fpa.exact SearchOracle.first 3 ⟨0, 0, 8, 8⟩ [Ex.hBin, Ex.hZone]).bind
      (Ex.runChecked [.register Ex.hSmall])).map (fun c => (c.dynamics, c.collectPolyCollisions Fpa.exact Ex.wedge [] [],
        c.polyCollides Fpa.exact Ex.wedge [Ex.hZone.entity]))
      = some ([Ex.hSmall], some [Ex.hZone.entity], some true) := by decide +kernel
  rw [hc] at h
  simp only [Option.map_some, Option.some.injEq, Prod.mk.injEq] at h
  refine ⟨c, ⟨⟨19 / 5, 11 / 4⟩, ⟨1, 11 / 4⟩⟩, ⟨⟨7 / 2, 5 / 2⟩, ⟨7 / 2, 7 / 2⟩⟩, Ex.reachable (by decide) hc, ?_, by decide +kernel,
    by decide +kernel, by decide +kernel, h.2⟩
  unfold CDE.allHazards
  rw [h.1]
  simp

section
variable {K : Type*} [Arith K] [LinearOrder K]

/-- What is proved of C09 (1): for a polygon inside the engine's box, something
is collected exactly when `poly_collides` reports a collision. Missing: all
colliding hazards are collected (false, see above). -/
theorem C09_collects_something_partial {f : Fpa K} {o : SearchOracle K} {c : CDE K n} (hr : c.Reachable f o) (s : SPoly K)
    (hin : c.bbox.relationTo s.bbox = .surrounding) (irr : List (HazardEntity K)) :
    c.collectPolyCollisions f s irr [] = some [] ↔ c.polyCollides f s irr = some false := by
  have hi := hr.inv
  obtain ⟨new, h1, _, h3, h4⟩ := hi.collectPoly s irr []
  obtain ⟨b, e1, e2⟩ := hi.byEdge s irr
  obtain ⟨d, g1, g2⟩ := hi.byContainment s irr
  rw [h1, List.nil_append]
  unfold CDE.polyCollides
  rw [hin, e1, g1]
  dsimp only
  constructor
  · intro hnew
    have hnew := Option.some.inj hnew
    have hall := h4 hnew
    have hb : b = false := by
      rw [Bool.eq_false_iff, ne_eq, e2]
      rintro ⟨e, he, x, hx, hxi, hc⟩
      rw [(hall x hx (by simp) hxi).1 e he] at hc
      simp at hc
    have hd : d = false := by
      rw [Bool.eq_false_iff, ne_eq, g2]
      rintro ⟨x, hx, ha, hxi, hc⟩
      rw [(hall x hx (by simp) hxi).2 ha] at hc
      simp at hc
    rw [hb, hd]
  · intro h
    have hb : b = false := by
      cases b with
      | true => simp at h
      | false => rfl
    rw [hb] at h
    have hd : d = false := Option.some.inj h
    cases hnew : new with
    | nil => rfl
    | cons e l =>
      obtain ⟨_, hei, hc⟩ := h3 e (by rw [hnew]; simp)
      rcases hc with ⟨x, hx, rfl, q, hq, hc⟩ | ⟨x, hx, ha, rfl, hc⟩
      · obtain ⟨e', he', rfl⟩ := List.mem_map.1 hq
        rw [e2.2 ⟨e', he', x, hx, hei, hc⟩] at hb
        simp at hb
      · rw [g2.2 ⟨x, hx, ha, hei, hc⟩] at hd
        simp at hd

end

/-- What is proved of C09 (2): collecting is complete when no two relevant
hazards overlap, meaning that the open forbidden region of one never meets the
closed forbidden region of another. Then every relevant hazard one of whose edges
is crossed by an edge of the polygon inside the engine's box is collected.
Missing: overlapping hazards, for which the claim is false. -/
theorem C09_complete_without_overlap_partial {o : SearchOracle K} {c : CDE K n} (hr : c.Reachable Fpa.exact o) (hg : c.Good)
    {irr det : List (HazardEntity K)}
    (hno : ∀ a ∈ c.allHazards, ∀ b ∈ c.allHazards, a.entity ≠ b.entity → a.entity ∉ irr → b.entity ∉ irr →
      openHaz a.entity.position a.shape.val.points ∩ closedHaz b.entity.position b.shape.val.points = ∅)
    {s : SPoly K} {res : List (HazardEntity K)} (h : c.collectPolyCollisions Fpa.exact s irr det = some res) :
    ∀ x ∈ c.allHazards, x.entity ∉ irr → ∀ e ∈ s.edges, e.pts ⊆ c.bbox.pts → ∀ e' ∈ x.shape.val.edges, ¬ e.Parallel e' →
      (e.pts ∩ e'.pts).Nonempty → x.entity ∈ res := by
  intro x hx hxi e he hin e' he' hpar hne
  have hi := hr.inv
  by_cases hxd : x.entity ∈ det
  · obtain ⟨new, h1, _⟩ := hi.collectPoly s irr det
    rw [h] at h1
    rw [Option.some.inj h1]
    exact List.mem_append.2 (.inl hxd)
  obtain ⟨w, hw, hw'⟩ := hne
  have ht : e.toQuery.edge e' = true := (collidesEdge_iff e e').2 ⟨hpar, w, hw, hw'⟩
  have hhit := hg.complete hx (queryOK_edge e) he' ht hw hw' (hin hw)
  -- every step of the loop over the edges keeps what it has and finds what it should
  have step : ∀ (e₁ : Edge K) (D : List (HazardEntity K)), (∀ i ∈ irr, i ∈ D) → ∃ R, c.tree.collect e₁.toQuery D = some R ∧
      (∀ i ∈ D, i ∈ R) ∧ (coll1 Fpa.exact e₁.toQuery n c.bbox (QTHazard.ofHazard x) = true → x.entity ∈ R) := by
    intro e₁ D hD
    obtain ⟨R, h1, h2, h3⟩ := QTNode.collect_complete c.tree c.bbox c.treeHaz hi.canon (treeHaz_ok c) hi.distinctTree
      e₁.toQuery D (by
        intro a ha b hb haa hba had hbd hab hco
        obtain ⟨a', ha', rfl⟩ := mem_treeHaz_active.1 ⟨ha, haa⟩
        obtain ⟨b', hb', rfl⟩ := mem_treeHaz_active.1 ⟨hb, hba⟩
        have hne : a'.entity ≠ b'.entity := fun he => hab (hi.distinctTree.eq ha hb he)
        have hai : a'.entity ∉ irr := fun h => had (hD _ h)
        have hbi : b'.entity ∉ irr := fun h => hbd (hD _ h)
        obtain ⟨w, hw | hw⟩ := hg.coEntire ha' hb' hco
        · exact Set.notMem_empty w ((hno a' ha' b' hb' hne hai hbi) ▸ hw)
        · exact Set.notMem_empty w ((hno b' hb' a' ha' hne.symm hbi hai) ▸ hw))
    refine ⟨R, h1, h2, fun hc => ?_⟩
    have hx' := mem_treeHaz_active.2 ⟨x, hx, rfl⟩
    exact h3 _ hx'.1 hx'.2 hc
  have loop : ∀ (l : List (Edge K)) (D : List (HazardEntity K)), (∀ i ∈ irr, i ∈ D) →
      ∃ R, l.foldlM (fun d e => c.tree.collect e.toQuery d) D = some R ∧ (∀ i ∈ D, i ∈ R) ∧ (e ∈ l → x.entity ∈ R) := by
    intro l
    induction l with
    | nil => intro D _; exact ⟨D, rfl, fun _ h => h, by simp⟩
    | cons e₁ l ih =>
      intro D hD
      obtain ⟨R, h1, h2, h3⟩ := step e₁ D hD
      obtain ⟨R', g1, g2, g3⟩ := ih R fun i hi => h2 i (hD i hi)
      refine ⟨R', by rw [List.foldlM_cons, h1]; exact g1, fun i hi => g2 i (h2 i hi), ?_⟩
      intro hm
      rcases List.mem_cons.1 hm with rfl | hm
      · exact g2 _ (h3 hhit)
      · exact g3 hm
  obtain ⟨R, l1, l2, l3⟩ := loop s.edges (det ++ irr) fun i hi => List.mem_append.2 (.inr hi)
  obtain ⟨E, c1, c2, _⟩ := hi.collectContained s (c.allHazards.filter (·.active)) (fun h hh => (List.mem_filter.1 hh).1) R
  unfold CDE.collectPolyCollisions at h
  rw [l1, Option.bind_some, c1, Option.map_some] at h
  have hE : x.entity ∈ E := c2.sub _ (l3 he)
  have hgr : Grew (fun _ => True) (det ++ irr) E := by
    obtain ⟨R', r1, r2, _⟩ := hi.collectAll (s.edges.map Edge.toQuery) (det ++ irr)
    rw [foldlM_map, l1] at r1
    obtain rfl := Option.some.inj r1
    exact (r2.mono fun _ _ => trivial).trans (c2.mono fun _ _ => trivial)
  obtain ⟨new, d1, d2, _, _⟩ := hgr.drain
  rw [d1] at h
  rw [← Option.some.inj h]
  rw [d2] at hE
  rcases List.mem_append.1 hE with hE | hE
  · rcases List.mem_append.1 hE with hE | hE
    · exact absurd hE hxd
    · exact absurd hE hxi
  · exact List.mem_append.2 (.inr hE)

/-- Non-trivial instance: in the example engine the bin and the square do not
overlap, an edge of the polygon crosses the square, and it is collected. -/
example : ∃ c : CDE ℚ 2, c.Reachable Fpa.exact SearchOracle.first ∧ c.Good ∧ c.allHazards = [Ex.hBin, Ex.hSq] ∧
    c.collectPolyCollisions Fpa.exact { Ex.sq with points := [⟨1, 6⟩, ⟨6, 6⟩, ⟨1, 7⟩] } [.binExterior] [] = some [Ex.hSq.entity] ∧
    (∀ a ∈ c.allHazards, ∀ b ∈ c.allHazards, a.entity ≠ b.entity → a.entity ∉ [HazardEntity.binExterior] →
      b.entity ∉ [HazardEntity.binExterior] →
      openHaz a.entity.position a.shape.val.points ∩ closedHaz b.entity.position b.shape.val.points = ∅) := by
  obtain ⟨c, h1, h2, h3, h4, h5, _, hc⟩ := Ex.exists_engine
  have : (Ex.start.bind (Ex.runChecked Ex.ops)).bind (fun c =>
      c.collectPolyCollisions Fpa.exact { Ex.sq with points := [⟨1, 6⟩, ⟨6, 6⟩, ⟨1, 7⟩] } [.binExterior] [])
      = some [Ex.hSq.entity] := by decide +kernel
  rw [hc] at this
  have hall : c.allHazards = [Ex.hBin, Ex.hSq] := by unfold CDE.allHazards; rw [h2, h3]; rfl
  refine ⟨c, h1, Ex.good h2 h3 h5, hall, this, ?_⟩
  rw [hall]
  intro a ha b hb hne hai hbi
  simp only [List.mem_cons, List.not_mem_nil, or_false] at ha hb
  rcases ha with rfl | rfl
  · exact absurd (by decide) hai
  · rcases hb with rfl | rfl
    · exact absurd (by decide) hbi
    · exact absurd rfl hne

/-! ## C10 Three-valued quick checks -/

/-- C10: edges with both end points in the engine's box. `True`: some relevant
hazard's open region contains a point of the edge. `False`: none does. -/
theorem C10_edge {o : SearchOracle K} {c : CDE K n} (hr : c.Reachable Fpa.exact o) (hg : c.Good)
    {irr : List (HazardEntity K)} {e : Edge K} (h1 : e.start ∈ c.bbox.pts) (h2 : e.stop ∈ c.bbox.pts) :
    (c.edgeDefinitelyCollides e irr = some .true → ∃ x ∈ c.allHazards, x.entity ∉ irr ∧
      ∃ w ∈ e.pts, w ∈ openHaz x.entity.position x.shape.val.points) ∧
    (c.edgeDefinitelyCollides e irr = some .false → ∀ x ∈ c.allHazards, x.entity ∉ irr →
      ∀ w ∈ e.pts, w ∉ openHaz x.entity.position x.shape.val.points) := by
  unfold CDE.edgeDefinitelyCollides
  rw [(collidesPoint_iff _ _).2 h1, (collidesPoint_iff _ _).2 h2]
  simp only [Bool.not_true, Bool.or_self, Bool.false_eq_true, if_false]
  obtain ⟨t, t1, t2, t3⟩ := hr.inv.definitely e.collidesRect irr
  rw [t1]
  constructor
  · intro ht
    obtain ⟨x, hx, hxi, hd⟩ := t2.1 (Option.some.inj ht)
    exact ⟨x, hx, hxi, def1_true (queryOK_edge e).rect (hg.shapes x hx) n hg.box (hg.geo x) (hg.fit hx) hd⟩
  · intro ht x hx hxi w hw
    exact def1_false (queryOK_edge e).rect (hg.shapes x hx) n hg.box (hg.geo x) (hg.fit hx)
      (t3.1 (Option.some.inj ht) x hx hxi) w hw (seg_in_rect h1 h2 hw)

/-- C10: circles with their center in the engine's box. -/
theorem C10_circle {o : SearchOracle K} {c : CDE K n} (hr : c.Reachable Fpa.exact o) (hg : c.Good)
    {irr : List (HazardEntity K)} {ci : Circle K} (h1 : ci.center ∈ c.bbox.pts) :
    (c.circleDefinitelyCollides ci irr = some .true → ∃ x ∈ c.allHazards, x.entity ∉ irr ∧
      ∃ w ∈ ci.pts, w ∈ openHaz x.entity.position x.shape.val.points) ∧
    (c.circleDefinitelyCollides ci irr = some .false → ∀ x ∈ c.allHazards, x.entity ∉ irr →
      ∀ w ∈ ci.pts, w ∈ c.bbox.pts → w ∉ openHaz x.entity.position x.shape.val.points) := by
  unfold CDE.circleDefinitelyCollides
  rw [(collidesPoint_iff _ _).2 h1, if_pos rfl]
  obtain ⟨t, t1, t2, t3⟩ := hr.inv.definitely ci.collidesRect irr
  rw [t1]
  constructor
  · intro ht
    obtain ⟨x, hx, hxi, hd⟩ := t2.1 (Option.some.inj ht)
    exact ⟨x, hx, hxi, def1_true (queryOK_circle ci).rect (hg.shapes x hx) n hg.box (hg.geo x) (hg.fit hx) hd⟩
  · intro ht x hx hxi w hw
    exact def1_false (queryOK_circle ci).rect (hg.shapes x hx) n hg.box (hg.geo x) (hg.fit hx)
      (t3.1 (Option.some.inj ht) x hx hxi) w hw

/-- C10: a point against one hazard. Outside the engine's box the answer is
always `Indeterminate`. -/
theorem C10_point {o : SearchOracle K} {c : CDE K n} (hr : c.Reachable Fpa.exact o) (hg : c.Good)
    {x : Hazard K} (hx : x ∈ c.allHazards) (p : Point K) :
    (c.pointDefinitelyCollidesWith p x.entity = some .true → p ∈ openHaz x.entity.position x.shape.val.points) ∧
    (c.pointDefinitelyCollidesWith p x.entity = some .false → p ∉ openHaz x.entity.position x.shape.val.points) ∧
    (p ∉ c.bbox.pts → c.pointDefinitelyCollidesWith p x.entity = some .indeterminate) := by
  unfold CDE.pointDefinitelyCollidesWith
  have hq : ∀ r : AARect K, r.Valid → (r.collidesPoint p = true ↔ ∃ w ∈ ({p} : Set (Point K)), w ∈ r.pts) := by
    intro r _
    rw [collidesPoint_iff]
    simp
  by_cases hp : p ∈ c.bbox.pts
  · rw [(collidesPoint_iff _ _).2 hp, if_pos rfl, (hr.inv.definitelyWith _ x.entity).2 x hx rfl]
    refine ⟨?_, ?_, fun h => absurd hp h⟩
    · intro ht
      obtain ⟨w, hw, ho⟩ := def1_true hq (hg.shapes x hx) n hg.box (hg.geo x) (hg.fit hx) (Option.some.inj ht)
      rw [Set.mem_singleton_iff] at hw
      rw [← hw]
      exact ho
    · intro ht
      exact def1_false hq (hg.shapes x hx) n hg.box (hg.geo x) (hg.fit hx) (Option.some.inj ht) p rfl hp
  · have : c.bbox.collidesPoint p = false := by rw [Bool.eq_false_iff, ne_eq, collidesPoint_iff]; exact hp
    rw [this]
    simp

/-- C10: outside the engine's box edges and circles are always answered `True`.
This is right when a relevant exterior hazard with its outline in the box is
registered: the offending point lies in its open region. -/
theorem C10_outside_box {c : CDE K n} (hg : c.Good) {irr : List (HazardEntity K)} {p : Point K} (hp : p ∉ c.bbox.pts) :
    (∀ e : Edge K, e.start = p ∨ e.stop = p → c.edgeDefinitelyCollides e irr = some .true) ∧
    (∀ ci : Circle K, ci.center = p → c.circleDefinitelyCollides ci irr = some .true) ∧
    ∀ x ∈ c.allHazards, x.entity.position = .exterior → x.shape.val.bbox.pts ⊆ c.bbox.pts →
      p ∈ openHaz x.entity.position x.shape.val.points := by
  have hf : c.bbox.collidesPoint p = false := by rw [Bool.eq_false_iff, ne_eq, collidesPoint_iff]; exact hp
  refine ⟨?_, ?_, ?_⟩
  · rintro e (rfl | rfl) <;> unfold CDE.edgeDefinitelyCollides <;> simp [hf]
  · rintro ci rfl
    unfold CDE.circleDefinitelyCollides
    simp [hf]
  · intro x hx hpos hsub
    rw [hpos]
    intro hreg
    have hbb := (hg.shapes x hx).bbox_eq
    rcases hreg with h | h
    · exact hp (hsub (hbb ▸ bdry_subset_bbox h))
    · obtain ⟨a1, a2, a3, a4⟩ := interior_subset_inner h
      exact hp (hsub (hbb ▸ ⟨a1.le, a2.le, a3.le, a4.le⟩))

/-- C10: but the answer outside the box does not look at the list of irrelevant
hazards: with the bin exterior declared irrelevant, `True` is answered for an
edge that meets no relevant hazard. -/
theorem C10_outside_box_ignores_irrelevant : ∃ (c : CDE ℚ 2) (e : Edge ℚ), c.Reachable Fpa.exact SearchOracle.first ∧
    c.Good ∧ c.edgeDefinitelyCollides e (c.allHazards.map (·.entity)) = some .true := by
  obtain ⟨c, h1, h2, h3, h4, h5, _, hc⟩ := Ex.exists_engine
  refine ⟨c, ⟨⟨9, 1⟩, ⟨9, 2⟩⟩, h1, Ex.good h2 h3 h5, ?_⟩
  exact (C10_outside_box (Ex.good h2 h3 h5) (p := ⟨9, 1⟩) (by rw [h5]; rintro ⟨_, h, _⟩; revert h; norm_num)).1 _ (.inl rfl)

/-- Non-trivial instance: all three answers occur in the example engine. -/
example : ∃ c : CDE ℚ 2, c.Reachable Fpa.exact SearchOracle.first ∧ c.Good ∧
    c.edgeDefinitelyCollides ⟨⟨1, 1⟩, ⟨3, 3⟩⟩ [.binExterior] = some .false ∧
    c.edgeDefinitelyCollides ⟨⟨3, 3⟩, ⟨6, 6⟩⟩ [.binExterior] = some .indeterminate ∧
    c.pointDefinitelyCollidesWith ⟨3, 3⟩ .binExterior = some .false ∧
    c.circleDefinitelyCollides ⟨⟨3, 3⟩, 1 / 2⟩ [] = some .false := by
  obtain ⟨c, h1, h2, h3, h4, h5, _, hc⟩ := Ex.exists_engine
  have : (Ex.start.bind (Ex.runChecked Ex.ops)).map (fun c => (
      c.edgeDefinitelyCollides ⟨⟨1, 1⟩, ⟨3, 3⟩⟩ [.binExterior], c.edgeDefinitelyCollides ⟨⟨3, 3⟩, ⟨6, 6⟩⟩ [.binExterior],
      c.pointDefinitelyCollidesWith ⟨3, 3⟩ .binExterior, c.circleDefinitelyCollides ⟨⟨3, 3⟩, 1 / 2⟩ []))
      = some (some .false, some .indeterminate, some .false, some .false) := by decide +kernel
  rw [hc] at this
  simp only [Option.map_some, Option.some.injEq, Prod.mk.injEq] at this
  exact ⟨c, h1, Ex.good h2 h3 h5, this⟩

/-- A certain hit: the middle of the zone, in a deeper tree. -/
example : (CDE.new Fpa.exact SearchOracle.first 3 ⟨0, 0, 8, 8⟩ [Ex.hBin, Ex.hZone]).bind
      (fun c => c.pointDefinitelyCollidesWith ⟨3, 3⟩ Ex.hZone.entity) = some .true ∧
    (CDE.new Fpa.exact SearchOracle.first 3 ⟨0, 0, 8, 8⟩ [Ex.hBin, Ex.hZone]).bind
      (fun c => c.edgeDefinitelyCollides ⟨⟨1 / 4, 3⟩, ⟨3, 3⟩⟩ []) = some .true := by
  decide +kernel

end Jagua
