import Verif.Lemmas.CDECollect
import Verif.Spec.Examples

/-! # C01, C07, C08, C11, C12, C13: the collision detection engine as a data structure -/

set_option linter.unusedSectionVars false

namespace Jagua

variable {K : Type*} [Arith K] [LinearOrder K] {n : ℕ}

/-! ## C01 Answers do not depend on history -/

/-- C01: no admissible operation panics on a reachable engine; statics and box
never change. -/
theorem C01_operations_never_panic {f : Fpa K} {o : SearchOracle K} {c : CDE K n} (hr : c.Reachable f o) {op : CDEOp K}
    (hp : op.Pre c) :
    ∃ c', op.run f o c = some c' ∧ c'.Reachable f o ∧ c'.statics = c.statics ∧ c'.bbox = c.bbox := by
  obtain ⟨c', h1, h2, h3, h4⟩ := CDEOp.run_inv (o := o) hr.inv hp
  exact ⟨c', h1, hr.run (.cons hp h1 (.nil _)), h3, h4⟩

/-- C01: queries never panic on a reachable engine. -/
theorem C01_queries_never_panic {f : Fpa K} {o : SearchOracle K} {c : CDE K n} (hr : c.Reachable f o) :
    (∀ shape irr, ∃ b, c.polyCollides f shape irr = some b) ∧
    (∀ poles piers irr, ∃ b, c.surrogateCollides poles piers irr = some b) ∧
    (∀ e irr, ∃ t, c.edgeDefinitelyCollides e irr = some t) ∧
    (∀ ci irr, ∃ t, c.circleDefinitelyCollides ci irr = some t) ∧
    (∀ p e, ∃ t, c.pointDefinitelyCollidesWith p e = some t) ∧
    (∀ shape irr det, ∃ r, c.collectPolyCollisions f shape irr det = some r) ∧
    (∀ poles piers irr det, ∃ r, c.collectSurrogateCollisions poles piers irr det = some r) ∧
    (∀ q irr det, ∃ r, c.hazardsWithin q irr det = some r) := by
  have hi := hr.inv
  refine ⟨fun s irr => hi.polyCollides_some s irr, ?_, ?_, ?_, ?_, ?_, ?_, ?_⟩
  · intro poles piers irr
    obtain ⟨b, hb, _⟩ := hi.surrogate poles piers irr
    exact ⟨b, hb⟩
  · intro e irr
    unfold CDE.edgeDefinitelyCollides
    split
    · exact ⟨_, rfl⟩
    · obtain ⟨t, ht, _⟩ := hi.definitely e.collidesRect irr
      exact ⟨t, ht⟩
  · intro ci irr
    unfold CDE.circleDefinitelyCollides
    split
    · obtain ⟨t, ht, _⟩ := hi.definitely ci.collidesRect irr
      exact ⟨t, ht⟩
    · exact ⟨_, rfl⟩
  · intro p e
    unfold CDE.pointDefinitelyCollidesWith
    split
    · obtain ⟨h1, h2⟩ := hi.definitelyWith (fun r => r.collidesPoint p) e
      by_cases h : ∃ x ∈ c.allHazards, x.entity = e
      · obtain ⟨x, hx, he⟩ := h
        exact ⟨_, h2 x hx he⟩
      · push Not at h
        exact ⟨_, h1 h⟩
    · exact ⟨_, rfl⟩
  · intro s irr det
    obtain ⟨new, h, _⟩ := hi.collectPoly s irr det
    exact ⟨_, h⟩
  · intro poles piers irr det
    obtain ⟨new, h, _⟩ := hi.collectSurrogate poles piers irr det
    exact ⟨_, h⟩
  · intro q irr det
    obtain ⟨new, h, _⟩ := hi.hazardsWithin q irr det
    exact ⟨_, h⟩

/-- C01: after any admissible history, the engine answers like the engine built
from scratch for the same box and fixed hazards, in which the currently
registered hazards were registered one after the other. -/
theorem C01_same_as_fresh_engine {f : Fpa K} {o : SearchOracle K} {c : CDE K n} (hr : c.Reachable f o)
    (o' : SearchOracle K) :
    ∃ c₀ d : CDE K n, CDE.new f o' n c.bbox c.statics = some c₀ ∧
      c.dynamics.foldlM (fun c h => c.register f o' h) c₀ = some d ∧ SameAnswers f c d := by
  obtain ⟨c₀, d, h1, h2, h3, _⟩ := rebuild o' hr.inv
  exact ⟨c₀, d, h1, h2, h3.answers⟩

/-- C01: which hazards are registered after each operation. Registering adds the
entity, deregistering takes it away, committing changes nothing, restoring gives
the entities of the snapshot. The hazard objects are the ones handed in, except
that an entity that is waiting to be removed comes back as it was. -/
theorem C01_registered_hazards {f : Fpa K} {o : SearchOracle K} {c c' : CDE K n} (hr : c.Reachable f o) {op : CDEOp K}
    (hp : op.Pre c) (h : op.run f o c = some c') : match op with
      | .register h => (c'.dynamics.map (·.entity)).Perm (h.entity :: c.dynamics.map (·.entity)) ∧
          ∀ x ∈ c'.dynamics, x ∈ c.dynamics ∨ x = h ∨ (x ∈ c.uncommitted ∧ x.entity = h.entity)
      | .deregister e _ => ∃ h, h.entity = e ∧ c.dynamics.Perm (h :: c'.dynamics)
      | .commit => c'.dynamics = c.dynamics ∧ c'.uncommitted = []
      | .restore snap => (c'.dynamics.map (·.entity)).Perm (snap.map (·.entity)) ∧ c'.uncommitted = [] ∧
          ∀ x ∈ c'.dynamics, x ∈ c.dynamics ∨ x ∈ c.uncommitted ∨ x ∈ snap :=
  CDEOp.run_effect hr.inv hp h

/-- Non-trivial instance of the hypotheses: a reachable engine with a pending
deregistration, on which re-registering the removed triangle is admissible. -/
example : ∃ c : CDE ℚ 2, c.Reachable Fpa.exact SearchOracle.first ∧ c.dynamics = [Ex.hSq] ∧ c.uncommitted = [Ex.hTri] ∧
    (CDEOp.register Ex.hTri).Pre c ∧ (CDEOp.deregister Ex.hSq.entity false).Pre c ∧ (CDEOp.restore [Ex.hTri]).Pre c := by
  obtain ⟨c, h1, h2, h3, h4, _⟩ := Ex.exists_engine
  refine ⟨c, h1, h3, h4, ?_, ?_, ?_⟩
  · intro x hx
    unfold CDE.allHazards at hx
    rw [h2, h3] at hx
    simp only [List.cons_append, List.nil_append, List.mem_cons, List.not_mem_nil, or_false] at hx
    rcases hx with rfl | rfl <;> decide +kernel
  · exact ⟨Ex.hSq, by rw [h3]; simp, rfl⟩
  · constructor
    · decide
    · intro h hh s hs
      rw [h2] at hs
      simp only [List.mem_cons, List.not_mem_nil, or_false] at hh hs
      subst hh; subst hs
      decide +kernel

/-- C01 is restricted to yes/no and three-valued queries for a reason: which of
several overlapping hazards a collecting query finds does depend on history. Here
the engine and the engine rebuilt from its registered hazards collect different
hazards for the same circle. -/
theorem C01_collecting_depends_on_history : ∃ (c c₀ d : CDE ℚ 1) (q : Circle ℚ),
    c.Reachable Fpa.exact SearchOracle.first ∧ CDE.new Fpa.exact SearchOracle.first 1 c.bbox c.statics = some c₀ ∧
    c.dynamics.foldlM (fun c h => c.register Fpa.exact SearchOracle.first h) c₀ = some d ∧
    c.hazardsWithin q.toQuery [] [] ≠ d.hazardsWithin q.toQuery [] [] := by
  let big (k : ℕ) : Hazard ℚ := ⟨.placedItem k Ex.dt,
    ⟨k, SPoly.mk [⟨-1, -1⟩, ⟨9, -1⟩, ⟨9, 9⟩, ⟨-1, 9⟩] ⟨-1, -1, 9, 9⟩ 100 ⟨⟨4, 4⟩, 5⟩ none⟩, true⟩
  let ops : List (CDEOp ℚ) := [.register (big 1), .register (big 2), .register (big 3), .deregister (big 1).entity true]
  obtain ⟨c, hc⟩ : ∃ c, (CDE.new Fpa.exact SearchOracle.first 1 ⟨0, 0, 8, 8⟩ []).bind (Ex.runChecked ops) = some c :=
    Option.isSome_iff_exists.1 (by decide +kernel)
  have h := (show ((CDE.new Fpa.exact SearchOracle.first 1 ⟨0, 0, 8, 8⟩ []).bind (Ex.runChecked ops)).bind (fun c =>
      (CDE.new Fpa.exact SearchOracle.first 1 c.bbox c.statics).bind fun c₀ =>
        (c.dynamics.foldlM (fun (c : CDE ℚ 1) h => c.register Fpa.exact SearchOracle.first h) c₀).map fun d =>
          (c.hazardsWithin (Circle.mk ⟨2, 2⟩ 1).toQuery [] [], d.hazardsWithin (Circle.mk ⟨2, 2⟩ 1).toQuery [] []))
      = some (some [(big 3).entity], some [(big 2).entity]) from by decide +kernel)
  rw [hc, Option.bind_some] at h
  obtain ⟨c₀, h0, h⟩ := Option.bind_eq_some_iff.1 h
  obtain ⟨d, h1, h⟩ := Option.map_eq_some_iff.1 h
  rw [Prod.mk.injEq] at h
  refine ⟨c, c₀, d, ⟨⟨2, 2⟩, 1⟩, Ex.reachable (by decide) hc, h0, h1, ?_⟩
  rw [h.1, h.2]
  decide +kernel

/-! ## C07 Irrelevant hazards -/

/-- C07: the quadtree reports only entities that are registered and not
irrelevant. -/
theorem C07_reported_is_relevant {f : Fpa K} {o : SearchOracle K} {c : CDE K n} (hr : c.Reachable f o) {q : Queryable K}
    {irr : List (HazardEntity K)} {e : HazardEntity K} (h : c.tree.collides q irr = some (some e)) :
    e ∉ irr ∧ ∃ x ∈ c.allHazards, x.entity = e := by
  obtain ⟨res, h1, _, h3⟩ := hr.inv.collides q irr
  rw [h] at h1
  obtain ⟨x, hx, he, hirr, _⟩ := h3 e (Option.some.inj h1).symm
  exact ⟨he ▸ hirr, x, hx, he⟩

/-- C07: nothing irrelevant is collected. -/
theorem C07_collected_is_relevant {f : Fpa K} {o : SearchOracle K} {c : CDE K n} (hr : c.Reachable f o)
    (irr det : List (HazardEntity K)) :
    (∀ s res, c.collectPolyCollisions f s irr det = some res → ∀ e ∈ res, e ∈ det ∨ e ∉ irr) ∧
    (∀ poles piers res, c.collectSurrogateCollisions poles piers irr det = some res → ∀ e ∈ res, e ∈ det ∨ e ∉ irr) ∧
    (∀ q res, c.hazardsWithin q irr det = some res → ∀ e ∈ res, e ∈ det ∨ e ∉ irr) := by
  refine ⟨?_, ?_, ?_⟩
  · intro s res h e he
    obtain ⟨new, h1, _, h2, _⟩ := hr.inv.collectPoly s irr det
    rw [h] at h1
    rw [Option.some.inj h1] at he
    exact (List.mem_append.1 he).imp id fun h => (h2 e h).2.1
  · intro poles piers res h e he
    obtain ⟨new, h1, _, h2, _⟩ := hr.inv.collectSurrogate poles piers irr det
    rw [h] at h1
    rw [Option.some.inj h1] at he
    exact (List.mem_append.1 he).imp id fun h => (h2 e h).2.1
  · intro q res h e he
    obtain ⟨new, h1, _, h2, _⟩ := hr.inv.hazardsWithin q irr det
    rw [h] at h1
    rw [Option.some.inj h1] at he
    exact (List.mem_append.1 he).imp id fun h => (h2 e h).2.1

/-- C07: declaring more hazards irrelevant never creates a collision. -/
theorem C07_irrelevant_monotone {f : Fpa K} {o : SearchOracle K} {c : CDE K n} (hr : c.Reachable f o)
    {irr irr' : List (HazardEntity K)} (hsub : irr ⊆ irr') :
    (∀ s, c.polyCollides f s irr' = some true → c.polyCollides f s irr = some true) ∧
    (∀ poles piers, c.surrogateCollides poles piers irr' = some true → c.surrogateCollides poles piers irr = some true) ∧
    (∀ e, c.edgeDefinitelyCollides e irr' = some .true → c.edgeDefinitelyCollides e irr = some .true) ∧
    (∀ ci, c.circleDefinitelyCollides ci irr' = some .true → c.circleDefinitelyCollides ci irr = some .true) := by
  have hi := hr.inv
  have hm : ∀ {e : HazardEntity K}, e ∉ irr' → e ∉ irr := fun h h' => h (hsub h')
  have hdef : ∀ qr, c.tree.definitelyCollides qr irr' = some .true → c.tree.definitelyCollides qr irr = some .true := by
    intro qr h
    obtain ⟨t, h1, h2, _⟩ := hi.definitely qr irr
    obtain ⟨t', h1', h2', _⟩ := hi.definitely qr irr'
    rw [h1'] at h
    obtain ⟨x, hx, hxi, hd⟩ := h2'.1 (Option.some.inj h)
    rw [h1, h2.2 ⟨x, hx, hm hxi, hd⟩]
  refine ⟨?_, ?_, ?_, ?_⟩
  · intro s h
    unfold CDE.polyCollides at h ⊢
    cases hrel : c.bbox.relationTo s.bbox with
    | surrounding =>
      rw [hrel] at h
      obtain ⟨b, e1, e2⟩ := hi.byEdge s irr
      obtain ⟨b', e1', e2'⟩ := hi.byEdge s irr'
      obtain ⟨d, g1, g2⟩ := hi.byContainment s irr
      obtain ⟨d', g1', g2'⟩ := hi.byContainment s irr'
      rw [e1', g1'] at h
      rw [e1, g1]
      cases b' with
      | true =>
        obtain ⟨e, he, x, hx, hxi, hc⟩ := e2'.1 rfl
        rw [e2.2 ⟨e, he, x, hx, hm hxi, hc⟩]
      | false =>
        obtain rfl := Option.some.inj h
        obtain ⟨x, hx, ha, hxi, hc⟩ := g2'.1 rfl
        rw [g2.2 ⟨x, hx, ha, hm hxi, hc⟩]
        cases b <;> rfl
    | disjoint => rfl
    | enclosed => rfl
    | intersecting => rfl
  · intro poles piers h
    obtain ⟨b, e1, e2⟩ := hi.surrogate poles piers irr
    obtain ⟨b', e1', e2'⟩ := hi.surrogate poles piers irr'
    rw [e1'] at h
    rw [e1, e2.2]
    rcases e2'.1 (Option.some.inj h) with ⟨p, hp, x, hx, hxi, hc⟩ | ⟨p, hp, x, hx, hxi, hc⟩
    · exact .inl ⟨p, hp, x, hx, hm hxi, hc⟩
    · exact .inr ⟨p, hp, x, hx, hm hxi, hc⟩
  · intro e h
    unfold CDE.edgeDefinitelyCollides at h ⊢
    split at h
    · rename_i hb; rw [if_pos hb]
    · rename_i hb; rw [if_neg hb]; exact hdef _ h
  · intro ci h
    unfold CDE.circleDefinitelyCollides at h ⊢
    split at h
    · rename_i hb; rw [if_pos hb]; exact hdef _ h
    · rename_i hb; rw [if_neg hb]

/-- In the example engine the square is reported for an edge through it, and no
longer when it is irrelevant. -/
example : (Ex.start.bind (Ex.runChecked Ex.ops)).bind (fun c =>
      c.tree.collides (Edge.mk ⟨6, 4⟩ ⟨6, 6⟩).toQuery []) = some (some Ex.hSq.entity) ∧
    (Ex.start.bind (Ex.runChecked Ex.ops)).bind (fun c =>
      c.tree.collides (Edge.mk ⟨6, 4⟩ ⟨6, 6⟩).toQuery [Ex.hSq.entity]) = some none := by
  decide +kernel

/-! ## C08 The caller's buffer -/

/-- C08: every collecting query leaves the buffer as it was and appends pairwise
different, new, relevant entities of registered hazards (for `hazards_within`
possibly the bin exterior). -/
theorem C08_buffer_extended {f : Fpa K} {o : SearchOracle K} {c : CDE K n} (hr : c.Reachable f o)
    (irr det : List (HazardEntity K)) :
    (∀ s, ∃ new, c.collectPolyCollisions f s irr det = some (det ++ new) ∧ new.Nodup ∧
      ∀ e ∈ new, e ∉ det ∧ e ∉ irr ∧ ∃ h ∈ c.allHazards, h.entity = e) ∧
    (∀ poles piers, ∃ new, c.collectSurrogateCollisions poles piers irr det = some (det ++ new) ∧ new.Nodup ∧
      ∀ e ∈ new, e ∉ det ∧ e ∉ irr ∧ ∃ h ∈ c.allHazards, h.entity = e) ∧
    (∀ q, ∃ new, c.hazardsWithin q irr det = some (det ++ new) ∧ new.Nodup ∧
      ∀ e ∈ new, e ∉ det ∧ e ∉ irr ∧ ((∃ h ∈ c.allHazards, h.entity = e) ∨ e = .binExterior)) := by
  refine ⟨?_, ?_, ?_⟩
  · intro s
    obtain ⟨new, h1, h2, h3, _⟩ := hr.inv.collectPoly s irr det
    refine ⟨new, h1, h2, fun e he => ⟨(h3 e he).1, (h3 e he).2.1, ?_⟩⟩
    rcases (h3 e he).2.2 with ⟨h, hh, he, _⟩ | ⟨h, hh, _, he, _⟩
    · exact ⟨h, hh, he⟩
    · exact ⟨h, hh, he⟩
  · intro poles piers
    obtain ⟨new, h1, h2, h3, _⟩ := hr.inv.collectSurrogate poles piers irr det
    refine ⟨new, h1, h2, fun e he => ⟨(h3 e he).1, (h3 e he).2.1, ?_⟩⟩
    obtain ⟨h, hh, he, _⟩ := (h3 e he).2.2
    exact ⟨h, hh, he⟩
  · intro q
    obtain ⟨new, h1, h2, h3, _⟩ := hr.inv.hazardsWithin q irr det
    refine ⟨new, h1, h2, fun e he => ⟨(h3 e he).1, (h3 e he).2.1, ?_⟩⟩
    rcases (h3 e he).2.2 with ⟨h, hh, he, _⟩ | h
    · exact .inl ⟨h, hh, he⟩
    · exact .inr h.1

/-- Collecting into a buffer that already holds something unrelated, with the
bin exterior irrelevant. -/
example : (Ex.start.bind (Ex.runChecked Ex.ops)).bind (fun c =>
      c.collectPolyCollisions Fpa.exact { Ex.sq with points := [⟨6, 6⟩, ⟨9, 6⟩, ⟨6, 8⟩] } [.binExterior] [.binHole 3])
    = some [.binHole 3, Ex.hSq.entity] := by
  decide +kernel

/-! ## C11 Snapshots -/

/-- C11: take a snapshot, do anything admissible, restore: the engine has exactly
the hazards it had, nothing is pending, and all answers are as before.
`φ` says that entities determine hazards (no entity is reused for another
polygon). `Hazard.erase` forgets the address of the shape: a hazard registered
anew comes with a new allocation of the same polygon. -/
theorem C11_snapshot_round_trip {f : Fpa K} {o : SearchOracle K} {c : CDE K n} (hr : c.Reachable f o)
    {φ : HazardEntity K → Hazard K} (hφ : c.Consistent φ) :
    ∃ c₁ snap, c.createSnapshot = some (c₁, snap) ∧ snap = c.dynamics ∧
      ∀ ops c₂, (∀ op ∈ ops, op.Consistent φ) → CDERun f o c₁ ops c₂ →
        ∃ c₃, c₂.restore f o snap = some c₃ ∧ (c₃.dynamics.map Hazard.erase).Perm (c.dynamics.map Hazard.erase) ∧ c₃.uncommitted = [] ∧
          c₃.statics = c.statics ∧ c₃.bbox = c.bbox ∧ SameAnswers f c c₃ := by
  have hi := hr.inv
  obtain ⟨c₁, h1, h2, h3, h4, h5, h6⟩ := CDE.commit_inv hi
  refine ⟨c₁, c₁.dynamics, by unfold CDE.createSnapshot; rw [h1]; rfl, h5, ?_⟩
  intro ops c₂ hops hrun
  obtain ⟨i2, s2, b2⟩ := hrun.inv h2
  have hc1 : c₁.Consistent φ := CDEOp.run_consistent (op := .commit) (o := o) hi trivial h1 hφ trivial
  have hc2 := hrun.consistent h2 hc1 hops
  obtain ⟨n1, n2, n3, n4, n5, n6⟩ := not_mem_of_nodup h2
  have hpre : (CDEOp.restore c₁.dynamics).Pre c₂ := by
    refine ⟨n5, fun h hh s hs => ?_⟩
    rw [s2] at hs
    exact n1 s hs h hh
  obtain ⟨c₃, r1, r2, r3, r4⟩ := CDEOp.run_inv (o := o) i2 hpre
  have reff := CDEOp.run_effect i2 hpre r1
  have hsnapc : ∀ x ∈ c₁.dynamics, x.erase = φ x.entity := fun x hx => hc1 x (List.mem_append.2 (.inl hx))
  have hc3 := CDEOp.run_consistent i2 hpre r1 hc2 hsnapc
  have hperm : (c₃.dynamics.map Hazard.erase).Perm (c₁.dynamics.map Hazard.erase) :=
    perm_of_consistent (fun x hx => hc3 x (List.mem_append.2 (.inl hx))) hsnapc reff.1
  refine ⟨c₃, r1, h5 ▸ hperm, reff.2.1, by rw [r3, s2, h3], by rw [r4, b2, h4], ?_⟩
  refine CDE.Same.answers ⟨hi, r2, by rw [r4, b2, h4], ?_⟩
  intro h
  unfold CDE.allHazards
  rw [r3, s2, h3, List.map_append, List.map_append, List.mem_append, List.mem_append, hperm.mem_iff, h5]

/-- Non-trivial instance: the example engine is consistent, and there are
admissible consistent operations after its snapshot that change everything. -/
example : (Ex.start.bind (Ex.runChecked (Ex.ops ++ [.commit, .deregister Ex.hSq.entity true, .register Ex.hTri,
      .register Ex.hSq, .deregister Ex.hSq.entity false, .restore [Ex.hSq]]))).map (·.dynamics) = some [Ex.hSq] := by
  decide +kernel

/-- C11: the assumption is needed. Restoring recognises hazards by entity only:
when an entity was re-registered with another shape, that shape stays. -/
theorem C11_restore_keeps_reused_entity : ∃ (c c' : CDE ℚ 2) (h h' : Hazard ℚ),
    c.Reachable Fpa.exact SearchOracle.first ∧ c.dynamics = [h'] ∧ h'.entity = h.entity ∧ h' ≠ h ∧
    c.restore Fpa.exact SearchOracle.first [h] = some c' ∧ c'.dynamics = [h'] := by
  let h' : Hazard ℚ := { Ex.hSq with shape := ⟨5, Ex.tri⟩ }
  obtain ⟨c, hc⟩ : ∃ c, Ex.start.bind (Ex.runChecked [.register h']) = some c :=
    Option.isSome_iff_exists.1 (by decide +kernel)
  have h1 : (Ex.start.bind (Ex.runChecked [.register h'])).map (·.dynamics) = some [h'] := by decide +kernel
  have h2 : (Ex.start.bind (Ex.runChecked [.register h'])).bind
      (fun c => (c.restore Fpa.exact SearchOracle.first [Ex.hSq]).map (·.dynamics)) = some [h'] := by decide +kernel
  rw [hc] at h1 h2
  obtain ⟨c', hc', hd⟩ := Option.map_eq_some_iff.1 h2
  exact ⟨c, c', Ex.hSq, h', Ex.reachable (by decide) hc, by simpa using h1, rfl, by decide +kernel, hc', hd⟩

/-! ## C12 Lazy and instant deregistration -/

/-- C12: deregistering lazily or instantly gives the same answers, now and after
every admissible continuation. -/
theorem C12_lazy_eq_instant {f : Fpa K} {o : SearchOracle K} {c : CDE K n} (hr : c.Reachable f o)
    {φ : HazardEntity K → Hazard K} (hφ : c.Consistent φ) {e : HazardEntity K} (he : ∃ h ∈ c.dynamics, h.entity = e) :
    ∃ c₁ c₂, c.deregister o e false = some c₁ ∧ c.deregister o e true = some c₂ ∧ SameAnswers f c₁ c₂ ∧
      ∀ ops, (∀ op ∈ ops, op.Consistent φ) → ∀ c₁', CDERun f o c₁ ops c₁' →
        ∃ c₂', CDERun f o c₂ ops c₂' ∧ (c₁'.dynamics.map Hazard.erase).Perm (c₂'.dynamics.map Hazard.erase) ∧ SameAnswers f c₁' c₂' := by
  have hi := hr.inv
  obtain ⟨c₁, e1, i1, s1, b1⟩ := CDEOp.run_inv (o := o) (op := .deregister e false) hi he
  obtain ⟨c₂, e2, i2, s2, b2⟩ := CDEOp.run_inv (o := o) (op := .deregister e true) hi he
  have k1 := CDEOp.run_consistent (op := .deregister e false) hi he e1 hφ trivial
  have k2 := CDEOp.run_consistent (op := .deregister e true) hi he e2 hφ trivial
  have f1 := CDEOp.run_effect (op := .deregister e false) hi he e1
  have f2 := CDEOp.run_effect (op := .deregister e true) hi he e2
  have hsim : c₁.Sim f φ c₂ := by
    refine ⟨i1, i2, k1, k2, by rw [b1, b2], by rw [s1, s2], ?_⟩
    refine perm_of_consistent (fun x hx => k1 x (List.mem_append.2 (.inl hx)))
      (fun x hx => k2 x (List.mem_append.2 (.inl hx))) ?_
    obtain ⟨x, hx, p1⟩ := f1
    obtain ⟨y, hy, p2⟩ := f2
    have := (p1.map (·.entity)).symm.trans (p2.map (·.entity))
    rw [List.map_cons, List.map_cons, hx, hy] at this
    exact this.cons_inv
  refine ⟨c₁, c₂, e1, e2, hsim.same.answers, ?_⟩
  intro ops hops c₁' hrun
  obtain ⟨c₂', r2, hs⟩ := hsim.run hops hrun
  exact ⟨c₂', r2, hs.dynamics, hs.same.answers⟩

/-- C12: committing pending deregistrations changes no answer, now and after
every admissible continuation. -/
theorem C12_commit_invisible {f : Fpa K} {o : SearchOracle K} {c : CDE K n} (hr : c.Reachable f o)
    {φ : HazardEntity K → Hazard K} (hφ : c.Consistent φ) :
    ∃ c₁, c.commit = some c₁ ∧ c₁.uncommitted = [] ∧ SameAnswers f c c₁ ∧
      ∀ ops, (∀ op ∈ ops, op.Consistent φ) → ∀ c', CDERun f o c ops c' →
        ∃ c₁', CDERun f o c₁ ops c₁' ∧ (c'.dynamics.map Hazard.erase).Perm (c₁'.dynamics.map Hazard.erase) ∧ SameAnswers f c' c₁' := by
  have hi := hr.inv
  obtain ⟨c₁, e1, i1, s1, b1⟩ := CDEOp.run_inv (o := o) (op := .commit) hi trivial
  have k1 := CDEOp.run_consistent (op := .commit) hi trivial e1 hφ trivial
  have f1 := CDEOp.run_effect (op := .commit) hi trivial e1
  have hsim : c.Sim f φ c₁ := ⟨hi, i1, hφ, k1, b1.symm, s1.symm, by rw [f1.1]⟩
  refine ⟨c₁, e1, f1.2, hsim.same.answers, ?_⟩
  intro ops hops c' hrun
  obtain ⟨c₂', r2, hs⟩ := hsim.run hops hrun
  exact ⟨c₂', r2, hs.dynamics, hs.same.answers⟩

/-- Non-trivial instance: removing the square lazily, then registering both items
again, is an admissible consistent continuation. -/
example : (∀ op ∈ [CDEOp.register Ex.hSq, .register Ex.hTri], op.Consistent Ex.haz) ∧
    (Ex.start.bind (Ex.runChecked (Ex.ops ++ [.deregister Ex.hSq.entity false, .register Ex.hSq, .register Ex.hTri]))).map
      (·.dynamics) = some [Ex.hSq, Ex.hTri] := by
  constructor
  · intro op hop
    simp only [List.mem_cons, List.not_mem_nil, or_false] at hop
    rcases hop with rfl | rfl <;> rfl
  · decide +kernel

/-- C12: without the assumption that entities determine shapes, the two modes do
differ: after a lazy deregistration, registering the entity with another shape
silently keeps the old shape; after an instant one the new shape is used. -/
theorem C12_lazy_reuse_keeps_old_shape : ∃ (c c₁ c₂ d₁ d₂ : CDE ℚ 2) (h h' : Hazard ℚ),
    c.Reachable Fpa.exact SearchOracle.first ∧ h ∈ c.dynamics ∧ h'.entity = h.entity ∧ h' ≠ h ∧
    c.deregister SearchOracle.first h.entity false = some c₁ ∧ c₁.register Fpa.exact SearchOracle.first h' = some d₁ ∧
    c.deregister SearchOracle.first h.entity true = some c₂ ∧ c₂.register Fpa.exact SearchOracle.first h' = some d₂ ∧
    h ∈ d₁.dynamics ∧ h' ∉ d₁.dynamics ∧ h' ∈ d₂.dynamics ∧ h ∉ d₂.dynamics := by
  let h' : Hazard ℚ := { Ex.hSq with shape := ⟨5, Ex.tri⟩ }
  obtain ⟨c, hc⟩ : ∃ c, Ex.start.bind (Ex.runChecked [.register Ex.hSq]) = some c :=
    Option.isSome_iff_exists.1 (by decide +kernel)
  have h0 : (Ex.start.bind (Ex.runChecked [.register Ex.hSq])).map (·.dynamics) = some [Ex.hSq] := by decide +kernel
  have h1 : (Ex.start.bind (Ex.runChecked [.register Ex.hSq])).bind (fun c =>
      (c.deregister SearchOracle.first Ex.hSq.entity false).bind fun c =>
        (c.register Fpa.exact SearchOracle.first h').map (·.dynamics)) = some [Ex.hSq] := by decide +kernel
  have h2 : (Ex.start.bind (Ex.runChecked [.register Ex.hSq])).bind (fun c =>
      (c.deregister SearchOracle.first Ex.hSq.entity true).bind fun c =>
        (c.register Fpa.exact SearchOracle.first h').map (·.dynamics)) = some [h'] := by decide +kernel
  rw [hc] at h0 h1 h2
  rw [Option.bind_some] at h1 h2
  obtain ⟨c₁, hc₁, h1⟩ := Option.bind_eq_some_iff.1 h1
  obtain ⟨d₁, hd₁, h1⟩ := Option.map_eq_some_iff.1 h1
  obtain ⟨c₂, hc₂, h2⟩ := Option.bind_eq_some_iff.1 h2
  obtain ⟨d₂, hd₂, h2⟩ := Option.map_eq_some_iff.1 h2
  have hne : h' ≠ Ex.hSq := by decide +kernel
  have h0 : c.dynamics = [Ex.hSq] := by simpa using h0
  refine ⟨c, c₁, c₂, d₁, d₂, Ex.hSq, h', Ex.reachable (by decide) hc, by rw [h0]; simp, rfl, hne, hc₁, hd₁, hc₂, hd₂, ?_⟩
  rw [h1, h2]
  simp [hne, hne.symm]

/-! ## C13 No dangling references -/

/-- C13: every shape a partially present hazard anywhere in the tree refers to is
the shape (the same allocation) of a hazard the engine holds: fixed, registered
or waiting to be removed. -/
theorem C13_no_dangling {f : Fpa K} {o : SearchOracle K} {c : CDE K n} (hr : c.Reachable f o) {a : Arc (SPoly K)}
    (h : c.tree.Stores a) : ∃ x ∈ c.statics ++ c.dynamics ++ c.uncommitted, x.shape = a := by
  obtain ⟨x, hx, p, hp, hpa⟩ := Canon.stores hr.inv.canon (treeHaz_ok c) h
  unfold CDE.treeHaz at hx
  simp only [List.mem_append, List.mem_map] at hx ⊢
  rcases hx with (⟨y, hy, rfl⟩ | ⟨y, hy, rfl⟩) | ⟨y, hy, rfl⟩
  · refine ⟨y, .inl (.inl hy), ?_⟩
    rw [← hpa, ← (Presence.partly.inj (hp : Presence.partly _ = _))]
  · refine ⟨y, .inl (.inr hy), ?_⟩
    rw [← hpa, ← (Presence.partly.inj (hp : Presence.partly _ = _))]
  · refine ⟨y, .inr hy, ?_⟩
    rw [← hpa, ← (Presence.partly.inj (hp : Presence.partly _ = _))]

/-- The tree of the example engine does store shapes, also of the lazily removed
triangle. -/
example : ∃ c : CDE ℚ 2, c.Reachable Fpa.exact SearchOracle.first ∧ c.tree.Stores Ex.hTri.shape := by
  obtain ⟨c, h1, _, _, _, _, _, hc⟩ := Ex.exists_engine
  refine ⟨c, h1, ?_⟩
  have : (Ex.start.bind (Ex.runChecked Ex.ops)).map (fun c => match c.tree with
      | .leaf _ v => v.hazards.any fun h => match h.presence with | .partly p => decide (p.shape = Ex.hTri.shape) | _ => false
      | .node _ v _ => v.hazards.any fun h => match h.presence with | .partly p => decide (p.shape = Ex.hTri.shape) | _ => false)
      = some true := by decide +kernel
  rw [hc] at this
  have this := Option.some.inj this
  dsimp only at this
  revert this
  have key : ∀ (v : QTHazardVec ℚ), (v.hazards.any fun h => match h.presence with
      | .partly p => decide (p.shape = Ex.hTri.shape) | _ => false) = true →
      ∃ h ∈ v.hazards, ∃ p, h.presence = .partly p ∧ p.shape = Ex.hTri.shape := by
    intro v hv
    obtain ⟨h, hh, hp⟩ := List.any_eq_true.1 hv
    refine ⟨h, hh, ?_⟩
    split at hp
    · rename_i p hpp
      exact ⟨p, hpp, by simpa using hp⟩
    · simp at hp
  cases ht : c.tree with
  | leaf b v => exact fun h => key v (by simpa using h)
  | node b v cs => exact fun h => .inl (key v (by simpa using h))

end Jagua
