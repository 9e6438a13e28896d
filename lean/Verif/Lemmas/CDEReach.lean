import Verif.Spec.Engine
import Verif.Lemmas.CDERestore
import Verif.Lemmas.CDEQuery

/-!
# Reachable engines
-/

set_option linter.unusedSectionVars false

namespace Jagua

variable {K : Type*} [Arith K] [LinearOrder K] {n : ℕ}

theorem CDEOp.run_inv {f : Fpa K} {o : SearchOracle K} {c : CDE K n} (hi : c.Inv f) {op : CDEOp K} (hp : op.Pre c) :
    ∃ c', op.run f o c = some c' ∧ c'.Inv f ∧ c'.statics = c.statics ∧ c'.bbox = c.bbox := by
  cases op with
  | register h =>
    obtain ⟨c', h1, h2, h3, h4, _⟩ := CDE.register_inv (o := o) hi (h := h)
      (by intro hm; obtain ⟨x, hx, he⟩ := List.mem_map.1 hm
          exact hp x (List.mem_append.2 (.inl hx)) he)
      (by intro hm; obtain ⟨x, hx, he⟩ := List.mem_map.1 hm
          exact hp x (List.mem_append.2 (.inr hx)) he)
    exact ⟨c', h1, h2, h3, h4⟩
  | deregister e ci =>
    obtain ⟨h, hh, rfl⟩ := hp
    obtain ⟨c', h1, h2, h3, h4, _⟩ := CDE.deregister_inv (o := o) hi hh ci
    exact ⟨c', h1, h2, h3, h4⟩
  | commit =>
    obtain ⟨c', h1, h2, h3, h4, _⟩ := CDE.commit_inv hi
    exact ⟨c', h1, h2, h3, h4⟩
  | restore snap =>
    obtain ⟨hp1, hp2⟩ := hp
    obtain ⟨c', h1, h2, h3, h4, _⟩ := CDE.restore_inv (o := o) hi hp1 (by
      intro h hh hm
      obtain ⟨s, hs, he⟩ := List.mem_map.1 hm
      exact hp2 h hh s hs he)
    exact ⟨c', h1, h2, h3, h4⟩

theorem CDERun.inv {f : Fpa K} {o : SearchOracle K} {c c' : CDE K n} {ops : List (CDEOp K)} (hr : CDERun f o c ops c')
    (hi : c.Inv f) : c'.Inv f ∧ c'.statics = c.statics ∧ c'.bbox = c.bbox := by
  induction hr with
  | nil c => exact ⟨hi, rfl, rfl⟩
  | cons hp hrun _ ih =>
    obtain ⟨c1, h1, h2, h3, h4⟩ := CDEOp.run_inv (o := o) hi hp
    rw [h1] at hrun
    obtain rfl := Option.some.inj hrun
    obtain ⟨a, b, c⟩ := ih h2
    exact ⟨a, b.trans h3, c.trans h4⟩

theorem CDE.Reachable.inv {f : Fpa K} {o : SearchOracle K} {c : CDE K n} (hr : c.Reachable f o) : c.Inv f := by
  obtain ⟨bbox, statics, c₀, ops, hn, hnew, hrun⟩ := hr
  obtain ⟨c1, h1, h2, _⟩ := CDE.new_inv (n := n) (f := f) (o := o) (r := bbox) hn
  rw [hnew] at h1
  obtain rfl := Option.some.inj h1
  exact (hrun.inv h2).1

theorem CDERun.append {f : Fpa K} {o : SearchOracle K} {c c' c'' : CDE K n} {ops ops' : List (CDEOp K)}
    (h1 : CDERun f o c ops c') (h2 : CDERun f o c' ops' c'') : CDERun f o c (ops ++ ops') c'' := by
  induction h1 with
  | nil => exact h2
  | cons hp hrun _ ih => exact .cons hp hrun (ih h2)

theorem CDE.Reachable.run {f : Fpa K} {o : SearchOracle K} {c c' : CDE K n} {ops : List (CDEOp K)}
    (hr : c.Reachable f o) (h : CDERun f o c ops c') : c'.Reachable f o := by
  obtain ⟨bbox, statics, c₀, ops₀, hn, hnew, hrun⟩ := hr
  exact ⟨bbox, statics, c₀, ops₀ ++ ops, hn, hnew, hrun.append h⟩

theorem CDE.Same.answers {f : Fpa K} {c d : CDE K n} (hs : c.Same f d) : SameAnswers f c d where
  poly shape irr := hs.polyCollides shape irr
  surrogate poles piers irr := hs.surrogateCollides poles piers irr
  both poles piers shape irr := by
    unfold CDE.surrogateOrPolyCollides
    rw [hs.surrogateCollides, hs.polyCollides]
  edge e irr := by
    unfold CDE.edgeDefinitelyCollides
    rw [hs.bbox, hs.definitely]
  circle ci irr := by
    unfold CDE.circleDefinitelyCollides
    rw [hs.bbox, hs.definitely]
  point p e := by
    unfold CDE.pointDefinitelyCollidesWith
    rw [hs.bbox, hs.definitelyWith]

/-- building an engine from scratch -/
theorem rebuild {f : Fpa K} (o : SearchOracle K) {c : CDE K n} (hi : c.Inv f) :
    ∃ c₀ d : CDE K n, CDE.new f o n c.bbox c.statics = some c₀ ∧ c.dynamics.foldlM (fun c h => c.register f o h) c₀ = some d ∧
      c.Same f d ∧ d.statics = c.statics ∧ d.dynamics = c.dynamics := by
  obtain ⟨n1, n2, n3, n4, n5, n6⟩ := not_mem_of_nodup hi
  obtain ⟨c₀, h1, h2, h3, h4, h5, h6⟩ := CDE.new_inv (n := n) (f := f) (o := o) (r := c.bbox) n4
  have key : ∀ (l : List (Hazard K)) (c₁ : CDE K n), c₁.uncommitted = [] →
      l.foldlM (fun c h => c.register f o h) c₁ = l.foldlM (CDE.restoreAdd f o) c₁ := by
    intro l
    induction l with
    | nil => intro _ _; rfl
    | cons h l ih =>
      intro c₁ hu
      rw [List.foldlM_cons, List.foldlM_cons, restoreAdd_eq hu]
      cases hr : c₁.register f o h with
      | none => rfl
      | some c₂ =>
        refine ih c₂ ?_
        unfold CDE.register at hr
        rw [hu] at hr
        simp only [List.findIdx?_nil] at hr
        cases ht : c₁.tree.register f o (QTHazard.ofHazard h) with
        | none => rw [ht] at hr; simp at hr
        | some t =>
          rw [ht] at hr
          rw [← Option.some.inj hr]
  obtain ⟨d, e1, e2, e3, e4, e5, e6⟩ := restoreAdd_loop (f := f) (o := o) c.dynamics h2 h5 n5
    (fun h hh hm => by
      rw [h3] at hm
      obtain ⟨s, hs, he⟩ := List.mem_map.1 hm
      exact n1 s hs h hh he)
    (fun h hh hm => by rw [h4] at hm; simp at hm)
  refine ⟨c₀, d, h1, ?_, ⟨hi, e2, ?_, ?_⟩, e3.trans h3, ?_⟩
  · rw [key _ _ h5]; exact e1
  · rw [e4, h6]
  · intro h
    unfold CDE.allHazards
    rw [e3, h3, e6, h4]
    simp
  · rw [e6, h4]; simp

/-- What each operation does to the registered hazards. -/
theorem CDEOp.run_effect {f : Fpa K} {o : SearchOracle K} {c c' : CDE K n} (hi : c.Inv f) {op : CDEOp K} (hp : op.Pre c)
    (hr : op.run f o c = some c') : match op with
      | .register h => (c'.dynamics.map (·.entity)).Perm (h.entity :: c.dynamics.map (·.entity)) ∧
          ∀ x ∈ c'.dynamics, x ∈ c.dynamics ∨ x = h ∨ (x ∈ c.uncommitted ∧ x.entity = h.entity)
      | .deregister e _ => ∃ h, h.entity = e ∧ c.dynamics.Perm (h :: c'.dynamics)
      | .commit => c'.dynamics = c.dynamics ∧ c'.uncommitted = []
      | .restore snap => (c'.dynamics.map (·.entity)).Perm (snap.map (·.entity)) ∧ c'.uncommitted = [] ∧
          ∀ x ∈ c'.dynamics, x ∈ c.dynamics ∨ x ∈ c.uncommitted ∨ x ∈ snap := by
  cases op with
  | register h =>
    obtain ⟨c1, h1, h2, h3, h4, h5, h6⟩ := CDE.register_inv (o := o) hi (h := h)
      (by intro hm; obtain ⟨x, hx, he⟩ := List.mem_map.1 hm
          exact hp x (List.mem_append.2 (.inl hx)) he)
      (by intro hm; obtain ⟨x, hx, he⟩ := List.mem_map.1 hm
          exact hp x (List.mem_append.2 (.inr hx)) he)
    have : c.register f o h = some c' := hr
    rw [this] at h1
    obtain rfl := Option.some.inj h1
    by_cases hu : ∃ u ∈ c.uncommitted, u.entity = h.entity
    · obtain ⟨u, hu, he⟩ := hu
      have hd := (h6 u hu he).1
      dsimp only
      rw [hd]
      constructor
      · rw [List.map_append, List.map_cons, List.map_nil, he]
        exact List.perm_append_singleton _ _
      · intro x hx
        rcases List.mem_append.1 hx with hx | hx
        · exact .inl hx
        · rw [List.mem_singleton] at hx
          subst hx
          exact .inr (.inr ⟨hu, he⟩)
    · push Not at hu
      have hd := (h5 hu).1
      dsimp only
      rw [hd]
      constructor
      · rw [List.map_append, List.map_cons, List.map_nil]
        exact List.perm_append_singleton _ _
      · intro x hx
        rcases List.mem_append.1 hx with hx | hx
        · exact .inl hx
        · exact .inr (.inl (List.mem_singleton.1 hx))
  | deregister e ci =>
    obtain ⟨h, hh, rfl⟩ := hp
    obtain ⟨c1, h1, h2, h3, h4, h5, h6⟩ := CDE.deregister_inv (o := o) hi hh ci
    have : c.deregister o h.entity ci = some c' := hr
    rw [this] at h1
    obtain rfl := Option.some.inj h1
    exact ⟨h, rfl, h5⟩
  | commit =>
    obtain ⟨c1, h1, h2, h3, h4, h5, h6⟩ := CDE.commit_inv hi
    have : c.commit = some c' := hr
    rw [this] at h1
    obtain rfl := Option.some.inj h1
    exact ⟨h5, h6⟩
  | restore snap =>
    obtain ⟨hp1, hp2⟩ := hp
    obtain ⟨c1, h1, h2, h3, h4, h5, h6, h7⟩ := CDE.restore_inv (o := o) hi hp1 (by
      intro h hh hm
      obtain ⟨s, hs, he⟩ := List.mem_map.1 hm
      exact hp2 h hh s hs he)
    have : c.restore f o snap = some c' := hr
    rw [this] at h1
    obtain rfl := Option.some.inj h1
    exact ⟨h6, h5, h7⟩

/-- where the lazily deregistered hazards come from -/
theorem CDEOp.run_uncommitted {f : Fpa K} {o : SearchOracle K} {c c' : CDE K n} (hi : c.Inv f) {op : CDEOp K} (hp : op.Pre c)
    (hr : op.run f o c = some c') : ∀ x ∈ c'.uncommitted, x ∈ c.uncommitted ∨ x ∈ c.dynamics := by
  cases op with
  | register h =>
    obtain ⟨c1, h1, h2, h3, h4, h5, h6⟩ := CDE.register_inv (o := o) hi (h := h)
      (by intro hm; obtain ⟨x, hx, he⟩ := List.mem_map.1 hm
          exact hp x (List.mem_append.2 (.inl hx)) he)
      (by intro hm; obtain ⟨x, hx, he⟩ := List.mem_map.1 hm
          exact hp x (List.mem_append.2 (.inr hx)) he)
    have : c.register f o h = some c' := hr
    rw [this] at h1
    obtain rfl := Option.some.inj h1
    intro x hx
    by_cases hu : ∃ u ∈ c.uncommitted, u.entity = h.entity
    · obtain ⟨u, hu, he⟩ := hu
      exact .inl ((h6 u hu he).2.mem_iff.2 (List.mem_cons_of_mem _ hx))
    · push Not at hu
      rw [(h5 hu).2] at hx
      exact .inl hx
  | deregister e ci =>
    obtain ⟨h, hh, rfl⟩ := hp
    obtain ⟨c1, h1, h2, h3, h4, h5, h6⟩ := CDE.deregister_inv (o := o) hi hh ci
    have : c.deregister o h.entity ci = some c' := hr
    rw [this] at h1
    obtain rfl := Option.some.inj h1
    intro x hx
    rw [h6] at hx
    cases ci with
    | true => exact .inl hx
    | false =>
      rcases List.mem_append.1 hx with hx | hx
      · exact .inl hx
      · rw [List.mem_singleton.1 hx]; exact .inr hh
  | commit =>
    have := CDEOp.run_effect hi hp hr
    intro x hx
    rw [this.2] at hx
    simp at hx
  | restore snap =>
    have := CDEOp.run_effect hi hp hr
    intro x hx
    rw [this.2.1] at hx
    simp at hx

theorem CDEOp.run_consistent {f : Fpa K} {o : SearchOracle K} {c c' : CDE K n} (hi : c.Inv f) {op : CDEOp K} (hp : op.Pre c)
    (hr : op.run f o c = some c') {φ : HazardEntity K → Hazard K} (hc : c.Consistent φ) (ho : op.Consistent φ) :
    c'.Consistent φ := by
  have hd : ∀ x ∈ c.dynamics, x.erase = φ x.entity := fun x hx => hc x (List.mem_append.2 (.inl hx))
  have hu : ∀ x ∈ c.uncommitted, x.erase = φ x.entity := fun x hx => hc x (List.mem_append.2 (.inr hx))
  intro x hx
  rcases List.mem_append.1 hx with hx | hx
  · have := CDEOp.run_effect hi hp hr
    cases op with
    | register h =>
      rcases this.2 x hx with h1 | rfl | h1
      · exact hd x h1
      · exact ho
      · exact hu x h1.1
    | deregister e ci =>
      obtain ⟨h, _, hperm⟩ := this
      exact hd x (hperm.mem_iff.2 (List.mem_cons_of_mem _ hx))
    | commit => rw [this.1] at hx; exact hd x hx
    | restore snap =>
      rcases this.2.2 x hx with h1 | h1 | h1
      · exact hd x h1
      · exact hu x h1
      · exact ho x h1
  · rcases CDEOp.run_uncommitted hi hp hr x hx with h | h
    · exact hu x h
    · exact hd x h

/-- Two engines with the same box and, up to addresses, the same registered hazards; what is
lazily deregistered may differ. -/
structure CDE.Sim (f : Fpa K) (φ : HazardEntity K → Hazard K) (c d : CDE K n) : Prop where
  inv₁ : c.Inv f
  inv₂ : d.Inv f
  cons₁ : c.Consistent φ
  cons₂ : d.Consistent φ
  bbox : c.bbox = d.bbox
  statics : c.statics = d.statics
  dynamics : (c.dynamics.map Hazard.erase).Perm (d.dynamics.map Hazard.erase)

theorem CDE.Sim.same {f : Fpa K} {φ : HazardEntity K → Hazard K} {c d : CDE K n} (h : c.Sim f φ d) : c.Same f d where
  inv₁ := h.inv₁
  inv₂ := h.inv₂
  bbox := h.bbox
  haz x := by
    unfold CDE.allHazards
    rw [List.map_append, List.map_append, List.mem_append, List.mem_append, h.statics, h.dynamics.mem_iff]

theorem CDE.Sim.entities {f : Fpa K} {φ : HazardEntity K → Hazard K} {c d : CDE K n} (h : c.Sim f φ d) :
    (c.dynamics.map (·.entity)).Perm (d.dynamics.map (·.entity)) := by
  have := h.dynamics.map (·.entity)
  rw [List.map_map, List.map_map] at this
  exact this

/-- consistent lists with the same entities -/
theorem perm_of_consistent {φ : HazardEntity K → Hazard K} {l l' : List (Hazard K)} (hl : ∀ x ∈ l, x.erase = φ x.entity)
    (hl' : ∀ x ∈ l', x.erase = φ x.entity) (hp : (l.map (·.entity)).Perm (l'.map (·.entity))) :
    (l.map Hazard.erase).Perm (l'.map Hazard.erase) := by
  have h1 : l.map Hazard.erase = (l.map (·.entity)).map φ := by
    rw [List.map_map]
    exact List.map_congr_left hl
  have h2 : l'.map Hazard.erase = (l'.map (·.entity)).map φ := by
    rw [List.map_map]
    exact List.map_congr_left hl'
  rw [h1, h2]
  exact hp.map φ

theorem CDE.Sim.step {f : Fpa K} {o : SearchOracle K} {φ : HazardEntity K → Hazard K} {c d : CDE K n} (h : c.Sim f φ d)
    {op : CDEOp K} (hp : op.Pre c) (ho : op.Consistent φ) :
    op.Pre d ∧ ∃ c' d', op.run f o c = some c' ∧ op.run f o d = some d' ∧ c'.Sim f φ d' := by
  have hpd : op.Pre d := by
    cases op with
    | register x =>
      intro y hy hye
      obtain ⟨z, hz, hyz⟩ := h.same.symm.mem hy
      exact hp z hz ((erase_entity hyz).trans hye)
    | deregister e ci =>
      obtain ⟨x, hx, he⟩ := hp
      obtain ⟨y, hy, hye⟩ := List.mem_map.1 (h.entities.mem_iff.1 (List.mem_map_of_mem (f := (·.entity)) hx))
      exact ⟨y, hy, hye.trans he⟩
    | commit => trivial
    | restore snap => exact ⟨hp.1, fun x hx s hs => hp.2 x hx s (h.statics ▸ hs)⟩
  obtain ⟨c', e1, i1, s1, b1⟩ := CDEOp.run_inv (o := o) h.inv₁ hp
  obtain ⟨d', e2, i2, s2, b2⟩ := CDEOp.run_inv (o := o) h.inv₂ hpd
  have k1 := CDEOp.run_consistent h.inv₁ hp e1 h.cons₁ ho
  have k2 := CDEOp.run_consistent h.inv₂ hpd e2 h.cons₂ ho
  refine ⟨hpd, c', d', e1, e2, i1, i2, k1, k2, by rw [b1, b2, h.bbox], by rw [s1, s2, h.statics], ?_⟩
  refine perm_of_consistent (fun x hx => k1 x (List.mem_append.2 (.inl hx)))
    (fun x hx => k2 x (List.mem_append.2 (.inl hx))) ?_
  have f1 := CDEOp.run_effect h.inv₁ hp e1
  have f2 := CDEOp.run_effect h.inv₂ hpd e2
  cases op with
  | register x => exact f1.1.trans ((h.entities.cons _).trans f2.1.symm)
  | deregister e ci =>
    obtain ⟨x, hx, p1⟩ := f1
    obtain ⟨y, hy, p2⟩ := f2
    have := ((p1.map (·.entity)).symm.trans (h.entities.trans (p2.map (·.entity))))
    rw [List.map_cons, List.map_cons, hx, hy] at this
    exact this.cons_inv
  | commit => rw [f1.1, f2.1]; exact h.entities
  | restore snap => exact f1.1.trans f2.1.symm

theorem CDE.Sim.run {f : Fpa K} {o : SearchOracle K} {φ : HazardEntity K → Hazard K} {c d : CDE K n} (h : c.Sim f φ d)
    {ops : List (CDEOp K)} (ho : ∀ op ∈ ops, op.Consistent φ) {c' : CDE K n} (hr : CDERun f o c ops c') :
    ∃ d', CDERun f o d ops d' ∧ c'.Sim f φ d' := by
  induction hr generalizing d with
  | nil c => exact ⟨d, .nil d, h⟩
  | @cons c op c1 ops c2 hp hrun _ ih =>
    obtain ⟨hpd, c', d', e1, e2, hs⟩ := h.step (o := o) hp (ho op List.mem_cons_self)
    rw [hrun] at e1
    obtain rfl := Option.some.inj e1
    obtain ⟨d2, r2, s2⟩ := ih hs fun op hop => ho op (List.mem_cons_of_mem _ hop)
    exact ⟨d2, .cons hpd e2 r2, s2⟩

theorem CDERun.consistent {f : Fpa K} {o : SearchOracle K} {c c' : CDE K n} {ops : List (CDEOp K)}
    (hr : CDERun f o c ops c') (hi : c.Inv f) {φ : HazardEntity K → Hazard K} (hc : c.Consistent φ)
    (ho : ∀ op ∈ ops, op.Consistent φ) : c'.Consistent φ := by
  induction hr with
  | nil c => exact hc
  | @cons c op c1 ops c2 hp hrun _ ih =>
    obtain ⟨c', e1, i1, _⟩ := CDEOp.run_inv (o := o) hi hp
    rw [hrun] at e1
    obtain rfl := Option.some.inj e1
    exact ih i1 (CDEOp.run_consistent hi hp hrun hc (ho op List.mem_cons_self))
      fun op hop => ho op (List.mem_cons_of_mem _ hop)

theorem edgeResult_shape {r : AARect K} {sh : Arc (SPoly K)} {idx : List ℕ} {q : PartialHaz K}
    (h : edgeResult r sh idx = some (.partly q)) : q.shape = sh := by
  unfold edgeResult at h
  split at h
  · simp at h
  · simp only [Option.some.injEq, Presence.partly.injEq] at h
    rw [← h]

theorem constrictP_shape {f : Fpa K} {e : HazardEntity K} {p q : PartialHaz K} {quads : Fin 4 → AARect K}
    (hok : (Presence.partly p).OK) {g : Fin 4 → Presence K} (hg : constrictP f e (.partly p) quads = some g) {i : Fin 4}
    (hi : g i = .partly q) : q.shape = p.shape := by
  unfold constrictP at hg
  dsimp only at hg
  split at hg
  · rename_i j _
    rw [← Option.some.inj hg] at hi
    dsimp only at hi
    split at hi
    · rw [Presence.partly.inj hi]
    · simp at hi
  · rw [seq4_some (g := fun i => edgeResult (quads i) p.shape p.indices) (fun i => edgePhase_eq _ _ hok)] at hg
    dsimp only at hg
    obtain ⟨g', h1, h2, h3⟩ := resolve_spec f e p.shape.val quads (fun i => edgeResult (quads i) p.shape p.indices)
    rw [seq4_some h1] at hg
    obtain rfl := Option.some.inj hg
    rcases hr : edgeResult (quads i) p.shape p.indices with _ | pr
    · rcases h3 i hr with h | h
      · rw [h] at hi; simp at hi
      · rw [h] at hi; simp at hi
    · rw [h2 i pr hr] at hi
      rw [hi] at hr
      exact edgeResult_shape hr

/-- shapes stored in a tree in canonical form come from the hazards it stands for -/
theorem Canon.stores {f : Fpa K} {a : Arc (SPoly K)} {m : ℕ} {nd : QTNode K m} {r : AARect K} {hs : List (QTHazard K)}
    (hc : nd.Canon f r hs) (hok : AllOK hs) (h : nd.Stores a) : ∃ x ∈ hs, ∃ p, x.presence = .partly p ∧ p.shape = a := by
  have hvec : ∀ {v : QTHazardVec K}, VecInv v hs → (∃ h ∈ v.hazards, ∃ p, h.presence = .partly p ∧ p.shape = a) →
      ∃ x ∈ hs, ∃ p, x.presence = .partly p ∧ p.shape = a := by
    rintro v hv ⟨x, hx, hp⟩
    exact ⟨x, hv.mem.1 hx, hp⟩
  induction nd generalizing r hs with
  | @leaf m b v => exact hvec hc.2.1 h
  | @node m b v cs ih =>
    obtain ⟨h1, h2, h3, h4⟩ := hc
    rcases h with h | ⟨i, hi⟩
    · exact hvec h2 h
    · have hok' : AllOK (childHaz f r i hs) := hok.child
      obtain ⟨x, hx, p, hp, hpa⟩ := ih i (h4 i) hok' hi (fun hv ⟨x, hx, hp⟩ => ⟨x, hv.mem.1 hx, hp⟩)
      unfold childHaz at hx
      obtain ⟨y, hy, hyx⟩ := List.mem_filterMap.1 hx
      refine ⟨y, hy, ?_⟩
      unfold constrictTo at hyx
      obtain ⟨g, hg, _⟩ := constrictP_ok f y.entity (hok y hy) r.quadrants
      rw [hg] at hyx
      dsimp only at hyx
      rw [new_eq_some] at hyx
      obtain ⟨_, rfl⟩ := hyx
      dsimp only at hp
      cases hyp : y.presence with
      | none => have := hok y hy; rw [hyp] at this; exact this.elim
      | entire =>
        rw [hyp] at hg
        unfold constrictP at hg
        rw [← Option.some.inj hg] at hp
        simp at hp
      | partly py =>
        refine ⟨py, rfl, ?_⟩
        rw [hyp] at hg
        exact (constrictP_shape (by rw [← hyp]; exact hok y hy) hg hp).symm.trans hpa

end Jagua
