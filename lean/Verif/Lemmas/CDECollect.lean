import Verif.Lemmas.CDEReach
import Verif.Lemmas.QTCollect

/-!
# Collecting queries of the engine
-/

set_option linter.unusedSectionVars false

namespace Jagua

variable {K : Type*} [Arith K] [LinearOrder K] {n : ℕ}

/-- `R` is `D` followed by new, pairwise different entities satisfying `P`. -/
def Grew {α : Type*} (P : α → Prop) (D R : List α) : Prop :=
  ∃ new, R = D ++ new ∧ new.Nodup ∧ ∀ e ∈ new, e ∉ D ∧ P e

theorem Grew.refl {α : Type*} {P : α → Prop} (D : List α) : Grew P D D := ⟨[], by simp, by simp, by simp⟩

theorem Grew.trans {α : Type*} {P : α → Prop} {D E R : List α} (h1 : Grew P D E) (h2 : Grew P E R) : Grew P D R := by
  obtain ⟨n1, rfl, d1, p1⟩ := h1
  obtain ⟨n2, rfl, d2, p2⟩ := h2
  refine ⟨n1 ++ n2, by simp, ?_, ?_⟩
  · rw [List.nodup_append]
    refine ⟨d1, d2, ?_⟩
    rintro a ha b hb rfl
    exact (p2 a hb).1 (List.mem_append.2 (.inr ha))
  · intro e he
    rcases List.mem_append.1 he with he | he
    · exact p1 e he
    · exact ⟨fun h => (p2 e he).1 (List.mem_append.2 (.inl h)), (p2 e he).2⟩

theorem Grew.mono {α : Type*} {P Q : α → Prop} {D R : List α} (h : Grew P D R) (hPQ : ∀ e, P e → Q e) : Grew Q D R := by
  obtain ⟨n, h1, h2, h3⟩ := h
  exact ⟨n, h1, h2, fun e he => ⟨(h3 e he).1, hPQ e (h3 e he).2⟩⟩

theorem Grew.sub {α : Type*} {P : α → Prop} {D R : List α} (h : Grew P D R) : ∀ e ∈ D, e ∈ R := by
  obtain ⟨n, rfl, _⟩ := h
  exact fun e he => List.mem_append.2 (.inl he)

/-- hit by one of the queries -/
def HitBy (f : Fpa K) (c : CDE K n) (qs : List (Queryable K)) (e : HazardEntity K) : Prop :=
  ∃ h ∈ c.allHazards, h.entity = e ∧ ∃ q ∈ qs, coll1 f q n c.bbox (QTHazard.ofHazard h) = true

theorem CDE.Inv.collect {f : Fpa K} {c : CDE K n} (hi : c.Inv f) (q : Queryable K) (D : List (HazardEntity K)) :
    ∃ R, c.tree.collect q D = some R ∧ Grew (HitBy f c [q]) D R ∧
      (R = D → ∀ h ∈ c.allHazards, h.entity ∉ D → coll1 f q n c.bbox (QTHazard.ofHazard h) = false) := by
  obtain ⟨R, h1, new, rfl, hn, hnew, hemp⟩ := QTNode.collect_spec c.tree c.bbox c.treeHaz hi.canon (treeHaz_ok c) q D
  refine ⟨_, h1, ⟨new, rfl, hn, ?_⟩, ?_⟩
  · intro e he
    obtain ⟨a, x, hx, hxe, hxa, hhit⟩ := hnew e he
    obtain ⟨h, hh, rfl⟩ := mem_treeHaz_active.1 ⟨hx, hxa⟩
    exact ⟨a, h, hh, hxe, q, List.mem_singleton.2 rfl, hhit⟩
  · intro hR h hh hD
    have : new = [] := by simpa using hR
    have hx := mem_treeHaz_active.2 ⟨h, hh, rfl⟩
    have := hemp this _ hx.1 hx.2 hD
    simpa using this

theorem CDE.Inv.collectAll {f : Fpa K} {c : CDE K n} (hi : c.Inv f) (qs : List (Queryable K)) (D : List (HazardEntity K)) :
    ∃ R, qs.foldlM (fun d q => c.tree.collect q d) D = some R ∧ Grew (HitBy f c qs) D R ∧
      (R = D → ∀ h ∈ c.allHazards, h.entity ∉ D → ∀ q ∈ qs, coll1 f q n c.bbox (QTHazard.ofHazard h) = false) := by
  induction qs generalizing D with
  | nil => exact ⟨D, rfl, Grew.refl D, by simp⟩
  | cons q qs ih =>
    obtain ⟨E, h1, h2, h3⟩ := hi.collect q D
    obtain ⟨R, g1, g2, g3⟩ := ih E
    refine ⟨R, ?_, ?_, ?_⟩
    · rw [List.foldlM_cons, h1]; exact g1
    · refine (h2.mono ?_).trans (g2.mono ?_)
      · rintro e ⟨h, hh, he, q', hq', hc⟩
        exact ⟨h, hh, he, q', by rw [List.mem_singleton.1 hq']; exact List.mem_cons_self, hc⟩
      · rintro e ⟨h, hh, he, q', hq', hc⟩
        exact ⟨h, hh, he, q', List.mem_cons_of_mem _ hq', hc⟩
    · intro hR h hh hD q' hq'
      subst hR
      have hE : E = R := by
        obtain ⟨n1, e1, _⟩ := h2
        obtain ⟨n2, e2, _⟩ := g2
        rw [e1] at e2
        have : n1 = [] := by
          have := congrArg List.length e2
          simp only [List.length_append] at this
          exact List.length_eq_zero_iff.1 (by omega)
        rw [e1, this, List.append_nil]
      rcases List.mem_cons.1 hq' with rfl | hq'
      · exact h3 hE h hh hD
      · exact g3 hE.symm h hh (hE ▸ hD) q' hq'

theorem CDE.Inv.collectContained {f : Fpa K} {c : CDE K n} (hi : c.Inv f) (s : SPoly K) (hs : List (Hazard K))
    (hsub : ∀ h ∈ hs, h ∈ c.allHazards) (D : List (HazardEntity K)) :
    ∃ R, hs.foldlM (c.collectContained f s) D = some R ∧
      Grew (fun e => ∃ h ∈ hs, h.entity = e ∧ c.containedTest f s h = some true) D R ∧
      ∀ h ∈ hs, h.entity ∈ R ∨ c.containedTest f s h = some false := by
  induction hs generalizing D with
  | nil => exact ⟨D, rfl, Grew.refl D, by simp⟩
  | cons a hs ih =>
    have hsub' : ∀ h ∈ hs, h ∈ c.allHazards := fun h hh => hsub h (List.mem_cons_of_mem _ hh)
    have hstep : ∃ E, c.collectContained f s D a = some E ∧
        Grew (fun e => a.entity = e ∧ c.containedTest f s a = some true) D E ∧
        (a.entity ∈ E ∨ c.containedTest f s a = some false) := by
      unfold CDE.collectContained
      by_cases hD : a.entity ∈ D
      · rw [if_pos (by simpa using hD)]
        exact ⟨D, rfl, Grew.refl D, .inl hD⟩
      · rw [if_neg (by simpa using hD)]
        obtain ⟨b, hb⟩ := hi.containedTest_some s (hsub a List.mem_cons_self)
        cases b with
        | true =>
          rw [hb]
          refine ⟨_, rfl, ⟨[a.entity], rfl, by simp, ?_⟩, .inl (by simp)⟩
          intro e he
          rw [List.mem_singleton] at he
          subst he
          exact ⟨hD, rfl, rfl⟩
        | false => rw [hb]; exact ⟨D, rfl, Grew.refl D, .inr rfl⟩
    obtain ⟨E, h1, h2, h3⟩ := hstep
    obtain ⟨R, g1, g2, g3⟩ := ih hsub' E
    refine ⟨R, ?_, ?_, ?_⟩
    · rw [List.foldlM_cons, h1]; exact g1
    · refine (h2.mono ?_).trans (g2.mono ?_)
      · rintro e ⟨he, hc⟩
        exact ⟨a, List.mem_cons_self, he, hc⟩
      · rintro e ⟨h, hh, he⟩
        exact ⟨h, List.mem_cons_of_mem _ hh, he⟩
    · intro h hh
      rcases List.mem_cons.1 hh with rfl | hh
      · exact h3.imp (g2.sub _) id
      · exact g3 h hh

theorem drain_append {α : Type*} (D I N : List α) :
    CDE.drain (D ++ I ++ N) D.length (D.length + I.length) = D ++ N := by
  unfold CDE.drain
  rw [List.append_assoc, List.take_left, ← List.append_assoc, List.drop_left' (by simp)]

theorem Grew.drain {α : Type*} {P : α → Prop} {D I R : List α} (h : Grew P (D ++ I) R) :
    ∃ new, CDE.drain R D.length (D.length + I.length) = D ++ new ∧ R = D ++ I ++ new ∧ new.Nodup ∧
      ∀ e ∈ new, e ∉ D ∧ e ∉ I ∧ P e := by
  obtain ⟨new, rfl, hn, hp⟩ := h
  refine ⟨new, drain_append D I new, rfl, hn, ?_⟩
  intro e he
  obtain ⟨h1, h2⟩ := hp e he
  exact ⟨fun h => h1 (List.mem_append.2 (.inl h)), fun h => h1 (List.mem_append.2 (.inr h)), h2⟩

theorem foldlM_map {α β σ : Type*} (g : α → β) (k : σ → β → Option σ) (l : List α) (s : σ) :
    (l.map g).foldlM k s = l.foldlM (fun s a => k s (g a)) s := by
  induction l generalizing s with
  | nil => rfl
  | cons a l ih =>
    rw [List.map_cons, List.foldlM_cons, List.foldlM_cons]
    cases k s (g a) with
    | none => rfl
    | some s' => exact ih s'

theorem CDE.Inv.collectPoly {f : Fpa K} {c : CDE K n} (hi : c.Inv f) (s : SPoly K) (irr det : List (HazardEntity K)) :
    ∃ new, c.collectPolyCollisions f s irr det = some (det ++ new) ∧ new.Nodup ∧
      (∀ e ∈ new, e ∉ det ∧ e ∉ irr ∧ (HitBy f c (s.edges.map Edge.toQuery) e ∨
        ∃ h ∈ c.allHazards, h.active = true ∧ h.entity = e ∧ c.containedTest f s h = some true)) ∧
      (new = [] → ∀ h ∈ c.allHazards, h.entity ∉ det → h.entity ∉ irr →
        (∀ e ∈ s.edges, coll1 f e.toQuery n c.bbox (QTHazard.ofHazard h) = false) ∧
        (h.active = true → c.containedTest f s h = some false)) := by
  obtain ⟨E, h1, h2, h3⟩ := hi.collectAll (s.edges.map Edge.toQuery) (det ++ irr)
  rw [foldlM_map] at h1
  obtain ⟨R, g1, g2, g3⟩ := hi.collectContained s (c.allHazards.filter (·.active))
    (fun h hh => (List.mem_filter.1 hh).1) E
  have hg : Grew (fun e => HitBy f c (s.edges.map Edge.toQuery) e ∨
        ∃ h ∈ c.allHazards, h.active = true ∧ h.entity = e ∧ c.containedTest f s h = some true) (det ++ irr) R := by
    refine (h2.mono fun e he => .inl he).trans (g2.mono ?_)
    rintro e ⟨h, hh, he⟩
    rw [List.mem_filter] at hh
    exact .inr ⟨h, hh.1, hh.2, he⟩
  obtain ⟨new, d1, d2, d3, d4⟩ := hg.drain
  refine ⟨new, ?_, d3, d4, ?_⟩
  · unfold CDE.collectPolyCollisions
    rw [h1, Option.bind_some, g1, Option.map_some, d1]
  · intro hnew h hh hd hirr
    subst hnew
    rw [List.append_nil] at d2
    have hnot : h.entity ∉ R := by rw [d2]; simp [hd, hirr]
    have hE : E = det ++ irr := by
      obtain ⟨n1, e1, _⟩ := h2
      obtain ⟨n2, e2, _⟩ := g2
      rw [d2, e1] at e2
      have : n1 = [] := by
        have := congrArg List.length e2
        simp only [List.length_append] at this
        exact List.length_eq_zero_iff.1 (by omega)
      rw [e1, this, List.append_nil]
    constructor
    · intro e he
      exact h3 hE h hh (by simp [hd, hirr]) _ (List.mem_map_of_mem he)
    · intro ha
      exact (g3 h (List.mem_filter.2 ⟨hh, ha⟩)).resolve_left hnot

theorem CDE.Inv.collectSurrogate {f : Fpa K} {c : CDE K n} (hi : c.Inv f) (poles : List (Circle K)) (piers : List (Edge K))
    (irr det : List (HazardEntity K)) :
    ∃ new, c.collectSurrogateCollisions poles piers irr det = some (det ++ new) ∧ new.Nodup ∧
      (∀ e ∈ new, e ∉ det ∧ e ∉ irr ∧ HitBy f c (poles.map Circle.toQuery ++ piers.map Edge.toQuery) e) ∧
      (new = [] → ∀ h ∈ c.allHazards, h.entity ∉ det → h.entity ∉ irr →
        ∀ q ∈ poles.map Circle.toQuery ++ piers.map Edge.toQuery, coll1 f q n c.bbox (QTHazard.ofHazard h) = false) := by
  obtain ⟨R, h1, h2, h3⟩ := hi.collectAll (poles.map Circle.toQuery ++ piers.map Edge.toQuery) (det ++ irr)
  obtain ⟨new, d1, d2, d3, d4⟩ := h2.drain
  refine ⟨new, ?_, d3, d4, ?_⟩
  · unfold CDE.collectSurrogateCollisions
    rw [h1, Option.map_some, d1]
  · intro hnew h hh hd hirr
    subst hnew
    rw [List.append_nil] at d2
    exact h3 d2 h hh (by simp [hd, hirr])

theorem CDE.Inv.hazardsWithin {f : Fpa K} {c : CDE K n} (hi : c.Inv f) (q : Queryable K) (irr det : List (HazardEntity K)) :
    ∃ new, c.hazardsWithin q irr det = some (det ++ new) ∧ new.Nodup ∧
      (∀ e ∈ new, e ∉ det ∧ e ∉ irr ∧ (HitBy f c [q] e ∨
        (e = .binExterior ∧ c.bbox.collidesPoint q.centroid = false))) ∧
      (new = [] → ∀ h ∈ c.allHazards, h.entity ∉ det → h.entity ∉ irr →
        coll1 f q n c.bbox (QTHazard.ofHazard h) = false) := by
  obtain ⟨R, h1, h2, h3⟩ := hi.collect q (det ++ irr)
  obtain ⟨new, d1, d2, d3, d4⟩ := h2.drain
  unfold CDE.hazardsWithin
  rw [h1]
  dsimp only
  rw [d1]
  have hbase : ∀ e ∈ new, e ∉ det ∧ e ∉ irr ∧ (HitBy f c [q] e ∨
        (e = .binExterior ∧ c.bbox.collidesPoint q.centroid = false)) :=
    fun e he => ⟨(d4 e he).1, (d4 e he).2.1, .inl (d4 e he).2.2⟩
  have hemp : new = [] → ∀ h ∈ c.allHazards, h.entity ∉ det → h.entity ∉ irr →
        coll1 f q n c.bbox (QTHazard.ofHazard h) = false := by
    intro hnew h hh hd hirr
    subst hnew
    rw [List.append_nil] at d2
    exact h3 d2 h hh (by simp [hd, hirr])
  split_ifs with hc hb
  · rw [Bool.and_eq_true, Bool.not_eq_true', List.isEmpty_iff] at hc
    obtain ⟨hdet, hnew⟩ := List.append_eq_nil_iff.1 hc.2
    subst hdet
    subst hnew
    refine ⟨[.binExterior], rfl, by simp, ?_, by simp⟩
    intro e he
    rw [List.mem_singleton] at he
    subst he
    exact ⟨by simp, by simpa using hb, .inr ⟨rfl, hc.1⟩⟩
  · exact ⟨new, rfl, d3, hbase, hemp⟩
  · exact ⟨new, rfl, d3, hbase, hemp⟩

end Jagua
