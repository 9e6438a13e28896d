import Verif.Lemmas.CDECollect
import Verif.Lemmas.QTGeo2

/-!
# Geometric meaning of the engine's quadtree queries
-/

set_option linter.unusedSectionVars false

namespace Jagua

variable {K : Type*} [Field K] [LinearOrder K] [IsStrictOrderedRing K] {n : ℕ}

theorem CDE.Good.geo {c : CDE K n} (_hg : c.Good) (h : Hazard K) :
    GeoOK (QTHazard.ofHazard h).entity.position h.shape.val c.bbox (QTHazard.ofHazard h).presence := rfl

theorem CDE.Good.fit {c : CDE K n} (hg : c.Good) {h : Hazard K} (hh : h ∈ c.allHazards) :
    Fits (QTHazard.ofHazard h).entity.position h.shape.val c.bbox := hg.fits h hh

/-- a hit is a shared point -/
theorem CDE.Good.sound {c : CDE K n} (hg : c.Good) {h : Hazard K} (hh : h ∈ c.allHazards) {q : Queryable K}
    {S : Set (Point K)} (hq : QueryOK q S) (hc : coll1 Fpa.exact q n c.bbox (QTHazard.ofHazard h) = true) :
    ∃ w ∈ S, w ∈ closedHaz h.entity.position h.shape.val.points :=
  coll1_sound hq (hg.shapes h hh) n hg.box (hg.geo h) (hg.fit hh) hc

/-- a touched edge is a hit -/
theorem CDE.Good.complete {c : CDE K n} (hg : c.Good) {h : Hazard K} (hh : h ∈ c.allHazards) {q : Queryable K}
    {S : Set (Point K)} (hq : QueryOK q S) {e : Edge K} (he : e ∈ h.shape.val.edges) (ht : q.edge e = true)
    {w : Point K} (hwS : w ∈ S) (hwe : w ∈ e.pts) (hwr : w ∈ c.bbox.pts) :
    coll1 Fpa.exact q n c.bbox (QTHazard.ofHazard h) = true :=
  coll1_complete hq (hg.shapes h hh) n hg.box (hg.geo h) (by simp [QTHazard.ofHazard]) (hg.fit hh) he ht hwS hwe hwr

/-- a partially present hazard has an edge in the quadrant it was constricted to -/
theorem constrictTo_touch {h c : QTHazard K} {s : SPoly K} (hs : s.WF) {r : AARect K} (hv : r.Valid) {p : PartialHaz K}
    (hp : h.presence = .partly p) (hg : GeoOK h.entity.position s r h.presence) (hfit : Fits h.entity.position s r)
    {i : Fin 4} (hc : constrictTo Fpa.exact r i h = some c) {p' : PartialHaz K} (hp' : c.presence = .partly p') :
    ∃ w ∈ bdry s.points, w ∈ (r.quadrants i).pts := by
  obtain ⟨_, _, hg', _⟩ := (constrictTo_geo hs hv hp hg hfit).1 i c hc
  rcases p' with ⟨sh', _ | idx⟩
  · have hok : h.presence.OK := hg.ok (by rw [hp]; simp)
    unfold constrictTo at hc
    have hsh : p.shape.val = s := by rw [hp] at hg; exact hg.indices.1
    rw [hp] at hc hok
    unfold constrictP at hc
    dsimp only at hc
    rw [hsh] at hc
    cases hfind : [0, 1, 2, 3].find? (fun i : Fin 4 => s.bbox.relationTo (r.quadrants i) = .enclosed) with
    | some j =>
      rw [hfind] at hc
      dsimp only at hc
      have hj : s.bbox.relationTo (r.quadrants j) = .enclosed := by simpa using List.find?_some hfind
      have hsub := relationTo_enclosed hj
      by_cases hij : i = j
      · subst hij
        obtain ⟨v, hvm⟩ := List.exists_mem_of_ne_nil _ hs.nonempty
        exact ⟨v, vertex_mem_bdry hvm, hsub (hs.bbox_eq ▸ mem_boundingBox hvm)⟩
      · rw [if_neg hij] at hc
        simp [QTHazard.new] at hc
    | none =>
      rw [hfind] at hc
      dsimp only at hc
      rw [seq4_some (g := fun i => edgeResult (r.quadrants i) p.shape p.indices) (fun i => edgePhase_eq _ _ hok)] at hc
      dsimp only at hc
      obtain ⟨g', h1, h2, h3⟩ := resolve_spec Fpa.exact h.entity s r.quadrants (fun i => edgeResult (r.quadrants i) p.shape p.indices)
      rw [seq4_some h1] at hc
      dsimp only at hc
      rw [new_eq_some] at hc
      obtain ⟨_, rfl⟩ := hc
      dsimp only at hp'
      rcases hr : edgeResult (r.quadrants i) p.shape p.indices with _ | pr
      · rcases h3 i hr with h | h
        · rw [h] at hp'; simp at hp'
        · rw [h] at hp'; simp at hp'
      · rw [h2 i pr hr] at hp'
        rw [hp'] at hr
        unfold edgeResult at hr
        split_ifs at hr
        simp at hr
  · rw [hp'] at hg'
    obtain ⟨_, hne, h1, _⟩ := hg'
    obtain ⟨k, hk⟩ := List.exists_mem_of_ne_nil _ hne
    obtain ⟨e, he, w, hw, hwr⟩ := (edgeHits_iff (quadrants_valid hv i)).1 (h1 k hk).2
    exact ⟨w, edge_pts_bdry he hw, hwr⟩

/-- Everything known about the label of a hazard below the root. -/
structure Below (s : SPoly K) (r : AARect K) (h : QTHazard K) : Prop where
  geo : GeoOK h.entity.position s r h.presence
  fit : Fits h.entity.position s r
  touch : h.presence.isPartial = true → ∃ w ∈ bdry s.points, w ∈ r.pts
  present : h.presence ≠ .none

theorem Below.child {s : SPoly K} (hs : s.WF) {r : AARect K} (hv : r.Valid) {h c : QTHazard K}
    (hg : GeoOK h.entity.position s r h.presence) (hfit : Fits h.entity.position s r) (hn : h.presence ≠ .none)
    {i : Fin 4} (hc : constrictTo Fpa.exact r i h = some c) : Below s (r.quadrants i) c ∧ c.entity = h.entity := by
  cases hp : h.presence with
  | none => exact absurd hp hn
  | entire =>
    have : c = h := by
      unfold constrictTo at hc
      rw [hp] at hc
      unfold constrictP at hc
      dsimp only at hc
      rw [new_eq_some] at hc
      rw [hc.2]
      rcases h with ⟨a, b, d⟩
      dsimp only at hp ⊢
      rw [hp]
    subst this
    refine ⟨⟨?_, hfit.quadrant hv i, ?_, hn⟩, rfl⟩
    · rw [hp] at hg ⊢
      exact fun w hw => hg w (quadrants_subset hv i hw)
    · rw [hp]; simp [Presence.isPartial]
  | partly p =>
    obtain ⟨e1, _, e3, e4⟩ := (constrictTo_geo hs hv hp hg hfit).1 i c hc
    refine ⟨⟨e3, e4, ?_, ?_⟩, e1⟩
    · intro hpart
      obtain ⟨p', hp'⟩ := exists_partly hpart
      exact constrictTo_touch hs hv hp hg hfit hc hp'
    · unfold constrictTo at hc
      split at hc
      · simp at hc
      · rw [new_eq_some] at hc
        obtain ⟨h1, rfl⟩ := hc
        exact h1

theorem Below.meets {s : SPoly K} {r : AARect K} (hv : r.Valid) {h : QTHazard K} (hb : Below s r h) :
    ∃ w ∈ r.pts, w ∈ closedHaz h.entity.position s.points := by
  have hmem : (⟨r.xMin, r.yMin⟩ : Point K) ∈ r.pts := ⟨le_refl _, hv.1.le, le_refl _, hv.2.le⟩
  cases hp : h.presence with
  | none => exact absurd hp hb.present
  | entire => have := hb.geo; rw [hp] at this; exact ⟨_, hmem, .inr (this _ hmem)⟩
  | partly p =>
    obtain ⟨w, hw, hwr⟩ := hb.touch (by rw [hp]; rfl)
    exact ⟨w, hwr, .inl hw⟩

/-- If one of two hazards fills a box in which the other is present, their regions overlap. -/
theorem entire_overlap {sa sb : SPoly K} {r : AARect K} (hv : r.Valid) {a b : QTHazard K} (ha : Below sa r a)
    (hb : Below sb r b) (h : a.presence = .entire) :
    ∃ w, w ∈ openHaz a.entity.position sa.points ∧ w ∈ closedHaz b.entity.position sb.points := by
  obtain ⟨w, hw, hwb⟩ := hb.meets hv
  have := ha.geo
  rw [h] at this
  exact ⟨w, this w hw, hwb⟩

theorem coEntire_below {q : Queryable K} {sa sb : SPoly K} (hsa : sa.WF) (hsb : sb.WF) {r : AARect K} (hv : r.Valid)
    {a b : QTHazard K} (m : ℕ) (ha : Below sa r a) (hb : Below sb r b) (h : CoEntire Fpa.exact q m r a b) :
    ∃ w, (w ∈ openHaz a.entity.position sa.points ∧ w ∈ closedHaz b.entity.position sb.points) ∨
      (w ∈ openHaz b.entity.position sb.points ∧ w ∈ closedHaz a.entity.position sa.points) := by
  have key : (a.presence = .entire ∨ b.presence = .entire) →
      ∃ w, (w ∈ openHaz a.entity.position sa.points ∧ w ∈ closedHaz b.entity.position sb.points) ∨
      (w ∈ openHaz b.entity.position sb.points ∧ w ∈ closedHaz a.entity.position sa.points) := by
    rintro (h | h)
    · obtain ⟨w, hw⟩ := entire_overlap hv ha hb h; exact ⟨w, .inl hw⟩
    · obtain ⟨w, hw⟩ := entire_overlap hv hb ha h; exact ⟨w, .inr hw⟩
  induction m generalizing r a b with
  | zero => exact key h.2
  | succ m ih =>
    rcases h.2 with h | h | ⟨i, a', b', ha', hb', hc⟩
    · exact key (.inl h)
    · exact key (.inr h)
    · obtain ⟨ba, ea⟩ := Below.child hsa hv ha.geo ha.fit ha.present ha'
      obtain ⟨bb, eb⟩ := Below.child hsb hv hb.geo hb.fit hb.present hb'
      have hv' := quadrants_valid hv i
      have := ih hv' ba bb hc (by
        rintro (h | h)
        · obtain ⟨w, hw⟩ := entire_overlap hv' ba bb h; exact ⟨w, .inl hw⟩
        · obtain ⟨w, hw⟩ := entire_overlap hv' bb ba h; exact ⟨w, .inr hw⟩)
      rwa [ea, eb] at this

/-- At the root the hazards are only partially present. -/
theorem CDE.Good.coEntire {c : CDE K n} (hg : c.Good) {q : Queryable K} {a b : Hazard K} (ha : a ∈ c.allHazards)
    (hb : b ∈ c.allHazards) (h : CoEntire Fpa.exact q n c.bbox (QTHazard.ofHazard a) (QTHazard.ofHazard b)) :
    ∃ w, (w ∈ openHaz a.entity.position a.shape.val.points ∧ w ∈ closedHaz b.entity.position b.shape.val.points) ∨
      (w ∈ openHaz b.entity.position b.shape.val.points ∧ w ∈ closedHaz a.entity.position a.shape.val.points) := by
  cases n with
  | zero => rcases h.2 with h | h <;> simp [QTHazard.ofHazard] at h
  | succ m =>
    rcases h.2 with h | h | ⟨i, a', b', ha', hb', hc⟩
    · simp [QTHazard.ofHazard] at h
    · simp [QTHazard.ofHazard] at h
    · obtain ⟨ba, ea⟩ := Below.child (hg.shapes a ha) hg.box (hg.geo a) (hg.fit ha) (by simp [QTHazard.ofHazard]) ha'
      obtain ⟨bb, eb⟩ := Below.child (hg.shapes b hb) hg.box (hg.geo b) (hg.fit hb) (by simp [QTHazard.ofHazard]) hb'
      have := coEntire_below (hg.shapes a ha) (hg.shapes b hb) (quadrants_valid hg.box i) m ba bb hc
      rw [ea, eb] at this
      exact this

end Jagua
