import Verif.Lemmas.QTGeo

/-!
# Geometric meaning of the quadtree queries
-/

set_option linter.unusedSectionVars false

namespace Jagua

section Any

variable {K : Type*} [Arith K] [LinearOrder K]

theorem anyEdge_iff {s : SPoly K} {test : Edge K → Bool} {idx : List ℕ} {b : Bool} (h : anyEdge s test idx = some b) :
    b = true ↔ ∃ i ∈ idx, ∃ e, s.edges[i]? = some e ∧ test e = true := by
  induction idx with
  | nil => simp [anyEdge] at h; simp [← h]
  | cons i is ih =>
    rw [anyEdge] at h
    unfold SPoly.getEdge at h
    rcases he : s.edges[i]? with _ | e
    · rw [he] at h; simp at h
    · rw [he] at h
      dsimp only at h
      split_ifs at h with ht
      · have : true = b := Option.some.inj h
        subst this
        simp only [true_iff]
        exact ⟨i, List.mem_cons_self, e, he, ht⟩
      · rw [ih h]
        constructor
        · rintro ⟨j, hj, h'⟩
          exact ⟨j, List.mem_cons_of_mem _ hj, h'⟩
        · rintro ⟨j, hj, e', he', h'⟩
          rcases List.mem_cons.1 hj with rfl | hj
          · rw [he] at he'
            obtain rfl := Option.some.inj he'
            exact absurd h' ht
          · exact ⟨j, hj, e', he', h'⟩

end Any

variable {K : Type*} [Field K] [LinearOrder K] [IsStrictOrderedRing K]

/-- The tests of a query object are about the point set `S`. -/
structure QueryOK (q : Queryable K) (S : Set (Point K)) : Prop where
  rect : ∀ r : AARect K, r.Valid → (q.rect r = true ↔ ∃ p ∈ S, p ∈ r.pts)
  edge : ∀ e : Edge K, q.edge e = true → ∃ p ∈ S, p ∈ e.pts

theorem queryOK_edge (e : Edge K) : QueryOK e.toQuery e.pts where
  rect r hv := by
    change r.collidesEdge e = true ↔ _
    exact rect_collidesEdge_iff r e hv
  edge e' h := by
    obtain ⟨_, h⟩ := (collidesEdge_iff e e').1 h
    exact h

theorem queryOK_circle (c : Circle K) : QueryOK c.toQuery c.pts where
  rect r hv := by
    change c.collidesRect r = true ↔ _
    rw [circle_collidesRect_iff c r hv.1.le hv.2.le]
    exact ⟨fun ⟨p, a, b⟩ => ⟨p, b, a⟩, fun ⟨p, a, b⟩ => ⟨p, b, a⟩⟩
  edge e' h := by
    obtain ⟨p, a, b⟩ := (circle_collidesEdge_iff c e').1 h
    exact ⟨p, b, a⟩

theorem queryOK_rect (b : AARect K) (hb : b.Valid) : QueryOK b.toQuery b.pts where
  rect r _ := rect_collidesRect_iff b r
  edge e' h := by
    obtain ⟨p, a, b⟩ := (rect_collidesEdge_iff b e' hb).1 h
    exact ⟨p, b, a⟩

theorem partHaz_sound {p : PartialHaz K} {q : Queryable K} {S : Set (Point K)} (hq : QueryOK q S)
    (h : (p.collides q).getD false = true) : ∃ w ∈ S, w ∈ bdry p.shape.val.points := by
  unfold PartialHaz.collides at h
  dsimp only at h
  have hany : ∀ idx, (anyEdge p.shape.val q.edge idx).getD false = true → ∃ w ∈ S, w ∈ bdry p.shape.val.points := by
    intro idx h
    rcases ha : anyEdge p.shape.val q.edge idx with _ | b
    · rw [ha] at h; simp at h
    · rw [ha] at h
      obtain ⟨i, _, e, he, ht⟩ := (anyEdge_iff ha).1 h
      obtain ⟨w, hw, hwe⟩ := hq.edge e ht
      exact ⟨w, hw, edge_pts_bdry he hwe⟩
  rcases hp : p.edges with _ | idx
  · rw [hp] at h
    dsimp only at h
    split_ifs at h
    · simp only [Option.getD_some, List.any_eq_true] at h
      obtain ⟨e, he, ht⟩ := h
      obtain ⟨w, hw, hwe⟩ := hq.edge e ht
      exact ⟨w, hw, mem_bdry_iff.2 ⟨e, he, hwe⟩⟩
    · simp at h
  · rw [hp] at h
    dsimp only at h
    split_ifs at h
    · simp at h
    · exact hany _ h
    · exact hany _ h
    · simp at h

theorem partHaz_complete {pos : GeoPosition} {s : SPoly K} (hs : s.WF) {r : AARect K} (hv : r.Valid)
    {p : PartialHaz K} (hp : GeoOK pos s r (.partly p)) {q : Queryable K} {S : Set (Point K)} (hq : QueryOK q S)
    {e : Edge K} (he : e ∈ s.edges) (ht : q.edge e = true) {w : Point K} (hwS : w ∈ S) (hwe : w ∈ e.pts)
    (hwr : w ∈ r.pts) : (p.collides q).getD false = true := by
  obtain ⟨hsh, hlt, hcov⟩ := hp.indices
  have hbb : q.rect s.bbox = true := by
    refine (hq.rect _ hs.bbox_valid).2 ⟨w, hwS, ?_⟩
    rw [hs.bbox_eq]
    exact bdry_subset_bbox (mem_bdry_iff.2 ⟨e, he, hwe⟩)
  obtain ⟨i, hi, hie⟩ := List.mem_iff_getElem.1 he
  have hie' : s.edges[i]? = some e := by rw [List.getElem?_eq_some_iff]; exact ⟨hi, hie⟩
  have hmem : i ∈ p.indices := by
    refine hcov i (by rw [← s.edges_length]; exact hi) ?_
    exact (edgeHits_iff hv).2 ⟨e, hie', w, hwe, hwr⟩
  obtain ⟨b, hb⟩ := PartialHaz.collides_ok (hp.ok (by simp)) q
  rw [hb, Option.getD_some]
  rcases p with ⟨sh, _ | idx⟩
  · have h' : sh.val = s := hsh
    unfold PartialHaz.collides at hb
    dsimp only at hb
    rw [h', if_pos hbb] at hb
    rw [← Option.some.inj hb, List.any_eq_true]
    exact ⟨e, he, ht⟩
  · have h' : sh.val = s := hsh
    have hmem' : i ∈ idx := hmem
    unfold PartialHaz.collides at hb
    dsimp only at hb
    rw [h'] at hb
    split_ifs at hb with c1 c2
    · exact (anyEdge_iff hb).2 ⟨i, hmem', e, hie', ht⟩
    · exact (anyEdge_iff hb).2 ⟨i, hmem', e, hie', ht⟩

/-- What `constrictTo` leaves in the quadrants. -/
theorem constrictTo_geo {h : QTHazard K} {s : SPoly K} (hs : s.WF) {r : AARect K} (hv : r.Valid) {p : PartialHaz K}
    (hp : h.presence = .partly p) (hg : GeoOK h.entity.position s r h.presence) (hfit : Fits h.entity.position s r) :
    (∀ i c, constrictTo Fpa.exact r i h = some c → c.entity = h.entity ∧ c.active = h.active ∧
      GeoOK c.entity.position s (r.quadrants i) c.presence ∧ Fits c.entity.position s (r.quadrants i)) ∧
    (∀ i, constrictTo Fpa.exact r i h = none → ∀ w ∈ (r.quadrants i).pts, w ∉ openHaz h.entity.position s.points) ∧
    ∀ w ∈ bdry s.points, w ∈ r.pts → ∃ i c, w ∈ (r.quadrants i).pts ∧ constrictTo Fpa.exact r i h = some c ∧
      c.presence.isPartial = true := by
  have hok : h.presence.OK := hg.ok (by rw [hp]; simp)
  obtain ⟨g, hgg, _⟩ := constrictP_ok Fpa.exact h.entity hok r.quadrants
  have hgg' := hgg
  rw [hp] at hgg'
  obtain ⟨g1, g2⟩ := constrictP_geo hs hv (by rw [hp] at hg; exact hg) hfit hgg'
  refine ⟨?_, ?_, ?_⟩
  · intro i c hc
    unfold constrictTo at hc
    rw [hgg] at hc
    dsimp only at hc
    rw [new_eq_some] at hc
    obtain ⟨_, rfl⟩ := hc
    exact ⟨rfl, rfl, g1 i, hfit.quadrant hv i⟩
  · intro i hc
    unfold constrictTo at hc
    rw [hgg] at hc
    dsimp only at hc
    have := g1 i
    cases hgi : g i with
    | none => rw [hgi] at this; exact this
    | entire => rw [hgi] at hc; simp [QTHazard.new] at hc
    | partly p' => rw [hgi] at hc; simp [QTHazard.new] at hc
  · intro w hw hwr
    obtain ⟨i, hi, hpi⟩ := g2 w hw hwr
    obtain ⟨p', hp'⟩ := exists_partly hpi
    refine ⟨i, ⟨h.entity, g i, h.active⟩, hi, ?_, hpi⟩
    unfold constrictTo
    rw [hgg]
    dsimp only
    rw [hp']
    rfl

/-- A hit means that the query object shares a point with the forbidden region. -/
theorem coll1_sound {q : Queryable K} {S : Set (Point K)} (hq : QueryOK q S) {s : SPoly K} (hs : s.WF) (n : ℕ)
    {r : AARect K} (hv : r.Valid) {h : QTHazard K} (hg : GeoOK h.entity.position s r h.presence)
    (hfit : Fits h.entity.position s r) (hc : coll1 Fpa.exact q n r h = true) :
    ∃ w ∈ S, w ∈ closedHaz h.entity.position s.points := by
  induction n generalizing r h with
  | zero =>
    cases hp : h.presence with
    | none => simp [coll1, hp] at hc
    | entire =>
      rw [coll1_entire hp, hq.rect r hv] at hc
      obtain ⟨w, hw, hwr⟩ := hc
      rw [hp] at hg
      exact ⟨w, hw, .inr (hg w hwr)⟩
    | partly p =>
      rw [coll1_partly_zero hp] at hc
      obtain ⟨w, hw, hwb⟩ := partHaz_sound hq hc.2
      rw [hp] at hg
      rw [hg.indices.1] at hwb
      exact ⟨w, hw, .inl hwb⟩
  | succ n ih =>
    cases hp : h.presence with
    | none => simp [coll1, hp] at hc
    | entire =>
      rw [coll1_entire hp, hq.rect r hv] at hc
      obtain ⟨w, hw, hwr⟩ := hc
      rw [hp] at hg
      exact ⟨w, hw, .inr (hg w hwr)⟩
    | partly p =>
      rw [coll1_partly_succ hp] at hc
      obtain ⟨_, i, c, hcc, hc'⟩ := hc
      obtain ⟨t1, _, _⟩ := constrictTo_geo hs hv hp hg hfit
      obtain ⟨e1, _, e3, e4⟩ := t1 i c hcc
      have := ih (quadrants_valid hv i) e3 e4 hc'
      rw [e1] at this
      exact this

/-- An edge of the shape that the query object touches inside the box is found. -/
theorem coll1_complete {q : Queryable K} {S : Set (Point K)} (hq : QueryOK q S) {s : SPoly K} (hs : s.WF) (n : ℕ)
    {r : AARect K} (hv : r.Valid) {h : QTHazard K} (hg : GeoOK h.entity.position s r h.presence)
    (hn : h.presence ≠ .none)
    (hfit : Fits h.entity.position s r) {e : Edge K} (he : e ∈ s.edges) (ht : q.edge e = true) {w : Point K}
    (hwS : w ∈ S) (hwe : w ∈ e.pts) (hwr : w ∈ r.pts) :
    coll1 Fpa.exact q n r h = true := by
  have hrect : ∀ r : AARect K, r.Valid → w ∈ r.pts → q.rect r = true := fun r hv hw => (hq.rect r hv).2 ⟨w, hwS, hw⟩
  induction n generalizing r h with
  | zero =>
    cases hp : h.presence with
    | none => exact absurd hp hn
    | entire => rw [coll1_entire hp]; exact hrect r hv hwr
    | partly p =>
      rw [coll1_partly_zero hp]
      rw [hp] at hg
      exact ⟨hrect r hv hwr, partHaz_complete hs hv hg hq he ht hwS hwe hwr⟩
  | succ n ih =>
    cases hp : h.presence with
    | none => exact absurd hp hn
    | entire => rw [coll1_entire hp]; exact hrect r hv hwr
    | partly p =>
      rw [coll1_partly_succ hp]
      obtain ⟨t1, _, t3⟩ := constrictTo_geo hs hv hp hg hfit
      obtain ⟨i, c, hwi, hcc, hpi⟩ := t3 w (mem_bdry_iff.2 ⟨e, he, hwe⟩) hwr
      obtain ⟨e1, _, e3, e4⟩ := t1 i c hcc
      refine ⟨hrect r hv hwr, i, c, hcc, ih (quadrants_valid hv i) e3 ?_ e4 hwi⟩
      intro h0
      rw [h0] at hpi
      simp [Presence.isPartial] at hpi

/-- A query object whose point set meets the box only inside the open forbidden
region is found at once; more generally an answer `true` of the tri-valued query
is certain. -/
theorem def1_true {qr : AARect K → Bool} {S : Set (Point K)} (hq : ∀ r : AARect K, r.Valid → (qr r = true ↔ ∃ p ∈ S, p ∈ r.pts))
    {s : SPoly K} (hs : s.WF) (n : ℕ) {r : AARect K} (hv : r.Valid) {h : QTHazard K}
    (hg : GeoOK h.entity.position s r h.presence) (hfit : Fits h.entity.position s r)
    (hc : def1 Fpa.exact qr n r h = .true) : ∃ w ∈ S, w ∈ openHaz h.entity.position s.points := by
  induction n generalizing r h with
  | zero =>
    by_cases hqr : qr r = true
    · cases hp : h.presence with
      | none => simp [def1, hp] at hc
      | entire =>
        obtain ⟨w, hw, hwr⟩ := (hq r hv).1 hqr
        rw [hp] at hg
        exact ⟨w, hw, hg w hwr⟩
      | partly p => rw [def1_partly_zero hqr hp] at hc; simp at hc
    · rw [def1_rect hqr] at hc; simp at hc
  | succ n ih =>
    by_cases hqr : qr r = true
    · cases hp : h.presence with
      | none => simp [def1, hp] at hc
      | entire =>
        obtain ⟨w, hw, hwr⟩ := (hq r hv).1 hqr
        rw [hp] at hg
        exact ⟨w, hw, hg w hwr⟩
      | partly p =>
        rw [def1_partly_true hqr hp] at hc
        obtain ⟨i, c, hcc, hc'⟩ := hc
        obtain ⟨t1, _, _⟩ := constrictTo_geo hs hv hp hg hfit
        obtain ⟨e1, _, e3, e4⟩ := t1 i c hcc
        have := ih (quadrants_valid hv i) e3 e4 hc'
        rw [e1] at this
        exact this
    · rw [def1_rect hqr] at hc; simp at hc

/-- An answer `false` of the tri-valued query is certain inside the box. -/
theorem def1_false {qr : AARect K → Bool} {S : Set (Point K)} (hq : ∀ r : AARect K, r.Valid → (qr r = true ↔ ∃ p ∈ S, p ∈ r.pts))
    {s : SPoly K} (hs : s.WF) (n : ℕ) {r : AARect K} (hv : r.Valid) {h : QTHazard K}
    (hg : GeoOK h.entity.position s r h.presence) (hfit : Fits h.entity.position s r)
    (hc : def1 Fpa.exact qr n r h = .false) : ∀ w ∈ S, w ∈ r.pts → w ∉ openHaz h.entity.position s.points := by
  induction n generalizing r h with
  | zero =>
    intro w hw hwr
    have hqr : qr r = true := (hq r hv).2 ⟨w, hw, hwr⟩
    cases hp : h.presence with
    | none => rw [hp] at hg; exact hg w hwr
    | entire => rw [def1_entire hqr hp] at hc; simp at hc
    | partly p => rw [def1_partly_zero hqr hp] at hc; simp at hc
  | succ n ih =>
    intro w hw hwr
    have hqr : qr r = true := (hq r hv).2 ⟨w, hw, hwr⟩
    cases hp : h.presence with
    | none => rw [hp] at hg; exact hg w hwr
    | entire => rw [def1_entire hqr hp] at hc; simp at hc
    | partly p =>
      rw [def1_partly_false hqr hp] at hc
      obtain ⟨t1, t2, _⟩ := constrictTo_geo hs hv hp hg hfit
      obtain ⟨i, hwi⟩ := quadrants_cover hv hwr
      rcases hcc : constrictTo Fpa.exact r i h with _ | c
      · exact t2 i hcc w hwi
      · obtain ⟨e1, _, e3, e4⟩ := t1 i c hcc
        have := ih (quadrants_valid hv i) e3 e4 (hc i c hcc) w hw hwi
        rw [e1] at this
        exact this

end Jagua
