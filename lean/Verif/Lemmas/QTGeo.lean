import Verif.Lemmas.QTQuery
import Verif.Lemmas.PolyBasic
import Verif.Lemmas.RectGeo2
import Verif.Lemmas.CircleGeo
import Verif.Spec.HazardRegion

/-!
# Geometric meaning of the presences stored in the quadtree
-/

set_option linter.unusedSectionVars false

namespace Jagua

section Any

variable {K : Type*} [Arith K] [LinearOrder K]

/-- The loop over the quadrants without edges gives all of them the same value. -/
theorem resolve_value {f : Fpa K} {e : HazardEntity K} {s : SPoly K} {quads : Fin 4 → AARect K}
    {st : Fin 4 → Option (Presence K)} {v0 : Presence K}
    (hp : ∀ i pr, st i = some pr → pr.isPartial = true)
    (hv : ∀ i, st i = none → centroidPresence f e s (quads i) = v0)
    {g : Fin 4 → Presence K} (hg : ∀ i, [0, 1, 2, 3].foldl (resolveStep f e s quads) st i = some (g i))
    {i : Fin 4} (hi : st i = none) : g i = v0 := by
  have step : ∀ (cur : Fin 4 → Option (Presence K)) (j : Fin 4),
      ((∀ i, cur i = none → st i = none) ∧ ∀ i pr, cur i = some pr → pr.isPartial = true ∨ (st i = none ∧ pr = v0)) →
      ((∀ i, resolveStep f e s quads cur j i = none → st i = none) ∧
        ∀ i pr, resolveStep f e s quads cur j i = some pr → pr.isPartial = true ∨ (st i = none ∧ pr = v0)) := by
    rintro cur j ⟨c1, c2⟩
    unfold resolveStep
    rcases hj : cur j with _ | pr0
    · simp only [Option.isNone_none, if_true]
      have hval : resolveValue f e s quads cur j = v0 := by
        unfold resolveValue
        split
        · rename_i h
          rcases c2 _ _ h with h | h
          · simp [Presence.isPartial] at h
          · exact h.2
        · rename_i h _
          rcases c2 _ _ h with h | h
          · simp [Presence.isPartial] at h
          · exact h.2
        · rename_i h _
          rcases c2 _ _ h with h | h
          · simp [Presence.isPartial] at h
          · exact h.2
        · rename_i h _ _
          rcases c2 _ _ h with h | h
          · simp [Presence.isPartial] at h
          · exact h.2
        · exact hv j (c1 j hj)
      rw [hval]
      constructor
      · intro i h
        by_cases hij : i = j
        · subst hij; exact c1 _ hj
        · rw [Function.update_of_ne hij] at h
          exact c1 i h
      · intro i pr h
        by_cases hij : i = j
        · subst hij
          rw [Function.update_self] at h
          exact .inr ⟨c1 _ hj, (Option.some.inj h).symm⟩
        · rw [Function.update_of_ne hij] at h
          exact c2 i pr h
    · simp only [Option.isNone_some, Bool.false_eq_true, if_false]
      exact ⟨c1, c2⟩
  have h0 : ((∀ i, st i = none → st i = none) ∧ ∀ i pr, st i = some pr → pr.isPartial = true ∨ (st i = none ∧ pr = v0)) :=
    ⟨fun _ h => h, fun i pr h => .inl (hp i pr h)⟩
  have hfin := step _ 3 (step _ 2 (step _ 1 (step _ 0 h0)))
  simp only [List.foldl_cons, List.foldl_nil] at hg
  rcases hfin.2 i (g i) (hg i) with h | h
  · obtain ⟨g', h1, h2, h3⟩ := resolve_spec f e s quads st
    simp only [List.foldl_cons, List.foldl_nil] at h1
    have : g' i = g i := Option.some.inj ((h1 i).symm.trans (hg i))
    rw [← this] at h
    rcases h3 i hi with h4 | h4 <;> · rw [h4] at h; simp [Presence.isPartial] at h
  · exact h.2

end Any

variable {K : Type*} [Field K] [LinearOrder K] [IsStrictOrderedRing K]

theorem openHaz_not_bdry {pos : GeoPosition} {pts : List (Point K)} {p : Point K} (h : p ∈ openHaz pos pts) :
    p ∉ bdry pts := by
  cases pos with
  | interior => exact h.1
  | exterior => exact fun hb => h (.inl hb)

/-- Off the boundary, being in the open forbidden region is decided by being in the interior. -/
theorem openHaz_iff {pos : GeoPosition} {pts : List (Point K)} {p : Point K} (h : p ∉ bdry pts) :
    p ∈ openHaz pos pts ↔ match pos with
      | .interior => p ∈ interior pts
      | .exterior => p ∉ interior pts := by
  cases pos with
  | interior => rfl
  | exterior =>
    refine ⟨fun hp hi => hp (.inr hi), ?_⟩
    rintro hn (hb | hi)
    · exact h hb
    · exact hn hi

theorem interior_const {pts : List (Point K)} {p q : Point K} (h : ∀ w ∈ segPts p q, w ∉ bdry pts) :
    p ∈ interior pts ↔ q ∈ interior pts := by
  have := rayCount_parity pts h
  constructor
  · rintro ⟨_, ho⟩
    exact ⟨h q (segPts_stop _ _), this.1 ho⟩
  · rintro ⟨_, ho⟩
    exact ⟨h p (segPts_start _ _), this.2 ho⟩

theorem openHaz_const {pos : GeoPosition} {pts : List (Point K)} {p q : Point K} (h : ∀ w ∈ segPts p q, w ∉ bdry pts) :
    p ∈ openHaz pos pts ↔ q ∈ openHaz pos pts := by
  rw [openHaz_iff (h p (segPts_start _ _)), openHaz_iff (h q (segPts_stop _ _))]
  cases pos with
  | interior => exact interior_const h
  | exterior => exact not_congr (interior_const h)

/-- What a stored presence of a hazard (shape `s`, position `pos`) says about the box `r`. -/
def GeoOK (pos : GeoPosition) (s : SPoly K) (r : AARect K) : Presence K → Prop
  | .none => ∀ p ∈ r.pts, p ∉ openHaz pos s.points
  | .entire => ∀ p ∈ r.pts, p ∈ openHaz pos s.points
  | .partly ⟨sh, .all⟩ => sh.val = s
  | .partly ⟨sh, .some idx⟩ => sh.val = s ∧ idx ≠ [] ∧
      (∀ i ∈ idx, i < s.points.length ∧ edgeHits r s i = true) ∧
      ∀ i < s.points.length, edgeHits r s i = true → i ∈ idx

/-- The box is not larger than the bounding box of the shape in some direction. -/
def Fits (pos : GeoPosition) (s : SPoly K) (r : AARect K) : Prop :=
  pos = .exterior → r.width ≤ s.bbox.width ∨ r.height ≤ s.bbox.height

theorem GeoOK.ok {pos : GeoPosition} {s : SPoly K} {r : AARect K} {p : Presence K} (h : GeoOK pos s r p)
    (hn : p ≠ .none) : p.OK := by
  cases p with
  | none => exact absurd rfl hn
  | entire => trivial
  | partly p =>
    rcases p with ⟨sh, _ | idx⟩
    · trivial
    · obtain ⟨rfl, h1, h2, h3⟩ := h
      exact ⟨h1, fun i hi => (h2 i hi).1⟩

theorem quadrants_dim {r : AARect K} (hv : r.Valid) (i : Fin 4) :
    (r.quadrants i).width = r.width / 2 ∧ (r.quadrants i).height = r.height / 2 := by
  obtain ⟨h0, h1, h2, h3⟩ := quadrants_eq hv
  unfold AARect.width AARect.height
  fin_cases i
  · simp only [Fin.zero_eta, h0]; constructor <;> ring
  · simp only [Fin.mk_one, h1]; constructor <;> ring
  · simp only [Fin.reduceFinMk, h2]; constructor <;> ring
  · simp only [Fin.reduceFinMk, h3]; constructor <;> ring

theorem centroid_mem_quadrants {r : AARect K} (hv : r.Valid) (i : Fin 4) : r.centroid ∈ (r.quadrants i).pts := by
  obtain ⟨h0, h1, h2, h3⟩ := quadrants_eq hv
  obtain ⟨hx, hy⟩ := hv
  fin_cases i
  · simp only [Fin.zero_eta, h0]; refine ⟨?_, ?_, ?_, ?_⟩ <;> simp only [AARect.centroid] <;> linarith
  · simp only [Fin.mk_one, h1]; refine ⟨?_, ?_, ?_, ?_⟩ <;> simp only [AARect.centroid] <;> linarith
  · simp only [Fin.reduceFinMk, h2]; refine ⟨?_, ?_, ?_, ?_⟩ <;> simp only [AARect.centroid] <;> linarith
  · simp only [Fin.reduceFinMk, h3]; refine ⟨?_, ?_, ?_, ?_⟩ <;> simp only [AARect.centroid] <;> linarith

theorem Fits.quadrant {pos : GeoPosition} {s : SPoly K} {r : AARect K} (hv : r.Valid) (h : Fits pos s r) (i : Fin 4) :
    Fits pos s (r.quadrants i) := by
  intro hp
  obtain ⟨d1, d2⟩ := quadrants_dim hv i
  have hx : 0 < r.width := by unfold AARect.width; linarith [hv.1]
  have hy : 0 < r.height := by unfold AARect.height; linarith [hv.2]
  rw [d1, d2]
  rcases h hp with h | h
  · left; linarith
  · right; linarith

theorem Fits.not_enclosed {s : SPoly K} (hs : s.WF) {r : AARect K} (hv : r.Valid) (h : Fits .exterior s r) (i : Fin 4) :
    s.bbox.relationTo (r.quadrants i) ≠ .enclosed := by
  intro he
  have hsub := relationTo_enclosed he
  rw [pts_subset_iff hs.bbox_valid] at hsub
  obtain ⟨d1, d2⟩ := quadrants_dim hv i
  have hx : 0 < r.width := by unfold AARect.width; linarith [hv.1]
  have hy : 0 < r.height := by unfold AARect.height; linarith [hv.2]
  obtain ⟨h1, h2, h3, h4⟩ := hsub
  unfold AARect.width AARect.height at *
  rcases h rfl with h | h
  · unfold AARect.width at h; linarith
  · unfold AARect.height at h; linarith

/-- Membership of an edge index in terms of points. -/
theorem edgeHits_iff {r : AARect K} (hv : r.Valid) {s : SPoly K} {i : ℕ} :
    edgeHits r s i = true ↔ ∃ e, s.edges[i]? = some e ∧ ∃ p, p ∈ e.pts ∧ p ∈ r.pts := by
  unfold edgeHits SPoly.getEdge
  rcases s.edges[i]? with _ | e
  · simp
  · simp [rect_collidesEdge_iff r e hv]

theorem bdry_edge_index {s : SPoly K} {w : Point K} (h : w ∈ bdry s.points) :
    ∃ i e, i < s.points.length ∧ s.edges[i]? = some e ∧ w ∈ e.pts := by
  obtain ⟨e, he, hw⟩ := mem_bdry_iff.1 h
  obtain ⟨i, hi, hie⟩ := List.mem_iff_getElem.1 he
  refine ⟨i, e, ?_, ?_, hw⟩
  · rw [← s.edges_length]; exact hi
  · rw [List.getElem?_eq_some_iff]; exact ⟨hi, hie⟩

theorem edge_pts_bdry {s : SPoly K} {e : Edge K} {i : ℕ} (h : s.edges[i]? = some e) {w : Point K} (hw : w ∈ e.pts) :
    w ∈ bdry s.points :=
  mem_bdry_iff.2 ⟨e, List.mem_of_getElem? h, hw⟩

/-- indices listed for a valid partial presence cover every edge meeting the box -/
theorem GeoOK.indices {pos : GeoPosition} {s : SPoly K} {r : AARect K} {p : PartialHaz K}
    (h : GeoOK pos s r (.partly p)) : p.shape.val = s ∧ (∀ i ∈ p.indices, i < s.points.length) ∧
      ∀ i < s.points.length, edgeHits r s i = true → i ∈ p.indices := by
  rcases p with ⟨sh, _ | idx⟩
  · have h' : sh.val = s := h
    subst h'
    exact ⟨rfl, fun i hi => List.mem_range.1 hi, fun i hi _ => List.mem_range.2 hi⟩
  · exact ⟨h.1, fun i hi => (h.2.2.1 i hi).1, h.2.2.2⟩

/-- **`constrict` is geometrically correct.** The presences handed to the
quadrants are valid, and every boundary point of the shape in the box lies in a
quadrant where the hazard is partially present. -/
theorem constrictP_geo {e : HazardEntity K} {s : SPoly K} (hs : s.WF) {r : AARect K} (hv : r.Valid)
    {p : PartialHaz K} (hp : GeoOK e.position s r (.partly p)) (hfit : Fits e.position s r)
    {g : Fin 4 → Presence K} (hg : constrictP Fpa.exact e (.partly p) r.quadrants = some g) :
    (∀ i, GeoOK e.position s (r.quadrants i) (g i)) ∧
    ∀ w ∈ bdry s.points, w ∈ r.pts → ∃ i, w ∈ (r.quadrants i).pts ∧ (g i).isPartial = true := by
  obtain ⟨hsh, hlt, hcov⟩ := hp.indices
  unfold constrictP at hg
  dsimp only at hg
  rw [hsh] at hg
  cases hfind : [0, 1, 2, 3].find? (fun i : Fin 4 => s.bbox.relationTo (r.quadrants i) = .enclosed) with
  | some j =>
    rw [hfind] at hg
    obtain rfl := Option.some.inj hg
    have hj : s.bbox.relationTo (r.quadrants j) = .enclosed := by simpa using List.find?_some hfind
    have hpos : e.position = .interior := by
      cases hpos : e.position with
      | interior => rfl
      | exterior =>
        rw [hpos] at hfit
        exact absurd hj (hfit.not_enclosed hs hv j)
    have hsub := relationTo_enclosed hj
    constructor
    · intro i
      dsimp only
      by_cases hij : i = j
      · rw [if_pos hij, hij]
        rcases p with ⟨sh, _ | idx⟩
        · exact hsh
        · refine ⟨hsh, hp.2.1, ?_, ?_⟩
          · intro k hk
            obtain ⟨h1, h2⟩ := hp.2.2.1 k hk
            refine ⟨h1, ?_⟩
            rw [edgeHits_iff hv] at h2
            rw [edgeHits_iff (quadrants_valid hv j)]
            obtain ⟨e', he', w, hw, hwr⟩ := h2
            refine ⟨e', he', w, hw, hsub ?_⟩
            rw [hs.bbox_eq]
            exact bdry_subset_bbox (edge_pts_bdry he' hw)
          · intro k hk hh
            apply hcov k hk
            rw [edgeHits_iff (quadrants_valid hv j)] at hh
            rw [edgeHits_iff hv]
            obtain ⟨e', he', w, hw, hwr⟩ := hh
            exact ⟨e', he', w, hw, quadrants_subset hv j hwr⟩
      · rw [if_neg hij, hpos]
        intro w hw ho
        have hin := interior_subset_inner ho
        rw [← hs.bbox_eq] at hin
        rw [pts_subset_iff hs.bbox_valid] at hsub
        obtain ⟨a1, a2, a3, a4⟩ := hin
        obtain ⟨b1, b2, b3, b4⟩ := hsub
        obtain ⟨q0, q1, q2, q3⟩ := quadrants_eq hv
        obtain ⟨c1, c2, c3, c4⟩ := hw
        fin_cases i <;> fin_cases j <;>
          simp only [Fin.zero_eta, Fin.mk_one, Fin.reduceFinMk, not_true_eq_false, q0, q1, q2, q3] at * <;>
          linarith
    · intro w hw hwr
      refine ⟨j, hsub ?_, ?_⟩
      · rw [hs.bbox_eq]
        exact bdry_subset_bbox hw
      · simp [Presence.isPartial]
  | none =>
    rw [hfind] at hg
    dsimp only at hg
    have hok : (Presence.partly p).OK := hp.ok (by simp)
    rw [seq4_some (g := fun i => edgeResult (r.quadrants i) p.shape p.indices) (fun i => edgePhase_eq _ _ hok)] at hg
    dsimp only at hg
    rw [seq4_eq_some] at hg
    obtain ⟨g', h1, h2, h3⟩ := resolve_spec Fpa.exact e s r.quadrants (fun i => edgeResult (r.quadrants i) p.shape p.indices)
    have hgg : g' = g := by
      funext i
      exact Option.some.inj ((h1 i).symm.trans (hg i))
    subst hgg
    -- quadrants without edges contain no boundary point
    have hnob : ∀ i, edgeResult (r.quadrants i) p.shape p.indices = none → ∀ w ∈ (r.quadrants i).pts, w ∉ bdry s.points := by
      intro i hi w hw hb
      obtain ⟨k, e', hk, hke, hwe⟩ := bdry_edge_index hb
      have hit : edgeHits (r.quadrants i) s k = true :=
        (edgeHits_iff (quadrants_valid hv i)).2 ⟨e', hke, w, hwe, hw⟩
      have hkr : edgeHits r s k = true :=
        (edgeHits_iff hv).2 ⟨e', hke, w, hwe, quadrants_subset hv i hw⟩
      have hmem := hcov k hk hkr
      unfold edgeResult at hi
      split_ifs at hi with hnil
      rw [hsh] at hnil
      have : k ∈ p.indices.filter (edgeHits (r.quadrants i) s) := List.mem_filter.2 ⟨hmem, hit⟩
      rw [hnil] at this
      simp at this
    classical
    set v0 : Presence K := if r.centroid ∈ openHaz e.position s.points then .entire else .none with hv0
    have hcent : ∀ i, edgeResult (r.quadrants i) p.shape p.indices = none → ∀ w ∈ (r.quadrants i).pts,
        (w ∈ openHaz e.position s.points ↔ r.centroid ∈ openHaz e.position s.points) := by
      intro i hi w hw
      apply openHaz_const
      intro u hu
      exact hnob i hi u (seg_in_rect hw (centroid_mem_quadrants hv i) hu)
    have hcp : ∀ i, edgeResult (r.quadrants i) p.shape p.indices = none →
        centroidPresence Fpa.exact e s (r.quadrants i) = v0 := by
      intro i hi
      have hcm := centroid_mem (quadrants_valid hv i)
      have hnb := hnob i hi _ hcm
      have hci := hcent i hi _ hcm
      rw [openHaz_iff hnb] at hci
      have hcol := SPoly.collidesPoint_iff hs hnb
      rw [hv0]
      unfold centroidPresence
      cases hpos : e.position with
      | interior =>
        rw [hpos] at hci
        dsimp only at hci
        by_cases hin : r.centroid ∈ openHaz GeoPosition.interior s.points
        · rw [if_pos hin, hcol.2 (hci.2 hin)]
        · rw [if_neg hin]
          have : s.collidesPoint Fpa.exact (r.quadrants i).centroid = false := by
            rw [← Bool.not_eq_true, hcol]; exact fun h => hin (hci.1 h)
          rw [this]
      | exterior =>
        rw [hpos] at hci
        dsimp only at hci
        by_cases hin : r.centroid ∈ openHaz GeoPosition.exterior s.points
        · rw [if_pos hin]
          have : s.collidesPoint Fpa.exact (r.quadrants i).centroid = false := by
            rw [← Bool.not_eq_true, hcol]; exact hci.2 hin
          rw [this]
        · rw [if_neg hin]
          have : s.collidesPoint Fpa.exact (r.quadrants i).centroid = true := by
            rw [hcol]; by_contra h; exact hin (hci.1 h)
          rw [this]
    have hpartial : ∀ i pr, edgeResult (r.quadrants i) p.shape p.indices = some pr → pr.isPartial = true := by
      intro i pr hi
      unfold edgeResult at hi
      split_ifs at hi
      rw [← Option.some.inj hi]; rfl
    constructor
    · intro i
      rcases hi : edgeResult (r.quadrants i) p.shape p.indices with _ | pr
      · have hval := resolve_value (st := fun i => edgeResult (r.quadrants i) p.shape p.indices) hpartial hcp hg hi
        rw [hval, hv0]
        split_ifs with hc
        · intro w hw
          exact (hcent i hi w hw).2 hc
        · intro w hw h
          exact hc ((hcent i hi w hw).1 h)
      · rw [h2 i pr hi]
        unfold edgeResult at hi
        split_ifs at hi with hnil
        rw [← Option.some.inj hi]
        rw [hsh] at hnil ⊢
        refine ⟨hsh, hnil, ?_, ?_⟩
        · intro k hk
          obtain ⟨k1, k2⟩ := List.mem_filter.1 hk
          exact ⟨hlt k k1, k2⟩
        · intro k hk hit
          refine List.mem_filter.2 ⟨hcov k hk ?_, hit⟩
          rw [edgeHits_iff (quadrants_valid hv i)] at hit
          rw [edgeHits_iff hv]
          obtain ⟨e', he', w, hw, hwr⟩ := hit
          exact ⟨e', he', w, hw, quadrants_subset hv i hwr⟩
    · intro w hw hwr
      obtain ⟨i, hi⟩ := quadrants_cover hv hwr
      refine ⟨i, hi, ?_⟩
      rcases her : edgeResult (r.quadrants i) p.shape p.indices with _ | pr
      · exact absurd hw (hnob i her w hi)
      · rw [h2 i pr her]
        exact hpartial i pr her

end Jagua
