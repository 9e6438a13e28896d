import Verif.Lemmas.RoundedTree
import Verif.Lemmas.TolerancePoly

/-! # Queries of the engine in arithmetic with rounding -/

set_option linter.unusedSectionVars false

namespace Jagua

variable {r : Rounding} {u : ℚ} {n : ℕ}

/-- What is assumed of the arithmetic, the comparison and the hazard. -/
structure RSetting (r : Rounding) (u : ℚ) (f : Fpa (Rounded r)) (M ε δ : ℚ) : Prop where
  std : r.Standard u
  small : u ≤ 1 / 256
  tol : f.TolerantIn M ε
  nonneg : 0 ≤ ε
  le : ε ≤ δ

theorem RSetting.delta {f : Fpa (Rounded r)} {M ε δ : ℚ} (S : RSetting r u f M ε δ) : 0 ≤ δ := S.nonneg.trans S.le

theorem constrictTo_rounded {f : Fpa (Rounded r)} {M ε δ : ℚ} (S : RSetting r u f M ε δ) {h : QTHazard (Rounded r)} {s : SPoly (Rounded r)}
    (hs : s.Tame u M δ) {b : AARect (Rounded r)} (hb : CellOK s δ b) (hq : ∀ i, CellOK s δ (b.quadrants i)) {p : PartialHaz (Rounded r)}
    (hp : h.presence = .partly p) (hg : GeoR h.entity.position s b h.presence) (hfit : FitsR h.entity.position s b) :
    (∀ i c, constrictTo f b i h = some c → c.entity = h.entity ∧ c.active = h.active ∧
      GeoR c.entity.position s (b.quadrants i) c.presence ∧ FitsR c.entity.position s (b.quadrants i)) ∧
    (∀ i, constrictTo f b i h = none → ∀ w ∈ (b.quadrants i).exact.pts, w ∉ openHaz h.entity.position s.exact) ∧
    ∀ w ∈ bdry s.exact, w ∈ b.exact.pts → ∃ i c, w ∈ (b.quadrants i).exact.pts ∧ constrictTo f b i h = some c ∧
      c.presence.isPartial = true := by
  have hok : h.presence.OK := hg.ok (by rw [hp]; simp)
  obtain ⟨g, hgg, _⟩ := constrictP_ok f h.entity hok b.quadrants
  have hgg' := hgg
  rw [hp] at hgg'
  obtain ⟨g1, g2⟩ := constrictP_rounded S.std S.small S.tol S.nonneg S.le hs hb hq (by rw [hp] at hg; exact hg) hfit hgg'
  refine ⟨?_, ?_, ?_⟩
  · intro i c hc
    unfold constrictTo at hc
    rw [hgg] at hc
    dsimp only at hc
    rw [new_eq_some] at hc
    obtain ⟨_, rfl⟩ := hc
    exact ⟨rfl, rfl, g1 i, hfit.quadrant hb.halved S.delta i⟩
  · intro i hc
    unfold constrictTo at hc
    rw [hgg] at hc
    dsimp only at hc
    have := g1 i
    cases hgi : g i with
    | none => rw [hgi] at this; exact this
    | entire => rw [hgi] at hc; simp [QTHazard.new] at hc
    | partly p' => rw [hgi] at hc; simp [QTHazard.new] at hc
  · intro w hw hwr
    obtain ⟨i, hi, hpi⟩ := g2 w hw hwr
    obtain ⟨p', hp'⟩ := exists_partly hpi
    refine ⟨i, ⟨h.entity, g i, h.active⟩, hi, ?_, hpi⟩
    unfold constrictTo
    rw [hgg]
    dsimp only
    rw [hp']
    rfl

theorem Deep.cell {s : SPoly (Rounded r)} {δ : ℚ} {Q : AARect (Rounded r) → Prop} {b : AARect (Rounded r)}
    (h : Deep (fun b => CellOK s δ b ∧ Q b) (n + 1) b) : CellOK s δ b ∧ ∀ i, CellOK s δ (b.quadrants i) :=
  ⟨h.1.1, fun i => (h.2 i).top.1⟩

theorem partHaz_sound_rounded {p : PartialHaz (Rounded r)} {q : Queryable (Rounded r)} {S : Set (Point ℚ)}
    (hq : ∀ e ∈ p.shape.val.edges, (q.edge e = true ↔ ∃ w ∈ S, w ∈ e.exact.pts))
    (h : (p.collides q).getD false = true) : ∃ w ∈ S, w ∈ bdry p.shape.val.exact := by
  unfold PartialHaz.collides at h
  dsimp only at h
  have one : ∀ e ∈ p.shape.val.edges, q.edge e = true → ∃ w ∈ S, w ∈ bdry p.shape.val.exact := by
    intro e he ht
    obtain ⟨w, hw, hwe⟩ := (hq e he).1 ht
    exact ⟨w, hw, bdry_rounded.2 ⟨e, he, hwe⟩⟩
  have hany : ∀ idx, (anyEdge p.shape.val q.edge idx).getD false = true → ∃ w ∈ S, w ∈ bdry p.shape.val.exact := by
    intro idx h
    rcases ha : anyEdge p.shape.val q.edge idx with _ | b
    · rw [ha] at h; simp at h
    · rw [ha] at h
      obtain ⟨i, _, e, he, ht⟩ := (anyEdge_iff ha).1 h
      exact one e (List.mem_of_getElem? he) ht
  rcases hp : p.edges with _ | idx
  · rw [hp] at h
    dsimp only at h
    split_ifs at h
    · simp only [Option.getD_some, List.any_eq_true] at h
      obtain ⟨e, he, ht⟩ := h
      exact one e he ht
    · simp at h
  · rw [hp] at h
    dsimp only at h
    split_ifs at h
    · simp at h
    · exact hany _ h
    · exact hany _ h
    · simp at h

theorem partHaz_complete_rounded {pos : GeoPosition} {s : SPoly (Rounded r)} {M δ : ℚ} (hs : s.Tame u M δ) {b : AARect (Rounded r)} (hb : CellOK s δ b)
    {p : PartialHaz (Rounded r)} (hp : GeoR pos s b (.partly p)) {q : Queryable (Rounded r)} {S : Set (Point ℚ)}
    (hbb : q.rect s.bbox = true ↔ ∃ w ∈ S, w ∈ s.bbox.exact.pts)
    {e : Edge (Rounded r)} (he : e ∈ s.edges) (ht : q.edge e = true) {w : Point ℚ} (hwS : w ∈ S) (hwe : w ∈ e.exact.pts)
    (hwr : w ∈ b.exact.pts) : (p.collides q).getD false = true := by
  obtain ⟨hsh, hlt, hcov⟩ := hp.indices
  have hbb : q.rect s.bbox = true := by
    refine hbb.2 ⟨w, hwS, ?_⟩
    rw [Tame.box hs]
    exact bdry_subset_bbox (bdry_rounded.2 ⟨e, he, hwe⟩)
  obtain ⟨i, hi, hie⟩ := List.mem_iff_getElem.1 he
  have hie' : s.edges[i]? = some e := by rw [List.getElem?_eq_some_iff]; exact ⟨hi, hie⟩
  have hmem : i ∈ p.indices := by
    refine hcov i (by rw [← s.edges_length]; exact hi) ?_
    exact (edgeHits_rounded hb).2 ⟨e, hie', w, hwe, hwr⟩
  obtain ⟨b, hb⟩ := PartialHaz.collides_ok (hp.ok (by simp)) q
  rw [hb, Option.getD_some]
  rcases p with ⟨sh, _ | idx⟩
  · have h' : sh.val = s := hsh
    unfold PartialHaz.collides at hb
    dsimp only at hb
    rw [h', if_pos hbb] at hb
    rw [← Option.some.inj hb, List.any_eq_true]
    exact ⟨e, he, ht⟩
  · have h' : sh.val = s := hsh
    have hmem' : i ∈ idx := hmem
    unfold PartialHaz.collides at hb
    dsimp only at hb
    rw [h'] at hb
    split_ifs at hb with c1 c2
    · exact (anyEdge_iff hb).2 ⟨i, hmem', e, hie', ht⟩
    · exact (anyEdge_iff hb).2 ⟨i, hmem', e, hie', ht⟩

/-- A hit means that the query object shares a point with the forbidden region. -/
theorem coll1_sound_rounded {f : Fpa (Rounded r)} {M ε δ : ℚ} (Z : RSetting r u f M ε δ) {q : Queryable (Rounded r)} {S : Set (Point ℚ)}
    {s : SPoly (Rounded r)} (hs : s.Tame u M δ) (hq : ∀ e ∈ s.edges, (q.edge e = true ↔ ∃ w ∈ S, w ∈ e.exact.pts)) (n : ℕ)
    {b : AARect (Rounded r)} (hb : Deep (fun b => CellOK s δ b ∧ (q.rect b = true ↔ ∃ p ∈ S, p ∈ b.exact.pts)) n b)
    {h : QTHazard (Rounded r)} (hg : GeoR h.entity.position s b h.presence)
    (hfit : FitsR h.entity.position s b) (hc : coll1 f q n b h = true) :
    ∃ w ∈ S, w ∈ closedHaz h.entity.position s.exact := by
  induction n generalizing b h with
  | zero =>
    cases hp : h.presence with
    | none => simp [coll1, hp] at hc
    | entire =>
      rw [coll1_entire hp, hb.top.2] at hc
      obtain ⟨w, hw, hwr⟩ := hc
      rw [hp] at hg
      exact ⟨w, hw, .inr (hg w hwr)⟩
    | partly p =>
      rw [coll1_partly_zero hp] at hc
      rw [hp] at hg
      obtain ⟨w, hw, hwb⟩ := partHaz_sound_rounded (by rw [hg.indices.1]; exact hq) hc.2
      rw [hg.indices.1] at hwb
      exact ⟨w, hw, .inl hwb⟩
  | succ n ih =>
    cases hp : h.presence with
    | none => simp [coll1, hp] at hc
    | entire =>
      rw [coll1_entire hp, hb.top.2] at hc
      obtain ⟨w, hw, hwr⟩ := hc
      rw [hp] at hg
      exact ⟨w, hw, .inr (hg w hwr)⟩
    | partly p =>
      rw [coll1_partly_succ hp] at hc
      obtain ⟨_, i, c, hcc, hc'⟩ := hc
      obtain ⟨t1, _, _⟩ := constrictTo_rounded Z hs hb.cell.1 hb.cell.2 hp hg hfit
      obtain ⟨e1, _, e3, e4⟩ := t1 i c hcc
      have := ih (hb.2 i) e3 e4 hc'
      rw [e1] at this
      exact this

/-- An edge of the shape that the query object touches inside the box is found. -/
theorem coll1_complete_rounded {f : Fpa (Rounded r)} {M ε δ : ℚ} (Z : RSetting r u f M ε δ) {q : Queryable (Rounded r)} {S : Set (Point ℚ)}
    {s : SPoly (Rounded r)} (hs : s.Tame u M δ) (hbb : q.rect s.bbox = true ↔ ∃ w ∈ S, w ∈ s.bbox.exact.pts) (n : ℕ)
    {b : AARect (Rounded r)} (hb : Deep (fun b => CellOK s δ b ∧ (q.rect b = true ↔ ∃ p ∈ S, p ∈ b.exact.pts)) n b)
    {h : QTHazard (Rounded r)} (hg : GeoR h.entity.position s b h.presence)
    (hn : h.presence ≠ .none) (hfit : FitsR h.entity.position s b)
    {e : Edge (Rounded r)} (he : e ∈ s.edges) (ht : q.edge e = true) {w : Point ℚ} (hwS : w ∈ S) (hwe : w ∈ e.exact.pts)
    (hwr : w ∈ b.exact.pts) : coll1 f q n b h = true := by
  induction n generalizing b h with
  | zero =>
    cases hp : h.presence with
    | none => exact absurd hp hn
    | entire => rw [coll1_entire hp]; exact hb.top.2.2 ⟨w, hwS, hwr⟩
    | partly p =>
      rw [coll1_partly_zero hp]
      rw [hp] at hg
      exact ⟨hb.top.2.2 ⟨w, hwS, hwr⟩, partHaz_complete_rounded hs hb.top.1 hg hbb he ht hwS hwe hwr⟩
  | succ n ih =>
    cases hp : h.presence with
    | none => exact absurd hp hn
    | entire => rw [coll1_entire hp]; exact hb.top.2.2 ⟨w, hwS, hwr⟩
    | partly p =>
      rw [coll1_partly_succ hp]
      obtain ⟨t1, _, t3⟩ := constrictTo_rounded Z hs hb.cell.1 hb.cell.2 hp hg hfit
      obtain ⟨i, c, hwi, hcc, hpi⟩ := t3 w (bdry_rounded.2 ⟨e, he, hwe⟩) hwr
      obtain ⟨e1, _, e3, e4⟩ := t1 i c hcc
      refine ⟨hb.top.2.2 ⟨w, hwS, hwr⟩, i, c, hcc, ih (hb.2 i) e3 ?_ e4 hwi⟩
      intro h0
      rw [h0] at hpi
      simp [Presence.isPartial] at hpi

theorem def1_true_rounded {f : Fpa (Rounded r)} {M ε δ : ℚ} (Z : RSetting r u f M ε δ) {qr : AARect (Rounded r) → Bool} {S : Set (Point ℚ)}
    {s : SPoly (Rounded r)} (hs : s.Tame u M δ) (n : ℕ)
    {b : AARect (Rounded r)} (hb : Deep (fun b => CellOK s δ b ∧ (qr b = true ↔ ∃ p ∈ S, p ∈ b.exact.pts)) n b) {h : QTHazard (Rounded r)}
    (hg : GeoR h.entity.position s b h.presence) (hfit : FitsR h.entity.position s b)
    (hc : def1 f qr n b h = .true) : ∃ w ∈ S, w ∈ openHaz h.entity.position s.exact := by
  induction n generalizing b h with
  | zero =>
    by_cases hqr : qr b = true
    · cases hp : h.presence with
      | none => simp [def1, hp] at hc
      | entire =>
        obtain ⟨w, hw, hwr⟩ := hb.top.2.1 hqr
        rw [hp] at hg
        exact ⟨w, hw, hg w hwr⟩
      | partly p => rw [def1_partly_zero hqr hp] at hc; simp at hc
    · rw [def1_rect hqr] at hc; simp at hc
  | succ n ih =>
    by_cases hqr : qr b = true
    · cases hp : h.presence with
      | none => simp [def1, hp] at hc
      | entire =>
        obtain ⟨w, hw, hwr⟩ := hb.top.2.1 hqr
        rw [hp] at hg
        exact ⟨w, hw, hg w hwr⟩
      | partly p =>
        rw [def1_partly_true hqr hp] at hc
        obtain ⟨i, c, hcc, hc'⟩ := hc
        obtain ⟨t1, _, _⟩ := constrictTo_rounded Z hs hb.cell.1 hb.cell.2 hp hg hfit
        obtain ⟨e1, _, e3, e4⟩ := t1 i c hcc
        have := ih (hb.2 i) e3 e4 hc'
        rw [e1] at this
        exact this
    · rw [def1_rect hqr] at hc; simp at hc

theorem def1_false_rounded {f : Fpa (Rounded r)} {M ε δ : ℚ} (Z : RSetting r u f M ε δ) {qr : AARect (Rounded r) → Bool} {S : Set (Point ℚ)}
    {s : SPoly (Rounded r)} (hs : s.Tame u M δ) (n : ℕ)
    {b : AARect (Rounded r)} (hb : Deep (fun b => CellOK s δ b ∧ (qr b = true ↔ ∃ p ∈ S, p ∈ b.exact.pts)) n b) {h : QTHazard (Rounded r)}
    (hg : GeoR h.entity.position s b h.presence) (hfit : FitsR h.entity.position s b)
    (hc : def1 f qr n b h = .false) : ∀ w ∈ S, w ∈ b.exact.pts → w ∉ openHaz h.entity.position s.exact := by
  induction n generalizing b h with
  | zero =>
    intro w hw hwr
    have hqr : qr b = true := hb.top.2.2 ⟨w, hw, hwr⟩
    cases hp : h.presence with
    | none => rw [hp] at hg; exact hg w hwr
    | entire => rw [def1_entire hqr hp] at hc; simp at hc
    | partly p => rw [def1_partly_zero hqr hp] at hc; simp at hc
  | succ n ih =>
    intro w hw hwr
    have hqr : qr b = true := hb.top.2.2 ⟨w, hw, hwr⟩
    cases hp : h.presence with
    | none => rw [hp] at hg; exact hg w hwr
    | entire => rw [def1_entire hqr hp] at hc; simp at hc
    | partly p =>
      rw [def1_partly_false hqr hp] at hc
      obtain ⟨t1, t2, _⟩ := constrictTo_rounded Z hs hb.cell.1 hb.cell.2 hp hg hfit
      obtain ⟨i, hwi⟩ := quadrants_cover_rounded hb.top.1.halved Z.delta hwr
      rcases hcc : constrictTo f b i h with _ | c
      · exact t2 i hcc w hwi
      · obtain ⟨e1, _, e3, e4⟩ := t1 i c hcc
        have := ih (hb.2 i) e3 e4 (hc i c hcc) w hw hwi
        rw [e1] at this
        exact this

/-! ## The tests of the engine -/

theorem inclusionTest_rounded {f : Fpa (Rounded r)} {M ε δ : ℚ} (Z : RSetting r u f M ε δ) {s : SPoly (Rounded r)} (hs : s.Tame u M δ)
    {p : Point (Rounded r)} (hp : ∀ w ∈ bdry s.exact, w ∉ around p.exact δ) {pos : GeoPosition} :
    CDE.inclusionTest f pos s p = true ↔ p.exact ∈ openHaz pos s.exact := by
  rw [openHaz_iff fun h => hp p.exact h (around_self p.exact Z.delta)]
  have hcol := Tame.collidesPoint Z.std Z.small Z.tol Z.nonneg Z.le hs hp
  unfold CDE.inclusionTest
  cases pos with
  | interior => exact hcol
  | exterior =>
    simp only [Bool.not_eq_true']
    rw [← hcol]
    simp

theorem geoR_ofHazard (h : Hazard (Rounded r)) (b : AARect (Rounded r)) :
    GeoR (QTHazard.ofHazard h).entity.position h.shape.val b (QTHazard.ofHazard h).presence := rfl

theorem CDE.Rounds.setting {c : CDE (Rounded r) n} {s : SPoly (Rounded r)} {irr : List (HazardEntity (Rounded r))} {M ε d δ : ℚ} {f : Fpa (Rounded r)}
    (hr : c.Rounds s irr u M ε d δ) (st : r.Standard u) (hu : u ≤ 1 / 256) (hf : f.TolerantIn M ε) : RSetting r u f M ε δ :=
  ⟨st, hu, hf, hr.nonneg, hr.tolerance⟩

theorem CDE.Rounds.deep {c : CDE (Rounded r) n} {s : SPoly (Rounded r)} {irr : List (HazardEntity (Rounded r))} {M ε d δ : ℚ}
    (hr : c.Rounds s irr u M ε d δ) (st : r.Standard u) (hu : u ≤ 1 / 256) {h : Hazard (Rounded r)} (hh : h ∈ c.allHazards) (hirr : h.entity ∉ irr)
    {P : AARect (Rounded r) → Prop} {Q : AARect ℚ → Prop} (hPQ : ∀ b : AARect (Rounded r), b.exact.Valid → Q b.exact → P b)
    (hQ : ∀ b ∈ c.bbox.exact.cells r n, Q b) : Deep (fun b => CellOK h.shape.val δ b ∧ P b) n c.bbox := by
  refine Deep.of_cells (Q := fun b => (b.Halved r δ ∧ ∀ e ∈ h.shape.val.exactEdges, b.Decided e u d) ∧ Q b) hr.pos.le ?_ n hr.halved
    fun b hb => ⟨⟨hr.halved b hb, hr.hazardCells h hh hirr b hb⟩, hQ b hb⟩
  rintro b ⟨⟨h1, h2⟩, h3⟩
  have hv := Halved.valid h1 hr.pos.le
  exact ⟨⟨h1, fun e he => rect_collidesEdge_decided st hu hv (h2 _ (mem_exactEdges.2 ⟨e, he, rfl⟩))⟩, hPQ b hv h3⟩

theorem CDE.Rounds.fit {c : CDE (Rounded r) n} {s : SPoly (Rounded r)} {irr : List (HazardEntity (Rounded r))} {M ε d δ : ℚ}
    (hr : c.Rounds s irr u M ε d δ) {h : Hazard (Rounded r)} (hh : h ∈ c.allHazards) (hirr : h.entity ∉ irr) :
    FitsR (QTHazard.ofHazard h).entity.position h.shape.val c.bbox := hr.fits h hh hirr

/-- What the inner point of the shape says about a hazard around it. -/
theorem CDE.Inv.poiTest_rounded {f : Fpa (Rounded r)} {c : CDE (Rounded r) n} (hi : c.Inv f) {s : SPoly (Rounded r)}
    {irr : List (HazardEntity (Rounded r))} {M ε d δ : ℚ} (hr : c.Rounds s irr u M ε d δ) (st : r.Standard u) (hu : u ≤ 1 / 256) (hf : f.TolerantIn M ε)
    {h : Hazard (Rounded r)} (hh : h ∈ c.allHazards) (hirr : h.entity ∉ irr) {p : Point (Rounded r)}
    (hp : ∀ w ∈ bdry h.shape.val.exact, w ∉ around p.exact δ) (hpb : p.exact ∈ c.bbox.exact.pts) :
    (match c.tree.definitelyCollidesWith (fun b => b.collidesPoint p) h.entity with
    | none => none
    | some .true => some true
    | some .false => some false
    | some .indeterminate => some (CDE.inclusionTest f h.entity.position h.shape.val p)) = some true ↔
    p.exact ∈ openHaz h.entity.position h.shape.val.exact := by
  have Z := hr.setting st hu hf
  rw [(hi.definitelyWith _ h.entity).2 h hh rfl]
  have hq : ∀ b : AARect (Rounded r), b.collidesPoint p = true ↔ ∃ q ∈ ({p.exact} : Set (Point ℚ)), q ∈ b.exact.pts := by
    intro b
    rw [rect_collidesPoint_rounded, collidesPoint_iff]
    simp
  have hD := hr.deep st hu hh hirr (P := fun b => (fun b : AARect (Rounded r) => b.collidesPoint p) b = true ↔ ∃ q ∈ ({p.exact} : Set (Point ℚ)), q ∈ b.exact.pts)
    (Q := fun _ => True) (fun b _ _ => hq b) (fun _ _ => trivial)
  have hT := hr.hazards h hh hirr
  cases hd : def1 f (fun b => b.collidesPoint p) n c.bbox (QTHazard.ofHazard h) with
  | true =>
    obtain ⟨w, hw, hw'⟩ := def1_true_rounded Z hT n hD (geoR_ofHazard h _) (hr.fit hh hirr) hd
    rw [Set.mem_singleton_iff] at hw
    subst hw
    exact iff_of_true rfl hw'
  | false =>
    refine iff_of_false (by simp) ?_
    exact def1_false_rounded Z hT n hD (geoR_ofHazard h _) (hr.fit hh hirr) hd p.exact rfl hpb
  | indeterminate =>
    simp only [Option.some.injEq]
    exact inclusionTest_rounded Z hT hp

/-! ## Containment and the whole query -/

theorem exact_ne {s : SPoly (Rounded r)} (h : s.points ≠ []) : s.exact ≠ [] := by
  unfold SPoly.exact
  simp [h]

theorem CDE.Inv.containedTest_rounded {f : Fpa (Rounded r)} {c : CDE (Rounded r) n} (hi : c.Inv f) {s : SPoly (Rounded r)}
    {irr : List (HazardEntity (Rounded r))} {M ε d δ : ℚ} (hr : c.Rounds s irr u M ε d δ) (st : r.Standard u) (hu : u ≤ 1 / 256) (hf : f.TolerantIn M ε)
    {h : Hazard (Rounded r)} (hh : h ∈ c.allHazards) (hirr : h.entity ∉ irr) (hb : s.bbox.exact.pts ⊆ c.bbox.exact.pts)
    (hd : ∀ v ∈ bdry s.exact, v ∉ bdry h.shape.val.exact) :
    c.containedTest f s h = some true ↔ ∃ w ∈ region s.exact, w ∈ closedHaz h.entity.position h.shape.val.exact := by
  have Z := hr.setting st hu hf
  have ht := hf.onExact hr.nonneg
  have hs := hr.shape
  have hP := hr.hazards h hh hirr
  set A := s.exact with hA
  set B := h.shape.val.exact with hB
  have hAne : A ≠ [] := exact_ne hs.nonempty
  have hBne : B ≠ [] := exact_ne hP.nonempty
  have eA : s.bbox.exact = boundingBox A := Tame.box hs
  have eB : h.shape.val.bbox.exact = boundingBox B := Tame.box hP
  have vA := Tame.valid hs
  have vB := Tame.valid hP
  obtain ⟨a, ha⟩ : ∃ a, a ∈ bdry A := by
    obtain ⟨a, l, he⟩ := List.exists_cons_of_ne_nil hAne
    exact ⟨a, vertex_mem_bdry (by rw [he]; simp)⟩
  obtain ⟨b, hbB⟩ : ∃ b, b ∈ bdry B := by
    obtain ⟨b, l, he⟩ := List.exists_cons_of_ne_nil hBne
    exact ⟨b, vertex_mem_bdry (by rw [he]; simp)⟩
  have hpoiA : s.poi.center.exact ∈ c.bbox.exact.pts := by
    apply hb
    rw [eA]
    have := interior_subset_inner hs.poi
    exact ⟨this.1.le, this.2.1.le, this.2.2.1.le, this.2.2.2.le⟩
  have trich := nested_or_disjoint hAne hBne hd
  -- the outline of the bin is not inside the shape
  have hext : (∀ v ∈ bdry B, v ∈ interior A) → h.entity.position ≠ .exterior := by
    intro h1 hpos
    have hin := bbox_inside hBne h1
    rw [← eA, ← eB] at hin
    have hc := (pts_subset_iff vA).1 hb
    have hf' := hr.fits h hh hirr hpos
    unfold AARect.width AARect.height at hf'
    obtain ⟨i1, i2, i3, i4⟩ := hin
    obtain ⟨c1, c2, c3, c4⟩ := hc
    rcases hf' with hf' | hf' <;> linarith
  unfold CDE.containedTest
  rw [almostRelationTo_rounded hf.refl]
  unfold AARect.almostRelationTo
  by_cases hcol : h.shape.val.bbox.exact.almostCollidesRect f.onExact s.bbox.exact = true
  swap
  · rw [if_neg hcol]
    dsimp only
    have h3 : ∀ v ∈ region A, v ∉ region B := by
      have inbox : ∀ {pts : List (Point ℚ)} {v}, v ∈ region pts → v ∈ (boundingBox pts).pts := by
        rintro pts v (hv | hv)
        · exact bdry_subset_bbox hv
        · have := interior_subset_inner hv
          exact ⟨this.1.le, this.2.1.le, this.2.2.1.le, this.2.2.2.le⟩
      intro v hv hv'
      have h1 := inbox hv
      have h2 := inbox hv'
      rw [← eA] at h1
      rw [← eB] at h2
      obtain ⟨a1, a2, a3, a4⟩ := h1
      obtain ⟨b1, b2, b3, b4⟩ := h2
      apply hcol
      unfold AARect.almostCollidesRect
      rw [Bool.and_eq_true]
      constructor
      · by_contra hn
        have := ht.le_false (by simpa using hn)
        have m1 : max h.shape.val.bbox.exact.xMin s.bbox.exact.xMin ≤ v.x := max_le b1 a1
        have m2 : v.x ≤ min h.shape.val.bbox.exact.xMax s.bbox.exact.xMax := le_min b2 a2
        linarith
      · by_contra hn
        have := ht.le_false (by simpa using hn)
        have m1 : max h.shape.val.bbox.exact.yMin s.bbox.exact.yMin ≤ v.y := max_le b3 a3
        have m2 : v.y ≤ min h.shape.val.bbox.exact.yMax s.bbox.exact.yMax := le_min b4 a4
        linarith
    cases hpos : h.entity.position with
    | interior =>
      refine iff_of_false (by simp) ?_
      rintro ⟨w, hw, hw'⟩
      exact h3 w hw hw'
    | exterior => exact iff_of_true rfl ⟨a, .inl ha, .inr (h3 a (.inl ha))⟩
  rw [if_pos hcol]
  split_ifs with hsur hencl
  · -- the box of the hazard almost surrounds that of the shape
    simp only [Bool.and_eq_true] at hsur
    obtain ⟨⟨⟨s1, s2⟩, s3⟩, s4⟩ := hsur
    have hno2 : ¬ (∀ v ∈ bdry B, v ∈ interior A) := by
      intro hall
      have hpos : h.entity.position = .interior := by
        cases hp : h.entity.position with
        | interior => rfl
        | exterior => exact absurd hp (hext hall)
      have hin := bbox_inside hBne hall
      rw [← eA, ← eB] at hin
      obtain ⟨i1, i2, i3, i4⟩ := hin
      have bA := hs.bounded.box hAne
      have bB := hP.bounded.box hBne
      rw [← eA] at bA
      rw [← eB] at bB
      have n1 := ht.near_of_le bB.1 bA.1 s1 i1
      have n2 := ht.near_of_le bB.2.1 bA.2.1 s2 i3
      have n3 := ht.near_of_le bA.2.2.1 bB.2.2.1 s3 i2
      have n4 := ht.near_of_le bA.2.2.2 bB.2.2.2 s4 i4
      rcases hr.boxes h hh hirr hpos hall i1 i2 i3 i4 with h | h | h | h <;> linarith
    have hpoi : ∀ w ∈ bdry B, w ∉ around s.poi.center.exact δ := by
      intro w hwB hwa
      have hwA := hs.roomy w hwa
      rcases trich with ⟨_, _, h3⟩ | ⟨h1, _⟩ | h3
      · exact h3 _ hwB hwA
      · exact hno2 h1
      · exact h3 _ hwA (.inl hwB)
    refine (hi.poiTest_rounded hr st hu hf hh hirr hpoi hpoiA).trans ?_
    constructor
    · intro hx; exact ⟨_, .inr hs.poi, .inr hx⟩
    · rintro ⟨w, hw, hw'⟩
      rw [openHaz_iff fun h => hpoi _ h (around_self _ hr.pos.le)]
      rcases trich with ⟨h1, h2, h3⟩ | ⟨h1, _⟩ | h3
      · cases hpos : h.entity.position with
        | interior => exact h2 hs.poi
        | exterior =>
          exfalso
          rw [hpos] at hw'
          have hwB : w ∈ interior B := by
            rcases hw with hw | hw
            · exact h1 w hw
            · exact h2 hw
          rcases hw' with hw' | hw'
          · exact hwB.1 hw'
          · exact hw' (.inr hwB)
      · exact absurd h1 hno2
      · cases hpos : h.entity.position with
        | interior =>
          exfalso
          rw [hpos] at hw'
          exact h3 w hw hw'
        | exterior => exact fun hx => h3 _ (.inr hs.poi) (.inr hx)
  · -- the box of the hazard is almost enclosed in that of the shape
    have hno1 : ¬ (∀ v ∈ bdry A, v ∈ interior B) := by
      intro hall
      have hin := bbox_inside hAne hall
      rw [← eA, ← eB] at hin
      obtain ⟨i1, i2, i3, i4⟩ := hin
      apply hsur
      simp only [Bool.and_eq_true]
      exact ⟨⟨⟨f.onExact.le_of_lt i1, f.onExact.le_of_lt i3⟩, f.onExact.le_of_lt i2⟩, f.onExact.le_of_lt i4⟩
    have hpoi : ∀ w ∈ bdry A, w ∉ around h.shape.val.poi.center.exact δ := by
      intro w hwA hwa
      have hwB := hP.roomy w hwa
      rcases trich with ⟨h1, _⟩ | ⟨_, _, h3⟩ | h3
      · exact hno1 h1
      · exact h3 _ hwA hwB
      · exact h3 _ (.inl hwA) hwB
    dsimp only
    rw [Option.some.injEq, inclusionTest_rounded Z hs hpoi, openHaz_iff fun h => hpoi _ h (around_self _ hr.pos.le)]
    rcases trich with ⟨h1, _⟩ | ⟨h1, h2, h3⟩ | h3
    · exact absurd h1 hno1
    · cases hpos : h.entity.position with
      | interior => exact iff_of_true (h2 hP.poi) ⟨b, .inr (h1 b hbB), .inl hbB⟩
      | exterior => exact absurd hpos (hext h1)
    · cases hpos : h.entity.position with
      | interior =>
        refine iff_of_false (fun hx => h3 _ (.inr hx) (.inr hP.poi)) ?_
        rintro ⟨w, hw, hw'⟩
        exact h3 w hw hw'
      | exterior =>
        refine iff_of_true (fun hx => h3 _ (.inr hx) (.inr hP.poi)) ⟨a, .inl ha, .inr (h3 a (.inl ha))⟩
  · -- neither
    have hno1 : ¬ (∀ v ∈ bdry A, v ∈ interior B) := by
      intro hall
      have hin := bbox_inside hAne hall
      rw [← eA, ← eB] at hin
      obtain ⟨i1, i2, i3, i4⟩ := hin
      apply hsur
      simp only [Bool.and_eq_true]
      exact ⟨⟨⟨f.onExact.le_of_lt i1, f.onExact.le_of_lt i3⟩, f.onExact.le_of_lt i2⟩, f.onExact.le_of_lt i4⟩
    have hno2 : ¬ (∀ v ∈ bdry B, v ∈ interior A) := by
      intro hall
      have hin := bbox_inside hBne hall
      rw [← eA, ← eB] at hin
      obtain ⟨i1, i2, i3, i4⟩ := hin
      apply hencl
      simp only [Bool.and_eq_true]
      exact ⟨⟨⟨f.onExact.le_of_lt i1, f.onExact.le_of_lt i3⟩, f.onExact.le_of_lt i2⟩, f.onExact.le_of_lt i4⟩
    have h3 : ∀ v ∈ region A, v ∉ region B := by
      rcases trich with ⟨h1, _⟩ | ⟨h1, _⟩ | h3
      · exact absurd h1 hno1
      · exact absurd h1 hno2
      · exact h3
    dsimp only
    cases hpos : h.entity.position with
    | interior =>
      refine iff_of_false (by simp) ?_
      rintro ⟨w, hw, hw'⟩
      exact h3 w hw hw'
    | exterior => exact iff_of_true rfl ⟨a, .inl ha, .inr (h3 a (.inl ha))⟩

theorem CDE.Inv.polyCollides_rounded {f : Fpa (Rounded r)} {c : CDE (Rounded r) n} (hi : c.Inv f) {s : SPoly (Rounded r)}
    {irr : List (HazardEntity (Rounded r))} {M ε d δ : ℚ} (hr : c.Rounds s irr u M ε d δ) (st : r.Standard u) (hu : u ≤ 1 / 256) (hf : f.TolerantIn M ε) :
    ∃ b, c.polyCollides f s irr = some b ∧ (b = true ↔ ¬ s.bbox.exact.pts ⊆ c.bbox.exact.pts ∨
      ∃ h ∈ c.allHazards, h.entity ∉ irr ∧ ∃ w ∈ region s.exact, w ∈ closedHaz h.entity.position h.shape.val.exact) := by
  have Z := hr.setting st hu hf
  have vA := Tame.valid hr.shape
  -- the tests with an edge of the shape
  have hqe : ∀ h ∈ c.allHazards, h.entity ∉ irr → ∀ e ∈ s.edges, ∀ e' ∈ h.shape.val.edges,
      (e.toQuery.edge e' = true ↔ ∃ w ∈ e.exact.pts, w ∈ e'.exact.pts) := fun h hh hirr e he e' he' =>
    collidesEdge_decided st hu (hr.edges h hh hirr _ (mem_exactEdges.2 ⟨e, he, rfl⟩) _ (mem_exactEdges.2 ⟨e', he', rfl⟩))
  have hqr : ∀ h ∈ c.allHazards, h.entity ∉ irr → ∀ e ∈ s.edges,
      Deep (fun b => CellOK h.shape.val δ b ∧ (e.toQuery.rect b = true ↔ ∃ p ∈ e.exact.pts, p ∈ b.exact.pts)) n c.bbox := fun h hh hirr e he =>
    hr.deep st hu hh hirr (P := fun b => e.toQuery.rect b = true ↔ ∃ p ∈ e.exact.pts, p ∈ b.exact.pts) (Q := fun b => b.Decided e.exact u d)
      (fun b hv hd => rect_collidesEdge_decided st hu hv hd) (fun b hb => hr.shapeCells b hb _ (mem_exactEdges.2 ⟨e, he, rfl⟩))
  have hqb : ∀ h ∈ c.allHazards, h.entity ∉ irr → ∀ e ∈ s.edges,
      (e.toQuery.rect h.shape.val.bbox = true ↔ ∃ p ∈ e.exact.pts, p ∈ h.shape.val.bbox.exact.pts) := fun h hh hirr e he =>
    rect_collidesEdge_decided st hu (Tame.valid (hr.hazards h hh hirr)) (hr.shapeBoxes h hh hirr _ (mem_exactEdges.2 ⟨e, he, rfl⟩))
  by_cases hsub : s.bbox.exact.pts ⊆ c.bbox.exact.pts
  · have hrel : c.bbox.relationTo s.bbox = .surrounding := by
      rw [relationTo_rounded]
      exact (relationTo_surrounding_iff vA).2 hsub
    unfold CDE.polyCollides
    rw [hrel]
    obtain ⟨b1, e1, s1⟩ := hi.byEdge s irr
    obtain ⟨b2, e2, s2⟩ := hi.byContainment s irr
    dsimp only
    rw [e1, e2]
    cases b1 with
    | true =>
      refine ⟨true, rfl, iff_of_true rfl (.inr ?_)⟩
      obtain ⟨e, he, h, hh, hirr, hc⟩ := s1.1 rfl
      obtain ⟨w, hw, hw'⟩ := coll1_sound_rounded Z (hr.hazards h hh hirr) (hqe h hh hirr e he) n (hqr h hh hirr e he) (geoR_ofHazard h _)
        (hr.fit hh hirr) hc
      exact ⟨h, hh, hirr, w, .inl (bdry_rounded.2 ⟨e, he, hw⟩), hw'⟩
    | false =>
      refine ⟨b2, rfl, ?_⟩
      have key : ∀ h ∈ c.allHazards, h.entity ∉ irr → (c.containedTest f s h = some true ↔
          ∃ w ∈ region s.exact, w ∈ closedHaz h.entity.position h.shape.val.exact) := by
        intro h hh hirr
        refine hi.containedTest_rounded hr st hu hf hh hirr hsub ?_
        intro v hv hv'
        obtain ⟨e, he, hve⟩ := bdry_rounded.1 hv
        obtain ⟨e', he', hve'⟩ := bdry_rounded.1 hv'
        have hvb : v ∈ c.bbox.exact.pts := by
          apply hsub
          rw [Tame.box hr.shape]
          exact bdry_subset_bbox hv
        have := s1.2 ⟨e, he, h, hh, hirr, coll1_complete_rounded Z (hr.hazards h hh hirr) (hqb h hh hirr e he) n (hqr h hh hirr e he)
          (geoR_ofHazard h _) (by simp [QTHazard.ofHazard]) (hr.fit hh hirr) he' ((hqe h hh hirr e he e' he').2 ⟨v, hve, hve'⟩) hve hve' hvb⟩
        simp at this
      rw [s2]
      constructor
      · rintro ⟨h, hh, -, hirr, ht⟩
        exact .inr ⟨h, hh, hirr, (key h hh hirr).1 ht⟩
      · rintro (hx | ⟨h, hh, hirr, hx⟩)
        · exact absurd hsub hx
        · exact ⟨h, hh, hr.active h hh hirr, hirr, (key h hh hirr).2 hx⟩
  · refine ⟨true, ?_, iff_of_true rfl (.inl hsub)⟩
    unfold CDE.polyCollides
    cases hrel : c.bbox.relationTo s.bbox with
    | surrounding =>
      rw [relationTo_rounded] at hrel
      exact absurd ((relationTo_surrounding_iff vA).1 hrel) hsub
    | _ => rfl

end Jagua
