import Verif.Lemmas.Strip
import Verif.Lemmas.PolyCollides
import Verif.Lemmas.RectPoly
import Verif.Lemmas.PolyNew
import Verif.Lemmas.Regions
import Verif.Lemmas.RectGeo2

/-!
# Geometry of strips
-/

set_option linter.unusedSectionVars false

namespace Jagua

variable {K : Type*} [Field K] [LinearOrder K] {n : ℕ}

/-- The pole of inaccessibility of a rectangle lies inside of it (see C47). -/
def PoiOfRects (poi : List (Point K) → Circle K) : Prop :=
  ∀ (r : AARect K) (poly : SPoly K), SPoly.ofRect poi r = some poly → poly.poi.center ∈ interior poly.points

/-- the polygon of a rectangle -/
def rectShape (poi : List (Point K) → Circle K) (r : AARect K) : SPoly K where
  points := rectPoly r.xMin r.yMin r.xMax r.yMax
  bbox := r
  area := (r.xMax - r.xMin) * (r.yMax - r.yMin)
  poi := poi (rectPoly r.xMin r.yMin r.xMax r.yMax)

variable [IsStrictOrderedRing K]

theorem calculateArea_rect (r : AARect K) :
    calculateArea [⟨r.xMin, r.yMin⟩, ⟨r.xMax, r.yMin⟩, ⟨r.xMax, r.yMax⟩, ⟨r.xMin, r.yMax⟩] =
      (r.xMax - r.xMin) * (r.yMax - r.yMin) := by
  unfold calculateArea polyEdges
  simp
  ring

theorem SPoly.ofRect_eq (poi : List (Point K) → Circle K) {r : AARect K} (hv : r.Valid) :
    SPoly.ofRect poi r = some (rectShape poi r) := by
  obtain ⟨hx, hy⟩ := hv
  have ha : 0 < (r.xMax - r.xMin) * (r.yMax - r.yMin) := mul_pos (sub_pos.2 hx) (sub_pos.2 hy)
  unfold SPoly.ofRect SPoly.new
  rw [if_neg (by simp), if_neg (by
    simp only [List.nodup_cons, List.mem_cons, Point.mk.injEq, List.not_mem_nil]
    simp [hx.ne, hx.ne', hy.ne])]
  dsimp only
  rw [calculateArea_rect, if_neg ha.ne', if_neg ha.not_gt, if_neg ha.not_gt]
  unfold rectShape rectPoly
  congr 2
  unfold boundingBox
  simp [List.foldl, hx.le, hy.le]

theorem noSpike_rectPoly {x0 y0 x1 y1 : K} (hx : x0 < x1) (hy : y0 < y1) : NoSpike (rectPoly x0 y0 x1 y1) := by
  intro s hs t ht he
  rw [sides_rectPoly] at hs ht
  have h1 : x1 - x0 ≠ 0 := (sub_pos.2 hx).ne'
  have h2 : y1 - y0 ≠ 0 := (sub_pos.2 hy).ne'
  have h3 : x0 - x1 ≠ 0 := (sub_neg.2 hx).ne
  have h4 : y0 - y1 ≠ 0 := (sub_neg.2 hy).ne
  simp only [List.mem_cons, List.not_mem_nil, or_false] at hs ht
  rcases hs with rfl | rfl | rfl | rfl <;> rcases ht with rfl | rfl | rfl | rfl <;>
    simp_all [Point.mk.injEq, hx.ne, hx.ne', hy.ne, hy.ne']

theorem boundingBox_congr {a b : List (Point K)} (ha : a ≠ []) (h : ∀ p, p ∈ a ↔ p ∈ b) : boundingBox a = boundingBox b := by
  have hb : b ≠ [] := by
    obtain ⟨p, l, rfl⟩ := List.exists_cons_of_ne_nil ha
    rintro rfl
    have := (h p).1 List.mem_cons_self
    simp at this
  obtain ⟨⟨p1, q1, e1⟩, ⟨p2, q2, e2⟩, ⟨p3, q3, e3⟩, ⟨p4, q4, e4⟩⟩ := boundingBox_attained ha
  obtain ⟨⟨p1', q1', e1'⟩, ⟨p2', q2', e2'⟩, ⟨p3', q3', e3'⟩, ⟨p4', q4', e4'⟩⟩ := boundingBox_attained hb
  have k : ∀ p, p ∈ b → p ∈ (boundingBox a).pts := fun p hp => mem_boundingBox ((h p).2 hp)
  have k' : ∀ p, p ∈ a → p ∈ (boundingBox b).pts := fun p hp => mem_boundingBox ((h p).1 hp)
  have eta : ∀ q : AARect K, q = ⟨q.xMin, q.yMin, q.xMax, q.yMax⟩ := fun q => rfl
  rw [eta (boundingBox a), eta (boundingBox b), AARect.mk.injEq]
  refine ⟨le_antisymm ?_ ?_, le_antisymm ?_ ?_, le_antisymm ?_ ?_, le_antisymm ?_ ?_⟩
  · rw [← e1']; exact (k _ q1').1
  · rw [← e1]; exact (k' _ q1).1
  · rw [← e2']; exact (k _ q2').2.2.1
  · rw [← e2]; exact (k' _ q2).2.2.1
  · rw [← e3]; exact (k' _ q3).2.1
  · rw [← e3']; exact (k _ q3').2.1
  · rw [← e4]; exact (k' _ q4).2.2.2
  · rw [← e4']; exact (k _ q4').2.2.2

theorem interior_of_sides_perm {a b : List (Point K)} (h : (sides a).Perm (sides b)) : interior a = interior b := by
  have hb : bdry a = bdry b := by
    ext p
    exact exists_congr fun s => and_congr_left fun _ => h.mem_iff
  ext p
  unfold interior rayCount
  simp only [Set.mem_ofPred_eq]
  rw [hb, h.countP_eq]

theorem boundingBox_rectPoly {x0 y0 x1 y1 : K} (hx : x0 < x1) (hy : y0 < y1) :
    boundingBox (rectPoly x0 y0 x1 y1) = ⟨x0, y0, x1, y1⟩ := by
  unfold boundingBox rectPoly
  simp [List.foldl, hx.le, hy.le]

/-- Whatever order the sides are given in, the polygon of a rectangle is that of a
proper rectangle up to the starting corner. -/
theorem SPoly.ofRect_spec {poi : List (Point K) → Circle K} {r : AARect K} {poly : SPoly K} (h : SPoly.ofRect poi r = some poly) :
    poly.bbox.Valid ∧ (sides poly.points).Perm (sides (rectPoly poly.bbox.xMin poly.bbox.yMin poly.bbox.xMax poly.bbox.yMax)) := by
  have hw := SPoly.new_wf h
  refine ⟨hw.bbox_valid, ?_⟩
  obtain ⟨-, hnd, h3, h4, h5, h6, -⟩ := SPoly.new_spec h
  rw [← calculateArea_eq, calculateArea_rect] at h3 h5
  have key : ∃ x0 y0 x1 y1, x0 < x1 ∧ y0 < y1 ∧ ∃ k, poly.points = (rectPoly x0 y0 x1 y1).rotate k := by
    have hx : r.xMin ≠ r.xMax := by rintro he; simp [he] at h3
    have hy : r.yMin ≠ r.yMax := by rintro he; simp [he] at h3
    rcases lt_or_gt_of_ne hx with hx | hx <;> rcases lt_or_gt_of_ne hy with hy | hy
    · rw [if_neg (mul_pos (sub_pos.2 hx) (sub_pos.2 hy)).not_gt] at h5
      exact ⟨_, _, _, _, hx, hy, 0, by rw [h5]; rfl⟩
    · rw [if_pos (mul_neg_of_pos_of_neg (sub_pos.2 hx) (sub_neg.2 hy))] at h5
      exact ⟨_, _, _, _, hx, hy, 0, by rw [h5]; rfl⟩
    · rw [if_pos (mul_neg_of_neg_of_pos (sub_neg.2 hx) (sub_pos.2 hy))] at h5
      exact ⟨_, _, _, _, hx, hy, 2, by rw [h5]; rfl⟩
    · rw [if_neg (mul_pos_of_neg_of_neg (sub_neg.2 hx) (sub_neg.2 hy)).not_gt] at h5
      exact ⟨_, _, _, _, hx, hy, 2, by rw [h5]; rfl⟩
  obtain ⟨x0, y0, x1, y1, hx, hy, k, hk⟩ := key
  have hb : poly.bbox = ⟨x0, y0, x1, y1⟩ := by
    rw [h6, ← boundingBox_rectPoly hx hy]
    apply boundingBox_congr hw.nonempty
    intro p
    rw [hk, List.mem_rotate]
  rw [hb, hk, sides_rotate]
  exact List.rotate_perm _ _

theorem SPoly.ofRect_interior {poi : List (Point K) → Circle K} {r : AARect K} {poly : SPoly K} (h : SPoly.ofRect poi r = some poly)
    (v : Point K) : v ∈ interior poly.points ↔ poly.bbox.xMin < v.x ∧ v.x < poly.bbox.xMax ∧ poly.bbox.yMin < v.y ∧ v.y < poly.bbox.yMax := by
  obtain ⟨hv, hp⟩ := SPoly.ofRect_spec h
  rw [interior_of_sides_perm hp]
  exact interior_rectPoly hv.1 hv.2 v

theorem SPoly.ofRect_proper {poi : List (Point K) → Circle K} (hpoi : PoiOfRects poi) {r : AARect K} {poly : SPoly K}
    (h : SPoly.ofRect poi r = some poly) : poly.Proper := by
  obtain ⟨hv, hp⟩ := SPoly.ofRect_spec h
  refine ⟨SPoly.new_wf h, ?_, hpoi r poly h⟩
  intro s hs t ht
  exact noSpike_rectPoly hv.1 hv.2 s (hp.mem_iff.1 hs) t (hp.mem_iff.1 ht)

theorem Bin.fromStrip_pre {env : Env K} {addr : ℕ} {value : SPoly K → ℕ} {rect : AARect K} {b : Bin K n}
    (h : Bin.fromStrip env n addr value rect = some b) : b.pretransform = Transf.translM rect.xMin rect.yMin := by
  unfold Bin.fromStrip at h
  split at h
  · cases h
  · obtain ⟨_, _, _, _, _, _, _, _, _, _, _, h⟩ := (Bin.new_spec env _ _ _ _ _ _).2 b h
    exact h

theorem Bin.fromStrip_valid (env : Env K) (addr : ℕ) (value : SPoly K → ℕ) {r : AARect K} (hv : r.Valid) :
    ∃ b : Bin K n, Bin.fromStrip env n addr value r = some b ∧ b.outer.val.points = rectPoly r.xMin r.yMin r.xMax r.yMax ∧
      b.outer.val.bbox = r ∧ b.area = (r.xMax - r.xMin) * (r.yMax - r.yMin) := by
  obtain ⟨b, hb⟩ := (Bin.new_spec (n := n) env 0 ⟨addr, (rectShape env.poi r)⟩ (value (rectShape env.poi r)) (Transf.fromTranslation r.xMin r.yMin) [] []).1 ⟨by simp, by simp⟩
  have hb' : Bin.fromStrip env n addr value r = some b := by
    unfold Bin.fromStrip
    rw [SPoly.ofRect_eq env.poi hv]
    exact hb
  obtain ⟨poly, h1, _, h2, _, _, _, _, _, h3⟩ := Bin.fromStrip_spec hb'
  rw [sub_zero] at h3
  rw [SPoly.ofRect_eq env.poi hv] at h1
  obtain rfl := Option.some.inj h1
  exact ⟨b, hb', by rw [h2]; rfl, by rw [h2]; rfl, h3⟩

/-- The engine of an empty strip accepts exactly the shapes inside of it. -/
theorem Bin.IsStrip.polyCollides {env : StripEnv K} (hf : env.f = Fpa.exact) (hpoi : PoiOfRects env.poi) {b : Bin K n}
    (hb : b.IsStrip env) {s : SPoly K} (hs : s.Proper) :
    b.baseCde.polyCollides env.f s [] = some false ↔ ∀ v ∈ region s.points, v ∈ Jagua.interior b.outer.val.points := by
  obtain ⟨addr, r, hb⟩ := hb
  obtain ⟨poly, h1, _, h2, _, h4, h5, h6, h7, _⟩ := Bin.fromStrip_spec hb
  have hint := SPoly.ofRect_interior h1
  have hP := SPoly.ofRect_proper hpoi h1
  have hall : b.baseCde.allHazards = [⟨.binExterior, ⟨addr, poly⟩, true⟩] := by
    unfold CDE.allHazards
    rw [h4, h5, List.append_nil]
  have hg : b.baseCde.Good := by
    refine ⟨?_, ?_, ?_, ?_⟩
    · rw [h6]; exact inflate_valid hP.wf.bbox_valid
    all_goals
      intro h hh
      rw [hall, List.mem_singleton] at hh
      subst hh
    · exact hP.wf
    · rfl
    · intro _
      rw [h6]
      unfold AARect.width AARect.height
      rcases inflate_tight poly.bbox with h | h
      · left; rw [h.1, h.2]
      · right; rw [h.1, h.2]
  rw [hf] at h7 ⊢
  rw [h2]
  dsimp only
  obtain ⟨c, e, hc⟩ := h7.inv.polyCollides_iff hg hs (irr := []) (by
    intro h hh _
    rw [hall, List.mem_singleton] at hh
    subst hh
    exact hP)
  have hin : ∀ v, v ∈ closedHaz GeoPosition.exterior poly.points ↔ v ∉ Jagua.interior poly.points := by
    intro v
    unfold closedHaz openHaz region
    simp only [Set.mem_union, Set.mem_compl_iff]
    constructor
    · rintro (h | h) hi
      · exact hi.1 h
      · exact h (.inr hi)
    · intro h
      by_cases hb : v ∈ bdry poly.points
      · exact .inl hb
      · exact .inr fun hh => hh.elim hb h
  rw [e]
  constructor
  · intro h v hv'
    obtain rfl : c = false := by simpa using h
    by_contra hn
    have : false = true := hc.2 (.inr ⟨⟨.binExterior, ⟨addr, poly⟩, true⟩, by rw [hall]; exact List.mem_singleton_self _, by simp,
      v, hv', (hin v).2 hn⟩)
    cases this
  · intro h
    cases c with
    | false => rfl
    | true =>
      rcases hc.1 rfl with hsub | ⟨x, hx, _, w, hw, hw'⟩
      · refine absurd ?_ hsub
        rw [h6]
        obtain ⟨⟨p1, q1, e1⟩, ⟨p2, q2, e2⟩, ⟨p3, q3, e3⟩, ⟨p4, q4, e4⟩⟩ := boundingBox_attained hs.wf.nonempty
        have k1 := (hint _).1 (h p1 (.inl (vertex_mem_bdry q1)))
        have k2 := (hint _).1 (h p2 (.inl (vertex_mem_bdry q2)))
        have k3 := (hint _).1 (h p3 (.inl (vertex_mem_bdry q3)))
        have k4 := (hint _).1 (h p4 (.inl (vertex_mem_bdry q4)))
        rw [hs.wf.bbox_eq]
        rintro w ⟨w1, w2, w3, w4⟩
        refine inflate_contains poly.bbox ⟨?_, ?_, ?_, ?_⟩ <;> linarith
      · rw [hall, List.mem_singleton] at hx
        subst hx
        exact absurd (h w hw) ((hin w).1 hw')

/-- the occupied range is the range of the boxes of the placed items -/
theorem occupiedRange_spec {l : Layout K n} (h : l.placed.values ≠ []) :
    ∃ lo hi, occupiedRange l = some (lo, hi) ∧ (∀ pi ∈ l.placed.values, lo ≤ pi.shape.val.bbox.xMin ∧ pi.shape.val.bbox.xMax ≤ hi) ∧
      (∃ pi ∈ l.placed.values, pi.shape.val.bbox.xMin = lo) ∧ ∃ pi ∈ l.placed.values, pi.shape.val.bbox.xMax = hi := by
  have key : ∀ (ps : List (PlacedItem K)) (a : K × K),
      let r := ps.foldl (fun r (pi : PlacedItem K) => (min r.1 pi.shape.val.bbox.xMin, max r.2 pi.shape.val.bbox.xMax)) a
      (r.1 ≤ a.1 ∧ a.2 ≤ r.2) ∧ (∀ pi ∈ ps, r.1 ≤ pi.shape.val.bbox.xMin ∧ pi.shape.val.bbox.xMax ≤ r.2) ∧
      (r.1 = a.1 ∨ ∃ pi ∈ ps, pi.shape.val.bbox.xMin = r.1) ∧ (r.2 = a.2 ∨ ∃ pi ∈ ps, pi.shape.val.bbox.xMax = r.2) := by
    intro ps
    induction ps with
    | nil => intro a; simp
    | cons q ps ih =>
      intro a
      obtain ⟨⟨h1, h2⟩, h3, h4, h5⟩ := ih (min a.1 q.shape.val.bbox.xMin, max a.2 q.shape.val.bbox.xMax)
      dsimp only at h1 h2 h4 h5
      rw [List.foldl_cons]
      refine ⟨⟨h1.trans (min_le_left _ _), (le_max_left _ _).trans h2⟩, ?_, ?_, ?_⟩
      · intro pi hpi
        rcases List.mem_cons.1 hpi with rfl | hpi
        · exact ⟨h1.trans (min_le_right _ _), (le_max_right _ _).trans h2⟩
        · exact h3 pi hpi
      · rcases h4 with h4 | ⟨pi, hpi, h4⟩
        · rcases min_choice a.1 q.shape.val.bbox.xMin with hm | hm
          · left; rw [h4, hm]
          · right; exact ⟨q, List.mem_cons_self, by rw [h4, hm]⟩
        · exact .inr ⟨pi, List.mem_cons_of_mem _ hpi, h4⟩
      · rcases h5 with h5 | ⟨pi, hpi, h5⟩
        · rcases max_choice a.2 q.shape.val.bbox.xMax with hm | hm
          · left; rw [h5, hm]
          · right; exact ⟨q, List.mem_cons_self, by rw [h5, hm]⟩
        · exact .inr ⟨pi, List.mem_cons_of_mem _ hpi, h5⟩
  unfold occupiedRange
  cases hv : l.placed.values with
  | nil => exact absurd hv h
  | cons q ps =>
    obtain ⟨⟨h1, h2⟩, h3, h4, h5⟩ := key ps (q.shape.val.bbox.xMin, q.shape.val.bbox.xMax)
    refine ⟨_, _, rfl, ?_, ?_, ?_⟩
    · intro pi hpi
      rcases List.mem_cons.1 hpi with rfl | hpi
      · exact ⟨h1, h2⟩
      · exact h3 pi hpi
    · rcases h4 with h4 | ⟨pi, hpi, h4⟩
      · exact ⟨q, List.mem_cons_self, h4.symm⟩
      · exact ⟨pi, List.mem_cons_of_mem _ hpi, h4⟩
    · rcases h5 with h5 | ⟨pi, hpi, h5⟩
      · exact ⟨q, List.mem_cons_self, h5.symm⟩
      · exact ⟨pi, List.mem_cons_of_mem _ hpi, h5⟩

theorem region_subset_bbox {pts : List (Point K)} {p : Point K} (h : p ∈ region pts) : p ∈ (boundingBox pts).pts := by
  rcases h with h | h
  · exact bdry_subset_bbox h
  · obtain ⟨h1, h2, h3, h4⟩ := interior_subset_inner h
    exact ⟨h1.le, h2.le, h3.le, h4.le⟩

theorem Bin.IsStrip.bbox_valid {env : StripEnv K} {b : Bin K n} (h : b.IsStrip env) : b.outer.val.bbox.Valid := by
  obtain ⟨addr, rect, h⟩ := h
  obtain ⟨poly, h1, _, h2, _⟩ := Bin.fromStrip_spec h
  rw [h2]
  exact (SPoly.new_wf h1).bbox_valid

/-- the strip as a set of points is its box -/
theorem Bin.IsStrip.interior {env : StripEnv K} {b : Bin K n} (h : b.IsStrip env) (v : Point K) :
    v ∈ interior b.outer.val.points ↔ b.outer.val.bbox.xMin < v.x ∧ v.x < b.outer.val.bbox.xMax ∧
      b.outer.val.bbox.yMin < v.y ∧ v.y < b.outer.val.bbox.yMax := by
  obtain ⟨addr, r, h⟩ := h
  obtain ⟨poly, h1, _, h2, _⟩ := Bin.fromStrip_spec h
  rw [h2]
  exact SPoly.ofRect_interior h1 v

/-- what the strip keeps, geometrically -/
theorem stripKeeps_iff {env : StripEnv K} (hf : env.f = Fpa.exact) (hpoi : PoiOfRects env.poi) {inst : SPInstance K} {b : Bin K n}
    (hb : b.IsStrip env) {x : ℕ × DTransf K} (hs : ((inst.cat x.1).shape.transform (Transf.fromDt env.tr x.2)).Proper) :
    stripKeeps env inst b x = true ↔ ∀ v ∈ region ((inst.cat x.1).shape.transform (Transf.fromDt env.tr x.2)).points,
      v ∈ interior b.outer.val.points := by
  unfold stripKeeps
  rw [beq_iff_eq]
  exact hb.polyCollides hf hpoi hs

theorem SPProblem.modifyCentered_eq {env : StripEnv K} {p : SPProblem K n} {lo hi : K} (h : occupiedRange p.layout = some (lo, hi))
    (addr : ℕ) (addrs : ℕ → ℕ) (w : K) : p.modifyCentered env addr addrs w =
      (AARect.new env.overflowChecks (lo - (w - (hi - lo)) / 2) p.layout.bin.outer.val.bbox.yMin (hi + (w - (hi - lo)) / 2)
        p.layout.bin.outer.val.bbox.yMax).bind (p.modifyStrip env addr addrs) := by
  unfold SPProblem.modifyCentered occupiedWidth
  rw [h]
  rfl

theorem AARect.new_valid {debug : Bool} {a b c d : K} (h1 : a < c) (h2 : b < d) : AARect.new debug a b c d = some ⟨a, b, c, d⟩ := by
  unfold AARect.new
  rw [if_pos (.inl ⟨h1, h2⟩)]

/-- Fitting the strip around items that lie inside of it. -/
theorem SPProblem.Core.fit {env : StripEnv K} {p : SPProblem K n} (h : p.Core env) (hf : env.f = Fpa.exact)
    (hpoi : PoiOfRects env.poi) (htol : 0 < env.tolerance) (hne : p.layout.placed.values ≠ [])
    (hshape : ∀ pi ∈ p.layout.placed.values, pi.shape.val.Proper)
    (hin : ∀ pi ∈ p.layout.placed.values, ∀ v ∈ region pi.shape.val.points,
      p.layout.bin.outer.val.bbox.yMin < v.y ∧ v.y < p.layout.bin.outer.val.bbox.yMax) (addr : ℕ) (addrs : ℕ → ℕ) :
    ∃ lo hi p', occupiedRange p.layout = some (lo, hi) ∧ p.fitStrip env addr addrs = some p' ∧ p'.Core env ∧ p'.inst = p.inst ∧
      (p'.layout.placed.values.map fun pi => (pi.itemId, pi.dt)).Perm (p.layout.placed.values.map fun pi => (pi.itemId, pi.dt)) ∧
      p'.layout.bin.outer.val.bbox = ⟨lo - (hi - lo) * env.tolerance / 2, p.layout.bin.outer.val.bbox.yMin,
        hi + (hi - lo) * env.tolerance / 2, p.layout.bin.outer.val.bbox.yMax⟩ := by
  obtain ⟨lo, hi, hr, h1, ⟨q, hq, hq'⟩, -⟩ := occupiedRange_spec hne
  have hpos : 0 < (hi - lo) * env.tolerance := by
    apply mul_pos _ htol
    have := (h1 q hq).2
    have := (hshape q hq).wf.bbox_valid.1
    linarith
  have hb := h.layout.strip.bbox_valid
  have e0 : occupiedWidth p.layout * (1 + env.tolerance) - (hi - lo) = (hi - lo) * env.tolerance := by
    unfold occupiedWidth
    rw [hr]
    ring
  have hlohi : lo < hi := by
    have := (h1 q hq).2
    have := (hshape q hq).wf.bbox_valid.1
    linarith
  have hval : (⟨lo - (hi - lo) * env.tolerance / 2, p.layout.bin.outer.val.bbox.yMin,
        hi + (hi - lo) * env.tolerance / 2, p.layout.bin.outer.val.bbox.yMax⟩ : AARect K).Valid := ⟨by dsimp only; linarith, hb.2⟩
  obtain ⟨b, hb1, hb2, hb3, _⟩ := Bin.fromStrip_valid (n := n) env.toEnv addr env.stripValue hval
  obtain ⟨l, m, e1, e2, e3, e4, e5⟩ := h.modifyStrip addr addrs hb1
  have hst : b.IsStrip env := ⟨_, _, hb1⟩
  have hkeep : ∀ x ∈ p.layout.placed.values.map (fun pi => (pi.itemId, pi.dt)), stripKeeps env p.inst b x = true := by
    intro x hx
    obtain ⟨pi, hpi, rfl⟩ := List.mem_map.1 hx
    have hok := (h.layout.inv.ok pi hpi).2
    have hP := hshape pi hpi
    rw [stripKeeps_iff hf hpoi hst (by rw [← hok]; exact hP)]
    rw [← hok]
    intro v hv
    rw [hst.interior, hb3]
    have hbx := region_subset_bbox hv
    rw [← hP.wf.bbox_eq] at hbx
    obtain ⟨k1, k2⟩ := h1 pi hpi
    obtain ⟨k3, k4⟩ := hin pi hpi v hv
    refine ⟨?_, ?_, k3, k4⟩ <;> dsimp only
    · linarith [hbx.1]
    · linarith [hbx.2.1]
  rw [List.filter_eq_self.2 hkeep] at e5
  refine ⟨lo, hi, _, hr, ?_, e2, rfl, e5, ?_⟩
  · unfold SPProblem.fitStrip
    rw [SPProblem.modifyCentered_eq hr, e0, AARect.new_valid hval.1 hval.2, Option.bind_some, e1, Option.bind_some, if_pos]
    have := e5.length_eq
    rw [List.length_map, List.length_map] at this
    exact this.symm
  · dsimp only
    rw [e4, hb3]

end Jagua
