import Verif.Spec.Usage
import Verif.Lemmas.Usage
import Verif.Lemmas.Compose

/-!
# The used fraction that is reported for a layout, and that of the layout as it is written
-/

set_option linter.unusedSectionVars false

namespace Jagua

open MeasureTheory Set

variable {n : ℕ}

theorem SimplePoly.finite_area {pts : List (Point ℝ)} (h : SimplePoly pts) : planeArea (region pts) ≠ ⊤ := by
  obtain ⟨s, hs⟩ := SPoly.new_simple (fun _ => ⟨⟨0, 0⟩, 0⟩) h
  have hm := SPoly.new_measured (SPoly.new_points_simple h hs) hs
  have := hm.region_area
  unfold region at this ⊢
  rw [(SPoly.new_region hs).1, (SPoly.new_region hs).2.1] at this
  rw [this]
  exact ENNReal.ofReal_ne_top

theorem JsonShape.PlainWithHoles.simple {s : JsonShape ℝ} (h : s.PlainWithHoles) : SimplePoly s.corners := by
  cases s with
  | rectangle w h' => exact rect_simple h.1 h.2
  | simplePolygon pts => exact h
  | polygon _ _ => exact h.1
  | multiPolygon _ => exact absurd h _root_.id

/-- what is known about the areas of a layout, where its items cover at least `C` and its bin is at most `F` -/
structure LayoutAreas (ex : Prop) (bin : Bin ℝ n) (items : List (PlacedItem ℝ)) (C F : Set (Point ℝ)) : Prop where
  pos : 0 < bin.area
  nonneg : 0 ≤ (items.map (·.shape.val.area)).sum
  le : (items.map (·.shape.val.area)).sum ≤ bin.area
  covered : (planeArea C).toReal ≤ (items.map (·.shape.val.area)).sum
  free : bin.area ≤ (planeArea F).toReal
  same : ex → (planeArea C).toReal = (items.map (·.shape.val.area)).sum ∧ bin.area = (planeArea F).toReal

theorem layoutAreas {ex : Prop} {b : Bin ℝ n} {items : List (PlacedItem ℝ)} {C F : Set (Point ℝ)} {tx ty : ℝ} (hb : b.Measured)
    (hfit : HolesFit b.outer.val.points (b.holes.map (·.val.points))) (hi : ∀ pi ∈ items, pi.shape.val.Measured) (hf : Feasible b items)
    (hpos : 0 < b.area ∨ items ≠ []) (hC : ∀ v ∈ C, transPt tx ty v ∈ coveredByItems items) (hF : ENNReal.ofReal b.area ≤ planeArea F)
    (hF' : planeArea F ≠ ⊤) (hC' : ex → ∀ v, transPt tx ty v ∈ coveredByItems items → v ∈ C) (hF'' : ex → planeArea F = ENNReal.ofReal b.area) :
    LayoutAreas ex b items C F := by
  obtain ⟨-, h2, h3, h4, h5, h6⟩ := items_area hb hfit hi hf
  have hc : planeArea C ≤ ENNReal.ofReal (items.map (·.shape.val.area)).sum := by
    rw [← h3, planeArea_moved tx ty {v | transPt tx ty v ∈ coveredByItems items} (coveredByItems items) fun v => Iff.rfl]
    exact planeArea_mono hC
  refine ⟨?_, h4, h5, ENNReal.toReal_le_of_le_ofReal h4 hc, (ENNReal.ofReal_le_iff_le_toReal hF').1 hF, fun he => ⟨?_, ?_⟩⟩
  · rcases hpos with h | h
    · exact h
    · exact (h6 h).trans_le h5
  · rw [← planeArea_moved tx ty C _ fun v => ⟨hC' he v, hC v⟩, h3, ENNReal.toReal_ofReal h4]
  · rw [hF'' he, ENNReal.toReal_ofReal h2]

theorem LayoutAreas.fraction {ex : Prop} {bin : Bin ℝ n} {items : List (PlacedItem ℝ)} {C F : Set (Point ℝ)} (h : LayoutAreas ex bin items C F) {u : ℝ}
    (hu : u = (items.map (·.shape.val.area)).sum / bin.area) :
    0 < (planeArea F).toReal ∧ (planeArea C).toReal / (planeArea F).toReal ≤ u ∧ u ≤ 1 ∧ (ex → u = (planeArea C).toReal / (planeArea F).toReal) := by
  have h0 := h.pos.trans_le h.free
  refine ⟨h0, ?_, ?_, fun he => ?_⟩
  · rw [hu]
    exact div_le_div₀ h.nonneg h.covered h.pos h.free
  · rw [hu]
    exact (div_le_one h.pos).2 h.le
  · rw [hu, (h.same he).1, (h.same he).2]

/-- the same for several layouts -/
theorem LayoutAreas.total {ex : Prop} {ι : Type*} {bin : ι → Bin ℝ n} {items : ι → List (PlacedItem ℝ)} {C F : ι → Set (Point ℝ)} {us : ι → ℝ} {l : List ι}
    (h : ∀ i ∈ l, LayoutAreas ex (bin i) (items i) (C i) (F i)) (hu : ∀ i ∈ l, us i = ((items i).map (·.shape.val.area)).sum / (bin i).area) {u : ℝ}
    (hs : u = (l.map fun i => (bin i).area * us i).sum / (l.map fun i => (bin i).area).sum) (hne : l ≠ []) :
    0 < (l.map fun i => (planeArea (F i)).toReal).sum ∧
    (l.map fun i => (planeArea (C i)).toReal).sum / (l.map fun i => (planeArea (F i)).toReal).sum ≤ u ∧ u ≤ 1 ∧
    (ex → u = (l.map fun i => (planeArea (C i)).toReal).sum / (l.map fun i => (planeArea (F i)).toReal).sum) := by
  have e : (l.map fun i => (bin i).area * us i) = l.map fun i => ((items i).map (·.shape.val.area)).sum := by
    apply List.map_congr_left
    intro i hi
    rw [hu i hi, mul_div_cancel₀ _ (h i hi).pos.ne']
  rw [e] at hs
  have hp : 0 < (l.map fun i => (bin i).area).sum := by
    cases l with
    | nil => exact absurd rfl hne
    | cons a l =>
      rw [List.map_cons, List.sum_cons]
      refine add_pos_of_pos_of_nonneg (h a List.mem_cons_self).pos (List.sum_nonneg fun x hx => ?_)
      obtain ⟨i, hi, rfl⟩ := List.mem_map.1 hx
      exact (h i (List.mem_cons_of_mem _ hi)).pos.le
  have hf : (l.map fun i => (bin i).area).sum ≤ (l.map fun i => (planeArea (F i)).toReal).sum :=
    List.sum_le_sum fun i hi => (h i hi).free
  have hc : (l.map fun i => (planeArea (C i)).toReal).sum ≤ (l.map fun i => ((items i).map (·.shape.val.area)).sum).sum :=
    List.sum_le_sum fun i hi => (h i hi).covered
  have hl : (l.map fun i => ((items i).map (·.shape.val.area)).sum).sum ≤ (l.map fun i => (bin i).area).sum :=
    List.sum_le_sum fun i hi => (h i hi).le
  have hn : 0 ≤ (l.map fun i => ((items i).map (·.shape.val.area)).sum).sum := by
    refine List.sum_nonneg fun x hx => ?_
    obtain ⟨i, hi, rfl⟩ := List.mem_map.1 hx
    exact (h i hi).nonneg
  refine ⟨hp.trans_le hf, ?_, ?_, fun he => ?_⟩
  · rw [hs]
    exact div_le_div₀ hn hc hp hf
  · rw [hs]
    exact (div_le_one hp).2 hl
  · rw [hs]
    congr 2
    · exact List.map_congr_left fun i hi => ((h i hi).same he).1.symm
    · exact List.map_congr_left fun i hi => ((h i hi).same he).2

/-- what is written for an item covers exactly what the item covers, if shapes are not simplified -/
theorem ReadItems.written_exact {penv : PEnv ℝ} {cfg : ParserConfig ℝ} (hex : cfg.tolerance = none) {ji : JsonInstance ℝ} {items : List (Item ℝ × ℕ)}
    (h : ReadItems penv cfg ji.items items) (hu : penv.tr.Unit) (hp : penv.tr.Polar) {sn : LayoutSnapshot ℝ n} (hs : SnapItems penv.toEnv items sn)
    {bx b_y : ℝ} (hb : sn.bin.pretransform = Transf.translM bx b_y) {pi : PlacedItem ℝ} (hpi : pi ∈ sn.placed.values) {p : JsonPlacedItem ℝ}
    (hpp : composePlaced penv.tr items sn.bin pi = some p) {v : Point ℝ} (hv : transPt bx b_y v ∈ region pi.shape.val.points) : v ∈ ji.covered penv.tr p := by
  obtain ⟨x, hx, -, hsh, -⟩ := hs.items pi hpi
  obtain ⟨j, hj, -, hr⟩ := h.get hx
  obtain ⟨ix, iy, hpre, hm, -⟩ := hr.shape
  obtain ⟨p', e, hc⟩ := composePlaced_ok (b := sn.bin) hu hp hx hpre hb
  rw [hpp] at e
  cases e
  have hj' : ji.items[p.index]? = some j := by rw [hc.index]; exact hj
  unfold JsonInstance.covered
  rw [hj']
  have rd : (Transf.fromDt penv.tr pi.dt).IsRigid := .rotTransl hu _ _ _
  rw [hsh] at hv
  -- the point of the item that comes to lie at `v`
  obtain ⟨w, hw⟩ : ∃ w, p.place penv.tr w = v := by
    have hcs := hu p.rotation
    refine ⟨rotPt (penv.tr.cos p.rotation) (-penv.tr.sin p.rotation) (transPt (-p.translation.1) (-p.translation.2) v), ?_⟩
    unfold JsonPlacedItem.place transPt rotPt
    ext
    · dsimp only
      linear_combination (v.x - p.translation.1) * hcs
    · dsimp only
      linear_combination (v.y - p.translation.2) * hcs
  refine ⟨w, ?_, hw⟩
  rw [← hw, hc.place] at hv
  exact ((hm.same hex) w).1.1 (rd.map.region.1 hv)

theorem measured_of_items {penv : PEnv ℝ} {cfg : ParserConfig ℝ} {ji : JsonInstance ℝ} {items : List (Item ℝ × ℕ)} (h : ReadItems penv cfg ji.items items)
    (hu : penv.tr.Unit) {sn : LayoutSnapshot ℝ n} (hs : SnapItems penv.toEnv items sn) : ∀ pi ∈ sn.placed.values, pi.shape.val.Measured := by
  intro pi hpi
  obtain ⟨x, hx, -, hsh, -⟩ := hs.items pi hpi
  obtain ⟨j, -, -, hr⟩ := h.get hx
  obtain ⟨_, _, -, hm, -⟩ := hr.shape
  rw [hsh]
  exact hm.measured.transform (.rotTransl hu _ _ _)

/-- the items of a written layout cover what the items of the layout cover -/
theorem coveredIn_moved {penv : PEnv ℝ} {ji : JsonInstance ℝ} {sn : LayoutSnapshot ℝ n} {bx b_y : ℝ}
    {placed : List (JsonPlacedItem ℝ)} (hw : List.Forall₂ (Written penv ji bx b_y) sn.placed.values placed) :
    ∀ v ∈ ji.coveredIn penv.tr placed, transPt bx b_y v ∈ coveredByItems sn.placed.values := by
  rintro v ⟨p, hp, hv⟩
  obtain ⟨pi, hpi, hr⟩ := forall₂_exists_left hw hp
  exact ⟨_, List.mem_map_of_mem hpi, hr.covered v hv⟩

theorem coveredIn_exact {penv : PEnv ℝ} {cfg : ParserConfig ℝ} (hex : cfg.tolerance = none) {ji : JsonInstance ℝ} {items : List (Item ℝ × ℕ)}
    (h : ReadItems penv cfg ji.items items) (hu : penv.tr.Unit) (hp : penv.tr.Polar) {sn : LayoutSnapshot ℝ n} (hs : SnapItems penv.toEnv items sn)
    {bx b_y : ℝ} (hb : sn.bin.pretransform = Transf.translM bx b_y) {placed : List (JsonPlacedItem ℝ)}
    (hpl : sn.placed.values.mapM (composePlaced penv.tr items sn.bin) = some placed) {v : Point ℝ}
    (hv : transPt bx b_y v ∈ coveredByItems sn.placed.values) : v ∈ ji.coveredIn penv.tr placed := by
  obtain ⟨s, hs', hv⟩ := hv
  obtain ⟨pi, hpi, rfl⟩ := List.mem_map.1 hs'
  obtain ⟨p, hp', hpp⟩ := forall₂_exists_right (mapM_forall₂_of hpl) hpi
  exact ⟨p, hp', h.written_exact hex hu hp hs hb hpi hpp hv⟩

/-- a bin as it is read -/
theorem ReadBin.areas {penv : PEnv ℝ} {cfg : ParserConfig ℝ} {j : JsonBin ℝ} {i : ℕ} {tx ty : ℝ} {b : Bin ℝ n} (h : ReadBin penv cfg j i tx ty b)
    (hj : j.shape.PlainWithHoles) (hh : j.shape.holes = [] ∨ (cfg.tolerance = none ∧ HolesFit j.shape.corners j.shape.holes)) :
    b.Measured ∧ HolesFit b.outer.val.points (b.holes.map (·.val.points)) ∧
      ENNReal.ofReal b.area ≤ planeArea (remainder j.shape.corners j.shape.holes) ∧ planeArea (remainder j.shape.corners j.shape.holes) ≠ ⊤ ∧
      (cfg.tolerance = none → planeArea (remainder j.shape.corners j.shape.holes) = ENNReal.ofReal b.area) := by
  have hmap : (b.holes.map (·.val)).map (·.points) = b.holes.map (·.val.points) := by rw [List.map_map]; rfl
  have hm : b.Measured := by
    refine ⟨h.outer.measured, fun s hs => ?_, ?_⟩
    · obtain ⟨_, -, hr⟩ := forall₂_exists_left h.holes (List.mem_map_of_mem (f := (·.val)) hs)
      exact hr.measured
    · obtain ⟨id, outer, value, pre, holes, zones, hb⟩ := h.built
      obtain ⟨-, -, h1, h2, h3, -⟩ := (Bin.new_spec _ id outer value pre holes zones).2 b hb
      rw [h1, h2, h3, fsum_eq]
  have hfit : HolesFit b.outer.val.points (b.holes.map (·.val.points)) := by
    rcases hh with hh | ⟨hex, hh⟩
    · have hb : b.holes = [] := by
        have := h.holes
        rw [hh] at this
        simpa using this
      rw [hb]
      exact ⟨by simp, by simp⟩
    · rw [← hmap]
      refine ⟨fun s hs v hv => ?_, ?_⟩
      · obtain ⟨a, ha, rfl⟩ := List.mem_map.1 hs
        obtain ⟨q, hq, hr⟩ := forall₂_exists_left h.holes ha
        have e : transPt tx ty (transPt (-tx) (-ty) v) = v := by unfold transPt; ext <;> simp
        rw [← e] at hv ⊢
        exact (h.outer.same hex _).1.2 (hh.inside q hq ((hr.same hex _).1.1 hv))
      · rw [List.pairwise_map]
        refine Forall₂.pairwise ?_ h.holes hh.apart
        intro a b' a' b'' h1 h2 hd
        rw [Set.disjoint_left] at hd ⊢
        intro v hv hv'
        have e : transPt tx ty (transPt (-tx) (-ty) v) = v := by unfold transPt; ext <;> simp
        rw [← e] at hv hv'
        exact hd ((h1.same hex _).2.1 hv) ((h2.same hex _).2.1 hv')
  have harea : planeArea b.freePart = ENNReal.ofReal b.area := (items_area hm hfit (items := []) (by simp) ⟨by simp, by simp, by simp, by simp⟩).1
  have hle : ENNReal.ofReal b.area ≤ planeArea (remainder j.shape.corners j.shape.holes) := by
    rw [← harea, planeArea_moved tx ty {v | transPt tx ty v ∈ b.freePart} b.freePart fun v => Iff.rfl]
    apply planeArea_mono
    rintro v ⟨h1, h2⟩
    refine ⟨h.outer.covers v h1, fun q hq hv => ?_⟩
    obtain ⟨s, hs, hr⟩ := forall₂_exists_right h.holes hq
    refine h2 s.points ?_ (hr.covers v hv)
    rw [← hmap]
    exact List.mem_map_of_mem (f := fun s : SPoly ℝ => s.points) hs
  refine ⟨hm, hfit, hle, ?_, fun hex => ?_⟩
  · exact ne_top_of_le_ne_top hj.simple.finite_area (planeArea_mono fun v hv => hv.1)
  · rw [← harea]
    symm
    apply planeArea_moved tx ty
    intro v
    constructor
    · rintro ⟨h1, h2⟩
      refine ⟨(h.outer.same hex v).1.1 h1, fun q hq hv => ?_⟩
      obtain ⟨s, hs, hr⟩ := forall₂_exists_right h.holes hq
      refine h2 s.points ?_ (hr.covers v hv)
      rw [← hmap]
      exact List.mem_map_of_mem (f := fun s : SPoly ℝ => s.points) hs
    · rintro ⟨h1, h2⟩
      refine ⟨(h.outer.same hex v).1.2 h1, fun q hq hv => ?_⟩
      rw [← hmap] at hq
      obtain ⟨a, ha, rfl⟩ := List.mem_map.1 hq
      obtain ⟨q', hq', hr⟩ := forall₂_exists_left h.holes ha
      exact h2 q' hq' ((hr.same hex v).1.1 hv)

theorem SPoly.ofRect_measured {poi : List (Point ℝ) → Circle ℝ} {r : AARect ℝ} {poly : SPoly ℝ} (h : SPoly.ofRect poi r = some poly) : poly.Measured := by
  obtain ⟨hv, hperm⟩ := SPoly.ofRect_spec h
  unfold SPoly.ofRect at h
  have hn := SPoly.new_wf h
  obtain ⟨h1, h2, h3, h4, h5, -⟩ := SPoly.new_spec h
  refine SPoly.new_measured ⟨?_, ?_, fun s hs t ht => ?_⟩ h
  · rw [h5]; split_ifs <;> simp
  · rw [h5]; split_ifs
    · exact List.nodup_reverse.2 h2
    · exact h2
  · exact (rect_simple hv.1 hv.2).2.2 s (hperm.mem_iff.1 hs) t (hperm.mem_iff.1 ht)

theorem Bin.IsStrip.measured {env : StripEnv ℝ} {b : Bin ℝ n} (h : b.IsStrip env) :
    b.Measured ∧ HolesFit b.outer.val.points (b.holes.map (·.val.points)) ∧ 0 < b.area ∧
      b.area = b.outer.val.bbox.width * b.outer.val.bbox.height := by
  have hh := h.plain.1
  have hint := h.interior
  obtain ⟨addr, r, hb⟩ := h
  obtain ⟨poly, h1, _, h2, _, _, _, _, _, h3⟩ := Bin.fromStrip_spec hb
  rw [sub_zero] at h3
  have hm : b.Measured := ⟨by rw [h2]; exact SPoly.ofRect_measured h1, by rw [hh]; simp, by rw [hh, h3, h2]; simp⟩
  refine ⟨hm, by rw [hh]; exact ⟨by simp, by simp⟩, by rw [h3]; exact (SPoly.ofRect_measured h1).pos, ?_⟩
  have hv : b.outer.val.bbox.Valid := by rw [h2]; exact (SPoly.ofRect_spec h1).1
  have ha := hm.outer.interior_area
  have hs : {q : ℝ × ℝ | (⟨q.1, q.2⟩ : Point ℝ) ∈ Jagua.interior b.outer.val.points} =
      Ioo b.outer.val.bbox.xMin b.outer.val.bbox.xMax ×ˢ Ioo b.outer.val.bbox.yMin b.outer.val.bbox.yMax := by
    ext q
    rw [mem_ofPred_eq, hint]
    simp only [mem_prod, mem_Ioo]
    tauto
  unfold planeArea at ha
  rw [hs, Measure.volume_eq_prod, Measure.prod_prod, Real.volume_Ioo, Real.volume_Ioo, ← ENNReal.ofReal_mul (sub_nonneg.2 hv.1.le)] at ha
  have ha' := (ENNReal.ofReal_eq_ofReal_iff (mul_nonneg (sub_nonneg.2 hv.1.le) (sub_nonneg.2 hv.2.le)) hm.outer.pos.le).1 ha
  have : b.area = b.outer.val.area := by rw [h3, h2]
  rw [this, ← ha']
  rfl

theorem strip_area (ji : JsonInstance ℝ) {w h : ℝ} (hw : 0 ≤ w) (_hh : 0 ≤ h) : planeArea (ji.space (.strip w h)) = ENNReal.ofReal (w * h) := by
  have hs : {q : ℝ × ℝ | (⟨q.1, q.2⟩ : Point ℝ) ∈ ji.space (.strip w h)} = Icc 0 w ×ˢ Icc 0 h := by
    ext q
    unfold JsonInstance.space
    simp only [mem_ofPred_eq, mem_prod, mem_Icc]
    tauto
  unfold planeArea
  rw [hs, Measure.volume_eq_prod, Measure.prod_prod, Real.volume_Icc, Real.volume_Icc, sub_zero, sub_zero, ← ENNReal.ofReal_mul hw]

end Jagua
