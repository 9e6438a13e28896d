import Verif.Lemmas.AreaMeasure
import Verif.Lemmas.RayDir
import Verif.Lemmas.Transf
import Verif.Lemmas.Parser
import Mathlib.MeasureTheory.Group.Prod

/-!
# Areas of shapes and of sets of shapes
-/

set_option linter.unusedSectionVars false

namespace Jagua

open MeasureTheory Set

/-- A set of points in coordinates `(y, x)`. -/
def chart (S : Set (Point ℝ)) : Set (ℝ × ℝ) := {q | (⟨q.2, q.1⟩ : Point ℝ) ∈ S}

theorem planeArea_chart (S : Set (Point ℝ)) : planeArea S = volume (chart S) := planeArea_swap S

theorem planeArea_mono {S T : Set (Point ℝ)} (h : S ⊆ T) : planeArea S ≤ planeArea T := measure_mono fun _ hq => h hq

theorem region_ae (pts : List (Point ℝ)) : chart (region pts) =ᵐ[volume] chart (Jagua.interior pts) := by
  filter_upwards [bdry_null pts] with q hq
  apply propext
  constructor
  · rintro (k | k)
    · exact absurd k hq.2
    · exact k
  · exact fun k => .inr k

namespace SPoly.Measured

theorem null {s : SPoly ℝ} (h : s.Measured) : NullMeasurableSet (chart (region s.points)) :=
  ((h.simple.area_interior (h.area ▸ h.pos)).2).congr (region_ae s.points).symm

theorem interior_area {s : SPoly ℝ} (h : s.Measured) : planeArea (Jagua.interior s.points) = ENNReal.ofReal s.area := by
  rw [h.area]
  exact (h.simple.area_interior (h.area ▸ h.pos)).1

theorem region_area {s : SPoly ℝ} (h : s.Measured) : planeArea (region s.points) = ENNReal.ofReal s.area := by
  rw [← h.interior_area, planeArea_chart, planeArea_chart]
  exact measure_congr (region_ae s.points)

end SPoly.Measured

theorem coveredBy_cons (s : List (Point ℝ)) (ss : List (List (Point ℝ))) : coveredBy (s :: ss) = region s ∪ coveredBy ss := by
  ext v
  unfold coveredBy
  simp

theorem coveredBy_area {ss : List (SPoly ℝ)} (h : ∀ s ∈ ss, s.Measured)
    (hd : (ss.map (·.points)).Pairwise fun a c => Disjoint (Jagua.interior a) (Jagua.interior c)) :
    planeArea (coveredBy (ss.map (·.points))) = ENNReal.ofReal (ss.map (·.area)).sum ∧ NullMeasurableSet (chart (coveredBy (ss.map (·.points)))) ∧
    0 ≤ (ss.map (·.area)).sum := by
  induction ss with
  | nil =>
    have : coveredBy ([].map fun s : SPoly ℝ => s.points) = ∅ := by ext; simp [coveredBy]
    rw [this, planeArea_chart]
    have : chart ∅ = ∅ := rfl
    rw [this]
    simp
  | cons s ss ih =>
    rw [List.map_cons] at hd
    obtain ⟨h1, h2, h3⟩ := ih (fun t ht => h t (List.mem_cons_of_mem _ ht)) (List.pairwise_cons.1 hd).2
    have hs := h s List.mem_cons_self
    rw [List.map_cons]
    set P := ss.map (·.points) with hP
    have hch : chart (coveredBy (s.points :: P)) = chart (region s.points) ∪ chart (coveredBy P) := by rw [coveredBy_cons]; rfl
    refine ⟨?_, ?_, ?_⟩
    · rw [planeArea_chart, hch, measure_union₀ h2, ← planeArea_chart, ← planeArea_chart, h1, hs.region_area, List.map_cons, List.sum_cons,
        ENNReal.ofReal_add hs.pos.le h3]
      show volume _ = 0
      have : ∀ᵐ q : ℝ × ℝ, q ∉ chart (region s.points) ∩ chart (coveredBy P) := by
        filter_upwards [bdry_null s.points, ae_list (l := P) (P := fun t q => (⟨q.2, q.1⟩ : Point ℝ) ∉ bdry t)
          fun t _ => (bdry_null t).mono fun q hq => hq.2] with q k1 k2
        rintro ⟨k3, t, ht, k4⟩
        exact Set.disjoint_left.1 ((List.pairwise_cons.1 hd).1 t ht) (k3.resolve_left k1.2) (k4.resolve_left (k2 t ht))
      simpa [ae_iff] using this
    · rw [hch]
      exact hs.null.union h2
    · rw [List.map_cons, List.sum_cons]
      have := hs.pos
      linarith

theorem remainder_area {outer : SPoly ℝ} {holes : List (SPoly ℝ)} (ho : outer.Measured) (hh : ∀ s ∈ holes, s.Measured)
    (hfit : HolesFit outer.points (holes.map (·.points))) :
    planeArea (remainder outer.points (holes.map (·.points))) = ENNReal.ofReal (outer.area - (holes.map (·.area)).sum) ∧
    0 ≤ outer.area - (holes.map (·.area)).sum := by
  obtain ⟨h1, h2, h3⟩ := coveredBy_area hh hfit.apart
  have hsub : coveredBy (holes.map (·.points)) ⊆ region outer.points := by
    rintro v ⟨s, hs, hv⟩
    exact hfit.inside s hs hv
  have hle : (holes.map (·.area)).sum ≤ outer.area := by
    have := planeArea_mono hsub
    rwa [h1, ho.region_area, ENNReal.ofReal_le_ofReal_iff ho.pos.le] at this
  refine ⟨?_, by linarith⟩
  have hch : chart (remainder outer.points (holes.map (·.points))) = chart (region outer.points) \ chart (coveredBy (holes.map (·.points))) := by
    ext q
    show (_ ∧ _) ↔ (_ ∧ ¬ ∃ s, _)
    push Not
    rfl
  have hsub' : chart (coveredBy (holes.map (·.points))) ⊆ chart (region outer.points) := fun q hq => hsub hq
  rw [planeArea_chart, hch, measure_sdiff hsub' h2 (by rw [← planeArea_chart, h1]; exact ENNReal.ofReal_ne_top), ← planeArea_chart, ← planeArea_chart,
    h1, ho.region_area, ENNReal.ofReal_sub _ h3]

/-! ## Moving -/

theorem planeArea_moved (tx ty : ℝ) (S T : Set (Point ℝ)) (h : ∀ v, transPt tx ty v ∈ T ↔ v ∈ S) : planeArea T = planeArea S := by
  unfold planeArea
  rw [Measure.volume_eq_prod, ← measure_preimage_add_right ((volume : Measure ℝ).prod (volume : Measure ℝ)) ((tx, ty) : ℝ × ℝ)]
  congr 1
  ext q
  exact h ⟨q.1, q.2⟩

/-! ## Layouts -/

variable {n : ℕ}

theorem items_area {b : Bin ℝ n} (hb : b.Measured) (hfit : HolesFit b.outer.val.points (b.holes.map (·.val.points))) {items : List (PlacedItem ℝ)}
    (hi : ∀ pi ∈ items, pi.shape.val.Measured) (hf : Feasible b items) :
    planeArea b.freePart = ENNReal.ofReal b.area ∧ 0 ≤ b.area ∧
    planeArea (coveredByItems items) = ENNReal.ofReal (items.map (·.shape.val.area)).sum ∧ 0 ≤ (items.map (·.shape.val.area)).sum ∧
    (items.map (·.shape.val.area)).sum ≤ b.area ∧ (items ≠ [] → 0 < (items.map (·.shape.val.area)).sum) := by
  have hm : ∀ {α : Type} (l : List α) (g : α → SPoly ℝ), (l.map g).map (·.points) = l.map fun a => (g a).points := fun l g => by rw [List.map_map]; rfl
  have hm' : ∀ {α : Type} (l : List α) (g : α → SPoly ℝ), (l.map g).map (·.area) = l.map fun a => (g a).area := fun l g => by rw [List.map_map]; rfl
  obtain ⟨h1, h2⟩ := remainder_area (holes := b.holes.map (·.val)) hb.outer (fun s hs => by
    obtain ⟨a, ha, rfl⟩ := List.mem_map.1 hs
    exact hb.holes a ha) (by rw [hm]; exact hfit)
  rw [hm, hm', ← hb.area] at h1
  rw [hm', ← hb.area] at h2
  obtain ⟨h3, -, h5⟩ := coveredBy_area (ss := items.map (·.shape.val)) (fun s hs => by
    obtain ⟨a, ha, rfl⟩ := List.mem_map.1 hs
    exact hi a ha) (by
      rw [hm, List.pairwise_map]
      exact hf.apart.imp fun h => h.mono (fun _ k => .inr k) (fun _ k => .inr k))
  rw [hm, hm'] at h3
  rw [hm'] at h5
  refine ⟨h1, h2, h3, h5, ?_, ?_⟩
  · have hsub : coveredByItems items ⊆ b.freePart := by
      rintro v ⟨s, hs, hv⟩
      obtain ⟨pi, hpi, rfl⟩ := List.mem_map.1 hs
      refine ⟨.inr (hf.inside pi hpi hv), ?_⟩
      intro h hh hvh
      obtain ⟨a, ha, rfl⟩ := List.mem_map.1 hh
      exact Set.disjoint_left.1 (hf.holes pi hpi a ha) hv hvh
    have h3' : planeArea (coveredByItems items) = _ := h3
    have h1' : planeArea b.freePart = _ := h1
    have := planeArea_mono hsub
    rwa [h3', h1', ENNReal.ofReal_le_ofReal_iff h2] at this
  · intro hne
    obtain ⟨pi, hpi⟩ := List.exists_mem_of_ne_nil _ hne
    have h6 : pi.shape.val.area ≤ (items.map (·.shape.val.area)).sum := by
      apply List.single_le_sum _ _ (List.mem_map_of_mem (f := fun pi : PlacedItem ℝ => pi.shape.val.area) hpi)
      intro x hx
      obtain ⟨a, ha, rfl⟩ := List.mem_map.1 hx
      exact (hi a ha).pos.le
    exact (hi pi hpi).pos.trans_le h6

end Jagua
