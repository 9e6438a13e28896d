import Verif.Spec.ToleranceRun
import Verif.Lemmas.TolerancePoly
import Verif.Lemmas.LBFRun

/-!
# A tolerance that is small compared to an instance does not matter to the optimizer
-/

set_option linter.unusedSectionVars false

namespace Jagua

variable {K : Type*} [Field K] [LinearOrder K] [IsStrictOrderedRing K] {n : ℕ}

/-! ## A covered polygon is narrower -/

/-- in every direction there is a vertex beyond an inner point -/
theorem interior_beyond {pts : List (Point K)} {p d : Point K} (hp : p ∈ interior pts) (hd : d.x ≠ 0 ∨ d.y ≠ 0) :
    ∃ v ∈ pts, 0 < d.x * (v.x - p.x) + d.y * (v.y - p.y) := by
  classical
  have ho : Odd (dirCount d pts p) := by
    rw [dirCount_const hd (e := ⟨1, 0⟩) (by simp) hp.1, dirCount_right]
    exact hp.2
  have hpos : 0 < dirCount d pts p := ho.pos
  unfold dirCount at hpos
  obtain ⟨s, hs, hc⟩ := List.countP_pos_iff.1 hpos
  simp only [decide_eq_true_eq] at hc
  obtain ⟨-, c, ⟨t, t0, t1, hx, hy⟩, -, h0⟩ := hc
  obtain ⟨m1, m2⟩ := sides_mem hs
  by_contra hn
  push Not at hn
  have k1 := hn _ m1
  have k2 := hn _ m2
  rw [hx, hy] at h0
  have e : d.x * (s.1.x + t * (s.2.x - s.1.x) - p.x) + d.y * (s.1.y + t * (s.2.y - s.1.y) - p.y) =
      (1 - t) * (d.x * (s.1.x - p.x) + d.y * (s.1.y - p.y)) + t * (d.x * (s.2.x - p.x) + d.y * (s.2.y - p.y)) := by ring
  rw [e] at h0
  have := mul_nonpos_of_nonneg_of_nonpos (sub_nonneg.2 t1) k1
  have := mul_nonpos_of_nonneg_of_nonpos t0 k2
  linarith

/-- some vertex is farther away than an inner point -/
theorem interior_farther {pts : List (Point K)} {p : Point K} (hp : p ∈ interior pts) (q : Point K) : ∃ v ∈ pts, gap p q < gap v q := by
  by_cases hd : p.x - q.x ≠ 0 ∨ p.y - q.y ≠ 0
  · obtain ⟨v, hv, h⟩ := interior_beyond (d := ⟨p.x - q.x, p.y - q.y⟩) hp hd
    refine ⟨v, hv, ?_⟩
    simp only at h
    unfold gap
    nlinarith [sq_nonneg (v.x - p.x), sq_nonneg (v.y - p.y)]
  · push Not at hd
    obtain ⟨v, hv, h⟩ := interior_beyond (d := ⟨1, 0⟩) hp (by simp)
    refine ⟨v, hv, ?_⟩
    simp only [one_mul, zero_mul, add_zero, sub_pos] at h
    unfold gap
    rw [hd.1, hd.2]
    have : 0 < v.x - q.x := by linarith [hd.1]
    nlinarith [sq_nonneg (v.y - q.y)]

theorem gap_comm (p q : Point K) : gap p q = gap q p := by unfold gap; ring

theorem exists_farthest {α : Type*} (l : List α) (hl : l ≠ []) (f : α → K) : ∃ a ∈ l, ∀ b ∈ l, f b ≤ f a := by
  induction l with
  | nil => exact absurd rfl hl
  | cons a l ih =>
    by_cases h : l = []
    · subst h
      exact ⟨a, by simp, by simp⟩
    · obtain ⟨b, hb, hmax⟩ := ih h
      rcases le_total (f a) (f b) with hab | hab
      · refine ⟨b, List.mem_cons_of_mem _ hb, ?_⟩
        intro c hc
        rcases List.mem_cons.1 hc with rfl | hc
        · exact hab
        · exact hmax c hc
      · refine ⟨a, List.mem_cons_self, ?_⟩
        intro c hc
        rcases List.mem_cons.1 hc with rfl | hc
        · exact le_rfl
        · exact (hmax c hc).trans hab

/-- a polygon inside another one is narrower -/
theorem narrower_of_inside {a b : List (Point K)} (ha : a ≠ []) (h : ∀ p ∈ a, p ∈ interior b) : Narrower a b := by
  obtain ⟨x, hx, hmax⟩ := exists_farthest (a.product a) (by
    obtain ⟨p, l, rfl⟩ := List.exists_cons_of_ne_nil ha
    exact List.ne_nil_of_mem (List.pair_mem_product.2 ⟨List.mem_cons_self, List.mem_cons_self⟩)) (fun x => gap x.1 x.2)
  obtain ⟨h1, h2⟩ := List.pair_mem_product.1 hx
  obtain ⟨v, hv, hlt⟩ := interior_farther (h _ h1) x.2
  obtain ⟨w, hw, hlt'⟩ := interior_farther (h _ h2) v
  refine ⟨v, hv, w, hw, fun p hp q hq => ?_⟩
  have := hmax (p, q) (List.pair_mem_product.2 ⟨hp, hq⟩)
  rw [gap_comm x.2 v, gap_comm w v] at hlt'
  exact this.trans_lt (hlt.trans hlt')

theorem Rigid.gap {g : Point K → Point K} {c s : K} (h : Rigid g c s) (p q : Point K) : Jagua.gap (g p) (g q) = Jagua.gap p q := by
  unfold Jagua.gap
  rw [h.dx q p, h.dy q p]
  linear_combination ((p.x - q.x) ^ 2 + (p.y - q.y) ^ 2) * h.unit

theorem Narrower.of_map_right {a b : List (Point K)} {g : Point K → Point K} {c s : K} (hg : Rigid g c s) (h : Narrower a (b.map g)) :
    Narrower a b := by
  obtain ⟨v, hv, w, hw, hm⟩ := h
  obtain ⟨v', hv', rfl⟩ := List.mem_map.1 hv
  obtain ⟨w', hw', rfl⟩ := List.mem_map.1 hw
  rw [hg.gap] at hm
  exact ⟨v', hv', w', hw', hm⟩

theorem Narrower.of_map_left {a b : List (Point K)} {g : Point K → Point K} {c s : K} (hg : Rigid g c s) (h : Narrower (a.map g) b) :
    Narrower a b := by
  obtain ⟨v, hv, w, hw, hm⟩ := h
  refine ⟨v, hv, w, hw, fun p hp q hq => ?_⟩
  have := hm _ (List.mem_map_of_mem hp) _ (List.mem_map_of_mem hq)
  rwa [hg.gap] at this

/-- no polygon is narrower than itself -/
theorem not_narrower_self (a : List (Point K)) : ¬ Narrower a a := by
  rintro ⟨v, hv, w, hw, h⟩
  exact lt_irrefl _ (h v hv w hw)

/-! ## Boxes and poles -/

theorem notJustInside_of {a b : AARect K} {ε : K} (h : ¬ AlmostAsLarge a b ε) : NotJustInside a b ε := by
  intro h1 h2 h3 h4
  by_contra hn
  push Not at hn
  obtain ⟨n1, n2, n3, n4⟩ := hn
  refine h ⟨?_, ?_, ?_, ?_⟩ <;> simp only [AARect.width, AARect.height] <;> linarith

theorem SPoly.RoomyDisc.roomy {s : SPoly K} {ε : K} (h : s.RoomyDisc ε) {t : Transf K} (ht : t.IsRigid) : (s.transform t).Roomy ε := by
  rintro w ⟨h1, h2⟩
  obtain ⟨v, rfl⟩ := ht.map.surjective w
  change |(v.transform t).x - (s.poi.center.transform t).x| ≤ ε at h1
  change |(v.transform t).y - (s.poi.center.transform t).y| ≤ ε at h2
  have ev : v ∈ region s.points := by
    apply h
    have := ht.map.gap v s.poi.center
    unfold Jagua.gap at this
    rw [← this]
    have e1 := sq_le_sq' (by linarith [abs_nonneg ((v.transform t).x - (s.poi.center.transform t).x), h1]) h1
    have e2 := sq_le_sq' (by linarith [abs_nonneg ((v.transform t).y - (s.poi.center.transform t).y), h2]) h2
    rw [sq_abs] at e1 e2
    exact (add_le_add e1 e2).trans (by linarith)
  exact ht.map.region.2 ev

theorem interior_bounded {pts : List (Point K)} {M : K} (h : Bounded pts M) (hne : pts ≠ []) {p : Point K} (hp : p ∈ interior pts) :
    |p.x| ≤ M ∧ |p.y| ≤ M := by
  have := interior_subset_inner hp
  exact h.bbox hne ⟨this.1.le, this.2.1.le, this.2.2.1.le, this.2.2.2.le⟩

/-- with a tolerance that is small compared to the bin and the items the engine is honest -/
theorem Bin.Tolerates.honest {env : Env K} {M ε : K} (hf : env.f.Tolerant M ε) (h0 : 0 ≤ ε) (hu : env.tr.Unit) {cat : ℕ → Item K}
    {items : List (Item K × ℕ)} (hitems : ∀ x ∈ items, x.1.Fine) (hroomy : ∀ x ∈ items, x.1.shape.RoomyDisc ε)
    (hboxes : ∀ x ∈ items, ∀ y ∈ items, ∀ dt : DTransf K, y.1.Allows env.tr dt.rotation →
      x.1.Overtops env.tr (y.1.shape.transform (Transf.fromDt env.tr dt)) ε)
    {b : Bin K n} (hb : b.Shapes) (ht : b.Tolerates env.tr items M ε) : b.Honest env cat items := by
  rintro l h rfl hn hcat x hx dt hrot hfree
  have hpp := h.placed_proper hu hitems hcat
  obtain ⟨hg, hP⟩ := h.good hb hpp
  have rigid : ∀ dt : DTransf K, (Transf.fromDt env.tr dt).IsRigid := fun dt => Transf.IsRigid.rotTransl hu ..
  have hs := (hitems x hx).placed hu dt
  set s := x.1.shape.transform (Transf.fromDt env.tr dt) with es
  have hsub : s.bbox.pts ⊆ l.cde.bbox.pts := by
    by_contra hsub
    rw [CDE.polyCollides_outside hs.wf.bbox_valid hsub] at hfree
    cases hfree
  have hne := hs.wf.nonempty
  have hbs : Bounded s.points M := by
    intro p hp
    apply ht.box
    rw [← h.bbox]
    apply hsub
    rw [hs.wf.bbox_eq]
    exact bdry_subset_bbox (vertex_mem_bdry hp)
  have hover : ∀ {a : SPoly K}, a.Proper → x.1.Overtops env.tr a ε → (∀ v ∈ bdry a.points, v ∈ interior s.points) →
      NotJustInside a.bbox s.bbox ε := by
    intro a ha ho hin
    refine notJustInside_of (ho ?_ dt hrot)
    exact (narrower_of_inside ha.wf.nonempty fun p hp => hin p (vertex_mem_bdry hp)).of_map_right (rigid dt).map
  have hall : ∀ y ∈ l.cde.allHazards, Bounded y.shape.val.points M ∧ y.shape.val.Roomy ε ∧
      (y.entity.position = .interior → x.1.Overtops env.tr y.shape.val ε) := by
    intro y hy
    rcases List.mem_append.1 hy with hy | hy
    · rw [h.statics, h.bin.hazards.1] at hy
      rcases mem_binHazards.1 hy with rfl | ⟨i, a, ha, rfl⟩ | ⟨z, hz, i, a, ha, rfl⟩
      · exact ⟨ht.outer.1, ht.outer.2, fun hp => by cases hp⟩
      · obtain ⟨k1, k2, k3⟩ := ht.holes a (List.mem_of_getElem? ha)
        exact ⟨k1, k2, fun _ => k3 x hx⟩
      · obtain ⟨k1, k2, k3⟩ := ht.zones z hz a (List.mem_of_getElem? ha)
        exact ⟨k1, k2, fun _ => k3 x hx⟩
    · obtain ⟨pi, hpi, he⟩ := List.mem_map.1 (h.hazards.mem_iff.1 (List.mem_map_of_mem (f := Hazard.erase) hy))
      have e1 : y.shape.val = pi.shape.val := (congrArg (fun h : Hazard K => h.shape.val) he).symm
      obtain ⟨z, hz, ez⟩ := hcat pi hpi
      have e2 : pi.shape.val = z.1.shape.transform (Transf.fromDt env.tr pi.dt) := by rw [(h.ok pi hpi).2, ez]
      rw [e1]
      refine ⟨?_, ?_, fun _ => ?_⟩
      · intro p hp
        exact interior_bounded ht.outer.1 hb.outer.wf.nonempty (hn.feasible.inside pi hpi (.inl (vertex_mem_bdry hp)))
      · rw [e2]
        exact (hroomy z hz).roomy (rigid _)
      · rw [e2]
        have := hn.rotations pi hpi
        rw [ez] at this
        exact hboxes x hx z hz pi.dt this
  have hT : l.cde.Tolerates s (lbfIrrelevant x.1 l) M ε := by
    refine ⟨⟨h0, ?_, ?_, fun y hy => (hall y hy).1⟩, hbs, (hroomy x hx).roomy (rigid dt), fun y hy _ => (hall y hy).2.1, ?_⟩
    · rw [h.bbox]; exact ht.width
    · rw [h.bbox]; exact ht.height
    · intro y hy _ hpos hin
      exact hover (hP y hy) ((hall y hy).2.2 hpos) hin
  obtain ⟨r, e, hr⟩ := h.reach.inv.polyCollides_tolerant hf hg hs (fun y hy _ => hP y hy) hT
  rw [hfree] at e
  cases e
  intro y hy hirr
  rw [Set.disjoint_left]
  intro w hw hw'
  have := hr.2 (.inr ⟨y, hy, hirr, w, hw, hw'⟩)
  cases this

theorem BPInstance.Tolerates.honest {env : Env K} {M ε : K} (hf : env.f.Tolerant M ε) (hu : env.tr.Unit) {inst : BPInstance K n}
    (ht : inst.Tolerates env.tr M ε) (hbins : ∀ b ∈ inst.bins, b.1.Shapes) (hitems : ∀ x ∈ inst.items, x.1.Fine) :
    ∀ b ∈ inst.bins, b.1.Honest env inst.cat inst.items :=
  fun b hb => (ht.bins b hb).honest hf ht.nonneg hu hitems ht.roomy ht.boxes (hbins b hb)

end Jagua
