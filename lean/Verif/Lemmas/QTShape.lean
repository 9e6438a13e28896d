import Verif.Spec.QTShape
import Verif.Spec.Distance
import Verif.Lemmas.SvgTree
import Verif.Lemmas.CDEReach

/-!
# The shape of the quadtree
-/

set_option linter.unusedSectionVars false

namespace Jagua

variable {K : Type*} [Field K] [LinearOrder K] [IsStrictOrderedRing K] {n : ℕ}

theorem AARect.sub_valid {r : AARect K} (hv : r.Valid) (p : List (Fin 4)) : (r.sub p).Valid := by
  induction p generalizing r with
  | nil => exact hv
  | cons i p ih => exact ih (quadrants_valid hv i)

theorem AARect.sub_subset {r : AARect K} (hv : r.Valid) (p : List (Fin 4)) : (r.sub p).pts ⊆ r.pts := by
  induction p generalizing r with
  | nil => exact subset_rfl
  | cons i p ih => exact (ih (quadrants_valid hv i)).trans (quadrants_subset hv i)

theorem AARect.sub_dim {r : AARect K} (hv : r.Valid) (p : List (Fin 4)) :
    (r.sub p).width = r.width / 2 ^ p.length ∧ (r.sub p).height = r.height / 2 ^ p.length := by
  induction p generalizing r with
  | nil => simp [AARect.sub]
  | cons i p ih =>
    obtain ⟨h1, h2⟩ := ih (quadrants_valid hv i)
    obtain ⟨d1, d2⟩ := quadrants_dim hv i
    show ((r.quadrants i).sub p).width = _ ∧ ((r.quadrants i).sub p).height = _
    rw [h1, h2, d1, d2, List.length_cons, pow_succ', div_div, div_div]
    exact ⟨rfl, rfl⟩

theorem inner_subset_pts {r : AARect K} : r.inner ⊆ r.pts := fun _ h => ⟨h.1.le, h.2.1.le, h.2.2.1.le, h.2.2.2.le⟩

/-- a point inside a quadrant is in no other quadrant -/
theorem quadrants_inner_unique {r : AARect K} (hv : r.Valid) {i j : Fin 4} {w : Point K} (hi : w ∈ (r.quadrants i).inner)
    (hj : w ∈ (r.quadrants j).pts) : i = j := by
  obtain ⟨h0, h1, h2, h3⟩ := quadrants_eq hv
  obtain ⟨a1, a2, a3, a4⟩ := hi
  obtain ⟨b1, b2, b3, b4⟩ := hj
  fin_cases i <;> fin_cases j <;> simp only [Fin.zero_eta, Fin.mk_one, Fin.reduceFinMk, h0, h1, h2, h3] at a1 a2 a3 a4 b1 b2 b3 b4 ⊢ <;>
    first | rfl | (exfalso; linarith)

theorem quadrants_inner_subset {r : AARect K} (hv : r.Valid) (i : Fin 4) : (r.quadrants i).inner ⊆ r.inner := by
  obtain ⟨h0, h1, h2, h3⟩ := quadrants_eq hv
  obtain ⟨hx, hy⟩ := hv
  rintro w ⟨a1, a2, a3, a4⟩
  show _ ∧ _ ∧ _ ∧ _
  fin_cases i <;> simp only [Fin.zero_eta, Fin.mk_one, Fin.reduceFinMk, h0, h1, h2, h3] at a1 a2 a3 a4 <;>
    refine ⟨?_, ?_, ?_, ?_⟩ <;> linarith

theorem AARect.sub_inner_subset {r : AARect K} (hv : r.Valid) (p : List (Fin 4)) : (r.sub p).inner ⊆ r.inner := by
  induction p generalizing r with
  | nil => exact subset_rfl
  | cons i p ih => exact (ih (quadrants_valid hv i)).trans (quadrants_inner_subset hv i)

/-- the hazards `hs` of a node with box `r`, active or not, in terms of the hazards `H` -/
structure Held (H : List (Hazard K)) (r : AARect K) (hs : List (QTHazard K)) : Prop where
  known : ∀ x ∈ hs, ∃ h ∈ H, h.entity = x.entity ∧ GeoOK h.entity.position h.shape.val r x.presence ∧ x.presence ≠ .none
  part : ∀ h ∈ H, (∃ w ∈ r.inner, w ∈ bdry h.shape.val.points) →
    ∃ x ∈ hs, x.entity = h.entity ∧ GeoOK h.entity.position h.shape.val r x.presence ∧ x.presence.isPartial = true
  fits : ∀ h ∈ H, h.shape.val.WF ∧ Fits h.entity.position h.shape.val r

/-- some outline meets the box -/
def Touched (H : List (Hazard K)) (r : AARect K) : Prop := ∃ h ∈ H, ∃ w ∈ r.pts, w ∈ bdry h.shape.val.points

theorem Held.child {H : List (Hazard K)} {r : AARect K} {hs : List (QTHazard K)} (hv : r.Valid) (h : Held H r hs) (i : Fin 4) :
    Held H (r.quadrants i) (childHaz Fpa.exact r i hs) ∧
    ((∃ x ∈ childHaz Fpa.exact r i hs, x.presence.isPartial = true) → Touched H (r.quadrants i)) := by
  have hsub := quadrants_subset hv i
  refine ⟨⟨fun c hc => ?_, fun y hy hw => ?_, fun y hy => ⟨(h.fits y hy).1, (h.fits y hy).2.quadrant hv i⟩⟩, ?_⟩
  · obtain ⟨x, hx, hxc⟩ := List.mem_filterMap.1 hc
    obtain ⟨y, hy, e, hg, hne⟩ := h.known x hx
    cases hp : x.presence with
    | none => exact absurd hp hne
    | entire =>
      rw [constrictTo_entire hp] at hxc
      cases hxc
      refine ⟨y, hy, e, ?_, hne⟩
      rw [hp] at hg ⊢
      exact fun p hp' => hg p (hsub hp')
    | partly p =>
      rw [e] at hg
      obtain ⟨e1, e2, e3, -⟩ := (constrictTo_geo (h.fits y hy).1 hv hp hg (e ▸ (h.fits y hy).2)).1 i c hxc
      refine ⟨y, hy, e.trans e1.symm, ?_, ?_⟩
      · rw [e, ← e1]; exact e3
      · exact constrictTo_ne_none hxc
  · obtain ⟨w, hw, hwb⟩ := hw
    obtain ⟨x, hx, e, hg, hpart⟩ := h.part y hy ⟨w, quadrants_inner_subset hv i hw, hwb⟩
    cases hp : x.presence with
    | none => rw [hp] at hpart; cases hpart
    | entire => rw [hp] at hpart; cases hpart
    | partly p =>
      rw [← e] at hg
      obtain ⟨g1, -, g3⟩ := constrictTo_geo (h.fits y hy).1 hv hp hg (e ▸ (h.fits y hy).2)
      obtain ⟨j, c, hj, hc, hcp⟩ := g3 w hwb (hsub (inner_subset_pts hw))
      obtain rfl := quadrants_inner_unique hv hw hj
      obtain ⟨e1, e2, e3, -⟩ := g1 i c hc
      exact ⟨c, List.mem_filterMap.2 ⟨x, hx, hc⟩, e1.trans e, by rw [← e, ← e1]; exact e3, hcp⟩
  · rintro ⟨c, hc, hpart⟩
    obtain ⟨x, hx, hxc⟩ := List.mem_filterMap.1 hc
    obtain ⟨y, hy, e, hg, hne⟩ := h.known x hx
    cases hp : x.presence with
    | none => exact absurd hp hne
    | entire =>
      rw [constrictTo_entire hp] at hxc
      cases hxc
      rw [hp] at hpart
      cases hpart
    | partly p =>
      rw [e] at hg
      cases hp' : c.presence with
      | none => rw [hp'] at hpart; cases hpart
      | entire => rw [hp'] at hpart; cases hpart
      | partly p' =>
        obtain ⟨w, h1, h2⟩ := constrictTo_touch (h.fits y hy).1 hv hp hg (e ▸ (h.fits y hy).2) hxc hp'
        exact ⟨y, hy, w, h2, h1⟩

namespace QTNode

theorem rectAt_sub {f : Fpa K} {n : ℕ} (nd : QTNode K n) {r : AARect K} {hs : List (QTHazard K)} (hc : nd.Canon f r hs) {p : List (Fin 4)}
    {r' : AARect K} (h : nd.rectAt p = some r') : r' = r.sub p ∧ p.length ≤ n := by
  induction nd generalizing r hs p with
  | @leaf m b v =>
    cases p with
    | nil => exact ⟨(Option.some.inj h).symm.trans hc.1, Nat.zero_le _⟩
    | cons i p => cases h
  | @node m b v cs ih =>
    cases p with
    | nil => exact ⟨(Option.some.inj h).symm.trans hc.1, Nat.zero_le _⟩
    | cons i p =>
      obtain ⟨h1, h2⟩ := ih i (hc.2.2.2 i) h
      exact ⟨h1, Nat.succ_le_succ h2⟩

/-- a way that goes on from a node ends in a divided node -/
theorem touched_of_child {n : ℕ} (nd : QTNode K n) {H : List (Hazard K)} {r : AARect K} {hs : List (QTHazard K)} (hv : r.Valid)
    (hc : nd.Canon Fpa.exact r hs) (h : Held H r hs) (ht : (∃ x ∈ hs, x.presence.isPartial = true) → Touched H r) {p : List (Fin 4)} {i : Fin 4}
    (hp : nd.HasNode (p ++ [i])) : Touched H (r.sub p) := by
  induction nd generalizing r hs p with
  | @leaf m b v =>
    unfold HasNode at hp
    cases p <;> cases hp
  | @node m b v cs ih =>
    cases p with
    | nil => exact ht hc.2.2.1
    | cons j p =>
      obtain ⟨g1, g2⟩ := h.child hv j
      exact ih j (quadrants_valid hv j) (hc.2.2.2 j) g1 g2 hp

theorem child_of_inner {n : ℕ} (nd : QTNode K n) {H : List (Hazard K)} {r : AARect K} {hs : List (QTHazard K)} (hv : r.Valid)
    (hc : nd.Canon Fpa.exact r hs) (h : Held H r hs) {p : List (Fin 4)} (hlen : p.length < n)
    (hw : ∃ y ∈ H, ∃ w ∈ (r.sub p).inner, w ∈ bdry y.shape.val.points) (i : Fin 4) : nd.HasNode (p ++ [i]) := by
  induction nd generalizing r hs p with
  | @leaf m b v =>
    obtain ⟨y, hy, w, hw, hwb⟩ := hw
    obtain ⟨x, hx, -, -, hpart⟩ := h.part y hy ⟨w, AARect.sub_inner_subset hv p hw, hwb⟩
    rcases hc.2.2 with rfl | h3
    · exact absurd hlen (Nat.not_lt_zero _)
    · rw [h3 x hx] at hpart; cases hpart
  | @node m b v cs ih =>
    cases p with
    | nil =>
      show (rectAt (cs i) []).isSome = true
      cases cs i <;> rfl
    | cons j p =>
      exact ih j (quadrants_valid hv j) (hc.2.2.2 j) (h.child hv j).1 (Nat.lt_of_succ_lt_succ hlen) hw

theorem hasNode_child_iff {f : Fpa K} {n : ℕ} (nd : QTNode K n) {r : AARect K} {hs : List (QTHazard K)} (hc : nd.Canon f r hs) (i : Fin 4) :
    nd.HasNode [i] ↔ 0 < n ∧ ∃ x ∈ hs, x.presence.isPartial = true := by
  cases nd with
  | @leaf m b v =>
    refine ⟨fun h => (by unfold HasNode at h; cases h), ?_⟩
    rintro ⟨h1, x, hx, hp⟩
    rcases hc.2.2 with rfl | h3
    · exact absurd h1 (lt_irrefl _)
    · rw [h3 x hx] at hp; cases hp
  | @node m b v cs =>
    refine ⟨fun _ => ⟨Nat.succ_pos _, hc.2.2.1⟩, fun _ => ?_⟩
    show (rectAt (cs i) []).isSome = true
    cases cs i <;> rfl

/-- the ways to all nodes -/
def paths : {n : ℕ} → QTNode K n → List (List (Fin 4))
  | _, leaf _ _ => [[]]
  | _, node _ _ cs => [] :: ((cs 0).paths.map (0 :: ·) ++ ((cs 1).paths.map (1 :: ·) ++ ((cs 2).paths.map (2 :: ·) ++ (cs 3).paths.map (3 :: ·))))

theorem mem_paths {n : ℕ} (nd : QTNode K n) (p : List (Fin 4)) : p ∈ nd.paths ↔ nd.HasNode p := by
  induction nd generalizing p with
  | @leaf m b v =>
    cases p <;> simp [paths, HasNode, rectAt]
  | @node m b v cs ih =>
    cases p with
    | nil => simp [paths, HasNode, rectAt]
    | cons i p =>
      have : (node b v cs).HasNode (i :: p) ↔ (cs i).HasNode p := Iff.rfl
      rw [this, ← ih i p]
      simp only [paths, List.mem_cons, List.cons_ne_nil, false_or, List.mem_append, List.mem_map, List.cons.injEq]
      constructor
      · rintro (⟨q, h, rfl, rfl⟩ | ⟨q, h, rfl, rfl⟩ | ⟨q, h, rfl, rfl⟩ | ⟨q, h, rfl, rfl⟩) <;> exact h
      · intro h
        fin_cases i
        · exact .inl ⟨p, h, rfl, rfl⟩
        · exact .inr (.inl ⟨p, h, rfl, rfl⟩)
        · exact .inr (.inr (.inl ⟨p, h, rfl, rfl⟩))
        · exact .inr (.inr (.inr ⟨p, h, rfl, rfl⟩))

theorem paths_nodup {n : ℕ} (nd : QTNode K n) : nd.paths.Nodup := by
  induction nd with
  | @leaf m b v => simp [paths]
  | @node m b v cs ih =>
    have hinj : ∀ i : Fin 4, ((cs i).paths.map (i :: ·)).Nodup := fun i => (ih i).map (List.cons_injective)
    have hdis : ∀ {i j : Fin 4}, i ≠ j → ∀ {a b : List (List (Fin 4))}, List.Disjoint (a.map (i :: ·)) (b.map (j :: ·)) := by
      intro i j hij a b x hx hy
      obtain ⟨q, -, rfl⟩ := List.mem_map.1 hx
      obtain ⟨q', -, h⟩ := List.mem_map.1 hy
      exact hij (List.cons.inj h).1.symm
    unfold paths
    rw [List.nodup_cons]
    refine ⟨by simp, ?_⟩
    refine List.Nodup.append (hinj 0) (List.Nodup.append (hinj 1) (List.Nodup.append (hinj 2) (hinj 3) (hdis (by decide))) ?_) ?_
    · rw [List.disjoint_append_right]
      exact ⟨hdis (by decide), hdis (by decide)⟩
    · rw [List.disjoint_append_right, List.disjoint_append_right]
      exact ⟨hdis (by decide), hdis (by decide), hdis (by decide)⟩

theorem paths_length {n : ℕ} (nd : QTNode K n) : nd.paths.length = 1 + nd.numberOfChildren := by
  induction nd with
  | @leaf m b v => rfl
  | @node m b v cs ih =>
    simp only [paths, numberOfChildren, List.length_cons, List.length_append, List.length_map, ih, List.map_cons, List.map_nil, List.sum_cons, List.sum_nil]
    omega

theorem numberOfChildren_le {n : ℕ} (nd : QTNode K n) : 3 * (1 + nd.numberOfChildren) + 1 ≤ 4 ^ (n + 1) := by
  induction nd with
  | @leaf m b v =>
    have : 1 ≤ 4 ^ m := Nat.one_le_pow _ _ (by norm_num)
    show 3 * (1 + 0) + 1 ≤ 4 ^ (m + 1)
    rw [pow_succ]; omega
  | @node m b v cs ih =>
    have h0 := ih 0
    have h1 := ih 1
    have h2 := ih 2
    have h3 := ih 3
    simp only [numberOfChildren, List.map_cons, List.map_nil, List.sum_cons, List.sum_nil]
    rw [pow_succ 4 (m + 1)]
    omega

/-- every point of the box lies in a leaf -/
theorem exists_leaf {f : Fpa K} {n : ℕ} (nd : QTNode K n) {r : AARect K} {hs : List (QTHazard K)} (hv : r.Valid) (hc : nd.Canon f r hs) {v : Point K}
    (hp : v ∈ r.pts) : ∃ p, nd.HasLeaf p ∧ v ∈ (r.sub p).pts := by
  induction nd generalizing r hs with
  | @leaf m b w => exact ⟨[], ⟨rfl, fun i h => by unfold HasNode at h; cases h⟩, hp⟩
  | @node m b w cs ih =>
    obtain ⟨i, hi⟩ := quadrants_cover hv hp
    obtain ⟨p, hl, hm⟩ := ih i (quadrants_valid hv i) (hc.2.2.2 i) hi
    exact ⟨i :: p, ⟨hl.1, fun j => hl.2 j⟩, hm⟩

/-- a point inside a leaf lies in no other leaf -/
theorem leaf_unique {n : ℕ} (nd : QTNode K n) {r : AARect K} (hv : r.Valid) {p q : List (Fin 4)} (hp : nd.HasLeaf p) (hq : nd.HasLeaf q)
    {v : Point K} (h1 : v ∈ (r.sub p).inner) (h2 : v ∈ (r.sub q).pts) : p = q := by
  have hchild : ∀ {m : ℕ} (t : QTNode K m) (i : Fin 4), t.HasNode [] := by intro m t i; unfold HasNode; cases t <;> rfl
  induction nd generalizing r p q with
  | @leaf m b w =>
    cases p with
    | cons i p => have := hp.1; unfold HasNode at this; cases this
    | nil =>
      cases q with
      | nil => rfl
      | cons i q => have := hq.1; unfold HasNode at this; cases this
  | @node m b w cs ih =>
    cases p with
    | nil => exact absurd (hchild (cs 0) 0) (hp.2 0)
    | cons i p =>
      cases q with
      | nil => exact absurd (hchild (cs 0) 0) (hq.2 0)
      | cons j q =>
        have hi : v ∈ (r.quadrants i).inner := AARect.sub_inner_subset (quadrants_valid hv i) p h1
        have hj : v ∈ (r.quadrants j).pts := AARect.sub_subset (quadrants_valid hv j) q h2
        obtain rfl := quadrants_inner_unique hv hi hj
        rw [ih i (quadrants_valid hv i) ⟨hp.1, hp.2⟩ ⟨hq.1, hq.2⟩ h1 h2]

end QTNode

/-- the root holds all hazards -/
theorem CDE.held (c : CDE K n) (hw : ∀ h ∈ c.known, h.shape.val.WF ∧ Fits h.entity.position h.shape.val c.bbox) : Held c.known c.bbox c.treeHaz := by
  refine ⟨?_, ?_, hw⟩
  · intro x hx
    unfold CDE.treeHaz at hx
    unfold CDE.known CDE.allHazards
    rcases List.mem_append.1 hx with hx | hx
    · rw [← List.map_append] at hx
      obtain ⟨y, hy, rfl⟩ := List.mem_map.1 hx
      exact ⟨y, List.mem_append_left _ hy, rfl, rfl, by simp [QTHazard.ofHazard]⟩
    · obtain ⟨y, hy, rfl⟩ := List.mem_map.1 hx
      exact ⟨y, List.mem_append_right _ hy, rfl, rfl, by simp [QTHazard.ofInactive, QTHazard.ofHazard]⟩
  · intro y hy _
    unfold CDE.known CDE.allHazards at hy
    unfold CDE.treeHaz
    rcases List.mem_append.1 hy with hy | hy
    · exact ⟨QTHazard.ofHazard y, List.mem_append_left _ (by rw [← List.map_append]; exact List.mem_map_of_mem hy), rfl, rfl, rfl⟩
    · exact ⟨QTHazard.ofInactive y, List.mem_append_right _ (List.mem_map_of_mem hy), rfl, rfl, rfl⟩

theorem CDE.treeHaz_partial (c : CDE K n) : (∃ x ∈ c.treeHaz, x.presence.isPartial = true) ↔ c.known ≠ [] := by
  unfold CDE.treeHaz CDE.known CDE.allHazards
  rw [← List.map_append]
  constructor
  · rintro ⟨x, hx, -⟩ he
    rw [List.append_eq_nil_iff] at he
    rw [he.1, he.2] at hx
    simp at hx
  · intro h
    obtain ⟨y, hy⟩ := List.exists_mem_of_ne_nil _ h
    rcases List.mem_append.1 hy with hy | hy
    · exact ⟨QTHazard.ofHazard y, List.mem_append_left _ (List.mem_map_of_mem hy), rfl⟩
    · exact ⟨QTHazard.ofInactive y, List.mem_append_right _ (List.mem_map_of_mem hy), rfl⟩

end Jagua
