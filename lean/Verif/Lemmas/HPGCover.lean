import Verif.Lemmas.HPGExact
import Verif.Lemmas.HPGTidy

/-! # Free points lie in cells of the grid -/

set_option linter.unusedSectionVars false

namespace Jagua

variable {K : Type*} [Field K] [LinearOrder K] [IsStrictOrderedRing K] {n : ℕ}

theorem forall₂_right_mem {α β : Type*} {R : α → β → Prop} {l : List α} {m : List β} (h : List.Forall₂ R l m) {a : α} (ha : a ∈ l) :
    ∃ b ∈ m, R a b := by
  induction h with
  | nil => simp at ha
  | cons h1 _ ih =>
    rcases List.mem_cons.1 ha with rfl | ha
    · exact ⟨_, List.mem_cons_self, h1⟩
    · obtain ⟨b, hb, hr⟩ := ih ha
      exact ⟨b, List.mem_cons_of_mem _ hb, hr⟩

/-- The size of the cells stays positive: it is always a positive multiple of the step. -/
theorem GridGen.loop_pos {env : HEnv K} {bbox : AARect K} {hazards : List (Hazard K)} {target left : ℕ} {step : K} {prev : Option Ordering}
    (hs : 0 < env.sqrt (bbox.area / target)) (hst : 0 < step) (m : ℕ)
    {rects : List (AARect K)} (h : GridGen.loop env bbox hazards target left (m * step) step prev = some rects) :
    ∃ dim, 0 < dim ∧ GridGen.attempt env bbox hazards dim = some rects := by
  have hpos : ∀ {cells : List (AARect K)} {m : ℕ} {step : K}, 0 < step →
      GridGen.attempt env bbox hazards (env.sqrt (bbox.area / target) * (m * step)) = some cells → 0 < m ∧ 0 < env.sqrt (bbox.area / target) * (m * step) := by
    intro cells m step hst h1
    have hm : m ≠ 0 := by
      rintro rfl
      unfold GridGen.attempt at h1
      simp at h1
    have hm' : 0 < m := Nat.pos_of_ne_zero hm
    have : (0 : K) < m := by exact_mod_cast hm'
    exact ⟨hm', by positivity⟩
  induction left generalizing m step prev with
  | zero =>
    unfold GridGen.loop at h
    obtain ⟨cells, h1, h⟩ := Option.bind_eq_some_iff.1 h
    cases h
    exact ⟨_, (hpos hst h1).2, h1⟩
  | succ left ih =>
    unfold GridGen.loop at h
    obtain ⟨cells, h1, h⟩ := Option.bind_eq_some_iff.1 h
    obtain ⟨hm, hp⟩ := hpos hst h1
    dsimp only at h
    obtain ⟨k, hk, step', hst', he, hstep⟩ : ∃ k : ℕ, 0 < k ∧ ∃ step' : K, 0 < step' ∧ (m : K) * step = k * step' ∧
        (if prev = some (compare cells.length target) then step else step / 2) = step' := by
      split_ifs
      · exact ⟨m, hm, step, hst, rfl, rfl⟩
      · exact ⟨2 * m, by omega, step / 2, by positivity, by push_cast; ring, rfl⟩
    rw [hstep, he] at h
    split at h
    · cases h
      exact ⟨_, hp, h1⟩
    · refine ih (prev := some (compare cells.length target)) hst' (k - 1) ?_
      have : ((k - 1 : ℕ) : K) * step' = k * step' - step' := by
        rw [Nat.cast_sub (by omega : 1 ≤ k)]; push_cast; ring
      rw [this]
      exact h
    · refine ih (prev := some (compare cells.length target)) hst' (k + 1) ?_
      have : ((k + 1 : ℕ) : K) * step' = k * step' + step' := by push_cast; ring
      rw [this]
      exact h

theorem GridGen.generate_pos {env : HEnv K} {bbox : AARect K} {hazards : List (Hazard K)} {target : ℕ}
    (hs : 0 < env.sqrt (bbox.area / target)) {rects : List (AARect K)} (h : GridGen.generate env bbox hazards target = some rects) :
    ∃ dim, 0 < dim ∧ GridGen.attempt env bbox hazards dim = some rects := by
  unfold GridGen.generate at h
  split_ifs at h
  have e : (1 : K) = ((10 : ℕ) : K) * (1 / 10) := by norm_num
  refine GridGen.loop_pos hs (by norm_num : (0 : K) < 1 / 10) 10 (prev := none) (left := GridGen.maxIterations) ?_
  rw [← e]
  exact h

/-- Cells that are close enough to free space are kept. -/
theorem GridGen.attempt_keeps {env : HEnv K} {bbox : AARect K} {hazards : List (Hazard K)} {dim : K} {rects : List (AARect K)}
    (h : GridGen.attempt env bbox hazards dim = some rects) {i j : ℕ} (hi : i < env.ceil (bbox.width / dim)) (hj : j < env.ceil (bbox.height / dim))
    (hd : ∀ d, GridGen.distanceToHazard env (GridGen.cellRect bbox dim i j).centroid hazards = some d → 0 < d + env.sqrt (2 * (dim / 2) ^ 2)) :
    GridGen.cellRect bbox dim i j ∈ rects := by
  unfold GridGen.attempt at h
  split_ifs at h
  obtain ⟨ls, hls, rfl⟩ := Option.map_eq_some_iff.1 h
  obtain ⟨y, hy, hr⟩ := forall₂_right_mem (mapM_forall₂_of hls) (a := GridGen.cellRect bbox dim i j) (by
    rw [List.mem_flatMap]
    exact ⟨i, List.mem_range.2 hi, List.mem_map.2 ⟨j, List.mem_range.2 hj, rfl⟩⟩)
  obtain ⟨d, h1, rfl⟩ := Option.map_eq_some_iff.1 hr
  rw [if_pos (hd d h1)] at hy
  exact List.mem_flatten.2 ⟨_, hy, List.mem_singleton.2 rfl⟩

/-- The distance to the hazards is not below the one of all of them. -/
theorem GridGen.distanceToHazard_gt {env : HEnv K} {p : Point K} {hazards : List (Hazard K)} (hne : hazards ≠ []) {a d : K}
    (h : GridGen.distanceToHazard env p hazards = some d)
    (hall : ∀ h ∈ hazards, ∀ pos v, h.shape.val.distanceFromBorder env p = some (pos, v) → a < if pos = h.entity.position then -v else v) : a < d := by
  unfold GridGen.distanceToHazard at h
  obtain ⟨l, hl, he⟩ := Option.map_eq_some_iff.1 h
  have hf := mapM_forall₂_of hl
  have hmem : ∀ v ∈ l, a < v := by
    intro v hv
    obtain ⟨x, hx, hxv⟩ := forall₂_exists_left hf hv
    obtain ⟨⟨pos, w⟩, hw, rfl⟩ := Option.map_eq_some_iff.1 hxv
    exact hall x hx pos w hw
  cases l with
  | nil =>
    cases hf
    exact absurd rfl hne
  | cons v vs =>
    dsimp only at he
    rw [← he]
    rcases (foldl_min_spec vs v).1 with h1 | h1
    · rw [h1]; exact hmem v List.mem_cons_self
    · exact hmem _ (List.mem_cons_of_mem _ h1)

/-- The centre of a cell with a free point is not far inside a hazard. -/
theorem signed_gt {env : HEnv K} (hmono : ∀ x y, 0 ≤ x → x < y → env.sqrt x < env.sqrt y) (h0 : 0 ≤ env.sqrt 0) (hf : env.f = Fpa.exact)
    {h : Hazard K} (hw : h.shape.val.WF) {c p : Point K} (hp : p ∉ closedHaz h.entity.position h.shape.val.points) {D : K} (hD : 0 < D)
    (hcp : sqDist c p ≤ D) {pos : GeoPosition} {v : K} (hv : h.shape.val.distanceFromBorder env c = some (pos, v)) :
    -env.sqrt D < if pos = h.entity.position then -v else v := by
  obtain ⟨d, h1, ⟨q, hq, hqd⟩, h2⟩ := SPoly.sqDistanceFromBorder_spec (f := env.f) hw.nonempty c
  have hd0 : 0 ≤ d := by rw [← hqd]; positivity
  have hnn : ∀ x, 0 ≤ x → 0 ≤ env.sqrt x := by
    intro x hx
    rcases hx.eq_or_lt with rfl | hx
    · exact h0
    · exact h0.trans (hmono 0 x le_rfl hx).le
  have hDs : 0 < env.sqrt D := h0.trans_lt (hmono 0 D le_rfl hD)
  unfold SPoly.distanceFromBorder at hv
  rw [h1, Option.map_some] at hv
  obtain ⟨e1, e2⟩ := Prod.mk.inj (Option.some.inj hv)
  rw [hf] at e1
  split_ifs with hpos
  · rw [neg_lt_neg_iff, ← e2]
    refine hmono d D hd0 ?_
    by_cases hb : c ∈ bdry h.shape.val.points
    · refine lt_of_le_of_lt (h2 c hb) ?_
      have : (c.x - c.x) ^ 2 + (c.y - c.y) ^ 2 = 0 := by ring
      rw [this]
      exact hD
    · have hin : c ∈ openHaz h.entity.position h.shape.val.points := by
        have hiff := SPoly.collidesPoint_iff hw hb
        rw [← hpos, ← e1]
        split_ifs with hc
        · exact hiff.1 hc
        · exact fun hr => hr.elim hb fun hi => hc (hiff.2 hi)
      have : ∃ w ∈ segPts c p, w ∈ bdry h.shape.val.points := by
        by_contra hcon
        push Not at hcon
        exact hp (.inr ((openHaz_const hcon).1 hin))
      obtain ⟨w, ⟨t, t0, t1, wx, wy⟩, hwb⟩ := this
      refine lt_of_le_of_lt (h2 w hwb) ?_
      have e : (c.x - w.x) ^ 2 + (c.y - w.y) ^ 2 = t ^ 2 * sqDist c p := by unfold sqDist; rw [wx, wy]; ring
      rw [e]
      have ht : t < 1 := by
        refine lt_of_le_of_ne t1 ?_
        rintro rfl
        have : w = p := by
          cases w; cases p
          simp only [Point.mk.injEq] at wx wy ⊢
          constructor <;> linarith
        exact hp (.inl (this ▸ hwb))
      have : t ^ 2 < 1 := by nlinarith
      rcases (sqDist_nonneg c p).eq_or_lt with hz | hz
      · rw [← hz, mul_zero]; exact hD
      · have : t ^ 2 * sqDist c p < 1 * sqDist c p := mul_lt_mul_of_pos_right this hz
        linarith
  · have := hnn d hd0
    rw [← e2]
    linarith

/-- A point of an interval that is cut into pieces lies in one of them. -/
theorem piece_exists {dim z0 w x : K} (hd : 0 < dim) (h0 : z0 ≤ x) (h1 : x ≤ z0 + w) {N : ℕ} (hN : w / dim ≤ N) (hN0 : 0 < N) :
    ∃ i < N, z0 + dim * (i : K) ≤ x ∧ x ≤ z0 + dim * i + dim := by
  classical
  have hw : w ≤ dim * N := by rw [div_le_iff₀ hd] at hN; linarith
  have hex : ∃ i : ℕ, x ≤ z0 + dim * (i : K) + dim := by
    refine ⟨N - 1, ?_⟩
    rw [Nat.cast_sub (by omega : 1 ≤ N)]
    push_cast
    linarith
  obtain ⟨i, hi, hmin⟩ : ∃ i : ℕ, x ≤ z0 + dim * (i : K) + dim ∧ ∀ j < i, ¬ x ≤ z0 + dim * (j : K) + dim :=
    ⟨Nat.find hex, Nat.find_spec hex, fun j hj => Nat.find_min hex hj⟩
  refine ⟨i, ?_, ?_, hi⟩
  · by_contra hc
    have := hmin (N - 1) (by omega)
    rw [Nat.cast_sub (by omega : 1 ≤ N)] at this
    push_cast at this
    apply this
    linarith
  · rcases Nat.eq_zero_or_pos i with rfl | hi0
    · push_cast; linarith
    · have := hmin (i - 1) (by omega)
      rw [Nat.cast_sub (by omega : 1 ≤ i)] at this
      push_cast at this
      have := not_le.1 this
      linarith

/-- The same, with pieces that do not contain their right end. -/
theorem piece_exists_half {dim z0 w x : K} (hd : 0 < dim) (h0 : z0 ≤ x) (h1 : x ≤ z0 + w) {N : ℕ} (hN : w / dim ≤ N) (hN0 : 0 < N) :
    ∃ i < N, z0 + dim * (i : K) ≤ x ∧ x ≤ z0 + dim * i + dim ∧ (x < z0 + w → x < z0 + dim * i + dim) := by
  classical
  by_cases hlt : x < z0 + w
  · have hw : w ≤ dim * N := by rw [div_le_iff₀ hd] at hN; linarith
    have hex : ∃ i : ℕ, x < z0 + dim * (i : K) + dim := by
      refine ⟨N - 1, ?_⟩
      rw [Nat.cast_sub (by omega : 1 ≤ N)]
      push_cast
      linarith
    obtain ⟨i, hi, hmin⟩ : ∃ i : ℕ, x < z0 + dim * (i : K) + dim ∧ ∀ j < i, ¬ x < z0 + dim * (j : K) + dim :=
      ⟨Nat.find hex, Nat.find_spec hex, fun j hj => Nat.find_min hex hj⟩
    refine ⟨i, ?_, ?_, hi.le, fun _ => hi⟩
    · by_contra hc
      have := hmin (N - 1) (by omega)
      rw [Nat.cast_sub (by omega : 1 ≤ N)] at this
      push_cast at this
      apply this
      linarith
    · rcases Nat.eq_zero_or_pos i with rfl | hi0
      · push_cast; linarith
      · have := hmin (i - 1) (by omega)
        rw [Nat.cast_sub (by omega : 1 ≤ i)] at this
        push_cast at this
        have := not_lt.1 this
        linarith
  · obtain ⟨i, hi, i1, i2⟩ := piece_exists hd h0 h1 hN hN0
    exact ⟨i, hi, i1, i2, fun h => absurd h hlt⟩

/-- **Free points lie in cells.** -/
theorem HPG.new_covers {env : HEnv K} (hmono : ∀ x y, 0 ≤ x → x < y → env.sqrt x < env.sqrt y) (h0 : 0 ≤ env.sqrt 0) (hf : env.f = Fpa.exact)
    (hce : env.CeilExact) {bbox : AARect K} (hbox : bbox.Valid) {statics : List (Hazard K)} (hun : ∃ h ∈ statics, h.entity.isUniversal = true)
    (hw : ∀ h ∈ statics, h.entity.isUniversal = true → h.shape.val.WF) {nCells : ℕ} {g : HPG K} (h : HPG.new env bbox statics nCells = some g)
    {p : Point K} (hp : p ∈ bbox.pts)
    (hfree : ∀ h ∈ statics, h.entity.isUniversal = true → p ∉ closedHaz h.entity.position h.shape.val.points) :
    ∃ x, some x ∈ g.grid.cells ∧ p ∈ x.bbox.pts ∧ (p.x < bbox.xMax → p.x < x.bbox.xMax) ∧ (p.y < bbox.yMax → p.y < x.bbox.yMax) := by
  unfold HPG.new at h
  split_ifs at h with hn0
  obtain ⟨rects, h1, h⟩ := Option.bind_eq_some_iff.1 h
  obtain ⟨r0, h2, h⟩ := Option.bind_eq_some_iff.1 h
  obtain ⟨cells, h3, h⟩ := Option.bind_eq_some_iff.1 h
  obtain ⟨grid, h4, rfl⟩ := Option.map_eq_some_iff.1 h
  have bx : bbox.xMin < bbox.xMax := hbox.1
  have by' : bbox.yMin < bbox.yMax := hbox.2
  have hT : (0 : K) < nCells := by exact_mod_cast Nat.pos_of_ne_zero hn0
  have harea : 0 < bbox.area / nCells := by
    unfold AARect.area
    have a1 : 0 < bbox.xMax - bbox.xMin := by linarith
    have a2 : 0 < bbox.yMax - bbox.yMin := by linarith
    positivity
  obtain ⟨dim, hd, h5⟩ := GridGen.generate_pos (h0.trans_lt (hmono 0 _ le_rfl harea)) h1
  obtain ⟨p1, p2, p3, p4⟩ := hp
  have hceil : ∀ {w : K}, 0 < w → 0 < env.ceil (w / dim) := by
    intro w hw
    by_contra hc
    have : w / dim ≤ ((0 : ℕ) : K) := (hce _ 0).1 (by omega)
    push_cast at this
    have : 0 < w / dim := by positivity
    linarith
  obtain ⟨i, hi, i1, i2, i3⟩ := piece_exists_half (w := bbox.width) hd p1 (by unfold AARect.width; linarith) ((hce _ _).1 le_rfl)
    (hceil (by unfold AARect.width; linarith))
  obtain ⟨j, hj, j1, j2, j3⟩ := piece_exists_half (w := bbox.height) hd p3 (by unfold AARect.height; linarith) ((hce _ _).1 le_rfl)
    (hceil (by unfold AARect.height; linarith))
  have hr : GridGen.cellRect bbox dim i j ∈ rects := by
    refine GridGen.attempt_keeps h5 hi hj ?_
    intro d hdd
    have hgt : -env.sqrt (2 * (dim / 2) ^ 2) < d := by
      refine GridGen.distanceToHazard_gt ?_ hdd ?_
      · obtain ⟨h, hh, hu⟩ := hun
        exact List.ne_nil_of_mem (List.mem_filter.2 ⟨hh, hu⟩)
      · intro h hh pos v hv
        obtain ⟨hh, hu⟩ := List.mem_filter.1 hh
        refine signed_gt hmono h0 hf (hw h hh hu) (hfree h hh hu) (by positivity) ?_ hv
        unfold sqDist AARect.centroid GridGen.cellRect
        dsimp only
        have a1 : ((bbox.xMin + dim * i + (bbox.xMin + dim * i + dim)) / 2 - p.x) ^ 2 ≤ (dim / 2) ^ 2 := by
          apply sq_le_sq'
          · linarith
          · linarith
        have a2 : ((bbox.yMin + dim * j + (bbox.yMin + dim * j + dim)) / 2 - p.y) ^ 2 ≤ (dim / 2) ^ 2 := by
          apply sq_le_sq'
          · linarith
          · linarith
        linarith
    linarith
  have hcen : ∀ i j : ℕ, (GridGen.cellRect bbox dim i j).centroid = ⟨bbox.xMin + dim * i + dim / 2, bbox.yMin + dim * j + dim / 2⟩ := by
    intro i j
    unfold GridGen.cellRect AARect.centroid
    simp only [Point.mk.injEq]
    constructor <;> ring
  have hf3 := mapM_forall₂_of h3
  obtain ⟨c, hc, hcn⟩ := forall₂_right_mem hf3 hr
  refine ⟨c, ?_, ?_⟩
  · refine Grid.some_mem_of_new h4 ?_ (List.mem_map.2 ⟨c, hc, rfl⟩)
    have hcc : cells.map (·.centroid) = rects.map (·.centroid) := map_of_forall₂ hf3 fun r c hrc => (HPGCell.new_spec hrc).2.1
    rw [List.map_map]
    show (cells.map (·.centroid)).Nodup
    rw [hcc]
    obtain ⟨_, hsub⟩ := GridGen.attempt_sublist h5
    refine (hsub.map _).nodup ?_
    rw [List.map_map]
    refine List.Nodup.map ?_ (List.nodup_range.product List.nodup_range)
    rintro ⟨i, j⟩ ⟨i', j'⟩ he
    simp only [Function.comp_apply] at he
    rw [hcen, hcen] at he
    obtain ⟨e1, e2⟩ := Point.mk.inj he
    have f1 : dim * (i : K) = dim * (i' : K) := by linarith
    have f2 : dim * (j : K) = dim * (j' : K) := by linarith
    rw [show i = i' by exact_mod_cast mul_left_cancel₀ hd.ne' f1, show j = j' by exact_mod_cast mul_left_cancel₀ hd.ne' f2]
  · rw [(HPGCell.new_spec hcn).1]
    refine ⟨⟨i1, i2, j1, j2⟩, fun h => i3 ?_, fun h => j3 ?_⟩
    · unfold AARect.width; linarith
    · unfold AARect.height; linarith

theorem GridRel.right {R : HPGCell K → HPGCell K → Prop} {g g' : Grid K (HPGCell K)} (h : GridRel R g g') {c : HPGCell K}
    (hc : some c ∈ g.cells) : ∃ c', some c' ∈ g'.cells ∧ R c c' := by
  obtain ⟨o, ho, hr⟩ := forall₂_right_mem h.cells hc
  cases hr with
  | some hr => exact ⟨_, ho, hr⟩

/-- what happens to the cells of an engine or snapshot: only values change -/
theorem HReach.rel {env : HEnv K} {o : SearchOracle K} {bbox : AARect K} {statics : List (Hazard K)} {nCells : ℕ}
    {φ : HazardEntity K → Hazard K} {x : HCDE K n ⊕ HSnap K} (hr : HReach env o bbox statics nCells φ x) : match x with
      | .inl c => ∀ g, c.hpg = some g → ∃ g0, HPG.new env bbox statics nCells = some g0 ∧ GridRel HPGCell.SameBase g0.grid g.grid
      | .inr s => ∀ g, s.grid = some g → ∃ g0, HPG.new env bbox statics nCells = some g0 ∧ GridRel HPGCell.SameBase g0.grid g := by
  have htr := fun (a b c : HPGCell K) => @HPGCell.SameBase.trans K _ _ a b c
  have hflush : ∀ {D : List (Hazard K)} {g g' : HPG K}, g.flush env D = some g' → GridRel HPGCell.SameBase g.grid g'.grid := by
    intro D g g' h
    unfold HPG.flush at h
    split_ifs at h
    · obtain ⟨grid, hg, rfl⟩ := Option.map_eq_some_iff.1 h
      exact (mapCells_rel hg).imp fun c c' hcc => deregister_base hcc
    · cases h
      exact .refl HPGCell.SameBase.refl _
  have hfl : ∀ {c c' : HCDE K n}, c.flush env = some c' → ∀ g', c'.hpg = some g' → ∃ g, c.hpg = some g ∧ GridRel HPGCell.SameBase g.grid g'.grid := by
    intro c c' h g' hg'
    unfold HCDE.flush at h
    obtain ⟨hpg, h1, rfl⟩ := Option.map_eq_some_iff.1 h
    rcases onGrid_spec h1 with ⟨_, h2⟩ | ⟨g, g'', h2, h3, h4⟩
    · dsimp only at hg'
      rw [h2] at hg'; cases hg'
    · dsimp only at hg'
      rw [h3] at hg'
      obtain rfl := Option.some.inj hg'
      exact ⟨g, h2, hflush h4⟩
  have hco : ∀ {c c' : HCDE K n}, c.commit env = some c' → ∀ g', c'.hpg = some g' → ∃ g, c.hpg = some g ∧ GridRel HPGCell.SameBase g.grid g'.grid := by
    intro c c' h g' hg'
    unfold HCDE.commit at h
    obtain ⟨cde, _, h⟩ := Option.bind_eq_some_iff.1 h
    obtain ⟨g, h1, h2⟩ := hfl h g' hg'
    exact ⟨g, h1, h2⟩
  induction hr with
  | @new c h =>
    intro g hg
    unfold HCDE.new at h
    obtain ⟨hpg, h1, h⟩ := Option.bind_eq_some_iff.1 h
    obtain ⟨cde, h2, rfl⟩ := Option.map_eq_some_iff.1 h
    dsimp only at hg
    subst hg
    split_ifs at h1
    · cases h1
    obtain ⟨g', hg', he⟩ := Option.map_eq_some_iff.1 h1
    cases he
    exact ⟨g, hg', .refl HPGCell.SameBase.refl _⟩
  | @register c c' h _ _ _ he ih =>
    intro g' hg'
    unfold HCDE.register at he
    obtain ⟨cde, _, he⟩ := Option.bind_eq_some_iff.1 he
    obtain ⟨hpg, h2, rfl⟩ := Option.map_eq_some_iff.1 he
    dsimp only at hg'
    rcases onGrid_spec h2 with ⟨_, h3⟩ | ⟨g, g'', h3, h4, h5⟩
    · rw [h3] at hg'; cases hg'
    · rw [h4] at hg'
      obtain rfl := Option.some.inj hg'
      obtain ⟨g0, k1, k2⟩ := ih g h3
      refine ⟨g0, k1, k2.trans htr ?_⟩
      unfold HPG.register at h5
      obtain ⟨s, _, h5⟩ := Option.bind_eq_some_iff.1 h5
      obtain ⟨b, _, h5⟩ := Option.bind_eq_some_iff.1 h5
      obtain ⟨st, h6, rfl⟩ := Option.map_eq_some_iff.1 h5
      exact registerPoles_rel HPGCell.SameBase.refl htr s.poles (fun pole _ c u hu => (HPGCell.registerPole_spec hu).2.1) h6
  | @deregister c c' e ci _ _ he ih =>
    intro g' hg'
    unfold HCDE.deregister at he
    obtain ⟨cde, _, he⟩ := Option.bind_eq_some_iff.1 he
    obtain ⟨hpg, h2, rfl⟩ := Option.map_eq_some_iff.1 he
    dsimp only at hg'
    rcases onGrid_spec h2 with ⟨_, h3⟩ | ⟨g, g'', h3, h4, h5⟩
    · rw [h3] at hg'; cases hg'
    · rw [h4] at hg'
      obtain rfl := Option.some.inj hg'
      obtain ⟨g0, k1, k2⟩ := ih g h3
      refine ⟨g0, k1, k2.trans htr ?_⟩
      unfold HPG.deregister at h5
      split_ifs at h5
      · obtain ⟨grid, h6, rfl⟩ := Option.map_eq_some_iff.1 h5
        exact (mapCells_rel h6).imp fun c c' hcc => deregister_base hcc
      · cases h5
        exact .refl HPGCell.SameBase.refl _
  | @flush c c' _ he ih =>
    intro g' hg'
    obtain ⟨g, h1, h2⟩ := hfl he g' hg'
    obtain ⟨g0, k1, k2⟩ := ih g h1
    exact ⟨g0, k1, k2.trans htr h2⟩
  | @commit c c' _ he ih =>
    intro g' hg'
    obtain ⟨g, h1, h2⟩ := hco he g' hg'
    obtain ⟨g0, k1, k2⟩ := ih g h1
    exact ⟨g0, k1, k2.trans htr h2⟩
  | @snapshot c c' s _ he ih =>
    intro grid hgrid
    unfold HCDE.createSnapshot at he
    obtain ⟨c1, h1, he⟩ := Option.bind_eq_some_iff.1 he
    split_ifs at he with hd
    cases he
    obtain ⟨g', hg', rfl⟩ := Option.map_eq_some_iff.1 hgrid
    obtain ⟨g, h2, h3⟩ := hco h1 g' hg'
    obtain ⟨g0, k1, k2⟩ := ih g h2
    exact ⟨g0, k1, k2.trans htr h3⟩
  | @restore c c' s _ _ he ih1 ih2 =>
    intro g' hg'
    unfold HCDE.restore at he
    obtain ⟨cde, h1, he⟩ := Option.bind_eq_some_iff.1 he
    obtain ⟨hpg, h2, rfl⟩ := Option.map_eq_some_iff.1 he
    dsimp only at hg'
    rcases onGrid_spec h2 with ⟨_, h3⟩ | ⟨g, g'', h3, h4, h5⟩
    · rw [h3] at hg'; cases hg'
    · rw [h4] at hg'
      obtain rfl := Option.some.inj hg'
      obtain ⟨grid, h6, h7⟩ := Option.bind_eq_some_iff.1 h5
      unfold HPG.restore at h7
      split_ifs at h7
      cases h7
      exact ih2 grid h6

/-- The box of the engine never changes. -/
theorem HReach.bbox_eq {env : HEnv K} {o : SearchOracle K} {bbox : AARect K} {statics : List (Hazard K)} {nCells : ℕ}
    {φ : HazardEntity K → Hazard K} (hst : (statics.map (·.entity)).Nodup) {x : HCDE K n ⊕ HSnap K}
    (hr : HReach env o bbox statics nCells φ x) : match x with
      | .inl c => c.cde.bbox = bbox
      | .inr _ => True := by
  have hco : ∀ {c c' : HCDE K n}, HInv env o statics φ c → c.commit env = some c' → c'.cde.bbox = c.cde.bbox := by
    intro c c' hi h
    unfold HCDE.commit at h
    obtain ⟨cde, h1, h⟩ := Option.bind_eq_some_iff.1 h
    unfold HCDE.flush at h
    obtain ⟨hpg, _, rfl⟩ := Option.map_eq_some_iff.1 h
    obtain ⟨c1, e1, i1, s1, b1, _⟩ := CDE.commit_inv hi.reach.inv
    rw [h1] at e1
    obtain rfl := Option.some.inj e1
    exact b1
  induction hr with
  | @new c h =>
    unfold HCDE.new at h
    obtain ⟨hpg, h1, h⟩ := Option.bind_eq_some_iff.1 h
    obtain ⟨cde, h2, rfl⟩ := Option.map_eq_some_iff.1 h
    obtain ⟨c1, e1, i1, s1, d1, u1, b1⟩ := CDE.new_inv (f := env.f) (o := o) (n := n) (r := bbox) hst
    rw [h2] at e1
    obtain rfl := Option.some.inj e1
    exact b1
  | @register c c' h hr hp hφ he ih =>
    have hi : HInv env o statics φ c := hr.inv hst
    unfold HCDE.register at he
    obtain ⟨cde, h1, he⟩ := Option.bind_eq_some_iff.1 he
    obtain ⟨hpg, h2, rfl⟩ := Option.map_eq_some_iff.1 he
    have hop : (CDEOp.register h).run env.f o c.cde = some cde := h1
    obtain ⟨c1, e1, i1, s1, b1⟩ := CDEOp.run_inv (o := o) hi.reach.inv hp
    rw [hop] at e1
    obtain rfl := Option.some.inj e1
    exact b1.trans ih
  | @deregister c c' e ci hr hp he ih =>
    have hi : HInv env o statics φ c := hr.inv hst
    unfold HCDE.deregister at he
    obtain ⟨cde, h1, he⟩ := Option.bind_eq_some_iff.1 he
    obtain ⟨hpg, h2, rfl⟩ := Option.map_eq_some_iff.1 he
    have hop : (CDEOp.deregister e ci).run env.f o c.cde = some cde := h1
    obtain ⟨c1, e1, i1, s1, b1⟩ := CDEOp.run_inv (o := o) hi.reach.inv hp
    rw [hop] at e1
    obtain rfl := Option.some.inj e1
    exact b1.trans ih
  | @flush c c' _ he ih =>
    unfold HCDE.flush at he
    obtain ⟨hpg, _, rfl⟩ := Option.map_eq_some_iff.1 he
    exact ih
  | @commit c c' hr he ih =>
    exact (hco (hr.inv hst) he).trans ih
  | @snapshot c c' s _ he ih => trivial
  | @restore c c' s hr hrs he ih1 ih2 =>
    have hi : HInv env o statics φ c := hr.inv hst
    have hs : SInv env statics φ s := hrs.inv hst
    unfold HCDE.restore at he
    obtain ⟨cde, h1, he⟩ := Option.bind_eq_some_iff.1 he
    obtain ⟨hpg, h2, rfl⟩ := Option.map_eq_some_iff.1 he
    have hp : (CDEOp.restore s.dynamics).Pre c.cde := ⟨hs.nodup, by rw [hi.stat]; exact hs.disj⟩
    have hop : (CDEOp.restore s.dynamics).run env.f o c.cde = some cde := h1
    obtain ⟨c1, e1, i1, s1, b1⟩ := CDEOp.run_inv (o := o) hi.reach.inv hp
    rw [hop] at e1
    obtain rfl := Option.some.inj e1
    exact b1.trans ih1

/-- Reading the values of a cell cannot fail for the qualities that exist. -/
theorem HPGCell.couldAccommodate_some {c : HPGCell K} (hl : c.qz.length = nQualities) {q : Option ℕ} (hq : q.getD nQualities ≤ nQualities) (r : K) :
    ∃ b, c.couldAccommodate r q = some b := by
  have key : ∀ (l : List ℕ) (a : K), (∀ i ∈ l, i < nQualities) → ∃ d, l.foldlM (fun (d : K) q => (c.qz[q]?).map fun v => min d v) a = some d := by
    intro l
    induction l with
    | nil => intro a _; exact ⟨a, rfl⟩
    | cons i l ih =>
      intro a hl'
      rw [List.foldlM_cons, List.getElem?_eq_getElem (by rw [hl]; exact hl' i List.mem_cons_self)]
      exact ih _ fun j hj => hl' j (List.mem_cons_of_mem _ hj)
  unfold HPGCell.couldAccommodate HPGCell.hazardProximity
  split_ifs
  · exact ⟨_, rfl⟩
  · obtain ⟨d, hd⟩ := key (List.range (q.getD nQualities)) c.uni.1 fun i hi => (List.mem_range.1 hi).trans_le hq
    exact ⟨_, by rw [hd]; rfl⟩

end Jagua
