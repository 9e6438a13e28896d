import Verif.Lemmas.HPGCover
import Verif.Lemmas.UsageFile
import Verif.Lemmas.Grid

/-!
# When the cells of the proximity grid are found
-/

set_option linter.unusedSectionVars false

namespace Jagua

section

variable {K : Type*} [Field K] [LinearOrder K] [IsStrictOrderedRing K] {n : ℕ}

/-! ## Single steps succeed -/

theorem SPoly.distanceFromBorder_isSome (env : HEnv K) {s : SPoly K} (hs : s.points ≠ []) (p : Point K) :
    ∃ x, s.distanceFromBorder env p = some x := by
  obtain ⟨d, h1, -⟩ := SPoly.sqDistanceFromBorder_spec (f := env.f) hs p
  unfold SPoly.distanceFromBorder
  rw [h1]
  exact ⟨_, rfl⟩

theorem mapM_isSome {α β : Type*} {f : α → Option β} {l : List α} (h : ∀ a ∈ l, ∃ b, f a = some b) : ∃ m, l.mapM f = some m := by
  induction l with
  | nil => exact ⟨[], rfl⟩
  | cons a l ih =>
    obtain ⟨b, hb⟩ := h a List.mem_cons_self
    obtain ⟨m, hm⟩ := ih fun x hx => h x (List.mem_cons_of_mem _ hx)
    exact ⟨b :: m, by rw [List.mapM_cons, hb, hm]; rfl⟩

theorem GridGen.attempt_isSome {env : HEnv K} {bbox : AARect K} {hazards : List (Hazard K)} (hne : ∀ h ∈ hazards, h.shape.val.points ≠ [])
    {dim : K} (hd : dim ≠ 0) : ∃ rects, GridGen.attempt env bbox hazards dim = some rects := by
  unfold GridGen.attempt
  rw [if_neg hd]
  dsimp only
  obtain ⟨m, hm⟩ := mapM_isSome (l := (List.range (env.ceil (bbox.width / dim))).flatMap fun i =>
      (List.range (env.ceil (bbox.height / dim))).map fun j => GridGen.cellRect bbox dim i j)
    (f := fun (r : AARect K) => (GridGen.distanceToHazard env r.centroid hazards).map fun d =>
      if 0 < d + env.sqrt (2 * (dim / 2) ^ 2) then [r] else []) (by
    intro r _
    unfold GridGen.distanceToHazard
    obtain ⟨m, hm⟩ := mapM_isSome (l := hazards) (f := fun (h : Hazard K) => (h.shape.val.distanceFromBorder env r.centroid).map
        fun (x : GeoPosition × K) => if x.1 = h.entity.position then -x.2 else x.2) (by
      intro h hh
      obtain ⟨x, hx⟩ := SPoly.distanceFromBorder_isSome env (hne h hh) r.centroid
      exact ⟨_, by rw [hx]; rfl⟩)
    rw [hm]
    exact ⟨_, rfl⟩)
  rw [hm]
  exact ⟨_, rfl⟩

/-- hazards that a bin can have -/
def Hazard.Static (h : Hazard K) : Prop :=
  match h.entity with
  | .binExterior | .binHole _ => True
  | .inferiorQualityZone q _ => q < nQualities
  | .placedItem _ _ => False

theorem HPGCell.new_isSome (env : HEnv K) (r : AARect K) {statics : List (Hazard K)} (hne : ∀ h ∈ statics, h.shape.val.points ≠ [])
    (hst : ∀ h ∈ statics, h.Static) : ∃ c, HPGCell.new env r statics = some c := by
  have key : ∀ (l : List (Hazard K)) (st : (K × HazardEntity K) × List K), st.2.length = nQualities → (∀ h ∈ l, h ∈ statics) →
      ∃ st', l.foldlM (HPGCell.addStatic env r.centroid) st = some st' := by
    intro l
    induction l with
    | nil => exact fun st _ _ => ⟨st, rfl⟩
    | cons h l ih =>
      intro st hlen hl
      have hh := hl h List.mem_cons_self
      obtain ⟨x, hx⟩ := SPoly.distanceFromBorder_isSome env (hne h hh) r.centroid
      have : ∃ st', HPGCell.addStatic env r.centroid st h = some st' ∧ st'.2.length = nQualities := by
        unfold HPGCell.addStatic HPGCell.staticProx
        rw [hx]
        have hS := hst h hh
        unfold Hazard.Static at hS
        dsimp only [Option.map_some, Option.bind_some]
        cases he : h.entity with
        | binExterior =>
          refine ⟨_, rfl, ?_⟩
          split_ifs <;> exact hlen
        | binHole i =>
          refine ⟨_, rfl, ?_⟩
          split_ifs <;> exact hlen
        | inferiorQualityZone q i =>
          rw [he] at hS
          dsimp only at hS ⊢
          rw [← hlen] at hS
          rw [List.getElem?_eq_getElem hS]
          exact ⟨_, rfl, by rw [List.length_set, hlen]⟩
        | placedItem k t => rw [he] at hS; exact hS.elim
      obtain ⟨st', h1, h2⟩ := this
      obtain ⟨st'', h3⟩ := ih st' h2 fun x hx => hl x (List.mem_cons_of_mem _ hx)
      exact ⟨st'', by rw [List.foldlM_cons, h1]; exact h3⟩
  obtain ⟨st, h⟩ := key statics ((env.fmax, .binExterior), List.replicate nQualities env.fmax) (List.length_replicate ..) fun _ h => h
  unfold HPGCell.new
  rw [h]
  exact ⟨_, rfl⟩

/-- Once the cells are found, the grid is built. -/
theorem HPG.new_of_generate {env : HEnv K} {bbox : AARect K} {statics : List (Hazard K)} (hne : ∀ h ∈ statics, h.shape.val.points ≠ [])
    (hst : ∀ h ∈ statics, h.Static) {nCells : ℕ} (hn : nCells ≠ 0) {rects : List (AARect K)}
    (h : GridGen.generate env bbox (statics.filter fun h => h.entity.isUniversal) nCells = some rects) (hr : rects ≠ []) :
    ∃ g, HPG.new env bbox statics nCells = some g := by
  unfold HPG.new
  rw [if_neg hn, h, Option.bind_some]
  cases rects with
  | nil => exact absurd rfl hr
  | cons r0 rs =>
    obtain ⟨cells, hc⟩ := mapM_isSome (l := r0 :: rs) (f := fun (r : AARect K) => HPGCell.new env r statics) fun r _ => HPGCell.new_isSome env r hne hst
    obtain ⟨g, hg, -⟩ := Grid.new_spec (cells.map fun (c : HPGCell K) => (c, c.centroid))
    rw [hc]
    dsimp only [List.head?_cons, Option.bind_some]
    rw [hg]
    exact ⟨_, rfl⟩

/-! ## The loop -/

/-- The loop succeeds if a correction factor of 1/20 or less gives enough cells. -/
theorem GridGen.loop_isSome {env : HEnv K} {bbox : AARect K} {hazards : List (Hazard K)} {target : ℕ}
    (hs : 0 < env.sqrt (bbox.area / target)) (hne : ∀ h ∈ hazards, h.shape.val.points ≠ [])
    (hfew : ∀ co cells, 0 < co → co ≤ 1 / 20 → GridGen.attempt env bbox hazards (env.sqrt (bbox.area / target) * co) = some cells → target ≤ cells.length)
    (left : ℕ) {m : ℕ} (hm : 0 < m) {step : K} (hst : 0 < step) {prev : Option Ordering} (hp : step ≤ 1 / 20 ∨ prev = none ∧ step ≤ 1 / 10) :
    ∃ rects, GridGen.loop env bbox hazards target left (m * step) step prev = some rects := by
  induction left generalizing m step prev with
  | zero =>
    have hm' : (0 : K) < m := by exact_mod_cast hm
    obtain ⟨cells, hc⟩ := GridGen.attempt_isSome (env := env) (bbox := bbox) hne (dim := env.sqrt (bbox.area / target) * (m * step)) (by positivity)
    unfold GridGen.loop
    rw [hc]
    exact ⟨_, rfl⟩
  | succ left ih =>
    have hm' : (0 : K) < m := by exact_mod_cast hm
    obtain ⟨cells, hc⟩ := GridGen.attempt_isSome (env := env) (bbox := bbox) hne (dim := env.sqrt (bbox.area / target) * (m * step)) (by positivity)
    unfold GridGen.loop
    rw [hc]
    dsimp only [Option.bind_some]
    -- the new step, and the old factor as a multiple of it
    obtain ⟨step', m', e1, hs', hs20, hm2, e2⟩ : ∃ (step' : K) (m' : ℕ), (if prev = some (compare cells.length target) then step else step / 2) = step' ∧
        0 < step' ∧ step' ≤ 1 / 20 ∧ 0 < m' ∧ (m : K) * step = m' * step' := by
      split_ifs with hpr
      · refine ⟨step, m, rfl, hst, ?_, hm, rfl⟩
        rcases hp with hp | hp
        · exact hp
        · rw [hp.1] at hpr; cases hpr
      · refine ⟨step / 2, 2 * m, rfl, by positivity, ?_, by omega, by push_cast; ring⟩
        rcases hp with hp | hp <;> linarith
    rw [e1, e2]
    rw [e2] at hc
    cases hcmp : compare cells.length target with
    | eq => exact ⟨_, rfl⟩
    | lt =>
      dsimp only
      have hlt : cells.length < target := compare_lt_iff_lt.1 hcmp
      have h2 : 1 < m' := by
        rcases Nat.lt_or_ge 1 m' with h | h
        · exact h
        obtain rfl : m' = 1 := by omega
        have := hfew (((1 : ℕ) : K) * step') cells (by simpa using hs') (by simpa using hs20) hc
        omega
      obtain ⟨k, rfl⟩ : ∃ k, m' = k + 1 := ⟨m' - 1, by omega⟩
      have e3 : ((k + 1 : ℕ) : K) * step' - step' = k * step' := by push_cast; ring
      rw [e3]
      exact ih (by omega) hs' (.inl hs20)
    | gt =>
      dsimp only
      have e3 : (m' : K) * step' + step' = ((m' + 1 : ℕ) : K) * step' := by push_cast; ring
      rw [e3]
      exact ih (by omega) hs' (.inl hs20)

theorem GridGen.generate_isSome {env : HEnv K} {bbox : AARect K} {hazards : List (Hazard K)} {target : ℕ} (hb : 0 < bbox.area)
    (hs : 0 < env.sqrt (bbox.area / target)) (hne : ∀ h ∈ hazards, h.shape.val.points ≠ [])
    (hfew : ∀ co cells, 0 < co → co ≤ 1 / 20 → GridGen.attempt env bbox hazards (env.sqrt (bbox.area / target) * co) = some cells → target ≤ cells.length) :
    ∃ rects, GridGen.generate env bbox hazards target = some rects := by
  unfold GridGen.generate
  rw [if_pos hb]
  have e : (1 : K) = ((10 : ℕ) : K) * (1 / 10) := by norm_num
  obtain ⟨r, hr⟩ := GridGen.loop_isSome hs hne hfew GridGen.maxIterations (m := 10) (by omega) (step := 1 / 10) (by norm_num) (prev := none) (.inr ⟨rfl, le_rfl⟩)
  rw [← e] at hr
  exact ⟨r, hr⟩

/-- If the factors 1/20, 2/20, … all give too few cells, the loop reaches a factor of zero. -/
theorem GridGen.loop_none {env : HEnv K} {bbox : AARect K} {hazards : List (Hazard K)} {target : ℕ} {step : K}
    (m : ℕ) (hmany : ∀ (k : ℕ) cells, 0 < k → k ≤ m → GridGen.attempt env bbox hazards (env.sqrt (bbox.area / target) * (k * step)) = some cells →
      cells.length < target) {left : ℕ} (hl : m ≤ left) :
    GridGen.loop env bbox hazards target left (m * step) step (some .lt) = none := by
  induction m generalizing left with
  | zero =>
    unfold GridGen.loop GridGen.attempt
    rw [if_pos (by push_cast; ring)]
    rfl
  | succ m ih =>
    unfold GridGen.loop
    cases hc : GridGen.attempt env bbox hazards (env.sqrt (bbox.area / target) * ((m + 1 : ℕ) * step)) with
    | none => rfl
    | some cells =>
      rw [Option.bind_some]
      obtain ⟨left, rfl⟩ : ∃ l, left = l + 1 := ⟨left - 1, by omega⟩
      have hlt : compare cells.length target = .lt := compare_lt_iff_lt.2 (hmany (m + 1) cells (by omega) le_rfl hc)
      dsimp only
      rw [hlt, if_pos rfl]
      have e3 : ((m + 1 : ℕ) : K) * step - step = m * step := by push_cast; ring
      dsimp only
      rw [e3]
      exact ih (fun k cells hk hkm => hmany k cells hk (by omega)) (by omega)

theorem GridGen.generate_none {env : HEnv K} {bbox : AARect K} {hazards : List (Hazard K)} {target : ℕ}
    (hmany : ∀ (k : ℕ) cells, 0 < k → k ≤ 20 → GridGen.attempt env bbox hazards (env.sqrt (bbox.area / target) * (k * (1 / 20))) = some cells →
      cells.length < target) :
    GridGen.generate env bbox hazards target = none := by
  unfold GridGen.generate
  split_ifs
  swap
  · rfl
  have e : (1 : K) = ((20 : ℕ) : K) * (1 / 20) := by norm_num
  rw [show GridGen.maxIterations = 24 + 1 from rfl]
  unfold GridGen.loop
  cases hc : GridGen.attempt env bbox hazards (env.sqrt (bbox.area / target) * 1) with
  | none => rfl
  | some cells =>
    rw [Option.bind_some]
    rw [e] at hc
    have hlt : compare cells.length target = .lt := compare_lt_iff_lt.2 (hmany 20 cells (by omega) le_rfl hc)
    dsimp only
    rw [hlt, if_neg (by simp)]
    dsimp only
    have e2 : (1 : K) - 1 / 10 / 2 = ((19 : ℕ) : K) * (1 / 20) := by norm_num
    have e3 : (1 / 10 / 2 : K) = 1 / 20 := by norm_num
    rw [e2, e3]
    exact GridGen.loop_none 19 (fun k cells hk hkm => hmany k cells hk (by omega)) (by omega)

/-- The cells of one attempt contain all free points of the box. -/
theorem GridGen.attempt_covers {env : HEnv K} (hmono : ∀ x y, 0 ≤ x → x < y → env.sqrt x < env.sqrt y) (h0 : 0 ≤ env.sqrt 0) (hf : env.f = Fpa.exact)
    (hce : env.CeilExact) {bbox : AARect K} (hbox : bbox.Valid) {hazards : List (Hazard K)} (hun : hazards ≠ [])
    (hw : ∀ h ∈ hazards, h.shape.val.WF) {dim : K} (hd : 0 < dim) {rects : List (AARect K)} (h5 : GridGen.attempt env bbox hazards dim = some rects)
    {p : Point K} (hp : p ∈ bbox.pts) (hfree : ∀ h ∈ hazards, p ∉ closedHaz h.entity.position h.shape.val.points) :
    ∃ r ∈ rects, p ∈ r.pts := by
  have bx : bbox.xMin < bbox.xMax := hbox.1
  have by' : bbox.yMin < bbox.yMax := hbox.2
  obtain ⟨p1, p2, p3, p4⟩ := hp
  have hceil : ∀ {w : K}, 0 < w → 0 < env.ceil (w / dim) := by
    intro w hw
    by_contra hc
    have : w / dim ≤ ((0 : ℕ) : K) := (hce _ 0).1 (by omega)
    push_cast at this
    have : 0 < w / dim := by positivity
    linarith
  obtain ⟨i, hi, i1, i2⟩ := piece_exists (w := bbox.width) hd p1 (by unfold AARect.width; linarith) ((hce _ _).1 le_rfl)
    (hceil (by unfold AARect.width; linarith))
  obtain ⟨j, hj, j1, j2⟩ := piece_exists (w := bbox.height) hd p3 (by unfold AARect.height; linarith) ((hce _ _).1 le_rfl)
    (hceil (by unfold AARect.height; linarith))
  refine ⟨GridGen.cellRect bbox dim i j, GridGen.attempt_keeps h5 hi hj ?_, ⟨i1, i2, j1, j2⟩⟩
  intro d hdd
  have hgt : -env.sqrt (2 * (dim / 2) ^ 2) < d := by
    refine GridGen.distanceToHazard_gt hun hdd ?_
    intro h hh pos v hv
    refine signed_gt hmono h0 hf (hw h hh) (hfree h hh) (by positivity) ?_ hv
    unfold sqDist AARect.centroid GridGen.cellRect
    dsimp only
    have a1 : ((bbox.xMin + dim * i + (bbox.xMin + dim * i + dim)) / 2 - p.x) ^ 2 ≤ (dim / 2) ^ 2 := by
      apply sq_le_sq'
      · linarith
      · linarith
    have a2 : ((bbox.yMin + dim * j + (bbox.yMin + dim * j + dim)) / 2 - p.y) ^ 2 ≤ (dim / 2) ^ 2 := by
      apply sq_le_sq'
      · linarith
      · linarith
    linarith
  linarith

end

/-! ## Areas -/

open MeasureTheory Set

theorem HEnv.SqrtWithin.exact {env : HEnv ℝ} (h : env.SqrtWithin 0) {x : ℝ} (hx : 0 ≤ x) : env.sqrt x = Real.sqrt x := by
  have h1 := h.nonneg x hx
  have h2 := h.low x hx
  have h3 := h.high x (Real.sqrt x) hx (Real.sqrt_nonneg x) (Real.sq_sqrt hx).ge
  rw [add_zero] at h2 h3
  exact le_antisymm h3 (Real.sqrt_le_iff.2 ⟨h1, h2⟩)

theorem cellRect_area (bbox : AARect ℝ) {dim : ℝ} (hd : 0 < dim) (i j : ℕ) :
    planeArea (GridGen.cellRect bbox dim i j).pts = ENNReal.ofReal (dim ^ 2) := by
  have hs : {q : ℝ × ℝ | (⟨q.1, q.2⟩ : Point ℝ) ∈ (GridGen.cellRect bbox dim i j).pts} =
      Icc (bbox.xMin + dim * i) (bbox.xMin + dim * i + dim) ×ˢ Icc (bbox.yMin + dim * j) (bbox.yMin + dim * j + dim) := by
    ext q
    simp only [mem_ofPred_eq, AARect.pts, GridGen.cellRect, mem_prod, mem_Icc]
    tauto
  unfold planeArea
  rw [hs, Measure.volume_eq_prod, Measure.prod_prod, Real.volume_Icc, Real.volume_Icc, add_sub_cancel_left, add_sub_cancel_left, ← ENNReal.ofReal_mul hd.le]
  ring_nf

theorem planeArea_rects {rects : List (AARect ℝ)} {a : ENNReal} (h : ∀ r ∈ rects, planeArea r.pts = a) :
    planeArea {p | ∃ r ∈ rects, p ∈ r.pts} ≤ rects.length * a := by
  induction rects with
  | nil =>
    have : {p : Point ℝ | ∃ r ∈ ([] : List (AARect ℝ)), p ∈ r.pts} = ∅ := by ext; simp
    rw [this]
    unfold planeArea
    have : {q : ℝ × ℝ | (⟨q.1, q.2⟩ : Point ℝ) ∈ (∅ : Set (Point ℝ))} = ∅ := rfl
    rw [this]
    simp
  | cons r rs ih =>
    have e : {p : Point ℝ | ∃ x ∈ r :: rs, p ∈ x.pts} = r.pts ∪ {p | ∃ x ∈ rs, p ∈ x.pts} := by ext; simp
    have h1 := ih fun x hx => h x (List.mem_cons_of_mem _ hx)
    have h2 : planeArea (r.pts ∪ {p | ∃ x ∈ rs, p ∈ x.pts}) ≤ planeArea r.pts + planeArea {p | ∃ x ∈ rs, p ∈ x.pts} := measure_union_le _ _
    rw [e]
    refine h2.trans ?_
    rw [h r List.mem_cons_self, List.length_cons]
    push_cast
    rw [add_mul, one_mul, add_comm]
    gcongr

/-- **The grid is built if the free part is at least 1/400 of the box.** -/
theorem HPG.new_isSome {env : HEnv ℝ} (hs : env.SqrtWithin 0) (hf : env.f = Fpa.exact) (hce : env.CeilExact) {bbox : AARect ℝ} (hbox : bbox.Valid)
    {statics : List (Hazard ℝ)} (hun : ∃ h ∈ statics, h.entity.isUniversal = true) (hw : ∀ h ∈ statics, h.shape.val.WF) (hst : ∀ h ∈ statics, h.Static)
    {nCells : ℕ} (hn : nCells ≠ 0) {free : Set (Point ℝ)} (hfb : free ⊆ bbox.pts)
    (hfree : ∀ p ∈ free, ∀ h ∈ statics, h.entity.isUniversal = true → p ∉ closedHaz h.entity.position h.shape.val.points)
    (harea : ENNReal.ofReal (bbox.area / 400) ≤ planeArea free) : ∃ g, HPG.new env bbox statics nCells = some g := by
  have bx : bbox.xMin < bbox.xMax := hbox.1
  have by' : bbox.yMin < bbox.yMax := hbox.2
  have hA : 0 < bbox.area := by
    unfold AARect.area
    exact mul_pos (by linarith) (by linarith)
  have hT : (0 : ℝ) < nCells := by exact_mod_cast Nat.pos_of_ne_zero hn
  have hmono : ∀ x y : ℝ, 0 ≤ x → x < y → env.sqrt x < env.sqrt y := by
    intro x y hx hxy
    rw [hs.exact hx, hs.exact (hx.trans hxy.le)]
    exact Real.sqrt_lt_sqrt hx hxy
  have h0 : 0 ≤ env.sqrt 0 := hs.nonneg 0 le_rfl
  have hq : 0 < bbox.area / nCells := by positivity
  have hsq : 0 < env.sqrt (bbox.area / nCells) := by rw [hs.exact hq.le]; exact Real.sqrt_pos.2 hq
  have hsq2 : env.sqrt (bbox.area / nCells) ^ 2 = bbox.area / nCells := by rw [hs.exact hq.le]; exact Real.sq_sqrt hq.le
  have hune : statics.filter (fun h => h.entity.isUniversal) ≠ [] := by
    obtain ⟨h, hh, hu⟩ := hun
    exact List.ne_nil_of_mem (List.mem_filter.2 ⟨hh, hu⟩)
  have hcov : ∀ dim rects, 0 < dim → GridGen.attempt env bbox (statics.filter fun h => h.entity.isUniversal) dim = some rects →
      planeArea free ≤ rects.length * ENNReal.ofReal (dim ^ 2) := by
    intro dim rects hd ha
    refine (planeArea_mono ?_).trans (planeArea_rects (rects := rects) ?_)
    · intro p hp
      refine GridGen.attempt_covers hmono h0 hf hce hbox hune (fun h hh => hw h (List.mem_filter.1 hh).1) hd ha (hfb hp) ?_
      intro h hh
      exact hfree p hp h (List.mem_filter.1 hh).1 (List.mem_filter.1 hh).2
    · intro r hr
      obtain ⟨-, hsub⟩ := GridGen.attempt_sublist ha
      obtain ⟨⟨i, j⟩, -, rfl⟩ := List.mem_map.1 (hsub.subset hr)
      exact cellRect_area bbox hd i j
  have hnum : ∀ dim (rects : List (AARect ℝ)), 0 < dim → GridGen.attempt env bbox (statics.filter fun h => h.entity.isUniversal) dim = some rects →
      bbox.area / 400 ≤ rects.length * dim ^ 2 := by
    intro dim rects hd ha
    have h1 := harea.trans (hcov dim rects hd ha)
    rw [← ENNReal.ofReal_natCast, ← ENNReal.ofReal_mul (by positivity), ENNReal.ofReal_le_ofReal_iff (by positivity)] at h1
    exact h1
  obtain ⟨rects, hr⟩ := GridGen.generate_isSome (env := env) (bbox := bbox) (hazards := statics.filter fun h => h.entity.isUniversal) (target := nCells) hA hsq
    (fun h hh => (hw h (List.mem_filter.1 hh).1).nonempty) (by
      intro co cells hco hco2 ha
      have h1 := hnum _ cells (by positivity) ha
      rw [mul_pow, hsq2] at h1
      have h2 : co ^ 2 ≤ (1 / 20) ^ 2 := pow_le_pow_left₀ hco.le hco2 2
      have h3 : bbox.area / 400 ≤ cells.length * (bbox.area / nCells * (1 / 20) ^ 2) := h1.trans (by gcongr)
      have h4 : (nCells : ℝ) ≤ cells.length := by
        have e : (cells.length : ℝ) * (bbox.area / nCells * (1 / 20) ^ 2) = bbox.area / 400 * (cells.length / nCells) := by ring
        rw [e] at h3
        have h5 : 1 ≤ (cells.length : ℝ) / nCells := by
          by_contra hc
          have := mul_lt_mul_of_pos_left (not_le.1 hc) (by positivity : 0 < bbox.area / 400)
          linarith
        rwa [le_div_iff₀ hT, one_mul] at h5
      exact_mod_cast h4)
  refine HPG.new_of_generate (fun h hh => (hw h hh).nonempty) hst hn hr ?_
  rintro rfl
  obtain ⟨dim, hd, ha⟩ := GridGen.generate_pos hsq hr
  have := hnum dim [] hd ha
  simp only [List.length_nil, Nat.cast_zero, zero_mul] at this
  linarith [show 0 < bbox.area / 400 by positivity]

/-! ## Flat bins -/

theorem SPoly.collidesPoint_bbox {f : Fpa ℝ} {s : SPoly ℝ} {p : Point ℝ} (h : s.collidesPoint f p = true) : p ∈ s.bbox.pts := by
  unfold SPoly.collidesPoint at h
  by_contra hc
  rw [← Jagua.collidesPoint_iff] at hc
  simp [hc] at h

/-- The centre of a kept cell is not far above or below the outline of the bin. -/
theorem GridGen.attempt_near {env : HEnv ℝ} (hs : env.SqrtWithin 0) {bbox : AARect ℝ} {hazards : List (Hazard ℝ)} {outer : Arc (SPoly ℝ)} {a : Bool}
    (hw : outer.val.WF) (hmem : (⟨.binExterior, outer, a⟩ : Hazard ℝ) ∈ hazards) {dim : ℝ} {rects : List (AARect ℝ)}
    (h : GridGen.attempt env bbox hazards dim = some rects) {r : AARect ℝ} (hr : r ∈ rects) {t : ℝ} (ht : 0 ≤ t) (ht2 : 2 * (dim / 2) ^ 2 ≤ t ^ 2) :
    outer.val.bbox.yMin - t < r.centroid.y ∧ r.centroid.y < outer.val.bbox.yMax + t := by
  unfold GridGen.attempt at h
  split_ifs at h
  obtain ⟨ls, hls, rfl⟩ := Option.map_eq_some_iff.1 h
  obtain ⟨l, hl, hrl⟩ := List.mem_flatten.1 hr
  obtain ⟨x, -, hx⟩ := forall₂_exists_left (mapM_forall₂_of hls) hl
  obtain ⟨d, hd, rfl⟩ := Option.map_eq_some_iff.1 hx
  split_ifs at hrl with hpos
  swap
  · cases hrl
  obtain rfl := List.mem_singleton.1 hrl
  by_contra hcon
  have hrad : env.sqrt (2 * (dim / 2) ^ 2) ≤ t := by
    rw [hs.exact (by positivity)]
    exact Real.sqrt_le_iff.2 ⟨ht, ht2⟩
  -- the signed distance to the outside of the bin
  have hle : d ≤ -t := by
    unfold GridGen.distanceToHazard at hd
    obtain ⟨m, hm, he⟩ := Option.map_eq_some_iff.1 hd
    obtain ⟨v, hv, hvd⟩ := forall₂_right_mem (mapM_forall₂_of hm) hmem
    obtain ⟨⟨pos, w⟩, hpw, rfl⟩ := Option.map_eq_some_iff.1 hvd
    have hdv : d ≤ if pos = (HazardEntity.binExterior : HazardEntity ℝ).position then -w else w := by
      cases m with
      | nil => cases hv
      | cons v0 vs =>
        dsimp only at he
        rw [← he]
        rcases List.mem_cons.1 hv with hv | hv
        · rw [← hv]; exact (foldl_min_spec vs _).2.1
        · exact (foldl_min_spec vs _).2.2 _ hv
    refine hdv.trans ?_
    obtain ⟨q, h1, ⟨z, hz, hzq⟩, -⟩ := SPoly.sqDistanceFromBorder_spec (f := env.f) hw.nonempty r.centroid
    dsimp only at hpw
    unfold SPoly.distanceFromBorder at hpw
    rw [h1, Option.map_some] at hpw
    obtain ⟨e1, e2⟩ := Prod.mk.inj (Option.some.inj hpw)
    have hzb := bdry_subset_bbox hz
    rw [← hw.bbox_eq] at hzb
    obtain ⟨-, -, z3, z4⟩ := hzb
    have hq0 : 0 ≤ q := by rw [← hzq]; positivity
    have hout : r.centroid.y < outer.val.bbox.yMin ∨ outer.val.bbox.yMax < r.centroid.y ∨ t = 0 := by
      rcases ht.eq_or_lt with h | h
      · exact .inr (.inr h.symm)
      · by_contra hno
        push Not at hno
        exact hcon ⟨by linarith, by linarith⟩
    have htq : t ≤ w := by
      rw [← e2, hs.exact hq0]
      refine Real.le_sqrt_of_sq_le ?_
      rw [← hzq]
      have : t ^ 2 ≤ (r.centroid.y - z.y) ^ 2 := by
        rcases lt_or_ge (outer.val.bbox.yMin - t) r.centroid.y with h3 | h3
        · have h4 : outer.val.bbox.yMax + t ≤ r.centroid.y := by
            by_contra hno
            exact hcon ⟨h3, not_le.1 hno⟩
          exact pow_le_pow_left₀ ht (by linarith) 2
        · rw [← neg_sq (r.centroid.y - z.y)]
          exact pow_le_pow_left₀ ht (by linarith) 2
      nlinarith [sq_nonneg (r.centroid.x - z.x)]
    have hpe : t = 0 ∨ pos = .exterior := by
      rcases hout with h3 | h3 | h3
      · right
        rw [← e1, if_neg]
        intro hc
        have := (SPoly.collidesPoint_bbox hc).2.2.1
        linarith
      · right
        rw [← e1, if_neg]
        intro hc
        have := (SPoly.collidesPoint_bbox hc).2.2.2
        linarith
      · exact .inl h3
    rcases hpe with h3 | h3
    · exfalso
      subst h3
      have : 2 * (dim / 2) ^ 2 = 0 := le_antisymm (by simpa using ht2) (by positivity)
      have : dim = 0 := by nlinarith
      contradiction
    · rw [if_pos (by rw [h3]; rfl)]
      linarith
  linarith

/-- Too few cells for every factor. -/
theorem GridGen.flat_few {env : HEnv ℝ} (hs : env.SqrtWithin 0) {bbox : AARect ℝ} {hazards : List (Hazard ℝ)} {outer : Arc (SPoly ℝ)} {a : Bool}
    (hw : outer.val.WF) (hmem : (⟨.binExterior, outer, a⟩ : Hazard ℝ) ∈ hazards) {dim : ℝ} (hd : 0 < dim)
    (hflat : outer.val.bbox.yMax - outer.val.bbox.yMin ≤ 58 / 100 * dim) {rects : List (AARect ℝ)}
    (h : GridGen.attempt env bbox hazards dim = some rects) : rects.length ≤ 2 * env.ceil (bbox.width / dim) := by
  classical
  obtain ⟨-, hsub⟩ := GridGen.attempt_sublist h
  set nx := env.ceil (bbox.width / dim)
  set ny := env.ceil (bbox.height / dim)
  have hinj : Function.Injective fun p : ℕ × ℕ => GridGen.cellRect bbox dim p.1 p.2 := by
    rintro ⟨i, j⟩ ⟨i', j'⟩ he
    unfold GridGen.cellRect at he
    simp only [AARect.mk.injEq, add_right_inj] at he
    obtain ⟨e1, e2, -, -⟩ := he
    rw [show i = i' by exact_mod_cast mul_left_cancel₀ hd.ne' e1, show j = j' by exact_mod_cast mul_left_cancel₀ hd.ne' e2]
  have hnd : rects.Nodup := hsub.nodup (List.Nodup.map hinj (List.nodup_range.product List.nodup_range))
  let J := (Finset.range ny).filter fun j => ∃ i, GridGen.cellRect bbox dim i j ∈ rects
  have hcy : ∀ i j : ℕ, (GridGen.cellRect bbox dim i j).centroid.y = bbox.yMin + dim * j + dim / 2 := by
    intro i j
    unfold GridGen.cellRect AARect.centroid
    dsimp only
    ring
  have hnear : ∀ j ∈ J, outer.val.bbox.yMin - 71 / 100 * dim < bbox.yMin + dim * j + dim / 2 ∧
      bbox.yMin + dim * j + dim / 2 < outer.val.bbox.yMax + 71 / 100 * dim := by
    intro j hj
    obtain ⟨-, i, hi⟩ := Finset.mem_filter.1 hj
    have := GridGen.attempt_near hs hw hmem h hi (t := 71 / 100 * dim) (by positivity) (by nlinarith [sq_nonneg dim])
    rwa [hcy] at this
  have hJ : J.card ≤ 2 := by
    by_cases hne : J.Nonempty
    · have hss : J ⊆ {J.min' hne, J.min' hne + 1} := by
        intro j hj
        have h1 := J.min'_le j hj
        have h2 := (hnear _ (J.min'_mem hne)).1
        have h3 := (hnear j hj).2
        rw [Finset.mem_insert, Finset.mem_singleton]
        by_contra hno
        have h4 : J.min' hne + 2 ≤ j := by omega
        have h5 : ((J.min' hne : ℕ) : ℝ) + 2 ≤ j := by exact_mod_cast h4
        have h6 := mul_le_mul_of_nonneg_left h5 hd.le
        linarith
      exact (Finset.card_le_card hss).trans Finset.card_le_two
    · rw [Finset.not_nonempty_iff_eq_empty.1 hne]
      simp
  have hfs : rects.toFinset ⊆ (Finset.range nx ×ˢ J).image fun p : ℕ × ℕ => GridGen.cellRect bbox dim p.1 p.2 := by
    intro r hr
    have hr' := List.mem_toFinset.1 hr
    obtain ⟨⟨i, j⟩, hij, rfl⟩ := List.mem_map.1 (hsub.subset hr')
    rw [List.mem_product, List.mem_range, List.mem_range] at hij
    refine Finset.mem_image.2 ⟨(i, j), ?_, rfl⟩
    rw [Finset.mem_product]
    exact ⟨Finset.mem_range.2 hij.1, Finset.mem_filter.2 ⟨Finset.mem_range.2 hij.2, i, hr'⟩⟩
  rw [← List.toFinset_card_of_nodup hnd]
  refine (Finset.card_le_card hfs).trans (Finset.card_image_le.trans ?_)
  rw [Finset.card_product, Finset.card_range, mul_comm]
  exact Nat.mul_le_mul_right _ hJ

/-- **No grid for bins that are much wider than high.** -/
theorem HPG.new_flat {env : HEnv ℝ} (hs : env.SqrtWithin 0) (hce : env.CeilExact) {statics : List (Hazard ℝ)} {outer : Arc (SPoly ℝ)} {a : Bool}
    (hw : outer.val.WF) (hmem : (⟨.binExterior, outer, a⟩ : Hazard ℝ) ∈ statics) {nCells : ℕ} (hn : 1700 ≤ nCells)
    (hflat : 1225 * nCells * outer.val.bbox.height ^ 2 ≤ outer.val.bbox.width ^ 2) :
    HPG.new env outer.val.bbox.inflateToSquare statics nCells = none := by
  obtain ⟨bx, by'⟩ := hw.bbox_valid
  set b := outer.val.bbox with hb
  have hT : (1700 : ℝ) ≤ nCells := by exact_mod_cast hn
  have hww : 0 < b.width := by unfold AARect.width; linarith
  have hhh : 0 < b.height := by unfold AARect.height; linarith
  set s := Real.sqrt nCells with hsd
  have hs2 : s ^ 2 = nCells := Real.sq_sqrt (by linarith)
  have hs41 : 41 ≤ s := Real.le_sqrt_of_sq_le (by linarith)
  have hwh : 35 * s * b.height ≤ b.width := by
    refine abs_le_of_sq_le_sq' ?_ hww.le |>.2
    calc (35 * s * b.height) ^ 2 = 1225 * s ^ 2 * b.height ^ 2 := by ring
      _ ≤ b.width ^ 2 := by rw [hs2]; exact hflat
  have hlt : b.height < b.width := by nlinarith
  have hbw : b.inflateToSquare.width = b.width := by
    unfold AARect.inflateToSquare AARect.width
    unfold AARect.height AARect.width at hlt
    simp only [hlt, if_true]
    ring
  have hbh : b.inflateToSquare.height = b.width := by rw [← inflate_square, hbw]
  have harea : b.inflateToSquare.area = b.width ^ 2 := by
    have : b.inflateToSquare.area = b.inflateToSquare.width * b.inflateToSquare.height := rfl
    rw [this, hbw, hbh]; ring
  have hsq : env.sqrt (b.inflateToSquare.area / nCells) = b.width / s := by
    rw [harea, ← hs2, ← div_pow, hs.exact (by positivity), Real.sqrt_sq (by positivity)]
  unfold HPG.new
  rw [if_neg (by omega)]
  rw [GridGen.generate_none, Option.bind_none]
  intro k cells hk hk20 ha
  rw [hsq] at ha
  have hk1 : (1 : ℝ) ≤ k := by exact_mod_cast hk
  have hdim : b.width / (20 * s) ≤ b.width / s * (k * (1 / 20)) := by
    have e : b.width / s * (k * (1 / 20)) = b.width / (20 * s) * k := by field_simp
    rw [e]
    exact le_mul_of_one_le_right (by positivity) hk1
  have hd : 0 < b.width / s * (k * (1 / 20)) := lt_of_lt_of_le (by positivity) hdim
  set dim := b.width / s * (k * (1 / 20)) with hdd
  have hf : b.yMax - b.yMin ≤ 58 / 100 * dim := by
    have h1 : b.height ≤ b.width / (35 * s) := by
      rw [le_div_iff₀ (by positivity)]
      linarith
    have h2 : b.width / (35 * s) = 20 / 35 * (b.width / (20 * s)) := by field_simp
    have h3 : b.height = b.yMax - b.yMin := rfl
    have : 0 < b.width / (20 * s) := by positivity
    rw [← h3]
    linarith
  have hcnt := GridGen.flat_few hs hw (List.mem_filter.2 ⟨hmem, rfl⟩) hd hf ha
  rw [hbw] at hcnt
  have hquo : b.width / dim ≤ 20 * s := by
    rw [div_le_iff₀ hd]
    calc b.width = 20 * s * (b.width / (20 * s)) := by field_simp
      _ ≤ 20 * s * dim := by gcongr
  have hce' : env.ceil (b.width / dim) ≤ ⌈20 * s⌉₊ := (hce _ _).2 (hquo.trans (Nat.le_ceil _))
  have hcl : (⌈20 * s⌉₊ : ℝ) < 20 * s + 1 := Nat.ceil_lt_add_one (by positivity)
  have h1 : (cells.length : ℝ) ≤ 2 * ⌈20 * s⌉₊ := by exact_mod_cast hcnt.trans (Nat.mul_le_mul_left 2 hce')
  have h2 : (cells.length : ℝ) < nCells := by nlinarith
  exact_mod_cast h2

end Jagua
