import Verif.Lemmas.BoundingCircle
import Verif.Spec.FailFast
import Verif.Lemmas.PolyCollides
import Verif.Lemmas.QTGeo

/-!
# The search for poles

Correctness of `POINode.signedDistance` and of the loop `poiLoop`.
-/

set_option linter.unusedSectionVars false

namespace Jagua

variable {K : Type*} [Field K] [LinearOrder K] [IsStrictOrderedRing K]

theorem HEnv.SqrtExact.down {env : HEnv K} (hs : env.SqrtExact) : env.SqrtDown fun _ => True where
  lower x hx := ⟨(hs x hx).1, (hs x hx).2.le⟩
  rep_sqrt _ _ := trivial
  rep_sub _ _ _ _ := trivial
  rep_max := trivial
  rep_le R x _ h0 h := by
    have hx : 0 ≤ x := le_trans (sq_nonneg _) h
    refine le_of_sq_le_sq ?_ (hs x hx).1
    rw [(hs x hx).2]
    exact h

namespace POINode

/-- the distances of which the smallest is taken -/
def dists (env : HEnv K) (poly : SPoly K) (poles : List (Circle K)) (p : Point K) : List K :=
  poly.edges.map (fun e => env.sqrt (e.sqDistance p)) ++ poles.map (fun c => (c.distanceFromBorder env p).2)

/-- the smallest distance -/
def minDist (env : HEnv K) (poly : SPoly K) (poles : List (Circle K)) (p : Point K) : K :=
  (dists env poly poles p).foldl min env.fmax

/-- the point is inside the shape and outside of all poles -/
def inside (env : HEnv K) (poly : SPoly K) (poles : List (Circle K)) (p : Point K) : Bool :=
  poly.collidesPoint env.f p && poles.all (fun c => !c.collidesPoint p)

theorem signedDistance_eq (env : HEnv K) (poly : SPoly K) (poles : List (Circle K)) (p : Point K) :
    signedDistance env poly poles p = if inside env poly poles p then minDist env poly poles p else -minDist env poly poles p := rfl

theorem sqDistance_nonneg (e : Edge K) (p : Point K) : 0 ≤ e.sqDistance p := by
  obtain ⟨-, -, ⟨q, hq, hqd⟩, -⟩ := C31_closest_point e p
  rw [← hqd]
  positivity

theorem distanceFromBorder_snd (env : HEnv K) (c : Circle K) (p : Point K) :
    (c.distanceFromBorder env p).2 = |env.sqrt (sqDist p c.center) - c.radius| := by
  unfold Circle.distanceFromBorder sqDist
  dsimp only
  split_ifs with h
  · rw [abs_of_nonpos (by linarith), neg_sub]
  · rw [abs_of_nonneg (by linarith [not_le.1 h])]

theorem minDist_nonneg {env : HEnv K} (h0 : ∀ x, 0 ≤ x → 0 ≤ env.sqrt x) (hm : 0 ≤ env.fmax) (poly : SPoly K)
    (poles : List (Circle K)) (p : Point K) : 0 ≤ minDist env poly poles p := by
  rcases (foldl_min_spec (dists env poly poles p) env.fmax).1 with h | h
  · unfold minDist; rw [h]; exact hm
  · rcases List.mem_append.1 h with h | h
    · obtain ⟨e, -, he⟩ := List.mem_map.1 h
      unfold minDist
      rw [← he]
      exact h0 _ (sqDistance_nonneg e p)
    · obtain ⟨c, -, hc⟩ := List.mem_map.1 h
      unfold minDist
      rw [← hc, distanceFromBorder_snd]
      exact abs_nonneg _

theorem minDist_edge (env : HEnv K) {poly : SPoly K} (poles : List (Circle K)) (p : Point K) {e : Edge K} (he : e ∈ poly.edges) :
    minDist env poly poles p ≤ env.sqrt (e.sqDistance p) :=
  (foldl_min_spec (dists env poly poles p) env.fmax).2.2 _ (List.mem_append_left _ (List.mem_map.2 ⟨e, he, rfl⟩))

theorem minDist_pole (env : HEnv K) (poly : SPoly K) {poles : List (Circle K)} (p : Point K) {c : Circle K} (hc : c ∈ poles) :
    minDist env poly poles p ≤ |env.sqrt (sqDist p c.center) - c.radius| := by
  rw [← distanceFromBorder_snd]
  exact (foldl_min_spec (dists env poly poles p) env.fmax).2.2 _ (List.mem_append_right _ (List.mem_map.2 ⟨c, hc, rfl⟩))

/-- A positive signed distance is the radius of a disc inside the shape and
outside of the poles. -/
theorem signedDistance_sound {env : HEnv K} {Rep : K → Prop} (hs : env.SqrtDown Rep) (hf : env.f = Fpa.exact) (hm : 0 ≤ env.fmax)
    {poly : SPoly K} (hw : poly.WF) {poles : List (Circle K)} (hp : ∀ c ∈ poles, Rep c.radius ∧ 0 ≤ c.radius) {p : Point K}
    (h : 0 < signedDistance env poly poles p) :
    p ∈ interior poly.points ∧ (∀ w ∈ bdry poly.points, signedDistance env poly poles p ^ 2 ≤ sqDist p w) ∧
      (∀ c ∈ poles, (signedDistance env poly poles p + c.radius) ^ 2 ≤ sqDist p c.center) ∧ Rep (signedDistance env poly poles p) := by
  rw [signedDistance_eq] at h ⊢
  have hd0 := minDist_nonneg (env := env) (fun x hx => (hs.lower x hx).1) hm poly poles p
  have hi : inside env poly poles p = true := by
    by_contra hc
    rw [if_neg hc] at h
    linarith
  rw [if_pos hi] at h ⊢
  have hb : ∀ w ∈ bdry poly.points, minDist env poly poles p ^ 2 ≤ sqDist p w := by
    intro w hw
    obtain ⟨g, hg, hq⟩ := mem_bdry_iff.1 hw
    obtain ⟨-, -, -, hall⟩ := C31_closest_point g p
    refine le_trans ?_ (hall w hq)
    refine le_trans ?_ (hs.lower _ (sqDistance_nonneg g p)).2
    exact pow_le_pow_left₀ hd0 (minDist_edge env poles p hg) 2
  unfold inside at hi
  rw [Bool.and_eq_true, hf, List.all_eq_true] at hi
  have hpb : p ∉ bdry poly.points := by
    intro hpb
    have := hb p hpb
    have h0 : sqDist p p = 0 := by unfold sqDist; ring
    rw [h0] at this
    nlinarith
  refine ⟨(SPoly.collidesPoint_iff hw hpb).1 hi.1, hb, ?_, ?_⟩
  · intro c hc
    have hnc := hi.2 c hc
    rw [Bool.not_eq_true', Bool.eq_false_iff, Ne, circle_collidesPoint_iff] at hnc
    have hlt : c.radius ^ 2 < sqDist p c.center := not_le.1 hnc
    obtain ⟨hrep, hc0⟩ := hp c hc
    obtain ⟨l0, l1⟩ := hs.lower _ (sqDist_nonneg p c.center)
    have hle := hs.rep_le _ _ hrep hc0 hlt.le
    have hmin := minDist_pole env poly p hc
    rw [abs_of_nonneg (sub_nonneg.2 hle)] at hmin
    refine le_trans ?_ l1
    exact pow_le_pow_left₀ (by linarith) (by linarith) 2
  · rcases (foldl_min_spec (dists env poly poles p) env.fmax).1 with hh | hh
    · unfold minDist; rw [hh]; exact hs.rep_max
    · rcases List.mem_append.1 hh with hh | hh
      · obtain ⟨e, -, he⟩ := List.mem_map.1 hh
        unfold minDist
        rw [← he]
        exact hs.rep_sqrt _ (sqDistance_nonneg e p)
      · obtain ⟨c, hc, he⟩ := List.mem_map.1 hh
        unfold minDist
        rw [← he, distanceFromBorder_snd]
        rcases abs_choice (env.sqrt (sqDist p c.center) - c.radius) with ha | ha
        · rw [ha]
          exact hs.rep_sub _ _ (hs.rep_sqrt _ (sqDist_nonneg _ _)) (hp c hc).1
        · rw [ha, neg_sub]
          exact hs.rep_sub _ _ (hp c hc).1 (hs.rep_sqrt _ (sqDist_nonneg _ _))

/-! ### The signed distance is 1-Lipschitz -/

theorem edge_dist_lip {env : HEnv K} (hs : env.SqrtExact) (e : Edge K) {p q : Point K} {δ : K} (hδ : 0 ≤ δ) (h : sqDist p q ≤ δ ^ 2) :
    env.sqrt (e.sqDistance q) ≤ env.sqrt (e.sqDistance p) + δ := by
  obtain ⟨-, -, ⟨w, hw, hwd⟩, -⟩ := C31_closest_point e p
  obtain ⟨-, -, -, hall⟩ := C31_closest_point e q
  obtain ⟨p0, p1⟩ := hs _ (sqDistance_nonneg e p)
  obtain ⟨q0, q1⟩ := hs _ (sqDistance_nonneg e q)
  refine le_of_sq_le_sq ?_ (by linarith)
  rw [q1]
  refine (hall w hw).trans ?_
  have ht := sqDist_triangle (p := q) (q := p) (r := w) hδ p0 (by rw [sqDist_comm]; exact h) (by rw [p1]; exact hwd.le)
  rw [add_comm δ] at ht
  exact le_trans (le_of_eq (by unfold sqDist; ring)) ht

theorem center_dist_lip {env : HEnv K} (hs : env.SqrtExact) (c : Point K) {p q : Point K} {δ : K} (hδ : 0 ≤ δ) (h : sqDist p q ≤ δ ^ 2) :
    env.sqrt (sqDist q c) ≤ env.sqrt (sqDist p c) + δ := by
  obtain ⟨p0, p1⟩ := hs _ (sqDist_nonneg p c)
  obtain ⟨q0, q1⟩ := hs _ (sqDist_nonneg q c)
  refine le_of_sq_le_sq ?_ (by linarith)
  rw [q1, add_comm]
  exact sqDist_triangle hδ p0 (by rw [sqDist_comm]; exact h) (by rw [p1])

theorem minDist_lip {env : HEnv K} (hs : env.SqrtExact) (poly : SPoly K) (poles : List (Circle K)) {p q : Point K} {δ : K}
    (hδ : 0 ≤ δ) (h : sqDist p q ≤ δ ^ 2) : minDist env poly poles q ≤ minDist env poly poles p + δ := by
  rcases (foldl_min_spec (dists env poly poles p) env.fmax).1 with hh | hh
  · have e : minDist env poly poles p = env.fmax := hh
    rw [e]
    exact (foldl_min_spec (dists env poly poles q) env.fmax).2.1.trans (by linarith)
  · rcases List.mem_append.1 hh with hh | hh
    · obtain ⟨e, he, heq⟩ := List.mem_map.1 hh
      have e' : minDist env poly poles p = env.sqrt (e.sqDistance p) := heq.symm
      rw [e']
      exact (minDist_edge env poles q he).trans (edge_dist_lip hs e hδ h)
    · obtain ⟨c, hc, heq⟩ := List.mem_map.1 hh
      have e' : minDist env poly poles p = |env.sqrt (sqDist p c.center) - c.radius| := by
        rw [← distanceFromBorder_snd]; exact heq.symm
      rw [e']
      refine (minDist_pole env poly q hc).trans ?_
      have h1 := center_dist_lip hs c.center hδ h
      have h2 := center_dist_lip hs c.center hδ (p := q) (q := p) (by rw [sqDist_comm]; exact h)
      rw [abs_le]
      have h3 := le_abs_self (env.sqrt (sqDist p c.center) - c.radius)
      have h4 := neg_abs_le (env.sqrt (sqDist p c.center) - c.radius)
      constructor <;> linarith

theorem minDist_bdry {env : HEnv K} (hs : env.SqrtExact) {poly : SPoly K} (poles : List (Circle K)) {p w : Point K} {δ : K}
    (hw : w ∈ bdry poly.points) (hδ : 0 ≤ δ) (h : sqDist p w ≤ δ ^ 2) : minDist env poly poles p ≤ δ := by
  obtain ⟨g, hg, hq⟩ := mem_bdry_iff.1 hw
  obtain ⟨-, -, -, hall⟩ := C31_closest_point g p
  refine (minDist_edge env poles p hg).trans ?_
  refine le_of_sq_le_sq ?_ hδ
  rw [(hs _ (sqDistance_nonneg g p)).2]
  exact (hall w hq).trans h

theorem signedDistance_lip {env : HEnv K} (hs : env.SqrtExact) (hf : env.f = Fpa.exact) (hm : 0 ≤ env.fmax)
    {poly : SPoly K} (hw : poly.WF) {poles : List (Circle K)} (hp : ∀ c ∈ poles, 0 ≤ c.radius) {p q : Point K} {δ : K} (hδ : 0 ≤ δ)
    (h : sqDist p q ≤ δ ^ 2) : signedDistance env poly poles q ≤ signedDistance env poly poles p + δ := by
  have hlip := minDist_lip hs poly poles hδ h
  have hlip' := minDist_lip hs poly poles hδ (p := q) (q := p) (by rw [sqDist_comm]; exact h)
  have hp0 := minDist_nonneg (env := env) (fun x hx => (hs x hx).1) hm poly poles p
  have hq0 := minDist_nonneg (env := env) (fun x hx => (hs x hx).1) hm poly poles q
  rw [signedDistance_eq, signedDistance_eq]
  by_cases hq : inside env poly poles q = true
  · by_cases hpi : inside env poly poles p = true
    · rw [if_pos hq, if_pos hpi]; exact hlip
    · rw [if_pos hq, if_neg hpi]
      suffices minDist env poly poles p + minDist env poly poles q ≤ δ by linarith
      unfold inside at hq hpi
      rw [Bool.and_eq_true, List.all_eq_true] at hq hpi
      by_cases hbp : p ∈ bdry poly.points
      · have h1 := minDist_bdry hs poles hbp le_rfl (p := p) (δ := 0) (by unfold sqDist; simp)
        have h2 := minDist_bdry hs poles hbp hδ (p := q) (by rw [sqDist_comm]; exact h)
        linarith
      by_cases hbq : q ∈ bdry poly.points
      · have h1 := minDist_bdry hs poles hbq le_rfl (p := q) (δ := 0) (by unfold sqDist; simp)
        have h2 := minDist_bdry hs poles hbq hδ (p := p) h
        linarith
      by_cases hc : poly.collidesPoint env.f p = true
      · -- inside of a pole
        have : ¬∀ x ∈ poles, (!x.collidesPoint p) = true := fun hall => hpi ⟨hc, hall⟩
        push Not at this
        obtain ⟨c, hcm, hcol⟩ := this
        have hqc := hq.2 c hcm
        rw [Bool.not_eq_true', Bool.eq_false_iff, Ne, circle_collidesPoint_iff] at hqc
        have hpc : p ∈ c.pts := by
          rw [← circle_collidesPoint_iff]
          simpa using hcol
        have hpc : sqDist p c.center ≤ c.radius ^ 2 := hpc
        have hqc : c.radius ^ 2 < sqDist q c.center := not_le.1 hqc
        obtain ⟨p0, p1⟩ := hs _ (sqDist_nonneg p c.center)
        obtain ⟨q0, q1⟩ := hs _ (sqDist_nonneg q c.center)
        have a1 : env.sqrt (sqDist p c.center) ≤ c.radius := le_of_sq_le_sq (by rw [p1]; exact hpc) (hp c hcm)
        have a2 : c.radius ≤ env.sqrt (sqDist q c.center) := le_of_sq_le_sq (by rw [q1]; exact hqc.le) q0
        have m1 := minDist_pole env poly p hcm
        have m2 := minDist_pole env poly q hcm
        rw [abs_of_nonpos (by linarith)] at m1
        rw [abs_of_nonneg (by linarith)] at m2
        have := center_dist_lip hs c.center hδ h
        linarith
      · -- outside of the shape
        rw [hf] at hc hq
        rw [SPoly.collidesPoint_iff hw hbp] at hc
        have hqi := (SPoly.collidesPoint_iff hw hbq).1 hq.1
        have : ∃ w ∈ segPts p q, w ∈ bdry poly.points := by
          by_contra hcon
          push Not at hcon
          exact hc ⟨hbp, (rayCount_parity poly.points hcon).2 hqi.2⟩
        obtain ⟨w, ⟨t, t0, t1, wx, wy⟩, hwb⟩ := this
        have h1 := minDist_bdry hs poles hwb (p := p) (δ := t * δ) (by positivity) (by
          have : sqDist p w = t ^ 2 * sqDist p q := by unfold sqDist; rw [wx, wy]; ring
          rw [this, mul_pow]
          exact mul_le_mul_of_nonneg_left h (sq_nonneg _))
        have h2 := minDist_bdry hs poles hwb (p := q) (δ := (1 - t) * δ) (mul_nonneg (by linarith) hδ) (by
          have : sqDist q w = (1 - t) ^ 2 * sqDist p q := by unfold sqDist; rw [wx, wy]; ring
          rw [this, mul_pow]
          exact mul_le_mul_of_nonneg_left h (sq_nonneg _))
        linarith
  · rw [if_neg hq]
    split_ifs with hpi
    · linarith
    · linarith

/-! ### The tree -/

/-- `Desc n m`: `m` is `n` or below `n` in the tree. -/
inductive Desc (env : HEnv K) (poly : SPoly K) (poles : List (Circle K)) : POINode K → POINode K → Prop
  | refl (n) : Desc env poly poles n n
  | child {n c m} (h : c ∈ n.split env poly poles) (hm : Desc env poly poles c m) : Desc env poly poles n m

/-- what `POINode.new` makes -/
structure OK (env : HEnv K) (poly : SPoly K) (poles : List (Circle K)) (n : POINode K) : Prop where
  valid : n.bbox.xMin ≤ n.bbox.xMax ∧ n.bbox.yMin ≤ n.bbox.yMax
  radius : n.radius = n.bbox.diameter env / 2
  dist : n.distance = signedDistance env poly poles n.bbox.centroid

theorem mem_split {env : HEnv K} {poly : SPoly K} {poles : List (Circle K)} {n c : POINode K} :
    c ∈ n.split env poly poles ↔ ∃ l, n.level = l + 1 ∧ ∃ i, c = new env (n.bbox.quadrants i) l poly poles := by
  unfold split
  cases hl : n.level with
  | zero => simp
  | succ l =>
    simp only [List.mem_map]
    constructor
    · rintro ⟨i, -, rfl⟩
      exact ⟨l, rfl, i, rfl⟩
    · rintro ⟨l', hl', i, rfl⟩
      obtain rfl : l = l' := by omega
      refine ⟨i, ?_, rfl⟩
      fin_cases i <;> decide

theorem quadrants_sub {r : AARect K} (h : r.xMin ≤ r.xMax ∧ r.yMin ≤ r.yMax) (i : Fin 4) :
    ((r.quadrants i).xMin ≤ (r.quadrants i).xMax ∧ (r.quadrants i).yMin ≤ (r.quadrants i).yMax) ∧ (r.quadrants i).pts ⊆ r.pts := by
  obtain ⟨hx, hy⟩ := h
  have a1 : r.xMin ≤ (r.xMin + r.xMax) / 2 := by linarith
  have a2 : (r.xMin + r.xMax) / 2 ≤ r.xMax := by linarith
  have b1 : r.yMin ≤ (r.yMin + r.yMax) / 2 := by linarith
  have b2 : (r.yMin + r.yMax) / 2 ≤ r.yMax := by linarith
  fin_cases i <;>
  · simp only [AARect.quadrants, Edge.bbox, AARect.centroid, AARect.pts, Edge.xMin, Edge.xMax, Edge.yMin, Edge.yMax, a1, a2, b1, b2,
      min_eq_left, min_eq_right, max_eq_left, max_eq_right, Set.ofPred_subset_ofPred, and_self, true_and]
    rintro p ⟨h1, h2, h3, h4⟩
    refine ⟨?_, ?_, ?_, ?_⟩ <;> linarith

theorem OK.child {env : HEnv K} {poly : SPoly K} {poles : List (Circle K)} {n c : POINode K} (h : OK env poly poles n)
    (hc : c ∈ n.split env poly poles) : OK env poly poles c ∧ c.bbox.pts ⊆ n.bbox.pts ∧ c.level + 1 = n.level := by
  obtain ⟨l, hl, i, rfl⟩ := mem_split.1 hc
  obtain ⟨h1, h2⟩ := quadrants_sub h.valid i
  exact ⟨⟨h1, rfl, rfl⟩, h2, hl.symm⟩

theorem centroid_mem {r : AARect K} (h : r.xMin ≤ r.xMax ∧ r.yMin ≤ r.yMax) : r.centroid ∈ r.pts := by
  obtain ⟨hx, hy⟩ := h
  refine ⟨?_, ?_, ?_, ?_⟩ <;> simp only [AARect.centroid] <;> linarith

theorem Desc.ok {env : HEnv K} {poly : SPoly K} {poles : List (Circle K)} {n m : POINode K} (hd : Desc env poly poles n m)
    (h : OK env poly poles n) : OK env poly poles m ∧ m.bbox.pts ⊆ n.bbox.pts := by
  induction hd with
  | refl => exact ⟨h, subset_rfl⟩
  | child hc _ ih =>
    obtain ⟨h1, h2, -⟩ := h.child hc
    obtain ⟨h3, h4⟩ := ih h1
    exact ⟨h3, h4.trans h2⟩

/-- Nothing below a node is further from the borders than its upper bound. -/
theorem Desc.le_upperBound {env : HEnv K} (hs : env.SqrtExact) (hf : env.f = Fpa.exact) (hm : 0 ≤ env.fmax)
    {poly : SPoly K} (hw : poly.WF) {poles : List (Circle K)} (hp : ∀ c ∈ poles, 0 ≤ c.radius) {n m : POINode K}
    (hd : Desc env poly poles n m) (h : OK env poly poles n) : m.distance ≤ n.upperBound := by
  obtain ⟨hm1, hsub⟩ := hd.ok h
  obtain ⟨d0, d1⟩ := AARect.centroid_dist hs.upper (hsub (centroid_mem hm1.valid))
  unfold upperBound
  rw [hm1.dist, h.dist, h.radius, add_comm]
  exact signedDistance_lip hs hf hm hw hp d0 (by rw [sqDist_comm]; exact d1)

end POINode

/-! ### The loop -/

open POINode

theorem bestRadius_poiBest (n : POINode K) (b : Option (Circle K)) : bestRadius (poiBest n b) = max (bestRadius b) n.distance := by
  unfold poiBest
  split_ifs with h
  · rw [max_eq_right h.le]; rfl
  · rw [max_eq_left (not_lt.1 h)]

theorem poiTreeSize_pos (l : ℕ) : 0 < poiTreeSize l := by
  cases l <;> unfold poiTreeSize <;> omega

theorem split_size (env : HEnv K) (n : POINode K) (poly : SPoly K) (poles : List (Circle K)) :
    ((n.split env poly poles).map fun m => poiTreeSize m.level).sum + 1 ≤ poiTreeSize n.level := by
  unfold POINode.split
  cases hl : n.level with
  | zero => simp [poiTreeSize]
  | succ l =>
    simp only [List.map_cons, List.map_nil, List.sum_cons, List.sum_nil, POINode.new]
    rw [poiTreeSize]
    omega

/-- The loop comes to an end. -/
theorem poiLoop_terminates (env : HEnv K) (poly : SPoly K) (poles : List (Circle K)) {k : ℕ} {queue : List (POINode K)}
    {best : Option (Circle K)} (h : (queue.map fun m => poiTreeSize m.level).sum ≤ k) :
    ∃ b, poiLoop env poly poles k queue best = some b := by
  induction k generalizing queue best with
  | zero =>
    cases queue with
    | nil => exact ⟨_, rfl⟩
    | cons n q =>
      have := poiTreeSize_pos n.level
      simp only [List.map_cons, List.sum_cons] at h
      omega
  | succ k ih =>
    cases queue with
    | nil => exact ⟨_, rfl⟩
    | cons n q =>
      rw [poiLoop]
      refine ih ?_
      have hs := split_size env n poly poles
      simp only [List.map_cons, List.sum_cons] at h
      have := poiTreeSize_pos n.level
      split_ifs
      · rw [List.map_append, List.sum_append]
        omega
      · omega

/-- The best circle has its centre at a node of the tree, with its distance as radius. -/
def BestOK (env : HEnv K) (poly : SPoly K) (poles : List (Circle K)) (root : POINode K) : Option (Circle K) → Prop
  | none => True
  | some c => 0 < c.radius ∧ ∃ m, Desc env poly poles root m ∧ c.center = m.bbox.centroid ∧ c.radius = m.distance

theorem Desc.trans' {env : HEnv K} {poly : SPoly K} {poles : List (Circle K)} {a b c : POINode K} (h1 : Desc env poly poles a b)
    (h2 : Desc env poly poles b c) : Desc env poly poles a c := by
  induction h1 with
  | refl => exact h2
  | child h _ ih => exact .child h (ih h2)

theorem bestRadius_nonneg {env : HEnv K} {poly : SPoly K} {poles : List (Circle K)} {root : POINode K} {b : Option (Circle K)}
    (h : BestOK env poly poles root b) : 0 ≤ bestRadius b := by
  cases b with
  | none => exact le_rfl
  | some c => exact h.1.le

theorem poiLoop_ok {env : HEnv K} {poly : SPoly K} {poles : List (Circle K)} {root : POINode K} {k : ℕ} {queue : List (POINode K)}
    {best b : Option (Circle K)} (hq : ∀ n ∈ queue, Desc env poly poles root n) (hb : BestOK env poly poles root best)
    (h : poiLoop env poly poles k queue best = some b) :
    BestOK env poly poles root b ∧ bestRadius best ≤ bestRadius b ∧ ∀ n ∈ queue, n.distance ≤ bestRadius b := by
  induction k generalizing queue best with
  | zero =>
    cases queue with
    | nil => rw [poiLoop] at h; cases h; exact ⟨hb, le_rfl, by simp⟩
    | cons n q => simp [poiLoop] at h
  | succ k ih =>
    cases queue with
    | nil => rw [poiLoop] at h; cases h; exact ⟨hb, le_rfl, by simp⟩
    | cons n q =>
      rw [poiLoop] at h
      have hb' : BestOK env poly poles root (poiBest n best) := by
        unfold poiBest
        split_ifs with hlt
        · exact ⟨(bestRadius_nonneg hb).trans_lt hlt, n, hq n List.mem_cons_self, rfl, rfl⟩
        · exact hb
      have hq' : ∀ m ∈ (if bestRadius (poiBest n best) < n.upperBound then q ++ n.split env poly poles else q),
          Desc env poly poles root m := by
        intro m hm
        split_ifs at hm
        · rcases List.mem_append.1 hm with hm | hm
          · exact hq m (List.mem_cons_of_mem _ hm)
          · exact Desc.trans' (hq n List.mem_cons_self) (.child hm (.refl _))
        · exact hq m (List.mem_cons_of_mem _ hm)
      obtain ⟨i1, i2, i3⟩ := ih hq' hb' h
      rw [bestRadius_poiBest] at i2
      refine ⟨i1, (le_max_left _ _).trans i2, ?_⟩
      intro m hm
      rcases List.mem_cons.1 hm with rfl | hm
      · exact (le_max_right _ _).trans i2
      · refine i3 m ?_
        split_ifs
        · exact List.mem_append_left _ hm
        · exact hm

/-- Pruning loses nothing. -/
theorem poiLoop_optimal {env : HEnv K} (hs : env.SqrtExact) (hf : env.f = Fpa.exact) (hm : 0 ≤ env.fmax)
    {poly : SPoly K} (hw : poly.WF) {poles : List (Circle K)} (hp : ∀ c ∈ poles, 0 ≤ c.radius) {root : POINode K} {k : ℕ}
    {queue : List (POINode K)} {best b : Option (Circle K)} (hq : ∀ n ∈ queue, OK env poly poles n)
    (hroot : ∀ n ∈ queue, Desc env poly poles root n) (hb : BestOK env poly poles root best)
    (h : poiLoop env poly poles k queue best = some b) :
    ∀ n ∈ queue, ∀ m, Desc env poly poles n m → m.distance ≤ bestRadius b := by
  induction k generalizing queue best with
  | zero =>
    cases queue with
    | nil => simp
    | cons n q => simp [poiLoop] at h
  | succ k ih =>
    cases queue with
    | nil => simp
    | cons n q =>
      have hall := (poiLoop_ok hroot hb h).2.2
      rw [poiLoop] at h
      have hb' : BestOK env poly poles root (poiBest n best) := by
        unfold poiBest
        split_ifs with hlt
        · exact ⟨(bestRadius_nonneg hb).trans_lt hlt, n, hroot n List.mem_cons_self, rfl, rfl⟩
        · exact hb
      have hq' : ∀ m ∈ (if bestRadius (poiBest n best) < n.upperBound then q ++ n.split env poly poles else q),
          OK env poly poles m ∧ Desc env poly poles root m := by
        intro m hm
        split_ifs at hm
        · rcases List.mem_append.1 hm with hm | hm
          · exact ⟨hq m (List.mem_cons_of_mem _ hm), hroot m (List.mem_cons_of_mem _ hm)⟩
          · exact ⟨((hq n List.mem_cons_self).child hm).1, Desc.trans' (hroot n List.mem_cons_self) (.child hm (.refl _))⟩
        · exact ⟨hq m (List.mem_cons_of_mem _ hm), hroot m (List.mem_cons_of_mem _ hm)⟩
      have hmono := (poiLoop_ok (fun m hm => (hq' m hm).2) hb' h).2.1
      have ih' := ih (fun m hm => (hq' m hm).1) (fun m hm => (hq' m hm).2) hb' h
      intro x hx m hd
      rcases List.mem_cons.1 hx with rfl | hx
      · by_cases hc : bestRadius (poiBest x best) < x.upperBound
        · rw [if_pos hc] at ih'
          cases hd with
          | refl => exact hall _ List.mem_cons_self
          | child hch hd => exact ih' _ (List.mem_append_right _ hch) m hd
        · exact (hd.le_upperBound hs hf hm hw hp (hq _ List.mem_cons_self)).trans ((not_lt.1 hc).trans hmono)
      · refine ih' x ?_ m hd
        split_ifs
        · exact List.mem_append_left _ hx
        · exact hx

end Jagua
