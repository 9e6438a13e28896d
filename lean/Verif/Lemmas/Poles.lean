import Verif.Lemmas.Poi
import Verif.Lemmas.PolyNew

/-!
# Poles and surrogates
-/

set_option linter.unusedSectionVars false

namespace Jagua

variable {K : Type*} [Field K] [LinearOrder K] [IsStrictOrderedRing K]

open POINode

/-- A disc around an interior point that does not reach across the boundary lies in the region. -/
theorem disc_subset_region {pts : List (Point K)} {c : Circle K} (h0 : 0 < c.radius) (hi : c.center ∈ interior pts)
    (hb : ∀ w ∈ bdry pts, c.radius ^ 2 ≤ sqDist c.center w) : c.pts ⊆ region pts := by
  intro x hx
  by_cases hxb : x ∈ bdry pts
  · exact .inl hxb
  refine .inr ⟨hxb, ?_⟩
  refine (rayCount_parity pts ?_).1 hi.2
  rintro w ⟨t, t0, t1, wx, wy⟩ hwb
  have h1 := hb w hwb
  have e : sqDist c.center w = t ^ 2 * sqDist c.center x := by unfold sqDist; rw [wx, wy]; ring
  have hx' : sqDist c.center x ≤ c.radius ^ 2 := by rw [sqDist_comm]; exact hx
  rw [e] at h1
  have ht : t = 1 := by
    refine le_antisymm t1 ?_
    by_contra hlt
    push Not at hlt
    have : t ^ 2 * sqDist c.center x ≤ t ^ 2 * c.radius ^ 2 := mul_le_mul_of_nonneg_left hx' (sq_nonneg _)
    have h2 : t ^ 2 < 1 := by nlinarith
    have h3 : 0 < c.radius ^ 2 := by positivity
    nlinarith
  subst ht
  have : w = x := Point.ext (by rw [wx]; ring) (by rw [wy]; ring)
  exact hxb (this ▸ hwb)

/-- the root of the tree -/
def poiRoot (env : HEnv K) (s : SPoly K) (poles : List (Circle K)) : POINode K :=
  POINode.new env s.bbox.inflateToSquare maxPoiTreeDepth s poles

theorem inflateToSquare_valid {r : AARect K} (h : r.Valid) :
    r.inflateToSquare.xMin ≤ r.inflateToSquare.xMax ∧ r.inflateToSquare.yMin ≤ r.inflateToSquare.yMax := by
  obtain ⟨hx, hy⟩ := h
  unfold AARect.inflateToSquare
  dsimp only
  split_ifs <;> constructor <;> linarith

theorem poiRoot_ok (env : HEnv K) {s : SPoly K} (hw : s.WF) (poles : List (Circle K)) : OK env s poles (poiRoot env s poles) :=
  ⟨inflateToSquare_valid hw.bbox_valid, rfl, rfl⟩

/-- The search comes to an end: `none` only means that there is no pole. -/
theorem generateNextPole_loop (env : HEnv K) (s : SPoly K) (poles : List (Circle K)) :
    ∃ b, poiLoop env s poles (poiTreeSize maxPoiTreeDepth) [poiRoot env s poles] none = some b ∧
      generateNextPole env s poles = b ∧ BestOK env s poles (poiRoot env s poles) b := by
  obtain ⟨b, hb⟩ := poiLoop_terminates env s poles (k := poiTreeSize maxPoiTreeDepth) (queue := [poiRoot env s poles]) (best := none)
    (by simp [poiRoot, POINode.new])
  refine ⟨b, hb, ?_, ?_⟩
  · unfold generateNextPole
    change (poiLoop env s poles (poiTreeSize maxPoiTreeDepth) [poiRoot env s poles] none).bind id = b
    rw [hb]
    rfl
  · refine (poiLoop_ok (root := poiRoot env s poles) (best := none) (fun n hn => ?_) trivial hb).1
    rw [List.mem_singleton.1 hn]
    exact .refl _

theorem generateNextPole_good {env : HEnv K} {Rep : K → Prop} (hs : env.SqrtDown Rep) (hf : env.f = Fpa.exact) (hm : 0 ≤ env.fmax)
    {s : SPoly K} (hw : s.WF) {poles : List (Circle K)} (hp : ∀ c ∈ poles, Rep c.radius ∧ 0 ≤ c.radius) {c : Circle K}
    (h : generateNextPole env s poles = some c) : GoodPole s.points poles c ∧ Rep c.radius := by
  obtain ⟨b, -, h1, h2⟩ := generateNextPole_loop env s poles
  rw [h] at h1
  subst h1
  obtain ⟨hpos, m, hd, hcen, hrad⟩ := h2
  have hok := (hd.ok (poiRoot_ok env hw poles)).1
  rw [hok.dist, ← hcen] at hrad
  obtain ⟨r1, r2, r3, r4⟩ := signedDistance_sound hs hf hm hw hp (p := c.center) (by rw [← hrad]; exact hpos)
  rw [← hrad] at r2 r3 r4
  exact ⟨⟨hpos, r1, r2, r3⟩, r4⟩

/-- `InTree`: the boxes of the tree below a box, down to the given depth -/
inductive InTree : AARect K → ℕ → AARect K → Prop
  | root (r l) : InTree r l r
  | child {r l b} (i : Fin 4) (h : InTree (r.quadrants i) l b) : InTree r (l + 1) b

theorem InTree.desc (env : HEnv K) (s : SPoly K) (poles : List (Circle K)) {r b : AARect K} {l : ℕ} (h : InTree r l b) :
    ∃ l', Desc env s poles (POINode.new env r l s poles) (POINode.new env b l' s poles) := by
  induction h with
  | root r l => exact ⟨l, .refl _⟩
  | child i h ih =>
    obtain ⟨l', hd⟩ := ih
    exact ⟨l', .child (mem_split.2 ⟨_, rfl, i, rfl⟩) hd⟩

theorem Desc.inTree {env : HEnv K} {s : SPoly K} {poles : List (Circle K)} {n m : POINode K} (h : Desc env s poles n m) :
    InTree n.bbox n.level m.bbox := by
  induction h with
  | refl n => exact .root _ _
  | child hc hd ih =>
    obtain ⟨l, hl, i, rfl⟩ := mem_split.1 hc
    rw [hl]
    exact .child i ih

/-- the centres the search considers -/
def poiCandidates (s : SPoly K) : Set (Point K) :=
  {p | ∃ b, InTree s.bbox.inflateToSquare maxPoiTreeDepth b ∧ p = b.centroid}

theorem generateNextPole_center {env : HEnv K} {s : SPoly K} (hw : s.WF) {poles : List (Circle K)} {c : Circle K}
    (h : generateNextPole env s poles = some c) :
    c.center ∈ poiCandidates s ∧ c.radius = signedDistance env s poles c.center ∧ 0 < c.radius := by
  obtain ⟨b, -, h1, h2⟩ := generateNextPole_loop env s poles
  rw [h] at h1
  subst h1
  obtain ⟨hpos, m, hd, hcen, hrad⟩ := h2
  have hok := (hd.ok (poiRoot_ok env hw poles)).1
  refine ⟨⟨m.bbox, Desc.inTree hd, hcen⟩, ?_, hpos⟩
  rw [hrad, hok.dist, hcen]

/-- The result is the best of all centres considered. -/
theorem generateNextPole_best {env : HEnv K} (hs : env.SqrtExact) (hf : env.f = Fpa.exact) (hm : 0 ≤ env.fmax)
    {s : SPoly K} (hw : s.WF) {poles : List (Circle K)} (hp : ∀ c ∈ poles, 0 ≤ c.radius) {p : Point K} (hpc : p ∈ poiCandidates s) :
    signedDistance env s poles p ≤ bestRadius (generateNextPole env s poles) := by
  obtain ⟨b, hb, h1, h2⟩ := generateNextPole_loop env s poles
  obtain ⟨r, hr, rfl⟩ := hpc
  obtain ⟨l', hd⟩ := hr.desc env s poles
  rw [h1]
  exact poiLoop_optimal hs hf hm hw hp (root := poiRoot env s poles) (best := none)
    (by intro n hn; rw [List.mem_singleton.1 hn]; exact poiRoot_ok env hw poles)
    (by intro n hn; rw [List.mem_singleton.1 hn]; exact .refl _) trivial hb _ List.mem_cons_self _ hd

theorem foldl_min_append_le (l l' : List K) (x : K) : (l ++ l').foldl min x ≤ l.foldl min x := by
  rw [List.foldl_append]
  exact (foldl_min_spec l' (l.foldl min x)).2.1

/-- More poles, less distance. -/
theorem signedDistance_poles {env : HEnv K} {s : SPoly K} {poles : List (Circle K)} {p : Point K}
    (h0 : ∀ x, 0 ≤ x → 0 ≤ env.sqrt x) (hm : 0 ≤ env.fmax) (h : 0 < signedDistance env s poles p) :
    signedDistance env s poles p ≤ signedDistance env s [] p := by
  rw [signedDistance_eq] at h
  have hd0 := minDist_nonneg (env := env) h0 hm s poles p
  have hi : inside env s poles p = true := by
    by_contra hc
    rw [if_neg hc] at h
    linarith
  have hi' : inside env s [] p = true := by
    unfold inside at hi ⊢
    rw [Bool.and_eq_true] at hi ⊢
    exact ⟨hi.1, rfl⟩
  rw [signedDistance_eq, signedDistance_eq, if_pos hi, if_pos hi']
  unfold minDist dists
  rw [List.map_nil, List.append_nil]
  exact foldl_min_append_le _ _ _

/-- No pole is larger than the pole of inaccessibility. -/
theorem generateNextPole_le {env : HEnv K} (hs : env.SqrtExact) (hf : env.f = Fpa.exact) (hm : 0 ≤ env.fmax)
    {s : SPoly K} (hw : s.WF) {poles : List (Circle K)} {c d : Circle K}
    (h : generateNextPole env s poles = some c) (hd : generateNextPole env s [] = some d) : c.radius ≤ d.radius := by
  obtain ⟨h1, h2, h3⟩ := generateNextPole_center hw h
  have h4 := generateNextPole_best hs hf hm hw (poles := []) (by simp) h1
  rw [hd] at h4
  refine le_trans ?_ h4
  rw [h2]
  exact signedDistance_poles (fun x hx => (hs x hx).1) hm (by rw [← h2]; exact h3)

/-! ### All poles -/

theorem GoodPoles.perm {pts : List (Point K)} {l l' : List (Circle K)} (h : GoodPoles pts l) (hp : l.Perm l') : GoodPoles pts l' := by
  refine ⟨fun c hc => h.1 c (hp.mem_iff.2 hc), ?_⟩
  refine (List.Perm.pairwise_iff (fun {a b} hab => ?_) hp).1 h.2
  rw [sqDist_comm, add_comm]
  exact hab

theorem polesLoop_spec {env : HEnv K} {Rep : K → Prop} (hs : env.SqrtDown Rep) (hf : env.f = Fpa.exact) (hm : 0 ≤ env.fmax)
    {s : SPoly K} (hw : s.WF) {pi goal : K} {k : ℕ} {all out : List (Circle K)} {total : K}
    (hg : GoodPoles s.points all) (hr : ∀ c ∈ all, Rep c.radius) (h : polesLoop env pi s goal k all total = some out) :
    GoodPoles s.points out ∧ (∀ c ∈ out, Rep c.radius) ∧ (∃ l, out = all ++ l ∧ l.length ≤ k) ∧
      ∀ c ∈ out, c ∈ all ∨ ∃ ps, (∀ d ∈ ps, 0 ≤ d.radius) ∧ generateNextPole env s ps = some c := by
  induction k generalizing all total with
  | zero =>
    rw [polesLoop] at h
    cases h
    exact ⟨hg, hr, ⟨[], by simp, le_rfl⟩, fun c hc => .inl hc⟩
  | succ k ih =>
    rw [polesLoop] at h
    obtain ⟨c, hc, h⟩ := Option.bind_eq_some_iff.1 h
    obtain ⟨gp, gr⟩ := generateNextPole_good hs hf hm hw (fun d hd => ⟨hr d hd, (hg.1 d hd).1.le⟩) hc
    have hg' : GoodPoles s.points (all ++ [c]) := by
      refine ⟨?_, ?_⟩
      · intro d hd
        rcases List.mem_append.1 hd with hd | hd
        · exact hg.1 d hd
        · rw [List.mem_singleton.1 hd]
          exact ⟨gp.pos, gp.center, gp.edges⟩
      · rw [List.pairwise_append]
        refine ⟨hg.2, List.pairwise_singleton _ _, ?_⟩
        intro a ha b hb
        rw [List.mem_singleton.1 hb, add_comm, sqDist_comm]
        exact gp.others a ha
    have hr' : ∀ d ∈ all ++ [c], Rep d.radius := by
      intro d hd
      rcases List.mem_append.1 hd with hd | hd
      · exact hr d hd
      · rw [List.mem_singleton.1 hd]; exact gr
    have hgen : ∀ d ∈ all ++ [c], d ∈ all ∨ ∃ ps, (∀ d ∈ ps, 0 ≤ d.radius) ∧ generateNextPole env s ps = some d := by
      intro d hd
      rcases List.mem_append.1 hd with hd | hd
      · exact .inl hd
      · rw [List.mem_singleton.1 hd]
        exact .inr ⟨all, fun d hd => (hg.1 d hd).1.le, hc⟩
    dsimp only at h
    split_ifs at h
    · cases h
      exact ⟨hg', hr', ⟨[c], rfl, by simp⟩, hgen⟩
    · obtain ⟨i1, i2, ⟨l, i3, i5⟩, i4⟩ := ih hg' hr' h
      refine ⟨i1, i2, ⟨c :: l, by rw [i3]; simp, by simp; omega⟩, ?_⟩
      intro d hd
      rcases i4 d hd with hd | hd
      · exact hgen d hd
      · exact .inr hd

theorem lastMax_lt {l : List K} {i : ℕ} (h : lastMax l = some i) : i < l.length := by
  induction l generalizing i with
  | nil => simp [lastMax] at h
  | cons x xs ih =>
    rw [lastMax] at h
    split at h
    · cases h; simp
    · rename_i j hj
      have := ih hj
      split at h
      · split_ifs at h
        · cases h; simp
        · cases h; simp; exact this
      · simp at h

theorem lastMax_some {l : List K} (h : l ≠ []) : ∃ i, lastMax l = some i := by
  induction l with
  | nil => exact absurd rfl h
  | cons x xs ih =>
    rw [lastMax]
    split
    · exact ⟨_, rfl⟩
    · rename_i j hj
      have hl := lastMax_lt hj
      rw [List.getElem?_eq_getElem hl]
      dsimp only
      split_ifs
      · exact ⟨_, rfl⟩
      · exact ⟨_, rfl⟩

/-- Sorting the poles only changes their order. -/
theorem sortPoles_perm {env : HEnv K} {poi : Circle K} {k : ℕ} {unsorted sorted : List (Circle K)} (hk : unsorted.length ≤ k) :
    ∃ out, sortPoles env poi k unsorted sorted = some out ∧ out.Perm (sorted ++ unsorted) := by
  induction k generalizing unsorted sorted with
  | zero =>
    cases unsorted with
    | nil => exact ⟨sorted, rfl, by simp⟩
    | cons p u => simp at hk
  | succ k ih =>
    cases unsorted with
    | nil => exact ⟨sorted, rfl, by simp⟩
    | cons p u =>
      rw [sortPoles]
      obtain ⟨i, hi⟩ := lastMax_some (l := (p :: u).map (poleScore env poi sorted)) (by simp)
      have hl := lastMax_lt hi
      rw [List.length_map] at hl
      rw [hi, Option.bind_some, List.getElem?_eq_getElem hl, Option.bind_some]
      obtain ⟨out, h1, h2⟩ := ih (unsorted := (p :: u).eraseIdx i) (sorted := sorted ++ [(p :: u)[i]]) (by
        rw [List.length_eraseIdx_of_lt hl]
        simp only [List.length_cons] at hk ⊢
        omega)
      refine ⟨out, h1, h2.trans ?_⟩
      rw [List.append_assoc]
      refine List.Perm.append_left _ ?_
      exact List.getElem_cons_eraseIdx_perm hl

/-- The poles of a surrogate. -/
theorem additionalPoles_spec {env : HEnv K} {Rep : K → Prop} (hs : env.SqrtDown Rep) (hf : env.f = Fpa.exact) (hm : 0 ≤ env.fmax)
    {s : SPoly K} (hw : s.WF) {pi goal : K} {n : ℕ} {out : List (Circle K)} (hg : GoodPoles s.points [s.poi])
    (hr : Rep s.poi.radius) (h : additionalPoles env pi s n goal = some out) :
    GoodPoles s.points (s.poi :: out) ∧ (∀ c ∈ out, Rep c.radius) ∧ out.length ≤ n ∧
      ∀ c ∈ out, ∃ ps, (∀ d ∈ ps, 0 ≤ d.radius) ∧ generateNextPole env s ps = some c := by
  unfold additionalPoles at h
  obtain ⟨all, h1, h⟩ := Option.bind_eq_some_iff.1 h
  obtain ⟨g1, g2, ⟨l, g3, g4⟩, g5⟩ := polesLoop_spec hs hf hm hw hg (by simpa using hr) h1
  obtain ⟨out', o1, o2⟩ := sortPoles_perm (env := env) (poi := s.poi) (k := all.tail.length) (unsorted := all.tail) (sorted := []) le_rfl
  rw [o1] at h
  cases h
  rw [List.nil_append] at o2
  subst g3
  simp only [List.singleton_append, List.tail_cons] at *
  have hp : (s.poi :: l).Perm (s.poi :: out) := (o2.symm).cons _
  refine ⟨g1.perm hp, fun c hc => g2 c (List.mem_cons_of_mem _ (o2.mem_iff.1 hc)), by rw [o2.length_eq]; exact g4, ?_⟩
  intro c hc
  have hcl := o2.mem_iff.1 hc
  rcases g5 c (List.mem_cons_of_mem _ hcl) with hh | hh
  · -- the pole of inaccessibility itself cannot appear again
    exfalso
    rw [List.mem_singleton] at hh
    subst hh
    have hpw := g1.2
    rw [List.pairwise_cons] at hpw
    have := hpw.1 _ hcl
    have h0 : sqDist s.poi.center s.poi.center = 0 := by unfold sqDist; ring
    rw [h0] at this
    have hpos := (g1.1 s.poi List.mem_cons_self).1
    nlinarith
  · exact hh

/-! ### Complete polygons -/

/-- The search only looks at the points and the bounding box. -/
theorem generateNextPole_congr (env : HEnv K) {s t : SPoly K} (h1 : s.points = t.points) (h2 : s.bbox = t.bbox) (poles : List (Circle K)) :
    generateNextPole env s poles = generateNextPole env t poles := by
  have hsd : ∀ p, signedDistance env s poles p = signedDistance env t poles p := by
    intro p
    unfold signedDistance SPoly.collidesPoint SPoly.edges
    rw [h1, h2]
  have hnew : ∀ b l, POINode.new env b l s poles = POINode.new env b l t poles := by
    intro b l
    unfold POINode.new
    rw [hsd]
  have hsplit : ∀ n : POINode K, n.split env s poles = n.split env t poles := by
    intro n
    unfold POINode.split
    simp only [hnew]
  have hloop : ∀ k queue best, poiLoop env s poles k queue best = poiLoop env t poles k queue best := by
    intro k
    induction k with
    | zero => intro queue best; cases queue <;> rfl
    | succ k ih =>
      intro queue best
      cases queue with
      | nil => rfl
      | cons n q =>
        rw [poiLoop, poiLoop, hsplit]
        exact ih _ _
  unfold generateNextPole
  rw [hloop, hnew, h2]

theorem SPoly.build_spec {env : HEnv K} {pts : List (Point K)} {s : SPoly K} (h : SPoly.build env pts = some s) :
    s.WF ∧ generateNextPole env s [] = some s.poi ∧ s.surrogate = none ∧
      ∃ s0, SPoly.new (fun _ => ⟨⟨env.fmax, env.fmax⟩, env.fmax⟩) pts = some s0 ∧ s = { s0 with poi := s.poi } := by
  unfold SPoly.build at h
  obtain ⟨s0, h0, h⟩ := Option.bind_eq_some_iff.1 h
  obtain ⟨_, -, h⟩ := Option.bind_eq_some_iff.1 h
  rw [Option.map_eq_some_iff] at h
  obtain ⟨c, hc, rfl⟩ := h
  have hw0 := SPoly.new_wf h0
  refine ⟨⟨hw0.bbox_eq, hw0.bbox_valid, hw0.nonempty⟩, ?_, ?_, s0, h0, rfl⟩
  · unfold calculatePoi at hc
    have hb : s0.bbox = boundingBox s0.points := hw0.bbox_eq
    rw [← hb] at hc
    refine Eq.trans (generateNextPole_congr env ?_ ?_ []) hc <;> rfl
  · unfold SPoly.new at h0
    dsimp only at h0
    split_ifs at h0
    all_goals
      rw [Option.some.injEq] at h0
      rw [← h0]

end Jagua
