import Verif.Props.Poles

/-! # C47: number and order of the poles -/

set_option linter.unusedSectionVars false

namespace Jagua

variable {K : Type*} [Field K] [LinearOrder K] [IsStrictOrderedRing K]

theorem lastMax_max {l : List K} {i : ℕ} (h : lastMax l = some i) : ∃ x, l[i]? = some x ∧ ∀ y ∈ l, y ≤ x := by
  induction l generalizing i with
  | nil => cases h
  | cons x xs ih =>
    rw [lastMax] at h
    split at h
    · rename_i hn
      cases h
      refine ⟨x, rfl, ?_⟩
      intro y hy
      cases xs with
      | nil => rw [List.mem_singleton.1 hy]
      | cons z zs =>
        obtain ⟨j, hj⟩ := lastMax_some (l := z :: zs) (by simp)
        rw [hj] at hn
        cases hn
    · rename_i j hj
      obtain ⟨m, h1, h2⟩ := ih hj
      rw [h1] at h
      dsimp only at h
      split_ifs at h with hlt
      · cases h
        refine ⟨x, rfl, ?_⟩
        intro y hy
        rcases List.mem_cons.1 hy with rfl | hy
        · exact le_rfl
        · exact (h2 y hy).trans hlt.le
      · cases h
        refine ⟨m, h1, ?_⟩
        intro y hy
        rcases List.mem_cons.1 hy with rfl | hy
        · exact not_lt.1 hlt
        · exact h2 y hy

theorem sortPoles_order {env : HEnv K} {poi : Circle K} {k : ℕ} {unsorted sorted out : List (Circle K)}
    (h : sortPoles env poi k unsorted sorted = some out) :
    ∃ rest, out = sorted ++ rest ∧ rest.Perm unsorted ∧ ∀ a p b, rest = a ++ p :: b → ∀ q ∈ b,
      poleScore env poi (sorted ++ a) q ≤ poleScore env poi (sorted ++ a) p := by
  induction k generalizing unsorted sorted with
  | zero =>
    cases unsorted with
    | nil => cases h; exact ⟨[], by simp, .refl _, fun a p b e => absurd e (by simp)⟩
    | cons p u => cases h
  | succ k ih =>
    cases unsorted with
    | nil => cases h; exact ⟨[], by simp, .refl _, fun a p b e => absurd e (by simp)⟩
    | cons p u =>
      rw [sortPoles] at h
      obtain ⟨i, hi, h⟩ := Option.bind_eq_some_iff.1 h
      obtain ⟨next, hn, h⟩ := Option.bind_eq_some_iff.1 h
      obtain ⟨hl, he⟩ := List.getElem?_eq_some_iff.1 hn
      obtain ⟨rest, r1, r2, r3⟩ := ih h
      have hperm : (next :: rest).Perm (p :: u) := (r2.cons next).trans (by rw [← he]; exact List.getElem_cons_eraseIdx_perm hl)
      refine ⟨next :: rest, by rw [r1]; simp, hperm, ?_⟩
      intro a q b e r hr
      cases a with
      | nil =>
        obtain ⟨rfl, rfl⟩ := List.cons.inj e
        obtain ⟨m, m1, m2⟩ := lastMax_max hi
        rw [List.getElem?_map, hn] at m1
        obtain rfl := Option.some.inj m1
        rw [List.append_nil]
        exact m2 _ (List.mem_map.2 ⟨r, hperm.mem_iff.1 (List.mem_cons_of_mem _ hr), rfl⟩)
      | cons x a =>
        obtain ⟨rfl, e'⟩ := List.cons.inj e
        have := r3 a q b e' r hr
        rw [List.append_assoc] at this
        exact this

/-- the factor in the score of a pole -/
theorem poleScore_least (env : HEnv K) (poi : Circle K) (sorted : List (Circle K)) (p : Circle K) :
    ∃ m, IsLeast {d | ∃ c ∈ poi :: sorted, d = |env.sqrt (sqDist p.center c.center) - c.radius|} m ∧
      poleScore env poi sorted p = p.radius ^ 2 * m := by
  have hb : ∀ c : Circle K, (c.distanceFromBorder env p.center).2 = |env.sqrt (sqDist p.center c.center) - c.radius| := by
    intro c
    unfold Circle.distanceFromBorder sqDist
    dsimp only
    split_ifs with h
    · dsimp only
      rw [abs_of_nonpos (sub_nonpos.2 h)]
      ring
    · exact (abs_of_pos (sub_pos.2 (not_le.1 h))).symm
  unfold poleScore
  cases hl : (sorted ++ [poi]).map (fun prior => (prior.distanceFromBorder env p.center).2) with
  | nil => simp at hl
  | cons d ds =>
    have hmem : ∀ v, v ∈ d :: ds ↔ ∃ c ∈ poi :: sorted, v = |env.sqrt (sqDist p.center c.center) - c.radius| := by
      intro v
      rw [← hl, List.mem_map]
      constructor
      · rintro ⟨c, hc, rfl⟩
        exact ⟨c, by simpa [or_comm] using hc, hb c⟩
      · rintro ⟨c, hc, rfl⟩
        exact ⟨c, by simpa [or_comm] using hc, hb c⟩
    obtain ⟨s1, s2, s3⟩ := foldl_min_spec ds d
    refine ⟨ds.foldl min d, ⟨(hmem _).1 ?_, ?_⟩, rfl⟩
    · rcases s1 with h | h
      · rw [h]; exact List.mem_cons_self
      · exact List.mem_cons_of_mem _ h
    · intro v hv
      rcases List.mem_cons.1 ((hmem v).2 hv) with rfl | hv
      · exact s2
      · exact s3 v hv

/-- **The order of the poles.** After the pole of inaccessibility, each pole of a surrogate
is one for which the squared radius times the distance from the centre to the border of the
closest earlier pole is largest among the poles that have not come yet. -/
theorem C47_pole_order {env : HEnv K} {pi : K} {piers : SPoly K → ℕ → Option (List (Edge K))} {s : SPoly K} {cfg : SurrogateConfig K}
    {sur : Surrogate K} (h : Surrogate.new env pi piers s cfg = some sur) {a b : List (Circle K)} {p : Circle K} (e : sur.poles = a ++ p :: b)
    (ha : a ≠ []) {q : Circle K} (hq : q ∈ b) :
    ∃ dp dq, IsLeast {d | ∃ c ∈ a, d = |env.sqrt (sqDist p.center c.center) - c.radius|} dp ∧
      IsLeast {d | ∃ c ∈ a, d = |env.sqrt (sqDist q.center c.center) - c.radius|} dq ∧ q.radius ^ 2 * dq ≤ p.radius ^ 2 * dp := by
  obtain ⟨extra, h1, h2, -⟩ := Surrogate.new_poles h
  rw [h2] at e
  unfold additionalPoles at h1
  obtain ⟨all, -, h1⟩ := Option.bind_eq_some_iff.1 h1
  obtain ⟨rest, r1, -, r3⟩ := sortPoles_order h1
  rw [List.nil_append] at r1
  subst r1
  cases a with
  | nil => exact absurd rfl ha
  | cons x a =>
    obtain ⟨rfl, e'⟩ := List.cons.inj e
    have := r3 a p b e' q hq
    rw [List.nil_append] at this
    obtain ⟨dp, l1, e1⟩ := poleScore_least env s.poi a p
    obtain ⟨dq, l2, e2⟩ := poleScore_least env s.poi a q
    rw [e1, e2] at this
    exact ⟨dp, dq, l1, l2, this⟩

theorem polesLoop_enough {env : HEnv K} {pi goal : K} {s : SPoly K} (k : ℕ) (all : List (Circle K)) {out : List (Circle K)} {total : K}
    (ht : total = (all.map fun c => c.radius ^ 2 * pi).sum) (h : polesLoop env pi s goal k all total = some out) :
    ∃ l, out = all ++ l ∧ l.length ≤ k ∧ (l.length = k ∨ goal < (out.map fun c => c.radius ^ 2 * pi).sum) ∧
      ∀ l' c l'', l = l' ++ c :: l'' → l'' ≠ [] → ((all ++ (l' ++ [c])).map fun c => c.radius ^ 2 * pi).sum ≤ goal := by
  induction k generalizing all total with
  | zero => cases h; exact ⟨[], by simp, le_rfl, .inl rfl, fun l' c l'' e => absurd e (by simp)⟩
  | succ k ih =>
    rw [polesLoop] at h
    obtain ⟨next, -, h⟩ := Option.bind_eq_some_iff.1 h
    dsimp only at h
    have ht' : total + next.radius * next.radius * pi = ((all ++ [next]).map fun c => c.radius ^ 2 * pi).sum := by
      rw [List.map_append, List.sum_append, ht]
      simp only [List.map_cons, List.map_nil, List.sum_cons, List.sum_nil]
      ring
    split_ifs at h with hg
    · cases h
      refine ⟨[next], rfl, by simp, .inr (by rw [← ht']; exact hg), ?_⟩
      intro l' c l'' e hne
      exfalso
      have := congrArg List.length e
      simp only [List.length_cons, List.length_nil, List.length_append] at this
      have : 0 < l''.length := List.length_pos_iff.2 hne
      omega
    · obtain ⟨l, h1, h2, h3, h4⟩ := ih (all ++ [next]) ht' h
      refine ⟨next :: l, by rw [h1]; simp, by simpa using h2, ?_, ?_⟩
      · rcases h3 with h3 | h3
        · exact .inl (by simp [h3])
        · exact .inr h3
      · intro l' c l'' e hne
        cases l' with
        | nil =>
          obtain ⟨rfl, -⟩ := List.cons.inj e
          rw [List.nil_append, ← ht']
          exact not_lt.1 hg
        | cons x l' =>
          obtain ⟨rfl, e'⟩ := List.cons.inj e
          have := h4 l' c l'' e' hne
          simpa using this

/-- **The number of poles.** Poles are added until they cover more than the wanted part of the
area of the shape, or there are as many as configured; and no longer: without one of
them, the goal would not be reached, unless there are only two. -/
theorem C47_pole_number {env : HEnv K} {pi : K} {piers : SPoly K → ℕ → Option (List (Edge K))} {s : SPoly K} {cfg : SurrogateConfig K}
    {sur : Surrogate K} (h : Surrogate.new env pi piers s cfg = some sur) :
    (sur.poles.length = max 1 cfg.maxPoles ∨ s.area * cfg.coverageGoal < (sur.poles.map fun c => c.radius ^ 2 * pi).sum) ∧
    (2 < sur.poles.length → ∃ a p b, sur.poles = a ++ p :: b ∧ ((a ++ b).map fun c => c.radius ^ 2 * pi).sum ≤ s.area * cfg.coverageGoal) := by
  obtain ⟨extra, h1, h2, -⟩ := Surrogate.new_poles h
  unfold additionalPoles at h1
  obtain ⟨all, h3, h1⟩ := Option.bind_eq_some_iff.1 h1
  obtain ⟨rest, r1, r2, -⟩ := sortPoles_order h1
  rw [List.nil_append] at r1
  subst r1
  obtain ⟨l, l1, l2, l3, l4⟩ := polesLoop_enough _ _ (by
    simp only [List.map_cons, List.map_nil, List.sum_cons, List.sum_nil]; ring) h3
  subst l1
  simp only [List.singleton_append, List.tail_cons] at r2
  have hperm : (s.poi :: extra).Perm ([s.poi] ++ l) := r2.cons _
  rw [h2]
  constructor
  · rw [List.length_cons, r2.length_eq, (hperm.map _).sum_eq]
    rcases l3 with l3 | l3
    · exact .inl (by omega)
    · exact .inr l3
  · intro hlen
    rw [List.length_cons, r2.length_eq] at hlen
    -- the last pole that was generated
    have hne : l ≠ [] := by rintro rfl; simp at hlen
    obtain ⟨l', p, rfl⟩ : ∃ l' p, l = l' ++ [p] := ⟨l.dropLast, l.getLast hne, (List.dropLast_append_getLast hne).symm⟩
    have hne' : l' ≠ [] := by rintro rfl; simp at hlen
    obtain ⟨l'', c, rfl⟩ : ∃ l'' c, l' = l'' ++ [c] := ⟨l'.dropLast, l'.getLast hne', (List.dropLast_append_getLast hne').symm⟩
    have hle := l4 l'' c [p] (by simp) (by simp)
    obtain ⟨a, b, hab⟩ := List.append_of_mem (r2.mem_iff.2 (List.mem_append_right _ (List.mem_singleton_self p)))
    refine ⟨s.poi :: a, p, b, by rw [hab]; rfl, le_of_eq_of_le ?_ hle⟩
    refine (List.Perm.map _ ?_).sum_eq
    have hp1 : (s.poi :: (a ++ p :: b)).Perm (s.poi :: (l'' ++ [c] ++ [p])) := by rw [← hab]; exact r2.cons _
    have hp2 : (p :: (s.poi :: (a ++ b))).Perm (p :: ([s.poi] ++ (l'' ++ [c]))) :=
      ((List.Perm.swap _ _ _).trans (List.perm_middle.symm.cons _)).trans (hp1.trans ((List.perm_append_singleton p (l'' ++ [c])).cons _ |>.trans (List.Perm.swap _ _ _)))
    exact hp2.cons_inv

/-- the 4 × 4 square and its surrogate with three poles, over the real numbers -/
theorem Ex.real_surrogate3 : ∃ s sur, SPoly.build HEnv.real (rectPoly (0 : ℝ) 0 4 4) = some s ∧
    Surrogate.new HEnv.real 3 (fun _ _ => some []) s ⟨2, 3, 3, 0⟩ = some sur ∧ sur.poles.length = 3 := by
  have hv : (⟨0, 0, 4, 4⟩ : AARect ℝ).Valid := by constructor <;> norm_num
  have hm : (0 : ℝ) < HEnv.real.fmax := by show (0 : ℝ) < 1000000; norm_num
  obtain ⟨s, hs, hp, hbox⟩ := SPoly.build_rect HEnv.real_sqrt rfl hm hv
  obtain ⟨hw, hgen, hrest⟩ := SPoly.build_spec hs
  obtain ⟨g, -⟩ := generateNextPole_good HEnv.real_sqrt.down rfl hm.le hw (by simp) hgen
  rw [hp] at g
  have hsq : (⟨0, 0, 4, 4⟩ : AARect ℝ).inflateToSquare = ⟨0, 0, 4, 4⟩ := by unfold AARect.inflateToSquare; simp
  -- the pole is the inscribed circle
  have hge : (2 : ℝ) ≤ s.poi.radius := by
    refine C47_pole_is_largest HEnv.real_sqrt rfl hm.le hw (by simp) hgen (d := ⟨⟨2, 2⟩, 2⟩) ?_ ?_ (by show (2 : ℝ) ≤ 1000000; norm_num)
    · rw [hp]
      refine ⟨by norm_num, ?_, ?_, by simp⟩
      · rw [interior_rectPoly (by norm_num) (by norm_num)]
        norm_num
      · intro w hw
        rw [bdry_rectPoly (by norm_num) (by norm_num)] at hw
        unfold sqDist
        dsimp only
        rcases hw.2 with h | h | h | h <;> rw [h] <;> nlinarith [sq_nonneg (2 - w.x), sq_nonneg (2 - w.y)]
    · rw [hbox, hsq]
      have := gridCentres_root (⟨0, 0, 4, 4⟩ : AARect ℝ) 10
      simp only [AARect.centroid] at this
      norm_num at this
      exact this
  have hi := (interior_rectPoly (by norm_num) (by norm_num) _).1 g.center
  have e1 := g.edges ⟨s.poi.center.x, 0⟩ ((bdry_rectPoly (by norm_num) (by norm_num) _).2 ⟨⟨hi.1.le, hi.2.1.le, by norm_num, by norm_num⟩, by simp⟩)
  have e2 := g.edges ⟨s.poi.center.x, 4⟩ ((bdry_rectPoly (by norm_num) (by norm_num) _).2 ⟨⟨hi.1.le, hi.2.1.le, by norm_num, by norm_num⟩, by simp⟩)
  have e3 := g.edges ⟨0, s.poi.center.y⟩ ((bdry_rectPoly (by norm_num) (by norm_num) _).2 ⟨⟨by norm_num, by norm_num, hi.2.2.1.le, hi.2.2.2.le⟩, by simp⟩)
  have e4 := g.edges ⟨4, s.poi.center.y⟩ ((bdry_rectPoly (by norm_num) (by norm_num) _).2 ⟨⟨by norm_num, by norm_num, hi.2.2.1.le, hi.2.2.2.le⟩, by simp⟩)
  simp only [sqDist, sub_self] at e1 e2 e3 e4
  have f1 := abs_le_of_sq_le_sq' (a := s.poi.radius) (b := s.poi.center.y) (by linarith) hi.2.2.1.le
  have f2 := abs_le_of_sq_le_sq' (a := s.poi.radius) (b := 4 - s.poi.center.y) (by linarith [sq_nonneg (s.poi.center.y - 4)]) (by linarith [hi.2.2.2])
  have f3 := abs_le_of_sq_le_sq' (a := s.poi.radius) (b := s.poi.center.x) (by linarith) hi.1.le
  have f4 := abs_le_of_sq_le_sq' (a := s.poi.radius) (b := 4 - s.poi.center.x) (by linarith [sq_nonneg (s.poi.center.x - 4)]) (by linarith [hi.2.1])
  have hr : s.poi.radius = 2 := by linarith [f1.2, f2.2]
  have hcx : s.poi.center.x = 2 := by linarith [f3.2, f4.2]
  have hcy : s.poi.center.y = 2 := by linarith [f1.2, f2.2]
  -- candidates in two corners
  have corner1 : (⟨1 / 4, 1 / 4⟩ : Point ℝ) ∈ gridCentres s.bbox.inflateToSquare 10 := by
    rw [hbox, hsq]
    exact ⟨3, by norm_num, 0, by norm_num, 0, by norm_num, by norm_num⟩
  have corner2 : (⟨15 / 4, 15 / 4⟩ : Point ℝ) ∈ gridCentres s.bbox.inflateToSquare 10 := by
    rw [hbox, hsq]
    exact ⟨3, by norm_num, 7, by norm_num, 7, by norm_num, by norm_num⟩
  have in1 : (⟨1 / 4, 1 / 4⟩ : Point ℝ) ∈ Jagua.interior s.points := by
    rw [hp, interior_rectPoly (by norm_num) (by norm_num)]
    norm_num
  have in2 : (⟨15 / 4, 15 / 4⟩ : Point ℝ) ∈ Jagua.interior s.points := by
    rw [hp, interior_rectPoly (by norm_num) (by norm_num)]
    norm_num
  have out1 : (⟨1 / 4, 1 / 4⟩ : Point ℝ) ∉ s.poi.pts := by
    show ¬ ((1 / 4 : ℝ) - _) ^ 2 + ((1 / 4 : ℝ) - _) ^ 2 ≤ _
    rw [hr, hcx, hcy]
    norm_num
  have out2 : (⟨15 / 4, 15 / 4⟩ : Point ℝ) ∉ s.poi.pts := by
    show ¬ ((15 / 4 : ℝ) - _) ^ 2 + ((15 / 4 : ℝ) - _) ^ 2 ≤ _
    rw [hr, hcx, hcy]
    norm_num
  have hne : generateNextPole HEnv.real s [s.poi] ≠ none := by
    rw [Ne, C47_no_pole_iff HEnv.real_sqrt rfl hm hw (by simp [hr])]
    push Not
    refine ⟨_, corner1, in1, ?_⟩
    intro c hc
    rw [List.mem_singleton.1 hc]
    exact out1
  obtain ⟨c, hc⟩ := Option.ne_none_iff_exists'.1 hne
  obtain ⟨gc, -⟩ := generateNextPole_good HEnv.real_sqrt.down rfl hm.le hw (by simp [hr]) hc
  have hcr : c.radius ≤ 2 := hr ▸ generateNextPole_le HEnv.real_sqrt rfl hm.le hw hc hgen
  have hne2 : generateNextPole HEnv.real s [s.poi, c] ≠ none := by
    rw [Ne, C47_no_pole_iff HEnv.real_sqrt rfl hm hw (by simp [hr, gc.pos.le])]
    push Not
    by_cases h1 : (⟨1 / 4, 1 / 4⟩ : Point ℝ) ∈ c.pts
    · refine ⟨_, corner2, in2, ?_⟩
      have h2 : (⟨15 / 4, 15 / 4⟩ : Point ℝ) ∉ c.pts := by
        intro h2
        have h1 : ((1 / 4 : ℝ) - c.center.x) ^ 2 + ((1 / 4 : ℝ) - c.center.y) ^ 2 ≤ c.radius ^ 2 := h1
        have h2 : ((15 / 4 : ℝ) - c.center.x) ^ 2 + ((15 / 4 : ℝ) - c.center.y) ^ 2 ≤ c.radius ^ 2 := h2
        have h3 := gc.others s.poi (List.mem_singleton_self _)
        unfold sqDist at h3
        rw [hr, hcx, hcy] at h3
        nlinarith [gc.pos]
      intro d hd
      simp only [List.mem_cons, List.not_mem_nil, or_false] at hd
      rcases hd with rfl | rfl
      · exact out2
      · exact h2
    · refine ⟨_, corner1, in1, ?_⟩
      intro d hd
      simp only [List.mem_cons, List.not_mem_nil, or_false] at hd
      rcases hd with rfl | rfl
      · exact out1
      · exact h1
  obtain ⟨c2, hc2⟩ := Option.ne_none_iff_exists'.1 hne2
  have harea : s.area = 16 := by
    obtain ⟨-, s0, hs0, e0⟩ := hrest
    have h1 := (SPoly.new_region hs0).2.2.1
    rw [show s0.points = s.points by rw [e0], show s0.area = s.area by rw [e0], hp] at h1
    rw [← h1]
    simp [signedArea, rectPoly, sides]
    norm_num
  obtain ⟨extra, x1, x2⟩ := sortPoles_perm (env := HEnv.real) (poi := s.poi) (k := 2) (unsorted := [c, c2]) (sorted := []) (by simp)
  have hextra : additionalPoles HEnv.real 3 s 2 2 = some extra := by
    unfold additionalPoles
    simp only [polesLoop]
    rw [hc, Option.bind_some, if_neg (by rw [harea, hr]; nlinarith [gc.pos])]
    rw [List.singleton_append, hc2, Option.bind_some]
    have : ∀ b : Prop, [Decidable b] → (if b then some ([s.poi, c] ++ [c2]) else some ([s.poi, c] ++ [c2])) = some [s.poi, c, c2] := by
      intro b _
      split_ifs <;> rfl
    rw [this, Option.bind_some]
    exact x1
  obtain ⟨q1, -, -, q4⟩ := additionalPoles_spec HEnv.real_sqrt.down rfl hm.le hw (by
    refine ⟨?_, List.pairwise_singleton _ _⟩
    intro c hc
    rw [List.mem_singleton.1 hc, hp]
    exact ⟨g.pos, g.center, g.edges⟩) trivial hextra
  obtain ⟨b, k1, -⟩ := C41_bounding_circle_partial HEnv.real_sqrt g.pos.le (cs := extra) (by
    intro d hd
    obtain ⟨ps, -, hps⟩ := q4 d hd
    exact ⟨(q1.1 d (List.mem_cons_of_mem _ hd)).1.le, generateNextPole_le HEnv.real_sqrt rfl hm.le hw hps hgen⟩)
  have hidx : Jagua.convexHullIndices (rectPoly (0 : ℝ) 0 4 4) = some [0, 1, 2, 3] := by
    unfold Jagua.convexHullIndices
    rw [convexHull_rect (by norm_num) (by norm_num)]
    simp [rectPoly, List.findIdx?_cons]
  have hlen : (s.poi :: extra).length = 3 := by rw [List.length_cons, x2.length_eq]; rfl
  refine ⟨s, ⟨[0, 1, 2, 3], s.poi :: extra, b, [], min 3 (s.poi :: extra).length, s.area⟩, hs, ?_, hlen⟩
  unfold Surrogate.new
  rw [hp, hidx, Option.bind_some]
  have : ([0, 1, 2, 3] : List ℕ).mapM (fun (i : ℕ) => (rectPoly (0 : ℝ) 0 4 4)[i]?) = some (rectPoly (0 : ℝ) 0 4 4) := by
    simp [rectPoly]
  rw [this, Option.bind_some]
  change (SPoly.build HEnv.real (rectPoly (0 : ℝ) 0 4 4)).bind _ = _
  rw [hs, Option.bind_some]
  dsimp only
  rw [hextra, Option.bind_some, k1]
  rfl

-- the square of side 4 with three poles
example : ∃ (s : SPoly ℝ) (sur : Surrogate ℝ) (p q : Circle ℝ), Surrogate.new HEnv.real 3 (fun _ _ => some []) s ⟨2, 3, 3, 0⟩ = some sur ∧
    sur.poles = [s.poi] ++ p :: [q] ∧ 2 < sur.poles.length := by
  obtain ⟨s, sur, -, h2, h3⟩ := Ex.real_surrogate3
  obtain ⟨extra, -, e2, -⟩ := Surrogate.new_poles h2
  rw [e2] at h3
  obtain ⟨p, q, rfl⟩ := List.length_eq_two.1 (Nat.succ.inj h3)
  exact ⟨s, sur, p, q, h2, e2, by rw [e2]; simp⟩

end Jagua
