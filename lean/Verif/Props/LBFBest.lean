import Verif.Lemmas.LBFBest
import Verif.Props.LBF
import Verif.Props.Collision

/-!
# Property C55: the search of a layout keeps the best sample
-/

set_option linter.unusedSectionVars false

namespace Jagua

variable {K : Type*} [Field K] [LinearOrder K] [IsStrictOrderedRing K] {n : ℕ} {R : Type*}

/-- C55: what a search draws is determined by the random number generator. -/
theorem C55_samples_determined {lenv : LEnv K n R} {env : Env K} {cfg : LbfConfig} {layout : Layout K n} {item : Item K} {r : R}
    {uni uni' : List (Transf K)} {loc loc' : List (DTransf K)} (h : Drew lenv env cfg layout item r uni loc)
    (h' : Drew lenv env cfg layout item r uni' loc') : uni = uni' ∧ loc = loc' := h.unique h'

/-- C55: a search of a layout that the grid leaves a cell for draws as many samples as configured. If it finds nothing, the
engine found a collision for every sample. If it finds a placement, this is one of the samples, the engine found no collision
for it, and no other sample without a collision is further to the lower left. -/
theorem C55_search_keeps_the_best {lenv : LEnv K n R} {env : Env K} {cfg : LbfConfig} {idx : LayoutIndex} {layout : Layout K n} {item : Item K}
    {r : R} (hu : env.tr.Unit) (hp : env.tr.Polar) (hpts : item.shape.points ≠ [])
    {o : Option (PlacingOption K) × R} (h : sampleLayout lenv env cfg idx layout item r = some o) :
    (HPGSampler.new lenv item layout = some none ∧ o.1 = none) ∨ (∃ uni loc, Drew lenv env cfg layout item r uni loc) ∧
    ∀ uni loc, Drew lenv env cfg layout item r uni loc →
      (o.1 = none → ∀ t ∈ uni, ¬ item.Goes env.f layout t) ∧
      ∀ opt, o.1 = some opt → item.Goes env.f layout (Transf.fromDt env.tr opt.dt) ∧
        Transf.fromDt env.tr opt.dt ∈ uni ++ loc.map (Transf.fromDt env.tr) ∧
        ∀ t ∈ uni ++ loc.map (Transf.fromDt env.tr), item.Goes env.f layout t →
          ∀ c c', LeftBottom (item.shape.transform (Transf.fromDt env.tr opt.dt)).points c → LeftBottom (item.shape.transform t).points c' → c ≤ c' := by
  rcases sampleLayout_best hu hp h with h | ⟨uni, loc, hd, h1, h2⟩
  · exact .inl h
  · refine .inr ⟨⟨uni, loc, hd⟩, fun uni' loc' hd' => ?_⟩
    obtain ⟨rfl, rfl⟩ := hd.unique hd'
    refine ⟨h1, fun opt ho => ?_⟩
    obtain ⟨g1, g2, g3⟩ := h2 opt ho
    refine ⟨g1, g2, fun t ht hg c c' hc hc' => ?_⟩
    rw [SPoly.lbfCost_eq hpts hc, SPoly.lbfCost_eq hpts hc']
    exact g3 t ht hg

theorem Item.goes_iff {o : SearchOracle K} {layout : Layout K n} {item : Item K} {t : Transf K} (hr : layout.cde.Reachable Fpa.exact o)
    (hg : layout.cde.Good) (hs : item.shape.Proper) (ha : signedArea item.shape.points ≠ 0) {surr : Surrogate K} (hsurr : item.shape.surrogate = some surr)
    (hin : SurrogateInside surr.ffPoles surr.piers item.shape.points)
    (hP : ∀ h ∈ layout.cde.allHazards, h.entity ∉ lbfIrrelevant item layout → h.shape.val.Proper) (ht : t.IsRigid) :
    item.Goes Fpa.exact layout t ↔ item.Free layout t := by
  have hps := SPoly.transform_proper hs ha ht
  constructor
  · rintro ⟨-, h⟩
    exact C05_accepted_is_feasible hr hg hps hP h
  · rintro ⟨h1, h2⟩
    constructor
    · refine ⟨surr, hsurr, ?_⟩
      obtain ⟨b, hb⟩ := (C01_queries_never_panic hr).2.1 (surr.ffPoles.map (·.transform t)) (surr.piers.map (·.transform t)) (lbfIrrelevant item layout)
      unfold CDE.surrogateHits
      cases b with
      | false => exact hb
      | true =>
        obtain ⟨x, hx, hirr, w, hw, hw'⟩ := C43_surrogate_sound hr hg (hin.transform ht) hb
        exact (Set.disjoint_left.1 (h2 x hx hirr) hw hw').elim
    · obtain ⟨b, hb, hb'⟩ := C05_query_decides_feasibility hr hg hps hP
      cases b with
      | false => exact hb
      | true =>
        rcases hb'.1 rfl with h | ⟨x, hx, hirr, w, hw, hw'⟩
        · refine (h fun p hp => ?_).elim
          rw [hps.wf.bbox_eq] at hp
          obtain ⟨⟨a, ha, ea⟩, ⟨b, hb, eb⟩, ⟨c, hc, ec⟩, d, hd, ed⟩ := boundingBox_attained hps.wf.nonempty
          have key : ∀ v ∈ (item.shape.transform t).points, v ∈ layout.cde.bbox.pts := fun v hv => h1 (.inl (vertex_mem_bdry hv))
          exact ⟨(key a ha).1.trans (ea ▸ hp.1), (ec ▸ hp.2.1 : p.x ≤ c.x).trans (key c hc).2.1, (key b hb).2.2.1.trans (eb ▸ hp.2.2.1),
            (ed ▸ hp.2.2.2 : p.y ≤ d.y).trans (key d hd).2.2.2⟩
        · exact (Set.disjoint_left.1 (h2 x hx hirr) hw hw').elim

/-- C55, in terms of the plane: in exact arithmetic, if the search finds nothing, then none of its uniform samples was a place
for the item; if it finds a placement, this is a place for the item, and no sample that is a place for the item is further to
the lower left. -/
theorem C55_best_free_sample {lenv : LEnv K n R} {env : Env K} {cfg : LbfConfig} {idx : LayoutIndex} {layout : Layout K n} {item : Item K}
    {r : R} (hf : env.f = Fpa.exact) (hu : env.tr.Unit) (hp : env.tr.Polar) (hr : layout.cde.Reachable env.f env.o)
    (hg : layout.cde.Good) (hs : item.shape.Proper) (ha : signedArea item.shape.points ≠ 0)
    {surr : Surrogate K} (hsurr : item.shape.surrogate = some surr) (hin : SurrogateInside surr.ffPoles surr.piers item.shape.points)
    (hP : ∀ h ∈ layout.cde.allHazards, h.entity ∉ lbfIrrelevant item layout → h.shape.val.Proper)
    {o : Option (PlacingOption K) × R} (h : sampleLayout lenv env cfg idx layout item r = some o)
    {uni : List (Transf K)} {loc : List (DTransf K)} (hd : Drew lenv env cfg layout item r uni loc) :
    (o.1 = none → ∀ t ∈ uni, ¬ item.Free layout t) ∧
    ∀ opt, o.1 = some opt → item.Free layout (Transf.fromDt env.tr opt.dt) ∧
      ∀ t ∈ uni ++ loc.map (Transf.fromDt env.tr), item.Free layout t →
        ∀ c c', LeftBottom (item.shape.transform (Transf.fromDt env.tr opt.dt)).points c → LeftBottom (item.shape.transform t).points c' → c ≤ c' := by
  have hrig := hd.rigid hu hp
  rw [hf] at hr
  have iff : ∀ t : Transf K, t.IsRigid → (item.Goes env.f layout t ↔ item.Free layout t) := fun t ht =>
    hf ▸ Item.goes_iff hr hg hs ha hsurr hin hP ht
  rcases C55_search_keeps_the_best hu hp hs.wf.nonempty h with ⟨h0, -⟩ | ⟨-, h⟩
  · obtain ⟨_, s, _, -, h1, -⟩ := hd.run
    rw [h0] at h1; cases h1
  · obtain ⟨h1, h2⟩ := h uni loc hd
    refine ⟨fun ho t ht hfree => h1 ho t ht ((iff t (hrig t (List.mem_append_left _ ht))).2 hfree), fun opt ho => ?_⟩
    obtain ⟨g1, g2, g3⟩ := h2 opt ho
    exact ⟨(iff _ (hrig _ g2)).1 g1, fun t ht hfree => g3 t ht ((iff t (hrig t ht)).2 hfree)⟩

/-- C55: the layouts are searched in the given order, and the first one in which the search finds a placement is taken. -/
theorem C55_first_layout {lenv : LEnv K n R} {env : Env K} {cfg : LbfConfig} {item : Item K} {ls : List (LayoutIndex × Layout K n)} {r r' : R} :
    (∀ opt, findPlacement lenv env cfg item ls r = some (some opt, r') ↔ ∃ pre l post r₁, ls = pre ++ l :: post ∧
      findPlacement lenv env cfg item pre r = some (none, r₁) ∧ sampleLayout lenv env cfg l.1 l.2 item r₁ = some (some opt, r')) ∧
    ∀ l, findPlacement lenv env cfg item (ls ++ [l]) r = some (none, r') ↔
      ∃ r₁, findPlacement lenv env cfg item ls r = some (none, r₁) ∧ sampleLayout lenv env cfg l.1 l.2 item r₁ = some (none, r') := by
  constructor
  · intro opt
    induction ls generalizing r with
    | nil => simp [findPlacement]
    | cons l ls ih =>
      constructor
      · intro h
        unfold findPlacement at h
        obtain ⟨⟨x, r₁⟩, hx, h⟩ := Option.bind_eq_some_iff.1 h
        cases x with
        | some opt' => cases h; exact ⟨[], l, ls, r, rfl, rfl, hx⟩
        | none =>
          obtain ⟨pre, l', post, r₂, rfl, h1, h2⟩ := ih.1 h
          refine ⟨l :: pre, l', post, r₂, rfl, ?_, h2⟩
          unfold findPlacement
          rw [hx]
          exact h1
      · rintro ⟨pre, l', post, r₁, he, h1, h2⟩
        unfold findPlacement
        cases pre with
        | nil =>
          cases he
          cases h1
          rw [h2]; rfl
        | cons p pre =>
          cases he
          unfold findPlacement at h1
          obtain ⟨⟨x, r₂⟩, hx, h1⟩ := Option.bind_eq_some_iff.1 h1
          cases x with
          | some opt' => cases h1
          | none =>
            rw [hx]
            exact ih.2 ⟨pre, l', post, r₁, rfl, h1, h2⟩
  · intro l
    induction ls generalizing r with
    | nil =>
      constructor
      · intro h
        rw [List.nil_append] at h
        unfold findPlacement at h
        obtain ⟨⟨x, r₁⟩, hx, h⟩ := Option.bind_eq_some_iff.1 h
        cases x with
        | some opt' => cases h
        | none => cases h; exact ⟨r, rfl, hx⟩
      · rintro ⟨r₁, h1, h2⟩
        cases h1
        rw [List.nil_append]
        unfold findPlacement
        rw [h2]; rfl
    | cons x ls ih =>
      constructor
      · intro h
        rw [List.cons_append] at h
        unfold findPlacement at h
        obtain ⟨⟨y, r₁⟩, hx, h⟩ := Option.bind_eq_some_iff.1 h
        cases y with
        | some opt' => cases h
        | none =>
          obtain ⟨r₂, h1, h2⟩ := ih.1 h
          refine ⟨r₂, ?_, h2⟩
          unfold findPlacement
          rw [hx]; exact h1
      · rintro ⟨r₁, h1, h2⟩
        rw [List.cons_append]
        unfold findPlacement at h1 ⊢
        obtain ⟨⟨y, r₂⟩, hx, h1⟩ := Option.bind_eq_some_iff.1 h1
        cases y with
        | some opt' => cases h1
        | none =>
          rw [hx]
          exact ih.2 ⟨r₁, h1, h2⟩

/-- Non-trivial case for C55: an empty bin and a square. One sample finds a place, six samples of which two are for the local
search find a better one. -/
example : ∃ (l : Layout ℚ 2) (surr : Surrogate ℚ) (opt opt' : PlacingOption ℚ) (r r' : ℕ) (uni : List (Transf ℚ)) (loc : List (DTransf ℚ)),
    Ex.lbfEnv.f = Fpa.exact ∧ Ex.lbfEnv.tr.Unit ∧ Ex.lbfEnv.tr.Polar ∧ l.cde.Reachable Ex.lbfEnv.f Ex.lbfEnv.o ∧ l.cde.Good ∧
    Ex.sqItem.shape.Proper ∧ signedArea Ex.sqItem.shape.points ≠ 0 ∧ Ex.sqItem.shape.surrogate = some surr ∧
    SurrogateInside surr.ffPoles surr.piers Ex.sqItem.shape.points ∧
    (∀ h ∈ l.cde.allHazards, h.entity ∉ lbfIrrelevant Ex.sqItem l → h.shape.val.Proper) ∧
    sampleLayout Ex.offLenv Ex.lbfEnv ⟨1, 0⟩ (.real 0) l Ex.sqItem 0 = some (some opt', r') ∧
    sampleLayout Ex.offLenv Ex.lbfEnv Ex.lbfCfg (.real 0) l Ex.sqItem 0 = some (some opt, r) ∧ opt.dt ≠ opt'.dt ∧
    Drew Ex.offLenv Ex.lbfEnv Ex.lbfCfg l Ex.sqItem 0 uni loc := by
  obtain ⟨l, hl⟩ : ∃ l, Ex.lbfLayout = some l := Option.isSome_iff_exists.1 (by decide +kernel)
  obtain ⟨h1, -⟩ := Ex.lbfLayout_fine hl
  have h : Ex.lbfLayout.bind (fun l => (sampleLayout Ex.offLenv Ex.lbfEnv ⟨1, 0⟩ (.real 0) l Ex.sqItem 0).bind fun a => a.1.bind fun a' =>
      (sampleLayout Ex.offLenv Ex.lbfEnv Ex.lbfCfg (.real 0) l Ex.sqItem 0).bind fun b => b.1.map fun b' => decide (b'.dt ≠ a'.dt)) = some true := by
    decide +kernel
  rw [hl, Option.bind_some] at h
  obtain ⟨⟨o', r'⟩, ha, h2⟩ := Option.bind_eq_some_iff.1 h
  obtain ⟨opt', ho', h3⟩ := Option.bind_eq_some_iff.1 h2
  obtain ⟨⟨o, r⟩, hb, h4⟩ := Option.bind_eq_some_iff.1 h3
  obtain ⟨opt, ho, h5⟩ := Option.map_eq_some_iff.1 h4
  dsimp only at ho ho'
  rw [ho'] at ha
  rw [ho] at hb
  have hgood : l.cde.Good ∧ ∀ x ∈ l.cde.allHazards, x.shape.val.Proper := by
    obtain ⟨b, hbin, rfl⟩ := Option.map_eq_some_iff.1 hl
    obtain ⟨g1, g2, -⟩ := Ex.lbfBin_shapes hbin
    exact (Layout.inv_new Ex.cat 0 g1).good g2 fun pi hpi => by simp [Layout.new, SlotMap.values, SlotMap.empty] at hpi
  rcases C55_search_keeps_the_best Ex.turns_unit Ex.turns_polar (by decide +kernel) hb with ⟨-, hn⟩ | ⟨⟨uni, loc, hd⟩, -⟩
  · cases hn
  · refine ⟨l, _, opt, opt', r, r', uni, loc, rfl, Ex.turns_unit, Ex.turns_polar, h1, hgood.1, Ex.lbfSq_proper, by decide +kernel, rfl, ⟨?_, ?_⟩,
      fun h hh _ => hgood.2 h hh, ha, hb, of_decide_eq_true h5, hd⟩
    · intro c hc
      have hc : c ∈ [(⟨⟨0, 0⟩, 1⟩ : Circle ℚ)] := hc
      rw [List.mem_singleton.1 hc]
      exact Ex.lbfSq_disc
    · intro e he
      have he : e ∈ [(⟨⟨-1 / 2, 0⟩, ⟨1 / 2, 0⟩⟩ : Edge ℚ)] := he
      rw [List.mem_singleton.1 he]
      refine Set.Subset.trans ?_ Ex.lbfSq_disc
      rintro p ⟨t, h0, h1, hx, hy⟩
      show (p.x - 0) ^ 2 + (p.y - 0) ^ 2 ≤ (1 : ℚ) ^ 2
      dsimp only at hx hy
      rw [hx, hy]
      nlinarith

/-- Non-trivial case for the order of the layouts: two layouts, of which the first is taken. -/
example : ∃ (l : Layout ℚ 2) (opt : PlacingOption ℚ) (r : ℕ),
    findPlacement Ex.lbfLenv Ex.lbfEnv Ex.lbfCfg Ex.sqItem [(.real 0, l), (.real 1, l)] 0 = some (some opt, r) ∧ opt.layoutIdx = .real 0 := by
  obtain ⟨l, hl⟩ : ∃ l, Ex.lbfLayout = some l := Option.isSome_iff_exists.1 (by decide +kernel)
  have h : Ex.lbfLayout.bind (fun l => (findPlacement Ex.lbfLenv Ex.lbfEnv Ex.lbfCfg Ex.sqItem [(.real 0, l), (.real 1, l)] 0).bind fun b =>
      b.1.map fun b' => decide (b'.layoutIdx = .real 0)) = some true := by
    decide +kernel
  rw [hl, Option.bind_some] at h
  obtain ⟨⟨o, r⟩, hb, h2⟩ := Option.bind_eq_some_iff.1 h
  obtain ⟨opt, ho, h3⟩ := Option.map_eq_some_iff.1 h2
  dsimp only at ho
  rw [ho] at hb
  exact ⟨l, opt, r, hb, of_decide_eq_true h3⟩

end Jagua
