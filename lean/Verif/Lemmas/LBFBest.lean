import Verif.Lemmas.LBF
import Verif.Spec.LBFTrace

/-!
# The search keeps the best sample
-/

set_option linter.unusedSectionVars false

namespace Jagua

variable {K : Type*} [Field K] [LinearOrder K] [IsStrictOrderedRing K] {n : ℕ} {R : Type*}

theorem boundingBox_cost {pts : List (Point K)} (h : pts ≠ []) {c : K} (hc : LeftBottom pts c) :
    c = lbfCost (boundingBox pts).xMax (boundingBox pts).yMax := by
  obtain ⟨v, hv, w, hw, hmax, rfl⟩ := hc
  obtain ⟨-, -, ⟨p, hp, ep⟩, q, hq, eq⟩ := boundingBox_attained h
  have h1 := mem_boundingBox hv
  have h2 := mem_boundingBox hw
  have e1 : v.x = (boundingBox pts).xMax := le_antisymm h1.2.1 (ep ▸ (hmax p hp).1)
  have e2 : w.y = (boundingBox pts).yMax := le_antisymm h2.2.2.2 (eq ▸ (hmax q hq).2)
  unfold lbfCost
  rw [e1, e2]; ring

theorem SPoly.lbfCost_eq {s : SPoly K} (hs : s.points ≠ []) {t : Transf K} {c : K} (hc : LeftBottom (s.transform t).points c) :
    c = (s.transform t).lbfCost := by
  have := boundingBox_cost (pts := (s.transform t).points) (by unfold SPoly.transform; simpa using hs) hc
  rw [this]; rfl

/-- the cheapest of the samples that were accepted -/
structure BestOf (env : Env K) (layout : Layout K n) (item : Item K) (surr : Surrogate K) (irr : List (HazardEntity K)) (ts : List (Transf K))
    (best : Option (DTransf K × K)) : Prop where
  none : best = none → ∀ t ∈ ts, layout.cde.surrogateHits surr t irr = some false →
    layout.cde.polyCollides env.f (item.shape.transform t) irr = some false → False
  some : ∀ b, best = some b → (∃ t ∈ ts, Transf.fromDt env.tr b.1 = t ∧ layout.cde.surrogateHits surr t irr = some false) ∧
    b.2 = (item.shape.transform (Transf.fromDt env.tr b.1)).lbfCost ∧
    layout.cde.polyCollides env.f (item.shape.transform (Transf.fromDt env.tr b.1)) irr = some false ∧
    ∀ t ∈ ts, layout.cde.surrogateHits surr t irr = some false →
      layout.cde.polyCollides env.f (item.shape.transform t) irr = some false → b.2 ≤ (item.shape.transform t).lbfCost

/-- an unaccepted or dear sample changes nothing -/
theorem BestOf.skip {env : Env K} {layout : Layout K n} {item : Item K} {surr : Surrogate K} {irr : List (HazardEntity K)} {ts : List (Transf K)}
    {best : Option (DTransf K × K)} (h : BestOf env layout item surr irr ts best) {t : Transf K}
    (ht : layout.cde.surrogateHits surr t irr = Option.some false →
      layout.cde.polyCollides env.f (item.shape.transform t) irr = Option.some false →
      ∃ b, best = Option.some b ∧ b.2 ≤ (item.shape.transform t).lbfCost) : BestOf env layout item surr irr (ts ++ [t]) best := by
  refine ⟨fun hb t' ht' h1 h2 => ?_, fun b hb => ?_⟩
  · rcases List.mem_append.1 ht' with h' | h'
    · exact h.none hb t' h' h1 h2
    · rw [List.mem_singleton] at h'; subst h'
      obtain ⟨b, hb', -⟩ := ht h1 h2
      rw [hb] at hb'; cases hb'
  · obtain ⟨⟨t0, h0, h1⟩, h2, h3, h4⟩ := h.some b hb
    refine ⟨⟨t0, List.mem_append_left _ h0, h1⟩, h2, h3, fun t' ht' g1 g2 => ?_⟩
    rcases List.mem_append.1 ht' with h' | h'
    · exact h4 t' h' g1 g2
    · rw [List.mem_singleton] at h'; subst h'
      obtain ⟨b', hb', hle⟩ := ht g1 g2
      rw [hb] at hb'; cases hb'; exact hle

theorem BestOf.take {env : Env K} {layout : Layout K n} {item : Item K} {surr : Surrogate K} {irr : List (HazardEntity K)} {ts : List (Transf K)}
    {best : Option (DTransf K × K)} (h : BestOf env layout item surr irr ts best) {t : Transf K} {d : DTransf K}
    (hd : Transf.fromDt env.tr d = t) (h1 : layout.cde.surrogateHits surr t irr = Option.some false)
    (h2 : layout.cde.polyCollides env.f (item.shape.transform t) irr = Option.some false)
    (hlt : ∀ b, best = Option.some b → (item.shape.transform t).lbfCost < b.2) :
    BestOf env layout item surr irr (ts ++ [t]) (Option.some (d, (item.shape.transform t).lbfCost)) := by
  subst hd
  refine ⟨fun hb => by (cases hb), ?_⟩
  rintro b ⟨⟩
  refine ⟨⟨_, List.mem_append_right _ (List.mem_singleton.2 rfl), rfl, h1⟩, rfl, h2, fun t' ht' g1 g2 => ?_⟩
  rcases List.mem_append.1 ht' with h' | h'
  · cases hb : best with
    | none => exact (h.none hb t' h' g1 g2).elim
    | some b => exact (hlt b hb).le.trans ((h.some b hb).2.2.2 t' h' g1 g2)
  · rw [List.mem_singleton] at h'; subst h'; exact le_rfl

theorem uniStep_best {lenv : LEnv K n R} {env : Env K} {layout : Layout K n} {item : Item K} {surr : Surrogate K} {irr : List (HazardEntity K)}
    (hu : env.tr.Unit) (hp : env.tr.Polar) {st : UniState K} (h : st.Ok lenv env layout item irr) {ts : List (Transf K)}
    (hb : BestOf env layout item surr irr ts st.best) {r : R} {x : UniState K × R}
    (hx : uniStep lenv env layout item surr irr st r = some x) :
    ∃ t r', st.sampler.sample lenv env.tr r = some (t, r') ∧ BestOf env layout item surr irr (ts ++ [t]) x.1.best := by
  unfold uniStep at hx
  obtain ⟨⟨t, r'⟩, ht, hx⟩ := Option.bind_eq_some_iff.1 hx
  refine ⟨t, r', ht, ?_⟩
  obtain ⟨hit, hhit, hx⟩ := Option.bind_eq_some_iff.1 hx
  dsimp only at hhit hx
  split_ifs at hx with h1
  · cases hx
    subst h1
    exact hb.skip fun g _ => by rw [hhit] at g; cases g
  · have h1 : hit = false := by simpa using h1
    subst h1
    rw [h.buffer.transformFrom, Option.bind_some] at hx
    split_ifs at hx with hw
    · obtain ⟨b, hcb, hx⟩ := Option.map_eq_some_iff.1 hx
      rw [bare_collides] at hcb
      split_ifs at hx with h2
      · subst hx
        subst h2
        exact hb.skip fun _ g => by rw [hcb] at g; cases g
      · have h2 : b = false := by simpa using h2
        subst h2
        subst hx
        obtain ⟨c, hc, r', d, hd, hrot, hteq⟩ := h.sampler.sample ht
        rw [h.sampler.pre] at hteq
        dsimp only at hteq
        obtain ⟨hrigid, hturn⟩ := decomposed_turn hu hp (-item.shape.poi.center.x) (-item.shape.poi.center.y) d.1
        rw [← hteq] at hrigid hturn
        refine hb.take (hrigid.decompose hp) hhit hcb fun b hbb => ?_
        rw [hbb] at hw
        unfold worthTesting at hw
        exact of_decide_eq_true hw
    · cases hx
      refine hb.skip fun _ _ => ?_
      cases hbb : st.best with
      | none => rw [hbb] at hw; exact absurd rfl hw
      | some b =>
        rw [hbb] at hw
        unfold worthTesting at hw
        exact ⟨b, rfl, not_lt.1 fun g => hw (decide_eq_true g)⟩

theorem uniLoop_best {lenv : LEnv K n R} {env : Env K} {layout : Layout K n} {item : Item K} {surr : Surrogate K} {irr : List (HazardEntity K)}
    (hu : env.tr.Unit) (hp : env.tr.Polar) : ∀ (k : ℕ) {st : UniState K} {r : R} {x : UniState K × R} {ts : List (Transf K)},
    st.Ok lenv env layout item irr → BestOf env layout item surr irr ts st.best →
    uniLoop lenv env layout item surr irr k st r = some x →
    ∃ us, us.length = k ∧ UniTrace lenv env layout item surr irr (st, r) us x ∧ BestOf env layout item surr irr (ts ++ us) x.1.best
  | 0, st, r, x, ts, _, hb, hx => by cases hx; exact ⟨[], rfl, .nil _, by simpa using hb⟩
  | k + 1, st, r, x, ts, h, hb, hx => by
    unfold uniLoop at hx
    obtain ⟨s, hs, hx⟩ := Option.bind_eq_some_iff.1 hx
    obtain ⟨t, r', ht, hb'⟩ := uniStep_best hu hp h hb hs
    obtain ⟨us, hlen, htr, hbest⟩ := uniLoop_best hu hp k (uniStep_ok hu hp h hs) hb' hx
    exact ⟨t :: us, by simp [hlen], .cons ht hs htr, by simpa using hbest⟩

theorem lsStep_best {lenv : LEnv K n R} {env : Env K} {layout : Layout K n} {item : Item K} {surr : Surrogate K} {irr : List (HazardEntity K)}
    {p : K} {st : LsState K} (h : st.Ok env layout item irr) {ts : List (Transf K)} (hb : BestOf env layout item surr irr ts (some st.best)) {r : R}
    {x : LsState K × R} (hx : lsStep lenv env layout item surr irr p st r = some x) :
    BestOf env layout item surr irr (ts ++ [Transf.fromDt env.tr (st.sampler.sample lenv r).1]) (some x.1.best) := by
  unfold lsStep at hx
  dsimp only at hx
  obtain ⟨hit, hhit, hx⟩ := Option.bind_eq_some_iff.1 hx
  obtain ⟨st', hst, hx⟩ := Option.bind_eq_some_iff.1 hx
  obtain ⟨s', hs', rfl⟩ := Option.map_eq_some_iff.1 hx
  dsimp only
  clear hx hs'
  split_ifs at hst with h1
  · cases hst
    subst h1
    exact hb.skip fun g _ => by rw [hhit] at g; cases g
  · have h1 : hit = false := by simpa using h1
    subst h1
    rw [h.buffer.transformFrom, Option.bind_some] at hst
    split_ifs at hst with h2
    · obtain ⟨b, hcb, hst⟩ := Option.map_eq_some_iff.1 hst
      rw [bare_collides] at hcb
      split_ifs at hst with h3
      · subst hst
        subst h3
        exact hb.skip fun _ g => by rw [hcb] at g; cases g
      · have h3 : b = false := by simpa using h3
        subst h3
        subst hst
        refine hb.take rfl hhit hcb ?_
        rintro b ⟨⟩
        exact h2
    · cases hst
      exact hb.skip fun _ _ => ⟨_, rfl, not_lt.1 h2⟩

theorem lsLoop_best {lenv : LEnv K n R} {env : Env K} {layout : Layout K n} {item : Item K} {surr : Surrogate K} {irr : List (HazardEntity K)}
    {budget : ℕ} : ∀ (k : ℕ) {st : LsState K} {r : R} {x : LsState K × R} {ts : List (Transf K)}, st.Ok env layout item irr →
    BestOf env layout item surr irr ts (some st.best) → lsLoop lenv env layout item surr irr budget k st r = some x →
    ∃ ds, ds.length = k ∧ LsTrace lenv env layout item surr irr budget (st, r) ds x ∧
      BestOf env layout item surr irr (ts ++ ds.map (Transf.fromDt env.tr)) (some x.1.best)
  | 0, st, r, x, ts, _, hb, hx => by cases hx; exact ⟨[], rfl, .nil _, by simpa using hb⟩
  | k + 1, st, r, x, ts, h, hb, hx => by
    unfold lsLoop at hx
    obtain ⟨s, hs, hx⟩ := Option.bind_eq_some_iff.1 hx
    have hb' := lsStep_best h hb hs
    obtain ⟨ds, hlen, htr, hbest⟩ := lsLoop_best k (lsStep_ok h hs).1 hb' hx
    exact ⟨_ :: ds, by simp [hlen], .cons (by rw [hlen]; exact hs) htr, by simpa using hbest⟩

theorem sampleLayout_best {lenv : LEnv K n R} {env : Env K} {cfg : LbfConfig} {idx : LayoutIndex} {layout : Layout K n} {item : Item K} {r : R}
    (hu : env.tr.Unit) (hp : env.tr.Polar) {o : Option (PlacingOption K) × R} (h : sampleLayout lenv env cfg idx layout item r = some o) :
    (HPGSampler.new lenv item layout = some none ∧ o.1 = none) ∨ ∃ uni loc, Drew lenv env cfg layout item r uni loc ∧
      (o.1 = none → ∀ t ∈ uni, ¬ item.Goes env.f layout t) ∧
      ∀ opt, o.1 = some opt → item.Goes env.f layout (Transf.fromDt env.tr opt.dt) ∧
        Transf.fromDt env.tr opt.dt ∈ uni ++ loc.map (Transf.fromDt env.tr) ∧
        ∀ t ∈ uni ++ loc.map (Transf.fromDt env.tr), item.Goes env.f layout t →
          (item.shape.transform (Transf.fromDt env.tr opt.dt)).lbfCost ≤ (item.shape.transform t).lbfCost := by
  unfold sampleLayout at h
  dsimp only at h
  obtain ⟨surr, hsurr, h⟩ := Option.bind_eq_some_iff.1 h
  split_ifs at h
  obtain ⟨sampler, hs, h⟩ := Option.bind_eq_some_iff.1 h
  cases sampler with
  | none => cases h; exact .inl ⟨hs, rfl⟩
  | some sampler =>
    right
    dsimp only at h
    obtain ⟨u, hul, h⟩ := Option.bind_eq_some_iff.1 h
    have hst : UniState.Ok lenv env layout item (lbfIrrelevant item layout) ⟨sampler, { item.shape with surrogate := none }, none⟩ :=
      ⟨(HPGSampler.ok_new hs).1, BufferOf.start _, by rintro b ⟨⟩⟩
    have hU := uniLoop_ok hu hp _ hst hul
    obtain ⟨uni, hlen, htr, hbest⟩ := uniLoop_best (surr := surr) (ts := []) hu hp _ hst
      ⟨fun _ t ht => absurd ht List.not_mem_nil, by rintro b ⟨⟩⟩ hul
    rw [List.nil_append] at hbest
    have goes : ∀ t, item.Goes env.f layout t → layout.cde.surrogateHits surr t (lbfIrrelevant item layout) = some false := by
      rintro t ⟨⟨s, h1, h2⟩, -⟩
      rw [hsurr] at h1; cases h1; exact h2
    cases hb : u.1.best with
    | none =>
      rw [hb] at h; cases h
      exact ⟨uni, [], ⟨surr, sampler, u, hsurr, hs, htr, hlen, .inl ⟨hb, rfl⟩⟩,
        fun _ t ht hg => hbest.none hb t ht (goes t hg) hg.2, by rintro opt ⟨⟩⟩
    | some best =>
      rw [hb] at h hbest
      dsimp only at h
      obtain ⟨l, hl, rfl⟩ := Option.map_eq_some_iff.1 h
      have hA := hU.best best hb
      obtain ⟨loc, hlen', htr', hbest'⟩ := lsLoop_best _
        (st := ⟨LSSampler.fromDefaults lenv item best.1 layout.bin.outer.val.bbox, u.1.buffer, best⟩)
        ⟨NormalRot.ok_ofItem hA.rot _, hU.buffer, hA⟩ hbest hl
      refine ⟨uni, loc, ⟨surr, sampler, u, hsurr, hs, htr, hlen, .inr ⟨best, l, hb, hlen', htr'⟩⟩, by rintro ⟨⟩, ?_⟩
      rintro opt ⟨⟩
      obtain ⟨⟨t, ht, rfl, h1⟩, h2, h3, h4⟩ := hbest'.some _ rfl
      exact ⟨⟨⟨surr, hsurr, h1⟩, h3⟩, ht, fun t ht hg => h2 ▸ h4 t ht (goes t hg) hg.2⟩

/-! ## The samples are determined, and are rigid motions -/

theorem UniTrace.unique {lenv : LEnv K n R} {env : Env K} {layout : Layout K n} {item : Item K} {surr : Surrogate K} {irr : List (HazardEntity K)}
    {s u u' : UniState K × R} {ts ts' : List (Transf K)} (h : UniTrace lenv env layout item surr irr s ts u)
    (h' : UniTrace lenv env layout item surr irr s ts' u') (hlen : ts.length = ts'.length) : ts = ts' ∧ u = u' := by
  induction h generalizing ts' with
  | nil s =>
    cases h' with
    | nil => exact ⟨rfl, rfl⟩
    | cons => simp at hlen
  | cons h1 h2 _ ih =>
    cases h' with
    | nil => simp at hlen
    | cons g1 g2 g3 =>
      rw [h1] at g1; cases g1
      rw [h2] at g2; cases g2
      obtain ⟨e1, e2⟩ := ih g3 (by simpa using hlen)
      exact ⟨by rw [e1], e2⟩

theorem LsTrace.unique {lenv : LEnv K n R} {env : Env K} {layout : Layout K n} {item : Item K} {surr : Surrogate K} {irr : List (HazardEntity K)}
    {budget : ℕ} {s u u' : LsState K × R} {ts ts' : List (DTransf K)} (h : LsTrace lenv env layout item surr irr budget s ts u)
    (h' : LsTrace lenv env layout item surr irr budget s ts' u') (hlen : ts.length = ts'.length) : ts = ts' ∧ u = u' := by
  induction h generalizing ts' with
  | nil s =>
    cases h' with
    | nil => exact ⟨rfl, rfl⟩
    | cons => simp at hlen
  | cons h2 _ ih =>
    cases h' with
    | nil => simp at hlen
    | cons g2 g3 =>
      have hl := Nat.succ_injective hlen
      rw [← hl, h2] at g2; cases g2
      obtain ⟨e1, e2⟩ := ih g3 hl
      exact ⟨by rw [e1], e2⟩

theorem Drew.unique {lenv : LEnv K n R} {env : Env K} {cfg : LbfConfig} {layout : Layout K n} {item : Item K} {r : R}
    {uni uni' : List (Transf K)} {loc loc' : List (DTransf K)} (h : Drew lenv env cfg layout item r uni loc)
    (h' : Drew lenv env cfg layout item r uni' loc') : uni = uni' ∧ loc = loc' := by
  obtain ⟨surr, s, u, h1, h2, h3, h4, h5⟩ := h.run
  obtain ⟨surr', s', u', g1, g2, g3, g4, g5⟩ := h'.run
  rw [h1] at g1; cases g1
  rw [h2] at g2; cases g2
  obtain ⟨rfl, rfl⟩ := h3.unique g3 (h4.trans g4.symm)
  refine ⟨rfl, ?_⟩
  rcases h5 with ⟨hb, rfl⟩ | ⟨b, l, hb, hl, ht⟩
  · rcases g5 with ⟨-, rfl⟩ | ⟨b, l, gb, -, -⟩
    · rfl
    · rw [hb] at gb; cases gb
  · rcases g5 with ⟨gb, -⟩ | ⟨b', l', gb, gl, gt⟩
    · rw [hb] at gb; cases gb
    · rw [hb] at gb; cases gb
      exact (ht.unique gt (hl.trans gl.symm)).1

theorem UniTrace.rigid {lenv : LEnv K n R} {env : Env K} {layout : Layout K n} {item : Item K} {surr : Surrogate K} {irr : List (HazardEntity K)}
    (hu : env.tr.Unit) (hp : env.tr.Polar) {s u : UniState K × R} {ts : List (Transf K)} (h : UniTrace lenv env layout item surr irr s ts u)
    (hok : s.1.Ok lenv env layout item irr) : ∀ t ∈ ts, t.IsRigid := by
  induction h with
  | nil s => exact fun t ht => absurd ht List.not_mem_nil
  | cons h1 h2 _ ih =>
    intro t ht
    rcases List.mem_cons.1 ht with rfl | ht
    · obtain ⟨c, hc, r', d, hd, hrot, hteq⟩ := hok.sampler.sample h1
      rw [hok.sampler.pre] at hteq
      have := (decomposed_turn hu hp (-item.shape.poi.center.x) (-item.shape.poi.center.y) d.1).1
      rw [← hteq] at this
      exact this
    · exact ih (uniStep_ok hu hp hok h2) t ht

theorem Drew.rigid {lenv : LEnv K n R} {env : Env K} {cfg : LbfConfig} {layout : Layout K n} {item : Item K} {r : R}
    (hu : env.tr.Unit) (hp : env.tr.Polar) {uni : List (Transf K)} {loc : List (DTransf K)} (h : Drew lenv env cfg layout item r uni loc) :
    ∀ t ∈ uni ++ loc.map (Transf.fromDt env.tr), t.IsRigid := by
  obtain ⟨surr, s, u, h1, h2, h3, -, -⟩ := h.run
  intro t ht
  rcases List.mem_append.1 ht with ht | ht
  · exact h3.rigid hu hp ⟨(HPGSampler.ok_new h2).1, BufferOf.start _, by rintro b ⟨⟩⟩ t ht
  · obtain ⟨d, -, rfl⟩ := List.mem_map.1 ht
    exact Transf.IsRigid.rotTransl hu ..

end Jagua
