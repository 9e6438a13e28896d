import Verif.Spec.Trial
import Verif.Lemmas.LBFRun

/-!
# The search for a placement, over any arithmetic: what is placed was tested
-/

set_option linter.unusedSectionVars false

namespace Jagua

variable {K : Type*} [Arith K] [LinearOrder K] {n : ℕ} {R : Type*}

/-! ## Rotations -/

theorem UniformRot.sample_angle {lenv : LEnv K n R} {item : Item K} {d : UniformRot K}
    (hd : UniformRot.ofItem lenv item = some d) {r : R} {x : K × R} (hx : d.sample lenv r = some x) : item.AllowsAngle x.1 := by
  unfold UniformRot.ofItem at hd
  unfold Item.AllowsAngle
  split at hd
  · rename_i e
    cases hd
    unfold UniformRot.sample at hx
    cases hx
    rw [e]
  · rename_i e
    rw [e]
    trivial
  · rename_i as e
    cases hd
    unfold UniformRot.sample at hx
    dsimp only at hx
    split_ifs at hx
    obtain ⟨a, ha, rfl⟩ := Option.map_eq_some_iff.1 hx
    rw [e]
    exact List.mem_of_getElem? ha

/-- the rotation part of the local search stays with what was found before -/
def NormalRot.Keeps (tr : Trig K) (item : Item K) (d : NormalRot K) : Prop :=
  (d = .none ∧ item.Turns tr 0) ∨ (∃ a, d = .discrete a ∧ item.Turns tr a) ∨ item.allowedRotation = .continuous

theorem NormalRot.keeps_ofItem {tr : Trig K} {item : Item K} {ref : K} (h : item.Turns tr ref) (sd : K) : (NormalRot.ofItem item ref sd).Keeps tr item := by
  unfold NormalRot.Keeps NormalRot.ofItem
  split
  · rename_i e
    left
    refine ⟨rfl, .inl ?_⟩
    unfold Item.AllowsAngle
    rw [e]
  · rename_i e
    exact .inr (.inr e)
  · exact .inr (.inl ⟨_, rfl, h⟩)

theorem NormalRot.Keeps.setMean {tr : Trig K} {item : Item K} {d : NormalRot K} (h : d.Keeps tr item) (m : K) : (d.setMean m).Keeps tr item := by
  rcases h with ⟨rfl, h⟩ | ⟨a, rfl, h⟩ | h
  · exact .inl ⟨rfl, h⟩
  · exact .inr (.inl ⟨a, rfl, h⟩)
  · exact .inr (.inr h)

theorem NormalRot.Keeps.setStddev {tr : Trig K} {item : Item K} {d : NormalRot K} (h : d.Keeps tr item) (m : K) : (d.setStddev m).Keeps tr item := by
  rcases h with ⟨rfl, h⟩ | ⟨a, rfl, h⟩ | h
  · exact .inl ⟨rfl, h⟩
  · exact .inr (.inl ⟨a, rfl, h⟩)
  · exact .inr (.inr h)

theorem NormalRot.Keeps.sample {tr : Trig K} {item : Item K} {d : NormalRot K} (h : d.Keeps tr item) (lenv : LEnv K n R) (r : R) :
    item.Turns tr (d.sample lenv r).1 := by
  rcases h with ⟨rfl, h⟩ | ⟨a, rfl, h⟩ | h
  · exact h
  · exact h
  · left; unfold Item.AllowsAngle; rw [h]; trivial

theorem Item.TrialOf.turns {tr : Trig K} {item : Item K} {dt : DTransf K} {t : Transf K} (h : item.TrialOf tr dt t) : item.Turns tr dt.rotation := by
  cases h with
  | sample d h1 h2 => exact .inr ⟨d, h1, by rw [h2]⟩
  | direct h => exact h

/-! ## The samplers -/

structure HPGSampler.Keeps (lenv : LEnv K n R) (item : Item K) (s : HPGSampler K) : Prop where
  pre : s.pretransform = Transf.fromTranslation (-item.shape.poi.center.x) (-item.shape.poi.center.y)
  rot : ∀ c ∈ s.cells, UniformRot.ofItem lenv item = some c.rot

theorem HPGSampler.keeps_new {lenv : LEnv K n R} {item : Item K} {layout : Layout K n} {s : HPGSampler K}
    (h : HPGSampler.new lenv item layout = some (some s)) : s.Keeps lenv item := by
  unfold HPGSampler.new at h
  dsimp only at h
  obtain ⟨all, _, h⟩ := Option.bind_eq_some_iff.1 h
  obtain ⟨marked, _, h⟩ := Option.bind_eq_some_iff.1 h
  obtain ⟨cells, hc, h⟩ := Option.map_eq_some_iff.1 h
  split_ifs at h with he
  cases h
  refine ⟨rfl, ?_⟩
  intro c hcm
  obtain ⟨b, _, hb⟩ := mapM_mem hc c hcm
  unfold RectSampler.new at hb
  split_ifs at hb with hbox
  obtain ⟨d, hd, rfl⟩ := Option.map_eq_some_iff.1 hb
  exact hd

theorem HPGSampler.Keeps.tighten {lenv : LEnv K n R} {item : Item K} {s : HPGSampler K} (h : s.Keeps lenv item) (best : K) : (s.tighten best).Keeps lenv item := by
  unfold HPGSampler.tighten
  split_ifs
  · exact ⟨h.pre, fun c hc => h.rot c (List.mem_of_mem_filter hc)⟩
  · exact h

theorem HPGSampler.Keeps.sample {lenv : LEnv K n R} {tr : Trig K} {item : Item K} {s : HPGSampler K} (h : s.Keeps lenv item) {r : R}
    {t : Transf K × R} (ht : s.sample lenv tr r = some t) : ∃ d : DTransf K, item.AllowsAngle d.rotation ∧ t.1 = item.sampleOf tr d := by
  unfold HPGSampler.sample at ht
  split_ifs at ht
  dsimp only at ht
  obtain ⟨c, hc, ht⟩ := Option.bind_eq_some_iff.1 ht
  obtain ⟨d, hd, rfl⟩ := Option.map_eq_some_iff.1 ht
  refine ⟨d.1, ?_, ?_⟩
  · unfold RectSampler.sample at hd
    obtain ⟨a, ha, rfl⟩ := Option.map_eq_some_iff.1 hd
    exact UniformRot.sample_angle (h.rot c (List.mem_of_getElem? hc)) ha
  · dsimp only
    rw [h.pre]
    rfl

/-! ## The two loops -/

/-- what is stored was tested -/
def Layout.Tested (env : Env K) (l : Layout K n) (item : Item K) (dt : DTransf K) : Prop :=
  ∃ t, item.TrialOf env.tr dt t ∧ (l.trial item t).Free env.f

structure UniState.Keeps (lenv : LEnv K n R) (env : Env K) (layout : Layout K n) (item : Item K) (st : UniState K) : Prop where
  sampler : st.sampler.Keeps lenv item
  buffer : BufferOf item.shape st.buffer
  best : ∀ b, st.best = some b → layout.Tested env item b.1

theorem uniStep_keeps {lenv : LEnv K n R} {env : Env K} {layout : Layout K n} {item : Item K} {surr : Surrogate K}
    {st : UniState K} (h : st.Keeps lenv env layout item) {r : R} {x : UniState K × R}
    (hx : uniStep lenv env layout item surr (lbfIrrelevant item layout) st r = some x) : x.1.Keeps lenv env layout item := by
  unfold uniStep at hx
  obtain ⟨t, ht, hx⟩ := Option.bind_eq_some_iff.1 hx
  obtain ⟨hit, _, hx⟩ := Option.bind_eq_some_iff.1 hx
  split_ifs at hx with h1
  · cases hx; exact h
  · rw [h.buffer.transformFrom, Option.bind_some] at hx
    dsimp only at hx
    have hbuf := BufferOf.next item.shape t.1
    split_ifs at hx with hw
    · obtain ⟨b, hb, hx⟩ := Option.map_eq_some_iff.1 hx
      split_ifs at hx with h2
      · subst hx; exact ⟨h.sampler, hbuf, h.best⟩
      · subst hx
        refine ⟨h.sampler.tighten _, hbuf, ?_⟩
        rintro b' ⟨⟩
        obtain ⟨d, hd, hteq⟩ := h.sampler.sample ht
        refine ⟨t.1, ?_, ?_⟩
        · dsimp only
          rw [hteq]
          exact .sample d hd rfl
        · unfold Trial.Free Layout.trial
          dsimp only
          rw [← bare_collides, hb]
          simpa using h2
    · cases hx; exact ⟨h.sampler, hbuf, h.best⟩

theorem uniLoop_keeps {lenv : LEnv K n R} {env : Env K} {layout : Layout K n} {item : Item K} {surr : Surrogate K} :
    ∀ (k : ℕ) {st : UniState K} {r : R} {x : UniState K × R}, st.Keeps lenv env layout item →
    uniLoop lenv env layout item surr (lbfIrrelevant item layout) k st r = some x → x.1.Keeps lenv env layout item
  | 0, st, r, x, h, hx => by cases hx; exact h
  | k + 1, st, r, x, h, hx => by
    unfold uniLoop at hx
    obtain ⟨s, hs, hx⟩ := Option.bind_eq_some_iff.1 hx
    exact uniLoop_keeps k (uniStep_keeps h hs) hx

structure LsState.Keeps (env : Env K) (layout : Layout K n) (item : Item K) (st : LsState K) : Prop where
  rot : st.sampler.rot.Keeps env.tr item
  buffer : BufferOf item.shape st.buffer
  best : layout.Tested env item st.best.1

theorem LSSampler.decay_keeps {lenv : LEnv K n R} {tr : Trig K} {item : Item K} {s s' : LSSampler K} {p : K}
    (h : s.rot.Keeps tr item) (hs : s.decayStddev lenv p = some s') : s'.rot.Keeps tr item := by
  unfold LSSampler.decayStddev LSSampler.setStddev at hs
  dsimp only at hs
  split_ifs at hs
  cases hs
  exact h.setStddev _

theorem lsStep_keeps {lenv : LEnv K n R} {env : Env K} {layout : Layout K n} {item : Item K} {surr : Surrogate K}
    {p : K} {st : LsState K} (h : st.Keeps env layout item) {r : R} {x : LsState K × R}
    (hx : lsStep lenv env layout item surr (lbfIrrelevant item layout) p st r = some x) : x.1.Keeps env layout item := by
  unfold lsStep at hx
  dsimp only at hx
  obtain ⟨hit, _, hx⟩ := Option.bind_eq_some_iff.1 hx
  obtain ⟨st', hst, hx⟩ := Option.bind_eq_some_iff.1 hx
  obtain ⟨s', hs', rfl⟩ := Option.map_eq_some_iff.1 hx
  have key : st'.Keeps env layout item := by
    split_ifs at hst with h1
    · cases hst; exact h
    · rw [h.buffer.transformFrom, Option.bind_some] at hst
      have hbuf := BufferOf.next item.shape (Transf.fromDt env.tr (st.sampler.sample lenv r).1)
      split_ifs at hst with h2
      · obtain ⟨b, hb, hst⟩ := Option.map_eq_some_iff.1 hst
        split_ifs at hst with h3
        · subst hst; exact ⟨h.rot, hbuf, h.best⟩
        · subst hst
          refine ⟨h.rot.setMean _, hbuf, _, .direct (h.rot.sample lenv r), ?_⟩
          unfold Trial.Free Layout.trial
          dsimp only
          rw [← bare_collides, hb]
          simpa using h3
      · cases hst; exact ⟨h.rot, hbuf, h.best⟩
  exact ⟨LSSampler.decay_keeps key.rot hs', key.buffer, key.best⟩

theorem lsLoop_keeps {lenv : LEnv K n R} {env : Env K} {layout : Layout K n} {item : Item K} {surr : Surrogate K} {budget : ℕ} :
    ∀ (k : ℕ) {st : LsState K} {r : R} {x : LsState K × R}, st.Keeps env layout item →
    lsLoop lenv env layout item surr (lbfIrrelevant item layout) budget k st r = some x → x.1.Keeps env layout item
  | 0, st, r, x, h, hx => by cases hx; exact h
  | k + 1, st, r, x, h, hx => by
    unfold lsLoop at hx
    obtain ⟨s, hs, hx⟩ := Option.bind_eq_some_iff.1 hx
    exact lsLoop_keeps k (lsStep_keeps h hs) hx

theorem sampleLayout_tested {lenv : LEnv K n R} {env : Env K} {cfg : LbfConfig} {idx : LayoutIndex} {layout : Layout K n} {item : Item K} {r : R}
    {o : Option (PlacingOption K) × R} (h : sampleLayout lenv env cfg idx layout item r = some o)
    {opt : PlacingOption K} (ho : o.1 = some opt) : opt.layoutIdx = idx ∧ opt.itemId = item.id ∧ layout.Tested env item opt.dt := by
  unfold sampleLayout at h
  dsimp only at h
  obtain ⟨surr, _, h⟩ := Option.bind_eq_some_iff.1 h
  split_ifs at h
  obtain ⟨sampler, hs, h⟩ := Option.bind_eq_some_iff.1 h
  cases sampler with
  | none => cases h; cases ho
  | some sampler =>
    dsimp only at h
    obtain ⟨u, hul, h⟩ := Option.bind_eq_some_iff.1 h
    have hU := uniLoop_keeps (env := env) _ (st := ⟨sampler, { item.shape with surrogate := none }, none⟩)
      ⟨HPGSampler.keeps_new hs, BufferOf.start _, by rintro b ⟨⟩⟩ hul
    cases hb : u.1.best with
    | none => rw [hb] at h; cases h; cases ho
    | some best =>
      rw [hb] at h
      dsimp only at h
      obtain ⟨l, hl, rfl⟩ := Option.map_eq_some_iff.1 h
      cases ho
      have hA := hU.best best hb
      obtain ⟨t, ht, hfree⟩ := hA
      have hL := lsLoop_keeps _ (st := ⟨LSSampler.fromDefaults lenv item best.1 layout.bin.outer.val.bbox, u.1.buffer, best⟩)
        ⟨NormalRot.keeps_ofItem ht.turns _, hU.buffer, t, ht, hfree⟩ hl
      exact ⟨rfl, rfl, hL.best⟩

theorem findPlacement_tested {lenv : LEnv K n R} {env : Env K} {cfg : LbfConfig} {item : Item K} :
    ∀ {ls : List (LayoutIndex × Layout K n)} {r : R} {o : Option (PlacingOption K) × R},
    findPlacement lenv env cfg item ls r = some o → ∀ {opt : PlacingOption K}, o.1 = some opt →
    ∃ l ∈ ls, opt.layoutIdx = l.1 ∧ opt.itemId = item.id ∧ l.2.Tested env item opt.dt
  | [], r, o, h, opt, ho => by cases h; cases ho
  | l :: ls, r, o, h, opt, ho => by
    unfold findPlacement at h
    obtain ⟨o', ho', h⟩ := Option.bind_eq_some_iff.1 h
    cases hx : o'.1 with
    | none =>
      rw [hx] at h
      obtain ⟨l', hl', h'⟩ := findPlacement_tested h ho
      exact ⟨l', List.mem_cons_of_mem _ hl', h'⟩
    | some opt' =>
      rw [hx] at h
      cases h
      cases ho
      exact ⟨l, List.mem_cons_self, sampleLayout_tested ho' hx⟩

/-! ## The run -/

/-- what stays true of the problem while the optimizer runs -/
structure TrialBP (env : Env K) (inst : BPInstance K n) (p : BPProblem K n) : Prop where
  same : p.inst = inst
  templates : p.templates = (BPProblem.new inst).templates
  layouts : ∀ l ∈ p.layouts, ∃ ts, l.Filled env inst ts

theorem TrialBP.start (env : Env K) (inst : BPInstance K n) : TrialBP env inst (BPProblem.new inst) := ⟨rfl, rfl, by simp [BPProblem.new]⟩

theorem TrialBP.template {env : Env K} {inst : BPInstance K n} (hids : idsCorrect inst.items inst.bins = true) {p : BPProblem K n} (h : TrialBP env inst p) {i : ℕ}
    {l : Layout K n} (hl : p.templates[i]? = some l) : ∃ bin q, l = Layout.new i bin ∧ inst.bins[bin.id]? = some (bin, q) := by
  rw [h.templates] at hl
  unfold BPProblem.new at hl
  dsimp only at hl
  rw [List.getElem?_map, List.getElem?_zipIdx] at hl
  obtain ⟨y, hy, rfl⟩ := Option.map_eq_some_iff.1 hl
  obtain ⟨z, hz, rfl⟩ := Option.map_eq_some_iff.1 hy
  refine ⟨z.1, z.2, by simp, ?_⟩
  unfold idsCorrect at hids
  rw [Bool.and_eq_true, List.all_eq_true, List.all_eq_true] at hids
  have := hids.2 (z, i) (List.mem_zipIdx_iff_getElem?.2 hz)
  dsimp only at this
  rw [decide_eq_true_eq] at this
  rw [this]
  exact hz

theorem BPProblem.searchList_mem {p : BPProblem K n} {ls : List (LayoutIndex × Layout K n)} (hls : p.searchList = some ls) : ∀ x ∈ ls, p.getLayout x.1 = some x.2 := by
  unfold BPProblem.searchList at hls
  obtain ⟨ts, hts, hls⟩ := Option.bind_eq_some_iff.1 hls
  intro x hx
  obtain ⟨idx, hidx, hg⟩ := mapM_mem hls x hx
  obtain ⟨l, hl, rfl⟩ := Option.map_eq_some_iff.1 hg
  exact hl

theorem Layout.Tested.clone {env : Env K} {l : Layout K n} {item : Item K} {dt : DTransf K} (h : l.Tested env item dt) (id : ℕ) : (l.cloneWithId id).Tested env item dt := h

/-- placing what was found -/
theorem TrialBP.place {env : Env K} {inst : BPInstance K n} (hids : idsCorrect inst.items inst.bins = true) {p : BPProblem K n} (h : TrialBP env inst p)
    {opt : PlacingOption K} {item : Item K × ℕ} (hi : inst.items[item.1.id]? = some item) (hid : opt.itemId = item.1.id) {l : Layout K n} (hl : p.getLayout opt.layoutIdx = some l)
    (ht : l.Tested env item.1 opt.dt) {addr : ℕ} {q : (LayoutIndex × SlotKey) × BPProblem K n} (hq : p.placeItem env addr opt = some q) : TrialBP env inst q.2 := by
  unfold BPProblem.placeItem at hq
  obtain ⟨t, htl, hq⟩ := Option.bind_eq_some_iff.1 hq
  have key : t.2.inst = inst ∧ t.2.templates = p.templates ∧ (∀ l ∈ t.2.layouts, ∃ ts, l.Filled env inst ts) ∧
      ∀ l', t.2.layouts[t.1]? = some l' → l'.Tested env item.1 opt.dt := by
    cases hx : opt.layoutIdx with
    | real i =>
      rw [hx] at htl hl
      cases htl
      refine ⟨h.same, rfl, h.layouts, fun l' hl' => ?_⟩
      have : p.layouts[i]? = some l := hl
      dsimp only at hl'
      rw [this] at hl'
      cases hl'
      exact ht
    | template i =>
      rw [hx] at htl hl
      have hl : p.templates[i]? = some l := hl
      obtain ⟨bin, qty, hnew, hbin⟩ := h.template hids hl
      unfold BPProblem.targetLayout at htl
      dsimp only at htl
      rw [hl] at htl
      dsimp only at htl
      obtain ⟨r, hr, htl⟩ := Option.bind_eq_some_iff.1 htl
      unfold BPProblem.registerLayout at hr
      obtain ⟨p1, hp1, hr⟩ := Option.bind_eq_some_iff.1 hr
      rw [show (l.cloneWithId (p.layoutCounter + 1)).placed.values = [] by rw [hnew]; rfl, List.foldlM_nil] at hr
      have hr : some _ = some r := hr
      cases hr
      dsimp only at htl
      cases htl
      unfold BPProblem.registerBin at hp1
      split at hp1
      · cases hp1
      · split_ifs at hp1
        cases hp1
        refine ⟨h.same, rfl, ?_, ?_⟩
        · intro l2 hl2
          rcases List.mem_append.1 hl2 with hl2 | hl2
          · exact h.layouts l2 hl2
          · rw [List.mem_singleton] at hl2
            subst hl2
            refine ⟨[], ?_⟩
            rw [hnew]
            exact .empty _ bin qty hbin
        · intro l2 hl2
          dsimp only at hl2
          rw [List.getElem?_append_right le_rfl, Nat.sub_self] at hl2
          cases hl2
          exact ht
  obtain ⟨k1, k2, k3, k4⟩ := key
  split at hq
  · rename_i l2 item2 e1 e2
    rw [k1, hid, hi] at e2
    obtain rfl := Option.some.inj e2
    obtain ⟨pl, hpl, hq⟩ := Option.bind_eq_some_iff.1 hq
    obtain ⟨p2, hp2, rfl⟩ := Option.map_eq_some_iff.1 hq
    unfold BPProblem.registerItem at hp2
    obtain ⟨m, hm, rfl⟩ := Option.map_eq_some_iff.1 hp2
    refine ⟨k1, k2.trans h.templates, ?_⟩
    intro l3 hl3
    rcases List.mem_or_eq_of_mem_set hl3 with hl3 | rfl
    · exact k3 l3 hl3
    · obtain ⟨ts, hts⟩ := k3 l2 (List.mem_of_getElem? e1)
      obtain ⟨tm, htm, hfree⟩ := k4 l2 e1
      exact ⟨_, .place hts hi htm hfree hpl⟩
  · cases hq

theorem lbfPlaceBP_filled {lenv : LEnv K n R} {env : Env K} {cfg : LbfConfig} {inst : BPInstance K n} (hids : idsCorrect inst.items inst.bins = true) {addr : ℕ → ℕ} {i : ℕ} :
    ∀ (k : ℕ) {p : BPProblem K n} {r : R} {x : BPProblem K n × R}, TrialBP env inst p →
    lbfPlaceBP lenv env cfg addr i k p r = some x → TrialBP env inst x.1
  | 0, p, r, x, h, hx => by cases hx
  | k + 1, p, r, x, h, hx => by
    unfold lbfPlaceBP at hx
    obtain ⟨m, hm, hx⟩ := Option.bind_eq_some_iff.1 hx
    split_ifs at hx with hpos
    · obtain ⟨item, hi, hx⟩ := Option.bind_eq_some_iff.1 hx
      obtain ⟨ls, hls, hx⟩ := Option.bind_eq_some_iff.1 hx
      obtain ⟨o, ho, hx⟩ := Option.bind_eq_some_iff.1 hx
      cases hopt : o.1 with
      | none =>
        rw [hopt] at hx
        cases hx
        exact h
      | some opt =>
        rw [hopt] at hx
        dsimp only at hx
        obtain ⟨q, hq, hx⟩ := Option.bind_eq_some_iff.1 hx
        rw [h.same] at hi
        obtain ⟨l, hl, e1, e2, ht⟩ := findPlacement_tested ho hopt
        obtain ⟨hid, -⟩ := catOf_id hids hi
        refine lbfPlaceBP_filled hids k (h.place hids (item := item) (by rw [hid]; exact hi) e2 (l := l.2) ?_ ht hq) hx
        rw [e1]
        exact BPProblem.searchList_mem hls l hl
    · cases hx
      exact h

theorem lbfFoldBP_filled {lenv : LEnv K n R} {env : Env K} {cfg : LbfConfig} {inst : BPInstance K n} (hids : idsCorrect inst.items inst.bins = true) {addr : ℕ → ℕ → ℕ} {fuel : ℕ} :
    ∀ (order : List ℕ) {s s' : BPProblem K n × R}, TrialBP env inst s.1 →
    order.foldlM (fun (s : BPProblem K n × R) i => lbfPlaceBP lenv env cfg (addr i) i fuel s.1 s.2) s = some s' → TrialBP env inst s'.1
  | [], s, s', h, hs => by
    rw [List.foldlM_nil] at hs
    cases hs
    exact h
  | i :: order, s, s', h, hs => by
    rw [List.foldlM_cons] at hs
    obtain ⟨t, ht, hs⟩ := Option.bind_eq_some_iff.1 hs
    exact lbfFoldBP_filled hids order (lbfPlaceBP_filled hids fuel h ht) hs

theorem lbfSolveBP_filled {lenv : LEnv K n R} {env : Env K} {cfg : LbfConfig} {addr : ℕ → ℕ → ℕ} {fuel : ℕ} {inst : BPInstance K n} {r : R}
    (hids : idsCorrect inst.items inst.bins = true) {sol : Solution K n} {p : BPProblem K n} (h : lbfSolveBP lenv env cfg addr fuel inst r = some (sol, p)) :
    ∀ sn ∈ sol.snapshots, ∃ (l : Layout K n) (ts : List (Trial K n)), l.Filled env inst ts ∧ sn.bin = l.bin ∧ sn.placed = l.placed := by
  unfold lbfSolveBP at h
  split_ifs at h
  obtain ⟨order, ho, h⟩ := Option.bind_eq_some_iff.1 h
  obtain ⟨s, hs, h⟩ := Option.bind_eq_some_iff.1 h
  have hL := lbfFoldBP_filled hids order (TrialBP.start env inst) hs
  unfold BPProblem.createSolution at h
  dsimp only at h
  split_ifs at h
  obtain ⟨rs, hrs, h⟩ := Option.map_eq_some_iff.1 h
  obtain ⟨rfl, -⟩ := Prod.mk.inj h
  intro sn hsn
  obtain ⟨y, hy, rfl⟩ := List.mem_map.1 hsn
  obtain ⟨l, hl, e⟩ := mapM_mem hrs y hy
  obtain ⟨ts, hts⟩ := hL.layouts l hl
  unfold BPProblem.snapshotLayout Layout.createSnapshot at e
  dsimp only at e
  obtain ⟨c, hc, rfl⟩ := Option.map_eq_some_iff.1 e
  exact ⟨l, ts, hts, rfl, rfl⟩

end Jagua
