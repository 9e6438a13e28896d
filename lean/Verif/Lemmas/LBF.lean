import Verif.Spec.LBF
import Verif.Lemmas.Centroid
import Verif.Lemmas.Transf
import Verif.Lemmas.HPG
import Verif.Props.Layout
import Verif.Props.Collision

/-!
# Sampling a layout: the result was accepted by the engine and its rotation is allowed
-/

set_option linter.unusedSectionVars false

namespace Jagua

section Any
variable {K : Type*} [Arith K] [LinearOrder K] {n : ℕ} {R : Type*}

/-- the engine does not look at the surrogate -/
theorem CDE.polyCollides_surrogate (f : Fpa K) (c : CDE K n) (s : SPoly K) (x : Option (Surrogate K)) (irr : List (HazardEntity K)) :
    c.polyCollides f { s with surrogate := x } irr = c.polyCollides f s irr := rfl

/-- the shape without surrogate -/
def SPoly.bare (s : SPoly K) : SPoly K := { s with surrogate := none }

/-- what a buffer keeps from the shape it was made of -/
structure BufferOf (s b : SPoly K) : Prop where
  len : b.points.length = s.points.length
  area : b.area = s.area
  radius : b.poi.radius = s.poi.radius
  bare : b.surrogate = none

theorem BufferOf.start (s : SPoly K) : BufferOf s { s with surrogate := none } := ⟨rfl, rfl, rfl, rfl⟩

theorem overwrite_len {α : Type*} (g : α → α → α) (f : α → α) (hg : ∀ a b, g a b = f b) :
    ∀ {bs rs : List α}, bs.length = rs.length → overwrite g bs rs = rs.map f
  | [], [], _ => rfl
  | b :: bs, r :: rs, h => by
    simp only [overwrite, List.map_cons, hg]
    rw [overwrite_len g f hg (by simpa using h)]

theorem BufferOf.transformFrom {s b : SPoly K} (h : BufferOf s b) (t : Transf K) :
    b.transformFrom s t = some (s.bare.transform t) := by
  have e : overwrite (fun (x1 x2 : Point K) => x1.transformFrom x2 t) b.points s.points = s.points.map (fun p : Point K => p.transform t) :=
    overwrite_len _ (fun p : Point K => p.transform t) (fun _ _ => rfl) h.len
  unfold SPoly.transformFrom
  rw [h.bare]
  dsimp only
  rw [e]
  unfold SPoly.transform SPoly.bare Circle.transformFrom Circle.transform
  rw [h.area, h.radius]
  simp only [Option.map_none]
  rfl

theorem BufferOf.next (s : SPoly K) (t : Transf K) : BufferOf s (s.bare.transform t) :=
  ⟨by unfold SPoly.transform SPoly.bare; simp, rfl, rfl, rfl⟩

theorem bare_collides (f : Fpa K) (c : CDE K n) (s : SPoly K) (t : Transf K) (irr : List (HazardEntity K)) :
    c.polyCollides f (s.bare.transform t) irr = c.polyCollides f (s.transform t) irr := rfl

/-! ## Rotations -/

theorem SameTurn.refl (tr : Trig K) (a : K) : SameTurn tr a a := ⟨rfl, rfl⟩

theorem Item.Allows.congr {tr : Trig K} {item : Item K} {a b : K} (h : item.Allows tr b) (hab : SameTurn tr a b) : item.Allows tr a := by
  unfold Item.Allows at h ⊢
  split
  · rename_i e; rw [e] at h; exact ⟨hab.1.trans h.1, hab.2.trans h.2⟩
  · trivial
  · rename_i as e
    rw [e] at h
    obtain ⟨c, hc, h1, h2⟩ := h
    exact ⟨c, hc, hab.1.trans h1, hab.2.trans h2⟩

theorem UniformRot.sample_allowed {lenv : LEnv K n R} (tr : Trig K) {item : Item K} {d : UniformRot K}
    (hd : UniformRot.ofItem lenv item = some d) {r : R} {x : K × R} (hx : d.sample lenv r = some x) : item.Allows tr x.1 := by
  unfold UniformRot.ofItem at hd
  unfold Item.Allows
  split at hd
  · rename_i e
    cases hd
    unfold UniformRot.sample at hx
    cases hx
    rw [e]
    exact SameTurn.refl ..
  · rename_i e
    rw [e]
    trivial
  · rename_i as e
    cases hd
    unfold UniformRot.sample at hx
    dsimp only at hx
    split_ifs at hx
    obtain ⟨a, ha, rfl⟩ := Option.map_eq_some_iff.1 hx
    rw [e]
    exact ⟨a, List.mem_of_getElem? ha, SameTurn.refl ..⟩

/-- the rotation part of the local search only gives allowed rotations -/
def NormalRot.Ok (tr : Trig K) (item : Item K) (d : NormalRot K) : Prop :=
  (d = .none ∧ item.Allows tr 0) ∨ (∃ a, d = .discrete a ∧ item.Allows tr a) ∨ item.allowedRotation = .continuous

theorem NormalRot.ok_ofItem {tr : Trig K} {item : Item K} {ref : K} (h : item.Allows tr ref) (sd : K) :
    (NormalRot.ofItem item ref sd).Ok tr item := by
  unfold NormalRot.Ok NormalRot.ofItem
  split
  · rename_i e
    left
    refine ⟨rfl, ?_⟩
    unfold Item.Allows
    rw [e]
    exact SameTurn.refl ..
  · rename_i e
    exact .inr (.inr e)
  · exact .inr (.inl ⟨_, rfl, h⟩)

theorem NormalRot.Ok.setMean {tr : Trig K} {item : Item K} {d : NormalRot K} (h : d.Ok tr item) (m : K) : (d.setMean m).Ok tr item := by
  rcases h with ⟨rfl, h⟩ | ⟨a, rfl, h⟩ | h
  · exact .inl ⟨rfl, h⟩
  · exact .inr (.inl ⟨a, rfl, h⟩)
  · exact .inr (.inr h)

theorem NormalRot.Ok.setStddev {tr : Trig K} {item : Item K} {d : NormalRot K} (h : d.Ok tr item) (m : K) :
    (d.setStddev m).Ok tr item := by
  rcases h with ⟨rfl, h⟩ | ⟨a, rfl, h⟩ | h
  · exact .inl ⟨rfl, h⟩
  · exact .inr (.inl ⟨a, rfl, h⟩)
  · exact .inr (.inr h)

theorem NormalRot.Ok.sample {tr : Trig K} {item : Item K} {d : NormalRot K} (h : d.Ok tr item) (lenv : LEnv K n R) (r : R) :
    item.Allows tr (d.sample lenv r).1 := by
  rcases h with ⟨rfl, h⟩ | ⟨a, rfl, h⟩ | h
  · exact h
  · exact h
  · unfold Item.Allows; rw [h]; trivial

/-! ## The sampler of the grid -/

theorem mapM_mem {α β : Type*} {f : α → Option β} {l : List α} {out : List β} (h : l.mapM f = some out) :
    ∀ b ∈ out, ∃ a ∈ l, f a = some b := by
  have := mapM_forall₂_of h
  intro b hb
  obtain ⟨a, ha, hab⟩ := forall₂_exists_left this hb
  exact ⟨a, ha, hab⟩

end Any

variable {K : Type*} [Field K] [LinearOrder K] [IsStrictOrderedRing K] {n : ℕ} {R : Type*}

/-- what stays true of the sampler of an item -/
structure HPGSampler.Ok (lenv : LEnv K n R) (item : Item K) (s : HPGSampler K) : Prop where
  same : s.item = item
  pre : s.pretransform = Transf.fromTranslation (-item.shape.poi.center.x) (-item.shape.poi.center.y)
  rot : ∀ c ∈ s.cells, UniformRot.ofItem lenv item = some c.rot
  box : ∀ c ∈ s.cells, c.bbox.xMin < c.bbox.xMax ∧ c.bbox.yMin < c.bbox.yMax
  area : s.coverageArea = (s.cells.map (·.bbox.area)).sum

theorem HPGSampler.ok_new {lenv : LEnv K n R} {item : Item K} {layout : Layout K n} {s : HPGSampler K}
    (h : HPGSampler.new lenv item layout = some (some s)) : s.Ok lenv item ∧ s.cells ≠ [] ∧
      s.costBound = Jagua.lbfCost layout.bin.outer.val.bbox.xMax layout.bin.outer.val.bbox.yMax := by
  unfold HPGSampler.new at h
  dsimp only at h
  obtain ⟨all, _, h⟩ := Option.bind_eq_some_iff.1 h
  obtain ⟨marked, _, h⟩ := Option.bind_eq_some_iff.1 h
  obtain ⟨cells, hc, h⟩ := Option.map_eq_some_iff.1 h
  split_ifs at h with he
  cases h
  refine ⟨⟨rfl, rfl, ?_, ?_, fsum_eq _⟩, by simpa using he, rfl⟩
  all_goals
    intro c hcm
    obtain ⟨b, _, hb⟩ := mapM_mem hc c hcm
    unfold RectSampler.new at hb
    split_ifs at hb with hbox
    obtain ⟨d, hd, rfl⟩ := Option.map_eq_some_iff.1 hb
  · exact hd
  · exact hbox

theorem sum_filter_add {α : Type*} (p : α → Bool) (g : α → K) (l : List α) :
    ((l.filter p).map g).sum + ((l.filter fun a => ! p a).map g).sum = (l.map g).sum := by
  induction l with
  | nil => simp
  | cons a l ih =>
    cases h : p a
    · rw [List.filter_cons_of_neg (by simp [h]), List.filter_cons_of_pos (by simp [h]), List.map_cons, List.map_cons, List.sum_cons,
        List.sum_cons, ← ih]
      ring
    · rw [List.filter_cons_of_pos (by simp [h]), List.filter_cons_of_neg (by simp [h]), List.map_cons, List.map_cons, List.sum_cons,
        List.sum_cons, ← ih]
      ring

theorem foldl_sub {α : Type*} (g : α → K) (l : List α) (x : K) : l.foldl (fun a c => a - g c) x = x - (l.map g).sum := by
  induction l generalizing x with
  | nil => simp
  | cons a l ih => rw [List.foldl_cons, ih, List.map_cons, List.sum_cons]; ring

theorem HPGSampler.Ok.tighten {lenv : LEnv K n R} {item : Item K} {s : HPGSampler K} (h : s.Ok lenv item) (best : K) :
    (s.tighten best).Ok lenv item := by
  unfold HPGSampler.tighten
  split_ifs
  · refine ⟨h.same, h.pre, fun c hc => h.rot c (List.mem_of_mem_filter hc), fun c hc => h.box c (List.mem_of_mem_filter hc), ?_⟩
    dsimp only
    rw [h.area, ← sum_filter_add (fun c => decide (s.minCost c < best)) (fun c : RectSampler K => c.bbox.area) s.cells]
    simp only [decide_not]
    rw [foldl_sub]
    ring
  · exact h

/-- the point a sample moves the pole to, and its rotation -/
theorem HPGSampler.Ok.sample {lenv : LEnv K n R} {tr : Trig K} {item : Item K} {s : HPGSampler K} (h : s.Ok lenv item) {r : R}
    {t : Transf K × R} (ht : s.sample lenv tr r = some t) :
    ∃ c ∈ s.cells, ∃ r' d, c.sample lenv r' = some d ∧ item.Allows tr d.1.rotation ∧ t.1 = s.pretransform.transformFromDecomposed tr d.1 := by
  unfold HPGSampler.sample at ht
  split_ifs at ht
  dsimp only at ht
  obtain ⟨c, hc, ht⟩ := Option.bind_eq_some_iff.1 ht
  obtain ⟨d, hd, rfl⟩ := Option.map_eq_some_iff.1 ht
  refine ⟨c, List.mem_of_getElem? hc, _, d, hd, ?_, rfl⟩
  unfold RectSampler.sample at hd
  obtain ⟨a, ha, rfl⟩ := Option.map_eq_some_iff.1 hd
  exact UniformRot.sample_allowed tr (h.rot c (List.mem_of_getElem? hc)) ha

theorem decomposed_turn {tr : Trig K} (hu : tr.Unit) (hp : tr.Polar) (x y : K) (d : DTransf K) :
    ((Transf.fromTranslation x y).transformFromDecomposed tr d).IsRigid ∧
    SameTurn tr (((Transf.fromTranslation x y).transformFromDecomposed tr d).decompose tr).rotation d.rotation := by
  constructor
  · exact (Transf.IsRigid.rotTransl hu ..).dot (Transf.IsRigid.transl ..)
  · have := hp (tr.cos d.rotation) (tr.sin d.rotation) (hu _)
    unfold SameTurn Transf.transformFromDecomposed Transf.rotateTranslate Transf.fromTranslation Transf.decompose Transf.dotProd Transf.rotTranslM Transf.translM
    simpa using this

/-! ## The two loops -/

/-- an accepted placement with its cost -/
structure Accepted (env : Env K) (layout : Layout K n) (item : Item K) (irr : List (HazardEntity K)) (b : DTransf K × K) : Prop where
  rot : item.Allows env.tr b.1.rotation
  free : layout.cde.polyCollides env.f (item.shape.transform (Transf.fromDt env.tr b.1)) irr = some false
  cost : b.2 = (item.shape.transform (Transf.fromDt env.tr b.1)).lbfCost

structure UniState.Ok (lenv : LEnv K n R) (env : Env K) (layout : Layout K n) (item : Item K) (irr : List (HazardEntity K))
    (st : UniState K) : Prop where
  sampler : st.sampler.Ok lenv item
  buffer : BufferOf item.shape st.buffer
  best : ∀ b, st.best = some b → Accepted env layout item irr b

theorem uniStep_ok {lenv : LEnv K n R} {env : Env K} {layout : Layout K n} {item : Item K} {surr : Surrogate K} {irr : List (HazardEntity K)}
    (hu : env.tr.Unit) (hp : env.tr.Polar) {st : UniState K} (h : st.Ok lenv env layout item irr) {r : R} {x : UniState K × R}
    (hx : uniStep lenv env layout item surr irr st r = some x) : x.1.Ok lenv env layout item irr := by
  unfold uniStep at hx
  obtain ⟨t, ht, hx⟩ := Option.bind_eq_some_iff.1 hx
  obtain ⟨hit, _, hx⟩ := Option.bind_eq_some_iff.1 hx
  split_ifs at hx with h1
  · cases hx; exact h
  · rw [h.buffer.transformFrom, Option.bind_some] at hx
    dsimp only at hx
    have hbuf := BufferOf.next item.shape t.1
    split_ifs at hx with hw
    · obtain ⟨b, hb, hx⟩ := Option.map_eq_some_iff.1 hx
      split_ifs at hx with h2
      · subst hx; exact ⟨h.sampler, hbuf, h.best⟩
      · subst hx
        refine ⟨h.sampler.tighten _, hbuf, ?_⟩
        rintro b' ⟨⟩
        obtain ⟨c, hc, r', d, hd, hrot, hteq⟩ := h.sampler.sample ht
        rw [h.sampler.pre] at hteq
        obtain ⟨hrigid, hturn⟩ := decomposed_turn hu hp (-item.shape.poi.center.x) (-item.shape.poi.center.y) d.1
        rw [← hteq] at hrigid hturn
        refine ⟨hrot.congr hturn, ?_, ?_⟩
        · dsimp only
          rw [hrigid.decompose hp, ← bare_collides, hb]
          simpa using h2
        · dsimp only
          rw [hrigid.decompose hp]
          rfl
    · cases hx; exact ⟨h.sampler, hbuf, h.best⟩

theorem uniLoop_ok {lenv : LEnv K n R} {env : Env K} {layout : Layout K n} {item : Item K} {surr : Surrogate K} {irr : List (HazardEntity K)}
    (hu : env.tr.Unit) (hp : env.tr.Polar) : ∀ (k : ℕ) {st : UniState K} {r : R} {x : UniState K × R}, st.Ok lenv env layout item irr →
    uniLoop lenv env layout item surr irr k st r = some x → x.1.Ok lenv env layout item irr
  | 0, st, r, x, h, hx => by cases hx; exact h
  | k + 1, st, r, x, h, hx => by
    unfold uniLoop at hx
    obtain ⟨s, hs, hx⟩ := Option.bind_eq_some_iff.1 hx
    exact uniLoop_ok hu hp k (uniStep_ok hu hp h hs) hx

structure LsState.Ok (env : Env K) (layout : Layout K n) (item : Item K) (irr : List (HazardEntity K)) (st : LsState K) : Prop where
  rot : st.sampler.rot.Ok env.tr item
  buffer : BufferOf item.shape st.buffer
  best : Accepted env layout item irr st.best

theorem LSSampler.decay_rot {lenv : LEnv K n R} {tr : Trig K} {item : Item K} {s s' : LSSampler K} {p : K}
    (h : s.rot.Ok tr item) (hs : s.decayStddev lenv p = some s') : s'.rot.Ok tr item := by
  unfold LSSampler.decayStddev LSSampler.setStddev at hs
  dsimp only at hs
  split_ifs at hs
  cases hs
  exact h.setStddev _

theorem lsStep_ok {lenv : LEnv K n R} {env : Env K} {layout : Layout K n} {item : Item K} {surr : Surrogate K} {irr : List (HazardEntity K)}
    {p : K} {st : LsState K} (h : st.Ok env layout item irr) {r : R} {x : LsState K × R}
    (hx : lsStep lenv env layout item surr irr p st r = some x) : x.1.Ok env layout item irr ∧ x.1.best.2 ≤ st.best.2 := by
  unfold lsStep at hx
  dsimp only at hx
  obtain ⟨hit, _, hx⟩ := Option.bind_eq_some_iff.1 hx
  obtain ⟨st', hst, hx⟩ := Option.bind_eq_some_iff.1 hx
  obtain ⟨s', hs', rfl⟩ := Option.map_eq_some_iff.1 hx
  have key : st'.Ok env layout item irr ∧ st'.best.2 ≤ st.best.2 := by
    split_ifs at hst with h1
    · cases hst; exact ⟨h, le_rfl⟩
    · rw [h.buffer.transformFrom, Option.bind_some] at hst
      have hbuf := BufferOf.next item.shape (Transf.fromDt env.tr (st.sampler.sample lenv r).1)
      split_ifs at hst with h2
      · obtain ⟨b, hb, hst⟩ := Option.map_eq_some_iff.1 hst
        split_ifs at hst with h3
        · subst hst; exact ⟨⟨h.rot, hbuf, h.best⟩, le_rfl⟩
        · subst hst
          refine ⟨⟨h.rot.setMean _, hbuf, ?_, ?_, rfl⟩, h2.le⟩
          · exact h.rot.sample lenv r
          · dsimp only
            rw [← bare_collides, hb]
            simpa using h3
      · cases hst; exact ⟨⟨h.rot, hbuf, h.best⟩, le_rfl⟩
  exact ⟨⟨LSSampler.decay_rot key.1.rot hs', key.1.buffer, key.1.best⟩, key.2⟩

theorem lsLoop_ok {lenv : LEnv K n R} {env : Env K} {layout : Layout K n} {item : Item K} {surr : Surrogate K} {irr : List (HazardEntity K)}
    {budget : ℕ} : ∀ (k : ℕ) {st : LsState K} {r : R} {x : LsState K × R}, st.Ok env layout item irr →
    lsLoop lenv env layout item surr irr budget k st r = some x → x.1.Ok env layout item irr ∧ x.1.best.2 ≤ st.best.2
  | 0, st, r, x, h, hx => by cases hx; exact ⟨h, le_rfl⟩
  | k + 1, st, r, x, h, hx => by
    unfold lsLoop at hx
    obtain ⟨s, hs, hx⟩ := Option.bind_eq_some_iff.1 hx
    have h1 := lsStep_ok h hs
    have h2 := lsLoop_ok k h1.1 hx
    exact ⟨h2.1, h2.2.trans h1.2⟩

theorem sampleLayout_ok {lenv : LEnv K n R} {env : Env K} {cfg : LbfConfig} {idx : LayoutIndex} {layout : Layout K n} {item : Item K} {r : R}
    (hu : env.tr.Unit) (hp : env.tr.Polar) {o : Option (PlacingOption K) × R} (h : sampleLayout lenv env cfg idx layout item r = some o)
    {opt : PlacingOption K} (ho : o.1 = some opt) :
    opt.layoutIdx = idx ∧ opt.itemId = item.id ∧ ∃ c, Accepted env layout item (lbfIrrelevant item layout) (opt.dt, c) := by
  unfold sampleLayout at h
  dsimp only at h
  obtain ⟨surr, _, h⟩ := Option.bind_eq_some_iff.1 h
  split_ifs at h
  obtain ⟨sampler, hs, h⟩ := Option.bind_eq_some_iff.1 h
  cases sampler with
  | none => cases h; cases ho
  | some sampler =>
    dsimp only at h
    obtain ⟨u, hul, h⟩ := Option.bind_eq_some_iff.1 h
    have hU := uniLoop_ok hu hp _ (st := ⟨sampler, { item.shape with surrogate := none }, none⟩)
      ⟨(HPGSampler.ok_new hs).1, BufferOf.start _, by rintro b ⟨⟩⟩ hul
    cases hb : u.1.best with
    | none => rw [hb] at h; cases h; cases ho
    | some best =>
      rw [hb] at h
      dsimp only at h
      obtain ⟨l, hl, rfl⟩ := Option.map_eq_some_iff.1 h
      cases ho
      have hA := hU.best best hb
      have hL := lsLoop_ok _ (st := ⟨LSSampler.fromDefaults lenv item best.1 layout.bin.outer.val.bbox, u.1.buffer, best⟩)
        ⟨NormalRot.ok_ofItem hA.rot _, hU.buffer, hA⟩ hl
      exact ⟨rfl, rfl, l.1.best.2, hL.1.best⟩

theorem findPlacement_ok {lenv : LEnv K n R} {env : Env K} {cfg : LbfConfig} {item : Item K}
    (hu : env.tr.Unit) (hp : env.tr.Polar) : ∀ {ls : List (LayoutIndex × Layout K n)} {r : R} {o : Option (PlacingOption K) × R},
    findPlacement lenv env cfg item ls r = some o → ∀ {opt : PlacingOption K}, o.1 = some opt →
    ∃ l ∈ ls, opt.layoutIdx = l.1 ∧ opt.itemId = item.id ∧ ∃ c, Accepted env l.2 item (lbfIrrelevant item l.2) (opt.dt, c)
  | [], r, o, h, opt, ho => by cases h; cases ho
  | l :: ls, r, o, h, opt, ho => by
    unfold findPlacement at h
    obtain ⟨o', ho', h⟩ := Option.bind_eq_some_iff.1 h
    cases hx : o'.1 with
    | none =>
      rw [hx] at h
      obtain ⟨l', hl', h'⟩ := findPlacement_ok hu hp h ho
      exact ⟨l', List.mem_cons_of_mem _ hl', h'⟩
    | some opt' =>
      rw [hx] at h
      cases h
      cases ho
      exact ⟨l, List.mem_cons_self, sampleLayout_ok hu hp ho' hx⟩

end Jagua
