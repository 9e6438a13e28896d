import Verif.Lemmas.TwinStrip
import Verif.Lemmas.Parser

/-!
# Reading does not look at addresses
-/

set_option linter.unusedSectionVars false

namespace Jagua

variable {K : Type*} [Field K] [LinearOrder K] [IsStrictOrderedRing K] {n : ℕ}

/-- the same instance up to addresses -/
inductive Instance.Twin : Instance K n → Instance K n → Prop
  | bp {i i' : BPInstance K n} (h : i.Twin i') : Twin (.bp i) (.bp i')
  | sp (i : SPInstance K) : Twin (.sp i) (.sp i)

theorem zipIdx_strip {α : Type*} (g : ℕ → ℕ) (l : List α) (k : ℕ) :
    ((l.zipIdx k).map fun h => (⟨g h.2, h.1⟩ : Arc α)).map Arc.strip = l.map fun x => ⟨0, x⟩ := by
  induction l generalizing k with
  | nil => rfl
  | cons a t ih =>
    rw [List.zipIdx_cons, List.map_cons, List.map_cons, List.map_cons, ih]
    rfl

theorem zones_strip (g : ℕ → ℕ → ℕ) (zones : List (ℕ × List (SPoly K))) (k : ℕ) :
    ((zones.zipIdx k).map fun z => (⟨z.1.1, z.1.2.zipIdx.map fun s => ⟨g z.2 s.2, s.1⟩⟩ : QualityZone K)).map QualityZone.erase =
      zones.map fun z => ⟨z.1, z.2.map fun x => ⟨0, x⟩⟩ := by
  induction zones generalizing k with
  | nil => rfl
  | cons a t ih =>
    rw [List.zipIdx_cons, List.map_cons, List.map_cons, List.map_cons, ih]
    congr 1
    unfold QualityZone.erase
    dsimp only
    rw [zipIdx_strip (g k)]

theorem allocBin_twin {env : Env K} (o' : SearchOracle K) {addr : ℕ → ℕ → ℕ} (addr' : ℕ → ℕ → ℕ) {id : ℕ} {outer : SPoly K} {value : ℕ} {pre : Transf K}
    {holes : List (SPoly K)} {zones : List (ℕ × List (SPoly K))} {b : Bin K n} (hb : allocBin env n addr id outer value pre holes zones = some b) :
    ∃ b' : Bin K n, allocBin { env with o := o' } n addr' id outer value pre holes zones = some b' ∧ b.Twin b' := by
  unfold allocBin at hb ⊢
  refine Bin.new_twin o' (outer := ⟨addr 0 0, outer⟩) (outer' := ⟨addr' 0 0, outer⟩) rfl ?_ ?_ hb
  · rw [zipIdx_strip (addr 1), zipIdx_strip (addr' 1)]
  · rw [zones_strip (fun a b => addr (2 + a) b), zones_strip (fun a b => addr' (2 + a) b)]

theorem zones_vals {l l' : List (Option (QualityZone K))} (h : l.map (Option.map QualityZone.erase) = l'.map (Option.map QualityZone.erase))
    (t : Transf K) :
    ((l.filterMap id).map fun z => (z.quality, z.zones.map fun s => s.val.transform t)) =
      (l'.filterMap id).map fun z => (z.quality, z.zones.map fun s => s.val.transform t) := by
  induction l generalizing l' with
  | nil =>
    cases l' with
    | nil => rfl
    | cons _ _ => cases h
  | cons a s ih =>
    cases l' with
    | nil => cases h
    | cons a' s' =>
      rw [List.map_cons, List.map_cons, List.cons.injEq] at h
      have := ih h.2
      have h1 := h.1
      cases a with
      | none =>
        cases a' with
        | none => exact this
        | some _ => cases h1
      | some z =>
        cases a' with
        | none => cases h1
        | some z' =>
          change (_ :: _ : List (ℕ × List (SPoly K))) = _ :: _
          refine List.cons_eq_cons.2 ⟨?_, this⟩
          simp only [Option.map_some, Option.some.injEq] at h1
          unfold QualityZone.erase at h1
          rw [QualityZone.mk.injEq] at h1
          have h2 := congrArg (List.map fun s : SPoly K => s.transform t) (strip_vals h1.2)
          rw [List.map_map, List.map_map] at h2
          exact Prod.ext h1.1 h2

theorem pretransformBin_twin {env : Env K} (o' : SearchOracle K) {addr : ℕ → ℕ → ℕ} (addr' : ℕ → ℕ → ℕ) {b b' c : Bin K n} (h : b.Twin b') {t : Transf K}
    (hc : pretransformBin env addr b t = some c) :
    ∃ c' : Bin K n, pretransformBin { env with o := o' } addr' b' t = some c' ∧ c.Twin c' := by
  unfold pretransformBin at hc ⊢
  have h2 := congrArg (List.map fun s : SPoly K => s.transform t) (strip_vals h.holes)
  rw [List.map_map, List.map_map] at h2
  rw [h.id, h.outer, h.value, h.pretransform, zones_vals h.zones t] at hc
  rw [show (b.holes.map fun h => h.val.transform t) = b'.holes.map fun h => h.val.transform t from h2] at hc
  exact allocBin_twin o' addr' hc

theorem parseBin_twin {penv : PEnv K} {cfg : ParserConfig K} (o' : SearchOracle K) {addr addr' : ℕ → ℕ → ℕ} (addr2 addr2' : ℕ → ℕ → ℕ) {jb : JsonBin K}
    {id : ℕ} {b : Bin K n × ℕ} (hb : parseBin penv cfg n addr addr' jb id = some b) :
    ∃ b' : Bin K n × ℕ, parseBin { penv with o := o' } cfg n addr2 addr2' jb id = some b' ∧ b.1.Twin b'.1 ∧ b.2 = b'.2 := by
  unfold parseBin at hb
  obtain ⟨outer, h1, hb⟩ := Option.bind_eq_some_iff.1 hb
  obtain ⟨holes, h2, hb⟩ := Option.bind_eq_some_iff.1 hb
  split at hb
  · cases hb
  rename_i hq
  obtain ⟨zones, h3, hb⟩ := Option.bind_eq_some_iff.1 hb
  obtain ⟨base, h4, hb⟩ := Option.bind_eq_some_iff.1 hb
  obtain ⟨bin, h5, rfl⟩ := Option.map_eq_some_iff.1 hb
  obtain ⟨base', e4, t4⟩ := allocBin_twin o' addr2 h4
  have : ∃ bin' : Bin K n, (if cfg.center then pretransformBin { penv.toEnv with o := o' } addr2' base'
      (Transf.fromDt penv.tr base'.outer.val.centeringTransformation) else some base') = some bin' ∧ bin.Twin bin' := by
    by_cases hc : cfg.center
    · rw [if_pos hc] at h5 ⊢
      rw [← t4.outer]
      exact pretransformBin_twin o' addr2' t4 h5
    · rw [if_neg hc] at h5 ⊢
      cases h5
      exact ⟨_, rfl, t4⟩
  obtain ⟨bin', e5, t5⟩ := this
  refine ⟨(bin', jb.stock.getD penv.maxU64), ?_, t5, rfl⟩
  unfold parseBin
  rw [show parseOuter { penv with o := o' } cfg jb.shape = parseOuter penv cfg jb.shape from rfl, h1, Option.bind_some,
    show parseHoles { penv with o := o' } cfg jb.shape = parseHoles penv cfg jb.shape from rfl, h2, Option.bind_some, if_neg hq,
    show parseZones { penv with o := o' } cfg jb.zones = parseZones penv cfg jb.zones from rfl, h3, Option.bind_some]
  dsimp only
  rw [e4, Option.bind_some, e5, Option.map_some]

theorem idsCorrect_of_eq {l l' : List (Bin K n × ℕ)} (h : List.Forall₂ (fun b b' : Bin K n × ℕ => b.1.Twin b'.1 ∧ b.2 = b'.2) l l') :
    (∀ k, (l.zipIdx k).all (fun x => x.1.1.id = x.2) = (l'.zipIdx k).all (fun x => x.1.1.id = x.2)) ∧ l.map (·.2) = l'.map (·.2) := by
  induction h with
  | nil => exact ⟨fun _ => rfl, rfl⟩
  | cons h _ ih =>
    refine ⟨fun k => ?_, by rw [List.map_cons, List.map_cons, ih.2, h.2]⟩
    rw [List.zipIdx_cons, List.zipIdx_cons, List.all_cons, List.all_cons, ih.1, h.1.id]

theorem logParsed_bp (penv : PEnv K) (i : BPInstance K n) : logParsed penv (.bp i) =
    if penv.logInfo && !(penv.sumFits (i.items.map (·.2)) && penv.sumFits (i.bins.map (·.2))) then none else some (.bp i) := rfl

theorem parseInstance_twin {penv : PEnv K} {cfg : ParserConfig K} (o' : SearchOracle K) {addr addr' : ℕ → ℕ → ℕ → ℕ} (addr2 addr2' : ℕ → ℕ → ℕ → ℕ)
    {ji : JsonInstance K} {inst : Instance K n} (hp : parseInstance penv cfg n addr addr' ji = some inst) :
    ∃ inst' : Instance K n, parseInstance { penv with o := o' } cfg n addr2 addr2' ji = some inst' ∧ inst.Twin inst' := by
  unfold parseInstance at hp ⊢
  obtain ⟨items, h1, hp⟩ := Option.bind_eq_some_iff.1 hp
  rw [show (ji.items.zipIdx.mapM fun (x : JsonItem K × ℕ) => parseItem { penv with o := o' } cfg x.1 x.2) = some items from h1, Option.bind_some]
  cases hb : ji.bins with
  | none =>
    rw [hb] at hp
    cases hs : ji.strip with
    | none => rw [hs] at hp; cases hp
    | some height =>
      rw [hs] at hp
      dsimp only at hp ⊢
      obtain ⟨i, h2, h3⟩ := Option.bind_eq_some_iff.1 hp
      obtain ⟨i, h4, rfl⟩ := Option.map_eq_some_iff.1 h2
      rw [h4, Option.map_some, Option.bind_some]
      have := logParsed_some h3
      subst this
      exact ⟨_, h3, .sp i⟩
  | some bs =>
    rw [hb] at hp
    cases hs : ji.strip with
    | some _ => rw [hs] at hp; cases hp
    | none =>
      rw [hs] at hp
      dsimp only at hp ⊢
      obtain ⟨i, h2, h3⟩ := Option.bind_eq_some_iff.1 hp
      obtain ⟨bins, h5, h2⟩ := Option.bind_eq_some_iff.1 h2
      obtain ⟨i, h4, rfl⟩ := Option.map_eq_some_iff.1 h2
      have : ∀ (l : List (JsonBin K × ℕ)) (bins : List (Bin K n × ℕ)),
          (l.mapM fun (x : JsonBin K × ℕ) => parseBin penv cfg n (addr x.2) (addr' x.2) x.1 x.2) = some bins →
          ∃ bins', (l.mapM fun (x : JsonBin K × ℕ) => parseBin { penv with o := o' } cfg n (addr2 x.2) (addr2' x.2) x.1 x.2) = some bins' ∧
            List.Forall₂ (fun b b' : Bin K n × ℕ => b.1.Twin b'.1 ∧ b.2 = b'.2) bins bins' := by
        intro l
        induction l with
        | nil => intro bins h; cases h; exact ⟨[], rfl, .nil⟩
        | cons x l ih =>
          intro bins h
          rw [List.mapM_cons] at h
          obtain ⟨b, hb, h⟩ := Option.bind_eq_some_iff.1 h
          obtain ⟨bs, hbs, h⟩ := Option.bind_eq_some_iff.1 h
          cases h
          obtain ⟨b', e1, t1⟩ := parseBin_twin o' (addr2 x.2) (addr2' x.2) hb
          obtain ⟨bs', e2, t2⟩ := ih bs hbs
          refine ⟨b' :: bs', ?_, .cons t1 t2⟩
          rw [List.mapM_cons]
          exact Option.bind_eq_some_iff.2 ⟨b', e1, Option.bind_eq_some_iff.2 ⟨bs', e2, rfl⟩⟩
      obtain ⟨bins', e5, t5⟩ := this _ _ h5
      obtain ⟨q1, q2⟩ := idsCorrect_of_eq t5
      rw [e5, Option.bind_some]
      unfold BPInstance.new idsCorrect at h4 ⊢
      rw [q1] at h4
      split at h4
      · rename_i hid
        rw [if_pos hid, Option.map_some, Option.bind_some]
        cases h4
        have := logParsed_some h3
        subst this
        refine ⟨.bp ⟨items, bins'⟩, ?_, .bp ⟨rfl, t5⟩⟩
        rw [logParsed_bp] at h3 ⊢
        rw [q2] at h3
        split at h3
        · cases h3
        · rename_i hh
          exact if_neg hh
      · cases h4

end Jagua
