import Verif.Lemmas.Twin
import Verif.Lemmas.LBFStrip
import Verif.Model.Parser

/-!
# Twin runs of the optimizer
-/

set_option linter.unusedSectionVars false

namespace Jagua

variable {K : Type*} [Field K] [LinearOrder K] [IsStrictOrderedRing K] {n : ℕ} {R : Type*}

/-! ## Lists -/

theorem forall₂_zipIdx {α β : Type*} {S : α → β → Prop} {l : List α} {l' : List β} (h : List.Forall₂ S l l') :
    ∀ k, List.Forall₂ (fun (x : α × ℕ) (y : β × ℕ) => S x.1 y.1 ∧ x.2 = y.2) (l.zipIdx k) (l'.zipIdx k) := by
  induction h with
  | nil => exact fun _ => .nil
  | cons h _ ih => exact fun k => .cons ⟨h, rfl⟩ (ih (k + 1))

theorem forall₂_getElem? {α β : Type*} {S : α → β → Prop} {l : List α} {l' : List β} (h : List.Forall₂ S l l') {i : ℕ} {a : α}
    (ha : l[i]? = some a) : ∃ b, l'[i]? = some b ∧ S a b := by
  induction h generalizing i with
  | nil => simp at ha
  | cons h _ ih =>
    cases i with
    | zero =>
      rw [List.getElem?_cons_zero] at ha
      cases ha
      exact ⟨_, rfl, h⟩
    | succ i => exact ih ha

theorem forall₂_set {α β : Type*} {S : α → β → Prop} {l : List α} {l' : List β} (h : List.Forall₂ S l l') (i : ℕ) {a : α} {b : β}
    (hab : S a b) : List.Forall₂ S (l.set i a) (l'.set i b) := by
  induction h generalizing i with
  | nil => exact .nil
  | cons h hs ih =>
    cases i with
    | zero => exact .cons hab hs
    | succ i => exact .cons h (ih i)

theorem forall₂_append {α β : Type*} {S : α → β → Prop} {l : List α} {l' : List β} (h : List.Forall₂ S l l') {m : List α} {m' : List β}
    (h' : List.Forall₂ S m m') : List.Forall₂ S (l ++ m) (l' ++ m') := by
  induction h with
  | nil => exact h'
  | cons h _ ih => exact .cons h ih

theorem forall₂_map {α β γ δ : Type*} {S : α → β → Prop} {T : γ → δ → Prop} {f : α → γ} {g : β → δ} (hfg : ∀ a b, S a b → T (f a) (g b))
    {l : List α} {l' : List β} (h : List.Forall₂ S l l') : List.Forall₂ T (l.map f) (l'.map g) := by
  induction h with
  | nil => exact .nil
  | cons h _ ih => exact .cons (hfg _ _ h) ih

theorem forall₂_rfl {α : Type*} (l : List α) : List.Forall₂ (fun a b : α => a = b) l l := by
  induction l with
  | nil => exact .nil
  | cons a l ih => exact .cons rfl ih

theorem forall₂_mapM {α β γ δ : Type*} {S : α → β → Prop} {T : γ → δ → Prop} {f : α → Option γ} {g : β → Option δ} {l : List α} {l' : List β}
    (h : List.Forall₂ S l l') (hfg : ∀ a b x, S a b → f a = some x → ∃ y, g b = some y ∧ T x y) :
    ∀ {m : List γ}, l.mapM f = some m → ∃ m', l'.mapM g = some m' ∧ List.Forall₂ T m m' := by
  induction h with
  | nil =>
    intro m hm
    rw [List.mapM_nil] at hm
    cases hm
    exact ⟨[], rfl, .nil⟩
  | cons h _ ih =>
    intro m hm
    rw [List.mapM_cons] at hm
    obtain ⟨x, hx, hm⟩ := Option.bind_eq_some_iff.1 hm
    obtain ⟨xs, hxs, hm⟩ := Option.bind_eq_some_iff.1 hm
    cases hm
    obtain ⟨y, hy, hxy⟩ := hfg _ _ x h hx
    obtain ⟨ys, hys, hr⟩ := ih hxs
    refine ⟨y :: ys, ?_, .cons hxy hr⟩
    rw [List.mapM_cons, hy, hys]
    rfl

theorem forall₂_mapM_both {α β γ δ : Type*} {S : α → β → Prop} {T : γ → δ → Prop} {f : α → Option γ} {g : β → Option δ} {l : List α} {l' : List β}
    (h : List.Forall₂ S l l') (hfg : ∀ a b x y, S a b → f a = some x → g b = some y → T x y) :
    ∀ {m : List γ} {m' : List δ}, l.mapM f = some m → l'.mapM g = some m' → List.Forall₂ T m m' := by
  induction h with
  | nil =>
    intro m m' hm hm'
    rw [List.mapM_nil] at hm hm'
    cases hm
    cases hm'
    exact .nil
  | cons h _ ih =>
    intro m m' hm hm'
    rw [List.mapM_cons] at hm hm'
    obtain ⟨x, hx, hm⟩ := Option.bind_eq_some_iff.1 hm
    obtain ⟨xs, hxs, hm⟩ := Option.bind_eq_some_iff.1 hm
    obtain ⟨y, hy, hm'⟩ := Option.bind_eq_some_iff.1 hm'
    obtain ⟨ys, hys, hm'⟩ := Option.bind_eq_some_iff.1 hm'
    cases hm
    cases hm'
    exact .cons (hfg _ _ x y h hx hy) (ih hxs hys)

theorem forall₂_mapM_eq {α β γ : Type*} {S : α → β → Prop} {f : α → Option γ} {g : β → Option γ} {l : List α} {l' : List β}
    (h : List.Forall₂ S l l') (hfg : ∀ a b, S a b → f a = g b) : l.mapM f = l'.mapM g := by
  induction h with
  | nil => rfl
  | cons h _ ih => rw [List.mapM_cons, List.mapM_cons, hfg _ _ h, ih]

theorem forall₂_map_eq {α β γ : Type*} {S : α → β → Prop} {f : α → γ} {g : β → γ} {l : List α} {l' : List β}
    (h : List.Forall₂ S l l') (hfg : ∀ a b, S a b → f a = g b) : l.map f = l'.map g := by
  induction h with
  | nil => rfl
  | cons h _ ih => rw [List.map_cons, List.map_cons, hfg _ _ h, ih]

theorem forall₂_and_mem {α β : Type*} {S : α → β → Prop} {l : List α} {l' : List β} (h : List.Forall₂ S l l') :
    List.Forall₂ (fun a b => S a b ∧ a ∈ l ∧ b ∈ l') l l' := by
  induction h with
  | nil => exact .nil
  | cons h _ ih =>
    refine .cons ⟨h, List.mem_cons_self, List.mem_cons_self⟩ (ih.imp fun a b hab => ?_)
    exact ⟨hab.1, List.mem_cons_of_mem _ hab.2.1, List.mem_cons_of_mem _ hab.2.2⟩

/-! ## Snapshots and solutions -/

theorem Layout.Twin.createSnapshot {l l' : Layout K n} (h : l.Twin l') {x x' : Layout K n × LayoutSnapshot K n}
    (hx : l.createSnapshot = some x) (hx' : l'.createSnapshot = some x') : x.1.Twin x'.1 ∧ x.2.Twin x'.2 := by
  unfold Layout.createSnapshot CDE.createSnapshot at hx hx'
  obtain ⟨y, hy, rfl⟩ := Option.map_eq_some_iff.1 hx
  obtain ⟨y', hy', rfl⟩ := Option.map_eq_some_iff.1 hx'
  obtain ⟨c, hc, rfl⟩ := Option.map_eq_some_iff.1 hy
  obtain ⟨c', hc', rfl⟩ := Option.map_eq_some_iff.1 hy'
  have := h.cde.snapshot hc hc'
  exact ⟨⟨h.id, h.bin, h.placed, this⟩, ⟨h.id, h.bin, h.placed, this.dynamics, h.usage⟩⟩

theorem problemUsage_twin {ls ls' : List (Layout K n)} (h : List.Forall₂ Layout.Twin ls ls') : problemUsage ls = problemUsage ls' := by
  unfold problemUsage
  rw [forall₂_map_eq h (fun a b hab => show a.bin.area * a.usage = b.bin.area * b.usage by rw [hab.bin.area, hab.usage]),
    forall₂_map_eq h (fun a b hab => hab.bin.area)]

theorem LayoutSnapshot.Twin.compose {tr : Trig K} {inst inst' : Instance K n} (hi : inst.items = inst'.items)
    (hk : (∃ a b, inst = .bp a ∧ inst' = .bp b) ∨ ∃ a, inst = .sp a ∧ inst' = .sp a)
    {s s' : LayoutSnapshot K n} (h : s.Twin s') : composeLayout tr inst s = composeLayout tr inst' s' := by
  have hv : s.placed.values.map PlacedItem.erase = s'.placed.values.map PlacedItem.erase := by
    rw [← mapVals_values, h.placed, mapVals_values]
  have hm : s.placed.values.mapM (composePlaced tr inst.items s.bin) = s'.placed.values.mapM (composePlaced tr inst'.items s'.bin) := by
    have key : ∀ (b : Bin K n) (items : List (Item K × ℕ)) (l : List (PlacedItem K)),
        l.mapM (composePlaced tr items b) = (l.map PlacedItem.erase).mapM (composePlaced tr items b) := by
      intro b items l
      induction l with
      | nil => rfl
      | cons x l ih =>
        rw [List.map_cons, List.mapM_cons, List.mapM_cons, ih]
        rfl
    have key2 : ∀ pi, composePlaced tr inst.items s.bin pi = composePlaced tr inst'.items s'.bin pi := by
      intro pi
      unfold composePlaced
      rw [h.bin.pretransform, hi]
    rw [key, hv, ← key]
    congr 1
    funext pi
    exact key2 pi
  unfold composeLayout
  rw [hm, h.usage]
  rcases hk with ⟨a, b, rfl, rfl⟩ | ⟨a, rfl, rfl⟩
  · dsimp only
    rw [h.bin.id]
  · dsimp only
    rw [h.bin.outer]

theorem Solution.Twin.compose {tr : Trig K} {inst inst' : Instance K n} (hi : inst.items = inst'.items)
    (hk : (∃ a b, inst = .bp a ∧ inst' = .bp b) ∨ ∃ a, inst = .sp a ∧ inst' = .sp a)
    {s s' : Solution K n} (h : s.Twin s') : composeSolution tr inst s = composeSolution tr inst' s' := by
  unfold composeSolution
  rw [forall₂_mapM_eq h.snapshots fun a b hab => hab.compose hi hk, h.usage]

/-! ## Bin packing -/

theorem BPProblem.twin_new {inst inst' : BPInstance K n} (h : inst.Twin inst') : (BPProblem.new inst).Twin (BPProblem.new inst') where
  inst := h
  layouts := .nil
  templates := by
    refine forall₂_map (fun a b hab => ?_) (forall₂_zipIdx h.bins 0)
    rw [hab.2]
    exact Layout.twin_new _ hab.1.1
  missing := by unfold BPProblem.new; dsimp only; rw [h.items]
  binQtys := forall₂_map_eq h.bins fun a b hab => hab.2
  layoutCounter := h.bins.length_eq
  solutionCounter := rfl
  unmodified := rfl
  refSolution := rfl
  removed := .nil

theorem BPProblem.Twin.getLayout {p p' : BPProblem K n} (h : p.Twin p') {i : LayoutIndex} {l : Layout K n} (hl : p.getLayout i = some l) :
    ∃ l', p'.getLayout i = some l' ∧ l.Twin l' := by
  cases i with
  | real i => exact forall₂_getElem? h.layouts hl
  | template i => exact forall₂_getElem? h.templates hl

theorem BPProblem.Twin.searchList {p p' : BPProblem K n} (h : p.Twin p') {ls : List (LayoutIndex × Layout K n)} (hls : p.searchList = some ls) :
    ∃ ls', p'.searchList = some ls' ∧ List.Forall₂ (fun x x' => x.1 = x'.1 ∧ x.2.Twin x'.2) ls ls' := by
  have ht : p.templatesWithStock = p'.templatesWithStock := by
    unfold BPProblem.templatesWithStock
    rw [forall₂_mapM_eq (forall₂_zipIdx h.templates 0) fun a b hab => by rw [hab.1.bin.id, hab.2, h.binQtys]]
  unfold BPProblem.searchList at hls ⊢
  rw [← ht, ← h.layouts.length_eq]
  obtain ⟨ts, hts, hls⟩ := Option.bind_eq_some_iff.1 hls
  rw [hts, Option.bind_some]
  refine forall₂_mapM (forall₂_rfl _) ?_ hls
  rintro i _ x rfl hx
  obtain ⟨l, hl, rfl⟩ := Option.map_eq_some_iff.1 hx
  obtain ⟨l', hl', ht⟩ := h.getLayout hl
  exact ⟨(i, l'), by rw [hl']; rfl, rfl, ht⟩

theorem LbfBP.search_inv {env : Env K} {inst : BPInstance K n} {p : BPProblem K n} (h : LbfBP env inst p)
    {ls : List (LayoutIndex × Layout K n)} (hls : p.searchList = some ls) : ∀ x ∈ ls, x.2.cde.Inv env.f := by
  intro x hx
  rcases h.search hls x hx with ⟨i, -, hl⟩ | ⟨i, bin, k, q, -, e, hbin, -⟩
  · have hin := h.inv.layouts x.2 (List.mem_of_getElem? hl)
    exact hin.inv.reach.inv
  · have hb := h.inv.built
    dsimp only at hb
    rw [h.same] at hb
    rw [e]
    exact (hb.2 _ (List.mem_of_getElem? hbin)).base.1.inv

theorem BPProblem.Twin.target {p p' : BPProblem K n} (h : p.Twin p') (h0 : ∀ t ∈ p.templates, t.placed.values = []) {idx : LayoutIndex}
    {x x' : ℕ × BPProblem K n} (hx : p.targetLayout idx = some x) (hx' : p'.targetLayout idx = some x') : x.1 = x'.1 ∧ x.2.Twin x'.2 := by
  cases idx with
  | real i => cases hx; cases hx'; exact ⟨rfl, h⟩
  | template i =>
    unfold BPProblem.targetLayout at hx hx'
    dsimp only at hx hx'
    cases hl : p.templates[i]? with
    | none => rw [hl] at hx; cases hx
    | some l =>
      obtain ⟨l', hl', ht⟩ := forall₂_getElem? h.templates hl
      rw [hl] at hx
      rw [hl'] at hx'
      dsimp only at hx hx'
      have hv : l.placed.values = [] := h0 l (List.mem_of_getElem? hl)
      have hv' : l'.placed.values = [] := by
        have := ht.values
        rw [hv, List.map_nil] at this
        exact List.map_eq_nil_iff.1 this.symm
      unfold BPProblem.registerLayout at hx hx'
      rw [show (l.cloneWithId (p.layoutCounter + 1)).placed.values = [] from hv] at hx
      rw [show (l'.cloneWithId (p'.layoutCounter + 1)).placed.values = [] from hv'] at hx'
      unfold BPProblem.registerBin at hx hx'
      dsimp only [Layout.cloneWithId] at hx hx'
      rw [← h.binQtys, ← ht.bin.id] at hx'
      cases hq : p.binQtys[l.bin.id]? with
      | none => rw [hq] at hx; cases hx
      | some q =>
        rw [hq] at hx hx'
        dsimp only at hx hx'
        by_cases hq0 : 0 < q
        · rw [if_pos hq0] at hx hx'
          have hx : some _ = some x := hx
          have hx' : some _ = some x' := hx'
          cases hx
          cases hx'
          refine ⟨h.layouts.length_eq, ⟨h.inst, ?_, h.templates, h.missing, rfl, ?_, h.solutionCounter, h.unmodified, h.refSolution,
            h.removed⟩⟩
          · refine forall₂_append h.layouts (.cons ?_ .nil)
            rw [h.layoutCounter]
            exact ht.clone _
          · show _ + 1 = _ + 1
            rw [h.layoutCounter]
        · rw [if_neg hq0] at hx
          cases hx

theorem BPProblem.Twin.placeItem {env : Env K} {o' : SearchOracle K} {p p' : BPProblem K n} (h : p.Twin p')
    (h0 : ∀ t ∈ p.templates, t.placed.values = []) {addr addr' : ℕ} {opt : PlacingOption K} {x x' : (LayoutIndex × SlotKey) × BPProblem K n}
    (hx : p.placeItem env addr opt = some x) (hx' : p'.placeItem { env with o := o' } addr' opt = some x') : x.1 = x'.1 ∧ x.2.Twin x'.2 := by
  unfold BPProblem.placeItem at hx hx'
  obtain ⟨t, ht, hx⟩ := Option.bind_eq_some_iff.1 hx
  obtain ⟨t', ht', hx'⟩ := Option.bind_eq_some_iff.1 hx'
  obtain ⟨e, hT⟩ := h.target h0 ht ht'
  rw [← e, ← hT.inst.items] at hx'
  split at hx
  · rename_i l item hl hi
    rw [hi] at hx'
    obtain ⟨l', hl', hlt⟩ := forall₂_getElem? hT.layouts hl
    rw [hl'] at hx'
    dsimp only at hx'
    obtain ⟨pl, hpl, hx⟩ := Option.bind_eq_some_iff.1 hx
    obtain ⟨pl', hpl', hx'⟩ := Option.bind_eq_some_iff.1 hx'
    obtain ⟨ek, hpt⟩ := hlt.placeItem hpl hpl'
    obtain ⟨q, hq, rfl⟩ := Option.map_eq_some_iff.1 hx
    obtain ⟨q', hq', rfl⟩ := Option.map_eq_some_iff.1 hx'
    unfold BPProblem.registerItem at hq hq'
    obtain ⟨m, hm, rfl⟩ := Option.map_eq_some_iff.1 hq
    obtain ⟨m', hm', rfl⟩ := Option.map_eq_some_iff.1 hq'
    dsimp only at hm hm'
    rw [← hT.missing, hm] at hm'
    cases hm'
    refine ⟨by rw [ek], hT.inst, forall₂_set hT.layouts _ hpt, hT.templates, rfl, hT.binQtys, hT.layoutCounter, hT.solutionCounter, ?_,
      hT.refSolution, hT.removed⟩
    show List.erase _ _ = List.erase _ _
    dsimp only
    rw [hT.unmodified, hpt.id]
  · cases hx

theorem LbfBP.empty_templates {env : Env K} {inst : BPInstance K n} {p : BPProblem K n} (h : LbfBP env inst p) :
    ∀ t ∈ p.templates, t.placed.values = [] := by
  intro t ht
  obtain ⟨i, hi⟩ := List.mem_iff_getElem?.1 ht
  obtain ⟨bin, _, rfl, _⟩ := h.templates hi
  rfl

theorem lbfPlaceBP_twin {lenv : LEnv K n R} {env : Env K} {o' : SearchOracle K} {cfg : LbfConfig} {inst inst' : BPInstance K n} {addr addr' : ℕ → ℕ}
    (hg : ∀ l l' : Layout K n, l.Twin l' → lenv.grid l = lenv.grid l')
    (hf : env.f = Fpa.exact) (hu : env.tr.Unit) (hp : env.tr.Polar)
    (hbins : ∀ b ∈ inst.bins, b.1.Shapes) (hbins' : ∀ b ∈ inst'.bins, b.1.Shapes) (hitems : ∀ x ∈ inst.items, x.1.Fine)
    (hi : inst.Twin inst') {i : ℕ} :
    ∀ (k k' : ℕ) {p p' : BPProblem K n} {r : R} {x : BPProblem K n × R}, LbfBP env inst p → LbfBP { env with o := o' } inst' p' → p.Twin p' →
    k ≤ k' → lbfPlaceBP lenv env cfg addr i k p r = some x →
    ∃ x', lbfPlaceBP lenv { env with o := o' } cfg addr' i k' p' r = some x' ∧ x.1.Twin x'.1 ∧ x.2 = x'.2
  | 0, _, p, p', r, x, h, h', ht, hk, hx => by cases hx
  | _ + 1, 0, p, p', r, x, h, h', ht, hk, hx => by omega
  | k + 1, k' + 1, p, p', r, x, h, h', ht, hk, hx => by
    unfold lbfPlaceBP at hx ⊢
    obtain ⟨m, hm, hx⟩ := Option.bind_eq_some_iff.1 hx
    have hm' := hm
    rw [ht.missing] at hm'
    rw [hm', Option.bind_some]
    split_ifs at hx with hpos
    · rw [if_pos hpos]
      obtain ⟨item, hit, hx⟩ := Option.bind_eq_some_iff.1 hx
      obtain ⟨ls, hls, hx⟩ := Option.bind_eq_some_iff.1 hx
      obtain ⟨o, ho, hx⟩ := Option.bind_eq_some_iff.1 hx
      obtain ⟨ls', hls', hll⟩ := ht.searchList hls
      have hfp := findPlacement_twin (lenv := lenv) (env := env) (o' := o') hg cfg item.1 (ls := ls) (ls' := ls')
        ((forall₂_and_mem hll).imp fun a b hab => ⟨hab.1.1, hab.1.2,
          hab.1.2.cde.same (h.search_inv hls a hab.2.1) (h'.search_inv hls' b hab.2.2)⟩) r
      have hit' := hit
      rw [ht.inst.items] at hit'
      rw [ho] at hfp
      rw [hit', Option.bind_some, hls', Option.bind_some, ← hfp, Option.bind_some]
      cases hopt : o.1 with
      | none =>
        rw [hopt] at hx
        cases hx
        exact ⟨_, rfl, ht, rfl⟩
      | some opt =>
        rw [hopt] at hx
        dsimp only at hx ⊢
        rw [h.same] at hit
        rw [h'.same] at hit'
        obtain ⟨q, hq, hL, -⟩ := h.place (BPInstance.honest_exact hf hu hbins hitems) hu hp hitems hm hpos hit hls ho hopt (addr m.toNat)
        obtain ⟨q', hq', hL', -⟩ := h'.place (env := { env with o := o' }) (BPInstance.honest_exact (env := { env with o := o' }) hf hu hbins' (by rw [← hi.items]; exact hitems)) hu hp (by rw [← hi.items]; exact hitems) hm' hpos hit' hls' hfp.symm hopt (addr' m.toNat)
        rw [hq, Option.bind_some] at hx
        rw [hq', Option.bind_some]
        exact lbfPlaceBP_twin hg hf hu hp hbins hbins' hitems hi k k' hL hL' (ht.placeItem h.empty_templates hq hq').2 (by omega) hx
    · rw [if_neg hpos]
      cases hx
      exact ⟨_, rfl, ht, rfl⟩

theorem lbfFoldBP_twin {lenv : LEnv K n R} {env : Env K} {o' : SearchOracle K} {cfg : LbfConfig} {inst inst' : BPInstance K n}
    {addr addr' : ℕ → ℕ → ℕ} {fuel fuel' : ℕ} (hg : ∀ l l' : Layout K n, l.Twin l' → lenv.grid l = lenv.grid l')
    (hf : env.f = Fpa.exact) (hu : env.tr.Unit) (hp : env.tr.Polar)
    (hbins : ∀ b ∈ inst.bins, b.1.Shapes) (hbins' : ∀ b ∈ inst'.bins, b.1.Shapes) (hitems : ∀ x ∈ inst.items, x.1.Fine)
    (hi : inst.Twin inst') (hk : fuel ≤ fuel') :
    ∀ (order : List ℕ) {s s' : BPProblem K n × R} {t : BPProblem K n × R}, LbfBP env inst s.1 → LbfBP { env with o := o' } inst' s'.1 →
    s.1.Twin s'.1 → s.2 = s'.2 →
    order.foldlM (fun (s : BPProblem K n × R) i => lbfPlaceBP lenv env cfg (addr i) i fuel s.1 s.2) s = some t →
    ∃ t', order.foldlM (fun (s : BPProblem K n × R) i => lbfPlaceBP lenv { env with o := o' } cfg (addr' i) i fuel' s.1 s.2) s' = some t' ∧
      t.1.Twin t'.1 ∧ LbfBP { env with o := o' } inst' t'.1
  | [], s, s', t, h, h', ht, hr, hs => by
    rw [List.foldlM_nil] at hs
    cases hs
    exact ⟨s', rfl, ht, h'⟩
  | i :: order, s, s', t, h, h', ht, hr, hs => by
    rw [List.foldlM_cons] at hs ⊢
    obtain ⟨u, hu1, hs⟩ := Option.bind_eq_some_iff.1 hs
    obtain ⟨u', hu', g1, g2⟩ := lbfPlaceBP_twin (addr' := addr' i) hg hf hu hp hbins hbins' hitems hi fuel fuel' h h' ht hk hu1
    rw [hr] at hu'
    rw [hu']
    have k1 := (lbfPlaceBP_ok (BPInstance.honest_exact hf hu hbins hitems) hu hp hitems fuel h hu1).1
    have k2 := (lbfPlaceBP_ok (env := { env with o := o' }) (BPInstance.honest_exact (env := { env with o := o' }) hf hu hbins' (by rw [← hi.items]; exact hitems)) hu hp (by rw [← hi.items]; exact hitems) fuel' h' hu').1
    exact lbfFoldBP_twin hg hf hu hp hbins hbins' hitems hi hk order k1 k2 g1 g2 hs

theorem BPProblem.Twin.createSolution {env env' : Env K} {inst inst' : BPInstance K n} {p p' : BPProblem K n} (h' : LbfBP env' inst' p')
    (h : p.Twin p') {x : Solution K n × BPProblem K n} (hx : p.createSolution none = some x) :
    ∃ x', p'.createSolution none = some x' ∧ x.1.Twin x'.1 ∧ x.2.Twin x'.2 := by
  obtain ⟨rs', sol', q', -, e1, -, -, -⟩ := h'.inv.createSolution none (by simp)
  dsimp only at e1
  refine ⟨(sol', q'), e1, ?_⟩
  unfold BPProblem.createSolution at hx e1
  dsimp only at hx e1
  rw [if_pos (by simp)] at hx e1
  obtain ⟨ys, hys, rfl⟩ := Option.map_eq_some_iff.1 hx
  obtain ⟨ys', hys', e1⟩ := Option.map_eq_some_iff.1 e1
  simp only [Prod.mk.injEq] at e1
  obtain ⟨rfl, rfl⟩ := e1
  have hF : List.Forall₂ (fun (a b : Layout K n × LayoutSnapshot K n) => a.1.Twin b.1 ∧ a.2.Twin b.2) ys ys' := by
    exact forall₂_mapM_both h.layouts (fun a b x y hab hx hy => hab.createSnapshot hx hy) hys hys'
  have hL : List.Forall₂ Layout.Twin (ys.map (·.1)) (ys'.map (·.1)) := forall₂_map (fun a b hab => hab.1) hF
  have hq : p.inst.qtys = p'.inst.qtys := by unfold BPInstance.qtys; rw [h.inst.items]
  refine ⟨⟨?_, forall₂_map (fun a b hab => hab.2) hF, problemUsage_twin hL, ?_, hq, h.binQtys⟩,
    ⟨h.inst, hL, h.templates, h.missing, h.binQtys, h.layoutCounter, ?_, ?_, ?_, h.removed⟩⟩
  · dsimp only; rw [h.solutionCounter]
  · dsimp only; rw [hq, h.missing]
  · show _ + 1 = _ + 1; rw [h.solutionCounter]
  · exact forall₂_map_eq hL fun a b hab => hab.id
  · show some (_ + 1) = some (_ + 1); rw [h.solutionCounter]

theorem lbfSolveBP_twin {lenv : LEnv K n R} {env : Env K} {o' : SearchOracle K} {cfg : LbfConfig} {inst inst' : BPInstance K n}
    {addr : ℕ → ℕ → ℕ} (addr' : ℕ → ℕ → ℕ) {fuel fuel' : ℕ} (hg : ∀ l l' : Layout K n, l.Twin l' → lenv.grid l = lenv.grid l')
    (hf : env.f = Fpa.exact) (hu : env.tr.Unit) (hp : env.tr.Polar) (hb : inst.Built env) (hb' : inst'.Built { env with o := o' })
    (hbins : ∀ b ∈ inst.bins, b.1.Shapes) (hbins' : ∀ b ∈ inst'.bins, b.1.Shapes) (hitems : ∀ x ∈ inst.items, x.1.Fine)
    (hi : inst.Twin inst') (hk : fuel ≤ fuel') {r : R} {x : Solution K n × BPProblem K n}
    (hx : lbfSolveBP lenv env cfg addr fuel inst r = some x) :
    ∃ x', lbfSolveBP lenv { env with o := o' } cfg addr' fuel' inst' r = some x' ∧ x.1.Twin x'.1 ∧ x.2.Twin x'.2 := by
  unfold lbfSolveBP at hx ⊢
  split_ifs at hx with h0
  rw [if_neg h0]
  obtain ⟨order, ho, hx⟩ := Option.bind_eq_some_iff.1 hx
  obtain ⟨s, hs, hx⟩ := Option.bind_eq_some_iff.1 hx
  obtain ⟨s', hs', ht, hL⟩ := lbfFoldBP_twin (addr' := addr') hg hf hu hp hbins hbins' hitems hi hk order (s := (BPProblem.new inst, r)) (s' := (BPProblem.new inst', r)) (LbfBP.start hb)
    (LbfBP.start hb') (BPProblem.twin_new hi) rfl hs
  dsimp only
  rw [← hi.items, ho, Option.bind_some, hs', Option.bind_some]
  exact ht.createSolution (env := env) (inst := inst) hL hx

end Jagua
