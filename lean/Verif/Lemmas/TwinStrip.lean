import Verif.Lemmas.TwinRun

/-!
# Twin runs of the optimizer on strips
-/

set_option linter.unusedSectionVars false

namespace Jagua

variable {K : Type*} [Field K] [LinearOrder K] [IsStrictOrderedRing K] {n : ℕ} {R : Type*}

theorem SPProblem.twin_new {env : StripEnv K} (o' : SearchOracle K) {addr : ℕ} (addr' : ℕ) {inst : SPInstance K} {width : K} {p : SPProblem K n}
    (hp : SPProblem.new env n addr inst width = some p) :
    ∃ p', SPProblem.new { env with o := o' } n addr' inst width = some p' ∧ p.Twin p' := by
  unfold SPProblem.new at hp ⊢
  dsimp only
  cases hr : AARect.new env.overflowChecks 0 0 width inst.stripHeight with
  | none => rw [hr] at hp; cases hp
  | some rect =>
    rw [hr] at hp
    dsimp only at hp ⊢
    obtain ⟨b, hb, rfl⟩ := Option.map_eq_some_iff.1 hp
    obtain ⟨b', hb', ht⟩ := Bin.fromStrip_twin o' addr addr' hb
    rw [hb', Option.map_some]
    exact ⟨_, rfl, rfl, Layout.twin_new _ ht, rfl, rfl, rfl⟩

theorem SPProblem.Twin.placeItem {env : Env K} {o' : SearchOracle K} {p p' : SPProblem K n} (h : p.Twin p') {addr addr' : ℕ}
    {opt : PlacingOption K} {x x' : (LayoutIndex × SlotKey) × SPProblem K n}
    (hx : p.placeItem env addr opt = some x) (hx' : p'.placeItem { env with o := o' } addr' opt = some x') : x.1 = x'.1 ∧ x.2.Twin x'.2 := by
  unfold SPProblem.placeItem at hx hx'
  split_ifs at hx hx' with h0
  rw [← h.inst] at hx'
  cases hi : p.inst.items[opt.itemId]? with
  | none => rw [hi] at hx; cases hx
  | some item =>
    rw [hi] at hx hx'
    dsimp only at hx hx'
    obtain ⟨pl, hpl, hx⟩ := Option.bind_eq_some_iff.1 hx
    obtain ⟨pl', hpl', hx'⟩ := Option.bind_eq_some_iff.1 hx'
    obtain ⟨ek, hpt⟩ := h.layout.placeItem hpl hpl'
    obtain ⟨q, hq, rfl⟩ := Option.map_eq_some_iff.1 hx
    obtain ⟨q', hq', rfl⟩ := Option.map_eq_some_iff.1 hx'
    unfold SPProblem.registerItem at hq hq'
    obtain ⟨m, hm, rfl⟩ := Option.map_eq_some_iff.1 hq
    obtain ⟨m', hm', rfl⟩ := Option.map_eq_some_iff.1 hq'
    dsimp only at hm hm'
    rw [← h.missing, hm] at hm'
    cases hm'
    exact ⟨by dsimp only; rw [ek], ⟨rfl, hpt, rfl, h.layoutCounter, h.solutionCounter⟩⟩

theorem SPProblem.Twin.pairs {p p' : SPProblem K n} (h : p.Twin p') :
    (p.layout.placed.values.map fun pi => (pi.itemId, pi.dt)) = p'.layout.placed.values.map fun pi => (pi.itemId, pi.dt) :=
  h.layout.map_values _ fun _ => rfl

theorem SPProblem.Twin.placeBack {env : Env K} {o' : SearchOracle K} {p p' : SPProblem K n} (h : p.Twin p')
    (hs : p.layout.cde.Same env.f p'.layout.cde) {x x' : ℕ × ℕ × DTransf K} (hxx : x.2 = x'.2) {q q' : SPProblem K n}
    (hq : p.placeBack env x = some q) (hq' : p'.placeBack { env with o := o' } x' = some q') : q.Twin q' := by
  have hign : SPProblem.ignoreList p.layout = SPProblem.ignoreList p'.layout := by
    unfold SPProblem.ignoreList
    rw [h.layout.cde.entities]
  unfold SPProblem.placeBack at hq hq'
  rw [← hxx, ← h.inst] at hq'
  cases hi : p.inst.items[x.2.1]? with
  | none => rw [hi] at hq; cases hq
  | some item =>
    rw [hi] at hq hq'
    dsimp only at hq hq'
    rw [← hign, ← hs.answers.poly] at hq'
    split at hq
    · cases hq
    · rename_i hc
      rw [hc] at hq'
      cases hq
      cases hq'
      exact h
    · rename_i hc
      rw [hc] at hq'
      dsimp only at hq'
      obtain ⟨y, hy, rfl⟩ := Option.map_eq_some_iff.1 hq
      obtain ⟨y', hy', rfl⟩ := Option.map_eq_some_iff.1 hq'
      exact (h.placeItem hy hy').2

theorem SPProblem.Core.step_back {env : StripEnv K} {p : SPProblem K n} (h : p.Core env) {x : ℕ × ℕ × DTransf K} {xs : List (ℕ × ℕ × DTransf K)}
    (hid : ∀ y ∈ x :: xs, y.2.1 < p.inst.items.length) (hnd : ((x :: xs).map (·.2)).Nodup)
    (hnew : ∀ pi ∈ p.layout.placed.values, (pi.itemId, pi.dt) ∉ (x :: xs).map (·.2)) :
    ∃ q, p.placeBack env.toEnv x = some q ∧ q.Core env ∧ (∀ y ∈ xs, y.2.1 < q.inst.items.length) ∧ (xs.map (·.2)).Nodup ∧
      ∀ pi ∈ q.layout.placed.values, (pi.itemId, pi.dt) ∉ xs.map (·.2) := by
  rw [List.map_cons, List.nodup_cons] at hnd
  obtain ⟨l, m, e1, e2, -, -, e5⟩ := SPProblem.Core.placeBacks [x] h (fun y hy => hid y (by
      rw [List.mem_singleton] at hy
      rw [hy]
      exact List.mem_cons_self)) (by simp) (fun pi hpi hc => hnew pi hpi (by
      rw [List.map_singleton, List.mem_singleton] at hc
      rw [List.map_cons, hc]
      exact List.mem_cons_self))
  rw [List.foldlM_cons] at e1
  obtain ⟨q, hq, e1⟩ := Option.bind_eq_some_iff.1 e1
  cases e1
  refine ⟨_, hq, e2, fun y hy => hid y (List.mem_cons_of_mem _ hy), hnd.2, fun pi hpi hc => ?_⟩
  have := e5.mem_iff.1 (List.mem_map_of_mem (f := fun pi : PlacedItem K => (pi.itemId, pi.dt)) hpi)
  rcases List.mem_append.1 this with hm | hm
  · have hm := List.mem_of_mem_filter hm
    rw [List.map_singleton, List.mem_singleton] at hm
    rw [hm] at hc
    exact hnd.1 hc
  · obtain ⟨pi', hpi', he⟩ := List.mem_map.1 hm
    refine hnew pi' hpi' ?_
    rw [he]
    exact List.mem_cons_of_mem _ hc

theorem placeBacks_twin {env : StripEnv K} {o' : SearchOracle K} (xs : List (ℕ × ℕ × DTransf K)) :
    ∀ {xs' : List (ℕ × ℕ × DTransf K)} {p p' q : SPProblem K n}, p.Core env → p'.Core { env with o := o' } → p.Twin p' →
    xs.map (·.2) = xs'.map (·.2) → (∀ x ∈ xs, x.2.1 < p.inst.items.length) → (xs.map (·.2)).Nodup →
    (∀ pi ∈ p.layout.placed.values, (pi.itemId, pi.dt) ∉ xs.map (·.2)) →
    xs.foldlM (SPProblem.placeBack env.toEnv) p = some q →
    ∃ q', xs'.foldlM (SPProblem.placeBack { env.toEnv with o := o' }) p' = some q' ∧ q.Twin q' := by
  induction xs with
  | nil =>
    intro xs' p p' q h h' ht hxx _ _ _ hq
    have : xs' = [] := List.map_eq_nil_iff.1 hxx.symm
    subst this
    rw [List.foldlM_nil] at hq
    cases hq
    exact ⟨p', rfl, ht⟩
  | cons x xs ih =>
    intro xs' p p' q h h' ht hxx hid hnd hnew hq
    cases xs' with
    | nil => simp at hxx
    | cons x' xs' =>
      have hpairs := ht.pairs
      have hnew' : ∀ pi ∈ p'.layout.placed.values, (pi.itemId, pi.dt) ∉ (x' :: xs').map (·.2) := by
        intro pi hpi hc
        have := List.mem_map_of_mem (f := fun pi : PlacedItem K => (pi.itemId, pi.dt)) hpi
        rw [← hpairs] at this
        obtain ⟨pi', hpi', he⟩ := List.mem_map.1 this
        refine hnew pi' hpi' ?_
        rw [he, hxx]
        exact hc
      have hid' : ∀ y ∈ x' :: xs', y.2.1 < p'.inst.items.length := by
        intro y hy
        have : y.2 ∈ (x' :: xs').map (·.2) := List.mem_map_of_mem hy
        rw [← hxx] at this
        obtain ⟨z, hz, he⟩ := List.mem_map.1 this
        rw [← he, ← ht.inst]
        exact hid z hz
      obtain ⟨p1, e1, c1, i1, n1, w1⟩ := h.step_back hid hnd hnew
      obtain ⟨p1', e1', c1', -, -, -⟩ := h'.step_back hid' (hxx ▸ hnd) hnew'
      rw [List.map_cons, List.map_cons, List.cons.injEq] at hxx
      have hT := ht.placeBack (ht.layout.cde.same h.layout.inv.reach.inv h'.layout.inv.reach.inv) hxx.1 e1 e1'
      rw [List.foldlM_cons] at hq ⊢
      rw [e1] at hq
      have e1' : p'.placeBack { env.toEnv with o := o' } x' = some p1' := e1'
      rw [e1']
      exact ih c1 c1' hT hxx.2 i1 n1 w1 hq

theorem SPProblem.Twin.modifyStrip {env : StripEnv K} {o' : SearchOracle K} {p p' : SPProblem K n} (ht : p.Twin p') (h : p.Core env)
    (h' : p'.Core { env with o := o' }) {addr addr' : ℕ} {addrs addrs' : ℕ → ℕ} {rect : AARect K} {q : SPProblem K n}
    (hq : p.modifyStrip env addr addrs rect = some q) :
    ∃ q', p'.modifyStrip { env with o := o' } addr' addrs' rect = some q' ∧ q.Twin q' := by
  unfold SPProblem.modifyStrip at hq ⊢
  dsimp only at hq ⊢
  obtain ⟨b, hb, hq⟩ := Option.bind_eq_some_iff.1 hq
  obtain ⟨b', hb', hbt⟩ := Bin.fromStrip_twin o' addr addr' hb
  rw [hb', Option.bind_some]
  have hmap : ∀ (addrs : ℕ → ℕ) (l : List (ℕ × DTransf K)), (l.zipIdx.map fun (x : (ℕ × DTransf K) × ℕ) => (addrs x.2, x.1)).map (·.2) = l := by
    intro addrs l
    rw [List.map_map]
    exact List.zipIdx_map_fst 0 _
  have core : ∀ {env : StripEnv K} {p : SPProblem K n} {b : Bin K n} (addr : ℕ), p.Core env →
      Bin.fromStrip env.toEnv n addr env.stripValue rect = some b → SPProblem.Core env { p with
      layout := Layout.new (p.layoutCounter + 1) b, missing := p.inst.items.map fun (x : Item K × ℕ) => (x.2 : ℤ),
      layoutCounter := p.layoutCounter + 1 } := by
    intro env p b addr h hb
    have hst : b.IsStrip env := ⟨addr, rect, hb⟩
    exact ⟨h.built, ⟨Layout.inv_new _ _ hst.built, by simp [Layout.new, SlotMap.empty, SlotMap.values], hst⟩, by
      show MissingOk _ _ (copiesIn SlotMap.empty)
      rw [copiesIn_empty]
      exact missingOk_full _⟩
  refine placeBacks_twin (env := env) (o' := o') _ (core addr h hb) (core (env := { env with o := o' }) addr' h' hb') ?_ ?_ ?_ ?_ ?_ hq
  · refine ⟨ht.inst, ?_, ?_, ?_, ht.solutionCounter⟩
    · rw [ht.layoutCounter]
      exact Layout.twin_new _ hbt
    · dsimp only; rw [ht.inst]
    · dsimp only; rw [ht.layoutCounter]
  · rw [hmap, hmap, ht.pairs]
  · intro x hx
    have := List.mem_map_of_mem (f := (·.2)) hx
    rw [hmap] at this
    obtain ⟨pi, hpi, he⟩ := List.mem_map.1 this
    rw [← he]
    exact h.layout.items pi hpi
  · rw [hmap]
    have := h.layout.inv.nodup
    refine List.Nodup.of_map (fun x : ℕ × DTransf K => HazardEntity.placedItem x.1 x.2) ?_
    rw [List.map_map]
    exact this
  · simp [Layout.new, SlotMap.empty, SlotMap.values]

theorem Layout.Twin.range {l l' : Layout K n} (h : l.Twin l') : occupiedRange l = occupiedRange l' := by
  have key : ∀ (v : List (PlacedItem K)),
      (match v with
      | [] => none
      | pi :: ps => some (ps.foldl (fun r (pi : PlacedItem K) => (min r.1 pi.shape.val.bbox.xMin, max r.2 pi.shape.val.bbox.xMax))
        (pi.shape.val.bbox.xMin, pi.shape.val.bbox.xMax)) : Option (K × K)) =
      match v.map PlacedItem.erase with
      | [] => none
      | pi :: ps => some (ps.foldl (fun r (pi : PlacedItem K) => (min r.1 pi.shape.val.bbox.xMin, max r.2 pi.shape.val.bbox.xMax))
        (pi.shape.val.bbox.xMin, pi.shape.val.bbox.xMax)) := by
    intro v
    cases v with
    | nil => rfl
    | cons x v =>
      rw [List.map_cons]
      dsimp only
      rw [List.foldl_map]
      rfl
  have h1 := key l.placed.values
  have h2 := key l'.placed.values
  rw [h.values] at h1
  exact h1.trans h2.symm

theorem SPProblem.Twin.fitStrip {env : StripEnv K} {o' : SearchOracle K} {p p' : SPProblem K n} (ht : p.Twin p') (h : p.Core env)
    (h' : p'.Core { env with o := o' }) {addr addr' : ℕ} {addrs addrs' : ℕ → ℕ} {q : SPProblem K n}
    (hq : p.fitStrip env addr addrs = some q) :
    ∃ q', p'.fitStrip { env with o := o' } addr' addrs' = some q' ∧ q.Twin q' := by
  have hw : occupiedWidth p.layout = occupiedWidth p'.layout := by unfold occupiedWidth; rw [ht.layout.range]
  have hlen : ∀ {p p' : SPProblem K n}, p.Twin p' → p.layout.placed.len = p'.layout.placed.len := by
    intro p p' ht
    have := congrArg List.length ht.layout.values
    rwa [List.length_map, List.length_map] at this
  unfold SPProblem.fitStrip SPProblem.modifyCentered at hq ⊢
  dsimp only at hq ⊢
  rw [← ht.layout.range, ← hw, ← ht.layout.bin.outer]
  obtain ⟨q1, hq1, hq⟩ := Option.bind_eq_some_iff.1 hq
  obtain ⟨rect, hr, hq1⟩ := Option.bind_eq_some_iff.1 hq1
  obtain ⟨q', hq', hT⟩ := ht.modifyStrip h h' (addr' := addr') (addrs' := addrs') hq1
  split_ifs at hq with hl
  cases hq
  refine ⟨q', ?_, hT⟩
  rw [hr, Option.bind_some, hq', Option.bind_some, if_pos]
  rw [← hlen ht, hl, hlen hT]

theorem lbfPlaceSP_twin {lenv : LEnv K n R} {env : StripEnv K} {o' : SearchOracle K} {cfg : LbfConfig} {inst : SPInstance K}
    {addr addr' : ℕ → ℕ} {addrs addrs' : ℕ → ℕ → ℕ} (hg : ∀ l l' : Layout K n, l.Twin l' → lenv.grid l = lenv.grid l')
    (hf : env.f = Fpa.exact) (hpoi : PoiOfRects env.poi) (hu : env.tr.Unit) (hp : env.tr.Polar) (hitems : ∀ x ∈ inst.items, x.1.Fine) {i : ℕ} :
    ∀ (k k' : ℕ) {p p' : SPProblem K n} {r : R} {x : SPProblem K n × R}, LbfSP env inst p → LbfSP { env with o := o' } inst p' → p.Twin p' →
    k ≤ k' → lbfPlaceSP lenv env cfg addr addrs i k p r = some x →
    ∃ x', lbfPlaceSP lenv { env with o := o' } cfg addr' addrs' i k' p' r = some x' ∧ x.1.Twin x'.1 ∧ x.2 = x'.2
  | 0, _, p, p', r, x, h, h', ht, hk, hx => by cases hx
  | _ + 1, 0, p, p', r, x, h, h', ht, hk, hx => by omega
  | k + 1, k' + 1, p, p', r, x, h, h', ht, hk, hx => by
    unfold lbfPlaceSP at hx ⊢
    obtain ⟨m, hm, hx⟩ := Option.bind_eq_some_iff.1 hx
    have hm' := hm
    rw [ht.missing] at hm'
    rw [hm', Option.bind_some]
    have hc := h.inv.core
    have hc' := h'.inv.core
    dsimp only at hc hc'
    split_ifs at hx with hpos
    · rw [if_pos hpos]
      obtain ⟨item, hit, hx⟩ := Option.bind_eq_some_iff.1 hx
      obtain ⟨o, ho, hx⟩ := Option.bind_eq_some_iff.1 hx
      have hfp := findPlacement_twin (lenv := lenv) (env := env.toEnv) (o' := o') hg cfg item.1 (ls := [(.real 0, p.layout)])
        (ls' := [(.real 0, p'.layout)])
        (.cons ⟨rfl, ht.layout, ht.layout.cde.same hc.layout.inv.reach.inv hc'.layout.inv.reach.inv⟩ .nil) r
      have hit' := hit
      rw [ht.inst] at hit'
      rw [ho] at hfp
      rw [hit', Option.bind_some]
      dsimp only
      rw [← hfp, Option.bind_some]
      cases hopt : o.1 with
      | none =>
        rw [hopt] at hx
        dsimp only at hx ⊢
        obtain ⟨q, hq, hL, -⟩ := h.grow hf hpoi hu hitems (addr k) (addrs k)
        obtain ⟨q', hq', hL', -⟩ := h'.grow (env := { env with o := o' }) hf hpoi hu hitems (addr' k') (addrs' k')
        have hT : q.Twin q' := by
          have h1 := hq
          have h2 := hq'
          unfold SPProblem.modifyInBack at h1 h2
          dsimp only at h1 h2
          rw [← ht.layout.bin.outer] at h2
          obtain ⟨rect, hr, h1⟩ := Option.bind_eq_some_iff.1 h1
          rw [hr, Option.bind_some] at h2
          obtain ⟨q2, hq2, hT⟩ := ht.modifyStrip hc hc' (addr' := addr' k') (addrs' := addrs' k') h1
          rw [h2] at hq2
          cases hq2
          exact hT
        rw [hq, Option.bind_some] at hx
        rw [hq', Option.bind_some]
        exact lbfPlaceSP_twin hg hf hpoi hu hp hitems k k' hL hL' hT (by omega) hx
      | some opt =>
        rw [hopt] at hx
        dsimp only at hx ⊢
        rw [h.same] at hit
        rw [h'.same] at hit'
        obtain ⟨q, hq, hL, -⟩ := h.place hf hpoi hu hp hitems hm hpos hit ho hopt (addr k)
        obtain ⟨q', hq', hL', -⟩ := h'.place (env := { env with o := o' }) hf hpoi hu hp hitems hm' hpos hit' hfp.symm hopt (addr' k')
        rw [hq, Option.bind_some] at hx
        rw [show p'.placeItem { env.toEnv with o := o' } (addr' k') opt = some q' from hq', Option.bind_some]
        exact lbfPlaceSP_twin hg hf hpoi hu hp hitems k k' hL hL' (ht.placeItem hq hq').2 (by omega) hx
    · rw [if_neg hpos]
      cases hx
      exact ⟨_, rfl, ht, rfl⟩

theorem lbfFoldSP_twin {lenv : LEnv K n R} {env : StripEnv K} {o' : SearchOracle K} {cfg : LbfConfig} {inst : SPInstance K}
    {addr addr' : ℕ → ℕ → ℕ} {addrs addrs' : ℕ → ℕ → ℕ → ℕ} {fuel fuel' : ℕ}
    (hg : ∀ l l' : Layout K n, l.Twin l' → lenv.grid l = lenv.grid l')
    (hf : env.f = Fpa.exact) (hpoi : PoiOfRects env.poi) (hu : env.tr.Unit) (hp : env.tr.Polar) (hitems : ∀ x ∈ inst.items, x.1.Fine)
    (hk : fuel ≤ fuel') :
    ∀ (order : List ℕ) {s s' t : SPProblem K n × R}, LbfSP env inst s.1 → LbfSP { env with o := o' } inst s'.1 →
    s.1.Twin s'.1 → s.2 = s'.2 →
    order.foldlM (fun (s : SPProblem K n × R) i => lbfPlaceSP lenv env cfg (addr i) (addrs i) i fuel s.1 s.2) s = some t →
    ∃ t', order.foldlM (fun (s : SPProblem K n × R) i => lbfPlaceSP lenv { env with o := o' } cfg (addr' i) (addrs' i) i fuel' s.1 s.2) s' = some t' ∧
      t.1.Twin t'.1 ∧ LbfSP env inst t.1 ∧ LbfSP { env with o := o' } inst t'.1
  | [], s, s', t, h, h', ht, hr, hs => by
    rw [List.foldlM_nil] at hs
    cases hs
    exact ⟨s', rfl, ht, h, h'⟩
  | i :: order, s, s', t, h, h', ht, hr, hs => by
    rw [List.foldlM_cons] at hs ⊢
    obtain ⟨u, hu1, hs⟩ := Option.bind_eq_some_iff.1 hs
    obtain ⟨u', hu', g1, g2⟩ := lbfPlaceSP_twin (addr' := addr' i) (addrs' := addrs' i) hg hf hpoi hu hp hitems fuel fuel' h h' ht hk hu1
    rw [hr] at hu'
    rw [hu']
    have k1 := (lbfPlaceSP_ok hf hpoi hu hp hitems fuel h hu1).1
    have k2 := (lbfPlaceSP_ok (env := { env with o := o' }) hf hpoi hu hp hitems fuel' h' hu').1
    exact lbfFoldSP_twin hg hf hpoi hu hp hitems hk order k1 k2 g1 g2 hs

theorem lbfSolveSP_twin {lenv : LEnv K n R} {env : StripEnv K} {o' : SearchOracle K} {cfg : LbfConfig} {inst : SPInstance K}
    {addr addr' : ℕ → ℕ → ℕ} {addrs addrs' : ℕ → ℕ → ℕ → ℕ} {addr0 addr0' addr1 addr1' : ℕ} {addrs1 addrs1' : ℕ → ℕ} {fuel fuel' : ℕ}
    (hg : ∀ l l' : Layout K n, l.Twin l' → lenv.grid l = lenv.grid l')
    (hf : env.f = Fpa.exact) (hpoi : PoiOfRects env.poi) (hu : env.tr.Unit) (hp : env.tr.Polar) (htol : 0 < env.tolerance) (hb : inst.Built)
    (hitems : ∀ x ∈ inst.items, x.1.Fine) (hk : fuel ≤ fuel') {r : R} {x : Solution K n × SPProblem K n}
    (hx : lbfSolveSP lenv env cfg addr addrs addr0 addr1 addrs1 fuel inst r = some x) :
    ∃ x', lbfSolveSP lenv { env with o := o' } cfg addr' addrs' addr0' addr1' addrs1' fuel' inst r = some x' ∧ x.1.Twin x'.1 ∧ x.2.Twin x'.2 := by
  unfold lbfSolveSP at hx ⊢
  split_ifs at hx with h0
  rw [if_neg h0]
  dsimp only at hx ⊢
  obtain ⟨p, hp0, hx⟩ := Option.bind_eq_some_iff.1 hx
  obtain ⟨p', hp0', ht0⟩ := SPProblem.twin_new o' addr0' hp0
  obtain ⟨order, ho, hx⟩ := Option.bind_eq_some_iff.1 hx
  obtain ⟨s, hs, hx⟩ := Option.bind_eq_some_iff.1 hx
  obtain ⟨q, hq, hx⟩ := Option.bind_eq_some_iff.1 hx
  obtain ⟨s', hs', ht, hL, hL'⟩ := lbfFoldSP_twin (addr' := addr') (addrs' := addrs') (o' := o') hg hf hpoi hu hp hitems hk order
    (s := (p, r)) (s' := (p', r)) (LbfSP.start hb hp0) (LbfSP.start (env := { env with o := o' }) hb hp0') ht0 rfl hs
  obtain ⟨q', hq', hT⟩ := ht.fitStrip (addr' := addr1') (addrs' := addrs1') hL.inv.core hL'.inv.core hq
  have hL2 := (hL'.fit (env := { env with o := o' }) hf hpoi hu htol hitems hq').1
  rw [hp0', Option.bind_some, ho, Option.bind_some, hs', Option.bind_some, hq', Option.bind_some]
  obtain ⟨sol', l', e1, -⟩ := hL2.inv.createSolution
  refine ⟨_, e1, ?_⟩
  dsimp only at e1
  unfold SPProblem.createSolution at hx e1
  dsimp only at hx e1
  obtain ⟨y, hy, rfl⟩ := Option.map_eq_some_iff.1 hx
  obtain ⟨y', hy', e1⟩ := Option.map_eq_some_iff.1 e1
  rw [← e1]
  obtain ⟨g1, g2⟩ := hT.layout.createSnapshot hy hy'
  refine ⟨⟨?_, .cons g2 .nil, problemUsage_twin (.cons g1 .nil), ?_, ?_, rfl⟩, hT.inst, g1, hT.missing, hT.layoutCounter, ?_⟩
  · dsimp only; rw [hT.solutionCounter]
  · dsimp only; rw [hT.inst, hT.missing]
  · dsimp only; rw [hT.inst]
  · dsimp only; rw [hT.solutionCounter]

end Jagua
