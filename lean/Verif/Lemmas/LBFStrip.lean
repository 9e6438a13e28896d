import Verif.Lemmas.LBFRun
import Verif.Lemmas.StripGeo

/-!
# The optimizer on a strip
-/

set_option linter.unusedSectionVars false

namespace Jagua

variable {K : Type*} [Field K] [LinearOrder K] [IsStrictOrderedRing K] {n : ℕ} {R : Type*}

theorem Bin.IsStrip.plain {env : StripEnv K} {b : Bin K n} (h : b.IsStrip env) : b.holes = [] ∧ ∀ z, some z ∉ b.qualityZones := by
  obtain ⟨addr, rect, h⟩ := h
  obtain ⟨poly, _, _, _, hh, _⟩ := Bin.fromStrip_spec h
  refine ⟨hh, fun z hz => ?_⟩
  unfold Bin.fromStrip at h
  split at h
  · cases h
  · unfold Bin.new at h
    split_ifs at h
    obtain ⟨c, _, rfl⟩ := Option.map_eq_some_iff.1 h
    have hz : some z ∈ zoneTable ([] : List (QualityZone K)) := hz
    unfold zoneTable at hz
    rw [List.foldl_nil] at hz
    cases List.eq_of_mem_replicate hz

theorem Bin.IsStrip.shapes {env : StripEnv K} (hpoi : PoiOfRects env.poi) {b : Bin K n} (h : b.IsStrip env) : b.Shapes := by
  have hp := h.plain
  refine ⟨?_, by rw [hp.1]; simp, fun z hz => absurd hz (hp.2 z)⟩
  obtain ⟨addr, rect, h⟩ := h
  obtain ⟨poly, h1, _, h2, _⟩ := Bin.fromStrip_spec h
  rw [h2]
  exact SPoly.ofRect_proper hpoi h1

/-- what identifies the items of a layout -/
def Layout.pairs (l : Layout K n) : List (ℕ × DTransf K) := l.placed.values.map fun pi => (pi.itemId, pi.dt)

theorem Layout.Inv.pairwise_pairs {env : Env K} {cat : ℕ → Item K} {l : Layout K n} (h : l.Inv env cat) :
    l.placed.values.Pairwise (fun a c => Disjoint (region a.shape.val.points) (region c.shape.val.points)) ↔
    l.pairs.Pairwise fun a c => Disjoint (region ((cat a.1).shape.transform (Transf.fromDt env.tr a.2)).points)
      (region ((cat c.1).shape.transform (Transf.fromDt env.tr c.2)).points) := by
  unfold Layout.pairs
  rw [List.pairwise_map]
  constructor <;> intro hp <;> refine List.Pairwise.imp_of_mem ?_ hp <;> intro a c ha hc hd
  · rw [(h.ok a ha).2, (h.ok c hc).2] at hd
    exact hd
  · rw [(h.ok a ha).2, (h.ok c hc).2]
    exact hd

/-- the same items in another strip that holds all of them -/
theorem Layout.Neat.strip {env : StripEnv K} {cat : ℕ → Item K} {l l' : Layout K n} (h : l.Inv env.toEnv cat) (h' : l'.Inv env.toEnv cat)
    (hs : l'.bin.IsStrip env) (hperm : l'.pairs.Perm l.pairs) (hn : l.Neat env.toEnv cat)
    (hin : ∀ pi ∈ l'.placed.values, ∀ v ∈ region pi.shape.val.points, v ∈ interior l'.bin.outer.val.points) : l'.Neat env.toEnv cat := by
  refine ⟨⟨hin, by rw [hs.plain.1]; simp, fun pi _ z hz => absurd hz (hs.plain.2 z), ?_⟩, ?_⟩
  · rw [h'.pairwise_pairs, hperm.pairwise_iff fun hab => hab.symm, ← h.pairwise_pairs]
    exact hn.feasible.apart
  · intro pi hpi
    obtain ⟨pi', hpi', he⟩ := List.mem_map.1 (hperm.mem_iff.1 (List.mem_map_of_mem (f := fun pi : PlacedItem K => (pi.itemId, pi.dt)) hpi))
    simp only [Prod.mk.injEq] at he
    have := hn.rotations pi' hpi'
    rwa [he.1, he.2] at this

theorem MissingOk.shift {items : List (Item K × ℕ)} {m m' : List ℤ} {c c' : ℕ → ℕ} (h : MissingOk items m c) (h' : MissingOk items m' c')
    {d : ℕ → ℕ} (hd : ∀ j, c' j = c j + d j) (j : ℕ) : m'[j]? = (m[j]?).map (· - (d j : ℤ)) := by
  have h1 := h j
  have h2 := h' j
  rw [← h1] at h2
  cases hm : m[j]? with
  | none =>
    rw [hm] at h2
    simpa using h2
  | some a =>
    rw [hm] at h2
    cases hm' : m'[j]? with
    | none => rw [hm'] at h2; simp at h2
    | some b =>
      rw [hm', hd] at h2
      simp only [Option.map_some, Option.some.injEq] at h2 ⊢
      push_cast at h2
      omega

/-- what stays true of the problem while the optimizer runs -/
structure LbfSP (env : StripEnv K) (inst : SPInstance K) (p : SPProblem K n) : Prop where
  same : p.inst = inst
  inv : SPState.Inv env ⟨p, []⟩
  neat : p.layout.Neat env.toEnv inst.cat
  nonneg : ∀ m ∈ p.missing, 0 ≤ m
  high : 0 < inst.stripHeight → p.layout.bin.outer.val.bbox.yMin = 0 ∧ p.layout.bin.outer.val.bbox.yMax = inst.stripHeight

theorem LbfSP.start {env : StripEnv K} {inst : SPInstance K} (h : inst.Built) {addr : ℕ} {width : K} {p : SPProblem K n}
    (hp : SPProblem.new env n addr inst width = some p) : LbfSP env inst p := by
  obtain ⟨h1, h2⟩ := SPState.inv_new h hp
  unfold SPProblem.new at hp
  split at hp
  · cases hp
  obtain ⟨b, hb, rfl⟩ := Option.map_eq_some_iff.1 hp
  refine ⟨h2, h1, Layout.neat_new .., ?_, ?_⟩
  · intro m hm
    obtain ⟨x, _, rfl⟩ := List.mem_map.1 hm
    exact Int.natCast_nonneg _
  · intro hH
    rename_i rect hrect
    have hr : rect = ⟨0, 0, width, inst.stripHeight⟩ := by
      unfold AARect.new at hrect
      split_ifs at hrect
      exact (Option.some.inj hrect).symm
    subst hr
    obtain ⟨poly, hpoly, -, hout, -⟩ := Bin.fromStrip_spec hb
    dsimp only [Layout.new]
    rw [hout]
    dsimp only
    unfold SPoly.ofRect at hpoly
    obtain ⟨-, -, -, -, hpts, hbox, -⟩ := SPoly.new_spec hpoly
    rw [hbox, hpts]
    split_ifs <;> simp [boundingBox, hH.le]

theorem LbfSP.mem {env : StripEnv K} {inst : SPInstance K} {p : SPProblem K n} (h : LbfSP env inst p) :
    ∀ pi ∈ p.layout.placed.values, ∃ x ∈ inst.items, inst.cat pi.itemId = x.1 := by
  intro pi hpi
  have hid := h.inv.core.layout.items pi hpi
  dsimp only at hid
  rw [h.same] at hid
  refine ⟨_, List.getElem_mem hid, ?_⟩
  unfold SPInstance.cat catOf
  rw [List.getElem?_eq_getElem hid]

theorem LbfSP.fine {env : StripEnv K} {inst : SPInstance K} {p : SPProblem K n} (h : LbfSP env inst p) (hitems : ∀ x ∈ inst.items, x.1.Fine) :
    ∀ pi ∈ p.layout.placed.values, (inst.cat pi.itemId).Fine := by
  intro pi hpi
  obtain ⟨x, hx, e⟩ := h.mem pi hpi
  rw [e]
  exact hitems x hx

theorem copiesIn_pairs (l : Layout K n) (i : ℕ) : copiesIn l.placed i = l.pairs.countP fun x => x.1 = i := by
  unfold copiesIn Layout.pairs
  rw [List.countP_map]
  rfl

/-- a placement that was found can be made -/
theorem LbfSP.place {lenv : LEnv K n R} {env : StripEnv K} {cfg : LbfConfig} {inst : SPInstance K} {p : SPProblem K n}
    (hf : env.f = Fpa.exact) (hpoi : PoiOfRects env.poi) (hu : env.tr.Unit) (hp : env.tr.Polar) (hitems : ∀ x ∈ inst.items, x.1.Fine)
    (h : LbfSP env inst p) {i : ℕ} {m : ℤ} (hm : p.missing[i]? = some m) (hpos : 0 < m) {item : Item K × ℕ} (hi : inst.items[i]? = some item)
    {r : R} {o : Option (PlacingOption K) × R} (hfp : findPlacement lenv env.toEnv cfg item.1 [(.real 0, p.layout)] r = some o)
    {opt : PlacingOption K} (ho : o.1 = some opt) (addr : ℕ) :
    ∃ q, p.placeItem env.toEnv addr opt = some q ∧ LbfSP env inst q.2 ∧
      ∀ j, q.2.missing[j]? = (p.missing[j]?).map (· - (if j = i then 1 else 0)) := by
  obtain ⟨x, hx, e1, e2, c, hacc⟩ := findPlacement_ok hu hp hfp ho
  rw [List.mem_singleton] at hx
  subst hx
  have hcore := h.inv.core
  dsimp only at hcore
  obtain ⟨hid, hcat⟩ := hcore.cat (id := i) (x := item) (by rw [h.same]; exact hi)
  rw [h.same] at hcat
  have hin := hcore.layout
  rw [h.same] at hin
  obtain ⟨idx, oid, dt⟩ := opt
  dsimp only at e1 e2 hacc
  subst e1
  rw [hid] at e2
  subst e2
  obtain ⟨hnew, hneat⟩ := hin.inv.place_neat hu (.exact hf hu hitems (hin.strip.shapes hpoi)) h.mem hcat (hitems item (List.mem_of_getElem? hi))
    ⟨item, List.mem_of_getElem? hi, rfl⟩ hacc h.neat
  rw [hid] at hnew
  obtain ⟨k, l', m', f1, f2, f3, f4, f5, f6, f7⟩ := hcore.place addr (by rw [h.same]; exact hi) hnew
  have hmis : ∀ j, m'[j]? = (p.missing[j]?).map (· - (if j = oid then 1 else 0)) := by
    intro j
    rw [hcore.missing.shift f2.missing (d := fun j => if j = oid then 1 else 0) (fun j => by
      rw [copiesIn_perm f7]
      unfold copiesIn
      rw [show (PlacedItem.new env.toEnv addr item.1 dt).itemId = oid from hid])]
    congr 1
    funext a
    split_ifs <;> simp
  refine ⟨_, f1, ⟨h.same, h.inv.update f2 rfl (le_refl _) (.inl (by dsimp only; rw [f3, f4]; exact List.mem_cons_self)), ?_, ?_,
    by dsimp only; rw [f4]; exact h.high⟩, hmis⟩
  · have hpl := f1
    unfold SPProblem.placeItem at hpl
    rw [if_neg (by simp), h.same, hi] at hpl
    dsimp only at hpl
    obtain ⟨pl, hpl1, hpl⟩ := Option.bind_eq_some_iff.1 hpl
    have hl : pl.2 = l' := by
      obtain ⟨q, hq, hpl⟩ := Option.map_eq_some_iff.1 hpl
      have := congrArg (fun x => x.2.layout) hpl
      dsimp only at this
      unfold SPProblem.registerItem at hq
      obtain ⟨m2, _, rfl⟩ := Option.map_eq_some_iff.1 hq
      exact this
    dsimp only
    rw [← hl]
    exact hneat (addr := addr) (k := pl.1) hpl1
  · intro a ha
    dsimp only at ha
    obtain ⟨j, hj⟩ := List.mem_iff_getElem?.1 ha
    rw [hmis] at hj
    obtain ⟨b, hb, rfl⟩ := Option.map_eq_some_iff.1 hj
    split_ifs with hji
    · subst hji
      rw [hm] at hb
      cases hb
      omega
    · have := h.nonneg b (List.mem_of_getElem? hb)
      omega

/-- a strip of the same height that holds all items keeps them -/
theorem LbfSP.modify {env : StripEnv K} {inst : SPInstance K} {p : SPProblem K n}
    (hf : env.f = Fpa.exact) (hpoi : PoiOfRects env.poi) (hu : env.tr.Unit) (hitems : ∀ x ∈ inst.items, x.1.Fine)
    (h : LbfSP env inst p) (addr : ℕ) (addrs : ℕ → ℕ) {rect : AARect K} (hv : rect.Valid)
    (hy : rect.yMin = p.layout.bin.outer.val.bbox.yMin ∧ rect.yMax = p.layout.bin.outer.val.bbox.yMax)
    (hin : ∀ pi ∈ p.layout.placed.values, ∀ v ∈ region pi.shape.val.points,
      rect.xMin < v.x ∧ v.x < rect.xMax ∧ rect.yMin < v.y ∧ v.y < rect.yMax) :
    ∃ q, p.modifyStrip env addr addrs rect = some q ∧ LbfSP env inst q ∧ q.missing = p.missing ∧ q.layout.pairs.Perm p.layout.pairs ∧
      q.layout.bin.outer.val.bbox = rect ∧ q.layout.bin.pretransform = Transf.translM rect.xMin rect.yMin := by
  have hcore := h.inv.core
  dsimp only at hcore
  obtain ⟨b, hb, _, hbox, _⟩ := Bin.fromStrip_valid (n := n) env.toEnv addr env.stripValue hv
  have hst : b.IsStrip env := ⟨_, _, hb⟩
  obtain ⟨l, m, e1, e2, e3, e4, e5⟩ := hcore.modifyStrip addr addrs hb
  have hok := hcore.layout.inv.ok
  have hkeep : l.pairs.Perm p.layout.pairs := by
    have : (p.layout.placed.values.map fun pi => (pi.itemId, pi.dt)).filter (stripKeeps env p.inst b) = p.layout.pairs := by
      rw [List.filter_eq_self.2]
      · rfl
      · intro x hx
        obtain ⟨pi, hpi, rfl⟩ := List.mem_map.1 hx
        have hP := (h.fine hitems pi hpi).placed hu pi.dt
        have hs := (hok pi hpi).2
        rw [stripKeeps_iff hf hpoi hst (by rw [h.same]; exact hP), ← hs]
        intro v hv
        rw [hst.interior, hbox]
        exact hin pi hpi v hv
    rw [← this]
    exact e5
  have hI := h.inv.update e2 rfl (Nat.le_succ _) (.inr ⟨e3, Nat.lt_succ_self _⟩)
  have hmis : m = p.missing := by
    refine MissingOk.unique e2.missing (c := copiesIn l.placed) ?_
    have : copiesIn l.placed = copiesIn p.layout.placed := by
      funext i
      rw [copiesIn_pairs, copiesIn_pairs, hkeep.countP_eq]
    dsimp only
    rw [this]
    exact hcore.missing
  have hl1 := hcore.layout.inv
  have hl2 := e2.layout
  dsimp only at hl2
  rw [h.same] at hl1 hl2
  refine ⟨_, e1, ⟨h.same, hI, ?_, ?_, by dsimp only; rw [e4, hbox, hy.1, hy.2]; exact h.high⟩, hmis, hkeep, by rw [e4]; exact hbox,
    by rw [e4]; exact Bin.fromStrip_pre hb⟩
  · refine Layout.Neat.strip hl1 hl2.inv hl2.strip hkeep h.neat fun pi hpi v hvr => ?_
    dsimp only at hpi ⊢
    rw [e4, hst.interior, hbox]
    obtain ⟨pi', hpi', he⟩ := List.mem_map.1 (hkeep.mem_iff.1 (List.mem_map_of_mem (f := fun pi : PlacedItem K => (pi.itemId, pi.dt)) hpi))
    simp only [Prod.mk.injEq] at he
    refine hin pi' hpi' v ?_
    rw [(hl1.ok pi' hpi').2, he.1, he.2, ← (hl2.inv.ok pi hpi).2]
    exact hvr
  · dsimp only
    rw [hmis]
    exact h.nonneg

/-- making the strip longer -/
theorem LbfSP.grow {env : StripEnv K} {inst : SPInstance K} {p : SPProblem K n}
    (hf : env.f = Fpa.exact) (hpoi : PoiOfRects env.poi) (hu : env.tr.Unit) (hitems : ∀ x ∈ inst.items, x.1.Fine)
    (h : LbfSP env inst p) (addr : ℕ) (addrs : ℕ → ℕ) :
    ∃ q, p.modifyInBack env addr addrs (p.layout.bin.outer.val.bbox.width * (11 / 10)) = some q ∧ LbfSP env inst q ∧ q.missing = p.missing ∧
      q.layout.pairs.Perm p.layout.pairs ∧ q.layout.bin.outer.val.bbox.xMin = p.layout.bin.outer.val.bbox.xMin ∧
      q.layout.bin.outer.val.bbox.width = p.layout.bin.outer.val.bbox.width * (11 / 10) ∧
      q.layout.bin.outer.val.bbox.height = p.layout.bin.outer.val.bbox.height := by
  have hst := h.inv.core.layout.strip
  dsimp only at hst
  have hval := hst.bbox_valid
  have hw : 0 < p.layout.bin.outer.val.bbox.width := sub_pos.2 hval.1
  have hx : p.layout.bin.outer.val.bbox.xMax < p.layout.bin.outer.val.bbox.xMin + p.layout.bin.outer.val.bbox.width * (11 / 10) := by
    unfold AARect.width at hw ⊢
    linarith
  have hv : (⟨p.layout.bin.outer.val.bbox.xMin, p.layout.bin.outer.val.bbox.yMin,
      p.layout.bin.outer.val.bbox.xMin + p.layout.bin.outer.val.bbox.width * (11 / 10), p.layout.bin.outer.val.bbox.yMax⟩ : AARect K).Valid :=
    ⟨hval.1.trans hx, hval.2⟩
  obtain ⟨q, hq, e1, e2, e3, e4, -⟩ := h.modify hf hpoi hu hitems addr addrs hv ⟨rfl, rfl⟩ (by
    intro pi hpi v hvr
    obtain ⟨g1, g2, g3, g4⟩ := (hst.interior v).1 (h.neat.feasible.inside pi hpi hvr)
    exact ⟨g1, g2.trans hx, g3, g4⟩)
  refine ⟨q, ?_, e1, e2, e3, by rw [e4], by rw [e4]; unfold AARect.width; ring, by rw [e4]; rfl⟩
  unfold SPProblem.modifyInBack
  dsimp only
  rw [AARect.new_valid (hval.1.trans hx) hval.2]
  exact hq

/-- after the loop for an item all its copies are placed, and the copies of the other items are as before -/
theorem lbfPlaceSP_ok {lenv : LEnv K n R} {env : StripEnv K} {cfg : LbfConfig} {inst : SPInstance K} {addr : ℕ → ℕ} {addrs : ℕ → ℕ → ℕ}
    (hf : env.f = Fpa.exact) (hpoi : PoiOfRects env.poi) (hu : env.tr.Unit) (hp : env.tr.Polar) (hitems : ∀ x ∈ inst.items, x.1.Fine) {i : ℕ} :
    ∀ (k : ℕ) {p : SPProblem K n} {r : R} {x : SPProblem K n × R}, LbfSP env inst p →
    lbfPlaceSP lenv env cfg addr addrs i k p r = some x →
    LbfSP env inst x.1 ∧ x.1.missing[i]? = some 0 ∧ ∀ j ≠ i, x.1.missing[j]? = p.missing[j]?
  | 0, p, r, x, h, hx => by cases hx
  | k + 1, p, r, x, h, hx => by
    unfold lbfPlaceSP at hx
    obtain ⟨m, hm, hx⟩ := Option.bind_eq_some_iff.1 hx
    split_ifs at hx with hpos
    · obtain ⟨item, hi, hx⟩ := Option.bind_eq_some_iff.1 hx
      obtain ⟨o, ho, hx⟩ := Option.bind_eq_some_iff.1 hx
      cases hopt : o.1 with
      | none =>
        rw [hopt] at hx
        dsimp only at hx
        obtain ⟨q, hq, hL, hmis, _⟩ := h.grow hf hpoi hu hitems (addr k) (addrs k)
        rw [hq, Option.bind_some] at hx
        obtain ⟨g1, g2, g3⟩ := lbfPlaceSP_ok hf hpoi hu hp hitems k hL hx
        exact ⟨g1, g2, fun j hj => by rw [g3 j hj, hmis]⟩
      | some opt =>
        rw [hopt] at hx
        dsimp only at hx
        rw [h.same] at hi
        obtain ⟨q, hq, hL, hmis⟩ := h.place hf hpoi hu hp hitems hm hpos hi ho hopt (addr k)
        rw [hq, Option.bind_some] at hx
        obtain ⟨g1, g2, g3⟩ := lbfPlaceSP_ok hf hpoi hu hp hitems k hL hx
        refine ⟨g1, g2, fun j hj => ?_⟩
        rw [g3 j hj, hmis, if_neg hj]
        simp
    · cases hx
      refine ⟨h, ?_, fun _ _ => rfl⟩
      have := h.nonneg m (List.mem_of_getElem? hm)
      rw [hm, show m = 0 by omega]

theorem lbfFoldSP_ok {lenv : LEnv K n R} {env : StripEnv K} {cfg : LbfConfig} {inst : SPInstance K} {addr : ℕ → ℕ → ℕ} {addrs : ℕ → ℕ → ℕ → ℕ}
    {fuel : ℕ} (hf : env.f = Fpa.exact) (hpoi : PoiOfRects env.poi) (hu : env.tr.Unit) (hp : env.tr.Polar)
    (hitems : ∀ x ∈ inst.items, x.1.Fine) :
    ∀ (order : List ℕ) {s s' : SPProblem K n × R}, LbfSP env inst s.1 →
    order.foldlM (fun (s : SPProblem K n × R) i => lbfPlaceSP lenv env cfg (addr i) (addrs i) i fuel s.1 s.2) s = some s' →
    LbfSP env inst s'.1 ∧ ∀ j, (j ∈ order ∨ s.1.missing[j]? = some 0) → s'.1.missing[j]? = some 0
  | [], s, s', h, hs => by
    rw [List.foldlM_nil] at hs
    cases hs
    exact ⟨h, by simp⟩
  | i :: order, s, s', h, hs => by
    rw [List.foldlM_cons] at hs
    obtain ⟨t, ht, hs⟩ := Option.bind_eq_some_iff.1 hs
    obtain ⟨g1, g2, g3⟩ := lbfPlaceSP_ok hf hpoi hu hp hitems fuel h ht
    obtain ⟨k1, k2⟩ := lbfFoldSP_ok hf hpoi hu hp hitems order g1 hs
    refine ⟨k1, fun j hj => k2 j ?_⟩
    by_cases hji : j = i
    · subst hji; exact .inr g2
    · rcases hj with hj | hj
      · exact .inl ((List.mem_cons.1 hj).resolve_left hji)
      · exact .inr (by rw [g3 j hji, hj])

/-- fitting the strip at the end -/
theorem LbfSP.fit {env : StripEnv K} {inst : SPInstance K} {p q : SPProblem K n}
    (hf : env.f = Fpa.exact) (hpoi : PoiOfRects env.poi) (hu : env.tr.Unit) (htol : 0 < env.tolerance) (hitems : ∀ x ∈ inst.items, x.1.Fine)
    (h : LbfSP env inst p) {addr : ℕ} {addrs : ℕ → ℕ} (hq : p.fitStrip env addr addrs = some q) :
    LbfSP env inst q ∧ q.missing = p.missing ∧ q.layout.pairs.Perm p.layout.pairs ∧
      q.layout.bin.outer.val.bbox.height = p.layout.bin.outer.val.bbox.height ∧
      q.layout.bin.pretransform = Transf.translM q.layout.bin.outer.val.bbox.xMin q.layout.bin.outer.val.bbox.yMin := by
  obtain ⟨hq, _⟩ := SPProblem.fitStrip_some hq
  have hval := h.inv.core.layout.strip.bbox_valid
  dsimp only at hval
  have hne : p.layout.placed.values ≠ [] := by
    intro he
    have h0 : occupiedRange p.layout = none := by unfold occupiedRange; rw [he]
    have h1 : occupiedWidth p.layout = 0 := by unfold occupiedWidth; rw [h0]
    unfold SPProblem.modifyCentered at hq
    rw [h0, h1] at hq
    simp only [Option.getD_none, zero_mul, sub_zero, zero_div, add_zero] at hq
    unfold AARect.new at hq
    split_ifs at hq with hc
    · rw [Option.bind_some] at hq
      unfold SPProblem.modifyStrip Bin.fromStrip SPoly.ofRect SPoly.new at hq
      simp at hq
    · cases hq
  obtain ⟨lo, hi, hr, h1, ⟨pi, hpi, hlo⟩, -⟩ := occupiedRange_spec hne
  have hwf : ∀ pi ∈ p.layout.placed.values, pi.shape.val.WF := by
    intro pi hpi
    have := (h.inv.core.layout.inv.ok pi hpi).2
    dsimp only at this
    rw [this, h.same]
    exact ((h.fine hitems pi hpi).placed hu pi.dt).wf
  have hlohi : lo < hi := by
    have := (h1 pi hpi).2
    have := (hwf pi hpi).bbox_valid.1
    linarith
  have hpos : 0 < (hi - lo) * env.tolerance := mul_pos (sub_pos.2 hlohi) htol
  have e0 : occupiedWidth p.layout * (1 + env.tolerance) - (hi - lo) = (hi - lo) * env.tolerance := by
    unfold occupiedWidth
    rw [hr]
    ring
  rw [SPProblem.modifyCentered_eq hr, e0, AARect.new_valid (by linarith) hval.2, Option.bind_some] at hq
  obtain ⟨q', hq', e1, e2, e3, e4, e5⟩ := h.modify hf hpoi hu hitems addr addrs (rect := ⟨lo - (hi - lo) * env.tolerance / 2,
      p.layout.bin.outer.val.bbox.yMin, hi + (hi - lo) * env.tolerance / 2, p.layout.bin.outer.val.bbox.yMax⟩)
    ⟨by dsimp only; linarith, hval.2⟩ ⟨rfl, rfl⟩ (by
      intro pi hpi v hv
      obtain ⟨_, _, g3, g4⟩ := (h.inv.core.layout.strip.interior v).1 (h.neat.feasible.inside pi hpi hv)
      have hb := region_subset_bbox hv
      rw [← (hwf pi hpi).bbox_eq] at hb
      obtain ⟨b1, b2⟩ := h1 pi hpi
      exact ⟨by dsimp only; linarith [hb.1], by dsimp only; linarith [hb.2.1], g3, g4⟩)
  rw [hq] at hq'
  cases hq'
  exact ⟨e1, e2, e3, by rw [e4]; rfl, by rw [e5, e4]⟩

theorem mapM_map_eq {α β γ : Type*} {f : α → Option β} {g : β → γ} {h : α → γ} (hg : ∀ a b, f a = some b → g b = h a) :
    ∀ {l : List α} {m : List β}, l.mapM f = some m → m.map g = l.map h
  | [], m, hm => by
    rw [List.mapM_nil] at hm
    cases hm
    rfl
  | a :: l, m, hm => by
    rw [List.mapM_cons] at hm
    obtain ⟨b, hb, hm⟩ := Option.bind_eq_some_iff.1 hm
    obtain ⟨m', hm', hm⟩ := Option.bind_eq_some_iff.1 hm
    cases hm
    rw [List.map_cons, List.map_cons, hg a b hb, mapM_map_eq hg hm']

/-- the order has every item number once -/
theorem sortedItems_perm {poi : List (Point K) → Circle K} {items : List (Item K × ℕ)} {order : List ℕ}
    (h : sortedItems poi items = some order) : order.Perm (List.range items.length) := by
  unfold sortedItems at h
  obtain ⟨keyed, hk, rfl⟩ := Option.map_eq_some_iff.1 h
  have := mapM_map_eq (g := Prod.snd) (h := fun x : (Item K × ℕ) × ℕ => x.2) (fun a b hab => by
    obtain ⟨d, _, rfl⟩ := Option.map_eq_some_iff.1 hab
    rfl) hk
  rw [show items.zipIdx.map (fun x : (Item K × ℕ) × ℕ => x.2) = List.range items.length by
    have := List.zipIdx_map_snd 0 items
    rw [List.range_eq_range']
    exact this] at this
  rw [← this]
  exact (List.perm_insertionSort _ keyed).map _

end Jagua
