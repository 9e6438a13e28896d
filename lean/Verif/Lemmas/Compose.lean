import Verif.Lemmas.Parser

/-!
# Lemmas on writing solutions
-/

set_option linter.unusedSectionVars false

namespace Jagua

variable {K : Type*} [Field K] [LinearOrder K] [IsStrictOrderedRing K] {n : ℕ}

theorem transform_fromDt (tr : Trig K) (d : DTransf K) (v : Point K) :
    v.transform (Transf.fromDt tr d) = transPt d.tx d.ty (rotPt (tr.cos d.rotation) (tr.sin d.rotation) v) := by
  unfold transPt rotPt Point.transform Transf.fromDt Transf.rotTranslM
  ext <;> ring

/-- what is written for a placed item -/
structure Composed (tr : Trig K) (ix iy bx b_y : K) (pi : PlacedItem K) (p : JsonPlacedItem K) : Prop where
  index : p.index = pi.itemId
  place : ∀ v, transPt bx b_y (p.place tr v) = (transPt ix iy v).transform (Transf.fromDt tr pi.dt)
  turn : SameTurn tr p.rotation pi.dt.rotation

theorem composePlaced_ok {tr : Trig K} (hu : tr.Unit) (hp : tr.Polar) {items : List (Item K × ℕ)} {b : Bin K n} {pi : PlacedItem K}
    {x : Item K × ℕ} (hx : items[pi.itemId]? = some x) {ix iy bx b_y : K} (hix : x.1.pretransform = Transf.translM ix iy)
    (hb : b.pretransform = Transf.translM bx b_y) : ∃ p, composePlaced tr items b pi = some p ∧ Composed tr ix iy bx b_y pi p := by
  unfold composePlaced
  rw [hx, Option.map_some]
  refine ⟨_, rfl, ?_⟩
  rw [hix, hb]
  have ri : (Transf.translM ix iy : Transf K).IsRigid := .transl _ _
  have rb : (Transf.translM bx b_y : Transf K).IsRigid := .transl _ _
  have rd : (Transf.fromDt tr pi.dt).IsRigid := .rotTransl hu _ _ _
  have ea : internalToAbsolute tr pi.dt (Transf.translM ix iy) (Transf.translM bx b_y) =
      Transf.dotProd (Transf.translM bx b_y : Transf K).inverse (Transf.dotProd (Transf.fromDt tr pi.dt) (Transf.translM ix iy)) := by
    unfold internalToAbsolute Transf.transformFromDecomposed Transf.rotateTranslate Transf.transform
    rw [dotProd_empty]; rfl
  have ra : (internalToAbsolute tr pi.dt (Transf.translM ix iy) (Transf.translM bx b_y)).IsRigid := by
    rw [ea]; exact .dot rb.inverse (.dot rd ri)
  have hdec := ra.decompose hp
  set t := internalToAbsolute tr pi.dt (Transf.translM ix iy) (Transf.translM bx b_y) with ht
  refine ⟨rfl, fun v => ?_, ?_⟩
  · have e : (⟨pi.itemId, (t.decompose tr).rotation, ((t.decompose tr).tx, (t.decompose tr).ty)⟩ : JsonPlacedItem K).place tr v = v.transform t := by
      conv_rhs => rw [← hdec]
      rw [transform_fromDt]
      rfl
    rw [e, ← transform_translM, ← transform_dot ra, ea, ← dotProd_assoc, rb.mul_inverse, empty_dotProd, transform_dot ri, transform_translM]
  · have e1 : tr.cos (t.decompose tr).rotation = tr.cos pi.dt.rotation ∧ tr.sin (t.decompose tr).rotation = tr.sin pi.dt.rotation := by
      have h1 : (Transf.fromDt tr (t.decompose tr)) = t := hdec
      have h2 : ∀ v : Point K, v.transform (Transf.fromDt tr (t.decompose tr)) = v.transform t := fun v => by rw [h1]
      have h3 : ∀ v : Point K, v.transform t = transPt (-bx) (-b_y) ((transPt ix iy v).transform (Transf.fromDt tr pi.dt)) := by
        intro v
        have h4 : transPt bx b_y (v.transform t) = (transPt ix iy v).transform (Transf.fromDt tr pi.dt) := by
          rw [← transform_translM, ← transform_dot ra, ea, ← dotProd_assoc, rb.mul_inverse, empty_dotProd, transform_dot ri, transform_translM]
        rw [← h4]
        unfold transPt
        ext <;> simp
      have a0 := h2 ⟨0, 0⟩
      have a1 := h2 ⟨1, 0⟩
      rw [h3, transform_fromDt, transform_fromDt] at a0 a1
      unfold transPt rotPt at a0 a1
      simp only [Point.mk.injEq] at a0 a1
      exact ⟨by linarith [a0.1, a1.1], by linarith [a0.2, a1.2]⟩
    exact e1

theorem Forall₂.pairwise {α β : Type*} {R : α → β → Prop} {P : α → α → Prop} {Q : β → β → Prop}
    (h : ∀ a b a' b', R a b → R a' b' → P a a' → Q b b') : ∀ {l : List α} {m : List β}, List.Forall₂ R l m → l.Pairwise P → m.Pairwise Q
  | _, _, .nil, _ => .nil
  | _, _, .cons hab hlm, hp => by
    rw [List.pairwise_cons] at hp ⊢
    refine ⟨fun b' hb' => ?_, Forall₂.pairwise h hlm hp.2⟩
    obtain ⟨a', ha', hr⟩ := forall₂_exists_left hlm hb'
    exact h _ _ _ _ hab hr (hp.1 a' ha')

theorem Forall₂.countP {α β : Type*} {R : α → β → Prop} {p : α → Bool} {q : β → Bool} (h : ∀ a b, R a b → p a = q b) :
    ∀ {l : List α} {m : List β}, List.Forall₂ R l m → l.countP p = m.countP q
  | _, _, .nil => rfl
  | _, _, .cons hab hlm => by rw [List.countP_cons, List.countP_cons, h _ _ hab, Forall₂.countP h hlm]

/-- the facts on one layout of a solution that are needed: items of the instance, moved as recorded -/
structure SnapItems (env : Env K) (items : List (Item K × ℕ)) (sn : LayoutSnapshot K n) : Prop where
  items : ∀ pi ∈ sn.placed.values, ∃ x, items[pi.itemId]? = some x ∧ pi.hazardFilter = x.1.hazardFilter ∧
    pi.shape.val = x.1.shape.transform (Transf.fromDt env.tr pi.dt) ∧ x.1.Allows env.tr pi.dt.rotation

/-- what is written for an item of a parsed instance -/
structure Written (penv : PEnv K) (ji : JsonInstance K) (bx b_y : K) (pi : PlacedItem K) (p : JsonPlacedItem K) : Prop where
  index : p.index = pi.itemId
  item : ∃ j, ji.items[p.index]? = some j ∧ j.Allows penv.tr penv.toRadians p.rotation ∧ pi.hazardFilter = j.baseQuality
  covered : ∀ v ∈ ji.covered penv.tr p, transPt bx b_y v ∈ region pi.shape.val.points

theorem JsonItem.Allows.of_turn {tr : Trig K} {rad : K → K} {j : JsonItem K} {a b : K} (h : SameTurn tr a b) (hb : j.Allows tr rad b) :
    j.Allows tr rad a := by
  unfold JsonItem.Allows at hb ⊢
  split
  · trivial
  · rename_i he
    rw [he] at hb
    exact ⟨h.1.trans hb.1, h.2.trans hb.2⟩
  · rename_i as he hne
    rw [hne] at hb
    split at hb
    · trivial
    · rename_i h0
      simp only [Option.some.injEq] at h0
      exact absurd h0 (by intro e; subst e; exact he rfl)
    · rename_i h0
      simp only [Option.some.injEq] at h0
      subst h0
      obtain ⟨d, hd, e⟩ := hb
      exact ⟨d, hd, h.1.trans e.1, h.2.trans e.2⟩

theorem ReadItems.get {penv : PEnv K} {cfg : ParserConfig K} {js : List (JsonItem K)} {items : List (Item K × ℕ)} (h : ReadItems penv cfg js items)
    {k : ℕ} {x : Item K × ℕ} (hx : items[k]? = some x) : ∃ j, js[k]? = some j ∧ x.2 = j.demand ∧ ReadItem penv cfg j k x.1 := by
  obtain ⟨hl, hg⟩ := forall₂_zipIdx_get h
  have hk : k < js.length := by rw [← hl]; exact (List.getElem?_eq_some_iff.1 hx).1
  obtain ⟨y, h1, h2⟩ := hg k _ (List.getElem?_eq_getElem hk)
  rw [hx] at h1
  cases h1
  exact ⟨_, List.getElem?_eq_getElem hk, h2⟩

theorem ReadItems.written {penv : PEnv K} {cfg : ParserConfig K} {ji : JsonInstance K} {items : List (Item K × ℕ)} (h : ReadItems penv cfg ji.items items)
    (hrad : penv.toRadians 0 = 0) (hu : penv.tr.Unit) (hp : penv.tr.Polar) {sn : LayoutSnapshot K n} (hs : SnapItems penv.toEnv items sn)
    {bx b_y : K} (hb : sn.bin.pretransform = Transf.translM bx b_y) {pi : PlacedItem K} (hpi : pi ∈ sn.placed.values) :
    ∃ p, composePlaced penv.tr items sn.bin pi = some p ∧ Written penv ji bx b_y pi p := by
  obtain ⟨x, hx, hf, hsh, hal⟩ := hs.items pi hpi
  obtain ⟨j, hj, -, hr⟩ := h.get hx
  obtain ⟨ix, iy, hpre, hm, -⟩ := hr.shape
  obtain ⟨p, e, hc⟩ := composePlaced_ok (b := sn.bin) hu hp hx hpre hb
  have hj' : ji.items[p.index]? = some j := by rw [hc.index]; exact hj
  refine ⟨p, e, hc.index, ⟨j, hj', ?_, by rw [hf, hr.filter]⟩, fun v hv => ?_⟩
  · exact .of_turn hc.turn ((parseRotations_allows hrad hr.rotation _).1 hal)
  · unfold JsonInstance.covered at hv
    rw [hj'] at hv
    obtain ⟨w, hw, rfl⟩ := hv
    rw [hc.place, hsh]
    exact (Transf.IsRigid.map (.rotTransl hu _ _ _)).region.2 (hm.covers w hw)

/-- a layout of a parsed instance is written -/
theorem ReadItems.layout {penv : PEnv K} {cfg : ParserConfig K} {ji : JsonInstance K} {items : List (Item K × ℕ)} (h : ReadItems penv cfg ji.items items)
    (hrad : penv.toRadians 0 = 0) (hu : penv.tr.Unit) (hp : penv.tr.Polar) {sn : LayoutSnapshot K n} (hs : SnapItems penv.toEnv items sn)
    {bx b_y : K} (hb : sn.bin.pretransform = Transf.translM bx b_y) (hf : Feasible sn.bin sn.placed.values) :
    ∃ placed, sn.placed.values.mapM (composePlaced penv.tr items sn.bin) = some placed ∧ List.Forall₂ (Written penv ji bx b_y) sn.placed.values placed ∧
      ji.PlacedApart penv.tr penv.toRadians placed ∧ ∀ i, (placed.countP fun p => p.index = i) = copiesIn sn.placed i := by
  obtain ⟨placed, e, hw⟩ := mapM_rel (l := sn.placed.values) fun pi hpi => h.written hrad hu hp hs hb hpi
  refine ⟨placed, e, hw, ⟨fun p hp => ?_, ?_⟩, fun i => ?_⟩
  · obtain ⟨pi, -, hr⟩ := forall₂_exists_left hw hp
    obtain ⟨j, h1, h2, -⟩ := hr.item
    exact ⟨j, h1, h2⟩
  · refine Forall₂.pairwise ?_ hw hf.apart
    intro a b a' b' h1 h2 hd
    rw [Set.disjoint_left] at hd ⊢
    exact fun v hv hv' => hd (h1.covered v hv) (h2.covered v hv')
  · unfold copiesIn
    exact (Forall₂.countP (fun a b hr => by rw [hr.index]) hw).symm

/-- and lies in the bin that was given -/
theorem ReadBin.inBin {penv : PEnv K} {cfg : ParserConfig K} {ji : JsonInstance K} {j : JsonBin K} {i : ℕ} {bx b_y : K} {b : Bin K n}
    (h : ReadBin penv cfg j i bx b_y b) {vals : List (PlacedItem K)} (hf : Feasible b vals) {placed : List (JsonPlacedItem K)}
    (hw : List.Forall₂ (Written penv ji bx b_y) vals placed) : ji.InBin penv.tr j placed := by
  refine ⟨fun p hp v hv => ?_, fun p hp q hq => ?_, fun p hp k hk z hz hq => ?_⟩
  · obtain ⟨pi, hpi, hr⟩ := forall₂_exists_left hw hp
    exact h.outer.covers v (.inr (hf.inside pi hpi (hr.covered v hv)))
  · obtain ⟨pi, hpi, hr⟩ := forall₂_exists_left hw hp
    obtain ⟨s, hs, hm⟩ := forall₂_exists_right h.holes hq
    obtain ⟨a, ha, rfl⟩ := List.mem_map.1 hs
    have hd := hf.holes pi hpi a ha
    rw [Set.disjoint_left] at hd ⊢
    exact fun v hv hv' => hd (hr.covered v hv) (hm.covers v hv')
  · obtain ⟨pi, hpi, hr⟩ := forall₂_exists_left hw hp
    obtain ⟨z', h1, h2, s, hs, hm⟩ := h.zones z hz
    obtain ⟨k', hk', -, hfil⟩ := hr.item
    rw [hk] at hk'
    cases hk'
    have hd := hf.zones pi hpi z' h1 (fun q hq' => by rw [h2]; exact hq q (hfil ▸ hq')) s hs
    rw [Set.disjoint_left] at hd ⊢
    exact fun v hv hv' => hd (hr.covered v hv) (hm.covers v hv')

theorem ReadItems.fine {penv : PEnv K} {cfg : ParserConfig K} {js : List (JsonItem K)} {items : List (Item K × ℕ)} (h : ReadItems penv cfg js items) :
    ∀ x ∈ items, x.1.shape.Proper ∧ signedArea x.1.shape.points ≠ 0 := by
  intro x hx
  obtain ⟨k, hk⟩ := List.mem_iff_getElem?.1 hx
  obtain ⟨j, -, -, hr⟩ := h.get hk
  obtain ⟨_, _, -, hm, -⟩ := hr.shape
  exact ⟨hm.proper, hm.area⟩

theorem ReadBins.get {penv : PEnv K} {cfg : ParserConfig K} {js : List (JsonBin K)} {bins : List (Bin K n × ℕ)} (h : ReadBins penv cfg js bins)
    {k : ℕ} {x : Bin K n × ℕ} (hx : bins[k]? = some x) : ∃ j, js[k]? = some j ∧ x.2 = j.stock.getD penv.maxU64 ∧
      ∃ tx ty, ReadBin penv cfg j k tx ty x.1 := by
  obtain ⟨hl, hg⟩ := forall₂_zipIdx_get h
  have hk : k < js.length := by rw [← hl]; exact (List.getElem?_eq_some_iff.1 hx).1
  obtain ⟨y, h1, h2, h3, -⟩ := hg k _ (List.getElem?_eq_getElem hk)
  rw [hx] at h1
  cases h1
  exact ⟨_, List.getElem?_eq_getElem hk, h2, h3⟩

theorem ReadBins.fine {penv : PEnv K} {cfg : ParserConfig K} {js : List (JsonBin K)} {bins : List (Bin K n × ℕ)} (h : ReadBins penv cfg js bins) :
    ∀ x ∈ bins, x.1.Built penv.toEnv ∧ x.1.Shapes := by
  intro x hx
  obtain ⟨k, hk⟩ := List.mem_iff_getElem?.1 hx
  obtain ⟨j, -, -, tx, ty, hr⟩ := h.get hk
  exact ⟨hr.built, hr.shapes⟩

/-- the strip of a solution of the optimizer -/
theorem lbfSolveSP_strip {R : Type*} {lenv : LEnv K n R} {env : StripEnv K} {cfg : LbfConfig} {addr : ℕ → ℕ → ℕ} {addrs : ℕ → ℕ → ℕ → ℕ}
    {addr0 addr1 : ℕ} {addrs1 : ℕ → ℕ} {fuel : ℕ} {inst : SPInstance K} {r : R}
    (hf : env.f = Fpa.exact) (hpoi : PoiOfRects env.poi) (hu : env.tr.Unit) (hp : env.tr.Polar) (htol : 0 < env.tolerance) (hb : inst.Built)
    (hitems : ∀ x ∈ inst.items, x.1.shape.Proper ∧ signedArea x.1.shape.points ≠ 0)
    {sol : Solution K n} {p : SPProblem K n}
    (h : lbfSolveSP lenv env cfg addr addrs addr0 addr1 addrs1 fuel inst r = some (sol, p)) {sn : LayoutSnapshot K n} (hsn : sol.snapshots = [sn]) :
    sn.bin.IsStrip env ∧ sn.bin.pretransform = Transf.translM sn.bin.outer.val.bbox.xMin sn.bin.outer.val.bbox.yMin ∧
      (0 < inst.stripHeight → sn.bin.outer.val.bbox.yMin = 0 ∧ sn.bin.outer.val.bbox.yMax = inst.stripHeight) := by
  have hfine : ∀ x ∈ inst.items, x.1.Fine := fun x hx => ⟨(hitems x hx).1, (hitems x hx).2⟩
  unfold lbfSolveSP at h
  split_ifs at h
  dsimp only at h
  obtain ⟨p0, hp0, h⟩ := Option.bind_eq_some_iff.1 h
  obtain ⟨order, ho, h⟩ := Option.bind_eq_some_iff.1 h
  obtain ⟨s, hs, h⟩ := Option.bind_eq_some_iff.1 h
  obtain ⟨p1, hp1, h⟩ := Option.bind_eq_some_iff.1 h
  obtain ⟨hL, hdone⟩ := lbfFoldSP_ok hf hpoi hu hp hfine order (LbfSP.start hb hp0) hs
  obtain ⟨hL1, -, -, -, hpre⟩ := hL.fit hf hpoi hu htol hfine hp1
  obtain ⟨sol', l, e1, -, -, -, sn', hsol, hview⟩ := hL1.inv.createSolution
  dsimp only at e1 hsol hview
  rw [h] at e1
  simp only [Option.some.injEq, Prod.mk.injEq] at e1
  obtain ⟨rfl, rfl⟩ := e1
  rw [hL1.same] at hsol
  have : sn' = sn := by
    have := hsol.snaps
    rw [hsn] at this
    simpa using this.symm
  subst this
  unfold Layout.view LayoutSnapshot.view at hview
  simp only [Prod.mk.injEq] at hview
  obtain ⟨-, hbin, hpl⟩ := hview
  have hin := hL1.inv.core.layout
  dsimp only at hin
  rw [hbin]
  exact ⟨hin.strip, hpre, hL1.high⟩

end Jagua
