import Verif.Lemmas.Compose
import Verif.Spec.Rebuild

/-!
# Building a solution from what was written
-/

set_option linter.unusedSectionVars false

namespace Jagua

variable {K : Type*} [Field K] [LinearOrder K] [IsStrictOrderedRing K] {n : ℕ}

/-- what is read for a written item -/
theorem readTransf_composed {tr : Trig K} (hu : tr.Unit) (hp : tr.Polar) {items : List (Item K × ℕ)} {b b' : Bin K n} {pi : PlacedItem K}
    {x : Item K × ℕ} (hx : items[pi.itemId]? = some x) (ri : x.1.pretransform.IsRigid) (rb : b.pretransform.IsRigid)
    (rb' : b'.pretransform.IsRigid) :
    ∃ q, composePlaced tr items b pi = some q ∧ q.index = pi.itemId ∧
      Transf.fromDt tr (readTransf tr x.1 b' q) = Transf.dotProd b'.pretransform (Transf.dotProd b.pretransform.inverse (Transf.fromDt tr pi.dt)) := by
  unfold composePlaced
  rw [hx, Option.map_some]
  refine ⟨_, rfl, rfl, ?_⟩
  unfold readTransf
  dsimp only
  generalize x.1.pretransform = ip at *
  generalize b.pretransform = bp at *
  generalize b'.pretransform = bp' at *
  have rd : (Transf.fromDt tr pi.dt).IsRigid := .rotTransl hu _ _ _
  have ea : internalToAbsolute tr pi.dt ip bp = Transf.dotProd bp.inverse (Transf.dotProd (Transf.fromDt tr pi.dt) ip) := by
    unfold internalToAbsolute Transf.transformFromDecomposed Transf.rotateTranslate Transf.transform
    rw [dotProd_empty]; rfl
  have ra : (internalToAbsolute tr pi.dt ip bp).IsRigid := by rw [ea]; exact .dot rb.inverse (.dot rd ri)
  generalize internalToAbsolute tr pi.dt ip bp = t at *
  have e : ∀ d : DTransf K, absoluteToInternal tr d ip bp' = Transf.dotProd bp' (Transf.dotProd (Transf.fromDt tr d) ip.inverse) := by
    intro d
    unfold absoluteToInternal Transf.transformFromDecomposed Transf.rotateTranslate Transf.transform
    rw [dotProd_empty]; rfl
  have e1 : absoluteToInternal tr ⟨(t.decompose tr).rotation, (t.decompose tr).tx, (t.decompose tr).ty⟩ ip bp' =
      Transf.dotProd bp' (Transf.dotProd bp.inverse (Transf.fromDt tr pi.dt)) := by
    rw [e, show (⟨(t.decompose tr).rotation, (t.decompose tr).tx, (t.decompose tr).ty⟩ : DTransf K) = t.decompose tr from rfl,
      ra.decompose hp, ea, dotProd_assoc bp.inverse, dotProd_assoc _ ip, ri.mul_inverse, dotProd_empty]
  rw [e1]
  exact (Transf.IsRigid.dot rb' (.dot rb.inverse rd)).decompose hp

/-- the values of a slot map without holes are in the order of insertion -/
theorem SlotMap.insert_dense {α : Type*} {m : SlotMap α} (h : m.free = []) (a : α) :
    (m.insert a).2.free = [] ∧ (m.insert a).2.values = m.values ++ [a] := by
  unfold SlotMap.insert
  rw [h]
  exact ⟨rfl, by unfold SlotMap.values; simp⟩

/-- a rebuilt item -/
structure Rebuilt (env : Env K) (items : List (Item K × ℕ)) (bp bp' : Transf K) (pi pi' : PlacedItem K) : Prop where
  item : pi'.itemId = pi.itemId
  dt : Transf.fromDt env.tr pi'.dt = Transf.dotProd bp' (Transf.dotProd bp.inverse (Transf.fromDt env.tr pi.dt))
  ok : ∀ x, items[pi.itemId]? = some x → pi'.hazardFilter = x.1.hazardFilter ∧ pi'.shape.val = x.1.shape.transform (Transf.fromDt env.tr pi'.dt)

theorem Transf.IsRigid.inverse_cancel {t : Transf K} (h : t.IsRigid) (x : Transf K) : Transf.dotProd t.inverse (Transf.dotProd t x) = x := by
  rw [← dotProd_assoc, h.inverse_mul, empty_dotProd]

theorem Transf.IsRigid.cancel_inverse {t : Transf K} (h : t.IsRigid) (x : Transf K) : Transf.dotProd t (Transf.dotProd t.inverse x) = x := by
  rw [← dotProd_assoc, h.mul_inverse, empty_dotProd]

/-- different places stay different -/
theorem Rebuilt.ne {env : Env K} {items : List (Item K × ℕ)} {bp bp' : Transf K} (rb : bp.IsRigid) (rb' : bp'.IsRigid) {a a' b b' : PlacedItem K}
    (ha : Rebuilt env items bp bp' a a') (hb : Rebuilt env items bp bp' b b') (he : a'.itemId = b'.itemId ∧ a'.dt = b'.dt) :
    a.itemId = b.itemId ∧ Transf.fromDt env.tr a.dt = Transf.fromDt env.tr b.dt := by
  refine ⟨ha.item ▸ hb.item ▸ he.1, ?_⟩
  have h := ha.dt
  rw [he.2, hb.dt] at h
  have h1 := congrArg (Transf.dotProd bp'.inverse) h
  rw [rb'.inverse_cancel, rb'.inverse_cancel] at h1
  have h2 := congrArg (Transf.dotProd bp) h1
  rw [rb.cancel_inverse, rb.cancel_inverse] at h2
  exact h2.symm

theorem forall₂_imp_mem {α β : Type*} {R S : α → β → Prop} : ∀ {l : List α} {m : List β}, List.Forall₂ R l m →
    (∀ a b, a ∈ l → b ∈ m → R a b → S a b) → List.Forall₂ S l m
  | _, _, .nil, _ => .nil
  | _, _, .cons h hs, hi => .cons (hi _ _ List.mem_cons_self List.mem_cons_self h)
      (forall₂_imp_mem hs fun a b ha hb => hi a b (List.mem_cons_of_mem _ ha) (List.mem_cons_of_mem _ hb))

theorem forall₂_trans {α β γ : Type*} {P : α → Prop} {R : α → β → Prop} {S : β → γ → Prop} {T : α → γ → Prop} : ∀ {l : List α} {m : List β} {k : List γ},
    (∀ a ∈ l, P a) → List.Forall₂ R l m → List.Forall₂ S m k → (∀ a b c, P a → R a b → S b c → T a c) → List.Forall₂ T l k
  | _, _, _, _, .nil, .nil, _ => .nil
  | _, _, _, hP, .cons h hs, .cons g gs, hi => .cons (hi _ _ _ (hP _ List.mem_cons_self) h g)
      (forall₂_trans (fun a ha => hP a (List.mem_cons_of_mem _ ha)) hs gs hi)

theorem ReadItems.rigid {penv : PEnv K} {cfg : ParserConfig K} {js : List (JsonItem K)} {items : List (Item K × ℕ)} (h : ReadItems penv cfg js items) :
    ∀ x ∈ items, x.1.pretransform.IsRigid := by
  intro x hx
  obtain ⟨k, hk⟩ := List.mem_iff_getElem?.1 hx
  obtain ⟨j, -, -, hr⟩ := h.get hk
  obtain ⟨_, _, e, -⟩ := hr.shape
  rw [e]
  exact .transl _ _

theorem ReadBins.rigid {penv : PEnv K} {cfg : ParserConfig K} {js : List (JsonBin K)} {bins : List (Bin K n × ℕ)} (h : ReadBins penv cfg js bins) :
    ∀ x ∈ bins, x.1.pretransform.IsRigid := by
  intro x hx
  obtain ⟨k, hk⟩ := List.mem_iff_getElem?.1 hx
  obtain ⟨j, -, -, tx, ty, hr⟩ := h.get hk
  rw [hr.pre]
  exact .transl _ _

/-! ## Bin packing -/

/-- what of a snapshot matters for writing -/
structure LayoutSnapshot.Writable (env : Env K) (inst : BPInstance K n) (sn : LayoutSnapshot K n) : Prop where
  bin : ∃ q, inst.bins[sn.bin.id]? = some (sn.bin, q)
  nonempty : sn.placed.values ≠ []
  items : ∀ pi ∈ sn.placed.values, pi.itemId < inst.items.length
  distinct : NoDoubles env.tr sn.placed.values

theorem foldlM_readPlacedBP {env : Env K} (hu : env.tr.Unit) (hp : env.tr.Polar) {inst : BPInstance K n}
    (hpre : ∀ x ∈ inst.items, x.1.pretransform.IsRigid) {b b' : Bin K n} (rb : b.pretransform.IsRigid) (rb' : b'.pretransform.IsRigid)
    (addr : ℕ → ℕ) : ∀ (pis done : List (PlacedItem K)) (i : ℕ) (st : BPState K n) (l : Layout K n) (pre : List (Layout K n)), st.Inv env →
    st.p.inst = inst → st.p.layouts = pre ++ [l] → l.placed.free = [] →
    List.Forall₂ (Rebuilt env inst.items b.pretransform b'.pretransform) done l.placed.values →
    (∀ pi ∈ pis, pi.itemId < inst.items.length) →
    ((done ++ pis).Pairwise fun a b => ¬ (a.itemId = b.itemId ∧ Transf.fromDt env.tr a.dt = Transf.fromDt env.tr b.dt)) →
    ∃ qs p' l', pis.mapM (composePlaced env.tr inst.items b) = some qs ∧ (qs.zipIdx i).foldlM (readPlacedBP env addr b' (.real pre.length)) st.p = some p' ∧
      BPState.Inv env ⟨p', st.sols⟩ ∧ p'.inst = inst ∧ p'.layouts = pre ++ [l'] ∧ l'.bin = l.bin ∧
      List.Forall₂ (Rebuilt env inst.items b.pretransform b'.pretransform) (done ++ pis) l'.placed.values
  | [], done, i, st, l, pre, hI, hinst, hl, _, hF, _, _ => by
    refine ⟨[], st.p, l, rfl, rfl, hI, hinst, hl, rfl, by simpa using hF⟩
  | pi :: pis, done, i, st, l, pre, hI, hinst, hl, hfree, hF, hitems, hpw => by
    have hid := hitems pi List.mem_cons_self
    obtain ⟨x, hx⟩ : ∃ x, inst.items[pi.itemId]? = some x := ⟨_, List.getElem?_eq_getElem hid⟩
    obtain ⟨q, hq, hqi, hqt⟩ := readTransf_composed (b' := b') hu hp hx (hpre x (List.mem_of_getElem? hx)) rb rb'
    have hids := hI.built.ids
    rw [hinst] at hids
    obtain ⟨c1, c2⟩ := catOf_id hids hx
    have hcat : st.p.inst.cat pi.itemId = x.1 := by rw [hinst, ← c1]; exact c2.symm
    have hget : st.p.layouts[pre.length]? = some l := by rw [hl]; simp
    have hl0 := hI.layouts l (List.mem_of_getElem? hget)
    have hreb : ∀ (a : ℕ), Rebuilt env inst.items b.pretransform b'.pretransform pi (PlacedItem.new env a x.1 (readTransf env.tr x.1 b' q)) := by
      intro a
      refine ⟨c1, hqt, fun y hy => ?_⟩
      rw [hx] at hy; cases hy
      exact ⟨rfl, rfl⟩
    have hnew : ∀ pi' ∈ l.placed.values, ¬ (pi'.itemId = pi.itemId ∧ pi'.dt = readTransf env.tr x.1 b' q) := by
      intro pi' hpi' he
      obtain ⟨a, ha, hR⟩ := Forall₂.exists_left hF hpi'
      have := hR.ne rb rb' (hreb 0) ⟨he.1.trans c1.symm, he.2⟩
      exact (List.pairwise_append.1 hpw).2.2 a ha pi List.mem_cons_self this
    obtain ⟨k, l', m, e1, e2, e3⟩ := hI.placeReal (addr i) (i := pre.length) (id := pi.itemId) (dt := readTransf env.tr x.1 b' q) hget
      (by rw [hinst]; exact hid) hnew
    obtain ⟨k', l'', f1, f2, f3, f4, f5, f6, f7⟩ := hl0.inv.placeItem (addr i) (item := x.1) (dt := readTransf env.tr x.1 b' q)
      (by rw [hinst]; exact c2) (by rw [c1]; exact hnew)
    rw [hcat, f1] at e1
    obtain ⟨rfl, rfl⟩ : k' = k ∧ l'' = l' := by simpa using e1
    obtain ⟨g1, g2⟩ := SlotMap.insert_dense hfree (PlacedItem.new env (addr i) x.1 (readTransf env.tr x.1 b' q))
    have hset : st.p.layouts.set pre.length l'' = pre ++ [l''] := by rw [hl]; simp
    obtain ⟨qs, p', l3, r1, r2, r3, r4, r5, r6, r7⟩ := foldlM_readPlacedBP hu hp hpre rb rb' addr pis (done ++ [pi]) (i + 1) _ l'' pre e3 hinst
      hset (by rw [f5]; exact g1) (by
        rw [f5, g2]
        exact List.rel_append hF (.cons (hreb _) .nil)) (fun y hy => hitems y (List.mem_cons_of_mem _ hy)) (by simpa using hpw)
    refine ⟨q :: qs, p', l3, by rw [List.mapM_cons, hq, r1]; rfl, ?_, r3, r4, r5, r6.trans f4, by simpa using r7⟩
    rw [List.zipIdx_cons, List.foldlM_cons]
    have hstep : readPlacedBP env addr b' (.real pre.length) st.p (q, i) =
        (st.p.placeItem env (addr i) ⟨.real pre.length, pi.itemId, readTransf env.tr x.1 b' q⟩).bind fun r => some r.2 := by
      unfold readPlacedBP
      dsimp only
      rw [hqi, hinst, hx, Option.bind_some, c1]
      cases st.p.placeItem env (addr i) ⟨.real pre.length, pi.itemId, readTransf env.tr x.1 b' q⟩ <;> rfl
    rw [hstep, e2]
    exact r2

theorem readLayoutBP_ok {env : Env K} (hu : env.tr.Unit) (hp : env.tr.Polar) {inst : BPInstance K n} (hb : inst.Built env)
    (hpre : ∀ x ∈ inst.items, x.1.pretransform.IsRigid) (hpreb : ∀ x ∈ inst.bins, x.1.pretransform.IsRigid) (addr : ℕ → ℕ → ℕ)
    {sn : LayoutSnapshot K n} (hs : sn.Writable env inst) (i : ℕ) {st : BPState K n} (hI : st.Inv env) (hinst : st.p.inst = inst)
    (hstock : ∀ x, inst.bins[sn.bin.id]? = some x → binsUsed st.p.layouts sn.bin.id < x.2) :
    ∃ jl p' l', composeLayout env.tr (.bp inst) sn = some jl ∧ readLayoutBP env addr st.p (jl, i) = some p' ∧ BPState.Inv env ⟨p', st.sols⟩ ∧
      p'.inst = inst ∧ p'.layouts = st.p.layouts ++ [l'] ∧ l'.bin = sn.bin ∧
      List.Forall₂ (Rebuilt env inst.items sn.bin.pretransform sn.bin.pretransform) sn.placed.values l'.placed.values := by
  obtain ⟨k, hbin⟩ := hs.bin
  have rb := hpreb _ (List.mem_of_getElem? hbin)
  dsimp only at rb
  have hbid : sn.bin.id < inst.bins.length := (List.getElem?_eq_some_iff.1 hbin).1
  cases hv : sn.placed.values with
  | nil => exact (hs.nonempty hv).elim
  | cons pi pis =>
    have hitems := hs.items
    have hdist := hs.distinct
    unfold NoDoubles at hdist
    rw [hv] at hitems hdist
    have hid := hitems pi List.mem_cons_self
    obtain ⟨x, hx⟩ : ∃ x, inst.items[pi.itemId]? = some x := ⟨_, List.getElem?_eq_getElem hid⟩
    obtain ⟨q, hq, hqi, hqt⟩ := readTransf_composed (b := sn.bin) (b' := sn.bin) hu hp hx (hpre x (List.mem_of_getElem? hx)) rb rb
    obtain ⟨c1, c2⟩ := catOf_id hb.ids hx
    have hcat : st.p.inst.cat pi.itemId = x.1 := by rw [hinst, ← c1]; exact c2.symm
    have hst := hI.stock sn.bin.id
    rw [hinst, hbin, Option.map_some] at hst
    obtain ⟨c, hc, hc'⟩ := Option.map_eq_some_iff.1 hst
    have hpos : 0 < c := by have := hstock _ hbin; dsimp only at this hc'; omega
    obtain ⟨m, bq, bin, k', key, l', m', e1, e2, -, e4, e5⟩ := hI.placeTemplate (addr i 0) (i := sn.bin.id) (id := pi.itemId)
      (dt := readTransf env.tr x.1 sn.bin q) hc hpos (by rw [hinst]; exact hid)
    rw [hinst, hbin] at e1
    cases e1
    obtain ⟨k', l'', f1, f2, f3, f4, f5, f6, f7⟩ := (Layout.inv_new inst.cat (st.p.layoutCounter + 1) (hb.2 _ (List.mem_of_getElem? hbin))).placeItem (addr i 0)
      (item := x.1) (dt := readTransf env.tr x.1 sn.bin q) c2 (by simp [Layout.new, SlotMap.values, SlotMap.empty])
    rw [hcat] at e2
    dsimp only at f1
    rw [f1] at e2
    obtain ⟨rfl, rfl⟩ : k' = key ∧ l'' = l' := by simpa using e2
    obtain ⟨g1, g2⟩ := SlotMap.insert_dense (m := (SlotMap.empty : SlotMap (PlacedItem K))) rfl (PlacedItem.new env (addr i 0) x.1 (readTransf env.tr x.1 sn.bin q))
    have hplaced : l''.placed = (SlotMap.empty.insert (PlacedItem.new env (addr i 0) x.1 (readTransf env.tr x.1 sn.bin q))).2 := f5
    obtain ⟨qs, p', l3, r1, r2, r3, r4, r5, r6, r7⟩ := foldlM_readPlacedBP hu hp hpre rb rb (addr i) pis [pi] 1 _ l'' st.p.layouts e5 hinst rfl
      (by rw [hplaced]; exact g1) (by
        rw [hplaced, g2]
        refine .cons ⟨c1, hqt, fun y hy => ?_⟩ .nil
        rw [hx] at hy; cases hy
        exact ⟨rfl, rfl⟩) (fun y hy => hitems y (List.mem_cons_of_mem _ hy)) hdist
    have hfind : (st.p.templates.findIdx? fun t => t.bin.id = sn.bin.id) = some sn.bin.id := by
      rw [hI.templates, hinst, List.findIdx?_eq_some_iff_getElem]
      have hlen : (BPProblem.new inst).templates.length = inst.bins.length := by simp [BPProblem.new]
      have hbin_at : ∀ (j : ℕ) (hj : j < (BPProblem.new inst).templates.length), (BPProblem.new inst).templates[j].bin.id = j := by
        intro j hj
        have : inst.bins[j]? = some inst.bins[j] := List.getElem?_eq_getElem (by omega)
        simpa [BPProblem.new, Layout.new] using hb.bin_id this
      refine ⟨by omega, by simpa using hbin_at _ _, fun j hj => ?_⟩
      have := hbin_at j (by omega)
      simp only [this, decide_eq_true_eq]
      omega
    refine ⟨⟨.bin sn.bin.id, q :: qs, sn.usage⟩, p', l3, ?_, ?_, r3, r4, r5, r6.trans f4, r7⟩
    · unfold composeLayout
      have : sn.placed.values.mapM (composePlaced env.tr (Instance.bp inst).items sn.bin) = some (q :: qs) := by
        rw [hv, List.mapM_cons]
        show (composePlaced env.tr inst.items sn.bin pi).bind _ = _
        rw [hq]
        show ((pis.mapM (composePlaced env.tr inst.items sn.bin)).bind _) = _
        rw [r1]; rfl
      rw [this]
      rfl
    · unfold readLayoutBP
      dsimp only
      rw [hinst, hbin, Option.bind_some]
      dsimp only
      rw [hfind]
      dsimp only
      rw [hqi, hx, Option.bind_some, c1, e4, Option.bind_some]
      exact r2

theorem buildBP_ok {env : Env K} (hu : env.tr.Unit) (hp : env.tr.Polar) {inst : BPInstance K n} (hb : inst.Built env)
    (hpre : ∀ x ∈ inst.items, x.1.pretransform.IsRigid) (hpreb : ∀ x ∈ inst.bins, x.1.pretransform.IsRigid) (addr : ℕ → ℕ → ℕ) :
    ∀ (sns : List (LayoutSnapshot K n)) (done : List (LayoutSnapshot K n)) (i : ℕ) (st : BPState K n), st.Inv env → st.p.inst = inst →
    (∀ sn ∈ sns, sn.Writable env inst) →
    (∀ (b : ℕ) x, inst.bins[b]? = some x → (done ++ sns).countP (fun sn => sn.bin.id = b) ≤ x.2) →
    List.Forall₂ (fun (sn : LayoutSnapshot K n) (l : Layout K n) => l.bin = sn.bin ∧
      List.Forall₂ (Rebuilt env inst.items sn.bin.pretransform sn.bin.pretransform) sn.placed.values l.placed.values) done st.p.layouts →
    ∃ jls p', sns.mapM (composeLayout env.tr (.bp inst)) = some jls ∧ (jls.zipIdx i).foldlM (readLayoutBP env addr) st.p = some p' ∧
      BPState.Inv env ⟨p', st.sols⟩ ∧ p'.inst = inst ∧
      List.Forall₂ (fun (sn : LayoutSnapshot K n) (l : Layout K n) => l.bin = sn.bin ∧
        List.Forall₂ (Rebuilt env inst.items sn.bin.pretransform sn.bin.pretransform) sn.placed.values l.placed.values) (done ++ sns) p'.layouts
  | [], done, i, st, hI, hinst, _, _, hF => ⟨[], st.p, rfl, rfl, hI, hinst, by simpa using hF⟩
  | sn :: sns, done, i, st, hI, hinst, hw, hst, hF => by
    have hcount : ∀ b, binsUsed st.p.layouts b = done.countP fun sn => sn.bin.id = b := by
      intro b
      unfold binsUsed
      clear hst
      generalize st.p.layouts = ls at hF
      induction hF with
      | nil => rfl
      | cons h _ ih => rw [List.countP_cons, List.countP_cons, ih, h.1]
    obtain ⟨jl, p1, l', e1, e2, e3, e4, e5, e6, e7⟩ := readLayoutBP_ok hu hp hb hpre hpreb addr (hw sn List.mem_cons_self) i hI hinst (by
      intro x hx
      rw [hcount]
      have := hst _ x hx
      rw [List.countP_append, List.countP_cons] at this
      simp only [decide_true, if_true] at this
      omega)
    obtain ⟨jls, p', f1, f2, f3, f4, f5⟩ := buildBP_ok hu hp hb hpre hpreb addr sns (done ++ [sn]) (i + 1) _ e3 e4
      (fun s hs => hw s (List.mem_cons_of_mem _ hs)) (by simpa using hst) (by
        dsimp only
        rw [e5]
        exact List.rel_append hF (.cons ⟨e6, e7⟩ .nil))
    refine ⟨jl :: jls, p', by rw [List.mapM_cons, e1, f1]; rfl, ?_, f3, f4, by simpa using f5⟩
    rw [List.zipIdx_cons, List.foldlM_cons, e2]
    exact f2

/-! ## Strip packing -/

theorem foldlM_readPlacedSP {env : StripEnv K} (hu : env.tr.Unit) (hp : env.tr.Polar) {inst : SPInstance K}
    (hpre : ∀ x ∈ inst.items, x.1.pretransform.IsRigid) {b b' : Bin K n} (rb : b.pretransform.IsRigid) (rb' : b'.pretransform.IsRigid)
    (addr : ℕ → ℕ) : ∀ (pis done : List (PlacedItem K)) (i : ℕ) (p : SPProblem K n), p.Core env → p.inst = inst → p.layout.bin = b' →
    p.layout.placed.free = [] →
    List.Forall₂ (Rebuilt env.toEnv inst.items b.pretransform b'.pretransform) done p.layout.placed.values →
    (∀ pi ∈ pis, pi.itemId < inst.items.length) → NoDoubles env.tr (done ++ pis) →
    ∃ qs p', pis.mapM (composePlaced env.tr inst.items b) = some qs ∧ (qs.zipIdx i).foldlM (readPlacedSP env.toEnv addr) p = some p' ∧
      p'.Core env ∧ p'.inst = inst ∧ p'.layout.bin = b' ∧ p'.layout.id = p.layout.id ∧ p'.layoutCounter = p.layoutCounter ∧
      List.Forall₂ (Rebuilt env.toEnv inst.items b.pretransform b'.pretransform) (done ++ pis) p'.layout.placed.values
  | [], done, i, p, hI, hinst, hl, _, hF, _, _ => ⟨[], p, rfl, rfl, hI, hinst, hl, rfl, rfl, by simpa using hF⟩
  | pi :: pis, done, i, p, hI, hinst, hl, hfree, hF, hitems, hpw => by
    have hid := hitems pi List.mem_cons_self
    obtain ⟨x, hx⟩ : ∃ x, inst.items[pi.itemId]? = some x := ⟨_, List.getElem?_eq_getElem hid⟩
    obtain ⟨q, hq, hqi, hqt⟩ := readTransf_composed (b' := b') hu hp hx (hpre x (List.mem_of_getElem? hx)) rb rb'
    have hx' : p.inst.items[pi.itemId]? = some x := by rw [hinst]; exact hx
    obtain ⟨c1, c2⟩ := hI.cat hx'
    have hreb : ∀ (a : ℕ), Rebuilt env.toEnv inst.items b.pretransform b'.pretransform pi (PlacedItem.new env.toEnv a x.1 (readTransf env.tr x.1 b' q)) := by
      intro a
      refine ⟨c1, hqt, fun y hy => ?_⟩
      rw [hx] at hy; cases hy
      exact ⟨rfl, rfl⟩
    have hnew : ∀ pi' ∈ p.layout.placed.values, ¬ (pi'.itemId = pi.itemId ∧ pi'.dt = readTransf env.tr x.1 b' q) := by
      intro pi' hpi' he
      obtain ⟨a, ha, hR⟩ := Forall₂.exists_left hF hpi'
      have := hR.ne rb rb' (hreb 0) ⟨he.1.trans c1.symm, he.2⟩
      exact (List.pairwise_append.1 hpw).2.2 a ha pi List.mem_cons_self this
    obtain ⟨k, l', m, e1, e2, e3, e4, e5, e6, e7⟩ := hI.place (addr i) hx' hnew
    obtain ⟨g1, g2⟩ := SlotMap.insert_dense hfree (PlacedItem.new env.toEnv (addr i) x.1 (readTransf env.tr x.1 b' q))
    obtain ⟨qs, p', r1, r2, r3, r4, r5, r6, r7, r8⟩ := foldlM_readPlacedSP hu hp hpre rb rb' addr pis (done ++ [pi]) (i + 1) _ e2 hinst (e4.trans hl)
      (by dsimp only; rw [e6]; exact g1) (by
        dsimp only
        rw [e6, g2]
        exact List.rel_append hF (.cons (hreb _) .nil)) (fun y hy => hitems y (List.mem_cons_of_mem _ hy)) (by simpa using hpw)
    refine ⟨q :: qs, p', by rw [List.mapM_cons, hq, r1]; rfl, ?_, r3, r4, r5, r6.trans e3, r7, by simpa using r8⟩
    rw [List.zipIdx_cons, List.foldlM_cons]
    have hstep : readPlacedSP env.toEnv addr p (q, i) =
        (p.placeItem env.toEnv (addr i) ⟨.real 0, pi.itemId, readTransf env.tr x.1 b' q⟩).bind fun r => some r.2 := by
      unfold readPlacedSP
      dsimp only
      rw [hqi, hinst, hx, Option.bind_some, c1, hl]
      cases p.placeItem env.toEnv (addr i) ⟨.real 0, pi.itemId, readTransf env.tr x.1 b' q⟩ <;> rfl
    rw [hstep, e1]
    exact r2

end Jagua
