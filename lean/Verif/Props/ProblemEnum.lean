import Verif.Props.Problem
import Verif.Props.Strip
import Verif.Spec.ProblemEnum

/-!
# C74 The interface that all problems share
-/

set_option linter.unusedSectionVars false

namespace Jagua

variable {K : Type*} [Arith K] [LinearOrder K] {n : ℕ}

theorem Problem.mem_layoutIndices {p : Problem K n} {idx : LayoutIndex} :
    idx ∈ p.layoutIndices ↔ ∃ i l, idx = .real i ∧ p.layouts[i]? = some l := by
  unfold Problem.layoutIndices
  rw [List.mem_map]
  constructor
  · rintro ⟨i, hi, rfl⟩
    exact ⟨i, _, rfl, List.getElem?_eq_getElem (List.mem_range.1 hi)⟩
  · rintro ⟨i, l, rfl, hl⟩
    exact ⟨i, List.mem_range.2 (List.getElem?_eq_some_iff.1 hl).1, rfl⟩

theorem BPState.offers_iff {env : Env K} {st : BPState K n} (hr : st.Reachable env) {idx : LayoutIndex} :
    (Problem.bp st.p).Offers idx ↔ (∃ i l, idx = .real i ∧ st.p.layouts[i]? = some l) ∨
      ∃ b q, idx = .template b ∧ st.p.binQtys[b]? = some q ∧ 0 < q := by
  obtain ⟨ts, e, h⟩ := C20_templates_with_stock hr
  unfold Problem.Offers
  rw [Problem.mem_layoutIndices]
  refine or_congr Iff.rfl ⟨?_, fun hx => ⟨ts, e, (h idx).2 hx⟩⟩
  rintro ⟨ts', e', hm⟩
  have e2 : some ts = some ts' := e.symm.trans e'
  rw [← Option.some.inj e2] at hm
  exact (h idx).1 hm

theorem SPState.offers_iff {st : SPState K n} {idx : LayoutIndex} : (Problem.sp st.p).Offers idx ↔ idx = .real 0 := by
  unfold Problem.Offers
  rw [Problem.mem_layoutIndices]
  constructor
  · rintro (⟨i, l, rfl, hl⟩ | ⟨ts, e, hm⟩)
    · have := (List.getElem?_eq_some_iff.1 hl).1
      simp only [Problem.layouts, List.length_singleton] at this
      rw [show i = 0 by omega]
    · cases e
      cases hm
  · rintro rfl
    exact .inl ⟨0, st.p.layout, rfl, rfl⟩

/-- C74: an item can be placed in a layout or template exactly if its index is listed. Whatever
index is made up otherwise, the call panics. -/
theorem C74_placeable_iff_offered {env : StripEnv K} {st : ProblemState K n} (hr : st.Reachable env) (addr : ℕ) {opt : PlacingOption K}
    (h : st.p.CanTake opt) : st.p.Offers opt.layoutIdx ↔ ∃ r, st.p.placeItem env.toEnv addr opt = some r := by
  obtain ⟨idx, id, dt⟩ := opt
  cases st with
  | bp st =>
    have hr : st.Reachable env.toEnv := hr
    have hid : id < st.p.inst.items.length := h.1
    show (Problem.bp st.p).Offers idx ↔ ∃ r, (st.p.placeItem env.toEnv addr ⟨idx, id, dt⟩).map (fun r => (r.1, Problem.bp r.2)) = some r
    rw [BPState.offers_iff hr]
    constructor
    · rintro (⟨i, l, rfl, hl⟩ | ⟨b, q, rfl, hq, hpos⟩)
      · obtain ⟨key, p', -, -, e, -⟩ := C49_place_in_layout hr addr hl (List.getElem?_eq_getElem hid) (h.2 l hl)
        rw [e]
        exact ⟨_, rfl⟩
      · obtain ⟨key, p', -, -, e, -⟩ := C49_place_in_new_layout hr addr (dt := dt) hq hpos (List.getElem?_eq_getElem hid)
        rw [e]
        exact ⟨_, rfl⟩
    · rintro ⟨r, e⟩
      obtain ⟨r, e, -⟩ := Option.map_eq_some_iff.1 e
      unfold BPProblem.placeItem at e
      obtain ⟨t, ht, e⟩ := Option.bind_eq_some_iff.1 e
      cases idx with
      | real i =>
        cases ht
        dsimp only at e
        split at e
        · rename_i l item h1 h2
          exact .inl ⟨i, l, rfl, h1⟩
        · cases e
      | template b =>
        refine .inr ?_
        unfold BPProblem.targetLayout at ht
        dsimp only at ht
        split at ht
        · cases ht
        · rename_i l htmp
          obtain ⟨s, hs, -⟩ := Option.bind_eq_some_iff.1 ht
          unfold BPProblem.registerLayout at hs
          obtain ⟨p2, hp2, -⟩ := Option.bind_eq_some_iff.1 hs
          unfold BPProblem.registerBin at hp2
          have hbin : l.bin.id = b := by
            rw [hr.inv.templates] at htmp
            simp only [BPProblem.new, List.getElem?_map, List.getElem?_zipIdx] at htmp
            obtain ⟨y, hy, he⟩ := Option.map_eq_some_iff.1 htmp
            obtain ⟨z, hz, rfl⟩ := Option.map_eq_some_iff.1 hy
            rw [← he]
            exact hr.inv.built.bin_id hz
          have hbin2 : (l.cloneWithId (st.p.layoutCounter + 1)).bin.id = b := hbin
          dsimp only at hp2
          rw [hbin2] at hp2
          split at hp2
          · cases hp2
          · rename_i q hq
            split_ifs at hp2 with hpos
            exact ⟨b, q, rfl, hq, hpos⟩
  | sp st =>
    have hr : st.Reachable env := hr
    have hid : id < st.p.inst.items.length := h.1
    show (Problem.sp st.p).Offers idx ↔ ∃ r, (st.p.placeItem env.toEnv addr ⟨idx, id, dt⟩).map (fun r => (r.1, Problem.sp r.2)) = some r
    rw [SPState.offers_iff]
    constructor
    · rintro rfl
      obtain ⟨k, l', m, e, -⟩ := hr.inv.core.place addr (List.getElem?_eq_getElem hid) (h.2 st.p.layout rfl)
      rw [e]
      exact ⟨_, rfl⟩
    · rintro ⟨r, e⟩
      obtain ⟨r, e, -⟩ := Option.map_eq_some_iff.1 e
      unfold SPProblem.placeItem at e
      split_ifs at e with h0
      exact not_not.1 h0

/-- the same layouts in the same order, up to the order of the items in them -/
def SameLayouts (ls ls' : List (Layout K n)) : Prop :=
  List.Forall₂ (fun a b => a.id = b.id ∧ a.bin = b.bin ∧ a.placed.values.Perm b.placed.values) ls ls'

theorem SameLayouts.refl (ls : List (Layout K n)) : SameLayouts ls ls :=
  List.forall₂_same.2 fun _ _ => ⟨rfl, rfl, List.Perm.refl _⟩

theorem SameLayouts.copies {ls ls' : List (Layout K n)} (h : SameLayouts ls ls') : Jagua.copies ls = Jagua.copies ls' := by
  funext i
  induction h with
  | nil => rfl
  | cons h _ ih =>
    rw [copies_cons, copies_cons, ih]
    unfold copiesIn
    rw [h.2.2.countP_eq]

theorem SameLayouts.binsUsed {ls ls' : List (Layout K n)} (h : SameLayouts ls ls') : Jagua.binsUsed ls = Jagua.binsUsed ls' := by
  funext b
  induction h with
  | nil => rfl
  | cons h _ ih => rw [binsUsed_cons, binsUsed_cons, ih, h.2.1]

theorem SameLayouts.cost {ls ls' : List (Layout K n)} (h : SameLayouts ls ls') :
    (ls.map (·.bin.value)).sum = (ls'.map (·.bin.value)).sum := by
  induction h with
  | nil => rfl
  | cons h _ ih => rw [List.map_cons, List.map_cons, List.sum_cons, List.sum_cons, ih, h.2.1]

theorem SameLayouts.set_set {ls : List (Layout K n)} {i : ℕ} {l l' l'' : Layout K n} (hl : ls[i]? = some l)
    (h : l''.id = l.id ∧ l''.bin = l.bin ∧ l''.placed.values.Perm l.placed.values) : SameLayouts ((ls.set i l').set i l'') ls := by
  rw [List.set_set]
  induction ls generalizing i with
  | nil => exact .nil
  | cons a ls ih =>
    cases i with
    | zero =>
      obtain rfl : a = l := by simpa using hl
      exact .cons h (SameLayouts.refl ls)
    | succ i => exact .cons ⟨rfl, rfl, List.Perm.refl _⟩ (ih (by simpa using hl))

theorem missing_after {items : List (Item K × ℕ)} {m m' : List ℤ} {c c' : ℕ → ℕ} (h : MissingOk items m c) (h' : MissingOk items m' c')
    {id : ℕ} (hc : ∀ j, c' j = c j + if j = id then 1 else 0) (j : ℕ) :
    m'[j]? = (m[j]?).map fun x => if j = id then x - 1 else x := by
  have h1 := h j
  have h2 := h' j
  rw [← h1, hc] at h2
  cases e1 : m[j]? with
  | none => rw [e1] at h2; cases e2 : m'[j]? with
    | none => rfl
    | some y => rw [e2] at h2; cases h2
  | some x => rw [e1] at h2; cases e2 : m'[j]? with
    | none => rw [e2] at h2; cases h2
    | some y =>
      rw [e2] at h2
      have := Option.some.inj h2
      rw [Option.map_some, Option.some.injEq]
      split_ifs at this ⊢ <;> push_cast at this <;> omega

theorem copies_append (ls ls' : List (Layout K n)) (i : ℕ) : copies (ls ++ ls') i = copies ls i + copies ls' i := by
  unfold copies
  rw [List.map_append, List.sum_append]

/-- C74: placing an item in an offered layout gives a handle under which it is found, with the
item and the position asked for. One copy less is missing. The cost of the used bins grows by
the value of the bin if a new layout is opened and stays the same otherwise. Taking the item
out by the handle gives its number and position, and brings back layouts, missing quantities,
stock and cost. (An empty layout of a bin packing problem would disappear, so it is left out.) -/
theorem C74_place_and_take_back {env : StripEnv K} {st : ProblemState K n} (hr : st.Reachable env) (addr : ℕ) {opt : PlacingOption K}
    (h : st.p.CanTake opt) (ho : st.p.Offers opt.layoutIdx)
    (hne : ∀ i l, opt.layoutIdx = .real i → st.p.getLayout (.real i) = some l → l.placed.values = [] → ∃ q, st.p = .sp q) :
    ∃ idx key p' l l' pi, st.p.placeItem env.toEnv addr opt = some ((idx, key), p') ∧ st.p.getLayout opt.layoutIdx = some l ∧
      idx ∈ p'.layoutIndices ∧ p'.getLayout idx = some l' ∧ l'.bin = l.bin ∧
      l'.placed.get? key = some pi ∧ pi.itemId = opt.itemId ∧ pi.dt = opt.dt ∧ l'.placed.values.Perm (pi :: l.placed.values) ∧
      (∀ j, p'.missing[j]? = (st.p.missing[j]?).map fun m => if j = opt.itemId then m - 1 else m) ∧
      p'.usedBinCost = st.p.usedBinCost + (if opt.layoutIdx ∈ st.p.layoutIndices then 0 else l.bin.value) ∧
      ∀ ci, ∃ p'', p'.removeItem env.toEnv idx key ci = some (⟨idx, opt.itemId, opt.dt⟩, p'') ∧ SameLayouts p''.layouts st.p.layouts ∧
        p''.missing = st.p.missing ∧ p''.binQtys = st.p.binQtys ∧ p''.usedBinCost = st.p.usedBinCost := by
  obtain ⟨idx, id, dt⟩ := opt
  cases st with
  | bp st =>
    have hr : st.Reachable env.toEnv := hr
    have hid : id < st.p.inst.items.length := h.1
    have ho := (BPState.offers_iff hr).1 ho
    rcases ho with ⟨i, l, e, hl⟩ | ⟨b, q, e, hq, hpos⟩
    · obtain rfl : idx = .real i := e
      have hnew : ∀ pi ∈ l.placed.values, ¬ (pi.itemId = id ∧ pi.dt = dt) := h.2 l hl
      obtain ⟨key, p', l', pi, e1, e2, e3, e4, e5, e6, e7, e8, e9, e10, e11⟩ := C49_place_in_layout hr addr hl (List.getElem?_eq_getElem hid) hnew
      have hil := (List.getElem?_eq_some_iff.1 hl).1
      have hpre : (BPOp.place (K := K) (n := n) addr ⟨.real i, id, dt⟩).Pre env.toEnv st := ⟨hid, l, hl, hnew⟩
      have hrun : (BPOp.place addr ⟨.real i, id, dt⟩).run env.toEnv st = some { st with p := p' } := by
        simp only [BPOp.run]; rw [e1]; rfl
      have hr' : BPState.Reachable env.toEnv { st with p := p' } := hr.run (.cons hpre hrun (.nil _))
      have hl' : p'.layouts[i]? = some l' := by rw [e2]; simp [hil]
      obtain ⟨st1, f1, -, hinst, -⟩ := C19_operations_do_not_panic hr hpre
      rw [hrun] at f1
      obtain rfl := Option.some.inj f1
      have hinst : p'.inst = st.p.inst := hinst
      have hmem : LayoutIndex.real i ∈ (Problem.bp st.p).layoutIndices := Problem.mem_layoutIndices.2 ⟨i, l, rfl, hl⟩
      refine ⟨.real i, key, .bp p', l, l', pi, ?_, hl, Problem.mem_layoutIndices.2 ⟨i, l', rfl, hl'⟩, hl', e4, e6, e7, e8, e10, ?_, ?_, ?_⟩
      · show (st.p.placeItem env.toEnv addr ⟨.real i, id, dt⟩).map (fun r => (r.1, Problem.bp r.2)) = _
        rw [e1]; rfl
      · have hm := hr'.inv.missing
        dsimp only at hm
        rw [hinst] at hm
        refine missing_after (id := id) hr.inv.missing hm fun j => ?_
        rw [copies_split hl' j, copies_split hl j, copiesIn_perm e10 j, e2, List.eraseIdx_set_eq, e7]
        unfold copiesIn
        omega
      · refine Eq.trans ?_ (congrArg (fun x => (Problem.bp st.p).usedBinCost + x) (if_pos hmem).symm)
        show (p'.layouts.map (·.bin.value)).sum = (st.p.layouts.map (·.bin.value)).sum + 0
        rw [e2, List.map_set, e4, add_zero]
        congr 1
        apply List.ext_getElem?
        intro j
        rw [List.getElem?_set]
        split_ifs with h1 h2
        · subst h1
          rw [List.getElem?_map, hl]; rfl
        · subst h1
          rw [List.length_map] at h2
          exact absurd hil h2
        · rfl
      · intro ci
        obtain ⟨p'', g1, g2⟩ := C49_remove hr' hl' e6 ci
        have hl0 : l.placed.values ≠ [] := by
          intro h0
          obtain ⟨q, hq⟩ := hne i l rfl hl h0
          cases hq
        rcases g2 with ⟨g2, -⟩ | ⟨-, l'', g2, g3, g4, -, -, g5⟩
        · rw [g2] at e10
          have := e10.length_eq
          simp only [List.length_nil, List.length_cons] at this
          exact absurd (List.length_eq_zero_iff.1 (by omega)) hl0
        · have hs : SameLayouts p''.layouts st.p.layouts := by
            rw [g2]
            show SameLayouts (p'.layouts.set i l'') _
            rw [e2]
            exact SameLayouts.set_set hl ⟨g3.trans e3, g4.trans e4, List.Perm.cons_inv (g5.symm.trans e10)⟩
          have hpre2 : (BPOp.remove (K := K) (n := n) (.real i) key ci).Pre env.toEnv { st with p := p' } := ⟨l', pi, hl', e6⟩
          obtain ⟨st2, f2, hr2, hinst2, -⟩ := C19_operations_do_not_panic hr' hpre2
          have hrun2 : (BPOp.remove (.real i) key ci).run env.toEnv { st with p := p' } = some { st with p := p'' } := by
            simp only [BPOp.run]; rw [g1]; rfl
          rw [hrun2] at f2
          obtain rfl := Option.some.inj f2
          have hinst2 : p''.inst = st.p.inst := hinst2.trans hinst
          have hm := hr2.inv.missing
          have hq2 := hr2.inv.stock
          dsimp only at hm hq2
          rw [hinst2] at hm hq2
          rw [hs.copies] at hm
          rw [hs.binsUsed] at hq2
          refine ⟨.bp p'', ?_, hs, hm.unique hr.inv.missing, hq2.unique hr.inv.stock, hs.cost⟩
          show (p'.removeItem env.toEnv (.real i) key ci).map (fun r => (r.1, Problem.bp r.2)) = _
          have g1' : p'.removeItem env.toEnv (.real i) key ci = _ := g1
          rw [g1', e7, e8]; rfl
    · obtain rfl : idx = .template b := e
      obtain ⟨key, p', l', pi, e1, e2, e3, ⟨kb, e4⟩, e6, e7, e8, e9, e10⟩ := C49_place_in_new_layout hr addr (dt := dt) hq hpos (List.getElem?_eq_getElem hid)
      have hpre : (BPOp.place (K := K) (n := n) addr ⟨.template b, id, dt⟩).Pre env.toEnv st := ⟨hid, q, hq, hpos⟩
      have hrun : (BPOp.place addr ⟨.template b, id, dt⟩).run env.toEnv st = some { st with p := p' } := by
        simp only [BPOp.run]; rw [e1]; rfl
      have hr' : BPState.Reachable env.toEnv { st with p := p' } := hr.run (.cons hpre hrun (.nil _))
      obtain ⟨st1, f1, -, hinst, -⟩ := C19_operations_do_not_panic hr hpre
      rw [hrun] at f1
      obtain rfl := Option.some.inj f1
      have hinst : p'.inst = st.p.inst := hinst
      have hl' : p'.layouts[st.p.layouts.length]? = some l' := by rw [e2]; simp
      have htmp : (Problem.bp st.p).getLayout (.template b) = some (Layout.new b l'.bin) := by
        show st.p.templates[b]? = _
        rw [hr.inv.templates]
        simp only [BPProblem.new, List.getElem?_map, List.getElem?_zipIdx]
        rw [e4]
        simp
      have hmem : LayoutIndex.template b ∉ (Problem.bp st.p).layoutIndices := by
        rw [Problem.mem_layoutIndices]
        rintro ⟨i, l, hc, -⟩
        cases hc
      have h0 : (Layout.new b l'.bin).placed.values = [] := by simp [Layout.new, SlotMap.empty, SlotMap.values]
      refine ⟨.real st.p.layouts.length, key, .bp p', Layout.new b l'.bin, l', pi, ?_, htmp,
        Problem.mem_layoutIndices.2 ⟨_, l', rfl, hl'⟩, hl', rfl, e6, e7, e8, by rw [h0, e10], ?_, ?_, ?_⟩
      · show (st.p.placeItem env.toEnv addr ⟨.template b, id, dt⟩).map (fun r => (r.1, Problem.bp r.2)) = _
        rw [e1]; rfl
      · have hm := hr'.inv.missing
        dsimp only at hm
        rw [hinst] at hm
        refine missing_after (id := id) hr.inv.missing hm fun j => ?_
        rw [e2, copies_append, copies_cons, copiesIn_perm (by rw [e10]) j, e7]
        simp [copies]
      · refine Eq.trans ?_ (congrArg (fun x => (Problem.bp st.p).usedBinCost + x) (if_neg hmem).symm)
        show (p'.layouts.map (·.bin.value)).sum = (st.p.layouts.map (·.bin.value)).sum + l'.bin.value
        rw [e2, List.map_append, List.sum_append]
        simp
      · intro ci
        obtain ⟨p'', g1, g2⟩ := C49_remove hr' hl' e6 ci
        rcases g2 with ⟨-, g2⟩ | ⟨g2, -⟩
        · have hs : p''.layouts = st.p.layouts := by
            rw [g2]
            show p'.layouts.eraseIdx _ = _
            rw [e2, List.eraseIdx_append_of_length_le (le_refl _)]
            simp
          have hpre2 : (BPOp.remove (K := K) (n := n) (.real st.p.layouts.length) key ci).Pre env.toEnv { st with p := p' } := ⟨l', pi, hl', e6⟩
          obtain ⟨st2, f2, hr2, hinst2, -⟩ := C19_operations_do_not_panic hr' hpre2
          have hrun2 : (BPOp.remove (.real st.p.layouts.length) key ci).run env.toEnv { st with p := p' } = some { st with p := p'' } := by
            simp only [BPOp.run]; rw [g1]; rfl
          rw [hrun2] at f2
          obtain rfl := Option.some.inj f2
          have hinst2 : p''.inst = st.p.inst := hinst2.trans hinst
          have hm := hr2.inv.missing
          have hq2 := hr2.inv.stock
          dsimp only at hm hq2
          rw [hinst2, hs] at hm hq2
          refine ⟨.bp p'', ?_, ?_, hm.unique hr.inv.missing, hq2.unique hr.inv.stock, ?_⟩
          · show (p'.removeItem env.toEnv (.real st.p.layouts.length) key ci).map (fun r => (r.1, Problem.bp r.2)) = _
            have g1' : p'.removeItem env.toEnv (.real st.p.layouts.length) key ci = _ := g1
            rw [g1', e7, e8]; rfl
          · show SameLayouts p''.layouts st.p.layouts
            rw [hs]; exact SameLayouts.refl _
          · show (p''.layouts.map (·.bin.value)).sum = (st.p.layouts.map (·.bin.value)).sum
            rw [hs]
        · rw [e10] at g2
          simp at g2
  | sp st =>
    have hr : st.Reachable env := hr
    have hid : id < st.p.inst.items.length := h.1
    obtain rfl : idx = .real 0 := SPState.offers_iff.1 ho
    have hnew := h.2 st.p.layout rfl
    have hc := hr.inv.core
    obtain ⟨k, l', m, e1, e2, e3, e4, e5, e6, e7⟩ := hc.place addr (List.getElem?_eq_getElem hid) hnew
    obtain ⟨c1, c2⟩ := hc.cat (List.getElem?_eq_getElem hid)
    obtain ⟨w1, w2, w3, w4, w5⟩ := SlotMap.insert_spec hc.layout.inv.slots (PlacedItem.new env.toEnv addr (st.p.inst.items[id]).1 dt)
    rw [← e5, ← e6] at w2
    have hmem : LayoutIndex.real 0 ∈ (Problem.sp st.p).layoutIndices := Problem.mem_layoutIndices.2 ⟨0, st.p.layout, rfl, rfl⟩
    have hpid : (PlacedItem.new env.toEnv addr (st.p.inst.items[id]).1 dt).itemId = id := c1
    refine ⟨.real 0, k, .sp { st.p with layout := l', missing := m }, st.p.layout, l', _, ?_, rfl,
      Problem.mem_layoutIndices.2 ⟨0, l', rfl, rfl⟩, rfl, e4, w2, hpid, rfl, e7, ?_, ?_, ?_⟩
    · show (st.p.placeItem env.toEnv addr ⟨.real 0, id, dt⟩).map (fun r => (r.1, Problem.sp r.2)) = _
      rw [e1]; rfl
    · refine missing_after (id := id) hc.missing e2.missing fun j => ?_
      rw [copiesIn_perm e7 j, hpid]
      rfl
    · refine Eq.trans ?_ (congrArg (fun x => (Problem.sp st.p).usedBinCost + x) (if_pos hmem).symm)
      show l'.bin.value + 0 = st.p.layout.bin.value + 0 + 0
      rw [e4]
    · intro ci
      obtain ⟨l'', m', g1, g2, g3, g4, g5, g6⟩ := e2.remove (p := { st.p with layout := l', missing := m }) w2 ci
      have hs : l''.placed.values.Perm st.p.layout.placed.values := List.Perm.cons_inv (g6.symm.trans e7)
      have hsame : SameLayouts [l''] [st.p.layout] := .cons ⟨g3.trans e3, g4.trans e4, hs⟩ .nil
      refine ⟨.sp { st.p with layout := l'', missing := m' }, ?_, hsame, ?_, rfl, hsame.cost⟩
      · show (SPProblem.removeItem env.toEnv { st.p with layout := l', missing := m } (.real 0) k ci).map (fun r => (r.1, Problem.sp r.2)) = _
        rw [g1, hpid]; rfl
      · have hm := g2.missing
        dsimp only at hm
        have hcc : copiesIn l''.placed = copiesIn st.p.layout.placed := by
          funext j
          unfold copiesIn
          exact hs.countP_eq _
        rw [hcc] at hm
        exact hm.unique hc.missing

/-- C74: a new bin is offered exactly if the stock says that there is one; a strip packing problem has none. -/
theorem C74_stock {env : StripEnv K} {st : ProblemState K n} (hr : st.Reachable env) (i : ℕ) :
    st.p.Offers (.template i) ↔ ∃ q, st.p.binQtys[i]? = some q ∧ 0 < q := by
  cases st with
  | bp st =>
    refine (BPState.offers_iff (env := env.toEnv) hr).trans ⟨?_, fun ⟨q, h1, h2⟩ => .inr ⟨i, q, rfl, h1, h2⟩⟩
    rintro (⟨_, _, ⟨⟩, _⟩ | ⟨b, q, hb, h1, h2⟩)
    cases hb
    exact ⟨q, h1, h2⟩
  | sp st =>
    refine SPState.offers_iff.trans ⟨?_, ?_⟩
    · rintro ⟨⟩
    · rintro ⟨q, h1, h2⟩
      have h1 : [0][i]? = some q := h1
      cases i with
      | zero => cases h1; cases h2
      | succ i => cases h1

/-- C74: the placed quantities are the numbers of copies in the layouts. -/
theorem C74_placed_quantities {env : StripEnv K} {st : ProblemState K n} (hr : st.Reachable env) :
    st.p.placedItemQtys = (List.range st.p.items.length).map fun i => (st.p.layouts.flatMap fun l => l.placed.values).countP fun pi => pi.itemId = i := by
  have key : ∀ (ls : List (Layout K n)) (i : ℕ), copies ls i = (ls.flatMap fun l => l.placed.values).countP fun pi => pi.itemId = i := by
    intro ls i
    induction ls with
    | nil => rfl
    | cons l ls ih =>
      rw [copies_cons, List.flatMap_cons, List.countP_append, ih]
      rfl
  apply List.ext_getElem?
  intro i
  rw [List.getElem?_map]
  cases st with
  | bp st =>
    have := C19_placed_quantities (env := env.toEnv) hr i
    show (placedQtys st.p.inst.qtys st.p.missing)[i]? = ((List.range st.p.inst.items.length)[i]?).map _
    rw [this]
    split_ifs with hi
    · rw [List.getElem?_range hi, Option.map_some, key]
      rfl
    · rw [List.getElem?_eq_none (by simpa using hi)]; rfl
  | sp st =>
    have := C24_placed_quantities (env := env) hr i
    show (placedQtys st.p.inst.qtys st.p.missing)[i]? = ((List.range st.p.inst.items.length)[i]?).map _
    rw [this]
    split_ifs with hi
    · rw [List.getElem?_range hi, Option.map_some]
      simp only [ProblemState.p, Problem.layouts, List.flatMap_cons, List.flatMap_nil, List.append_nil]
      rw [List.countP_eq_length_filter]
    · rw [List.getElem?_eq_none (by simpa using hi)]; rfl

/-- C74: whatever happens after a solution was created, restoring it succeeds, and the layouts
(up to their order), the missing quantities, the stock and the cost of the used bins are those
of the moment it was created. -/
theorem C74_restore {env : StripEnv K} {st st₁ st₂ : ProblemState K n} (hr : st.Reachable env) {s : Solution K n}
    (hs : st.p.createSolution none = some (s, st₁.p)) (h₁ : st₁.sols = st.sols ++ [s]) (hl : ProblemState.Leads env st₁ st₂)
    (hoc : env.overflowChecks = true → ∀ (i : ℕ) (x : Item K × ℕ) (c : ℕ), st.p.items[i]? = some x → st.p.placedItemQtys[i]? = some c → c ≤ x.2) :
    ∃ p₃, st₂.p.restore env.toEnv s = some p₃ ∧
      (p₃.layouts.map fun l => (l.id, l.bin, l.placed)).Perm (st.p.layouts.map fun l => (l.id, l.bin, l.placed)) ∧
      p₃.missing = st.p.missing ∧ p₃.binQtys = st.p.binQtys ∧ p₃.usedBinCost = st.p.usedBinCost ∧
      p₃.placedItemQtys = st.p.placedItemQtys := by
  cases hl with
  | bp ops hrun =>
    rename_i s₁ s₂
    cases st with
    | sp st =>
      obtain ⟨r, -, he⟩ := Option.map_eq_some_iff.1 hs
      have := congrArg Prod.snd he
      cases this
    | bp st =>
      have hr : st.Reachable env.toEnv := hr
      obtain ⟨⟨s', p₁⟩, e1, he⟩ := Option.map_eq_some_iff.1 hs
      simp only [Prod.mk.injEq] at he
      obtain ⟨rfl, he⟩ := he
      have he : p₁ = s₁.p := by cases he; rfl
      subst he
      have h₁ : s₁.sols = st.sols ++ [s'] := h₁
      have hsol : (BPOp.solution none).run env.toEnv st = some s₁ := by
        simp only [BPOp.run]
        rw [e1, Option.map_some, ← h₁]
      have hpre : (BPOp.solution (K := K) (n := n) none).Pre env.toEnv st := by intro j hj; cases hj
      obtain ⟨s₃, f1, f2, f3, f4, f5, -⟩ := C22_restore hr hpre hsol hrun (by
        intro hov i x hx
        refine hoc hov i x _ hx ?_
        show (placedQtys st.p.inst.qtys st.p.missing)[i]? = _
        rw [C19_placed_quantities hr i, if_pos (List.getElem?_eq_some_iff.1 hx).1])
      have hr1 := hr.run (.cons hpre hsol (.nil _))
      obtain ⟨-, hinst, t, ht⟩ := hrun.inv hr1.inv
      obtain ⟨st1', g1, -, ginst, -⟩ := C19_operations_do_not_panic hr hpre
      rw [hsol] at g1
      obtain rfl := Option.some.inj g1
      have hget : s₂.sols[st.sols.length]? = some s' := by rw [ht, h₁]; simp
      simp only [BPOp.run] at f1
      rw [hget] at f1
      obtain ⟨p₃, k1, rfl⟩ := Option.map_eq_some_iff.1 f1
      have kinst : p₃.inst = st.p.inst := by
        unfold BPProblem.restore at k1
        obtain ⟨ls, -, k1⟩ := Option.bind_eq_some_iff.1 k1
        obtain ⟨m, -, k1⟩ := Option.bind_eq_some_iff.1 k1
        split_ifs at k1
        obtain rfl := Option.some.inj k1
        exact hinst.trans ginst
      refine ⟨.bp p₃, ?_, f3, f4, f5, ?_, ?_⟩
      · show (s₂.p.restore env.toEnv s').map Problem.bp = _
        rw [k1]; rfl
      · have := (f3.map fun v => v.2.1.value).sum_eq
        rw [List.map_map, List.map_map] at this
        exact this
      · show placedQtys (p₃.inst.items.map (·.2)) p₃.missing = placedQtys (st.p.inst.items.map (·.2)) st.p.missing
        rw [kinst]
        exact congrArg _ f4
  | sp ops hrun =>
    rename_i s₁ s₂
    cases st with
    | bp st =>
      obtain ⟨r, -, he⟩ := Option.map_eq_some_iff.1 hs
      have := congrArg Prod.snd he
      cases this
    | sp st =>
      have hr : st.Reachable env := hr
      obtain ⟨⟨s', p₁⟩, e1, he⟩ := Option.map_eq_some_iff.1 hs
      simp only [Prod.mk.injEq] at he
      obtain ⟨rfl, he⟩ := he
      have he : p₁ = s₁.p := by cases he; rfl
      subst he
      have h₁ : s₁.sols = st.sols ++ [s'] := h₁
      have hsol : (SPOp.solution (K := K)).run env st = some s₁ := by
        simp only [SPOp.run]
        rw [e1, Option.map_some, ← h₁]
      obtain ⟨s₃, f1, f2, f3, f4, f5, f6, -⟩ := C22_strip_restore hr hsol hrun (by
        intro hov i x hx
        refine hoc hov i x _ hx ?_
        show (placedQtys st.p.inst.qtys st.p.missing)[i]? = _
        rw [C24_placed_quantities hr i, if_pos (List.getElem?_eq_some_iff.1 hx).1])
      have hr1 := hr.run (.cons (op := SPOp.solution) trivial hsol (.nil _))
      obtain ⟨-, hinst, t, ht⟩ := hrun.inv hr1.inv
      have hinst1 : s₁.p.inst = st.p.inst := by
        unfold SPProblem.createSolution at e1
        dsimp only at e1
        obtain ⟨r, -, e⟩ := Option.map_eq_some_iff.1 e1
        exact (congrArg (fun y => y.2.inst) e).symm
      have hget : s₂.sols[st.sols.length]? = some s' := by rw [ht, h₁]; simp
      simp only [SPOp.run] at f1
      rw [hget] at f1
      obtain ⟨p₃, k1, rfl⟩ := Option.map_eq_some_iff.1 f1
      have kinst : p₃.inst = st.p.inst := by
        unfold SPProblem.restore at k1
        split at k1
        · cases k1
        · obtain ⟨ls, -, k1⟩ := Option.bind_eq_some_iff.1 k1
          obtain ⟨m, -, rfl⟩ := Option.map_eq_some_iff.1 k1
          exact hinst.trans hinst1
      dsimp only at f3 f4 f5 f6
      refine ⟨.sp p₃, ?_, ?_, f6, rfl, ?_, ?_⟩
      · show (s₂.p.restore env.toEnv s').map Problem.sp = _
        rw [k1]; rfl
      · show ([p₃.layout].map fun l => (l.id, l.bin, l.placed)).Perm ([st.p.layout].map fun l => (l.id, l.bin, l.placed))
        simp only [List.map_cons, List.map_nil]
        rw [f3, f4, f5]
      · show ([p₃.layout].map (·.bin.value)).sum = ([st.p.layout].map (·.bin.value)).sum
        simp only [List.map_cons, List.map_nil]
        rw [f4]
      · show placedQtys (p₃.inst.items.map (·.2)) p₃.missing = placedQtys (st.p.inst.items.map (·.2)) st.p.missing
        rw [kinst]
        exact congrArg _ f6

/-- Non-trivial case for C74: a bin packing problem with a layout of two items and a bin left. -/
example : ∃ (st : BPState ℚ 2), (ProblemState.bp st).Reachable Ex.senv ∧ (Problem.bp st.p).CanTake ⟨.real 0, 0, Ex.shift 4 4⟩ ∧
    (Problem.bp st.p).Offers (.real 0) ∧ (Problem.bp st.p).Offers (.template 0) ∧ ¬ (Problem.bp st.p).Offers (.real 1) := by
  obtain ⟨st, hst⟩ : ∃ st, Ex.bpAfter Ex.bpOps2 = some st := Option.isSome_iff_exists.1 (by decide +kernel)
  have h : (Ex.bpAfter Ex.bpOps2).bind (fun st => (Problem.bp st.p).templatesWithStock.map fun ts => (decide (ts = [.template 0]),
      decide ((Problem.bp st.p).layoutIndices = [.real 0]), decide (0 < st.p.inst.items.length),
      decide (∀ l ∈ st.p.layouts, ∀ pi ∈ l.placed.values, ¬ (pi.itemId = 0 ∧ pi.dt = Ex.shift 4 4))))
      = some (true, true, true, true) := by decide +kernel
  rw [hst, Option.bind_some] at h
  obtain ⟨ts, hts, h⟩ := Option.map_eq_some_iff.1 h
  simp only [Prod.mk.injEq, decide_eq_true_eq] at h
  obtain ⟨rfl, h2, h3, h4⟩ := h
  refine ⟨st, Ex.bpAfter_reachable hst, ⟨h3, fun l hl => h4 l (List.mem_of_getElem? hl)⟩, .inl (by rw [h2]; simp), .inr ⟨_, hts, by simp⟩, ?_⟩
  rintro (hc | ⟨ts', hts', hc⟩)
  · rw [h2] at hc; simp at hc
  · rw [hts] at hts'
    rw [← Option.some.inj hts'] at hc
    simp at hc

/-- Non-trivial case for C74: a strip packing problem with two items; a solution is created and one of
the items is removed. -/
example : ∃ (st st₁ st₂ : SPState ℚ 2) (s : Solution ℚ 2), (ProblemState.sp st).Reachable Ex.senv ∧
    (Problem.sp st.p).CanTake ⟨.real 0, 0, Ex.shift 4 4⟩ ∧ (Problem.sp st.p).Offers (.real 0) ∧
    (Problem.sp st.p).createSolution none = some (s, .sp st₁.p) ∧ st₁.sols = st.sols ++ [s] ∧
    ProblemState.Leads Ex.senv (.sp st₁) (.sp st₂) ∧ st.p.missing = [2, 1] ∧ st₂.p.missing = [3, 1] := by
  obtain ⟨st, hst⟩ : ∃ st, Ex.spAfter Ex.spOps = some st := Option.isSome_iff_exists.1 (by decide +kernel)
  have h : (Ex.spAfter Ex.spOps).bind (fun st => st.p.createSolution.bind fun r =>
      ((SPOp.remove (.real 0) ⟨0, 1⟩ true).run Ex.senv ⟨r.2, st.sols ++ [r.1]⟩).map fun st₂ => (decide (st.p.missing = [2, 1]),
      decide (st₂.p.missing = [3, 1]), decide (0 < st.p.inst.items.length),
      decide (∀ pi ∈ st.p.layout.placed.values, ¬ (pi.itemId = 0 ∧ pi.dt = Ex.shift 4 4)),
      Ex.spPreB ⟨r.2, st.sols ++ [r.1]⟩ (.remove (.real 0) ⟨0, 1⟩ true)))
      = some (true, true, true, true, true) := by decide +kernel
  rw [hst, Option.bind_some] at h
  obtain ⟨⟨s, p₁⟩, hs, h⟩ := Option.bind_eq_some_iff.1 h
  obtain ⟨st₂, h2, h⟩ := Option.map_eq_some_iff.1 h
  simp only [Prod.mk.injEq, decide_eq_true_eq] at h
  obtain ⟨h3, h4, h5, h6, h7⟩ := h
  refine ⟨st, ⟨p₁, st.sols ++ [s]⟩, st₂, s, (Ex.spAfter_reachable hst).reachable, ⟨h5, fun l hl pi hpi => ?_⟩, SPState.offers_iff.2 rfl, ?_, rfl,
    .sp _ (.cons (Ex.spPreB_pre h7).1 h2 (.nil _)), h3, h4⟩
  · have : l = st.p.layout := by
      have hl : [st.p.layout][0]? = some l := hl
      simpa using hl.symm
    subst this
    exact h6 pi hpi
  · show st.p.createSolution.map (fun r => (r.1, Problem.sp r.2)) = _
    rw [hs]; rfl

end Jagua
