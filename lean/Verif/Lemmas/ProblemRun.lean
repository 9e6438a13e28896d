import Verif.Lemmas.ProblemRestore

/-!
# Sequences of operations on bin packing problems
-/

set_option linter.unusedSectionVars false

namespace Jagua

variable {K : Type*} [Arith K] [LinearOrder K] {n : ℕ}

theorem BPState.inv_new {env : Env K} {inst : BPInstance K n} (h : inst.Built env) :
    BPState.Inv env ⟨BPProblem.new inst, []⟩ where
  built := h
  templates := rfl
  layouts := by simp [BPProblem.new]
  removed := by simp [BPProblem.new]
  nodup := by simp [BPProblem.new]
  known := by simp [BPProblem.new, BPState.known]
  fresh := by simp [BPProblem.new, BPState.known]
  missing := fun i => by
    unfold BPProblem.new copies
    dsimp only
    rw [List.getElem?_map]
    cases inst.items[i]? <;> simp
  stock := fun b => by
    unfold BPProblem.new binsUsed
    dsimp only
    rw [List.getElem?_map]
    cases inst.bins[b]? <;> simp
  sols := by simp
  solIds := by simp
  solFresh := by simp
  unmodNodup := by simp [BPProblem.new]
  unmod := by simp [BPProblem.new]

/-- the obligation of `place` for a template is that of the layout made from it -/
theorem BPState.Inv.placeTemplate {env : Env K} {st : BPState K n} (h : st.Inv env) (addr : ℕ) {i id q : ℕ} {dt : DTransf K}
    (hq : st.p.binQtys[i]? = some q) (hpos : 0 < q) (hid : id < st.p.inst.items.length) :
    ∃ m b bin k key l' m', st.p.inst.bins[i]? = some (bin, k) ∧
      Layout.placeItem env addr (Layout.new (st.p.layoutCounter + 1) bin) (st.p.inst.cat id) dt = some (key, l') ∧
      BPState.Inv env ⟨{ st.p with
            layoutCounter := st.p.layoutCounter + 1, missing := m, binQtys := b,
            layouts := st.p.layouts ++ [Layout.new (st.p.layoutCounter + 1) bin] }, st.sols⟩ ∧
      st.p.placeItem env addr ⟨.template i, id, dt⟩ = some ((.real st.p.layouts.length, key),
        { st.p with
          layoutCounter := st.p.layoutCounter + 1, missing := m', binQtys := b, layouts := st.p.layouts ++ [l'],
          unmodified := st.p.unmodified.erase (st.p.layoutCounter + 1) }) ∧
      BPState.Inv env ⟨{ st.p with
          layoutCounter := st.p.layoutCounter + 1, missing := m', binQtys := b, layouts := st.p.layouts ++ [l'],
          unmodified := st.p.unmodified.erase (st.p.layoutCounter + 1) }, st.sols⟩ := by
  obtain ⟨m, b, bin, k, e, hb, hI⟩ := h.targetTemplate hq hpos
  have hlast : (st.p.layouts ++ [Layout.new (st.p.layoutCounter + 1) bin])[st.p.layouts.length]? =
      some (Layout.new (st.p.layoutCounter + 1) bin) := by simp
  obtain ⟨key, l', m', f1, f2, f3⟩ := hI.placeReal addr (i := st.p.layouts.length) (id := id) (dt := dt) hlast hid
    (by simp [Layout.new, SlotMap.empty, SlotMap.values])
  have hset : (st.p.layouts ++ [Layout.new (st.p.layoutCounter + 1) bin]).set st.p.layouts.length l' = st.p.layouts ++ [l'] := by
    simp
  dsimp only at f2 f3
  rw [hset] at f2 f3
  refine ⟨m, b, bin, k, key, l', m', hb, f1, hI, ?_, f3⟩
  unfold BPProblem.placeItem at f2 ⊢
  dsimp only at f2 ⊢
  rw [e]
  rw [show BPProblem.targetLayout _ (.real st.p.layouts.length) = some (st.p.layouts.length, _) from rfl] at f2
  exact f2

theorem BPOp.run_inv {env : Env K} {st : BPState K n} (h : st.Inv env) {op : BPOp K n} (hp : op.Pre env st) :
    ∃ st', op.run env st = some st' ∧ st'.Inv env ∧ st'.p.inst = st.p.inst ∧ ∃ t, st'.sols = st.sols ++ t := by
  cases op with
  | place addr opt =>
    obtain ⟨idx, id, dt⟩ := opt
    obtain ⟨hid, hp⟩ := hp
    cases idx with
    | real i =>
      obtain ⟨l, hl, hnew⟩ := hp
      obtain ⟨k, l', m, e1, e2, e3⟩ := h.placeReal addr hl hid hnew
      exact ⟨_, by unfold BPOp.run; dsimp only; rw [e2]; rfl, e3, rfl, [], by simp⟩
    | template i =>
      obtain ⟨q, hq, hpos⟩ := hp
      obtain ⟨m, b, bin, k, key, l', m', _, _, _, e2, e3⟩ := h.placeTemplate addr (dt := dt) hq hpos hid
      exact ⟨_, by unfold BPOp.run; dsimp only; rw [e2]; rfl, e3, rfl, [], by simp⟩
  | remove idx key ci =>
    cases idx with
    | template i => exact hp.elim
    | real i =>
      obtain ⟨l, pi, hl, hk⟩ := hp
      obtain ⟨l', m, b, _, _, _, _, _, _, hc⟩ := h.remove hl hk ci
      split_ifs at hc with hem
      · obtain ⟨e1, e2⟩ := hc
        exact ⟨_, by unfold BPOp.run; dsimp only; rw [e1]; rfl, e2, rfl, [], by simp⟩
      · obtain ⟨e1, e2⟩ := hc
        exact ⟨_, by unfold BPOp.run; dsimp only; rw [e1]; rfl, e2, rfl, [], by simp⟩
  | registerLayout l =>
    obtain ⟨⟨s, hs, rfl⟩, h2, h3, ⟨q, hq, hpos⟩, h5, h6, h7⟩ := hp
    obtain ⟨m, b, e, hI⟩ := h.registerLayout ⟨hs.inv.layout, h2, h3⟩ hq hpos h5 h6 h7
    exact ⟨_, by unfold BPOp.run; dsimp only; rw [e]; rfl, hI, rfl, [], by simp⟩
  | deregisterLayout idx =>
    obtain ⟨i, rfl, hi⟩ := hp
    obtain ⟨m, b, e, hI⟩ := h.deregisterLayout (List.getElem?_eq_getElem hi)
    exact ⟨_, by unfold BPOp.run; dsimp only; rw [e]; rfl, hI, rfl, [], by simp⟩
  | solution hint =>
    cases hint with
    | none =>
      obtain ⟨rs, sol, p', _, e, rfl, _, hI⟩ := h.createSolution none (by simp)
      exact ⟨_, by unfold BPOp.run; dsimp only; rw [e]; rfl, hI, rfl, [sol], rfl⟩
    | some j =>
      obtain ⟨s, hs, hr⟩ := hp j rfl
      obtain ⟨rs, sol, p', _, e, rfl, _, hI⟩ := h.createSolution (some s) (by
        rintro o ⟨⟩
        exact ⟨List.mem_of_getElem? hs, hr⟩)
      exact ⟨_, by unfold BPOp.run; dsimp only; rw [hs]; dsimp only; rw [e]; rfl, hI, rfl, [sol], rfl⟩
  | restore j =>
    obtain ⟨s, hs, hoc⟩ := hp
    obtain ⟨ls, m, _, e, hI⟩ := h.restore (List.mem_of_getElem? hs) hoc
    exact ⟨_, by unfold BPOp.run; dsimp only; rw [hs]; dsimp only; rw [e]; rfl, hI, rfl, [], by simp⟩

theorem BPRun.inv {env : Env K} {st st' : BPState K n} {ops : List (BPOp K n)} (h : BPRun env st ops st') (hi : st.Inv env) :
    st'.Inv env ∧ st'.p.inst = st.p.inst ∧ ∃ t, st'.sols = st.sols ++ t := by
  induction h with
  | nil st => exact ⟨hi, rfl, [], by simp⟩
  | cons hp hr _ ih =>
    obtain ⟨st1, e, h1, h2, t, h3⟩ := BPOp.run_inv hi hp
    rw [hr] at e
    obtain rfl := Option.some.inj e
    obtain ⟨g1, g2, t', g3⟩ := ih h1
    exact ⟨g1, g2.trans h2, t ++ t', by rw [g3, h3, List.append_assoc]⟩

theorem BPState.Reachable.inv {env : Env K} {st : BPState K n} (h : st.Reachable env) : st.Inv env := by
  obtain ⟨inst, ops, hb, hr⟩ := h
  exact (hr.inv (BPState.inv_new hb)).1

theorem BPRun.append {env : Env K} {st st' st'' : BPState K n} {ops ops' : List (BPOp K n)} (h : BPRun env st ops st')
    (h' : BPRun env st' ops' st'') : BPRun env st (ops ++ ops') st'' := by
  induction h with
  | nil st => exact h'
  | cons hp hr _ ih => exact .cons hp hr (ih h')

theorem BPState.Reachable.run {env : Env K} {st st' : BPState K n} (h : st.Reachable env) {ops : List (BPOp K n)}
    (hr : BPRun env st ops st') : st'.Reachable env := by
  obtain ⟨inst, ops0, hb, hr0⟩ := h
  exact ⟨inst, ops0 ++ ops, hb, hr0.append hr⟩

end Jagua
