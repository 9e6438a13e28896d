import Verif.Lemmas.Grid

/-!
# Lemmas about the boundary fill
-/

set_option linter.unusedSectionVars false

namespace Jagua

variable {K : Type*} [LinearOrder K] {α : Type*}

namespace BFill

/-- bookkeeping of a fill over `n` cells that has visited the cells `vis` -/
structure Inv (b : BFill) (n : ℕ) (vis : List ℕ) : Prop where
  len : b.state.length = n
  hv : ∀ i, b.state[i]? = some .visited ↔ i ∈ vis
  hq : ∀ i, b.state[i]? = some .queued ↔ i ∈ b.queue
  vnd : vis.Nodup
  qnd : b.queue.Nodup

namespace Inv

theorem vlt {b : BFill} {n : ℕ} {vis : List ℕ} (h : b.Inv n vis) {i : ℕ} (hi : i ∈ vis) : i < n :=
  h.len ▸ (List.getElem?_eq_some_iff.1 ((h.hv i).2 hi)).1

theorem qlt {b : BFill} {n : ℕ} {vis : List ℕ} (h : b.Inv n vis) {i : ℕ} (hi : i ∈ b.queue) : i < n :=
  h.len ▸ (List.getElem?_eq_some_iff.1 ((h.hq i).2 hi)).1

end Inv

theorem update_some {st : List CellState} {i : ℕ} {op : CellState → Option CellState} {s s' : CellState} (h : st[i]? = some s)
    (hop : op s = some s') : update st i op = some (st.set i s') := by
  unfold update
  rw [h]
  dsimp only
  rw [hop]
  rfl

theorem getElem?_set' {st : List CellState} {i : ℕ} (hi : i < st.length) (s : CellState) (j : ℕ) :
    (st.set i s)[j]? = if i = j then some s else st[j]? := by
  rw [List.getElem?_set]
  split_ifs <;> rfl

/-! ## One neighbour -/

theorem queueNeighbor_spec {b : BFill} {n : ℕ} {vis : List ℕ} (h : b.Inv n vis) {i : ℕ} (hi : i < n) :
    ∃ b', b.queueNeighbor i = some b' ∧ b'.Inv n vis ∧ (∀ j, j ∈ b'.queue ↔ j ∈ b.queue ∨ (j = i ∧ i ∉ vis)) ∧
      b'.seeded = b.seeded ∧ b'.seedRows = b.seedRows ∧ b'.seedCols = b.seedCols ∧ b'.nVisited = b.nVisited := by
  have hil : i < b.state.length := by rw [h.len]; exact hi
  unfold queueNeighbor
  rw [List.getElem?_eq_getElem hil]
  cases hs : b.state[i] with
  | notQueued =>
    have hs' : b.state[i]? = some .notQueued := by rw [List.getElem?_eq_getElem hil, hs]
    have hnq : i ∉ b.queue := fun hc => by have := (h.hq i).2 hc; rw [hs'] at this; simp at this
    have hnv : i ∉ vis := fun hc => by have := (h.hv i).2 hc; rw [hs'] at this; simp at this
    dsimp only
    rw [update_some (op := CellState.queue) (s' := .queued) hs' rfl]
    refine ⟨_, rfl, ⟨by simp [h.len], ?_, ?_, h.vnd, ?_⟩, ?_, rfl, rfl, rfl, rfl⟩
    · intro j
      dsimp only
      rw [getElem?_set' hil]
      split_ifs with hij
      · subst hij; simp [hnv]
      · exact h.hv j
    · intro j
      dsimp only
      rw [getElem?_set' hil, List.mem_append, List.mem_singleton]
      split_ifs with hij
      · subst hij; simp
      · rw [h.hq j]; simp [Ne.symm hij]
    · rw [List.nodup_append]
      refine ⟨h.qnd, List.nodup_singleton _, ?_⟩
      rintro a ha b' hb' rfl
      exact hnq (List.mem_singleton.1 hb' ▸ ha)
    · intro j
      rw [List.mem_append, List.mem_singleton]
      simp [hnv]
  | visited =>
    have hv : i ∈ vis := (h.hv i).1 (by rw [List.getElem?_eq_getElem hil, hs])
    exact ⟨b, rfl, h, fun j => by simp [hv], rfl, rfl, rfl, rfl⟩
  | queued =>
    have hq : i ∈ b.queue := (h.hq i).1 (by rw [List.getElem?_eq_getElem hil, hs])
    refine ⟨b, rfl, h, fun j => ?_, rfl, rfl, rfl, rfl⟩
    constructor
    · exact .inl
    · rintro (h1 | ⟨rfl, _⟩)
      · exact h1
      · exact hq

theorem queueNeighbors_spec {b : BFill} {n : ℕ} {vis : List ℕ} (h : b.Inv n vis) {is : List ℕ} (hi : ∀ i ∈ is, i < n) :
    ∃ b', is.foldlM queueNeighbor b = some b' ∧ b'.Inv n vis ∧ (∀ j, j ∈ b'.queue ↔ j ∈ b.queue ∨ (j ∈ is ∧ j ∉ vis)) ∧
      b'.seeded = b.seeded ∧ b'.seedRows = b.seedRows ∧ b'.seedCols = b.seedCols ∧ b'.nVisited = b.nVisited := by
  induction is generalizing b with
  | nil => exact ⟨b, rfl, h, fun j => by simp, rfl, rfl, rfl, rfl⟩
  | cons i is ih =>
    obtain ⟨b1, e1, i1, q1, s1, r1, c1, n1⟩ := queueNeighbor_spec h (hi i (by simp))
    obtain ⟨b2, e2, i2, q2, s2, r2, c2, n2⟩ := ih i1 fun j hj => hi j (by simp [hj])
    refine ⟨b2, by rw [List.foldlM_cons, e1]; exact e2, i2, fun j => ?_, s2.trans s1, r2.trans r1, c2.trans c1, n2.trans n1⟩
    rw [q2, q1, List.mem_cons]
    constructor
    · rintro ((h | ⟨rfl, h⟩) | ⟨h, h'⟩)
      · exact .inl h
      · exact .inr ⟨.inl rfl, h⟩
      · exact .inr ⟨.inr h, h'⟩
    · rintro (h | ⟨rfl | h, h'⟩)
      · exact .inl (.inl h)
      · exact .inl (.inr ⟨rfl, h'⟩)
      · exact .inr ⟨h, h'⟩

/-! ## Emptying the queue -/

theorem dequeue_spec (q : List ℕ) (st : List CellState) (hq : ∀ i ∈ q, st[i]? = some .queued) (hn : q.Nodup) :
    ∃ st', q.foldlM (fun (st : List CellState) i => update st i CellState.dequeue) st = some st' ∧ st'.length = st.length ∧
      ∀ j, st'[j]? = if j ∈ q then some .notQueued else st[j]? := by
  induction q generalizing st with
  | nil => exact ⟨st, rfl, rfl, fun j => by simp⟩
  | cons i q ih =>
    have hi := hq i (by simp)
    have hil := (List.getElem?_eq_some_iff.1 hi).1
    rw [List.nodup_cons] at hn
    obtain ⟨st', e1, e2, e3⟩ := ih (st.set i .notQueued) (fun j hj => by
      rw [getElem?_set' hil, if_neg (fun (hc : i = j) => hn.1 (hc ▸ hj))]
      exact hq j (by simp [hj])) hn.2
    refine ⟨st', by rw [List.foldlM_cons, update_some (op := CellState.dequeue) (s' := .notQueued) hi rfl]; exact e1, by rw [e2, List.length_set], fun j => ?_⟩
    rw [e3, getElem?_set' hil]
    by_cases h1 : j ∈ q
    · simp [h1]
    · by_cases h2 : i = j
      · subst h2; simp
      · simp [h1, h2, Ne.symm h2]

/-! ## Starting, popping and reporting -/

theorem middle_spec {r : ℕ × ℕ} (h : r.1 ≤ r.2) : ∃ m, middle r = some m ∧ r.1 ≤ m ∧ m ≤ r.2 := by
  refine ⟨r.1 + (r.2 - r.1) / 2, by unfold middle; rw [if_pos h], by omega, by omega⟩

theorem initQueue_spec {g : Grid K α} {st : List CellState} {sr sc : ℕ × ℕ} (hst : st = List.replicate g.size .notQueued)
    (hr : sr.1 ≤ sr.2 ∧ sr.2 < g.rows.length) (hc : sc.1 ≤ sc.2 ∧ sc.2 < g.cols.length) :
    ∃ b m, initQueue ⟨st, sr, sc, [], 0, false⟩ g = some b ∧ b.Inv g.size [] ∧ b.queue = [m] ∧ b.seeded = false ∧ b.seedRows = sr ∧
      b.seedCols = sc ∧ b.nVisited = 0 ∧ m < g.size ∧ (sr.1 ≤ m / g.cols.length ∧ m / g.cols.length ≤ sr.2) ∧
      (sc.1 ≤ m % g.cols.length ∧ m % g.cols.length ≤ sc.2) := by
  obtain ⟨r, e1, r1, r2⟩ := middle_spec hr.1
  obtain ⟨c, e2, c1, c2⟩ := middle_spec hc.1
  have hr' : r < g.rows.length := by omega
  have hc' : c < g.cols.length := by omega
  have hlt : r * g.cols.length + c < g.size := Grid.index_lt hr' hc'
  have hil : r * g.cols.length + c < st.length := by rw [hst, List.length_replicate]; exact hlt
  have hget : ∀ j, st[j]? = if j < g.size then some .notQueued else none := by
    intro j; rw [hst, List.getElem?_replicate]
  have hs : st[r * g.cols.length + c]? = some .notQueued := by rw [hget, if_pos hlt]
  refine ⟨⟨st.set (r * g.cols.length + c) .queued, sr, sc, [r * g.cols.length + c], 0, false⟩, _, ?_, ⟨?_, ?_, ?_, List.nodup_nil, List.nodup_singleton _⟩, rfl, rfl, rfl, rfl, rfl, hlt, ?_, ?_⟩
  · unfold initQueue
    dsimp only
    rw [e1, Option.bind_some, e2, Option.bind_some, show g.toIndex r c = some (r * g.cols.length + c) from
      Grid.calculateIndex_some.2 ⟨hr', hc', rfl⟩, Option.bind_some, update_some (op := CellState.queue) (s' := .queued) hs rfl]
    rfl
  · rw [List.length_set, hst, List.length_replicate]
  · intro j
    dsimp only
    rw [getElem?_set' hil, hget]
    split_ifs <;> simp
  · intro j
    dsimp only
    rw [getElem?_set' hil, hget, List.mem_singleton]
    split_ifs with h1 h2
    · simp [h1]
    · simp [Ne.symm h1]
    · simp [Ne.symm h1]
  · rw [Grid.index_div hc']; exact ⟨r1, r2⟩
  · rw [Grid.index_mod hc']; exact ⟨c1, c2⟩

theorem pop_none {b : BFill} {b' : BFill} (h : b.pop = some (none, b')) : b.queue = [] ∧ b' = b := by
  unfold pop at h
  cases hq : b.queue with
  | nil =>
    rw [hq] at h
    exact ⟨rfl, (Prod.mk.inj (Option.some.inj h)).2.symm⟩
  | cons i q =>
    rw [hq] at h
    obtain ⟨st, _, h2⟩ := Option.map_eq_some_iff.1 h
    simp at h2

theorem pop_spec {b : BFill} {n : ℕ} {vis : List ℕ} (h : b.Inv n vis) : (b.queue = [] ∧ b.pop = some (none, b)) ∨
    ∃ i q b', b.queue = i :: q ∧ b.pop = some (some i, b') ∧ b'.Inv n (i :: vis) ∧ b'.queue = q ∧ i ∉ vis ∧ i < n ∧
      b'.seeded = b.seeded ∧ b'.seedRows = b.seedRows ∧ b'.seedCols = b.seedCols ∧ b'.nVisited = b.nVisited + 1 := by
  cases hq : b.queue with
  | nil => exact .inl ⟨rfl, by unfold pop; rw [hq]⟩
  | cons i q =>
    have hi : i ∈ b.queue := by rw [hq]; simp
    have hs := (h.hq i).2 hi
    have hil := (List.getElem?_eq_some_iff.1 hs).1
    have hnv : i ∉ vis := fun hc => by have := (h.hv i).2 hc; rw [hs] at this; simp at this
    have hnd := h.qnd
    rw [hq, List.nodup_cons] at hnd
    refine .inr ⟨i, q, ⟨b.state.set i .visited, b.seedRows, b.seedCols, q, b.nVisited + 1, b.seeded⟩, rfl, ?_, ⟨?_, ?_, ?_, ?_, hnd.2⟩, rfl, hnv, h.qlt hi, rfl, rfl, rfl, rfl⟩
    · unfold pop
      rw [hq]
      dsimp only
      rw [update_some (op := CellState.visit) (s' := .visited) hs rfl]
      rfl
    · rw [List.length_set]; exact h.len
    · intro j
      dsimp only
      rw [getElem?_set' hil, List.mem_cons]
      split_ifs with h1
      · simp [h1]
      · rw [h.hv]; simp [Ne.symm h1]
    · intro j
      dsimp only
      rw [getElem?_set' hil]
      split_ifs with h1
      · subst h1; simp [hnd.1]
      · rw [h.hq, hq, List.mem_cons]; simp [Ne.symm h1]
    · rw [List.nodup_cons]; exact ⟨hnv, h.vnd⟩

/-- the cell lies in the seed box -/
def InSeed (b : BFill) (g : Grid K α) (i : ℕ) : Prop :=
  (b.seedRows.1 ≤ i / g.cols.length ∧ i / g.cols.length ≤ b.seedRows.2) ∧
    (b.seedCols.1 ≤ i % g.cols.length ∧ i % g.cols.length ≤ b.seedCols.2)

instance (b : BFill) (g : Grid K α) (i : ℕ) : Decidable (b.InSeed g i) := by unfold InSeed; infer_instance

theorem report_spec {g : Grid K α} {b : BFill} {vis : List ℕ} (h : b.Inv g.size vis) {i : ℕ} (hi : i < g.size) (pos : GeoPosition) :
    ∃ b', b.report g i pos = some b' ∧ b'.Inv g.size vis ∧ b'.seedRows = b.seedRows ∧ b'.seedCols = b.seedCols ∧ b'.nVisited = b.nVisited ∧
      (b'.seeded = (b.seeded || decide (pos = .interior))) ∧
      (∀ j, j ∈ b'.queue ↔ (j ∈ b.queue ∧ ¬ (b.seeded = false ∧ pos = .interior)) ∨
        (j ∈ g.neighbors i ∧ j ∉ vis ∧ (pos = .interior ∨ (b.seeded = false ∧ b.InSeed g i)))) := by
  have hn : ∀ j ∈ g.neighbors i, j < g.size := fun j hj => g.neighbors_lt hi hj
  cases hs : b.seeded with
  | true =>
    cases pos with
    | interior =>
      obtain ⟨b2, e2, i2, q2, s2, r2, c2, n2⟩ := queueNeighbors_spec h hn
      refine ⟨b2, by unfold report; rw [hs]; exact e2, i2, r2, c2, n2, by rw [s2, hs]; rfl, fun j => ?_⟩
      rw [q2]; simp
    | exterior =>
      refine ⟨b, by unfold report; rw [hs]; rfl, h, rfl, rfl, rfl, by rw [hs]; rfl, fun j => ?_⟩
      simp
  | false =>
    cases pos with
    | interior =>
      obtain ⟨st, e1, l1, g1⟩ := dequeue_spec b.queue b.state (fun j hj => (h.hq j).2 hj) h.qnd
      have hb1 : ({ b with seeded := true, queue := [], state := st } : BFill).Inv g.size vis := by
        refine ⟨by rw [← h.len]; exact l1, ?_, ?_, h.vnd, List.nodup_nil⟩
        · intro j
          dsimp only
          rw [g1]
          split_ifs with hj
          · have := (h.hq j).2 hj
            rw [← h.hv, this]; simp
          · exact h.hv j
        · intro j
          dsimp only
          rw [g1]
          split_ifs with hj
          · simp
          · rw [h.hq]; simp [hj]
      obtain ⟨b2, e2, i2, q2, s2, r2, c2, n2⟩ := queueNeighbors_spec hb1 hn
      refine ⟨b2, ?_, i2, r2, c2, n2, by rw [s2]; rfl, fun j => ?_⟩
      · unfold report
        rw [hs]
        dsimp only
        rw [e1]
        exact e2
      · rw [q2]; simp
    | exterior =>
      have hrc : g.toRowCol i = some (i / g.cols.length, i % g.cols.length) := by
        unfold Grid.toRowCol
        exact if_pos hi
      by_cases hin : b.InSeed g i
      · obtain ⟨b2, e2, i2, q2, s2, r2, c2, n2⟩ := queueNeighbors_spec h hn
        refine ⟨b2, ?_, i2, r2, c2, n2, by rw [s2, hs]; rfl, fun j => ?_⟩
        · unfold report
          rw [hs, hrc]
          have h1 := hin.1
          have h2 := hin.2
          simp only [Option.map_some, Option.bind_some, h1, h2, and_self, decide_true, Bool.and_self, if_true]
          exact e2
        · rw [q2]; simp [hin]
      · refine ⟨b, ?_, h, rfl, rfl, rfl, by rw [hs]; rfl, fun j => ?_⟩
        · unfold report
          rw [hs, hrc]
          have h1 : (decide (b.seedRows.1 ≤ i / g.cols.length ∧ i / g.cols.length ≤ b.seedRows.2) &&
              decide (b.seedCols.1 ≤ i % g.cols.length ∧ i % g.cols.length ≤ b.seedCols.2)) = false := by
            rw [← Bool.not_eq_true, Bool.and_eq_true, decide_eq_true_eq, decide_eq_true_eq]
            exact hin
          simp only [Option.map_some, Option.bind_some, h1]
          rfl
        · simp [hin]

/-! ## Runs -/

/-- The history of a fill: the cells popped so far (latest first) with the positions
reported for them, and the state after the last report. -/
inductive Run (g : Grid K α) (b0 : BFill) : List (ℕ × GeoPosition) → BFill → Prop
  | start : Run g b0 [] b0
  | step {tr : List (ℕ × GeoPosition)} {b b1 b2 : BFill} {i : ℕ} {pos : GeoPosition} : Run g b0 tr b → b.pop = some (some i, b1) →
      b1.report g i pos = some b2 → Run g b0 ((i, pos) :: tr) b2

/-- what holds along every run -/
structure RunInv (g : Grid K α) (b0 : BFill) (m : ℕ) (tr : List (ℕ × GeoPosition)) (b : BFill) : Prop where
  inv : b.Inv g.size (tr.map (·.1))
  rows : b.seedRows = b0.seedRows
  cols : b.seedCols = b0.seedCols
  count : b.nVisited = tr.length
  seeded : b.seeded = true ↔ ∃ i, (i, GeoPosition.interior) ∈ tr
  first : tr = [] → b.queue = [m]
  start : tr ≠ [] → m ∈ tr.map (·.1)
  /-- unseeded: the neighbours of visited cells in the seed box are visited or queued -/
  box : b.seeded = false → ∀ i ∈ tr.map (·.1), b.InSeed g i → ∀ j ∈ g.neighbors i, j ∈ tr.map (·.1) ∨ j ∈ b.queue
  /-- the neighbours of cells inside the boundary are visited or queued -/
  grow : ∀ i, (i, GeoPosition.interior) ∈ tr → ∀ j ∈ g.neighbors i, j ∈ tr.map (·.1) ∨ j ∈ b.queue

theorem Run.inv {g : Grid K α} {b0 : BFill} {m : ℕ} (h0 : b0.Inv g.size []) (hq : b0.queue = [m]) (hs : b0.seeded = false)
    (hn : b0.nVisited = 0) {tr : List (ℕ × GeoPosition)} {b : BFill} (h : Run g b0 tr b) : RunInv g b0 m tr b := by
  induction h with
  | start =>
    exact ⟨h0, rfl, rfl, hn, by simp [hs], fun _ => hq, fun h => absurd rfl h, fun _ i hi => absurd hi (by simp),
      fun i hi => absurd hi (by simp)⟩
  | step hrun hpop hrep ih =>
    rename_i tr b b1 b2 i pos
    rcases pop_spec ih.inv with ⟨_, hp⟩ | ⟨i', q, b', eq, hp, inv1, q1, hnv, hlt, s1, r1, c1, n1⟩
    · rw [hp] at hpop; simp at hpop
    rw [hp] at hpop
    obtain ⟨rfl, rfl⟩ : i' = i ∧ b' = b1 := by simpa using hpop
    obtain ⟨b'', hr, inv2, r2, c2, n2, s2, q2⟩ := report_spec inv1 hlt pos
    rw [hr] at hrep
    obtain rfl := Option.some.inj hrep
    have hin : ∀ j, b''.InSeed g j ↔ b.InSeed g j := fun j => by unfold InSeed; rw [r2, c2, r1, c1]
    have hin' : ∀ j, b'.InSeed g j ↔ b.InSeed g j := fun j => by unfold InSeed; rw [r1, c1]
    -- a cell that was visited or queued before stays so, unless the queue is emptied
    have keep : ∀ j, j ∈ tr.map (·.1) ∨ j ∈ b.queue → ¬ (b.seeded = false ∧ pos = .interior) → j ∈ ((i', pos) :: tr).map (·.1) ∨ j ∈ b''.queue := by
      intro j hj hne
      rw [List.map_cons, List.mem_cons]
      rcases hj with hj | hj
      · exact .inl (.inr hj)
      · rw [eq, List.mem_cons] at hj
        rcases hj with rfl | hj
        · exact .inl (.inl rfl)
        · refine .inr ((q2 j).2 (.inl ⟨?_, by rw [s1]; exact hne⟩))
          rw [q1]; exact hj
    have new : ∀ j ∈ g.neighbors i', (pos = .interior ∨ (b.seeded = false ∧ b.InSeed g i')) →
        j ∈ ((i', pos) :: tr).map (·.1) ∨ j ∈ b''.queue := by
      intro j hj hc
      by_cases hv : j ∈ ((i', pos) :: tr).map (·.1)
      · exact .inl hv
      · refine .inr ((q2 j).2 (.inr ⟨hj, hv, ?_⟩))
        rw [s1, hin']
        exact hc
    refine ⟨inv2, r2.trans (r1.trans ih.rows), c2.trans (c1.trans ih.cols), ?_, ?_, fun h => absurd h (by simp), ?_, ?_, ?_⟩
    · rw [n2, n1, ih.count]; rfl
    · rw [s2, s1]
      cases hb : b.seeded with
      | true =>
        obtain ⟨j, hj⟩ := ih.seeded.1 hb
        simp only [Bool.true_or, true_iff]
        exact ⟨j, by simp [hj]⟩
      | false =>
        have : ¬ ∃ i, (i, GeoPosition.interior) ∈ tr := fun hc => by rw [ih.seeded.2 hc] at hb; exact absurd hb (by simp)
        simp only [Bool.false_or, decide_eq_true_eq, List.mem_cons, Prod.mk.injEq]
        constructor
        · intro h; exact ⟨i', .inl ⟨rfl, h.symm⟩⟩
        · rintro ⟨j, (⟨_, h⟩ | h)⟩
          · exact h.symm
          · exact absurd ⟨j, h⟩ this
    · intro _
      rw [List.map_cons, List.mem_cons]
      by_cases ht : tr = []
      · have := ih.first ht
        rw [eq] at this
        left
        exact (List.cons.inj this).1.symm
      · exact .inr (ih.start ht)
    · intro hus j hj hjs k hk
      rw [s2, s1, Bool.or_eq_false_iff, decide_eq_false_iff_not] at hus
      rw [hin] at hjs
      rw [List.map_cons, List.mem_cons] at hj
      rcases hj with rfl | hj
      · exact new k hk (.inr ⟨hus.1, hjs⟩)
      · exact keep k (ih.box hus.1 j hj hjs k hk) fun h => hus.2 h.2
    · intro j hj k hk
      rw [List.mem_cons, Prod.mk.injEq] at hj
      rcases hj with ⟨rfl, hpi⟩ | hj
      · exact new k hk (.inl hpi.symm)
      · refine keep k (ih.grow j hj k hk) fun h => ?_
        have := ih.seeded.2 ⟨j, hj⟩
        rw [h.1] at this
        exact absurd this (by simp)

/-! ## What a finished run has visited -/

/-- a set of cells that contains a cell of a box and all neighbours of its cells in
the box contains the box -/
theorem box_connected {g : Grid K α} {V : ℕ → Prop} {sr sc : ℕ × ℕ} (hr : sr.2 < g.rows.length) (hc : sc.2 < g.cols.length) {m : ℕ}
    (hmV : V m) (hmr : sr.1 ≤ m / g.cols.length ∧ m / g.cols.length ≤ sr.2)
    (hmc : sc.1 ≤ m % g.cols.length ∧ m % g.cols.length ≤ sc.2)
    (hcl : ∀ i < g.size, V i → (sr.1 ≤ i / g.cols.length ∧ i / g.cols.length ≤ sr.2) →
      (sc.1 ≤ i % g.cols.length ∧ i % g.cols.length ≤ sc.2) → ∀ j ∈ g.neighbors i, V j)
    {r c : ℕ} (h1 : sr.1 ≤ r ∧ r ≤ sr.2) (h2 : sc.1 ≤ c ∧ c ≤ sc.2) : V (r * g.cols.length + c) := by
  have step : ∀ r c r' c', (sr.1 ≤ r ∧ r ≤ sr.2) → (sc.1 ≤ c ∧ c ≤ sc.2) → (sr.1 ≤ r' ∧ r' ≤ sr.2) → (sc.1 ≤ c' ∧ c' ≤ sc.2) →
      (r' ≤ r + 1 ∧ r ≤ r' + 1) → (c' ≤ c + 1 ∧ c ≤ c' + 1) → V (r * g.cols.length + c) → V (r' * g.cols.length + c') := by
    intro r c r' c' a1 a2 a3 a4 a5 a6 hV
    by_cases he : r' * g.cols.length + c' = r * g.cols.length + c
    · rw [he]; exact hV
    · have hc1 : c < g.cols.length := by omega
      have hc1' : c' < g.cols.length := by omega
      refine hcl _ (Grid.index_lt (by omega) hc1) hV ?_ ?_ _ ((g.mem_neighbors (Grid.index_lt (by omega) hc1) he).2 ⟨Grid.index_lt (by omega) hc1', ?_, ?_⟩)
      · rw [Grid.index_div hc1]; exact a1
      · rw [Grid.index_mod hc1]; exact a2
      · rw [Grid.index_div hc1, Grid.index_div hc1']; exact a5
      · rw [Grid.index_mod hc1, Grid.index_mod hc1']; exact a6
  have hm0 : V (m / g.cols.length * g.cols.length + m % g.cols.length) := by rw [Grid.div_mul_add_mod]; exact hmV
  have rows : ∀ d r', (sr.1 ≤ r' ∧ r' ≤ sr.2) → (r' = m / g.cols.length + d ∨ r' + d = m / g.cols.length) → V (r' * g.cols.length + m % g.cols.length) := by
    intro d
    induction d with
    | zero => intro r' _ hd; rw [show r' = m / g.cols.length from by omega]; exact hm0
    | succ d ih =>
      intro r' hr' hd
      rcases hd with hd | hd
      · exact step (r' - 1) _ _ _ (by omega) hmc hr' hmc (by omega) (by omega) (ih (r' - 1) (by omega) (by omega))
      · exact step (r' + 1) _ _ _ (by omega) hmc hr' hmc (by omega) (by omega) (ih (r' + 1) (by omega) (by omega))
  have hrow : V (r * g.cols.length + m % g.cols.length) := by
    rcases le_total r (m / g.cols.length) with h | h
    · exact rows (m / g.cols.length - r) r h1 (by omega)
    · exact rows (r - m / g.cols.length) r h1 (by omega)
  have cols : ∀ d c', (sc.1 ≤ c' ∧ c' ≤ sc.2) → (c' = m % g.cols.length + d ∨ c' + d = m % g.cols.length) → V (r * g.cols.length + c') := by
    intro d
    induction d with
    | zero => intro c' _ hd; rw [show c' = m % g.cols.length from by omega]; exact hrow
    | succ d ih =>
      intro c' hc' hd
      rcases hd with hd | hd
      · exact step _ (c' - 1) _ _ h1 (by omega) h1 hc' (by omega) (by omega) (ih (c' - 1) (by omega) (by omega))
      · exact step _ (c' + 1) _ _ h1 (by omega) h1 hc' (by omega) (by omega) (ih (c' + 1) (by omega) (by omega))
  rcases le_total c (m % g.cols.length) with h | h
  · exact cols (m % g.cols.length - c) c h2 (by omega)
  · exact cols (c - m % g.cols.length) c h2 (by omega)

/-- `b` is a fill that has just been created or reset on the grid with this seed box -/
def Started (g : Grid K α) (box : AARect K) (b : BFill) : Prop :=
  BFill.new g box = some b ∨ ∃ b', b'.state.length = g.rows.length * g.cols.length ∧ BFill.reset b' g box = some b

theorem start_spec {g : Grid K α} (hg : g.WF) (hr : g.rows ≠ []) (hc : g.cols ≠ []) {box : AARect K} (hx : box.xMin ≤ box.xMax)
    (hy : box.yMin ≤ box.yMax) (b' : BFill) (hb' : b'.state.length = g.rows.length * g.cols.length) :
    ∃ b m, BFill.new g box = some b ∧ b'.reset g box = some b ∧ b.Inv g.size [] ∧ b.queue = [m] ∧ b.seeded = false ∧
      b.nVisited = 0 ∧ m < g.size ∧ b.InSeed g m ∧ b.seedRows = g.rowsInRange box.yMin box.yMax ∧ b.seedCols = g.colsInRange box.xMin box.xMax := by
  have h1 := Grid.inRange_spec hg.rows hr hy
  have h2 := Grid.inRange_spec hg.cols hc hx
  obtain ⟨b, m, e, inv, q, s, r, c, n, hm, m1, m2⟩ := initQueue_spec (g := g) (sr := g.rowsInRange box.yMin box.yMax)
    (sc := g.colsInRange box.xMin box.xMax) rfl ⟨h1.1, h1.2.1⟩ ⟨h2.1, h2.2.1⟩
  refine ⟨b, m, e, ?_, inv, q, s, n, hm, ?_, r, c⟩
  · unfold reset
    rw [List.map_const', hb']
    exact e
  · unfold InSeed
    rw [r, c]
    exact ⟨m1, m2⟩

theorem Started.spec {g : Grid K α} (hg : g.WF) (hr : g.rows ≠ []) (hc : g.cols ≠ []) {box : AARect K} (hx : box.xMin ≤ box.xMax)
    (hy : box.yMin ≤ box.yMax) {b : BFill} (h : Started g box b) :
    ∃ m, b.Inv g.size [] ∧ b.queue = [m] ∧ b.seeded = false ∧
      b.nVisited = 0 ∧ m < g.size ∧ b.InSeed g m ∧ b.seedRows = g.rowsInRange box.yMin box.yMax ∧ b.seedCols = g.colsInRange box.xMin box.xMax := by
  rcases h with h | ⟨b', hb', h⟩
  · obtain ⟨b0, m, e, _, rest⟩ := start_spec hg hr hc hx hy ⟨List.replicate _ .notQueued, (0, 0), (0, 0), [], 0, false⟩ (List.length_replicate ..)
    rw [h] at e
    obtain rfl := Option.some.inj e
    exact ⟨m, rest⟩
  · obtain ⟨b0, m, _, e, rest⟩ := start_spec hg hr hc hx hy b' hb'
    rw [h] at e
    obtain rfl := Option.some.inj e
    exact ⟨m, rest⟩

theorem Run.finished {g : Grid K α} (hg : g.WF) (hr : g.rows ≠ []) (hc : g.cols ≠ []) {box : AARect K} (hx : box.xMin ≤ box.xMax)
    (hy : box.yMin ≤ box.yMax) {b0 : BFill} (h0 : Started g box b0) {tr : List (ℕ × GeoPosition)} {b : BFill} (h : Run g b0 tr b)
    (hq : b.queue = []) :
    (∀ i, (i, GeoPosition.interior) ∈ tr → ∀ j ∈ g.neighbors i, j ∈ tr.map (·.1)) ∧
    ((∃ i, (i, GeoPosition.interior) ∈ tr) ∨
      ∀ r c, (g.rowsInRange box.yMin box.yMax).1 ≤ r → r ≤ (g.rowsInRange box.yMin box.yMax).2 →
        (g.colsInRange box.xMin box.xMax).1 ≤ c → c ≤ (g.colsInRange box.xMin box.xMax).2 →
        (r * g.cols.length + c, GeoPosition.exterior) ∈ tr) := by
  obtain ⟨m, inv, hq0, hs0, hn0, hm, hms, hrow, hcol⟩ := h0.spec hg hr hc hx hy
  have hi := h.inv inv hq0 hs0 hn0
  refine ⟨fun i hi' j hj => ?_, ?_⟩
  · rcases hi.grow i hi' j hj with h1 | h1
    · exact h1
    · rw [hq] at h1; simp at h1
  by_cases hsd : b.seeded = true
  · exact .inl (hi.seeded.1 hsd)
  right
  have hsd' : b.seeded = false := by simpa using hsd
  intro r c a1 a2 a3 a4
  have hne : tr ≠ [] := fun hc => by have := hi.first hc; rw [hq] at this; simp at this
  have h1 := Grid.inRange_spec hg.rows hr hy
  have h2 := Grid.inRange_spec hg.cols hc hx
  have hin : ∀ j, b.InSeed g j ↔ b0.InSeed g j := fun j => by unfold InSeed; rw [hi.rows, hi.cols]
  have := box_connected (g := g) (V := fun j => j ∈ tr.map (·.1)) (sr := b0.seedRows) (sc := b0.seedCols) (by rw [hrow]; exact h1.2.1) (by rw [hcol]; exact h2.2.1)
    (hi.start hne) hms.1 hms.2 (fun i _ hV b1 b2 j hj => by
      rcases hi.box hsd' i hV ((hin i).2 ⟨b1, b2⟩) j hj with h1 | h1
      · exact h1
      · rw [hq] at h1; simp at h1) (r := r) (c := c) (by rw [hrow]; exact ⟨a1, a2⟩) (by rw [hcol]; exact ⟨a3, a4⟩)
  obtain ⟨⟨j, p⟩, hj, he⟩ := List.mem_map.1 this
  dsimp only at he
  subst he
  cases p with
  | interior => exact absurd (hi.seeded.2 ⟨_, hj⟩) hsd
  | exterior => exact hj

end BFill

end Jagua
