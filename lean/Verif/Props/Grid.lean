import Verif.Lemmas.BFill

/-!
# Grids and the boundary fill: C16, C17
-/

set_option linter.unusedSectionVars false

namespace Jagua

variable {K : Type*} [LinearOrder K] {α : Type*}

/-! ## C17 -/

/-- **C17** (indices). Inside the grid, row/column and linear index are inverse to each
other; outside, both conversions are rejected. -/
theorem C17_index_bijection (g : Grid K α) :
    (∀ r c i, g.toIndex r c = some i ↔ g.toRowCol i = some (r, c)) ∧
    (∀ r c, g.toIndex r c = none ↔ ¬ (r < g.rows.length ∧ c < g.cols.length)) ∧
    (∀ i, g.toRowCol i = none ↔ ¬ i < g.rows.length * g.cols.length) ∧
    (∀ r c i, g.toIndex r c = some i → i < g.rows.length * g.cols.length) := by
  have h1 : ∀ r c i, g.toIndex r c = some i ↔ r < g.rows.length ∧ c < g.cols.length ∧ i = r * g.cols.length + c :=
    fun r c i => Grid.calculateIndex_some
  refine ⟨fun r c i => ?_, fun r c => ?_, fun i => ?_, fun r c i h => ?_⟩
  · rw [h1]
    unfold Grid.toRowCol
    constructor
    · rintro ⟨hr, hc, rfl⟩
      rw [if_pos (Grid.index_lt hr hc), Grid.index_div hc, Grid.index_mod hc]
    · intro h
      split_ifs at h with hi
      obtain ⟨rfl, rfl⟩ := Prod.mk.inj (Option.some.inj h)
      exact ⟨Grid.div_lt_of hi, Grid.mod_lt_of hi, (Grid.div_mul_add_mod i _).symm⟩
  · unfold Grid.toIndex Grid.calculateIndex
    split_ifs with h <;> simp [h]
  · unfold Grid.toRowCol
    split_ifs with h <;> simp [h]
  · obtain ⟨hr, hc, rfl⟩ := (h1 r c i).1 h
    exact Grid.index_lt hr hc

/-- **C17** (construction). Building a grid never panics. Its rows and columns are the
distinct coordinates in increasing order; if no two elements share a position, each
element is stored at the row and column of its coordinates and nothing else is. -/
theorem C17_construction (es : List (α × Point K)) :
    ∃ g : Grid K α, Grid.new es = some g ∧ g.rows.Pairwise (· < ·) ∧ g.cols.Pairwise (· < ·) ∧
      g.cells.length = g.rows.length * g.cols.length ∧
      (∀ y, y ∈ g.rows ↔ ∃ e ∈ es, e.2.y = y) ∧ (∀ x, x ∈ g.cols ↔ ∃ e ∈ es, e.2.x = x) ∧
      ((es.map (·.2)).Nodup → ∀ r c y x i, g.rows[r]? = some y → g.cols[c]? = some x → g.toIndex r c = some i →
        ∀ a, g.cells[i]? = some (some a) ↔ (a, (⟨x, y⟩ : Point K)) ∈ es) := by
  obtain ⟨g, h1, h2, h3, h4, h5⟩ := Grid.new_spec es
  refine ⟨g, h1, h2.rows, h2.cols, h2.length, h3, h4, fun hn r c y x i hr hc hi a => ?_⟩
  obtain ⟨_, _, rfl⟩ := Grid.calculateIndex_some.1 hi
  exact h5 hn r c y x hr hc a

/-- three elements in two rows and three columns -/
def exGridElements : List (String × Point ℚ) := [("a", ⟨2, 1⟩), ("b", ⟨5, 1⟩), ("c", ⟨3, 4⟩)]

example : (exGridElements.map (·.2)).Nodup := by decide +kernel

example : (Grid.new exGridElements).map (fun g => (g.cells, g.rows, g.cols)) =
    some ([some "a", none, some "b", none, some "c", none], [1, 4], [2, 3, 5]) := by decide +kernel

/-- **C17** (ranges). For a grid built from at least one element, the row range of an
interval is within the grid and contains every row in the interval; moreover it covers
the interval as far as the grid reaches. Likewise for columns. -/
theorem C17_ranges {es : List (α × Point K)} (hne : es ≠ []) {g : Grid K α} (hg : Grid.new es = some g) {lo hi : K} (h : lo ≤ hi) :
    ((g.rowsInRange lo hi).1 ≤ (g.rowsInRange lo hi).2 ∧ (g.rowsInRange lo hi).2 < g.rows.length ∧
      (∀ r (hr : r < g.rows.length), lo ≤ g.rows[r] → g.rows[r] ≤ hi → (g.rowsInRange lo hi).1 ≤ r ∧ r ≤ (g.rowsInRange lo hi).2) ∧
      ((g.rowsInRange lo hi).1 = 0 ∨ ∀ y, g.rows[(g.rowsInRange lo hi).1]? = some y → y ≤ lo) ∧
      ((g.rowsInRange lo hi).2 = g.rows.length - 1 ∨ ∀ y, g.rows[(g.rowsInRange lo hi).2]? = some y → hi ≤ y)) ∧
    ((g.colsInRange lo hi).1 ≤ (g.colsInRange lo hi).2 ∧ (g.colsInRange lo hi).2 < g.cols.length ∧
      (∀ c (hc : c < g.cols.length), lo ≤ g.cols[c] → g.cols[c] ≤ hi → (g.colsInRange lo hi).1 ≤ c ∧ c ≤ (g.colsInRange lo hi).2) ∧
      ((g.colsInRange lo hi).1 = 0 ∨ ∀ x, g.cols[(g.colsInRange lo hi).1]? = some x → x ≤ lo) ∧
      ((g.colsInRange lo hi).2 = g.cols.length - 1 ∨ ∀ x, g.cols[(g.colsInRange lo hi).2]? = some x → hi ≤ x)) := by
  obtain ⟨g', h1, h2, h3, h4, _⟩ := Grid.new_spec es
  rw [hg] at h1
  obtain rfl := Option.some.inj h1
  obtain ⟨e, he⟩ := List.exists_mem_of_ne_nil es hne
  exact ⟨Grid.inRange_spec h2.rows (List.ne_nil_of_mem ((h3 _).2 ⟨e, he, rfl⟩)) h,
    Grid.inRange_spec h2.cols (List.ne_nil_of_mem ((h4 _).2 ⟨e, he, rfl⟩)) h⟩

example : (Grid.new exGridElements).map (fun g => (g.rowsInRange 2 3, g.colsInRange (5 / 2) 4, g.colsInRange 6 7)) =
    some ((0, 1), (0, 2), (2, 2)) := by decide +kernel

/-- **C17** (neighbours). The neighbours of a cell, apart from the cell itself, are
exactly the cells of the grid whose row and column differ by at most one. -/
theorem C17_neighbors (g : Grid K α) {i r c : ℕ} (hi : g.toRowCol i = some (r, c)) (j : ℕ) (hne : j ≠ i) :
    j ∈ g.neighbors i ↔ ∃ r' c', g.toRowCol j = some (r', c') ∧ (r' ≤ r + 1 ∧ r ≤ r' + 1) ∧ (c' ≤ c + 1 ∧ c ≤ c' + 1) := by
  unfold Grid.toRowCol at hi ⊢
  split_ifs at hi with h
  obtain ⟨rfl, rfl⟩ := Prod.mk.inj (Option.some.inj hi)
  rw [g.mem_neighbors h hne]
  constructor
  · rintro ⟨h1, h2, h3⟩
    exact ⟨_, _, if_pos h1, h2, h3⟩
  · rintro ⟨r', c', h1, h2, h3⟩
    split_ifs at h1 with h4
    obtain ⟨rfl, rfl⟩ := Prod.mk.inj (Option.some.inj h1)
    exact ⟨h4, h2, h3⟩

example : (Grid.new exGridElements).map (fun g => (g.toRowCol 2, g.neighbors 2)) =
    some (some (0, 2), [2, 2, 2, 1, 2, 4, 5, 2]) := by decide +kernel

/-! ## C16 -/

/-- the grid of at least one element -/
theorem Grid.new_wf {es : List (α × Point K)} (hne : es ≠ []) {g : Grid K α} (hg : Grid.new es = some g) : g.WF ∧ g.rows ≠ [] ∧ g.cols ≠ [] := by
  obtain ⟨g', h1, h2, h3, h4, _⟩ := Grid.new_spec es
  rw [hg] at h1
  obtain rfl := Option.some.inj h1
  obtain ⟨e, he⟩ := List.exists_mem_of_ne_nil es hne
  exact ⟨h2, List.ne_nil_of_mem ((h3 _).2 ⟨e, he, rfl⟩), List.ne_nil_of_mem ((h4 _).2 ⟨e, he, rfl⟩)⟩

/-- **C16** (starting). Creating a fill, or resetting one of the same grid, never
panics. -/
theorem C16_start {es : List (α × Point K)} (hne : es ≠ []) {g : Grid K α} (hg : Grid.new es = some g) {box : AARect K}
    (hx : box.xMin ≤ box.xMax) (hy : box.yMin ≤ box.yMax) :
    (∃ b, BFill.new g box = some b) ∧
      ∀ (box0 : AARect K) (b0 b : BFill) (tr : List (ℕ × GeoPosition)), BFill.new g box0 = some b0 → BFill.Run g b0 tr b →
        box0.xMin ≤ box0.xMax → box0.yMin ≤ box0.yMax →
        ∃ b', b.reset g box = some b' ∧ BFill.new g box = some b' ∧ BFill.Started g box b' := by
  obtain ⟨h1, h2, h3⟩ := Grid.new_wf hne hg
  constructor
  · obtain ⟨b, m, e, _⟩ := BFill.start_spec h1 h2 h3 hx hy ⟨List.replicate _ .notQueued, (0, 0), (0, 0), [], 0, false⟩ (List.length_replicate ..)
    exact ⟨b, e⟩
  · intro box0 b0 b tr hb0 hrun hx0 hy0
    obtain ⟨m, inv, hq0, hs0, hn0, _⟩ := BFill.Started.spec h1 h2 h3 hx0 hy0 (.inl hb0)
    have hl := (hrun.inv inv hq0 hs0 hn0).inv.len
    obtain ⟨b', m, e, e', _⟩ := BFill.start_spec h1 h2 h3 hx hy b hl
    exact ⟨b', e', e, .inl e⟩

/-- **C16** (visits). After any sequence of reports, the cells returned so far are
pairwise different cells of the grid, so there are at most as many as cells, and the
counter of visited cells is right. -/
theorem C16_visits_once {es : List (α × Point K)} (hne : es ≠ []) {g : Grid K α} (hg : Grid.new es = some g) {box : AARect K}
    (hx : box.xMin ≤ box.xMax) (hy : box.yMin ≤ box.yMax) {b0 b : BFill} (h0 : BFill.Started g box b0)
    {tr : List (ℕ × GeoPosition)} (h : BFill.Run g b0 tr b) :
    (tr.map (·.1)).Nodup ∧ (∀ e ∈ tr, e.1 < g.cells.length) ∧ tr.length ≤ g.cells.length ∧ b.nVisited = tr.length := by
  obtain ⟨h1, h2, h3⟩ := Grid.new_wf hne hg
  obtain ⟨m, inv, hq0, hs0, hn0, _⟩ := h0.spec h1 h2 h3 hx hy
  have hi := h.inv inv hq0 hs0 hn0
  have hlt : ∀ e ∈ tr, e.1 < g.cells.length := fun e he => by
    rw [h1.length]
    exact hi.inv.vlt (List.mem_map.2 ⟨e, he, rfl⟩)
  refine ⟨hi.inv.vnd, hlt, ?_, hi.count⟩
  rw [← List.length_map (f := (·.1)), ← List.toFinset_card_of_nodup hi.inv.vnd, ← Finset.card_range g.cells.length]
  apply Finset.card_le_card
  intro j hj
  rw [List.mem_toFinset] at hj
  obtain ⟨e, he, rfl⟩ := List.mem_map.1 hj
  exact Finset.mem_range.2 (hlt e he)

/-- **C16** (no panic). Whatever has been reported, popping does not panic, and
neither does reporting any position for the popped cell. -/
theorem C16_never_panics {es : List (α × Point K)} (hne : es ≠ []) {g : Grid K α} (hg : Grid.new es = some g) {box : AARect K}
    (hx : box.xMin ≤ box.xMax) (hy : box.yMin ≤ box.yMax) {b0 b : BFill} (h0 : BFill.Started g box b0)
    {tr : List (ℕ × GeoPosition)} (h : BFill.Run g b0 tr b) :
    ∃ o b1, b.pop = some (o, b1) ∧ ∀ i, o = some i → ∀ pos, ∃ b2, b1.report g i pos = some b2 := by
  obtain ⟨h1, h2, h3⟩ := Grid.new_wf hne hg
  obtain ⟨m, inv, hq0, hs0, hn0, _⟩ := h0.spec h1 h2 h3 hx hy
  have hi := h.inv inv hq0 hs0 hn0
  rcases BFill.pop_spec hi.inv with ⟨_, hp⟩ | ⟨i, q, b', _, hp, inv1, _, _, hlt, _⟩
  · exact ⟨none, b, hp, fun i hc => by simp at hc⟩
  · refine ⟨some i, b', hp, fun j hj pos => ?_⟩
    obtain rfl := Option.some.inj hj
    obtain ⟨b2, e, _⟩ := BFill.report_spec inv1 hlt pos
    exact ⟨b2, e⟩

/-- **C16** (termination). However the positions of the cells are decided (possibly
depending on everything before), the fill ends after at most as many cells as the grid
has. -/
theorem C16_terminates {es : List (α × Point K)} (hne : es ≠ []) {g : Grid K α} (hg : Grid.new es = some g) {box : AARect K}
    (hx : box.xMin ≤ box.xMax) (hy : box.yMin ≤ box.yMax) {b0 : BFill} (h0 : BFill.Started g box b0)
    (decide : List (ℕ × GeoPosition) → ℕ → GeoPosition) :
    ∃ tr b b', BFill.Run g b0 tr b ∧ b.pop = some (none, b') ∧ tr.length ≤ g.cells.length ∧
      ∀ pre i pos suf, tr = suf ++ (i, pos) :: pre → pos = decide pre i := by
  have key : ∀ k tr b, BFill.Run g b0 tr b → (∀ pre i pos suf, tr = suf ++ (i, pos) :: pre → pos = decide pre i) →
      tr.length + k = g.cells.length + 1 →
      ∃ tr b b', BFill.Run g b0 tr b ∧ b.pop = some (none, b') ∧ ∀ pre i pos suf, tr = suf ++ (i, pos) :: pre → pos = decide pre i := by
    intro k
    induction k with
    | zero =>
      intro tr b hrun _ hl
      have := (C16_visits_once hne hg hx hy h0 hrun).2.2.1
      omega
    | succ k ih =>
      intro tr b hrun hd hl
      obtain ⟨o, b1, hp, hr⟩ := C16_never_panics hne hg hx hy h0 hrun
      cases o with
      | none => exact ⟨tr, b, b1, hrun, hp, hd⟩
      | some i =>
        obtain ⟨b2, h2⟩ := hr i rfl (decide tr i)
        refine ih _ b2 (hrun.step hp h2) ?_ (by rw [List.length_cons]; omega)
        intro pre j pos suf he
        cases suf with
        | nil =>
          obtain ⟨h3, rfl⟩ := List.cons.inj he
          obtain ⟨rfl, rfl⟩ := Prod.mk.inj h3
          rfl
        | cons x suf => exact hd pre j pos suf (List.cons.inj he).2
  obtain ⟨tr, b, b', h1, h2, h3⟩ := key (g.cells.length + 1) [] b0 .start (fun pre i pos suf he => by simp at he) (by simp)
  exact ⟨tr, b, b', h1, h2, (C16_visits_once hne hg hx hy h0 h1).2.2.1, h3⟩

/-- **C16** (nothing is skipped). When the fill ends, all neighbours of a cell reported
to be inside the boundary have been visited; and if no cell was inside, then every
cell of the grid in the rows and columns of the seed box has been visited. -/
theorem C16_complete {es : List (α × Point K)} (hne : es ≠ []) {g : Grid K α} (hg : Grid.new es = some g) {box : AARect K}
    (hx : box.xMin ≤ box.xMax) (hy : box.yMin ≤ box.yMax) {b0 b b' : BFill} (h0 : BFill.Started g box b0)
    {tr : List (ℕ × GeoPosition)} (h : BFill.Run g b0 tr b) (hend : b.pop = some (none, b')) :
    (∀ i, (i, GeoPosition.interior) ∈ tr → ∀ j ∈ g.neighbors i, j ∈ tr.map (·.1)) ∧
    ((∃ i, (i, GeoPosition.interior) ∈ tr) ∨
      ∀ (r c i : ℕ) (y x : K), g.toIndex r c = some i → g.rows[r]? = some y → g.cols[c]? = some x →
        box.yMin ≤ y → y ≤ box.yMax → box.xMin ≤ x → x ≤ box.xMax → (i, GeoPosition.exterior) ∈ tr) := by
  obtain ⟨h1, h2, h3⟩ := Grid.new_wf hne hg
  obtain ⟨k1, k2⟩ := h.finished h1 h2 h3 hx hy h0 (BFill.pop_none hend).1
  refine ⟨k1, k2.imp id fun k r c i y x hi hr hc a1 a2 a3 a4 => ?_⟩
  obtain ⟨_, _, rfl⟩ := Grid.calculateIndex_some.1 hi
  obtain ⟨hrl, hry⟩ := List.getElem?_eq_some_iff.1 hr
  obtain ⟨hcl, hcx⟩ := List.getElem?_eq_some_iff.1 hc
  have q1 := (Grid.inRange_spec h1.rows h2 hy).2.2.1 r hrl (by rw [hry]; exact a1) (by rw [hry]; exact a2)
  have q2 := (Grid.inRange_spec h1.cols h3 hx).2.2.1 c hcl (by rw [hcx]; exact a3) (by rw [hcx]; exact a4)
  exact k r c q1.1 q1.2 q2.1 q2.2

/-- a fill of the grid above that starts in cell 1, finds cell 1 outside, cell 0
inside, and then visits everything -/
def exFill (g : Grid ℚ String) : ℕ → BFill → List ℕ → Option (List ℕ × BFill)
  | 0, _, _ => none
  | n + 1, b, vis =>
    match b.pop with
    | none => none
    | some (none, b') => some (vis, b')
    | some (some i, b') => (b'.report g i (if i = 0 then .interior else .exterior)).bind fun b'' => exFill g n b'' (i :: vis)

example : (Grid.new exGridElements).bind (fun g => (BFill.new g ⟨2, 1, 5, 4⟩).bind fun b => (exFill g 10 b []).map fun r => (r.1, r.2.seeded)) =
    some ([4, 3, 0, 1], true) := by decide +kernel

end Jagua
