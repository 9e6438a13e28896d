import Verif.Model.Grid
import Mathlib.Tactic

/-!
# Lemmas about grids
-/

set_option linter.unusedSectionVars false

namespace Jagua

variable {K : Type*} [LinearOrder K] {α : Type*}

namespace Grid

theorem sortedUnique_sorted (l : List K) : (sortedUnique l).Pairwise (· < ·) := by
  have h1 := List.pairwise_insertionSort (· ≤ ·) l.dedup
  have h2 : (sortedUnique l).Nodup := ((List.perm_insertionSort (· ≤ ·) l.dedup).nodup_iff).2 l.nodup_dedup
  exact (h1.and h2).imp fun h => lt_of_le_of_ne h.1 h.2

theorem mem_sortedUnique {l : List K} {x : K} : x ∈ sortedUnique l ↔ x ∈ l := by
  unfold sortedUnique
  rw [List.mem_insertionSort, List.mem_dedup]

/-- in an increasing list, the smaller values come first -/
theorem countP_lt_spec {l : List K} (h : l.Pairwise (· < ·)) (x : K) :
    (∀ i (hi : i < l.length), i < l.countP (· < x) ↔ l[i] < x) := by
  induction l with
  | nil => intro i hi; simp at hi
  | cons a l ih =>
    rw [List.pairwise_cons] at h
    intro i hi
    rw [List.countP_cons]
    by_cases ha : a < x
    · simp only [ha, decide_true, if_true]
      cases i with
      | zero => simp [ha]
      | succ i =>
        have := ih h.2 i (by simpa using hi)
        rw [List.getElem_cons_succ, ← this]
        omega
    · have h0 : l.countP (· < x) = 0 := by
        rw [List.countP_eq_zero]
        intro b hb
        have := h.1 b hb
        simp only [decide_eq_true_eq]
        exact fun hc => ha (this.trans hc)
      simp only [ha, decide_false, h0]
      cases i with
      | zero => simp [ha]
      | succ i =>
        have := h.1 (l[i]'(by simpa using hi)) (List.getElem_mem _)
        rw [List.getElem_cons_succ]
        constructor
        · intro h; simp at h
        · exact fun hc => absurd (this.trans hc) ha

theorem search_inl {l : List K} {x : K} {i : ℕ} (h : search l x = .inl i) : l[i]? = some x := by
  unfold search at h
  dsimp only at h
  split_ifs at h with h1
  rw [← Sum.inl.inj h]
  exact h1

theorem search_mem {l : List K} (hs : l.Pairwise (· < ·)) {x : K} {i : ℕ} (h : l[i]? = some x) : search l x = .inl i := by
  obtain ⟨hi, hx⟩ := List.getElem?_eq_some_iff.1 h
  have hc : l.countP (· < x) = i := by
    have h1 := countP_lt_spec hs x
    apply le_antisymm
    · by_contra hc
      exact absurd ((h1 i hi).1 (by omega)) (by rw [hx]; exact lt_irrefl _)
    · by_contra hc
      have hlt : l.countP (· < x) < l.length := by omega
      have h2 := (h1 _ hlt).not.1 (by omega)
      have h3 := List.pairwise_iff_getElem.1 hs _ _ hlt hi (by omega)
      rw [hx] at h3
      exact h2 h3
  unfold search
  dsimp only
  rw [hc, if_pos h]

theorem search_inr {l : List K} (hs : l.Pairwise (· < ·)) {x : K} {i : ℕ} (h : search l x = .inr i) :
    i ≤ l.length ∧ ∀ j (hj : j < l.length), (j < i → l[j] < x) ∧ (i ≤ j → x < l[j]) := by
  unfold search at h
  dsimp only at h
  split_ifs at h with h1
  obtain rfl := Sum.inr.inj h
  refine ⟨List.countP_le_length, fun j hj => ⟨fun h => (countP_lt_spec hs x j hj).1 h, fun h => ?_⟩⟩
  have h2 := (countP_lt_spec hs x j hj).not.1 (by omega)
  refine lt_of_le_of_ne (not_lt.1 h2) fun he => h1 ?_
  have : search l x = .inl j := search_mem hs (by rw [List.getElem?_eq_getElem hj, he])
  unfold search at this
  dsimp only at this
  split_ifs at this

/-! ## Ranges -/

theorem inRange_spec {l : List K} (hs : l.Pairwise (· < ·)) (hne : l ≠ []) {lo hi : K} (h : lo ≤ hi) :
    (inRange l lo hi).1 ≤ (inRange l lo hi).2 ∧ (inRange l lo hi).2 < l.length ∧
    (∀ i (hi' : i < l.length), lo ≤ l[i] → l[i] ≤ hi → (inRange l lo hi).1 ≤ i ∧ i ≤ (inRange l lo hi).2) ∧
    ((inRange l lo hi).1 = 0 ∨ ∀ x, l[(inRange l lo hi).1]? = some x → x ≤ lo) ∧
    ((inRange l lo hi).2 = l.length - 1 ∨ ∀ x, l[(inRange l lo hi).2]? = some x → hi ≤ x) := by
  have hpos : 0 < l.length := List.length_pos_iff.2 hne
  have mono : ∀ i j (hi' : i < l.length) (hj : j < l.length), i < j → l[i] < l[j] := fun i j hi' hj hij =>
    List.pairwise_iff_getElem.1 hs i j hi' hj hij
  have hS : (inRange l lo hi).1 < l.length ∧ (∀ i (hi' : i < l.length), lo ≤ l[i] → (inRange l lo hi).1 ≤ i) ∧
      ((inRange l lo hi).1 = 0 ∨ ∀ x, l[(inRange l lo hi).1]? = some x → x ≤ lo) := by
    unfold inRange
    dsimp only
    cases hc : search l lo with
    | inl s =>
      have h1 := search_inl hc
      obtain ⟨hl, hx⟩ := List.getElem?_eq_some_iff.1 h1
      refine ⟨hl, fun i hi' hle => ?_, .inr fun x hx' => ?_⟩
      · by_contra hcon
        have := mono i s hi' hl (by dsimp only at hcon; omega)
        rw [hx] at this
        exact absurd hle (not_le.2 this)
      · dsimp only at hx'
        rw [h1] at hx'
        exact (Option.some.inj hx').symm.le
    | inr s =>
      obtain ⟨h1, h2⟩ := search_inr hs hc
      refine ⟨by dsimp only; omega, fun i hi' hle => ?_, ?_⟩
      · dsimp only
        by_contra hcon
        have := (h2 i hi').1 (by omega)
        exact absurd hle (not_le.2 this)
      · by_cases h0 : s = 0
        · exact .inl (by dsimp only; omega)
        · refine .inr fun x hx => ?_
          dsimp only at hx
          have hl : s - 1 < l.length := by omega
          rw [List.getElem?_eq_getElem hl] at hx
          rw [← Option.some.inj hx]
          exact ((h2 _ hl).1 (by omega)).le
  have hE : (inRange l lo hi).2 < l.length ∧ (∀ i (hi' : i < l.length), l[i] ≤ hi → i ≤ (inRange l lo hi).2) ∧
      ((inRange l lo hi).2 = l.length - 1 ∨ ∀ x, l[(inRange l lo hi).2]? = some x → hi ≤ x) := by
    unfold inRange
    dsimp only
    cases hc : search l hi with
    | inl s =>
      have h1 := search_inl hc
      obtain ⟨hl, hx⟩ := List.getElem?_eq_some_iff.1 h1
      refine ⟨hl, fun i hi' hle => ?_, .inr fun x hx' => ?_⟩
      · by_contra hcon
        have := mono s i hl hi' (by dsimp only at hcon; omega)
        rw [hx] at this
        exact absurd hle (not_le.2 this)
      · dsimp only at hx'
        rw [h1] at hx'
        exact (Option.some.inj hx').le
    | inr s =>
      obtain ⟨h1, h2⟩ := search_inr hs hc
      refine ⟨by dsimp only; omega, fun i hi' hle => ?_, ?_⟩
      · dsimp only
        by_contra hcon
        have := (h2 i hi').2 (by omega)
        exact absurd hle (not_le.2 this)
      · by_cases h0 : l.length - 1 ≤ s
        · exact .inl (by dsimp only; omega)
        · refine .inr fun x hx => ?_
          dsimp only at hx
          rw [min_eq_left (by omega)] at hx
          have hl : s < l.length := by omega
          rw [List.getElem?_eq_getElem hl] at hx
          rw [← Option.some.inj hx]
          exact ((h2 _ hl).2 (le_refl _)).le
  refine ⟨?_, hE.1, fun i hi' h1 h2 => ⟨hS.2.1 i hi' h1, hE.2.1 i hi' h2⟩, hS.2.2, hE.2.2⟩
  rcases hS.2.2 with h0 | hS2
  · omega
  · apply hE.2.1 _ hS.1
    exact (hS2 _ (List.getElem?_eq_getElem hS.1)).trans h

/-! ## Indices -/

theorem calculateIndex_some {r c nr nc i : ℕ} : calculateIndex r c nr nc = some i ↔ r < nr ∧ c < nc ∧ i = r * nc + c := by
  unfold calculateIndex
  split_ifs with h
  · simp only [Option.some.injEq, h, true_and]
    exact eq_comm
  · simp only [false_iff]
    exact fun hc => h ⟨hc.1, hc.2.1⟩

theorem index_lt {r c nr nc : ℕ} (hr : r < nr) (hc : c < nc) : r * nc + c < nr * nc := by
  have : (r + 1) * nc ≤ nr * nc := Nat.mul_le_mul_right _ hr
  rw [Nat.succ_mul] at this
  omega

theorem index_div {r c nc : ℕ} (hc : c < nc) : (r * nc + c) / nc = r := by
  rw [Nat.mul_comm, Nat.mul_add_div (by omega), Nat.div_eq_of_lt hc, Nat.add_zero]

theorem index_mod {r c nc : ℕ} (hc : c < nc) : (r * nc + c) % nc = c := by
  rw [Nat.mul_comm, Nat.mul_add_mod, Nat.mod_eq_of_lt hc]

theorem div_lt_of {i nr nc : ℕ} (h : i < nr * nc) : i / nc < nr := by
  rw [Nat.mul_comm] at h
  exact Nat.div_lt_of_lt_mul h

theorem mod_lt_of {i nr nc : ℕ} (h : i < nr * nc) : i % nc < nc := by
  apply Nat.mod_lt
  rcases Nat.eq_zero_or_pos nc with h0 | h0
  · rw [h0] at h; simp at h
  · exact h0

theorem div_mul_add_mod (i nc : ℕ) : i / nc * nc + i % nc = i := by rw [Nat.mul_comm]; exact Nat.div_add_mod i nc

/-- number of positions -/
def size (g : Grid K α) : ℕ := g.rows.length * g.cols.length

/-- the neighbours of a position: itself and all that differ by at most one in row
and column -/
theorem mem_neighbors (g : Grid K α) {i j : ℕ} (hi : i < g.size) (hne : j ≠ i) : j ∈ g.neighbors i ↔
    j < g.size ∧ (j / g.cols.length ≤ i / g.cols.length + 1 ∧ i / g.cols.length ≤ j / g.cols.length + 1) ∧
      (j % g.cols.length ≤ i % g.cols.length + 1 ∧ i % g.cols.length ≤ j % g.cols.length + 1) := by
  unfold size at *
  have hr := div_lt_of hi
  have hc := mod_lt_of hi
  have he := div_mul_add_mod i g.cols.length
  have hin : g.neighbors i = _ := rfl
  unfold neighbors at hin ⊢
  dsimp only
  generalize hR : i / g.cols.length = r at *
  generalize hC : i % g.cols.length = c at *
  generalize g.cols.length = nc at *
  generalize g.rows.length = nr at *
  have hmul : ∀ a, (a + 1) * nc = a * nc + nc := fun a => Nat.succ_mul a nc
  have key : ∀ r' c', r' < nr → c' < nc → (j = r' * nc + c' → j < nr * nc ∧ j / nc = r' ∧ j % nc = c') := by
    intro r' c' h1 h2 h3
    rw [h3]
    exact ⟨index_lt h1 h2, index_div h2, index_mod h2⟩
  simp only [List.mem_cons, List.not_mem_nil, or_false]
  constructor
  · intro h
    have fin : ∀ r' c', r' < nr → c' < nc → j = r' * nc + c' → (r' ≤ r + 1 ∧ r ≤ r' + 1) → (c' ≤ c + 1 ∧ c ≤ c' + 1) →
        j < nr * nc ∧ (j / nc ≤ r + 1 ∧ r ≤ j / nc + 1) ∧ (j % nc ≤ c + 1 ∧ c ≤ j % nc + 1) := by
      intro r' c' h1 h2 h3 h4 h5
      obtain ⟨k1, k2, k3⟩ := key r' c' h1 h2 h3
      rw [k2, k3]
      exact ⟨k1, h4, h5⟩
    have up : 0 < r → (r - 1) * nc + nc = r * nc := fun h => by rw [← hmul]; congr 1; omega
    rcases h with h | h | h | h | h | h | h | h
    all_goals
      split_ifs at h with hh
      all_goals first
        | exact absurd h hne
        | skip
    · have := up hh.1
      exact fin (r - 1) (c - 1) (by omega) (by omega) (by omega) (by omega) (by omega)
    · have := up hh
      exact fin (r - 1) c (by omega) (by omega) (by omega) (by omega) (by omega)
    · have := up hh.1
      exact fin (r - 1) (c + 1) (by omega) (by omega) (by omega) (by omega) (by omega)
    · exact fin r (c - 1) (by omega) (by omega) (by omega) (by omega) (by omega)
    · exact fin r (c + 1) (by omega) (by omega) (by omega) (by omega) (by omega)
    · have := hmul r
      exact fin (r + 1) (c - 1) (by omega) (by omega) (by omega) (by omega) (by omega)
    · have := hmul r
      exact fin (r + 1) c (by omega) (by omega) (by omega) (by omega) (by omega)
    · have := hmul r
      exact fin (r + 1) (c + 1) (by omega) (by omega) (by omega) (by omega) (by omega)
  · rintro ⟨h1, h2, h3⟩
    have hjr := div_lt_of h1
    have hjc := mod_lt_of h1
    have hje := div_mul_add_mod j nc
    generalize j / nc = r' at *
    generalize j % nc = c' at *
    have up : 0 < r → (r - 1) * nc + nc = r * nc := fun h => by rw [← hmul]; congr 1; omega
    have cr : r' + 1 = r ∨ r' = r ∨ r' = r + 1 := by omega
    have cc : c' + 1 = c ∨ c' = c ∨ c' = c + 1 := by omega
    rcases cr with hr1 | hr1 | hr1 <;> rcases cc with hc1 | hc1 | hc1
    · have e := up (by omega)
      rw [show r - 1 = r' from by omega] at e
      left; rw [if_pos (by omega)]; omega
    · have e := up (by omega)
      rw [show r - 1 = r' from by omega] at e
      right; left; rw [if_pos (by omega)]; omega
    · have e := up (by omega)
      rw [show r - 1 = r' from by omega] at e
      right; right; left; rw [if_pos (by omega)]; omega
    · subst hr1
      right; right; right; left; rw [if_pos (by omega)]; omega
    · subst hr1 hc1
      exact absurd (hje.symm.trans he) hne
    · subst hr1
      right; right; right; right; left; rw [if_pos (by omega)]; omega
    · have e := hmul r
      subst hr1
      right; right; right; right; right; left; rw [if_pos (by omega)]; omega
    · have e := hmul r
      subst hr1
      right; right; right; right; right; right; left; rw [if_pos (by omega)]; omega
    · have e := hmul r
      subst hr1
      right; right; right; right; right; right; right; rw [if_pos (by omega)]; omega

theorem neighbors_lt (g : Grid K α) {i j : ℕ} (hi : i < g.size) (hj : j ∈ g.neighbors i) : j < g.size := by
  by_cases h : j = i
  · rw [h]; exact hi
  · exact ((g.mem_neighbors hi h).1 hj).1

/-! ## Construction -/

/-- what `Grid::new` guarantees about the shape of the grid -/
structure WF (g : Grid K α) : Prop where
  rows : g.rows.Pairwise (· < ·)
  cols : g.cols.Pairwise (· < ·)
  length : g.cells.length = g.size

theorem store_spec {rows cols : List K} (hr : rows.Pairwise (· < ·)) (hc : cols.Pairwise (· < ·)) {cells : List (Option α)}
    (hl : cells.length = rows.length * cols.length) {e : α × Point K} {r c : ℕ} (h1 : rows[r]? = some e.2.y) (h2 : cols[c]? = some e.2.x) :
    store rows cols cells e = some (cells.set (r * cols.length + c) (some e.1)) := by
  have hr' := (List.getElem?_eq_some_iff.1 h1).1
  have hc' := (List.getElem?_eq_some_iff.1 h2).1
  unfold store
  rw [search_mem hr h1, search_mem hc h2]
  dsimp only
  rw [calculateIndex_some.2 ⟨hr', hc', rfl⟩, Option.bind_some, if_pos (by rw [hl]; exact index_lt hr' hc')]

theorem foldlM_store {rows cols : List K} (hr : rows.Pairwise (· < ·)) (hc : cols.Pairwise (· < ·)) (es : List (α × Point K))
    (hy : ∀ e ∈ es, e.2.y ∈ rows) (hx : ∀ e ∈ es, e.2.x ∈ cols) (cells : List (Option α)) (hl : cells.length = rows.length * cols.length) :
    ∃ cells', es.foldlM (store rows cols) cells = some cells' ∧ cells'.length = cells.length ∧
      (∀ r c y x, rows[r]? = some y → cols[c]? = some x →
        (∀ e ∈ es, ¬ (e.2.x = x ∧ e.2.y = y)) → cells'[r * cols.length + c]? = cells[r * cols.length + c]?) ∧
      ((es.map (·.2)).Nodup → ∀ r c y x, rows[r]? = some y → cols[c]? = some x →
        ∀ e ∈ es, e.2.x = x → e.2.y = y → cells'[r * cols.length + c]? = some (some e.1)) := by
  induction es generalizing cells with
  | nil => exact ⟨cells, rfl, rfl, fun _ _ _ _ _ _ _ => rfl, fun _ _ _ _ _ _ _ e he => absurd he (by simp)⟩
  | cons e es ih =>
    obtain ⟨r0, h1⟩ := List.mem_iff_getElem?.1 (hy e (by simp))
    obtain ⟨c0, h2⟩ := List.mem_iff_getElem?.1 (hx e (by simp))
    have hr' := (List.getElem?_eq_some_iff.1 h1).1
    have hc' := (List.getElem?_eq_some_iff.1 h2).1
    obtain ⟨cells', e1, e2, e3, e4⟩ := ih (fun e he => hy e (by simp [he])) (fun e he => hx e (by simp [he]))
      (cells.set (r0 * cols.length + c0) (some e.1)) (by rw [List.length_set, hl])
    have hinj : ∀ r c y x, rows[r]? = some y → cols[c]? = some x → (¬ (e.2.x = x ∧ e.2.y = y)) →
        r0 * cols.length + c0 ≠ r * cols.length + c := by
      intro r c y x k1 k2 k3 k4
      have hcc := (List.getElem?_eq_some_iff.1 k2).1
      have q1 := congrArg (· / cols.length) k4
      have q2 := congrArg (· % cols.length) k4
      rw [index_div hc', index_div hcc] at q1
      rw [index_mod hc', index_mod hcc] at q2
      subst q1 q2
      rw [h1] at k1
      rw [h2] at k2
      exact k3 ⟨Option.some.inj k2, Option.some.inj k1⟩
    refine ⟨cells', ?_, by rw [e2, List.length_set], ?_, ?_⟩
    · rw [List.foldlM_cons, store_spec hr hc hl h1 h2]
      exact e1
    · intro r c y x k1 k2 k3
      rw [e3 r c y x k1 k2 fun e' he' => k3 e' (by simp [he'])]
      exact List.getElem?_set_ne (hinj r c y x k1 k2 (k3 e (by simp)))
    · intro hnd r c y x k1 k2 e' he' hx' hy'
      rw [List.map_cons, List.nodup_cons] at hnd
      rcases List.mem_cons.1 he' with rfl | he'
      · rw [e3 r c y x k1 k2]
        · have : search rows y = .inl r0 := search_mem hr (by rw [h1, hy'])
          rw [search_mem hr k1] at this
          have : search cols x = .inl c0 := search_mem hc (by rw [h2, hx'])
          rw [search_mem hc k2] at this
          obtain rfl : r = r0 := by simp_all
          obtain rfl : c = c0 := by simp_all
          rw [List.getElem?_set_self (by rw [hl]; exact index_lt hr' hc')]
        · rintro e'' he'' ⟨q1, q2⟩
          refine hnd.1 (List.mem_map.2 ⟨e'', he'', ?_⟩)
          cases hp : e''.2; cases hq : e'.2
          simp_all
      · exact e4 hnd.2 r c y x k1 k2 e' he' hx' hy'

/-- `Grid::new` never panics; every element is found at the position of its
coordinates, and nothing else is. -/
theorem new_spec (es : List (α × Point K)) : ∃ g : Grid K α, new es = some g ∧ g.WF ∧
    (∀ y, y ∈ g.rows ↔ ∃ e ∈ es, e.2.y = y) ∧ (∀ x, x ∈ g.cols ↔ ∃ e ∈ es, e.2.x = x) ∧
    ((es.map (·.2)).Nodup → ∀ r c y x, g.rows[r]? = some y → g.cols[c]? = some x → ∀ a,
      g.cells[r * g.cols.length + c]? = some (some a) ↔ (a, (⟨x, y⟩ : Point K)) ∈ es) := by
  have hr := sortedUnique_sorted (es.map fun e => e.2.y)
  have hc := sortedUnique_sorted (es.map fun e => e.2.x)
  obtain ⟨cells, e1, e2, e3, e4⟩ := foldlM_store hr hc es
    (fun e he => mem_sortedUnique.2 (List.mem_map.2 ⟨e, he, rfl⟩)) (fun e he => mem_sortedUnique.2 (List.mem_map.2 ⟨e, he, rfl⟩))
    (List.replicate _ none) (List.length_replicate ..)
  refine ⟨⟨cells, _, _, es.length⟩, by unfold new; dsimp only; rw [e1]; rfl, ⟨hr, hc, by rw [e2, List.length_replicate]; rfl⟩, ?_, ?_, ?_⟩
  · intro y
    show _ ∈ sortedUnique _ ↔ _
    rw [mem_sortedUnique, List.mem_map]
  · intro x
    show _ ∈ sortedUnique _ ↔ _
    rw [mem_sortedUnique, List.mem_map]
  · intro hnd r c y x k1 k2 a
    show cells[r * (sortedUnique _).length + c]? = _ ↔ _
    constructor
    · intro h
      by_cases hex : ∃ e ∈ es, e.2.x = x ∧ e.2.y = y
      · obtain ⟨e, he, q1, q2⟩ := hex
        rw [e4 hnd r c y x k1 k2 e he q1 q2] at h
        have : (e.1, e.2) ∈ es := he
        rw [Option.some.inj (Option.some.inj h)] at this
        have hp : e.2 = ⟨x, y⟩ := by cases hp : e.2; simp_all
        rw [hp] at this
        exact this
      · rw [e3 r c y x k1 k2 fun e he hq => hex ⟨e, he, hq⟩] at h
        rw [List.getElem?_replicate] at h
        split_ifs at h
        all_goals simp at h
    · intro h
      exact e4 hnd r c y x k1 k2 _ h rfl rfl

end Grid

end Jagua
