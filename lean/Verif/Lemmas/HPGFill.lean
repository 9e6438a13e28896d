import Verif.Lemmas.HPGMetric
import Verif.Lemmas.HPGReach

/-! # The boundary fill of a pole reaches all cells that are affected -/

set_option linter.unusedSectionVars false

namespace Jagua

variable {K : Type*} [Arith K] [LinearOrder K]

/-! ## The trace of a fill -/

/-- `g` comes from `g0` by registering the pole in the cells of the trace. -/
structure Traced (env : HEnv K) (h : Hazard K) (pole : Circle K) (g0 : Grid K (HPGCell K)) (tr : List (ℕ × GeoPosition))
    (g : Grid K (HPGCell K)) : Prop where
  shape : g = { g0 with cells := g.cells }
  same : ∀ i, i ∉ tr.map (·.1) → g.cells[i]? = g0.cells[i]?
  upd : ∀ i pos, (i, pos) ∈ tr → ∀ c, g0.cells[i]? = some (some c) → ∃ u, c.registerPole env h pole = some u ∧
    g.cells[i]? = some (some u.1) ∧ (pos = .interior ↔ u.2 ≠ .neighborsNotAffected)

theorem report_shape {α β : Type*} {g : Grid K α} {g' : Grid K β} (h1 : g'.rows = g.rows) (h2 : g'.cols = g.cols) (b : BFill) (i : ℕ)
    (pos : GeoPosition) : b.report g' i pos = b.report g i pos := by
  unfold BFill.report Grid.toRowCol Grid.neighbors
  rw [h1, h2]

theorem fillLoop_trace {env : HEnv K} {h : Hazard K} {pole : Circle K} {g0 : Grid K (HPGCell K)} {b0 : BFill} {m : ℕ}
    (h0 : b0.Inv g0.size []) (hq : b0.queue = [m]) (hs : b0.seeded = false) (hn : b0.nVisited = 0) (k : ℕ) {tr : List (ℕ × GeoPosition)}
    {g g' : Grid K (HPGCell K)} {b b' : BFill} (hrun : BFill.Run g0 b0 tr b) (ht : Traced env h pole g0 tr g)
    (he : HPG.fillLoop env h pole k g b = some (g', b')) :
    ∃ tr', BFill.Run g0 b0 tr' b' ∧ b'.queue = [] ∧ Traced env h pole g0 tr' g' := by
  induction k generalizing g b tr with
  | zero => cases he
  | succ k ih =>
    unfold HPG.fillLoop at he
    obtain ⟨⟨r, b1⟩, hpop, he⟩ := Option.bind_eq_some_iff.1 he
    cases r with
    | none =>
      cases he
      obtain ⟨h1, rfl⟩ := BFill.pop_none hpop
      exact ⟨tr, hrun, h1, ht⟩
    | some i =>
      dsimp only at he
      have hinv := hrun.inv h0 hq hs hn
      have hnv : i ∉ tr.map (·.1) := by
        rcases BFill.pop_spec hinv.inv with ⟨_, hp⟩ | ⟨i', q, b2, _, hp, _, _, hnv, _⟩
        · rw [hp] at hpop; simp at hpop
        · rw [hp] at hpop
          obtain ⟨rfl, _⟩ : i' = i ∧ b2 = b1 := by simpa using hpop
          exact hnv
      have hgi := ht.same i hnv
      have hrw : g.rows = g0.rows := by rw [ht.shape]
      have hcl : g.cols = g0.cols := by rw [ht.shape]
      cases hc : g.cells[i]? with
      | none => rw [hc] at he; cases he
      | some oc =>
        rw [hc] at he
        cases oc with
        | none =>
          obtain ⟨b2, h2, he⟩ := Option.bind_eq_some_iff.1 he
          rw [report_shape hrw hcl] at h2
          refine ih (.step hrun hpop h2) ⟨ht.shape, ?_, ?_⟩ he
          · intro j hj
            rw [List.map_cons, List.mem_cons, not_or] at hj
            exact ht.same j hj.2
          · intro j pos hj c hcj
            rcases List.mem_cons.1 hj with he' | hj
            · cases he'
              rw [← hgi, hc] at hcj
              cases hcj
            · exact ht.upd j pos hj c hcj
        | some c =>
          obtain ⟨u, hu, he⟩ := Option.bind_eq_some_iff.1 he
          obtain ⟨b2, h2, he⟩ := Option.bind_eq_some_iff.1 he
          rw [report_shape (g := g0) (g' := { g with cells := g.cells.set i (some u.1) }) hrw hcl] at h2
          have hil : i < g.cells.length := (List.getElem?_eq_some_iff.1 hc).1
          refine ih (.step hrun hpop h2) ⟨?_, ?_, ?_⟩ he
          · rw [ht.shape]
          · intro j hj
            rw [List.map_cons, List.mem_cons, not_or] at hj
            dsimp only
            rw [List.getElem?_set_ne (Ne.symm hj.1)]
            exact ht.same j hj.2
          · intro j pos hj d hdj
            dsimp only
            rcases List.mem_cons.1 hj with he' | hj
            · obtain ⟨rfl, rfl⟩ := Prod.mk.inj he'
              rw [← hgi, hc] at hdj
              obtain rfl := Option.some.inj (Option.some.inj hdj)
              refine ⟨u, hu, List.getElem?_set_self hil, ?_⟩
              split_ifs with hx <;> simp [hx]
            · have : i ≠ j := fun hij => hnv (hij ▸ List.mem_map.2 ⟨_, hj, rfl⟩)
              rw [List.getElem?_set_ne this]
              exact ht.upd j pos hj d hdj

/-- The first cell of a fill lies in the middle of the seed box. -/
theorem reset_middle {α : Type*} {g : Grid K α} {b b' : BFill} {box : AARect K} (h : b.reset g box = some b') :
    ∃ r c, BFill.middle (g.rowsInRange box.yMin box.yMax) = some r ∧ BFill.middle (g.colsInRange box.xMin box.xMax) = some c ∧
      b'.queue = [r * g.cols.length + c] := by
  unfold BFill.reset BFill.initQueue at h
  dsimp only at h
  obtain ⟨r, h1, h⟩ := Option.bind_eq_some_iff.1 h
  obtain ⟨c, h2, h⟩ := Option.bind_eq_some_iff.1 h
  obtain ⟨i, h3, h⟩ := Option.bind_eq_some_iff.1 h
  obtain ⟨st, h4, rfl⟩ := Option.map_eq_some_iff.1 h
  refine ⟨r, c, h1, h2, ?_⟩
  have := (Grid.calculateIndex_some.1 h3).2.2
  rw [this]
  rfl

theorem reset_length {α : Type*} {g : Grid K α} {b b' : BFill} {box : AARect K} (h : b.reset g box = some b') :
    b'.state.length = b.state.length := by
  unfold BFill.reset BFill.initQueue at h
  dsimp only at h
  obtain ⟨r, h1, h⟩ := Option.bind_eq_some_iff.1 h
  obtain ⟨c, h2, h⟩ := Option.bind_eq_some_iff.1 h
  obtain ⟨i, h3, h⟩ := Option.bind_eq_some_iff.1 h
  obtain ⟨st, h4, rfl⟩ := Option.map_eq_some_iff.1 h
  unfold BFill.update at h4
  split at h4
  · cases h4
  · obtain ⟨s', _, rfl⟩ := Option.map_eq_some_iff.1 h4
    simp

/-! ## Index ranges -/

theorem Grid.inRange_tight {l : List K} (hs : l.Pairwise (· < ·)) (lo hi : K) :
    (∀ j (hj : j < l.length), (inRange l lo hi).1 < j → lo ≤ l[j]) ∧ (∀ j (hj : j < l.length), j < (inRange l lo hi).2 → l[j] ≤ hi) := by
  have mono : ∀ i j (hi' : i < l.length) (hj : j < l.length), i < j → l[i] < l[j] := fun i j hi' hj hij =>
    List.pairwise_iff_getElem.1 hs i j hi' hj hij
  unfold inRange
  constructor
  · intro j hj h
    cases hx : search l lo with
    | inl i =>
      rw [hx] at h
      dsimp only at h
      obtain ⟨hi', he⟩ := List.getElem?_eq_some_iff.1 (search_inl hx)
      rw [← he]
      exact (mono i j hi' hj h).le
    | inr i =>
      rw [hx] at h
      dsimp only at h
      exact ((search_inr hs hx).2 j hj).2 (by omega) |>.le
  · intro j hj h
    cases hx : search l hi with
    | inl i =>
      rw [hx] at h
      dsimp only at h
      obtain ⟨hi', he⟩ := List.getElem?_eq_some_iff.1 (search_inl hx)
      rw [← he]
      exact (mono j i hj hi' h).le
    | inr i =>
      rw [hx] at h
      dsimp only at h
      exact ((search_inr hs hx).2 j hj).1 (by omega) |>.le

section Ordered
variable {K : Type*} [Field K] [LinearOrder K] [IsStrictOrderedRing K]

/-- the centres of `n` cells side by side -/
def centres (x0 dim : K) (n : ℕ) : List K := (List.range n).map fun (i : ℕ) => x0 + dim * (i : K) + dim / 2

theorem centres_length (x0 dim : K) (n : ℕ) : (centres x0 dim n).length = n := by unfold centres; simp

theorem centres_get {x0 dim : K} {n i : ℕ} (hi : i < (centres x0 dim n).length) : (centres x0 dim n)[i] = x0 + dim * (i : K) + dim / 2 := by
  simp only [centres, List.getElem_map, List.getElem_range]

theorem centres_get? {x0 dim : K} {n i : ℕ} (hi : i < n) : (centres x0 dim n)[i]? = some (x0 + dim * (i : K) + dim / 2) := by
  rw [List.getElem?_eq_getElem (by rw [centres_length]; exact hi), centres_get]

theorem centres_sorted {x0 dim : K} (hd : 0 < dim) (n : ℕ) : (centres x0 dim n).Pairwise (· < ·) := by
  rw [List.pairwise_iff_getElem]
  intro i j hi hj hij
  rw [centres_get, centres_get]
  have : (i : K) < (j : K) := by exact_mod_cast hij
  nlinarith

/-- The middle of the seed range of a disc is close to the disc. -/
theorem middle_close {x0 dim p R r : K} {n m : ℕ} (hd : 0 < dim) (hn : 0 < n) (hR : 0 ≤ R) (hr : 0 ≤ r) (h1 : x0 + R ≤ p)
    (h2 : p + R ≤ x0 + dim * n) (hm : BFill.middle (Grid.inRange (centres x0 dim n) (p - R - 2 * r) (p + R + 2 * r)) = some m) :
    m < n ∧ p - (5 / 4 * dim + r) ≤ x0 + dim * m + dim / 2 ∧ x0 + dim * m + dim / 2 ≤ p + (5 / 4 * dim + r) := by
  have hsort := centres_sorted (x0 := x0) hd n
  have hne : centres x0 dim n ≠ [] := by
    intro h
    have := centres_length x0 dim n
    rw [h] at this
    simp at this
    omega
  obtain ⟨s1, s2, -, s4, s5⟩ := Grid.inRange_spec hsort hne (lo := p - R - 2 * r) (hi := p + R + 2 * r) (by linarith)
  obtain ⟨t1, t2⟩ := Grid.inRange_tight hsort (p - R - 2 * r) (p + R + 2 * r)
  unfold BFill.middle at hm
  rw [if_pos s1] at hm
  have hm' := Option.some.inj hm
  rw [centres_length] at s2 s5
  generalize (Grid.inRange (centres x0 dim n) (p - R - 2 * r) (p + R + 2 * r)).1 = a at *
  generalize (Grid.inRange (centres x0 dim n) (p - R - 2 * r) (p + R + 2 * r)).2 = b at *
  have ha : a < n := by omega
  have mul : ∀ {i j : ℕ}, i ≤ j → dim * (i : K) ≤ dim * (j : K) := fun h => mul_le_mul_of_nonneg_left (by exact_mod_cast h) hd.le
  -- bounds on the first cell of the range
  have a1 : x0 + dim * a + dim / 2 ≤ p - R + dim / 2 := by
    rcases s4 with h | h
    · rw [h]; push_cast; linarith
    · have := h _ (centres_get? ha)
      linarith
  have a2 : p - R - 2 * r - dim ≤ x0 + dim * a + dim / 2 := by
    by_cases h : a + 1 < n
    · have := t1 (a + 1) (by rw [centres_length]; exact h) (by omega)
      rw [centres_get] at this
      push_cast at this
      linarith
    · have h3 : n = a + 1 := by omega
      rw [h3] at h2
      push_cast at h2
      linarith
  -- and on the last one
  have b1 : p + R - dim / 2 ≤ x0 + dim * b + dim / 2 := by
    rcases s5 with h | h
    · have h3 : n = b + 1 := by omega
      rw [h3] at h2
      push_cast at h2
      linarith
    · have := h _ (centres_get? s2)
      linarith
  have b2 : x0 + dim * b + dim / 2 ≤ p + R + 2 * r + dim := by
    cases b with
    | zero => push_cast; linarith
    | succ b =>
      have := t2 b (by rw [centres_length]; omega) (by omega)
      rw [centres_get] at this
      push_cast
      linarith
  have m1 : 2 * m ≤ a + b := by omega
  have m2 : a + b ≤ 2 * m + 1 := by omega
  have m1' := mul m1
  have m2' := mul m2
  push_cast at m1' m2'
  exact ⟨by omega, by linarith, by linarith⟩

/-- the cell that contains a point -/
theorem cell_of {x0 dim p : K} {n : ℕ} (h1 : x0 ≤ p) (h2 : p ≤ x0 + dim * n) (hn : 0 < n) :
    ∃ a < n, x0 + dim * a ≤ p ∧ p ≤ x0 + dim * (a + 1) := by
  induction n with
  | zero => omega
  | succ n ih =>
    by_cases hp : x0 + dim * n ≤ p
    · exact ⟨n, by omega, hp, by push_cast at h2; exact h2⟩
    · rcases Nat.eq_zero_or_pos n with h | h
      · subst h
        simp at hp
        exact absurd h1 (not_le.2 hp)
      · obtain ⟨a, ha, h3⟩ := ih (not_le.1 hp).le h
        exact ⟨a, by omega, h3⟩

/-! ## Uniform grids -/

/-- One direction of a uniform grid: the origin, the number of cells and the range of the
cells that are needed. -/
structure Span (K : Type*) where
  z0 : K
  n : ℕ
  a : ℕ
  b : ℕ

/-- The numbers that describe the grid of an engine. -/
structure GNum (K : Type*) where
  X : Span K
  Y : Span K
  dim : K
  r : K

/-- The needed cells cover the interval; there is at most one more on each side. -/
structure Span.Ok (S : Span K) (dim lo hi : K) : Prop where
  lt : S.a < S.b
  le : S.b ≤ S.n
  one : S.a ≤ 1
  last : S.n ≤ S.b + 1
  two : S.a = 0 ∨ S.a + 2 ≤ S.b
  lo : S.z0 + dim * S.a ≤ lo
  hi : hi ≤ S.z0 + dim * S.b

/-- What is needed of the numbers. -/
structure GNum.Ok (N : GNum K) (ε : K) (box : AARect K) : Prop where
  dim : 0 < N.dim
  r : 32 * ε ≤ N.r
  diag : 2 * N.dim ^ 2 ≤ (2 * N.r + ε) ^ 2
  X : N.X.Ok N.dim box.xMin box.xMax
  Y : N.Y.Ok N.dim box.yMin box.yMax

/-- A grid of equal squares. All needed cells are there, other cells are next to them. -/
structure UGrid (N : GNum K) (g : Grid K (HPGCell K)) : Prop where
  rows : g.rows = centres N.Y.z0 N.dim N.Y.n
  cols : g.cols = centres N.X.z0 N.dim N.X.n
  len : g.cells.length = N.Y.n * N.X.n
  cell : ∀ i, N.X.a ≤ i → i < N.X.b → ∀ j, N.Y.a ≤ j → j < N.Y.b → ∃ c, g.cells[j * N.X.n + i]? = some (some c)
  only : ∀ i < N.X.n, ∀ j < N.Y.n, ∀ c, g.cells[j * N.X.n + i]? = some (some c) →
    c.centroid = ⟨N.X.z0 + N.dim * i + N.dim / 2, N.Y.z0 + N.dim * j + N.dim / 2⟩ ∧ c.radius = N.r ∧
    ((N.X.a ≤ i ∧ i < N.X.b) ∨ (N.Y.a ≤ j ∧ j < N.Y.b))

/-- The value of a cell is the smallest distance to the static hazards and the discs `Q`,
up to twice the error of the square root. -/
structure ExC (env : HEnv K) (ε : K) (statics : List (Hazard K)) (Q : Set (HazardEntity K × Circle K)) (c : HPGCell K) : Prop where
  base : HPGCell.new env c.bbox statics = some { c with uni := c.staticUni }
  att : c.uni = c.staticUni ∨ ∃ q ∈ Q, c.uni = (HPGCell.discProx env c.centroid q.2, q.1)
  le : c.uni.1 ≤ c.staticUni.1
  low : ∀ q ∈ Q, c.uni.1 ≤ HPGCell.discProx env c.centroid q.2 + 2 * ε

/-- The setting: exact predicates, well-formed static hazards. -/
structure HSetting (env : HEnv K) (ε : K) (statics : List (Hazard K)) : Prop where
  sqrt : env.SqrtWithin ε
  f : env.f = Fpa.exact
  fmax : 0 ≤ env.fmax
  wf : ∀ h ∈ statics, h.entity.isUniversal = true → h.shape.val.WF

theorem ExC.static_nonneg {env : HEnv K} {ε : K} {statics : List (Hazard K)} (st : HSetting env ε statics)
    {Q : Set (HazardEntity K × Circle K)} {c : HPGCell K} (h : ExC env ε statics Q c) : 0 ≤ c.staticUni.1 := by
  obtain ⟨_, _, _, _, b5⟩ := HPGCell.new_spec h.base
  rcases b5.att with h1 | ⟨z, hz, _, hu, hp⟩
  · exact st.fmax.trans_eq h1.symm
  · obtain ⟨d, e, d0, _⟩ := staticProx_within st.sqrt st.f c.bbox.centroid (st.wf z hz hu)
    rw [hp] at e
    rw [← Option.some.inj e] at d0
    exact d0

theorem ExC.nonneg {env : HEnv K} {ε : K} {statics : List (Hazard K)} (st : HSetting env ε statics)
    {Q : Set (HazardEntity K × Circle K)} {c : HPGCell K} (h : ExC env ε statics Q c) : 0 ≤ c.uni.1 := by
  rcases h.att with h1 | ⟨q, _, h1⟩
  · rw [h1]; exact h.static_nonneg st
  · rw [h1]; exact discProx_nonneg _ _ _

/-- Values of cells differ by at most the distance of their centroids. -/
theorem ExC.lip {env : HEnv K} {ε : K} {statics : List (Hazard K)} (st : HSetting env ε statics)
    {Q : Set (HazardEntity K × Circle K)} {c d : HPGCell K} (hc : ExC env ε statics Q c) (hd : ExC env ε statics Q d) {δ : K} (hδ : 0 ≤ δ)
    (h : sqDist c.centroid d.centroid ≤ δ ^ 2) : c.uni.1 ≤ d.uni.1 + δ + 4 * ε := by
  have he := st.sqrt.eps
  rcases hd.att with h1 | ⟨q, hq, h1⟩
  · rw [h1]
    refine hc.le.trans ?_
    obtain ⟨_, c2, _, _, c5⟩ := HPGCell.new_spec hc.base
    obtain ⟨_, d2, _, _, d5⟩ := HPGCell.new_spec hd.base
    dsimp only at c2 d2 c5 d5
    rcases d5.att with h2 | ⟨z, hz, _, hu, hp⟩
    · have h3 : d.staticUni.1 = env.fmax := h2
      have h4 : c.staticUni.1 ≤ env.fmax := c5.top
      rw [h3]
      linarith
    · obtain ⟨e, he1, he2⟩ := c5.le z hz hu
      have := staticProx_lip st.sqrt st.f (st.wf z hz hu) hδ (by rw [← c2, ← d2]; exact h) he1 hp
      have h5 : c.staticUni.1 ≤ e := he2
      have h6 : e ≤ d.staticUni.1 + δ + 2 * ε := this
      linarith
  · rw [h1]
    have h2 := hc.low q hq
    have h3 := discProx_lip st.sqrt q.2 hδ h
    show c.uni.1 ≤ HPGCell.discProx env d.centroid q.2 + δ + 4 * ε
    linarith

theorem UGrid.rel {N : GNum K} {g g' : Grid K (HPGCell K)} (U : UGrid N g)
    (h : GridRel HPGCell.SameBase g g') : UGrid N g' := by
  have key : ∀ (k : ℕ) (c' : HPGCell K), g'.cells[k]? = some (some c') → ∃ c, g.cells[k]? = some (some c) ∧ HPGCell.SameBase c c' := by
    intro k c' hk
    obtain ⟨hl', hc⟩ := List.getElem?_eq_some_iff.1 hk
    have hl : k < g.cells.length := by rw [← h.length]; exact hl'
    have := (List.forall₂_iff_get.1 h.cells).2 k hl hl'
    rw [List.get_eq_getElem, List.get_eq_getElem, hc] at this
    generalize hx : g.cells[k] = o at this
    cases this with
    | some hs => exact ⟨_, by rw [List.getElem?_eq_getElem hl, hx], hs⟩
  refine ⟨by rw [h.rest]; exact U.rows, by rw [h.rest]; exact U.cols, by rw [h.length]; exact U.len, ?_, ?_⟩
  · intro i hi hi' j hj hj'
    obtain ⟨c, h1⟩ := U.cell i hi hi' j hj hj'
    obtain ⟨hl, hc⟩ := List.getElem?_eq_some_iff.1 h1
    have hl' : j * N.X.n + i < g'.cells.length := by rw [h.length]; exact hl
    have := (List.forall₂_iff_get.1 h.cells).2 (j * N.X.n + i) hl hl'
    rw [List.get_eq_getElem, List.get_eq_getElem, hc] at this
    generalize hx : g'.cells[j * N.X.n + i] = o at this
    cases this with
    | some hs => exact ⟨_, by rw [List.getElem?_eq_getElem hl', hx]⟩
  · intro i hi j hj c' hc'
    obtain ⟨c, hc, hs⟩ := key _ _ hc'
    obtain ⟨_, f2, f3, _, _⟩ := hs.fields
    rw [f2, f3]
    exact U.only i hi j hj c hc

theorem UGrid.wf {N : GNum K} {g : Grid K (HPGCell K)} (U : UGrid N g) (hd : 0 < N.dim) : g.WF := by
  refine ⟨by rw [U.rows]; exact centres_sorted hd _, by rw [U.cols]; exact centres_sorted hd _, ?_⟩
  unfold Grid.size
  rw [U.len, U.rows, U.cols, centres_length, centres_length]

/-- The middle of the seed range is one of the needed cells. -/
theorem middle_core {S : Span K} {dim p R r lo hi : K} {m : ℕ} (ok : S.Ok dim lo hi) (hd : 0 < dim) (hR : 0 ≤ R) (hr : dim < 4 * r)
    (h1 : lo + R ≤ p) (h2 : p + R ≤ hi)
    (hm : BFill.middle (Grid.inRange (centres S.z0 dim S.n) (p - R - 2 * r) (p + R + 2 * r)) = some m) : S.a ≤ m ∧ m < S.b := by
  have hn : 0 < S.n := by have := ok.lt; have := ok.le; omega
  have hsort := centres_sorted (x0 := S.z0) hd S.n
  have hne : centres S.z0 dim S.n ≠ [] := by
    intro h
    have := centres_length S.z0 dim S.n
    rw [h] at this
    simp at this
    omega
  obtain ⟨s1, s2, -, s4, s5⟩ := Grid.inRange_spec hsort hne (lo := p - R - 2 * r) (hi := p + R + 2 * r) (by linarith)
  unfold BFill.middle at hm
  rw [if_pos s1] at hm
  have hm' := Option.some.inj hm
  rw [centres_length] at s2 s5
  generalize (Grid.inRange (centres S.z0 dim S.n) (p - R - 2 * r) (p + R + 2 * r)).1 = a at *
  generalize (Grid.inRange (centres S.z0 dim S.n) (p - R - 2 * r) (p + R + 2 * r)).2 = b at *
  have ha : a < S.n := by omega
  have o1 := ok.lt
  have o2 := ok.le
  have o3 := ok.one
  have o4 := ok.last
  have o5 := ok.two
  have o6 := ok.lo
  have o7 := ok.hi
  have a1 : a < S.b := by
    rcases s4 with h | h
    · omega
    · have := h _ (centres_get? ha)
      have h3 : dim * (a : K) < dim * (S.b : K) := by linarith
      exact_mod_cast lt_of_mul_lt_mul_left h3 hd.le
  refine ⟨?_, by omega⟩
  rcases o5 with h | h
  · omega
  · rcases s5 with h' | h'
    · omega
    · have := h' _ (centres_get? s2)
      have h3 : dim * (S.a : K) < dim * (b : K) := by linarith
      have h4 : S.a < b := by exact_mod_cast lt_of_mul_lt_mul_left h3 hd.le
      omega

/-- the nearest needed cell -/
def Span.clamp (S : Span K) (i : ℕ) : ℕ := max S.a (min i (S.b - 1))

theorem Span.clamp_mem {S : Span K} {dim lo hi : K} (ok : S.Ok dim lo hi) (i : ℕ) : S.a ≤ S.clamp i ∧ S.clamp i < S.b := by
  have := ok.lt
  unfold Span.clamp
  omega

theorem Span.clamp_of_mem {S : Span K} {i : ℕ} (h1 : S.a ≤ i) (h2 : i < S.b) : S.clamp i = i := by
  unfold Span.clamp
  omega

theorem Span.clamp_adj {S : Span K} {i i' : ℕ} (h : i ≤ i' + 1 ∧ i' ≤ i + 1) : S.clamp i ≤ S.clamp i' + 1 ∧ S.clamp i' ≤ S.clamp i + 1 := by
  unfold Span.clamp
  omega

theorem Span.clamp_near {S : Span K} {dim lo hi : K} (ok : S.Ok dim lo hi) {i : ℕ} (hi' : i < S.n) :
    i ≤ S.clamp i + 1 ∧ S.clamp i ≤ i + 1 := by
  have := ok.lt
  have := ok.one
  have := ok.last
  unfold Span.clamp
  omega

/-- A point of a cell that is not too far away is close to the centre of the nearest
needed cell. -/
theorem Span.clamp_close {S : Span K} {dim lo hi w η : K} (ok : S.Ok dim lo hi) (hd : 0 < dim) (hη : 0 ≤ η) {i : ℕ}
    (hw : S.z0 + dim * i ≤ w ∧ w ≤ S.z0 + dim * (i + 1)) (h1 : S.z0 + dim * S.a - η ≤ w) (h2 : w ≤ S.z0 + dim * S.b + η) :
    (S.z0 + dim * (S.clamp i : ℕ) + dim / 2 - w) ^ 2 ≤ (dim / 2 + η) ^ 2 := by
  have o1 := ok.lt
  have mul : ∀ {i j : ℕ}, i ≤ j → dim * (i : K) ≤ dim * (j : K) := fun h => mul_le_mul_of_nonneg_left (by exact_mod_cast h) hd.le
  by_cases c1 : i < S.a
  · have e : S.clamp i = S.a := by unfold Span.clamp; omega
    rw [e]
    have := mul (show i + 1 ≤ S.a by omega)
    push_cast at this
    exact sq_le_sq' (by linarith [hw.2]) (by linarith)
  · by_cases c2 : S.b ≤ i
    · have e : S.clamp i + 1 = S.b := by unfold Span.clamp; omega
      have e' : dim * ((S.clamp i : ℕ) : K) + dim = dim * (S.b : K) := by rw [← e]; push_cast; ring
      have := mul c2
      exact sq_le_sq' (by linarith [hw.2]) (by linarith [hw.1])
    · rw [Span.clamp_of_mem (by omega) (by omega)]
      exact sq_le_sq' (by linarith [hw.2]) (by linarith [hw.1])

theorem convex_mem {l h p q u : K} (k1 : l ≤ p) (k2 : p ≤ h) (k3 : l ≤ q) (k4 : q ≤ h) (u0 : 0 ≤ u) (u1 : u ≤ 1) :
    l ≤ p + u * (q - p) ∧ p + u * (q - p) ≤ h := by
  constructor <;> nlinarith

/-- Points on the way to a cell are not far from the needed cells. -/
theorem Span.far {S : Span K} {dim lo hi p u : K} {i : ℕ} (ok : S.Ok dim lo hi) (hd : 0 < dim) (hi' : i < S.n) (h1 : lo ≤ p) (h2 : p ≤ hi)
    (u0 : 0 ≤ u) (u1 : u ≤ 1) :
    (S.z0 + dim * S.a - dim / 2 ≤ p + u * (S.z0 + dim * i + dim / 2 - p) ∧ p + u * (S.z0 + dim * i + dim / 2 - p) ≤ S.z0 + dim * S.b + dim / 2) ∧
    (S.a ≤ i ∧ i < S.b → S.z0 + dim * S.a ≤ p + u * (S.z0 + dim * i + dim / 2 - p) ∧ p + u * (S.z0 + dim * i + dim / 2 - p) ≤ S.z0 + dim * S.b) := by
  have o6 := ok.lo
  have o7 := ok.hi
  have mul : ∀ {i j : ℕ}, i ≤ j → dim * (i : K) ≤ dim * (j : K) := fun h => mul_le_mul_of_nonneg_left (by exact_mod_cast h) hd.le
  have t1 := mul (show S.a ≤ i + 1 by have := ok.one; omega)
  have t2 := mul (show i ≤ S.b by have := ok.last; omega)
  push_cast at t1
  refine ⟨convex_mem (by linarith) (by linarith) (by linarith) (by linarith) u0 u1, ?_⟩
  rintro ⟨k1, k2⟩
  have t3 := mul k1
  have t4 := mul (show i + 1 ≤ S.b by omega)
  push_cast at t4
  exact convex_mem (by linarith) (by linarith) (by linarith) (by linarith) u0 u1

theorem dim_le {dim r ε : K} (hr0 : 0 ≤ r) (heps : 0 ≤ ε) (hdiag : 2 * dim ^ 2 ≤ (2 * r + ε) ^ 2) :
    dim ≤ 7072 / 10000 * (2 * r + ε) := by
  have h1 : dim ^ 2 ≤ (7072 / 10000 * (2 * r + ε)) ^ 2 := by
    rw [mul_pow]
    have := sq_nonneg (2 * r + ε)
    norm_num
    linarith
  exact (le_abs_self _).trans (abs_le_of_sq_le_sq h1 (by linarith))

theorem step_arith {dim r ε : K} (hr0 : 0 ≤ r) (heps : 0 ≤ ε) (hdiag : 2 * dim ^ 2 ≤ (2 * r + ε) ^ 2) :
    (dim / 2 + 0) ^ 2 + (dim / 2 + dim / 2) ^ 2 ≤ (8 / 5 * r + ε) ^ 2 := by
  have e : (dim / 2 + 0) ^ 2 + (dim / 2 + dim / 2) ^ 2 = 5 / 4 * dim ^ 2 := by ring
  have e1 : (4 / 5 * (2 * r + ε)) ^ 2 ≤ (8 / 5 * r + ε) ^ 2 := pow_le_pow_left₀ (by linarith) (by linarith) 2
  rw [mul_pow] at e1
  rw [e]
  have := sq_nonneg (2 * r + ε)
  norm_num at e1
  linarith

theorem near_arith {dim r ε : K} (hr0 : 0 ≤ r) (hd : 0 ≤ dim) (heps : 0 ≤ ε) (hr : 32 * ε ≤ r) (hdiag : 2 * dim ^ 2 ≤ (2 * r + ε) ^ 2) :
    (5 / 4 * dim + r) ^ 2 + (5 / 4 * dim + r) ^ 2 ≤ (4 * r - ε) ^ 2 := by
  -- √2 dim ≤ 2 r + ε, √2 ≤ 1.4143
  have e3 := dim_le hr0 heps hdiag
  have e6 : (5 / 4 * dim + r) ^ 2 ≤ (2799 / 1000 * r) ^ 2 := pow_le_pow_left₀ (by linarith) (by linarith) 2
  have e7 : (3968 / 1000 * r) ^ 2 ≤ (4 * r - ε) ^ 2 := pow_le_pow_left₀ (by linarith) (by linarith) 2
  have e8 : (2799 / 1000 * r) ^ 2 + (2799 / 1000 * r) ^ 2 ≤ (3968 / 1000 * r) ^ 2 := by
    rw [mul_pow, mul_pow]
    have := sq_nonneg r
    norm_num
    linarith
  linarith

set_option maxHeartbeats 1000000 in
/-- **The fill finds every cell that is affected by a pole.** -/
theorem fill_exact {env : HEnv K} {ε : K} {statics : List (Hazard K)} (st : HSetting env ε statics) {N : GNum K} {box : AARect K} (ok : N.Ok ε box)
    {g : Grid K (HPGCell K)} (U : UGrid N g) {Q : Set (HazardEntity K × Circle K)} (hval : ∀ x, some x ∈ g.cells → ExC env ε statics Q x)
    {h : Hazard K} {pole : Circle K} (hR : 0 ≤ pole.radius) (hx : box.xMin + pole.radius ≤ pole.center.x ∧ pole.center.x + pole.radius ≤ box.xMax)
    (hy : box.yMin + pole.radius ≤ pole.center.y ∧ pole.center.y + pole.radius ≤ box.yMax) {b b0 : BFill}
    (hb : b.state.length = g.rows.length * g.cols.length) (hreset : b.reset g (HPG.seedBox N.r pole) = some b0) {k : ℕ} {g' : Grid K (HPGCell K)} {b' : BFill}
    (he : HPG.fillLoop env h pole k g b0 = some (g', b')) {x' : HPGCell K} (hx' : some x' ∈ g'.cells) :
    ExC env ε statics (insert (h.entity, pole) Q) x' := by
  obtain ⟨hd, hr, hdiag, okX, okY⟩ := ok
  obtain ⟨⟨x0, nx, xa, xb⟩, ⟨y0, ny, ya, yb⟩, dim, r⟩ := N
  dsimp only at hd hr hdiag okX okY hreset
  have Ucell := U.cell
  have Uonly := U.only
  have Urows := U.rows
  have Ucols := U.cols
  have Ulen := U.len
  dsimp only at Ucell Uonly Urows Ucols Ulen
  have xlt : xa < xb := okX.lt
  have xle : xb ≤ nx := okX.le
  have ylt : ya < yb := okY.lt
  have yle : yb ≤ ny := okY.le
  have xlo : x0 + dim * xa ≤ box.xMin := okX.lo
  have xhi : box.xMax ≤ x0 + dim * xb := okX.hi
  have ylo : y0 + dim * ya ≤ box.yMin := okY.lo
  have yhi : box.yMax ≤ y0 + dim * yb := okY.hi
  have mul : ∀ {i j : ℕ}, i ≤ j → dim * (i : K) ≤ dim * (j : K) := fun h => mul_le_mul_of_nonneg_left (by exact_mod_cast h) hd.le
  have hnx : 0 < nx := by omega
  have hny : 0 < ny := by omega
  have hcore : ∀ i, xa ≤ i → i < xb → ∀ j, ya ≤ j → j < yb → ∃ c, g.cells[j * nx + i]? = some (some c) ∧
      c.centroid = ⟨x0 + dim * i + dim / 2, y0 + dim * j + dim / 2⟩ ∧ c.radius = r := by
    intro i h1 h2 j h3 h4
    obtain ⟨c, hc⟩ := Ucell i h1 h2 j h3 h4
    obtain ⟨k1, k2, _⟩ := Uonly i (by omega) j (by omega) c hc
    exact ⟨c, hc, k1, k2⟩
  have heps := st.sqrt.eps
  have hr0 : 0 ≤ r := by linarith
  have hwf := U.wf hd
  have hrl : g.rows.length = ny := by rw [Urows, centres_length]
  have hcl : g.cols.length = nx := by rw [Ucols, centres_length]
  have hrne : g.rows ≠ [] := fun hc => by rw [hc] at hrl; simp at hrl; omega
  have hcne : g.cols ≠ [] := fun hc => by rw [hc] at hcl; simp at hcl; omega
  have hsize : g.size = ny * nx := by unfold Grid.size; rw [hrl, hcl]
  have hbx : (HPG.seedBox r pole).xMin ≤ (HPG.seedBox r pole).xMax := by
    unfold HPG.seedBox Circle.bbox; dsimp only; linarith
  have hby : (HPG.seedBox r pole).yMin ≤ (HPG.seedBox r pole).yMax := by
    unfold HPG.seedBox Circle.bbox; dsimp only; linarith
  have hstart : BFill.Started g (HPG.seedBox r pole) b0 := .inr ⟨b, hb, hreset⟩
  obtain ⟨m, inv, hq0, hs0, hn0, hmlt, -, -, -⟩ := hstart.spec hwf hrne hcne hbx hby
  obtain ⟨mr, mc, em1, em2, eq⟩ := reset_middle hreset
  have hm : m = mr * nx + mc := by
    rw [hq0, hcl] at eq
    exact (List.cons.inj eq).1
  obtain ⟨tr, hrun, hqe, htr⟩ := fillLoop_trace inv hq0 hs0 hn0 k (.start) ⟨rfl, fun _ _ => rfl, by simp⟩ he
  have hgrow := (hrun.finished hwf hrne hcne hbx hby hstart hqe).1
  have hinv := hrun.inv inv hq0 hs0 hn0
  have htne : tr ≠ [] := fun hc => by have := hinv.first hc; rw [hqe] at this; simp at this
  have hmv : m ∈ tr.map (·.1) := hinv.start htne
  -- the middle cell
  have hdr : dim < 4 * r := by have := dim_le hr0 heps hdiag; linarith
  have hmcX : xa ≤ mc ∧ mc < xb := middle_core (S := ⟨x0, nx, xa, xb⟩) okX hd hR hdr hx.1 hx.2 (by dsimp only; rw [← Ucols]; exact em2)
  have hmcY : ya ≤ mr ∧ mr < yb := middle_core (S := ⟨y0, ny, ya, yb⟩) okY hd hR hdr hy.1 hy.2 (by dsimp only; rw [← Urows]; exact em1)
  have za0 := mul (Nat.zero_le xa)
  have zb0 := mul (Nat.zero_le ya)
  have za1 := mul xle
  have zb1 := mul yle
  rw [Nat.cast_zero, mul_zero] at za0 zb0
  have hmc : mc < nx ∧ pole.center.x - (5 / 4 * dim + r) ≤ x0 + dim * mc + dim / 2 ∧ x0 + dim * mc + dim / 2 ≤ pole.center.x + (5 / 4 * dim + r) := by
    refine middle_close hd hnx hR hr0 (by linarith [hx.1]) (by linarith [hx.2]) ?_
    rw [← Ucols]
    exact em2
  have hmr : mr < ny ∧ pole.center.y - (5 / 4 * dim + r) ≤ y0 + dim * mr + dim / 2 ∧ y0 + dim * mr + dim / 2 ≤ pole.center.y + (5 / 4 * dim + r) := by
    refine middle_close hd hny hR hr0 (by linarith [hy.1]) (by linarith [hy.2]) ?_
    rw [← Urows]
    exact em1
  -- visited cells that are close enough are inside
  have hint : ∀ i < nx, ∀ j < ny, ∀ c, g.cells[j * nx + i]? = some (some c) → c.radius = r → j * nx + i ∈ tr.map (·.1) →
      HPGCell.discProx env c.centroid pole ≤ c.uni.1 + 4 * r → (j * nx + i, GeoPosition.interior) ∈ tr := by
    intro i _ j _ c hc hcr hv hle
    obtain ⟨⟨_, pos⟩, hmem, rfl⟩ := List.mem_map.1 hv
    obtain ⟨u, hu, _, hpos⟩ := htr.upd _ _ hmem c hc
    have hsp := (HPGCell.registerPole_spec hu).2.2.2
    rw [hcr] at hsp
    have : pos = .interior := hpos.2 fun hn => by
      have := (hsp.1 hn).1
      linarith
    rw [← this]
    exact hmem
  have hgo : ∀ i < nx, ∀ j < ny, (j * nx + i, GeoPosition.interior) ∈ tr → ∀ i' < nx, ∀ j' < ny, (i' ≤ i + 1 ∧ i ≤ i' + 1) →
      (j' ≤ j + 1 ∧ j ≤ j' + 1) → j' * nx + i' ∈ tr.map (·.1) := by
    intro i hi j hj hmem i' hi' j' hj' hii hjj
    by_cases hne : j' * nx + i' = j * nx + i
    · rw [hne]; exact List.mem_map.2 ⟨_, hmem, rfl⟩
    · refine hgrow _ hmem _ ((g.mem_neighbors (by rw [hsize]; exact Grid.index_lt hj hi) hne).2 ⟨by rw [hsize]; exact Grid.index_lt hj' hi', ?_, ?_⟩)
      · rw [hcl, Grid.index_div hi, Grid.index_div hi']; exact hjj
      · rw [hcl, Grid.index_mod hi, Grid.index_mod hi']; exact hii
  -- cells near the pole
  have hnear : ∀ i, xa ≤ i → i < xb → ∀ j, ya ≤ j → j < yb → (pole.center.x - (5 / 4 * dim + r) ≤ x0 + dim * i + dim / 2 ∧ x0 + dim * i + dim / 2 ≤ pole.center.x + (5 / 4 * dim + r)) →
      (pole.center.y - (5 / 4 * dim + r) ≤ y0 + dim * j + dim / 2 ∧ y0 + dim * j + dim / 2 ≤ pole.center.y + (5 / 4 * dim + r)) →
      j * nx + i ∈ tr.map (·.1) → (j * nx + i, GeoPosition.interior) ∈ tr := by
    intro i hia hib j hja hjb h1 h2 hv
    obtain ⟨c, hc, hcc, hcr⟩ := hcore i hia hib j hja hjb
    refine hint i (by omega) j (by omega) c hc hcr hv ?_
    have hex := hval c (List.mem_of_getElem? hc)
    have hn := hex.nonneg st
    have hD : sqDist c.centroid pole.center ≤ (4 * r - ε) ^ 2 := by
      rw [hcc]
      unfold sqDist
      dsimp only
      have e1 : (x0 + dim * i + dim / 2 - pole.center.x) ^ 2 ≤ (5 / 4 * dim + r) ^ 2 := sq_le_sq' (by linarith [h1.1]) (by linarith [h1.2])
      have e2 : (y0 + dim * j + dim / 2 - pole.center.y) ^ 2 ≤ (5 / 4 * dim + r) ^ 2 := sq_le_sq' (by linarith [h2.1]) (by linarith [h2.2])
      exact (add_le_add e1 e2).trans (near_arith hr0 hd.le heps hr hdiag)
    have := discProx_le st.sqrt pole (by linarith) hD
    refine this.trans (max_le (by linarith) (by linarith))
  -- the cell of the centre of the pole
  have hcell : ∀ {z p : K} {a b : ℕ}, a < b → z + dim * a ≤ p → p ≤ z + dim * b → ∃ k, a ≤ k ∧ k < b ∧ z + dim * k ≤ p ∧ p ≤ z + dim * (k + 1) := by
    intro z p a b hab h1 h2
    obtain ⟨k, hk, h3, h4⟩ := cell_of (x0 := z + dim * a) (dim := dim) (p := p) (n := b - a) h1 (by
      rw [Nat.cast_sub hab.le]; linarith) (by omega)
    refine ⟨a + k, by omega, by omega, ?_, ?_⟩
    · push_cast; linarith
    · push_cast; linarith
  obtain ⟨a, haa, hab, hax⟩ := hcell (z := x0) (p := pole.center.x) xlt (by linarith [hx.1]) (by linarith [hx.2])
  obtain ⟨e, hea, heb, hey⟩ := hcell (z := y0) (p := pole.center.y) ylt (by linarith [hy.1]) (by linarith [hy.2])
  have ha : a < nx := by omega
  have hel : e < ny := by omega
  -- everything between the middle cell and this one is close
  have hbetw : ∀ {z0 p : K} {i m a : ℕ}, min m a ≤ i → i ≤ max m a → (p - (5 / 4 * dim + r) ≤ z0 + dim * m + dim / 2 ∧
      z0 + dim * m + dim / 2 ≤ p + (5 / 4 * dim + r)) → (z0 + dim * a ≤ p ∧ p ≤ z0 + dim * (a + 1)) →
      p - (5 / 4 * dim + r) ≤ z0 + dim * i + dim / 2 ∧ z0 + dim * i + dim / 2 ≤ p + (5 / 4 * dim + r) := by
    intro z0 p i m a h1 h2 hm ha
    constructor
    · rcases min_le_iff.1 h1 with h | h
      · linarith [mul h, hm.1]
      · linarith [mul h, ha.2]
    · rcases le_max_iff.1 h2 with h | h
      · linarith [mul h, hm.2]
      · linarith [mul h, ha.1]
  have hpv : e * nx + a ∈ tr.map (·.1) := by
    have := BFill.box_connected (g := g) (V := fun j => j ∈ tr.map (·.1)) (sr := (min mr e, max mr e)) (sc := (min mc a, max mc a)) (m := m)
      (by rw [hrl]; exact max_lt hmr.1 hel) (by rw [hcl]; exact max_lt hmc.1 ha) hmv
      (by rw [hcl, hm, Grid.index_div hmc.1]; exact ⟨min_le_left _ _, le_max_left _ _⟩)
      (by rw [hcl, hm, Grid.index_mod hmc.1]; exact ⟨min_le_left _ _, le_max_left _ _⟩)
      (by
        intro i hi hv h1 h2 j hj
        rw [hcl] at h1 h2
        have hi' : i / nx < ny := Grid.div_lt_of (by rw [← hsize]; exact hi)
        have hi'' : i % nx < nx := Nat.mod_lt _ hnx
        have hidx : i / nx * nx + i % nx = i := Grid.div_mul_add_mod i nx
        have := hnear (i % nx) (by have := h2.1; omega) (by have := h2.2; omega) (i / nx) (by have := h1.1; omega) (by have := h1.2; omega) (hbetw h2.1 h2.2 hmc.2 hax) (hbetw h1.1 h1.2 hmr.2 hey) (by rw [hidx]; exact hv)
        rw [hidx] at this
        exact hgrow i this j hj)
      (r := e) (c := a) ⟨min_le_right _ _, le_max_right _ _⟩ ⟨min_le_right _ _, le_max_right _ _⟩
    rw [hcl] at this
    exact this
  have hpi : (e * nx + a, GeoPosition.interior) ∈ tr :=
    hnear a haa hab e hea heb (hbetw (min_le_right mc a) (le_max_right mc a) hmc.2 hax) (hbetw (min_le_right mr e) (le_max_right mr e) hmr.2 hey) hpv
  -- the position of the cell
  have hrel : GridRel HPGCell.SameBase g g' := fillLoop_rel HPGCell.SameBase.refl (fun _ _ _ => HPGCell.SameBase.trans)
    (fun c u hu => (HPGCell.registerPole_spec hu).2.1) k he
  obtain ⟨idx, hidx⟩ := List.mem_iff_getElem?.1 hx'
  have hlt : idx < ny * nx := by
    have := (List.getElem?_eq_some_iff.1 hidx).1
    rw [hrel.length, Ulen] at this
    exact this
  have hj : idx / nx < ny := Grid.div_lt_of hlt
  have hi : idx % nx < nx := Nat.mod_lt _ hnx
  have hij : idx / nx * nx + idx % nx = idx := Grid.div_mul_add_mod idx nx
  obtain ⟨c, hc⟩ : ∃ c, g.cells[idx / nx * nx + idx % nx]? = some (some c) := by
    rw [hij]
    have hl' : idx < g'.cells.length := (List.getElem?_eq_some_iff.1 hidx).1
    have hl : idx < g.cells.length := by rw [← hrel.length]; exact hl'
    have := (List.forall₂_iff_get.1 hrel.cells).2 idx hl hl'
    rw [List.get_eq_getElem, List.get_eq_getElem, (List.getElem?_eq_some_iff.1 hidx).2] at this
    generalize hxo : g.cells[idx] = o at this
    cases this with
    | some hs => exact ⟨_, by rw [List.getElem?_eq_getElem hl, hxo]⟩
  obtain ⟨hcc, hcr, hone⟩ := Uonly _ hi _ hj c hc
  have hex := hval c (List.mem_of_getElem? hc)
  set i0 := idx % nx with hi0
  set j0 := idx / nx with hj0
  set SX : Span K := ⟨x0, nx, xa, xb⟩ with hSX
  set SY : Span K := ⟨y0, ny, ya, yb⟩ with hSY
  -- if the cell is affected, then it has been visited
  have hkey : HPGCell.discProx env c.centroid pole + 2 * ε < c.uni.1 → j0 * nx + i0 ∈ tr.map (·.1) := by
    intro haff
    have hL := st.sqrt.low _ (sqDist_nonneg c.centroid pole.center)
    have hS0 := st.sqrt.nonneg _ (sqDist_nonneg c.centroid pole.center)
    have hS := discProx_ge env pole c.centroid
    set S := env.sqrt (sqDist c.centroid pole.center)
    have hw := walk (V := fun i j => (SY.clamp j * nx + SX.clamp i, GeoPosition.interior) ∈ tr) hd (c := c.centroid) (p := pole.center)
      hax hey (by rw [Span.clamp_of_mem (S := SX) haa hab, Span.clamp_of_mem (S := SY) hea heb]; exact hpi) (by
        intro i j i' j' u hV h1 h2 hm u0 u1 hux huy
        obtain ⟨ca1, ca2⟩ := Span.clamp_mem okX i
        obtain ⟨cb1, cb2⟩ := Span.clamp_mem okY j
        obtain ⟨ca3, ca4⟩ := Span.clamp_mem okX i'
        obtain ⟨cb3, cb4⟩ := Span.clamp_mem okY j'
        change xa ≤ SX.clamp i at ca1
        change SX.clamp i < xb at ca2
        change ya ≤ SY.clamp j at cb1
        change SY.clamp j < yb at cb2
        change SX.clamp i' < xb at ca4
        change SY.clamp j' < yb at cb4
        have hv := hgo (SX.clamp i') (by omega) (SY.clamp j') (by omega) hV (SX.clamp i) (by omega) (SY.clamp j) (by omega)
          (Span.clamp_adj h1) (Span.clamp_adj h2)
        obtain ⟨z, hz, hzc, hzr⟩ := hcore _ ca1 ca2 _ cb1 cb2
        refine hint _ (by omega) _ (by omega) z hz hzr hv ?_
        have hzx := hval z (List.mem_of_getElem? hz)
        set x : Point K := ⟨pole.center.x + u * (c.centroid.x - pole.center.x), pole.center.y + u * (c.centroid.y - pole.center.y)⟩ with hxd
        have d1 : sqDist z.centroid x ≤ (8 / 5 * r + ε) ^ 2 := by
          rw [hzc, hxd]
          unfold sqDist
          dsimp only
          obtain ⟨fx1, fx2⟩ := Span.far (u := u) okX hd hi (p := pole.center.x) (by linarith [hx.1]) (by linarith [hx.2]) u0 u1
          obtain ⟨fy1, fy2⟩ := Span.far (u := u) okY hd hj (p := pole.center.y) (by linarith [hy.1]) (by linarith [hy.2]) u0 u1
          have ex : c.centroid.x = SX.z0 + dim * i0 + dim / 2 := by rw [hcc]
          have ey : c.centroid.y = SY.z0 + dim * j0 + dim / 2 := by rw [hcc]
          rw [← ex] at fx1 fx2
          rw [← ey] at fy1 fy2
          have hd2 : 0 ≤ dim / 2 := by linarith
          have e1 := Span.clamp_close okX hd hd2 hux fx1.1 fx1.2
          have e2 := Span.clamp_close okY hd hd2 huy fy1.1 fy1.2
          change (x0 + dim * (SX.clamp i : ℕ) + dim / 2 - _) ^ 2 ≤ _ at e1
          change (y0 + dim * (SY.clamp j : ℕ) + dim / 2 - _) ^ 2 ≤ _ at e2
          have hsum := step_arith hr0 heps hdiag
          rcases hone with hone | hone
          · obtain ⟨k1, k2⟩ := fx2 hone
            have e3 := Span.clamp_close okX hd le_rfl hux (by linarith) (by linarith)
            change (x0 + dim * (SX.clamp i : ℕ) + dim / 2 - _) ^ 2 ≤ _ at e3
            linarith
          · obtain ⟨k1, k2⟩ := fy2 hone
            have e3 := Span.clamp_close okY hd le_rfl huy (by linarith) (by linarith)
            change (y0 + dim * (SY.clamp j : ℕ) + dim / 2 - _) ^ 2 ≤ _ at e3
            linarith
        have d2 : sqDist x pole.center ≤ (u * (S + ε)) ^ 2 := by
          have : sqDist x pole.center = u ^ 2 * sqDist c.centroid pole.center := by rw [hxd]; unfold sqDist; dsimp only; ring
          rw [this, mul_pow]
          exact mul_le_mul_of_nonneg_left hL (sq_nonneg _)
        have d3 : sqDist c.centroid x ≤ ((1 - u) * (S + ε)) ^ 2 := by
          have : sqDist c.centroid x = (1 - u) ^ 2 * sqDist c.centroid pole.center := by rw [hxd]; unfold sqDist; dsimp only; ring
          rw [this, mul_pow]
          exact mul_le_mul_of_nonneg_left hL (sq_nonneg _)
        have p1 : 0 ≤ u * (S + ε) := mul_nonneg u0 (by linarith)
        have p2 : 0 ≤ (1 - u) * (S + ε) := mul_nonneg (by linarith) (by linarith)
        have p3 : 0 ≤ 8 / 5 * r + ε := by linarith
        have l1 := discProx_le st.sqrt pole (add_nonneg p3 p1) (sqDist_triangle p3 p1 d1 d2)
        have l2 := hex.lip st hzx (add_nonneg p2 p3) (sqDist_triangle p2 p3 d3 (by rw [sqDist_comm]; exact d1))
        have l3 := hzx.nonneg st
        refine l1.trans (max_le (by linarith) ?_)
        linarith) _ rfl (i := i0) (j := j0) (u := 1) zero_le_one le_rfl
      (by rw [hcc]; dsimp only; constructor <;> linarith) (by rw [hcc]; dsimp only; constructor <;> linarith)
    obtain ⟨ca1, ca2⟩ := Span.clamp_mem okX i0
    obtain ⟨cb1, cb2⟩ := Span.clamp_mem okY j0
    change SX.clamp i0 < xb at ca2
    change SY.clamp j0 < yb at cb2
    exact hgo (SX.clamp i0) (by omega) (SY.clamp j0) (by omega) hw i0 hi j0 hj (Span.clamp_near okX hi) (Span.clamp_near okY hj)
  by_cases hv : j0 * nx + i0 ∈ tr.map (·.1)
  · obtain ⟨⟨_, pos⟩, hmem, hfst⟩ := List.mem_map.1 hv
    dsimp only at hfst
    subst hfst
    obtain ⟨u, hu, hget, _⟩ := htr.upd _ _ hmem c hc
    rw [hij, hidx] at hget
    obtain rfl := Option.some.inj (Option.some.inj hget)
    obtain ⟨_, hsb, huv, _⟩ := HPGCell.registerPole_spec hu
    obtain ⟨f1, f2, f3, f4, f5⟩ := hsb.fields
    refine ⟨by rw [hsb.base, f1]; exact hex.base, ?_, ?_, ?_⟩
    · rw [huv, f4, f2]
      split_ifs with hlt
      · exact .inr ⟨_, Set.mem_insert _ _, rfl⟩
      · rcases hex.att with h1 | ⟨q, hq, h1⟩
        · exact .inl h1
        · exact .inr ⟨q, Set.mem_insert_of_mem _ hq, h1⟩
    · rw [huv, f4]
      split_ifs with hlt
      · exact hlt.le.trans hex.le
      · exact hex.le
    · intro q hq
      rw [huv, f2]
      rcases Set.mem_insert_iff.1 hq with rfl | hq
      · split_ifs with hlt
        · dsimp only; linarith
        · have := not_lt.1 hlt
          dsimp only
          linarith
      · have := hex.low q hq
        split_ifs with hlt
        · dsimp only; linarith
        · exact this
  · have hget := htr.same _ hv
    rw [hc, hij, hidx] at hget
    obtain rfl := Option.some.inj (Option.some.inj hget)
    refine ⟨hex.base, ?_, hex.le, ?_⟩
    · rcases hex.att with h1 | ⟨q, hq, h1⟩
      · exact .inl h1
      · exact .inr ⟨q, Set.mem_insert_of_mem _ hq, h1⟩
    · intro q hq
      rcases Set.mem_insert_iff.1 hq with rfl | hq
      · by_contra hcon
        exact hv (hkey (not_le.1 hcon))
      · exact hex.low q hq

end Ordered

end Jagua
