import Verif.Spec.Problem
import Verif.Lemmas.Layout
import Mathlib.Algebra.BigOperators.Group.List.Basic

/-!
# Invariant of bin packing problems
-/

set_option linter.unusedSectionVars false

namespace Jagua

variable {K : Type*} [Arith K] [LinearOrder K] {n : ℕ}

/-! ## Counting -/

theorem addAt_some {α : Type*} [Add α] {v : List α} {i : ℕ} {x : α} (h : v[i]? = some x) (d : α) :
    addAt v i d = some (v.set i (x + d)) := by
  unfold addAt
  rw [h]

/-- the missing quantities match `c` placed copies -/
def MissingOk (items : List (Item K × ℕ)) (missing : List ℤ) (c : ℕ → ℕ) : Prop :=
  ∀ i, (missing[i]?).map (· + (c i : ℤ)) = (items[i]?).map fun x => (x.2 : ℤ)

/-- the remaining stock matches `c` used bins -/
def StockOk (bins : List (Bin K n × ℕ)) (q : List ℕ) (c : ℕ → ℕ) : Prop :=
  ∀ b, (q[b]?).map (· + c b) = (bins[b]?).map fun x => x.2

theorem MissingOk.unique {items : List (Item K × ℕ)} {m m' : List ℤ} {c : ℕ → ℕ} (h : MissingOk items m c)
    (h' : MissingOk items m' c) : m = m' := by
  apply List.ext_getElem?
  intro i
  have := (h i).trans (h' i).symm
  cases h1 : m[i]? <;> cases h2 : m'[i]? <;> rw [h1, h2] at this <;> simp_all

theorem StockOk.unique {bins : List (Bin K n × ℕ)} {m m' : List ℕ} {c : ℕ → ℕ} (h : StockOk bins m c)
    (h' : StockOk bins m' c) : m = m' := by
  apply List.ext_getElem?
  intro i
  have := (h i).trans (h' i).symm
  cases h1 : m[i]? <;> cases h2 : m'[i]? <;> rw [h1, h2] at this <;> simp_all

theorem MissingOk.add {items : List (Item K × ℕ)} {m : List ℤ} {c : ℕ → ℕ} (h : MissingOk items m c) {i : ℕ}
    (hi : i < items.length) {d : ℤ} {c' : ℕ → ℕ} (hc : ∀ j, (c' j : ℤ) + (if j = i then d else 0) = c j) :
    ∃ m', addAt m i d = some m' ∧ MissingOk items m' c' := by
  have hx := h i
  rw [List.getElem?_eq_getElem hi, Option.map_some] at hx
  obtain ⟨x, hx, _⟩ := Option.map_eq_some_iff.1 hx
  refine ⟨_, addAt_some hx d, fun j => ?_⟩
  rw [← h j, List.getElem?_set]
  have := hc j
  by_cases hj : i = j
  · subst hj
    rw [if_pos rfl, if_pos (List.getElem?_eq_some_iff.1 hx).1, hx, Option.map_some, Option.map_some]
    rw [if_pos rfl] at this
    congr 1
    omega
  · rw [if_neg hj]
    rw [if_neg (Ne.symm hj), add_zero] at this
    rw [this]

theorem StockOk.add {bins : List (Bin K n × ℕ)} {m : List ℕ} {c : ℕ → ℕ} (h : StockOk bins m c) {i : ℕ}
    (hi : i < bins.length) {c' : ℕ → ℕ} (hc : ∀ j, c' j + (if j = i then 1 else 0) = c j) :
    ∃ m', addAt m i 1 = some m' ∧ StockOk bins m' c' := by
  have hx := h i
  rw [List.getElem?_eq_getElem hi, Option.map_some] at hx
  obtain ⟨x, hx, _⟩ := Option.map_eq_some_iff.1 hx
  refine ⟨_, addAt_some hx 1, fun j => ?_⟩
  rw [← h j, List.getElem?_set]
  have := hc j
  by_cases hj : i = j
  · subst hj
    rw [if_pos rfl, if_pos (List.getElem?_eq_some_iff.1 hx).1, hx, Option.map_some, Option.map_some]
    rw [if_pos rfl] at this
    congr 1
    omega
  · rw [if_neg hj]
    rw [if_neg (Ne.symm hj), add_zero] at this
    rw [this]

theorem StockOk.take {bins : List (Bin K n × ℕ)} {m : List ℕ} {c : ℕ → ℕ} (h : StockOk bins m c) {i q : ℕ}
    (hq : m[i]? = some q) (hpos : 0 < q) {c' : ℕ → ℕ} (hc : ∀ j, c j + (if j = i then 1 else 0) = c' j) :
    StockOk bins (m.set i (q - 1)) c' := by
  intro j
  rw [← h j, List.getElem?_set]
  have := hc j
  by_cases hj : i = j
  · subst hj
    rw [if_pos rfl, if_pos (List.getElem?_eq_some_iff.1 hq).1, hq, Option.map_some, Option.map_some]
    rw [if_pos rfl] at this
    congr 1
    omega
  · rw [if_neg hj]
    rw [if_neg (Ne.symm hj), add_zero] at this
    rw [this]

/-- registering or deregistering a list of placed items -/
theorem MissingOk.fold {items : List (Item K × ℕ)} (d : ℤ) (pis : List (PlacedItem K))
    (hp : ∀ pi ∈ pis, pi.itemId < items.length) :
    ∀ {m : List ℤ} {c c' : ℕ → ℕ}, MissingOk items m c →
      (∀ j, (c' j : ℤ) + d * (pis.countP fun pi => pi.itemId = j) = c j) → (d = 1 ∨ d = -1) →
      ∃ m', pis.foldlM (fun m pi => addAt m pi.itemId d) m = some m' ∧ MissingOk items m' c' := by
  induction pis with
  | nil =>
    intro m c c' h hc _
    refine ⟨m, rfl, ?_⟩
    have : c = c' := by
      funext j
      have := hc j
      simp at this
      exact this.symm
    rw [← this]
    exact h
  | cons pi pis ih =>
    intro m c c' h hc hd
    have hc1 : ∀ j, 0 ≤ (c' j : ℤ) + d * (pis.countP fun pi => pi.itemId = j) := by
      intro j
      rcases hd with rfl | rfl
      · positivity
      · have := hc j
        rw [List.countP_cons] at this
        push_cast at this
        split_ifs at this <;> omega
    obtain ⟨m1, e1, h1⟩ := h.add (hp pi List.mem_cons_self) (d := d)
      (c' := fun j => ((c' j : ℤ) + d * (pis.countP fun pi => pi.itemId = j)).toNat) (by
        intro j
        rw [Int.toNat_of_nonneg (hc1 j)]
        have := hc j
        rw [List.countP_cons] at this
        push_cast at this
        rw [← this]
        by_cases hj : pi.itemId = j
        · rw [if_pos hj.symm, if_pos (by simpa using hj)]; ring
        · rw [if_neg (Ne.symm hj), if_neg (by simpa using hj)]; ring)
    obtain ⟨m2, e2, h2⟩ := ih (fun x hx => hp x (List.mem_cons_of_mem _ hx)) (c' := c') h1 (fun j => by
      rw [Int.toNat_of_nonneg (hc1 j)]) hd
    exact ⟨m2, by rw [List.foldlM_cons, e1]; exact e2, h2⟩

theorem foldlM_missing (d : ℤ) (pis : List (PlacedItem K)) (p : BPProblem K n) {m : List ℤ}
    (h : pis.foldlM (fun m pi => addAt m pi.itemId d) p.missing = some m) :
    pis.foldlM (fun (p : BPProblem K n) pi => (addAt p.missing pi.itemId d).map fun m => { p with missing := m }) p =
      some { p with missing := m } := by
  induction pis generalizing p with
  | nil =>
    rw [List.foldlM_nil] at h
    cases h
    rfl
  | cons pi pis ih =>
    rw [List.foldlM_cons] at h ⊢
    obtain ⟨m1, h1, h2⟩ := Option.bind_eq_some_iff.1 h
    rw [h1]
    exact ih { p with missing := m1 } h2

theorem copies_cons (l : Layout K n) (ls : List (Layout K n)) (i : ℕ) :
    copies (l :: ls) i = copiesIn l.placed i + copies ls i := by
  unfold copies
  rw [List.map_cons, List.sum_cons]

theorem copies_perm {ls ls' : List (Layout K n)} (h : ls.Perm ls') : copies ls = copies ls' := by
  funext i
  exact (h.map _).sum_eq

theorem binsUsed_cons (l : Layout K n) (ls : List (Layout K n)) (b : ℕ) :
    binsUsed (l :: ls) b = binsUsed ls b + if b = l.bin.id then 1 else 0 := by
  unfold binsUsed
  rw [List.countP_cons]
  congr 1
  by_cases h : l.bin.id = b
  · simp [h]
  · simp [h, Ne.symm h]

theorem binsUsed_perm {ls ls' : List (Layout K n)} (h : ls.Perm ls') : binsUsed ls = binsUsed ls' := by
  funext b
  exact h.countP_eq _

/-- copies and used bins only depend on the views -/
theorem copies_view (ls : List (Layout K n)) (i : ℕ) :
    copies ls i = ((ls.map Layout.view).map fun v => copiesIn v.2.2 i).sum := by
  unfold copies
  rw [List.map_map]
  rfl

theorem binsUsed_view (ls : List (Layout K n)) (b : ℕ) :
    binsUsed ls b = (ls.map Layout.view).countP fun v => v.2.1.id = b := by
  unfold binsUsed
  rw [List.countP_map]
  rfl

/-- replacing an element -/
theorem perm_of_getElem? {α : Type*} {l : List α} {i : ℕ} {a : α} (h : l[i]? = some a) :
    l.Perm (a :: l.eraseIdx i) := by
  obtain ⟨hi, rfl⟩ := List.getElem?_eq_some_iff.1 h
  exact (List.getElem_cons_eraseIdx_perm hi).symm

theorem perm_set {α : Type*} {l : List α} {i : ℕ} (hi : i < l.length) (b : α) :
    (l.set i b).Perm (b :: l.eraseIdx i) := List.set_perm_cons_eraseIdx hi b

theorem mapM_forall₂ {α β : Type*} {f : α → Option β} {R : α → β → Prop} (l : List α)
    (h : ∀ a ∈ l, ∃ b, f a = some b ∧ R a b) : ∃ bs, l.mapM f = some bs ∧ List.Forall₂ R l bs := by
  induction l with
  | nil => exact ⟨[], rfl, .nil⟩
  | cons a l ih =>
    obtain ⟨b, hb, hR⟩ := h a List.mem_cons_self
    obtain ⟨bs, hbs, hF⟩ := ih fun x hx => h x (List.mem_cons_of_mem _ hx)
    refine ⟨b :: bs, ?_, .cons hR hF⟩
    rw [List.mapM_cons, hb, hbs]
    rfl

theorem Forall₂.map_eq {α β γ : Type*} {R : α → β → Prop} {l : List α} {l' : List β} (h : List.Forall₂ R l l') {f : α → γ}
    {g : β → γ} (hfg : ∀ a b, R a b → f a = g b) : l.map f = l'.map g := by
  induction h with
  | nil => rfl
  | cons hR _ ih => rw [List.map_cons, List.map_cons, hfg _ _ hR, ih]

theorem Forall₂.exists_left {α β : Type*} {R : α → β → Prop} {l : List α} {l' : List β} (h : List.Forall₂ R l l') {b : β}
    (hb : b ∈ l') : ∃ a ∈ l, R a b := by
  induction h with
  | nil => cases hb
  | cons hR _ ih =>
    rcases List.mem_cons.1 hb with rfl | hb
    · exact ⟨_, List.mem_cons_self, hR⟩
    · obtain ⟨a, ha, hR⟩ := ih hb
      exact ⟨a, List.mem_cons_of_mem _ ha, hR⟩

/-! ## The invariant -/

/-- what every layout of a problem satisfies -/
structure LayoutIn (env : Env K) (inst : BPInstance K n) (l : Layout K n) : Prop where
  inv : l.Inv env inst.cat
  items : ∀ pi ∈ l.placed.values, pi.itemId < inst.items.length
  bin : ∃ q, inst.bins[l.bin.id]? = some (l.bin, q)

/-- what every snapshot satisfies -/
structure SnapshotIn (env : Env K) (inst : BPInstance K n) (s : LayoutSnapshot K n) : Prop where
  valid : s.Valid env inst.cat
  items : ∀ pi ∈ s.placed.values, pi.itemId < inst.items.length
  bin : ∃ q, inst.bins[s.bin.id]? = some (s.bin, q)

/-- what every solution satisfies -/
structure SolutionIn (env : Env K) (inst : BPInstance K n) (s : Solution K n) : Prop where
  snaps : ∀ sn ∈ s.snapshots, SnapshotIn env inst sn
  nodup : (s.snapshots.map (·.id)).Nodup
  placed : ∀ i, s.placed[i]? = (inst.items[i]?).map fun _ => (s.snapshots.map fun sn => copiesIn sn.placed i).sum
  stock : StockOk inst.bins s.binQtys fun b => s.snapshots.countP fun sn => sn.bin.id = b
  target : s.target = inst.qtys
  usage : s.usage = fsum (s.snapshots.map fun sn => sn.bin.area * sn.usage) / fsum (s.snapshots.map (·.bin.area))

structure BPState.Inv (env : Env K) (st : BPState K n) : Prop where
  built : st.p.inst.Built env
  templates : st.p.templates = (BPProblem.new st.p.inst).templates
  layouts : ∀ l ∈ st.p.layouts, LayoutIn env st.p.inst l
  removed : ∀ l ∈ st.p.removed, LayoutIn env st.p.inst l
  nodup : (st.p.layouts.map (·.id)).Nodup
  known : ∀ x ∈ st.known, ∀ y ∈ st.known, x.1 = y.1 → x.2 = y.2
  fresh : ∀ x ∈ st.known, x.1 ≤ st.p.layoutCounter
  missing : MissingOk st.p.inst.items st.p.missing (copies st.p.layouts)
  stock : StockOk st.p.inst.bins st.p.binQtys (binsUsed st.p.layouts)
  sols : ∀ s ∈ st.sols, SolutionIn env st.p.inst s
  solIds : (st.sols.map (·.id)).Nodup
  solFresh : ∀ s ∈ st.sols, s.id ≤ st.p.solutionCounter
  unmodNodup : st.p.unmodified.Nodup
  unmod : ∀ id ∈ st.p.unmodified, ∃ l ∈ st.p.layouts, l.id = id ∧ ∃ s ∈ st.sols, st.p.refSolution = some s.id ∧
    ∃ sn ∈ s.snapshots, sn.id = id ∧ sn.placed = l.placed

theorem catOf_id {items : List (Item K × ℕ)} {bins : List (Bin K n × ℕ)} (h : idsCorrect items bins = true) {i : ℕ}
    {x : Item K × ℕ} (hi : items[i]? = some x) : x.1.id = i ∧ x.1 = catOf items x.1.id := by
  unfold idsCorrect at h
  rw [Bool.and_eq_true, List.all_eq_true] at h
  have := h.1 (x, i) (List.mem_zipIdx_iff_getElem?.2 hi)
  have hx : x.1.id = i := by simpa using this
  refine ⟨hx, ?_⟩
  unfold catOf
  rw [hx, hi]

theorem BPInstance.Built.ids {env : Env K} {inst : BPInstance K n} (h : inst.Built env) :
    idsCorrect inst.items inst.bins = true := by
  have := h.1
  unfold BPInstance.new at this
  split_ifs at this with h
  exact h

theorem BPInstance.Built.bin_id {env : Env K} {inst : BPInstance K n} (h : inst.Built env) {i : ℕ} {x : Bin K n × ℕ}
    (hi : inst.bins[i]? = some x) : x.1.id = i := by
  have := h.ids
  unfold idsCorrect at this
  rw [Bool.and_eq_true, List.all_eq_true, List.all_eq_true] at this
  have := this.2 (x, i) (List.mem_zipIdx_iff_getElem?.2 hi)
  simpa using this

theorem map_set_same {α β : Type*} {l : List α} {i : ℕ} {a b : α} (f : α → β) (h : l[i]? = some a) (hf : f b = f a) :
    (l.set i b).map f = l.map f := by
  rw [List.map_set, hf]
  obtain ⟨hi, rfl⟩ := List.getElem?_eq_some_iff.1 h
  apply List.ext_getElem?
  intro j
  rw [List.getElem?_set]
  by_cases hj : i = j
  · subst hj
    simp [hi]
  · rw [if_neg hj]

theorem mem_set_of_ne {α : Type*} {l : List α} {i : ℕ} {a b c : α} (h : l[i]? = some a) (hc : c ∈ l) (hne : c ≠ a) :
    c ∈ l.set i b := by
  rcases List.mem_cons.1 ((perm_of_getElem? h).mem_iff.1 hc) with rfl | hc
  · exact absurd rfl hne
  · exact (perm_set (List.getElem?_eq_some_iff.1 h).1 b).mem_iff.2 (List.mem_cons_of_mem _ hc)

/-! ## The operations -/

theorem BPProblem.registerLayout_spec {p : BPProblem K n} {l : Layout K n} {c d : ℕ → ℕ}
    (hm : MissingOk p.inst.items p.missing c) (hs : StockOk p.inst.bins p.binQtys d)
    (hi : ∀ pi ∈ l.placed.values, pi.itemId < p.inst.items.length) {q : ℕ} (hq : p.binQtys[l.bin.id]? = some q) (hpos : 0 < q) :
    ∃ m b, p.registerLayout l = some (.real p.layouts.length, { p with missing := m, binQtys := b, layouts := p.layouts ++ [l] }) ∧
      MissingOk p.inst.items m (fun i => copiesIn l.placed i + c i) ∧
      StockOk p.inst.bins b (fun b => d b + if b = l.bin.id then 1 else 0) := by
  obtain ⟨m, e, h⟩ := hm.fold (-1) l.placed.values hi (c' := fun i => copiesIn l.placed i + c i) (fun j => by
    unfold copiesIn; push_cast; ring) (.inr rfl)
  refine ⟨m, p.binQtys.set l.bin.id (q - 1), ?_, h, hs.take hq hpos fun _ => rfl⟩
  unfold BPProblem.registerLayout BPProblem.registerBin
  rw [hq]
  dsimp only
  rw [if_pos hpos, Option.bind_some]
  unfold BPProblem.registerItem
  rw [foldlM_missing (-1) l.placed.values { p with binQtys := p.binQtys.set l.bin.id (q - 1) } e]
  rfl

theorem BPProblem.deregisterLayout_spec {p : BPProblem K n} {l : Layout K n} {i : ℕ} {c d : ℕ → ℕ} (hl : p.layouts[i]? = some l)
    (hm : MissingOk p.inst.items p.missing (fun i => copiesIn l.placed i + c i))
    (hs : StockOk p.inst.bins p.binQtys (fun b => d b + if b = l.bin.id then 1 else 0))
    (hi : ∀ pi ∈ l.placed.values, pi.itemId < p.inst.items.length) (hb : l.bin.id < p.inst.bins.length) :
    ∃ m b, p.deregisterLayout (.real i) = some { p with
        missing := m, binQtys := b, layouts := p.layouts.eraseIdx i, unmodified := p.unmodified.erase l.id, removed := p.removed ++ [l] } ∧
      MissingOk p.inst.items m c ∧ StockOk p.inst.bins b d := by
  obtain ⟨m, e, h⟩ := hm.fold 1 l.placed.values hi (c' := c) (fun j => by unfold copiesIn; push_cast; ring) (.inl rfl)
  obtain ⟨b, e', h'⟩ := hs.add hb (c' := d) fun _ => rfl
  refine ⟨m, b, ?_, h, h'⟩
  unfold BPProblem.deregisterLayout
  dsimp only
  rw [hl]
  unfold BPProblem.deregisterBin BPProblem.layoutHasChanged BPProblem.deregisterItem
  dsimp only
  rw [e', Option.map_some, Option.bind_some]
  rw [foldlM_missing 1 l.placed.values { p with layouts := p.layouts.eraseIdx i, unmodified := p.unmodified.erase l.id, binQtys := b } e]
  rfl

theorem BPState.known_layout {st : BPState K n} {l : Layout K n} (hl : l ∈ st.p.layouts) :
    (l.id, l.bin) ∈ st.known :=
  List.mem_append.2 (.inl (List.mem_map.2 ⟨l, List.mem_append.2 (.inl hl), rfl⟩))

theorem BPState.known_removed {st : BPState K n} {l : Layout K n} (hl : l ∈ st.p.removed) :
    (l.id, l.bin) ∈ st.known :=
  List.mem_append.2 (.inl (List.mem_map.2 ⟨l, List.mem_append.2 (.inr hl), rfl⟩))

theorem BPState.known_snap {st : BPState K n} {s : Solution K n} {sn : LayoutSnapshot K n} (hs : s ∈ st.sols) (hsn : sn ∈ s.snapshots) :
    (sn.id, sn.bin) ∈ st.known :=
  List.mem_append.2 (.inr (List.mem_flatMap.2 ⟨s, hs, List.mem_map.2 ⟨sn, hsn, rfl⟩⟩))

theorem LayoutIn.bin_lt {env : Env K} {inst : BPInstance K n} {l : Layout K n} (h : LayoutIn env inst l) :
    l.bin.id < inst.bins.length := by
  obtain ⟨q, hq⟩ := h.bin
  exact (List.getElem?_eq_some_iff.1 hq).1

/-- layouts with the same id are the same -/
theorem BPState.Inv.eq_of_id {env : Env K} {st : BPState K n} (h : st.Inv env) {l l' : Layout K n} (hl : l ∈ st.p.layouts)
    (hl' : l' ∈ st.p.layouts) (he : l.id = l'.id) : l = l' := List.inj_on_of_nodup_map h.nodup hl hl' he

theorem BPState.Inv.registerLayout {env : Env K} {st : BPState K n} (h : st.Inv env) {l : Layout K n}
    (hl : LayoutIn env st.p.inst l) {q : ℕ} (hq : st.p.binQtys[l.bin.id]? = some q) (hpos : 0 < q)
    (hid : l.id ≤ st.p.layoutCounter) (hnew : ∀ l' ∈ st.p.layouts, l'.id ≠ l.id)
    (hkn : ∀ x ∈ st.known, x.1 = l.id → x.2 = l.bin) :
    ∃ m b, st.p.registerLayout l =
        some (.real st.p.layouts.length, { st.p with missing := m, binQtys := b, layouts := st.p.layouts ++ [l] }) ∧
      BPState.Inv env ⟨{ st.p with missing := m, binQtys := b, layouts := st.p.layouts ++ [l] }, st.sols⟩ := by
  obtain ⟨m, b, e, hm, hs⟩ := BPProblem.registerLayout_spec h.missing h.stock hl.items hq hpos
  refine ⟨m, b, e, ?_⟩
  have hperm : (st.p.layouts ++ [l]).Perm (l :: st.p.layouts) := List.perm_append_comm
  have hknown : ∀ x ∈ BPState.known ⟨{ st.p with missing := m, binQtys := b, layouts := st.p.layouts ++ [l] }, st.sols⟩,
      x ∈ st.known ∨ x = (l.id, l.bin) := by
    intro x hx
    unfold BPState.known at hx ⊢
    simp only [List.mem_append, List.map_append, List.mem_map, List.mem_singleton] at hx ⊢
    grind
  exact {
    built := h.built
    templates := h.templates
    layouts := fun x hx => by
      rcases List.mem_append.1 hx with hx | hx
      · exact h.layouts x hx
      · rw [List.mem_singleton.1 hx]; exact hl
    removed := h.removed
    nodup := by
      have := (hperm.map (·.id)).nodup_iff.2
      apply this
      rw [List.map_cons, List.nodup_cons]
      refine ⟨fun hm => ?_, h.nodup⟩
      obtain ⟨l', hl', he⟩ := List.mem_map.1 hm
      exact hnew l' hl' he
    known := fun x hx y hy he => by
      rcases hknown x hx with hx | rfl <;> rcases hknown y hy with hy | rfl
      · exact h.known x hx y hy he
      · exact hkn x hx he
      · exact (hkn y hy he.symm).symm
      · rfl
    fresh := fun x hx => by
      rcases hknown x hx with hx | rfl
      · exact h.fresh x hx
      · exact hid
    missing := by
      dsimp only
      rw [copies_perm hperm]
      have : copies (l :: st.p.layouts) = fun i => copiesIn l.placed i + copies st.p.layouts i := by
        funext i; exact copies_cons l _ i
      rw [this]
      exact hm
    stock := by
      dsimp only
      rw [binsUsed_perm hperm]
      have : binsUsed (l :: st.p.layouts) = fun b => binsUsed st.p.layouts b + if b = l.bin.id then 1 else 0 := by
        funext b; exact binsUsed_cons l _ b
      rw [this]
      exact hs
    sols := h.sols
    solIds := h.solIds
    solFresh := h.solFresh
    unmodNodup := h.unmodNodup
    unmod := fun id hid => by
      obtain ⟨l', hl', r⟩ := h.unmod id hid
      exact ⟨l', List.mem_append.2 (.inl hl'), r⟩ }

/-- the layout made from a template -/
theorem BPState.Inv.targetTemplate {env : Env K} {st : BPState K n} (h : st.Inv env) {i q : ℕ}
    (hq : st.p.binQtys[i]? = some q) (hpos : 0 < q) :
    ∃ m b bin k, st.p.targetLayout (.template i) = some (st.p.layouts.length,
        { st.p with
            layoutCounter := st.p.layoutCounter + 1, missing := m, binQtys := b, layouts := st.p.layouts ++ [Layout.new (st.p.layoutCounter + 1) bin] }) ∧
      st.p.inst.bins[i]? = some (bin, k) ∧
      BPState.Inv env ⟨{ st.p with
            layoutCounter := st.p.layoutCounter + 1, missing := m, binQtys := b, layouts := st.p.layouts ++ [Layout.new (st.p.layoutCounter + 1) bin] }, st.sols⟩ := by
  have hx := h.stock i
  rw [hq, Option.map_some] at hx
  obtain ⟨⟨bin, k⟩, hb, _⟩ := Option.map_eq_some_iff.1 hx.symm
  have hbid := h.built.bin_id hb
  dsimp only at hbid
  have hbuilt : bin.Built env := h.built.2 (bin, k) (List.mem_of_getElem? hb)
  have ht : st.p.templates[i]? = some (Layout.new i bin) := by
    rw [h.templates]
    unfold BPProblem.new
    dsimp only
    rw [List.getElem?_map, List.getElem?_zipIdx, hb]
    simp
  have h' : BPState.Inv env ⟨{ st.p with layoutCounter := st.p.layoutCounter + 1 }, st.sols⟩ := by
    obtain ⟨a1, a2, a3, a4, a5, a6, a7, a8, a9, a10, a11, a12, a13, a14⟩ := h
    exact ⟨a1, a2, a3, a4, a5, a6, fun x hx => Nat.le_succ_of_le (a7 x hx), a8, a9, a10, a11, a12, a13, a14⟩
  have hfresh : ∀ x ∈ st.known, x.1 ≠ st.p.layoutCounter + 1 := fun x hx he => by
    have := h.fresh x hx
    omega
  obtain ⟨m, b, e, hI⟩ := h'.registerLayout (l := Layout.new (st.p.layoutCounter + 1) bin)
    ⟨Layout.inv_new _ _ hbuilt, by simp [Layout.new, SlotMap.empty, SlotMap.values], ⟨k, by
      show st.p.inst.bins[bin.id]? = _
      rw [hbid]; exact hb⟩⟩
    (q := q) (by show st.p.binQtys[bin.id]? = _; rw [hbid]; exact hq) hpos (le_refl _)
    (fun l' hl' => hfresh _ (BPState.known_layout hl')) (fun x hx he => absurd he (hfresh x hx))
  refine ⟨m, b, bin, k, ?_, hb, hI⟩
  unfold BPProblem.targetLayout
  dsimp only
  rw [ht]
  dsimp only
  have e : BPProblem.registerLayout { st.p with layoutCounter := st.p.layoutCounter + 1 }
    ((Layout.new i bin).cloneWithId (st.p.layoutCounter + 1)) = _ := e
  rw [e]
  rfl

/-- replacing the layout at `i` by one with the same id and bin that was changed -/
theorem BPState.Inv.replace {env : Env K} {st : BPState K n} (h : st.Inv env) {i : ℕ} {l l' : Layout K n}
    (hl : st.p.layouts[i]? = some l) (hl' : LayoutIn env st.p.inst l') (hid : l'.id = l.id) (hbin : l'.bin = l.bin)
    {m : List ℤ} (hm : MissingOk st.p.inst.items m (fun j => copiesIn l'.placed j + copies (st.p.layouts.eraseIdx i) j)) :
    BPState.Inv env ⟨{ st.p with layouts := st.p.layouts.set i l', missing := m, unmodified := st.p.unmodified.erase l.id },
      st.sols⟩ := by
  have hi := (List.getElem?_eq_some_iff.1 hl).1
  have hmem : l ∈ st.p.layouts := List.mem_of_getElem? hl
  have hids : (st.p.layouts.set i l').map (·.id) = st.p.layouts.map (·.id) := map_set_same _ hl hid
  have hkn : (st.p.layouts.set i l').map (fun l => (l.id, l.bin)) = st.p.layouts.map (fun l => (l.id, l.bin)) :=
    map_set_same _ hl (by rw [hid, hbin])
  have hknown : BPState.known ⟨{ st.p with layouts := st.p.layouts.set i l', missing := m, unmodified := st.p.unmodified.erase l.id },
      st.sols⟩ = st.known := by
    unfold BPState.known
    dsimp only
    rw [List.map_append, List.map_append, hkn]
  exact {
    built := h.built
    templates := h.templates
    layouts := fun x hx => by
      rcases List.mem_cons.1 ((perm_set hi l').mem_iff.1 hx) with rfl | hx
      · exact hl'
      · exact h.layouts x (List.mem_of_mem_eraseIdx hx)
    removed := h.removed
    nodup := by dsimp only; rw [hids]; exact h.nodup
    known := by rw [hknown]; exact h.known
    fresh := by rw [hknown]; exact h.fresh
    missing := by
      dsimp only
      rw [copies_perm (perm_set hi l')]
      have : copies (l' :: st.p.layouts.eraseIdx i) = fun j => copiesIn l'.placed j + copies (st.p.layouts.eraseIdx i) j := by
        funext j; exact copies_cons _ _ j
      rw [this]
      exact hm
    stock := by
      dsimp only
      have : binsUsed (st.p.layouts.set i l') = binsUsed st.p.layouts := by
        rw [binsUsed_perm (perm_set hi l'), binsUsed_perm (perm_of_getElem? hl)]
        funext b
        rw [binsUsed_cons, binsUsed_cons, hbin]
      rw [this]
      exact h.stock
    sols := h.sols
    solIds := h.solIds
    solFresh := h.solFresh
    unmodNodup := h.unmodNodup.erase _
    unmod := fun id hid' => by
      dsimp only at hid'
      obtain ⟨hne, hmem'⟩ := (h.unmodNodup.mem_erase_iff).1 hid'
      obtain ⟨l2, h2, h3, r⟩ := h.unmod id hmem'
      refine ⟨l2, mem_set_of_ne hl h2 ?_, h3, r⟩
      rintro rfl
      exact hne h3.symm }

theorem copies_split {ls : List (Layout K n)} {i : ℕ} {l : Layout K n} (hl : ls[i]? = some l) (j : ℕ) :
    copies ls j = copiesIn l.placed j + copies (ls.eraseIdx i) j := by
  rw [copies_perm (perm_of_getElem? hl), copies_cons]

theorem copiesIn_perm {m : SlotMap (PlacedItem K)} {pi : PlacedItem K} {vs : List (PlacedItem K)} (h : m.values.Perm (pi :: vs))
    (j : ℕ) : copiesIn m j = vs.countP (fun x => x.itemId = j) + if j = pi.itemId then 1 else 0 := by
  unfold copiesIn
  rw [h.countP_eq, List.countP_cons]
  congr 1
  by_cases hj : pi.itemId = j
  · simp [hj]
  · simp [hj, Ne.symm hj]

theorem BPState.Inv.placeReal {env : Env K} {st : BPState K n} (h : st.Inv env) (addr : ℕ) {i id : ℕ} {dt : DTransf K}
    {l : Layout K n} (hl : st.p.layouts[i]? = some l) (hid : id < st.p.inst.items.length)
    (hnew : ∀ pi ∈ l.placed.values, ¬ (pi.itemId = id ∧ pi.dt = dt)) :
    ∃ k l' m, l.placeItem env addr (st.p.inst.cat id) dt = some (k, l') ∧
      st.p.placeItem env addr ⟨.real i, id, dt⟩ = some ((.real i, k),
        { st.p with layouts := st.p.layouts.set i l', missing := m, unmodified := st.p.unmodified.erase l.id }) ∧
      BPState.Inv env ⟨{ st.p with layouts := st.p.layouts.set i l', missing := m, unmodified := st.p.unmodified.erase l.id },
        st.sols⟩ := by
  have hin := h.layouts l (List.mem_of_getElem? hl)
  obtain ⟨x, hx⟩ : ∃ x, st.p.inst.items[id]? = some x := ⟨_, List.getElem?_eq_getElem hid⟩
  obtain ⟨c1, c2⟩ := catOf_id h.built.ids hx
  have hcat : st.p.inst.cat id = x.1 := by rw [← c1]; exact c2.symm
  obtain ⟨k, l', e1, e2, e3, e4, e5, e6, e7⟩ := hin.inv.placeItem addr (item := x.1) (dt := dt) c2 (by
    intro pi hpi
    rw [c1]
    exact hnew pi hpi)
  have hpid : (PlacedItem.new env addr x.1 dt).itemId = id := c1
  obtain ⟨m, f1, f2⟩ := h.missing.add hid (d := -1)
    (c' := fun j => copiesIn l'.placed j + copies (st.p.layouts.eraseIdx i) j) (by
      intro j
      rw [copies_split hl j, copiesIn_perm e7 j, hpid]
      unfold copiesIn
      split_ifs <;> push_cast <;> ring)
  refine ⟨k, l', m, by rw [hcat]; exact e1, ?_, ?_⟩
  · unfold BPProblem.placeItem BPProblem.targetLayout
    dsimp only
    rw [Option.bind_some]
    dsimp only
    rw [hl, hx]
    dsimp only
    rw [e1, Option.bind_some]
    unfold BPProblem.registerItem BPProblem.layoutHasChanged
    dsimp only
    rw [f1, e3]
    rfl
  · refine h.replace hl ⟨e2, ?_, ?_⟩ e3 e4 f2
    · intro pi hpi
      rcases List.mem_cons.1 (e7.mem_iff.1 hpi) with rfl | hpi
      · rw [hpid]; exact hid
      · exact hin.items pi hpi
    · rw [e4]; exact hin.bin

end Jagua
