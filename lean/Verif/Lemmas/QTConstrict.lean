import Verif.Lemmas.QTVec
import Mathlib.Tactic.FinCases

/-!
# Structure of `constrict`: no panics, entity and activity are kept
-/

set_option linter.unusedSectionVars false

namespace Jagua

variable {K : Type*} [Arith K] [LinearOrder K]

theorem seq4_some {α : Type*} {f : Fin 4 → Option α} {g : Fin 4 → α} (h : ∀ i, f i = some (g i)) : seq4 f = some g := by
  unfold seq4
  rw [h 0, h 1, h 2, h 3]
  simp only [Option.some.injEq]
  funext i
  fin_cases i <;> rfl

theorem seq4_eq_some {α : Type*} {f : Fin 4 → Option α} {g : Fin 4 → α} : seq4 f = some g ↔ ∀ i, f i = some (g i) := by
  refine ⟨?_, seq4_some⟩
  intro h i
  unfold seq4 at h
  split at h
  · rename_i a b c d h0 h1 h2 h3
    obtain rfl := Option.some.inj h
    fin_cases i
    · exact h0
    · exact h1
    · exact h2
    · exact h3
  · simp at h

theorem seq4_map {α β : Type*} (f : Fin 4 → Option α) (g : α → β) :
    seq4 (fun i => (f i).map g) = (seq4 f).map fun k i => g (k i) := by
  rcases h : seq4 f with _ | k
  · rcases h' : seq4 (fun i => (f i).map g) with _ | k'
    · rfl
    · rw [seq4_eq_some] at h'
      have : ∀ i, ∃ a, f i = some a := by
        intro i
        have := h' i
        rcases hf : f i with _ | a
        · rw [hf] at this; simp at this
        · exact ⟨a, rfl⟩
      choose k hk using this
      rw [seq4_some hk] at h
      simp at h
  · rw [seq4_eq_some] at h
    rw [seq4_some (g := fun i => g (k i))]
    · rfl
    · intro i
      rw [h i]; rfl

/-- The part of `constrict` that determines the presences. -/
def constrictP (f : Fpa K) (entity : HazardEntity K) (presence : Presence K) (quads : Fin 4 → AARect K) :
    Option (Fin 4 → Presence K) :=
  match presence with
  | .none => some fun _ => .none
  | .entire => some fun _ => .entire
  | .partly p =>
    match [0, 1, 2, 3].find? (fun i : Fin 4 => p.shape.val.bbox.relationTo (quads i) = .enclosed) with
    | some j => some fun i => if i = j then .partly p else .none
    | none =>
      match seq4 (fun i => edgePhase (quads i) p) with
      | none => none
      | some st => seq4 ([0, 1, 2, 3].foldl (resolveStep f entity p.shape.val quads) st)

theorem constrict_eq (f : Fpa K) (h : QTHazard K) (quads : Fin 4 → AARect K) :
    h.constrict f quads = (constrictP f h.entity h.presence quads).map
      fun g i => QTHazard.new h.entity (g i) h.active := by
  unfold QTHazard.constrict constrictP
  rcases h with ⟨e, p, a⟩
  cases p with
  | none => rfl
  | entire => rfl
  | partly p =>
    dsimp only
    cases [0, 1, 2, 3].find? (fun i : Fin 4 => p.shape.val.bbox.relationTo (quads i) = .enclosed) with
    | some j => rfl
    | none =>
      dsimp only
      cases seq4 (fun i => edgePhase (quads i) p) with
      | none => rfl
      | some st => exact seq4_map _ _

theorem new_eq_some {e : HazardEntity K} {p : Presence K} {a : Bool} {c : QTHazard K} :
    QTHazard.new e p a = some c ↔ p ≠ .none ∧ c = ⟨e, p, a⟩ := by
  unfold QTHazard.new
  cases p <;> simp [eq_comm]

/-- The edge indices of a presence are usable. -/
def Presence.OK : Presence K → Prop
  | .none => False
  | .entire => True
  | .partly ⟨_, .all⟩ => True
  | .partly ⟨s, .some idx⟩ => idx ≠ [] ∧ ∀ i ∈ idx, i < s.val.points.length

theorem SPoly.edges_length (s : SPoly K) : s.edges.length = s.points.length := by
  simp [SPoly.edges, polyEdges]

theorem getEdge_lt {s : SPoly K} {i : ℕ} (h : i < s.points.length) :
    s.getEdge i = some (s.edges[i]'(by rw [s.edges_length]; exact h)) := by
  unfold SPoly.getEdge
  exact List.getElem?_eq_getElem _

/-- indices to be processed -/
def PartialHaz.indices (p : PartialHaz K) : List ℕ :=
  match p.edges with
  | .all => List.range p.shape.val.points.length
  | .some idx => idx

theorem PartialHaz.indices_lt {p : PartialHaz K} (h : (Presence.partly p).OK) :
    ∀ i ∈ p.indices, i < p.shape.val.points.length := by
  rcases p with ⟨s, _ | idx⟩
  · intro i hi
    exact List.mem_range.1 hi
  · exact h.2

/-- test of a quadrant against the edge with a given index -/
def edgeHits (quad : AARect K) (s : SPoly K) (i : ℕ) : Bool :=
  match s.getEdge i with
  | none => false
  | some e => quad.collidesEdge e

/-- result of the edge phase -/
def edgeResult (quad : AARect K) (shape : Arc (SPoly K)) (idx : List ℕ) : Option (Presence K) :=
  if idx.filter (edgeHits quad shape.val) = [] then none
  else some (.partly ⟨shape, .some (idx.filter (edgeHits quad shape.val))⟩)

theorem foldlM_addEdge (quad : AARect K) (shape : Arc (SPoly K)) (idx : List ℕ)
    (h : ∀ i ∈ idx, i < shape.val.points.length) (pre : List ℕ) :
    idx.foldlM (addEdgeToPresence quad shape) (if pre = [] then none else some (.partly ⟨shape, .some pre⟩))
      = some (if pre ++ idx.filter (edgeHits quad shape.val) = [] then none
          else some (.partly ⟨shape, .some (pre ++ idx.filter (edgeHits quad shape.val))⟩)) := by
  induction idx generalizing pre with
  | nil => simp
  | cons i idx ih =>
    rw [List.foldlM_cons]
    have hi := getEdge_lt (h i List.mem_cons_self)
    have hstep : addEdgeToPresence quad shape (if pre = [] then none else some (.partly ⟨shape, .some pre⟩)) i
        = some (if pre ++ (if edgeHits quad shape.val i then [i] else []) = [] then none
            else some (.partly ⟨shape, .some (pre ++ (if edgeHits quad shape.val i then [i] else []))⟩)) := by
      unfold addEdgeToPresence edgeHits
      rw [hi]
      dsimp only
      by_cases hc : quad.collidesEdge (shape.val.edges[i]'(by rw [SPoly.edges_length]; exact h i List.mem_cons_self)) = true
      · rw [if_pos hc, if_pos hc]
        by_cases hp : pre = []
        · subst hp; simp
        · rw [if_neg hp, if_neg (by simp)]
      · rw [if_neg hc, if_neg hc]
        simp
    rw [hstep]
    simp only [Option.bind_eq_bind, Option.bind_some]
    rw [ih (fun j hj => h j (List.mem_cons_of_mem _ hj))]
    by_cases hc : edgeHits quad shape.val i = true
    · simp [hc]
    · have hc' : edgeHits quad shape.val i = false := by simpa using hc
      simp [hc']

theorem edgePhase_eq (quad : AARect K) (p : PartialHaz K) (h : (Presence.partly p).OK) :
    edgePhase quad p = some (edgeResult quad p.shape p.indices) := by
  have := foldlM_addEdge quad p.shape p.indices (p.indices_lt h) []
  simp only [if_true, List.nil_append] at this
  exact this

theorem edgeResult_ok {quad : AARect K} {shape : Arc (SPoly K)} {idx : List ℕ}
    (h : ∀ i ∈ idx, i < shape.val.points.length) {pr : Presence K} (hr : edgeResult quad shape idx = some pr) : pr.OK := by
  unfold edgeResult at hr
  split_ifs at hr with h0
  obtain rfl := Option.some.inj hr
  refine ⟨h0, ?_⟩
  intro i hi
  exact h i (List.mem_filter.1 hi).1

/-- every step keeps resolved quadrants and resolves its own -/
theorem resolveStep_spec (f : Fpa K) (e : HazardEntity K) (s : SPoly K) (quads : Fin 4 → AARect K)
    (st : Fin 4 → Option (Presence K)) (i : Fin 4) :
    (∀ j pr, st j = some pr → resolveStep f e s quads st i j = some pr) ∧
    (∃ pr, resolveStep f e s quads st i i = some pr) ∧
    (∀ j, st j = none → j ≠ i → resolveStep f e s quads st i j = none) ∧
    (st i = none → ∀ pr, resolveStep f e s quads st i i = some pr → pr = .none ∨ pr = .entire) := by
  rcases hn : st i with _ | pr
  · have hs : resolveStep f e s quads st i = Function.update st i (some (resolveValue f e s quads st i)) := by
      simp [resolveStep, hn]
    rw [hs]
    refine ⟨?_, ?_, ?_, ?_⟩
    · intro j pr hj
      have : j ≠ i := by
        rintro rfl
        rw [hn] at hj; simp at hj
      rw [Function.update_of_ne this]
      exact hj
    · rw [Function.update_self]
      exact ⟨_, rfl⟩
    · intro j hj hji
      rw [Function.update_of_ne hji]
      exact hj
    · intro _ pr
      rw [Function.update_self]
      intro h
      have h := Option.some.inj h
      unfold resolveValue at h
      split at h
      · exact .inr h.symm
      · exact .inr h.symm
      · exact .inl h.symm
      · exact .inl h.symm
      · unfold centroidPresence at h
        split at h
        · exact .inr h.symm
        · exact .inr h.symm
        · exact .inl h.symm
  · have hs : resolveStep f e s quads st i = st := by
      simp [resolveStep, hn]
    rw [hs]
    refine ⟨fun j pr h => h, ⟨pr, hn⟩, fun j h _ => h, ?_⟩
    intro h
    simp at h

/-- the loop resolves every quadrant, keeping the ones already resolved -/
theorem resolve_spec (f : Fpa K) (e : HazardEntity K) (s : SPoly K) (quads : Fin 4 → AARect K)
    (st : Fin 4 → Option (Presence K)) :
    ∃ g : Fin 4 → Presence K,
      (∀ i, [0, 1, 2, 3].foldl (resolveStep f e s quads) st i = some (g i)) ∧
      (∀ i pr, st i = some pr → g i = pr) ∧
      (∀ i, st i = none → g i = .none ∨ g i = .entire) := by
  simp only [List.foldl_cons, List.foldl_nil]
  set s1 := resolveStep f e s quads st 0 with h1
  set s2 := resolveStep f e s quads s1 1 with h2
  set s3 := resolveStep f e s quads s2 2 with h3
  set s4 := resolveStep f e s quads s3 3 with h4
  obtain ⟨a1, b1, c1, d1⟩ := resolveStep_spec f e s quads st 0
  obtain ⟨a2, b2, c2, d2⟩ := resolveStep_spec f e s quads s1 1
  obtain ⟨a3, b3, c3, d3⟩ := resolveStep_spec f e s quads s2 2
  obtain ⟨a4, b4, c4, d4⟩ := resolveStep_spec f e s quads s3 3
  rw [← h1] at a1 b1 c1 d1
  rw [← h2] at a2 b2 c2 d2
  rw [← h3] at a3 b3 c3 d3
  rw [← h4] at a4 b4 c4 d4
  obtain ⟨g0, e0⟩ := b1
  obtain ⟨g1, e1⟩ := b2
  obtain ⟨g2, e2⟩ := b3
  obtain ⟨g3, e3⟩ := b4
  refine ⟨![g0, g1, g2, g3], ?_, ?_, ?_⟩
  · intro i
    fin_cases i
    · exact a4 _ _ (a3 _ _ (a2 _ _ e0))
    · exact a4 _ _ (a3 _ _ e1)
    · exact a4 _ _ e2
    · exact e3
  · intro i pr hp
    fin_cases i
    · exact Option.some.inj (e0.symm.trans (a1 _ _ hp))
    · exact Option.some.inj (e1.symm.trans (a2 _ _ (a1 _ _ hp)))
    · exact Option.some.inj (e2.symm.trans (a3 _ _ (a2 _ _ (a1 _ _ hp))))
    · exact Option.some.inj (e3.symm.trans (a4 _ _ (a3 _ _ (a2 _ _ (a1 _ _ hp)))))
  · intro i hn
    fin_cases i
    · exact d1 hn _ e0
    · exact d2 (c1 _ hn (by decide)) _ e1
    · exact d3 (c2 _ (c1 _ hn (by decide)) (by decide)) _ e2
    · exact d4 (c3 _ (c2 _ (c1 _ hn (by decide)) (by decide)) (by decide)) _ e3

/-- `constrict` does not panic on usable presences and its results are usable. -/
theorem constrictP_ok (f : Fpa K) (e : HazardEntity K) {p : Presence K} (hp : p.OK) (quads : Fin 4 → AARect K) :
    ∃ g, constrictP f e p quads = some g ∧ ∀ i, g i ≠ .none → (g i).OK := by
  cases p with
  | none => exact hp.elim
  | entire => exact ⟨_, rfl, fun _ _ => trivial⟩
  | partly p =>
    unfold constrictP
    dsimp only
    split
    · rename_i j _
      refine ⟨_, rfl, ?_⟩
      intro i hi
      by_cases hij : i = j
      · rw [if_pos hij]; exact hp
      · exact absurd (if_neg hij) hi
    · rw [seq4_some (g := fun i => edgeResult (quads i) p.shape p.indices) (fun i => edgePhase_eq _ _ hp)]
      dsimp only
      obtain ⟨g, h1, h2, h3⟩ := resolve_spec f e p.shape.val quads (fun i => edgeResult (quads i) p.shape p.indices)
      refine ⟨g, seq4_some h1, ?_⟩
      intro i hi
      rcases hr : edgeResult (quads i) p.shape p.indices with _ | pr
      · rcases h3 i hr with h | h
        · exact absurd h hi
        · rw [h]; trivial
      · rw [h2 i pr hr]
        exact edgeResult_ok (p.indices_lt hp) hr

/-- total version of `constrict` towards one quadrant of `r` -/
def constrictTo (f : Fpa K) (r : AARect K) (i : Fin 4) (h : QTHazard K) : Option (QTHazard K) :=
  match constrictP f h.entity h.presence r.quadrants with
  | none => none
  | some g => QTHazard.new h.entity (g i) h.active

theorem constrict_ok (f : Fpa K) {h : QTHazard K} (hp : h.presence.OK) (r : AARect K) :
    h.constrict f r.quadrants = some fun i => constrictTo f r i h := by
  obtain ⟨g, hg, _⟩ := constrictP_ok f h.entity hp r.quadrants
  rw [constrict_eq, hg]
  simp only [Option.map_some, constrictTo, hg]

theorem constrictTo_some {f : Fpa K} {r : AARect K} {i : Fin 4} {h c : QTHazard K} (hp : h.presence.OK)
    (hc : constrictTo f r i h = some c) :
    c.entity = h.entity ∧ c.active = h.active ∧ c.presence.OK := by
  obtain ⟨g, hg, hok⟩ := constrictP_ok f h.entity hp r.quadrants
  unfold constrictTo at hc
  rw [hg] at hc
  dsimp only at hc
  rw [new_eq_some] at hc
  obtain ⟨h1, rfl⟩ := hc
  exact ⟨rfl, rfl, hok i h1⟩

theorem constrictTo_entity {f : Fpa K} {r : AARect K} {i : Fin 4} {h c : QTHazard K}
    (hc : constrictTo f r i h = some c) : c.entity = h.entity ∧ c.active = h.active := by
  unfold constrictTo at hc
  split at hc
  · simp at hc
  · rw [new_eq_some] at hc
    obtain ⟨h1, rfl⟩ := hc
    exact ⟨rfl, rfl⟩

theorem constrictTo_setActive (f : Fpa K) (r : AARect K) (i : Fin 4) (e : HazardEntity K) (b : Bool) (h : QTHazard K) :
    constrictTo f r i (setActive e b h) = (constrictTo f r i h).map (setActive e b) := by
  by_cases he : h.entity = e
  · unfold constrictTo
    rw [setActive_entity, setActive_presence]
    split
    · rfl
    · rename_i g _
      unfold QTHazard.new
      cases g i <;> simp [setActive, he]
  · have h1 : setActive e b h = h := by simp [setActive, he]
    rw [h1]
    rcases hc : constrictTo f r i h with _ | c
    · rfl
    · have := (constrictTo_entity hc).1
      simp [setActive, this, he]

end Jagua
