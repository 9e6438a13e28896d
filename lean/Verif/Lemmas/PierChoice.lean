import Verif.Model.Piers
import Verif.Lemmas.PierRays

/-! # Lemmas: the choice of piers -/

set_option linter.unusedSectionVars false

namespace Jagua

variable {K : Type*} [Field K] [LinearOrder K] [IsStrictOrderedRing K]

theorem argmin_cons (x y : K) (l : List K) : argmin (x :: y :: l) = match (y :: l)[argmin (y :: l)]? with
    | some z => if x ≤ z then 0 else argmin (y :: l) + 1
    | none => 0 := rfl

theorem argmin_spec : ∀ (l : List K), l ≠ [] → ∃ v, l[argmin l]? = some v ∧ (∀ w ∈ l, v ≤ w) ∧
    ∀ j < argmin l, ∀ w, l[j]? = some w → v < w
  | [], h => absurd rfl h
  | [x], _ => ⟨x, rfl, by simp, fun j hj => absurd hj (Nat.not_lt_zero j)⟩
  | x :: y :: l, _ => by
    obtain ⟨v, h1, h2, h3⟩ := argmin_spec (y :: l) (by simp)
    rw [argmin_cons, h1]
    dsimp only
    split
    · rename_i hx
      refine ⟨x, rfl, ?_, fun j hj => absurd hj (Nat.not_lt_zero j)⟩
      intro w hw
      rcases List.mem_cons.1 hw with rfl | hw
      · exact le_refl _
      · exact hx.trans (h2 w hw)
    · rename_i hx
      refine ⟨v, by rw [List.getElem?_cons_succ]; exact h1, ?_, ?_⟩
      · intro w hw
        rcases List.mem_cons.1 hw with rfl | hw
        · exact (not_le.1 hx).le
        · exact h2 w hw
      · intro j hj w hw
        cases j with
        | zero =>
          rw [List.getElem?_cons_zero, Option.some.injEq] at hw
          subst hw
          exact not_le.1 hx
        | succ j =>
          rw [List.getElem?_cons_succ] at hw
          exact h3 j (Nat.lt_of_succ_lt_succ hj) w hw

theorem argmin_lt {l : List K} (h : l ≠ []) : argmin l < l.length := by
  obtain ⟨v, h1, -⟩ := argmin_spec l h
  exact (List.getElem?_eq_some_iff.1 h1).1

theorem zip_map_map {α β γ δ : Type*} (g : α → β) (h : α → γ) (k : α × β × γ → δ) : ∀ (l : List α),
    (l.zip ((l.map g).zip (l.map h))).map k = l.map fun a => k (a, g a, h a)
  | [] => rfl
  | a :: l => by simp [zip_map_map g h k l]

theorem lossFunction_eq (env : HEnv K) (e : Edge K) (grid : List (Point K)) (sel : List (Edge K)) (poles : List (Circle K))
    (cap radius : K) :
    lossFunction env e grid (minDistancesToRays env grid sel cap) (minDistancesToPoles env grid poles cap) radius =
      coverLoss (Circle.distance env) (Edge.distance env) cap radius grid poles (sel ++ [e]) := by
  unfold lossFunction minDistancesToRays minDistancesToPoles coverLoss nearest
  rw [fsum_eq, zip_map_map]
  simp only [List.map_append, List.map_cons, List.map_nil, List.foldl_append, List.foldl_cons, List.foldl_nil]

theorem pickPiers_steps {pick : List (Edge K) → List (Edge K) → ℕ} {rays : List (Edge K)} : ∀ {k : ℕ} {sel ps : List (Edge K)},
    pickPiers pick rays k sel = some ps → ps.take sel.length = sel ∧
      ∀ j, j < k → ∃ e, ps[sel.length + j]? = some e ∧ rays[pick rays (ps.take (sel.length + j))]? = some e
  | 0, sel, ps, h => by
    simp only [pickPiers, Option.some.injEq] at h
    subst h
    exact ⟨by simp, fun j hj => absurd hj (Nat.not_lt_zero j)⟩
  | k + 1, sel, ps, h => by
    unfold pickPiers at h
    cases hr : rays[pick rays sel]? with
    | none => rw [hr] at h; cases h
    | some r =>
      rw [hr, Option.bind_some] at h
      obtain ⟨h1, h2⟩ := pickPiers_steps h
      have hlen : (sel ++ [r]).length = sel.length + 1 := by simp
      rw [hlen] at h1 h2
      have h3 : ps.take sel.length = sel := by
        have := congrArg (List.take sel.length) h1
        rw [List.take_take, List.take_append_of_le_length (le_refl _), List.take_length] at this
        rwa [min_eq_left (by omega)] at this
      refine ⟨h3, fun j hj => ?_⟩
      cases j with
      | zero =>
        refine ⟨r, ?_, by rw [Nat.add_zero, h3]; exact hr⟩
        have : (ps.take (sel.length + 1))[sel.length]? = some r := by rw [h1]; simp
        rw [List.getElem?_take_of_lt (by omega)] at this
        exact this
      | succ j =>
        obtain ⟨e, he, he'⟩ := h2 j (by omega)
        rw [show sel.length + (j + 1) = sel.length + 1 + j from by omega]
        exact ⟨e, he, he'⟩

end Jagua
