import Verif.Lemmas.SimpleTri
import Verif.Lemmas.Simplify

/-!
# Cutting a vertex off a simple polygon
-/

set_option linter.unusedSectionVars false

namespace Jagua

variable {K : Type*} [Field K] [LinearOrder K] [IsStrictOrderedRing K]

/-! ### Chains -/

theorem mem_steps {α : Type*} {l : List α} {e : α × α} : e ∈ Jagua.steps l ↔ ∃ k : ℕ, l[k]? = some e.1 ∧ l[k + 1]? = some e.2 := by
  refine ⟨steps_get, ?_⟩
  rintro ⟨k, h1, h2⟩
  unfold Jagua.steps
  have : (l.zip l.tail)[k]? = some e := by
    rw [List.getElem?_zip_eq_some]
    exact ⟨h1, by rw [List.getElem?_tail]; exact h2⟩
  exact List.mem_of_getElem? this

theorem steps_mem {α : Type*} {l : List α} {e : α × α} (h : e ∈ Jagua.steps l) : e.1 ∈ l ∧ e.2 ∈ l := by
  obtain ⟨k, h1, h2⟩ := mem_steps.1 h
  exact ⟨List.mem_of_getElem? h1, List.mem_of_getElem? h2⟩

theorem steps_snd_ne {α : Type*} {h : α} {l : List α} (hn : (h :: l).Nodup) {e : α × α} (he : e ∈ Jagua.steps (h :: l)) : e.2 ≠ h := by
  obtain ⟨k, h1, h2⟩ := mem_steps.1 he
  intro h3
  have := (List.getElem?_inj (i := 0) (j := k + 1) (by simp) hn).1 (by rw [h2, h3]; rfl)
  omega

theorem steps_fst_ne {α : Type*} {z : α} {l : List α} (hn : (l ++ [z]).Nodup) {e : α × α} (he : e ∈ Jagua.steps (l ++ [z])) : e.1 ≠ z := by
  obtain ⟨k, h1, h2⟩ := mem_steps.1 he
  intro h3
  have hk := (List.getElem?_eq_some_iff.1 h2).1
  have := (List.getElem?_inj (i := l.length) (j := k) (by simp) hn).1 (by rw [h1, h3]; simp)
  simp at hk
  omega

theorem steps_ends {α : Type*} {h z : α} {m : List α} (hn : (h :: m ++ [z]).Nodup) (he : (h, z) ∈ Jagua.steps (h :: m ++ [z])) : m = [] := by
  obtain ⟨k, h1, h2⟩ := mem_steps.1 he
  have e1 := (List.getElem?_inj (i := 0) (j := k) (by simp) hn).1 (by rw [h1]; rfl)
  have e2 := (List.getElem?_inj (i := m.length + 1) (j := k + 1) (by simp) hn).1 (by rw [h2]; simp)
  exact List.length_eq_zero_iff.1 (by omega)

theorem steps_mid {α : Type*} {h z : α} {m : List α} {e : α × α} (he : e ∈ Jagua.steps m) : e ∈ Jagua.steps (h :: m ++ [z]) := by
  obtain ⟨k, h1, h2⟩ := mem_steps.1 he
  have k1 := (List.getElem?_eq_some_iff.1 h1).1
  have k2 := (List.getElem?_eq_some_iff.1 h2).1
  refine mem_steps.2 ⟨k + 1, ?_, ?_⟩
  · rw [List.cons_append, List.getElem?_cons_succ, List.getElem?_append_left k1, h1]
  · rw [List.cons_append, List.getElem?_cons_succ, List.getElem?_append_left k2, h2]

theorem steps_all {α : Type*} {P : α → Prop} : ∀ {m : List α}, (∀ e ∈ Jagua.steps m, P e.1 ↔ P e.2) → ∀ v ∈ m, ∀ w ∈ m, P v → P w := by
  have key : ∀ {a : α} {m : List α}, (∀ e ∈ Jagua.steps (a :: m), P e.1 ↔ P e.2) → ∀ v ∈ a :: m, P v ↔ P a := by
    intro a m
    induction m generalizing a with
    | nil =>
      intro _ v hv
      rw [List.mem_singleton.1 hv]
    | cons b m ih =>
      intro h v hv
      have hab := h (a, b) (by unfold Jagua.steps; simp)
      simp only at hab
      rcases List.mem_cons.1 hv with rfl | hv
      · rfl
      · rw [hab]
        exact ih (fun e he => h e (by unfold Jagua.steps at he ⊢; exact List.mem_cons_of_mem _ he)) v hv
  intro m h v hv w hw hp
  cases m with
  | nil => simp at hv
  | cons a m => exact (key h w hw).2 ((key h v hv).1 hp)

/-- If a statement spreads along the sides of a chain, it holds for all or none of the inner vertices. -/
theorem chain_all {α : Type*} {P : α → Prop} {h z : α} {m : List α} (hn : (h :: m ++ [z]).Nodup)
    (hf : ∀ e ∈ Jagua.steps (h :: m ++ [z]), P e.1 → e.2 ≠ z → P e.2) (hb : ∀ e ∈ Jagua.steps (h :: m ++ [z]), P e.2 → e.1 ≠ h → P e.1)
    {v : α} (hv : v ∈ m) (hp : P v) : ∀ w ∈ m, P w := by
  intro w hw
  refine steps_all (P := P) ?_ v hv w hw hp
  intro e he
  have he' := steps_mid (h := h) (z := z) he
  obtain ⟨m1, m2⟩ := steps_mem he
  have hz : e.2 ≠ z := by
    rintro rfl
    have := (List.nodup_append.1 hn).2.2
    exact this _ (List.mem_cons_of_mem _ m2) _ (List.mem_singleton.2 rfl) rfl
  have hh : e.1 ≠ h := by
    rintro rfl
    have := (List.nodup_cons.1 hn).1
    exact this (List.mem_append_left _ m1)
  exact ⟨fun h => hf e he' h hz, fun h => hb e he' h hh⟩

theorem sides_steps (a : Point K) (l : List (Point K)) : sides (a :: l) = Jagua.steps (a :: l ++ [a]) := by
  rw [sides_cons]
  unfold Jagua.steps
  rw [List.cons_append, List.tail_cons]
  have := List.zip_append (l₁ := a :: l) (r₁ := [a]) (l₂ := l ++ [a]) (r₂ := []) (by simp)
  simpa using this.symm

theorem sides_chain (h z : Point K) (m : List (Point K)) : sides (h :: m ++ [z]) = Jagua.steps (h :: m ++ [z]) ++ [(z, h)] := by
  have : h :: m ++ [z] = h :: (m ++ [z]) := rfl
  rw [this, sides_steps]
  have e : h :: (m ++ [z]) ++ [h] = (h :: m) ++ [z, h] := by simp
  rw [e, steps_append]
  rfl

theorem sides_chain1 (v h z : Point K) (m : List (Point K)) :
    sides (v :: (h :: m ++ [z])) = (v, h) :: (Jagua.steps (h :: m ++ [z]) ++ [(z, v)]) := by
  rw [sides_steps]
  have e : v :: (h :: m ++ [z]) ++ [v] = (v :: h :: m) ++ [z, v] := by simp
  rw [e, steps_append]
  rfl

theorem sides_chain2 (a b h z : Point K) (m : List (Point K)) :
    sides (a :: b :: (h :: m ++ [z])) = (a, b) :: (b, h) :: (Jagua.steps (h :: m ++ [z]) ++ [(z, a)]) := by
  rw [sides_steps]
  have e : a :: b :: (h :: m ++ [z]) ++ [a] = (a :: b :: h :: m) ++ [z, a] := by simp
  rw [e, steps_append]
  rfl

/-! ### Segments -/

/-- If a later point of a segment is its start, so is an earlier one. -/
theorem seg_start_eq {a b x y : Point K} (hab : a ≠ b) (hx : x ∈ segPts a b) (hy : y ∈ segPts x b) (h : y = a) : x = a := by
  obtain ⟨t, t0, t1, tx, ty⟩ := hx
  obtain ⟨u, u0, u1, ux, uy⟩ := hy
  rw [h, tx] at ux
  rw [h, ty] at uy
  have e1 : (t + u * (1 - t)) * (b.x - a.x) = 0 := by linear_combination -ux
  have e2 : (t + u * (1 - t)) * (b.y - a.y) = 0 := by linear_combination -uy
  have k : t + u * (1 - t) = 0 := by
    by_contra k
    rw [mul_eq_zero, or_iff_right k, sub_eq_zero] at e1 e2
    exact hab (Point.ext e1 e2).symm
  have t0' : t = 0 := le_antisymm (by nlinarith [mul_nonneg u0 (sub_nonneg.2 t1)]) t0
  exact Point.ext (by rw [tx, t0']; ring) (by rw [ty, t0']; ring)

theorem signedArea_cross (P : Point K) (pts : List (Point K)) : signedArea pts = (1 / 2) * ((sides pts).map fun s => hullCross P s.1 s.2).sum := by
  have : ((sides pts).map fun s => hullCross P s.1 s.2) =
      (sides pts).map fun s => (s.1.x * s.2.y - s.2.x * s.1.y) + ((P.y * s.2.x - P.x * s.2.y) - (P.y * s.1.x - P.x * s.1.y)) := by
    apply List.map_congr_left
    intro s _
    unfold hullCross
    ring
  unfold signedArea
  rw [this, List.sum_map_add, ← list_sum_sub (sides pts) (fun s => P.y * s.2.x - P.x * s.2.y), sum_telescope pts fun v => P.y * v.x - P.x * v.y, sub_self, add_zero]

/-- Points on a line enclose no area. -/
theorem signedArea_collinear {A B : Point K} (hne : A ≠ B) {pts : List (Point K)} (h : ∀ v ∈ pts, hullCross A B v = 0) : signedArea pts = 0 := by
  rw [signedArea_cross A]
  have : ((sides pts).map fun s => hullCross A s.1 s.2).sum = 0 := by
    apply List.sum_eq_zero
    intro x hx
    obtain ⟨s, hs, rfl⟩ := List.mem_map.1 hx
    obtain ⟨h1, h2⟩ := sides_mem hs
    have k1 := h _ h1
    have k2 := h _ h2
    unfold hullCross at k1 k2 ⊢
    rcases ne_or_eq A.x B.x with hx | hx
    · have : B.x - A.x ≠ 0 := sub_ne_zero.2 hx.symm
      apply mul_left_cancel₀ this
      linear_combination (s.1.x - A.x) * k2 - (s.2.x - A.x) * k1
    · have hy : A.y ≠ B.y := fun hy => hne (Point.ext hx hy)
      have : B.y - A.y ≠ 0 := sub_ne_zero.2 hy.symm
      apply mul_left_cancel₀ this
      linear_combination (s.1.y - A.y) * k2 - (s.2.y - A.y) * k1
  rw [this, mul_zero]

/-! ### Cutting off a vertex -/

section Cut

variable {A B C : Point K} {m : List (Point K)}

/-- The triangle without the two edges that are cut off. -/
def InCut (A B C w : Point K) : Prop := 0 < hullCross B C w ∧ 0 < hullCross C A w ∧ 0 ≤ hullCross A B w

theorem cut_mem (A B C : Point K) (m : List (Point K)) (s : Point K × Point K) :
    s ∈ sides (C :: (B :: m ++ [A])) ↔ s = (C, B) ∨ s ∈ Jagua.steps (B :: m ++ [A]) ∨ s = (A, C) := by
  rw [sides_chain1]
  simp

theorem cut_mem' (A B : Point K) (m : List (Point K)) (s : Point K × Point K) :
    s ∈ sides (B :: m ++ [A]) ↔ s ∈ Jagua.steps (B :: m ++ [A]) ∨ s = (A, B) := by
  rw [sides_chain]
  simp

/-- What the validity check of the code gives: sides of the chain not at its ends that touch the new side are parallel to it. -/
def CutOk (A B : Point K) (m : List (Point K)) : Prop :=
  ∀ s ∈ Jagua.steps (B :: m ++ [A]), s.1 ≠ B → s.2 ≠ A → ∀ w ∈ segPts s.1 s.2, w ∈ segPts A B → hullCross A B s.1 = hullCross A B s.2

variable (hs : SimplePoly (C :: (B :: m ++ [A]))) (hD : 0 < hullCross A B C) (hok : CutOk A B m)

include hs in
theorem cut_nodup : (B :: m ++ [A]).Nodup ∧ C ∉ B :: m ++ [A] := by
  have := List.nodup_cons.1 hs.2.1
  exact ⟨this.2, this.1⟩

theorem hullCross_const {P Q u v w : Point K} (h : hullCross P Q u = hullCross P Q v) (hw : w ∈ segPts u v) : hullCross P Q w = hullCross P Q v := by
  obtain ⟨t, -, -, hx, hy⟩ := hw
  rw [hullCross_lerp hx hy, h]
  ring

include hs hD hok in
theorem cut_exit {s : Point K × Point K} (hst : s ∈ Jagua.steps (B :: m ++ [A])) {x : Point K} (hx : x ∈ segPts s.1 s.2) (hT : InCut A B C x) :
    (s.2 ≠ A → InCut A B C s.2) ∧ (s.1 ≠ B → InCut A B C s.1) := by
  obtain ⟨hn, hC⟩ := cut_nodup hs
  have hsm := steps_mem hst
  have s1C : s.1 ≠ C := fun h => hC (h ▸ hsm.1)
  have s2C : s.2 ≠ C := fun h => hC (h ▸ hsm.2)
  have hsides : s ∈ sides (C :: (B :: m ++ [A])) := (cut_mem ..).2 (.inr (.inl hst))
  have hCB : (C, B) ∈ sides (C :: (B :: m ++ [A])) := (cut_mem ..).2 (.inl rfl)
  have hAC : (A, C) ∈ sides (C :: (B :: m ++ [A])) := (cut_mem ..).2 (.inr (.inr rfl))
  have hne := side_ne (by have := hs.1; omega) hs.2.1 hsides
  have n1 : s ≠ (C, B) := fun h => s1C (by rw [h])
  have n2 : s ≠ (A, C) := fun h => s2C (by rw [h])
  constructor
  · intro hA
    by_contra hcon
    obtain ⟨y, hy, hcase⟩ := exit_tri hD hT.1 hT.2.1 hT.2.2 hcon
    have hys : y ∈ segPts s.1 s.2 := segPts_subset hx (segPts_stop _ _) hy
    rcases hcase with h | h | ⟨h, h'⟩
    · rw [segPts_comm] at h
      rcases hs.2.2 s hsides _ hCB n1 y hys h with ⟨e1, e2⟩ | ⟨e1, e2⟩
      · exact s2C (e1.symm.trans e2)
      · have : x = s.1 := seg_start_eq hne hx hy e2
        rw [this, ← e2, e1] at hT
        have := hT.1
        simp only at this
        rw [hullCross_self] at this
        exact lt_irrefl _ this
    · rw [segPts_comm] at h
      rcases hs.2.2 s hsides _ hAC n2 y hys h with ⟨e1, e2⟩ | ⟨e1, e2⟩
      · exact hA (e1.symm.trans e2)
      · exact s1C (e2.symm.trans e1)
    · by_cases hB : s.1 = B
      · obtain ⟨t, t0, t1, tx, ty⟩ := hx
        have h3 := hT.2.2
        rw [hullCross_lerp tx ty, hB, hullCross_self'] at h3
        have : t = 0 := by
          by_contra hne
          have : 0 < t := lt_of_le_of_ne t0 (Ne.symm hne)
          nlinarith [mul_pos this (neg_pos.2 h')]
        have hxB : x = B := Point.ext (by rw [tx, this, hB]; ring) (by rw [ty, this, hB]; ring)
        have := hT.1
        rw [hxB, hullCross_self] at this
        exact lt_irrefl _ this
      · have := hok s hst hB hA y hys h
        have h3 := hT.2.2
        rw [hullCross_const this hx] at h3
        linarith
  · intro hB
    by_contra hcon
    obtain ⟨y, hy, hcase⟩ := exit_tri hD hT.1 hT.2.1 hT.2.2 hcon
    have hys : y ∈ segPts s.1 s.2 := segPts_subset hx (segPts_start _ _) hy
    rcases hcase with h | h | ⟨h, h'⟩
    · rw [segPts_comm] at h
      rcases hs.2.2 s hsides _ hCB n1 y hys h with ⟨e1, e2⟩ | ⟨e1, e2⟩
      · exact s2C (e1.symm.trans e2)
      · exact hB (e2.symm.trans e1)
    · rw [segPts_comm] at h
      rcases hs.2.2 s hsides _ hAC n2 y hys h with ⟨e1, e2⟩ | ⟨e1, e2⟩
      · have : x = s.2 := seg_start_eq hne.symm (by rw [segPts_comm]; exact hx) hy e1
        rw [this, ← e1, e2] at hT
        have := hT.2.1
        simp only at this
        rw [hullCross_self'] at this
        exact lt_irrefl _ this
      · exact s1C (e2.symm.trans e1)
    · by_cases hA : s.2 = A
      · rw [segPts_comm] at hx
        obtain ⟨t, t0, t1, tx, ty⟩ := hx
        have h3 := hT.2.2
        rw [hullCross_lerp tx ty, hA, hullCross_self] at h3
        have : t = 0 := by
          by_contra hne
          have : 0 < t := lt_of_le_of_ne t0 (Ne.symm hne)
          nlinarith [mul_pos this (neg_pos.2 h')]
        have hxA : x = A := Point.ext (by rw [tx, this, hA]; ring) (by rw [ty, this, hA]; ring)
        have := hT.2.1
        rw [hxA, hullCross_self'] at this
        exact lt_irrefl _ this
      · have := hok s hst hB hA y hys h
        have h3 := hT.2.2
        rw [hullCross_const this.symm (by rw [segPts_comm]; exact hx)] at h3
        linarith

theorem not_inCut_A : ¬ InCut A B C A := fun h => by have := h.2.1; rw [hullCross_self'] at this; exact lt_irrefl _ this

theorem not_inCut_B : ¬ InCut A B C B := fun h => by have := h.1; rw [hullCross_self] at this; exact lt_irrefl _ this

/-- No side of the chain meets the triangle, or all its inner vertices are in there. -/
theorem cut_free_or (hs : SimplePoly (C :: (B :: m ++ [A]))) (hD : 0 < hullCross A B C) (hok : CutOk A B m) (hm : m ≠ []) :
    (∀ s ∈ Jagua.steps (B :: m ++ [A]), ∀ x ∈ segPts s.1 s.2, ¬ InCut A B C x) ∨ ∀ v ∈ m, InCut A B C v := by
  obtain ⟨hn, hC⟩ := cut_nodup hs
  by_cases hcon : ∀ s ∈ Jagua.steps (B :: m ++ [A]), ∀ x ∈ segPts s.1 s.2, ¬ InCut A B C x
  · exact .inl hcon
  · right
    push Not at hcon
    obtain ⟨s, hst, x, hx, hT⟩ := hcon
    obtain ⟨h2, h1⟩ := cut_exit hs hD hok hst hx hT
    have inm : ∀ v ∈ B :: m ++ [A], InCut A B C v → v ∈ m := by
      intro v hv hi
      simp only [List.cons_append, List.mem_cons, List.mem_append, List.not_mem_nil, or_false] at hv
      rcases hv with rfl | hv | rfl
      · exact absurd hi not_inCut_B
      · exact hv
      · exact absurd hi not_inCut_A
    obtain ⟨v, hv, hvT⟩ : ∃ v ∈ m, InCut A B C v := by
      by_cases hB : s.1 = B
      · by_cases hA : s.2 = A
        · exact absurd (steps_ends hn ((Prod.ext hB hA : s = (B, A)) ▸ hst)) hm
        · exact ⟨s.2, inm _ (steps_mem hst).2 (h2 hA), h2 hA⟩
      · exact ⟨s.1, inm _ (steps_mem hst).1 (h1 hB), h1 hB⟩
    refine chain_all hn ?_ ?_ hv hvT
    · intro e he hP hz
      exact (cut_exit hs hD hok he (segPts_start _ _) hP).1 hz
    · intro e he hP hh
      exact (cut_exit hs hD hok he (segPts_stop _ _) hP).2 hh

/-- The polygon without the vertex is simple, if the chain touches the new side only at its ends. -/
theorem cut_simple (hs : SimplePoly (C :: (B :: m ++ [A]))) (hm : m ≠ [])
    (hfree : ∀ s ∈ Jagua.steps (B :: m ++ [A]), ∀ w ∈ segPts s.1 s.2, w ∈ segPts A B → (w = A ∧ w = s.2) ∨ (w = B ∧ w = s.1)) : SimplePoly (B :: m ++ [A]) := by
  obtain ⟨hn, hC⟩ := cut_nodup hs
  refine ⟨?_, hn, ?_⟩
  · have := List.length_pos_iff.2 hm
    simp
    omega
  · intro s hs1 t ht hst w hw hw'
    rcases (cut_mem' ..).1 hs1 with h1 | rfl
    · rcases (cut_mem' ..).1 ht with h2 | rfl
      · exact hs.2.2 s ((cut_mem ..).2 (.inr (.inl h1))) t ((cut_mem ..).2 (.inr (.inl h2))) hst w hw hw'
      · rcases hfree s h1 w hw hw' with ⟨e1, e2⟩ | ⟨e1, e2⟩
        · exact .inl ⟨e2, e1⟩
        · exact .inr ⟨e1, e2⟩
    · rcases (cut_mem' ..).1 ht with h2 | rfl
      · rcases hfree t h2 w hw' hw with ⟨e1, e2⟩ | ⟨e1, e2⟩
        · exact .inr ⟨e2, e1⟩
        · exact .inl ⟨e1, e2⟩
      · exact absurd rfl hst

theorem cut_free (hs : SimplePoly (C :: (B :: m ++ [A]))) (hD : 0 < hullCross A B C) (hok : CutOk A B m) (hm : m ≠ [])
    (harea : 0 < signedArea (C :: (B :: m ++ [A])) ∨ signedArea (B :: m ++ [A]) < 0) :
    ∀ s ∈ Jagua.steps (B :: m ++ [A]), ∀ x ∈ segPts s.1 s.2, ¬ InCut A B C x := by
  rcases cut_free_or hs hD hok hm with h | h
  · exact h
  · exfalso
    obtain ⟨hn, hC⟩ := cut_nodup hs
    have hAC : (A, C) ∈ sides (C :: (B :: m ++ [A])) := (cut_mem ..).2 (.inr (.inr rfl))
    rcases harea with ha | ha
    · have h1 := hs.leftIn_pos ha hAC
      have h2 := hs.leftIn_support hAC (σ := -1) (.inr rfl) (by
        intro v hv
        simp only
        have e : -1 * hullCross A C v = hullCross C A v := by unfold hullCross; ring
        rw [e]
        simp only [List.cons_append, List.mem_cons, List.mem_append, List.not_mem_nil, or_false] at hv
        rcases hv with rfl | rfl | hv | rfl
        · rw [hullCross_self]
        · exact (tri_rot (tri_rot hD)).le
        · exact (h v hv).2.1.le
        · rw [hullCross_self'])
      rw [h1, ind_zero (by norm_num)] at h2
      exact absurd h2 (by decide)
    · -- the new polygon is simple, or flat
      have hAB : A ≠ B := by
        rintro rfl
        unfold hullCross at hD
        simp at hD
      by_cases hflat : ∃ v ∈ m, hullCross A B v = 0
      · obtain ⟨v, hv, hv0⟩ := hflat
        have onAB : ∀ w ∈ m, hullCross A B w = 0 → w ∈ segPts A B := fun w hw hw0 =>
          tri_edge hD (h w hw).1.le (h w hw).2.1.le hw0
        have hB : B ∉ m := fun hB => not_inCut_B (h B hB)
        have hA : A ∉ m := fun hA => not_inCut_A (h A hA)
        have hall : ∀ w ∈ m, w ∈ m ∧ hullCross A B w = 0 := by
          refine chain_all (P := fun w => w ∈ m ∧ hullCross A B w = 0) hn ?_ ?_ hv ⟨hv, hv0⟩
          · intro e he hP hz
            have e1 : e.1 ≠ B := fun h => hB (h ▸ hP.1)
            have := hok e he e1 hz e.1 (segPts_start _ _) (onAB _ hP.1 hP.2)
            have e2 := (steps_mem he).2
            simp only [List.cons_append, List.mem_cons, List.mem_append, List.not_mem_nil, or_false] at e2
            exact ⟨(e2.resolve_left (steps_snd_ne hn he)).resolve_right hz, by rw [← this]; exact hP.2⟩
          · intro e he hP hh
            have e1 : e.2 ≠ A := fun h => hA (h ▸ hP.1)
            have := hok e he hh e1 e.2 (segPts_stop _ _) (onAB _ hP.1 hP.2)
            have e2 := (steps_mem he).1
            simp only [List.cons_append, List.mem_cons, List.mem_append, List.not_mem_nil, or_false] at e2
            exact ⟨(e2.resolve_left hh).resolve_right (steps_fst_ne hn he), by rw [this]; exact hP.2⟩
        have h0 : signedArea (B :: m ++ [A]) = 0 := signedArea_collinear hAB (by
          intro w hw
          simp only [List.cons_append, List.mem_cons, List.mem_append, List.not_mem_nil, or_false] at hw
          rcases hw with rfl | hw | rfl
          · rw [hullCross_self']
          · exact (hall w hw).2
          · rw [hullCross_self])
        rw [h0] at ha
        exact lt_irrefl _ ha
      · push Not at hflat
        have hpos : ∀ v ∈ m, 0 < hullCross A B v := fun v hv => lt_of_le_of_ne (h v hv).2.2 (Ne.symm (hflat v hv))
        have hsimple : SimplePoly (B :: m ++ [A]) := by
          apply cut_simple hs hm
          intro s hst w hw hw'
          have w0 : hullCross A B w = 0 := hullCross_seg hw'
          obtain ⟨t, t0, t1, tx, ty⟩ := hw
          rw [hullCross_lerp tx ty] at w0
          have inm : ∀ v ∈ B :: m ++ [A], v ≠ B → v ≠ A → v ∈ m := by
            intro v hv h1 h2
            simp only [List.cons_append, List.mem_cons, List.mem_append, List.not_mem_nil, or_false] at hv
            rcases hv with h | h | h
            · exact absurd h h1
            · exact h
            · exact absurd h h2
          have s1A : s.1 ≠ A := steps_fst_ne hn hst
          have s2B : s.2 ≠ B := steps_snd_ne hn hst
          by_cases hB : s.1 = B
          · by_cases hA : s.2 = A
            · exact absurd (steps_ends hn ((Prod.ext hB hA : s = (B, A)) ▸ hst)) hm
            · have := hpos _ (inm _ (steps_mem hst).2 s2B hA)
              rw [hB, hullCross_self', zero_add, sub_zero, mul_eq_zero, or_iff_left this.ne'] at w0
              right
              have hwB : w = B := Point.ext (by rw [tx, w0, hB]; ring) (by rw [ty, w0, hB]; ring)
              exact ⟨hwB, by rw [hwB, hB]⟩
          · have p1 := hpos _ (inm _ (steps_mem hst).1 hB s1A)
            by_cases hA : s.2 = A
            · rw [hA, hullCross_self] at w0
              have h1t : (1 - t) * hullCross A B s.1 = 0 := by linear_combination w0
              rw [mul_eq_zero, or_iff_left p1.ne'] at h1t
              have ht1 : t = 1 := by linarith
              left
              have hwA : w = A := Point.ext (by rw [tx, ht1, hA]; ring) (by rw [ty, ht1, hA]; ring)
              exact ⟨hwA, by rw [hwA, hA]⟩
            · have p2 := hpos _ (inm _ (steps_mem hst).2 s2B hA)
              exfalso
              rcases eq_or_lt_of_le t0 with rfl | t0
              · linarith
              · have := lerp_pos p1.le p2 t0 t1
                linarith
        have hAB' : (A, B) ∈ sides (B :: m ++ [A]) := (cut_mem' ..).2 (.inr rfl)
        have h1 := hsimple.leftIn_neg ha hAB'
        have h2 := hsimple.leftIn_support hAB' (σ := 1) (.inl rfl) (by
          intro v hv
          simp only [one_mul]
          simp only [List.cons_append, List.mem_cons, List.mem_append, List.not_mem_nil, or_false] at hv
          rcases hv with rfl | hv | rfl
          · rw [hullCross_self']
          · exact (h v hv).2.2
          · rw [hullCross_self])
        rw [h1, ind_pos rfl] at h2
        exact absurd h2 (by decide)

/-- The polygon without the vertex is simple. -/
theorem cut_simple' (hs : SimplePoly (C :: (B :: m ++ [A]))) (hD : 0 < hullCross A B C) (hm : m ≠ [])
    (hfree : ∀ s ∈ Jagua.steps (B :: m ++ [A]), ∀ x ∈ segPts s.1 s.2, ¬ InCut A B C x) : SimplePoly (B :: m ++ [A]) := by
  apply cut_simple hs hm
  intro s hst w hw hw'
  obtain ⟨hn, hC⟩ := cut_nodup hs
  have hsm := steps_mem hst
  have s1C : s.1 ≠ C := fun h => hC (h ▸ hsm.1)
  have s2C : s.2 ≠ C := fun h => hC (h ▸ hsm.2)
  have hsides : s ∈ sides (C :: (B :: m ++ [A])) := (cut_mem ..).2 (.inr (.inl hst))
  have hCB : (C, B) ∈ sides (C :: (B :: m ++ [A])) := (cut_mem ..).2 (.inl rfl)
  have hAC : (A, C) ∈ sides (C :: (B :: m ++ [A])) := (cut_mem ..).2 (.inr (.inr rfl))
  obtain ⟨t1, t2, t3⟩ := tri_edge_mem hD hw'
  rcases eq_or_lt_of_le t1 with e | e
  · -- on `B C`, hence `B`
    have hBC := tri_edge (tri_rot hD) t2 t3 e.symm
    rw [segPts_comm] at hBC
    rcases hs.2.2 s hsides _ hCB (fun h => s1C (by rw [h])) w hw hBC with ⟨e1, e2⟩ | ⟨e1, e2⟩
    · exact absurd (e1.symm.trans e2) s2C
    · exact .inr ⟨e1, e2⟩
  · rcases eq_or_lt_of_le t2 with e' | e'
    · have hCA := tri_edge (tri_rot (tri_rot hD)) t3 t1 e'.symm
      rw [segPts_comm] at hCA
      rcases hs.2.2 s hsides _ hAC (fun h => s2C (by rw [h])) w hw hCA with ⟨e1, e2⟩ | ⟨e1, e2⟩
      · exact .inl ⟨e2, e1⟩
      · exact absurd (e2.symm.trans e1) s1C
    · exact absurd ⟨e, e', t3⟩ (hfree s hst w hw)

theorem cut_rho (A B C : Point K) (m : List (Point K)) (x : Point K) :
    rho (B :: m ++ [A]) x = rho (C :: (B :: m ++ [A])) x + rho [A, B, C] x := by
  have e : [A, B, C] = A :: [B] ++ [C] := rfl
  unfold rho
  rw [e, sides_chain, sides_chain1, sides_chain]
  have e' : Jagua.steps (A :: [B] ++ [C]) = [(A, B), (B, C)] := rfl
  rw [e']
  simp only [List.map_append, List.map_cons, List.map_nil, List.sum_append, List.sum_cons, List.sum_nil, add_zero]
  rw [ind_congr (crossesRay_comm (a := C) (b := B)), ind_congr (crossesRay_comm (a := A) (b := C))]
  have k : ∀ a b c d : ZMod 2, a + b = c + (a + d) + (b + c + d) := by decide
  exact k _ _ _ _

/-- Cutting off an outward dent enlarges the region. -/
theorem cut_grow (hs : SimplePoly (C :: (B :: m ++ [A]))) (hD : 0 < hullCross A B C) (hm : m ≠ [])
    (hfree : ∀ s ∈ Jagua.steps (B :: m ++ [A]), ∀ x ∈ segPts s.1 s.2, ¬ InCut A B C x) (ha : 0 < signedArea (B :: m ++ [A])) :
    region (C :: (B :: m ++ [A])) ⊆ region (B :: m ++ [A]) := by
  have hsn := cut_simple' hs hD hm hfree
  have hAB' : (A, B) ∈ sides (B :: m ++ [A]) := (cut_mem' ..).2 (.inr rfl)
  have hin := centroid_in hD
  refine region_fill hD (cut_rho A B C m) ?_ ?_ ?_
  · rintro x ⟨s, hs', hx⟩
    rcases (cut_mem ..).1 hs' with rfl | h | rfl
    · exact .inr (tri_edge_mem (tri_rot hD) (by rw [segPts_comm]; exact hx)).rot.rot
    · exact .inl ⟨s, (cut_mem' ..).2 (.inl h), hx⟩
    · exact .inr (tri_edge_mem (tri_rot (tri_rot hD)) (by rw [segPts_comm]; exact hx)).rot
  · rintro w hw ⟨s, hs', hx⟩
    rcases (cut_mem' ..).1 hs' with h | rfl
    · exact hfree s h w hx ⟨hw.1, hw.2.1, hw.2.2.le⟩
    · have := hw.2.2
      rw [hullCross_seg hx] at this
      exact lt_irrefl _ this
  · have hb := midpoint_between A B
    have hm3 : hullCross A B (midpoint A B) = 0 := hullCross_seg hb.seg
    have hmt : InTri A B C (midpoint A B) := tri_edge_mem hD hb.seg
    have hm1 : 0 < hullCross B C (midpoint A B) := by
      have : hullCross B C (midpoint A B) = hullCross A B C / 2 := by unfold hullCross midpoint; simp only; ring
      rw [this]; exact half_pos hD
    have hm2 : 0 < hullCross C A (midpoint A B) := by
      have : hullCross C A (midpoint A B) = hullCross A B C / 2 := by unfold hullCross midpoint; simp only; ring
      rw [this]; exact half_pos hD
    have := hsn.rho_near hAB' hb (q := centroid A B C) hin.2.2.ne' (by
      intro r hr hne w hw hw'
      rcases (cut_mem' ..).1 hr with h | rfl
      · rw [segPts_comm] at hw'
        rcases tri_to_centroid hD hmt hw' with rfl | hO
        · exact hfree r h _ hw ⟨hm1, hm2, hm3.ge⟩
        · exact hfree r h _ hw ⟨hO.1, hO.2.1, hO.2.2.le⟩
      · exact hne rfl)
    rw [this, hsn.leftIn_pos ha hAB', ind_zero (not_lt.2 hin.2.2.le), add_zero]

/-- Cutting off a peak shrinks the region. -/
theorem cut_shrink (hs : SimplePoly (C :: (B :: m ++ [A]))) (hD : 0 < hullCross A B C)
    (hfree : ∀ s ∈ Jagua.steps (B :: m ++ [A]), ∀ x ∈ segPts s.1 s.2, ¬ InCut A B C x) (ha : signedArea (C :: (B :: m ++ [A])) < 0) :
    region (B :: m ++ [A]) ⊆ region (C :: (B :: m ++ [A])) := by
  have hAC : (A, C) ∈ sides (C :: (B :: m ++ [A])) := (cut_mem ..).2 (.inr (.inr rfl))
  have hneAC := side_ne (by have := hs.1; omega) hs.2.1 hAC
  have hin := centroid_in hD
  refine region_fill hD (fun x => ?_) ?_ ?_ ?_
  · rw [cut_rho A B C m x, add_assoc, zmod2_add_self, add_zero]
  · rintro x ⟨s, hs', hx⟩
    rcases (cut_mem' ..).1 hs' with h | rfl
    · exact .inl ⟨s, (cut_mem ..).2 (.inr (.inl h)), hx⟩
    · exact .inr (tri_edge_mem hD hx)
  · rintro w hw ⟨s, hs', hx⟩
    rcases (cut_mem ..).1 hs' with rfl | h | rfl
    · have := hw.1
      simp only at hx
      rw [segPts_comm] at hx
      rw [hullCross_seg hx] at this
      exact lt_irrefl _ this
    · exact hfree s h w hx ⟨hw.1, hw.2.1, hw.2.2.le⟩
    · have := hw.2.1
      simp only at hx
      rw [segPts_comm] at hx
      rw [hullCross_seg hx] at this
      exact lt_irrefl _ this
  · have hb := midpoint_between A C
    have hmt : InTri A B C (midpoint A C) := (tri_edge_mem (tri_rot (tri_rot hD)) hb.symm.seg).rot
    have hm1 : 0 < hullCross B C (midpoint A C) := by
      have : hullCross B C (midpoint A C) = hullCross A B C / 2 := by unfold hullCross midpoint; simp only; ring
      rw [this]; exact half_pos hD
    have e : hullCross A C (centroid A B C) = - hullCross C A (centroid A B C) := by unfold hullCross; ring
    have hneg : hullCross A C (centroid A B C) < 0 := by rw [e]; linarith [hin.2.1]
    have := hs.rho_near hAC hb (q := centroid A B C) hneg.ne (by
      intro r hr hne w hw hw'
      rw [segPts_comm] at hw'
      rcases tri_to_centroid hD hmt hw' with rfl | hO
      · rcases hs.2.2 _ hAC r hr (Ne.symm hne) _ hb.seg hw with ⟨e, -⟩ | ⟨-, e⟩
        · exact hb.ne_stop hneAC e
        · exact hb.ne_start hneAC e
      · rcases (cut_mem ..).1 hr with rfl | h | rfl
        · have h1 := hO.1
          simp only at hw
          rw [segPts_comm] at hw
          rw [hullCross_seg hw] at h1
          exact lt_irrefl _ h1
        · exact hfree r h _ hw ⟨hO.1, hO.2.1, hO.2.2.le⟩
        · exact hne rfl)
    rw [this, hs.leftIn_neg ha hAC, ind_pos hneg, zero_add]

end Cut

end Jagua
