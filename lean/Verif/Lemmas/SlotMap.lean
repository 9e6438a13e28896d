import Verif.Model.SlotMap
import Mathlib.Data.List.Perm.Basic

/-!
# Slot maps behave like finite maps
-/

set_option linter.unusedSectionVars false

namespace Jagua.SlotMap

variable {α : Type*}

/-- the free list is exactly the list of the empty slots -/
structure WF (m : SlotMap α) : Prop where
  nodup : m.free.Nodup
  free : ∀ i, i ∈ m.free ↔ ∃ s, m.slots[i]? = some s ∧ s.val = none

theorem wf_empty : (empty : SlotMap α).WF := ⟨by simp [empty], by simp [empty]⟩

theorem mem_toList {m : SlotMap α} {k : SlotKey} {a : α} : (k, a) ∈ m.toList ↔ m.get? k = some a := by
  unfold toList get?
  rw [List.mem_filterMap]
  constructor
  · rintro ⟨⟨s, i⟩, hs, h⟩
    rw [List.mem_zipIdx_iff_getElem?] at hs
    dsimp only at hs h
    obtain ⟨b, hb, h⟩ := Option.map_eq_some_iff.1 h
    rw [Prod.mk.injEq] at h
    obtain ⟨rfl, rfl⟩ := h
    dsimp only
    rw [hs]
    dsimp only
    rw [if_pos rfl, hb]
  · intro h
    cases hs : m.slots[k.idx]? with
    | none => rw [hs] at h; simp at h
    | some s =>
      rw [hs] at h
      dsimp only at h
      split_ifs at h with hv
      refine ⟨(s, k.idx), List.mem_zipIdx_iff_getElem?.2 hs, ?_⟩
      dsimp only
      rw [h, hv]
      rfl

theorem toList_snd (m : SlotMap α) : m.toList.map (·.2) = m.values := by
  unfold toList values
  rw [List.map_filterMap]
  have : ∀ (l : List (Slot α)) (j : ℕ), List.filterMap (fun s : Slot α × ℕ =>
      (s.1.val.map fun a => ((⟨s.2, s.1.version⟩ : SlotKey), a)).map (·.2)) (l.zipIdx j) = l.filterMap (·.val) := by
    intro l
    induction l with
    | nil => intro j; rfl
    | cons s l ih =>
      intro j
      rw [List.zipIdx_cons, List.filterMap_cons, List.filterMap_cons]
      cases hs : s.val with
      | none => exact ih _
      | some a => dsimp only [Option.map_some]; rw [ih]
  exact this _ _

theorem mem_values {m : SlotMap α} {a : α} : a ∈ m.values ↔ ∃ k, m.get? k = some a := by
  rw [← toList_snd, List.mem_map]
  constructor
  · rintro ⟨⟨k, b⟩, h, rfl⟩
    exact ⟨k, mem_toList.1 h⟩
  · rintro ⟨k, h⟩
    exact ⟨(k, a), mem_toList.2 h, rfl⟩

theorem toList_keys_nodup (m : SlotMap α) : (m.toList.map (·.1)).Nodup := by
  have h1 : ((m.slots.zipIdx).map (·.2)).Nodup := by
    rw [List.zipIdx_map_snd]
    exact List.nodup_range'
  unfold toList
  rw [List.Nodup, List.pairwise_map] at h1
  rw [List.Nodup, List.pairwise_map, List.pairwise_filterMap]
  refine h1.imp ?_
  intro a b hab x hx y hy hxy
  obtain ⟨_, _, rfl⟩ := Option.map_eq_some_iff.1 hx
  obtain ⟨_, _, rfl⟩ := Option.map_eq_some_iff.1 hy
  exact hab (congrArg SlotKey.idx hxy)

theorem values_set {l : List (Slot α)} {i : ℕ} {s s' : Slot α} (h : l[i]? = some s) :
    ∃ rest : List α, (l.filterMap (·.val)).Perm (s.val.toList ++ rest) ∧
      ((l.set i s').filterMap (·.val)).Perm (s'.val.toList ++ rest) := by
  obtain ⟨hi, hs⟩ := List.getElem?_eq_some_iff.1 h
  have key : ∀ t : Slot α, (t :: l.eraseIdx i).filterMap (·.val) = t.val.toList ++ (l.eraseIdx i).filterMap (·.val) := by
    intro t
    rw [List.filterMap_cons]
    cases t.val <;> rfl
  refine ⟨(l.eraseIdx i).filterMap (·.val), ?_, ?_⟩
  · rw [← key, ← hs]
    exact (List.getElem_cons_eraseIdx_perm hi).symm.filterMap _
  · rw [← key]
    exact (List.set_perm_cons_eraseIdx hi s').filterMap _

theorem insert_spec {m : SlotMap α} (hw : m.WF) (a : α) :
    (m.insert a).2.WF ∧ (m.insert a).2.get? (m.insert a).1 = some a ∧ m.get? (m.insert a).1 = none ∧
      (m.insert a).2.values.Perm (a :: m.values) ∧ ∀ k, k ≠ (m.insert a).1 → ∀ b, m.get? k = some b →
        (m.insert a).2.get? k = some b := by
  unfold insert
  cases hf : m.free with
  | nil =>
    have hno : ∀ (i : ℕ) (s : Slot α), m.slots[i]? = some s → s.val ≠ none := by
      intro i s hs hv
      have := (hw.free i).2 ⟨s, hs, hv⟩
      rw [hf] at this
      simp at this
    dsimp only
    refine ⟨⟨List.nodup_nil, ?_⟩, ?_, ?_, ?_, ?_⟩
    · intro i
      simp only [List.not_mem_nil, false_iff, not_exists, not_and]
      intro s hs
      rcases Nat.lt_trichotomy i m.slots.length with h | h | h
      · rw [List.getElem?_append_left h] at hs
        exact hno i s hs
      · subst h
        rw [List.getElem?_append_right (le_refl _)] at hs
        simp at hs
        subst hs
        simp
      · rw [List.getElem?_append_right h.le, List.getElem?_eq_none (by simp; omega)] at hs
        simp at hs
    · unfold get?
      simp
    · unfold get?
      simp
    · unfold values
      rw [List.filterMap_append]
      exact List.perm_append_singleton _ _
    · intro k _ b hb
      unfold get? at hb ⊢
      cases hs : m.slots[k.idx]? with
      | none => rw [hs] at hb; simp at hb
      | some s =>
        dsimp only
        rw [List.getElem?_append_left (List.getElem?_eq_some_iff.1 hs).1, hs]
        rw [hs] at hb
        exact hb
  | cons i free =>
    have hi := (hw.free i).1 (by rw [hf]; exact List.mem_cons_self)
    obtain ⟨s, hs, hv⟩ := hi
    have hnd := hw.nodup
    rw [hf, List.nodup_cons] at hnd
    have hlt := (List.getElem?_eq_some_iff.1 hs).1
    dsimp only
    rw [hs]
    dsimp only
    refine ⟨⟨hnd.2, ?_⟩, ?_, ?_, ?_, ?_⟩
    · intro j
      dsimp only
      by_cases hj : j = i
      · subst hj
        rw [List.getElem?_set_self hlt]
        constructor
        · intro h; exact absurd h hnd.1
        · rintro ⟨t, ht, htv⟩
          rw [← Option.some.inj ht] at htv
          simp at htv
      · rw [List.getElem?_set_ne (Ne.symm hj), ← hw.free j, hf, List.mem_cons]
        simp [hj]
    · unfold get?
      dsimp only
      rw [List.getElem?_set_self hlt]
      simp
    · unfold get?
      dsimp only
      rw [hs]
      dsimp only
      rw [if_neg (by omega)]
    · obtain ⟨rest, h1, h2⟩ := values_set (s' := ⟨s.version + 1, some a⟩) hs
      rw [hv] at h1
      unfold values
      refine h2.trans ?_
      simpa using h1.symm
    · intro k hk b hb
      unfold get? at hb ⊢
      dsimp only
      by_cases hki : k.idx = i
      · rw [hki, hs] at hb
        dsimp only at hb
        rw [hv] at hb
        split_ifs at hb
      · rw [List.getElem?_set_ne (Ne.symm hki)]
        exact hb

theorem remove_spec {m : SlotMap α} (hw : m.WF) {k : SlotKey} {a : α} (hk : m.get? k = some a) :
    ∃ m', m.remove k = some (a, m') ∧ m'.WF ∧ m'.get? k = none ∧ m.values.Perm (a :: m'.values) ∧
      ∀ k', k' ≠ k → m'.get? k' = m.get? k' := by
  have hk' := hk
  unfold remove
  rw [hk]
  refine ⟨_, rfl, ?_⟩
  unfold get? at hk
  cases hs : m.slots[k.idx]? with
  | none => rw [hs] at hk; simp at hk
  | some s =>
    rw [hs] at hk
    dsimp only at hk
    split_ifs at hk with hv
    have hlt := (List.getElem?_eq_some_iff.1 hs).1
    refine ⟨⟨?_, ?_⟩, ?_, ?_, ?_⟩
    · dsimp only
      rw [List.nodup_cons]
      refine ⟨?_, hw.nodup⟩
      intro h
      obtain ⟨t, ht, htv⟩ := (hw.free _).1 h
      rw [hs] at ht
      rw [← Option.some.inj ht, hk] at htv
      simp at htv
    · intro j
      dsimp only
      by_cases hj : j = k.idx
      · subst hj
        rw [List.getElem?_set_self hlt]
        simp
      · rw [List.getElem?_set_ne (Ne.symm hj), ← hw.free j, List.mem_cons]
        simp [hj]
    · unfold get?
      dsimp only
      rw [List.getElem?_set_self hlt]
      simp
    · obtain ⟨rest, h1, h2⟩ := values_set (s' := ⟨k.version + 1, none⟩) hs
      rw [hk] at h1
      unfold values
      refine h1.trans ?_
      simpa using h2.symm
    · intro k' hkk
      unfold get?
      dsimp only
      by_cases hki : k'.idx = k.idx
      · rw [hki, List.getElem?_set_self hlt, hs]
        dsimp only
        have hne : s.version ≠ k'.version := by
          intro h
          apply hkk
          cases k; cases k'
          simp_all
        rw [if_neg hne]
        split_ifs <;> rfl
      · rw [List.getElem?_set_ne (Ne.symm hki)]

/-- a key that is not valid makes `remove` fail -/
theorem remove_none {m : SlotMap α} {k : SlotKey} (hk : m.get? k = none) : m.remove k = none := by
  unfold remove
  rw [hk]

end Jagua.SlotMap
