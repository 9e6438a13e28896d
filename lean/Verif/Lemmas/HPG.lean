import Verif.Lemmas.HPGGeo
import Verif.Lemmas.CDERestore
import Verif.Lemmas.CDEReach
import Verif.Lemmas.Problem

/-! # Cells of the proximity grid through all operations -/

set_option linter.unusedSectionVars false

namespace Jagua

variable {K : Type*} [Arith K] [LinearOrder K] {n : ℕ}

theorem mapM_forall₂_of {α β : Type*} {f : α → Option β} {l : List α} {bs : List β} (h : l.mapM f = some bs) :
    List.Forall₂ (fun a b => f a = some b) l bs := by
  induction l generalizing bs with
  | nil => cases h; exact .nil
  | cons a l ih =>
    rw [List.mapM_cons] at h
    obtain ⟨b, hb, h⟩ := Option.bind_eq_some_iff.1 h
    obtain ⟨bs', hbs, h⟩ := Option.bind_eq_some_iff.1 h
    cases h
    exact .cons hb (ih hbs)

theorem forall₂_exists_left {α β : Type*} {R : α → β → Prop} {l : List α} {m : List β} (h : List.Forall₂ R l m) {b : β} (hb : b ∈ m) :
    ∃ a ∈ l, R a b := by
  induction h with
  | nil => simp at hb
  | cons hr _ ih =>
    rcases List.mem_cons.1 hb with rfl | hb
    · exact ⟨_, List.mem_cons_self, hr⟩
    · obtain ⟨a, ha, h⟩ := ih hb
      exact ⟨a, List.mem_cons_of_mem _ ha, h⟩

/-! ## New cells -/

/-- The state of the loop over the static hazards after `hs`. -/
structure StaticInv (env : HEnv K) (p : Point K) (hs : List (Hazard K)) (st : (K × HazardEntity K) × List K) : Prop where
  len : st.2.length = nQualities
  att : st.1.1 = env.fmax ∨ ∃ h ∈ hs, h.entity = st.1.2 ∧ h.entity.isUniversal = true ∧ HPGCell.staticProx env p h = some st.1.1
  le : ∀ h ∈ hs, h.entity.isUniversal = true → ∃ d, HPGCell.staticProx env p h = some d ∧ st.1.1 ≤ d
  top : st.1.1 ≤ env.fmax
  not_dyn : ∀ h ∈ hs, h.entity.isDynamic = false
  stat : st.1.2.isDynamic = false
  qatt : ∀ q v, st.2[q]? = some v → v = env.fmax ∨ ∃ h ∈ hs, (∃ i, h.entity = .inferiorQualityZone q i) ∧
    HPGCell.staticProx env p h = some v
  qle : ∀ h ∈ hs, ∀ q i, h.entity = .inferiorQualityZone q i → ∃ v d, st.2[q]? = some v ∧ HPGCell.staticProx env p h = some d ∧ v ≤ d

theorem addStatic_inv {env : HEnv K} {p : Point K} {hs : List (Hazard K)} {st st' : (K × HazardEntity K) × List K} {h : Hazard K}
    (hi : StaticInv env p hs st) (he : HPGCell.addStatic env p st h = some st') : StaticInv env p (hs ++ [h]) st' := by
  unfold HPGCell.addStatic at he
  obtain ⟨d, hd, he⟩ := Option.bind_eq_some_iff.1 he
  have huni : h.entity.isUniversal = true → h.entity.isDynamic = false → (if d < st.1.1 then ((d, h.entity), st.2) else st) = st' →
      (∀ q i, h.entity ≠ .inferiorQualityZone q i) → StaticInv env p (hs ++ [h]) st' := by
    intro hu hdyn heq hz
    have hsnd : st'.2 = st.2 := by rw [← heq]; split_ifs <;> rfl
    have hfst : st'.1 = if d < st.1.1 then (d, h.entity) else st.1 := by rw [← heq]; split_ifs <;> rfl
    refine ⟨by rw [hsnd]; exact hi.len, ?_, ?_, ?_, ?_, ?_, ?_, ?_⟩
    · rw [hfst]
      split_ifs with hlt
      · exact .inr ⟨h, by simp, rfl, hu, hd⟩
      · rcases hi.att with h1 | ⟨g, hg, h2⟩
        · exact .inl h1
        · exact .inr ⟨g, List.mem_append_left _ hg, h2⟩
    · intro g hg hgu
      rw [hfst]
      rcases List.mem_append.1 hg with hg | hg
      · obtain ⟨e, h1, h2⟩ := hi.le g hg hgu
        refine ⟨e, h1, ?_⟩
        split_ifs with hlt
        · exact hlt.le.trans h2
        · exact h2
      · obtain rfl := List.mem_singleton.1 hg
        refine ⟨d, hd, ?_⟩
        split_ifs with hlt
        · exact le_rfl
        · exact not_lt.1 hlt
    · rw [hfst]
      split_ifs with hlt
      · exact hlt.le.trans hi.top
      · exact hi.top
    · intro g hg
      rcases List.mem_append.1 hg with hg | hg
      · exact hi.not_dyn g hg
      · rw [List.mem_singleton.1 hg]; exact hdyn
    · rw [hfst]
      split_ifs with hlt
      · exact hdyn
      · exact hi.stat
    · intro q v hv
      rw [hsnd] at hv
      rcases hi.qatt q v hv with h1 | ⟨g, hg, h2⟩
      · exact .inl h1
      · exact .inr ⟨g, List.mem_append_left _ hg, h2⟩
    · intro g hg q i hgq
      rw [hsnd]
      rcases List.mem_append.1 hg with hg | hg
      · exact hi.qle g hg q i hgq
      · rw [List.mem_singleton.1 hg] at hgq
        exact absurd hgq (hz q i)
  cases hent : h.entity with
  | placedItem a b => rw [hent] at he; cases he
  | binExterior =>
    rw [hent] at he
    exact huni (by rw [hent]; rfl) (by rw [hent]; rfl) (by rw [hent]; exact Option.some.inj he) (by rw [hent]; simp)
  | binHole i =>
    rw [hent] at he
    exact huni (by rw [hent]; rfl) (by rw [hent]; rfl) (by rw [hent]; exact Option.some.inj he) (by rw [hent]; simp)
  | inferiorQualityZone q0 i0 =>
    rw [hent] at he
    dsimp only at he
    cases hv0 : st.2[q0]? with
    | none => rw [hv0] at he; cases he
    | some v0 =>
      rw [hv0] at he
      obtain rfl := Option.some.inj he
      have hlt : q0 < st.2.length := (List.getElem?_eq_some_iff.1 hv0).1
      refine ⟨by simp [hi.len], ?_, ?_, hi.top, ?_, hi.stat, ?_, ?_⟩
      · rcases hi.att with h1 | ⟨g, hg, h2⟩
        · exact .inl h1
        · exact .inr ⟨g, List.mem_append_left _ hg, h2⟩
      · intro g hg hgu
        rcases List.mem_append.1 hg with hg | hg
        · exact hi.le g hg hgu
        · rw [List.mem_singleton.1 hg, hent] at hgu
          cases hgu
      · intro g hg
        rcases List.mem_append.1 hg with hg | hg
        · exact hi.not_dyn g hg
        · rw [List.mem_singleton.1 hg, hent]; rfl
      · intro q v hv
        dsimp only at hv
        by_cases hq : q0 = q
        · subst hq
          rw [List.getElem?_set_self hlt] at hv
          obtain rfl := Option.some.inj hv
          rcases min_choice v0 d with hm | hm <;> rw [hm]
          · rcases hi.qatt q0 v0 hv0 with h1 | ⟨g, hg, h2⟩
            · exact .inl h1
            · exact .inr ⟨g, List.mem_append_left _ hg, h2⟩
          · exact .inr ⟨h, by simp, ⟨i0, hent⟩, hd⟩
        · rw [List.getElem?_set_ne hq] at hv
          rcases hi.qatt q v hv with h1 | ⟨g, hg, h2⟩
          · exact .inl h1
          · exact .inr ⟨g, List.mem_append_left _ hg, h2⟩
      · intro g hg q i hgq
        dsimp only
        rcases List.mem_append.1 hg with hg | hg
        · obtain ⟨v, e, h1, h2, h3⟩ := hi.qle g hg q i hgq
          by_cases hq : q0 = q
          · subst hq
            rw [h1] at hv0
            obtain rfl := Option.some.inj hv0
            exact ⟨_, e, List.getElem?_set_self hlt, h2, (min_le_left _ _).trans h3⟩
          · exact ⟨v, e, by rw [List.getElem?_set_ne hq]; exact h1, h2, h3⟩
        · rw [List.mem_singleton.1 hg, hent] at hgq
          cases hgq
          rw [List.mem_singleton.1 hg]
          exact ⟨_, d, List.getElem?_set_self hlt, hd, min_le_right _ _⟩

theorem addStatics_inv {env : HEnv K} {p : Point K} (l hs : List (Hazard K)) {st st' : (K × HazardEntity K) × List K}
    (hi : StaticInv env p hs st) (he : l.foldlM (HPGCell.addStatic env p) st = some st') : StaticInv env p (hs ++ l) st' := by
  induction l generalizing hs st with
  | nil => cases he; simpa using hi
  | cons h l ih =>
    rw [List.foldlM_cons] at he
    obtain ⟨st1, h1, he⟩ := Option.bind_eq_some_iff.1 he
    have := ih _ (addStatic_inv hi h1) he
    rwa [List.append_assoc, List.singleton_append] at this

/-- A new cell holds the distances to the static hazards. -/
theorem HPGCell.new_spec {env : HEnv K} {r : AARect K} {statics : List (Hazard K)} {c : HPGCell K}
    (h : HPGCell.new env r statics = some c) : c.bbox = r ∧ c.centroid = r.centroid ∧ c.radius = r.diameter env / 2 ∧
      c.uni = c.staticUni ∧ StaticInv env r.centroid statics (c.staticUni, c.qz) := by
  unfold HPGCell.new at h
  obtain ⟨st, hst, rfl⟩ := Option.map_eq_some_iff.1 h
  have h0 : StaticInv env r.centroid [] ((env.fmax, .binExterior), List.replicate nQualities env.fmax) := by
    refine ⟨by simp, .inl rfl, by simp, le_rfl, by simp, rfl, ?_, by simp⟩
    intro q v hv
    left
    rw [List.getElem?_replicate] at hv
    split_ifs at hv
    exact (Option.some.inj hv).symm
  have := addStatics_inv statics [] h0 hst
  exact ⟨rfl, rfl, rfl, rfl, by simpa using this⟩

/-! ## Cells under the operations -/

/-- a value of a cell that comes from a pole of one of the hazards `D` -/
def AttBy (env : HEnv K) (D : List (Hazard K)) (p : Point K) (v : K × HazardEntity K) : Prop :=
  ∃ h ∈ D, h.entity = v.2 ∧ ∃ s, h.shape.val.surrogate = some s ∧ ∃ pole ∈ s.poles, v.1 = HPGCell.discProx env p pole

/-- The value of a cell comes from the static hazards, from one that waits to be
deregistered, or from a registered one. -/
structure CellInv (env : HEnv K) (statics D : List (Hazard K)) (U : List (HazardEntity K)) (c : HPGCell K) : Prop where
  base : HPGCell.new env c.bbox statics = some { c with uni := c.staticUni }
  att : c.uni = c.staticUni ∨ c.uni.2 ∈ U ∨ AttBy env D c.centroid c.uni
  le : c.uni.1 ≤ c.staticUni.1

/-- cells that agree up to the value for universal hazards -/
def HPGCell.SameBase (c c' : HPGCell K) : Prop := { c' with uni := c.uni } = c

theorem HPGCell.SameBase.refl (c : HPGCell K) : c.SameBase c := rfl

theorem HPGCell.SameBase.trans {c d e : HPGCell K} (h1 : c.SameBase d) (h2 : d.SameBase e) : c.SameBase e := by
  unfold HPGCell.SameBase at *
  cases c; cases d; cases e
  simp_all

theorem HPGCell.SameBase.base {c d : HPGCell K} (h : c.SameBase d) : { d with uni := d.staticUni } = { c with uni := c.staticUni } := by
  unfold HPGCell.SameBase at h
  cases c; cases d
  simp_all

theorem HPGCell.SameBase.fields {c d : HPGCell K} (h : c.SameBase d) :
    d.bbox = c.bbox ∧ d.centroid = c.centroid ∧ d.radius = c.radius ∧ d.staticUni = c.staticUni ∧ d.qz = c.qz := by
  unfold HPGCell.SameBase at h
  cases c; cases d
  simp_all

/-- What registering one pole does to a cell. -/
theorem HPGCell.registerPole_spec {env : HEnv K} {c : HPGCell K} {h : Hazard K} {pole : Circle K} {u : HPGCell K × HPGCellUpdate}
    (hu : c.registerPole env h pole = some u) : h.entity.position = .interior ∧ c.SameBase u.1 ∧
      u.1.uni = (if HPGCell.discProx env c.centroid pole < c.uni.1 then (HPGCell.discProx env c.centroid pole, h.entity) else c.uni) ∧
      (u.2 = .neighborsNotAffected ↔ c.uni.1 + 2 * c.radius < HPGCell.discProx env c.centroid pole - 2 * c.radius ∧
        c.uni.1 ≤ HPGCell.discProx env c.centroid pole) := by
  unfold HPGCell.registerPole at hu
  cases hp : h.entity.position with
  | exterior => rw [hp] at hu; cases hu
  | interior =>
    rw [hp] at hu
    obtain rfl := Option.some.inj hu
    refine ⟨rfl, ?_, ?_, ?_⟩
    · split_ifs <;> rfl
    · split_ifs <;> rfl
    · by_cases h1 : HPGCell.discProx env c.centroid pole < c.uni.1
      · rw [if_pos h1]
        simp [h1]
      · rw [if_neg h1]
        by_cases h2 : c.uni.1 + 2 * c.radius < HPGCell.discProx env c.centroid pole - 2 * c.radius
        · rw [if_pos h2]
          simp [h2, not_lt.1 h1]
        · rw [if_neg h2]
          simp [h2]

theorem polesProx_spec {env : HEnv K} {p : Point K} {poles : List (Circle K)} {d : K} (h : HPGCell.polesProx env p poles = some d) :
    (∃ c ∈ poles, d = HPGCell.discProx env p c) ∧ ∀ c ∈ poles, d ≤ HPGCell.discProx env p c := by
  have key : ∀ (l : List K) (a : K), (l.foldl min a = a ∨ l.foldl min a ∈ l) ∧ l.foldl min a ≤ a ∧ ∀ x ∈ l, l.foldl min a ≤ x := by
    intro l
    induction l with
    | nil => simp
    | cons b l ih =>
      intro a
      obtain ⟨h1, h2, h3⟩ := ih (min a b)
      rw [List.foldl_cons]
      refine ⟨?_, h2.trans (min_le_left _ _), ?_⟩
      · rcases h1 with h1 | h1
        · rw [h1]
          rcases min_choice a b with h | h <;> rw [h]
          · exact .inl rfl
          · exact .inr List.mem_cons_self
        · exact .inr (List.mem_cons_of_mem _ h1)
      · intro x hx
        rcases List.mem_cons.1 hx with rfl | hx
        · exact h2.trans (min_le_right _ _)
        · exact h3 x hx
  unfold HPGCell.polesProx at h
  cases poles with
  | nil => cases h
  | cons c cs =>
    rw [List.map_cons] at h
    obtain rfl := Option.some.inj h
    obtain ⟨h1, h2, h3⟩ := key (cs.map (HPGCell.discProx env p)) (HPGCell.discProx env p c)
    constructor
    · rcases h1 with h1 | h1
      · exact ⟨c, List.mem_cons_self, h1⟩
      · obtain ⟨x, hx, he⟩ := List.mem_map.1 h1
        exact ⟨x, List.mem_cons_of_mem _ hx, he.symm⟩
    · intro x hx
      rcases List.mem_cons.1 hx with rfl | hx
      · exact h2
      · exact h3 _ (List.mem_map.2 ⟨x, hx, rfl⟩)

/-- What registering a hazard does to a cell. -/
theorem HPGCell.registerHazard_spec {env : HEnv K} {c : HPGCell K} {h : Hazard K} {u : HPGCell K × HPGCellUpdate}
    (hu : c.registerHazard env h = some u) : ∃ s d, h.shape.val.surrogate = some s ∧ HPGCell.polesProx env c.centroid s.poles = some d ∧
      c.SameBase u.1 ∧ u.1.uni = if d < c.uni.1 then (d, h.entity) else c.uni := by
  unfold HPGCell.registerHazard at hu
  cases hp : h.entity.position with
  | exterior => rw [hp] at hu; cases hu
  | interior =>
    rw [hp] at hu
    obtain ⟨s, hs, hu⟩ := Option.bind_eq_some_iff.1 hu
    obtain ⟨d, hd, rfl⟩ := Option.map_eq_some_iff.1 hu
    refine ⟨s, d, hs, hd, ?_, ?_⟩ <;> split_ifs <;> rfl

theorem firstMin_spec {l : List (Hazard K × Option K)} :
    (HPGCell.firstMin l = none ↔ l = []) ∧ ∀ i x, HPGCell.firstMin l = some (i, x) → l[i]? = some x ∧ ∀ y ∈ l, HPGCell.keyLt y.2 x.2 = false := by
  have htr : ∀ a b c : Option K, HPGCell.keyLt a b = true → HPGCell.keyLt c b = false → HPGCell.keyLt a c = true := by
    intro a b c h1 h2
    cases a <;> cases b <;> cases c <;> simp_all [HPGCell.keyLt]
    exact h1.trans_le h2
  induction l with
  | nil => simp [HPGCell.firstMin]
  | cons a l ih =>
    unfold HPGCell.firstMin
    cases hf : HPGCell.firstMin l with
    | none =>
      obtain rfl := ih.1.1 hf
      refine ⟨by simp, ?_⟩
      intro i x h
      cases h
      refine ⟨rfl, ?_⟩
      intro y hy
      obtain rfl := List.mem_singleton.1 hy
      cases y.2 <;> simp [HPGCell.keyLt]
    | some r =>
      obtain ⟨j, b⟩ := r
      obtain ⟨h1, h2⟩ := ih.2 j b hf
      dsimp only
      constructor
      · split_ifs <;> simp
      · intro i x h
        split_ifs at h with hk
        · cases h
          refine ⟨by simpa using h1, ?_⟩
          intro y hy
          rcases List.mem_cons.1 hy with rfl | hy
          · cases hyk : HPGCell.keyLt y.2 b.2 with
            | false => rfl
            | true =>
              exfalso
              revert hk hyk
              cases y.2 <;> cases b.2 <;> simp [HPGCell.keyLt]
              intros; order
          · exact h2 y hy
        · cases h
          refine ⟨rfl, ?_⟩
          intro y hy
          rcases List.mem_cons.1 hy with rfl | hy
          · cases y.2 <;> simp [HPGCell.keyLt]
          · cases hyk : HPGCell.keyLt y.2 a.2 with
            | false => rfl
            | true =>
              exfalso
              have hby := h2 y hy
              revert hk hyk hby
              cases y.2 <;> cases b.2 <;> cases a.2 <;> simp [HPGCell.keyLt]
              intros; order

/-- A property of cells that registering any of the hazards keeps is kept by the loop. -/
theorem registerLoop_cell {env : HEnv K} {P : HPGCell K → Prop} (k : ℕ) {c c' : HPGCell K} {l : List (Hazard K × Option K)}
    (hP : ∀ x ∈ l, ∀ d u, P d → d.registerHazard env x.1 = some u → P u.1)
    (h : HPGCell.registerLoop env k c l = some c') (hc : P c) : P c' := by
  induction k generalizing c l with
  | zero =>
    unfold HPGCell.registerLoop at h
    cases hf : HPGCell.firstMin l with
    | none => rw [hf] at h; cases h; exact hc
    | some r => rw [hf] at h; cases h
  | succ k ih =>
    unfold HPGCell.registerLoop at h
    cases hf : HPGCell.firstMin l with
    | none => rw [hf] at h; cases h; exact hc
    | some r =>
      rw [hf] at h
      obtain ⟨i, x, key⟩ := r
      have hx := (firstMin_spec.2 i (x, key) hf).1
      have hmem : (x, key) ∈ l := List.mem_of_getElem? hx
      have hsub : ∀ y ∈ swapRemove l i, y ∈ l := fun y hy => (swapRemove_perm hx).mem_iff.2 (List.mem_cons_of_mem _ hy)
      have step : ∀ (h : (c.registerHazard env x).bind (fun (r : HPGCell K × HPGCellUpdate) =>
          HPGCell.registerLoop env k r.1 (swapRemove l i)) = some c'), P c' := by
        intro h
        obtain ⟨u, hu, h⟩ := Option.bind_eq_some_iff.1 h
        exact ih (fun y hy => hP y (hsub y hy)) h (hP _ hmem c u hc hu)
      cases key with
      | none => exact step h
      | some d =>
        dsimp only at h
        split_ifs at h with hd
        · exact step h
        · cases h; exact hc

theorem registerHazards_cell {env : HEnv K} {P : HPGCell K → Prop} {c c' : HPGCell K} {hs : List (Hazard K)}
    (hP : ∀ x ∈ hs, ∀ d u, P d → d.registerHazard env x = some u → P u.1)
    (h : HPGCell.registerHazards env c hs = some c') (hc : P c) : P c' := by
  unfold HPGCell.registerHazards at h
  obtain ⟨l, hl, h⟩ := Option.bind_eq_some_iff.1 h
  refine registerLoop_cell l.length ?_ h hc
  intro x hx
  obtain ⟨y, hy, hxy⟩ := forall₂_exists_left (mapM_forall₂_of hl) hx
  have : x.1 = y := by
    unfold HPGCell.boundingProx at hxy
    split at hxy
    · cases hxy; rfl
    · obtain ⟨s, _, rfl⟩ := Option.map_eq_some_iff.1 hxy; rfl
  rw [this]
  exact hP y (List.mem_filter.1 hy).1

/-- Two grids with the same layout and cells in relation. -/
structure GridRel (R : HPGCell K → HPGCell K → Prop) (g g' : Grid K (HPGCell K)) : Prop where
  rest : g' = { g with cells := g'.cells }
  cells : List.Forall₂ (Option.Rel R) g.cells g'.cells

theorem optionRel_refl {α : Type*} {R : α → α → Prop} (hr : ∀ c, R c c) (o : Option α) : Option.Rel R o o := by
  cases o
  · exact .none
  · exact .some (hr _)

theorem GridRel.refl {R : HPGCell K → HPGCell K → Prop} (hr : ∀ c, R c c) (g : Grid K (HPGCell K)) : GridRel R g g :=
  ⟨rfl, List.forall₂_same.2 fun o _ => optionRel_refl hr o⟩

theorem GridRel.trans {R : HPGCell K → HPGCell K → Prop} (ht : ∀ a b c, R a b → R b c → R a c) {g g' g'' : Grid K (HPGCell K)}
    (h1 : GridRel R g g') (h2 : GridRel R g' g'') : GridRel R g g'' := by
  refine ⟨?_, ?_⟩
  · rw [h2.rest, h1.rest]
  · have hO : ∀ a b c : Option (HPGCell K), Option.Rel R a b → Option.Rel R b c → Option.Rel R a c := by
      intro a b c hab hbc
      cases hab with
      | none => exact hbc
      | some hab => cases hbc with
        | some hbc => exact .some (ht _ _ _ hab hbc)
    have : ∀ l m k : List (Option (HPGCell K)), List.Forall₂ (Option.Rel R) l m → List.Forall₂ (Option.Rel R) m k →
        List.Forall₂ (Option.Rel R) l k := by
      intro l m k h
      induction h generalizing k with
      | nil => exact id
      | cons h _ ih =>
        intro h'
        cases h' with
        | cons h1 h2 => exact .cons (hO _ _ _ h h1) (ih _ h2)
    exact this _ _ _ h1.cells h2.cells

theorem GridRel.length {R : HPGCell K → HPGCell K → Prop} {g g' : Grid K (HPGCell K)} (h : GridRel R g g') :
    g'.cells.length = g.cells.length := h.cells.length_eq.symm

theorem GridRel.left {R : HPGCell K → HPGCell K → Prop} {g g' : Grid K (HPGCell K)} (h : GridRel R g g') {c' : HPGCell K}
    (hc : some c' ∈ g'.cells) : ∃ c, some c ∈ g.cells ∧ R c c' := by
  obtain ⟨o, ho, hr⟩ := forall₂_exists_left h.cells hc
  cases hr with
  | some hr => exact ⟨_, ho, hr⟩

theorem GridRel.imp {R S : HPGCell K → HPGCell K → Prop} (hRS : ∀ c c', R c c' → S c c') {g g' : Grid K (HPGCell K)} (h : GridRel R g g') :
    GridRel S g g' := by
  refine ⟨h.rest, h.cells.imp ?_⟩
  intro a b hab
  cases hab with
  | none => exact .none
  | some h => exact .some (hRS _ _ h)

theorem GridRel.set {R : HPGCell K → HPGCell K → Prop} (hr : ∀ c, R c c) {g : Grid K (HPGCell K)} {i : ℕ} {c c' : HPGCell K}
    (hi : g.cells[i]? = some (some c)) (h : R c c') : GridRel R g { g with cells := g.cells.set i (some c') } := by
  refine ⟨rfl, ?_⟩
  show List.Forall₂ _ g.cells (g.cells.set i (some c'))
  generalize g.cells = l at hi
  induction l generalizing i with
  | nil => simp at hi
  | cons a l ih =>
    cases i with
    | zero =>
      simp only [List.getElem?_cons_zero, Option.some.injEq] at hi
      subst hi
      exact .cons (.some h) (List.forall₂_same.2 fun o _ => optionRel_refl hr o)
    | succ i => exact .cons (optionRel_refl hr a) (ih (by simpa using hi))

/-- What registering the pole does to cells, the fill does to all of them. -/
theorem fillLoop_rel {env : HEnv K} {h : Hazard K} {pole : Circle K} {R : HPGCell K → HPGCell K → Prop} (hr : ∀ c, R c c)
    (ht : ∀ a b c, R a b → R b c → R a c)
    (hP : ∀ c u, c.registerPole env h pole = some u → R c u.1) (k : ℕ) {g g' : Grid K (HPGCell K)} {b b' : BFill}
    (he : HPG.fillLoop env h pole k g b = some (g', b')) : GridRel R g g' := by
  induction k generalizing g b with
  | zero => cases he
  | succ k ih =>
    unfold HPG.fillLoop at he
    obtain ⟨⟨r, b1⟩, hpop, he⟩ := Option.bind_eq_some_iff.1 he
    cases r with
    | none => cases he; exact GridRel.refl hr _
    | some i =>
      dsimp only at he
      cases hc : g.cells[i]? with
      | none => rw [hc] at he; cases he
      | some oc =>
        rw [hc] at he
        cases oc with
        | none =>
          obtain ⟨b2, _, he⟩ := Option.bind_eq_some_iff.1 he
          exact ih he
        | some c =>
          obtain ⟨u, hu, he⟩ := Option.bind_eq_some_iff.1 he
          obtain ⟨b2, _, he⟩ := Option.bind_eq_some_iff.1 he
          exact (GridRel.set hr hc (hP c u hu)).trans ht (ih he)

theorem registerPoles_rel {env : HEnv K} {h : Hazard K} {radius : K} {R : HPGCell K → HPGCell K → Prop} (hr : ∀ c, R c c)
    (ht : ∀ a b c, R a b → R b c → R a c) (poles : List (Circle K))
    (hP : ∀ pole ∈ poles, ∀ c u, c.registerPole env h pole = some u → R c u.1) {st st' : Grid K (HPGCell K) × BFill}
    (he : poles.foldlM (HPG.registerPole env radius h) st = some st') : GridRel R st.1 st'.1 := by
  induction poles generalizing st with
  | nil => cases he; exact GridRel.refl hr _
  | cons pole poles ih =>
    rw [List.foldlM_cons] at he
    obtain ⟨st1, h1, he⟩ := Option.bind_eq_some_iff.1 he
    unfold HPG.registerPole at h1
    obtain ⟨b, _, h1⟩ := Option.bind_eq_some_iff.1 h1
    exact (fillLoop_rel hr ht (hP pole List.mem_cons_self) _ h1).trans ht (ih (fun p hp => hP p (List.mem_cons_of_mem _ hp)) he)

/-- What an operation does to cells, `mapCells` does to all of them. -/
theorem mapCells_rel {f : HPGCell K → Option (HPGCell K)} {g g' : Grid K (HPGCell K)} (h : HPG.mapCells f g = some g') :
    GridRel (fun c c' => f c = some c') g g' := by
  unfold HPG.mapCells at h
  obtain ⟨cells, hc, rfl⟩ := Option.map_eq_some_iff.1 h
  refine ⟨rfl, (mapM_forall₂_of hc).imp ?_⟩
  intro a b hab
  cases a with
  | none => cases hab; exact .none
  | some c =>
    obtain ⟨c', hc', rfl⟩ := Option.map_eq_some_iff.1 hab
    exact .some hc'

/-! ## The value of a cell comes from a hazard -/

theorem AttBy.mono {env : HEnv K} {D D' : List (Hazard K)} (h : ∀ x ∈ D, x ∈ D') {p : Point K} {v : K × HazardEntity K}
    (ha : AttBy env D p v) : AttBy env D' p v := by
  obtain ⟨x, hx, h1⟩ := ha
  exact ⟨x, h x hx, h1⟩

theorem CellInv.registerPole {env : HEnv K} {statics D : List (Hazard K)} {U : List (HazardEntity K)} {c : HPGCell K} {h : Hazard K}
    {s : Surrogate K} {pole : Circle K} (hi : CellInv env statics D U c) (hh : h ∈ D) (hs : h.shape.val.surrogate = some s)
    (hp : pole ∈ s.poles) {u : HPGCell K × HPGCellUpdate} (hu : c.registerPole env h pole = some u) : CellInv env statics D U u.1 := by
  obtain ⟨_, hb, hv, _⟩ := HPGCell.registerPole_spec hu
  obtain ⟨f1, f2, f3, f4, f5⟩ := hb.fields
  refine ⟨?_, ?_, ?_⟩
  · rw [hb.base, f1]; exact hi.base
  · rw [hv, f4, f2]
    split_ifs with hlt
    · exact .inr (.inr ⟨h, hh, rfl, s, hs, pole, hp, rfl⟩)
    · exact hi.att
  · rw [hv, f4]
    split_ifs with hlt
    · exact hlt.le.trans hi.le
    · exact hi.le

theorem CellInv.registerHazard {env : HEnv K} {statics D : List (Hazard K)} {U : List (HazardEntity K)} {c : HPGCell K} {h : Hazard K}
    (hi : CellInv env statics D U c) (hh : h ∈ D) {u : HPGCell K × HPGCellUpdate} (hu : c.registerHazard env h = some u) :
    CellInv env statics D U u.1 := by
  obtain ⟨s, d, hs, hd, hb, hv⟩ := HPGCell.registerHazard_spec hu
  obtain ⟨f1, f2, f3, f4, f5⟩ := hb.fields
  obtain ⟨pole, hp, rfl⟩ := (polesProx_spec hd).1
  refine ⟨?_, ?_, ?_⟩
  · rw [hb.base, f1]; exact hi.base
  · rw [hv, f4, f2]
    split_ifs with hlt
    · exact .inr (.inr ⟨h, hh, rfl, s, hs, pole, hp, rfl⟩)
    · exact hi.att
  · rw [hv, f4]
    split_ifs with hlt
    · exact hlt.le.trans hi.le
    · exact hi.le

theorem CellInv.static {env : HEnv K} {statics D : List (Hazard K)} {U : List (HazardEntity K)} {c : HPGCell K}
    (hi : CellInv env statics D U c) (D' : List (Hazard K)) (U' : List (HazardEntity K)) :
    CellInv env statics D' U' { c with uni := c.staticUni } := ⟨hi.base, .inl rfl, le_rfl⟩

/-- processing deregistrations: the hazards `es` are gone, `D'` are those still registered -/
theorem CellInv.deregister {env : HEnv K} {statics D D' : List (Hazard K)} {U U' es : List (HazardEntity K)} {c c' : HPGCell K}
    (hi : CellInv env statics D U c) (hD : ∀ x ∈ D, x ∈ D' ∨ x.entity ∈ es) (hU : ∀ e ∈ U, e ∈ U' ∨ e ∈ es)
    (h : HPGCell.deregisterHazards env es D' c = some c') : CellInv env statics D' U' c' := by
  unfold HPGCell.deregisterHazards at h
  split_ifs at h with hc
  · exact registerHazards_cell (P := CellInv env statics D' U') (fun x hx d u hd hu => hd.registerHazard hx hu) h (hi.static D' U')
  · cases h
    rw [List.contains_iff_mem] at hc
    refine ⟨hi.base, ?_, hi.le⟩
    rcases hi.att with h1 | h1 | ⟨x, hx, he, h2⟩
    · exact .inl h1
    · exact (hU _ h1).elim (fun h => .inr (.inl h)) fun h => absurd h hc
    · rcases hD x hx with h3 | h3
      · exact .inr (.inr ⟨x, h3, he, h2⟩)
      · exact absurd (he ▸ h3) hc

theorem CellInv.mono {env : HEnv K} {statics D D' : List (Hazard K)} {U U' : List (HazardEntity K)} {c : HPGCell K}
    (hi : CellInv env statics D U c) (hD : ∀ x ∈ D, x ∈ D' ∨ x.entity ∈ U') (hU : ∀ e ∈ U, e ∈ U') : CellInv env statics D' U' c := by
  refine ⟨hi.base, ?_, hi.le⟩
  rcases hi.att with h1 | h1 | ⟨x, hx, he, h2⟩
  · exact .inl h1
  · exact .inr (.inl (hU _ h1))
  · rcases hD x hx with h3 | h3
    · exact .inr (.inr ⟨x, h3, he, h2⟩)
    · exact .inr (.inl (he ▸ h3))

end Jagua
