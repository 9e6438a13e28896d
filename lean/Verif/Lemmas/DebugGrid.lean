import Verif.Model.DebugGrid
import Verif.Lemmas.DebugCDE
import Verif.Lemmas.HPGTidy

/-! # Lemmas: debug builds and the proximity grid -/

set_option linter.unusedSectionVars false

namespace Jagua

variable {K : Type*} [Field K] [LinearOrder K] [IsStrictOrderedRing K] {n : ℕ}

/-! ## The fill -/

theorem BFill.newDbg_eq {α : Type*} (g : Grid K α) (box : AARect K) : BFill.newDbg g box = BFill.new g box := by
  unfold BFill.newDbg BFill.new BFill.initQueueDbg
  rw [assertThen_pos]
  simp

theorem BFill.resetDbg_eq {α : Type*} {b : BFill} {g : Grid K α} (box : AARect K) (h : b.state.length = g.rows.length * g.cols.length) :
    b.resetDbg g box = b.reset g box := by
  unfold BFill.resetDbg BFill.reset BFill.initQueueDbg
  rw [assertThen_pos (by simpa using h), assertThen_pos]
  simp

theorem BFill.update_length {st st' : List CellState} {i : ℕ} {op : CellState → Option CellState} (h : BFill.update st i op = some st') :
    st'.length = st.length := by
  unfold BFill.update at h
  split at h
  · cases h
  · obtain ⟨s', _, rfl⟩ := Option.map_eq_some_iff.1 h
    simp

theorem BFill.pop_length {b b' : BFill} {r : Option ℕ} (h : b.pop = some (r, b')) : b'.state.length = b.state.length := by
  unfold BFill.pop at h
  split at h
  · cases h; rfl
  · obtain ⟨st, h1, h2⟩ := Option.map_eq_some_iff.1 h
    cases h2
    exact BFill.update_length h1

theorem foldlM_length {σ ω : Type*} {f : σ → ω → Option σ} {m : σ → ℕ} (hf : ∀ s w s', f s w = some s' → m s' = m s) (l : List ω) {s s' : σ}
    (h : l.foldlM f s = some s') : m s' = m s := by
  induction l generalizing s with
  | nil => cases h; rfl
  | cons w l ih =>
    rw [List.foldlM_cons] at h
    obtain ⟨s1, h1, h⟩ := Option.bind_eq_some_iff.1 h
    rw [ih h, hf s w s1 h1]

theorem BFill.queueNeighbor_length {b b' : BFill} {i : ℕ} (h : b.queueNeighbor i = some b') : b'.state.length = b.state.length := by
  unfold BFill.queueNeighbor at h
  split at h
  · cases h
  · obtain ⟨st, h1, rfl⟩ := Option.map_eq_some_iff.1 h
    exact BFill.update_length h1
  · cases h; rfl

theorem BFill.report_length {α : Type*} {b b' : BFill} {g : Grid K α} {i : ℕ} {pos : GeoPosition} (h : b.report g i pos = some b') :
    b'.state.length = b.state.length := by
  unfold BFill.report at h
  obtain ⟨⟨d, b1⟩, h1, h⟩ := Option.bind_eq_some_iff.1 h
  have e1 : b1.state.length = b.state.length := by
    split at h1
    · obtain ⟨st, h2, h3⟩ := Option.map_eq_some_iff.1 h1
      cases h3
      exact foldlM_length (m := List.length) (fun s w s' hs => BFill.update_length hs) _ h2
    · obtain ⟨rc, _, h3⟩ := Option.map_eq_some_iff.1 h1
      cases h3
      rfl
    · cases h1; rfl
    · cases h1; rfl
  rw [← e1]
  split_ifs at h
  · exact foldlM_length (m := fun b : BFill => b.state.length) (fun s w s' hs => BFill.queueNeighbor_length hs) _ h
  · cases h; rfl

theorem HPGCell.registerHazardDbg_eq {env : HEnv K} {c : HPGCell K} {h : Hazard K} (hu : h.entity.isUniversal = true) :
    c.registerHazardDbg env h = c.registerHazard env h := assertThen_pos hu _

theorem HPGCell.registerPoleDbg_eq {env : HEnv K} {c : HPGCell K} {h : Hazard K} (hu : h.entity.isUniversal = true) (pole : Circle K) :
    c.registerPoleDbg env h pole = c.registerPole env h pole := assertThen_pos hu _

theorem fillLoopDbg_eq {env : HEnv K} {h : Hazard K} (hu : h.entity.isUniversal = true) (pole : Circle K) (k : ℕ)
    (g : Grid K (HPGCell K)) (b : BFill) : HPG.fillLoopDbg env h pole k g b = HPG.fillLoop env h pole k g b := by
  induction k generalizing g b with
  | zero => rfl
  | succ k ih =>
    unfold HPG.fillLoopDbg HPG.fillLoop
    congr 1
    funext r
    rcases r with ⟨_ | i, b1⟩
    · rfl
    · dsimp only
      generalize hc : g.cells[i]? = oc
      rcases oc with _ | _ | c
      · rfl
      · dsimp only
        congr 1
        funext b'
        exact ih _ _
      · dsimp only
        rw [HPGCell.registerPoleDbg_eq hu]
        congr 1
        funext u
        congr 1
        funext b'
        exact ih _ _

theorem fillLoop_length {env : HEnv K} {h : Hazard K} {pole : Circle K} (k : ℕ) {g g' : Grid K (HPGCell K)} {b b' : BFill}
    (he : HPG.fillLoop env h pole k g b = some (g', b')) :
    b'.state.length = b.state.length ∧ g'.rows = g.rows ∧ g'.cols = g.cols := by
  induction k generalizing g b with
  | zero => cases he
  | succ k ih =>
    unfold HPG.fillLoop at he
    obtain ⟨⟨r, b1⟩, hpop, he⟩ := Option.bind_eq_some_iff.1 he
    rw [← BFill.pop_length hpop]
    rcases r with _ | i
    · cases he
      exact ⟨rfl, rfl, rfl⟩
    · dsimp only at he
      generalize hc : g.cells[i]? = oc at he
      rcases oc with _ | _ | c
      · cases he
      · obtain ⟨b2, h2, he⟩ := Option.bind_eq_some_iff.1 he
        rw [← BFill.report_length h2]
        exact ih he
      · obtain ⟨u, _, he⟩ := Option.bind_eq_some_iff.1 he
        obtain ⟨b2, h2, he⟩ := Option.bind_eq_some_iff.1 he
        rw [← BFill.report_length h2]
        obtain ⟨e1, e2, e3⟩ := ih he
        exact ⟨e1, e2, e3⟩

theorem registerPoleDbg_eq {env : HEnv K} {h : Hazard K} (hu : h.entity.isUniversal = true) {radius : K} (hr : 0 < radius)
    {pole : Circle K} (hp : 0 ≤ pole.radius) {st : Grid K (HPGCell K) × BFill} (hb : st.2.state.length = st.1.rows.length * st.1.cols.length) :
    HPG.registerPoleDbg env radius h st pole = HPG.registerPole env radius h st pole := by
  unfold HPG.registerPoleDbg HPG.registerPole
  dsimp only
  rw [assertThen_pos, BFill.resetDbg_eq _ hb]
  · congr 1
    funext b
    exact fillLoopDbg_eq hu _ _ _ _
  · refine decide_eq_true ?_
    simp only [HPG.seedBox, Circle.bbox]
    constructor <;> linarith

theorem registerPolesDbg_eq {env : HEnv K} {h : Hazard K} (hu : h.entity.isUniversal = true) {radius : K} (hr : 0 < radius)
    (poles : List (Circle K)) (hp : ∀ pole ∈ poles, 0 ≤ pole.radius) {st : Grid K (HPGCell K) × BFill}
    (hb : st.2.state.length = st.1.rows.length * st.1.cols.length) :
    poles.foldlM (HPG.registerPoleDbg env radius h) st = poles.foldlM (HPG.registerPole env radius h) st := by
  induction poles generalizing st with
  | nil => rfl
  | cons pole poles ih =>
    rw [List.foldlM_cons, List.foldlM_cons, registerPoleDbg_eq hu hr (hp pole List.mem_cons_self) hb]
    cases h1 : HPG.registerPole env radius h st pole with
    | none => rfl
    | some st1 =>
      refine ih (fun p hp' => hp p (List.mem_cons_of_mem _ hp')) ?_
      unfold HPG.registerPole at h1
      obtain ⟨b0, h2, h3⟩ := Option.bind_eq_some_iff.1 h1
      obtain ⟨e1, e2, e3⟩ := fillLoop_length _ h3
      rw [e1, e2, e3, reset_length h2, hb]

/-- In a debug build, registering an item makes one more check at the end. -/
theorem HPG.registerDbg_eq {env : HEnv K} {g : HPG K} {h : Hazard K} (hu : h.entity.isUniversal = true) (hr : 0 < g.cellRadius)
    (hp : ∀ s, h.shape.val.surrogate = some s → ∀ pole ∈ s.poles, 0 ≤ pole.radius) :
    g.registerDbg env h = (g.register env h).bind fun g' => (g'.noneAffected env h).bind fun b => assertThen b (some g') := by
  unfold HPG.registerDbg HPG.register
  cases hs : h.shape.val.surrogate with
  | none => rfl
  | some s =>
    rw [Option.bind_some, Option.bind_some, BFill.newDbg_eq]
    cases hb : BFill.new g.grid h.shape.val.bbox with
    | none => rfl
    | some b =>
      rw [Option.bind_some, Option.bind_some, registerPolesDbg_eq hu hr _ (hp s hs) (bfill_new_length hb), Option.bind_map]
      rfl

/-! ## Removals -/

theorem registerLoopDbg_eq {env : HEnv K} (k : ℕ) (c : HPGCell K) (l : List (Hazard K × Option K)) (hl : ∀ x ∈ l, x.1.entity.isUniversal = true) :
    HPGCell.registerLoopDbg env k c l = HPGCell.registerLoop env k c l := by
  induction k generalizing c l with
  | zero =>
    unfold HPGCell.registerLoopDbg HPGCell.registerLoop
    generalize HPGCell.firstMin l = m
    rcases m with _ | ⟨i, h, _ | d⟩ <;> rfl
  | succ k ih =>
    unfold HPGCell.registerLoopDbg HPGCell.registerLoop
    generalize hm : HPGCell.firstMin l = m
    rcases m with _ | ⟨i, h, key⟩
    · rfl
    · have hmem : (h, key) ∈ l := List.mem_of_getElem? (firstMin_spec.2 _ _ hm).1
      have hsub : ∀ x ∈ swapRemove l i, x.1.entity.isUniversal = true := fun x hx =>
        hl x ((swapRemove_perm (firstMin_spec.2 _ _ hm).1).mem_iff.2 (List.mem_cons_of_mem _ hx))
      have hh := hl _ hmem
      rcases key with _ | d
      · dsimp only
        rw [HPGCell.registerHazardDbg_eq hh]
        congr 1
        funext r
        exact ih _ _ hsub
      · dsimp only
        rw [HPGCell.registerHazardDbg_eq hh]
        split_ifs
        · congr 1
          funext r
          exact ih _ _ hsub
        · rfl

theorem deregisterHazardsDbg_eq {env : HEnv K} {es : List (HazardEntity K)} {D : List (Hazard K)} (hD : ∀ h ∈ D, h.entity.isUniversal = true)
    (c : HPGCell K) : HPGCell.deregisterHazardsDbg env es D c = HPGCell.deregisterHazards env es D c := by
  unfold HPGCell.deregisterHazardsDbg HPGCell.deregisterHazards HPGCell.registerHazardsDbg HPGCell.registerHazards
  split_ifs
  · dsimp only
    cases hm : (D.filter (·.active)).mapM (HPGCell.boundingProx env c.centroid) with
    | none => rfl
    | some l =>
      rw [Option.bind_some, Option.bind_some]
      refine registerLoopDbg_eq _ _ _ fun x hx => ?_
      obtain ⟨h, hh, he⟩ := forall₂_exists_left (mapM_forall₂_of hm) hx
      have : x.1 = h := by
        unfold HPGCell.boundingProx at he
        split at he
        · cases he; rfl
        · obtain ⟨s, _, rfl⟩ := Option.map_eq_some_iff.1 he; rfl
      rw [this]
      exact hD h (List.mem_filter.1 hh).1
  · rfl

theorem mapCells_congr {f f' : HPGCell K → Option (HPGCell K)} (h : ∀ c, f c = f' c) (g : Grid K (HPGCell K)) :
    HPG.mapCells f g = HPG.mapCells f' g := by
  rw [show f = f' from funext h]

theorem HPG.deregisterDbg_eq {env : HEnv K} {g : HPG K} {e : HazardEntity K} {D : List (Hazard K)} (hD : ∀ h ∈ D, h.entity.isUniversal = true)
    (b : Bool) : g.deregisterDbg env e D b = g.deregister env e D b := by
  unfold HPG.deregisterDbg HPG.deregister
  rw [mapCells_congr (deregisterHazardsDbg_eq hD)]

theorem HPG.flushDbg_eq {env : HEnv K} {g : HPG K} {D : List (Hazard K)} (hD : ∀ h ∈ D, h.entity.isUniversal = true) :
    g.flushDbg env D = g.flush env D := by
  unfold HPG.flushDbg HPG.flush
  rw [mapCells_congr (deregisterHazardsDbg_eq hD)]

/-! ## The check at the end of a registration -/

theorem polesProx_le {env : HEnv K} {p : Point K} {poles : List (Circle K)} {u b : K} (hl : ∀ pole ∈ poles, u ≤ HPGCell.discProx env p pole + b)
    (hne : poles ≠ []) : ∃ d, HPGCell.polesProx env p poles = some d ∧ u ≤ d + b := by
  unfold HPGCell.polesProx
  cases poles with
  | nil => exact absurd rfl hne
  | cons q qs =>
    rw [List.map_cons]
    refine ⟨_, rfl, ?_⟩
    have h0 := hl q List.mem_cons_self
    have h1 : ∀ pole ∈ qs, u ≤ HPGCell.discProx env p pole + b := fun pole hp => hl pole (List.mem_cons_of_mem _ hp)
    generalize HPGCell.discProx env p q = d0 at h0 ⊢
    clear hl hne
    induction qs generalizing d0 with
    | nil => exact h0
    | cons q qs ih =>
      rw [List.map_cons, List.foldl_cons]
      refine ih (fun pole hp => h1 pole (List.mem_cons_of_mem _ hp)) _ ?_
      rcases min_choice d0 (HPGCell.discProx env p q) with h | h
      · rw [h]; exact h0
      · rw [h]; exact h1 q List.mem_cons_self

theorem mapM_all_of {α β : Type*} {f : α → Option β} (P : β → Prop) (l : List α) (h : ∀ a ∈ l, ∃ b, f a = some b ∧ P b) :
    ∃ l', l.mapM f = some l' ∧ ∀ b ∈ l', P b := by
  induction l with
  | nil => exact ⟨[], rfl, by simp⟩
  | cons a l ih =>
    obtain ⟨b, h1, h2⟩ := h a List.mem_cons_self
    obtain ⟨l', h3, h4⟩ := ih fun a ha => h a (List.mem_cons_of_mem _ ha)
    refine ⟨b :: l', by rw [List.mapM_cons, h1, h3]; rfl, ?_⟩
    intro x hx
    rcases List.mem_cons.1 hx with rfl | hx
    · exact h2
    · exact h4 x hx

/-- If no cell knows a hazard to be farther than it is, the check succeeds. -/
theorem HPG.noneAffected_of {env : HEnv K} {g : HPG K} {h : Hazard K} (hu : h.entity.isUniversal = true) (hpos : h.entity.position = .interior)
    {s : Surrogate K} (hs : h.shape.val.surrogate = some s) (hne : s.poles ≠ [])
    (hl : ∀ x, some x ∈ g.grid.cells → ∀ pole ∈ s.poles, x.uni.1 ≤ HPGCell.discProx env x.centroid pole) :
    g.noneAffected env h = some true := by
  unfold HPG.noneAffected
  dsimp only
  obtain ⟨l', h1, h2⟩ := mapM_all_of (f := fun (o : Option (HPGCell K)) => match o with
    | none => some false
    | some c => (c.registerHazardDbg env h).map fun (r : HPGCell K × HPGCellUpdate) => decide (r.2 = HPGCellUpdate.affected))
    (fun b => b = false) g.grid.cells (by
      intro o ho
      rcases o with _ | x
      · exact ⟨false, rfl, rfl⟩
      · obtain ⟨d, e1, e2⟩ := polesProx_le (b := 0) (fun pole hp => by rw [add_zero]; exact hl x ho pole hp) hne
        rw [add_zero] at e2
        dsimp only
        rw [HPGCell.registerHazardDbg_eq hu]
        unfold HPGCell.registerHazard
        rw [hpos]
        dsimp only
        rw [hs, Option.bind_some, e1, Option.map_some, Option.map_some, if_neg (not_lt.2 e2)]
        refine ⟨_, rfl, ?_⟩
        rw [decide_eq_false_iff_not]
        dsimp only
        split_ifs <;> simp)
  refine (congrArg _ h1).trans ?_
  rw [Option.map_some]
  congr 1
  have : ¬ true ∈ l' := fun hc => by simpa using h2 _ hc
  simpa using this

end Jagua
