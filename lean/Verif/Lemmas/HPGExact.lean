import Verif.Lemmas.HPGFill

/-! # The grid under all operations -/

set_option linter.unusedSectionVars false

namespace Jagua

variable {K : Type*} [Field K] [LinearOrder K] [IsStrictOrderedRing K] {n : ℕ}

/-- the poles of the hazards -/
def poleSet (D : List (Hazard K)) : Set (HazardEntity K × Circle K) :=
  {q | ∃ h ∈ D, h.entity = q.1 ∧ ∃ s, h.shape.val.surrogate = some s ∧ q.2 ∈ s.poles}

theorem poleSet_append (D E : List (Hazard K)) : poleSet (D ++ E) = poleSet D ∪ poleSet E := by
  ext q
  constructor
  · rintro ⟨h, hh, hq⟩
    exact (List.mem_append.1 hh).imp (fun hh => ⟨h, hh, hq⟩) fun hh => ⟨h, hh, hq⟩
  · rintro (⟨h, hh, hq⟩ | ⟨h, hh, hq⟩)
    · exact ⟨h, List.mem_append_left _ hh, hq⟩
    · exact ⟨h, List.mem_append_right _ hh, hq⟩

theorem poleSet_congr {D E : List (Hazard K)} (h : ∀ x, x ∈ D ↔ x ∈ E) : poleSet D = poleSet E := by
  ext q
  exact ⟨fun ⟨x, hx, hq⟩ => ⟨x, (h x).1 hx, hq⟩, fun ⟨x, hx, hq⟩ => ⟨x, (h x).2 hx, hq⟩⟩

theorem poleSet_nil : poleSet ([] : List (Hazard K)) = ∅ := by
  ext q
  simp [poleSet]

theorem poleSet_single {h : Hazard K} {s : Surrogate K} (hs : h.shape.val.surrogate = some s) :
    poleSet [h] = {q | q.1 = h.entity ∧ q.2 ∈ s.poles} := by
  ext q
  constructor
  · rintro ⟨x, hx, he, s', hs', hq⟩
    obtain rfl := List.mem_singleton.1 hx
    rw [hs] at hs'
    obtain rfl := Option.some.inj hs'
    exact ⟨he.symm, hq⟩
  · rintro ⟨he, hq⟩
    exact ⟨h, List.mem_singleton.2 rfl, he.symm, s, hs, hq⟩

theorem map_of_forall₂ {α β γ : Type*} {R : α → β → Prop} {l : List α} {m : List β} (h : List.Forall₂ R l m) {f : β → γ} {e : α → γ}
    (hf : ∀ a b, R a b → f b = e a) : m.map f = l.map e := by
  induction h with
  | nil => rfl
  | cons h1 _ ih => rw [List.map_cons, List.map_cons, ih, hf _ _ h1]

/-! ## Bounding circles -/

theorem discProx_point {env : HEnv K} {ε : K} (hs : env.SqrtWithin ε) (p : Point K) {c : Circle K} (hc : 0 ≤ c.radius) :
    ∃ x ∈ c.pts, sqDist p x ≤ (HPGCell.discProx env p c + ε) ^ 2 := by
  have h0 := hs.nonneg _ (sqDist_nonneg p c.center)
  have h1 := hs.low _ (sqDist_nonneg p c.center)
  have he := hs.eps
  have hge := discProx_ge env c p
  have hge0 := discProx_nonneg env p c
  generalize env.sqrt (sqDist p c.center) = d at *
  by_cases h : d + ε ≤ c.radius
  · refine ⟨p, ?_, ?_⟩
    · exact h1.trans (pow_le_pow_left₀ (by linarith) h 2)
    · have : sqDist p p = 0 := by unfold sqDist; ring
      rw [this]
      positivity
  · have hlt := not_le.1 h
    have hd : 0 < d + ε := hc.trans_lt hlt
    refine ⟨⟨c.center.x + c.radius / (d + ε) * (p.x - c.center.x), c.center.y + c.radius / (d + ε) * (p.y - c.center.y)⟩, ?_, ?_⟩
    · show _ ≤ _
      have : (c.center.x + c.radius / (d + ε) * (p.x - c.center.x) - c.center.x) ^ 2 +
          (c.center.y + c.radius / (d + ε) * (p.y - c.center.y) - c.center.y) ^ 2 = (c.radius / (d + ε)) ^ 2 * sqDist p c.center := by
        unfold sqDist; ring
      rw [this]
      calc (c.radius / (d + ε)) ^ 2 * sqDist p c.center ≤ (c.radius / (d + ε)) ^ 2 * (d + ε) ^ 2 := mul_le_mul_of_nonneg_left h1 (sq_nonneg _)
        _ = c.radius ^ 2 := by field_simp
    · have : sqDist p ⟨c.center.x + c.radius / (d + ε) * (p.x - c.center.x), c.center.y + c.radius / (d + ε) * (p.y - c.center.y)⟩ =
          (1 - c.radius / (d + ε)) ^ 2 * sqDist p c.center := by
        unfold sqDist; ring
      rw [this]
      calc (1 - c.radius / (d + ε)) ^ 2 * sqDist p c.center ≤ (1 - c.radius / (d + ε)) ^ 2 * (d + ε) ^ 2 := mul_le_mul_of_nonneg_left h1 (sq_nonneg _)
        _ = (d + ε - c.radius) ^ 2 := by field_simp
        _ ≤ _ := pow_le_pow_left₀ (by linarith) (by linarith) 2

/-- A disc is not closer than a disc around it, up to the error of the square root. -/
theorem discProx_subset {env : HEnv K} {ε : K} (hs : env.SqrtWithin ε) (p : Point K) {c b : Circle K} (hc : 0 ≤ c.radius)
    (hb : 0 ≤ b.radius) (hsub : c.pts ⊆ b.pts) : HPGCell.discProx env p b ≤ HPGCell.discProx env p c + 2 * ε := by
  obtain ⟨x, hx, hd⟩ := discProx_point hs p hc
  have h0 := discProx_nonneg env p c
  have he := hs.eps
  have hxb : sqDist x b.center ≤ b.radius ^ 2 := hsub hx
  have := discProx_le hs b (by linarith) (sqDist_triangle (by linarith) hb hd hxb)
  exact this.trans (max_le (by linarith) (by linarith))

/-! ## Recomputing a cell -/

/-- what is asked of a hazard: its poles lie in their bounding circle -/
def HazOk (h : Hazard K) : Prop := ∀ s, h.shape.val.surrogate = some s → 0 ≤ s.polesBoundingCircle.radius ∧
  ∀ pole ∈ s.poles, 0 ≤ pole.radius ∧ pole.pts ⊆ s.polesBoundingCircle.pts

theorem ExC.registerHazard {env : HEnv K} {ε : K} {statics : List (Hazard K)} (he : 0 ≤ ε) {Q : Set (HazardEntity K × Circle K)} {c : HPGCell K}
    {h : Hazard K} (hi : ExC env ε statics Q c) {u : HPGCell K × HPGCellUpdate} (hu : c.registerHazard env h = some u) :
    ExC env ε statics (Q ∪ poleSet [h]) u.1 ∧ u.1.centroid = c.centroid := by
  obtain ⟨s, d, hs, hd, hb, hv⟩ := HPGCell.registerHazard_spec hu
  obtain ⟨f1, f2, f3, f4, f5⟩ := hb.fields
  obtain ⟨⟨pole, hp, hdp⟩, hmin⟩ := polesProx_spec hd
  rw [poleSet_single hs]
  refine ⟨⟨?_, ?_, ?_, ?_⟩, f2⟩
  · rw [hb.base, f1]; exact hi.base
  · rw [hv, f4, f2]
    split_ifs with hlt
    · exact .inr ⟨(h.entity, pole), .inr ⟨rfl, hp⟩, by rw [hdp]⟩
    · rcases hi.att with h1 | ⟨q, hq, h1⟩
      · exact .inl h1
      · exact .inr ⟨q, .inl hq, h1⟩
  · rw [hv, f4]
    split_ifs with hlt
    · exact hlt.le.trans hi.le
    · exact hi.le
  · rintro q (hq | ⟨_, hq⟩)
    · have := hi.low q hq
      rw [hv, f2]
      split_ifs with hlt
      · dsimp only; linarith
      · exact this
    · have := hmin _ hq
      rw [hv, f2]
      split_ifs with hlt
      · dsimp only; linarith
      · have := not_lt.1 hlt
        linarith

theorem registerLoop_exact {env : HEnv K} {ε : K} {statics : List (Hazard K)} (hs : env.SqrtWithin ε) (k : ℕ)
    {Q : Set (HazardEntity K × Circle K)} {c c' : HPGCell K} {l : List (Hazard K × Option K)} (hi : ExC env ε statics Q c)
    (hl : ∀ x ∈ l, HPGCell.boundingProx env c.centroid x.1 = some x ∧ HazOk x.1)
    (h : HPGCell.registerLoop env k c l = some c') : ExC env ε statics (Q ∪ poleSet (l.map (·.1))) c' := by
  have hnil : ∀ c, ExC env ε statics Q c → ExC env ε statics (Q ∪ poleSet (([] : List (Hazard K × Option K)).map (·.1))) c := by
    intro c hc
    rw [List.map_nil, poleSet_nil, Set.union_empty]
    exact hc
  induction k generalizing c l Q with
  | zero =>
    unfold HPGCell.registerLoop at h
    cases hf : HPGCell.firstMin l with
    | none =>
      rw [hf] at h
      cases h
      rw [firstMin_spec.1.1 hf]
      exact hnil _ hi
    | some r => rw [hf] at h; cases h
  | succ k ih =>
    unfold HPGCell.registerLoop at h
    cases hf : HPGCell.firstMin l with
    | none =>
      rw [hf] at h
      cases h
      rw [firstMin_spec.1.1 hf]
      exact hnil _ hi
    | some r =>
      rw [hf] at h
      obtain ⟨i, x, key⟩ := r
      obtain ⟨hx, hmin⟩ := firstMin_spec.2 i (x, key) hf
      have hperm := swapRemove_perm hx
      have hset : poleSet (l.map (·.1)) = poleSet [x] ∪ poleSet ((swapRemove l i).map (·.1)) := by
        rw [← poleSet_append]
        apply poleSet_congr
        intro y
        rw [(hperm.map (·.1)).mem_iff]
        simp
      have step : ∀ (h : (c.registerHazard env x).bind (fun (r : HPGCell K × HPGCellUpdate) =>
          HPGCell.registerLoop env k r.1 (swapRemove l i)) = some c'), ExC env ε statics (Q ∪ poleSet (l.map (·.1))) c' := by
        intro h
        obtain ⟨u, hu, h⟩ := Option.bind_eq_some_iff.1 h
        obtain ⟨h1, h2⟩ := hi.registerHazard hs.eps hu
        rw [hset, ← Set.union_assoc]
        refine ih h1 (fun y hy => ?_) h fun c hc => by rw [List.map_nil, poleSet_nil, Set.union_empty]; exact hc
        rw [h2]
        exact hl y (hperm.mem_iff.2 (List.mem_cons_of_mem _ hy))
      cases key with
      | none => exact step h
      | some d =>
        dsimp only at h
        split_ifs at h with hd
        · exact step h
        · cases h
          refine ⟨hi.base, ?_, hi.le, ?_⟩
          · rcases hi.att with h1 | ⟨q, hq, h1⟩
            · exact .inl h1
            · exact .inr ⟨q, .inl hq, h1⟩
          · rintro q (hq | ⟨z, hz, he, s, hzs, hq⟩)
            · exact hi.low q hq
            · obtain ⟨y, hy, rfl⟩ := List.mem_map.1 hz
              obtain ⟨hb, hok⟩ := hl y hy
              have hk := hmin y hy
              obtain ⟨y1, y2⟩ := y
              dsimp only at hb hzs hk hok
              unfold HPGCell.boundingProx at hb
              split at hb
              · obtain ⟨-, rfl⟩ := Prod.mk.inj (Option.some.inj hb)
                simp [HPGCell.keyLt] at hk
              · rw [hzs, Option.map_some] at hb
                obtain ⟨-, rfl⟩ := Prod.mk.inj (Option.some.inj hb)
                simp only [HPGCell.keyLt, decide_eq_false_iff_not, not_lt] at hk
                obtain ⟨o1, o2⟩ := hok s hzs
                have := discProx_subset hs c'.centroid (o2 _ hq).1 o1 (o2 _ hq).2
                have := not_le.1 hd
                linarith

theorem registerHazards_exact {env : HEnv K} {ε : K} {statics : List (Hazard K)} (hs : env.SqrtWithin ε)
    {Q : Set (HazardEntity K × Circle K)} {c c' : HPGCell K} {D : List (Hazard K)} (hi : ExC env ε statics Q c)
    (hact : ∀ h ∈ D, h.active = true) (hok : ∀ h ∈ D, HazOk h) (h : HPGCell.registerHazards env c D = some c') :
    ExC env ε statics (Q ∪ poleSet D) c' := by
  unfold HPGCell.registerHazards at h
  rw [List.filter_eq_self.2 (by simpa using hact)] at h
  obtain ⟨l, hl, h⟩ := Option.bind_eq_some_iff.1 h
  have hfst : ∀ {y x}, HPGCell.boundingProx env c.centroid y = some x → x.1 = y := by
    intro y x hxy
    unfold HPGCell.boundingProx at hxy
    split at hxy
    · cases hxy; rfl
    · obtain ⟨s, _, rfl⟩ := Option.map_eq_some_iff.1 hxy; rfl
  have hf := mapM_forall₂_of hl
  have hm : l.map (·.1) = D := by
    rw [map_of_forall₂ hf (e := id) fun _ _ h => hfst h, List.map_id]
  have := registerLoop_exact hs _ hi (fun x hx => ?_) h
  · rwa [hm] at this
  · obtain ⟨y, hy, hxy⟩ := forall₂_exists_left hf hx
    rw [hfst hxy]
    exact ⟨hxy, hok y hy⟩

/-- Removing hazards: a cell that depends on one of them is recomputed, the others stay
right. -/
theorem ExC.deregister {env : HEnv K} {ε : K} {statics D D' : List (Hazard K)} (hs : env.SqrtWithin ε) {es : List (HazardEntity K)}
    {c c' : HPGCell K} (hi : ExC env ε statics (poleSet D) c) (hact : ∀ h ∈ D', h.active = true) (hok : ∀ h ∈ D', HazOk h)
    (hD : ∀ x ∈ D, x.entity ∉ es → x ∈ D') (hD' : ∀ x ∈ D', x ∈ D) (h : HPGCell.deregisterHazards env es D' c = some c') :
    ExC env ε statics (poleSet D') c' := by
  unfold HPGCell.deregisterHazards at h
  split_ifs at h with hc
  · have h0 : ExC env ε statics ∅ { c with uni := c.staticUni } := ⟨hi.base, .inl rfl, le_rfl, fun q hq => absurd hq (by simp)⟩
    have := registerHazards_exact hs h0 hact hok h
    rwa [Set.empty_union] at this
  · cases h
    rw [List.contains_iff_mem] at hc
    refine ⟨hi.base, ?_, hi.le, ?_⟩
    · rcases hi.att with h1 | ⟨q, ⟨x, hx, he, h2⟩, h1⟩
      · exact .inl h1
      · refine .inr ⟨q, ⟨x, hD x hx ?_, he, h2⟩, h1⟩
        rw [he]
        rw [h1] at hc
        exact hc
    · rintro q ⟨x, hx, h2⟩
      exact hi.low q ⟨x, hD' x hx, h2⟩

/-! ## Registering a hazard -/

theorem bfill_new_length {α : Type*} {g : Grid K α} {b : BFill} {box : AARect K} (h : BFill.new g box = some b) :
    b.state.length = g.rows.length * g.cols.length := by
  unfold BFill.new BFill.initQueue at h
  dsimp only at h
  obtain ⟨r, h1, h⟩ := Option.bind_eq_some_iff.1 h
  obtain ⟨c, h2, h⟩ := Option.bind_eq_some_iff.1 h
  obtain ⟨i, h3, h⟩ := Option.bind_eq_some_iff.1 h
  obtain ⟨st, h4, rfl⟩ := Option.map_eq_some_iff.1 h
  unfold BFill.update at h4
  split at h4
  · cases h4
  · obtain ⟨s', _, rfl⟩ := Option.map_eq_some_iff.1 h4
    simp

/-- all values of the grid are right for the discs `Q` -/
def ExG (env : HEnv K) (ε : K) (statics : List (Hazard K)) (Q : Set (HazardEntity K × Circle K)) (g : Grid K (HPGCell K)) : Prop :=
  ∀ x, some x ∈ g.cells → ExC env ε statics Q x

theorem registerPole_exact {env : HEnv K} {ε : K} {statics : List (Hazard K)} (st : HSetting env ε statics) {N : GNum K} {bbox : AARect K}
    (ok : N.Ok ε bbox) {Q : Set (HazardEntity K × Circle K)} {h : Hazard K} {pole : Circle K} (hR : 0 ≤ pole.radius)
    (hx : bbox.xMin + pole.radius ≤ pole.center.x ∧ pole.center.x + pole.radius ≤ bbox.xMax)
    (hy : bbox.yMin + pole.radius ≤ pole.center.y ∧ pole.center.y + pole.radius ≤ bbox.yMax)
    {s s' : Grid K (HPGCell K) × BFill} (hN : UGrid N s.1) (hQ : ExG env ε statics Q s.1) (hb : s.2.state.length = s.1.rows.length * s.1.cols.length)
    (he : HPG.registerPole env N.r h s pole = some s') :
    UGrid N s'.1 ∧ ExG env ε statics (insert (h.entity, pole) Q) s'.1 ∧ s'.2.state.length = s'.1.rows.length * s'.1.cols.length := by
  unfold HPG.registerPole at he
  obtain ⟨b0, hr, he⟩ := Option.bind_eq_some_iff.1 he
  obtain ⟨g', b'⟩ := s'
  have hrel : GridRel HPGCell.SameBase s.1 g' := fillLoop_rel HPGCell.SameBase.refl (fun _ _ _ => HPGCell.SameBase.trans)
    (fun c u hu => (HPGCell.registerPole_spec hu).2.1) _ he
  have hN' : UGrid N g' := UGrid.rel hN hrel
  refine ⟨hN', ?_, ?_⟩
  · intro x hx'
    exact fill_exact st ok hN hQ hR hx hy hb hr he hx'
  · have hr0 : 0 ≤ N.r := by have := ok.r; have := st.sqrt.eps; linarith
    have hnx : 0 < N.X.n := by have := ok.X.lt; have := ok.X.le; omega
    have hny : 0 < N.Y.n := by have := ok.Y.lt; have := ok.Y.le; omega
    have hrl : s.1.rows.length = N.Y.n := by rw [hN.rows, centres_length]
    have hcl : s.1.cols.length = N.X.n := by rw [hN.cols, centres_length]
    have hstart : BFill.Started s.1 (HPG.seedBox N.r pole) b0 := .inr ⟨s.2, hb, hr⟩
    obtain ⟨m, inv, hq0, hs0, hn0, -, -, -, -⟩ := hstart.spec (hN.wf ok.dim) (fun hc => by rw [hc] at hrl; simp at hrl; omega)
      (fun hc => by rw [hc] at hcl; simp at hcl; omega) (by unfold HPG.seedBox Circle.bbox; dsimp only; linarith)
      (by unfold HPG.seedBox Circle.bbox; dsimp only; linarith)
    obtain ⟨tr, hrun, -, -⟩ := fillLoop_trace inv hq0 hs0 hn0 _ (.start) ⟨rfl, fun _ _ => rfl, by simp⟩ he
    have := (hrun.inv inv hq0 hs0 hn0).inv.len
    dsimp only
    rw [this]
    unfold Grid.size
    rw [hN'.rows, hN'.cols, hN.rows, hN.cols]

theorem registerPoles_exact {env : HEnv K} {ε : K} {statics : List (Hazard K)} (st : HSetting env ε statics) {N : GNum K} {bbox : AARect K}
    (ok : N.Ok ε bbox) {h : Hazard K} (poles : List (Circle K)) (hp : ∀ pole ∈ poles, 0 ≤ pole.radius ∧
      (bbox.xMin + pole.radius ≤ pole.center.x ∧ pole.center.x + pole.radius ≤ bbox.xMax) ∧
      (bbox.yMin + pole.radius ≤ pole.center.y ∧ pole.center.y + pole.radius ≤ bbox.yMax))
    {Q : Set (HazardEntity K × Circle K)} {s s' : Grid K (HPGCell K) × BFill} (hN : UGrid N s.1) (hQ : ExG env ε statics Q s.1)
    (hb : s.2.state.length = s.1.rows.length * s.1.cols.length) (he : poles.foldlM (HPG.registerPole env N.r h) s = some s') :
    UGrid N s'.1 ∧ ExG env ε statics (Q ∪ {q | q.1 = h.entity ∧ q.2 ∈ poles}) s'.1 := by
  induction poles generalizing s Q with
  | nil =>
    cases he
    refine ⟨hN, ?_⟩
    have : Q ∪ {q : HazardEntity K × Circle K | q.1 = h.entity ∧ q.2 ∈ ([] : List (Circle K))} = Q := by ext q; simp
    rw [this]
    exact hQ
  | cons pole poles ih =>
    rw [List.foldlM_cons] at he
    obtain ⟨s1, h1, he⟩ := Option.bind_eq_some_iff.1 he
    obtain ⟨p1, p2, p3⟩ := hp pole List.mem_cons_self
    obtain ⟨k1, k2, k3⟩ := registerPole_exact st ok p1 p2 p3 hN hQ hb h1
    obtain ⟨k4, k5⟩ := ih (fun p hp' => hp p (List.mem_cons_of_mem _ hp')) k1 k2 k3 he
    refine ⟨k4, ?_⟩
    have : Q ∪ {q : HazardEntity K × Circle K | q.1 = h.entity ∧ q.2 ∈ pole :: poles} =
        insert (h.entity, pole) Q ∪ {q | q.1 = h.entity ∧ q.2 ∈ poles} := by
      ext q
      simp only [Set.mem_union, Set.mem_insert_iff, Set.mem_ofPred_eq, List.mem_cons, Prod.ext_iff]
      tauto
    rw [this]
    exact k5

theorem HPG.register_exact {env : HEnv K} {ε : K} {statics : List (Hazard K)} (st : HSetting env ε statics) {N : GNum K} {bbox : AARect K}
    (ok : N.Ok ε bbox) {h : Hazard K} (hh : ∀ s, h.shape.val.surrogate = some s → s.FitsIn bbox) {Q : Set (HazardEntity K × Circle K)}
    {g g' : HPG K} (hr : g.cellRadius = N.r) (hN : UGrid N g.grid) (hQ : ExG env ε statics Q g.grid) (he : g.register env h = some g') :
    g'.cellRadius = N.r ∧ g'.uncommitted = g.uncommitted ∧ UGrid N g'.grid ∧ ExG env ε statics (Q ∪ poleSet [h]) g'.grid := by
  unfold HPG.register at he
  obtain ⟨s, hs, he⟩ := Option.bind_eq_some_iff.1 he
  obtain ⟨b, hb, he⟩ := Option.bind_eq_some_iff.1 he
  obtain ⟨s', hs', rfl⟩ := Option.map_eq_some_iff.1 he
  have hf := hh s hs
  rw [hr] at hs'
  obtain ⟨k1, k2⟩ := registerPoles_exact st ok s.poles (fun p hp => ⟨hf.radius p hp, hf.width p hp, hf.height p hp⟩) hN hQ (bfill_new_length hb) hs'
  rw [poleSet_single hs]
  exact ⟨hr, rfl, k1, k2⟩

/-! ## New grids -/

theorem eq_of_sorted {l m : List K} (hl : l.Pairwise (· < ·)) (hm : m.Pairwise (· < ·)) (h : ∀ x, x ∈ l ↔ x ∈ m) : l = m := by
  have hp : l.Perm m := (List.perm_ext_iff_of_nodup (hl.imp ne_of_lt) (hm.imp ne_of_lt)).2 h
  exact hp.eq_of_pairwise (fun a b _ _ h1 h2 => absurd h1 (not_lt.2 h2.le)) hl hm

theorem GridGen.loop_attempt {env : HEnv K} {bbox : AARect K} {hazards : List (Hazard K)} {target left : ℕ} {co step : K} {prev : Option Ordering}
    {rects : List (AARect K)} (h : GridGen.loop env bbox hazards target left co step prev = some rects) :
    ∃ dim, GridGen.attempt env bbox hazards dim = some rects := by
  induction left generalizing co step prev with
  | zero =>
    unfold GridGen.loop at h
    obtain ⟨cells, h1, h⟩ := Option.bind_eq_some_iff.1 h
    cases h
    exact ⟨_, h1⟩
  | succ left ih =>
    unfold GridGen.loop at h
    obtain ⟨cells, h1, h⟩ := Option.bind_eq_some_iff.1 h
    dsimp only at h
    split at h
    · cases h
      exact ⟨_, h1⟩
    · exact ih h
    · exact ih h

/-- The cells of the result are some of the cells of a uniform grid, in order. -/
theorem GridGen.attempt_sublist {env : HEnv K} {bbox : AARect K} {hazards : List (Hazard K)} {dim : K} {rects : List (AARect K)}
    (h : GridGen.attempt env bbox hazards dim = some rects) : dim ≠ 0 ∧
      rects.Sublist (((List.range (env.ceil (bbox.width / dim))) ×ˢ (List.range (env.ceil (bbox.height / dim)))).map
        fun (p : ℕ × ℕ) => GridGen.cellRect bbox dim p.1 p.2) := by
  unfold GridGen.attempt at h
  split_ifs at h with hd
  obtain ⟨ls, hls, rfl⟩ := Option.map_eq_some_iff.1 h
  refine ⟨hd, ?_⟩
  have key : ∀ (l : List (AARect K)) (m : List (List (AARect K))), List.Forall₂ (fun r y => y = [r] ∨ y = []) l m → m.flatten.Sublist l := by
    intro l m hf
    induction hf with
    | nil => exact .slnil
    | cons h1 _ ih =>
      rw [List.flatten_cons]
      rcases h1 with rfl | rfl
      · exact ih.cons_cons _
      · exact ih.cons _
  have e : ((List.range (env.ceil (bbox.width / dim))).flatMap fun i => (List.range (env.ceil (bbox.height / dim))).map fun j => GridGen.cellRect bbox dim i j) =
      (((List.range (env.ceil (bbox.width / dim))) ×ˢ (List.range (env.ceil (bbox.height / dim)))).map
        fun (p : ℕ × ℕ) => GridGen.cellRect bbox dim p.1 p.2) := by
    show _ = (List.flatMap _ _).map _
    rw [List.map_flatMap]
    simp only [List.map_map]
    rfl
  rw [← e]
  refine key _ _ ((mapM_forall₂_of hls).imp ?_)
  intro r y hy
  obtain ⟨d, _, rfl⟩ := Option.map_eq_some_iff.1 hy
  split_ifs
  · exact .inl rfl
  · exact .inr rfl

/-- One direction of the grid: the cells that meet an interval, and perhaps one more on each
side. -/
theorem span_exists {z0 dim lo hi : K} (hd : 0 < dim) (hlo : z0 ≤ lo) {I : Set ℕ} {n : ℕ} (hn : ∀ i ∈ I, i < n)
    (hmeet : ∀ i : ℕ, z0 + dim * i < hi → lo < z0 + dim * (i + 1) → i ∈ I)
    (hnear : ∀ i ∈ I, z0 + dim * (i : ℕ) + dim / 2 < hi + dim ∧ lo - dim < z0 + dim * (i : ℕ) + dim / 2)
    (hex : ∃ i : ℕ, z0 + dim * i < hi ∧ lo < z0 + dim * (i + 1)) (htwo : z0 = lo ∨ 2 * dim ≤ hi - lo) :
    ∃ (s : ℕ) (S : Span K), S.Ok dim lo hi ∧ S.z0 = z0 + dim * s ∧ (∀ i, i ∈ I ↔ s ≤ i ∧ i < s + S.n) ∧
      ∀ i : ℕ, (z0 + dim * i < hi ∧ lo < z0 + dim * (i + 1)) ↔ s + S.a ≤ i ∧ i < s + S.b := by
  classical
  have mul : ∀ {i j : ℕ}, i ≤ j → dim * (i : K) ≤ dim * (j : K) := fun h => mul_le_mul_of_nonneg_left (by exact_mod_cast h) hd.le
  obtain ⟨i0, hi0, hi0'⟩ := hex
  have hi0I := hmeet i0 hi0 hi0'
  have hA : ∃ i : ℕ, lo < z0 + dim * ((i : K) + 1) := ⟨i0, hi0'⟩
  have hB : ∃ i : ℕ, hi ≤ z0 + dim * (i : K) := by
    refine ⟨n, ?_⟩
    by_contra hc
    have h1 := mul (hn i0 hi0I).le
    have := hn n (hmeet n (not_le.1 hc) (by linarith))
    omega
  obtain ⟨A, hA1, hA2⟩ : ∃ A : ℕ, lo < z0 + dim * ((A : K) + 1) ∧ ∀ i < A, ¬ lo < z0 + dim * ((i : K) + 1) :=
    ⟨Nat.find hA, Nat.find_spec hA, fun i hi => Nat.find_min hA hi⟩
  obtain ⟨B, hB1, hB2⟩ : ∃ B : ℕ, hi ≤ z0 + dim * (B : K) ∧ ∀ i < B, ¬ hi ≤ z0 + dim * (i : K) :=
    ⟨Nat.find hB, Nat.find_spec hB, fun i hi => Nat.find_min hB hi⟩
  have hm : ∀ i : ℕ, (z0 + dim * i < hi ∧ lo < z0 + dim * (i + 1)) ↔ A ≤ i ∧ i < B := by
    intro i
    constructor
    · rintro ⟨h1, h2⟩
      constructor
      · by_contra hc
        exact hA2 i (by omega) h2
      · by_contra hc
        have := mul (show B ≤ i by omega)
        linarith
    · rintro ⟨h1, h2⟩
      refine ⟨not_le.1 (hB2 i h2), ?_⟩
      have := mul h1
      linarith
  have hAB : A < B := by have := (hm i0).1 ⟨hi0, hi0'⟩; omega
  have hAlo : z0 + dim * (A : K) ≤ lo := by
    rcases Nat.eq_zero_or_pos A with h | h
    · rw [h]; simpa using hlo
    · have h1 := not_lt.1 (hA2 (A - 1) (by omega))
      have h2 : ((A - 1 : ℕ) : K) + 1 = (A : K) := by
        rw [Nat.cast_sub (by omega : 1 ≤ A)]; push_cast; ring
      rw [h2] at h1
      exact h1
  have hI : ∀ i ∈ I, A ≤ i + 1 ∧ i ≤ B := by
    intro i hi
    obtain ⟨h1, h2⟩ := hnear i hi
    constructor
    · by_contra hc
      have := hA2 (i + 1) (by omega)
      push_cast at this
      apply this
      linarith
    · by_contra hc
      have := mul (show B + 1 ≤ i by omega)
      push_cast at this
      linarith
  have hcore : ∀ i, A ≤ i → i < B → i ∈ I := fun i h1 h2 => by
    obtain ⟨k1, k2⟩ := (hm i).2 ⟨h1, h2⟩
    exact hmeet i k1 k2
  obtain ⟨s, hs1, hs2, hs3⟩ : ∃ s, s ≤ A ∧ A ≤ s + 1 ∧ ∀ i ∈ I, s ≤ i ∧ (∀ j, s ≤ j → j < A → j ∈ I) := by
    by_cases h : 1 ≤ A ∧ A - 1 ∈ I
    · refine ⟨A - 1, by omega, by omega, fun i hi => ⟨by have := hI i hi; omega, fun j h1 h2 => ?_⟩⟩
      have : j = A - 1 := by omega
      rw [this]
      exact h.2
    · refine ⟨A, le_rfl, by omega, fun i hi => ⟨?_, fun j h1 h2 => by omega⟩⟩
      have := (hI i hi).1
      by_contra hc
      apply h
      have e : i = A - 1 := by omega
      exact ⟨by omega, e ▸ hi⟩
  obtain ⟨t, ht1, ht2, ht3⟩ : ∃ t, B ≤ t ∧ t ≤ B + 1 ∧ ∀ i ∈ I, i < t ∧ (∀ j, B ≤ j → j < t → j ∈ I) := by
    by_cases h : B ∈ I
    · refine ⟨B + 1, by omega, by omega, fun i hi => ⟨by have := hI i hi; omega, fun j h1 h2 => ?_⟩⟩
      have : j = B := by omega
      rw [this]
      exact h
    · refine ⟨B, le_rfl, by omega, fun i hi => ⟨?_, fun j h1 h2 => by omega⟩⟩
      have := (hI i hi).2
      by_contra hc
      apply h
      have e : i = B := by omega
      exact e ▸ hi
  have hcast : ((A - s : ℕ) : K) = (A : K) - s := Nat.cast_sub hs1
  have hcast' : ((B - s : ℕ) : K) = (B : K) - s := Nat.cast_sub (by omega)
  refine ⟨s, ⟨z0 + dim * s, t - s, A - s, B - s⟩, ⟨by dsimp only; omega, by dsimp only; omega, by dsimp only; omega, by dsimp only; omega, ?_, ?_, ?_⟩,
    rfl, ?_, ?_⟩
  · dsimp only
    by_cases h : A - s = 0
    · exact .inl h
    · right
      rcases htwo with h' | h'
      · exfalso
        have : A = 0 := by
          by_contra hA0
          have h1 := mul (show 1 ≤ A by omega)
          push_cast at h1
          linarith
        omega
      · by_contra hc
        have h1 := mul (show B ≤ A + 1 by omega)
        push_cast at h1
        linarith
  · dsimp only
    rw [hcast]
    linarith
  · dsimp only
    rw [hcast']
    linarith
  · intro i
    dsimp only
    constructor
    · intro hi
      have h1 := (hs3 i hi).1
      have h2 := (ht3 i hi).1
      omega
    · rintro ⟨h1, h2⟩
      by_cases c1 : i < A
      · exact (hs3 i0 hi0I).2 i h1 c1
      · by_cases c2 : i < B
        · exact hcore i (by omega) c2
        · exact (ht3 i0 hi0I).2 i (by omega) (by omega)
  · intro i
    rw [hm]
    dsimp only
    omega

/-- All elements are in the grid, if their positions differ. -/
theorem Grid.some_mem_of_new {α : Type*} {es : List (α × Point K)} {g : Grid K α} (h : Grid.new es = some g) (hnd : (es.map (·.2)).Nodup)
    {a : α} {p : Point K} (ha : (a, p) ∈ es) : some a ∈ g.cells := by
  obtain ⟨g', g1, -, grow, gcol, gcell⟩ := Grid.new_spec es
  rw [h] at g1
  obtain rfl := Option.some.inj g1
  obtain ⟨r, hr, er⟩ := List.mem_iff_getElem.1 ((grow p.y).2 ⟨_, ha, rfl⟩)
  obtain ⟨c, hc, ec⟩ := List.mem_iff_getElem.1 ((gcol p.x).2 ⟨_, ha, rfl⟩)
  exact List.mem_of_getElem? ((gcell hnd r c p.y p.x (by rw [List.getElem?_eq_getElem hr, er]) (by rw [List.getElem?_eq_getElem hc, ec]) a).2 ha)

/-- **A grid that covers a box has no gaps there.** -/
theorem HPG.new_uniform {env : HEnv K} {ε : K} (hs : env.SqrtWithin ε) {bbox box : AARect K} (hbox : box.Valid)
    {statics : List (Hazard K)} {nCells : ℕ} {g : HPG K} (h : HPG.new env bbox statics nCells = some g) (hcov : g.Covers box)
    (hhug : g.Hugs box) (hroom : g.Roomy bbox box) (hr : 32 * ε ≤ g.cellRadius) :
    ∃ N : GNum K, N.Ok ε box ∧ UGrid N g.grid ∧ g.cellRadius = N.r := by
  unfold HPG.new at h
  split_ifs at h
  obtain ⟨rects, h1, h⟩ := Option.bind_eq_some_iff.1 h
  obtain ⟨r0, h2, h⟩ := Option.bind_eq_some_iff.1 h
  obtain ⟨cells, h3, h⟩ := Option.bind_eq_some_iff.1 h
  obtain ⟨grid, h4, rfl⟩ := Option.map_eq_some_iff.1 h
  unfold GridGen.generate at h1
  split_ifs at h1
  obtain ⟨dim, h5⟩ := GridGen.loop_attempt h1
  obtain ⟨hd0, hsub⟩ := GridGen.attempt_sublist h5
  set nx := env.ceil (bbox.width / dim) with hnx
  set ny := env.ceil (bbox.height / dim) with hny
  have hmem : ∀ r ∈ rects, ∃ i < nx, ∃ j < ny, r = GridGen.cellRect bbox dim i j := by
    intro r hr
    obtain ⟨⟨i, j⟩, hij, rfl⟩ := List.mem_map.1 (hsub.subset hr)
    rw [List.mem_product, List.mem_range, List.mem_range] at hij
    exact ⟨i, hij.1, j, hij.2, rfl⟩
  have hr0m : r0 ∈ rects := List.mem_of_head? h2
  obtain ⟨i0, hi0, j0, hj0, hr0⟩ := hmem r0 hr0m
  have hf3 := mapM_forall₂_of h3
  -- cells of the grid and their rectangles
  have hback : ∀ x, some x ∈ grid.cells → ∃ i < nx, ∃ j < ny, GridGen.cellRect bbox dim i j ∈ rects ∧
      HPGCell.new env (GridGen.cellRect bbox dim i j) statics = some x := by
    intro x hx
    obtain ⟨p, hp⟩ := Grid.mem_of_new h4 hx
    obtain ⟨y, hy, he⟩ := List.mem_map.1 hp
    cases he
    obtain ⟨r, hr, h6⟩ := forall₂_exists_left hf3 hy
    obtain ⟨i', hi', j', hj', rfl⟩ := hmem r hr
    exact ⟨i', hi', j', hj', hr, h6⟩
  have hforw : ∀ r ∈ rects, ∃ c ∈ cells, HPGCell.new env r statics = some c := by
    intro r hr
    obtain ⟨k, hk, he⟩ := List.mem_iff_getElem.1 hr
    have hk' : k < cells.length := by rw [← hf3.length_eq]; exact hk
    have := (List.forall₂_iff_get.1 hf3).2 k hk hk'
    rw [List.get_eq_getElem, List.get_eq_getElem, he] at this
    exact ⟨_, List.getElem_mem hk', this⟩
  have hin : ∀ {i j : ℕ} {p : Point K}, p ∈ (GridGen.cellRect bbox dim i j).pts →
      (bbox.xMin + dim * i ≤ p.x ∧ p.x ≤ bbox.xMin + dim * (i + 1)) ∧ (bbox.yMin + dim * j ≤ p.y ∧ p.y ≤ bbox.yMin + dim * (j + 1)) := by
    rintro i j p ⟨p1, p2, p3, p4⟩
    unfold GridGen.cellRect at p1 p2 p3 p4
    dsimp only at p1 p2 p3 p4
    exact ⟨⟨p1, by linarith⟩, ⟨p3, by linarith⟩⟩
  -- every point of the box lies in a cell
  have hpt : ∀ p ∈ box.pts, ∃ i j, GridGen.cellRect bbox dim i j ∈ rects ∧
      (bbox.xMin + dim * i ≤ p.x ∧ p.x ≤ bbox.xMin + dim * (i + 1)) ∧ (bbox.yMin + dim * j ≤ p.y ∧ p.y ≤ bbox.yMin + dim * (j + 1)) := by
    intro p hp
    obtain ⟨x, hx, hpx⟩ := hcov p hp
    obtain ⟨i, _, j, _, hr, h6⟩ := hback x hx
    rw [(HPGCell.new_spec h6).1] at hpx
    exact ⟨i, j, hr, hin hpx⟩
  have bx : box.xMin < box.xMax := hbox.1
  have by' : box.yMin < box.yMax := hbox.2
  obtain ⟨ic, jc, hcr, hcx, hcy⟩ := hpt ⟨(box.xMin + box.xMax) / 2, (box.yMin + box.yMax) / 2⟩ ⟨by dsimp only; linarith, by dsimp only; linarith,
    by dsimp only; linarith, by dsimp only; linarith⟩
  dsimp only at hcx hcy
  have hd : 0 < dim := by
    rcases lt_or_gt_of_ne hd0 with hneg | hpos
    · exfalso; linarith [hcx.1, hcx.2]
    · exact hpos
  have hcen : ∀ i j : ℕ, (GridGen.cellRect bbox dim i j).centroid = ⟨bbox.xMin + dim * i + dim / 2, bbox.yMin + dim * j + dim / 2⟩ := by
    intro i j
    unfold GridGen.cellRect AARect.centroid
    simp only [Point.mk.injEq]
    constructor <;> ring
  have hdia : ∀ i j : ℕ, (GridGen.cellRect bbox dim i j).diameter env = env.sqrt (dim ^ 2 + dim ^ 2) := by
    intro i j
    unfold GridGen.cellRect AARect.diameter
    dsimp only
    rw [add_sub_cancel_left, add_sub_cancel_left]
  have hidx : ∀ {z x : K} {i i' : ℕ}, z + dim * i < x → x < z + dim * (i + 1) → z + dim * i' ≤ x → x ≤ z + dim * (i' + 1) → i' = i := by
    intro z x i i' t0 t1 ha hb
    have a1 : dim * (i' : K) < dim * ((i : K) + 1) := by linarith
    have a2 : dim * (i : K) < dim * ((i' : K) + 1) := by linarith
    have b1 : (i' : K) < ((i + 1 : ℕ) : K) := by push_cast; exact lt_of_mul_lt_mul_left a1 hd.le
    have b2 : (i : K) < ((i' + 1 : ℕ) : K) := by push_cast; exact lt_of_mul_lt_mul_left a2 hd.le
    have c1 : i' < i + 1 := by exact_mod_cast b1
    have c2 : i < i' + 1 := by exact_mod_cast b2
    omega
  -- a point in the overlap of two intervals
  have hover : ∀ {l h z : K}, l < h → z < h → l < z + dim → ∃ x, l ≤ x ∧ x ≤ h ∧ z < x ∧ x < z + dim := by
    intro l h z h1 h2 h3
    have k : max l z < min h (z + dim) := max_lt (lt_min h1 h3) (lt_min h2 (by linarith))
    have m1 := le_max_left l z
    have m2 := le_max_right l z
    have m3 := min_le_left h (z + dim)
    have m4 := min_le_right h (z + dim)
    exact ⟨(max l z + min h (z + dim)) / 2, by linarith, by linarith, by linarith, by linarith⟩
  have hmeetc : ∀ i j : ℕ, (bbox.xMin + dim * i < box.xMax ∧ box.xMin < bbox.xMin + dim * (i + 1)) →
      (bbox.yMin + dim * j < box.yMax ∧ box.yMin < bbox.yMin + dim * (j + 1)) → GridGen.cellRect bbox dim i j ∈ rects := by
    intro i j hi hj
    obtain ⟨x, x1, x2, x3, x4⟩ := hover bx hi.1 (by linarith [hi.2])
    obtain ⟨y, y1, y2, y3, y4⟩ := hover by' hj.1 (by linarith [hj.2])
    obtain ⟨i', j', hr', hx', hy'⟩ := hpt ⟨x, y⟩ ⟨x1, x2, y1, y2⟩
    dsimp only at hx' hy'
    rw [← hidx x3 (by linarith) hx'.1 hx'.2, ← hidx y3 (by linarith) hy'.1 hy'.2]
    exact hr'
  -- the cells are close to the box
  have hclose : ∀ i j : ℕ, GridGen.cellRect bbox dim i j ∈ rects →
      (bbox.xMin + dim * (i : ℕ) + dim / 2 < box.xMax + dim ∧ box.xMin - dim < bbox.xMin + dim * (i : ℕ) + dim / 2) ∧
      (bbox.yMin + dim * (j : ℕ) + dim / 2 < box.yMax + dim ∧ box.yMin - dim < bbox.yMin + dim * (j : ℕ) + dim / 2) ∧
      ((bbox.xMin + dim * i < box.xMax ∧ box.xMin < bbox.xMin + dim * (i + 1)) ∨
       (bbox.yMin + dim * j < box.yMax ∧ box.yMin < bbox.yMin + dim * (j + 1))) := by
    intro i j hij
    obtain ⟨c, hc, hcn⟩ := hforw _ hij
    obtain ⟨b1, b2, _⟩ := HPGCell.new_spec hcn
    obtain ⟨_, p, hp, hlt⟩ : ∃ _ : Unit, ∃ p ∈ box.pts, sqDist c.centroid p < sqDist c.centroid ⟨c.bbox.xMin, c.bbox.yMin⟩ := by
      refine ⟨(), hhug c ?_⟩
      refine Grid.some_mem_of_new h4 ?_ (List.mem_map.2 ⟨c, hc, rfl⟩)
      · show ((cells.map fun (c : HPGCell K) => (c, c.centroid)).map (·.2)).Nodup
        have hcc : cells.map (·.centroid) = rects.map (·.centroid) := map_of_forall₂ hf3 fun r c hrc => (HPGCell.new_spec hrc).2.1
        rw [List.map_map]
        show (cells.map (·.centroid)).Nodup
        rw [hcc]
        refine (hsub.map _).nodup ?_
        rw [List.map_map]
        refine List.Nodup.map ?_ (List.nodup_range.product List.nodup_range)
        rintro ⟨i, j⟩ ⟨i', j'⟩ he
        simp only [Function.comp_apply] at he
        rw [hcen, hcen] at he
        obtain ⟨e1, e2⟩ := Point.mk.inj he
        have f1 : dim * (i : K) = dim * (i' : K) := by linarith
        have f2 : dim * (j : K) = dim * (j' : K) := by linarith
        rw [show i = i' by exact_mod_cast mul_left_cancel₀ hd.ne' f1, show j = j' by exact_mod_cast mul_left_cancel₀ hd.ne' f2]
    obtain ⟨p1, p2, p3, p4⟩ := hp
    rw [b2, b1, hcen] at hlt
    unfold sqDist GridGen.cellRect at hlt
    dsimp only at hlt
    have hlt' : (bbox.xMin + dim * i + dim / 2 - p.x) ^ 2 + (bbox.yMin + dim * j + dim / 2 - p.y) ^ 2 < dim ^ 2 / 2 := by
      refine hlt.trans_eq ?_
      ring
    have s1 := sq_nonneg (bbox.xMin + dim * i + dim / 2 - p.x)
    have s2 := sq_nonneg (bbox.yMin + dim * j + dim / 2 - p.y)
    have d2 : 0 < dim ^ 2 := by positivity
    have a1 := abs_lt.1 (abs_lt_of_sq_lt_sq (show (bbox.xMin + dim * i + dim / 2 - p.x) ^ 2 < dim ^ 2 by linarith) hd.le)
    have a2 := abs_lt.1 (abs_lt_of_sq_lt_sq (show (bbox.yMin + dim * j + dim / 2 - p.y) ^ 2 < dim ^ 2 by linarith) hd.le)
    refine ⟨⟨by linarith [a1.2], by linarith [a1.1]⟩, ⟨by linarith [a2.2], by linarith [a2.1]⟩, ?_⟩
    have hq : (dim / 2) ^ 2 = dim ^ 2 / 4 := by ring
    by_cases hx : (bbox.xMin + dim * i + dim / 2 - p.x) ^ 2 < (dim / 2) ^ 2
    · left
      have a3 := abs_lt.1 (abs_lt_of_sq_lt_sq hx (by linarith))
      exact ⟨by linarith [a3.2], by linarith [a3.1]⟩
    · right
      have hy : (bbox.yMin + dim * j + dim / 2 - p.y) ^ 2 < (dim / 2) ^ 2 := by linarith
      have a3 := abs_lt.1 (abs_lt_of_sq_lt_sq hy (by linarith))
      exact ⟨by linarith [a3.2], by linarith [a3.1]⟩
  have hrad : r0.diameter env / 2 = env.sqrt (dim ^ 2 + dim ^ 2) / 2 := by rw [hr0, hdia]
  have hdiag : 2 * dim ^ 2 ≤ (2 * (r0.diameter env / 2) + ε) ^ 2 := by
    rw [hrad]
    have := hs.low (dim ^ 2 + dim ^ 2) (by positivity)
    have e : 2 * (env.sqrt (dim ^ 2 + dim ^ 2) / 2) + ε = env.sqrt (dim ^ 2 + dim ^ 2) + ε := by ring
    rw [e]
    linarith
  have heps := hs.eps
  dsimp only at hr
  have hdr : 2 * dim ≤ 4 * (r0.diameter env / 2) := by
    have := dim_le (show 0 ≤ r0.diameter env / 2 by linarith) heps hdiag
    linarith
  -- the two directions
  have ovx : bbox.xMin + dim * ic < box.xMax ∧ box.xMin < bbox.xMin + dim * (ic + 1) := ⟨by linarith [hcx.1], by linarith [hcx.2]⟩
  have ovy : bbox.yMin + dim * jc < box.yMax ∧ box.yMin < bbox.yMin + dim * (jc + 1) := ⟨by linarith [hcy.1], by linarith [hcy.2]⟩
  obtain ⟨sx, SX, okX, zX, IX, CX⟩ := span_exists hd hroom.left (I := {i | ∃ j, GridGen.cellRect bbox dim i j ∈ rects}) (n := nx) (hi := box.xMax)
    (by
      rintro i ⟨j, hij⟩
      obtain ⟨i', hi', j', hj', he⟩ := hmem _ hij
      have : bbox.xMin + dim * i = bbox.xMin + dim * i' := congrArg AARect.xMin he
      have f1 : dim * (i : K) = dim * (i' : K) := by linarith
      rw [show i = i' by exact_mod_cast mul_left_cancel₀ hd.ne' f1]
      exact hi')
    (fun i h1 h2 => ⟨jc, hmeetc i jc ⟨h1, h2⟩ ovy⟩) (fun i ⟨j, hij⟩ => (hclose i j hij).1) ⟨ic, ovx⟩
    (hroom.width.imp_right fun h => hdr.trans h)
  obtain ⟨sy, SY, okY, zY, IY, CY⟩ := span_exists hd hroom.bottom (I := {j | ∃ i, GridGen.cellRect bbox dim i j ∈ rects}) (n := ny) (hi := box.yMax)
    (by
      rintro j ⟨i, hij⟩
      obtain ⟨i', hi', j', hj', he⟩ := hmem _ hij
      have : bbox.yMin + dim * j = bbox.yMin + dim * j' := congrArg AARect.yMin he
      have f1 : dim * (j : K) = dim * (j' : K) := by linarith
      rw [show j = j' by exact_mod_cast mul_left_cancel₀ hd.ne' f1]
      exact hj')
    (fun j h1 h2 => ⟨ic, hmeetc ic j ovx ⟨h1, h2⟩⟩) (fun j ⟨i, hij⟩ => (hclose i j hij).2.1) ⟨jc, ovy⟩
    (hroom.height.imp_right fun h => hdr.trans h)
  -- the centroids
  have hinj : ∀ {z : K} {i i' : ℕ}, z + dim * (i : K) + dim / 2 = z + dim * (i' : K) + dim / 2 → i = i' := by
    intro z i i' he
    have : dim * (i : K) = dim * (i' : K) := by linarith
    exact_mod_cast mul_left_cancel₀ hd.ne' this
  have hcc : cells.map (·.centroid) = rects.map (·.centroid) := map_of_forall₂ hf3 fun r c hrc => (HPGCell.new_spec hrc).2.1
  have hnd : (rects.map (·.centroid)).Nodup := by
    refine (hsub.map _).nodup ?_
    rw [List.map_map]
    refine List.Nodup.map ?_ (List.nodup_range.product List.nodup_range)
    rintro ⟨i, j⟩ ⟨i', j'⟩ he
    simp only [Function.comp_apply] at he
    rw [hcen, hcen] at he
    obtain ⟨e1, e2⟩ := Point.mk.inj he
    rw [hinj e1, hinj e2]
  have hes : (cells.map fun (c : HPGCell K) => (c, c.centroid)).map (·.2) = rects.map (·.centroid) := by
    rw [List.map_map, ← hcc]
    rfl
  obtain ⟨grid', g1, gwf, grow, gcol, gcell⟩ := Grid.new_spec (cells.map fun (c : HPGCell K) => (c, c.centroid))
  rw [h4] at g1
  obtain rfl := Option.some.inj g1
  have hexr : ∀ P : Point K → Prop, (∃ e ∈ cells.map (fun (c : HPGCell K) => (c, c.centroid)), P e.2) ↔ ∃ r ∈ rects, P r.centroid := by
    intro P
    have e1 : (∃ e ∈ cells.map (fun (c : HPGCell K) => (c, c.centroid)), P e.2) ↔
        ∃ q ∈ (cells.map fun (c : HPGCell K) => (c, c.centroid)).map (·.2), P q := by simp
    rw [e1, hes]
    simp
  have hshift : ∀ {z : K} {s i : ℕ}, z + dim * (s : K) + dim * (i : K) + dim / 2 = z + dim * ((s + i : ℕ) : K) + dim / 2 := by
    intro z s i
    push_cast
    ring
  have hrows : grid.rows = centres SY.z0 dim SY.n := by
    refine eq_of_sorted gwf.rows (centres_sorted hd _) fun y => ?_
    rw [grow, hexr fun p => p.y = y, zY]
    unfold centres
    rw [List.mem_map]
    constructor
    · rintro ⟨r, hr, he⟩
      obtain ⟨i, hi, j, hj, rfl⟩ := hmem r hr
      rw [hcen] at he
      obtain ⟨k1, k2⟩ := (IY j).1 ⟨i, hr⟩
      refine ⟨j - sy, List.mem_range.2 (by omega), ?_⟩
      rw [hshift, show sy + (j - sy) = j by omega]
      exact he
    · rintro ⟨j, hj, he⟩
      obtain ⟨i, hij⟩ := (IY (sy + j)).2 ⟨by omega, by have := List.mem_range.1 hj; omega⟩
      refine ⟨_, hij, ?_⟩
      rw [hcen]
      rw [hshift] at he
      exact he
  have hcols : grid.cols = centres SX.z0 dim SX.n := by
    refine eq_of_sorted gwf.cols (centres_sorted hd _) fun x => ?_
    rw [gcol, hexr fun p => p.x = x, zX]
    unfold centres
    rw [List.mem_map]
    constructor
    · rintro ⟨r, hr, he⟩
      obtain ⟨i, hi, j, hj, rfl⟩ := hmem r hr
      rw [hcen] at he
      obtain ⟨k1, k2⟩ := (IX i).1 ⟨j, hr⟩
      refine ⟨i - sx, List.mem_range.2 (by omega), ?_⟩
      rw [hshift, show sx + (i - sx) = i by omega]
      exact he
    · rintro ⟨i, hi, he⟩
      obtain ⟨j, hij⟩ := (IX (sx + i)).2 ⟨by omega, by have := List.mem_range.1 hi; omega⟩
      refine ⟨_, hij, ?_⟩
      rw [hcen]
      rw [hshift] at he
      exact he
  have hcell : ∀ i < SX.n, ∀ j < SY.n, ∀ c, grid.cells[j * SX.n + i]? = some (some c) ↔
      (c, (⟨bbox.xMin + dim * ((sx + i : ℕ) : K) + dim / 2, bbox.yMin + dim * ((sy + j : ℕ) : K) + dim / 2⟩ : Point K)) ∈
        cells.map fun (c : HPGCell K) => (c, c.centroid) := by
    intro i hi j hj c
    have := gcell (by rw [hes]; exact hnd) j i _ _ (by rw [hrows]; exact centres_get? hj) (by rw [hcols]; exact centres_get? hi) c
    rw [hcols, centres_length, zX, zY, hshift, hshift] at this
    exact this
  refine ⟨⟨SX, SY, dim, r0.diameter env / 2⟩, ⟨hd, hr, hdiag, okX, okY⟩, ⟨hrows, hcols, ?_, ?_, ?_⟩, rfl⟩
  · rw [gwf.length]
    unfold Grid.size
    rw [hrows, hcols, centres_length, centres_length]
  · intro i ha hb j hc hd'
    dsimp only at ha hb hc hd'
    have := okX.le
    have := okY.le
    obtain ⟨c, hcm, hcn⟩ := hforw _ (hmeetc (sx + i) (sy + j) ((CX (sx + i)).2 ⟨by omega, by omega⟩) ((CY (sy + j)).2 ⟨by omega, by omega⟩))
    refine ⟨c, ?_⟩
    dsimp only
    rw [hcell i (by omega) j (by omega) c]
    refine List.mem_map.2 ⟨c, hcm, ?_⟩
    rw [(HPGCell.new_spec hcn).2.1, hcen]
  · intro i hi j hj c hc
    dsimp only at hi hj hc ⊢
    have hmc := (hcell i hi j hj c).1 hc
    obtain ⟨c', hc', he⟩ := List.mem_map.1 hmc
    obtain ⟨rfl, he'⟩ := Prod.mk.inj he
    obtain ⟨r, hrm, hcn⟩ := forall₂_exists_left hf3 hc'
    obtain ⟨i', hi', j', hj', rfl⟩ := hmem r hrm
    obtain ⟨_, b2, b3, _, _⟩ := HPGCell.new_spec hcn
    have e3 := b2.symm.trans he'
    rw [hcen] at e3
    obtain ⟨e1, e2⟩ := Point.mk.inj e3
    have f1 := hinj e1
    have f2 := hinj e2
    refine ⟨?_, by rw [b3, hdia, hrad], ?_⟩
    · rw [he', zX, zY, hshift, hshift]
    · rw [f1, f2] at hrm
      rcases (hclose _ _ hrm).2.2 with h' | h'
      · left
        have := (CX (sx + i)).1 h'
        omega
      · right
        have := (CY (sy + j)).1 h'
        omega

end Jagua
