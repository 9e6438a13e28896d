import Verif.Lemmas.QTQuery

/-!
# Collecting queries
-/

set_option linter.unusedSectionVars false

namespace Jagua

variable {K : Type*} [Arith K] [LinearOrder K]

/-- The result `res` of collecting into `det`: `det` followed by new, pairwise
different entities, each of them an active hit hazard; and not empty-handed if
there is one. -/
structure CollectOK (hit : QTHazard K → Prop) (hs : List (QTHazard K)) (det : List (HazardEntity K))
    (res : List (HazardEntity K)) : Prop where
  ex : ∃ new, res = det ++ new ∧ new.Nodup ∧
    (∀ e ∈ new, e ∉ det ∧ ∃ h ∈ hs, h.entity = e ∧ h.active = true ∧ hit h) ∧
    (new = [] → ∀ h ∈ hs, h.active = true → h.entity ∉ det → ¬ hit h)

theorem CollectOK.refl {hit : QTHazard K → Prop} {hs : List (QTHazard K)} {det : List (HazardEntity K)}
    (h : ∀ x ∈ hs, x.active = true → x.entity ∉ det → ¬ hit x) : CollectOK hit hs det det :=
  ⟨[], by simp, by simp, by simp, fun _ => h⟩

/-- Leaf loop. -/
theorem collectPartial_spec {q : Queryable K} {hs : List (QTHazard K)} (hok : AllOK hs) (det : List (HazardEntity K))
    (hent : ∀ h ∈ hs, h.entity ∉ det → h.presence.isPartial = true) :
    ∃ new, QTNode.collectPartial q hs det = some (det ++ new) ∧ new.Nodup ∧
      (∀ e ∈ new, e ∉ det ∧ ∃ h ∈ hs, h.entity = e ∧ ∃ p, h.presence = .partly p ∧ p.collides q = some true) ∧
      ∀ h ∈ hs, ∀ p, h.presence = .partly p → p.collides q = some true → h.entity ∈ det ++ new := by
  induction hs generalizing det with
  | nil => exact ⟨[], by simp [QTNode.collectPartial], by simp, by simp, by simp⟩
  | cons a hs ih =>
    have hok' : AllOK hs := fun x hx => hok x (List.mem_cons_of_mem _ hx)
    rw [QTNode.collectPartial]
    by_cases ha : a.entity ∈ det
    · rw [if_pos (by simpa using ha)]
      obtain ⟨new, h1, h2, h3, h4⟩ := ih hok' det (fun x hx => hent x (List.mem_cons_of_mem _ hx))
      refine ⟨new, h1, h2, ?_, ?_⟩
      · intro e he
        obtain ⟨t1, x, hx, t2⟩ := h3 e he
        exact ⟨t1, x, List.mem_cons_of_mem _ hx, t2⟩
      · intro x hx p hp hc
        rcases List.mem_cons.1 hx with rfl | hx
        · exact List.mem_append_left _ ha
        · exact h4 x hx p hp hc
    · rw [if_neg (by simpa using ha)]
      have hp := hent a List.mem_cons_self ha
      have hoka := hok a List.mem_cons_self
      obtain ⟨p, hpr⟩ := exists_partly hp
      rw [hpr] at hoka
      obtain ⟨b, hb⟩ := PartialHaz.collides_ok hoka q
      rw [hpr]
      dsimp only
      rw [hb]
      cases b with
      | true =>
        dsimp only
        obtain ⟨new, h1, h2, h3, h4⟩ := ih hok' (det ++ [a.entity])
          (fun x hx hxe => hent x (List.mem_cons_of_mem _ hx) (fun h => hxe (List.mem_append_left _ h)))
        refine ⟨a.entity :: new, ?_, ?_, ?_, ?_⟩
        · rw [h1]; simp
        · rw [List.nodup_cons]
          refine ⟨?_, h2⟩
          intro hmem
          exact (h3 _ hmem).1 (by simp)
        · intro e he
          rcases List.mem_cons.1 he with rfl | he
          · exact ⟨ha, a, List.mem_cons_self, rfl, p, hpr, hb⟩
          · obtain ⟨t1, x, hx, t2⟩ := h3 e he
            exact ⟨fun h => t1 (List.mem_append_left _ h), x, List.mem_cons_of_mem _ hx, t2⟩
        · intro x hx p' hp' hc'
          rcases List.mem_cons.1 hx with rfl | hx
          · simp
          · have := h4 x hx p' hp' hc'
            simpa using this
      | false =>
        dsimp only
        obtain ⟨new, h1, h2, h3, h4⟩ := ih hok' det (fun x hx => hent x (List.mem_cons_of_mem _ hx))
        refine ⟨new, h1, h2, ?_, ?_⟩
        · intro e he
          obtain ⟨t1, x, hx, t2⟩ := h3 e he
          exact ⟨t1, x, List.mem_cons_of_mem _ hx, t2⟩
        · intro x hx p' hp' hc'
          rcases List.mem_cons.1 hx with rfl | hx
          · rw [hpr] at hp'
            cases hp'
            rw [hb] at hc'
            simp at hc'
          · exact h4 x hx p' hp' hc'

/-- Somewhere below, the query touches a box that one of the two hazards covers
entirely while the other is present in it. -/
def CoEntire (f : Fpa K) (q : Queryable K) : ℕ → AARect K → QTHazard K → QTHazard K → Prop
  | 0, r, a, b => q.rect r = true ∧ (a.presence = .entire ∨ b.presence = .entire)
  | n + 1, r, a, b => q.rect r = true ∧ (a.presence = .entire ∨ b.presence = .entire ∨
      ∃ i a' b', constrictTo f r i a = some a' ∧ constrictTo f r i b = some b' ∧ CoEntire f q n (r.quadrants i) a' b')

/-- sequential composition of collecting steps: soundness and progress -/
theorem CollectOK.trans {hit1 hit2 hit : QTHazard K → Prop} {hs1 hs2 hs : List (QTHazard K)}
    {d0 d1 d2 : List (HazardEntity K)}
    (h1 : CollectOK hit1 hs1 d0 d1) (h2 : CollectOK hit2 hs2 d1 d2)
    (up1 : ∀ x ∈ hs1, x.active = true → x.entity ∉ d0 → hit1 x → ∃ y ∈ hs, y.entity = x.entity ∧ y.active = true ∧ hit y)
    (up2 : ∀ x ∈ hs2, x.active = true → x.entity ∉ d0 → hit2 x → ∃ y ∈ hs, y.entity = x.entity ∧ y.active = true ∧ hit y)
    (down : ∀ y ∈ hs, y.active = true → y.entity ∉ d0 → hit y →
      (∃ x ∈ hs1, x.entity = y.entity ∧ x.active = true ∧ hit1 x) ∨
      (∃ x ∈ hs2, x.entity = y.entity ∧ x.active = true ∧ hit2 x)) :
    CollectOK hit hs d0 d2 := by
  obtain ⟨n1, rfl, a1, b1, c1⟩ := h1.ex
  obtain ⟨n2, rfl, a2, b2, c2⟩ := h2.ex
  refine ⟨n1 ++ n2, by simp, ?_, ?_, ?_⟩
  · rw [List.nodup_append]
    refine ⟨a1, a2, ?_⟩
    intro x hx y hy hxy
    subst hxy
    exact (b2 x hy).1 (List.mem_append_right _ hx)
  · intro e he
    rcases List.mem_append.1 he with he | he
    · obtain ⟨t1, x, hx, hxe, ha, hh⟩ := b1 e he
      obtain ⟨y, hy, hye, t⟩ := up1 x hx ha (by rw [hxe]; exact t1) hh
      exact ⟨t1, y, hy, hye.trans hxe, t⟩
    · obtain ⟨t1, x, hx, hxe, ha, hh⟩ := b2 e he
      have t1' : e ∉ d0 := fun h => t1 (List.mem_append_left _ h)
      obtain ⟨y, hy, hye, t⟩ := up2 x hx ha (by rw [hxe]; exact t1') hh
      exact ⟨t1', y, hy, hye.trans hxe, t⟩
  · intro hnil y hy ha hd hh
    obtain ⟨rfl, rfl⟩ := List.append_eq_nil_iff.1 hnil
    rcases down y hy ha hd hh with ⟨x, hx, hxe, hxa, hxh⟩ | ⟨x, hx, hxe, hxa, hxh⟩
    · exact c1 rfl x hx hxa (by rw [hxe]; exact hd) hxh
    · exact c2 rfl x hx hxa (by rw [hxe]; simpa using hd) hxh

/-- **The collecting query**: sound, no duplicates, finds at least one. -/
theorem QTNode.collect_spec {f : Fpa K} {n : ℕ} (nd : QTNode K n) (r : AARect K) (hs : List (QTHazard K))
    (hc : nd.Canon f r hs) (hok : AllOK hs) (q : Queryable K) (det : List (HazardEntity K)) :
    ∃ res, nd.collect q det = some res ∧ CollectOK (fun h => coll1 f q n r h = true) hs det res := by
  induction nd generalizing r hs det with
  | @leaf m b v =>
    obtain ⟨h1, h2, h3⟩ := hc
    subst h1
    obtain ⟨sr, e1, s1, s2⟩ := h2.strongest det
    rw [QTNode.collect, e1]
    rcases sr with _ | s
    · exact ⟨det, rfl, .refl fun x hx ha hd _ => hd (s1 rfl x hx ha)⟩
    · obtain ⟨m1, m2, m3, m4⟩ := s2 s rfl
      dsimp only
      by_cases hq : q.rect b = true
      · rw [if_pos hq]
        cases hp : s.presence with
        | none => have := hok s m1; rw [hp] at this; exact this.elim
        | entire =>
          refine ⟨_, rfl, [s.entity], rfl, by simp, ?_, by simp⟩
          intro e he
          obtain rfl := List.mem_singleton.1 he
          exact ⟨m3, s, m1, rfl, m2, by rw [coll1_entire hp]; exact hq⟩
        | partly p =>
          have hn0 := h3.resolve_right (fun h => by have := h s m1; rw [hp] at this; simp [Presence.isPartial] at this)
          subst hn0
          dsimp only
          rw [h2.activeHazards_eq]
          have hpart : ∀ h ∈ v.hazards.filter (·.active), h.entity ∉ det → h.presence.isPartial = true := by
            intro h hh hi
            obtain ⟨hh1, hh2⟩ := List.mem_filter.1 hh
            have hm := h2.mem.1 hh1
            have := m4 h hm hh2 hi
            rw [hp] at this
            exact rank_le_one (hok h hm) this
          obtain ⟨new, g1, g2, g3, g4⟩ := collectPartial_spec (q := q) (hs := v.hazards.filter (·.active))
            (fun x hx => hok x (h2.mem.1 (List.mem_filter.1 hx).1)) det hpart
          refine ⟨_, g1, new, rfl, g2, ?_, ?_⟩
          · intro e he
            obtain ⟨t1, x, hx, hxe, p', hp', hc'⟩ := g3 e he
            obtain ⟨hh1, hh2⟩ := List.mem_filter.1 hx
            refine ⟨t1, x, h2.mem.1 hh1, hxe, hh2, ?_⟩
            rw [coll1_partly_zero hp', hc']
            exact ⟨hq, rfl⟩
          · intro hnil x hx ha hd hcc
            have hxf : x ∈ v.hazards.filter (·.active) := List.mem_filter.2 ⟨h2.mem.2 hx, ha⟩
            obtain ⟨p', hp'⟩ := exists_partly (hpart x hxf hd)
            have hoka := hok x hx
            rw [hp'] at hoka
            obtain ⟨b', hb'⟩ := PartialHaz.collides_ok hoka q
            rw [coll1_partly_zero hp', hb'] at hcc
            have := g4 x hxf p' hp' (by rw [hb']; exact congrArg some hcc.2)
            rw [hnil] at this
            exact hd (by simpa using this)
      · rw [if_neg hq]
        exact ⟨det, rfl, .refl fun x _ _ _ hcc => hq (coll1_rect hcc)⟩
  | @node m b v cs ih =>
    obtain ⟨h1, h2, h3, h4⟩ := hc
    subst h1
    obtain ⟨sr, e1, s1, s2⟩ := h2.strongest det
    rw [QTNode.collect, e1]
    rcases sr with _ | s
    · exact ⟨det, rfl, .refl fun x hx ha hd _ => hd (s1 rfl x hx ha)⟩
    · obtain ⟨m1, m2, m3, m4⟩ := s2 s rfl
      dsimp only
      by_cases hq : q.rect b = true
      · rw [if_pos hq]
        cases hp : s.presence with
        | none => have := hok s m1; rw [hp] at this; exact this.elim
        | entire =>
          refine ⟨_, rfl, [s.entity], rfl, by simp, ?_, by simp⟩
          intro e he
          obtain rfl := List.mem_singleton.1 he
          exact ⟨m3, s, m1, rfl, m2, by rw [coll1_entire hp]; exact hq⟩
        | partly p =>
          dsimp only
          have hpart : ∀ x ∈ hs, x.active = true → x.entity ∉ det → ∃ p, x.presence = .partly p := by
            intro x hx ha hi
            have := m4 x hx ha hi
            rw [hp] at this
            exact exists_partly (rank_le_one (hok x hx) this)
          obtain ⟨d1, g1, c1⟩ := ih 0 (b.quadrants 0) (childHaz f b 0 hs) (h4 0) hok.child det
          obtain ⟨d2, g2, c2⟩ := ih 1 (b.quadrants 1) (childHaz f b 1 hs) (h4 1) hok.child d1
          obtain ⟨d3, g3, c3⟩ := ih 2 (b.quadrants 2) (childHaz f b 2 hs) (h4 2) hok.child d2
          obtain ⟨d4, g4, c4⟩ := ih 3 (b.quadrants 3) (childHaz f b 3 hs) (h4 3) hok.child d3
          refine ⟨d4, by simp [QTNode.chain4, g1, g2, g3, g4], ?_⟩
          -- hits in a set of quadrants
          let hitIn : (Fin 4 → Prop) → QTHazard K → Prop := fun Q y =>
            ∃ i c, Q i ∧ constrictTo f b i y = some c ∧ coll1 f q m (b.quadrants i) c = true
          have up : ∀ (Q : Fin 4 → Prop) i, Q i → ∀ x ∈ childHaz f b i hs, x.active = true → x.entity ∉ det →
              coll1 f q m (b.quadrants i) x = true → ∃ y ∈ hs, y.entity = x.entity ∧ y.active = true ∧ hitIn Q y := by
            intro Q i hQ x hx ha hi hcc
            obtain ⟨y, hy, hyx⟩ := List.mem_filterMap.1 hx
            obtain ⟨t1, t2⟩ := constrictTo_entity hyx
            exact ⟨y, hy, t1.symm, by rw [← t2]; exact ha, i, x, hQ, hyx, hcc⟩
          have down : ∀ i, ∀ y ∈ hs, y.active = true → ∀ c, constrictTo f b i y = some c →
              coll1 f q m (b.quadrants i) c = true →
              ∃ x ∈ childHaz f b i hs, x.entity = y.entity ∧ x.active = true ∧ coll1 f q m (b.quadrants i) x = true := by
            intro i y hy ha c hyc hcc
            obtain ⟨t1, t2⟩ := constrictTo_entity hyc
            exact ⟨c, List.mem_filterMap.2 ⟨y, hy, hyc⟩, t1, by rw [t2]; exact ha, hcc⟩
          have s01 : CollectOK (hitIn (fun i => i = 0 ∨ i = 1)) hs det d2 := by
            refine c1.trans c2 (up _ 0 (.inl rfl)) (up _ 1 (.inr rfl)) ?_
            rintro y hy ha _ ⟨i, c, rfl | rfl, hyc, hcc⟩
            · exact .inl (down 0 y hy ha c hyc hcc)
            · exact .inr (down 1 y hy ha c hyc hcc)
          have s02 : CollectOK (hitIn (fun i => i = 0 ∨ i = 1 ∨ i = 2)) hs det d3 := by
            refine s01.trans c3 ?_ (up _ 2 (.inr (.inr rfl))) ?_
            · rintro x hx ha _ ⟨i, c, hi, t⟩
              exact ⟨x, hx, rfl, ha, i, c, hi.elim .inl fun h => .inr (.inl h), t⟩
            · rintro y hy ha _ ⟨i, c, hi, hyc, hcc⟩
              rcases hi with rfl | rfl | rfl
              · exact .inl ⟨y, hy, rfl, ha, 0, c, .inl rfl, hyc, hcc⟩
              · exact .inl ⟨y, hy, rfl, ha, 1, c, .inr rfl, hyc, hcc⟩
              · exact .inr (down 2 y hy ha c hyc hcc)
          have hsucc : ∀ y ∈ hs, y.active = true → y.entity ∉ det →
              (coll1 f q (m + 1) b y = true ↔ ∃ i c, constrictTo f b i y = some c ∧ coll1 f q m (b.quadrants i) c = true) := by
            intro y hy ha hd
            obtain ⟨p', hp'⟩ := hpart y hy ha hd
            rw [coll1_partly_succ hp', and_iff_right hq]
          refine s02.trans c4 ?_ ?_ ?_
          · rintro x hx ha hd ⟨i, c, hi, t⟩
            exact ⟨x, hx, rfl, ha, (hsucc x hx ha hd).2 ⟨i, c, t⟩⟩
          · intro x hx ha hd hcc
            obtain ⟨y, hy, hye, hya, i, c, _, t⟩ := up (fun _ => True) 3 trivial x hx ha hd hcc
            exact ⟨y, hy, hye, hya, (hsucc y hy hya (by rw [hye]; exact hd)).2 ⟨i, c, t⟩⟩
          · intro y hy ha hd hcc
            obtain ⟨i, c, hyc, hcc'⟩ := (hsucc y hy ha hd).1 hcc
            fin_cases i
            · exact .inl ⟨y, hy, rfl, ha, 0, c, .inl rfl, hyc, hcc'⟩
            · exact .inl ⟨y, hy, rfl, ha, 1, c, .inr (.inl rfl), hyc, hcc'⟩
            · exact .inl ⟨y, hy, rfl, ha, 2, c, .inr (.inr rfl), hyc, hcc'⟩
            · exact .inr (down 3 y hy ha c hyc hcc')
      · rw [if_neg hq]
        exact ⟨det, rfl, .refl fun x _ _ _ hcc => hq (coll1_rect hcc)⟩

/-- **Completeness of collecting** when no touched box is covered by one hazard
while another one is present in it. -/
theorem QTNode.collect_complete {f : Fpa K} {n : ℕ} (nd : QTNode K n) (r : AARect K) (hs : List (QTHazard K))
    (hc : nd.Canon f r hs) (hok : AllOK hs) (hdist : DistinctEntities hs) (q : Queryable K) (det : List (HazardEntity K))
    (hco : ∀ a ∈ hs, ∀ b ∈ hs, a.active = true → b.active = true → a.entity ∉ det → b.entity ∉ det → a ≠ b →
      ¬ CoEntire f q n r a b) :
    ∃ res, nd.collect q det = some res ∧ (∀ e ∈ det, e ∈ res) ∧
      ∀ h ∈ hs, h.active = true → coll1 f q n r h = true → h.entity ∈ res := by
  induction nd generalizing r hs det with
  | @leaf m b v =>
    obtain ⟨h1, h2, h3⟩ := hc
    subst h1
    obtain ⟨sr, e1, s1, s2⟩ := h2.strongest det
    rw [QTNode.collect, e1]
    rcases sr with _ | s
    · exact ⟨det, rfl, fun e he => he, fun x hx ha _ => s1 rfl x hx ha⟩
    · obtain ⟨m1, m2, m3, m4⟩ := s2 s rfl
      dsimp only
      by_cases hq : q.rect b = true
      · rw [if_pos hq]
        cases hp : s.presence with
        | none => have := hok s m1; rw [hp] at this; exact this.elim
        | entire =>
          refine ⟨_, rfl, fun e he => List.mem_append_left _ he, ?_⟩
          intro x hx ha hcc
          by_cases hxd : x.entity ∈ det
          · exact List.mem_append_left _ hxd
          · by_cases hxs : s = x
            · rw [hxs]; simp
            · refine absurd ?_ (hco s m1 x hx m2 ha m3 hxd hxs)
              cases m with
              | zero => exact ⟨hq, .inl hp⟩
              | succ m => exact ⟨hq, .inl hp⟩
        | partly p =>
          have hn0 := h3.resolve_right (fun h => by have := h s m1; rw [hp] at this; simp [Presence.isPartial] at this)
          subst hn0
          dsimp only
          rw [h2.activeHazards_eq]
          have hpart : ∀ h ∈ v.hazards.filter (·.active), h.entity ∉ det → h.presence.isPartial = true := by
            intro h hh hi
            obtain ⟨hh1, hh2⟩ := List.mem_filter.1 hh
            have hm := h2.mem.1 hh1
            have := m4 h hm hh2 hi
            rw [hp] at this
            exact rank_le_one (hok h hm) this
          obtain ⟨new, g1, g2, g3, g4⟩ := collectPartial_spec (q := q) (hs := v.hazards.filter (·.active))
            (fun x hx => hok x (h2.mem.1 (List.mem_filter.1 hx).1)) det hpart
          refine ⟨_, g1, fun e he => List.mem_append_left _ he, ?_⟩
          intro x hx ha hcc
          by_cases hd : x.entity ∈ det
          · exact List.mem_append_left _ hd
          have hxf : x ∈ v.hazards.filter (·.active) := List.mem_filter.2 ⟨h2.mem.2 hx, ha⟩
          obtain ⟨p', hp'⟩ := exists_partly (hpart x hxf hd)
          have hoka := hok x hx
          rw [hp'] at hoka
          obtain ⟨b', hb'⟩ := PartialHaz.collides_ok hoka q
          rw [coll1_partly_zero hp', hb'] at hcc
          exact g4 x hxf p' hp' (by rw [hb']; exact congrArg some hcc.2)
      · rw [if_neg hq]
        exact ⟨det, rfl, fun e he => he, fun x _ _ hcc => absurd (coll1_rect hcc) hq⟩
  | @node m b v cs ih =>
    obtain ⟨h1, h2, h3, h4⟩ := hc
    subst h1
    obtain ⟨sr, e1, s1, s2⟩ := h2.strongest det
    rw [QTNode.collect, e1]
    rcases sr with _ | s
    · exact ⟨det, rfl, fun e he => he, fun x hx ha _ => s1 rfl x hx ha⟩
    · obtain ⟨m1, m2, m3, m4⟩ := s2 s rfl
      dsimp only
      by_cases hq : q.rect b = true
      · rw [if_pos hq]
        cases hp : s.presence with
        | none => have := hok s m1; rw [hp] at this; exact this.elim
        | entire =>
          refine ⟨_, rfl, fun e he => List.mem_append_left _ he, ?_⟩
          intro x hx ha hcc
          by_cases hxd : x.entity ∈ det
          · exact List.mem_append_left _ hxd
          · by_cases hxs : s = x
            · rw [hxs]; simp
            · exact absurd ⟨hq, .inl hp⟩ (hco s m1 x hx m2 ha m3 hxd hxs)
        | partly p =>
          dsimp only
          have hpart : ∀ x ∈ hs, x.active = true → x.entity ∉ det → ∃ p, x.presence = .partly p := by
            intro x hx ha hi
            have := m4 x hx ha hi
            rw [hp] at this
            exact exists_partly (rank_le_one (hok x hx) this)
          have hstep : ∀ i (d : List (HazardEntity K)), (∀ e ∈ det, e ∈ d) →
              ∃ res, (cs i).collect q d = some res ∧ (∀ e ∈ d, e ∈ res) ∧
                ∀ h ∈ childHaz f b i hs, h.active = true → coll1 f q m (b.quadrants i) h = true → h.entity ∈ res := by
            intro i d hd
            refine ih i _ _ (h4 i) hok.child hdist.child d ?_
            intro a ha c hc' haa hca had hcd hac hcoe
            obtain ⟨a', ha', haa'⟩ := List.mem_filterMap.1 ha
            obtain ⟨c', hc'', hcc'⟩ := List.mem_filterMap.1 hc'
            obtain ⟨t1, t2⟩ := constrictTo_entity haa'
            obtain ⟨u1, u2⟩ := constrictTo_entity hcc'
            have had' : a'.entity ∉ det := fun h => had (by rw [t1]; exact hd _ h)
            have hcd' : c'.entity ∉ det := fun h => hcd (by rw [u1]; exact hd _ h)
            refine hco a' ha' c' hc'' (by rw [← t2]; exact haa) (by rw [← u2]; exact hca) had' hcd' ?_ ?_
            · rintro rfl
              rw [haa'] at hcc'
              exact hac (Option.some.inj hcc')
            · exact ⟨hq, .inr (.inr ⟨i, a, c, haa', hcc', hcoe⟩)⟩
          obtain ⟨d1, g1, k1, c1⟩ := hstep 0 det fun e he => he
          obtain ⟨d2, g2, k2, c2⟩ := hstep 1 d1 k1
          obtain ⟨d3, g3, k3, c3⟩ := hstep 2 d2 fun e he => k2 e (k1 e he)
          obtain ⟨d4, g4, k4, c4⟩ := hstep 3 d3 fun e he => k3 e (k2 e (k1 e he))
          refine ⟨d4, by simp [QTNode.chain4, g1, g2, g3, g4], fun e he => k4 e (k3 e (k2 e (k1 e he))), ?_⟩
          intro y hy ha hcc
          by_cases hd : y.entity ∈ det
          · exact k4 _ (k3 _ (k2 _ (k1 _ hd)))
          obtain ⟨p', hp'⟩ := hpart y hy ha hd
          obtain ⟨_, i, c, hyc, hcc'⟩ := (coll1_partly_succ hp').1 hcc
          obtain ⟨t1, t2⟩ := constrictTo_entity hyc
          have hcm : c ∈ childHaz f b i hs := List.mem_filterMap.2 ⟨y, hy, hyc⟩
          rw [← t1]
          rw [← t2] at ha
          fin_cases i
          · exact k4 _ (k3 _ (k2 _ (c1 c hcm ha hcc')))
          · exact k4 _ (k3 _ (c2 c hcm ha hcc'))
          · exact k4 _ (c3 c hcm ha hcc')
          · exact c4 c hcm ha hcc'
      · rw [if_neg hq]
        exact ⟨det, rfl, fun e he => he, fun x _ _ hcc => absurd (coll1_rect hcc) hq⟩

end Jagua
