import Verif.Lemmas.QTCanon

/-!
# Queries on a quadtree, hazard by hazard

`coll1` and `def1` describe what the tree says about one single hazard. The
queries of the tree are the disjunction of these over its active hazards.
-/

set_option linter.unusedSectionVars false

namespace Jagua

variable {K : Type*} [Arith K] [LinearOrder K]

/-- does the query hit the hazard `h` as stored below a node of level `n` with box `r` -/
def coll1 (f : Fpa K) (q : Queryable K) : ℕ → AARect K → QTHazard K → Bool
  | 0, r, h => q.rect r && match h.presence with
    | .none => false
    | .entire => true
    | .partly p => (p.collides q).getD false
  | n + 1, r, h => q.rect r && match h.presence with
    | .none => false
    | .entire => true
    | .partly _ => [0, 1, 2, 3].any fun i => match constrictTo f r i h with
      | none => false
      | some c => coll1 f q n (r.quadrants i) c

/-- what the tree knows about an object and the single hazard `h` -/
def def1 (f : Fpa K) (qrect : AARect K → Bool) : ℕ → AARect K → QTHazard K → Tribool
  | 0, r, h => if qrect r then match h.presence with
      | .none => .false
      | .entire => .true
      | .partly _ => .indeterminate
    else .false
  | n + 1, r, h => if qrect r then match h.presence with
      | .none => .false
      | .entire => .true
      | .partly _ =>
        let res := fun i => match constrictTo f r i h with
          | none => Tribool.false
          | some c => def1 f qrect n (r.quadrants i) c
        if ∃ i, res i = .true then .true
        else if ∃ i, res i = .indeterminate then .indeterminate
        else .false
    else .false

theorem any4 {p : Fin 4 → Bool} : ([0, 1, 2, 3] : List (Fin 4)).any p = true ↔ ∃ i, p i = true := by
  rw [List.any_eq_true]
  constructor
  · rintro ⟨i, _, h⟩; exact ⟨i, h⟩
  · rintro ⟨i, h⟩
    refine ⟨i, ?_, h⟩
    fin_cases i <;> simp

theorem PartialHaz.collides_ok {p : PartialHaz K} (h : (Presence.partly p).OK) (q : Queryable K) :
    ∃ b, p.collides q = some b := by
  have hany : ∀ (idx : List ℕ), (∀ i ∈ idx, i < p.shape.val.points.length) → ∃ b, anyEdge p.shape.val q.edge idx = some b := by
    intro idx
    induction idx with
    | nil => intro _; exact ⟨false, rfl⟩
    | cons i idx ih =>
      intro hi
      rw [anyEdge, getEdge_lt (hi i List.mem_cons_self)]
      dsimp only
      split_ifs
      · exact ⟨true, rfl⟩
      · exact ih fun j hj => hi j (List.mem_cons_of_mem _ hj)
  unfold PartialHaz.collides
  rcases p with ⟨s, _ | idx⟩
  · dsimp only
    split_ifs
    · exact ⟨_, rfl⟩
    · exact ⟨_, rfl⟩
  · dsimp only
    rw [if_neg (by rw [List.length_eq_zero_iff]; exact h.1)]
    split_ifs
    · exact hany _ h.2
    · exact hany _ h.2
    · exact ⟨_, rfl⟩

theorem firstSome4_spec {α : Type*} {g : Fin 4 → Option (Option α)} {k : Fin 4 → Option α} (h : ∀ i, g i = some (k i)) :
    ∃ r, QTNode.firstSome4 g = some r ∧ (r.isSome = true ↔ ∃ i, (k i).isSome = true) ∧
      ∀ a, r = some a → ∃ i, k i = some a := by
  unfold QTNode.firstSome4
  rw [h 0, h 1, h 2, h 3]
  have hex : ∀ {p : Fin 4 → Prop}, (∃ i, p i) ↔ p 0 ∨ p 1 ∨ p 2 ∨ p 3 := by
    intro p
    constructor
    · rintro ⟨i, hi⟩
      fin_cases i
      · exact .inl hi
      · exact .inr (.inl hi)
      · exact .inr (.inr (.inl hi))
      · exact .inr (.inr (.inr hi))
    · rintro (h | h | h | h)
      exacts [⟨_, h⟩, ⟨_, h⟩, ⟨_, h⟩, ⟨_, h⟩]
  rcases h0 : k 0 with _ | a
  · rcases h1 : k 1 with _ | a
    · rcases h2 : k 2 with _ | a
      · exact ⟨_, rfl, by rw [hex]; simp [h0, h1, h2], fun a ha => ⟨3, ha⟩⟩
      · exact ⟨_, rfl, by rw [hex]; simp [h2], fun a ha => ⟨2, by rw [h2, ← ha]⟩⟩
    · exact ⟨_, rfl, by rw [hex]; simp [h1], fun a ha => ⟨1, by rw [h1, ← ha]⟩⟩
  · exact ⟨_, rfl, by rw [hex]; simp [h0], fun a ha => ⟨0, by rw [h0, ← ha]⟩⟩

/-- search in a leaf -/
theorem findPartial_spec {q : Queryable K} {irr : List (HazardEntity K)} {hs : List (QTHazard K)} (hok : AllOK hs)
    (hent : ∀ h ∈ hs, h.entity ∉ irr → h.presence.isPartial = true) :
    ∃ r, QTNode.findPartial q irr hs = some r ∧
      (r.isSome = true ↔ ∃ h ∈ hs, h.entity ∉ irr ∧ ∃ p, h.presence = .partly p ∧ p.collides q = some true) ∧
      ∀ e, r = some e → ∃ h ∈ hs, h.entity = e ∧ h.entity ∉ irr ∧ ∃ p, h.presence = .partly p ∧ p.collides q = some true := by
  induction hs with
  | nil => exact ⟨none, rfl, by simp, by simp⟩
  | cons a hs ih =>
    obtain ⟨r, h1, h2, h3⟩ := ih (fun x hx => hok x (List.mem_cons_of_mem _ hx))
      (fun x hx => hent x (List.mem_cons_of_mem _ hx))
    rw [QTNode.findPartial]
    by_cases ha : a.entity ∈ irr
    · rw [if_pos (by simpa using ha)]
      refine ⟨r, h1, h2.trans ?_, ?_⟩
      · constructor
        · rintro ⟨x, hx, h⟩; exact ⟨x, List.mem_cons_of_mem _ hx, h⟩
        · rintro ⟨x, hx, h, h'⟩
          rcases List.mem_cons.1 hx with rfl | hx
          · exact absurd ha h
          · exact ⟨x, hx, h, h'⟩
      · intro e he
        obtain ⟨x, hx, h⟩ := h3 e he
        exact ⟨x, List.mem_cons_of_mem _ hx, h⟩
    · rw [if_neg (by simpa using ha)]
      have hp := hent a List.mem_cons_self ha
      have hoka := hok a List.mem_cons_self
      cases hpr : a.presence with
      | none => rw [hpr] at hp; simp [Presence.isPartial] at hp
      | entire => rw [hpr] at hp; simp [Presence.isPartial] at hp
      | partly p =>
        rw [hpr] at hoka
        obtain ⟨b, hb⟩ := PartialHaz.collides_ok hoka q
        dsimp only
        rw [hb]
        cases b with
        | true =>
          refine ⟨_, rfl, ?_, ?_⟩
          · simp only [Option.isSome_some, true_iff]
            exact ⟨a, List.mem_cons_self, ha, p, hpr, hb⟩
          · intro e he
            exact ⟨a, List.mem_cons_self, Option.some.inj he, ha, p, hpr, hb⟩
        | false =>
          refine ⟨r, h1, h2.trans ?_, ?_⟩
          · constructor
            · rintro ⟨x, hx, h⟩; exact ⟨x, List.mem_cons_of_mem _ hx, h⟩
            · rintro ⟨x, hx, h, p', hp', hc'⟩
              rcases List.mem_cons.1 hx with rfl | hx
              · rw [hpr] at hp'
                cases hp'
                rw [hb] at hc'
                simp at hc'
              · exact ⟨x, hx, h, p', hp', hc'⟩
          · intro e he
            obtain ⟨x, hx, h⟩ := h3 e he
            exact ⟨x, List.mem_cons_of_mem _ hx, h⟩

theorem rank_le_one {p : Presence K} (hok : p.OK) (h : p.rank ≤ 1) : p.isPartial = true := by
  cases p with
  | none => exact hok.elim
  | entire => simp [Presence.rank] at h
  | partly => rfl

theorem exists_partly {p : Presence K} (h : p.isPartial = true) : ∃ ph, p = .partly ph := by
  cases p with
  | none => simp [Presence.isPartial] at h
  | entire => simp [Presence.isPartial] at h
  | partly ph => exact ⟨ph, rfl⟩

theorem coll1_rect {f : Fpa K} {q : Queryable K} {n : ℕ} {r : AARect K} {h : QTHazard K} (hc : coll1 f q n r h = true) :
    q.rect r = true := by
  cases n <;> · rw [coll1, Bool.and_eq_true] at hc; exact hc.1

theorem coll1_entire {f : Fpa K} {q : Queryable K} {n : ℕ} {r : AARect K} {h : QTHazard K} (hp : h.presence = .entire) :
    coll1 f q n r h = q.rect r := by
  cases n <;> simp [coll1, hp]

theorem coll1_partly_zero {f : Fpa K} {q : Queryable K} {r : AARect K} {h : QTHazard K} {p : PartialHaz K}
    (hp : h.presence = .partly p) : coll1 f q 0 r h = true ↔ q.rect r = true ∧ (p.collides q).getD false = true := by
  simp [coll1, hp]

theorem coll1_partly_succ {f : Fpa K} {q : Queryable K} {n : ℕ} {r : AARect K} {h : QTHazard K} {p : PartialHaz K}
    (hp : h.presence = .partly p) : coll1 f q (n + 1) r h = true ↔ q.rect r = true ∧
      ∃ i c, constrictTo f r i h = some c ∧ coll1 f q n (r.quadrants i) c = true := by
  rw [coll1, hp, Bool.and_eq_true, any4]
  refine and_congr_right fun _ => exists_congr fun i => ?_
  rcases constrictTo f r i h with _ | c
  · simp
  · simp

/-- **The binary query**: it never panics, reports a hazard iff some active
relevant hazard is hit, and what it reports is such a hazard. -/
theorem QTNode.collides_spec {f : Fpa K} {n : ℕ} (nd : QTNode K n) (r : AARect K) (hs : List (QTHazard K))
    (hc : nd.Canon f r hs) (hok : AllOK hs) (q : Queryable K) (irr : List (HazardEntity K)) :
    ∃ res, nd.collides q irr = some res ∧
      (res.isSome = true ↔ ∃ h ∈ hs, h.active = true ∧ h.entity ∉ irr ∧ coll1 f q n r h = true) ∧
      ∀ e, res = some e → ∃ h ∈ hs, h.entity = e ∧ h.active = true ∧ h.entity ∉ irr ∧ coll1 f q n r h = true := by
  have hnone : (∀ x ∈ hs, x.active = true → x.entity ∈ irr) →
      ¬ ∃ h ∈ hs, h.active = true ∧ h.entity ∉ irr ∧ coll1 f q n r h = true := by
    rintro h ⟨x, hx, ha, hi, _⟩
    exact hi (h x hx ha)
  have hrect : q.rect r ≠ true → ¬ ∃ h ∈ hs, h.active = true ∧ h.entity ∉ irr ∧ coll1 f q n r h = true := by
    rintro h ⟨x, hx, ha, hi, hcc⟩
    exact h (coll1_rect hcc)
  induction nd generalizing r hs with
  | leaf b v =>
    obtain ⟨h1, h2, h3⟩ := hc
    subst h1
    obtain ⟨sr, e1, s1, s2⟩ := h2.strongest irr
    rw [QTNode.collides, e1]
    rcases sr with _ | s
    · exact ⟨none, rfl, by simpa using hnone (s1 rfl), by simp⟩
    · obtain ⟨m1, m2, m3, m4⟩ := s2 s rfl
      dsimp only
      by_cases hq : q.rect b = true
      · rw [if_pos hq]
        cases hp : s.presence with
        | none => have := hok s m1; rw [hp] at this; exact this.elim
        | entire =>
          refine ⟨some s.entity, rfl, ?_, ?_⟩
          · simp only [Option.isSome_some, true_iff]
            exact ⟨s, m1, m2, m3, by rw [coll1_entire hp]; exact hq⟩
          · intro e he
            exact ⟨s, m1, Option.some.inj he, m2, m3, by rw [coll1_entire hp]; exact hq⟩
        | partly p =>
          have hn0 := h3.resolve_right (fun h => by have := h s m1; rw [hp] at this; simp [Presence.isPartial] at this)
          subst hn0
          dsimp only
          rw [h2.activeHazards_eq]
          have hpart : ∀ h ∈ v.hazards.filter (·.active), h.entity ∉ irr → h.presence.isPartial = true := by
            intro h hh hi
            obtain ⟨hh1, hh2⟩ := List.mem_filter.1 hh
            have hm := h2.mem.1 hh1
            have := m4 h hm hh2 hi
            rw [hp] at this
            exact rank_le_one (hok h hm) this
          obtain ⟨rr, g1, g2, g3⟩ := findPartial_spec (q := q) (irr := irr) (hs := v.hazards.filter (·.active))
            (fun x hx => hok x (h2.mem.1 (List.mem_filter.1 hx).1)) hpart
          refine ⟨rr, g1, g2.trans ?_, ?_⟩
          · constructor
            · rintro ⟨x, hx, hi, p', hp', hc'⟩
              obtain ⟨hh1, hh2⟩ := List.mem_filter.1 hx
              refine ⟨x, h2.mem.1 hh1, hh2, hi, ?_⟩
              rw [coll1_partly_zero hp', hc']
              exact ⟨hq, rfl⟩
            · rintro ⟨x, hx, ha, hi, hcc⟩
              have hxf : x ∈ v.hazards.filter (·.active) := List.mem_filter.2 ⟨h2.mem.2 hx, ha⟩
              obtain ⟨p', hp'⟩ := exists_partly (hpart x hxf hi)
              have hoka := hok x hx
              rw [hp'] at hoka
              obtain ⟨b', hb'⟩ := PartialHaz.collides_ok hoka q
              refine ⟨x, hxf, hi, p', hp', ?_⟩
              rw [coll1_partly_zero hp', hb'] at hcc
              rw [hb']
              exact congrArg some hcc.2
          · intro e he
            obtain ⟨x, hx, hxe, hi, p', hp', hc'⟩ := g3 e he
            obtain ⟨hh1, hh2⟩ := List.mem_filter.1 hx
            refine ⟨x, h2.mem.1 hh1, hxe, hh2, hi, ?_⟩
            rw [coll1_partly_zero hp', hc']
            exact ⟨hq, rfl⟩
      · rw [if_neg hq]
        exact ⟨none, rfl, by simpa using hrect hq, by simp⟩
  | @node m b v cs ih =>
    obtain ⟨h1, h2, h3, h4⟩ := hc
    subst h1
    obtain ⟨sr, e1, s1, s2⟩ := h2.strongest irr
    rw [QTNode.collides, e1]
    rcases sr with _ | s
    · exact ⟨none, rfl, by simpa using hnone (s1 rfl), by simp⟩
    · obtain ⟨m1, m2, m3, m4⟩ := s2 s rfl
      dsimp only
      by_cases hq : q.rect b = true
      · rw [if_pos hq]
        cases hp : s.presence with
        | none => have := hok s m1; rw [hp] at this; exact this.elim
        | entire =>
          refine ⟨some s.entity, rfl, ?_, ?_⟩
          · simp only [Option.isSome_some, true_iff]
            exact ⟨s, m1, m2, m3, by rw [coll1_entire hp]; exact hq⟩
          · intro e he
            exact ⟨s, m1, Option.some.inj he, m2, m3, by rw [coll1_entire hp]; exact hq⟩
        | partly p =>
          dsimp only
          have hpart : ∀ x ∈ hs, x.active = true → x.entity ∉ irr → ∃ p, x.presence = .partly p := by
            intro x hx ha hi
            have := m4 x hx ha hi
            rw [hp] at this
            exact exists_partly (rank_le_one (hok x hx) this)
          have := fun i => ih i (b.quadrants i) (childHaz f b i hs) (h4 i) hok.child
            (by
              rintro h ⟨x, hx, ha, hi, _⟩
              exact hi (h x hx ha))
            (by
              rintro h ⟨x, hx, ha, hi, hcc⟩
              exact h (coll1_rect hcc))
          choose k k1 k2 k3 using this
          obtain ⟨rr, g1, g2, g3⟩ := firstSome4_spec k1
          have up : ∀ i x, x ∈ childHaz f b i hs → x.active = true → x.entity ∉ irr → coll1 f q m (b.quadrants i) x = true →
              ∃ y ∈ hs, y.entity = x.entity ∧ y.active = true ∧ y.entity ∉ irr ∧ coll1 f q (m + 1) b y = true := by
            intro i x hx ha hi hcc
            obtain ⟨y, hy, hyx⟩ := List.mem_filterMap.1 hx
            obtain ⟨t1, t2⟩ := constrictTo_entity hyx
            rw [t2] at ha
            rw [t1] at hi
            obtain ⟨p', hp'⟩ := hpart y hy ha hi
            exact ⟨y, hy, t1.symm, ha, hi, (coll1_partly_succ hp').2 ⟨hq, i, x, hyx, hcc⟩⟩
          refine ⟨rr, g1, g2.trans ?_, ?_⟩
          · constructor
            · rintro ⟨i, hi⟩
              obtain ⟨x, hx, ha, hxi, hcc⟩ := (k2 i).1 hi
              obtain ⟨y, hy, _, t⟩ := up i x hx ha hxi hcc
              exact ⟨y, hy, t⟩
            · rintro ⟨y, hy, ha, hi, hcc⟩
              obtain ⟨p', hp'⟩ := hpart y hy ha hi
              obtain ⟨_, i, c, hyc, hcc'⟩ := (coll1_partly_succ hp').1 hcc
              obtain ⟨t1, t2⟩ := constrictTo_entity hyc
              refine ⟨i, (k2 i).2 ⟨c, List.mem_filterMap.2 ⟨y, hy, hyc⟩, ?_, ?_, hcc'⟩⟩
              · rw [t2]; exact ha
              · rw [t1]; exact hi
          · intro e he
            obtain ⟨i, hi⟩ := g3 e he
            obtain ⟨x, hx, hxe, ha, hxi, hcc⟩ := k3 i e hi
            obtain ⟨y, hy, hye, t⟩ := up i x hx ha hxi hcc
            exact ⟨y, hy, hye.trans hxe, t⟩
      · rw [if_neg hq]
        exact ⟨none, rfl, by simpa using hrect hq, by simp⟩

theorem def1_rect {f : Fpa K} {qr : AARect K → Bool} {n : ℕ} {r : AARect K} {h : QTHazard K} (hq : qr r ≠ true) :
    def1 f qr n r h = .false := by
  cases n <;> simp [def1, hq]

theorem def1_entire {f : Fpa K} {qr : AARect K → Bool} {n : ℕ} {r : AARect K} {h : QTHazard K} (hq : qr r = true)
    (hp : h.presence = .entire) : def1 f qr n r h = .true := by
  cases n <;> simp [def1, hp, hq]

theorem def1_partly_zero {f : Fpa K} {qr : AARect K → Bool} {r : AARect K} {h : QTHazard K} {p : PartialHaz K}
    (hq : qr r = true) (hp : h.presence = .partly p) : def1 f qr 0 r h = .indeterminate := by
  simp [def1, hp, hq]

theorem def1_partly_true {f : Fpa K} {qr : AARect K → Bool} {n : ℕ} {r : AARect K} {h : QTHazard K} {p : PartialHaz K}
    (hq : qr r = true) (hp : h.presence = .partly p) :
    def1 f qr (n + 1) r h = .true ↔ ∃ i c, constrictTo f r i h = some c ∧ def1 f qr n (r.quadrants i) c = .true := by
  rw [def1, if_pos hq, hp]
  dsimp only
  have : ∀ (i : Fin 4) (t : Tribool), t ≠ .false → ((match constrictTo f r i h with
      | none => Tribool.false
      | some c => def1 f qr n (r.quadrants i) c) = t ↔
      ∃ c, constrictTo f r i h = some c ∧ def1 f qr n (r.quadrants i) c = t) := by
    intro i t ht
    rcases constrictTo f r i h with _ | c
    · simp [ht.symm]
    · simp
  simp only [this _ .true (by simp), this _ .indeterminate (by simp)]
  split_ifs with h1 h2
  · simpa using h1
  · simpa using h1
  · simpa using h1

theorem def1_partly_false {f : Fpa K} {qr : AARect K → Bool} {n : ℕ} {r : AARect K} {h : QTHazard K} {p : PartialHaz K}
    (hq : qr r = true) (hp : h.presence = .partly p) :
    def1 f qr (n + 1) r h = .false ↔ ∀ i c, constrictTo f r i h = some c → def1 f qr n (r.quadrants i) c = .false := by
  rw [def1, if_pos hq, hp]
  dsimp only
  have : ∀ (i : Fin 4) (t : Tribool), t ≠ .false → ((match constrictTo f r i h with
      | none => Tribool.false
      | some c => def1 f qr n (r.quadrants i) c) = t ↔
      ∃ c, constrictTo f r i h = some c ∧ def1 f qr n (r.quadrants i) c = t) := by
    intro i t ht
    rcases constrictTo f r i h with _ | c
    · simp [ht.symm]
    · simp
  simp only [this _ .true (by simp), this _ .indeterminate (by simp)]
  split_ifs with h1 h2
  · simp only [false_iff, not_forall]
    obtain ⟨i, c, hc, hd⟩ := h1
    exact ⟨i, c, hc, by rw [hd]; simp⟩
  · simp only [false_iff, not_forall]
    obtain ⟨i, c, hc, hd⟩ := h2
    exact ⟨i, c, hc, by rw [hd]; simp⟩
  · simp only [true_iff]
    intro i c hc
    cases hd : def1 f qr n (r.quadrants i) c with
    | true => exact absurd ⟨i, c, hc, hd⟩ h1
    | false => rfl
    | indeterminate => exact absurd ⟨i, c, hc, hd⟩ h2

theorem triboolLoop_spec {g : Fin 4 → Option Tribool} {k : Fin 4 → Tribool} (h : ∀ i, g i = some (k i))
    (is : List (Fin 4)) {t : Tribool} (ht : t ≠ .true) :
    ∃ r, QTNode.triboolLoop g is t = some r ∧ (r = .true ↔ ∃ i ∈ is, k i = .true) ∧
      (r = .false ↔ t = .false ∧ ∀ i ∈ is, k i = .false) := by
  induction is generalizing t with
  | nil => exact ⟨t, rfl, by simpa using ht, by simp⟩
  | cons i is ih =>
    rw [QTNode.triboolLoop, h i]
    cases hk : k i with
    | true => exact ⟨.true, rfl, by simp [hk], by simp [hk]⟩
    | indeterminate =>
      obtain ⟨r, h1, h2, h3⟩ := ih (t := .indeterminate) (by simp)
      exact ⟨r, h1, by rw [h2]; simp [hk], by rw [h3]; simp [hk]⟩
    | false =>
      obtain ⟨r, h1, h2, h3⟩ := ih ht
      exact ⟨r, h1, by rw [h2]; simp [hk], by rw [h3]; simp [hk]⟩

theorem mem4 (i : Fin 4) : i ∈ ([0, 1, 2, 3] : List (Fin 4)) := by fin_cases i <;> simp

/-- **The tri-valued query** combines the answers for the active relevant hazards. -/
theorem QTNode.definitelyCollides_spec {f : Fpa K} {n : ℕ} (nd : QTNode K n) (r : AARect K) (hs : List (QTHazard K))
    (hc : nd.Canon f r hs) (hok : AllOK hs) (qr : AARect K → Bool) (irr : List (HazardEntity K)) :
    ∃ res, nd.definitelyCollides qr irr = some res ∧
      (res = .true ↔ ∃ h ∈ hs, h.active = true ∧ h.entity ∉ irr ∧ def1 f qr n r h = .true) ∧
      (res = .false ↔ ∀ h ∈ hs, h.active = true → h.entity ∉ irr → def1 f qr n r h = .false) := by
  induction nd generalizing r hs with
  | @leaf m b v =>
    obtain ⟨h1, h2, h3⟩ := hc
    subst h1
    obtain ⟨sr, e1, s1, s2⟩ := h2.strongest irr
    rw [QTNode.definitelyCollides, e1]
    rcases sr with _ | s
    · refine ⟨.false, rfl, ?_, ?_⟩
      · simp only [reduceCtorEq, false_iff]
        rintro ⟨x, hx, ha, hi, _⟩
        exact hi (s1 rfl x hx ha)
      · simp only [true_iff]
        intro x hx ha hi
        exact absurd (s1 rfl x hx ha) hi
    · obtain ⟨m1, m2, m3, m4⟩ := s2 s rfl
      dsimp only
      by_cases hq : qr b = true
      · rw [hq]
        cases hp : s.presence with
        | none => have := hok s m1; rw [hp] at this; exact this.elim
        | entire =>
          have hd : def1 f qr m b s = .true := def1_entire hq hp
          refine ⟨.true, rfl, ?_, ?_⟩
          · simp only [true_iff]
            exact ⟨s, m1, m2, m3, hd⟩
          · simp only [reduceCtorEq, false_iff, not_forall]
            exact ⟨s, m1, m2, m3, by rw [hd]; simp⟩
        | partly p =>
          have hn0 := h3.resolve_right (fun h => by have := h s m1; rw [hp] at this; simp [Presence.isPartial] at this)
          subst hn0
          have hpart : ∀ x ∈ hs, x.active = true → x.entity ∉ irr → def1 f qr 0 b x = .indeterminate := by
            intro x hx ha hi
            have := m4 x hx ha hi
            rw [hp] at this
            obtain ⟨p', hp'⟩ := exists_partly (rank_le_one (hok x hx) this)
            exact def1_partly_zero hq hp'
          refine ⟨.indeterminate, rfl, ?_, ?_⟩
          · simp only [reduceCtorEq, false_iff]
            rintro ⟨x, hx, ha, hi, hd⟩
            rw [hpart x hx ha hi] at hd
            simp at hd
          · simp only [reduceCtorEq, false_iff, not_forall]
            exact ⟨s, m1, m2, m3, by rw [hpart s m1 m2 m3]; simp⟩
      · have hq' : qr b = false := by simpa using hq
        rw [hq']
        refine ⟨.false, rfl, ?_, ?_⟩
        · simp only [reduceCtorEq, false_iff]
          rintro ⟨x, hx, ha, hi, hd⟩
          rw [def1_rect hq] at hd
          simp at hd
        · simp only [true_iff]
          intro x hx ha hi
          exact def1_rect hq
  | @node m b v cs ih =>
    obtain ⟨h1, h2, h3, h4⟩ := hc
    subst h1
    obtain ⟨sr, e1, s1, s2⟩ := h2.strongest irr
    rw [QTNode.definitelyCollides, e1]
    rcases sr with _ | s
    · refine ⟨.false, rfl, ?_, ?_⟩
      · simp only [reduceCtorEq, false_iff]
        rintro ⟨x, hx, ha, hi, _⟩
        exact hi (s1 rfl x hx ha)
      · simp only [true_iff]
        intro x hx ha hi
        exact absurd (s1 rfl x hx ha) hi
    · obtain ⟨m1, m2, m3, m4⟩ := s2 s rfl
      dsimp only
      by_cases hq : qr b = true
      · rw [hq]
        cases hp : s.presence with
        | none => have := hok s m1; rw [hp] at this; exact this.elim
        | entire =>
          have hd : def1 f qr (m + 1) b s = .true := def1_entire hq hp
          refine ⟨.true, rfl, ?_, ?_⟩
          · simp only [true_iff]
            exact ⟨s, m1, m2, m3, hd⟩
          · simp only [reduceCtorEq, false_iff, not_forall]
            exact ⟨s, m1, m2, m3, by rw [hd]; simp⟩
        | partly p =>
          have hpart : ∀ x ∈ hs, x.active = true → x.entity ∉ irr → ∃ p, x.presence = .partly p := by
            intro x hx ha hi
            have := m4 x hx ha hi
            rw [hp] at this
            exact exists_partly (rank_le_one (hok x hx) this)
          have := fun i => ih i (b.quadrants i) (childHaz f b i hs) (h4 i) hok.child
          choose k k1 k2 k3 using this
          obtain ⟨rr, g1, g2, g3⟩ := triboolLoop_spec k1 [0, 1, 2, 3] (t := .false) (by simp)
          refine ⟨rr, g1, g2.trans ?_, g3.trans ?_⟩
          · constructor
            · rintro ⟨i, _, hi⟩
              obtain ⟨x, hx, ha, hxi, hd⟩ := (k2 i).1 hi
              obtain ⟨y, hy, hyx⟩ := List.mem_filterMap.1 hx
              obtain ⟨t1, t2⟩ := constrictTo_entity hyx
              rw [t2] at ha
              rw [t1] at hxi
              obtain ⟨p', hp'⟩ := hpart y hy ha hxi
              exact ⟨y, hy, ha, hxi, (def1_partly_true hq hp').2 ⟨i, x, hyx, hd⟩⟩
            · rintro ⟨y, hy, ha, hi, hd⟩
              obtain ⟨p', hp'⟩ := hpart y hy ha hi
              obtain ⟨i, c, hyc, hd'⟩ := (def1_partly_true hq hp').1 hd
              obtain ⟨t1, t2⟩ := constrictTo_entity hyc
              refine ⟨i, mem4 i, (k2 i).2 ⟨c, List.mem_filterMap.2 ⟨y, hy, hyc⟩, ?_, ?_, hd'⟩⟩
              · rw [t2]; exact ha
              · rw [t1]; exact hi
          · constructor
            · rintro ⟨_, hall⟩ y hy ha hi
              obtain ⟨p', hp'⟩ := hpart y hy ha hi
              rw [def1_partly_false hq hp']
              intro i c hyc
              obtain ⟨t1, t2⟩ := constrictTo_entity hyc
              exact (k3 i).1 (hall i (mem4 i)) c (List.mem_filterMap.2 ⟨y, hy, hyc⟩) (by rw [t2]; exact ha)
                (by rw [t1]; exact hi)
            · intro hall
              refine ⟨rfl, fun i _ => (k3 i).2 ?_⟩
              intro x hx ha hxi
              obtain ⟨y, hy, hyx⟩ := List.mem_filterMap.1 hx
              obtain ⟨t1, t2⟩ := constrictTo_entity hyx
              rw [t2] at ha
              rw [t1] at hxi
              obtain ⟨p', hp'⟩ := hpart y hy ha hxi
              exact (def1_partly_false hq hp').1 (hall y hy ha hxi) i x hyx
      · have hq' : qr b = false := by simpa using hq
        rw [hq']
        refine ⟨.false, rfl, ?_, ?_⟩
        · simp only [reduceCtorEq, false_iff]
          rintro ⟨x, hx, ha, hi, hd⟩
          rw [def1_rect hq] at hd
          simp at hd
        · simp only [true_iff]
          intro x hx ha hi
          exact def1_rect hq

/-- **The tri-valued query for one hazard** answers for exactly that hazard. -/
theorem QTNode.definitelyCollidesWith_spec {f : Fpa K} {n : ℕ} (nd : QTNode K n) (r : AARect K) (hs : List (QTHazard K))
    (hc : nd.Canon f r hs) (hok : AllOK hs) (hd : DistinctEntities hs) (qr : AARect K → Bool) (e : HazardEntity K) :
    ((∀ x ∈ hs, x.active = true → x.entity ≠ e) → nd.definitelyCollidesWith qr e = some .false) ∧
    ∀ h ∈ hs, h.active = true → h.entity = e → nd.definitelyCollidesWith qr e = some (def1 f qr n r h) := by
  induction nd generalizing r hs with
  | @leaf m b v =>
    obtain ⟨h1, h2, h3⟩ := hc
    subst h1
    obtain ⟨g1, g2⟩ := h2.get hd e
    constructor
    · intro hn
      rw [QTNode.definitelyCollidesWith, g1.2 hn]
    · intro h hh ha he
      rw [QTNode.definitelyCollidesWith, (g2 h).2 ⟨hh, ha, he⟩]
      dsimp only
      by_cases hq : qr b = true
      · rw [if_pos hq]
        cases hp : h.presence with
        | none => have := hok h hh; rw [hp] at this; exact this.elim
        | entire => rw [def1_entire hq hp]
        | partly p =>
          have hn0 := h3.resolve_right (fun h' => by have := h' h hh; rw [hp] at this; simp [Presence.isPartial] at this)
          subst hn0
          rw [def1_partly_zero hq hp]
      · rw [if_neg hq, def1_rect hq]
  | @node m b v cs ih =>
    obtain ⟨h1, h2, h3, h4⟩ := hc
    subst h1
    obtain ⟨g1, g2⟩ := h2.get hd e
    constructor
    · intro hn
      rw [QTNode.definitelyCollidesWith, g1.2 hn]
    · intro h hh ha he
      rw [QTNode.definitelyCollidesWith, (g2 h).2 ⟨hh, ha, he⟩]
      dsimp only
      by_cases hq : qr b = true
      · rw [if_pos hq]
        cases hp : h.presence with
        | none => have := hok h hh; rw [hp] at this; exact this.elim
        | entire => rw [def1_entire hq hp]
        | partly p =>
          dsimp only
          have hk : ∀ i, (cs i).definitelyCollidesWith qr e = some (match constrictTo f b i h with
              | none => Tribool.false
              | some c => def1 f qr m (b.quadrants i) c) := by
            intro i
            obtain ⟨j1, j2⟩ := ih i (b.quadrants i) (childHaz f b i hs) (h4 i) hok.child hd.child
            rcases hci : constrictTo f b i h with _ | c
            · apply j1
              intro x hx hxa hxe
              obtain ⟨y, hy, hyx⟩ := List.mem_filterMap.1 hx
              rw [(constrictTo_entity hyx).1] at hxe
              rw [hd.eq hy hh (hxe.trans he.symm), hci] at hyx
              simp at hyx
            · obtain ⟨t1, t2⟩ := constrictTo_entity hci
              exact j2 c (List.mem_filterMap.2 ⟨h, hh, hci⟩) (t2.trans ha) (t1.trans he)
          obtain ⟨rr, r1, r2, r3⟩ := triboolLoop_spec hk [0, 1, 2, 3] (t := .false) (by simp)
          rw [r1]
          congr 1
          have ht := def1_partly_true (f := f) (n := m) hq hp
          have hf := def1_partly_false (f := f) (n := m) hq hp
          have e1 : rr = .true ↔ def1 f qr (m + 1) b h = .true := by
            rw [r2, ht]
            constructor
            · rintro ⟨i, _, hi⟩
              rcases hci : constrictTo f b i h with _ | c
              · rw [hci] at hi; simp at hi
              · rw [hci] at hi; exact ⟨i, c, hci, hi⟩
            · rintro ⟨i, c, hci, hi⟩
              exact ⟨i, mem4 i, by rw [hci]; exact hi⟩
          have e2 : rr = .false ↔ def1 f qr (m + 1) b h = .false := by
            rw [r3, hf]
            constructor
            · rintro ⟨_, hall⟩ i c hci
              have := hall i (mem4 i)
              rw [hci] at this
              exact this
            · intro hall
              refine ⟨rfl, fun i _ => ?_⟩
              rcases hci : constrictTo f b i h with _ | c
              · rfl
              · exact hall i c hci
          cases rr <;> cases hdd : def1 f qr (m + 1) b h <;> simp_all
      · rw [if_neg hq, def1_rect hq]

end Jagua
