import Verif.Model.FailFast
import Verif.Spec.Piers
import Verif.Lemmas.PrimitiveExtra
import Verif.Lemmas.RayDir
import Verif.Lemmas.PolyBasic
import Verif.Lemmas.Transf

/-! # Lemmas: piers -/

set_option linter.unusedSectionVars false

namespace Jagua

variable {K : Type*} [Field K] [LinearOrder K] [IsStrictOrderedRing K]

/-! ## The hits of a ray -/

theorem collidesAt_isSome (e f : Edge K) : (e.collidesAt f).isSome := by
  obtain ⟨-, h2⟩ := edgeIntersection_flag e f
  unfold Edge.collidesAt
  cases hr : Edge.edgeIntersection e f true with
  | none => rfl
  | some o =>
    cases o with
    | none => exact absurd hr h2
    | some p => rfl

theorem mapM_some_of_isSome {α β : Type*} (g : α → Option β) : ∀ (l : List α), (∀ a ∈ l, (g a).isSome) →
    l.mapM g = some (l.filterMap g)
  | [], _ => rfl
  | a :: l, h => by
    obtain ⟨b, hb⟩ := Option.isSome_iff_exists.1 (h a (by simp))
    rw [List.mapM_cons, mapM_some_of_isSome g l (fun x hx => h x (by simp [hx])), hb, List.filterMap_cons, hb]
    rfl

/-- where an edge meets the ray -/
def hitOf (ray e : Edge K) : Option (Point K) := (e.collidesAt ray).bind id

theorem rayHits_eq (shape : SPoly K) (ray : Edge K) : rayHits shape ray = some (shape.edges.filterMap (hitOf ray)) := by
  unfold rayHits
  rw [mapM_some_of_isSome _ _ fun e _ => collidesAt_isSome e ray, Option.map_some, List.filterMap_filterMap]
  rfl

theorem hitOf_mem {ray e : Edge K} {p : Point K} (h : hitOf ray e = some p) : p ∈ e.pts ∧ p ∈ ray.pts := by
  unfold hitOf Edge.collidesAt at h
  cases hr : Edge.edgeIntersection e ray true with
  | none => rw [hr] at h; simp at h
  | some o =>
    cases o with
    | none => rw [hr] at h; simp at h
    | some q =>
      rw [hr] at h
      simp at h
      subst h
      exact edgeIntersection_loc e ray q hr

theorem hitOf_isSome {ray e : Edge K} (hp : ¬ e.Parallel ray) {p : Point K} (h1 : p ∈ e.pts) (h2 : p ∈ ray.pts) :
    ∃ q, hitOf ray e = some q := by
  obtain ⟨o, ho, hs, -⟩ := collidesAt_spec e ray hp
  rw [(collidesEdge_iff e ray).2 ⟨hp, p, h1, h2⟩] at hs
  obtain ⟨q, rfl⟩ := Option.isSome_iff_exists.1 hs
  exact ⟨q, by unfold hitOf; rw [ho]; rfl⟩

/-- The direction of a ray. -/
def Edge.dir (e : Edge K) : Point K := ⟨e.stop.x - e.start.x, e.stop.y - e.start.y⟩

theorem onLine_iff {ray : Edge K} {p : Point K} : OnLine ray.start ray.stop p ↔ dirSide ray.dir ray.start p = 0 := Iff.rfl

theorem onLine_of_mem {ray : Edge K} {p : Point K} (h : p ∈ ray.pts) : OnLine ray.start ray.stop p := by
  obtain ⟨t, -, -, hx, hy⟩ := h
  unfold OnLine
  rw [hx, hy]
  ring

theorem dirSide_shift {ray : Edge K} {p q : Point K} (h : OnLine ray.start ray.stop p) :
    dirSide ray.dir p q = dirSide ray.dir ray.start q := by
  have : dirSide ray.dir ray.start p = 0 := h
  unfold dirSide at *
  linear_combination -this

/-- Two points of a side on the line of the ray are the same if the side is not on that line. -/
theorem hit_unique {d a : Point K} {s : Point K × Point K} (h1 : ¬ (dirSide d a s.1 = 0 ∧ dirSide d a s.2 = 0)) {c q : Point K}
    (hc : c ∈ segPts s.1 s.2) (hq : q ∈ segPts s.1 s.2) (hc' : dirSide d a c = 0) (hq' : dirSide d a q = 0) : c = q := by
  obtain ⟨t, -, -, hx, hy⟩ := hc
  obtain ⟨u, -, -, hx', hy'⟩ := hq
  rw [dirSide_lerp hx hy] at hc'
  rw [dirSide_lerp hx' hy'] at hq'
  have hne : dirSide d a s.2 - dirSide d a s.1 ≠ 0 := by
    intro h0
    rw [h0] at hc'
    exact h1 ⟨by linarith, by linarith⟩
  have : t = u := by
    have : (t - u) * (dirSide d a s.2 - dirSide d a s.1) = 0 := by linarith
    exact sub_eq_zero.1 ((mul_eq_zero.1 this).resolve_right hne)
  subst this
  ext
  · rw [hx, hx']
  · rw [hy, hy']

theorem straddle_of_zero {α β t : K} (ha : α ≠ 0) (hb : β ≠ 0) (t0 : 0 ≤ t) (t1 : t ≤ 1) (h : α + t * (β - α) = 0) :
    (α < 0 ∧ 0 ≤ β) ∨ (β < 0 ∧ 0 ≤ α) := by
  rcases lt_or_gt_of_ne ha with h1 | h1 <;> rcases lt_or_gt_of_ne hb with h2 | h2
  · exfalso
    have : (1 - t) * α ≤ 0 := mul_nonpos_of_nonneg_of_nonpos (by linarith) h1.le
    have : t * β ≤ 0 := mul_nonpos_of_nonneg_of_nonpos t0 h2.le
    rcases t0.eq_or_lt with rfl | h3
    · linarith
    · have : t * β < 0 := mul_neg_of_pos_of_neg h3 h2
      linarith
  · exact .inl ⟨h1, h2.le⟩
  · exact .inr ⟨h2, h1.le⟩
  · exfalso
    have : 0 ≤ (1 - t) * α := mul_nonneg (by linarith) h1.le
    rcases t0.eq_or_lt with rfl | h3
    · linarith
    · have : 0 < t * β := mul_pos h3 h2
      linarith

theorem parallel_iff_dirSide {ray : Edge K} {s : Point K × Point K} :
    (⟨s.1, s.2⟩ : Edge K).Parallel ray ↔ dirSide ray.dir ray.start s.2 - dirSide ray.dir ray.start s.1 = 0 := by
  unfold Edge.Parallel dirSide Edge.dir
  dsimp only
  constructor <;> intro h <;> linear_combination -h

theorem hitOf_parallel {ray e : Edge K} (h : e.Parallel ray) : hitOf ray e = none := by
  cases hh : hitOf ray e with
  | none => rfl
  | some q =>
    exfalso
    have hn : e.collidesEdge ray = false := by
      rw [Bool.eq_false_iff, ne_eq, collidesEdge_iff]
      exact fun h' => h'.1 h
    obtain ⟨h1, -⟩ := edgeIntersection_flag e ray
    unfold Edge.collidesEdge at hn
    unfold hitOf Edge.collidesAt at hh
    cases hr : Edge.edgeIntersection e ray true with
    | none => rw [hr] at hh; simp at hh
    | some o =>
      rw [hr] at h1
      cases hf : Edge.edgeIntersection e ray false with
      | none => rw [hf] at h1; simp at h1
      | some o => rw [hf] at hn; simp at hn

/-- A side meets the ray where it meets the line, unless it lies on that line. -/
theorem hitOf_iff {ray : Edge K} {pts : List (Point K)} (hs : Spans ray.start ray.stop pts) {s : Point K × Point K}
    (hm : s ∈ sides pts) {c : Point K} :
    hitOf ray ⟨s.1, s.2⟩ = some c ↔ ¬ (dirSide ray.dir ray.start s.1 = 0 ∧ dirSide ray.dir ray.start s.2 = 0) ∧
      c ∈ segPts s.1 s.2 ∧ dirSide ray.dir ray.start c = 0 := by
  constructor
  · intro h
    refine ⟨?_, (hitOf_mem h).1, onLine_of_mem (hitOf_mem h).2⟩
    rintro ⟨h1, h2⟩
    rw [hitOf_parallel (parallel_iff_dirSide.2 (by rw [h1, h2, sub_zero]))] at h
    cases h
  · rintro ⟨hn, hc, hc0⟩
    have hpar : ¬ (⟨s.1, s.2⟩ : Edge K).Parallel ray := by
      rw [parallel_iff_dirSide]
      intro h0
      obtain ⟨t, -, -, hx, hy⟩ := hc
      rw [dirSide_lerp hx hy, h0] at hc0
      exact hn ⟨by linarith, by linarith⟩
    obtain ⟨q, hq⟩ := hitOf_isSome (e := ⟨s.1, s.2⟩) hpar (p := c) hc (hs c ⟨s, hm, hc⟩ hc0)
    rw [hq, hit_unique hn hc (hitOf_mem hq).1 hc0 (onLine_of_mem (hitOf_mem hq).2)]

/-- ahead of `p` in the direction of the ray -/
def Edge.Ahead (ray : Edge K) (p q : Point K) : Prop := 0 < ray.dir.x * (q.x - p.x) + ray.dir.y * (q.y - p.y)

theorem crossesDir_line {ray : Edge K} {p : Point K} (hp : OnLine ray.start ray.stop p) {s : Point K × Point K} :
    CrossesDir ray.dir p s ↔ ((dirSide ray.dir ray.start s.1 < 0 ∧ 0 ≤ dirSide ray.dir ray.start s.2) ∨
      (dirSide ray.dir ray.start s.2 < 0 ∧ 0 ≤ dirSide ray.dir ray.start s.1)) ∧
      ∃ c ∈ segPts s.1 s.2, dirSide ray.dir ray.start c = 0 ∧ ray.Ahead p c := by
  simp only [← dirSide_shift hp]
  rfl

/-- Two points of the line on different sides of `p` have `p` between them. -/
theorem between_ahead {ray : Edge K} (hd : 0 < ray.dir.x ^ 2 + ray.dir.y ^ 2) {p a b : Point K} (hp : OnLine ray.start ray.stop p)
    (ha : dirSide ray.dir ray.start a = 0) (hb : dirSide ray.dir ray.start b = 0) (h1 : ray.Ahead p a) (h2 : ¬ ray.Ahead p b) :
    p ∈ segPts a b := by
  rw [← dirSide_shift hp] at ha hb
  unfold Edge.Ahead at h1 h2
  unfold dirSide at ha hb
  set D := ray.dir with hD
  set A := D.x * (a.x - p.x) + D.y * (a.y - p.y) with hA
  set B := D.x * (b.x - p.x) + D.y * (b.y - p.y) with hB
  have hAB : 0 < A - B := by linarith [not_lt.1 h2]
  have key : ∀ {u v : K}, u * (A - B) = A * v → u = A / (A - B) * v := fun {u v} h => by
    rw [div_mul_eq_mul_div, eq_div_iff hAB.ne', h]
  have n1 : (D.x ^ 2 + D.y ^ 2) * (a.x - p.x) = A * D.x := by rw [hA]; linear_combination (-D.y) * ha
  have n2 : (D.x ^ 2 + D.y ^ 2) * (a.y - p.y) = A * D.y := by rw [hA]; linear_combination D.x * ha
  have n3 : (D.x ^ 2 + D.y ^ 2) * (b.x - p.x) = B * D.x := by rw [hB]; linear_combination (-D.y) * hb
  have n4 : (D.x ^ 2 + D.y ^ 2) * (b.y - p.y) = B * D.y := by rw [hB]; linear_combination D.x * hb
  have ex : (D.x ^ 2 + D.y ^ 2) * ((p.x - a.x) * (A - B) - A * (b.x - a.x)) = 0 := by
    linear_combination B * n1 - A * n3
  have ey : (D.x ^ 2 + D.y ^ 2) * ((p.y - a.y) * (A - B) - A * (b.y - a.y)) = 0 := by
    linear_combination B * n2 - A * n4
  have ex' := (mul_eq_zero.1 ex).resolve_left hd.ne'
  have ey' := (mul_eq_zero.1 ey).resolve_left hd.ne'
  refine ⟨A / (A - B), by positivity, (div_le_one hAB).2 (by linarith [not_lt.1 h2]), ?_, ?_⟩
  · have := key (u := p.x - a.x) (v := b.x - a.x) (by linarith); linarith
  · have := key (u := p.y - a.y) (v := b.y - a.y) (by linarith); linarith

theorem left_seg (a b : Point K) : a ∈ segPts a b := ⟨0, le_refl _, zero_le_one, by simp, by simp⟩
theorem right_seg (a b : Point K) : b ∈ segPts a b := ⟨1, zero_le_one, le_refl _, by simp, by simp⟩

section Clean

variable {ray : Edge K} {pts : List (Point K)} (hs : Spans ray.start ray.stop pts)
  {left : Point K → Prop} (hl : ∀ s ∈ sides pts,
    (OnLine ray.start ray.stop s.1 → ¬ OnLine ray.start ray.stop s.2 → (left s.1 ↔ LeftOf ray.start ray.stop s.2)) ∧
    (¬ OnLine ray.start ray.stop s.1 → OnLine ray.start ray.stop s.2 → (left s.2 ↔ LeftOf ray.start ray.stop s.1)) ∧
    (OnLine ray.start ray.stop s.1 → OnLine ray.start ray.stop s.2 → (left s.1 ↔ left s.2)))

include hs hl

/-- hits and crossings differ at vertices with the outline on the left -/
theorem hit_parity (Q : Point K → Prop) {s : Point K × Point K} (hm : s ∈ sides pts)
    (hQ : dirSide ray.dir ray.start s.1 = 0 → dirSide ray.dir ray.start s.2 = 0 → (Q s.1 ↔ Q s.2)) :
    ((∃ c, hitOf ray ⟨s.1, s.2⟩ = some c ∧ Q c) ↔
      (((dirSide ray.dir ray.start s.1 < 0 ∧ 0 ≤ dirSide ray.dir ray.start s.2) ∨
      (dirSide ray.dir ray.start s.2 < 0 ∧ 0 ≤ dirSide ray.dir ray.start s.1)) ∧
      ∃ c ∈ segPts s.1 s.2, dirSide ray.dir ray.start c = 0 ∧ Q c)) ↔
    ((dirSide ray.dir ray.start s.1 = 0 ∧ left s.1 ∧ Q s.1) ↔ (dirSide ray.dir ray.start s.2 = 0 ∧ left s.2 ∧ Q s.2)) := by
  have hH : (∃ c, hitOf ray ⟨s.1, s.2⟩ = some c ∧ Q c) ↔
      ¬ (dirSide ray.dir ray.start s.1 = 0 ∧ dirSide ray.dir ray.start s.2 = 0) ∧
      ∃ c ∈ segPts s.1 s.2, dirSide ray.dir ray.start c = 0 ∧ Q c := by
    constructor
    · rintro ⟨c, h1, h2⟩
      obtain ⟨h3, h4, h5⟩ := (hitOf_iff hs hm).1 h1
      exact ⟨h3, c, h4, h5, h2⟩
    · rintro ⟨h3, c, h4, h5, h2⟩
      exact ⟨c, (hitOf_iff hs hm).2 ⟨h3, h4, h5⟩, h2⟩
  rw [hH]
  obtain ⟨l1, l2, l3⟩ := hl s hm
  by_cases h1 : dirSide ray.dir ray.start s.1 = 0 <;> by_cases h2 : dirSide ray.dir ray.start s.2 = 0
  · have e1 := l3 h1 h2
    have e2 := hQ h1 h2
    simp [h1, h2, e1, e2]
  · have e1 : left s.1 ↔ 0 < dirSide ray.dir ray.start s.2 := l1 h1 h2
    have hE : (∃ c ∈ segPts s.1 s.2, dirSide ray.dir ray.start c = 0 ∧ Q c) ↔ Q s.1 := by
      constructor
      · rintro ⟨c, hc, hc0, hq⟩
        rw [hit_unique (fun h => h2 h.2) (left_seg _ _) hc h1 hc0]
        exact hq
      · exact fun h => ⟨_, left_seg _ _, h1, h⟩
    rw [hE, e1]
    have hne := lt_or_gt_of_ne h2
    simp only [h1, h2, lt_irrefl, false_and, and_false, not_false_eq_true, true_and, le_refl, and_true, false_or]
    rcases hne with h | h
    · simp [h, not_lt.2 h.le]
    · simp [h, not_lt.2 h.le]
  · have e1 : left s.2 ↔ 0 < dirSide ray.dir ray.start s.1 := l2 h1 h2
    have hE : (∃ c ∈ segPts s.1 s.2, dirSide ray.dir ray.start c = 0 ∧ Q c) ↔ Q s.2 := by
      constructor
      · rintro ⟨c, hc, hc0, hq⟩
        rw [hit_unique (fun h => h1 h.1) (right_seg _ _) hc h2 hc0]
        exact hq
      · exact fun h => ⟨_, right_seg _ _, h2, h⟩
    rw [hE, e1]
    have hne := lt_or_gt_of_ne h1
    simp only [h1, h2, lt_irrefl, false_and, not_false_eq_true, true_and, le_refl, and_true, or_false]
    rcases hne with h | h
    · simp [h, not_lt.2 h.le]
    · simp [h, not_lt.2 h.le]
  · simp only [h1, h2, false_and, not_false_eq_true, true_and, iff_true]
    constructor
    · rintro ⟨c, hc, hc0, hq⟩
      refine ⟨?_, c, hc, hc0, hq⟩
      obtain ⟨t, t0, t1, hx, hy⟩ := hc
      rw [dirSide_lerp hx hy] at hc0
      exact straddle_of_zero h1 h2 t0 t1 hc0
    · exact fun h => h.2

open Classical in
theorem hits_even : Even ((sides pts).countP fun s => decide (∃ c, hitOf ray ⟨s.1, s.2⟩ = some c)) := by
  have key := countP_parity (sides pts)
    (fun s => ∃ c, hitOf ray ⟨s.1, s.2⟩ = some c ∧ True)
    (fun s => ((dirSide ray.dir ray.start s.1 < 0 ∧ 0 ≤ dirSide ray.dir ray.start s.2) ∨
      (dirSide ray.dir ray.start s.2 < 0 ∧ 0 ≤ dirSide ray.dir ray.start s.1)) ∧
      ∃ c ∈ segPts s.1 s.2, dirSide ray.dir ray.start c = 0 ∧ True) _ _
    (fun s hm => hit_parity hs hl (fun _ => True) hm fun _ _ => Iff.rfl)
  have k1 := key.2 (strip_count_even pts fun v => dirSide ray.dir ray.start v = 0 ∧ left v ∧ True)
  have key2 := countP_parity (sides pts)
    (fun s => ((dirSide ray.dir ray.start s.1 < 0 ∧ 0 ≤ dirSide ray.dir ray.start s.2) ∨
      (dirSide ray.dir ray.start s.2 < 0 ∧ 0 ≤ dirSide ray.dir ray.start s.1)) ∧
      ∃ c ∈ segPts s.1 s.2, dirSide ray.dir ray.start c = 0 ∧ True)
    (fun _ => False) (fun s => dirSide ray.dir ray.start s.1 < 0) (fun s => dirSide ray.dir ray.start s.2 < 0) (by
      intro s hm
      rw [iff_false]
      constructor
      · intro hno
        by_contra hne
        apply hno
        have hst : (dirSide ray.dir ray.start s.1 < 0 ∧ 0 ≤ dirSide ray.dir ray.start s.2) ∨
            (dirSide ray.dir ray.start s.2 < 0 ∧ 0 ≤ dirSide ray.dir ray.start s.1) := by
          by_cases h1 : dirSide ray.dir ray.start s.1 < 0 <;> by_cases h2 : dirSide ray.dir ray.start s.2 < 0
          · exact absurd (iff_of_true h1 h2) hne
          · exact .inl ⟨h1, not_lt.1 h2⟩
          · exact .inr ⟨h2, not_lt.1 h1⟩
          · exact absurd (iff_of_false h1 h2) hne
        obtain ⟨t0, t1, h0⟩ := change_point hst
        refine ⟨hst, ⟨s.1.x + _ * (s.2.x - s.1.x), s.1.y + _ * (s.2.y - s.1.y)⟩, ⟨_, t0, t1, rfl, rfl⟩, ?_, trivial⟩
        rw [dirSide_lerp rfl rfl]
        exact h0
      · rintro hiff ⟨⟨h1, h2⟩ | ⟨h1, h2⟩, -⟩
        · exact absurd (hiff.1 h1) (not_lt.2 h2)
        · exact absurd (hiff.2 h1) (not_lt.2 h2))
  have k2 := key2.2 (strip_count_even pts fun v => dirSide ray.dir ray.start v < 0)
  rw [Nat.even_add] at k1 k2
  simp only [and_true] at k1 k2
  apply k1.2
  apply k2.2
  simp

open Classical in
theorem dirCount_parity {p : Point K} (hd : 0 < ray.dir.x ^ 2 + ray.dir.y ^ 2) (hp : OnLine ray.start ray.stop p)
    (hnb : p ∉ bdry pts) :
    Odd (dirCount ray.dir pts p) ↔ Odd ((sides pts).countP fun s => decide (∃ c, hitOf ray ⟨s.1, s.2⟩ = some c ∧ ray.Ahead p c)) := by
  have key := countP_parity (sides pts) (fun s => ∃ c, hitOf ray ⟨s.1, s.2⟩ = some c ∧ ray.Ahead p c)
    (fun s => ((dirSide ray.dir ray.start s.1 < 0 ∧ 0 ≤ dirSide ray.dir ray.start s.2) ∨
      (dirSide ray.dir ray.start s.2 < 0 ∧ 0 ≤ dirSide ray.dir ray.start s.1)) ∧
      ∃ c ∈ segPts s.1 s.2, dirSide ray.dir ray.start c = 0 ∧ ray.Ahead p c) _ _
    (fun s hm => hit_parity hs hl (ray.Ahead p) hm fun h1 h2 => by
      have hn : p ∉ segPts s.1 s.2 := fun h => hnb ⟨s, hm, h⟩
      constructor
      · intro h
        by_contra h'
        exact hn (between_ahead hd hp h1 h2 h h')
      · intro h
        by_contra h'
        rw [segPts_comm] at hn
        exact hn (between_ahead hd hp h2 h1 h h'))
  have k1 := key.2 (strip_count_even pts fun v => dirSide ray.dir ray.start v = 0 ∧ left v ∧ ray.Ahead p v)
  have : dirCount ray.dir pts p = (sides pts).countP fun s =>
      decide (((dirSide ray.dir ray.start s.1 < 0 ∧ 0 ≤ dirSide ray.dir ray.start s.2) ∨
      (dirSide ray.dir ray.start s.2 < 0 ∧ 0 ≤ dirSide ray.dir ray.start s.1)) ∧
      ∃ c ∈ segPts s.1 s.2, dirSide ray.dir ray.start c = 0 ∧ ray.Ahead p c) := by
    unfold dirCount
    apply List.countP_congr
    intro s _
    simp only [decide_eq_true_eq]
    exact crossesDir_line hp
  rw [Nat.even_add] at k1
  rw [this, ← Nat.not_even_iff_odd, ← Nat.not_even_iff_odd]
  convert not_congr k1.symm

end Clean

open Classical in
theorem hits_count (shape : SPoly K) (ray : Edge K) (Q : Point K → Prop) :
    (shape.edges.filterMap (hitOf ray)).countP (fun h => decide (Q h)) =
      (sides shape.points).countP fun s => decide (∃ c, hitOf ray ⟨s.1, s.2⟩ = some c ∧ Q c) := by
  rw [← polyEdges_sides, List.countP_map, List.countP_filterMap]
  apply List.countP_congr
  intro e he
  simp only [Function.comp, decide_eq_true_eq]
  show _ ↔ ∃ h, hitOf ray e = some h ∧ Q h
  cases hitOf ray e with
  | none => simp
  | some q => simp

/-! ## Pairs of hits -/

theorem clipPairs_mem : ∀ {l : List (Point K)} {e : Edge K}, e ∈ clipPairs l →
    ∃ l1 a b l2, l = l1 ++ a :: b :: l2 ∧ Even l1.length ∧ a ≠ b ∧ e = (Edge.mk a b).scale clippingTrim
  | [], e, h => by simp [clipPairs] at h
  | [a], e, h => by simp [clipPairs] at h
  | a :: b :: l, e, h => by
    unfold clipPairs at h
    have rest : e ∈ clipPairs l → ∃ l1 a' b' l2, a :: b :: l = l1 ++ a' :: b' :: l2 ∧ Even l1.length ∧ a' ≠ b' ∧
        e = (Edge.mk a' b').scale clippingTrim := fun h' => by
      obtain ⟨l1, a', b', l2, rfl, h2, h3, h4⟩ := clipPairs_mem h'
      refine ⟨a :: b :: l1, a', b', l2, rfl, ?_, h3, h4⟩
      simp only [List.length_cons, Nat.even_add_one, not_not]
      exact h2
    split at h
    · exact rest h
    · rename_i hab
      rcases List.mem_cons.1 h with rfl | h
      · exact ⟨[], a, b, l, rfl, by simp, hab, rfl⟩
      · exact rest h

/-- position along the ray -/
def Edge.along (ray : Edge K) (p : Point K) : K :=
  ray.dir.x * (p.x - ray.start.x) + ray.dir.y * (p.y - ray.start.y)

/-- A trimmed edge stays strictly between its ends. -/
theorem scale_trim_mem {a b p : Point K} (h : p ∈ ((Edge.mk a b).scale clippingTrim).pts) :
    ∃ t : K, 0 < t ∧ t < 1 ∧ p.x = a.x + t * (b.x - a.x) ∧ p.y = a.y + t * (b.y - a.y) := by
  obtain ⟨t, t0, t1, hx, hy⟩ := h
  refine ⟨1 / 2000 + t * (999 / 1000), by positivity, by linarith, ?_, ?_⟩
  · rw [hx]; simp only [Edge.scale, clippingTrim]; ring
  · rw [hy]; simp only [Edge.scale, clippingTrim]; ring

theorem along_mem {ray : Edge K} {p : Point K} (h : p ∈ ray.pts) : ∃ t : K, 0 ≤ t ∧ t ≤ 1 ∧
    p.x = ray.start.x + t * ray.dir.x ∧ p.y = ray.start.y + t * ray.dir.y ∧
    ray.along p = t * (ray.dir.x ^ 2 + ray.dir.y ^ 2) ∧ ray.start.sqDistance p = t ^ 2 * (ray.dir.x ^ 2 + ray.dir.y ^ 2) := by
  obtain ⟨t, t0, t1, hx, hy⟩ := h
  refine ⟨t, t0, t1, hx, hy, ?_, ?_⟩
  · unfold Edge.along; rw [hx, hy]; unfold Edge.dir; ring
  · unfold Point.sqDistance; rw [hx, hy]; unfold Edge.dir; ring

/-- the sorted hits of a ray -/
def sortedHits (shape : SPoly K) (ray : Edge K) : List (Point K) :=
  (shape.edges.filterMap (hitOf ray)).insertionSort fun a b => ray.start.sqDistance a ≤ ray.start.sqDistance b

theorem sortedHits_perm (shape : SPoly K) (ray : Edge K) :
    (sortedHits shape ray).Perm (shape.edges.filterMap (hitOf ray)) := List.perm_insertionSort _ _

theorem clip_eq {env : HEnv K} {shape : SPoly K} {ray : Edge K} {es : List (Edge K)} (h : clip env shape ray = some es) :
    es = clipPairs (sortedHits shape ray) := by
  unfold clip at h
  split at h
  · cases h
  · rw [rayHits_eq, Option.map_some, Option.some.injEq] at h
    exact h.symm

theorem sortedHits_mem {shape : SPoly K} {ray : Edge K} {p : Point K} (h : p ∈ sortedHits shape ray) :
    p ∈ bdry shape.points ∧ p ∈ ray.pts := by
  obtain ⟨e, he, hq⟩ := List.mem_filterMap.1 ((sortedHits_perm shape ray).mem_iff.1 h)
  exact ⟨mem_bdry_iff.2 ⟨e, he, (hitOf_mem hq).1⟩, (hitOf_mem hq).2⟩

theorem sortedHits_pairwise (shape : SPoly K) (ray : Edge K) :
    (sortedHits shape ray).Pairwise fun a b => ray.along a ≤ ray.along b := by
  have : (sortedHits shape ray).Pairwise fun a b => ray.start.sqDistance a ≤ ray.start.sqDistance b := by
    have : Std.Total fun a b : Point K => ray.start.sqDistance a ≤ ray.start.sqDistance b := ⟨fun a b => le_total _ _⟩
    have : IsTrans (Point K) fun a b => ray.start.sqDistance a ≤ ray.start.sqDistance b := ⟨fun a b c => le_trans⟩
    exact List.pairwise_insertionSort _ _
  refine this.imp_of_mem ?_
  intro a b ha hb hab
  obtain ⟨t, t0, -, -, -, e1, e2⟩ := along_mem (sortedHits_mem ha).2
  obtain ⟨u, u0, -, -, -, e3, e4⟩ := along_mem (sortedHits_mem hb).2
  rw [e2, e4] at hab
  rw [e1, e3]
  rcases (add_nonneg (sq_nonneg ray.dir.x) (sq_nonneg ray.dir.y)).eq_or_lt with h0 | h0
  · rw [← h0]; simp
  · have := le_of_mul_le_mul_right hab h0
    exact mul_le_mul_of_nonneg_right ((sq_le_sq₀ t0 u0).1 this) h0.le

/-- Where a pier starts and ends. -/
theorem clip_pier {env : HEnv K} {shape : SPoly K} {ray : Edge K} {es : List (Edge K)} (h : clip env shape ray = some es)
    {e : Edge K} (he : e ∈ es) :
    ∃ l1 a b l2, sortedHits shape ray = l1 ++ a :: b :: l2 ∧ Even l1.length ∧ a ≠ b ∧ e = (Edge.mk a b).scale clippingTrim := by
  rw [clip_eq h] at he
  exact clipPairs_mem he

theorem clip_region {env : HEnv K} {shape : SPoly K} {ray : Edge K} (hv : CrossesCleanly ray.start ray.stop shape.points)
    (hs : Spans ray.start ray.stop shape.points) {es : List (Edge K)} (h : clip env shape ray = some es)
    {e : Edge K} (he : e ∈ es) : e.pts ⊆ region shape.points := by
  classical
  obtain ⟨left, hleft⟩ := hv
  obtain ⟨l1, a, b, l2, hl, hev, hab, rfl⟩ := clip_pier h he
  intro p hp
  obtain ⟨t, t0, t1, hx, hy⟩ := scale_trim_mem hp
  have ha : a ∈ sortedHits shape ray := by rw [hl]; simp
  have hb : b ∈ sortedHits shape ray := by rw [hl]; simp
  have hpw := sortedHits_pairwise shape ray
  rw [hl] at hpw
  rw [List.pairwise_append, List.pairwise_cons, List.pairwise_cons] at hpw
  obtain ⟨-, ⟨q1, q2, -⟩, q3⟩ := hpw
  obtain ⟨u, -, -, ux, uy, e1, -⟩ := along_mem (sortedHits_mem ha).2
  obtain ⟨v, -, -, vx, vy, e3, -⟩ := along_mem (sortedHits_mem hb).2
  have hd : 0 < ray.dir.x ^ 2 + ray.dir.y ^ 2 := by
    rcases (add_nonneg (sq_nonneg ray.dir.x) (sq_nonneg ray.dir.y)).eq_or_lt with h0 | h0
    · exfalso
      apply hab
      have d1 : ray.dir.x = 0 := by nlinarith [sq_nonneg ray.dir.x, sq_nonneg ray.dir.y]
      have d2 : ray.dir.y = 0 := by nlinarith [sq_nonneg ray.dir.x, sq_nonneg ray.dir.y]
      ext
      · rw [ux, vx, d1]; simp
      · rw [uy, vy, d2]; simp
    · exact h0
  have hlt : ray.along a < ray.along b := by
    rcases (q1 b (by simp)).eq_or_lt with h0 | h0
    · exfalso
      apply hab
      rw [e1, e3] at h0
      have : u = v := mul_right_cancel₀ hd.ne' h0
      ext
      · rw [ux, vx, this]
      · rw [uy, vy, this]
    · exact h0
  have hpa : ray.along p = ray.along a + t * (ray.along b - ray.along a) := by
    unfold Edge.along; rw [hx, hy]; ring
  have hp1 : ray.along a < ray.along p := by
    rw [hpa]; have := mul_pos t0 (sub_pos.2 hlt); linarith
  have hp2 : ray.along p < ray.along b := by
    rw [hpa]; have := mul_pos (sub_pos.2 t1) (sub_pos.2 hlt); linarith
  have honl : OnLine ray.start ray.stop p := by
    have o1 := onLine_of_mem (sortedHits_mem ha).2
    have o2 := onLine_of_mem (sortedHits_mem hb).2
    show dirSide ray.dir ray.start p = 0
    rw [dirSide_lerp hx hy, onLine_iff.1 o1, onLine_iff.1 o2]
    ring
  have low : ∀ q ∈ l1 ++ [a], ray.along q < ray.along p := by
    intro q hq
    rcases List.mem_append.1 hq with hq | hq
    · exact (q3 q hq a (by simp)).trans_lt hp1
    · rw [List.mem_singleton.1 hq]; exact hp1
  have high : ∀ q ∈ b :: l2, ray.along p < ray.along q := by
    intro q hq
    rcases List.mem_cons.1 hq with rfl | hq
    · exact hp2
    · exact hp2.trans_le (q2 q hq)
  have hl' : sortedHits shape ray = (l1 ++ [a]) ++ (b :: l2) := by rw [hl]; simp
  by_cases hnb : p ∈ bdry shape.points
  · exact .inl hnb
  refine .inr ⟨hnb, ?_⟩
  rw [← dirCount_right, dirCount_const (d := ⟨1, 0⟩) (e := ray.dir) (.inl (by simp))
    (by by_contra hc; push Not at hc; rw [hc.1, hc.2] at hd; simp at hd) hnb,
    dirCount_parity hs hleft hd honl hnb, ← hits_count, ← (sortedHits_perm shape ray).countP_eq, hl', List.countP_append]
  have c1 : (l1 ++ [a]).countP (fun h => decide (ray.Ahead p h)) = 0 := by
    rw [List.countP_eq_zero]
    intro q hq
    have := low q hq
    unfold Edge.along at this
    unfold Edge.Ahead
    simp only [decide_eq_true_eq, not_lt]
    linarith
  have c2 : (b :: l2).countP (fun h => decide (ray.Ahead p h)) = l2.length + 1 := by
    rw [show l2.length + 1 = (b :: l2).length from rfl, List.countP_eq_length]
    intro q hq
    have := high q hq
    unfold Edge.along at this
    unfold Edge.Ahead
    simp only [decide_eq_true_eq]
    linarith
  rw [c1, c2, zero_add]
  have htot := hits_even hs hleft
  have hc := hits_count shape ray fun _ => True
  simp only [and_true, decide_true] at hc
  rw [← hc, List.countP_true, ← (sortedHits_perm shape ray).length_eq, hl] at htot
  simp only [List.length_append, List.length_cons] at htot
  rw [← Nat.not_even_iff_odd]
  rw [Nat.even_add, Nat.even_add_one] at htot
  intro hc
  exact htot.1 hev hc

theorem clip_convex {env : HEnv K} {shape : SPoly K} {ray : Edge K} (hc : ConvexSet (region shape.points))
    {es : List (Edge K)} (h : clip env shape ray = some es)
    {e : Edge K} (he : e ∈ es) : e.pts ⊆ region shape.points := by
  obtain ⟨l1, a, b, l2, hl, -, -, rfl⟩ := clip_pier h he
  intro p hp
  obtain ⟨t, t0, t1, hx, hy⟩ := scale_trim_mem hp
  exact hc a (.inl (sortedHits_mem (by rw [hl]; simp)).1) b (.inl (sortedHits_mem (by rw [hl]; simp)).1)
    ⟨t, t0.le, t1.le, hx, hy⟩

end Jagua
