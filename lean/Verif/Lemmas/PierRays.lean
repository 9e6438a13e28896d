import Verif.Lemmas.Piers
import Verif.Spec.Simple
import Verif.Lemmas.PolyNew

/-! # Lemmas: the rays of piers -/

set_option linter.unusedSectionVars false

namespace Jagua

variable {K : Type*} [Field K] [LinearOrder K] [IsStrictOrderedRing K]

/-- the ray at distance `x` from the origin, turned by the angle with cosine `c` and sine `s` -/
def scanRay (c s x y0 y1 : K) : Edge K := ⟨rotPt c s ⟨x, y0⟩, rotPt c s ⟨x, y1⟩⟩

theorem scanRay_side (c s x y0 y1 : K) (hu : c ^ 2 + s ^ 2 = 1) (p : Point K) :
    dirSide (scanRay c s x y0 y1).dir (scanRay c s x y0 y1).start p = (y1 - y0) * (x - (c * p.x + s * p.y)) := by
  unfold dirSide Edge.dir scanRay rotPt
  dsimp only
  linear_combination (y1 - y0) * x * hu

theorem scanRay_onLine {c s x y0 y1 : K} (hu : c ^ 2 + s ^ 2 = 1) (hy : y0 < y1) {p : Point K} :
    OnLine (scanRay c s x y0 y1).start (scanRay c s x y0 y1).stop p ↔ c * p.x + s * p.y = x := by
  rw [onLine_iff, scanRay_side c s x y0 y1 hu, mul_eq_zero, sub_eq_zero, sub_eq_zero]
  constructor
  · rintro (h | h)
    · exact absurd h hy.ne'
    · exact h.symm
  · exact fun h => .inr h.symm

theorem scanRay_leftOf {c s x y0 y1 : K} (hu : c ^ 2 + s ^ 2 = 1) (hy : y0 < y1) {p : Point K} :
    LeftOf (scanRay c s x y0 y1).start (scanRay c s x y0 y1).stop p ↔ c * p.x + s * p.y < x := by
  show 0 < dirSide (scanRay c s x y0 y1).dir (scanRay c s x y0 y1).start p ↔ _
  rw [scanRay_side c s x y0 y1 hu, mul_pos_iff_of_pos_left (by linarith), sub_pos]

theorem scanRay_clean {c s x y0 y1 z0 z1 : K} (hu : c ^ 2 + s ^ 2 = 1) (hy : y0 < y1) (hz : z0 < z1) {pts : List (Point K)}
    (h : CrossesCleanly (rotPt c s ⟨x, y0⟩) (rotPt c s ⟨x, y1⟩) pts) :
    CrossesCleanly (scanRay c s x z0 z1).start (scanRay c s x z0 z1).stop pts := by
  obtain ⟨left, h⟩ := h
  refine ⟨left, fun sd hm => ?_⟩
  have := h sd hm
  simp only [scanRay_onLine hu hz, scanRay_leftOf hu hz]
  rw [show rotPt c s ⟨x, y0⟩ = (scanRay c s x y0 y1).start from rfl, show rotPt c s ⟨x, y1⟩ = (scanRay c s x y0 y1).stop from rfl] at this
  simp only [scanRay_onLine hu hy, scanRay_leftOf hu hy] at this
  exact this

/-- A ray longer than twice the extent of an outline around the origin spans it. -/
theorem scanRay_spans {c s x S : K} (hu : c ^ 2 + s ^ 2 = 1) (hS : 0 < S) {pts : List (Point K)}
    (hb : ∀ w ∈ bdry pts, w.x ^ 2 + w.y ^ 2 ≤ 4 * S ^ 2) :
    Spans (scanRay c s x (-(2 * S)) (2 * S)).start (scanRay c s x (-(2 * S)) (2 * S)).stop pts := by
  intro w hw hl
  rw [scanRay_onLine hu (by linarith)] at hl
  have hb := hb w hw
  set Y := c * w.y - s * w.x with hY
  have hYb : Y ^ 2 ≤ (2 * S) ^ 2 := by
    have : x ^ 2 + Y ^ 2 = w.x ^ 2 + w.y ^ 2 := by rw [← hl, hY]; linear_combination (w.x ^ 2 + w.y ^ 2) * hu
    have := sq_nonneg x
    linarith
  obtain ⟨l, u⟩ := abs_le.1 (abs_le_of_sq_le_sq hYb (by linarith))
  have hS4 : 0 < 4 * S := by linarith
  refine ⟨(Y + 2 * S) / (4 * S), div_nonneg (by linarith) hS4.le, (div_le_one hS4).2 (by linarith), ?_, ?_⟩
  · show w.x = c * x - s * (-(2 * S)) + (Y + 2 * S) / (4 * S) * (c * x - s * (2 * S) - (c * x - s * (-(2 * S))))
    have : (Y + 2 * S) / (4 * S) * (c * x - s * (2 * S) - (c * x - s * (-(2 * S)))) = -s * (Y + 2 * S) := by
      field_simp; ring
    rw [this, ← hl, hY]
    linear_combination -w.x * hu
  · show w.y = s * x + c * (-(2 * S)) + (Y + 2 * S) / (4 * S) * (s * x + c * (2 * S) - (s * x + c * (-(2 * S))))
    have : (Y + 2 * S) / (4 * S) * (s * x + c * (2 * S) - (s * x + c * (-(2 * S)))) = c * (Y + 2 * S) := by
      field_simp; ring
    rw [this, ← hl, hY]
    linear_combination -w.y * hu

/-! ## The rays of the code -/

theorem ray_transform {tr : Trig K} (a tx : K) (p : Point K) :
    p.transform ((Transf.fromTranslation tx 0).rotate tr a) = rotPt (tr.cos a) (tr.sin a) ⟨p.x + tx, p.y⟩ := by
  unfold Transf.rotate Transf.fromTranslation Transf.dotProd Transf.rotM Transf.translM Point.transform rotPt
  ext <;> simp only <;> ring

/-- position of the scan lines -/
def scanPos (shape : SPoly K) (r : ℕ) (i : ℕ) : K :=
  shape.centroid.x + (shape.bbox.inflateToSquare.xMin + shape.bbox.inflateToSquare.width / r * (i : K))

theorem inflate_height (b : AARect K) : b.inflateToSquare.height = max b.width b.height := by
  unfold AARect.inflateToSquare AARect.height AARect.width
  dsimp only
  split
  · rename_i h; rw [max_eq_left h.le]; ring
  · rename_i h; rw [max_eq_right (not_lt.1 h)]; ring

theorem pierRays_mem {tr : Trig K} {pi : K} {shape : SPoly K} {r m : ℕ} {rays : List (Edge K)}
    (h : pierRays tr pi shape r m = some rays) {ray : Edge K} (hr : ray ∈ rays) :
    ∃ a i, a < m ∧ i < r ∧ ray = scanRay (tr.cos (pi / m * (a : K))) (tr.sin (pi / m * (a : K))) (scanPos shape r i)
      (shape.centroid.y - 2 * shape.bbox.inflateToSquare.height) (shape.centroid.y + 2 * shape.bbox.inflateToSquare.height) := by
  unfold pierRays Edge.mk? at h
  dsimp only at h
  split at h
  · cases h
  · rw [Option.map_some, Option.some.injEq] at h
    rw [← h] at hr
    obtain ⟨t, ht, rfl⟩ := List.mem_map.1 hr
    obtain ⟨a, ha, ht⟩ := List.mem_flatMap.1 ht
    obtain ⟨i, hi, rfl⟩ := List.mem_map.1 ht
    refine ⟨a, i, List.mem_range.1 ha, List.mem_range.1 hi, ?_⟩
    unfold Edge.transform scanRay scanPos
    rw [ray_transform, ray_transform]

theorem pierRays_of {tr : Trig K} {pi : K} {shape : SPoly K} {r m : ℕ} {rays : List (Edge K)}
    (h : pierRays tr pi shape r m = some rays) {a i : ℕ} (ha : a < m) (hi : i < r) :
    scanRay (tr.cos (pi / m * (a : K))) (tr.sin (pi / m * (a : K))) (scanPos shape r i)
      (shape.centroid.y - 2 * shape.bbox.inflateToSquare.height) (shape.centroid.y + 2 * shape.bbox.inflateToSquare.height) ∈ rays := by
  unfold pierRays Edge.mk? at h
  dsimp only at h
  split at h
  · cases h
  · rw [Option.map_some, Option.some.injEq] at h
    rw [← h, List.mem_map]
    refine ⟨_, List.mem_flatMap.2 ⟨a, List.mem_range.2 ha, List.mem_map.2 ⟨i, List.mem_range.2 hi, rfl⟩⟩, ?_⟩
    unfold Edge.transform scanRay scanPos
    rw [ray_transform, ray_transform]

theorem pierRays_isSome (tr : Trig K) (pi : K) {shape : SPoly K} (hs : shape.WF) (r m : ℕ) :
    ∃ rays, pierRays tr pi shape r m = some rays := by
  unfold pierRays Edge.mk?
  dsimp only
  rw [if_neg]
  · exact ⟨_, rfl⟩
  · intro h
    have h2 := congrArg Point.y h
    dsimp only at h2
    have h3 := inflate_height shape.bbox
    have h4 : 0 < shape.bbox.height := sub_pos.2 hs.bbox_valid.2
    have := le_max_right shape.bbox.width shape.bbox.height
    linarith

/-! ## Selection -/

theorem pickPiers_mem {pick : List (Edge K) → List (Edge K) → ℕ} {rays : List (Edge K)} : ∀ {k : ℕ} {sel ps : List (Edge K)},
    pickPiers pick rays k sel = some ps → ps.length = sel.length + k ∧ ∀ e ∈ ps, e ∈ sel ∨ e ∈ rays
  | 0, sel, ps, h => by
    simp only [pickPiers, Option.some.injEq] at h
    subst h
    exact ⟨by simp, fun e he => .inl he⟩
  | k + 1, sel, ps, h => by
    unfold pickPiers at h
    cases hr : rays[pick rays sel]? with
    | none => rw [hr] at h; cases h
    | some r =>
      rw [hr, Option.bind_some] at h
      obtain ⟨h1, h2⟩ := pickPiers_mem h
      refine ⟨by rw [h1]; simp; omega, fun e he => ?_⟩
      rcases h2 e he with h3 | h3
      · rcases List.mem_append.1 h3 with h4 | h4
        · exact .inl h4
        · rw [List.mem_singleton.1 h4]
          exact .inr (List.mem_of_getElem? hr)
      · exact .inr h3

theorem pickPiers_some {pick : List (Edge K) → List (Edge K) → ℕ} {rays : List (Edge K)}
    (hp : ∀ sel, pick rays sel < rays.length) : ∀ (k : ℕ) (sel : List (Edge K)), ∃ ps, pickPiers pick rays k sel = some ps
  | 0, sel => ⟨sel, rfl⟩
  | k + 1, sel => by
    unfold pickPiers
    rw [List.getElem?_eq_getElem (hp sel), Option.bind_some]
    exact pickPiers_some hp k _

theorem pickPiers_nil {pick : List (Edge K) → List (Edge K) → ℕ} {k : ℕ} (hk : 0 < k) (sel : List (Edge K)) :
    pickPiers pick [] k sel = none := by
  obtain ⟨k, rfl⟩ := Nat.exists_eq_succ_of_ne_zero hk.ne'
  rfl

theorem mapM_some_mem {α β : Type*} {g : α → Option β} : ∀ {l : List α} {bs : List β}, l.mapM g = some bs →
    ∀ b ∈ bs, ∃ a ∈ l, g a = some b
  | [], bs, h, b, hb => by
    simp at h
    subst h
    simp at hb
  | a :: l, bs, h, b, hb => by
    rw [List.mapM_cons] at h
    obtain ⟨x, hx, h⟩ := Option.bind_eq_some_iff.1 h
    obtain ⟨xs, hxs, h⟩ := Option.bind_eq_some_iff.1 h
    cases h
    rcases List.mem_cons.1 hb with rfl | hb
    · exact ⟨a, by simp, hx⟩
    · obtain ⟨a', ha', hg⟩ := mapM_some_mem hxs b hb
      exact ⟨a', by simp [ha'], hg⟩

theorem generatePiers_mem {env : HEnv K} {tr : Trig K} {pi : K} {pick : List (Edge K) → List (Edge K) → ℕ} {r m : ℕ}
    {shape : SPoly K} {n : ℕ} {ps : List (Edge K)} (h : generatePiers env tr pi pick r m shape n = some ps) :
    ps.length = n ∧ ∀ e ∈ ps, ∃ rays, pierRays tr pi shape r m = some rays ∧ ∃ ray ∈ rays, ∃ es, clip env shape ray = some es ∧ e ∈ es := by
  unfold generatePiers at h
  split at h
  · rename_i h0
    rw [Option.some.injEq] at h
    subst h
    exact ⟨by simp [h0], by simp⟩
  · obtain ⟨rays, hr, h⟩ := Option.bind_eq_some_iff.1 h
    obtain ⟨cl, hc, h⟩ := Option.bind_eq_some_iff.1 h
    obtain ⟨h1, h2⟩ := pickPiers_mem h
    refine ⟨by simpa using h1, fun e he => ⟨rays, hr, ?_⟩⟩
    rcases h2 e he with h3 | h3
    · simp at h3
    · obtain ⟨es, hes, hee⟩ := List.mem_flatten.1 h3
      obtain ⟨ray, hray, hcl⟩ := mapM_some_mem hc es hes
      exact ⟨ray, hray, es, hcl, hee⟩

/-! ## Shapes around the origin -/

theorem centred_extent {b : AARect K} (h0 : (⟨0, 0⟩ : Point K) ∈ b.pts) {w : Point K} (hw : w ∈ b.pts) :
    w.x ^ 2 + w.y ^ 2 ≤ 2 * b.inflateToSquare.height ^ 2 := by
  obtain ⟨a1, a2, a3, a4⟩ := h0
  obtain ⟨b1, b2, b3, b4⟩ := hw
  rw [inflate_height]
  dsimp only at a1 a2 a3 a4
  have hx : |w.x| ≤ max b.width b.height := by
    refine le_trans (abs_le.2 ⟨?_, ?_⟩) (le_max_left _ _) <;> unfold AARect.width <;> linarith
  have hy : |w.y| ≤ max b.width b.height := by
    refine le_trans (abs_le.2 ⟨?_, ?_⟩) (le_max_right _ _) <;> unfold AARect.height <;> linarith
  have h1 := sq_le_sq' (by have := neg_abs_le w.x; linarith) ((le_abs_self w.x).trans hx)
  have h2 := sq_le_sq' (by have := neg_abs_le w.y; linarith) ((le_abs_self w.y).trans hy)
  linarith

theorem inflate_pos {b : AARect K} (hv : b.Valid) : 0 < b.inflateToSquare.height := by
  rw [inflate_height]
  exact lt_max_of_lt_right (sub_pos.2 hv.2)

theorem centred_spans {shape : SPoly K} (hs : shape.WF) (h0 : (⟨0, 0⟩ : Point K) ∈ shape.bbox.pts) {c s x : K}
    (hu : c ^ 2 + s ^ 2 = 1) :
    Spans (scanRay c s x (-(2 * shape.bbox.inflateToSquare.height)) (2 * shape.bbox.inflateToSquare.height)).start
      (scanRay c s x (-(2 * shape.bbox.inflateToSquare.height)) (2 * shape.bbox.inflateToSquare.height)).stop shape.points := by
  refine scanRay_spans hu (inflate_pos hs.bbox_valid) fun w hw => ?_
  have := centred_extent h0 (hs.bbox_eq ▸ bdry_subset_bbox hw)
  have := sq_nonneg shape.bbox.inflateToSquare.height
  linarith

theorem centred_clip (env : HEnv K) {shape : SPoly K} (hs : shape.WF) (h0 : (⟨0, 0⟩ : Point K) ∈ shape.bbox.pts) {c s x : K}
    (hu : c ^ 2 + s ^ 2 = 1) :
    clip env shape (scanRay c s x (-(2 * shape.bbox.inflateToSquare.height)) (2 * shape.bbox.inflateToSquare.height)) =
      some (clipPairs (sortedHits shape (scanRay c s x (-(2 * shape.bbox.inflateToSquare.height)) (2 * shape.bbox.inflateToSquare.height)))) := by
  have hS := inflate_pos hs.bbox_valid
  set S := shape.bbox.inflateToSquare.height with hSd
  have out : ∀ y : K, y ^ 2 = 4 * S ^ 2 → shape.collidesPoint env.f (rotPt c s ⟨x, y⟩) = false := by
    intro y hy
    unfold SPoly.collidesPoint
    rw [if_neg]
    rw [Jagua.collidesPoint_iff]
    intro hb
    have h1 := centred_extent h0 hb
    have h2 : (rotPt c s ⟨x, y⟩).x ^ 2 + (rotPt c s ⟨x, y⟩).y ^ 2 = x ^ 2 + y ^ 2 := by
      unfold rotPt
      linear_combination (x ^ 2 + y ^ 2) * hu
    rw [h2, ← hSd] at h1
    have := sq_nonneg x
    have := pow_pos hS 2
    linarith
  unfold clip
  have e1 : shape.collidesPoint env.f (scanRay c s x (-(2 * S)) (2 * S)).start = false := out _ (by ring)
  have e2 : shape.collidesPoint env.f (scanRay c s x (-(2 * S)) (2 * S)).stop = false := out _ (by ring)
  rw [e1, e2, rayHits_eq]
  rfl

theorem mapM_eq_map {α β : Type*} {g : α → Option β} {g' : α → β} : ∀ {l : List α}, (∀ a ∈ l, g a = some (g' a)) →
    l.mapM g = some (l.map g')
  | [], _ => rfl
  | a :: l, h => by
    rw [List.mapM_cons, h a (by simp), mapM_eq_map (l := l) fun x hx => h x (by simp [hx])]
    rfl

/-! ## A candidate -/

theorem nodup_filterMap_of {α β : Type*} {g : α → Option β} : ∀ {l : List α}, l.Nodup →
    (∀ a ∈ l, ∀ a' ∈ l, ∀ b, g a = some b → g a' = some b → a = a') → (l.filterMap g).Nodup
  | [], _, _ => by simp
  | a :: l, hn, h => by
    have ih := nodup_filterMap_of (List.nodup_cons.1 hn).2 fun x hx y hy => h x (by simp [hx]) y (by simp [hy])
    rw [List.filterMap_cons]
    cases hg : g a with
    | none => exact ih
    | some b =>
      rw [List.nodup_cons]
      refine ⟨fun hb => ?_, ih⟩
      obtain ⟨a', ha', hg'⟩ := List.mem_filterMap.1 hb
      exact (List.nodup_cons.1 hn).1 (h a (by simp) a' (by simp [ha']) b hg hg' ▸ ha')

theorem polyEdges_nodup {pts : List (Point K)} (h : pts.Nodup) : (polyEdges pts).Nodup := by
  have : ((polyEdges pts).map fun e => (e.start, e.stop)).Nodup := by
    rw [polyEdges_sides]
    apply List.Nodup.of_map Prod.fst
    rw [sides_fst]
    exact h
  exact this.of_map _

theorem mem_zip_append {α β : Type*} {x : α × β} (m : List β) : ∀ {l1 : List α} {l2 : List β}, x ∈ l1.zip l2 → x ∈ l1.zip (l2 ++ m)
  | [], _, h => by simp at h
  | _ :: _, [], h => by simp at h
  | a :: l1, b :: l2, h => by
    rw [List.zip_cons_cons] at h
    rw [List.cons_append, List.zip_cons_cons]
    rcases List.mem_cons.1 h with rfl | h
    · simp
    · exact List.mem_cons_of_mem _ (mem_zip_append m h)

theorem chain_const {P : Point K → Prop} : ∀ (l : List (Point K)) (a : Point K), (∀ x ∈ (a :: l).zip l, P x.1 ↔ P x.2) →
    ∀ x ∈ l, (P a ↔ P x)
  | [], _, _, x, hx => by simp at hx
  | b :: l, a, h, x, hxm => by
    have hab := h (a, b) (by simp)
    rcases List.mem_cons.1 hxm with rfl | hxm
    · exact hab
    · exact hab.trans (chain_const l b (fun y hy => h y (by rw [List.zip_cons_cons]; exact List.mem_cons_of_mem _ hy)) x hxm)

/-- What does not change along any side does not change along the outline. -/
theorem sides_const {P : Point K → Prop} {pts : List (Point K)} (h : ∀ s ∈ sides pts, P s.1 ↔ P s.2) :
    ∀ x ∈ pts, ∀ y ∈ pts, (P x ↔ P y) := by
  cases pts with
  | nil => simp
  | cons a l =>
    have hk : ∀ x ∈ a :: l, (P a ↔ P x) := by
      intro x hx
      rcases List.mem_cons.1 hx with rfl | hx
      · exact Iff.rfl
      · exact chain_const l a (fun y hy => h y (by rw [sides_cons]; exact mem_zip_append _ hy)) x hx
    exact fun x hx y hy => (hk x hx).symm.trans (hk y hy)

/-- A line through no vertex of a simple polygon that has vertices on both sides gives a candidate. -/
theorem candidate {shape : SPoly K} {ray : Edge K} (hsim : SimplePoly shape.points) (hs : Spans ray.start ray.stop shape.points)
    (hv : ∀ v ∈ shape.points, ¬ OnLine ray.start ray.stop v) (h1 : ∃ v ∈ shape.points, LeftOf ray.start ray.stop v)
    (h2 : ∃ v ∈ shape.points, ¬ LeftOf ray.start ray.stop v) : clipPairs (sortedHits shape ray) ≠ [] := by
  classical
  have hclean : ∀ s ∈ sides shape.points,
      (OnLine ray.start ray.stop s.1 → ¬ OnLine ray.start ray.stop s.2 → (False ↔ LeftOf ray.start ray.stop s.2)) ∧
      (¬ OnLine ray.start ray.stop s.1 → OnLine ray.start ray.stop s.2 → (False ↔ LeftOf ray.start ray.stop s.1)) ∧
      (OnLine ray.start ray.stop s.1 → OnLine ray.start ray.stop s.2 → (False ↔ False)) :=
    fun s hm => ⟨fun h => absurd h (hv _ (sides_mem hm).1), fun _ h => absurd h (hv _ (sides_mem hm).2), fun _ _ => Iff.rfl⟩
  have hnd : (sortedHits shape ray).Nodup := by
    rw [(sortedHits_perm shape ray).nodup_iff]
    refine nodup_filterMap_of (polyEdges_nodup hsim.2.1) fun e he e' he' q hq hq' => ?_
    by_contra hne
    have hm := mem_polyEdges.1 he
    have hm' := mem_polyEdges.1 he'
    have hon := onLine_of_mem (hitOf_mem hq).2
    rcases hsim.2.2 _ hm _ hm' (fun h => hne (by cases e; cases e'; simpa using h)) q (hitOf_mem hq).1 (hitOf_mem hq').1 with h | h
    · exact hv _ (sides_mem hm).2 (h.1 ▸ hon)
    · exact hv _ (sides_mem hm').2 (h.1 ▸ hon)
  have hne : sortedHits shape ray ≠ [] := by
    obtain ⟨s, hm, hst⟩ : ∃ s ∈ sides shape.points, ¬ (LeftOf ray.start ray.stop s.1 ↔ LeftOf ray.start ray.stop s.2) := by
      by_contra hcon
      push Not at hcon
      obtain ⟨v, hv1, hv2⟩ := h1
      obtain ⟨w, hw1, hw2⟩ := h2
      exact hw2 ((sides_const hcon v hv1 w hw1).1 hv2)
    have hsign : ∀ v ∈ shape.points, ¬ LeftOf ray.start ray.stop v → dirSide ray.dir ray.start v < 0 := fun v hvm h => by
      have h0 : dirSide ray.dir ray.start v ≠ 0 := hv v hvm
      exact lt_of_le_of_ne (not_lt.1 h) h0
    have hcr : (dirSide ray.dir ray.start s.1 < 0 ∧ 0 ≤ dirSide ray.dir ray.start s.2) ∨
        (dirSide ray.dir ray.start s.2 < 0 ∧ 0 ≤ dirSide ray.dir ray.start s.1) := by
      by_cases l1 : LeftOf ray.start ray.stop s.1 <;> by_cases l2 : LeftOf ray.start ray.stop s.2
      · exact absurd (iff_of_true l1 l2) hst
      · exact .inr ⟨hsign _ (sides_mem hm).2 l2, le_of_lt l1⟩
      · exact .inl ⟨hsign _ (sides_mem hm).1 l1, le_of_lt l2⟩
      · exact absurd (iff_of_false l1 l2) hst
    obtain ⟨t0, t1, h0⟩ := change_point hcr
    have hh := (hitOf_iff hs hm (c := ⟨s.1.x + _ * (s.2.x - s.1.x), s.1.y + _ * (s.2.y - s.1.y)⟩)).2
      ⟨fun h => hv _ (sides_mem hm).1 h.1, ⟨_, t0, t1, rfl, rfl⟩, by rw [dirSide_lerp rfl rfl]; exact h0⟩
    exact List.ne_nil_of_mem ((sortedHits_perm shape ray).mem_iff.2 (List.mem_filterMap.2 ⟨⟨s.1, s.2⟩, mem_polyEdges.2 hm, hh⟩))
  have hev : Even (sortedHits shape ray).length := by
    have htot := hits_even (left := fun _ => False) hs hclean
    have hc := hits_count shape ray fun _ => True
    simp only [and_true, decide_true] at hc
    rw [← hc, List.countP_true, ← (sortedHits_perm shape ray).length_eq] at htot
    exact htot
  generalize sortedHits shape ray = l at hnd hne hev
  match l, hne, hev, hnd with
  | [a], _, he, _ => simp at he
  | a :: b :: l, _, _, hn =>
    unfold clipPairs
    rw [if_neg (by rintro rfl; simp at hn)]
    simp

end Jagua
