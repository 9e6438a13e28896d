import Verif.Lemmas.SimpleConv

/-!
# Simple polygons: the steps of the simplification
-/

set_option linter.unusedSectionVars false

namespace Jagua

variable {K : Type*} [Field K] [LinearOrder K] [IsStrictOrderedRing K]

/-! ### Rotating and reversing the list of vertices -/

theorem mem_sides_rotate {pts : List (Point K)} {k : ℕ} {s : Point K × Point K} : s ∈ sides (pts.rotate k) ↔ s ∈ sides pts := by
  rw [sides_rotate, List.mem_rotate]

theorem mem_sides_reverse {pts : List (Point K)} {s : Point K × Point K} : s ∈ sides pts.reverse ↔ s.swap ∈ sides pts := by
  rw [(sides_reverse pts).mem_iff, List.mem_map]
  constructor
  · rintro ⟨t, ht, rfl⟩
    rw [Prod.swap_swap]; exact ht
  · intro h
    exact ⟨s.swap, h, Prod.swap_swap s⟩

theorem SimplePoly.rotate {pts : List (Point K)} (h : SimplePoly pts) (k : ℕ) : SimplePoly (pts.rotate k) := by
  refine ⟨by rw [List.length_rotate]; exact h.1, List.nodup_rotate.2 h.2.1, ?_⟩
  intro s hs t ht
  exact h.2.2 s (mem_sides_rotate.1 hs) t (mem_sides_rotate.1 ht)

theorem SimplePoly.of_rotate {pts : List (Point K)} {k : ℕ} (h : SimplePoly (pts.rotate k)) : SimplePoly pts := by
  refine ⟨by have := h.1; rwa [List.length_rotate] at this, List.nodup_rotate.1 h.2.1, ?_⟩
  intro s hs t ht
  exact h.2.2 s (mem_sides_rotate.2 hs) t (mem_sides_rotate.2 ht)

theorem SimplePoly.reverse {pts : List (Point K)} (h : SimplePoly pts) : SimplePoly pts.reverse := by
  refine ⟨by rw [List.length_reverse]; exact h.1, List.nodup_reverse.2 h.2.1, ?_⟩
  intro s hs t ht hst w hw hw'
  have := h.2.2 s.swap (mem_sides_reverse.1 hs) t.swap (mem_sides_reverse.1 ht) (fun e => hst (Prod.swap_injective e)) w
    (by rw [segPts_comm]; exact hw) (by rw [segPts_comm]; exact hw')
  rcases this with ⟨e1, e2⟩ | ⟨e1, e2⟩
  · exact .inr ⟨e2, e1⟩
  · exact .inl ⟨e2, e1⟩

theorem region_rotate (pts : List (Point K)) (k : ℕ) : region (pts.rotate k) = region pts := by
  have hb : bdry (pts.rotate k) = bdry pts := by
    ext p
    constructor
    · rintro ⟨s, hs, hp⟩
      exact ⟨s, mem_sides_rotate.1 hs, hp⟩
    · rintro ⟨s, hs, hp⟩
      exact ⟨s, mem_sides_rotate.2 hs, hp⟩
  have hr : ∀ p, rayCount (pts.rotate k) p = rayCount pts p := by
    classical
    intro p
    unfold rayCount
    rw [sides_rotate]
    exact (List.rotate_perm _ _).countP_eq _
  unfold region interior
  rw [hb]
  simp only [hr]

/-- The list of vertices as a mode looks at it: for deflation the other way round; starting anywhere. -/
def SeenAs (mode : SimplMode) (P L : List (Point K)) : Prop := match mode with
  | .inflate => ∃ k, L = P.rotate k
  | .deflate => ∃ k, L = P.reverse.rotate k

namespace SeenAs

variable {mode : SimplMode} {P L : List (Point K)}

theorem simple (h : SeenAs mode P L) (hP : SimplePoly P) : SimplePoly L := by
  cases mode with
  | inflate => obtain ⟨k, rfl⟩ := h; exact hP.rotate k
  | deflate => obtain ⟨k, rfl⟩ := h; exact hP.reverse.rotate k

theorem simple' (h : SeenAs mode P L) (hL : SimplePoly L) : SimplePoly P := by
  cases mode with
  | inflate => obtain ⟨k, rfl⟩ := h; exact hL.of_rotate
  | deflate =>
    obtain ⟨k, rfl⟩ := h
    have := hL.of_rotate.reverse
    rwa [List.reverse_reverse] at this

theorem region_eq (h : SeenAs mode P L) : region L = region P := by
  cases mode with
  | inflate => obtain ⟨k, rfl⟩ := h; rw [region_rotate]
  | deflate => obtain ⟨k, rfl⟩ := h; rw [region_rotate, region_reverse]

theorem side (h : SeenAs mode P L) {s : Point K × Point K} (hs : s ∈ sides L) : s ∈ sides P ∨ s.swap ∈ sides P := by
  cases mode with
  | inflate => obtain ⟨k, rfl⟩ := h; exact .inl (mem_sides_rotate.1 hs)
  | deflate => obtain ⟨k, rfl⟩ := h; exact .inr (mem_sides_reverse.1 (mem_sides_rotate.1 hs))

theorem area_inflate (h : SeenAs .inflate P L) : signedArea L = signedArea P := by
  obtain ⟨k, rfl⟩ := h; rw [signedArea_rotate]

theorem area_deflate (h : SeenAs .deflate P L) : signedArea L = - signedArea P := by
  obtain ⟨k, rfl⟩ := h; rw [signedArea_rotate, signedArea_reverse]

end SeenAs

theorem rotate_back {α : Type*} {l l' : List α} {k : ℕ} (h : l.rotate k = l') : ∃ j, l = l'.rotate j := by
  have hr : l.IsRotated l' := ⟨k, h⟩
  obtain ⟨j, hj⟩ := hr.symm
  exact ⟨j, hj.symm⟩

/-- A rotated list, seen the other way round, starting after some initial piece. -/
theorem flip_view {α : Type*} {l x y : List α} {k : ℕ} (h : l.rotate k = x ++ y) : ∃ j, x.reverse ++ y.reverse = l.reverse.rotate j := by
  have hr : l.IsRotated (x ++ y) := ⟨k, h⟩
  have h2 : l.reverse.IsRotated (y.reverse ++ x.reverse) := by
    have := hr.reverse
    rwa [List.reverse_append] at this
  have h3 : (y.reverse ++ x.reverse).IsRotated (x.reverse ++ y.reverse) := ⟨y.reverse.length, by rw [List.rotate_append_length_eq]⟩
  obtain ⟨j, hj⟩ := h2.trans h3
  exact ⟨j, hj.symm⟩

/-- A corner, seen from its vertex. -/
theorem CornerIs.view {mode : SimplMode} {pts : List (Point K)} {i : ℕ} {c : Corner} {t : CornerType} {p q r : Point K} (hn : 4 ≤ pts.length)
    (h : CornerIs mode pts i c t p q r) : ∃ m, m ≠ [] ∧
      SeenAs mode pts ((mode.order p q r).2.1 :: ((mode.order p q r).2.2 :: m ++ [(mode.order p q r).1])) ∧
      SeenAs mode (pts.eraseIdx i) ((mode.order p q r).2.2 :: m ++ [(mode.order p q r).1]) := by
  obtain ⟨r', m, p', e1, e2, e3⟩ := rotate_view pts h.idx (by omega)
  have hr : r' = r := by have := h.p2; rw [e2] at this; simpa using this
  have hp : p' = p := by have := h.p0; rw [e3] at this; simpa using this
  have hq : pts[i]'h.idx = q := by have := h.p1; rw [List.getElem?_eq_getElem h.idx] at this; simpa using this
  subst hr hp
  have v1 := rotate_eq pts h.idx
  have v2 := eraseIdx_rotate pts h.idx
  rw [e1, hq] at v1
  rw [e1] at v2
  have hm : m ≠ [] := by
    rintro rfl
    have := congrArg List.length v1
    rw [List.length_rotate] at this
    simp at this
    omega
  cases mode with
  | inflate => exact ⟨m, hm, ⟨i, v1.symm⟩, ⟨i, v2.symm⟩⟩
  | deflate =>
    refine ⟨m.reverse, by simpa using hm, ?_, ?_⟩
    · obtain ⟨j, hj⟩ := flip_view (x := [q]) (y := r' :: m ++ [p']) v1
      exact ⟨j, by rw [← hj]; simp [SimplMode.order]⟩
    · obtain ⟨j, hj⟩ := flip_view (x := []) (y := r' :: m ++ [p']) v2
      exact ⟨j, by rw [← hj]; simp [SimplMode.order]⟩

/-! ### The validity check -/

theorem edgeIter_mem {pts : List (Point K)} {es : List (Edge K)} (h : edgeIter pts = some es) {s : Point K × Point K} (hs : s ∈ sides pts) :
    (⟨s.1, s.2⟩ : Edge K) ∈ es := by
  unfold edgeIter at h
  change (sides pts).mapM (fun s => Edge.mk? s.1 s.2) = some es at h
  generalize sides pts = l at h hs
  induction l generalizing es with
  | nil => simp at hs
  | cons a l ih =>
    rw [List.mapM_cons] at h
    simp only [Option.bind_eq_bind, Option.pure_def] at h
    obtain ⟨e, he, h⟩ := Option.bind_eq_some_iff.1 h
    obtain ⟨es', he', h⟩ := Option.bind_eq_some_iff.1 h
    obtain rfl : e :: es' = es := by simpa using h
    rcases List.mem_cons.1 hs with rfl | hs
    · obtain ⟨-, rfl⟩ := mk?_some he
      simp
    · exact List.mem_cons_of_mem _ (ih he' hs)

theorem edgeIter_total {pts : List (Point K)} (h : ∀ s ∈ sides pts, s.1 ≠ s.2) : ∃ es, edgeIter pts = some es := by
  unfold edgeIter
  change ∃ es, (sides pts).mapM (fun s => Edge.mk? s.1 s.2) = some es
  generalize sides pts = l at h
  induction l with
  | nil => exact ⟨[], rfl⟩
  | cons a l ih =>
    obtain ⟨es, he⟩ := ih fun s hs => h s (List.mem_cons_of_mem _ hs)
    rw [List.mapM_cons, mk?_ne (h a (by simp)), he]
    exact ⟨_, rfl⟩

theorem parallel_cross {s : Point K × Point K} {A B : Point K} (h : (⟨s.1, s.2⟩ : Edge K).Parallel ⟨A, B⟩) : hullCross A B s.1 = hullCross A B s.2 := by
  unfold Edge.Parallel at h
  unfold hullCross
  simp only at h
  linear_combination h

/-- What the check says about a side none of whose ends is affected. -/
theorem valid_side {A B : Point K} {s : Point K × Point K} (h : (⟨s.1, s.2⟩ : Edge K).collidesEdge ⟨A, B⟩ = false)
    {w : Point K} (hw : w ∈ segPts s.1 s.2) (hw' : w ∈ segPts A B) : hullCross A B s.1 = hullCross A B s.2 := by
  apply parallel_cross
  by_contra hcon
  have := (collidesEdge_iff ⟨s.1, s.2⟩ ⟨A, B⟩).2 ⟨hcon, w, hw, hw'⟩
  rw [h] at this
  simp at this

theorem CornerIs.cutOk {mode : SimplMode} {pts : List (Point K)} {i : ℕ} {c : Corner} {p q r : Point K} {A B C : Point K} {m : List (Point K)}
    (hs : SimplePoly pts) (h : CornerIs mode pts i c .concave p q r) (ho : mode.order p q r = (A, C, B)) (hseen : SeenAs mode pts (C :: (B :: m ++ [A])))
    (hv : candValid pts (.concave c) = some true) : CutOk A B m := by
  unfold candValid at hv
  dsimp only at hv
  rw [h.toPoints.1, ho, Option.bind_some] at hv
  dsimp only at hv
  obtain ⟨new, hnew, hv⟩ := Option.bind_eq_some_iff.1 hv
  obtain ⟨-, rfl⟩ := mk?_some hnew
  obtain ⟨es, he, hv⟩ := Option.map_eq_some_iff.1 hv
  rw [List.all_eq_true] at hv
  have hL := hseen.simple hs
  obtain ⟨hn, hC⟩ := cut_nodup hL
  intro s hst hB hA w hw hw'
  have hsm := steps_mem hst
  have n1 : s.1 ≠ A := steps_fst_ne (l := B :: m) hn hst
  have n2 : s.2 ≠ B := steps_snd_ne (l := m ++ [A]) hn hst
  have n3 : s.1 ≠ C := fun k => hC (k ▸ hsm.1)
  have n4 : s.2 ≠ C := fun k => hC (k ▸ hsm.2)
  have hside : s ∈ sides (C :: (B :: m ++ [A])) := (cut_mem ..).2 (.inr (.inl hst))
  rcases hseen.side hside with hside | hside
  · have := hv _ (List.mem_filter.2 ⟨List.mem_filter.2 ⟨edgeIter_mem he hside, by simp [n1, n3, hB]⟩, by simp [n2, n4, hA]⟩)
    exact valid_side (by simpa using this) hw hw'
  · have := hv _ (List.mem_filter.2 ⟨List.mem_filter.2 ⟨edgeIter_mem he hside, by simp [n2, n4, hA]⟩, by simp [n1, n3, hB]⟩)
    exact (valid_side (s := s.swap) (by simpa using this) (by rw [segPts_comm]; exact hw) hw').symm

theorem convOk_of {mode : SimplMode} {pts : List (Point K)} {c1 c2 : Corner} {a b h z v : Point K} {m : List (Point K)}
    (hs : SimplePoly pts) (h1 : c1.toPoints pts = some (z, a, b)) (h2 : c2.toPoints pts = some (a, b, h)) (hrep : replacingVertex pts c1 c2 = some (some v))
    (hseen : SeenAs mode pts (a :: b :: (h :: m ++ [z]))) (hv : candValid pts (.convexConvex c1 c2) = some true) : ConvOk h z v m := by
  unfold candValid at hv
  dsimp only at hv
  rw [hrep, Option.bind_some] at hv
  dsimp only at hv
  rw [h1, h2, Option.bind_some, Option.bind_some] at hv
  dsimp only at hv
  obtain ⟨new1, hnew1, hv⟩ := Option.bind_eq_some_iff.1 hv
  obtain ⟨new2, hnew2, hv⟩ := Option.bind_eq_some_iff.1 hv
  obtain ⟨-, rfl⟩ := mk?_some hnew1
  obtain ⟨-, rfl⟩ := mk?_some hnew2
  obtain ⟨es, he, hv⟩ := Option.map_eq_some_iff.1 hv
  rw [List.all_eq_true] at hv
  have hL := hseen.simple hs
  obtain ⟨hn, ha, hb⟩ := conv_nodup hL
  intro s hst hh hz w hw
  have hsm := steps_mem hst
  have n1 : s.1 ≠ z := steps_fst_ne (l := h :: m) hn hst
  have n2 : s.2 ≠ h := steps_snd_ne (l := m ++ [z]) hn hst
  have n3 : s.1 ≠ a := fun k => ha (k ▸ hsm.1)
  have n4 : s.2 ≠ a := fun k => ha (k ▸ hsm.2)
  have n5 : s.1 ≠ b := fun k => hb (k ▸ hsm.1)
  have n6 : s.2 ≠ b := fun k => hb (k ▸ hsm.2)
  have hside : s ∈ sides (a :: b :: (h :: m ++ [z])) := (conv_mem ..).2 (.inr (.inr (.inl hst)))
  rcases hseen.side hside with hside | hside
  · have := hv _ (List.mem_filter.2 ⟨List.mem_filter.2 ⟨edgeIter_mem he hside, by simp [n1, n3, n5, hh]⟩, by simp [n2, n4, n6, hz]⟩)
    simp only [Bool.and_eq_true, Bool.not_eq_true'] at this
    exact ⟨valid_side this.1 hw, valid_side this.2 hw⟩
  · have := hv _ (List.mem_filter.2 ⟨List.mem_filter.2 ⟨edgeIter_mem he hside, by simp [n2, n4, n6, hz]⟩, by simp [n1, n3, n5, hh]⟩)
    simp only [Bool.and_eq_true, Bool.not_eq_true'] at this
    exact ⟨fun hw' => (valid_side (s := s.swap) this.1 (by rw [segPts_comm]; exact hw) hw').symm,
      fun hw' => (valid_side (s := s.swap) this.2 (by rw [segPts_comm]; exact hw) hw').symm⟩

/-! ### One step -/

/-- How the region changes in a mode. -/
def SimplMode.covers (mode : SimplMode) (P Q : List (Point K)) : Prop := match mode with
  | .inflate => region P ⊆ region Q
  | .deflate => region Q ⊆ region P

theorem SimplMode.covers_refl (mode : SimplMode) (P : List (Point K)) : mode.covers P P := by cases mode <;> exact subset_rfl

theorem SimplMode.covers_trans {mode : SimplMode} {P Q R : List (Point K)} (h : mode.covers P Q) (h' : mode.covers Q R) : mode.covers P R := by
  cases mode
  · exact Set.Subset.trans h h'
  · exact Set.Subset.trans h' h

theorem covers_of {mode : SimplMode} {P Q P' Q' : List (Point K)} (hP : SeenAs mode P P') (hQ : SeenAs mode Q Q') (h : mode.covers P' Q') : mode.covers P Q := by
  unfold SimplMode.covers at h ⊢
  rwa [hP.region_eq, hQ.region_eq] at h

/-- Dropping the vertex of a concave corner. -/
theorem concave_safe {mode : SimplMode} {pts : List (Point K)} {i : ℕ} {c : Corner} {p q r : Point K} (hn : 4 ≤ pts.length) (hs : SimplePoly pts)
    (ha : 0 < signedArea pts) (h : CornerIs mode pts i c .concave p q r) (hv : candValid pts (.concave c) = some true) (hnew : 0 < signedArea (pts.eraseIdx i)) :
    SimplePoly (pts.eraseIdx i) ∧ mode.covers pts (pts.eraseIdx i) := by
  obtain ⟨m, hm, s1, s2⟩ := h.view hn
  have hc := h.cutOk hs rfl s1 hv
  have hL := s1.simple hs
  have hD : 0 < hullCross (mode.order p q r).1 (mode.order p q r).2.2 (mode.order p q r).2.1 := by
    have e : ∀ a b c : Point K, hullCross a c b = - hullCross a b c := by intro a b c; unfold hullCross; ring
    cases mode with
    | inflate =>
      have := cornerType_concave h.typ
      show 0 < hullCross p r q
      rw [e]; linarith
    | deflate =>
      have := cornerType_concave h.typ
      show 0 < hullCross r p q
      rw [e]; linarith
  have hfree := cut_free hL hD hc hm (by
    cases mode with
    | inflate => left; rw [s1.area_inflate]; exact ha
    | deflate => right; rw [s2.area_deflate]; linarith)
  have hsn := cut_simple' hL hD hm hfree
  refine ⟨s2.simple' hsn, covers_of s1 s2 ?_⟩
  cases mode with
  | inflate => exact cut_grow hL hD hm hfree (by rw [s2.area_inflate]; exact hnew)
  | deflate => exact cut_shrink hL hD hfree (by rw [s1.area_deflate]; linarith)

/-- Dropping a vertex on the line through its neighbours. -/
theorem collinear_safe {mode : SimplMode} {pts : List (Point K)} {i : ℕ} {c : Corner} {p q r : Point K} (hn : 4 ≤ pts.length) (hs : SimplePoly pts)
    (h : CornerIs mode pts i c .collinear p q r) : SimplePoly (pts.eraseIdx i) ∧ mode.covers pts (pts.eraseIdx i) := by
  obtain ⟨m, hm, s1, s2⟩ := h.view hn
  have hL := s1.simple hs
  have h0 : hullCross (mode.order p q r).1 (mode.order p q r).2.1 (mode.order p q r).2.2 = 0 := by
    cases mode with
    | inflate => exact cornerType_collinear h.typ
    | deflate => exact cornerType_collinear h.typ
  refine ⟨s2.simple' (line_simple hL h0 hm), covers_of s1 s2 ?_⟩
  have := line_region (line_seg hL h0) m
  cases mode with
  | inflate => exact this.le
  | deflate => exact this.ge

/-- Replacing the vertices of two convex corners. -/
theorem convex_safe {mode : SimplMode} {pts new : List (Point K)} {a b h z v : Point K} {m : List (Point K)} (hs : SimplePoly pts) (ha : 0 < signedArea pts)
    (s1 : SeenAs mode pts (a :: b :: (h :: m ++ [z]))) (s2 : SeenAs mode new (v :: (h :: m ++ [z]))) (hp : ConvPair a b h z v) (hok : ConvOk h z v m)
    (hnew : 0 < signedArea new) : SimplePoly new ∧ mode.covers pts new := by
  have hL := s1.simple hs
  refine ⟨s2.simple' (conv_simple hL hp hok), covers_of s1 s2 ?_⟩
  cases mode with
  | inflate => exact conv_grow hL hp hok (by rw [s2.area_inflate]; exact hnew)
  | deflate => exact conv_shrink hL hp hok (by rw [s1.area_deflate]; linarith)

/-- The points of the two corners of a pair, in the order in which the code looks at them. -/
theorem CandOK.pair {mode : SimplMode} {pts : List (Point K)} {c1 c2 : Corner} (hn : 4 ≤ pts.length) (h : CandOK mode pts (.convexConvex c1 c2)) :
    ∃ a b hh z, c1.toPoints pts = some (z, a, b) ∧ c2.toPoints pts = some (a, b, hh) ∧ 0 < hullCross z a b ∧ 0 < hullCross a b hh ∧
      replacingVertex pts c1 c2 = (if z = a ∨ hh = b then none else some (intersectionInFront ⟨z, a⟩ ⟨hh, b⟩)) ∧
      ∀ v, ∃ m new, replaceTwo pts c1.i1 c2.i1 v = some new ∧ SeenAs mode pts (a :: b :: (hh :: m ++ [z])) ∧ SeenAs mode new (v :: (hh :: m ++ [z])) := by
  cases h with
  | @inflate i c1 c2 z a b hh hm h1 h2 =>
    subst hm
    have p1 := h1.corner
    have p2 := h2.corner
    have i1 : c1.i1 = i := by rw [p1]; rfl
    have i2 : c2.i1 = (i + 1) % pts.length := by rw [p2]; rfl
    refine ⟨a, b, hh, z, h1.toPoints.1, h2.toPoints.1, cornerType_convex h1.typ, cornerType_convex h2.typ, ?_, ?_⟩
    · exact replacingVertex_eq (by rw [p1, p2]; rfl)
        (by rw [p1, p2]; exact (pred_mod (by omega) h1.idx).symm) (by rw [p1]; exact h1.p0) (by rw [p1]; exact h1.p1) (by rw [p2]; exact h2.p1)
        (by rw [p2]; exact h2.p2)
    · intro v
      obtain ⟨m, new, k, e1, e2, e3⟩ := pair_view hn h1.idx h1.p0 h1.p1 h1.p2 h2.p2 v (x := i) (y := (i + 1) % pts.length) (.inl ⟨rfl, rfl⟩)
      rw [i1, i2]
      exact ⟨m, new, e1, ⟨i, e2.symm⟩, ⟨k, e3.symm⟩⟩
  | @deflate i c1 c2 z a b hh hm h1 h2 =>
    subst hm
    have p1 := h1.corner
    have p2 := h2.corner
    have i1 : c2.i1 = i := by rw [p1]; rfl
    have i2 : c1.i1 = (i + 1) % pts.length := by rw [p2]; rfl
    refine ⟨b, a, z, hh, h2.toPoints.1, h1.toPoints.1, cornerType_convex h2.typ, cornerType_convex h1.typ, ?_, ?_⟩
    · exact replacingVertex_eq 
        (by rw [p1, p2]; exact pred_mod (by omega) h1.idx) (by rw [p1, p2]; rfl) (by rw [p2]; exact h2.p2) (by rw [p2]; exact h2.p1) (by rw [p1]; exact h1.p1)
        (by rw [p1]; exact h1.p0)
    · intro v
      obtain ⟨m, new, k, e1, e2, e3⟩ := pair_view hn h1.idx h1.p0 h1.p1 h1.p2 h2.p2 v (x := (i + 1) % pts.length) (y := i) (.inr ⟨rfl, rfl⟩)
      rw [i1, i2]
      refine ⟨m.reverse, new, e1, ?_, ?_⟩
      · obtain ⟨j, hj⟩ := flip_view (x := [a, b]) (y := hh :: m ++ [z]) e2
        exact ⟨j, by rw [← hj]; simp⟩
      · obtain ⟨j, hj⟩ := flip_view (x := [v]) (y := hh :: m ++ [z]) e3
        exact ⟨j, by rw [← hj]; simp⟩

theorem executeCand_pair {pts : List (Point K)} {c1 c2 : Corner} {v : Point K} (h : replacingVertex pts c1 c2 = some (some v)) :
    executeCand pts (.convexConvex c1 c2) = replaceTwo pts c1.i1 c2.i1 v := by
  unfold executeCand
  dsimp only
  rw [h, Option.bind_some, Option.bind_some]
  rfl

/-- A valid candidate keeps the polygon simple and changes the region in one direction only. -/
theorem step_safe {mode : SimplMode} {pts new : List (Point K)} {c : SimplCand} (hn : 4 ≤ pts.length) (hs : SimplePoly pts) (ha : 0 < signedArea pts)
    (hc : CandOK mode pts c) (hv : candValid pts c = some true) (hx : executeCand pts c = some new) (hnew : 0 < signedArea new) :
    SimplePoly new ∧ mode.covers pts new := by
  cases c with
  | concave c =>
    cases hc with
    | @concave i _ p q r h =>
      obtain ⟨h1, -, -, -⟩ := exec_drop hn h
      obtain rfl : pts.eraseIdx i = new := by
        unfold executeCand at hx
        dsimp only at hx
        rw [h1] at hx
        simpa using hx
      exact concave_safe hn hs ha h hv hnew
  | collinear c =>
    cases hc with
    | @collinear i _ p q r h =>
      obtain ⟨h1, -, -, -⟩ := exec_drop hn h
      obtain rfl : pts.eraseIdx i = new := by
        unfold executeCand at hx
        dsimp only at hx
        rw [h1] at hx
        simpa using hx
      exact collinear_safe hn hs h
  | convexConvex c1 c2 =>
    obtain ⟨a, b, h, z, t1, t2, k1, k2, hrep, hview⟩ := hc.pair hn
    obtain ⟨v, hv1⟩ : ∃ v, replacingVertex pts c1 c2 = some (some v) := by
      unfold executeCand at hx
      dsimp only at hx
      obtain ⟨v, hv1, hx⟩ := Option.bind_eq_some_iff.1 hx
      obtain ⟨v', hv2, -⟩ := Option.bind_eq_some_iff.1 hx
      exact ⟨v', by rw [hv1, hv2]⟩
    rw [executeCand_pair hv1] at hx
    obtain ⟨m, new', e1, e2, e3⟩ := hview v
    obtain rfl : new' = new := by rw [e1] at hx; simpa using hx
    have hp : ConvPair a b h z v := by
      rw [hv1] at hrep
      split_ifs at hrep
      obtain ⟨s, u, s0, u0, v1, v2⟩ := intersectionInFront_spec (Option.some.inj hrep).symm
      exact ⟨k1, k2, ⟨s, s0, by rw [v1], by rw [v1]⟩, ⟨u, u0, by rw [v2], by rw [v2]⟩⟩
    exact convex_safe hs ha e2 e3 hp (convOk_of hs t1 t2 hv1 e2 hv) hnew

/-! ### No panic -/

theorem mapM_total {α β : Type*} {f : α → Option β} {l : List α} (h : ∀ a ∈ l, ∃ b, f a = some b) : ∃ r, l.mapM f = some r := by
  induction l with
  | nil => exact ⟨[], rfl⟩
  | cons a l ih =>
    obtain ⟨b, hb⟩ := h a (by simp)
    obtain ⟨r, hr⟩ := ih fun x hx => h x (List.mem_cons_of_mem _ hx)
    rw [List.mapM_cons, hb, hr]
    exact ⟨_, rfl⟩

theorem simplCandidates_total (mode : SimplMode) {pts : List (Point K)} (hn : 0 < pts.length) : ∃ cs, simplCandidates mode pts = some cs := by
  unfold simplCandidates
  obtain ⟨typed, ht⟩ := mapM_total (f := fun c : Corner => (c.toPoints pts).map fun p => (c, CornerType.from p.1 p.2.1 p.2.2))
    (l := simplCorners mode pts.length) (by
      intro c hc
      obtain ⟨k, hk⟩ := List.getElem?_of_mem hc
      obtain ⟨hk', rfl⟩ := simplCorners_get hk
      have b0 : mode.place pts.length k < pts.length := by cases mode <;> simp only [SimplMode.place] <;> omega
      have b1 : (mode.place pts.length k + pts.length - 1) % pts.length < pts.length := Nat.mod_lt _ hn
      have b2 : (mode.place pts.length k + 1) % pts.length < pts.length := Nat.mod_lt _ hn
      cases mode with
      | inflate =>
        simp only [SimplMode.see, cornerAt, Corner.toPoints]
        rw [List.getElem?_eq_getElem b0, List.getElem?_eq_getElem b1, List.getElem?_eq_getElem b2]
        exact ⟨_, rfl⟩
      | deflate =>
        simp only [SimplMode.see, cornerAt, Corner.toPoints, Corner.flip]
        rw [List.getElem?_eq_getElem b0, List.getElem?_eq_getElem b1, List.getElem?_eq_getElem b2]
        exact ⟨_, rfl⟩)
  rw [ht, Option.bind_some]
  have hl := (mapM_get ht).1
  rw [simplCorners_length] at hl
  cases hg : typed.getLast? with
  | none => rw [List.getLast?_eq_none_iff] at hg; rw [hg] at hl; simp at hl; omega
  | some l => exact ⟨_, rfl⟩

theorem cand_total {mode : SimplMode} {pts : List (Point K)} (hn : 4 ≤ pts.length) (hs : SimplePoly pts) {c : SimplCand} (hc : CandOK mode pts c) :
    (∃ d, areaDelta pts c = some d) ∧ ∃ b, candValid pts c = some b := by
  obtain ⟨es, hes⟩ := edgeIter_total fun s h => side_ne (by have := hs.1; omega) hs.2.1 h
  cases c with
  | collinear c => exact ⟨⟨_, rfl⟩, ⟨_, rfl⟩⟩
  | concave c =>
    cases hc with
    | @concave i _ p q r h =>
      unfold areaDelta candValid
      dsimp only
      rw [h.toPoints.1]
      refine ⟨⟨_, rfl⟩, ?_⟩
      obtain ⟨m, hm, s1, -⟩ := h.view hn
      obtain ⟨hn, -⟩ := cut_nodup (s1.simple hs)
      have hne : (mode.order p q r).1 ≠ (mode.order p q r).2.2 := by
        intro e
        rw [e] at hn
        simp at hn
      rw [Option.bind_some, mk?_ne hne, Option.bind_some, hes]
      exact ⟨_, rfl⟩
  | convexConvex c1 c2 =>
    obtain ⟨a, b, h, z, t1, t2, k1, k2, hrep, hview⟩ := hc.pair hn
    have hza : z ≠ a := by rintro rfl; unfold hullCross at k1; simp at k1
    have hhb : h ≠ b := by rintro rfl; rw [hullCross_self'] at k2; exact lt_irrefl _ k2
    rw [if_neg (by simp [hza, hhb])] at hrep
    unfold areaDelta candValid
    dsimp only
    rw [hrep, Option.bind_some, Option.bind_some]
    cases hi : intersectionInFront ⟨z, a⟩ ⟨h, b⟩ with
    | none => exact ⟨⟨_, rfl⟩, ⟨_, rfl⟩⟩
    | some v =>
      dsimp only
      obtain ⟨s, u, s0, u0, v1, v2⟩ := intersectionInFront_spec hi
      simp only at v1 v2
      constructor
      · unfold Corner.toPoints at t1 t2
        obtain ⟨_, -, t1⟩ := Option.bind_eq_some_iff.1 t1
        obtain ⟨_, q1, -⟩ := Option.bind_eq_some_iff.1 t1
        obtain ⟨_, -, t2⟩ := Option.bind_eq_some_iff.1 t2
        obtain ⟨_, q2, -⟩ := Option.bind_eq_some_iff.1 t2
        rw [q1, q2]
        exact ⟨_, rfl⟩
      · rw [t1, t2, Option.bind_some, Option.bind_some]
        have hp : ConvPair a b h z v := ⟨k1, k2, ⟨s, s0, by rw [v1], by rw [v1]⟩, ⟨u, u0, by rw [v2], by rw [v2]⟩⟩
        have n1 : z ≠ v := fun e => by
          have h1 := hp.z_vb; rw [e, hullCross_self] at h1; exact lt_irrefl _ h1
        have n2 : v ≠ h := fun e => by
          have h1 := hp.h_av; rw [e, hullCross_self'] at h1; exact lt_irrefl _ h1
        dsimp only
        rw [mk?_ne n1, mk?_ne n2, hes]
        exact ⟨_, rfl⟩

theorem bestCandidate_total {mode : SimplMode} {pts : List (Point K)} (hn : 4 ≤ pts.length) (hs : SimplePoly pts) : ∃ r, bestCandidate mode pts = some r := by
  unfold bestCandidate
  obtain ⟨cs, hcs⟩ := simplCandidates_total mode (pts := pts) (by omega)
  have hok := simplCandidates_ok hcs
  rw [hcs, Option.bind_some]
  obtain ⟨keyed, hk⟩ := mapM_total (f := fun c => (areaDelta pts c).map fun d => (d, c)) (l := cs) (by
    intro c hc
    obtain ⟨⟨d, hd⟩, -⟩ := cand_total hn hs (hok c hc)
    rw [hd]
    exact ⟨_, rfl⟩)
  rw [hk, Option.bind_some]
  apply findValid_total
  intro c hc
  obtain ⟨p, hp, rfl⟩ := List.mem_map.1 hc
  have hp' := (List.perm_insertionSort (fun a b : WithTop K × SimplCand => a.1 ≤ b.1) keyed).mem_iff.1 hp
  exact (cand_total hn hs (hok _ ((keyed_spec hk).1 p hp').1)).2

/-! ### The loop -/

/-- The largest relative change that keeps the area positive. -/
def SimplMode.tolOk (mode : SimplMode) (tol : K) : Prop := match mode with
  | .inflate => True
  | .deflate => tol < 1

theorem simplifyLoop_safe {mode : SimplMode} {tol orig : K} (ho : 0 < orig) (ht : mode.tolOk tol) {k : ℕ} {pts : List (Point K)} (hs : SimplePoly pts)
    (ha : 0 < signedArea pts) : ∃ out, simplifyLoop mode tol orig k pts = some out ∧ SimplePoly out ∧ 0 < signedArea out ∧ mode.covers pts out := by
  induction k generalizing pts with
  | zero => exact ⟨pts, rfl, hs, ha, mode.covers_refl _⟩
  | succ k ih =>
    unfold simplifyLoop
    split_ifs with h4
    · exact ⟨pts, rfl, hs, ha, mode.covers_refl _⟩
    · have hn : 4 ≤ pts.length := by omega
      obtain ⟨best, hb⟩ := bestCandidate_total (mode := mode) hn hs
      rw [hb, Option.bind_some]
      cases best with
      | none => exact ⟨pts, rfl, hs, ha, mode.covers_refl _⟩
      | some c =>
        dsimp only
        obtain ⟨cands, c1, c2, c3, d, c4, c5⟩ := bestCandidate_some hb
        have hok := simplCandidates_ok c1 _ c2
        obtain ⟨new, e1, e2⟩ := hok.exec hn c4
        rw [e1, Option.bind_some]
        split_ifs with hd
        · have hnew : 0 < signedArea new := by
            cases mode with
            | inflate => exact ha.trans_le e2.area
            | deflate =>
              rw [calculateArea_eq, div_le_iff₀ ho] at hd
              have h1 := (abs_le.1 hd).1
              have h2 : tol * orig < 1 * orig := mul_lt_mul_of_pos_right ht ho
              linarith
          obtain ⟨s1, s2⟩ := step_safe hn hs ha hok c3 e1 hnew
          obtain ⟨out, i1, i2, i3, i4⟩ := ih s1 hnew
          exact ⟨out, i1, i2, i3, mode.covers_trans s2 i4⟩
        · exact ⟨pts, rfl, hs, ha, mode.covers_refl _⟩

end Jagua
