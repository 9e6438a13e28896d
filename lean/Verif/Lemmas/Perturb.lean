import Verif.Spec.Perturb
import Verif.Lemmas.SimpleConv

/-!
# Moving the corners of a polygon a little
-/

set_option linter.unusedSectionVars false

namespace Jagua

variable {K : Type*} [Field K] [LinearOrder K] [IsStrictOrderedRing K]

/-- A convex combination of three points. -/
def InHull3 (A B C w : Point K) : Prop := ∃ a b c : K, 0 ≤ a ∧ 0 ≤ b ∧ 0 ≤ c ∧ a + b + c = 1 ∧
  w.x = a * A.x + b * B.x + c * C.x ∧ w.y = a * A.y + b * B.y + c * C.y

theorem InTri.hull {A B C w : Point K} (hD : 0 < hullCross A B C) (h : InTri A B C w) : InHull3 A B C w := by
  refine ⟨hullCross B C w / hullCross A B C, hullCross C A w / hullCross A B C, hullCross A B w / hullCross A B C,
    div_nonneg h.1 hD.le, div_nonneg h.2.1 hD.le, div_nonneg h.2.2 hD.le, ?_, ?_, ?_⟩
  · rw [← add_div, ← add_div, tri_sum, div_self hD.ne']
  · rw [div_mul_eq_mul_div, div_mul_eq_mul_div, div_mul_eq_mul_div, ← add_div, ← add_div, eq_div_iff hD.ne']
    unfold hullCross; ring
  · rw [div_mul_eq_mul_div, div_mul_eq_mul_div, div_mul_eq_mul_div, ← add_div, ← add_div, eq_div_iff hD.ne']
    unfold hullCross; ring

/-- Of three points on a line one is between the others. -/
theorem collinear_between {A B C : Point K} (h : hullCross A B C = 0) : C ∈ segPts A B ∨ A ∈ segPts B C ∨ B ∈ segPts A C := by
  by_cases hAB : A = B
  · subst hAB
    right; left
    exact ⟨0, le_rfl, zero_le_one, by ring, by ring⟩
  · have hn : 0 < (B.x - A.x) ^ 2 + (B.y - A.y) ^ 2 := by
      rcases lt_or_eq_of_le (add_nonneg (sq_nonneg (B.x - A.x)) (sq_nonneg (B.y - A.y))) with h0 | h0
      · exact h0
      · exfalso
        apply hAB
        have h1 : (B.x - A.x) ^ 2 = 0 := by nlinarith [sq_nonneg (B.x - A.x), sq_nonneg (B.y - A.y)]
        have h2 : (B.y - A.y) ^ 2 = 0 := by nlinarith [sq_nonneg (B.x - A.x), sq_nonneg (B.y - A.y)]
        ext
        · linarith [pow_eq_zero_iff (two_ne_zero) |>.1 h1]
        · linarith [pow_eq_zero_iff (two_ne_zero) |>.1 h2]
    set n := (B.x - A.x) ^ 2 + (B.y - A.y) ^ 2 with hn'
    set t := ((C.x - A.x) * (B.x - A.x) + (C.y - A.y) * (B.y - A.y)) / n with ht
    have et : t * n = (C.x - A.x) * (B.x - A.x) + (C.y - A.y) * (B.y - A.y) := div_mul_cancel₀ _ hn.ne'
    have ex : C.x = A.x + t * (B.x - A.x) := by
      apply mul_right_cancel₀ hn.ne'
      unfold hullCross at h
      have : (A.x + t * (B.x - A.x)) * n = A.x * n + (t * n) * (B.x - A.x) := by ring
      rw [this, et, hn']
      linear_combination (-(B.y - A.y)) * h
    have ey : C.y = A.y + t * (B.y - A.y) := by
      apply mul_right_cancel₀ hn.ne'
      unfold hullCross at h
      have : (A.y + t * (B.y - A.y)) * n = A.y * n + (t * n) * (B.y - A.y) := by ring
      rw [this, et, hn']
      linear_combination (B.x - A.x) * h
    rcases lt_or_ge t 0 with h0 | h0
    · right; left
      -- A = B + s (C - B), s = 1 / (1 - t)
      have h1 : 0 < 1 - t := by linarith
      refine ⟨1 / (1 - t), by positivity, by rw [div_le_one h1]; linarith, ?_, ?_⟩
      · rw [ex, div_mul_eq_mul_div, ← sub_eq_iff_eq_add', eq_div_iff h1.ne']; ring
      · rw [ey, div_mul_eq_mul_div, ← sub_eq_iff_eq_add', eq_div_iff h1.ne']; ring
    · rcases le_or_gt t 1 with h1 | h1
      · left
        exact ⟨t, h0, h1, ex, ey⟩
      · right; right
        have h2 : 0 < t := by linarith
        refine ⟨1 / t, by positivity, by rw [div_le_one h2]; linarith, ?_, ?_⟩
        · rw [ex]; field_simp; ring
        · rw [ey]; field_simp; ring

theorem rho_three (A B C x : Point K) : rho [A, B, C] x = ind (CrossesRay x (A, B)) + ind (CrossesRay x (B, C)) + ind (CrossesRay x (C, A)) := by
  unfold rho sides
  simp [List.rotate, add_assoc]

/-- Outside a triangle, degenerate or not and in either orientation, nothing is inside. -/
theorem rho_hull3 {A B C x : Point K} (hx : ¬ InHull3 A B C x) :
    ind (CrossesRay x (A, B)) + ind (CrossesRay x (B, C)) + ind (CrossesRay x (C, A)) = 0 := by
  rcases lt_trichotomy (hullCross A B C) 0 with h | h | h
  · have hD : 0 < hullCross A C B := by
      have : hullCross A C B = -hullCross A B C := by unfold hullCross; ring
      linarith
    have := rho_tri hD (x := x) fun hi => hx (by
      obtain ⟨a, b, c, h1, h2, h3, h4, h5, h6⟩ := hi.hull hD
      exact ⟨a, c, b, h1, h3, h2, by linarith, by linarith, by linarith⟩)
    rw [rho_three] at this
    rw [ind_congr (crossesRay_comm (p := x) (a := A) (b := B)), ind_congr (crossesRay_comm (p := x) (a := B) (b := C)),
      ind_congr (crossesRay_comm (p := x) (a := C) (b := A)), ← this]
    ring
  · rcases collinear_between h with k | k | k
    · rw [crosses_split k, ind_congr (crossesRay_comm (p := x) (a := B) (b := C)), ind_congr (crossesRay_comm (p := x) (a := C) (b := A))]
      linear_combination zmod2_add_self (ind (CrossesRay x (A, C))) + zmod2_add_self (ind (CrossesRay x (C, B)))
    · rw [crosses_split k, ind_congr (crossesRay_comm (p := x) (a := A) (b := B)), ind_congr (crossesRay_comm (p := x) (a := C) (b := A))]
      linear_combination zmod2_add_self (ind (CrossesRay x (B, A))) + zmod2_add_self (ind (CrossesRay x (A, C)))
    · rw [ind_congr (crossesRay_comm (p := x) (a := C) (b := A)), crosses_split k]
      linear_combination zmod2_add_self (ind (CrossesRay x (A, B))) + zmod2_add_self (ind (CrossesRay x (B, C)))
  · rw [← rho_three]
    exact rho_tri h fun hi => hx (hi.hull h)

theorem CloseTo.symm {ε : K} {p q : Point K} (h : CloseTo ε p q) : CloseTo ε q p := by
  unfold CloseTo at *
  rwa [abs_sub_comm q.x, abs_sub_comm q.y]

theorem combine_close {x y b c e ε : K} (b0 : 0 ≤ b) (c0 : 0 ≤ c) (hbc : b + c ≤ 1) (hb : |x| ≤ ε) (hc : |y| ≤ ε) (he : e = b * x + c * y) : |e| ≤ ε := by
  have h0 : 0 ≤ ε := (abs_nonneg _).trans hb
  rw [he]
  calc |b * x + c * y| ≤ |b * x| + |c * y| := abs_add_le ..
    _ = b * |x| + c * |y| := by rw [abs_mul, abs_mul, abs_of_nonneg b0, abs_of_nonneg c0]
    _ ≤ b * ε + c * ε := by nlinarith
    _ ≤ ε := by nlinarith

/-- The strip that a side sweeps when its ends move a little is close to the side. -/
theorem swept_close {ε : K} {a b a' b' w : Point K} (ha : CloseTo ε a a') (hb : CloseTo ε b b') (h : InHull3 a b b' w ∨ InHull3 a b' a' w) :
    ∃ q ∈ segPts a b, CloseTo ε q w := by
  have ax := ha.1; have ay := ha.2; have bx := hb.1; have by' := hb.2
  rcases h with ⟨i, j, k, i0, j0, k0, hs, hx, hy⟩ | ⟨i, j, k, i0, j0, k0, hs, hx, hy⟩
  · refine ⟨⟨a.x + (j + k) * (b.x - a.x), a.y + (j + k) * (b.y - a.y)⟩, ⟨j + k, by linarith, by linarith, rfl, rfl⟩, ?_, ?_⟩
    · refine combine_close le_rfl k0 (by linarith) ax bx ?_
      have : i = 1 - j - k := by linarith
      simp only
      rw [hx, this]; ring
    · refine combine_close le_rfl k0 (by linarith) ay by' ?_
      have : i = 1 - j - k := by linarith
      simp only
      rw [hy, this]; ring
  · refine ⟨⟨a.x + j * (b.x - a.x), a.y + j * (b.y - a.y)⟩, ⟨j, by linarith, by linarith, rfl, rfl⟩, ?_, ?_⟩
    · refine combine_close k0 j0 (by linarith) ax bx ?_
      have : i = 1 - j - k := by linarith
      simp only
      rw [hx, this]; ring
    · refine combine_close k0 j0 (by linarith) ay by' ?_
      have : i = 1 - j - k := by linarith
      simp only
      rw [hy, this]; ring

/-- Moving a side, seen from a point that is not close to it. -/
theorem side_moved {ε : K} {a b a' b' x : Point K} (ha : CloseTo ε a a') (hb : CloseTo ε b b') (h : ∀ q ∈ segPts a b, ¬ CloseTo ε q x) :
    ind (CrossesRay x (a, b)) + ind (CrossesRay x (a', b')) = ind (CrossesRay x (a, a')) + ind (CrossesRay x (b, b')) := by
  have h1 := rho_hull3 (A := a) (B := b) (C := b') (x := x) fun hi => by
    obtain ⟨q, hq, hc⟩ := swept_close ha hb (Or.inl hi); exact h q hq hc
  have h2 := rho_hull3 (A := a) (B := b') (C := a') (x := x) fun hi => by
    obtain ⟨q, hq, hc⟩ := swept_close ha hb (Or.inr hi); exact h q hq hc
  rw [ind_congr (crossesRay_comm (p := x) (a := b') (b := a))] at h1
  rw [ind_congr (crossesRay_comm (p := x) (a := b') (b := a')), ind_congr (crossesRay_comm (p := x) (a := a') (b := a))] at h2
  have k1 := zmod2_add_self (ind (CrossesRay x (a, b')))
  have k2 := zmod2_add_self (ind (CrossesRay x (a, a')))
  have k3 := zmod2_add_self (ind (CrossesRay x (b, b')))
  linear_combination h1 + h2 - k1 - k2 - k3

theorem segPts_swap_close {ε : K} {a b a' b' w : Point K} (ha : CloseTo ε a a') (hb : CloseTo ε b b') (hw : w ∈ segPts a' b') :
    ∃ q ∈ segPts a b, CloseTo ε q w := by
  obtain ⟨t, t0, t1, hx, hy⟩ := hw
  exact swept_close ha hb (Or.inr ⟨0, t, 1 - t, le_rfl, t0, by linarith, by ring, by rw [hx]; ring, by rw [hy]; ring⟩)

/-- the sides of two polygons, side by side -/
def sides2 (Z : List (Point K × Point K)) : List ((Point K × Point K) × (Point K × Point K)) := Z.zip (Z.rotate 1)

theorem sides2_fst (Z : List (Point K × Point K)) : sides (Z.map Prod.fst) = (sides2 Z).map fun s => (s.1.1, s.2.1) := by
  unfold sides sides2
  rw [← List.map_rotate, List.zip_map]
  rfl

theorem sides2_snd (Z : List (Point K × Point K)) : sides (Z.map Prod.snd) = (sides2 Z).map fun s => (s.1.2, s.2.2) := by
  unfold sides sides2
  rw [← List.map_rotate, List.zip_map]
  rfl

theorem sides2_mem {Z : List (Point K × Point K)} {s : (Point K × Point K) × (Point K × Point K)} (h : s ∈ sides2 Z) : s.1 ∈ Z ∧ s.2 ∈ Z := by
  obtain ⟨h1, h2⟩ := List.of_mem_zip (a := s.1) (b := s.2) h
  exact ⟨h1, List.mem_rotate.1 h2⟩

theorem sides2_telescope (Z : List (Point K × Point K)) (f : Point K × Point K → ZMod 2) :
    ((sides2 Z).map fun s => f s.1 + f s.2).sum = 0 := by
  have h1 : ((sides2 Z).map fun s => f s.1) = Z.map f := by
    conv_rhs => rw [← List.map_fst_zip (l₁ := Z) (l₂ := Z.rotate 1) (by simp)]
    rw [List.map_map]; rfl
  have h2 : ((sides2 Z).map fun s => f s.2) = (Z.rotate 1).map f := by
    conv_rhs => rw [← List.map_snd_zip (l₁ := Z) (l₂ := Z.rotate 1) (by simp)]
    rw [List.map_map]; rfl
  rw [List.sum_map_add, h1, h2, ((List.rotate_perm Z 1).map f).sum_eq]
  exact zmod2_add_self _

theorem forall2_zip {α : Type*} {R : α → α → Prop} : ∀ {P Q : List α}, List.Forall₂ R P Q →
    ∃ Z : List (α × α), Z.map Prod.fst = P ∧ Z.map Prod.snd = Q ∧ ∀ z ∈ Z, R z.1 z.2
  | _, _, .nil => ⟨[], rfl, rfl, by simp⟩
  | _, _, .cons (a := a) (b := b) h hs => by
    obtain ⟨Z, h1, h2, h3⟩ := forall2_zip hs
    exact ⟨(a, b) :: Z, by simp [h1], by simp [h2], by simpa using ⟨h, fun x y => h3 (x, y)⟩⟩

/-- Every point of an outline is close to the outline of a polygon with close corners. -/
theorem bdry_moved {ε : K} {P Q : List (Point K)} (h : List.Forall₂ (CloseTo ε) P Q) {x : Point K} (hx : x ∈ bdry Q) : ∃ q ∈ bdry P, CloseTo ε q x := by
  obtain ⟨Z, rfl, rfl, hZ⟩ := forall2_zip h
  obtain ⟨s, hs, hx⟩ := hx
  rw [sides2_snd, List.mem_map] at hs
  obtain ⟨t, ht, rfl⟩ := hs
  obtain ⟨h1, h2⟩ := sides2_mem ht
  obtain ⟨q, hq, hc⟩ := segPts_swap_close (hZ _ h1) (hZ _ h2) hx
  exact ⟨q, ⟨(t.1.1, t.2.1), by rw [sides2_fst]; exact List.mem_map_of_mem ht, hq⟩, hc⟩

theorem rho_moved {ε : K} {P Q : List (Point K)} (h : List.Forall₂ (CloseTo ε) P Q) {x : Point K} (hx : ∀ q ∈ bdry P, ¬ CloseTo ε q x) : rho P x = rho Q x := by
  obtain ⟨Z, rfl, rfl, hZ⟩ := forall2_zip h
  apply zmod2_eq
  unfold rho
  rw [sides2_fst, sides2_snd, List.map_map, List.map_map, ← List.sum_map_add]
  rw [← sides2_telescope Z fun z => ind (CrossesRay x (z.1, z.2))]
  congr 1
  apply List.map_congr_left
  intro s hs
  obtain ⟨h1, h2⟩ := sides2_mem hs
  exact side_moved (hZ _ h1) (hZ _ h2) fun q hq => hx q ⟨(s.1.1, s.2.1), by rw [sides2_fst]; exact List.mem_map_of_mem hs, hq⟩

/-- A point that is not close to the outline is inside of a polygon iff it is inside of one with close corners. -/
theorem interior_moved {ε : K} {P Q : List (Point K)} (h : List.Forall₂ (CloseTo ε) P Q) {x : Point K} (hx : ∀ q ∈ bdry P, ¬ CloseTo ε q x) :
    x ∉ bdry Q ∧ (x ∈ interior P ↔ x ∈ interior Q) := by
  have hQ : x ∉ bdry Q := fun hb => by
    obtain ⟨q, hq, hc⟩ := bdry_moved h hb
    exact hx q hq hc
  refine ⟨hQ, ?_⟩
  unfold interior
  simp only [Set.mem_ofPred_eq, ← rho_odd, rho_moved h hx]
  constructor
  · exact fun k => ⟨hQ, k.2⟩
  · rintro ⟨-, k⟩
    refine ⟨fun hb => ?_, k⟩
    exact hx x hb ⟨by simpa using eps_nonneg h hb, by simpa using eps_nonneg h hb⟩
where
  eps_nonneg {ε : K} {P Q : List (Point K)} (h : List.Forall₂ (CloseTo ε) P Q) {x : Point K} (hb : x ∈ bdry P) : 0 ≤ ε := by
    obtain ⟨s, hs, -⟩ := hb
    cases h with
    | nil => simp [sides] at hs
    | cons h1 _ => exact (abs_nonneg _).trans h1.1

end Jagua
