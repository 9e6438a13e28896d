import Verif.Spec.Digits
import Mathlib.Tactic.Linarith
import Mathlib.Tactic.FieldSimp
import Mathlib.Tactic.Ring

/-! # Rounding to a fixed count of digits follows the standard model -/

namespace Jagua

theorem digitGap_pos (k : ℕ) (x : ℚ) : 0 < digitGap k x := by unfold digitGap; positivity

theorem digitGap_mul (k : ℕ) (x : ℚ) : digitGap k x * 2 ^ k = 2 ^ Int.log 2 x := by
  unfold digitGap
  rw [← zpow_natCast, ← zpow_add₀ (by norm_num), sub_add_cancel]

variable {c : ℚ} (w : WholeRounding c) {k : ℕ}

theorem log_le (x : ℚ) (hx : 0 < x) : (2 : ℚ) ^ Int.log 2 x ≤ x := by
  have := Int.zpow_log_le_self (b := 2) one_lt_two hx
  exact_mod_cast this

theorem lt_log (x : ℚ) : x < (2 : ℚ) ^ (Int.log 2 x + 1) := by
  have := Int.lt_zpow_succ_log_self (b := 2) one_lt_two x
  exact_mod_cast this

/-- the rounded number stays between the powers of two -/
theorem roundPos_bounds {x : ℚ} (hx : 0 < x) : (2 : ℚ) ^ Int.log 2 x ≤ roundPos w k x ∧ roundPos w k x ≤ 2 ^ (Int.log 2 x + 1) := by
  have hg := digitGap_pos k x
  have hm := digitGap_mul k x
  have h1 := log_le x hx
  have h2 := lt_log x
  have a1 : (((2 : ℤ) ^ k : ℤ) : ℚ) ≤ x / digitGap k x := by
    rw [le_div_iff₀ hg]; push_cast; rw [mul_comm, hm]; exact h1
  have a2 : x / digitGap k x ≤ (((2 : ℤ) ^ (k + 1) : ℤ) : ℚ) := by
    rw [div_le_iff₀ hg]; push_cast
    rw [pow_succ, mul_comm, ← mul_assoc, hm]
    rw [zpow_add_one₀ (by norm_num)] at h2
    exact h2.le
  have b1 := w.mono a1
  have b2 := w.mono a2
  rw [w.whole] at b1 b2
  have c1 : ((2 : ℚ) ^ k) ≤ w.fn (x / digitGap k x) := by exact_mod_cast b1
  have c2 : (w.fn (x / digitGap k x) : ℚ) ≤ 2 ^ (k + 1) := by exact_mod_cast b2
  unfold roundPos
  constructor
  · rw [← hm, mul_comm]; exact mul_le_mul_of_nonneg_right c1 hg.le
  · rw [zpow_add_one₀ (by norm_num), ← hm]
    calc _ ≤ (2 : ℚ) ^ (k + 1) * digitGap k x := mul_le_mul_of_nonneg_right c2 hg.le
      _ = _ := by rw [pow_succ]; ring

theorem roundPos_pos {x : ℚ} (hx : 0 < x) : 0 < roundPos w k x := lt_of_lt_of_le (by positivity) (roundPos_bounds w hx).1

theorem log_eq {x : ℚ} {z : ℤ} (h1 : (2 : ℚ) ^ z ≤ x) (h2 : x < 2 ^ (z + 1)) : Int.log 2 x = z := by
  have hx : 0 < x := lt_of_lt_of_le (by positivity) h1
  refine le_antisymm ?_ ?_
  · have := (Int.lt_zpow_iff_log_lt (b := 2) one_lt_two (x := z + 1) hx).1 (by exact_mod_cast h2)
    omega
  · exact (Int.zpow_le_iff_le_log (b := 2) one_lt_two hx).1 (by exact_mod_cast h1)

theorem roundPos_idem {x : ℚ} (hx : 0 < x) : roundPos w k (roundPos w k x) = roundPos w k x := by
  obtain ⟨h1, h2⟩ := roundPos_bounds w (k := k) hx
  have hg := digitGap_pos k x
  have key : ∃ z : ℤ, roundPos w k x / digitGap k (roundPos w k x) = z := by
    rcases h2.lt_or_eq with h2 | h2
    · have : digitGap k (roundPos w k x) = digitGap k x := by
        conv_lhs => unfold digitGap
        rw [log_eq h1 h2, digitGap]
      rw [this]
      exact ⟨w.fn (x / digitGap k x), by rw [roundPos, mul_div_assoc, div_self hg.ne', mul_one]⟩
    · rw [h2]
      refine ⟨2 ^ k, ?_⟩
      have hl : Int.log 2 ((2 : ℚ) ^ (Int.log 2 x + 1)) = Int.log 2 x + 1 := by
        have := Int.log_zpow (R := ℚ) (b := 2) one_lt_two (Int.log 2 x + 1)
        exact_mod_cast this
      rw [div_eq_iff (digitGap_pos _ _).ne']
      push_cast
      rw [mul_comm, digitGap_mul, hl]
  obtain ⟨z, hz⟩ := key
  generalize roundPos w k x = t at hz
  unfold roundPos
  rw [hz, w.whole, ← hz, div_mul_cancel₀ _ (digitGap_pos _ _).ne']

theorem roundPos_mono {x y : ℚ} (hx : 0 < x) (h : x ≤ y) : roundPos w k x ≤ roundPos w k y := by
  have hl : Int.log 2 x ≤ Int.log 2 y := Int.log_mono_right hx h
  rcases hl.lt_or_eq with hl | hl
  · refine (roundPos_bounds w hx).2.trans (le_trans ?_ (roundPos_bounds w (hx.trans_le h)).1)
    exact zpow_le_zpow_right₀ (by norm_num) (by omega)
  · have hgap : digitGap k x = digitGap k y := by unfold digitGap; rw [hl]
    unfold roundPos
    rw [hgap]
    have hg := digitGap_pos k y
    refine mul_le_mul_of_nonneg_right ?_ hg.le
    exact_mod_cast w.mono (div_le_div_of_nonneg_right h hg.le)

theorem roundPos_near (hc : 0 ≤ c) {x : ℚ} (hx : 0 < x) : |roundPos w k x - x| ≤ c / 2 ^ k * x := by
  have hg := digitGap_pos k x
  have h := w.near (x / digitGap k x)
  have e : roundPos w k x - x = ((w.fn (x / digitGap k x) : ℚ) - x / digitGap k x) * digitGap k x := by
    rw [sub_mul, div_mul_cancel₀ _ hg.ne', roundPos]
  rw [e, abs_mul, abs_of_pos hg]
  have hgap : digitGap k x = 2 ^ Int.log 2 x / 2 ^ k := by rw [← digitGap_mul k x]; field_simp
  calc _ ≤ c * digitGap k x := mul_le_mul_of_nonneg_right h hg.le
    _ = c / 2 ^ k * 2 ^ Int.log 2 x := by rw [hgap]; ring
    _ ≤ _ := mul_le_mul_of_nonneg_left (log_le x hx) (by positivity)

theorem roundDigits_neg (x : ℚ) : roundDigits w k (-x) = -roundDigits w k x := by
  unfold roundDigits
  rcases lt_trichotomy x 0 with h | h | h
  · rw [if_neg (by linarith), if_neg (by linarith), if_neg h.ne, if_pos h, neg_neg]
  · subst h; simp
  · rw [if_neg (by linarith), if_pos (by linarith), if_neg h.ne', if_neg (by linarith), neg_neg]

theorem roundDigits_pos {x : ℚ} (h : 0 < x) : roundDigits w k x = roundPos w k x := by
  unfold roundDigits; rw [if_neg h.ne', if_neg (by linarith)]

theorem roundDigits_zero : roundDigits w k 0 = 0 := by unfold roundDigits; rw [if_pos rfl]

theorem roundDigits_idem (x : ℚ) : roundDigits w k (roundDigits w k x) = roundDigits w k x := by
  have pos : ∀ y : ℚ, 0 < y → roundDigits w k (roundDigits w k y) = roundDigits w k y := by
    intro y h
    rw [roundDigits_pos w h, roundDigits_pos w (roundPos_pos w h), roundPos_idem w h]
  rcases lt_trichotomy x 0 with h | h | h
  · have := pos (-x) (by linarith)
    rw [roundDigits_neg, roundDigits_neg, neg_inj] at this
    exact this
  · rw [h, roundDigits_zero, roundDigits_zero]
  · exact pos x h

/-- the rounding to `k + 1` digits -/
def Rounding.digits (w : WholeRounding c) (k : ℕ) : Rounding := ⟨roundDigits w k, roundDigits_idem w⟩

/-- rounding to `k + 1` digits follows the standard model -/
theorem Rounding.digits_standard (hc : 0 ≤ c) : (Rounding.digits w k).Standard (c / 2 ^ k) where
  one := by
    show roundDigits w k 1 = 1
    rw [roundDigits_pos w one_pos, roundPos]
    have hl : Int.log 2 (1 : ℚ) = 0 := by simp
    have e : digitGap k 1 * 2 ^ k = 1 := by rw [digitGap_mul, hl, zpow_zero]
    have : (1 : ℚ) / digitGap k 1 = ((2 ^ k : ℤ) : ℚ) := by
      rw [div_eq_iff (digitGap_pos _ _).ne']; push_cast; linarith
    rw [this, w.whole]
    push_cast
    linarith
  neg x := roundDigits_neg w x
  mono := by
    have nonneg : ∀ y : ℚ, 0 ≤ y → 0 ≤ roundDigits w k y := by
      intro y h
      rcases h.eq_or_lt with rfl | h
      · rw [roundDigits_zero]
      · rw [roundDigits_pos w h]; exact (roundPos_pos w h).le
    have pos : ∀ x y : ℚ, 0 ≤ x → x ≤ y → roundDigits w k x ≤ roundDigits w k y := by
      intro x y h hxy
      rcases h.eq_or_lt with rfl | h
      · rw [roundDigits_zero]; exact nonneg y hxy
      · rw [roundDigits_pos w h, roundDigits_pos w (h.trans_le hxy)]; exact roundPos_mono w h hxy
    intro x y hxy
    show roundDigits w k x ≤ roundDigits w k y
    rcases le_total 0 x with h | h
    · exact pos x y h hxy
    · have h1 : roundDigits w k x ≤ 0 := by
        have := nonneg (-x) (by linarith)
        rw [roundDigits_neg] at this; linarith
      rcases le_total 0 y with h' | h'
      · exact h1.trans (nonneg y h')
      · have := pos (-y) (-x) (by linarith) (by linarith)
        rw [roundDigits_neg, roundDigits_neg] at this; linarith
  near := by
    have pos : ∀ y : ℚ, 0 < y → |roundDigits w k y - y| ≤ c / 2 ^ k * |y| := by
      intro y h
      rw [roundDigits_pos w h, abs_of_pos h]; exact roundPos_near w hc h
    intro x
    show |roundDigits w k x - x| ≤ c / 2 ^ k * |x|
    rcases lt_trichotomy x 0 with h | h | h
    · have := pos (-x) (by linarith)
      rw [roundDigits_neg, abs_neg, neg_sub_neg, abs_sub_comm] at this
      exact this
    · rw [h, roundDigits_zero]; simp
    · exact pos x h

/-- to the nearest, ties to even -/
def WholeRounding.halfEven : WholeRounding (1 / 2) where
  fn := Jagua.halfEven
  whole z := by simp [Jagua.halfEven]
  near x := by
    have h1 := Int.floor_le x
    have h2 := Int.lt_floor_add_one x
    unfold Jagua.halfEven
    rw [abs_le]
    split_ifs <;> push_cast <;> constructor <;> linarith
  mono x y h := by
    have hf : ⌊x⌋ ≤ ⌊y⌋ := Int.floor_mono h
    have hup : Jagua.halfEven x ≤ ⌊x⌋ + 1 := by unfold Jagua.halfEven; split_ifs <;> omega
    have hlo : ⌊y⌋ ≤ Jagua.halfEven y := by unfold Jagua.halfEven; split_ifs <;> omega
    rcases hf.lt_or_eq with hf | hf
    · exact hup.trans (le_trans hf hlo)
    · unfold Jagua.halfEven
      rw [hf]
      split_ifs <;> first | omega | (exfalso; linarith)

/-- single precision: 24 digits, to the nearest, ties to even -/
def Rounding.single : Rounding := Rounding.digits WholeRounding.halfEven 23

theorem Rounding.single_standard : Rounding.single.Standard (1 / 2 ^ 24) := by
  have h := Rounding.digits_standard WholeRounding.halfEven (k := 23) (by norm_num)
  norm_num at h ⊢
  exact h

end Jagua
