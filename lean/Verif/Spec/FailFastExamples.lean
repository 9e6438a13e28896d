import Verif.Spec.FailFast
import Verif.Spec.HPGExamples
import Verif.Model.FailFast
import Mathlib.Analysis.Real.Sqrt

/-!
# Concrete environments: real numbers, and rationals with rounding down
-/

namespace Jagua

/-- exact real arithmetic -/
noncomputable def HEnv.real : HEnv ℝ := ⟨Fpa.exact, Real.sqrt, fun x => ⌈x⌉₊, 1000000, -1000000⟩

theorem HEnv.real_sqrt : HEnv.real.SqrtExact := fun _ hx => ⟨Real.sqrt_nonneg _, Real.sq_sqrt hx⟩

namespace Ex

/-- bisection for the largest `k` with `k ^ 2 ≤ m` -/
def dnSqrt : ℕ → ℕ → ℕ → ℕ → ℕ
  | 0, lo, _, _ => lo
  | k + 1, lo, hi, m => if ((lo + hi) / 2) ^ 2 ≤ m then dnSqrt k ((lo + hi) / 2) hi m else dnSqrt k lo ((lo + hi) / 2) m

theorem dnSqrt_spec {k lo hi m : ℕ} (h1 : lo ^ 2 ≤ m) (h2 : m < hi ^ 2) (h3 : hi - lo ≤ 2 ^ k) :
    dnSqrt k lo hi m ^ 2 ≤ m ∧ m < (dnSqrt k lo hi m + 1) ^ 2 := by
  induction k generalizing lo hi with
  | zero =>
    refine ⟨h1, h2.trans_le (Nat.pow_le_pow_left ?_ 2)⟩
    simp only [pow_zero] at h3
    show hi ≤ lo + 1
    omega
  | succ k ih =>
    rw [pow_succ] at h3
    rw [dnSqrt]
    split_ifs with h
    · exact ih h h2 (by omega)
    · exact ih h1 (not_le.1 h) (by omega)

/-- integer square root -/
def isqrt (m : ℕ) : ℕ := dnSqrt ((m + 1).log2 + 1) 0 (m + 1) m

theorem isqrt_spec (m : ℕ) : isqrt m ^ 2 ≤ m ∧ m < (isqrt m + 1) ^ 2 :=
  dnSqrt_spec (by simp) (by nlinarith) (Nat.sub_zero (m + 1) ▸ Nat.lt_log2_self.le)

/-- square root rounded down to a multiple of 1/100 -/
def downSqrt (x : ℚ) : ℚ := isqrt (x * 10000).floor.toNat / 100

def lenv : HEnv ℚ := ⟨Fpa.exact, downSqrt, fun x => x.ceil.toNat, 1000000, -1000000⟩

/-- the multiples of 1/100 -/
def Hundredth (x : ℚ) : Prop := ∃ n : ℤ, x = n / 100

theorem lenv_sqrt : lenv.SqrtDown Hundredth where
  lower x hx := by
    show 0 ≤ downSqrt x ∧ downSqrt x ^ 2 ≤ x
    unfold downSqrt
    refine ⟨by positivity, ?_⟩
    have h0 : 0 ≤ (x * 10000).floor := Rat.le_floor_iff.2 (by push_cast; positivity)
    have h1 : ((isqrt (x * 10000).floor.toNat ^ 2 : ℕ) : ℚ) ≤ ((x * 10000).floor.toNat : ℚ) := by
      exact_mod_cast (isqrt_spec _).1
    have h2 : (((x * 10000).floor.toNat : ℤ) : ℚ) ≤ x * 10000 := by
      rw [Int.toNat_of_nonneg h0]
      exact Rat.floor_le _
    rw [div_pow, div_le_iff₀ (by norm_num)]
    push_cast at h1 h2
    linarith
  rep_sqrt x hx := ⟨isqrt (x * 10000).floor.toNat, by show downSqrt x = _; unfold downSqrt; push_cast; rfl⟩
  rep_sub := by
    rintro a b ⟨m, rfl⟩ ⟨n, rfl⟩
    exact ⟨m - n, by push_cast; ring⟩
  rep_max := ⟨100000000, by show (1000000 : ℚ) = _; norm_num⟩
  rep_le := by
    rintro R x ⟨m, rfl⟩ h0 h
    show _ ≤ downSqrt x
    unfold downSqrt
    have hm : 0 ≤ m := by
      by_contra hc
      push Not at hc
      have : (m : ℚ) ≤ -1 := by exact_mod_cast Int.le_sub_one_of_lt hc
      linarith
    obtain ⟨k, rfl⟩ := Int.eq_ofNat_of_zero_le hm
    have h1 : ((k ^ 2 : ℕ) : ℤ) ≤ (x * 10000).floor := by
      refine Rat.le_floor_iff.2 ?_
      push_cast
      push_cast at h
      linarith
    have h2 : k ≤ isqrt (x * 10000).floor.toNat := by
      have h3 := (isqrt_spec (x * 10000).floor.toNat).2
      have h4 : k ^ 2 ≤ (x * 10000).floor.toNat := by omega
      by_contra hc
      push Not at hc
      exact absurd (Nat.pow_le_pow_left (Nat.succ_le_of_lt hc) 2) (not_le.2 (h4.trans_lt h3))
    have : (k : ℚ) ≤ (isqrt (x * 10000).floor.toNat : ℚ) := by exact_mod_cast h2
    push_cast
    linarith

/-- an L-shaped polygon -/
def elPts : List (Point ℚ) := [⟨0, 0⟩, ⟨8, 0⟩, ⟨8, 4⟩, ⟨4, 4⟩, ⟨4, 8⟩, ⟨0, 8⟩]

end Ex

end Jagua
