import Verif.Spec.HPGExact
import Verif.Spec.HPGExamples

/-!
# A concrete tidy history
-/

namespace Jagua.Ex

open Jagua

theorem upSqrt_min (k lo hi m : ℕ) (h : lo ^ 2 < m ∨ lo = 0) (hk : hi ≤ lo + 2 ^ k) :
    ∃ l, (l ^ 2 < m ∨ l = 0) ∧ upSqrt k lo hi m ≤ l + 1 := by
  induction k generalizing lo hi with
  | zero => exact ⟨lo, h, by unfold upSqrt; simpa using hk⟩
  | succ k ih =>
    unfold upSqrt
    rw [pow_succ] at hk
    split_ifs with hc
    · exact ih lo _ h (by omega)
    · exact ih _ hi (.inl (not_le.1 hc)) (by omega)

/-- the square root of the examples is off by at most 1/100 -/
theorem henv_within : henv.SqrtWithin (1 / 100) := by
  have hup := henv_sqrt
  refine ⟨by norm_num, fun x hx => (hup x hx).1, fun x hx => ?_, ?_⟩
  · obtain ⟨h0, h1⟩ := hup x hx
    nlinarith
  · intro x a hx ha hxa
    show ratSqrt x ≤ _
    unfold ratSqrt
    obtain ⟨l, hl, hu⟩ := upSqrt_min (Nat.log2 ((x * 10000).ceil.toNat + 1) + 1) 0 ((x * 10000).ceil.toNat + 1) (x * 10000).ceil.toNat (.inr rfl)
      (by rw [zero_add]; exact Nat.lt_log2_self.le)
    have hu' : (upSqrt (Nat.log2 ((x * 10000).ceil.toNat + 1) + 1) 0 ((x * 10000).ceil.toNat + 1) (x * 10000).ceil.toNat : ℚ) ≤ l + 1 := by
      exact_mod_cast hu
    have hla : (l : ℚ) ≤ 100 * a := by
      rcases hl with hl | hl
      · have h1 : ((l ^ 2 : ℕ) : ℤ) < (x * 10000).ceil := by
          have := Int.lt_toNat.1 hl
          exact_mod_cast this
        have h2 : ((l ^ 2 : ℕ) : ℚ) < x * 10000 := by
          have := Rat.lt_ceil_iff.1 h1
          exact_mod_cast this
        push_cast at h2
        have h3 : (l : ℚ) ^ 2 ≤ (100 * a) ^ 2 := by nlinarith
        exact abs_le_of_sq_le_sq' h3 (by linarith) |>.2
      · rw [hl]; push_cast; linarith
    rw [div_le_iff₀ (by norm_num)]
    linarith

theorem hRunChecked_tidy {n : ℕ} {bbox : AARect ℚ} {statics : List (Hazard ℚ)} {nCells : ℕ} {φ : HazardEntity ℚ → Hazard ℚ}
    {ops : List (HOp ℚ)} (hops : ∀ op ∈ ops, ∀ e, op ≠ .deregister e true) {c c' : HCDE ℚ n}
    (h0 : HTidy henv SearchOracle.first bbox statics nCells φ (.inl c))
    (h : hRunChecked φ ops c = some c') : HTidy henv SearchOracle.first bbox statics nCells φ (.inl c') := by
  induction ops generalizing c with
  | nil => cases h; exact h0
  | cons op ops ih =>
    rw [hRunChecked] at h
    split_ifs at h with hp
    obtain ⟨c1, h1, h⟩ := Option.bind_eq_some_iff.1 h
    refine ih (fun op hop => hops op (List.mem_cons_of_mem _ hop)) ?_ h
    cases op with
    | register x =>
      simp only [hPreB, Bool.and_eq_true, decide_eq_true_eq] at hp
      exact .register h0 (preB_iff.1 hp.1) hp.2 h1
    | deregister e ci => exact .deregister h0 (preB_iff.1 hp) (fun hci => absurd (by rw [hci]) (hops _ List.mem_cons_self e)) h1
    | flush => exact .flush h0 h1
    | commit => exact .commit h0 h1
    | snapshot => simp [hPreB] at hp
    | restore s => simp [hPreB] at hp

/-- the grid of the 8 × 8 bin consists of 4 × 4 cells of size 2 -/
theorem hpg_uniform {g : HPG ℚ} (h : HPG.new henv ⟨0, 0, 8, 8⟩ [hBin] 16 = some g) :
    g.Covers ⟨0, 0, 8, 8⟩ ∧ g.Hugs ⟨0, 0, 8, 8⟩ ∧ g.Roomy ⟨0, 0, 8, 8⟩ ⟨0, 0, 8, 8⟩ ∧ 32 * (1 / 100) ≤ g.cellRadius := by
  have hd : (HPG.new henv ⟨0, 0, 8, 8⟩ [hBin] 16).map (fun g => decide (32 * (1 / 100) ≤ g.cellRadius) &&
      (List.range 4).all (fun i => (List.range 4).all fun j =>
        decide (∃ x ∈ g.grid.cells, x.map (·.bbox) = some (⟨2 * i, 2 * j, 2 * i + 2, 2 * j + 2⟩ : AARect ℚ))) &&
      g.grid.cells.all (fun x => match x with
        | none => true
        | some x => decide (0 ≤ x.centroid.x ∧ x.centroid.x ≤ 8 ∧ 0 ≤ x.centroid.y ∧ x.centroid.y ≤ 8 ∧
            0 < sqDist x.centroid ⟨x.bbox.xMin, x.bbox.yMin⟩))) = some true := by
    decide +kernel
  rw [h, Option.map_some] at hd
  have hd := Option.some.inj hd
  simp only [Bool.and_eq_true, decide_eq_true_eq, List.all_eq_true, List.mem_range] at hd
  obtain ⟨⟨h1, h2⟩, h3⟩ := hd
  refine ⟨?_, ?_, ⟨le_rfl, le_rfl, .inl rfl, .inl rfl⟩, h1⟩
  · rintro p ⟨p1, p2, p3, p4⟩
    dsimp only at p1 p2 p3 p4
    have split : ∀ z : ℚ, 0 ≤ z → z ≤ 8 → ∃ i < 4, 2 * ((i : ℕ) : ℚ) ≤ z ∧ z ≤ 2 * (i : ℕ) + 2 := by
      intro z z0 z8
      by_cases c1 : z ≤ 2
      · exact ⟨0, by norm_num, by push_cast; linarith, by push_cast; linarith⟩
      by_cases c2 : z ≤ 4
      · exact ⟨1, by norm_num, by push_cast; linarith, by push_cast; linarith⟩
      by_cases c3 : z ≤ 6
      · exact ⟨2, by norm_num, by push_cast; linarith, by push_cast; linarith⟩
      · exact ⟨3, by norm_num, by push_cast; linarith, by push_cast; linarith⟩
    obtain ⟨i, hi, hx⟩ := split p.x p1 p2
    obtain ⟨j, hj, hy⟩ := split p.y p3 p4
    obtain ⟨o, ho, he⟩ := h2 i hi j hj
    obtain ⟨x, rfl, hxb⟩ := Option.map_eq_some_iff.1 he
    exact ⟨x, ho, by rw [hxb]; exact ⟨hx.1, hx.2, hy.1, hy.2⟩⟩
  · intro x hx
    have := h3 _ hx
    simp only [decide_eq_true_eq] at this
    obtain ⟨k1, k2, k3, k4, k5⟩ := this
    refine ⟨x.centroid, ⟨k1, k2, k3, k4⟩, ?_⟩
    have e : sqDist x.centroid x.centroid = 0 := by unfold sqDist; ring
    rw [e]
    exact k5

theorem withPole_fits {s : SPoly ℚ} {box : AARect ℚ} (h0 : 0 ≤ s.poi.radius)
    (hx : box.xMin + s.poi.radius ≤ s.poi.center.x ∧ s.poi.center.x + s.poi.radius ≤ box.xMax)
    (hy : box.yMin + s.poi.radius ≤ s.poi.center.y ∧ s.poi.center.y + s.poi.radius ≤ box.yMax) :
    ∀ t, (withPole s).surrogate = some t → t.FitsIn box := by
  intro t ht
  cases ht
  refine ⟨?_, ?_, ?_, h0, ?_⟩ <;> intro pole hp <;> rw [List.mem_singleton.1 hp]
  · exact h0
  · exact hx
  · exact hy

theorem pHaz_active (e : HazardEntity ℚ) : (pHaz e).active = true := by
  rcases e with ⟨_ | _, _⟩ | _ | _ | _ <;> rfl

theorem pHaz_fits (e : HazardEntity ℚ) : ∀ t, (pHaz e).shape.val.surrogate = some t → t.FitsIn ⟨0, 0, 8, 8⟩ := by
  rcases e with ⟨_ | _, _⟩ | _ | _ | _
  · exact withPole_fits (by decide +kernel) (by decide +kernel) (by decide +kernel)
  · exact withPole_fits (by decide +kernel) (by decide +kernel) (by decide +kernel)
  all_goals
    intro t ht
    cases ht

end Jagua.Ex
