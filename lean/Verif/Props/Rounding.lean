import Verif.Spec.Rounding
import Verif.Props.Problem

/-!
# The claims about bookkeeping in arithmetic with rounding
-/

namespace Jagua

namespace Ex

/-- sixteenths are not a field: a third times three is not one -/
theorem sixteenths_round : (q 1 / q 3) * q 3 ≠ (1 : Q16) := by decide +kernel

theorem rInst_built {inst : BPInstance Q16 2} (h : rInst = some inst) : inst.Built rEnv := by
  unfold rInst at h
  obtain ⟨outer, ho, h⟩ := Option.bind_eq_some_iff.1 h
  obtain ⟨bin, hb, h⟩ := Option.bind_eq_some_iff.1 h
  have h' := h
  unfold BPInstance.new at h'
  split_ifs at h' with hc
  rw [Option.some.injEq] at h'
  subst h'
  refine ⟨h, ?_⟩
  intro x hx
  rw [List.mem_singleton] at hx
  subst hx
  exact ⟨_, _, _, _, _, _, hb⟩

theorem rAfter_reachable {st : BPState Q16 2} (h : rAfter = some st) : st.Reachable rEnv := by
  unfold rAfter at h
  obtain ⟨inst, hi, h⟩ := Option.bind_eq_some_iff.1 h
  exact ⟨inst, rOps, rInst_built hi, bpRunIn_run h⟩

end Ex

-- Two squares are in the bin after an item was placed, a solution made, another item
-- placed and the solution restored. The second square is turned by rounded sines and
-- cosines, and is not a square any more. Demand and stock are right all the same, by
-- `C19_demand` and `C20_stock`.
example : ∃ st : BPState Ex.Q16 2, st.Reachable Ex.rEnv ∧ st.p.missing = [1] ∧ copies st.p.layouts 0 = 2 ∧ st.p.binQtys = [0] ∧
    Ex.rCorners st =
      [[(1, 1), (3, 1), (3, 3), (1, 3)], [(5, 29 / 8), (51 / 8, 5), (5, 51 / 8), (29 / 8, 5)]] := by
  obtain ⟨st, hst⟩ : ∃ st, Ex.rAfter = some st := Option.isSome_iff_exists.1 (by decide +kernel)
  have h : Ex.rAfter.map (fun st => (st.p.missing, copies st.p.layouts 0, st.p.binQtys)) = some ([1], 2, [0]) := by decide +kernel
  have h2 : Ex.rAfter.map Ex.rCorners = some [[(1, 1), (3, 1), (3, 3), (1, 3)], [(5, 29 / 8), (51 / 8, 5), (5, 51 / 8), (29 / 8, 5)]] := by
    decide +kernel
  rw [hst, Option.map_some, Option.some_inj] at h h2
  simp only [Prod.mk.injEq] at h
  exact ⟨st, Ex.rAfter_reachable hst, h.1, h.2.1, h.2.2, h2⟩

end Jagua
