import Verif.Lemmas.TrialStrip
import Verif.Props.Trial

/-!
# C76: a strip that the optimizer fills, up to the roundoff
-/

set_option linter.unusedSectionVars false

namespace Jagua

section Any
variable {K : Type*} [Arith K] [LinearOrder K] {n : ℕ} {R : Type*}

/-- C76, in any arithmetic: in the strip that the optimizer returns, every item was tested against the outline of this
strip and found inside, and of every two items one was tested against the other and found apart from it, however often the strip was
made longer, and fitted in the end. The items are those of the instance, turned as allowed. -/
theorem C76_strip_was_vetted {lenv : LEnv K n R} {env : StripEnv K} {cfg : LbfConfig} {addr : ℕ → ℕ → ℕ} {addrs : ℕ → ℕ → ℕ → ℕ} {addr0 addr1 : ℕ} {addrs1 : ℕ → ℕ} {fuel : ℕ}
    {inst : SPInstance K} {g : R} (hb : inst.Built) {sol : Solution K n} {p : SPProblem K n}
    (h : lbfSolveSP lenv env cfg addr addrs addr0 addr1 addrs1 fuel inst g = some (sol, p)) :
    ∃ (sn : LayoutSnapshot K n) (ts : List (Trial K n)), sol.snapshots = [sn] ∧ (∀ q ∈ ts, q.Sound env.toEnv) ∧
      Vetted env.tr inst.items ts sn.bin.outer.val (sn.placed.values.map fun pi => (pi.itemId, pi.dt)) ∧
      sn.bin.holes = [] ∧ (∀ z, some z ∉ sn.bin.qualityZones) ∧
      ∀ pi ∈ sn.placed.values, ∃ x, inst.items[pi.itemId]? = some x ∧ pi.hazardFilter = x.1.hazardFilter ∧
        pi.shape.val = x.1.shape.transform (Transf.fromDt env.tr pi.dt) ∧ x.1.Turns env.tr pi.dt.rotation := by
  obtain ⟨l, ts, sn, e1, e2, e3, hk, hs, hv⟩ := lbfSolveSP_vetted hb h
  refine ⟨sn, ts, e1, hs, ?_, ?_, ?_, ?_⟩
  · rw [e2, e3]; exact hv
  · rw [e2]; exact hk.holes
  · rw [e2]; exact hk.zones
  · rw [e3]; exact hk.known

end Any

variable {r : Rounding} {u : ℚ} {n : ℕ}

/-- C76: in arithmetic with rounding, if every item was tested against the outline, and of every two items one against the
other, in tests with shapes in general position, then the placements as they are meant fit up to the error. -/
theorem C76_vetted_nearly_feasible (st : r.Standard u) (hu : u ≤ 1 / 256) {env : Env (Rounded r)} {η : ℝ} (ht : env.tr.Accurate η) (hη : η < 1 / 2) {M' ε' w δ : ℚ}
    (hf : env.f.TolerantIn M' ε') {items : List (Item (Rounded r) × ℕ)} {M T : ℚ} (hs : ∀ x ∈ items, ∀ p ∈ x.1.shape.points, p.UpTo M)
    {ε : ℝ} (hε : ε = (u : ℝ) * (7 * M + T) + 6 * η * M) {b : Bin (Rounded r) n} (hh : b.holes = []) (hz : ∀ z, some z ∉ b.qualityZones) {ps : List (PlacedItem (Rounded r))}
    {ts : List (Trial (Rounded r) n)} (hsnd : ∀ q ∈ ts, q.Sound env) (hv : Vetted env.tr items ts b.outer.val (ps.map fun pi => (pi.itemId, pi.dt)))
    (hturn : ∀ pi ∈ ps, ∀ x, items[pi.itemId]? = some x → x.1.Turns env.tr pi.dt.rotation)
    (hT : ∀ pi ∈ ps, pi.dt.UpTo T) (hn : ∀ q ∈ ts, (q.engine.allHazards.map (·.entity)).Nodup)
    (hr : ∀ q ∈ ts, q.engine.Rounds q.shape q.ignored u M' ε' w δ) : NearlyFeasible ε ⟨items, []⟩ b ps := by
  have key1 : ∀ x ∈ items, ∀ dt t, x.1.TrialOf env.tr dt t → dt.UpTo T →
      List.Forall₂ (CloseTo ε) (x.1.shape.real.map dt.move) ((x.1.shape.transform t).exact.map Point.cast) := by
    intro x hx dt t h1 h2
    rw [SPoly.exact_cast, hε]
    exact trial_close st hu ht hη h1 (hs x hx) h2
  have free : ∀ q ∈ ts, ∀ hz ∈ q.engine.allHazards, hz.entity ∉ q.ignored →
      (hz.entity.position = .interior → Disjoint (region q.shape.exact) (region hz.shape.val.exact)) ∧
      (hz.entity.position = .exterior → ∀ p ∈ region q.shape.exact, p ∈ region hz.shape.val.exact) := by
    intro q hq hz h1 h2
    obtain ⟨hfree, hreach⟩ := hsnd q hq
    obtain ⟨b, g1, g2⟩ := C70_query_decides_feasibility st hu hf (hreach (hn q hq)) (hr q hq)
    unfold Trial.Free at hfree
    rw [g1] at hfree
    obtain rfl := Option.some.inj hfree
    simp only [Bool.false_eq_true, false_iff, not_or, not_exists, not_and] at g2
    have g3 := g2.2 hz h1 h2
    constructor
    · intro h3
      rw [Set.disjoint_left]
      intro p hp1 hp2
      refine g3 p hp1 ?_
      rw [h3]
      exact hp2
    · intro h3 p hp1
      by_contra hc
      refine g3 p hp1 ?_
      rw [h3]
      exact Or.inr hc
  have me : ∀ pi x, items[pi.itemId]? = some x → (⟨items, []⟩ : BPInstance (Rounded r) n).meant pi = x.1.shape.real.map pi.dt.move := by
    intro pi x hx
    unfold BPInstance.meant
    dsimp only
    rw [hx]
  have hεne : ∀ pi x, items[pi.itemId]? = some x → pi ∈ ps → ∀ y : Point ℝ, y ∈ region (x.1.shape.real.map pi.dt.move) → 0 ≤ ε := by
    intro pi x hx hpi y hy
    have η0 : 0 ≤ η := (abs_nonneg _).trans (ht.cos_near 0)
    have T0 : 0 ≤ T := (abs_nonneg _).trans (hT pi hpi).1
    have u0 := st.nonneg
    have : 0 ≤ M := by
      rcases hpt : x.1.shape.points with _ | ⟨p, l⟩
      · exfalso
        rw [show x.1.shape.real = [] by unfold SPoly.real; rw [hpt]; rfl] at hy
        rcases hy with ⟨t, ht, -⟩ | ⟨-, hy⟩
        · simp [sides] at ht
        · simp [rayCount, sides] at hy
      · exact (abs_nonneg _).trans (hs x (List.mem_of_getElem? hx) p (by rw [hpt]; exact List.mem_cons_self)).1
    rw [hε]
    positivity
  have pair : ∀ a ∈ ps, ∀ c ∈ ps, ∀ q ∈ ts, q.About env.tr items (a.itemId, a.dt) → q.AgainstItem env.tr items (c.itemId, c.dt) →
      ∀ y, ¬ (DeepIn ε ((⟨items, []⟩ : BPInstance (Rounded r) n).meant a) y ∧ DeepIn ε ((⟨items, []⟩ : BPInstance (Rounded r) n).meant c) y) := by
    rintro a ha c hc q hq ⟨x, t, hx, htr, hsh⟩ ⟨hig, z, hz, h, hh1, hh2, hh3⟩ y ⟨d1, d2⟩
    rw [me a x hx] at d1
    rw [me c z hz] at d2
    have hd := (free q hq h hh1 (by rw [hh2]; exact hig)).1 (by rw [hh2]; rfl)
    rw [hsh, hh3] at hd
    exact shallow hd (key1 x (List.mem_of_getElem? hx) a.dt t htr (hT a ha))
      (key1 z (List.mem_of_getElem? hz) c.dt _ (.direct (hturn c hc z hz)) (hT c hc)) y d1 d2
  refine ⟨?_, ?_, ?_, ?_⟩
  · intro pi hpi y hy
    obtain ⟨q, hq, ⟨x, t, hx, htr, hsh⟩, hig, h, hh1, hh2, hh3⟩ := hv.inside _ (List.mem_map_of_mem (f := fun pi : PlacedItem (Rounded r) => (pi.itemId, pi.dt)) hpi)
    rw [me pi x hx] at hy
    have e0 := hεne pi x hx hpi y hy
    have hin := (free q hq h hh1 (by rw [hh2]; exact hig)).2 (by rw [hh2]; rfl)
    rw [hsh, hh3] at hin
    rw [← SPoly.exact_cast]
    exact region_moved hin e0 (key1 x (List.mem_of_getElem? hx) pi.dt t htr (hT pi hpi)) y hy
  · intro pi hpi s hs
    rw [hh] at hs
    cases hs
  · intro pi hpi z hzm
    exact absurd hzm (hz z)
  · refine ((List.pairwise_map.1 hv.apart)).imp_of_mem ?_
    rintro a c ha hc ⟨q, hq, ⟨h1, h2⟩ | ⟨h1, h2⟩⟩ y hy
    · exact pair a ha c hc q hq h1 h2 y hy
    · exact pair c hc a ha q hq h1 h2 y hy.symm

/-- C76: the strip in a solution of the optimizer is feasible up to the roundoff: there are the tests after which its items were
placed; if what was compared in them was in general position and no two things in an engine were equal, then the placements as they are meant
overlap each other, and stick out of the strip, by no more than the error. -/
theorem C76_strip_nearly_feasible {R : Type*} (st : r.Standard u) (hu : u ≤ 1 / 256) {lenv : LEnv (Rounded r) n R} {env : StripEnv (Rounded r)} {η : ℝ} (ht : env.tr.Accurate η)
    (hη : η < 1 / 2) {M' ε' w δ : ℚ} (hf : env.f.TolerantIn M' ε') {cfg : LbfConfig} {addr : ℕ → ℕ → ℕ} {addrs : ℕ → ℕ → ℕ → ℕ} {addr0 addr1 : ℕ} {addrs1 : ℕ → ℕ}
    {fuel : ℕ} {inst : SPInstance (Rounded r)} {g : R} (hb : inst.Built) {M T : ℚ} (hs : ∀ x ∈ inst.items, ∀ p ∈ x.1.shape.points, p.UpTo M) {ε : ℝ}
    (hε : ε = (u : ℝ) * (7 * M + T) + 6 * η * M) {sol : Solution (Rounded r) n} {p : SPProblem (Rounded r) n}
    (h : lbfSolveSP lenv env cfg addr addrs addr0 addr1 addrs1 fuel inst g = some (sol, p)) :
    ∃ (sn : LayoutSnapshot (Rounded r) n) (ts : List (Trial (Rounded r) n)), sol.snapshots = [sn] ∧ (∀ q ∈ ts, q.Sound env.toEnv) ∧
      Vetted env.tr inst.items ts sn.bin.outer.val (sn.placed.values.map fun pi => (pi.itemId, pi.dt)) ∧
      ((∀ pi ∈ sn.placed.values, pi.dt.UpTo T) → (∀ q ∈ ts, (q.engine.allHazards.map (·.entity)).Nodup) →
        (∀ q ∈ ts, q.engine.Rounds q.shape q.ignored u M' ε' w δ) → NearlyFeasible ε inst.listed sn.bin sn.placed.values) := by
  obtain ⟨sn, ts, e1, e2, e3, e4, e5, e6⟩ := C76_strip_was_vetted hb h
  refine ⟨sn, ts, e1, e2, e3, fun h1 h2 h3 => ?_⟩
  refine C76_vetted_nearly_feasible st hu ht hη hf hs hε e4 e5 e2 e3 ?_ h1 h2 h3
  intro pi hpi x hx
  obtain ⟨x', hx', _, _, hturn⟩ := e6 pi hpi
  rw [hx] at hx'
  obtain rfl := Option.some.inj hx'
  exact hturn

end Jagua
