import Verif.Lemmas.HPGTotal
import Verif.Props.Poles
import Verif.Spec.HPGExamples

/-! # C71: operations of an engine with a proximity grid never fail -/

set_option linter.unusedSectionVars false

namespace Jagua

variable {K : Type*} [Field K] [LinearOrder K] [IsStrictOrderedRing K] {n : ℕ}

/-- **Operations never fail.** Let square roots be nonnegative. Take an engine with or without
a grid that came out of any sequence of operations that meet the obligations of the caller,
registering only hazards whose shapes have a surrogate with poles. Then registering another
one, removing one (either way), flushing, committing, taking a snapshot and restoring
any snapshot that was taken before do not panic. -/
theorem C71_operations_never_fail {env : HEnv K} {o : SearchOracle K} {bbox : AARect K} {statics : List (Hazard K)} {nCells : ℕ}
    {φ : HazardEntity K → Hazard K} (hs : ∀ x, 0 ≤ x → 0 ≤ env.sqrt x) (hst : (statics.map (·.entity)).Nodup)
    (hφ : ∀ e, (φ e).Registrable) {c : HCDE K n} (hr : HReach env o bbox statics nCells φ (.inl c)) :
    (∀ h, (CDEOp.register h).Pre c.cde → h.erase = φ h.entity → ∃ c', c.register env o h = some c') ∧
    (∀ e ci, (CDEOp.deregister e ci).Pre c.cde → ∃ c', c.deregister env o e ci = some c') ∧
    (∃ c', c.flush env = some c') ∧ (∃ c', c.commit env = some c') ∧ (∃ r, c.createSnapshot env = some r) ∧
    (∀ s, HReach (n := n) env o bbox statics nCells φ (.inr s) → ∃ c', c.restore env o s = some c') := by
  refine HReach.total hst hφ ?_ hr
  intro g hg e s hsur pole hp
  obtain ⟨s', e1, -, h2⟩ := (hφ e).surrogate
  rw [hsur] at e1
  cases e1
  have h0 := h2 pole hp
  obtain ⟨⟨rects, -, ⟨r, -, hrad⟩, -⟩, -, -⟩ := HPG.new_cells hg
  have h3 : 0 ≤ g.cellRadius := by
    rw [hrad]
    exact div_nonneg (hs _ (by positivity)) (by norm_num)
  simp only [HPG.seedBox, Circle.bbox]
  constructor <;> linarith

namespace Ex

/-- hazards by entity, all of which can be registered -/
def totHaz : HazardEntity ℚ → Hazard ℚ
  | .placedItem 0 _ => pTri.erase
  | _ => pSq.erase

theorem totHaz_registrable (e : HazardEntity ℚ) : (totHaz e).Registrable := by
  have h1 : pTri.erase.Registrable := ⟨by decide, ⟨_, rfl, by decide, by decide +kernel⟩, by decide +kernel, by decide +kernel⟩
  have h2 : pSq.erase.Registrable := ⟨by decide, ⟨_, rfl, by decide, by decide +kernel⟩, by decide +kernel, by decide +kernel⟩
  unfold totHaz
  split
  · exact h1
  · exact h2

end Ex

-- the 8 × 8 bin with a grid, after a removal that waits to be processed; the triangle can come back
example : ∃ c : HCDE ℚ 2, HReach Ex.henv SearchOracle.first ⟨0, 0, 8, 8⟩ [Ex.hBin] 16 Ex.totHaz (.inl c) ∧
    (∀ x, 0 ≤ x → 0 ≤ Ex.henv.sqrt x) ∧ ([Ex.hBin].map (·.entity)).Nodup ∧ (∀ e, (Ex.totHaz e).Registrable) ∧
    c.hazProxGrid = some none ∧ (CDEOp.register Ex.pTri).Pre c.cde ∧ Ex.pTri.erase = Ex.totHaz Ex.pTri.entity ∧
    (CDEOp.deregister Ex.pSq.entity true).Pre c.cde := by
  obtain ⟨c0, hc0⟩ : ∃ c, Ex.hStart = some c := Option.isSome_iff_exists.1 (by decide +kernel)
  have h : (Ex.hStart.bind (Ex.hRunChecked Ex.totHaz (Ex.hOps.take 3))).map (fun c => (c.hazProxGrid.map Option.isNone).getD false &&
      Ex.preB c.cde (.register Ex.pTri) && Ex.preB c.cde (.deregister Ex.pSq.entity true)) = some true := by decide +kernel
  obtain ⟨c, hc, h⟩ := Option.map_eq_some_iff.1 h
  rw [hc0, Option.bind_some] at hc
  simp only [Bool.and_eq_true] at h
  have hz : c.hazProxGrid = some none := by
    have := h.1.1
    cases hg : c.hazProxGrid with
    | none => rw [hg] at this; cases this
    | some o =>
      rw [hg] at this
      cases o with
      | none => rfl
      | some g => cases this
  exact ⟨c, Ex.hRunChecked_reach (.new hc0) hc, fun x hx => (Ex.henv_sqrt x hx).1, by decide, Ex.totHaz_registrable, hz,
    Ex.preB_iff.1 h.1.2, by decide +kernel, Ex.preB_iff.1 h.2⟩

/-- The surrogate is needed: an engine with a grid panics when a hazard without surrogate is registered. -/
theorem C71_no_surrogate_fails {env : HEnv K} {o : SearchOracle K} {c : HCDE K n} {g : HPG K} (hg : c.hpg = some g) {h : Hazard K}
    (hs : h.shape.val.surrogate = none) (hu : ∀ u ∈ c.cde.uncommitted, u.entity ≠ h.entity) : c.register env o h = none := by
  have h1 : c.cde.uncommitted.find? (fun u => u.entity = h.entity) = none := by
    rw [List.find?_eq_none]
    intro u hu' e
    exact hu u hu' (by simpa using e)
  unfold HCDE.register
  rw [h1, Option.getD_none]
  cases c.cde.register env.f o h with
  | none => rfl
  | some cde =>
    rw [Option.bind_some, hg]
    unfold HCDE.onGrid HPG.register
    rw [hs]
    rfl

-- the square without its surrogate
example : ∃ (c : HCDE ℚ 2) (g : HPG ℚ), Ex.hStart = some c ∧ c.hpg = some g ∧ c.cde.uncommitted = [] ∧
    c.register Ex.henv SearchOracle.first ⟨.placedItem 1 Ex.dt, ⟨2, Ex.sq⟩, true⟩ = none ∧
    (c.register Ex.henv SearchOracle.first Ex.pSq).isSome = true := by
  have h : Ex.hStart.map (fun c => c.hpg.isSome && decide (c.cde.uncommitted = []) &&
      (c.register Ex.henv SearchOracle.first ⟨.placedItem 1 Ex.dt, ⟨2, Ex.sq⟩, true⟩).isNone &&
      (c.register Ex.henv SearchOracle.first Ex.pSq).isSome) = some true := by decide +kernel
  obtain ⟨c, hc, h⟩ := Option.map_eq_some_iff.1 h
  simp only [Bool.and_eq_true, decide_eq_true_eq, Option.isNone_iff_eq_none] at h
  obtain ⟨g, hg⟩ := Option.isSome_iff_exists.1 h.1.1.1
  exact ⟨c, g, hc, hg, h.1.1.2, h.1.2, h.2⟩

/-- What `C71_operations_never_fail` asks for is what loading an item produces: a shape that was built from
points, with its generated surrogate, transformed in any way. -/
theorem C71_shapes_can_be_registered {env : HEnv K} {Rep : K → Prop} (hs : env.SqrtDown Rep) (hf : env.f = Fpa.exact)
    (hm : 0 ≤ env.fmax) {pts : List (Point K)} {s : SPoly K} (hb : SPoly.build env pts = some s) {pi : K}
    {piers : SPoly K → ℕ → Option (List (Edge K))} {cfg : SurrogateConfig K} {sur : Surrogate K}
    (h : Surrogate.new env pi piers s cfg = some sur) (t : Transf K) (addr i : ℕ) (dt : DTransf K) (active : Bool) :
    (⟨.placedItem i dt, ⟨addr, { s with surrogate := some sur }.transform t⟩, active⟩ : Hazard K).Registrable := by
  obtain ⟨h1, h2, -⟩ := C47_surrogate_poles hs hf hm hb h
  have hne : s.points ≠ [] := (SPoly.build_spec hb).1.nonempty
  have hbox : ∃ p, p ∈ s.points.map (·.transform t) := by
    obtain ⟨p, hp⟩ := List.exists_mem_of_ne_nil _ hne
    exact ⟨_, List.mem_map_of_mem hp⟩
  obtain ⟨p, hp⟩ := hbox
  have hin := mem_boundingBox hp
  refine ⟨rfl, ⟨sur.transform t, rfl, ?_, ?_⟩, ?_, ?_⟩
  · intro e
    have : sur.poles = [] := List.map_eq_nil_iff.1 e
    rw [this] at h1
    cases h1
  · intro pole hp
    obtain ⟨q, hq, rfl⟩ := List.mem_map.1 hp
    exact (h2 q hq).1.le
  · exact hin.1.trans hin.2.1
  · exact hin.2.2.1.trans hin.2.2.2

-- the square of side 4 with two poles, over the real numbers
example : ∃ s sur, HEnv.real.SqrtDown (fun _ => True) ∧ HEnv.real.f = Fpa.exact ∧ 0 ≤ HEnv.real.fmax ∧
    SPoly.build HEnv.real (rectPoly (0 : ℝ) 0 4 4) = some s ∧
    Surrogate.new HEnv.real 3 (fun _ _ => some []) s ⟨1, 2, 2, 0⟩ = some sur ∧ sur.poles.length = 2 := by
  obtain ⟨s, sur, h1, h2, h3⟩ := Ex.real_surrogate
  exact ⟨s, sur, HEnv.real_sqrt.down, rfl, by show (0 : ℝ) ≤ 1000000; norm_num, h1, h2, h3⟩

end Jagua
