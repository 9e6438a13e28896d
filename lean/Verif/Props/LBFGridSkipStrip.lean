import Verif.Props.LBFGridSkip
import Verif.Lemmas.LBFGridStrip
import Verif.Lemmas.LBFStrip

/-! # C78 for strips: a strip with room for an item is searched before it is made longer -/

set_option linter.unusedSectionVars false

namespace Jagua

section
variable {K : Type*} [Arith K] [LinearOrder K] {n : ℕ} {R : Type*}

/-- **The states of a run.** What the loop of the optimizer ends in is a state of the run, over any arithmetic. -/
theorem C78_strip_states {lenv : LEnv K n R} {henv : HEnv K} {nCells : ℕ} {env : StripEnv K} {cfg : LbfConfig} {inst : SPInstance K} {addr : ℕ → ℕ} {addrs : ℕ → ℕ → ℕ} {i : ℕ} :
    ∀ (k : ℕ) {s t : GridSP K n} {r r' : R}, GridSP.Run lenv henv nCells env cfg inst s r →
    lbfPlaceSPG lenv henv nCells env cfg addr addrs i k s r = some (t, r') → GridSP.Run lenv henv nCells env cfg inst t r'
  | 0, _, _, _, _, _, h => by cases h
  | k + 1, s, t, r, r', hs, h => by
    unfold lbfPlaceSPG at h
    obtain ⟨m, hm, h⟩ := Option.bind_eq_some_iff.1 h
    split_ifs at h with hpos
    · obtain ⟨item, hi, h⟩ := Option.bind_eq_some_iff.1 h
      obtain ⟨⟨o, r1⟩, ho, h⟩ := Option.bind_eq_some_iff.1 h
      cases o with
      | none =>
        obtain ⟨q, hq, h⟩ := Option.bind_eq_some_iff.1 h
        exact C78_strip_states k (hs.grow hi ho hq) h
      | some opt =>
        obtain ⟨q, hq, h⟩ := Option.bind_eq_some_iff.1 h
        exact C78_strip_states k (hs.place hm hpos hi ho hq) h
    · cases h
      exact hs

end

variable {K : Type*} [Field K] [LinearOrder K] [IsStrictOrderedRing K] {n : ℕ} {R : Type*}

theorem GridSP.Run.ok {lenv : LEnv K n R} {henv : HEnv K} {nCells : ℕ} {env : StripEnv K} {cfg : LbfConfig} {inst : SPInstance K}
    (hf : env.f = Fpa.exact) (hpoi : PoiOfRects env.poi) (hu : env.tr.Unit) (hp : env.tr.Polar) (hb : inst.Built) (hitems : ∀ x ∈ inst.items, x.1.Fine)
    {s : GridSP K n} {r : R} (h : GridSP.Run lenv henv nCells env cfg inst s r) : LbfSP env inst s.p ∧ s.Fresh henv nCells := by
  induction h with
  | start h0 =>
    obtain ⟨e, f⟩ := GridSP.Fresh.new h0
    exact ⟨LbfSP.start hb e, f⟩
  | @place s r r' i m item opt addr q _ hm hpos hi hfp hq ih =>
    obtain ⟨i1, i2⟩ := ih
    obtain ⟨e, f⟩ := i2.place hq
    rw [findPlacementG_eq (henv := henv) (nCells := nCells) _ r (by
        intro x hx
        obtain rfl := List.mem_singleton.1 hx
        exact i2)] at hfp
    rw [i1.same] at hi
    obtain ⟨q', hq', h1, -⟩ := i1.place hf hpoi hu hp hitems hm hpos hi hfp rfl addr
    rw [e] at hq'
    cases hq'
    exact ⟨h1, f⟩
  | @grow s s' r r' i item addr addrs _ hi hfp hq ih =>
    obtain ⟨i1, i2⟩ := ih
    obtain ⟨e, f⟩ := GridSP.modifyInBack_fresh hq
    obtain ⟨q', hq', h1, -⟩ := i1.grow hf hpoi hu hitems addr addrs
    rw [e] at hq'
    cases hq'
    exact ⟨h1, f⟩

/-- **A strip with room for an item is searched before it is made longer.** In any state of a run, if one more copy of an item fits into the strip and the search for a
place fails, so that the strip is made longer, the search did sample the strip, the position where it fits is one of those that it could have drawn, and all samples
were rejected. -/
theorem C78_strip_with_room {lenv : LEnv K n R} {henv : HEnv K} {nCells : ℕ} {env : StripEnv K} {cfg : LbfConfig} {inst : SPInstance K}
    (hf : env.f = Fpa.exact) (hpoi : PoiOfRects env.poi) (hu : env.tr.Unit) (hp : env.tr.Polar) (hb : inst.Built)
    (hitems : ∀ x ∈ inst.items, x.1.shape.Proper ∧ signedArea x.1.shape.points ≠ 0)
    (hmono : ∀ x y, 0 ≤ x → x < y → henv.sqrt x < henv.sqrt y) (hs : henv.SqrtUpper) (hhf : henv.f = Fpa.exact) (hce : henv.CeilExact)
    (hok : ∀ x ∈ inst.items, x.1.Searchable henv) {s : GridSP K n} {r r' : R} (hrun : GridSP.Run lenv henv nCells env cfg inst s r)
    {x : Item K × ℕ} (hx : x ∈ inst.items) (h : findPlacementG lenv env.toEnv cfg x.1 [((.real 0, s.p.layout), s.grid)] r = some (none, r'))
    {a : ℕ} {dt : DTransf K} (hroom : Feasible s.p.layout.bin (PlacedItem.new env.toEnv a x.1 dt :: s.p.layout.placed.values))
    (hrot : x.1.Allows env.tr dt.rotation) (hturn : x.1.allowedRotation = .continuous → ∃ b, 0 ≤ b ∧ b < 2 * lenv.pi ∧ SameTurn env.tr dt.rotation b) :
    ∃ sampler, HPGSampler.new (lenv.withGrid s.grid) x.1 s.p.layout = some (some sampler) ∧
      sampler.CanDraw env.tr (Transf.fromDt env.tr dt) ∧
      sampleLayout (lenv.withGrid s.grid) env.toEnv cfg (.real 0) s.p.layout x.1 r = some (none, r') := by
  have hfine : ∀ x ∈ inst.items, x.1.Fine := fun x hx => ⟨(hitems x hx).1, (hitems x hx).2⟩
  obtain ⟨hL, hfr⟩ := hrun.ok hf hpoi hu hp hb hfine
  have hsl : sampleLayout (lenv.withGrid s.grid) env.toEnv cfg (.real 0) s.p.layout x.1 r = some (none, r') := by
    unfold findPlacementG at h
    obtain ⟨⟨o, r1⟩, h1, h⟩ := Option.bind_eq_some_iff.1 h
    cases o with
    | some opt => cases h
    | none =>
      dsimp only at h
      unfold findPlacementG at h
      cases h
      exact h1
  obtain ⟨o, ho⟩ : ∃ o, HPGSampler.new (lenv.withGrid s.grid) x.1 s.p.layout = some o := by
    unfold sampleLayout at hsl
    dsimp only at hsl
    obtain ⟨_, _, hsl⟩ := Option.bind_eq_some_iff.1 hsl
    split_ifs at hsl
    obtain ⟨o, ho, _⟩ := Option.bind_eq_some_iff.1 hsl
    exact ⟨o, ho⟩
  have hinv : s.p.layout.Inv env.toEnv inst.cat := by
    have := hL.inv.core.layout.inv
    dsimp only at this
    rwa [hL.same] at this
  have hstrip := hL.inv.core.layout.strip
  dsimp only at hstrip
  obtain ⟨sampler, rfl, hpre, d, hd, hdr, hin⟩ := hinv.searched hf hu (hstrip.shapes hpoi) hL.mem hfine (fun x hx => (hok x hx).inscribed) hmono hs hhf hce hfr hx (hok x hx).quality
    (hok x hx).filter (hok x hx).radius hroom ho
  exact ⟨sampler, ho, HPGSampler.canDraw hpre hd hdr hrot hturn rfl hin, hsl⟩

namespace Ex

/-- two squares in a strip -/
def skStrip : SPInstance ℚ := ⟨[(skItem, 2)], 4⟩

def skFind (s : GridSP ℚ 2) (r : ℕ) : Option (Option (PlacingOption ℚ) × ℕ) :=
  findPlacementG lbfLenv lbfSenv.toEnv ⟨2, 1⟩ skItem [((.real 0, s.p.layout), s.grid)] r

end Ex

/-- Non-trivial case: one of two squares was placed in a strip of length 8; the search for the second one fails, although it fits further to the right. -/
example : ∃ (s : GridSP ℚ 2) (r r' : ℕ), Ex.lbfSenv.f = Fpa.exact ∧ PoiOfRects Ex.lbfSenv.poi ∧ Ex.lbfSenv.tr.Unit ∧ Ex.lbfSenv.tr.Polar ∧ Ex.skStrip.Built ∧
    (∀ x ∈ Ex.skStrip.items, x.1.shape.Proper ∧ signedArea x.1.shape.points ≠ 0) ∧ (∀ x ∈ Ex.skStrip.items, x.1.Searchable Ex.linEnv) ∧
    GridSP.Run Ex.lbfLenv Ex.linEnv 16 Ex.lbfSenv ⟨2, 1⟩ Ex.skStrip s r ∧ s.p.layout.placed.values.length = 1 ∧
    findPlacementG Ex.lbfLenv Ex.lbfSenv.toEnv ⟨2, 1⟩ Ex.skItem [((.real 0, s.p.layout), s.grid)] r = some (none, r') ∧
    Ex.skItem.Allows Ex.lbfSenv.tr 0 ∧ Feasible s.p.layout.bin (PlacedItem.new Ex.lbfSenv.toEnv 7 Ex.skItem ⟨0, 6, 2⟩ :: s.p.layout.placed.values) := by
  have hb : Ex.skStrip.Built := rfl
  have hprop : ∀ x ∈ Ex.skStrip.items, x.1.shape.Proper ∧ signedArea x.1.shape.points ≠ 0 := by
    intro x hx
    rw [List.mem_singleton.1 hx]
    exact ⟨Ex.lbfSq_proper, by decide +kernel⟩
  have h : ((GridSP.new Ex.linEnv 16 Ex.lbfSenv 2 1 Ex.skStrip 8).bind fun s => (Ex.skFind s 8).bind fun o => o.1.bind fun opt =>
      (s.placeItem Ex.linEnv Ex.lbfSenv.toEnv 2 opt).bind fun q => (Ex.skFind q.2 o.2).map fun o' =>
      decide (s.p.missing = [2]) && decide (s.p.inst.items.length = 1) && o'.1.isNone && decide (q.2.p.layout.placed.values.length = 1) &&
      decide (q.2.p.layout.cde.polyCollides Ex.lbfSenv.f (Ex.skItem.shape.transform (Transf.fromDt Ex.lbfSenv.tr ⟨0, 6, 2⟩)) (lbfIrrelevant Ex.skItem q.2.p.layout) = some false)) =
      some true := by decide +kernel
  obtain ⟨s, h0, h⟩ := Option.bind_eq_some_iff.1 h
  obtain ⟨⟨o, r⟩, h1, h⟩ := Option.bind_eq_some_iff.1 h
  obtain ⟨opt, ho, h⟩ := Option.bind_eq_some_iff.1 h
  dsimp only at ho h
  rw [ho] at h1
  obtain ⟨q, h2, h⟩ := Option.bind_eq_some_iff.1 h
  obtain ⟨⟨o', r'⟩, h3, h⟩ := Option.map_eq_some_iff.1 h
  simp only [Bool.and_eq_true, decide_eq_true_eq, Option.isNone_iff_eq_none] at h
  obtain ⟨⟨⟨⟨m1, -⟩, m3⟩, m4⟩, m5⟩ := h
  rw [m3] at h3
  have hfine : ∀ x ∈ Ex.skStrip.items, x.1.Fine := fun x hx => ⟨(hprop x hx).1, (hprop x hx).2⟩
  have hrun0 : GridSP.Run Ex.lbfLenv Ex.linEnv 16 Ex.lbfSenv ⟨2, 1⟩ Ex.skStrip s 8 := .start h0
  have hinst : s.p.inst = Ex.skStrip := (hrun0.ok rfl Ex.mid_rects Ex.turns_unit Ex.turns_polar hb hfine).1.same
  have hrun := hrun0.place (i := 0) (m := 2) (item := (Ex.skItem, 2)) (by rw [m1]; rfl) (by decide) (by rw [hinst]; rfl) h1 h2
  refine ⟨q.2, r, r', rfl, Ex.mid_rects, Ex.turns_unit, Ex.turns_polar, hb, hprop, ?_, hrun, m4, h3, ⟨rfl, rfl⟩, ?_⟩
  · intro x hx
    rw [List.mem_singleton.1 hx]
    exact Ex.skItem_searchable
  have hL := (hrun.ok rfl Ex.mid_rects Ex.turns_unit Ex.turns_polar hb hfine).1
  have hinv : q.2.p.layout.Inv Ex.lbfSenv.toEnv Ex.skStrip.cat := by
    have := hL.inv.core.layout.inv
    dsimp only at this
    rwa [hL.same] at this
  have hstrip := hL.inv.core.layout.strip
  dsimp only at hstrip
  have hmem : (Ex.skItem, 2) ∈ Ex.skStrip.items := List.mem_singleton_self _
  exact (hinv.accept Ex.turns_unit (Bin.Honest.exact rfl Ex.turns_unit hfine (hstrip.shapes Ex.mid_rects)) hL.neat hL.mem (item := Ex.skItem) rfl (hfine _ hmem)
    ⟨_, hmem, rfl⟩ (dt := ⟨0, 6, 2⟩) ⟨rfl, rfl⟩ m5).2 7 hL.neat.feasible

end Jagua
