import Verif.Lemmas.LBFGridSkip
import Verif.Props.LBF

/-! # C78: no layout with room for an item is skipped -/

set_option linter.unusedSectionVars false

namespace Jagua

variable {K : Type*} [Field K] [LinearOrder K] [IsStrictOrderedRing K] {n : ℕ} {R : Type*}

/-- the layouts and templates the optimizer can look at -/
theorem LbfBP.reads {env : Env K} {inst : BPInstance K n} {p : BPProblem K n} (h : LbfBP env inst p) (hbins : ∀ b ∈ inst.bins, b.1.Shapes) {idx : LayoutIndex}
    {l : Layout K n} (hl : p.getLayout idx = some l) : l.Inv env inst.cat ∧ l.bin.Shapes ∧ (∀ pi ∈ l.placed.values, ∃ x ∈ inst.items, inst.cat pi.itemId = x.1) ∧
    l.Neat env inst.cat := by
  have hbuilt : inst.Built env := by
    have := h.inv.built
    dsimp only at this
    rwa [h.same] at this
  have hcatMem : ∀ j < inst.items.length, ∃ x ∈ inst.items, inst.cat j = x.1 := by
    intro j hj
    obtain ⟨y, hy⟩ : ∃ y, inst.items[j]? = some y := ⟨_, List.getElem?_eq_getElem hj⟩
    have : inst.cat j = y.1 := by unfold BPInstance.cat catOf; rw [hy]
    exact ⟨y, List.mem_of_getElem? hy, this⟩
  cases idx with
  | real i =>
    have hl : p.layouts[i]? = some l := hl
    have hin := h.inv.layouts l (List.mem_of_getElem? hl)
    dsimp only at hin
    rw [h.same] at hin
    refine ⟨hin.inv, ?_, fun pi hpi => hcatMem _ (hin.items pi hpi), h.neat l (List.mem_of_getElem? hl)⟩
    obtain ⟨q, hq⟩ := hin.bin
    exact hbins _ (List.mem_of_getElem? hq)
  | template i =>
    have hl : p.templates[i]? = some l := hl
    obtain ⟨bin, k, rfl, hbin, -⟩ := h.templates hl
    have hm := List.mem_of_getElem? hbin
    have hempty : (Layout.new i bin).placed.values = [] := rfl
    refine ⟨Layout.inv_new inst.cat i (hbuilt.2 _ hm), hbins _ hm, ?_, Layout.neat_new ..⟩
    rw [hempty]
    simp

theorem GridBP.Fresh.reads {henv : HEnv K} {nCells : ℕ} {s : GridBP K n} (h : s.Fresh henv nCells) {idx : LayoutIndex} {l : Layout K n}
    (hl : s.p.getLayout idx = some l) : ∃ g, s.grid idx = some g ∧ l.Fresh henv nCells g := by
  cases idx with
  | real i => exact forall₂_getElem? h.layouts i hl
  | template i => exact forall₂_getElem? h.templates i hl

/-- **A layout with room for an item is searched.** Whatever the optimizer has placed so far, take any of its layouts or empty bins, and any position, with a rotation
the item allows, at which one more copy of the item fits there. If the search looks at this layout, it does not skip it: the grid leaves cells to sample from, and
exactly this position is one of those that can be drawn. (An item that can be rotated freely is turned by an angle between `0` and `2π`; the position must be one of
these.) -/
theorem C78_room_is_searched {lenv : LEnv K n R} {henv : HEnv K} {nCells : ℕ} {env : Env K} {cfg : LbfConfig} {addr : ℕ → ℕ → ℕ} {fuel : ℕ} {inst : BPInstance K n}
    (hf : env.f = Fpa.exact) (hu : env.tr.Unit) (hp : env.tr.Polar) (hb : inst.Built env)
    (hbins : ∀ b ∈ inst.bins, b.1.Shapes) (hitems : ∀ x ∈ inst.items, x.1.shape.Proper ∧ signedArea x.1.shape.points ≠ 0)
    (hmono : ∀ x y, 0 ≤ x → x < y → henv.sqrt x < henv.sqrt y) (hs : henv.SqrtUpper) (hhf : henv.f = Fpa.exact) (hce : henv.CeilExact)
    (hok : ∀ x ∈ inst.items, x.1.Searchable henv)
    {done : List ℕ} {s₀ s : GridBP K n} {r₀ r : R} (h0 : GridBP.new henv nCells inst = some s₀)
    (hdone : done.foldlM (fun (s : GridBP K n × R) i => lbfPlaceBPG lenv henv env cfg (addr i) i fuel s.1 s.2) (s₀, r₀) = some (s, r))
    {idx : LayoutIndex} {l : Layout K n} (hl : s.p.getLayout idx = some l) {g : Option (HPG K)} (hg : s.grid idx = some g)
    {x : Item K × ℕ} (hx : x ∈ inst.items) {a : ℕ} {dt : DTransf K} (hroom : Feasible l.bin (PlacedItem.new env a x.1 dt :: l.placed.values))
    (hrot : x.1.Allows env.tr dt.rotation)
    (hturn : x.1.allowedRotation = .continuous → ∃ b, 0 ≤ b ∧ b < 2 * lenv.pi ∧ SameTurn env.tr dt.rotation b)
    {o : Option (HPGSampler K)} (ho : HPGSampler.new (lenv.withGrid g) x.1 l = some o) :
    ∃ sampler, o = some sampler ∧ sampler.CanDraw env.tr (Transf.fromDt env.tr dt) := by
  have hfine : ∀ x ∈ inst.items, x.1.Fine := fun x hx => ⟨(hitems x hx).1, (hitems x hx).2⟩
  obtain ⟨e0, f0⟩ := GridBP.Fresh.new (fun b hm => by
    obtain ⟨_, _, _, _, _, _, e⟩ := hb.2 b hm
    exact Bin.Unused.of_new e) h0
  obtain ⟨e1, f1⟩ := lbfOrderBPG_fresh done f0 hdone
  dsimp only at e1
  rw [e0] at e1
  have hL := lbfFoldBP_ok (BPInstance.honest_exact hf hu hbins hfine) hu hp hfine done (LbfBP.start hb) e1
  obtain ⟨h1, h2, h3, -⟩ := hL.reads hbins hl
  obtain ⟨g', hg', hfr⟩ := f1.reads hl
  rw [hg] at hg'
  cases hg'
  obtain ⟨sampler, e, hpre, d, hd, hdr, hin⟩ := h1.searched hf hu h2 h3 hfine (fun x hx => (hok x hx).inscribed) hmono hs hhf hce hfr hx (hok x hx).quality
    (hok x hx).filter (hok x hx).radius hroom ho
  exact ⟨sampler, e, HPGSampler.canDraw hpre hd hdr hrot hturn rfl hin⟩

/-- a search that fails has failed in every layout -/
theorem findPlacement_failed {lenv : LEnv K n R} {env : Env K} {cfg : LbfConfig} {item : Item K} : ∀ {ls : List (LayoutIndex × Layout K n)} {r r' : R},
    findPlacement lenv env cfg item ls r = some (none, r') → ∀ x ∈ ls, ∃ r₁ r₂, sampleLayout lenv env cfg x.1 x.2 item r₁ = some (none, r₂)
  | [], _, _, _ => by simp
  | y :: ls, r, r', h => by
    unfold findPlacement at h
    obtain ⟨⟨o, r1⟩, h1, h⟩ := Option.bind_eq_some_iff.1 h
    cases o with
    | some opt => cases h
    | none =>
      intro x hx
      rcases List.mem_cons.1 hx with rfl | hx
      · exact ⟨r, r1, h1⟩
      · exact findPlacement_failed h x hx

/-- **An item is given up only after its place was searched.** If the optimizer turns to the next item although a copy of this one is missing, and this copy would
fit into one of the layouts or into an empty bin in stock, then the last search did sample this layout, the position where it fits is one of those that it could
have drawn, and all samples were rejected. -/
theorem C78_giving_up {lenv : LEnv K n R} {henv : HEnv K} {nCells : ℕ} {env : Env K} {cfg : LbfConfig} {addr : ℕ → ℕ → ℕ} {fuel : ℕ} {inst : BPInstance K n}
    (hf : env.f = Fpa.exact) (hu : env.tr.Unit) (hp : env.tr.Polar) (hb : inst.Built env)
    (hbins : ∀ b ∈ inst.bins, b.1.Shapes) (hitems : ∀ x ∈ inst.items, x.1.shape.Proper ∧ signedArea x.1.shape.points ≠ 0)
    (hmono : ∀ x y, 0 ≤ x → x < y → henv.sqrt x < henv.sqrt y) (hs : henv.SqrtUpper) (hhf : henv.f = Fpa.exact) (hce : henv.CeilExact)
    (hok : ∀ x ∈ inst.items, x.1.Searchable henv)
    {done : List ℕ} {i : ℕ} {s₀ s t : GridBP K n} {r₀ r r' : R} (h0 : GridBP.new henv nCells inst = some s₀)
    (hdone : done.foldlM (fun (s : GridBP K n × R) i => lbfPlaceBPG lenv henv env cfg (addr i) i fuel s.1 s.2) (s₀, r₀) = some (s, r))
    (h : lbfPlaceBPG lenv henv env cfg (addr i) i fuel s r = some (t, r')) (hmiss : t.p.missing[i]? ≠ some 0)
    {x : Item K × ℕ} (hx : inst.items[i]? = some x) {idx : LayoutIndex} {l : Layout K n} (hl : t.p.getLayout idx = some l)
    (hstock : ∀ j, idx = .template j → ∃ k, t.p.binQtys[j]? = some k ∧ 0 < k)
    {a : ℕ} {dt : DTransf K} (hroom : Feasible l.bin (PlacedItem.new env a x.1 dt :: l.placed.values)) (hrot : x.1.Allows env.tr dt.rotation)
    (hturn : x.1.allowedRotation = .continuous → ∃ b, 0 ≤ b ∧ b < 2 * lenv.pi ∧ SameTurn env.tr dt.rotation b) :
    ∃ g sampler r₁ r₂, t.grid idx = some g ∧ HPGSampler.new (lenv.withGrid g) x.1 l = some (some sampler) ∧
      sampler.CanDraw env.tr (Transf.fromDt env.tr dt) ∧
      sampleLayout (lenv.withGrid g) env cfg idx l x.1 r₁ = some (none, r₂) := by
  have hfine : ∀ x ∈ inst.items, x.1.Fine := fun x hx => ⟨(hitems x hx).1, (hitems x hx).2⟩
  have hdone' : (done ++ [i]).foldlM (fun (s : GridBP K n × R) i => lbfPlaceBPG lenv henv env cfg (addr i) i fuel s.1 s.2) (s₀, r₀) = some (t, r') := by
    rw [foldlM_snoc, hdone, Option.bind_some]
    exact h
  obtain ⟨e0, f0⟩ := GridBP.Fresh.new (fun b hm => by
    obtain ⟨_, _, _, _, _, _, e⟩ := hb.2 b hm
    exact Bin.Unused.of_new e) h0
  obtain ⟨e1, f1⟩ := lbfOrderBPG_fresh done f0 hdone
  obtain ⟨e2, f2⟩ := lbfPlaceBPG_fresh fuel f1 h
  dsimp only at e1 e2 f2
  rw [e0] at e1
  obtain ⟨g, hg, hfr⟩ := f2.reads hl
  rcases (C44_giving_up hf hu hp hb hbins hitems e1 e2).2 with hz | ⟨item, hi, ls, r₁, r₂, hfp, h1, h2⟩
  · exact absurd hz hmiss
  rw [hx] at hi
  cases hi
  have hmem : (idx, l) ∈ ls := by
    cases idx with
    | real j => exact h1 j l hl
    | template j =>
      obtain ⟨k, hk, hk0⟩ := hstock j rfl
      exact h2 j l k hl hk hk0
  obtain ⟨r₃, r₄, hsl⟩ := findPlacement_failed hfp _ hmem
  have e : sampleLayout (lenv.fresh henv nCells) env cfg idx l x.1 r₃ = sampleLayout (lenv.withGrid g) env cfg idx l x.1 r₃ :=
    sampleLayout_grid lenv env cfg idx hfr.read.symm x.1 r₃
  dsimp only at hsl
  rw [e] at hsl
  obtain ⟨o, ho⟩ : ∃ o, HPGSampler.new (lenv.withGrid g) x.1 l = some o := by
    unfold sampleLayout at hsl
    dsimp only at hsl
    obtain ⟨_, _, hsl⟩ := Option.bind_eq_some_iff.1 hsl
    split_ifs at hsl
    obtain ⟨o, ho, _⟩ := Option.bind_eq_some_iff.1 hsl
    exact ⟨o, ho⟩
  obtain ⟨sampler, rfl, hc⟩ := C78_room_is_searched hf hu hp hb hbins hitems hmono hs hhf hce hok h0 hdone' hl hg (List.mem_of_getElem? hx) hroom hrot hturn ho
  exact ⟨g, sampler, r₃, r₄, hg, ho, hc, hsl⟩

namespace Ex

/-- squares that cannot be turned -/
def skItem : Item ℚ := { sqItem with id := 0 }

/-- three squares, one bin -/
def skInst : Option (BPInstance ℚ 2) := (Bin.new lbfEnv 2 0 ⟨103, bin⟩ 5 .empty [] []).bind fun b => BPInstance.new [(skItem, 3)] [(b, 1)]

/-- the state after the search for places for the squares; two samples for each -/
def skRun (s₀ : GridBP ℚ 2) : Option (GridBP ℚ 2 × ℕ) := lbfPlaceBPG lbfLenv linEnv lbfEnv ⟨2, 1⟩ (fun b => b) 0 4 s₀ 1

theorem skInst_fine {i : BPInstance ℚ 2} (h : skInst = some i) : i.Built lbfEnv ∧ (∀ b ∈ i.bins, b.1.Shapes) ∧ i.items = [(skItem, 3)] := by
  obtain ⟨b, hb, h⟩ := Option.bind_eq_some_iff.1 h
  obtain ⟨h1, h2, -⟩ := lbfBin_shapes hb
  have hnew := h
  unfold BPInstance.new at h
  split_ifs at h
  cases h
  refine ⟨⟨hnew, ?_⟩, ?_, rfl⟩
  · intro x hx
    rw [List.mem_singleton.1 hx]
    exact ⟨0, _, 5, _, [], [], hb⟩
  · intro x hx
    rw [List.mem_singleton.1 hx]
    exact h2

theorem skItem_searchable : skItem.Searchable linEnv where
  inscribed := ⟨lbfSq_disc, by
    intro s hs p hp
    cases hs
    rw [List.mem_singleton.1 hp]
    exact ⟨by norm_num, lbfSq_disc⟩⟩
  quality := by decide
  filter := rfl
  radius := by decide +kernel

theorem linEnv_ok : (∀ x y : ℚ, 0 ≤ x → x < y → linEnv.sqrt x < linEnv.sqrt y) ∧ linEnv.SqrtUpper ∧ linEnv.CeilExact := by
  refine ⟨?_, ?_, ?_⟩
  · intro x y _ h
    show (x + 1) / 2 < (y + 1) / 2
    linarith
  · intro x hx
    show 0 ≤ (x + 1) / 2 ∧ x ≤ ((x + 1) / 2) ^ 2
    constructor
    · linarith
    · nlinarith [sq_nonneg (x - 1)]
  · intro x m
    show x.ceil.toNat ≤ m ↔ _
    rw [Int.toNat_le, Rat.ceil_le_iff]
    push_cast
    rfl

end Ex

/-- Non-trivial case for both theorems: two of three squares find a place, the search for the third one fails although there is room for it in the layout. -/
example : ∃ (i : BPInstance ℚ 2) (s₀ t : GridBP ℚ 2) (l : Layout ℚ 2) (r' : ℕ), i.Built Ex.lbfEnv ∧ (∀ b ∈ i.bins, b.1.Shapes) ∧
    (∀ x ∈ i.items, x.1.shape.Proper ∧ signedArea x.1.shape.points ≠ 0) ∧ (∀ x y : ℚ, 0 ≤ x → x < y → Ex.linEnv.sqrt x < Ex.linEnv.sqrt y) ∧ Ex.linEnv.SqrtUpper ∧
    Ex.linEnv.CeilExact ∧ (∀ x ∈ i.items, x.1.Searchable Ex.linEnv) ∧ GridBP.new Ex.linEnv 16 i = some s₀ ∧
    lbfPlaceBPG Ex.lbfLenv Ex.linEnv Ex.lbfEnv ⟨2, 1⟩ (fun b => b) 0 4 s₀ 1 = some (t, r') ∧ t.p.missing = [1] ∧ t.p.getLayout (.real 0) = some l ∧
    l.placed.values.length = 2 ∧ Ex.skItem.Allows Ex.lbfEnv.tr 0 ∧ Feasible l.bin (PlacedItem.new Ex.lbfEnv 7 Ex.skItem ⟨0, 3 / 2, 6⟩ :: l.placed.values) := by
  obtain ⟨i, hi⟩ : ∃ i, Ex.skInst = some i := Option.isSome_iff_exists.1 (by decide +kernel)
  obtain ⟨h1, h2, h3⟩ := Ex.skInst_fine hi
  have hprop : ∀ x ∈ i.items, x.1.shape.Proper ∧ signedArea x.1.shape.points ≠ 0 := by
    intro x hx
    rw [h3, List.mem_singleton] at hx
    rw [hx]
    exact ⟨Ex.lbfSq_proper, by decide +kernel⟩
  have h : (Ex.skInst.bind fun i => (GridBP.new Ex.linEnv 16 i).bind fun s₀ => (Ex.skRun s₀).bind fun t => (t.1.p.getLayout (.real 0)).map fun l =>
      decide (t.1.p.missing = [1]) && decide (l.placed.values.length = 2) &&
      decide (l.cde.polyCollides Ex.lbfEnv.f (Ex.skItem.shape.transform (Transf.fromDt Ex.lbfEnv.tr ⟨0, 3 / 2, 6⟩)) (lbfIrrelevant Ex.skItem l) = some false)) = some true := by
    decide +kernel
  rw [hi, Option.bind_some] at h
  obtain ⟨s₀, h0, h⟩ := Option.bind_eq_some_iff.1 h
  obtain ⟨⟨t, r'⟩, ht, h⟩ := Option.bind_eq_some_iff.1 h
  obtain ⟨l, hl, h⟩ := Option.map_eq_some_iff.1 h
  simp only [Bool.and_eq_true, decide_eq_true_eq] at h
  obtain ⟨⟨m1, m2⟩, m3⟩ := h
  obtain ⟨k1, k2, k3⟩ := Ex.linEnv_ok
  refine ⟨i, s₀, t, l, r', h1, h2, hprop, k1, k2, k3, by rw [h3]; simpa using Ex.skItem_searchable, h0, ht, m1, hl, m2, ⟨rfl, rfl⟩, ?_⟩
  have hfine : ∀ x ∈ i.items, x.1.Fine := fun x hx => ⟨(hprop x hx).1, (hprop x hx).2⟩
  obtain ⟨e0, f0⟩ := GridBP.Fresh.new (fun b hm => by
    obtain ⟨_, _, _, _, _, _, e⟩ := h1.2 b hm
    exact Bin.Unused.of_new e) h0
  obtain ⟨e2, -⟩ := lbfPlaceBPG_fresh 4 f0 ht
  have hh := BPInstance.honest_exact (env := Ex.lbfEnv) rfl Ex.turns_unit h2 hfine
  have hL := (lbfPlaceBP_ok hh Ex.turns_unit Ex.turns_polar hfine 4 (e0 ▸ LbfBP.start h1) e2).1
  obtain ⟨j1, j2, j3, j4⟩ := hL.reads h2 hl
  have hmem : (Ex.skItem, 3) ∈ i.items := by rw [h3]; exact List.mem_singleton_self _
  refine (j1.accept Ex.turns_unit (Bin.Honest.exact rfl Ex.turns_unit hfine j2) j4 j3 (item := Ex.skItem) ?_ (hfine _ hmem) ⟨_, hmem, rfl⟩ (dt := ⟨0, 3 / 2, 6⟩) ?_ m3).2 7 j4.feasible
  · show _ = catOf i.items 0
    rw [h3]
    rfl
  · exact ⟨rfl, rfl⟩

end Jagua
