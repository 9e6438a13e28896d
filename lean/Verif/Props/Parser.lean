import Verif.Lemmas.JsonExamples

/-!
# Property C53: reading instances
-/

set_option linter.unusedSectionVars false

namespace Jagua

variable {K : Type*} [Field K] [LinearOrder K] [IsStrictOrderedRing K] {n : ℕ}

theorem ReadItems.facts {penv : PEnv K} {cfg : ParserConfig K} (hrad : penv.toRadians 0 = 0) {js : List (JsonItem K)} {items : List (Item K × ℕ)}
    (h : ReadItems penv cfg js items) :
    items.length = js.length ∧ ∀ (k : ℕ) (j : JsonItem K), js[k]? = some j → ∃ x : Item K, items[k]? = some (x, j.demand) ∧
      x.id = k ∧ x.baseQuality = j.baseQuality ∧ x.hazardFilter = j.baseQuality ∧ x.value = j.value.getD 0 ∧
      (∀ a, x.Allows penv.tr a ↔ j.Allows penv.tr penv.toRadians a) ∧
      ∃ tx ty : K, (∀ v, v.transform x.pretransform = transPt tx ty v) ∧ MovedCovers tx ty j.shape.corners x.shape.points ∧
        (cfg.tolerance = none → MovedSame tx ty j.shape.corners x.shape.points) ∧
        (cfg.center = true → x.shape.centroid = ⟨0, 0⟩) ∧ (cfg.center = false → tx = 0 ∧ ty = 0) := by
  obtain ⟨hl, hg⟩ := forall₂_zipIdx_get h
  refine ⟨hl, fun k j hk => ?_⟩
  obtain ⟨⟨x, q⟩, hx, hq, hr⟩ := hg k j hk
  obtain ⟨tx, ty, h1, h2, h3⟩ := hr.shape
  dsimp only at hq hr h1 h2 h3
  refine ⟨x, by rw [hx, hq], hr.id, hr.quality, hr.filter, hr.value, parseRotations_allows hrad hr.rotation, tx, ty, fun v => ?_, h2.covers, h2.same,
    hr.centered, h3⟩
  rw [h1, transform_translM]

/-- C53: the items of a parsed instance are those of the input, in the same order and with the given numbers, qualities, values and
rotations. The shape of an item is the given outline, moved by a translation that the item remembers, or covers it; it is exactly the
given outline if simplification is switched off. -/
theorem C53_items {penv : PEnv K} {cfg : ParserConfig K} (hpoi : PoiInside penv.poi) (hsurr : KeepsShape penv.surr) (hz : penv.tr.AtZero)
    (hrad : penv.toRadians 0 = 0) (ht : ∀ tol, cfg.tolerance = some tol → tol < 1) {ji : JsonInstance K} (h : ji.Sound)
    {addr addr' : ℕ → ℕ → ℕ → ℕ} {inst : Instance K n} (hp : parseInstance penv cfg n addr addr' ji = some inst) :
    inst.items.length = ji.items.length ∧ ∀ (k : ℕ) (j : JsonItem K), ji.items[k]? = some j → ∃ x : Item K, inst.items[k]? = some (x, j.demand) ∧
      x.id = k ∧ x.baseQuality = j.baseQuality ∧ x.hazardFilter = j.baseQuality ∧ x.value = j.value.getD 0 ∧
      (∀ a, x.Allows penv.tr a ↔ j.Allows penv.tr penv.toRadians a) ∧
      ∃ tx ty : K, (∀ v, v.transform x.pretransform = transPt tx ty v) ∧ MovedCovers tx ty j.shape.corners x.shape.points ∧
        (cfg.tolerance = none → MovedSame tx ty j.shape.corners x.shape.points) ∧
        (cfg.center = true → x.shape.centroid = ⟨0, 0⟩) ∧ (cfg.center = false → tx = 0 ∧ ty = 0) := by
  cases hb : ji.bins with
  | some bs =>
    obtain ⟨h1, h2⟩ := parse_qualities hp hb
    obtain ⟨i, e1, e2, -, -⟩ := parse_bp (n := n) (cfg := cfg) hpoi hsurr hz ht h hb h1 h2 addr addr'
    rw [hp] at e1
    rw [logParsed_some e1.symm]
    exact e2.facts hrad
  | none =>
    cases hs : ji.strip with
    | none =>
      unfold parseInstance at hp
      obtain ⟨_, -, hp⟩ := Option.bind_eq_some_iff.1 hp
      rw [hb, hs] at hp
      cases hp
    | some height =>
      obtain ⟨i, e1, e2, -, -⟩ := parse_sp (n := n) (cfg := cfg) hpoi hsurr hz h.items hb hs addr addr'
      rw [hp] at e1
      rw [logParsed_some e1.symm]
      exact e2.facts hrad

/-- C53: the bins of a parsed bin packing instance are those of the input, in the same order and with the given stock. Outline, holes and
zones are the given ones, all moved by the same translation, which the bin remembers; with simplification the outline may be smaller, holes
and zones larger. There are no other holes and zones. -/
theorem C53_bins {penv : PEnv K} {cfg : ParserConfig K} (hpoi : PoiInside penv.poi) (hsurr : KeepsShape penv.surr) (hz : penv.tr.AtZero)
    (ht : ∀ tol, cfg.tolerance = some tol → tol < 1) {ji : JsonInstance K} (h : ji.Sound) {bs : List (JsonBin K)} (hb : ji.bins = some bs)
    {addr addr' : ℕ → ℕ → ℕ → ℕ} {inst : Instance K n} (hp : parseInstance penv cfg n addr addr' ji = some inst) :
    ∃ i, inst = .bp i ∧ i.bins.length = bs.length ∧ ∀ (k : ℕ) (j : JsonBin K), bs[k]? = some j → ∃ b : Bin K n, i.bins[k]? = some (b, j.stock.getD penv.maxU64) ∧ b.id = k ∧
      ∃ tx ty : K, (∀ v, v.transform b.pretransform = transPt tx ty v) ∧
        MovedInside tx ty j.shape.corners b.outer.val.points ∧ (cfg.tolerance = none → MovedSame tx ty j.shape.corners b.outer.val.points) ∧
        List.Forall₂ (fun h (s : Arc (SPoly K)) => MovedCovers tx ty h s.val.points ∧ (cfg.tolerance = none → MovedSame tx ty h s.val.points))
          j.shape.holes b.holes ∧
        (∀ z ∈ j.zones, ∃ z', some z' ∈ b.qualityZones ∧ z'.quality = z.quality ∧ ∃ s ∈ z'.zones, MovedCovers tx ty z.shape.corners s.val.points) ∧
        (∀ z', some z' ∈ b.qualityZones → ∀ s ∈ z'.zones, ∃ z ∈ j.zones, z.quality = z'.quality ∧
          MovedCovers tx ty z.shape.corners s.val.points ∧ (cfg.tolerance = none → MovedSame tx ty z.shape.corners s.val.points)) ∧
        (cfg.center = true → b.outer.val.centroid = ⟨0, 0⟩) ∧ (cfg.center = false → tx = 0 ∧ ty = 0) := by
  obtain ⟨h1, h2⟩ := parse_qualities hp hb
  obtain ⟨i, e1, -, e2, -⟩ := parse_bp (n := n) (cfg := cfg) hpoi hsurr hz ht h hb h1 h2 addr addr'
  rw [hp] at e1
  obtain ⟨hl, hg⟩ := forall₂_zipIdx_get e2
  refine ⟨i, logParsed_some e1.symm, hl, fun k j hk => ?_⟩
  obtain ⟨⟨b, q⟩, hx, hq, ⟨tx, ty, hr⟩, -⟩ := hg k j hk
  dsimp only at hq hr
  refine ⟨b, by rw [hx, hq], hr.id, tx, ty, fun v => ?_, hr.outer.covers, hr.outer.same, ?_, ?_, ?_, hr.centered, hr.uncentered⟩
  · rw [hr.pre, transform_translM]
  · exact (List.forall₂_map_right_iff.1 hr.holes).imp fun _ _ h => ⟨h.covers, h.same⟩
  · intro z hz
    obtain ⟨z', g1, g2, s, g3, g4⟩ := hr.zones z hz
    exact ⟨z', g1, g2, s, g3, g4.covers⟩
  · intro z' hz' s hs
    obtain ⟨z, g1, g2, g3⟩ := hr.noMore z' hz' s hs
    exact ⟨z, g1, g2, g3.covers, g3.same⟩

/-- C53: a strip packing instance has the given height. -/
theorem C53_strip {penv : PEnv K} {cfg : ParserConfig K} {ji : JsonInstance K} {addr addr' : ℕ → ℕ → ℕ → ℕ} {inst : Instance K n}
    (hp : parseInstance penv cfg n addr addr' ji = some inst) (i : SPInstance K) : inst = .sp i → ji.strip = some i.stripHeight ∧ ji.bins = none := by
  rintro rfl
  unfold parseInstance at hp
  obtain ⟨items, -, hp⟩ := Option.bind_eq_some_iff.1 hp
  obtain ⟨i', hp, hl⟩ := Option.bind_eq_some_iff.1 hp
  obtain rfl := logParsed_some hl
  split at hp
  · obtain ⟨_, -, hp⟩ := Option.bind_eq_some_iff.1 hp
    obtain ⟨_, -, hp⟩ := Option.map_eq_some_iff.1 hp
    cases hp
  · rename_i height hb hs
    obtain ⟨sp, hsp, e⟩ := Option.map_eq_some_iff.1 hp
    cases e
    unfold SPInstance.new at hsp
    split_ifs at hsp
    cases hsp
    exact ⟨hs, hb⟩
  · cases hp
  · cases hp

/-- C53: parsing succeeds for simple shapes, if there are either bins or a strip, the qualities of zones are below ten, and - in a debug
build with log messages - the quantities do not add up to more than the largest number. -/
theorem C53_total {penv : PEnv K} {cfg : ParserConfig K} (hpoi : PoiInside penv.poi) (hsurr : KeepsShape penv.surr) (hz : penv.tr.AtZero)
    (ht : ∀ tol, cfg.tolerance = some tol → tol < 1) {ji : JsonInstance K} (h : ji.Sound) (hone : ji.bins.isSome ≠ ji.strip.isSome)
    (hq : ∀ bs, ji.bins = some bs → ∀ b ∈ bs, ∀ z ∈ b.zones, z.quality < 10)
    (hfit : penv.logInfo = false ∨ penv.overflowChecks = false ∨ ((ji.items.map (·.demand)).sum ≤ penv.maxU64 ∧
      ∀ bs, ji.bins = some bs → (bs.map fun b => b.stock.getD penv.maxU64).sum ≤ penv.maxU64)) (addr addr' : ℕ → ℕ → ℕ → ℕ) :
    ∃ inst : Instance K n, parseInstance penv cfg n addr addr' ji = some inst := by
  have hfits : ∀ xs : List ℕ, (penv.logInfo = true → penv.overflowChecks = true → xs.sum ≤ penv.maxU64) → penv.logInfo = false ∨ penv.sumFits xs = true := by
    intro xs hx
    unfold PEnv.sumFits
    cases h1 : penv.logInfo with
    | false => exact .inl rfl
    | true =>
      right
      cases h2 : penv.overflowChecks with
      | false => rfl
      | true =>
        rw [Bool.true_and, Bool.not_eq_true', decide_eq_false_iff_not]
        exact not_lt.2 (hx h1 h2)
  have hitems : ∀ items, ReadItems penv cfg ji.items items → items.map (·.2) = ji.items.map (·.demand) := by
    intro items hr
    have h1 : List.Forall₂ (fun a b => a = b) (ji.items.zipIdx.map fun x => x.1.demand) (items.map (·.2)) :=
      List.forall₂_map_left_iff.2 (List.forall₂_map_right_iff.2 (hr.imp fun a b h => h.1.symm))
    have h2 : (ji.items.zipIdx.map fun x => x.1.demand) = items.map (·.2) := List.forall₂_eq_eq_eq ▸ h1
    rw [← h2]
    have e : (ji.items.zipIdx.map fun x : JsonItem K × ℕ => x.1.demand) = (ji.items.zipIdx.map Prod.fst).map (·.demand) := by rw [List.map_map]; rfl
    rw [e, List.zipIdx_map_fst]
  cases hb : ji.bins with
  | some bs =>
    have hs : ji.strip = none := by
      cases hs : ji.strip with
      | none => rfl
      | some _ => rw [hb, hs] at hone; exact absurd rfl hone
    obtain ⟨i, e1, e2, e3, -⟩ := parse_bp (n := n) (cfg := cfg) hpoi hsurr hz ht h hb hs (hq bs hb) addr addr'
    rw [e1]
    have hbins : i.bins.map (·.2) = bs.map fun b => b.stock.getD penv.maxU64 := by
      have h1 : List.Forall₂ (fun a b => a = b) (bs.zipIdx.map fun x => x.1.stock.getD penv.maxU64) (i.bins.map (·.2)) :=
        List.forall₂_map_left_iff.2 (List.forall₂_map_right_iff.2 (e3.imp fun a b h => h.1.symm))
      have h2 : (bs.zipIdx.map fun x => x.1.stock.getD penv.maxU64) = i.bins.map (·.2) := List.forall₂_eq_eq_eq ▸ h1
      rw [← h2]
      have e : (bs.zipIdx.map fun x : JsonBin K × ℕ => x.1.stock.getD penv.maxU64) = (bs.zipIdx.map Prod.fst).map fun b => b.stock.getD penv.maxU64 := by
        rw [List.map_map]; rfl
      rw [e, List.zipIdx_map_fst]
    have hx : ∀ xs : List ℕ, (((ji.items.map (·.demand)).sum ≤ penv.maxU64 ∧ ∀ bs, ji.bins = some bs →
        (bs.map fun b => b.stock.getD penv.maxU64).sum ≤ penv.maxU64) → xs.sum ≤ penv.maxU64) → penv.logInfo = false ∨ penv.sumFits xs = true := by
      intro xs hxs
      apply hfits
      intro h1 h2
      rcases hfit with h | h | h
      · rw [h1] at h; cases h
      · rw [h2] at h; cases h
      · exact hxs h
    have g1 := hx (i.items.map (·.2)) fun h => by rw [hitems _ e2]; exact h.1
    have g2 := hx (i.bins.map (·.2)) fun h => by rw [hbins]; exact h.2 bs hb
    refine ⟨.bp i, ?_⟩
    unfold logParsed
    rw [if_neg]
    rcases g1 with g1 | g1
    · simp [g1]
    · rcases g2 with g2 | g2
      · simp [g2]
      · simp [Instance.items, g1, g2]
  | none =>
    cases hs : ji.strip with
    | none => rw [hb, hs] at hone; exact absurd rfl hone
    | some height =>
      obtain ⟨i, e1, e2, -, -⟩ := parse_sp (n := n) (cfg := cfg) hpoi hsurr hz h.items hb hs addr addr'
      rw [e1]
      have g1 := hfits (i.items.map (·.2)) fun h1 h2 => by
        rcases hfit with h | h | h
        · rw [h1] at h; cases h
        · rw [h2] at h; cases h
        · rw [hitems _ e2]; exact h.1
      refine ⟨.sp i, ?_⟩
      unfold logParsed
      rw [if_neg]
      rcases g1 with g1 | g1
      · simp [g1]
      · simp [Instance.items, g1]

/-- C53: an instance that cannot be represented is refused, not read as something else: both bins and a strip or neither, items or zones
with holes, shapes of several parts, zones of a quality of ten or more. -/
theorem C53_refused {penv : PEnv K} {cfg : ParserConfig K} {ji : JsonInstance K} {addr addr' : ℕ → ℕ → ℕ → ℕ}
    (h : ji.bins.isSome = ji.strip.isSome ∨
      (∃ j ∈ ji.items, (∃ o i, j.shape = .polygon o i) ∨ ∃ ps, j.shape = .multiPolygon ps) ∨
      ∃ bs, ji.bins = some bs ∧ ∃ b ∈ bs, (∃ ps, b.shape = .multiPolygon ps) ∨
        ∃ z ∈ b.zones, 10 ≤ z.quality ∨ (∃ o i, z.shape = .polygon o i) ∨ ∃ ps, z.shape = .multiPolygon ps) :
    parseInstance penv cfg n addr addr' ji = none := by
  by_contra hne
  obtain ⟨inst, hp⟩ := Option.ne_none_iff_exists'.1 hne
  have hp' := hp
  unfold parseInstance at hp'
  obtain ⟨items, hitems, hp'⟩ := Option.bind_eq_some_iff.1 hp'
  obtain ⟨i0, hp', -⟩ := Option.bind_eq_some_iff.1 hp'
  rcases h with h | ⟨j, hj, h⟩ | ⟨bs, hb, b, hbm, h⟩
  · cases hb : ji.bins <;> cases hs : ji.strip <;> rw [hb, hs] at h hp' <;> simp at h hp'
  · obtain ⟨k, hk⟩ := List.mem_iff_getElem?.1 hj
    obtain ⟨-, hg⟩ := forall₂_zipIdx_get (mapM_forall₂_of hitems)
    obtain ⟨y, -, hy⟩ := hg k j hk
    unfold parseItem at hy
    obtain ⟨_, hy, -⟩ := Option.map_eq_some_iff.1 hy
    rcases h with ⟨o, i, h⟩ | ⟨ps, h⟩ <;> rw [h] at hy <;> cases hy
  · obtain ⟨hs, hq⟩ := parse_qualities hp hb
    rw [hb, hs] at hp'
    obtain ⟨bins, hbins, -⟩ := Option.bind_eq_some_iff.1 hp'
    obtain ⟨k, hk⟩ := List.mem_iff_getElem?.1 hbm
    obtain ⟨-, hg⟩ := forall₂_zipIdx_get (mapM_forall₂_of hbins)
    obtain ⟨y, -, hy⟩ := hg k b hk
    unfold parseBin at hy
    obtain ⟨outer, ho, hy⟩ := Option.bind_eq_some_iff.1 hy
    obtain ⟨_, -, hy⟩ := Option.bind_eq_some_iff.1 hy
    rw [if_neg (not_not.2 (hq b hbm))] at hy
    obtain ⟨zones, hz, -⟩ := Option.bind_eq_some_iff.1 hy
    rcases h with ⟨ps, h⟩ | ⟨z, hzm, h⟩
    · rw [h] at ho
      cases ho
    · have hlt := hq b hbm z hzm
      rcases h with h | h
      · unfold nQualities at hlt
        omega
      · unfold parseZones at hz
        obtain ⟨y', -, hy'⟩ := forall₂_exists_right (mapM_forall₂_of hz) (List.mem_range.2 hlt)
        obtain ⟨ss, hss, -⟩ := Option.map_eq_some_iff.1 hy'
        obtain ⟨s, -, hs'⟩ := forall₂_exists_right (mapM_forall₂_of hss) (List.mem_filter.2 ⟨hzm, by simp⟩)
        rcases h with ⟨o, i, h⟩ | ⟨ps, h⟩ <;> rw [h] at hs' <;> cases hs'

/-- C53, a disagreement: a missing stock means an unlimited one, but in a debug build with log messages parsing panics as soon as
two bins have no stock. -/
theorem C53_two_unlimited_bins {penv : PEnv K} {cfg : ParserConfig K} {ji : JsonInstance K} {addr addr' : ℕ → ℕ → ℕ → ℕ}
    (hl : penv.logInfo = true) (ho : penv.overflowChecks = true) (hm : 0 < penv.maxU64) {bs : List (JsonBin K)} (hb : ji.bins = some bs)
    {k l : ℕ} (hkl : k < l) {a b : JsonBin K} (ha : bs[k]? = some a) (ha' : a.stock = none) (hb1 : bs[l]? = some b) (hb2 : b.stock = none) :
    parseInstance penv cfg n addr addr' ji = none := by
  by_contra hne
  obtain ⟨inst, hp⟩ := Option.ne_none_iff_exists'.1 hne
  obtain ⟨hs, -⟩ := parse_qualities hp hb
  unfold parseInstance at hp
  obtain ⟨items, -, hp⟩ := Option.bind_eq_some_iff.1 hp
  rw [hb, hs] at hp
  obtain ⟨i0, hp, hlog⟩ := Option.bind_eq_some_iff.1 hp
  dsimp only at hp
  obtain ⟨bins, hbins, hp⟩ := Option.bind_eq_some_iff.1 hp
  obtain ⟨bi, hbi, rfl⟩ := Option.map_eq_some_iff.1 hp
  unfold BPInstance.new at hbi
  split_ifs at hbi
  cases hbi
  obtain ⟨-, hg⟩ := forall₂_zipIdx_get (mapM_forall₂_of hbins)
  have stock : ∀ {k : ℕ} {a : JsonBin K}, bs[k]? = some a → a.stock = none → ∃ x : Bin K n, bins[k]? = some (x, penv.maxU64) := by
    intro k a ha ha'
    obtain ⟨⟨x, q⟩, h1, h2⟩ := hg k a ha
    refine ⟨x, ?_⟩
    rw [h1]
    unfold parseBin at h2
    obtain ⟨_, -, h2⟩ := Option.bind_eq_some_iff.1 h2
    obtain ⟨_, -, h2⟩ := Option.bind_eq_some_iff.1 h2
    by_cases hc : ¬∀ z ∈ a.zones, z.quality < nQualities
    · rw [if_pos hc] at h2; cases h2
    · rw [if_neg hc] at h2
      obtain ⟨_, -, h2⟩ := Option.bind_eq_some_iff.1 h2
      obtain ⟨_, -, h2⟩ := Option.bind_eq_some_iff.1 h2
      obtain ⟨_, -, h2⟩ := Option.map_eq_some_iff.1 h2
      have := congrArg Prod.snd h2
      simp only [ha', Option.getD_none] at this
      rw [this]
  obtain ⟨x, hx⟩ := stock ha ha'
  obtain ⟨y, hy⟩ := stock hb1 hb2
  have hsum : penv.maxU64 + penv.maxU64 ≤ (bins.map (·.2)).sum := by
    have e1 : (bins.map (·.2))[k]? = some penv.maxU64 := by rw [List.getElem?_map, hx]; rfl
    have e2 : (bins.map (·.2))[l]? = some penv.maxU64 := by rw [List.getElem?_map, hy]; rfl
    obtain ⟨k1, e1⟩ := List.getElem?_eq_some_iff.1 e1
    obtain ⟨l1, e2⟩ := List.getElem?_eq_some_iff.1 e2
    have h1 : (bins.map (·.2)).drop k = penv.maxU64 :: (bins.map (·.2)).drop (k + 1) := by rw [List.drop_eq_getElem_cons k1, e1]
    have h2 : penv.maxU64 ∈ (bins.map (·.2)).drop (k + 1) := by
      rw [List.mem_drop_iff_getElem]
      exact ⟨l - (k + 1), by omega, by
        have : k + 1 + (l - (k + 1)) = l := by omega
        simp only [this]
        exact e2⟩
    have h3 := List.le_sum_of_mem h2
    have h4 : (bins.map (·.2)).sum = ((bins.map (·.2)).take k).sum + ((bins.map (·.2)).drop k).sum := by rw [← List.sum_append, List.take_append_drop]
    rw [h1, List.sum_cons] at h4
    omega
  unfold logParsed at hlog
  rw [if_pos] at hlog
  · cases hlog
  · have : penv.sumFits (bins.map (·.2)) = false := by
      unfold PEnv.sumFits
      rw [ho, Bool.true_and, decide_eq_true (by omega)]
      rfl
    simp [hl, this]

/-- C53, a disagreement: the cost of using a bin, as given in the input, is not used: the value of a bin, which the costs of a solution
are computed from, is its area. -/
theorem C53_cost_ignored {penv : PEnv K} {cfg : ParserConfig K} (hpoi : PoiInside penv.poi) (hsurr : KeepsShape penv.surr) (hz : penv.tr.AtZero)
    (ht : ∀ tol, cfg.tolerance = some tol → tol < 1) {ji : JsonInstance K} (h : ji.Sound) {bs : List (JsonBin K)} (hb : ji.bins = some bs)
    {addr addr' : ℕ → ℕ → ℕ → ℕ} {inst : Instance K n} (hp : parseInstance penv cfg n addr addr' ji = some inst) :
    (∃ i, inst = .bp i ∧ ∀ b ∈ i.bins, b.1.value = penv.toU64 b.1.area) ∧
    ∀ cost : JsonBin K → ℕ, parseInstance penv cfg n addr addr' { ji with bins := some (bs.map fun b => { b with cost := cost b }) } = some inst := by
  obtain ⟨h1, h2⟩ := parse_qualities hp hb
  obtain ⟨i, e1, -, e2, -⟩ := parse_bp (n := n) (cfg := cfg) hpoi hsurr hz ht h hb h1 h2 addr addr'
  rw [hp] at e1
  constructor
  · refine ⟨i, logParsed_some e1.symm, fun b hbm => ?_⟩
    obtain ⟨_, -, -, -, hv⟩ := forall₂_exists_left e2 hbm
    exact hv
  · intro cost
    rw [← hp]
    unfold parseInstance
    rw [hb, h1]
    dsimp only
    congr 1
    funext items
    congr 2
    rw [List.zipIdx_map, List.mapM_map]
    rfl

/-! ## Concrete cases -/

/-- Non-trivial case for C53: triangles and squares, a bin with a hole and a zone, simplification and centering switched on. -/
example : ∃ inst : Instance ℚ 2, Ex.jParsed = some inst ∧ PoiInside Ex.jEnv.poi ∧ KeepsShape Ex.jEnv.surr ∧ Ex.jEnv.tr.AtZero ∧
    Ex.jEnv.toRadians 0 = 0 ∧ (∀ tol, Ex.jCfg.tolerance = some tol → tol < 1) ∧ Ex.jInst.Sound ∧ Ex.jEnv.logInfo = true ∧ Ex.jEnv.overflowChecks = true ∧
    (inst.items.map fun x => (x.2, x.1.value, x.1.shape.points)) =
      [(2, 0, [⟨-1, -1⟩, ⟨2, -1⟩, ⟨-1, 2⟩]), (1, 7, [⟨-1, -1⟩, ⟨1, -1⟩, ⟨1, 1⟩, ⟨-1, 1⟩])] := by
  have h : Ex.jParsed.map (fun i => i.items.map fun x => (x.2, x.1.value, x.1.shape.points)) =
      some [(2, 0, [⟨-1, -1⟩, ⟨2, -1⟩, ⟨-1, 2⟩]), (1, 7, [⟨-1, -1⟩, ⟨1, -1⟩, ⟨1, 1⟩, ⟨-1, 1⟩])] := by decide +kernel
  obtain ⟨inst, hi, he⟩ := Option.map_eq_some_iff.1 h
  exact ⟨inst, hi, Ex.jPoi_inside, Ex.jEnv_keeps, Ex.turns_zero, by decide +kernel, Ex.jCfg_tolerance, Ex.jInst_sound, rfl, rfl, he⟩

/-- The bin: everything is moved by the same translation. -/
example : Ex.jParsed.map (fun i => match i with
    | .bp i => i.bins.map fun b => (b.2, b.1.value, b.1.outer.val.points ++ b.1.holes.flatMap fun h => h.val.points)
    | .sp _ => []) =
    (some [(1, 63, [⟨-4, -4⟩, ⟨4, -4⟩, ⟨4, 4⟩, ⟨-4, 4⟩, ⟨-3, -3⟩, ⟨-2, -3⟩, ⟨-2, -2⟩, ⟨-3, -2⟩])] :
      Option (List (ℕ × ℕ × List (Point ℚ)))) := by
  decide +kernel

/-- Non-trivial case for `C53_total`. -/
example : ∃ inst : Instance ℚ 2, parseInstance Ex.jEnv Ex.jCfg 2 (fun i j k => 10000 * i + 100 * j + k) (fun i j k => 20000 + 10000 * i + 100 * j + k) Ex.jStrip = some inst :=
  C53_total Ex.jPoi_inside Ex.jEnv_keeps Ex.turns_zero Ex.jCfg_tolerance Ex.jStrip_sound (by decide) (fun bs hb => by cases hb)
    (.inr (.inr ⟨by decide +kernel, fun bs hb => by cases hb⟩)) _ _

/-- Non-trivial case for `C53_two_unlimited_bins`: the same bin twice, without stock. -/
example : parseInstance (n := 2) Ex.jEnv Ex.jCfg (fun i j k => 10000 * i + 100 * j + k) (fun i j k => 20000 + 10000 * i + 100 * j + k)
      (ji := ⟨Ex.jItems 2, some [{ Ex.jBin with stock := none }, { Ex.jBin with stock := none }], none⟩) = none ∧
    (parseInstance (n := 2) { Ex.jEnv with logInfo := false } Ex.jCfg (fun i j k => 10000 * i + 100 * j + k) (fun i j k => 20000 + 10000 * i + 100 * j + k)
      (ji := ⟨Ex.jItems 2, some [{ Ex.jBin with stock := none }, { Ex.jBin with stock := none }], none⟩)).isSome = true :=
  ⟨C53_two_unlimited_bins (bs := [{ Ex.jBin with stock := none }, { Ex.jBin with stock := none }]) rfl rfl (by decide +kernel) rfl (k := 0) (l := 1)
    (by decide) rfl rfl rfl rfl, by decide +kernel⟩

/-- Non-trivial case for `C53_refused`: an item with a hole. -/
example : parseInstance (n := 2) Ex.jEnv Ex.jCfg (fun i j k => 10000 * i + 100 * j + k) (fun i j k => 20000 + 10000 * i + 100 * j + k)
    (ji := { Ex.jInst with items := [⟨1, none, Ex.jBin.shape, none, none⟩] }) = none :=
  C53_refused (.inr (.inl ⟨_, List.mem_singleton.2 rfl, .inl ⟨_, _, rfl⟩⟩))

end Jagua
