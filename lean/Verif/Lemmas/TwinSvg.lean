import Verif.Lemmas.TwinRun
import Verif.Lemmas.TwinParse
import Verif.Lemmas.DebugTree
import Verif.Lemmas.SvgTree

/-!
# Twin layouts give the same picture
-/

set_option linter.unusedSectionVars false

namespace Jagua

variable {K : Type*} [Field K] [LinearOrder K] [IsStrictOrderedRing K] {n : ℕ}

/-! ## The quadtree -/

/-- all hazards are active -/
def AllActive (hs : List (QTHazard K)) : Prop := ∀ x ∈ hs, x.active = true

theorem AllActive.child {f : Fpa K} {r : AARect K} {i : Fin 4} {hs : List (QTHazard K)} (h : AllActive hs) : AllActive (childHaz f r i hs) := by
  intro x hx
  obtain ⟨y, hy, hyx⟩ := List.mem_filterMap.1 hx
  rw [(constrictTo_entity hyx).2]
  exact h y hy

theorem QTNode.SameActive.rank {hs hs' : List (QTHazard K)} (h : QTNode.SameActive hs hs') {x : QTHazard K} (hx : x ∈ hs) (ha : x.active = true) :
    ∃ y ∈ hs', y.active = true ∧ y.presence.rank = x.presence.rank ∧ y.presence.isPartial = x.presence.isPartial := by
  obtain ⟨y, hy, hya, he⟩ := h x hx ha
  have e3 : y.presence.erase = x.presence.erase := congrArg QTHazard.presence he
  exact ⟨y, hy, hya, by rw [← QTNode.rank_erase, e3, QTNode.rank_erase], by rw [← QTNode.isPartial_erase, e3, QTNode.isPartial_erase]⟩

/-- the strongest hazards have the same strength -/
theorem strongest_same {v w : QTHazardVec K} {hs hs' : List (QTHazard K)} (hv : VecInv v hs) (hw : VecInv w hs')
    (h : QTNode.SameActive hs hs') (h' : QTNode.SameActive hs' hs) :
    ∃ r r', v.strongest [] = some r ∧ w.strongest [] = some r' ∧ (∀ s, r = some s → s ∈ hs) ∧ (∀ s, r' = some s → s ∈ hs') ∧
      r.map (·.presence.rank) = r'.map (·.presence.rank) := by
  obtain ⟨r, e, s1, s2⟩ := hv.strongest []
  obtain ⟨r', e', s1', s2'⟩ := hw.strongest []
  refine ⟨r, r', e, e', fun s hs => (s2 s hs).1, fun s hs => (s2' s hs).1, ?_⟩
  cases r with
  | none =>
    cases r' with
    | none => rfl
    | some s' =>
      obtain ⟨a1, a2, -, -⟩ := s2' s' rfl
      obtain ⟨y, hy, hya, -⟩ := h' s' a1 a2
      exact absurd (s1 rfl y hy hya) (by simp)
  | some s =>
    obtain ⟨a1, a2, -, a4⟩ := s2 s rfl
    cases r' with
    | none =>
      obtain ⟨y, hy, hya, -⟩ := h s a1 a2
      exact absurd (s1' rfl y hy hya) (by simp)
    | some s' =>
      obtain ⟨b1, b2, -, b4⟩ := s2' s' rfl
      obtain ⟨y, hy, hya, hyr, -⟩ := h.rank a1 a2
      obtain ⟨z, hz, hza, hzr, -⟩ := h'.rank b1 b2
      have q1 := b4 y hy hya (by simp)
      have q2 := a4 z hz hza (by simp)
      rw [hyr] at q1
      rw [hzr] at q2
      exact congrArg some (le_antisymm q1 q2)

theorem QTNode.draw_same {f : Fpa K} {n : ℕ} (nd nd' : QTNode K n) {r : AARect K} {hs hs' : List (QTHazard K)} (hc : nd.Canon f r hs)
    (hc' : nd'.Canon f r hs') (hok : AllOK hs) (hok' : AllOK hs') (ha : AllActive hs) (ha' : AllActive hs') (h : QTNode.SameActive hs hs')
    (h' : QTNode.SameActive hs' hs) (d : SvgTree K) : nd.draw [] d = nd'.draw [] d := by
  induction nd generalizing r hs hs' d with
  | @leaf m b v =>
    cases nd' with
    | leaf b' v' =>
      obtain ⟨rfl, h2, -⟩ := hc
      obtain ⟨rfl, h2', -⟩ := hc'
      obtain ⟨x, x', e, e', m1, m2, er⟩ := strongest_same h2 h2' h h'
      unfold QTNode.draw
      rw [e, e']
      cases x with
      | none =>
        cases x' with
        | none => rfl
        | some s' => cases er
      | some s =>
        cases x' with
        | none => cases er
        | some s' =>
          have er : s.presence.rank = s'.presence.rank := Option.some.inj er
          have o1 := hok s (m1 s rfl)
          have o2 := hok' s' (m2 s' rfl)
          dsimp only
          cases hp : s.presence <;> cases hp' : s'.presence <;> rw [hp] at er o1 <;> rw [hp'] at er o2 <;>
            first | rfl | exact o1.elim | exact o2.elim | (exact absurd er (by simp [Presence.rank]))
    | node b' v' cs' =>
      obtain ⟨-, -, h3⟩ := hc
      obtain ⟨-, -, ⟨y, hy, hyp⟩, -⟩ := hc'
      obtain ⟨z, hz, -, -, hzp⟩ := h'.rank hy (ha' y hy)
      rcases h3 with h3 | h3
      · cases h3
      · rw [h3 z hz, hyp] at hzp
        cases hzp
  | @node m b v cs ih =>
    cases nd' with
    | leaf b' v' =>
      obtain ⟨-, -, h3⟩ := hc'
      obtain ⟨-, -, ⟨y, hy, hyp⟩, -⟩ := hc
      obtain ⟨z, hz, -, -, hzp⟩ := h.rank hy (ha y hy)
      rcases h3 with h3 | h3
      · cases h3
      · rw [h3 z hz, hyp] at hzp
        cases hzp
    | node b' v' cs' =>
      obtain ⟨rfl, h2, -, h4⟩ := hc
      obtain ⟨rfl, h2', -, h4'⟩ := hc'
      obtain ⟨x, x', e, e', -, -, er⟩ := strongest_same h2 h2' h h'
      unfold QTNode.draw
      rw [e, e']
      cases x with
      | none =>
        cases x' with
        | none => rfl
        | some s' => cases er
      | some s =>
        cases x' with
        | none => cases er
        | some s' =>
          dsimp only
          have : (fun i => (cs i).draw []) = fun i => (cs' i).draw [] := by
            funext i d
            exact ih i (cs' i) (h4 i) (h4' i) hok.child hok'.child ha.child ha'.child (h.child hok hok') (h'.child hok' hok) d
          rw [this]

theorem sameActive_erase {l l' : List (Hazard K)} (h : l.map Hazard.erase = l'.map Hazard.erase) :
    QTNode.SameActive (l.map QTHazard.ofHazard) (l'.map QTHazard.ofHazard) := by
  intro x hx _
  obtain ⟨y, hy, rfl⟩ := List.mem_map.1 hx
  have : y.erase ∈ l'.map Hazard.erase := h ▸ List.mem_map_of_mem hy
  obtain ⟨z, hz, he⟩ := List.mem_map.1 this
  exact ⟨_, List.mem_map_of_mem hz, rfl, by rw [← ofHazard_erase, ← ofHazard_erase, he]⟩

theorem CDE.Twin.draw {f : Fpa K} {c d : CDE K n} (h : c.Twin d) (hc : c.Inv f) (hd : d.Inv f) (t : SvgTree K) :
    c.tree.draw [] t = d.tree.draw [] t := by
  have key : ∀ e : CDE K n, e.uncommitted = [] → e.treeHaz = e.allHazards.map QTHazard.ofHazard := by
    intro e he
    unfold CDE.treeHaz CDE.allHazards
    rw [he, List.map_nil, List.append_nil, List.map_append]
  have act : ∀ e : CDE K n, AllActive (e.allHazards.map QTHazard.ofHazard) := by
    intro e x hx
    obtain ⟨y, -, rfl⟩ := List.mem_map.1 hx
    rfl
  have c1 := hc.canon
  have d1 := hd.canon
  have o1 := treeHaz_ok c
  have o2 := treeHaz_ok d
  rw [key c h.settled.1] at c1 o1
  rw [key d h.settled.2, ← h.bbox] at d1
  rw [key d h.settled.2] at o2
  exact QTNode.draw_same _ _ c1 d1 o1 o2 (act c) (act d) (sameActive_erase h.all) (sameActive_erase h.all.symm) t

/-! ## Bins and layouts -/

theorem drawZones_twin {theme : SvgTheme} {b b' : Bin K n}
    (h : b.qualityZones.map (Option.map QualityZone.erase) = b'.qualityZones.map (Option.map QualityZone.erase)) :
    drawZones theme b = drawZones theme b' := by
  have key : ∀ (g : QualityZone K → Option (List (SvgZone K))), (∀ z, g z.erase = g z) → ∀ l : List (Option (QualityZone K)),
      (l.filterMap id).mapM g = ((l.map (Option.map QualityZone.erase)).filterMap id).mapM g := by
    intro g hg l
    induction l with
    | nil => rfl
    | cons x l ih =>
      cases x with
      | none => simpa using ih
      | some z =>
        simp only [List.map_cons, Option.map_some, List.filterMap_cons, id, List.mapM_cons, hg]
        rw [show (fun a : Option (QualityZone K) => a) = id from rfl, ih]
  unfold drawZones
  rw [key _ ?_ b.qualityZones.reverse, key _ ?_ b'.qualityZones.reverse, List.map_reverse, List.map_reverse, h]
  all_goals
    intro z
    unfold QualityZone.erase
    dsimp only
    simp only [List.map_map]
    rfl

theorem layoutToSvg_twin {env : SvgEnv K} (o' : SearchOracle K) {opts : SvgOptions} {addr : ℕ → ℕ → ℕ} (addr' : ℕ → ℕ → ℕ) {inst inst' : Instance K n}
    (hi : inst.items = inst'.items) {hpg : Option (HPG K)} {l l' : Layout K n} (ht : l.Twin l') (hc : l.cde.Inv env.f) (hc' : l'.cde.Inv env.f)
    {svg : Svg K} (h : layoutToSvg env opts addr inst hpg l = some svg) :
    layoutToSvg { env with o := o' } opts addr' inst' hpg l' = some svg := by
  unfold layoutToSvg at h ⊢
  obtain ⟨bin, hb, h⟩ := Option.bind_eq_some_iff.1 h
  obtain ⟨bin', hb', tb⟩ := pretransformBin_twin o' addr' ht.bin hb
  have hu : l.placed.values.mapM (drawPlaced env inst.items l.bin) = l'.placed.values.mapM (drawPlaced env inst.items l'.bin) := by
    have key : ∀ (b : Bin K n) (l : List (PlacedItem K)),
        l.mapM (drawPlaced env inst.items b) = (l.map PlacedItem.erase).mapM (drawPlaced env inst.items b) := by
      intro b l
      induction l with
      | nil => rfl
      | cons x l ih =>
        rw [List.map_cons, List.mapM_cons, List.mapM_cons, ih]
        rfl
    rw [key, ht.values, ← key]
    congr 1
    funext pi
    unfold drawPlaced
    rw [ht.bin.pretransform]
  have hp := ht.bin.pretransform
  dsimp only at h ⊢
  rw [← hp]
  rw [show pretransformBin { env.toEnv with o := o' } addr' l'.bin l.bin.pretransform.inverse = some bin' from hb', Option.bind_some]
  have hh : (bin.holes.map fun h => (⟨h.val.points, opts.theme.holeFill, none⟩ : SvgPath K)) =
      bin'.holes.map fun h => ⟨h.val.points, opts.theme.holeFill, none⟩ := by
    have := congrArg (List.map fun s : Arc (SPoly K) => (⟨s.val.points, opts.theme.holeFill, none⟩ : SvgPath K)) tb.holes
    rwa [List.map_map, List.map_map] at this
  rw [← drawZones_twin tb.zones, ← hi, ← tb.outer, ← tb.id, ← hh, ← ht.cde.draw hc hc']
  rw [hu] at h
  exact h

/-! ## Snapshots -/

theorem restorePlan_nil (snap add : List (Hazard K)) : CDE.restorePlan [] add snap = ([], add ++ snap) := by
  induction snap generalizing add with
  | nil => rw [CDE.restorePlan, List.append_nil]
  | cons x snap ih =>
    rw [CDE.restorePlan]
    simp only [List.findIdx?_nil]
    rw [ih, List.append_assoc]
    rfl

theorem CDE.restore_empty {f : Fpa K} {o : SearchOracle K} {c : CDE K n} (h1 : c.dynamics = []) (h2 : c.uncommitted = []) (snap : List (Hazard K)) :
    c.restore f o snap = snap.foldlM (CDE.restoreAdd f o) c := by
  unfold CDE.restore
  rw [h1, List.map_nil, restorePlan_nil]
  obtain ⟨b, s, t, dy, u⟩ := c
  dsimp only at h2
  subst h2
  rfl

theorem restoreAdd_twin {f : Fpa K} {o o' : SearchOracle K} {s s' : List (Hazard K)} (hs : s.map Hazard.erase = s'.map Hazard.erase) {c d : CDE K n}
    (h : c.Twin d) {c' d' : CDE K n} (hc : s.foldlM (CDE.restoreAdd f o) c = some c') (hd : s'.foldlM (CDE.restoreAdd f o') d = some d') : c'.Twin d' := by
  induction s generalizing s' c d with
  | nil =>
    cases s' with
    | nil =>
      cases hc
      cases hd
      exact h
    | cons x s' => cases hs
  | cons x s ih =>
    cases s' with
    | nil => cases hs
    | cons x' s' =>
      rw [List.foldlM_cons] at hc hd
      obtain ⟨c1, h1, hc⟩ := Option.bind_eq_some_iff.1 hc
      obtain ⟨d1, h2, hd⟩ := Option.bind_eq_some_iff.1 hd
      rw [List.map_cons, List.map_cons, List.cons.injEq] at hs
      refine ih hs.2 ?_ hc hd
      unfold CDE.restoreAdd at h1 h2
      obtain ⟨t1, -, rfl⟩ := Option.map_eq_some_iff.1 h1
      obtain ⟨t2, -, rfl⟩ := Option.map_eq_some_iff.1 h2
      refine ⟨h.bbox, h.statics, ?_, h.settled⟩
      dsimp only
      rw [List.map_append, List.map_append, h.dynamics, List.map_singleton, List.map_singleton, hs.1]

theorem snapshotToSvg_twin {env : SvgEnv K} (o' : SearchOracle K) {opts : SvgOptions} {addr : ℕ → ℕ → ℕ} (addr' : ℕ → ℕ → ℕ) {inst inst' : Instance K n}
    (hi : inst.items = inst'.items) {hpg : Option (HPG K)} {cat cat' : ℕ → Item K} {s s' : LayoutSnapshot K n} (ht : s.Twin s')
    (hv : s.Valid env.toEnv cat) (hv' : s'.Valid { env.toEnv with o := o' } cat')
    {svg : Svg K} (h : snapshotToSvg env opts addr inst hpg s = some svg) :
    snapshotToSvg { env with o := o' } opts addr' inst' hpg s' = some svg := by
  unfold snapshotToSvg at h ⊢
  obtain ⟨l, e, hl, -, -, -⟩ := hv.fromSnapshot
  obtain ⟨l', e', hl', -, -, -⟩ := hv'.fromSnapshot
  rw [e, Option.bind_some] at h
  rw [show Layout.fromSnapshot { env.toEnv with o := o' } s' = some l' from e', Option.bind_some]
  refine layoutToSvg_twin o' addr' hi ?_ hl.reach.inv hl'.reach.inv h
  unfold Layout.fromSnapshot Layout.restore at e e'
  rw [if_neg (fun h => h rfl)] at e e'
  obtain ⟨c, hc, rfl⟩ := Option.map_eq_some_iff.1 e
  obtain ⟨c', hc', rfl⟩ := Option.map_eq_some_iff.1 e'
  obtain ⟨-, b2, b3, -⟩ := hv.bin.base
  obtain ⟨-, b2', b3', -⟩ := hv'.bin.base
  have hc : s.bin.baseCde.restore env.f env.o s.cdeSnapshot = some c := hc
  have hc' : s'.bin.baseCde.restore env.f o' s'.cdeSnapshot = some c' := hc'
  rw [CDE.restore_empty b2 b3] at hc
  rw [CDE.restore_empty b2' b3'] at hc'
  exact ⟨ht.id, ht.bin, ht.placed, restoreAdd_twin ht.hazards ht.bin.cde hc hc'⟩

end Jagua
