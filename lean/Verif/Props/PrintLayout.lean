import Verif.Model.PrintLayout
import Verif.Props.SelfCheck

/-! # C82: code that is printed for a layout -/

set_option linter.unusedSectionVars false

namespace Jagua

section

variable {K : Type*} [Arith K] [LinearOrder K] {n : ℕ}

theorem exec_places {env : Env K} {cat : ℕ → Item K} (hcat : ∀ i, (cat i).id = i) (addr : ℕ) (ps : List (ℕ × DTransf K)) {l : Layout K n}
    (hr : (⟨l, []⟩ : LayoutState K n).Reachable env cat)
    (hn : ((l.placed.values.map fun pi => (pi.itemId, pi.dt)) ++ ps).Nodup) :
    ∃ l', ps.foldlM (fun l p => (l.placeItem env (addr + l.placed.len) (cat p.1) p.2).map (·.2)) l = some l' ∧
      (⟨l', []⟩ : LayoutState K n).Reachable env cat ∧ l'.bin = l.bin ∧
      (l'.placed.values.map fun pi => (pi.itemId, pi.dt)).Perm ((l.placed.values.map fun pi => (pi.itemId, pi.dt)) ++ ps) := by
  induction ps generalizing l with
  | nil => exact ⟨l, rfl, hr, rfl, by rw [List.append_nil]⟩
  | cons p ps ih =>
    obtain ⟨i, dt⟩ := p
    have hpre : (LayoutOp.place (addr + l.placed.len) (cat i) dt).Pre env cat (⟨l, []⟩ : LayoutState K n) := by
      refine ⟨by rw [hcat], fun pi hpi ⟨h1, h2⟩ => ?_⟩
      rw [hcat] at h1
      exact (List.nodup_append.1 hn).2.2 _ (List.mem_map_of_mem hpi) (i, dt) List.mem_cons_self (by rw [h1, h2])
    obtain ⟨st', h1, h2, -, h3, h4⟩ := C26_operations hr hpre
    simp only [LayoutOp.run] at h1
    obtain ⟨r, hr1, rfl⟩ := Option.map_eq_some_iff.1 h1
    have hp := h4.map fun pi => (pi.itemId, pi.dt)
    have hp : (r.2.placed.values.map fun pi => (pi.itemId, pi.dt)).Perm ((i, dt) :: l.placed.values.map fun pi => (pi.itemId, pi.dt)) := by
      have he : (((cat i).id, dt) : ℕ × DTransf K) = (i, dt) := by rw [hcat]
      rw [← he]
      exact hp
    have hp2 : ((r.2.placed.values.map fun pi => (pi.itemId, pi.dt)) ++ ps).Perm ((l.placed.values.map fun pi => (pi.itemId, pi.dt)) ++ (i, dt) :: ps) :=
      (hp.append_right ps).trans List.perm_middle.symm
    obtain ⟨l', e1, e2, e3, e4⟩ := ih h2 (hp2.nodup_iff.2 hn)
    refine ⟨l', ?_, e2, e3.trans h3, e4.trans hp2⟩
    rw [List.foldlM_cons]
    dsimp only
    rw [hr1]
    exact e1

/-- **C82, as far as it holds: the code printed for a layout sets up a layout** with the same bin and the same items, at the printed
positions, unless two copies of an item have the same printed position. Where the positions have no more decimals than are
printed, the new layout answers all collision queries as the old one and has the same shapes at the same places, no matter by what sequence of
operations the old one came about. Missing for the full statement (the new layout is always like the old one): positions with more decimals, for which
it is false, see `C82_rounding_hides_collisions`. -/
theorem C82_printed_code_partial {env : Env K} {cat : ℕ → Item K} (hcat : ∀ i, (cat i).id = i) {st : LayoutState K n} (hr : st.Reachable env cat)
    {bins : ℕ → Bin K n} (hb : bins st.layout.bin.id = st.layout.bin) (fmt : K → K)
    (hd : ∀ pi ∈ st.layout.placed.values, ∀ pi' ∈ st.layout.placed.values, pi.itemId = pi'.itemId → pi.dt ≠ pi'.dt →
      ¬ (fmt pi.dt.rotation = fmt pi'.dt.rotation ∧ fmt pi.dt.tx = fmt pi'.dt.tx ∧ fmt pi.dt.ty = fmt pi'.dt.ty)) (addr : ℕ) :
    ∃ l', (printLayout fmt st.layout).exec env bins cat addr = some l' ∧ (⟨l', []⟩ : LayoutState K n).Reachable env cat ∧
      l'.bin = st.layout.bin ∧
      (l'.placed.values.map fun pi => (pi.itemId, pi.dt)).Perm
        (st.layout.placed.values.map fun pi => (pi.itemId, ⟨fmt pi.dt.rotation, fmt pi.dt.tx, fmt pi.dt.ty⟩)) ∧
      ((∀ pi ∈ st.layout.placed.values, fmt pi.dt.rotation = pi.dt.rotation ∧ fmt pi.dt.tx = pi.dt.tx ∧ fmt pi.dt.ty = pi.dt.ty) →
        SameAnswers env.f st.layout.cde l'.cde ∧
        (l'.placed.values.map fun pi => (pi.itemId, pi.dt, pi.hazardFilter, pi.shape.val)).Perm
          (st.layout.placed.values.map fun pi => (pi.itemId, pi.dt, pi.hazardFilter, pi.shape.val))) := by
  have hi := hr.inv.layout
  have h0 : (⟨Layout.new 0 st.layout.bin, []⟩ : LayoutState K n).Reachable env cat := ⟨0, _, [], hi.bin, .nil _⟩
  have hv : (Layout.new 0 st.layout.bin).placed.values = [] := rfl
  have hnd : (printLayout fmt st.layout).places.Nodup := by
    unfold printLayout
    have hn := hi.nodup
    refine List.Nodup.map_on ?_ (List.Nodup.of_map _ hn)
    intro a ha b hb he
    have h1 := congrArg Prod.fst he
    have h2 := congrArg Prod.snd he
    dsimp only at h1 h2
    by_contra hab
    have hdt : a.dt ≠ b.dt := by
      intro hdt
      exact hab (List.inj_on_of_nodup_map hn ha hb (by unfold PlacedItem.entity; rw [h1, hdt]))
    unfold DTransf.printed at h2
    exact hd a ha b hb h1 hdt (by simpa using h2)
  obtain ⟨l', e1, e2, e3, e4⟩ := exec_places hcat addr (printLayout fmt st.layout).places h0 (by rw [hv]; exact hnd)
  rw [hv, List.map_nil, List.nil_append] at e4
  refine ⟨l', ?_, e2, e3, e4, fun hx => ?_⟩
  · unfold LayoutCode.exec
    have : bins (printLayout fmt st.layout).binId = st.layout.bin := hb
    rw [this]
    exact e1
  have hsame : (printLayout fmt st.layout).places = st.layout.placed.values.map fun pi => (pi.itemId, pi.dt) := by
    unfold printLayout
    refine List.map_congr_left fun pi hpi => ?_
    obtain ⟨x1, x2, x3⟩ := hx pi hpi
    unfold DTransf.printed
    rw [x1, x2, x3]
  rw [hsame] at e4
  have hi' := e2.inv.layout
  refine ⟨(hi.same hi' e3.symm ?_).same.answers, ?_⟩
  · have := (e4.symm.map fun p : ℕ × DTransf K => (HazardEntity.placedItem p.1 p.2 : HazardEntity K))
    rw [List.map_map, List.map_map] at this
    exact this
  · have := e4.map fun p : ℕ × DTransf K => (p.1, p.2, (cat p.1).hazardFilter, (cat p.1).shape.transform (Transf.fromDt env.tr p.2))
    rw [List.map_map, List.map_map] at this
    have key : ∀ l : Layout K n, l.Inv env cat → (l.placed.values.map fun pi => (pi.itemId, pi.dt, pi.hazardFilter, pi.shape.val)) =
        l.placed.values.map ((fun p : ℕ × DTransf K => (p.1, p.2, (cat p.1).hazardFilter, (cat p.1).shape.transform (Transf.fromDt env.tr p.2))) ∘
          fun pi => (pi.itemId, pi.dt)) := by
      intro l hl
      refine List.map_congr_left fun pi hpi => ?_
      obtain ⟨y1, y2⟩ := hl.ok pi hpi
      rw [y1, y2]
      rfl
    rw [key _ hi, key _ hi']
    exact this

end

variable {K : Type*} [Field K] [LinearOrder K] [IsStrictOrderedRing K] {n : ℕ}

/-- C82: if printing changes numbers by less than `δ`, every item of the new layout is a copy of an item of the old one with a position that
differs by less than `δ` in every number, and conversely. -/
theorem C82_printed_code_close {env : Env K} {cat : ℕ → Item K} (hcat : ∀ i, (cat i).id = i) {st : LayoutState K n} (hr : st.Reachable env cat)
    {bins : ℕ → Bin K n} (hb : bins st.layout.bin.id = st.layout.bin) {fmt : K → K} {δ : K} (hδ : ∀ x, |fmt x - x| ≤ δ)
    (hd : ∀ pi ∈ st.layout.placed.values, ∀ pi' ∈ st.layout.placed.values, pi.itemId = pi'.itemId → pi.dt ≠ pi'.dt →
      2 * δ < |pi.dt.rotation - pi'.dt.rotation| ∨ 2 * δ < |pi.dt.tx - pi'.dt.tx| ∨ 2 * δ < |pi.dt.ty - pi'.dt.ty|) (addr : ℕ) :
    ∃ l', (printLayout fmt st.layout).exec env bins cat addr = some l' ∧ l'.bin = st.layout.bin ∧
      l'.placed.values.length = st.layout.placed.values.length ∧
      (∀ pi' ∈ l'.placed.values, ∃ pi ∈ st.layout.placed.values, pi'.itemId = pi.itemId ∧
        |pi'.dt.rotation - pi.dt.rotation| ≤ δ ∧ |pi'.dt.tx - pi.dt.tx| ≤ δ ∧ |pi'.dt.ty - pi.dt.ty| ≤ δ) ∧
      (∀ pi ∈ st.layout.placed.values, ∃ pi' ∈ l'.placed.values, pi'.itemId = pi.itemId ∧
        |pi'.dt.rotation - pi.dt.rotation| ≤ δ ∧ |pi'.dt.tx - pi.dt.tx| ≤ δ ∧ |pi'.dt.ty - pi.dt.ty| ≤ δ) := by
  have far : ∀ x y : K, 2 * δ < |x - y| → fmt x ≠ fmt y := by
    intro x y h he
    have h1 := abs_le.1 (hδ x)
    have h2 := abs_le.1 (hδ y)
    rw [he] at h1
    have : |x - y| ≤ 2 * δ := abs_le.2 ⟨by linarith [h1.2, h2.1], by linarith [h1.1, h2.2]⟩
    linarith
  obtain ⟨l', e1, -, e3, e4, -⟩ := C82_printed_code_partial hcat hr hb fmt (by
    rintro pi hpi pi' hpi' hid hne ⟨f1, f2, f3⟩
    rcases hd pi hpi pi' hpi' hid hne with h | h | h
    · exact far _ _ h f1
    · exact far _ _ h f2
    · exact far _ _ h f3) addr
  refine ⟨l', e1, e3, by simpa using e4.length_eq, ?_, ?_⟩
  · intro pi' hpi'
    obtain ⟨pi, hpi, he⟩ := List.mem_map.1 (e4.mem_iff.1 (List.mem_map_of_mem hpi'))
    have h1 := congrArg Prod.fst he
    have h2 := congrArg Prod.snd he
    dsimp only at h1 h2
    refine ⟨pi, hpi, h1.symm, ?_⟩
    rw [← h2]
    exact ⟨hδ _, hδ _, hδ _⟩
  · intro pi hpi
    obtain ⟨pi', hpi', he⟩ := List.mem_map.1 (e4.mem_iff.2 (List.mem_map_of_mem hpi))
    have h1 := congrArg Prod.fst he
    have h2 := congrArg Prod.snd he
    dsimp only at h1 h2
    refine ⟨pi', hpi', h1, ?_⟩
    rw [h2]
    exact ⟨hδ _, hδ _, hδ _⟩

namespace Ex

/-- rounding to six decimals -/
def sixDecimals (x : ℚ) : ℚ := (⌊x * 1000000 + 1 / 2⌋ : ℤ) / 1000000

theorem sixDecimals_near (x : ℚ) : |sixDecimals x - x| ≤ 1 / 2000000 := by
  have h1 := Int.floor_le (x * 1000000 + 1 / 2)
  have h2 := Int.lt_floor_add_one (x * 1000000 + 1 / 2)
  unfold sixDecimals
  have e : ((⌊x * 1000000 + 1 / 2⌋ : ℤ) : ℚ) / 1000000 - x = (((⌊x * 1000000 + 1 / 2⌋ : ℤ) : ℚ) - x * 1000000) / 1000000 := by
    field_simp
  rw [e, abs_le]
  constructor
  · rw [le_div_iff₀ (by norm_num)]
    linarith
  · rw [div_le_iff₀ (by norm_num)]
    linarith

end Ex

/-- C82 is violated: the code is printed when a collision is found, but in the layout that it sets up there need not be one. Here
a square that is turned by less than a millionth touches another one; the printed angle is zero. -/
theorem C82_rounding_hides_collisions : ∃ (st : LayoutState ℚ 2) (bins : ℕ → Bin ℚ 2) (l' : Layout ℚ 2), st.Reachable Ex.lbfEnv Ex.sqCat ∧
    (∀ i, (Ex.sqCat i).id = i) ∧ bins st.layout.bin.id = st.layout.bin ∧
    layoutIsCollisionFree Ex.lbfEnv st.layout = some false ∧
    (printLayout Ex.sixDecimals st.layout).exec Ex.lbfEnv bins Ex.sqCat 0 = some l' ∧
    layoutIsCollisionFree Ex.lbfEnv l' = some true := by
  obtain ⟨st, hst⟩ : ∃ st, Ex.twoSquares ⟨4 / 10000000, 2, 2⟩ ⟨0, 4 + 6 / 10000000, 2⟩ = some st := Option.isSome_iff_exists.1 (by decide +kernel)
  have h1 : (Ex.twoSquares ⟨4 / 10000000, 2, 2⟩ ⟨0, 4 + 6 / 10000000, 2⟩).bind (fun st => layoutIsCollisionFree Ex.lbfEnv st.layout) = some false := by
    decide +kernel
  have h2 : (Ex.twoSquares ⟨4 / 10000000, 2, 2⟩ ⟨0, 4 + 6 / 10000000, 2⟩).bind (fun st =>
      ((printLayout Ex.sixDecimals st.layout).exec Ex.lbfEnv (fun _ => st.layout.bin) Ex.sqCat 0).bind fun l' => layoutIsCollisionFree Ex.lbfEnv l') = some true := by
    decide +kernel
  rw [hst, Option.bind_some] at h1 h2
  obtain ⟨l', h3, h4⟩ := Option.bind_eq_some_iff.1 h2
  exact ⟨st, fun _ => st.layout.bin, l', (Ex.twoSquares_reachable hst).1, fun _ => rfl, rfl, h1, h3, h4⟩

-- two squares at positions with few decimals, which meet the hypotheses of both theorems
example : ∃ (st : LayoutState ℚ 2), st.Reachable Ex.lbfEnv Ex.sqCat ∧
    (∀ pi ∈ st.layout.placed.values, Ex.sixDecimals pi.dt.rotation = pi.dt.rotation ∧ Ex.sixDecimals pi.dt.tx = pi.dt.tx ∧
      Ex.sixDecimals pi.dt.ty = pi.dt.ty) ∧
    (∀ pi ∈ st.layout.placed.values, ∀ pi' ∈ st.layout.placed.values, pi.itemId = pi'.itemId → pi.dt ≠ pi'.dt →
      2 * (1 / 2000000) < |pi.dt.rotation - pi'.dt.rotation| ∨ 2 * (1 / 2000000) < |pi.dt.tx - pi'.dt.tx| ∨
        2 * (1 / 2000000) < |pi.dt.ty - pi'.dt.ty|) ∧ st.layout.placed.values.length = 2 := by
  obtain ⟨st, hst⟩ : ∃ st, Ex.twoSquares ⟨0, 2, 2⟩ ⟨1 / 4, 5, 41 / 8⟩ = some st := Option.isSome_iff_exists.1 (by decide +kernel)
  have h1 : (Ex.twoSquares ⟨0, 2, 2⟩ ⟨1 / 4, 5, 41 / 8⟩).map (fun st => decide ((∀ pi ∈ st.layout.placed.values,
      Ex.sixDecimals pi.dt.rotation = pi.dt.rotation ∧ Ex.sixDecimals pi.dt.tx = pi.dt.tx ∧ Ex.sixDecimals pi.dt.ty = pi.dt.ty) ∧
      (∀ pi ∈ st.layout.placed.values, ∀ pi' ∈ st.layout.placed.values, pi.itemId = pi'.itemId → pi.dt ≠ pi'.dt →
      2 * (1 / 2000000) < |pi.dt.rotation - pi'.dt.rotation| ∨ 2 * (1 / 2000000) < |pi.dt.tx - pi'.dt.tx| ∨
        2 * (1 / 2000000) < |pi.dt.ty - pi'.dt.ty|) ∧ st.layout.placed.values.length = 2)) = some true := by decide +kernel
  rw [hst] at h1
  exact ⟨st, (Ex.twoSquares_reachable hst).1, of_decide_eq_true (Option.some.inj h1)⟩

end Jagua
