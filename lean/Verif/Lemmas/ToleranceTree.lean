import Verif.Lemmas.Tolerance

/-! # A tolerance smaller than the quadrants does not change the quadtree -/

set_option linter.unusedSectionVars false

namespace Jagua

variable {K : Type*} [Field K] [LinearOrder K] [IsStrictOrderedRing K]

theorem resolveStep_congr {f g : Fpa K} {e : HazardEntity K} {s : SPoly K} {quads : Fin 4 → AARect K}
    {st : Fin 4 → Option (Presence K)}
    (h : ∀ i, st i = none → centroidPresence f e s (quads i) = centroidPresence g e s (quads i)) (i : Fin 4) :
    resolveStep f e s quads st i = resolveStep g e s quads st i := by
  unfold resolveStep
  split_ifs with hi
  · have : st i = none := by simpa using hi
    congr 2
    unfold resolveValue
    rw [h i this]
  · rfl

theorem resolveStep_none {f : Fpa K} {e : HazardEntity K} {s : SPoly K} {quads : Fin 4 → AARect K}
    {st : Fin 4 → Option (Presence K)} {i j : Fin 4} (h : resolveStep f e s quads st i j = none) : st j = none := by
  unfold resolveStep at h
  split_ifs at h with hi
  · by_cases hj : j = i
    · rw [hj] at h; simp at h
    · rwa [Function.update_of_ne hj] at h
  · exact h

theorem resolve_congr {f g : Fpa K} {e : HazardEntity K} {s : SPoly K} {quads : Fin 4 → AARect K} (l : List (Fin 4))
    {st : Fin 4 → Option (Presence K)}
    (h : ∀ i, st i = none → centroidPresence f e s (quads i) = centroidPresence g e s (quads i)) :
    l.foldl (resolveStep f e s quads) st = l.foldl (resolveStep g e s quads) st := by
  induction l generalizing st with
  | nil => rfl
  | cons a l ih =>
    rw [List.foldl_cons, List.foldl_cons, ← resolveStep_congr h a]
    exact ih fun i hi => h i (resolveStep_none hi)

theorem quadrants_size {r : AARect K} (hv : r.Valid) (i : Fin 4) :
    (r.quadrants i).width = r.width / 2 ∧ (r.quadrants i).height = r.height / 2 := by
  obtain ⟨h0, h1, h2, h3⟩ := quadrants_eq hv
  unfold AARect.width AARect.height
  fin_cases i
  · show (r.quadrants 0).xMax - (r.quadrants 0).xMin = _ ∧ (r.quadrants 0).yMax - (r.quadrants 0).yMin = _
    rw [h0]; constructor <;> simp only <;> ring
  · show (r.quadrants 1).xMax - (r.quadrants 1).xMin = _ ∧ (r.quadrants 1).yMax - (r.quadrants 1).yMin = _
    rw [h1]; constructor <;> simp only <;> ring
  · show (r.quadrants 2).xMax - (r.quadrants 2).xMin = _ ∧ (r.quadrants 2).yMax - (r.quadrants 2).yMin = _
    rw [h2]; constructor <;> simp only <;> ring
  · show (r.quadrants 3).xMax - (r.quadrants 3).xMin = _ ∧ (r.quadrants 3).yMax - (r.quadrants 3).yMin = _
    rw [h3]; constructor <;> simp only <;> ring

theorem around_centroid {r : AARect K} {ε : K} (hw : 2 * ε ≤ r.width) (hh : 2 * ε ≤ r.height) {w : Point K}
    (h : w ∈ around r.centroid ε) : w ∈ r.pts := by
  obtain ⟨h1, h2⟩ := h
  rw [abs_le] at h1 h2
  unfold AARect.width at hw
  unfold AARect.height at hh
  simp only [AARect.centroid] at h1 h2
  refine ⟨?_, ?_, ?_, ?_⟩ <;> linarith [h1.1, h1.2, h2.1, h2.2]

/-- The tolerance does not matter when a hazard is handed down to the quadrants. -/
theorem constrictP_tolerant {f : Fpa K} {M ε : K} (hf : f.Tolerant M ε) (h0 : 0 ≤ ε) {e : HazardEntity K} {s : SPoly K}
    (hs : s.WF) (hb : Bounded s.points M) {r : AARect K} (hv : r.Valid) (hw : 4 * ε ≤ r.width) (hh : 4 * ε ≤ r.height)
    {p : PartialHaz K} (hp : GeoOK e.position s r (.partly p)) :
    constrictP f e (.partly p) r.quadrants = constrictP Fpa.exact e (.partly p) r.quadrants := by
  obtain ⟨hsh, hlt, hcov⟩ := hp.indices
  unfold constrictP
  dsimp only
  rw [hsh]
  split
  · rfl
  · have hok : (Presence.partly p).OK := hp.ok (by simp)
    rw [seq4_some (g := fun i => edgeResult (r.quadrants i) p.shape p.indices) (fun i => edgePhase_eq _ _ hok)]
    dsimp only
    congr 1
    apply resolve_congr
    intro i hi
    have hnob : ∀ w ∈ (r.quadrants i).pts, w ∉ bdry s.points := by
      intro w hw hb
      obtain ⟨k, e', hk, hke, hwe⟩ := bdry_edge_index hb
      have hit : edgeHits (r.quadrants i) s k = true :=
        (edgeHits_iff (quadrants_valid hv i)).2 ⟨e', hke, w, hwe, hw⟩
      have hkr : edgeHits r s k = true :=
        (edgeHits_iff hv).2 ⟨e', hke, w, hwe, quadrants_subset hv i hw⟩
      have hmem := hcov k hk hkr
      unfold edgeResult at hi
      split_ifs at hi with hnil
      rw [hsh] at hnil
      have : k ∈ p.indices.filter (edgeHits (r.quadrants i) s) := List.mem_filter.2 ⟨hmem, hit⟩
      rw [hnil] at this
      simp at this
    have hc := hnob _ (centroid_mem (quadrants_valid hv i))
    obtain ⟨z1, z2⟩ := quadrants_size hv i
    have heq : s.collidesPoint f (r.quadrants i).centroid = s.collidesPoint Fpa.exact (r.quadrants i).centroid := by
      rw [Bool.eq_iff_iff, SPoly.collidesPoint_iff hs hc, SPoly.collidesPoint_tolerant hf h0 hs hb]
      intro w hw' hwa
      exact hnob w (around_centroid (by rw [z1]; linarith) (by rw [z2]; linarith) hwa) hw'
    unfold centroidPresence
    rw [heq]

theorem constrictTo_tolerant {f : Fpa K} {M ε : K} (hf : f.Tolerant M ε) (h0 : 0 ≤ ε) {h : QTHazard K} {s : SPoly K}
    (hs : s.WF) (hb : Bounded s.points M) {r : AARect K} (hv : r.Valid) (hw : 4 * ε ≤ r.width) (hh : 4 * ε ≤ r.height)
    {p : PartialHaz K} (hp : h.presence = .partly p) (hg : GeoOK h.entity.position s r h.presence) (i : Fin 4) :
    constrictTo f r i h = constrictTo Fpa.exact r i h := by
  unfold constrictTo
  rw [hp] at hg ⊢
  rw [constrictP_tolerant hf h0 hs hb hv hw hh hg]

theorem size_step {ε w : K} {n : ℕ} (h0 : 0 ≤ ε) (h : ε * 2 ^ (n + 1 + 1) ≤ w) : 4 * ε ≤ w ∧ ε * 2 ^ (n + 1) ≤ w / 2 := by
  have h2 : (1 : K) ≤ 2 ^ n := one_le_pow₀ (by norm_num)
  rw [pow_succ, pow_succ] at h
  rw [pow_succ]
  constructor <;> nlinarith

theorem coll1_tolerant {f : Fpa K} {M ε : K} (hf : f.Tolerant M ε) (h0 : 0 ≤ ε) {s : SPoly K} (hs : s.WF) (hb : Bounded s.points M)
    (q : Queryable K) (n : ℕ) {r : AARect K} (hv : r.Valid) (hw : ε * 2 ^ (n + 1) ≤ r.width) (hh : ε * 2 ^ (n + 1) ≤ r.height)
    {h : QTHazard K} (hg : GeoOK h.entity.position s r h.presence) (hfit : Fits h.entity.position s r) :
    coll1 f q n r h = coll1 Fpa.exact q n r h := by
  induction n generalizing r h with
  | zero => rfl
  | succ n ih =>
    unfold coll1
    cases hp : h.presence with
    | none => rfl
    | entire => rfl
    | partly p =>
      dsimp only
      have w1 := size_step h0 hw
      have w2 := size_step h0 hh
      have key : ∀ i, (match constrictTo f r i h with
          | none => false
          | some c => coll1 f q n (r.quadrants i) c) = (match constrictTo Fpa.exact r i h with
          | none => false
          | some c => coll1 Fpa.exact q n (r.quadrants i) c) := by
        intro i
        rw [constrictTo_tolerant hf h0 hs hb hv w1.1 w2.1 hp hg i]
        cases hc : constrictTo Fpa.exact r i h with
        | none => rfl
        | some c =>
          obtain ⟨-, -, hg', hfit'⟩ := (constrictTo_geo hs hv hp hg hfit).1 i c hc
          obtain ⟨z1, z2⟩ := quadrants_size hv i
          exact ih (quadrants_valid hv i) (by rw [z1]; exact w1.2) (by rw [z2]; exact w2.2) hg' hfit'
      congr 2
      funext i
      exact key i

theorem def1_tolerant {f : Fpa K} {M ε : K} (hf : f.Tolerant M ε) (h0 : 0 ≤ ε) {s : SPoly K} (hs : s.WF) (hb : Bounded s.points M)
    (q : AARect K → Bool) (n : ℕ) {r : AARect K} (hv : r.Valid) (hw : ε * 2 ^ (n + 1) ≤ r.width) (hh : ε * 2 ^ (n + 1) ≤ r.height)
    {h : QTHazard K} (hg : GeoOK h.entity.position s r h.presence) (hfit : Fits h.entity.position s r) :
    def1 f q n r h = def1 Fpa.exact q n r h := by
  induction n generalizing r h with
  | zero => rfl
  | succ n ih =>
    unfold def1
    cases hp : h.presence with
    | none => rfl
    | entire => rfl
    | partly p =>
      dsimp only
      have w1 := size_step h0 hw
      have w2 := size_step h0 hh
      have key : ∀ i, (match constrictTo f r i h with
          | none => Tribool.false
          | some c => def1 f q n (r.quadrants i) c) = (match constrictTo Fpa.exact r i h with
          | none => Tribool.false
          | some c => def1 Fpa.exact q n (r.quadrants i) c) := by
        intro i
        rw [constrictTo_tolerant hf h0 hs hb hv w1.1 w2.1 hp hg i]
        cases hc : constrictTo Fpa.exact r i h with
        | none => rfl
        | some c =>
          obtain ⟨-, -, hg', hfit'⟩ := (constrictTo_geo hs hv hp hg hfit).1 i c hc
          obtain ⟨z1, z2⟩ := quadrants_size hv i
          exact ih (quadrants_valid hv i) (by rw [z1]; exact w1.2) (by rw [z2]; exact w2.2) hg' hfit'
      exact congrArg (fun res : Fin 4 → Tribool => if q r = true then (if ∃ i, res i = .true then Tribool.true
        else if ∃ i, res i = .indeterminate then .indeterminate else .false) else .false) (funext key)

end Jagua
