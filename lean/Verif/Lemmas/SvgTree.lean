import Verif.Spec.Svg
import Verif.Lemmas.CDEGeo
import Verif.Lemmas.RectPoly

/-!
# Lemmas on the picture of the quadtree
-/

set_option linter.unusedSectionVars false

namespace Jagua

variable {K : Type*} [Field K] [LinearOrder K] [IsStrictOrderedRing K] {n : ℕ}

theorem region_path {r : AARect K} (hv : r.Valid) : region r.path = r.pts := by
  ext p
  show p ∈ bdry (rectPoly r.xMin r.yMin r.xMax r.yMax) ∨ p ∈ interior (rectPoly r.xMin r.yMin r.xMax r.yMax) ↔ _
  rw [bdry_rectPoly hv.1 hv.2, interior_rectPoly hv.1 hv.2]
  unfold AARect.pts
  rw [Set.mem_ofPred_eq]
  constructor
  · rintro (h | ⟨h1, h2, h3, h4⟩)
    · exact h.1
    · exact ⟨h1.le, h2.le, h3.le, h4.le⟩
  · rintro ⟨h1, h2, h3, h4⟩
    by_cases h : p.x = r.xMin ∨ p.x = r.xMax ∨ p.y = r.yMin ∨ p.y = r.yMax
    · exact .inl ⟨⟨h1, h2, h3, h4⟩, h⟩
    · push Not at h
      exact .inr ⟨lt_of_le_of_ne h1 (Ne.symm h.1), lt_of_le_of_ne h2 h.2.1, lt_of_le_of_ne h3 (Ne.symm h.2.2.1), lt_of_le_of_ne h4 h.2.2.2⟩

/-- the hazards `hs` in a node with box `r` are the hazards `H` as far as they are present in the box -/
structure NodeHaz (H : List (Hazard K)) (r : AARect K) (hs : List (QTHazard K)) : Prop where
  known : ∀ x ∈ hs, x.active = true → ∃ h ∈ H, h.entity = x.entity ∧ GeoOK h.entity.position h.shape.val r x.presence ∧ x.presence ≠ .none
  present : ∀ h ∈ H, (∃ x ∈ hs, x.active = true ∧ x.entity = h.entity ∧ GeoOK h.entity.position h.shape.val r x.presence ∧ x.presence ≠ .none) ∨
    ∀ p ∈ r.pts, p ∉ openHaz h.entity.position h.shape.val.points
  fits : ∀ h ∈ H, h.shape.val.WF ∧ Fits h.entity.position h.shape.val r

/-- the hazards that are partially present have a point of their outline in the box -/
def Touch (H : List (Hazard K)) (r : AARect K) (hs : List (QTHazard K)) : Prop :=
  ∀ x ∈ hs, x.active = true → x.presence.isPartial = true → ∃ h ∈ H, ∃ w ∈ r.pts, w ∈ bdry h.shape.val.points

theorem constrictTo_entire {f : Fpa K} {r : AARect K} {i : Fin 4} {x : QTHazard K} (h : x.presence = .entire) : constrictTo f r i x = some x := by
  unfold constrictTo
  rw [h]
  unfold constrictP
  dsimp only
  unfold QTHazard.new
  cases x
  dsimp only at h ⊢
  subst h
  rfl

theorem constrictTo_ne_none {f : Fpa K} {r : AARect K} {i : Fin 4} {h c : QTHazard K} (hc : constrictTo f r i h = some c) : c.presence ≠ .none := by
  unfold constrictTo at hc
  split at hc
  · simp at hc
  · rw [new_eq_some] at hc
    obtain ⟨h1, rfl⟩ := hc
    exact h1

theorem NodeHaz.child {H : List (Hazard K)} {r : AARect K} {hs : List (QTHazard K)} (hv : r.Valid) (h : NodeHaz H r hs) (i : Fin 4) :
    NodeHaz H (r.quadrants i) (childHaz Fpa.exact r i hs) ∧ Touch H (r.quadrants i) (childHaz Fpa.exact r i hs) := by
  have hsub := quadrants_subset hv i
  refine ⟨⟨fun c hc hact => ?_, fun y hy => ?_, fun y hy => ⟨(h.fits y hy).1, (h.fits y hy).2.quadrant hv i⟩⟩, fun c hc hact hpart => ?_⟩
  · obtain ⟨x, hx, hxc⟩ := List.mem_filterMap.1 hc
    have ha : x.active = true := by rw [← (constrictTo_entity hxc).2]; exact hact
    obtain ⟨y, hy, e, hg, hne⟩ := h.known x hx ha
    cases hp : x.presence with
    | none => exact absurd hp hne
    | entire =>
      rw [constrictTo_entire hp] at hxc
      cases hxc
      refine ⟨y, hy, e, ?_, hne⟩
      rw [hp] at hg ⊢
      exact fun p hp' => hg p (hsub hp')
    | partly p =>
      rw [e] at hg
      obtain ⟨e1, e2, e3, -⟩ := (constrictTo_geo (h.fits y hy).1 hv hp hg (e ▸ (h.fits y hy).2)).1 i c hxc
      refine ⟨y, hy, e.trans e1.symm, ?_, ?_⟩
      · rw [e, ← e1]; exact e3
      · exact constrictTo_ne_none hxc
  · rcases h.present y hy with ⟨x, hx, ha, e, hg, hne⟩ | hf
    · cases hp : x.presence with
      | none => exact absurd hp hne
      | entire =>
        refine .inl ⟨x, List.mem_filterMap.2 ⟨x, hx, constrictTo_entire hp⟩, ha, e, ?_, hne⟩
        rw [hp] at hg ⊢
        exact fun p hp' => hg p (hsub hp')
      | partly p =>
        rw [← e] at hg
        obtain ⟨g1, g2, -⟩ := constrictTo_geo (h.fits y hy).1 hv hp hg (e ▸ (h.fits y hy).2)
        rcases hc : constrictTo Fpa.exact r i x with _ | c
        · exact .inr (e ▸ g2 i hc)
        · obtain ⟨e1, e2, e3, -⟩ := g1 i c hc
          exact .inl ⟨c, List.mem_filterMap.2 ⟨x, hx, hc⟩, by rw [e2]; exact ha, e1.trans e, by rw [← e, ← e1]; exact e3, constrictTo_ne_none hc⟩
    · exact .inr fun p hp => hf p (hsub hp)
  · obtain ⟨x, hx, hxc⟩ := List.mem_filterMap.1 hc
    have ha : x.active = true := by rw [← (constrictTo_entity hxc).2]; exact hact
    obtain ⟨y, hy, e, hg, hne⟩ := h.known x hx ha
    cases hp : x.presence with
    | none => exact absurd hp hne
    | entire =>
      rw [constrictTo_entire hp] at hxc
      cases hxc
      rw [hp] at hpart
      cases hpart
    | partly p =>
      rw [e] at hg
      cases hp' : c.presence with
      | none => rw [hp'] at hpart; cases hpart
      | entire => rw [hp'] at hpart; cases hpart
      | partly p' =>
        obtain ⟨w, h1, h2⟩ := constrictTo_touch (h.fits y hy).1 hv hp hg (e ▸ (h.fits y hy).2) hxc hp'
        exact ⟨y, hy, w, h2, h1⟩

/-- what is drawn for a node -/
structure Pieces (H : List (Hazard K)) (r : AARect K) (T : Prop) (e p f : List (List (Point K))) : Prop where
  covers : ∀ v ∈ r.pts, ∃ P ∈ e ++ p ++ f, v ∈ region P
  inside : ∀ P ∈ e ++ p ++ f, region P ⊆ r.pts
  free : ∀ P ∈ f, ∀ h ∈ H, Disjoint (region P) (openHaz h.entity.position h.shape.val.points)
  entire : ∀ P ∈ e, ∃ h ∈ H, region P ⊆ openHaz h.entity.position h.shape.val.points
  part : T → ∀ P ∈ p, ∃ h ∈ H, ∃ w ∈ region P, w ∈ bdry h.shape.val.points

theorem NodeHaz.free {H : List (Hazard K)} {r : AARect K} {hs : List (QTHazard K)} (hv : r.Valid) (h : NodeHaz H r hs) (hn : ∀ x ∈ hs, x.active ≠ true)
    (T : Prop) : Pieces H r T [] [] [r.path] := by
  have e := region_path hv
  refine ⟨fun v hv => ⟨r.path, by simp, by rw [e]; exact hv⟩, ?_, ?_, by simp, by simp⟩
  · intro P hP
    simp only [List.nil_append, List.mem_singleton] at hP
    rw [hP, e]
  · intro P hP y hy
    rw [List.mem_singleton.1 hP, e, Set.disjoint_left]
    rcases h.present y hy with ⟨x, hx, ha, -⟩ | hf
    · exact absurd ha (hn x hx)
    · exact hf

theorem QTNode.draw_ok {n : ℕ} (nd : QTNode K n) {H : List (Hazard K)} {r : AARect K} {hs : List (QTHazard K)} (hv : r.Valid)
    (hc : nd.Canon Fpa.exact r hs) (h : NodeHaz H r hs) (d : SvgTree K) :
    ∃ e p f, nd.draw [] d = some ⟨d.entire ++ e, d.part ++ p, d.free ++ f⟩ ∧ Pieces H r (0 < n ∨ Touch H r hs) e p f := by
  induction nd generalizing r hs d with
  | @leaf m b v =>
    obtain ⟨rfl, h2, h3⟩ := hc
    obtain ⟨sr, e1, s1, s2⟩ := h2.strongest []
    unfold QTNode.draw
    rw [e1]
    cases sr with
    | none =>
      refine ⟨[], [], [b.path], by simp, h.free hv (fun x hx ha => ?_) _⟩
      simpa using s1 rfl x hx ha
    | some s =>
      obtain ⟨a1, a2, -, -⟩ := s2 s rfl
      obtain ⟨y, hy, e, hg, hne⟩ := h.known s a1 a2
      dsimp only
      cases hp : s.presence with
      | none => exact absurd hp hne
      | entire =>
        have er := region_path hv
        refine ⟨[b.path], [], [], by simp, ⟨fun v hv => ⟨b.path, by simp, by rw [er]; exact hv⟩, ?_, by simp, ?_, by simp⟩⟩
        · intro P hP
          simp only [List.append_nil, List.mem_singleton] at hP
          rw [hP, er]
        · intro P hP
          rw [List.mem_singleton.1 hP, er]
          rw [hp] at hg
          exact ⟨y, hy, hg⟩
      | partly p =>
        have er := region_path hv
        refine ⟨[], [b.path], [], by simp, ⟨fun v hv => ⟨b.path, by simp, by rw [er]; exact hv⟩, ?_, by simp, by simp, ?_⟩⟩
        · intro P hP
          simp only [List.append_nil, List.nil_append, List.mem_singleton] at hP
          rw [hP, er]
        · rintro hT P hP
          rw [List.mem_singleton.1 hP, er]
          have hpart : s.presence.isPartial = true := by rw [hp]; rfl
          rcases hT with hT | hT
          · rcases h3 with rfl | h3
            · exact absurd hT (lt_irrefl _)
            · exact absurd (h3 s a1) (by rw [hpart]; simp)
          · obtain ⟨y, hy, w, hw, hw'⟩ := hT s a1 a2 hpart
            exact ⟨y, hy, w, hw, hw'⟩
  | @node m b v cs ih =>
    obtain ⟨rfl, h2, -, h4⟩ := hc
    obtain ⟨sr, e1, s1, s2⟩ := h2.strongest []
    unfold QTNode.draw
    rw [e1]
    cases sr with
    | none =>
      refine ⟨[], [], [b.path], by simp, h.free hv (fun x hx ha => ?_) _⟩
      simpa using s1 rfl x hx ha
    | some s =>
      dsimp only
      have hch : ∀ i d, ∃ e p f, (cs i).draw [] d = some ⟨d.entire ++ e, d.part ++ p, d.free ++ f⟩ ∧ Pieces H (b.quadrants i) True e p f := by
        intro i d
        obtain ⟨g1, g2⟩ := h.child hv i
        obtain ⟨e, p, f, q1, q2⟩ := ih i (quadrants_valid hv i) (h4 i) g1 d
        exact ⟨e, p, f, q1, ⟨q2.covers, q2.inside, q2.free, q2.entire, fun _ => q2.part (.inr g2)⟩⟩
      unfold QTNode.chain4
      beta_reduce
      obtain ⟨e0, p0, f0, d0, q0⟩ := hch 0 d
      rw [d0, Option.bind_some]
      obtain ⟨e1, p1, f1, d1, q1⟩ := hch 1 _
      rw [d1, Option.bind_some]
      obtain ⟨e2, p2, f2, d2, q2⟩ := hch 2 _
      rw [d2, Option.bind_some]
      obtain ⟨e3, p3, f3, d3, q3⟩ := hch 3 _
      rw [d3]
      refine ⟨e0 ++ e1 ++ e2 ++ e3, p0 ++ p1 ++ p2 ++ p3, f0 ++ f1 ++ f2 ++ f3, by simp, ?_⟩
      have hq : ∀ i : Fin 4, ∃ e p f, Pieces H (b.quadrants i) True e p f ∧ e ⊆ e0 ++ e1 ++ e2 ++ e3 ∧ p ⊆ p0 ++ p1 ++ p2 ++ p3 ∧
          f ⊆ f0 ++ f1 ++ f2 ++ f3 := by
        intro i
        match i with
        | 0 => exact ⟨e0, p0, f0, q0, by intro x hx; simp [hx], by intro x hx; simp [hx], by intro x hx; simp [hx]⟩
        | 1 => exact ⟨e1, p1, f1, q1, by intro x hx; simp [hx], by intro x hx; simp [hx], by intro x hx; simp [hx]⟩
        | 2 => exact ⟨e2, p2, f2, q2, by intro x hx; simp [hx], by intro x hx; simp [hx], by intro x hx; simp [hx]⟩
        | 3 => exact ⟨e3, p3, f3, q3, by intro x hx; simp [hx], by intro x hx; simp [hx], by intro x hx; simp [hx]⟩
      have four : ∀ {A : List (List (Point K)) → Prop} {a0 a1 a2 a3 : List (List (Point K))} {Q : List (Point K) → Prop},
          (∀ P ∈ a0, Q P) → (∀ P ∈ a1, Q P) → (∀ P ∈ a2, Q P) → (∀ P ∈ a3, Q P) → ∀ P ∈ a0 ++ a1 ++ a2 ++ a3, Q P := by
        intro _ a0 a1 a2 a3 Q h0 h1 h2 h3 P hP
        simp only [List.append_assoc, List.mem_append] at hP
        rcases hP with hP | hP | hP | hP
        exacts [h0 P hP, h1 P hP, h2 P hP, h3 P hP]
      refine ⟨fun v hv' => ?_, ?_, four (A := fun _ => True) q0.free q1.free q2.free q3.free, four (A := fun _ => True) q0.entire q1.entire q2.entire q3.entire,
        fun _ => four (A := fun _ => True) (q0.part trivial) (q1.part trivial) (q2.part trivial) (q3.part trivial)⟩
      · obtain ⟨i, hi⟩ := quadrants_cover hv hv'
        obtain ⟨e, p, f, q, s1, s2, s3⟩ := hq i
        obtain ⟨P, hP, hvP⟩ := q.covers v hi
        refine ⟨P, ?_, hvP⟩
        rcases List.mem_append.1 hP with hP | hP
        · rcases List.mem_append.1 hP with hP | hP
          · exact List.mem_append_left _ (List.mem_append_left _ (s1 hP))
          · exact List.mem_append_left _ (List.mem_append_right _ (s2 hP))
        · exact List.mem_append_right _ (s3 hP)
      · have key : ∀ (i : Fin 4) {e p f : List (List (Point K))}, Pieces H (b.quadrants i) True e p f →
            (∀ P ∈ e, region P ⊆ b.pts) ∧ (∀ P ∈ p, region P ⊆ b.pts) ∧ ∀ P ∈ f, region P ⊆ b.pts := by
          intro i e p f q
          have hin : ∀ P ∈ e ++ p ++ f, region P ⊆ b.pts := fun P hP => (q.inside P hP).trans (quadrants_subset hv i)
          exact ⟨fun P hP => hin P (by simp [hP]), fun P hP => hin P (by simp [hP]), fun P hP => hin P (by simp [hP])⟩
        obtain ⟨a0, b0, c0⟩ := key 0 q0
        obtain ⟨a1, b1, c1⟩ := key 1 q1
        obtain ⟨a2, b2, c2⟩ := key 2 q2
        obtain ⟨a3, b3, c3⟩ := key 3 q3
        intro P hP
        rcases List.mem_append.1 hP with hP | hP
        · rcases List.mem_append.1 hP with hP | hP
          · exact four (A := fun _ => True) (Q := fun P => region P ⊆ b.pts) a0 a1 a2 a3 P hP
          · exact four (A := fun _ => True) (Q := fun P => region P ⊆ b.pts) b0 b1 b2 b3 P hP
        · exact four (A := fun _ => True) (Q := fun P => region P ⊆ b.pts) c0 c1 c2 c3 P hP

/-- the picture of a quadtree can always be drawn -/
theorem QTNode.draw_total {f : Fpa K} {n : ℕ} (nd : QTNode K n) {r : AARect K} {hs : List (QTHazard K)} (hc : nd.Canon f r hs) (hok : AllOK hs)
    (d : SvgTree K) : ∃ d', nd.draw [] d = some d' := by
  induction nd generalizing r hs d with
  | @leaf m b v =>
    obtain ⟨sr, e1, s1, s2⟩ := hc.2.1.strongest []
    unfold QTNode.draw
    rw [e1]
    cases sr with
    | none => exact ⟨_, rfl⟩
    | some s =>
      have := hok s (s2 s rfl).1
      dsimp only
      cases hp : s.presence with
      | none => rw [hp] at this; exact this.elim
      | entire => exact ⟨_, rfl⟩
      | partly p => exact ⟨_, rfl⟩
  | @node m b v cs ih =>
    obtain ⟨-, h2, -, h4⟩ := hc
    obtain ⟨sr, e1, s1, s2⟩ := h2.strongest []
    unfold QTNode.draw
    rw [e1]
    cases sr with
    | none => exact ⟨_, rfl⟩
    | some s =>
      unfold QTNode.chain4
      dsimp only
      obtain ⟨_, d0⟩ := ih 0 (h4 0) hok.child d
      rw [d0, Option.bind_some]
      obtain ⟨_, d1⟩ := ih 1 (h4 1) hok.child _
      rw [d1, Option.bind_some]
      obtain ⟨_, d2⟩ := ih 2 (h4 2) hok.child _
      rw [d2, Option.bind_some]
      exact ih 3 (h4 3) hok.child _

theorem CDE.draws {o : SearchOracle K} {c : CDE K n} (hr : c.Reachable Fpa.exact o) (hg : c.Good) :
    ∃ d, c.tree.draw [] ⟨[], [], []⟩ = some d ∧ d.Shows c := by
  have hN : NodeHaz c.allHazards c.bbox c.treeHaz := by
    refine ⟨fun x hx ha => ?_, fun h hh => ?_, fun h hh => ⟨hg.shapes h hh, hg.fit hh⟩⟩
    · unfold CDE.treeHaz at hx
      simp only [List.append_assoc, List.mem_append, List.mem_map] at hx
      rcases hx with ⟨h, hh, rfl⟩ | ⟨h, hh, rfl⟩ | ⟨h, hh, rfl⟩
      · exact ⟨h, List.mem_append_left _ hh, rfl, rfl, by simp [QTHazard.ofHazard]⟩
      · exact ⟨h, List.mem_append_right _ hh, rfl, rfl, by simp [QTHazard.ofHazard]⟩
      · cases ha
    · refine .inl ⟨QTHazard.ofHazard h, ?_, rfl, rfl, rfl, by simp [QTHazard.ofHazard]⟩
      unfold CDE.treeHaz
      rw [← List.map_append]
      exact List.mem_append_left _ (List.mem_map_of_mem hh)
  obtain ⟨e, p, f, h1, h2⟩ := c.tree.draw_ok hg.box hr.inv.canon hN ⟨[], [], []⟩
  exact ⟨_, h1, ⟨h2.covers, h2.inside, h2.free, h2.entire, fun hn => h2.part (.inl hn)⟩⟩

theorem CDE.draw_total {f : Fpa K} {o : SearchOracle K} {c : CDE K n} (hr : c.Reachable f o) : ∃ d, c.tree.draw [] ⟨[], [], []⟩ = some d :=
  c.tree.draw_total hr.inv.canon (treeHaz_ok c) _

end Jagua
