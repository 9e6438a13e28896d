import Verif.Props.Svg

/-!
# Property C58: the surrogates in pictures
-/

set_option linter.unusedSectionVars false

namespace Jagua

variable {K : Type*} [Field K] [LinearOrder K] [IsStrictOrderedRing K] {n : ℕ}

/-- the definition shows the surrogate `s` of item `id`: its piers and its poles, the first one as the pole of inaccessibility and those of the
fail-fast surrogate as such -/
structure SvgSurrogate.Shows (d : SvgSurrogate K) (id : ℕ) (s : Surrogate K) : Prop where
  id : d.id = id
  piers : d.piers = s.piers
  poles : ∀ p, (∃ k, (p, k) ∈ d.poles) ↔ p ∈ s.poles
  poi : ∀ p, (p, .poi) ∈ d.poles ↔ s.poles.head? = some p
  ff : ∀ p, (p, .ff) ∈ d.poles ↔ p ∈ s.poles ∧ p ∈ s.ffPoles

/-- C58: surrogates are drawn if asked for. There is one definition for every item, which shows the surrogate of the item as it was before it was
centered, and it is used exactly where the items are. -/
theorem C58_surrogates {env : SvgEnv K} {opts : SvgOptions} {addr : ℕ → ℕ → ℕ} {inst : Instance K n} {hpg : Option (HPG K)} {sn : LayoutSnapshot K n}
    {svg : Svg K} (h : snapshotToSvg env opts addr inst hpg sn = some svg) :
    (opts.surrogate = false → svg.surrogates = none) ∧
    (opts.surrogate = true → ∃ defs, svg.surrogates = some (defs, svg.uses) ∧ List.Forall₂ (fun (x : Item K × ℕ) (d : SvgSurrogate K) =>
      ∃ s, (env.surr (x.1.shape.transform x.1.pretransform.inverse)).surrogate = some s ∧ d.Shows x.1.id s) inst.items defs) := by
  unfold snapshotToSvg at h
  obtain ⟨l, -, h⟩ := Option.bind_eq_some_iff.1 h
  unfold layoutToSvg at h
  dsimp only at h
  obtain ⟨_, -, h⟩ := Option.bind_eq_some_iff.1 h
  obtain ⟨_, -, h⟩ := Option.bind_eq_some_iff.1 h
  obtain ⟨_, -, h⟩ := Option.bind_eq_some_iff.1 h
  obtain ⟨su, hsu, h⟩ := Option.bind_eq_some_iff.1 h
  obtain ⟨uses, -, h⟩ := Option.bind_eq_some_iff.1 h
  obtain ⟨_, -, h⟩ := Option.bind_eq_some_iff.1 h
  obtain ⟨_, -, rfl⟩ := Option.map_eq_some_iff.1 h
  unfold drawIf at hsu
  refine ⟨fun ho => ?_, fun ho => ?_⟩
  · rw [ho] at hsu
    cases hsu
    rfl
  · rw [ho, if_pos rfl] at hsu
    obtain ⟨defs, hd, rfl⟩ := Option.map_eq_some_iff.1 hsu
    refine ⟨defs, rfl, ?_⟩
    clear hsu h
    have key : ∀ (items : List (Item K × ℕ)) (defs : List (SvgSurrogate K)), (items.mapM fun (x : Item K × ℕ) => drawSurrogate env x.1) = some defs →
        List.Forall₂ (fun (x : Item K × ℕ) (d : SvgSurrogate K) =>
          ∃ s, (env.surr (x.1.shape.transform x.1.pretransform.inverse)).surrogate = some s ∧ d.Shows x.1.id s) items defs := by
      intro items
      induction items with
      | nil =>
        intro defs hd
        cases hd
        exact .nil
      | cons x items ih =>
        intro defs hd
        rw [List.mapM_cons] at hd
        obtain ⟨d, h1, hd⟩ := Option.bind_eq_some_iff.1 hd
        obtain ⟨ds, h2, hd⟩ := Option.bind_eq_some_iff.1 hd
        cases hd
        refine .cons ?_ (ih ds h2)
        unfold drawSurrogate at h1
        obtain ⟨s, hs, h1⟩ := Option.bind_eq_some_iff.1 h1
        obtain ⟨p0, hp0, rfl⟩ := Option.map_eq_some_iff.1 h1
        have hmem : p0 ∈ s.poles := List.mem_of_mem_head? hp0
        refine ⟨s, hs, rfl, rfl, fun p => ?_, fun p => ?_, fun p => ?_⟩
        · simp only [List.mem_flatMap]
          constructor
          · rintro ⟨k, q, hq, hm⟩
            rcases List.mem_append.1 hm with hm | hm
            · split_ifs at hm with he
              · rw [List.mem_singleton, Prod.mk.injEq] at hm
                rw [hm.1]; exact hq
              · cases hm
            · rw [List.mem_singleton, Prod.mk.injEq] at hm
              rw [hm.1]; exact hq
          · intro hp
            exact ⟨_, p, hp, List.mem_append_right _ (List.mem_singleton.2 rfl)⟩
        · simp only [List.mem_flatMap]
          rw [hp0]
          constructor
          · rintro ⟨q, hq, hm⟩
            rcases List.mem_append.1 hm with hm | hm
            · split_ifs at hm with he
              · rw [List.mem_singleton, Prod.mk.injEq] at hm
                rw [hm.1, he]
              · cases hm
            · rw [List.mem_singleton, Prod.mk.injEq] at hm
              have := hm.2
              split_ifs at this
          · intro hp
            obtain rfl := Option.some.inj hp
            exact ⟨_, hmem, List.mem_append_left _ (by rw [if_pos rfl]; exact List.mem_singleton.2 rfl)⟩
        · simp only [List.mem_flatMap]
          constructor
          · rintro ⟨q, hq, hm⟩
            rcases List.mem_append.1 hm with hm | hm
            · split_ifs at hm with he
              · rw [List.mem_singleton, Prod.mk.injEq] at hm
                cases hm.2
              · cases hm
            · rw [List.mem_singleton, Prod.mk.injEq] at hm
              have := hm.2
              rw [hm.1]
              refine ⟨hq, ?_⟩
              by_contra hn
              rw [if_neg (by simpa using hn)] at this
              cases this
          · rintro ⟨hp, hf⟩
            exact ⟨p, hp, List.mem_append_right _ (by rw [if_pos (by simpa using hf)]; exact List.mem_singleton.2 rfl)⟩
    exact key _ _ hd

-- surrogates are drawn in this run, with at least one pole for each of the two items
example : Ex.sOpts.surrogate = true ∧ Ex.sRun.map (fun svgs => svgs.map fun svg => svg.surrogates.map fun d =>
    (d.1.map fun x => (x.id, decide (x.poles ≠ [])), d.2.map (·.href))) = some [some ([(0, true), (1, true)], [0, 1])] :=
  ⟨rfl, by decide +kernel⟩

end Jagua
