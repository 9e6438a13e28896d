import Verif.Lemmas.Trial
import Verif.Props.RoundedPlacement

/-!
# What was tested and what is placed, in arithmetic with rounding
-/

set_option linter.unusedSectionVars false

namespace Jagua

section Any
variable {K : Type*} [Arith K] [LinearOrder K] {n : ℕ}

theorem Layout.Filled.slots {env : Env K} {inst : BPInstance K n} {l : Layout K n} {ts : List (Trial K n)} (h : l.Filled env inst ts) : l.placed.WF := by
  induction h with
  | empty => exact SlotMap.wf_empty
  | place _ _ _ _ hp ih =>
    unfold Layout.placeItem at hp
    obtain ⟨c, _, e⟩ := Option.map_eq_some_iff.1 hp
    obtain ⟨-, rfl⟩ := Prod.mk.inj e
    exact (SlotMap.insert_spec ih _).1

theorem Layout.placeItem_values {env : Env K} {l l' : Layout K n} (hw : l.placed.WF) {addr : ℕ} {item : Item K} {dt : DTransf K} {key : SlotKey}
    (hp : l.placeItem env addr item dt = some (key, l')) : l'.bin = l.bin ∧ l'.placed.values.Perm (PlacedItem.new env addr item dt :: l.placed.values) := by
  unfold Layout.placeItem at hp
  obtain ⟨c, _, e⟩ := Option.map_eq_some_iff.1 hp
  obtain ⟨-, rfl⟩ := Prod.mk.inj e
  exact ⟨rfl, (SlotMap.insert_spec hw _).2.2.2.1⟩

theorem Layout.Filled.bin {env : Env K} {inst : BPInstance K n} {l : Layout K n} {ts : List (Trial K n)} (h : l.Filled env inst ts) :
    ∃ q, inst.bins[l.bin.id]? = some (l.bin, q) := by
  induction h with
  | empty _ bin q hb => exact ⟨q, hb⟩
  | place hf _ _ _ hp ih => rw [(Layout.placeItem_values hf.slots hp).1]; exact ih

/-- without two equal placements the layout is as in C17 -/
theorem Layout.Filled.inv {env : Env K} {inst : BPInstance K n} (hb : inst.Built env) {l : Layout K n} {ts : List (Trial K n)} (h : l.Filled env inst ts)
    (hn : (l.placed.values.map fun pi => (pi.itemId, pi.dt)).Nodup) : l.Inv env inst.cat := by
  induction h with
  | empty id bin q hbin => exact Layout.inv_new _ _ (hb.2 _ (List.mem_of_getElem? hbin))
  | @place l l' ts item dt t addr key hf hi ht hq hp ih =>
    obtain ⟨-, hperm⟩ := Layout.placeItem_values hf.slots hp
    have hn' := (hperm.map fun pi : PlacedItem K => (pi.itemId, pi.dt)).nodup_iff.1 hn
    rw [List.map_cons, List.nodup_cons] at hn'
    obtain ⟨k', l2, e, hI, _⟩ := (ih hn'.2).placeItem addr (item := item.1) (dt := dt) (catOf_id hb.ids hi).2 (by
      rintro pi hpi ⟨h1, h2⟩
      exact hn'.1 (List.mem_map.2 ⟨pi, hpi, by rw [h1, h2]; rfl⟩))
    rw [hp] at e
    cases e
    exact hI

/-- every placed item is one of the instance -/
theorem Layout.Filled.items {env : Env K} {inst : BPInstance K n} {l : Layout K n} {ts : List (Trial K n)} (h : l.Filled env inst ts) :
    ∀ pi ∈ l.placed.values, ∃ x, inst.items[pi.itemId]? = some x ∧ pi.hazardFilter = x.1.hazardFilter ∧
      pi.shape.val = x.1.shape.transform (Transf.fromDt env.tr pi.dt) ∧ x.1.Turns env.tr pi.dt.rotation := by
  induction h with
  | empty id bin q hbin => simp [Layout.new, SlotMap.empty, SlotMap.values]
  | @place l l' ts item dt t addr key hf hi ht hq hp ih =>
    obtain ⟨-, hperm⟩ := Layout.placeItem_values hf.slots hp
    intro pi hpi
    rcases List.mem_cons.1 (hperm.mem_iff.1 hpi) with rfl | hpi
    · exact ⟨item, hi, rfl, rfl, ht.turns⟩
    · exact ih pi hpi

end Any

variable {r : Rounding} {u : ℚ} {n : ℕ}

/-- the matrix of a sample -/
theorem sample_matrix (st : r.Standard u) (tr : Trig (Rounded r)) (item : Item (Rounded r)) (d : DTransf (Rounded r)) :
    item.sampleOf tr d = ⟨tr.cos d.rotation, -tr.sin d.rotation, tr.cos d.rotation * -item.shape.poi.center.x + -tr.sin d.rotation * -item.shape.poi.center.y + d.tx,
      tr.sin d.rotation, tr.cos d.rotation, tr.sin d.rotation * -item.shape.poi.center.x + tr.cos d.rotation * -item.shape.poi.center.y + d.ty, 0, 0, 1⟩ := by
  unfold Item.sampleOf Transf.transformFromDecomposed Transf.rotateTranslate Transf.fromTranslation Transf.dotProd Transf.translM Transf.rotTranslM
  simp only [rounded_mul_one st, rounded_one_mul st, val_zero_mul st, val_mul_zero st, rounded_add_zero st, rounded_zero_add st]

/-- a recovered angle turns almost as the allowed one -/
theorem recovered_near (st : r.Standard u) {tr : Trig (Rounded r)} {η : ℝ} (ht : tr.Accurate η) (hη : η < 1 / 2) (item : Item (Rounded r)) (d : DTransf (Rounded r)) :
    |Real.cos (((item.sampleOf tr d).decompose tr).rotation.1 : ℝ) - (tr.cos d.rotation).1| ≤ 3 * η ∧
    |Real.sin (((item.sampleOf tr d).decompose tr).rotation.1 : ℝ) - (tr.sin d.rotation).1| ≤ 3 * η := by
  rw [sample_matrix st]
  exact recovered_turn (ht.cos_near d.rotation) (ht.sin_near d.rotation) hη (ht.atan2_near _ _)

/-- a corner that was tested, and where the stored placement is meant to move it -/
theorem trial_vertex (st : r.Standard u) (hu : u ≤ 1 / 256) {tr : Trig (Rounded r)} {η : ℝ} (ht : tr.Accurate η) (hη : η < 1 / 2) {item : Item (Rounded r)}
    {dt : DTransf (Rounded r)} {t : Transf (Rounded r)} (h : item.TrialOf tr dt t) {p : Point (Rounded r)} {M T : ℚ} (hp : p.UpTo M) (hd : dt.UpTo T) :
    CloseTo ((u : ℝ) * (7 * M + T) + 6 * η * M) (dt.move p.real) (p.transform t).real := by
  have η0 : 0 ≤ η := (abs_nonneg _).trans (ht.cos_near 0)
  have M0 : (0 : ℝ) ≤ M := (abs_nonneg _).trans (cast_abs_le hp.1)
  cases h with
  | direct _ =>
    have k := placed_vertex st hu ht hp hd
    have : 0 ≤ η * M := mul_nonneg η0 M0
    exact ⟨k.1.trans (by linarith), k.2.trans (by linarith)⟩
  | sample d _ he =>
    obtain ⟨k1, k2⟩ := recovered_near st ht hη item d
    rw [← he] at k1 k2
    obtain ⟨k3, k4⟩ := turn_near k1 k2 (cast_abs_le hp.1) (cast_abs_le hp.2)
    have etx : dt.tx = (item.sampleOf tr d).m02 := by rw [he]; rfl
    have ety : dt.ty = (item.sampleOf tr d).m12 := by rw [he]; rfl
    have r1 := row_near st hu (c := tr.cos d.rotation) (s := -tr.sin d.rotation) (t := dt.tx) (ht.cos_le _) (by rw [val_neg st, abs_neg]; exact ht.sin_le _) hp.1 hp.2 hd.1
    have r2 := row_near st hu (c := tr.sin d.rotation) (s := tr.cos d.rotation) (t := dt.ty) (ht.sin_le _) (ht.cos_le _) hp.1 hp.2 hd.2
    rw [val_neg st, neg_mul, ← sub_eq_add_neg] at r1
    have q1 := cast_abs_le r1
    have q2 := cast_abs_le r2
    push_cast at q1 q2
    have e1 : (p.transform (item.sampleOf tr d)).x = tr.cos d.rotation * p.x + -tr.sin d.rotation * p.y + dt.tx := by
      rw [etx, sample_matrix st]
      show tr.cos d.rotation * p.x + -tr.sin d.rotation * p.y + _ * 1 = _
      rw [rounded_mul_one st]
    have e2 : (p.transform (item.sampleOf tr d)).y = tr.sin d.rotation * p.x + tr.cos d.rotation * p.y + dt.ty := by
      rw [ety, sample_matrix st]
      show tr.sin d.rotation * p.x + tr.cos d.rotation * p.y + _ * 1 = _
      rw [rounded_mul_one st]
    unfold CloseTo DTransf.move transPt rotPt Point.real
    simp only
    rw [e1, e2]
    simp only [abs_le] at *
    constructor <;> constructor <;> linarith [k3.1, k3.2, k4.1, k4.2, q1.1, q1.2, q2.1, q2.2]

theorem trial_close (st : r.Standard u) (hu : u ≤ 1 / 256) {tr : Trig (Rounded r)} {η : ℝ} (ht : tr.Accurate η) (hη : η < 1 / 2) {item : Item (Rounded r)}
    {dt : DTransf (Rounded r)} {t : Transf (Rounded r)} (h : item.TrialOf tr dt t) {M T : ℚ} (hs : ∀ p ∈ item.shape.points, p.UpTo M) (hd : dt.UpTo T) :
    List.Forall₂ (CloseTo ((u : ℝ) * (7 * M + T) + 6 * η * M)) (item.shape.real.map dt.move) (item.shape.transform t).real := by
  unfold SPoly.real SPoly.transform
  simp only [List.map_map]
  exact forall2_map fun p hp => trial_vertex st hu ht hη h (hs p hp) hd

end Jagua
