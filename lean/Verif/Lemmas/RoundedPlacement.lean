import Verif.Spec.RoundedPlacement
import Verif.Lemmas.RoundedGeo
import Verif.Lemmas.Perturb
import Verif.Model.Parser
import Mathlib.Analysis.SpecialFunctions.Trigonometric.Bounds

/-! # Placements in arithmetic with rounding -/

set_option linter.unusedSectionVars false

namespace Jagua

variable {r : Rounding} {u : ℚ}

namespace Rounding.Standard

theorem near_of (st : r.Standard u) {x B : ℚ} (h : |x| ≤ B) : |r.rnd x - x| ≤ u * B :=
  (st.near x).trans (mul_le_mul_of_nonneg_left h st.nonneg)

theorem fix_neg (st : r.Standard u) {x : ℚ} (h : r.rnd x = x) : r.rnd (-x) = -x := by rw [st.neg, h]

/-- a product and a sum, as in the rows of a matrix -/
theorem row (st : r.Standard u) (hu : u ≤ 1 / 256) {c s x y t M T : ℚ} (hc : |c| ≤ 1) (hs : |s| ≤ 1) (hx : |x| ≤ M) (hy : |y| ≤ M) (ht : |t| ≤ T) :
    |r.rnd (r.rnd (r.rnd (c * x) + r.rnd (s * y)) + t) - (c * x + s * y + t)| ≤ u * (7 * M + T) := by
  have u0 := st.nonneg
  have M0 : 0 ≤ M := (abs_nonneg _).trans hx
  have T0 : 0 ≤ T := (abs_nonneg _).trans ht
  have b1 : |c * x| ≤ M := by rw [abs_mul]; nlinarith [abs_nonneg c, abs_nonneg x]
  have b2 : |s * y| ≤ M := by rw [abs_mul]; nlinarith [abs_nonneg s, abs_nonneg y]
  have e1 := st.near_of b1
  have e2 := st.near_of b2
  set p := r.rnd (c * x)
  set q := r.rnd (s * y)
  have uM : 0 ≤ u * M := mul_nonneg u0 M0
  have b3 : |p + q| ≤ 2 * M + 2 * (u * M) := by
    rw [abs_le] at *
    constructor <;> linarith [b1.1, b1.2, b2.1, b2.2, e1.1, e1.2, e2.1, e2.2]
  have e3 := st.near_of b3
  set w := r.rnd (p + q)
  have uuM : u * (u * M) ≤ 1 / 256 * (u * M) := mul_le_mul_of_nonneg_right hu uM
  have e3' : |w - (p + q)| ≤ 2 * (u * M) + 2 / 256 * (u * M) := by
    refine e3.trans ?_
    nlinarith
  have b4 : |w + t| ≤ 2 * M + 2 * (u * M) + (2 * (u * M) + 2 / 256 * (u * M)) + T := by
    rw [abs_le] at *
    constructor <;> linarith [b3.1, b3.2, e3'.1, e3'.2, ht.1, ht.2]
  have e4 := st.near_of b4
  have e4' : |r.rnd (w + t) - (w + t)| ≤ 2 * (u * M) + 5 / 256 * (u * M) + u * T := by
    refine e4.trans ?_
    nlinarith
  rw [abs_le] at *
  have : u * (7 * M + T) = 7 * (u * M) + u * T := by ring
  rw [this]
  constructor <;> linarith [e1.1, e1.2, e2.1, e2.2, e3'.1, e3'.2, e4'.1, e4'.2]

end Rounding.Standard

theorem val_mul_one (st : r.Standard u) (a : Rounded r) : (a * 1).1 = a.1 := by
  show r.rnd (a.1 * r.rnd 1) = a.1
  rw [st.one, mul_one, a.2]

theorem val_one_mul (st : r.Standard u) (a : Rounded r) : (1 * a).1 = a.1 := by
  show r.rnd (r.rnd 1 * a.1) = a.1
  rw [st.one, one_mul, a.2]

theorem val_neg (st : r.Standard u) (a : Rounded r) : (-a).1 = -a.1 := by
  show r.rnd (-a.1) = -a.1
  exact st.fix_neg a.2

theorem rounded_mul_one (st : r.Standard u) (a : Rounded r) : a * 1 = a := val_eq.2 (val_mul_one st a)
theorem rounded_one_mul (st : r.Standard u) (a : Rounded r) : 1 * a = a := val_eq.2 (val_one_mul st a)
theorem rounded_add_zero (st : r.Standard u) (a : Rounded r) : a + 0 = a := by
  apply val_eq.2
  show r.rnd (a.1 + r.rnd 0) = a.1
  rw [st.zero, add_zero, a.2]
theorem rounded_zero_add (st : r.Standard u) (a : Rounded r) : 0 + a = a := by
  apply val_eq.2
  show r.rnd (r.rnd 0 + a.1) = a.1
  rw [st.zero, zero_add, a.2]
theorem rounded_neg_zero (st : r.Standard u) : -(0 : Rounded r) = 0 := by
  apply val_eq.2
  rw [val_neg st, val_zero st, neg_zero]
theorem rounded_div_one (st : r.Standard u) (a : Rounded r) : a / 1 = a := by
  apply val_eq.2
  show r.rnd (a.1 / r.rnd 1) = a.1
  rw [st.one, div_one, a.2]
theorem rounded_zero_div_one (st : r.Standard u) : (0 : Rounded r) / 1 = 0 := rounded_div_one st 0
theorem rounded_zero_sub (st : r.Standard u) (a : Rounded r) : 0 - a = -a := by
  apply val_eq.2
  rw [val_zero_sub st, val_neg st]

/-- A computed row of a placement. -/
theorem row_near (st : r.Standard u) (hu : u ≤ 1 / 256) {c s x y t : Rounded r} {M T : ℚ} (hc : |c.1| ≤ 1) (hs : |s.1| ≤ 1) (hx : |x.1| ≤ M) (hy : |y.1| ≤ M)
    (ht : |t.1| ≤ T) : |(c * x + s * y + t).1 - (c.1 * x.1 + s.1 * y.1 + t.1)| ≤ u * (7 * M + T) :=
  st.row hu hc hs hx hy ht

/-- The corner computed for a placement, with the computed sine and cosine. -/
theorem transform_near (st : r.Standard u) (hu : u ≤ 1 / 256) {tr : Trig (Rounded r)} {η : ℝ} (ht : tr.Accurate η) {p : Point (Rounded r)} {d : DTransf (Rounded r)}
    {M T : ℚ} (hp : p.UpTo M) (hd : d.UpTo T) :
    |(p.transform (Transf.fromDt tr d)).x.1 - ((tr.cos d.rotation).1 * p.x.1 - (tr.sin d.rotation).1 * p.y.1 + d.tx.1)| ≤ u * (7 * M + T) ∧
    |(p.transform (Transf.fromDt tr d)).y.1 - ((tr.sin d.rotation).1 * p.x.1 + (tr.cos d.rotation).1 * p.y.1 + d.ty.1)| ≤ u * (7 * M + T) := by
  constructor
  · have := row_near st hu (c := tr.cos d.rotation) (s := -tr.sin d.rotation) (t := d.tx) (ht.cos_le _) (by rw [val_neg st, abs_neg]; exact ht.sin_le _) hp.1 hp.2 hd.1
    rw [val_neg st, neg_mul, ← sub_eq_add_neg] at this
    show |((tr.cos d.rotation) * p.x + (-tr.sin d.rotation) * p.y + d.tx * 1).1 - _| ≤ _
    rwa [rounded_mul_one st]
  · have := row_near st hu (c := tr.sin d.rotation) (s := tr.cos d.rotation) (t := d.ty) (ht.sin_le _) (ht.cos_le _) hp.1 hp.2 hd.2
    show |((tr.sin d.rotation) * p.x + (tr.cos d.rotation) * p.y + d.ty * 1).1 - _| ≤ _
    rwa [rounded_mul_one st]

theorem cast_abs_le {x B : ℚ} (h : |x| ≤ B) : |(x : ℝ)| ≤ (B : ℝ) := by exact_mod_cast h

/-- two products with slightly wrong factors -/
theorem turn_near {c s c' s' x y M δ : ℝ} (hc : |c' - c| ≤ δ) (hs : |s' - s| ≤ δ) (hx : |x| ≤ M) (hy : |y| ≤ M) :
    |(c' * x - s' * y) - (c * x - s * y)| ≤ 2 * δ * M ∧ |(s' * x + c' * y) - (s * x + c * y)| ≤ 2 * δ * M := by
  have d0 : 0 ≤ δ := (abs_nonneg _).trans hc
  have a1 : |(c' - c) * x| ≤ δ * M := by rw [abs_mul]; exact mul_le_mul hc hx (abs_nonneg _) d0
  have a2 : |(s' - s) * y| ≤ δ * M := by rw [abs_mul]; exact mul_le_mul hs hy (abs_nonneg _) d0
  have a3 : |(s' - s) * x| ≤ δ * M := by rw [abs_mul]; exact mul_le_mul hs hx (abs_nonneg _) d0
  have a4 : |(c' - c) * y| ≤ δ * M := by rw [abs_mul]; exact mul_le_mul hc hy (abs_nonneg _) d0
  simp only [abs_le] at *
  constructor <;> constructor <;> linarith [a1.1, a1.2, a2.1, a2.2, a3.1, a3.2, a4.1, a4.2]

/-- The corner computed for a placement is close to the one that is meant. -/
theorem placed_vertex (st : r.Standard u) (hu : u ≤ 1 / 256) {tr : Trig (Rounded r)} {η : ℝ} (ht : tr.Accurate η) {p : Point (Rounded r)} {d : DTransf (Rounded r)}
    {M T : ℚ} (hp : p.UpTo M) (hd : d.UpTo T) :
    CloseTo ((u : ℝ) * (7 * M + T) + 2 * η * M) (d.move p.real) (p.transform (Transf.fromDt tr d)).real := by
  obtain ⟨h1, h2⟩ := transform_near st hu ht hp hd
  have k1 := cast_abs_le h1
  have k2 := cast_abs_le h2
  obtain ⟨k3, k4⟩ := turn_near (ht.cos_near d.rotation) (ht.sin_near d.rotation) (cast_abs_le hp.1) (cast_abs_le hp.2)
  push_cast at k1 k2
  unfold CloseTo DTransf.move transPt rotPt Point.real
  simp only
  simp only [abs_le] at *
  constructor <;> constructor <;> linarith [k1.1, k1.2, k2.1, k2.2, k3.1, k3.2, k4.1, k4.2]

/-! ### Writing placements -/

/-- The angle recovered from a slightly wrong cosine and sine. -/
theorem recovered_turn {c s θ α η : ℝ} (hc : |c - Real.cos θ| ≤ η) (hs : |s - Real.sin θ| ≤ η) (hη : η < 1 / 2) (hα : |α - Complex.arg ⟨c, s⟩| ≤ η) :
    |Real.cos α - c| ≤ 3 * η ∧ |Real.sin α - s| ≤ 3 * η := by
  set z : ℂ := ⟨c, s⟩ with hz
  have hw : ‖(⟨Real.cos θ, Real.sin θ⟩ : ℂ)‖ = 1 := by
    have : (⟨Real.cos θ, Real.sin θ⟩ : ℂ) = Complex.exp (θ * Complex.I) := by
      rw [Complex.exp_mul_I]
      apply Complex.ext
      · simp [Complex.cos_ofReal_re]
      · simp [Complex.sin_ofReal_re]
    rw [this]
    exact Complex.norm_exp_ofReal_mul_I θ
  have hn : |‖z‖ - 1| ≤ 2 * η := by
    rw [← hw]
    refine (abs_norm_sub_norm_le _ _).trans ((Complex.norm_le_abs_re_add_abs_im _).trans ?_)
    show |c - Real.cos θ| + |s - Real.sin θ| ≤ 2 * η
    linarith
  have npos : 0 < ‖z‖ := by
    have := abs_le.1 hn
    linarith [this.1]
  have key : ∀ v : ℝ, |v| ≤ ‖z‖ → |v / ‖z‖ - v| ≤ 2 * η := by
    intro v hv
    have : v / ‖z‖ - v = v / ‖z‖ * (1 - ‖z‖) := by field_simp
    rw [this, abs_mul, abs_sub_comm]
    have h1 : |v / ‖z‖| ≤ 1 := by rw [abs_div, abs_of_pos npos, div_le_one npos]; exact hv
    have := mul_le_mul h1 hn (abs_nonneg _) zero_le_one
    linarith
  have k1 := key c (Complex.abs_re_le_norm z)
  have k2 := key s (Complex.abs_im_le_norm z)
  have e1 := (Real.abs_cos_sub_cos_le α (Complex.arg z)).trans hα
  have e2 := (Real.abs_sin_sub_sin_le α (Complex.arg z)).trans hα
  rw [Complex.cos_arg (norm_pos_iff.1 npos)] at e1
  rw [Complex.sin_arg] at e2
  have e1' : |Real.cos α - c / ‖z‖| ≤ η := e1
  have e2' : |Real.sin α - s / ‖z‖| ≤ η := e2
  simp only [abs_le] at *
  constructor <;> constructor <;> linarith [k1.1, k1.2, k2.1, k2.2, e1'.1, e1'.2, e2'.1, e2'.2]

/-- The matrix that is written for a placement, if items and bins were centered. -/
theorem written_matrix (st : r.Standard u) (tr : Trig (Rounded r)) (d : DTransf (Rounded r)) (ix iy bx b_y : Rounded r) :
    internalToAbsolute tr d (Transf.translM ix iy) (Transf.translM bx b_y) =
      ⟨tr.cos d.rotation, -tr.sin d.rotation, tr.cos d.rotation * ix + -tr.sin d.rotation * iy + d.tx + -bx,
       tr.sin d.rotation, tr.cos d.rotation, tr.sin d.rotation * ix + tr.cos d.rotation * iy + d.ty + -b_y, 0, 0, 1⟩ := by
  unfold internalToAbsolute Transf.transformFromDecomposed Transf.rotateTranslate Transf.transform Transf.inverse Transf.det Transf.dotProd Transf.translM
    Transf.rotTranslM Transf.empty
  simp only [rounded_mul_one st, rounded_one_mul st, val_zero_mul st, val_mul_zero st, rounded_add_zero st, rounded_zero_add st, rounded_div_one st,
    rounded_zero_sub st, val_sub_zero st, rounded_neg_zero st]

/-- Moving a point by a translation: one rounding. -/
theorem rounded_transform_translM (st : r.Standard u) (p : Point (Rounded r)) (a b : Rounded r) : p.transform (Transf.translM a b) = ⟨p.x + a, p.y + b⟩ := by
  unfold Point.transform Transf.translM
  simp only [rounded_mul_one st, rounded_one_mul st, val_zero_mul st, rounded_add_zero st, rounded_zero_add st]

/-- one coordinate of a corner as the engine has it, and as it follows from the file -/
theorem written_row (st : r.Standard u) (hu : u ≤ 1 / 256) {c s x y t a b e : Rounded r} {M T : ℚ} (hc : |c.1| ≤ 1) (hs : |s.1| ≤ 1) (hx : |x.1| ≤ M) (hy : |y.1| ≤ M)
    (ha : |a.1| ≤ M) (hb : |b.1| ≤ M) (ht : |t.1| ≤ T) (he : |e.1| ≤ T) :
    |(c.1 * x.1 + s.1 * y.1 + (c * a + s * b + t + -e).1 + e.1) - (c * (x + a) + s * (y + b) + t).1| ≤ u * (30 * M + 5 * T) := by
  have u0 := st.nonneg
  have M0 : 0 ≤ M := (abs_nonneg _).trans hx
  have T0 : 0 ≤ T := (abs_nonneg _).trans ht
  have uM : 0 ≤ u * M := mul_nonneg u0 M0
  have uT : 0 ≤ u * T := mul_nonneg u0 T0
  have uuM : u * (u * M) ≤ 1 / 256 * (u * M) := mul_le_mul_of_nonneg_right hu uM
  have uuT : u * (u * T) ≤ 1 / 256 * (u * T) := mul_le_mul_of_nonneg_right hu uT
  have uM' : u * M ≤ 1 / 256 * M := mul_le_mul_of_nonneg_right hu M0
  -- the centered corner
  have bx : |x.1 + a.1| ≤ 2 * M := (abs_add_le _ _).trans (by linarith)
  have by' : |y.1 + b.1| ≤ 2 * M := (abs_add_le _ _).trans (by linarith)
  have ex : |(x + a).1 - (x.1 + a.1)| ≤ u * (2 * M) := st.near_of bx
  have ey : |(y + b).1 - (y.1 + b.1)| ≤ u * (2 * M) := st.near_of by'
  set X := (x + a) with hX
  set Y := (y + b) with hY
  have qx : |X.1| ≤ 2 * M + 2 / 256 * M := by
    rw [abs_le] at *
    constructor <;> linarith [bx.1, bx.2, ex.1, ex.2]
  have qy : |Y.1| ≤ 2 * M + 2 / 256 * M := by
    rw [abs_le] at *
    constructor <;> linarith [by'.1, by'.2, ey.1, ey.2]
  have e1 := row_near st hu hc hs qx qy ht
  have e2 := row_near st hu hc hs ha hb ht
  set m := c * a + s * b + t with hm
  -- the sum of the written translation
  have bca : |c.1 * a.1| ≤ M := by rw [abs_mul]; nlinarith [abs_nonneg c.1, abs_nonneg a.1]
  have bsb : |s.1 * b.1| ≤ M := by rw [abs_mul]; nlinarith [abs_nonneg s.1, abs_nonneg b.1]
  have bm : |m.1 + -e.1| ≤ 2 * M + 2 * T + (7 * (u * M) + u * T) := by
    have : u * (7 * M + T) = 7 * (u * M) + u * T := by ring
    rw [this] at e2
    rw [abs_le] at *
    constructor <;> linarith [e2.1, e2.2, bca.1, bca.2, bsb.1, bsb.2, ht.1, ht.2, he.1, he.2]
  have e3 : |(m + -e).1 - (m.1 + -e.1)| ≤ u * (2 * M + 2 * T + (7 * (u * M) + u * T)) := by
    have := st.near_of bm
    show |r.rnd (m.1 + (-e).1) - _| ≤ _
    rwa [val_neg st]
  have e3' : |(m + -e).1 - (m.1 + -e.1)| ≤ 2 * (u * M) + 2 * (u * T) + 7 / 256 * (u * M) + 1 / 256 * (u * T) := by
    refine e3.trans ?_
    nlinarith
  have cx : |c.1 * (X.1 - (x.1 + a.1))| ≤ 2 * (u * M) := by
    rw [abs_mul]
    have := mul_le_mul hc ex (abs_nonneg _) zero_le_one
    linarith
  have sy : |s.1 * (Y.1 - (y.1 + b.1))| ≤ 2 * (u * M) := by
    rw [abs_mul]
    have := mul_le_mul hs ey (abs_nonneg _) zero_le_one
    linarith
  have f1 : u * (7 * (2 * M + 2 / 256 * M) + T) = 14 * (u * M) + 14 / 256 * (u * M) + u * T := by ring
  have f2 : u * (7 * M + T) = 7 * (u * M) + u * T := by ring
  have f3 : u * (30 * M + 5 * T) = 30 * (u * M) + 5 * (u * T) := by ring
  rw [f1] at e1
  rw [f2] at e2
  rw [f3]
  rw [abs_le] at *
  constructor <;> linarith [e1.1, e1.2, e2.1, e2.2, e3'.1, e3'.2, cx.1, cx.2, sy.1, sy.2]

/-- What is written for a placed item describes the shape the engine has, up to a small error. -/
theorem written_vertex (st : r.Standard u) (hu : u ≤ 1 / 256) {tr : Trig (Rounded r)} {η : ℝ} (ht : tr.Accurate η) (hη : η < 1 / 2) {n : ℕ}
    {items : List (Item (Rounded r) × ℕ)} {b : Bin (Rounded r) n} {pi : PlacedItem (Rounded r)} {x : Item (Rounded r) × ℕ} (hx : items[pi.itemId]? = some x)
    {ix iy bx b_y : Rounded r} (hix : x.1.pretransform = Transf.translM ix iy) (hb : b.pretransform = Transf.translM bx b_y) {p : JsonPlacedItem (Rounded r)}
    (hp : composePlaced tr items b pi = some p) {M T : ℚ} (hi : (⟨ix, iy⟩ : Point (Rounded r)).UpTo M) (hbT : (⟨bx, b_y⟩ : Point (Rounded r)).UpTo T)
    (hd : pi.dt.UpTo T) {v : Point (Rounded r)} (hv : v.UpTo M) :
    CloseTo ((u : ℝ) * (30 * M + 5 * T) + 6 * η * M) (transPt (bx.1 : ℝ) (b_y.1 : ℝ) (p.move v.real))
      ((v.transform x.1.pretransform).transform (Transf.fromDt tr pi.dt)).real := by
  unfold composePlaced at hp
  rw [hx, Option.map_some, Option.some.injEq, hix, hb, written_matrix st] at hp
  subst hp
  rw [hix, rounded_transform_translM st]
  set d := pi.dt with hd'
  set c := tr.cos d.rotation with hc
  set s := tr.sin d.rotation with hs
  have hc1 := ht.cos_le d.rotation
  have hs1 := ht.sin_le d.rotation
  have hs1' : |(-s).1| ≤ 1 := by rw [val_neg st, abs_neg]; exact hs1
  have k1 := cast_abs_le (written_row st hu (c := c) (s := -s) (t := d.tx) (e := bx) hc1 hs1' hv.1 hv.2 hi.1 hi.2 hd.1 hbT.1)
  have k2 := cast_abs_le (written_row st hu (c := s) (s := c) (t := d.ty) (e := b_y) hs1 hc1 hv.1 hv.2 hi.1 hi.2 hd.2 hbT.2)
  rw [val_neg st] at k1
  have hα := ht.atan2_near s c
  obtain ⟨r1, r2⟩ := recovered_turn (ht.cos_near d.rotation) (ht.sin_near d.rotation) hη hα
  obtain ⟨k3, k4⟩ := turn_near r1 r2 (cast_abs_le hv.1) (cast_abs_le hv.2)
  push_cast at k1 k2
  unfold CloseTo JsonPlacedItem.move transPt rotPt Point.real Point.transform Transf.fromDt Transf.rotTranslM Transf.decompose
  simp only [rounded_mul_one st]
  simp only [abs_le] at k1 k2 k3 k4 ⊢
  constructor <;> constructor <;> linarith [k1.1, k1.2, k2.1, k2.2, k3.1, k3.2, k4.1, k4.2]

/-! ### From rational to real points -/

/-- a rational point as a real one -/
def Point.cast (p : Point ℚ) : Point ℝ := ⟨(p.x : ℝ), (p.y : ℝ)⟩

theorem Point.exact_cast (p : Point (Rounded r)) : p.exact.cast = p.real := rfl

theorem SPoly.exact_cast (s : SPoly (Rounded r)) : s.exact.map Point.cast = s.real := by
  unfold SPoly.exact SPoly.real
  rw [List.map_map]; rfl

theorem sides_cast (P : List (Point ℚ)) : sides (P.map Point.cast) = (sides P).map fun s => (s.1.cast, s.2.cast) := by
  unfold sides
  rw [← List.map_rotate, List.zip_map]
  rfl

theorem hullCross_cast (a b c : Point ℚ) : hullCross a.cast b.cast c.cast = ((hullCross a b c : ℚ) : ℝ) := by
  unfold hullCross Point.cast
  push_cast
  rfl

theorem crossesRay_cast {p a b : Point ℚ} : CrossesRay p.cast (a.cast, b.cast) ↔ CrossesRay p (a, b) := by
  rw [crossesRay_sign, crossesRay_sign]
  simp only [hullCross_cast]
  unfold Point.cast
  simp only [Rat.cast_lt, Rat.cast_le, Rat.cast_pos, Rat.cast_lt_zero]

theorem rho_cast (P : List (Point ℚ)) (p : Point ℚ) : rho (P.map Point.cast) p.cast = rho P p := by
  unfold rho
  rw [sides_cast, List.map_map]
  congr 1
  apply List.map_congr_left
  intro s _
  exact ind_congr crossesRay_cast

theorem segPts_cast {a b p : Point ℚ} (h : p ∈ segPts a b) : p.cast ∈ segPts a.cast b.cast := by
  obtain ⟨t, t0, t1, hx, hy⟩ := h
  exact ⟨(t : ℝ), by exact_mod_cast t0, by exact_mod_cast t1, by unfold Point.cast; simp only [hx]; push_cast; ring, by unfold Point.cast; simp only [hy]; push_cast; ring⟩

theorem bdry_cast {P : List (Point ℚ)} {p : Point ℚ} (h : p ∈ bdry P) : p.cast ∈ bdry (P.map Point.cast) := by
  obtain ⟨s, hs, hp⟩ := h
  exact ⟨(s.1.cast, s.2.cast), by rw [sides_cast]; exact List.mem_map_of_mem hs, segPts_cast hp⟩

theorem interior_of_cast {P : List (Point ℚ)} {p : Point ℚ} (h : p.cast ∈ interior (P.map Point.cast)) : p ∈ interior P := by
  refine ⟨fun hb => h.1 (bdry_cast hb), ?_⟩
  have := h.2
  rwa [← rho_odd, rho_cast, rho_odd] at this

theorem region_cast {P : List (Point ℚ)} {p : Point ℚ} (h : p ∈ region P) : p.cast ∈ region (P.map Point.cast) := by
  rcases h with h | h
  · exact Or.inl (bdry_cast h)
  · by_cases hb : p.cast ∈ bdry (P.map Point.cast)
    · exact Or.inl hb
    · refine Or.inr ⟨hb, ?_⟩
      rw [← rho_odd, rho_cast, rho_odd]
      exact h.2

/-- A real point that is not on a segment keeps a distance from it. -/
theorem seg_gap {a b x : Point ℝ} (h : x ∉ segPts a b) : ∃ δ : ℝ, 0 < δ ∧ ∀ w ∈ segPts a b, ¬ CloseTo δ w x := by
  let f : ℝ → ℝ := fun t => |a.x + t * (b.x - a.x) - x.x| + |a.y + t * (b.y - a.y) - x.y|
  have hf : Continuous f := by fun_prop
  obtain ⟨t, ⟨t0, t1⟩, hmin⟩ := isCompact_Icc.exists_isMinOn (s := Set.Icc (0 : ℝ) 1) ⟨0, by simp⟩ hf.continuousOn
  have hpos : 0 < f t := by
    rcases lt_or_eq_of_le (show 0 ≤ f t by positivity) with h0 | h0
    · exact h0
    · exfalso
      apply h
      have h1 : |a.x + t * (b.x - a.x) - x.x| = 0 := by
        have : f t = 0 := h0.symm
        have k1 := abs_nonneg (a.x + t * (b.x - a.x) - x.x)
        have k2 := abs_nonneg (a.y + t * (b.y - a.y) - x.y)
        show |a.x + t * (b.x - a.x) - x.x| = 0
        have e : |a.x + t * (b.x - a.x) - x.x| + |a.y + t * (b.y - a.y) - x.y| = 0 := this
        linarith
      have h2 : |a.y + t * (b.y - a.y) - x.y| = 0 := by
        have e : |a.x + t * (b.x - a.x) - x.x| + |a.y + t * (b.y - a.y) - x.y| = 0 := h0.symm
        linarith
      rw [abs_eq_zero] at h1 h2
      exact ⟨t, t0, t1, by linarith, by linarith⟩
  refine ⟨f t / 3, by positivity, ?_⟩
  rintro w ⟨s, s0, s1, hx, hy⟩ ⟨c1, c2⟩
  have hm : f t ≤ f s := hmin ⟨s0, s1⟩
  have e : f s = |w.x - x.x| + |w.y - x.y| := by show |_ - _| + |_ - _| = _; rw [hx, hy]
  linarith

theorem sides_gap {x : Point ℝ} : ∀ {l : List (Point ℝ × Point ℝ)}, (∀ s ∈ l, x ∉ segPts s.1 s.2) → ∃ δ : ℝ, 0 < δ ∧ ∀ s ∈ l, ∀ w ∈ segPts s.1 s.2, ¬ CloseTo δ w x
  | [], _ => ⟨1, one_pos, by simp⟩
  | s :: l, h => by
    obtain ⟨δ, h0, h1⟩ := sides_gap (l := l) fun t ht => h t (List.mem_cons_of_mem _ ht)
    obtain ⟨δ', h0', h1'⟩ := seg_gap (h s List.mem_cons_self)
    refine ⟨min δ δ', lt_min h0 h0', ?_⟩
    intro t ht w hw hc
    rcases List.mem_cons.1 ht with rfl | ht
    · exact h1' w hw ⟨hc.1.trans (min_le_right _ _), hc.2.trans (min_le_right _ _)⟩
    · exact h1 t ht w hw ⟨hc.1.trans (min_le_left _ _), hc.2.trans (min_le_left _ _)⟩

/-- A real point that is not on an outline keeps a distance from it. -/
theorem bdry_gap {P : List (Point ℝ)} {x : Point ℝ} (h : x ∉ bdry P) : ∃ δ : ℝ, 0 < δ ∧ ∀ w ∈ bdry P, ¬ CloseTo δ w x := by
  obtain ⟨δ, h0, h1⟩ := sides_gap (x := x) (l := sides P) fun s hs hx => h ⟨s, hs, hx⟩
  exact ⟨δ, h0, fun w ⟨s, hs, hw⟩ => h1 s hs w hw⟩

/-- Around a point that is not on the outline nothing changes. -/
theorem rho_local {P : List (Point ℝ)} {x : Point ℝ} {δ : ℝ} (h : ∀ w ∈ bdry P, ¬ CloseTo δ w x) {y : Point ℝ} (hy : CloseTo δ y x) : y ∉ bdry P ∧ rho P y = rho P x := by
  refine ⟨fun hb => h y hb hy, (rho_path fun w hw hb => h w hb ?_).symm⟩
  obtain ⟨t, t0, t1, hx, hy'⟩ := hw
  exact ⟨combine_close le_rfl t0 (by linarith) hy.1 hy.1 (by rw [hx]; ring), combine_close le_rfl t0 (by linarith) hy.2 hy.2 (by rw [hy']; ring)⟩

theorem exists_rat_close (x : Point ℝ) {δ : ℝ} (h : 0 < δ) : ∃ p : Point ℚ, CloseTo δ p.cast x := by
  obtain ⟨a, ha⟩ := exists_rat_near x.x h
  obtain ⟨b, hb⟩ := exists_rat_near x.y h
  refine ⟨⟨a, b⟩, ?_, ?_⟩
  · show |(a : ℝ) - x.x| ≤ δ
    rw [abs_sub_comm]; exact ha.le
  · show |(b : ℝ) - x.y| ≤ δ
    rw [abs_sub_comm]; exact hb.le

/-- Shapes with rational corners whose interiors have no rational point in common have no real point in common. -/
theorem interiors_apart_real {P Q : List (Point ℚ)} (h : ∀ p, p ∈ interior P → p ∉ interior Q) {x : Point ℝ} (h1 : x ∈ interior (P.map Point.cast))
    (h2 : x ∈ interior (Q.map Point.cast)) : False := by
  obtain ⟨δ, d0, hδ⟩ := bdry_gap h1.1
  obtain ⟨δ', d0', hδ'⟩ := bdry_gap h2.1
  obtain ⟨p, hp⟩ := exists_rat_close x (lt_min d0 d0')
  obtain ⟨k1, k2⟩ := rho_local hδ (y := p.cast) ⟨hp.1.trans (min_le_left _ _), hp.2.trans (min_le_left _ _)⟩
  obtain ⟨k3, k4⟩ := rho_local hδ' (y := p.cast) ⟨hp.1.trans (min_le_right _ _), hp.2.trans (min_le_right _ _)⟩
  refine h p (interior_of_cast ⟨k1, ?_⟩) (interior_of_cast ⟨k3, ?_⟩)
  · rw [← rho_odd, k2, rho_odd]; exact h1.2
  · rw [← rho_odd, k4, rho_odd]; exact h2.2

/-- The complement of a region is open. -/
theorem region_gap {P : List (Point ℝ)} {x : Point ℝ} (h : x ∉ region P) : ∃ δ : ℝ, 0 < δ ∧ ∀ y, CloseTo δ y x → y ∉ region P := by
  obtain ⟨δ, d0, hδ⟩ := bdry_gap (P := P) (x := x) fun hb => h (Or.inl hb)
  refine ⟨δ, d0, fun y hy hr => ?_⟩
  obtain ⟨k1, k2⟩ := rho_local hδ hy
  rcases hr with hb | hi
  · exact k1 hb
  · apply h
    refine Or.inr ⟨fun hb => h (Or.inl hb), ?_⟩
    rw [← rho_odd, ← k2, rho_odd]; exact hi.2

/-- A shape with rational corners whose rational points lie in another one lies in it. -/
theorem region_subset_real {P Q : List (Point ℚ)} (h : region P ⊆ region Q) : region (P.map Point.cast) ⊆ region (Q.map Point.cast) := by
  intro x hx
  by_contra hn
  obtain ⟨δ, d0, hδ⟩ := region_gap hn
  rcases hx with ⟨s, hs, hx⟩ | hx
  · rw [sides_cast, List.mem_map] at hs
    obtain ⟨⟨a, b⟩, hab, rfl⟩ := hs
    obtain ⟨t, t0, t1, hx, hy⟩ := hx
    -- a rational point of the side that is close
    set L : ℝ := |b.cast.x - a.cast.x| + |b.cast.y - a.cast.y| + 1 with hL
    have L0 : 0 < L := by positivity
    obtain ⟨q, q0, q1, hq⟩ : ∃ q : ℚ, 0 ≤ q ∧ q ≤ 1 ∧ |(q : ℝ) - t| ≤ δ / L := by
      obtain ⟨q, hq⟩ := exists_rat_near t (div_pos d0 L0)
      refine ⟨max 0 (min q 1), le_max_left _ _, max_le zero_le_one (min_le_right _ _), ?_⟩
      rw [abs_sub_comm] at hq
      push_cast
      have hq' := abs_lt.1 hq
      rw [abs_le]
      rcases le_total (q : ℝ) 1 with c1 | c1
      · rw [min_eq_left c1]
        rcases le_total 0 (q : ℝ) with c2 | c2
        · rw [max_eq_right c2]; constructor <;> linarith [hq'.1, hq'.2]
        · rw [max_eq_left c2]; constructor <;> linarith [hq'.1, hq'.2]
      · rw [min_eq_right c1, max_eq_right zero_le_one]; constructor <;> linarith [hq'.1, hq'.2]
    have hp : (⟨a.x + q * (b.x - a.x), a.y + q * (b.y - a.y)⟩ : Point ℚ) ∈ region P := Or.inl ⟨(a, b), hab, q, q0, q1, rfl, rfl⟩
    refine hδ _ ?_ (region_cast (h hp))
    have bound : ∀ z : ℝ, |z| ≤ L → |((q : ℝ) - t) * z| ≤ δ := by
      intro z hz
      rw [abs_mul]
      calc |(q : ℝ) - t| * |z| ≤ δ / L * L := mul_le_mul hq hz (abs_nonneg _) (div_pos d0 L0).le
        _ = δ := div_mul_cancel₀ _ L0.ne'
    constructor
    · have : (Point.cast ⟨a.x + q * (b.x - a.x), a.y + q * (b.y - a.y)⟩).x - x.x = ((q : ℝ) - t) * (b.cast.x - a.cast.x) := by
        rw [hx]; unfold Point.cast; push_cast; ring
      rw [this]
      exact bound _ (by rw [hL]; linarith [abs_nonneg (b.cast.y - a.cast.y)])
    · have : (Point.cast ⟨a.x + q * (b.x - a.x), a.y + q * (b.y - a.y)⟩).y - x.y = ((q : ℝ) - t) * (b.cast.y - a.cast.y) := by
        rw [hy]; unfold Point.cast; push_cast; ring
      rw [this]
      exact bound _ (by rw [hL]; linarith [abs_nonneg (b.cast.x - a.cast.x)])
  · obtain ⟨δ', d0', hδ'⟩ := bdry_gap hx.1
    obtain ⟨p, hp⟩ := exists_rat_close x (lt_min d0 d0')
    obtain ⟨k3, k4⟩ := rho_local hδ' (y := p.cast) ⟨hp.1.trans (min_le_right _ _), hp.2.trans (min_le_right _ _)⟩
    refine hδ p.cast ⟨hp.1.trans (min_le_left _ _), hp.2.trans (min_le_left _ _)⟩ (region_cast (h (Or.inr (interior_of_cast ⟨k3, ?_⟩))))
    rw [← rho_odd, k4, rho_odd]; exact hx.2

end Jagua
