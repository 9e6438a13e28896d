import Verif.Lemmas.Centroid
import Verif.Spec.Built
import Verif.Spec.Distance

/-! # C35 - C38: polygon construction, centroid, transformations, coordinates -/

set_option linter.unusedSectionVars false

namespace Jagua

variable {K : Type*} [Field K] [LinearOrder K] [IsStrictOrderedRing K]

/-! ## C37 Transformations -/

theorem Built.rigid_map {tr : Trig K} (hu : tr.Unit) {t : Transf K} {g : Point K → Point K} (h : Built tr t g) :
    t.IsRigid ∧ ∀ p, p.transform t = g p := by
  induction h with
  | empty => exact ⟨.empty, fun p => transform_empty p⟩
  | fromTranslation tx ty =>
    refine ⟨.transl tx ty, fun p => ?_⟩
    simp only [Point.transform, Transf.fromTranslation, Transf.translM, transPt]; ext <;> simp
  | fromRotation a =>
    refine ⟨.rot hu a, fun p => ?_⟩
    simp only [Point.transform, Transf.fromRotation, Transf.rotM, rotPt]; ext <;> ring
  | fromDt d =>
    refine ⟨.rotTransl hu _ _ _, fun p => ?_⟩
    simp only [Point.transform, Transf.fromDt, Transf.rotTranslM, rotPt, transPt]; ext <;> ring
  | rotate a h ih =>
    refine ⟨.dot (.rot hu a) ih.1, fun p => ?_⟩
    rw [Transf.rotate, transform_dot ih.1, ih.2]
    simp only [Point.transform, Transf.rotM, rotPt]; ext <;> ring
  | translate tx ty h ih =>
    refine ⟨.dot (.transl tx ty) ih.1, fun p => ?_⟩
    rw [Transf.translate, transform_dot ih.1, ih.2]
    simp only [Point.transform, Transf.translM, transPt]; ext <;> ring
  | rotateTranslate a tx ty h ih =>
    refine ⟨.dot (.rotTransl hu _ _ _) ih.1, fun p => ?_⟩
    rw [Transf.rotateTranslate, transform_dot ih.1, ih.2]
    simp only [Point.transform, Transf.rotTranslM, rotPt, transPt]; ext <;> ring
  | translateRotate tx ty a h ih =>
    refine ⟨.dot (.translRot hu _ _ _) ih.1, fun p => ?_⟩
    rw [Transf.translateRotate, transform_dot ih.1, ih.2]
    simp only [Point.transform, Transf.translRotM, rotPt, transPt]; ext <;> ring
  | transform h1 h2 ih1 ih2 =>
    refine ⟨.dot ih2.1 ih1.1, fun p => ?_⟩
    rw [Transf.transform, transform_dot ih1.1, ih1.2, ih2.2]
  | transformFromDecomposed d h ih =>
    refine ⟨.dot (.rotTransl hu _ _ _) ih.1, fun p => ?_⟩
    rw [Transf.transformFromDecomposed, Transf.rotateTranslate, transform_dot ih.1, ih.2]
    simp only [Point.transform, Transf.rotTranslM, rotPt, transPt]; ext <;> ring
  | @inverse t g g' h hg ih =>
    refine ⟨ih.1.inverse, fun p => ?_⟩
    have e := transform_dot (l := t.inverse) ih.1 (g' p)
    rw [ih.1.inverse_mul, transform_empty, ih.2, hg] at e
    exact e.symm

theorem Transf.IsRigid.rigidMap {t : Transf K} (h : t.IsRigid) : RigidMap fun p => p.transform t := by
  refine ⟨t.m00, t.m10, t.m02, t.m12, h.2.2.2.2.2, fun p => ?_⟩
  obtain ⟨h1, h2, -⟩ := h
  simp only [Point.transform, h1, h2, rotPt, transPt]
  ext <;> ring

/-- C37: whatever sequence of calls built a transformation, applying it to a
point is the same as performing the rotations and translations one after the
other, inverses included. -/
theorem C37_composition_in_order {t : Transf ℝ} {g : Point ℝ → Point ℝ} (h : Built Trig.real t g) (p : Point ℝ) :
    p.transform t = g p :=
  (h.rigid_map Trig.real_unit).2 p

example : ∃ t : Transf ℝ, Built Trig.real t (fun p => rotPt (Real.cos 1) (Real.sin 1) (transPt 2 3 (rotPt (Real.cos 4) (Real.sin 4) p))) :=
  ⟨_, .translateRotate 2 3 1 (.fromRotation 4)⟩

/-- C37: the resulting map is a rotation followed by a translation; hence it
preserves distances and the orientation of triangles. -/
theorem C37_rigid_motion {t : Transf ℝ} {g : Point ℝ → Point ℝ} (h : Built Trig.real t g) :
    RigidMap (fun p => p.transform t) ∧
    (∀ p q : Point ℝ, ((p.transform t).x - (q.transform t).x) ^ 2 + ((p.transform t).y - (q.transform t).y) ^ 2 =
      (p.x - q.x) ^ 2 + (p.y - q.y) ^ 2) ∧
    (∀ a b c : Point ℝ, signedArea [a.transform t, b.transform t, c.transform t] = signedArea [a, b, c]) := by
  have hr := (h.rigid_map Trig.real_unit).1
  refine ⟨hr.rigidMap, fun p q => ?_, fun a b c => hr.map.signedArea [a, b, c]⟩
  have e1 := hr.map.dx p q
  have e2 := hr.map.dy p q
  have hu := hr.map.unit
  have e1' : (p.transform t).x - (q.transform t).x = t.m00 * (p.x - q.x) - t.m10 * (p.y - q.y) := by linarith
  have e2' : (p.transform t).y - (q.transform t).y = t.m10 * (p.x - q.x) + t.m00 * (p.y - q.y) := by linarith
  rw [e1', e2']
  linear_combination ((p.x - q.x) ^ 2 + (p.y - q.y) ^ 2) * hu

/-- C37: the inverse undoes the transformation, from both sides. -/
theorem C37_inverse_undoes {t : Transf ℝ} {g : Point ℝ → Point ℝ} (h : Built Trig.real t g) (p : Point ℝ) :
    (p.transform t).transform t.inverse = p ∧ (p.transform t.inverse).transform t = p ∧
    t.transform t.inverse = .empty ∧ t.inverse.transform t = .empty := by
  have hr := (h.rigid_map Trig.real_unit).1
  refine ⟨?_, ?_, hr.inverse_mul, hr.mul_inverse⟩
  · rw [← transform_dot hr, hr.inverse_mul, transform_empty]
  · rw [← transform_dot hr.inverse, hr.mul_inverse, transform_empty]

/-- C37: composing transformations is associative and the empty transformation
is neutral, so the transformations that can be built form a group. -/
theorem C37_group {a b c : Transf ℝ} {ga gb gc : Point ℝ → Point ℝ}
    (_ha : Built Trig.real a ga) (_hb : Built Trig.real b gb) (_hc : Built Trig.real c gc) :
    (a.transform b).transform c = a.transform (b.transform c) ∧
    a.transform .empty = a ∧ Transf.empty.transform a = a :=
  ⟨(dotProd_assoc c b a).symm, empty_dotProd a, dotProd_empty a⟩

/-- C37: decomposing a transformation and composing it again yields the very same
transformation. -/
theorem C37_decompose_compose {t : Transf ℝ} {g : Point ℝ → Point ℝ} (h : Built Trig.real t g) :
    Transf.fromDt Trig.real (t.decompose Trig.real) = t :=
  (h.rigid_map Trig.real_unit).1.decompose Trig.real_polar

/-- C37: composing and decomposing gives the same translation, and the same
rotation up to whole turns, normalised to `(-π, π]`. -/
theorem C37_compose_decompose (d : DTransf ℝ) :
    ((Transf.fromDt Trig.real d).decompose Trig.real).tx = d.tx ∧
    ((Transf.fromDt Trig.real d).decompose Trig.real).ty = d.ty ∧
    (∃ k : ℤ, ((Transf.fromDt Trig.real d).decompose Trig.real).rotation = d.rotation + k * (2 * Real.pi)) ∧
    -Real.pi < ((Transf.fromDt Trig.real d).decompose Trig.real).rotation ∧
    ((Transf.fromDt Trig.real d).decompose Trig.real).rotation ≤ Real.pi := by
  refine ⟨rfl, rfl, ?_, Complex.neg_pi_lt_arg _, Complex.arg_le_pi _⟩
  have h := Trig.real_polar (Real.cos d.rotation) (Real.sin d.rotation) (Real.cos_sq_add_sin_sq _)
  have : (((Transf.fromDt Trig.real d).decompose Trig.real).rotation : Real.Angle) = (d.rotation : Real.Angle) :=
    Real.Angle.cos_sin_inj h.1 h.2
  obtain ⟨k, hk⟩ := Real.Angle.angle_eq_iff_two_pi_dvd_sub.1 this
  exact ⟨k, by linarith⟩

/-- C37: transforming a shape into a buffer that was itself obtained from the
same shape gives the same result as transforming a fresh copy, including
bounding box, pole of inaccessibility and surrogate; it never panics. -/
theorem C37_buffer_same_as_fresh (s : SPoly K) (t₀ t : Transf K) :
    (s.transform t₀).transformFrom s t = some (s.transform t) :=
  s.transformFrom_eq t₀ t

/-- C37: reusing one buffer any number of times leaves no trace of earlier uses. -/
theorem C37_buffer_reuse (s : SPoly K) (ts : List (Transf K)) (t : Transf K) :
    (ts ++ [t]).foldlM (fun buf u => SPoly.transformFrom buf s u) (s.transform .empty) = some (s.transform t) := by
  have : ∀ (ts : List (Transf K)) (t₀ t : Transf K),
      (ts ++ [t]).foldlM (fun buf u => SPoly.transformFrom buf s u) (s.transform t₀) = some (s.transform t) := by
    intro ts
    induction ts with
    | nil => intro t₀ t; simp [SPoly.transformFrom_eq]
    | cons u ts ih =>
      intro t₀ t
      simp only [List.cons_append, List.foldlM_cons, SPoly.transformFrom_eq]
      exact ih u t
  exact this ts .empty t

/-- C37: a transformed shape covers exactly the moved points. -/
theorem C37_region_moves_along {t : Transf ℝ} {g : Point ℝ → Point ℝ} (h : Built Trig.real t g) (s : SPoly ℝ) (p : Point ℝ) :
    (g p ∈ region (s.transform t).points ↔ p ∈ region s.points) ∧
    (g p ∈ interior (s.transform t).points ↔ p ∈ interior s.points) := by
  obtain ⟨hr, hm⟩ := h.rigid_map Trig.real_unit
  rw [← hm p]
  exact ⟨hr.map.region, hr.map.interior⟩

/-- C37: transforming twice is transforming by the composition. -/
theorem C37_transform_twice {t : Transf ℝ} {g : Point ℝ → Point ℝ} (h : Built Trig.real t g) (u : Transf ℝ) (s : SPoly ℝ) :
    (s.transform t).transform u = s.transform (t.transform u) :=
  s.transform_transform t u (h.rigid_map Trig.real_unit).1

/-! ## C35 Construction -/

/-- C35: construction succeeds exactly for three or more distinct vertices with
non-zero signed area. -/
theorem C35_construct_iff (poi : List (Point K) → Circle K) (pts : List (Point K)) :
    (∃ s, SPoly.new poi pts = some s) ↔ 3 ≤ pts.length ∧ pts.Nodup ∧ signedArea pts ≠ 0 := by
  constructor
  · rintro ⟨s, h⟩
    obtain ⟨h1, h2, h3, -⟩ := SPoly.new_spec h
    exact ⟨h1, h2, h3⟩
  · rintro ⟨h1, h2, h3⟩
    unfold SPoly.new
    simp only [calculateArea_eq]
    rw [if_neg (by omega), if_neg (by simpa using h2), if_neg h3]
    exact ⟨_, rfl⟩

/-- C35: a constructed polygon runs counterclockwise (strictly positive signed
area, recorded as its area), through the given vertices, and encloses the same
region as the given vertex list. -/
theorem C35_counterclockwise {poi : List (Point K) → Circle K} {pts : List (Point K)} {s : SPoly K}
    (h : SPoly.new poi pts = some s) :
    0 < signedArea s.points ∧ s.area = signedArea s.points ∧ s.points.Perm pts ∧
    interior s.points = interior pts ∧ bdry s.points = bdry pts := by
  obtain ⟨-, -, h3, h4, -⟩ := SPoly.new_spec h
  obtain ⟨h5, h6, h7, h8⟩ := SPoly.new_region h
  refine ⟨?_, h7.symm, h8, h5, h6⟩
  rw [h7, h4]
  exact abs_pos.2 h3

/-- C35: the recorded bounding box is the smallest box around the vertices. -/
theorem C35_bounding_box {poi : List (Point K) → Circle K} {pts : List (Point K)} {s : SPoly K}
    (h : SPoly.new poi pts = some s) :
    (∀ p ∈ region pts, p ∈ s.bbox.pts) ∧
    (∃ p ∈ pts, p.x = s.bbox.xMin) ∧ (∃ p ∈ pts, p.x = s.bbox.xMax) ∧
    (∃ p ∈ pts, p.y = s.bbox.yMin) ∧ (∃ p ∈ pts, p.y = s.bbox.yMax) := by
  have hw := SPoly.new_wf h
  obtain ⟨h5, h6, h7, h8⟩ := SPoly.new_region h
  have hat := boundingBox_attained hw.nonempty
  rw [← hw.bbox_eq] at hat
  refine ⟨fun p hp => ?_, ?_⟩
  · have hp' : p ∈ region s.points := by unfold region at hp ⊢; rwa [h5, h6]
    rcases hp' with hp' | hp'
    · rw [hw.bbox_eq]; exact bdry_subset_bbox hp'
    · have := interior_subset_inner hp'
      rw [hw.bbox_eq]
      exact ⟨this.1.le, this.2.1.le, this.2.2.1.le, this.2.2.2.le⟩
  · obtain ⟨a1, a3, a2, a4⟩ := hat
    refine ⟨?_, ?_, ?_, ?_⟩
    · obtain ⟨p, hp, e⟩ := a1; exact ⟨p, h8.mem_iff.1 hp, e⟩
    · obtain ⟨p, hp, e⟩ := a2; exact ⟨p, h8.mem_iff.1 hp, e⟩
    · obtain ⟨p, hp, e⟩ := a3; exact ⟨p, h8.mem_iff.1 hp, e⟩
    · obtain ⟨p, hp, e⟩ := a4; exact ⟨p, h8.mem_iff.1 hp, e⟩

/-- a clockwise triangle is turned around -/
example : (SPoly.new (fun _ => ⟨⟨0, 0⟩, 1⟩) [⟨0, 0⟩, ⟨0, 2⟩, ⟨3, 0⟩] : Option (SPoly ℚ)).map (fun s => (s.points, s.area)) =
    some ([⟨3, 0⟩, ⟨0, 2⟩, ⟨0, 0⟩], 3) := by decide +kernel

/-- C35: rigid transformations keep the area, the orientation and the
correctness of the recorded area, however they were built. -/
theorem C35_area_invariant {t : Transf ℝ} {g : Point ℝ → Point ℝ} (h : Built Trig.real t g) (s : SPoly ℝ) :
    signedArea (s.transform t).points = signedArea s.points ∧ (s.transform t).area = s.area :=
  ⟨(h.rigid_map Trig.real_unit).1.map.signedArea s.points, rfl⟩

/-! ## C36 Centroid -/

/-- C36: after centering, the centroid is the origin, and the returned
transformation is the one that was applied. -/
theorem C36_centered {poi : List (Point K) → Circle K} {pts : List (Point K)} {s : SPoly K}
    (h : SPoly.new poi pts = some s) :
    s.centerAroundCentroid.1.centroid = ⟨0, 0⟩ ∧ s.centerAroundCentroid.1 = s.transform s.centerAroundCentroid.2 := by
  refine ⟨?_, rfl⟩
  obtain ⟨hp, ha, -⟩ := C35_counterclockwise h
  have := SPoly.centroid_transform ha (by rw [ha]; exact hp.ne') (Transf.IsRigid.transl (-s.centroid.x) (-s.centroid.y))
  refine this.trans ?_
  simp only [Point.transform, Transf.translM]
  ext <;> simp

example : ((SPoly.new (fun _ => ⟨⟨0, 0⟩, 1⟩) [⟨0, 0⟩, ⟨4, 0⟩, ⟨4, 2⟩, ⟨0, 2⟩] : Option (SPoly ℚ)).map
    fun s => (s.centroid, s.centerAroundCentroid.1.points)) = some (⟨2, 1⟩, [⟨-2, -1⟩, ⟨2, -1⟩, ⟨2, 1⟩, ⟨-2, 1⟩]) := by
  decide +kernel

/-- C36: the centroid moves along with the polygon. -/
theorem C36_centroid_equivariant {poi : List (Point ℝ) → Circle ℝ} {pts : List (Point ℝ)} {s : SPoly ℝ}
    (h : SPoly.new poi pts = some s) {t : Transf ℝ} {g : Point ℝ → Point ℝ} (ht : Built Trig.real t g) :
    (s.transform t).centroid = g s.centroid := by
  obtain ⟨hp, ha, -⟩ := C35_counterclockwise h
  obtain ⟨hr, hm⟩ := ht.rigid_map Trig.real_unit
  rw [← hm]
  exact SPoly.centroid_transform ha (by rw [ha]; exact hp.ne') hr

/-- C36: the centroid of a triangle is the mean of its corners. -/
theorem C36_triangle {poi : List (Point K) → Circle K} {a b c : Point K} {s : SPoly K}
    (h : SPoly.new poi [a, b, c] = some s) :
    s.centroid = ⟨(a.x + b.x + c.x) / 3, (a.y + b.y + c.y) / 3⟩ := by
  obtain ⟨-, -, h3, h4, h5, -⟩ := SPoly.new_spec h
  obtain ⟨-, -, h7, -⟩ := SPoly.new_region h
  have h0 : s.area ≠ 0 := by rw [h4]; exact abs_ne_zero.2 h3
  rw [centroid_eq]
  rw [h5] at h7 ⊢
  split at h7
  · rename_i hn
    rw [if_pos hn]
    simp [signedArea, sides, List.rotate] at h7
    simp only [momentX, momentY, sides, List.rotate]
    ext
    · simp
      rw [div_eq_div_iff (by simpa using h0) (by norm_num), ← h7]
      ring
    · simp
      rw [div_eq_div_iff (by simpa using h0) (by norm_num), ← h7]
      ring
  · rename_i hn
    rw [if_neg hn]
    simp [signedArea, sides, List.rotate] at h7
    simp only [momentX, momentY, sides, List.rotate]
    ext
    · simp
      rw [div_eq_div_iff (by simpa using h0) (by norm_num), ← h7]
      ring
    · simp
      rw [div_eq_div_iff (by simpa using h0) (by norm_num), ← h7]
      ring

/-! ## C38 External coordinates -/

/-- C38: converting a placement to file coordinates and back gives the same
transformation. -/
theorem C38_round_trip {ip bp : Transf ℝ} {gi gb : Point ℝ → Point ℝ} (hi : Built Trig.real ip gi) (hb : Built Trig.real bp gb)
    (d : DTransf ℝ) :
    absoluteToInternal Trig.real ((internalToAbsolute Trig.real d ip bp).decompose Trig.real) ip bp =
      Transf.fromDt Trig.real d := by
  have ri := (hi.rigid_map Trig.real_unit).1
  have rb := (hb.rigid_map Trig.real_unit).1
  have rd : (Transf.fromDt Trig.real d).IsRigid := .rotTransl Trig.real_unit _ _ _
  have ea : internalToAbsolute Trig.real d ip bp = Transf.dotProd bp.inverse (Transf.dotProd (Transf.fromDt Trig.real d) ip) := by
    unfold internalToAbsolute Transf.transformFromDecomposed Transf.rotateTranslate Transf.transform
    rw [dotProd_empty]; rfl
  have ra : (internalToAbsolute Trig.real d ip bp).IsRigid := by rw [ea]; exact .dot rb.inverse (.dot rd ri)
  have e : absoluteToInternal Trig.real ((internalToAbsolute Trig.real d ip bp).decompose Trig.real) ip bp =
      Transf.dotProd bp (Transf.dotProd (Transf.fromDt Trig.real ((internalToAbsolute Trig.real d ip bp).decompose Trig.real)) ip.inverse) := by
    unfold absoluteToInternal Transf.transformFromDecomposed Transf.rotateTranslate Transf.transform
    rw [dotProd_empty]; rfl
  rw [e, ra.decompose Trig.real_polar, ea, dotProd_assoc bp.inverse, dotProd_assoc _ ip, ri.mul_inverse, dotProd_empty,
    ← dotProd_assoc bp, rb.mul_inverse, empty_dotProd]

/-- C38: and from file coordinates to internal ones and back. -/
theorem C38_round_trip_back {ip bp : Transf ℝ} {gi gb : Point ℝ → Point ℝ} (hi : Built Trig.real ip gi) (hb : Built Trig.real bp gb)
    (d : DTransf ℝ) :
    internalToAbsolute Trig.real ((absoluteToInternal Trig.real d ip bp).decompose Trig.real) ip bp =
      Transf.fromDt Trig.real d := by
  have ri := (hi.rigid_map Trig.real_unit).1
  have rb := (hb.rigid_map Trig.real_unit).1
  have rd : (Transf.fromDt Trig.real d).IsRigid := .rotTransl Trig.real_unit _ _ _
  have ea : absoluteToInternal Trig.real d ip bp = Transf.dotProd bp (Transf.dotProd (Transf.fromDt Trig.real d) ip.inverse) := by
    unfold absoluteToInternal Transf.transformFromDecomposed Transf.rotateTranslate Transf.transform
    rw [dotProd_empty]; rfl
  have ra : (absoluteToInternal Trig.real d ip bp).IsRigid := by rw [ea]; exact .dot rb (.dot rd ri.inverse)
  have e : internalToAbsolute Trig.real ((absoluteToInternal Trig.real d ip bp).decompose Trig.real) ip bp =
      Transf.dotProd bp.inverse (Transf.dotProd (Transf.fromDt Trig.real ((absoluteToInternal Trig.real d ip bp).decompose Trig.real)) ip) := by
    unfold internalToAbsolute Transf.transformFromDecomposed Transf.rotateTranslate Transf.transform
    rw [dotProd_empty]; rfl
  rw [e, ra.decompose Trig.real_polar, ea, dotProd_assoc bp, dotProd_assoc _ ip.inverse, ri.inverse_mul, dotProd_empty,
    ← dotProd_assoc bp.inverse, rb.inverse_mul, empty_dotProd]

/-- C38: the placement read back has the same translation, and the same rotation
up to whole turns. -/
theorem C38_same_placement {ip bp : Transf ℝ} {gi gb : Point ℝ → Point ℝ} (hi : Built Trig.real ip gi) (hb : Built Trig.real bp gb)
    (d d' : DTransf ℝ)
    (hd : d' = (absoluteToInternal Trig.real ((internalToAbsolute Trig.real d ip bp).decompose Trig.real) ip bp).decompose Trig.real) :
    d'.tx = d.tx ∧ d'.ty = d.ty ∧ ∃ k : ℤ, d'.rotation = d.rotation + k * (2 * Real.pi) := by
  rw [C38_round_trip hi hb] at hd
  obtain ⟨h1, h2, h3, -⟩ := C37_compose_decompose d
  rw [hd]
  exact ⟨h1, h2, h3⟩

/-- C38: both representations describe the same region relative to the bin. The
item of the file (`pts`) moved by the absolute transformation, seen through the
bin's pretransformation, is the internal item (`pts` pretransformed) moved by
the internal placement. -/
theorem C38_same_region {ip bp : Transf ℝ} {gi gb : Point ℝ → Point ℝ} (hi : Built Trig.real ip gi) (hb : Built Trig.real bp gb)
    (d : DTransf ℝ) (pts : List (Point ℝ)) (p : Point ℝ) :
    p ∈ region (pts.map (·.transform (internalToAbsolute Trig.real d ip bp))) ↔
    gb p ∈ region ((pts.map gi).map fun q => transPt d.tx d.ty (rotPt (Real.cos d.rotation) (Real.sin d.rotation) q)) := by
  obtain ⟨ri, mi⟩ := hi.rigid_map Trig.real_unit
  obtain ⟨rb, mb⟩ := hb.rigid_map Trig.real_unit
  have hd := Built.fromDt (tr := Trig.real) d
  obtain ⟨rd, md⟩ := hd.rigid_map Trig.real_unit
  have key : ((pts.map gi).map fun q => transPt d.tx d.ty (rotPt (Real.cos d.rotation) (Real.sin d.rotation) q)) =
      (pts.map (·.transform (internalToAbsolute Trig.real d ip bp))).map fun q => q.transform bp := by
    rw [List.map_map, List.map_map]
    apply List.map_congr_left
    intro q _
    have ea : internalToAbsolute Trig.real d ip bp = Transf.dotProd bp.inverse (Transf.dotProd (Transf.fromDt Trig.real d) ip) := by
      unfold internalToAbsolute Transf.transformFromDecomposed Transf.rotateTranslate Transf.transform
      rw [dotProd_empty]; rfl
    have ra : (internalToAbsolute Trig.real d ip bp).IsRigid := by rw [ea]; exact .dot rb.inverse (.dot rd ri)
    simp only [Function.comp]
    rw [← transform_dot ra, ea, ← dotProd_assoc, rb.mul_inverse, empty_dotProd, transform_dot ri, mi, md]
    rfl
  rw [key, ← mb]
  exact rb.map.region.symm

/-- The pretransformation of the parser (centering) can be built. -/
example (s : SPoly ℝ) : ∃ g, Built Trig.real (Transf.fromDt Trig.real s.centeringTransformation) g := ⟨_, .fromDt _⟩

end Jagua
