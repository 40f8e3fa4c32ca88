import Verif.Lemmas.Base
import Verif.Model.Camera
import Verif.Props.Rotation
import Mathlib.Tactic.NormNum
import Mathlib.Analysis.Real.Pi.Bounds

/-! C27, C28: pinhole cameras.  C29: fixtured camera.  C30: OpenCV.  C31: Pix4d.  C73: simulator. -/

namespace Verif.Camera
open Verif ImageUtils Matrix Rotation

/-! ### C27 -/

/-- Specification: coordinates of a world point in the camera frame. -/
noncomputable def camFrame (m : M3) (pos p : V3) : V3 := m *ᵥ (p - pos)

theorem camFrame_apply (m : M3) (pos p : V3) (i : Fin 3) :
    camFrame m pos p i = m i 0 * (p 0 - pos 0) + m i 1 * (p 1 - pos 1) + m i 2 * (p 2 - pos 2) := by
  simp [camFrame, Matrix.mulVec, dotProduct, Fin.sum_univ_three]

theorem imagePlane_eq (c : Pinhole) (p : V3) :
    c.imagePlane p = if camFrame c.m c.pos p 2 = 0 then none else
      some (-c.f * (camFrame c.m c.pos p 0 / camFrame c.m c.pos p 2),
            -c.f * (camFrame c.m c.pos p 1 / camFrame c.m c.pos p 2)) := by
  unfold Pinhole.imagePlane
  simp only [← camFrame_apply, fdiv]
  split <;> simp

theorem camFrame_line (m : M3) (pos p : V3) (t : ℝ) :
    camFrame m pos (pos + t • (p - pos)) = t • camFrame m pos p := by
  simp [camFrame, Matrix.mulVec_smul]

/-- C27: all points of a line through the camera centre (other than the centre) have the same image. -/
theorem C27_same_line (c : Pinhole) (p : V3) (t : ℝ) (ht : t ≠ 0) :
    c.imagePlane (c.pos + t • (p - c.pos)) = c.imagePlane p := by
  rw [imagePlane_eq, imagePlane_eq, camFrame_line]
  simp only [Pi.smul_apply, smul_eq_mul, mul_eq_zero, ht, false_or]
  split
  · rfl
  · simp only [mul_div_mul_left _ _ ht]

/-- C27, the image point is `-f * (X / Z, Y / Z)` of the camera coordinates, finite exactly when the
point is not in the plane of the lens. -/
theorem C27_collinearity (c : Pinhole) (p : V3) :
    (camFrame c.m c.pos p 2 = 0 → c.imagePlane p = none) ∧
    (camFrame c.m c.pos p 2 ≠ 0 → c.imagePlane p = some
      (-c.f * (camFrame c.m c.pos p 0 / camFrame c.m c.pos p 2),
       -c.f * (camFrame c.m c.pos p 1 / camFrame c.m c.pos p 2))) := by
  rw [imagePlane_eq]
  constructor <;> intro h <;> simp [h]

/-- C27: a camera made from coefficients with units stands at the given position in metres, has the given focal length in metres and a
rotation matrix of the given angles in radians as orientation, and describing it in other units (each coordinate, angle and the focal length
divided by the factor its unit is enlarged by) makes the same camera. -/
theorem C27_units (x y z omega phi kappa f ux uy uz uw up uk uf : ℝ) :
    (∃ c, initPinhole x y z omega phi kappa f ux uy uz uw up uk uf = c ∧ c.pos = ![x * ux, y * uy, z * uz] ∧ c.f = f * uf ∧
      c.m = createM (omega * uw) (phi * up) (kappa * uk) "rpy" ∧ IsRotation c.m) ∧
    ∀ a b c d e g h : ℝ, a ≠ 0 → b ≠ 0 → c ≠ 0 → d ≠ 0 → e ≠ 0 → g ≠ 0 → h ≠ 0 →
      initPinhole (x / a) (y / b) (z / c) (omega / d) (phi / e) (kappa / g) (f / h)
        (ux * a) (uy * b) (uz * c) (uw * d) (up * e) (uk * g) (uf * h) =
      initPinhole x y z omega phi kappa f ux uy uz uw up uk uf := by
  refine ⟨⟨_, rfl, rfl, rfl, rfl, C24_rotation _ _ _ "rpy" (by decide)⟩, ?_⟩
  intro a b c d e g h ha hb hc hd he hg hh
  have k : ∀ v u c : ℝ, c ≠ 0 → v / c * (u * c) = v * u := by intros; field_simp
  simp only [initPinhole, k _ _ a ha, k _ _ b hb, k _ _ c hc, k _ _ d hd, k _ _ e he, k _ _ g hg, k _ _ h hh]

/-- C27: two points at the same altitude, different from the camera's, with the same finite image are
the same point. -/
theorem C27_injective (x y z omega phi kappa f ux uy uz uw up uk uf : ℝ) (hf : f * uf ≠ 0)
    (p q : V3) (hz : p 2 = q 2) (hne : p 2 ≠ z * uz) (img : ℝ × ℝ)
    (hp : (initPinhole x y z omega phi kappa f ux uy uz uw up uk uf).imagePlane p = some img)
    (hq : (initPinhole x y z omega phi kappa f ux uy uz uw up uk uf).imagePlane q = some img) : p = q := by
  set c := initPinhole x y z omega phi kappa f ux uy uz uw up uk uf with hc
  have hm : IsRotation c.m := C24_rotation _ _ _ "rpy" (by decide)
  have hcz : c.pos 2 = z * uz := rfl
  rw [imagePlane_eq] at hp hq
  split at hp
  · simp at hp
  split at hq
  · simp at hq
  rename_i hp2 hq2
  simp only [Option.some.injEq] at hp hq
  rw [← hq] at hp
  simp only [Prod.mk.injEq] at hp
  have hfc : -c.f ≠ 0 := by rw [hc]; simpa [initPinhole] using hf
  have e0 := mul_left_cancel₀ hfc hp.1
  have e1 := mul_left_cancel₀ hfc hp.2
  rw [div_eq_div_iff hp2 hq2] at e0 e1
  set a := camFrame c.m c.pos p with ha
  set b := camFrame c.m c.pos q with hb
  -- b2 * a = a2 * b
  have hab : b 2 • a = a 2 • b := by
    ext i; fin_cases i
    · simp; linarith
    · simp; linarith
    · simp; ring
  have hback : ∀ v, c.mᵀ *ᵥ camFrame c.m c.pos v = v - c.pos := by
    intro v
    rw [camFrame, Matrix.mulVec_mulVec, hm.left, Matrix.one_mulVec]
  have hlin : b 2 • (p - c.pos) = a 2 • (q - c.pos) := by
    rw [← hback p, ← hback q, ← Matrix.mulVec_smul, ← Matrix.mulVec_smul, ← ha, ← hb, hab]
  have h2 := congrFun hlin 2
  simp only [Pi.smul_apply, Pi.sub_apply, smul_eq_mul, ← hz, hcz] at h2
  have hba : b 2 = a 2 := mul_right_cancel₀ (sub_ne_zero.mpr hne) h2
  rw [hba] at hlin
  have := smul_right_injective V3 hp2 hlin
  simpa using this

example : ∃ p q : V3, p 2 = q 2 ∧ p 2 ≠ (1000 : ℝ) * 1 ∧ p ≠ q := by
  refine ⟨![1, 2, 0], ![1, 3, 0], rfl, by simp, ?_⟩
  intro h
  have := congrFun h 1
  norm_num at this

/-! ### C28 -/

theorem pixel_eq (c : Fpa) (p : V3) (hx : c.pitchX ≠ 0) (hy : c.pitchY ≠ 0) :
    c.pixel p = (c.cam.imagePlane p).map (fun xy =>
      (((if c.flipX then -1 else 1) * xy.1) / c.pitchX + c.npixX / 2,
       ((if c.flipY then -1 else 1) * xy.2) / c.pitchY + c.npixY / 2)) := by
  unfold Fpa.pixel
  rcases c.cam.imagePlane p with _ | ⟨x, y⟩
  · rfl
  · simp only [Option.bind_eq_bind, Option.bind_some, fdiv, if_neg hx, if_neg hy, Option.map_some,
      Option.some.injEq, Prod.mk.injEq]
    constructor
    · rcases c.flipX <;> simp <;> field_simp
    · rcases c.flipY <;> simp <;> field_simp

/-- C28: a point on the optical axis (in front of or behind the lens) lands on the centre of the focal
plane array, whatever the flips. -/
theorem C28_optical_axis (c : Fpa) (hx : c.pitchX ≠ 0) (hy : c.pitchY ≠ 0) (p : V3)
    (h0 : camFrame c.cam.m c.cam.pos p 0 = 0) (h1 : camFrame c.cam.m c.cam.pos p 1 = 0)
    (h2 : camFrame c.cam.m c.cam.pos p 2 ≠ 0) :
    c.pixel p = some (c.npixX / 2, c.npixY / 2) := by
  rw [pixel_eq c p hx hy, imagePlane_eq, if_neg h2, h0, h1]
  simp

/-- C28: the x flip mirrors x about the array and leaves y alone. -/
theorem C28_flip_x (c : Fpa) (hx : c.pitchX ≠ 0) (hy : c.pitchY ≠ 0) (p : V3) :
    ({ c with flipX := !c.flipX } : Fpa).pixel p = (c.pixel p).map (fun xy => (c.npixX - xy.1, xy.2)) := by
  rw [pixel_eq c p hx hy, pixel_eq { c with flipX := !c.flipX } p hx hy]
  rcases c.cam.imagePlane p with _ | ⟨x, y⟩
  · rfl
  · simp only [Option.map_some, Option.some.injEq, Prod.mk.injEq, and_true]
    rcases c.flipX <;> simp <;> ring

/-- C28: the y flip mirrors y about the array and leaves x alone. -/
theorem C28_flip_y (c : Fpa) (hx : c.pitchX ≠ 0) (hy : c.pitchY ≠ 0) (p : V3) :
    ({ c with flipY := !c.flipY } : Fpa).pixel p = (c.pixel p).map (fun xy => (xy.1, c.npixY - xy.2)) := by
  rw [pixel_eq c p hx hy, pixel_eq { c with flipY := !c.flipY } p hx hy]
  rcases c.cam.imagePlane p with _ | ⟨x, y⟩
  · rfl
  · simp only [Option.map_some, Option.some.injEq, Prod.mk.injEq, true_and]
    rcases c.flipY <;> simp <;> ring

/-- C28: the pixel does not depend on the units: giving the pitches in a unit `a` times larger and the
focal length in a unit `b` times larger, with the numbers divided accordingly, changes nothing. -/
theorem C28_units (lon lat alt omega phi kappa : ℝ) (nx ny : Nat) (pitchX pitchY f ua uw up uk upx upy uf : ℝ)
    (fl fy : Bool) (a b : ℝ) (ha : a ≠ 0) (hb : b ≠ 0) (p : V3) :
    (initFpa lon lat alt omega phi kappa nx ny (pitchX / a) (pitchY / a) (f / b) ua uw up uk (upx * a) (upy * a)
      (uf * b) fl fy).pixel p =
    (initFpa lon lat alt omega phi kappa nx ny pitchX pitchY f ua uw up uk upx upy uf fl fy).pixel p := by
  have e : ∀ x u c : ℝ, c ≠ 0 → x / c * (u * c) = x * u := by intros; field_simp
  simp only [initFpa, initPinhole, e _ _ a ha, e _ _ b hb]

/-- C28: only the ratio of focal length to pitch matters: enlarging lens and detector together by any
factor changes no pixel. -/
theorem C28_scale (c : Fpa) (hx : c.pitchX ≠ 0) (hy : c.pitchY ≠ 0) (s : ℝ) (hs : s ≠ 0) (p : V3) :
    ({ c with cam := { c.cam with f := s * c.cam.f }, pitchX := s * c.pitchX, pitchY := s * c.pitchY } : Fpa).pixel p
      = c.pixel p := by
  rw [pixel_eq c p hx hy, pixel_eq _ p (by simp [hs, hx]) (by simp [hs, hy])]
  simp only [imagePlane_eq]
  by_cases h0 : camFrame c.cam.m c.cam.pos p 2 = 0
  · simp only [if_pos h0]; rfl
  · simp only [if_neg h0]
    have e : ∀ u v w : ℝ, u * (-(s * c.cam.f) * v) / (s * w) = u * (-c.cam.f * v) / w := by
      intro u v w
      rw [show u * (-(s * c.cam.f) * v) = s * (u * (-c.cam.f * v)) by ring, mul_div_mul_left _ _ hs]
    simp only [Option.map_some, e]

example : (⟨⟨0, 1, 1⟩, 2, 3, 10, 20, false, true⟩ : Fpa).pitchX ≠ 0 ∧
    camFrame (1 : M3) 0 ![0, 0, 5] 0 = 0 ∧ camFrame (1 : M3) 0 ![0, 0, 5] 2 ≠ 0 := by
  simp [camFrame]

/-! ### C29 -/

/-- Specification: what each setter call gives to the fixture position. -/
noncomputable def givesXyz : FixtureOp → Option V3
  | .setXyz x y z => some ![x, y, z]
  | _ => none
/-- Specification: what each setter call gives to the fixture orientation. -/
noncomputable def givesM : FixtureOp → Option M3
  | .setOrientation m => some m
  | .setOrientationRpy r p y ur up uy o => some (createM (r * ur) (p * up) (y * uy) o)
  | _ => none
/-- Specification: what each setter call gives to the lever arm (in metres). -/
noncomputable def givesRel : FixtureOp → Option V3
  | .setRelative x y z ux uy uz => some ![x * ux, y * uy, z * uz]
  | _ => none
/-- Specification: what each setter call gives to the boresight. -/
noncomputable def givesBoresight : FixtureOp → Option M3
  | .setBoresight m => some m
  | .setBoresightRpy r p y ur up uy o => some (createM (r * ur) (p * up) (y * uy) o)
  | _ => none

/-- The last value given by a history, if any. -/
noncomputable def lastGiven {α : Type} (g : FixtureOp → Option α) (ops : List FixtureOp) : Option α :=
  (ops.filterMap g).getLast?

theorem lastGiven_snoc {α : Type} (g : FixtureOp → Option α) (ops : List FixtureOp) (o : FixtureOp) :
    lastGiven g (ops ++ [o]) = (g o).or (lastGiven g ops) := by
  unfold lastGiven
  rw [List.filterMap_append]
  cases h : g o with
  | none => simp [h]
  | some v => simp [h]

/-- C29: after any history of setter calls the state is the last value given to each setter. -/
theorem C29_last_setting (ops : List FixtureOp) :
    (runFixture ops).xyz = lastGiven givesXyz ops ∧ (runFixture ops).m = lastGiven givesM ops ∧
    (runFixture ops).rel = lastGiven givesRel ops ∧ (runFixture ops).boresight = lastGiven givesBoresight ops := by
  induction ops using List.reverseRecOn with
  | nil => exact ⟨rfl, rfl, rfl, rfl⟩
  | append_singleton ops o ih =>
    obtain ⟨h1, h2, h3, h4⟩ := ih
    have hr : runFixture (ops ++ [o]) = (runFixture ops).step o := by simp [runFixture, List.foldl_append]
    rw [hr]
    simp only [lastGiven_snoc]
    cases o <;> simp [Fixture.step, givesXyz, givesM, givesRel, givesBoresight, h1, h2, h3, h4]

/-- C29: hence position and orientation depend only on the last settings: two histories with the same
last settings give the same pose. -/
theorem C29_pose_of_last (ops ops' : List FixtureOp)
    (h1 : lastGiven givesXyz ops = lastGiven givesXyz ops') (h2 : lastGiven givesM ops = lastGiven givesM ops')
    (h3 : lastGiven givesRel ops = lastGiven givesRel ops')
    (h4 : lastGiven givesBoresight ops = lastGiven givesBoresight ops') :
    (runFixture ops).absXyz = (runFixture ops').absXyz ∧ (runFixture ops).absM = (runFixture ops').absM := by
  obtain ⟨a1, a2, a3, a4⟩ := C29_last_setting ops
  obtain ⟨b1, b2, b3, b4⟩ := C29_last_setting ops'
  unfold Fixture.absXyz Fixture.absM
  rw [a1, a2, a3, a4, b1, b2, b3, b4, h1, h2, h3, h4]
  exact ⟨rfl, rfl⟩

/-- C29: once position, orientation (a rotation) and lever arm have been set, the camera is at the
lever-arm distance from the fixture and turning the offset back gives the lever arm. -/
theorem C29_rigid_position (ops : List FixtureOp) (xyz rel : V3) (m : M3)
    (h1 : lastGiven givesXyz ops = some xyz) (h2 : lastGiven givesM ops = some m)
    (h3 : lastGiven givesRel ops = some rel) (hm : IsRotation m) :
    ∃ p, (runFixture ops).absXyz = .ok p ∧ m *ᵥ (p - xyz) = rel ∧
      (p - xyz) ⬝ᵥ (p - xyz) = rel ⬝ᵥ rel := by
  obtain ⟨a1, a2, a3, -⟩ := C29_last_setting ops
  refine ⟨xyz + rel ᵥ* m, by simp [Fixture.absXyz, a1, a2, a3, h1, h2, h3], ?_, ?_⟩
  · rw [add_sub_cancel_left, ← Matrix.vecMul_transpose, Matrix.vecMul_vecMul, hm.1, Matrix.vecMul_one]
  · rw [add_sub_cancel_left, ← Matrix.dotProduct_mulVec, ← Matrix.vecMul_transpose, Matrix.vecMul_vecMul, hm.1,
      Matrix.vecMul_one]

/-- C29: the absolute orientation is boresight times fixture orientation, a rotation when both are. -/
theorem C29_rigid_orientation (ops : List FixtureOp) (b m : M3)
    (h1 : lastGiven givesBoresight ops = some b) (h2 : lastGiven givesM ops = some m) :
    (runFixture ops).absM = .ok (b * m) ∧ (IsRotation b → IsRotation m → IsRotation (b * m)) := by
  obtain ⟨-, a2, -, a4⟩ := C29_last_setting ops
  exact ⟨by simp [Fixture.absM, a2, a4, h1, h2], fun hb hm => hb.mul hm⟩

/-- C29: a query before the settings it needs is an error, never a default pose. -/
theorem C29_unset (ops : List FixtureOp) :
    (lastGiven givesM ops = none → (runFixture ops).absXyz = .error .typeError ∧
      (runFixture ops).absM = .error .typeError) ∧
    (lastGiven givesXyz ops = none → (runFixture ops).absXyz = .error .typeError) ∧
    (lastGiven givesRel ops = none → (runFixture ops).absXyz = .error .typeError) ∧
    (lastGiven givesBoresight ops = none → (runFixture ops).absM = .error .typeError) := by
  obtain ⟨a1, a2, a3, a4⟩ := C29_last_setting ops
  refine ⟨fun h => ?_, fun h => ?_, fun h => ?_, fun h => ?_⟩
  · rw [h] at a2
    constructor
    · unfold Fixture.absXyz; rw [a2]; split <;> simp_all
    · unfold Fixture.absM; rw [a2]; split <;> simp_all
  · rw [h] at a1; unfold Fixture.absXyz; rw [a1]; split <;> simp_all
  · rw [h] at a3; unfold Fixture.absXyz; rw [a3]
  · rw [h] at a4; unfold Fixture.absM; rw [a4]

example : lastGiven givesXyz [.setXyz 1 2 3, .setBoresight 1, .setXyz 4 5 6] = some ![4, 5, 6] := by
  simp [lastGiven, givesXyz, List.filterMap_cons]

/-! ### C30 -/

/-- C30: without distortion the OpenCV camera is a pinhole with the given intrinsics. -/
theorem C30_pinhole (fx fy cx cy : ℝ) (s : Fixture) (m : M3) (xyz : V3) (hm : s.absM = .ok m)
    (hx : s.absXyz = .ok xyz) (p : V3) (hz : camFrame m xyz p 2 ≠ 0) :
    (initOpenCV fx fy cx cy 0 0 0 0 0).pixel s p = .ok (some
      (cx + fx * (camFrame m xyz p 0 / camFrame m xyz p 2),
       cy - fy * (camFrame m xyz p 1 / camFrame m xyz p 2))) := by
  unfold OpenCV.pixel
  rw [hm, hx]
  simp only [ok_bind]
  unfold camFrame at hz ⊢
  simp only [fdiv, if_neg hz, Option.bind_eq_bind, Option.bind_some, initOpenCV, Except.ok.injEq,
    Option.some.injEq, Prod.mk.injEq]
  constructor <;> ring

/-- C30: with distortion, the pixel is the documented Brown model of the undistorted direction. -/
theorem C30_distorted (fx fy cx cy k1 k2 k3 p1 p2 : ℝ) (s : Fixture) (m : M3) (xyz : V3) (hm : s.absM = .ok m)
    (hx : s.absXyz = .ok xyz) (p : V3) (hz : camFrame m xyz p 2 ≠ 0) :
    let x := camFrame m xyz p 0 / camFrame m xyz p 2
    let y := camFrame m xyz p 1 / camFrame m xyz p 2
    let r2 := x ^ 2 + y ^ 2
    (initOpenCV fx fy cx cy k1 k2 k3 p1 p2).pixel s p = .ok (some
      (cx + fx * (x * (1 + k1 * r2 + k2 * r2 ^ 2 + k3 * r2 ^ 3) + 2 * p1 * x * y + p2 * (r2 + 2 * x ^ 2)),
       cy - fy * (y * (1 + k1 * r2 + k2 * r2 ^ 2 + k3 * r2 ^ 3) + p1 * (r2 + 2 * y ^ 2) + 2 * p2 * x * y))) := by
  intro x y r2
  unfold OpenCV.pixel
  rw [hm, hx]
  simp only [ok_bind]
  simp only [r2, x, y]
  unfold camFrame at hz ⊢
  simp only [fdiv, if_neg hz, Option.bind_eq_bind, Option.bind_some, initOpenCV, Except.ok.injEq,
    Option.some.injEq, Prod.mk.injEq]
  constructor <;> ring

/-- C30: points on the same line through the camera centre share a pixel, for every distortion. -/
theorem C30_same_ray (c : OpenCV) (s : Fixture) (xyz : V3) (hx : s.absXyz = .ok xyz) (p : V3) (t : ℝ) (ht : t ≠ 0) :
    c.pixel s (xyz + t • (p - xyz)) = c.pixel s p := by
  unfold OpenCV.pixel
  cases hm : s.absM with
  | error e => rfl
  | ok m =>
    rw [hx]
    simp only [ok_bind]
    have h := camFrame_line m xyz p t
    unfold camFrame at h
    rw [h]
    have hd : ∀ i, fdiv ((t • (m *ᵥ (p - xyz))) i) ((t • (m *ᵥ (p - xyz))) 2) =
        fdiv ((m *ᵥ (p - xyz)) i) ((m *ᵥ (p - xyz)) 2) := by
      intro i
      simp only [fdiv, Pi.smul_apply, smul_eq_mul, mul_eq_zero, ht, false_or, mul_div_mul_left _ _ ht]
    simp only [hd]

example : (runFixture [.setXyz 0 0 100, .setOrientation 1, .setRelative 0 0 0 1 1 1, .setBoresight 1]).absM = .ok 1 ∧
    camFrame (1 : M3) ![0, 0, 100] ![1, 1, 0] 2 ≠ 0 := by
  constructor
  · simp [runFixture, Fixture.step, Fixture.absM]
  · simp [camFrame]

/-! ### C31 -/

/-- Specification: the calibrated pixel of a point with camera coordinates `q`: principal point plus
focal length (both in pixels, from the millimetre values and the pixel density) times the distorted
direction. -/
noncomputable def calibratedPixel (d : PixParams) (k1 k2 k3 t1 t2 : ℝ) (q : V3) : ℝ × ℝ :=
  let density := d.nX / d.fpaWidthMm
  let x := q 0 / q 2
  let y := q 1 / q 2
  let r2 := x ^ 2 + y ^ 2
  let radial := 1 + k1 * r2 + k2 * r2 ^ 2 + k3 * r2 ^ 3
  (d.Px * density + d.F * density * (radial * x + 2 * t1 * x * y + t2 * (r2 + 2 * x ^ 2)),
   d.Py * density + d.F * density * (radial * y + 2 * t2 * x * y + t1 * (r2 + 2 * y ^ 2)))

/-- A well-formed parameter entry with the given calibration. -/
def Calibrated (d : PixParams) (x y z k1 k2 k3 t1 t2 : ℝ) : Prop :=
  d.external.take 3 = [x, y, z] ∧ d.radial = [k1, k2, k3] ∧ d.tangential = [t1, t2] ∧ d.fpaWidthMm ≠ 0

theorem init_ok (key : Str) (all : List (Str × PixParams)) (model : Option String) (d : PixParams)
    (hl : all.lookup (basename key) = some d) (x y z k1 k2 k3 t1 t2 : ℝ) (hd : Calibrated d x y z k1 k2 k3 t1 t2) :
    initPix4d key all model = .ok
      { r := d.r, trans := ![x, y, z], nX := d.nX, nY := d.nY, f := d.F * (d.nX / d.fpaWidthMm),
        ppx := d.Px * (d.nX / d.fpaWidthMm), ppy := d.Py * (d.nX / d.fpaWidthMm),
        t1 := t1, t2 := t2, k1 := k1, k2 := k2, k3 := k2, model := model, revX := true, revY := true } := by
  obtain ⟨h1, h2, h3, h4⟩ := hd
  obtain ⟨r, hr⟩ : ∃ r, d.external = x :: y :: z :: r := by
    rcases hde : d.external with _ | ⟨a, _ | ⟨b, _ | ⟨c, r⟩⟩⟩ <;> rw [hde] at h1 <;> simp at h1
    exact ⟨r, by rw [h1.1, h1.2.1, h1.2.2]⟩
  unfold initPix4d
  rw [hl]
  simp only [hr, h2, h3, sub]
  simp [ok_bind, h4]

/-- C31, exactly: whatever the third radial coefficient of the file, the pixel is the one calibrated with the second in its place. -/
theorem C31_exact_partial (key : Str) (all : List (Str × PixParams)) (d : PixParams)
    (hl : all.lookup (basename key) = some d) (x y z k1 k2 k3 t1 t2 : ℝ) (hd : Calibrated d x y z k1 k2 k3 t1 t2)
    (p : V3) (hz : (d.r *ᵥ (p - ![x, y, z])) 2 ≠ 0) :
    ∃ c, initPix4d key all (some "regular") = .ok c ∧
      c.pixel p = .ok (some (calibratedPixel d k1 k2 k2 t1 t2 (d.r *ᵥ (p - ![x, y, z])))) := by
  refine ⟨_, init_ok key all _ d hl x y z k1 k2 k3 t1 t2 hd, ?_⟩
  unfold Pix4d.pixel Pix4d.camCoords
  simp only [if_true, ok_bind, Pix4d.distorted, fdiv, if_neg hz, Option.bind_eq_bind, Option.bind_some,
    Option.map_some, Pix4d.pp]
  set q := d.r *ᵥ (p - ![x, y, z])
  have hr : 0 ≤ (q 0 / q 2) ^ 2 + (q 1 / q 2) ^ 2 := by positivity
  have e2 := Real.sq_sqrt hr
  have e4 : Real.sqrt ((q 0 / q 2) ^ 2 + (q 1 / q 2) ^ 2) ^ 4 = ((q 0 / q 2) ^ 2 + (q 1 / q 2) ^ 2) ^ 2 := by
    rw [show (4 : ℕ) = 2 * 2 by norm_num, pow_mul, e2]
  have e6 : Real.sqrt ((q 0 / q 2) ^ 2 + (q 1 / q 2) ^ 2) ^ 6 = ((q 0 / q 2) ^ 2 + (q 1 / q 2) ^ 2) ^ 3 := by
    rw [show (6 : ℕ) = 2 * 3 by norm_num, pow_mul, e2]
  rw [e2, e4, e6]
  simp only [calibratedPixel, Except.ok.injEq, Option.some.injEq, Prod.mk.injEq]
  constructor <;> ring

/-- C31 (partial: the third radial coefficient must equal the second, see `C31_radial3_false`): with
the distortion model, the pixel is the calibrated one. -/
theorem C31_regular_partial (key : Str) (all : List (Str × PixParams)) (d : PixParams)
    (hl : all.lookup (basename key) = some d) (x y z k1 k2 k3 t1 t2 : ℝ) (hd : Calibrated d x y z k1 k2 k3 t1 t2)
    (hk : k3 = k2) (p : V3) (hz : (d.r *ᵥ (p - ![x, y, z])) 2 ≠ 0) :
    ∃ c, initPix4d key all (some "regular") = .ok c ∧
      c.pixel p = .ok (some (calibratedPixel d k1 k2 k3 t1 t2 (d.r *ᵥ (p - ![x, y, z])))) := by
  subst hk
  exact C31_exact_partial key all d hl x y z k1 _ _ t1 t2 hd p hz

/-- C31: with distortion disabled the pixel is principal point plus focal length times direction. -/
theorem C31_no_distortion (key : Str) (all : List (Str × PixParams)) (d : PixParams)
    (hl : all.lookup (basename key) = some d) (x y z k1 k2 k3 t1 t2 : ℝ) (hd : Calibrated d x y z k1 k2 k3 t1 t2)
    (p : V3) (hz : (d.r *ᵥ (p - ![x, y, z])) 2 ≠ 0) :
    ∃ c, initPix4d key all none = .ok c ∧
      c.pixel p = .ok (some (calibratedPixel d 0 0 0 0 0 (d.r *ᵥ (p - ![x, y, z])))) := by
  refine ⟨_, init_ok key all _ d hl x y z k1 k2 k3 t1 t2 hd, ?_⟩
  unfold Pix4d.pixel Pix4d.camCoords
  simp only [ok_bind, Pix4d.undistorted, fdiv, if_neg hz, Option.bind_eq_bind, Option.bind_some,
    Option.map_some, Pix4d.pp, if_true, calibratedPixel, Except.ok.injEq, Option.some.injEq, Prod.mk.injEq]
  constructor <;> ring

/-- C31: zero coefficients in the file give the undistorted pixel too. -/
theorem C31_zero_coefficients (key : Str) (all : List (Str × PixParams)) (d : PixParams)
    (hl : all.lookup (basename key) = some d) (x y z : ℝ) (hd : Calibrated d x y z 0 0 0 0 0)
    (p : V3) (hz : (d.r *ᵥ (p - ![x, y, z])) 2 ≠ 0) :
    ∃ c, initPix4d key all (some "regular") = .ok c ∧
      c.pixel p = .ok (some (calibratedPixel d 0 0 0 0 0 (d.r *ᵥ (p - ![x, y, z])))) :=
  C31_regular_partial key all d hl x y z 0 0 0 0 0 hd rfl p hz

/-- C31 fails: a calibration file with three different radial coefficients is not used as given (the
third is replaced by the second) and the pixel is wrong. -/
theorem C31_radial3_false : ∃ (key : Str) (all : List (Str × PixParams)) (d : PixParams) (k1 k2 k3 : ℝ) (p : V3)
    (c : Pix4d) (uv : ℝ × ℝ), all.lookup (basename key) = some d ∧ Calibrated d 0 0 0 k1 k2 k3 0 0 ∧
      initPix4d key all (some "regular") = .ok c ∧ c.k3 ≠ k3 ∧ c.pixel p = .ok (some uv) ∧
      uv ≠ calibratedPixel d k1 k2 k3 0 0 (d.r *ᵥ (p - ![0, 0, 0])) := by
  let d : PixParams := ⟨1, [0, 0, 0], 1, 1, 1, 1, 0, 0, [0, 0], [0, 0, 1]⟩
  have hc : Calibrated d 0 0 0 0 0 1 0 0 := ⟨rfl, rfl, rfl, by norm_num [d]⟩
  have hl : [(['a'], d)].lookup (basename ['a']) = some d := by
    simp [basename, List.lookup]
  have hi := init_ok ['a'] [(['a'], d)] (some "regular") d hl 0 0 0 0 0 1 0 0 hc
  refine ⟨['a'], [(['a'], d)], d, 0, 0, 1, ![1, 0, 1], _, (1, 0), hl, hc, hi, by norm_num, ?_, ?_⟩
  · simp [Pix4d.pixel, Pix4d.camCoords, ok_bind, Pix4d.distorted, fdiv, Pix4d.pp, d]
  · simp [calibratedPixel, d]

/-- C31: the image may be named by its full path or its base name. -/
theorem C31_key (dir name : Str) (hn : '/' ∉ name) (all : List (Str × PixParams)) (model : Option String) :
    initPix4d (dir ++ ['/'] ++ name) all model = initPix4d name all model := by
  have h1 : ∀ n : Str, '/' ∉ n → ∀ pre : Str, (∀ c, pre.head? = some c → c = '/') →
      (n.reverse ++ pre).takeWhile (· ≠ '/') = n.reverse := by
    intro n hn pre hpre
    have hall : ∀ c ∈ n.reverse, (decide (c ≠ '/')) = true := by
      intro c hc
      simp only [List.mem_reverse] at hc
      simp only [decide_eq_true_eq]
      rintro rfl; exact hn hc
    rw [List.takeWhile_append_of_pos hall]
    cases pre with
    | nil => simp
    | cons a l =>
      have := hpre a rfl
      subst this
      simp
  have e1 : basename (dir ++ ['/'] ++ name) = name := by
    unfold basename
    rw [List.reverse_append, h1 name hn _ (by simp), List.reverse_reverse]
  have e2 : basename name = name := by
    unfold basename
    have := h1 name hn [] (by simp)
    rw [List.append_nil] at this
    rw [this, List.reverse_reverse]
  unfold initPix4d
  rw [e1, e2]

/-! ### C73 -/

/-- C73 (partial: platform angles must be in the boresight units, and boresight angles within 1e-8 of
zero are first moved by 1e-8): the simulated camera's orientation is boresight times platform. -/
theorem C73_orientation_partial (bR bP bY : ℝ) (order : String) (ho : order ∈ orders) (ub ue r p y : ℝ)
    (hg : |(createM (cleanAngle bR * ub) (cleanAngle bP * ub) (cleanAngle bY * ub) order *
      createM (r * ub) (p * ub) (y * ub) "rpy") 2 0| < 1) :
    simulatorM bR bP bY order ub ue r p y =
      .ok (createM (cleanAngle bR * ub) (cleanAngle bP * ub) (cleanAngle bY * ub) order *
        createM (r * ub) (p * ub) (y * ub) "rpy") := by
  have hm := (C24_rotation (cleanAngle bR * ub) (cleanAngle bP * ub) (cleanAngle bY * ub) order ho).mul
    (C24_rotation (r * ub) (p * ub) (y * ub) "rpy" (by decide))
  obtain ⟨w, q, k, h1, h2, -⟩ := C25_matrix_rebuilt _ hm hg
  have ha : (runFixture [.setBoresightRpy (cleanAngle bR) (cleanAngle bP) (cleanAngle bY) ub ub ub order,
      .setOrientationRpy r p y ub ub ub "rpy"]).absM = .ok (createM (cleanAngle bR * ub) (cleanAngle bP * ub)
      (cleanAngle bY * ub) order * createM (r * ub) (p * ub) (y * ub) "rpy") := by
    simp [runFixture, Fixture.step, Fixture.absM]
  unfold simulatorM
  simp only [ha, ok_bind, h1, initFpa, initPinhole, mul_one, h2]

/-- C73 (partial), boresight angles not within 1e-8 of zero are used as given. -/
theorem C73_orientation_given_partial (bR bP bY : ℝ) (hR : 1 / 10 ^ 8 < |bR|) (hP : 1 / 10 ^ 8 < |bP|)
    (hY : 1 / 10 ^ 8 < |bY|) (order : String) (ho : order ∈ orders) (u r p y : ℝ)
    (hg : |(createM (bR * u) (bP * u) (bY * u) order * createM (r * u) (p * u) (y * u) "rpy") 2 0| < 1) :
    simulatorM bR bP bY order u u r p y =
      .ok (createM (bR * u) (bP * u) (bY * u) order * createM (r * u) (p * u) (y * u) "rpy") := by
  have e : ∀ v : ℝ, 1 / 10 ^ 8 < |v| → cleanAngle v = v := by
    intro v hv
    rw [cleanAngle, if_neg]
    unfold isClose0
    exact not_le.mpr hv
  have := C73_orientation_partial bR bP bY order ho u u r p y (by rw [e bR hR, e bP hP, e bY hY]; exact hg)
  rwa [e bR hR, e bP hP, e bY hY] at this

theorem createM_full_turns : createM (2 * Real.pi) (2 * Real.pi) (2 * Real.pi) "rpy" = 1 := by
  simp only [createM, if_true, mRpy]
  ext i j
  fin_cases i <;> fin_cases j <;> simp

/-- C73 fails: the unit given for the external orientation is ignored.  With boresight angles in
degrees and platform angles in radians, a commanded yaw of π radians (a half turn) does not give
boresight times platform. -/
theorem C73_units_false : ∃ (bR bP bY ub ue r p y : ℝ) (m : M3),
    simulatorM bR bP bY "rpy" ub ue r p y = .ok m ∧
      m ≠ createM (bR * ub) (bP * ub) (bY * ub) "rpy" * createM (r * ue) (p * ue) (y * ue) "rpy" := by
  have hb : (1 : ℝ) / 10 ^ 8 < |360| := by norm_num
  have h360 : (360 : ℝ) * (Real.pi / 180) = 2 * Real.pi := by ring
  have hgim : |(createM (360 * (Real.pi / 180)) (360 * (Real.pi / 180)) (360 * (Real.pi / 180)) "rpy" *
      createM (0 * (Real.pi / 180)) (0 * (Real.pi / 180)) (Real.pi * (Real.pi / 180)) "rpy") 2 0| < 1 := by
    rw [h360, createM_full_turns, Matrix.one_mul]
    simp [createM, mRpy]
  have := C73_orientation_given_partial 360 360 360 hb hb hb "rpy" (by decide) (Real.pi / 180) 0 0 Real.pi hgim
  refine ⟨360, 360, 360, Real.pi / 180, 1, 0, 0, Real.pi, _, this, ?_⟩
  rw [h360, createM_full_turns, Matrix.one_mul, Matrix.one_mul]
  intro hc
  have h00 := congrFun (congrFun hc 0) 0
  simp [createM, mRpy] at h00
  have hpos : 0 < Real.cos (Real.pi * (Real.pi / 180)) := by
    apply Real.cos_pos_of_mem_Ioo
    have := Real.pi_pos
    have := Real.pi_lt_d2
    constructor
    · nlinarith
    · nlinarith
  linarith

example : ∃ bR : ℝ, 1 / 10 ^ 8 < |bR| ∧ ¬ isClose0 bR := ⟨1, by norm_num, by norm_num [isClose0]⟩

end Verif.Camera
