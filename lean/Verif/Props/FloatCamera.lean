import Verif.Props.FloatSolver
import Verif.Props.FloatAngles
import Verif.Props.ConvergenceCamera

/-! C181: pixels of the focal plane array camera in double precision, and the iterative conversion with that camera. -/

set_option linter.unusedSectionVars false

namespace Verif.FloatGeom
open Verif ImageUtils FloatSpectral

/-- One pixel coordinate: an image plane position that is off by `e` gives a pixel coordinate that is off by little more than `e / pitch`. -/
theorem fpaCoordR_err {r : ℝ → ℝ} (hr : Rounds r (1 / 2 ^ 52)) {n pitch x x' F : ℝ} (flip : Bool) (hn : 0 ≤ n) (hp : 0 < pitch) (hx : |x| ≤ 10 * F) (he : |x' - x| ≤ F / 10 ^ 12) :
    ∃ v, fpaCoordR r n pitch flip x' = some v ∧ |v - ((if flip then -1 else 1) * x / pitch + n / 2)| ≤ (2 * (F / pitch) + n) / 10 ^ 12 := by
  have hF : 0 ≤ F := by have := abs_nonneg x; linarith
  -- the flip
  have s1 : |(if flip then r (-1 * x') else x') - (if flip then -1 else 1) * x| ≤ F / 10 ^ 12 + 1 / 2 ^ 52 * (11 * F) := by
    have hx' : |x'| ≤ 11 * F := by
      have := abs_add_le (x' - x) x
      rw [sub_add_cancel] at this
      linarith
    cases flip with
    | false => simp only [Bool.false_eq_true, if_false, one_mul]; linarith
    | true =>
      simp only [if_true]
      have a1 := hr (-1 * x')
      have a2 : |-1 * x'| = |x'| := by rw [neg_one_mul, abs_neg]
      have a3 : r (-1 * x') - -1 * x = (r (-1 * x') - -1 * x') + (x - x') := by ring
      have a4 := abs_add_le (r (-1 * x') - -1 * x') (x - x')
      rw [abs_sub_comm x] at a4
      rw [a3]
      rw [a2] at a1
      linarith
  have s0 : |(if flip then -1 else 1) * x| ≤ 10 * F := by
    cases flip with
    | false => simpa using hx
    | true => simpa using hx
  generalize hs' : (if flip then r (-1 * x') else x') = s' at s1
  -- half of the array
  have h0 : 0 ≤ n * pitch := mul_nonneg hn hp.le
  have h1 : |r (r (n * pitch) / 2) - n * pitch / 2| ≤ 3 * (1 / 2 ^ 52) * (n * pitch / 2) := by
    have a1 := hr (n * pitch)
    rw [abs_of_nonneg h0] at a1
    have a2 := hr (r (n * pitch) / 2)
    have a3 := hr.abs_le (n * pitch)
    rw [abs_of_nonneg h0] at a3
    rw [abs_div, abs_two] at a2
    have a4 := abs_add_le (r (r (n * pitch) / 2) - r (n * pitch) / 2) ((r (n * pitch) - n * pitch) / 2)
    rw [abs_div, abs_two] at a4
    have a5 : r (r (n * pitch) / 2) - n * pitch / 2 = (r (r (n * pitch) / 2) - r (n * pitch) / 2) + (r (n * pitch) - n * pitch) / 2 := by ring
    rw [a5]
    generalize |r (n * pitch)| = z at a2 a3
    generalize |r (r (n * pitch) / 2) - r (n * pitch) / 2| = z1 at a2 a4
    generalize |r (n * pitch) - n * pitch| = z2 at a1 a4
    generalize n * pitch = y at *
    linarith
  generalize hs : (if flip then (-1 : ℝ) else 1) * x = s at s1 s0
  -- the sum
  have hw : |s + n * pitch / 2| ≤ 10 * F + n * pitch / 2 := by
    have := abs_add_le s (n * pitch / 2)
    rw [abs_of_nonneg (show 0 ≤ n * pitch / 2 by linarith)] at this
    linarith
  have w1 : |(s' + r (r (n * pitch) / 2)) - (s + n * pitch / 2)| ≤ F / 10 ^ 12 + 1 / 2 ^ 52 * (11 * F) + 3 * (1 / 2 ^ 52) * (n * pitch / 2) := by
    have e : (s' + r (r (n * pitch) / 2)) - (s + n * pitch / 2) = (s' - s) + (r (r (n * pitch) / 2) - n * pitch / 2) := by ring
    rw [e]
    exact (abs_add_le _ _).trans (add_le_add s1 h1)
  generalize hw' : s' + r (r (n * pitch) / 2) = w' at w1
  have w2 : |r w' - (s + n * pitch / 2)| ≤ F / 10 ^ 12 + 1 / 2 ^ 52 * (22 * F) + 5 * (1 / 2 ^ 52) * (n * pitch / 2) := by
    have a1 := hr w'
    have a2 := abs_add_le (w' - (s + n * pitch / 2)) (s + n * pitch / 2)
    have a3 := abs_add_le (r w' - w') (w' - (s + n * pitch / 2))
    rw [sub_add_cancel] at a2
    rw [sub_add_sub_cancel] at a3
    generalize |w' - (s + n * pitch / 2)| = z1 at *
    generalize |w'| = z2 at *
    generalize |s + n * pitch / 2| = z3 at *
    generalize |r w' - w'| = z4 at *
    generalize n * pitch = y at *
    linarith
  -- the division
  refine ⟨r (r w' / pitch), ?_, ?_⟩
  · unfold fpaCoordR divR fdiv
    rw [hs', hw', if_neg hp.ne']
    rfl
  · have a1 := hr (r w' / pitch)
    have e : r (r w' / pitch) - (s / pitch + n / 2) = (r (r w' / pitch) - r w' / pitch) + (r w' - (s + n * pitch / 2)) / pitch := by
      field_simp
      ring
    have a2 := abs_add_le (r w' - (s + n * pitch / 2)) (s + n * pitch / 2)
    rw [sub_add_cancel] at a2
    have a3 := abs_add_le (r (r w' / pitch) - r w' / pitch) ((r w' - (s + n * pitch / 2)) / pitch)
    rw [← e, abs_div, abs_of_pos hp] at a3
    rw [abs_div, abs_of_pos hp] at a1
    refine a3.trans ((add_le_add_left a1 _).trans ?_)
    have e2 : (2 * (F / pitch) + n) / 10 ^ 12 = (2 * F + n * pitch) / 10 ^ 12 / pitch := by field_simp
    rw [e2, ← mul_div_assoc, ← add_div]
    refine div_le_div_of_nonneg_right ?_ hp.le
    generalize |r w' - (s + n * pitch / 2)| = z1 at *
    generalize |r w'| = z2 at *
    generalize |s + n * pitch / 2| = z3 at *
    generalize n * pitch = y at *
    linarith

variable {L : Lib}

open Camera in
/-- C181 in double precision with a library good to the last bit: for every point that is not more than ten times as far away (summed along the axes) as it is deep, the float
pixel is within a few millionths of a millionth of the focal length in pixels and of the size of the array. -/
theorem C181_double (h : L.Good (1 / 2 ^ 52)) (t1 t2 : Fin 3 → Fin 3 → DotTree) (c : Fpa) (w ph k : ℝ) (hm : c.cam.m = Rotation.createM w ph k "rpy")
    (hpx : 0 < c.pitchX) (hpy : 0 < c.pitchY) (hnx : 0 ≤ c.npixX) (hny : 0 ≤ c.npixY) (p : Fin 3 → ℝ) (hZ : camFrame c.cam.m c.cam.pos p 2 ≠ 0)
    (hd : dist1 c.cam.pos p ≤ 10 * |camFrame c.cam.m c.cam.pos p 2|) :
    ∃ q q', c.pixel p = some q ∧ fpaPixelR L.r c (createMR L t1 t2 w ph k "rpy") p = some q' ∧
      |q'.1 - q.1| ≤ (2 * (|c.cam.f| / c.pitchX) + c.npixX) / 10 ^ 12 ∧ |q'.2 - q.2| ≤ (2 * (|c.cam.f| / c.pitchY) + c.npixY) / 10 ^ 12 := by
  have hu : (0 : ℝ) ≤ 1 / 2 ^ 52 := by positivity
  have small : ∀ i, |camFrame c.cam.m c.cam.pos p i| ≤ dist1 c.cam.pos p := by
    intro i
    have eM : Rotation.createM w ph k "rpy" = Rotation.mRpy w ph k := by simp [Rotation.createM]
    rw [camFrame_apply, hm, eM]
    exact (rowR_approx h.arith hu (fun j => mRpyR_approx h hu w ph k i j) c.cam.pos p).size
  have vec : camFrame c.cam.m c.cam.pos p = ![camFrame c.cam.m c.cam.pos p 0, camFrame c.cam.m c.cam.pos p 1, camFrame c.cam.m c.cam.pos p 2] := by
    funext i
    fin_cases i <;> rfl
  have e0 : (⟨c.cam.pos, c.cam.f, Rotation.createM w ph k "rpy"⟩ : Pinhole) = c.cam := by rw [← hm]
  obtain ⟨x, y, x', y', a, b, ex, ey⟩ := C171_double h t1 t2 c.cam.pos p c.cam.f w ph k _ _ _ (by rw [← hm]; exact vec) hZ hd
  rw [e0] at a
  have a' := a
  rw [imagePlane_eq, if_neg hZ] at a'
  have z0 : 0 < |camFrame c.cam.m c.cam.pos p 2| := abs_pos.mpr hZ
  have ten : ∀ i, |-c.cam.f * (camFrame c.cam.m c.cam.pos p i / camFrame c.cam.m c.cam.pos p 2)| ≤ 10 * |c.cam.f| := by
    intro i
    rw [abs_mul, abs_neg, abs_div, mul_comm 10]
    refine mul_le_mul_of_nonneg_left ?_ (abs_nonneg _)
    rw [div_le_iff₀ z0]
    exact (small i).trans hd
  simp only [Option.some.injEq, Prod.mk.injEq] at a'
  obtain ⟨vx, hvx, bx⟩ := fpaCoordR_err h.arith c.flipX hnx hpx (by rw [← a'.1]; exact ten 0) ex
  obtain ⟨vy, hvy, by'⟩ := fpaCoordR_err h.arith c.flipY hny hpy (by rw [← a'.2]; exact ten 1) ey
  refine ⟨((if c.flipX then -1 else 1) * x / c.pitchX + c.npixX / 2, (if c.flipY then -1 else 1) * y / c.pitchY + c.npixY / 2), (vx, vy), ?_, ?_, bx, by'⟩
  · rw [pixel_eq c _ hpx.ne' hpy.ne', a]
    rfl
  · unfold fpaPixelR
    rw [b]
    simp [hvx, hvy]

end Verif.FloatGeom

namespace Verif.PointCalc
open Verif ImageUtils FloatGeom FloatSpectral

section default
variable {K : Type} [Field K] [LinearOrder K] [IsStrictOrderedRing K]

theorem double_key {ε ρ m M L L'' η'' : K} (hε10 : ε ≤ 1 / 10 ^ 6) (hm0 : 0 < m) (hL0 : 0 ≤ L'') (hL6 : 6 * L'' ≤ m) (hM : M + L ≤ 4 * m) (hML : 0 < M + L)
    (hfar : (M + L) * ρ ≤ 10 ^ 6) (hφ : 1 / 10 ^ 4 ≤ m * ρ) (hη0 : 0 ≤ η'') (hη1 : η'' ≤ 22 / 10 ^ 7) :
    floorErr η'' m L'' ≤ ρ ∧ (1 + 1 / 2 ^ 52) * ((M + L) * errAfter η'' m L'' ρ 70 + 2 * (2 * ε)) ≤ 1 / 100 := by
  have hfloor : floorErr η'' m L'' ≤ 3 / 10 ^ 5 / m := by
    unfold floorErr
    rw [div_le_div_iff₀ (by linarith) hm0]
    have h1 := mul_le_mul_of_nonneg_right hη1 hm0.le
    linarith
  have hfloor0 : 0 ≤ floorErr η'' m L'' := div_nonneg (by linarith) (by linarith)
  have hq : 3 * L'' / (m - 2 * L'') ≤ 3 / 4 := by
    rw [div_le_div_iff₀ (by linarith) (by norm_num)]
    linarith
  have hq0 : 0 ≤ 3 * L'' / (m - 2 * L'') := div_nonneg (by linarith) (by linarith)
  have hφ' : floorErr η'' m L'' ≤ ρ := by
    refine hfloor.trans ?_
    rw [div_le_iff₀ hm0]
    linarith
  have key : (1 + 1 / 2 ^ 52) * ((M + L) * errAfter η'' m L'' ρ 70 + 2 * (2 * ε)) ≤ 1 / 100 := by
    unfold errAfter
    have h1 : (3 * L'' / (m - 2 * L'')) ^ 70 ≤ (3 / 4) ^ 70 := pow_le_pow_left₀ hq0 hq 70
    have h2 : (3 * L'' / (m - 2 * L'')) ^ 70 * (ρ - floorErr η'' m L'') ≤ (3 / 4) ^ 70 * ρ :=
      mul_le_mul h1 (by linarith) (by linarith) (by positivity)
    have h3 : (M + L) * floorErr η'' m L'' ≤ 12 / 10 ^ 5 := by
      have a1 := mul_le_mul_of_nonneg_left hfloor hML.le
      have a2 : (M + L) * (3 / 10 ^ 5 / m) ≤ 4 * m * (3 / 10 ^ 5 / m) := mul_le_mul_of_nonneg_right hM (div_nonneg (by norm_num) hm0.le)
      have a3 : 4 * m * (3 / 10 ^ 5 / m) = 12 / 10 ^ 5 := by field_simp; norm_num
      linarith
    have h4 : (M + L) * ((3 * L'' / (m - 2 * L'')) ^ 70 * (ρ - floorErr η'' m L'')) ≤ (3 / 4) ^ 70 * 10 ^ 6 := by
      have a1 := mul_le_mul_of_nonneg_left h2 hML.le
      have a2 := mul_le_mul_of_nonneg_left hfar (show (0 : K) ≤ (3 / 4) ^ 70 by positivity)
      have e : (M + L) * ((3 / 4) ^ 70 * ρ) = (3 / 4) ^ 70 * ((M + L) * ρ) := by ring
      linarith
    have h5 : ((3 / 4 : K)) ^ 70 * 10 ^ 6 ≤ 1 / 200 := by norm_num
    rw [mul_add (M + L)]
    have h6 := h4.trans h5
    generalize (M + L) * ((3 * L'' / (m - 2 * L'')) ^ 70 * (ρ - floorErr η'' m L'')) = z at h6
    generalize (M + L) * floorErr η'' m L'' = z' at h3
    linarith
  exact ⟨hφ', key⟩

/-- The numbers of `C180_default`: the enlarged bounds and what they satisfy. -/
theorem double_budget {ε ρ m M L H : K} (hε : 0 ≤ ε) (hε10 : ε ≤ 1 / 10 ^ 6) (hL0 : 0 ≤ L) (hm0 : 0 < m) (hm : 7 * L ≤ m) (hmM : m ≤ M)
    (hM : M + L ≤ 4 * m) (hM6 : 1 / 6 ≤ M + L) (hfar : (M + L) * ρ ≤ 10 ^ 6) (hφ : 1 / 10 ^ 4 ≤ m * ρ) (huH : 0 ≤ 1 / 2 ^ 52 * H)
    (hnoise : (M + L) * (1 / 2 ^ 52 * H) ≤ 23 / 10 ^ 8) (hmnoise : m * (1 / 2 ^ 52 * H) ≤ 23 / 10 ^ 8) :
    ∃ L' L'' η'' : K, L ≤ L' ∧ 6 * L' ≤ m ∧ 5 * L'' < m ∧ Budget (1 / 2 ^ 52) L L' L'' (2 * ε) η'' m M 130 H ∧ slopeErr (1 / 2 ^ 52) H (2 * ε) L M (1 / (3 * (M + L))) ≤ L' ∧
      slopeErr (1 / 2 ^ 52) H (2 * ε) L M 2 ≤ L' ∧ floorErr η'' m L'' ≤ ρ ∧
      (1 + 1 / 2 ^ 52) * ((M + L) * errAfter η'' m L'' ρ 70 + 2 * (2 * ε)) ≤ 1 / 100 := by
  have hu : (0 : K) ≤ 1 / 2 ^ 52 := by positivity
  have hML : 0 < M + L := by linarith
  have hnoise0 : 0 ≤ (M + L) * (1 / 2 ^ 52 * H) := mul_nonneg hML.le huH
  obtain ⟨L', hL'⟩ : ∃ L', L' = L + 3 / 10 ^ 5 * m := ⟨_, rfl⟩
  obtain ⟨L'', hL''⟩ : ∃ L'', L'' = L + 4 / 10 ^ 5 * m := ⟨_, rfl⟩
  obtain ⟨η'', hη''⟩ : ∃ η'', η'' = 2 * ε + 2 / 10 ^ 7 := ⟨_, rfl⟩
  have hL6 : 6 * L'' ≤ m := by rw [hL'']; linarith
  have hL6' : 6 * L' ≤ m := by rw [hL']; linarith
  have hm5 : 5 * L'' < m := by linarith
  have hμ : 2 / 3 * m ≤ m - 2 * L' := by linarith
  have hs : M + L' ≤ 25 / 6 * m := by linarith
  have hgrow : growth 130 (M + L') (m - 2 * L') ≤ 2 * 10 ^ 6 := by
    unfold growth
    have h1 : 18 * (1 + 130) * (M + L') / (m - 2 * L') ≤ 18 * 131 * (25 / 4) := by
      rw [div_le_iff₀ (by linarith)]
      linarith
    have h2 := mul_le_mul_of_nonneg_left (add_le_add_right h1 8) (show (0 : K) ≤ 1 + 130 by norm_num)
    refine h2.trans (by norm_num)
  have hgrow0 : 0 ≤ growth 130 (M + L') (m - 2 * L') := by
    unfold growth
    have h1 : 0 ≤ 18 * (1 + 130) * (M + L') / (m - 2 * L') := div_nonneg (by linarith) (by linarith)
    exact mul_nonneg (by norm_num) (by linarith)
  obtain ⟨G, hG⟩ : ∃ G : K, G = 1 / 2 ^ 52 * (2 * growth 130 (M + L') (m - 2 * L') + 1) := ⟨_, rfl⟩
  have hG1 : G ≤ 1 / 10 ^ 9 := by
    rw [hG]
    have := mul_le_mul_of_nonneg_left (show 2 * growth 130 (M + L') (m - 2 * L') + 1 ≤ 4 * 10 ^ 6 + 1 by linarith) hu
    refine this.trans (by norm_num)
  have hG0 : 0 ≤ G := by rw [hG]; exact mul_nonneg hu (by linarith)
  have hbud : Budget (1 / 2 ^ 52) L L' L'' (2 * ε) η'' m M 130 H := by
    refine ⟨?_, by rw [hL', hL'']; linarith, ?_, ?_⟩
    · have : 8 * (1 / 2 ^ 52) * (1 + 130) * (M + L') = 8 * 131 / 2 ^ 52 * (M + L') := by ring
      rw [this]
      have := mul_le_mul_of_nonneg_left hs (show (0 : K) ≤ 8 * 131 / 2 ^ 52 by positivity)
      refine this.trans ?_
      linarith
    · rw [← hG]
      have h1 := mul_le_mul hG1 hM hML.le (by norm_num)
      generalize G * (M + L) = z at h1
      rw [hL', hL'']
      linarith
    · rw [← hG]
      have h1 := mul_le_mul_of_nonneg_right hG1 (show 0 ≤ 2 * (2 * ε) by linarith)
      generalize G * (2 * (2 * ε)) = z at h1
      generalize m * (1 / 2 ^ 52 * H) = z' at hmnoise
      rw [hη'']
      linarith
  have hsl : slopeErr (1 / 2 ^ 52) H (2 * ε) L M (1 / (3 * (M + L))) ≤ L' := by
    unfold slopeErr
    have e : (1 + 1 / 2 ^ 52) * (2 * ε + (M + L) * (1 / 2 ^ 52 * H)) / (1 / (3 * (M + L))) = (1 + 1 / 2 ^ 52) * (2 * ε + (M + L) * (1 / 2 ^ 52 * H)) * 3 * (M + L) := by
      rw [div_div_eq_mul_div, div_one]; ring
    rw [e]
    have h1 : (1 + 1 / 2 ^ 52) * (2 * ε + (M + L) * (1 / 2 ^ 52 * H)) * 3 ≤ 7 / 10 ^ 6 := by
      generalize (M + L) * (1 / 2 ^ 52 * H) = z at hnoise
      linarith
    have h2 := mul_le_mul h1 hM hML.le (by norm_num)
    generalize (1 + 1 / 2 ^ 52) * (2 * ε + (M + L) * (1 / 2 ^ 52 * H)) * 3 * (M + L) = z at h2
    rw [hL']
    linarith
  have hN1 : 0 ≤ 2 * ε + (M + L) * (1 / 2 ^ 52 * H) := by linarith
  have hsl2 : slopeErr (1 / 2 ^ 52) H (2 * ε) L M 2 ≤ L' := by
    refine (slopeErr_anti hu hN1 (by positivity) ?_).trans hsl
    rw [div_le_iff₀ (by linarith)]
    linarith
  have hη0 : 0 ≤ η'' := by rw [hη'']; linarith
  have hη1 : η'' ≤ 22 / 10 ^ 7 := by rw [hη'']; linarith
  obtain ⟨hφ', key⟩ := double_key (M := M) (L := L) hε10 hm0 (show 0 ≤ L'' by rw [hL'']; linarith) hL6 hM hML hfar hφ hη0 hη1
  exact ⟨L', L'', η'', by rw [hL']; linarith, hL6', hm5, hbud, hsl, hsl2, hφ', key⟩

/-- C180 in double precision with the default settings (threshold 0.01 pixel, at most 1000 iterations), for a sensor `f'` that computes a sensor `f` to a millionth of a pixel:
when `f` is close to an affine one over the region, its slopes changing by less than a seventh of the resolution, the first guess is at most a million pixels off and the
coordinates are at most a thousand million pixels, the answers reproject within 0.0101 pixel and are within a fiftieth of a pixel of the ground positions. -/
theorem C180_default_close {r : K → K} (hr : Rounds r (1 / 2 ^ 52)) (f f' : K → K → K → Option (K × K)) (S : Affine K) {ε ρ Δ R m M L H : K} (centre : K × K) (hε : 0 ≤ ε)
    (hε10 : ε ≤ 1 / 10 ^ 6) (hρ : 0 ≤ ρ) (hR : R = 2 * ρ + Δ + 1) (hL0 : 0 ≤ L) (hm0 : 0 < m) (hm : 7 * L ≤ m)
    (hM : M + L ≤ 4 * m) (hM6 : 1 / 6 ≤ M + L) (hfar : (M + L) * ρ ≤ 10 ^ 6) (hbig : (M + L) * H ≤ 10 ^ 9) (hH : H ≤ 10 ^ 14)
    (hφ : 1 / 10 ^ 4 ≤ m * ρ) (hΔ2 : 2 ≤ Δ) (hΔ : 3 ≤ (m - L) * Δ) (hc1 : |centre.1| + 2 * ρ + Δ ≤ H) (hc2 : |centre.2| + 2 * ρ + Δ ≤ H) (alts : K → Prop)
    (hB : ∀ alt, alts alt → CloseTo f S alt (fun p => apart p centre ≤ R) L 0) (hS : ∀ alt, alts alt → Resolves S alt m M ∧ m ≤ 5 * |S.a alt|)
    (hf : ∀ alt, alts alt → Computes f' f ε (fun p => apart p centre ≤ R) alt) (ts : List (Target K)) (hts : ts ≠ []) (gs : List (K × K))
    (hsee : List.Forall₂ (fun t g => alts t.alt ∧ apart centre g ≤ ρ ∧ f g.1 g.2 t.alt = some (t.x, t.y)) ts gs) (meanAlt : K) (hmean : alts meanAlt)
    (eps : K) (n : Nat) (he : 0 < eps ∧ eps ≤ 1 ∧ Δ ≤ eps * 2 ^ n) :
    ∃ es, solverR r f' centre eps n meanAlt (1 / 100) 1000 ts = .ok es ∧ List.Forall₂ (Reprojects f' (101 / 10000)) ts es ∧
      List.Forall₂ (Found (1 / 50 / m)) gs es := by
  have res := (hS meanAlt hmean).1
  have hM0 : 0 ≤ M := le_trans (by positivity) res.most1
  have hmM : m ≤ M := by
    have h1 := res.least 1 0
    simp only [abs_one, abs_zero, mul_one, mul_zero, add_zero] at h1
    rw [max_eq_left zero_le_one, mul_one] at h1
    refine h1.trans (max_le ?_ ?_)
    · have := res.most1; have := abs_nonneg (S.b meanAlt); linarith
    · have := res.most2; have := abs_nonneg (S.e meanAlt); linarith
  have hH0 : 0 ≤ H := by have := abs_nonneg centre.1; linarith
  have hu : (0 : K) ≤ 1 / 2 ^ 52 := by positivity
  have huH : 0 ≤ 1 / 2 ^ 52 * H := mul_nonneg hu hH0
  have huH1 : 1 / 2 ^ 52 * H ≤ 1 / 40 := by linarith
  have hML : 0 < M + L := by linarith
  have hnoise : (M + L) * (1 / 2 ^ 52 * H) ≤ 23 / 10 ^ 8 := by
    have e : (M + L) * (1 / 2 ^ 52 * H) = 1 / 2 ^ 52 * ((M + L) * H) := by ring
    rw [e]
    have := mul_le_mul_of_nonneg_left hbig hu
    refine this.trans (by norm_num)
  have hnoise0 : 0 ≤ (M + L) * (1 / 2 ^ 52 * H) := mul_nonneg hML.le huH
  have hmnoise : m * (1 / 2 ^ 52 * H) ≤ 23 / 10 ^ 8 := (mul_le_mul_of_nonneg_right (by linarith) huH).trans hnoise
  obtain ⟨L', L'', η'', hLL', hL6', hm5, hbud, hsl, hsl2, hφ', key⟩ := double_budget hε hε10 hL0 hm0 hm hmM hM hM6 hfar hφ huH hnoise hmnoise
  -- the requests
  have close : ∀ alt, alts alt → CloseTo f' S alt (fun p => apart p centre ≤ R) L (2 * ε) := by
    intro alt h
    have := (hB alt h).noise (hf alt h)
    rw [zero_add] at this
    exact this
  have hpiv : ∀ a : K, m ≤ 5 * |a| → L' < |a| ∧ M + L' ≤ 130 * (|a| - L') := by
    intro a ha
    constructor <;> linarith
  have hreq : List.Forall₂ (RequestR f' S (1 / 2 ^ 52) L L' (2 * ε) m M 130 H ρ Δ) ts gs := by
    refine hsee.imp ?_
    rintro t g ⟨h1, h2, h3⟩
    have hx : ∀ x y : K, |x - y| ≤ ρ → |x| + 2 * ρ + Δ ≤ H → |y| + ρ + Δ ≤ H := by
      intro x y hxy hx
      have := abs_sub x (x - y)
      rw [sub_sub_cancel] at this
      linarith
    refine ⟨⟨(close t.alt h1).subset ?_, (hS _ h1).1, (hpiv _ (hS _ h1).2).1, ?_⟩, (hpiv _ (hS _ h1).2).2, hx _ _ ((le_max_left _ _).trans h2) hc1, hx _ _ ((le_max_right _ _).trans h2) hc2⟩
    · intro p hp
      have := apart_tri p g centre
      rw [apart_symm g] at this
      rw [hR]
      linarith
    · obtain ⟨A, A', e, e', x, y⟩ := hf t.alt h1 g (show apart g centre ≤ R by rw [apart_symm, hR]; linarith)
      rw [h3] at e
      cases e
      refine ⟨A', e', ?_, ?_⟩
      · rw [abs_sub_comm]; linarith
      · rw [abs_sub_comm]; linarith
  have hc : ∀ g ∈ gs, apart centre g ≤ ρ := by
    clear hreq hts
    induction hsee with
    | nil => intro g h; cases h
    | cons h _ ih =>
      intro g hg
      rcases List.mem_cons.mp hg with rfl | hg
      · exact h.2.1
      · exact ih g hg
  have hmn : (m - L) * (1 / 2 ^ 52 * H) ≤ 23 / 10 ^ 8 := (mul_le_mul_of_nonneg_right (by linarith) huH).trans hmnoise
  obtain ⟨es, h1, h2, h3⟩ := C180_converges (f := f') (S := S) (L := L) (L' := L') (L'' := L'') (η := 2 * ε) (η'' := η'') (m := m) (M := M) (ρ := ρ) (Δ := Δ) (κ := 130) (H := H)
    hr hu (by norm_num) (by linarith) (by linarith) hL0 hLL' hm5 hbud hsl hsl2 hρ hφ' (9 / 10 * Δ) hΔ2
    (by generalize 1 / 2 ^ 52 * H = z at huH1; linarith) (by generalize (m - L) * (1 / 2 ^ 52 * H) = z at hmn; linarith) ts hts gs hreq centre hc (by linarith) (by linarith)
    meanAlt ((close meanAlt hmean).subset (fun p hp => by rw [hR]; linarith)) res eps n ⟨he.1, by linarith, by linarith⟩ (1 / 100) 70 1000 (by omega) key
  have hthr : (1 / 100 : K) / (1 - 1 / 2 ^ 52) ≤ 101 / 10000 := by norm_num
  refine ⟨es, h1, h2.imp ?_, h3.imp ?_⟩
  · rintro t e ⟨lon, lat, x, y, h1, h2, h3, h4⟩
    exact ⟨lon, lat, x, y, h1, h2, h3.trans hthr, h4.trans hthr⟩
  · intro g e h
    refine h.mono ?_
    rw [div_le_div_iff₀ (by linarith) hm0]
    have := mul_le_mul_of_nonneg_right (show 1 / 100 / (1 - 1 / 2 ^ 52) + 2 * (2 * ε) ≤ 102 / 10000 by linarith) hm0.le
    linarith

/-- `C180_default_close` for a sensor `f'` that computes a frame camera to a millionth of a pixel:
when the slopes change by less than a seventh of the resolution over the region, the first guess is at most a million pixels off and the coordinates are at most a thousand
million pixels, the answers reproject within 0.0101 pixel and are within a fiftieth of a pixel of the ground positions. -/
theorem C180_default {r : K → K} (hr : Rounds r (1 / 2 ^ 52)) (P : Projective K) (f' : K → K → K → Option (K × K)) {ε ρ Δ R N ν d Q m M L H : K} (centre : K × K) (hε : 0 ≤ ε)
    (hε10 : ε ≤ 1 / 10 ^ 6) (hρ : 0 ≤ ρ) (hR : R = 2 * ρ + Δ + 1) (hLd : L = 2 * ν * R * (N + Q * ν) / d ^ 2) (hm0 : 0 < m) (hm : 7 * L ≤ m)
    (hM : M + L ≤ 4 * m) (hM6 : 1 / 6 ≤ M + L) (hfar : (M + L) * ρ ≤ 10 ^ 6) (hbig : (M + L) * H ≤ 10 ^ 9) (hH : H ≤ 10 ^ 14)
    (hφ : 1 / 10 ^ 4 ≤ m * ρ) (hΔ2 : 2 ≤ Δ) (hΔ : 3 ≤ (m - L) * Δ) (hc1 : |centre.1| + 2 * ρ + Δ ≤ H) (hc2 : |centre.2| + 2 * ρ + Δ ≤ H) (alts : K → Prop)
    (hB : ∀ alt, alts alt → P.Bounded centre R N ν d Q alt) (hS : ∀ alt, alts alt → Resolves (P.tangent centre) alt m M ∧ m ≤ 5 * |(P.tangent centre).a alt|)
    (hf : ∀ alt, alts alt → Computes f' P.map ε (fun p => apart p centre ≤ R) alt) (ts : List (Target K)) (hts : ts ≠ []) (gs : List (K × K))
    (hsee : List.Forall₂ (fun t g => alts t.alt ∧ apart centre g ≤ ρ ∧ P.map g.1 g.2 t.alt = some (t.x, t.y)) ts gs) (meanAlt : K) (hmean : alts meanAlt)
    (eps : K) (n : Nat) (he : 0 < eps ∧ eps ≤ 1 ∧ Δ ≤ eps * 2 ^ n) :
    ∃ es, solverR r f' centre eps n meanAlt (1 / 100) 1000 ts = .ok es ∧ List.Forall₂ (Reprojects f' (101 / 10000)) ts es ∧
      List.Forall₂ (Found (1 / 50 / m)) gs es := by
  have b := hB meanAlt hmean
  have hν0 : 0 ≤ ν := le_trans (by positivity) b.flat
  have hN0 : 0 ≤ N := le_trans (by positivity) b.numX
  have hQ0 : 0 ≤ Q := (abs_nonneg _).trans b.offX
  have hR0 : 0 ≤ R := by rw [hR]; linarith
  have hL0 : 0 ≤ L := by rw [hLd]; positivity
  refine C180_default_close hr P.map f' (P.tangent centre) centre hε hε10 hρ hR hL0 hm0 hm hM hM6 hfar hbig hH hφ hΔ2 hΔ hc1 hc2 alts ?_ hS hf ts hts gs hsee meanAlt hmean eps n he
  intro alt h
  have := projective_close P centre hR0 (hB alt h)
  rw [← hLd] at this
  exact this

end default

end Verif.PointCalc

namespace Verif.PointCalc
open Verif ImageUtils FloatGeom FloatSpectral Camera

/-- The focal plane array camera as computed in float arithmetic. -/
noncomputable def fpaMapR (L : Lib) (t1 t2 : Fin 3 → Fin 3 → DotTree) (c : Fpa) (w ph k : ℝ) (lon lat alt : ℝ) : Option (ℝ × ℝ) :=
  fpaPixelR L.r c (createMR L t1 t2 w ph k "rpy") ![lon, lat, alt]

/-- C181: the iterative conversion with a focal plane array camera, everything in double precision with a library good to the last bit, default settings: the camera is the one
of `C173_fpa`, its focal length and array at most a few hundred thousand pixels. -/
theorem C181_solver {L : Lib} (h : L.Good (1 / 2 ^ 52)) (t1 t2 : Fin 3 → Fin 3 → DotTree) (c : Fpa) (w ph k : ℝ) (hcm : c.cam.m = Rotation.createM w ph k "rpy")
    (hpx : 0 < c.pitchX) (hpy : 0 < c.pitchY) (hnx : 0 ≤ c.npixX) (hny : 0 ≤ c.npixY)
    (hsx : 2 * (|c.cam.f| / c.pitchX) + c.npixX ≤ 10 ^ 6) (hsy : 2 * (|c.cam.f| / c.pitchY) + c.npixY ≤ 10 ^ 6)
    {ρ Δ R N ν d Q m M S H : ℝ} (centre : ℝ × ℝ) (hρ : 0 ≤ ρ) (hR : R = 2 * ρ + Δ + 1) (hLd : S = 2 * ν * R * (N + Q * ν) / d ^ 2) (hm0 : 0 < m) (hm : 7 * S ≤ m)
    (hM : M + S ≤ 4 * m) (hM6 : 1 / 6 ≤ M + S) (hfar : (M + S) * ρ ≤ 10 ^ 6) (hbig : (M + S) * H ≤ 10 ^ 9) (hH : H ≤ 10 ^ 14)
    (hφ : 1 / 10 ^ 4 ≤ m * ρ) (hΔ2 : 2 ≤ Δ) (hΔ : 3 ≤ (m - S) * Δ) (hc1 : |centre.1| + 2 * ρ + Δ ≤ H) (hc2 : |centre.2| + 2 * ρ + Δ ≤ H) (alts : ℝ → Prop)
    (hB : ∀ alt, alts alt → (fpaProjective c).Bounded centre R N ν d Q alt)
    (hS : ∀ alt, alts alt → Resolves ((fpaProjective c).tangent centre) alt m M ∧ m ≤ 5 * |((fpaProjective c).tangent centre).a alt|)
    (hd : ∀ alt p, alts alt → apart p centre ≤ R → dist1 c.cam.pos ![p.1, p.2, alt] ≤ 10 * |camFrame c.cam.m c.cam.pos ![p.1, p.2, alt] 2|)
    (ts : List (Target ℝ)) (hts : ts ≠ []) (gs : List (ℝ × ℝ))
    (hsee : List.Forall₂ (fun t g => alts t.alt ∧ apart centre g ≤ ρ ∧ c.pixel ![g.1, g.2, t.alt] = some (t.x, t.y)) ts gs) (meanAlt : ℝ) (hmean : alts meanAlt)
    (eps : ℝ) (n : Nat) (he : 0 < eps ∧ eps ≤ 1 ∧ Δ ≤ eps * 2 ^ n) :
    ∃ es, solverR L.r (fpaMapR L t1 t2 c w ph k) centre eps n meanAlt (1 / 100) 1000 ts = .ok es ∧
      List.Forall₂ (Reprojects (fpaMapR L t1 t2 c w ph k) (101 / 10000)) ts es ∧ List.Forall₂ (Found (1 / 50 / m)) gs es := by
  have hmap := C173_fpa c hpx.ne' hpy.ne'
  refine C180_default h.arith (fpaProjective c) (fpaMapR L t1 t2 c w ph k) (ε := 1 / 10 ^ 6) centre (by norm_num) le_rfl hρ hR hLd hm0 hm hM hM6 hfar hbig hH hφ hΔ2 hΔ hc1 hc2
    alts hB hS ?_ ts hts gs ?_ meanAlt hmean eps n he
  · intro alt ha p hp
    have hw : affineAt ((fpaProjective c).w alt) p = camFrame c.cam.m c.cam.pos ![p.1, p.2, alt] 2 := by
      rw [camFrame_apply]
      simp only [fpaProjective, affineAt, Matrix.cons_val_zero, Matrix.cons_val_one, Matrix.cons_val]
      ring
    have hz : camFrame c.cam.m c.cam.pos ![p.1, p.2, alt] 2 ≠ 0 := by
      intro e
      have := (hB alt ha).depth p hp
      rw [hw, e, abs_zero] at this
      linarith [(hB alt ha).pos]
    obtain ⟨q, q', h1, h2, h3, h4⟩ := C181_double h t1 t2 c w ph k hcm hpx hpy hnx hny ![p.1, p.2, alt] hz (hd alt p ha hp)
    refine ⟨q, q', ?_, h2, h3.trans ?_, h4.trans ?_⟩
    · rw [← hmap]; exact h1
    · rw [div_le_iff₀ (by norm_num)]; linarith
    · rw [div_le_iff₀ (by norm_num)]; linarith
  · refine hsee.imp ?_
    rintro t g ⟨h1, h2, h3⟩
    exact ⟨h1, h2, by rw [← hmap]; exact h3⟩

/-- Beside `C181_solver`: a camera 1000 m above the ground looking down, 50 mm lens, 5 micron pixels, 1000 x 1000 of them, rows counted downwards; two pixels. -/
example : ∃ (es : List (Option (ℝ × ℝ))) (c : Fpa), c = ⟨⟨![0, 0, 1000], 1 / 20, Rotation.createM 0 0 0 "rpy"⟩, 1 / 200000, 1 / 200000, 1000, 1000, false, true⟩ ∧
    solverR lib64.r (fpaMapR lib64 (fun _ _ => .mul 0) (fun _ _ => .mul 0) c 0 0 0) (0, 0) (1 / 2 ^ 52) 1074 0 (1 / 100) 1000 [⟨0, 800, 1100⟩, ⟨0, 500, 250⟩] = .ok es ∧
    List.Forall₂ (Found (1 / 500)) [(30, -60), (0, 25)] es := by
  have g : lib64.Good (1 / 2 ^ 52) := by
    have g := lib64_good
    have w : ∀ x : ℝ, (1 / 2 ^ 53 : ℝ) * |x| ≤ 1 / 2 ^ 52 * |x| := fun x => mul_le_mul_of_nonneg_right (by norm_num) (abs_nonneg x)
    exact ⟨fun x => (g.arith x).trans (w _), fun x => (g.sin x).trans (w _), fun x => (g.cos x).trans (w _), fun x a b => (g.arcsin x a b).trans (w _),
      fun x a b => (g.arccos x a b).trans (w _)⟩
  have e1 : Rotation.createM 0 0 0 "rpy" = 1 := by
    simp only [Rotation.createM, if_true]
    ext i j
    fin_cases i <;> fin_cases j <;> simp [Rotation.mRpy]
  let c : Fpa := ⟨⟨![0, 0, 1000], 1 / 20, Rotation.createM 0 0 0 "rpy"⟩, 1 / 200000, 1 / 200000, 1000, 1000, false, true⟩
  have hcm : c.cam.m = 1 := e1
  have hn : ∀ alt, (fpaProjective c).n alt = (-10000, 0, 0) ∧ (fpaProjective c).k alt = (0, 10000, 0) ∧ (fpaProjective c).w alt = (0, 0, alt - 1000) := by
    intro alt
    have z : ∀ i j : Fin 3, i ≠ j → (1 : Rotation.M3) i j = 0 := fun i j h => Matrix.one_apply_ne h
    have o : ∀ i : Fin 3, (1 : Rotation.M3) i i = 1 := fun i => Matrix.one_apply_eq i
    simp only [fpaProjective, hcm, z 0 1 (by decide), z 0 2 (by decide), z 1 0 (by decide), z 1 2 (by decide), z 2 0 (by decide), z 2 1 (by decide), o]
    have e2 : c.cam.pos 2 = 1000 := rfl
    have e0 : c.cam.pos 0 = 0 := rfl
    have e1 : c.cam.pos 1 = 0 := rfl
    rw [e0, e1, e2]
    refine ⟨?_, ?_, ?_⟩ <;> norm_num [c]
  have hB : ∀ alt, alt = 0 → (fpaProjective c).Bounded (0, 0) 204 10000 0 1000 0 alt := by
    rintro alt rfl
    obtain ⟨h1, h2, h3⟩ := hn 0
    refine ⟨by norm_num, ?_, ?_, ?_, ?_, ?_, ?_⟩
    · intro p _
      rw [h3]
      norm_num [affineAt]
    · rw [h3]; norm_num
    · rw [h1]; norm_num
    · rw [h2]; norm_num
    · rw [h1]; norm_num [affineAt]
    · rw [h2]; norm_num [affineAt]
  have hT : ((fpaProjective c).tangent (0, 0)).a 0 = 10 ∧ ((fpaProjective c).tangent (0, 0)).b 0 = 0 ∧ ((fpaProjective c).tangent (0, 0)).d 0 = 0 ∧
      ((fpaProjective c).tangent (0, 0)).e 0 = -10 := by
    obtain ⟨h1, h2, h3⟩ := hn 0
    simp only [Projective.tangent, h1, h2, h3, slopes]
    refine ⟨?_, ?_, ?_, ?_⟩ <;> norm_num [affineAt]
  have hpix : ∀ x y : ℝ, c.pixel ![x, y, 0] = some (10 * x + 500, -10 * y + 500) := by
    intro x y
    have := C173_fpa c (by norm_num [c]) (by norm_num [c]) x y 0
    unfold fpaMap at this
    rw [this]
    obtain ⟨h1, h2, h3⟩ := hn 0
    unfold Projective.map
    rw [h1, h2, h3, if_neg (by norm_num [affineAt])]
    simp only [affineAt, fpaProjective, c, Option.some.injEq, Prod.mk.injEq]
    constructor <;> ring
  have hbig : (3 : ℝ) ≤ 1 / 2 ^ 52 * 2 ^ 1074 := by
    have h : (1 : ℝ) ≤ 2 ^ 1020 := one_le_pow₀ (by norm_num)
    rw [show 1074 = 54 + 1020 by norm_num, pow_add, ← mul_assoc]
    generalize (2 : ℝ) ^ 1020 = z at h
    norm_num
    linarith
  obtain ⟨es, h1, -, h3⟩ := C181_solver g (fun _ _ => .mul 0) (fun _ _ => .mul 0) c 0 0 0 rfl (by norm_num [c]) (by norm_num [c]) (by norm_num [c]) (by norm_num [c])
    (by norm_num [c, abs_of_pos]) (by norm_num [c, abs_of_pos]) (ρ := 100) (Δ := 3) (R := 204) (N := 10000) (ν := 0) (d := 1000) (Q := 0) (m := 10) (M := 10) (S := 0) (H := 1000)
    (0, 0) (by norm_num) (by norm_num) (by norm_num) (by norm_num) (by norm_num) (by norm_num) (by norm_num) (by norm_num) (by norm_num) (by norm_num) (by norm_num) (by norm_num) (by norm_num)
    (by norm_num) (by norm_num) (fun alt => alt = 0) hB (by
      rintro alt rfl
      obtain ⟨a, b, d, e⟩ := hT
      refine ⟨⟨?_, ?_, ?_⟩, ?_⟩
      · intro u v
        rw [a, b, d, e]
        simp only [zero_mul, add_zero, zero_add, abs_mul, abs_neg]
        rw [abs_of_pos (show (0 : ℝ) < 10 by norm_num), mul_max_of_nonneg _ _ (by norm_num)]
      · rw [a, b]; norm_num
      · rw [d, e]; norm_num
      · rw [a]; norm_num)
    (by
      rintro alt p rfl hp
      have a1 : |p.1 - 0| ≤ 204 := (le_max_left _ _).trans hp
      have a2 : |p.2 - 0| ≤ 204 := (le_max_right _ _).trans hp
      rw [camFrame_apply, hcm]
      simp [c, dist1, Matrix.one_apply] at a1 a2 ⊢
      linarith)
    [⟨0, 800, 1100⟩, ⟨0, 500, 250⟩] (by simp) [(30, -60), (0, 25)]
    (.cons ⟨rfl, by norm_num [apart], by rw [hpix]; norm_num⟩ (.cons ⟨rfl, by norm_num [apart], by rw [hpix]; norm_num⟩ .nil)) 0 rfl
    (1 / 2 ^ 52) 1074 ⟨by norm_num, by norm_num, hbig⟩
  refine ⟨es, c, rfl, h1, ?_⟩
  have e : (1 / 50 / 10 : ℝ) = 1 / 500 := by norm_num
  rw [e] at h3
  exact h3

end Verif.PointCalc
