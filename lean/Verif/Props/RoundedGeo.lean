import Verif.Lemmas.Base
import Verif.Lemmas.Rounding
import Verif.Model.Rounded
import Verif.Props.Geotiff
import Verif.Props.Grids

/-! C136: geotiff coordinates in float arithmetic.  C137: the ground grid in float arithmetic. -/

set_option linter.unusedSectionVars false

namespace Verif.Rounded
open Verif ImageUtils Rounding

section
variable {K : Type} [Field K] [LinearOrder K] [IsStrictOrderedRing K] [FloorRing K]

/-! ### C136 -/

/-- The float model is the model of C17 when nothing is rounded. -/
theorem pixelToWorldR_id (g : Geotiff.GeoT K) (nx ny : Nat) (x y : K) :
    pixelToWorldR id g x y = (Geotiff.mkCalc g nx ny).pixelToWorld x y := rfl

theorem worldToPixelR_id (g : Geotiff.GeoT K) (nx ny : Nat) (h2 : g.g2 = 0) (h4 : g.g4 = 0) (h1 : g.g1 ≠ 0)
    (h5 : g.g5 ≠ 0) (lon lat : K) :
    (Geotiff.mkCalc g nx ny).worldToPixel lon lat = .ok (worldToPixelR id (invNorthUpR id g) lon lat) := by
  have hd : g.g1 * g.g5 - g.g2 * g.g4 ≠ 0 := by rw [h2, zero_mul, sub_zero]; exact mul_ne_zero h1 h5
  simp only [Geotiff.mkCalc, Geotiff.Calc.worldToPixel, Geotiff.invGeoT, if_neg hd, worldToPixelR, invNorthUpR, id]
  congr 1
  rw [h2, h4]
  congr 1 <;> field_simp <;> ring

/-- A sum of three terms as the code computes it. -/
theorem affine_error (p : ℕ) (a b c : K) :
    |fl p (fl p (a + fl p b) + fl p c) - (a + b + c)| ≤ ((1 + unit p) ^ 3 - 1) * (|a| + |b| + |c|) := by
  have hu := unit_pos (K := K) p
  obtain ⟨d1, k1, f1⟩ := fl_rel p b
  obtain ⟨d2, k2, f2⟩ := fl_rel p (a + b * (1 + d1))
  obtain ⟨d3, k3, f3⟩ := fl_rel p c
  obtain ⟨d4, k4, f4⟩ := fl_rel p ((a + b * (1 + d1)) * (1 + d2) + c * (1 + d3))
  have ra : |(1 + d2) * (1 + d4) - 1| ≤ (1 + unit p) ^ 3 - 1 :=
    (rel_mul (rel_one k2) (rel_one k4)).trans (by nlinarith [pow_pos hu 2, pow_pos hu 3])
  have rb : |(1 + d1) * (1 + d2) * (1 + d4) - 1| ≤ (1 + unit p) ^ 3 - 1 :=
    (rel_mul (rel_mul (rel_one k1) (rel_one k2)) (rel_one k4)).trans (le_of_eq (by ring))
  have rc : |(1 + d3) * (1 + d4) - 1| ≤ (1 + unit p) ^ 3 - 1 :=
    (rel_mul (rel_one k3) (rel_one k4)).trans (by nlinarith [pow_pos hu 2, pow_pos hu 3])
  have e : fl p (fl p (a + fl p b) + fl p c) - (a + b + c) =
      a * ((1 + d2) * (1 + d4) - 1) + b * ((1 + d1) * (1 + d2) * (1 + d4) - 1) + c * ((1 + d3) * (1 + d4) - 1) := by
    rw [f1, f2, f3, f4]; ring
  rw [e]
  refine (abs_add_le _ _).trans ?_
  refine (add_le_add (abs_add_le _ _) le_rfl).trans ?_
  rw [abs_mul, abs_mul, abs_mul]
  have a1 := mul_le_mul_of_nonneg_left ra (abs_nonneg a)
  have a2 := mul_le_mul_of_nonneg_left rb (abs_nonneg b)
  have a3 := mul_le_mul_of_nonneg_left rc (abs_nonneg c)
  linarith

/-- C136: the world position of a pixel is off by at most `((1+u)³ - 1)` times the size of the summed terms, for
every geotransform. -/
theorem C136_forward (p : ℕ) (g : Geotiff.GeoT K) (nx ny : Nat) (x y : K) :
    |(pixelToWorldR (fl p) g x y).1 - ((Geotiff.mkCalc g nx ny).pixelToWorld x y).1| ≤
      ((1 + unit p) ^ 3 - 1) * (|g.g0| + |x * g.g1| + |y * g.g2|) ∧
    |(pixelToWorldR (fl p) g x y).2 - ((Geotiff.mkCalc g nx ny).pixelToWorld x y).2| ≤
      ((1 + unit p) ^ 3 - 1) * (|g.g3| + |x * g.g4| + |y * g.g5|) :=
  ⟨affine_error p g.g0 (x * g.g1) (y * g.g2), affine_error p g.g3 (x * g.g4) (y * g.g5)⟩

/-- C136: the pixel position of a world point is off by at most `((1+u)³ - 1)` times the size of the summed terms, for every inverse geotransform `i` used,
rotated ones too. -/
theorem C136_inverse (p : ℕ) (i : Geotiff.GeoT K) (lon lat : K) :
    |(worldToPixelR (fl p) i lon lat).1 - (i.g0 + i.g1 * lon + i.g2 * lat)| ≤ ((1 + unit p) ^ 3 - 1) * (|i.g0| + |i.g1 * lon| + |i.g2 * lat|) ∧
    |(worldToPixelR (fl p) i lon lat).2 - (i.g3 + i.g4 * lon + i.g5 * lat)| ≤ ((1 + unit p) ^ 3 - 1) * (|i.g3| + |i.g4 * lon| + |i.g5 * lat|) :=
  ⟨affine_error p i.g0 (i.g1 * lon) (i.g2 * lat), affine_error p i.g3 (i.g4 * lon) (i.g5 * lat)⟩

/-- C136: pixels to the right are never computed to lie to the left, and pixels below never above. -/
theorem C136_monotone {p : ℕ} (hp : 1 ≤ p) (g : Geotiff.GeoT K) (h1 : 0 ≤ g.g1) (h5 : g.g5 ≤ 0) (x x' y y' : K)
    (hx : x ≤ x') (hy : y ≤ y') :
    (pixelToWorldR (fl p) g x y).1 ≤ (pixelToWorldR (fl p) g x' y).1 ∧
      (pixelToWorldR (fl p) g x y').2 ≤ (pixelToWorldR (fl p) g x y).2 := by
  have m := fl_mono (K := K) hp
  constructor
  · exact m (add_le_add (m (add_le_add le_rfl (m (mul_le_mul_of_nonneg_right hx h1)))) le_rfl)
  · exact m (add_le_add le_rfl (m (mul_le_mul_of_nonpos_right hy h5)))

/-- One axis of the round trip. -/
theorem roundtrip_axis (p : ℕ) (o s x : K) (hs : s ≠ 0) :
    |fl p (fl p (-o / s) + fl p (fl p (1 / s) * fl p (o + fl p (x * s)))) - x| ≤
      ((1 + unit p) ^ 4 + (1 + unit p) ^ 2 - 2) * |o / s| + ((1 + unit p) ^ 5 - 1) * |x| := by
  obtain ⟨a, ka, fa⟩ := fl_rel p (x * s)
  obtain ⟨b, kb, fb⟩ := fl_rel p (o + x * s * (1 + a))
  obtain ⟨c, kc, fc⟩ := fl_rel p (1 / s)
  obtain ⟨d, kd, fd⟩ := fl_rel p (1 / s * (1 + c) * ((o + x * s * (1 + a)) * (1 + b)))
  obtain ⟨e, ke, fe⟩ := fl_rel p (-o / s)
  obtain ⟨f, kf, ff⟩ := fl_rel p (-o / s * (1 + e) + 1 / s * (1 + c) * ((o + x * s * (1 + a)) * (1 + b)) * (1 + d))
  have r4 : |(1 + b) * (1 + c) * (1 + d) * (1 + f) - 1| ≤ (1 + unit p) ^ 4 - 1 :=
    (rel_mul (rel_mul (rel_mul (rel_one kb) (rel_one kc)) (rel_one kd)) (rel_one kf)).trans (le_of_eq (by ring))
  have r2 : |(1 + e) * (1 + f) - 1| ≤ (1 + unit p) ^ 2 - 1 :=
    (rel_mul (rel_one ke) (rel_one kf)).trans (le_of_eq (by ring))
  have r5 : |(1 + a) * (1 + b) * (1 + c) * (1 + d) * (1 + f) - 1| ≤ (1 + unit p) ^ 5 - 1 :=
    (rel_mul (rel_mul (rel_mul (rel_mul (rel_one ka) (rel_one kb)) (rel_one kc)) (rel_one kd)) (rel_one kf)).trans
      (le_of_eq (by ring))
  have eq : fl p (fl p (-o / s) + fl p (fl p (1 / s) * fl p (o + fl p (x * s)))) - x =
      o / s * ((1 + b) * (1 + c) * (1 + d) * (1 + f) - 1) - o / s * ((1 + e) * (1 + f) - 1) +
        x * ((1 + a) * (1 + b) * (1 + c) * (1 + d) * (1 + f) - 1) := by
    rw [fa, fb, fc, fd, fe, ff]
    field_simp
    ring
  rw [eq]
  refine (abs_add_le _ _).trans ?_
  refine (add_le_add (abs_sub _ _) le_rfl).trans ?_
  rw [abs_mul, abs_mul, abs_mul]
  have a1 := mul_le_mul_of_nonneg_left r4 (abs_nonneg (o / s))
  have a2 := mul_le_mul_of_nonneg_left r2 (abs_nonneg (o / s))
  have a3 := mul_le_mul_of_nonneg_left r5 (abs_nonneg x)
  linarith

/-- The round trip of a north-up geotransform, axis by axis. -/
theorem roundtrip_eq {p : ℕ} (hp : 1 ≤ p) (g : Geotiff.GeoT K) (h2 : g.g2 = 0) (h4 : g.g4 = 0) (hg3 : IsFloat p g.g3)
    (x y : K) :
    worldToPixelR (fl p) (invNorthUpR (fl p) g) (pixelToWorldR (fl p) g x y).1 (pixelToWorldR (fl p) g x y).2 =
      (fl p (fl p (-g.g0 / g.g1) + fl p (fl p (1 / g.g1) * fl p (g.g0 + fl p (x * g.g1)))),
        fl p (fl p (-g.g3 / g.g5) + fl p (fl p (1 / g.g5) * fl p (g.g3 + fl p (y * g.g5))))) := by
  unfold worldToPixelR invNorthUpR pixelToWorldR
  simp only [h2, h4, mul_zero, zero_mul, fl_zero, add_zero, fl_idem hp, fl_of_isFloat hp hg3]

/-- C136: pixel to world to pixel in float arithmetic, for a north-up geotransform: off by a few units in the last
place of the pixel number and of the number of pixels between the raster and the coordinate origin.
The pixel itself need not come back exactly, see `C136_truncation`. -/
theorem C136_roundtrip {p : ℕ} (hp : 1 ≤ p) (g : Geotiff.GeoT K) (h2 : g.g2 = 0) (h4 : g.g4 = 0)
    (h1 : g.g1 ≠ 0) (h5 : g.g5 ≠ 0) (hg3 : IsFloat p g.g3) (x y : K) :
    ∃ x' y', worldToPixelR (fl p) (invNorthUpR (fl p) g) (pixelToWorldR (fl p) g x y).1
        (pixelToWorldR (fl p) g x y).2 = (x', y') ∧
      |x' - x| ≤ ((1 + unit p) ^ 4 + (1 + unit p) ^ 2 - 2) * |g.g0 / g.g1| + ((1 + unit p) ^ 5 - 1) * |x| ∧
      |y' - y| ≤ ((1 + unit p) ^ 4 + (1 + unit p) ^ 2 - 2) * |g.g3 / g.g5| + ((1 + unit p) ^ 5 - 1) * |y| :=
  ⟨_, _, roundtrip_eq hp g h2 h4 hg3 x y, roundtrip_axis p g.g0 g.g1 x h1, roundtrip_axis p g.g3 g.g5 y h5⟩

theorem unit_le_small {p : ℕ} (hp : 8 ≤ p) : (unit p : K) ≤ 1 / 256 := by
  have h := unit_mul (K := K) p
  have hu := unit_pos (K := K) p
  have : (2 : K) ^ 8 ≤ 2 ^ p := pow_le_pow_right₀ (by norm_num) hp
  nlinarith

/-- Fifteen units bound the error terms of a round trip. -/
theorem roundtrip_scalar {u : K} (h0 : 0 < u) (h : u ≤ 1 / 256) :
    ((1 + u) ^ 4 + (1 + u) ^ 2 - 2) + ((1 + u) ^ 5 - 1) ≤ 15 * u := by
  have h2 : u ^ 2 ≤ u / 256 := by nlinarith
  have h3 : u ^ 3 ≤ u / 256 := by nlinarith [pow_pos h0 2]
  have h4 : u ^ 4 ≤ u / 256 := by nlinarith [pow_pos h0 2, pow_pos h0 3]
  have h5 : u ^ 5 ≤ u / 256 := by nlinarith [pow_pos h0 2, pow_pos h0 3, pow_pos h0 4]
  nlinarith

/-- C136: hence the pixel number, if a whole number, is recovered by rounding to the nearest one, for every raster
with pixel numbers and distances to the origin up to `2^(p-5)` pixels (for float64, 2.8e14). -/
theorem C136_pixel_recovered {p : ℕ} (hp : 8 ≤ p) (g : Geotiff.GeoT K) (h2 : g.g2 = 0) (h4 : g.g4 = 0)
    (h1 : g.g1 ≠ 0) (h5 : g.g5 ≠ 0) (hg3 : IsFloat p g.g3) (i j : ℤ) (hi : |(i : K)| ≤ 2 ^ (p - 5))
    (hj : |(j : K)| ≤ 2 ^ (p - 5)) (hx : |g.g0 / g.g1| ≤ 2 ^ (p - 5)) (hy : |g.g3 / g.g5| ≤ 2 ^ (p - 5)) :
    ∃ x' y', worldToPixelR (fl p) (invNorthUpR (fl p) g) (pixelToWorldR (fl p) g i j).1
        (pixelToWorldR (fl p) g i j).2 = (x', y') ∧ |x' - i| < 1 / 2 ∧ |y' - j| < 1 / 2 ∧
      ⌊x' + 1 / 2⌋ = i ∧ ⌊y' + 1 / 2⌋ = j := by
  have hu := unit_pos (K := K) p
  have hsc := roundtrip_scalar hu (unit_le_small (K := K) hp)
  have hpow : unit p * 2 ^ (p - 5) = (1 / 32 : K) := by
    have h := unit_mul (K := K) p
    have e : (2 : K) ^ p = 2 ^ (p - 5) * 32 := by
      rw [show (32 : K) = 2 ^ 5 by norm_num, ← pow_add, Nat.sub_add_cancel (by omega)]
    rw [e] at h
    linarith
  have c1 : (0 : K) ≤ (1 + unit p) ^ 4 + (1 + unit p) ^ 2 - 2 := by
    have : (1 : K) ≤ (1 + unit p) ^ 4 := one_le_pow₀ (by linarith)
    have : (1 : K) ≤ (1 + unit p) ^ 2 := one_le_pow₀ (by linarith)
    linarith
  have c2 : (0 : K) ≤ (1 + unit p) ^ 5 - 1 := by
    have : (1 : K) ≤ (1 + unit p) ^ 5 := one_le_pow₀ (by linarith)
    linarith
  have main : ∀ q x x' : K, |q| ≤ 2 ^ (p - 5) → |x| ≤ 2 ^ (p - 5) →
      |x' - x| ≤ ((1 + unit p) ^ 4 + (1 + unit p) ^ 2 - 2) * |q| + ((1 + unit p) ^ 5 - 1) * |x| → |x' - x| < 1 / 2 := by
    intro q x x' hq hx h
    have b1 := mul_le_mul_of_nonneg_left hq c1
    have b2 := mul_le_mul_of_nonneg_left hx c2
    have b3 := mul_le_mul_of_nonneg_right hsc (show (0 : K) ≤ 2 ^ (p - 5) by positivity)
    generalize (1 + unit p : K) ^ 4 + (1 + unit p) ^ 2 - 2 = A at *
    generalize (1 + unit p : K) ^ 5 - 1 = B at *
    generalize (2 : K) ^ (p - 5) = M at *
    nlinarith
  obtain ⟨x', y', he, e1, e2⟩ := C136_roundtrip (by omega) g h2 h4 h1 h5 hg3 (i : K) (j : K)
  have r1 := main _ _ _ hx hi e1
  have r2 := main _ _ _ hy hj e2
  have fl1 : ∀ (z : K) (k : ℤ), |z - k| < 1 / 2 → ⌊z + 1 / 2⌋ = k := by
    intro z k h
    have := abs_lt.mp h
    rw [Int.floor_eq_iff]
    constructor <;> linarith
  exact ⟨x', y', he, r1, r2, fl1 _ _ r1, fl1 _ _ r2⟩

/-- A north-up raster of 30 m pixels at easting 500000. -/
example : |((500000 : ℚ) / 30)| ≤ 2 ^ (53 - 5) ∧ IsFloat 53 (4200000 : ℚ) ∧ |((7680 : ℤ) : ℚ)| ≤ 2 ^ (53 - 5) := by
  refine ⟨by norm_num, ⟨4200000, 0, by norm_num, by norm_num⟩, by norm_num⟩

/-! ### C137 -/

theorem axisR_id (lo hi : K) (n k : Nat) : axisR id lo hi n k = (k : K) / n * (hi - lo) + lo := rfl

/-- C137: with fewer than two rows or columns the call is an IndexError, and only then. -/
theorem C137_degenerate (r : K → K) (minX maxX minY maxY : K) (nx ny : Nat) :
    groundGridR r minX maxX minY maxY nx ny = .error .indexError ↔ nx < 2 ∨ ny < 2 := by
  constructor
  · intro h
    by_contra hc
    have h1 : ¬(ny = 0 ∨ nx < 2) := by omega
    have h2 : ¬ ny < 2 := by omega
    simp [groundGridR, h1, h2] at h
  · intro h
    by_cases h1 : ny = 0 ∨ nx < 2
    · simp [groundGridR, h1]
    · have h2 : ny < 2 := by omega
      simp only [groundGridR, if_neg h1, if_pos h2]

/-- The float model is the model of C34 when nothing is rounded. -/
theorem groundGridR_id (minX maxX minY maxY : K) (nx ny : Nat) (h1 : 2 ≤ nx) (h2 : 2 ≤ ny) :
    ∃ gx gy gx' gy', groundGridR id minX maxX minY maxY nx ny = .ok (gx, gy) ∧
      Grids.groundGrid minX maxX minY maxY nx ny = .ok (gx', gy') ∧ gx.Same gx' ∧ gy.Same gy' := by
  unfold groundGridR Grids.groundGrid
  simp only []
  rw [if_neg (by omega), if_neg (by omega), if_neg (by omega), if_neg (by omega)]
  have hc : ∀ j : Nat, j ≤ ny → ((ny - j : ℕ) : K) = ((j : K) - ny) * -1 := by
    intro j hj
    rw [Nat.cast_sub hj]; ring
  refine ⟨_, _, _, _, rfl, rfl, ⟨rfl, rfl, ?_⟩, ⟨rfl, rfl, ?_⟩⟩
  · intro j i hj hi
    simp only [axisR_id, id]
  · intro j i hj hi
    have hj' : j < ny := hj
    simp only [axisR_id, id, hc 0 (by omega), hc 1 (by omega), hc j hj'.le]

/-- Rounding a value that is nearly right. -/
theorem fl_near (p : ℕ) {a b e m : K} (h : |a - b| ≤ e) (hm : |b| ≤ m) : |fl p a - b| ≤ e + unit p * (m + e) := by
  have hu := unit_pos (K := K) p
  have h1 := fl_err' p a
  have h2 : |a| ≤ m + e := by
    have := abs_add_le (a - b) b
    rw [sub_add_cancel] at this
    linarith
  have h3 := abs_add_le (fl p a - a) (a - b)
  rw [sub_add_sub_cancel] at h3
  have := mul_le_mul_of_nonneg_left h2 hu.le
  linarith

theorem pow4_scalar {u : K} (h0 : 0 < u) (h : u ≤ 1 / 256) : (1 + u) ^ 4 - 1 ≤ 41 / 10 * u := by
  have h2 : u ^ 2 ≤ u / 256 := by nlinarith
  have h3 : u ^ 3 ≤ u / 65536 := by nlinarith [pow_pos h0 2]
  have h4 : u ^ 4 ≤ u / 65536 := by nlinarith [pow_pos h0 2, pow_pos h0 3]
  nlinarith

/-- One axis: the start of cell `k` is off by at most `4.1 u (|lo| + width)`. -/
theorem axis_error {p : ℕ} (hp : 8 ≤ p) (lo hi : K) (hlo : lo ≤ hi) (n k : Nat) (hk : k ≤ n) (h0 : 0 < n) (hn : n ≤ 2 ^ p) :
    |axisR (fl p) lo hi n k - (lo + k * ((hi - lo) / n))| ≤ 41 / 10 * (unit p * (|lo| + (hi - lo))) := by
  have hu := unit_pos (K := K) p
  have hus := unit_le_small (K := K) hp
  have hn' : (0 : K) < n := by exact_mod_cast h0
  have hk' : (k : K) ≤ n := by exact_mod_cast hk
  unfold axisR
  rw [fl_nat (by omega) k (by omega), fl_nat (by omega) n hn]
  obtain ⟨d1, k1, f1⟩ := fl_rel p ((k : K) / n)
  obtain ⟨d2, k2, f2⟩ := fl_rel p (hi - lo)
  obtain ⟨d3, k3, f3⟩ := fl_rel p ((k : K) / n * (1 + d1) * ((hi - lo) * (1 + d2)))
  obtain ⟨d4, k4, f4⟩ := fl_rel p ((k : K) / n * (1 + d1) * ((hi - lo) * (1 + d2)) * (1 + d3) + lo)
  have r4 : |(1 + d1) * (1 + d2) * (1 + d3) * (1 + d4) - 1| ≤ (1 + unit p) ^ 4 - 1 :=
    (rel_mul (rel_mul (rel_mul (rel_one k1) (rel_one k2)) (rel_one k3)) (rel_one k4)).trans (le_of_eq (by ring))
  have e : fl p (fl p (fl p ((k : K) / n) * fl p (hi - lo)) + lo) - (lo + k * ((hi - lo) / n)) =
      (k : K) / n * (hi - lo) * ((1 + d1) * (1 + d2) * (1 + d3) * (1 + d4) - 1) + lo * d4 := by
    rw [f1, f2, f3, f4]; field_simp; ring
  rw [e]
  have hw : 0 ≤ (k : K) / n * (hi - lo) := mul_nonneg (by positivity) (by linarith)
  have hw2 : (k : K) / n * (hi - lo) ≤ hi - lo := by
    have : (k : K) / n ≤ 1 := by rw [div_le_one hn']; exact hk'
    have := mul_le_mul_of_nonneg_right this (show 0 ≤ hi - lo by linarith)
    linarith
  have hs4 := pow4_scalar hu hus
  refine (abs_add_le _ _).trans ?_
  rw [abs_mul _ ((1 + d1) * (1 + d2) * (1 + d3) * (1 + d4) - 1), abs_mul lo, abs_of_nonneg hw]
  have a1 := mul_le_mul hw2 (r4.trans hs4) (abs_nonneg _) (show 0 ≤ hi - lo by linarith)
  have a2 := mul_le_mul_of_nonneg_left k4 (abs_nonneg lo)
  have a3 : 0 ≤ |lo| * unit p := mul_nonneg (abs_nonneg _) hu.le
  linarith

/-- One axis: the centre computed from a cell's start and the step between two neighbouring starts, `σ = 1`
(columns) or `σ = -1` (rows). -/
theorem centre_error {p : ℕ} (hp : 8 ≤ p) (lo hi : K) (hlo : lo ≤ hi) (n k a b : Nat) (hk : k ≤ n) (h2 : 2 ≤ n)
    (hn : n ≤ 2 ^ p) (ha : a = b + 1) (hb : b < n) (σ : K) (hσ : σ = 1 ∨ σ = -1)
    (hc : |lo + k * ((hi - lo) / n) + σ * ((hi - lo) / n / 2)| ≤ |lo| + (hi - lo)) :
    |fl p (axisR (fl p) lo hi n k + σ * fl p (|fl p (axisR (fl p) lo hi n a - axisR (fl p) lo hi n b)| / 2)) -
      (lo + k * ((hi - lo) / n) + σ * ((hi - lo) / n / 2))| ≤ 10 * (unit p * (|lo| + (hi - lo))) := by
  have hu := unit_pos (K := K) p
  have hus := unit_le_small (K := K) hp
  have hn' : (2 : K) ≤ n := by exact_mod_cast h2
  have hW : 0 ≤ hi - lo := by linarith
  have hstep0 : 0 ≤ (hi - lo) / n := div_nonneg hW (by linarith)
  have hstep : (hi - lo) / n ≤ (|lo| + (hi - lo)) / 2 := by
    rw [div_le_div_iff₀ (by linarith) (by norm_num)]
    nlinarith [abs_nonneg lo]
  have ea := axis_error hp lo hi hlo n a (by omega) (by omega) hn
  have eb := axis_error hp lo hi hlo n b (by omega) (by omega) hn
  have ek := axis_error hp lo hi hlo n k hk (by omega) hn
  have hS : 0 ≤ |lo| + (hi - lo) := by positivity
  have hab : lo + (a : K) * ((hi - lo) / n) - (lo + (b : K) * ((hi - lo) / n)) = (hi - lo) / n := by
    rw [ha]; push_cast; ring
  generalize axisR (fl p) lo hi n a = A at *
  generalize axisR (fl p) lo hi n b = B at *
  generalize axisR (fl p) lo hi n k = C at *
  generalize lo + (a : K) * ((hi - lo) / n) = A' at *
  generalize lo + (b : K) * ((hi - lo) / n) = B' at *
  generalize lo + (k : K) * ((hi - lo) / n) = C' at *
  generalize (hi - lo) / (n : K) = s at *
  generalize |lo| + (hi - lo) = S at *
  have hE : 0 ≤ unit p * S := mul_nonneg hu.le hS
  have hE2 : unit p * (unit p * S) ≤ 1 / 256 * (unit p * S) := mul_le_mul_of_nonneg_right hus hE
  have hE3 : unit p * s ≤ unit p * (S / 2) := mul_le_mul_of_nonneg_left hstep hu.le
  -- the step
  have d1 : |A - B - s| ≤ 82 / 10 * (unit p * S) := by
    have e : A - B - s = (A - A') - (B - B') := by rw [← hab]; ring
    rw [e]
    refine (abs_sub _ _).trans ?_
    linarith
  have d2 := fl_near p d1 (show |s| ≤ s by rw [abs_of_nonneg hstep0])
  have d3 : |fl p (A - B)| / 2 - s / 2 = (|fl p (A - B)| - |s|) / 2 := by rw [abs_of_nonneg hstep0]; ring
  have d4 : |(|fl p (A - B)| / 2 - s / 2)| ≤ 44 / 10 * (unit p * S) := by
    rw [d3, abs_div, abs_of_pos (by norm_num : (0 : K) < 2)]
    have := abs_abs_sub_abs_le (fl p (A - B)) s
    rw [div_le_iff₀ (by norm_num)]
    nlinarith
  have d5 := fl_near p d4 (show |s / 2| ≤ s / 2 by rw [abs_of_nonneg (by linarith)])
  -- the centre
  have d6 : |C + σ * fl p (|fl p (A - B)| / 2) - (C' + σ * (s / 2))| ≤ 88 / 10 * (unit p * S) := by
    have e : C + σ * fl p (|fl p (A - B)| / 2) - (C' + σ * (s / 2)) =
        (C - C') + σ * (fl p (|fl p (A - B)| / 2) - s / 2) := by ring
    rw [e]
    refine (abs_add_le _ _).trans ?_
    have hσ1 : |σ| = 1 := by rcases hσ with rfl | rfl <;> simp
    rw [abs_mul, hσ1, one_mul]
    nlinarith
  have d7 := fl_near p d6 hc
  nlinarith

/-- C137: in float arithmetic (`p ≥ 8` bits) every grid point is within `10 u (|min| + width)` of the centre of its
cell, for extents of any size and position and grids of up to `2^p` rows and columns. -/
theorem C137_error {p : ℕ} (hp : 8 ≤ p) (minX maxX minY maxY : K) (hx : minX ≤ maxX) (hy : minY ≤ maxY)
    (nx ny : Nat) (h1 : 2 ≤ nx) (h2 : 2 ≤ ny) (hnx : nx ≤ 2 ^ p) (hny : ny ≤ 2 ^ p) :
    ∃ gx gy, groundGridR (fl p) minX maxX minY maxY nx ny = .ok (gx, gy) ∧
      gx.ny = ny ∧ gx.nx = nx ∧ gy.ny = ny ∧ gy.nx = nx ∧
      ∀ j i, j < ny → i < nx →
        |gx.px j i - (Grids.cellCentre minX maxX minY maxY nx ny j i).1| ≤ 10 * (unit p * (|minX| + (maxX - minX))) ∧
        |gy.px j i - (Grids.cellCentre minX maxX minY maxY nx ny j i).2| ≤ 10 * (unit p * (|minY| + (maxY - minY))) := by
  unfold groundGridR
  simp only []
  rw [if_neg (by omega), if_neg (by omega)]
  refine ⟨_, _, rfl, rfl, rfl, rfl, rfl, ?_⟩
  intro j i hj hi
  have hnx' : (2 : K) ≤ nx := by exact_mod_cast h1
  have hny' : (2 : K) ≤ ny := by exact_mod_cast h2
  have hi' : (i : K) + 1 ≤ nx := by exact_mod_cast hi
  have hj' : (j : K) + 1 ≤ ny := by exact_mod_cast hj
  have hi0 : (0 : K) ≤ i := Nat.cast_nonneg i
  have hj0 : (0 : K) ≤ j := Nat.cast_nonneg j
  constructor
  · have hsx : 0 ≤ (maxX - minX) / nx := div_nonneg (by linarith) (by linarith)
    have hex : (nx : K) * ((maxX - minX) / nx) = maxX - minX := by field_simp
    have := centre_error hp minX maxX hx nx i 1 0 hi.le h1 hnx rfl (by omega) 1 (Or.inl rfl) (by
      generalize (maxX - minX) / (nx : K) = s at *
      rw [abs_le]
      constructor
      · have := neg_abs_le minX
        nlinarith
      · have := le_abs_self minX
        nlinarith)
    simp only [one_mul] at this
    refine le_of_eq_of_le ?_ this
    congr 1
    simp only [Grids.cellCentre]
    ring
  · have hsy : 0 ≤ (maxY - minY) / ny := div_nonneg (by linarith) (by linarith)
    have hey : (ny : K) * ((maxY - minY) / ny) = maxY - minY := by field_simp
    have hc : ((ny - j : ℕ) : K) = ny - j := Nat.cast_sub hj.le
    have := centre_error hp minY maxY hy ny (ny - j) ny (ny - 1) (by omega) h2 hny (by omega) (by omega) (-1)
      (Or.inr rfl) (by
      rw [hc]
      generalize (maxY - minY) / (ny : K) = s at *
      rw [abs_le]
      constructor
      · have := neg_abs_le minY
        nlinarith
      · have := le_abs_self minY
        nlinarith)
    rw [hc] at this
    refine le_of_eq_of_le ?_ this
    congr 1
    simp only [Grids.cellCentre, Nat.sub_zero]
    have e3 : minY + ((ny : K) - j) * ((maxY - minY) / ny) + -1 * ((maxY - minY) / ny / 2) =
        maxY - ((j : K) + 1 / 2) * ((maxY - minY) / ny) := by
      have : minY + (ny : K) * ((maxY - minY) / ny) = maxY := by rw [hey]; ring
      linear_combination this
    rw [e3, neg_one_mul, ← sub_eq_add_neg]

/-- C137: positions never run backwards: they do not decrease to the right and do not increase downward. -/
theorem C137_monotone {p : ℕ} (hp : 1 ≤ p) (minX maxX minY maxY : K) (hx : minX ≤ maxX) (hy : minY ≤ maxY)
    (nx ny : Nat) (gx gy : A2 K) (h : groundGridR (fl p) minX maxX minY maxY nx ny = .ok (gx, gy)) :
    (∀ j i i', i ≤ i' → gx.px j i ≤ gx.px j i') ∧ (∀ j j' i, j ≤ j' → gy.px j' i ≤ gy.px j i) := by
  have m := fl_mono (K := K) hp
  have ax : ∀ (lo hi : K) (n k k' : Nat), lo ≤ hi → k ≤ k' → axisR (fl p) lo hi n k ≤ axisR (fl p) lo hi n k' := by
    intro lo hi n k k' hl hk
    unfold axisR
    have hk' : (k : K) ≤ k' := by exact_mod_cast hk
    exact m (add_le_add (m (mul_le_mul_of_nonneg_right
      (m (div_le_div_of_nonneg_right (m hk') (fl_nonneg hp (Nat.cast_nonneg n)))) (fl_nonneg hp (by linarith)))) le_rfl)
  unfold groundGridR at h
  simp only [] at h
  split at h
  · simp at h
  · split at h
    · simp at h
    · simp only [Except.ok.injEq, Prod.mk.injEq] at h
      obtain ⟨rfl, rfl⟩ := h
      refine ⟨?_, ?_⟩
      · intro j i i' hi
        exact m (add_le_add (ax _ _ _ _ _ hx hi) le_rfl)
      · intro j j' i hj
        exact m (sub_le_sub_right (ax _ _ _ _ _ hy (by omega)) _)

/-- C137: when the cells are larger than `20 u (|min| + width)` (for float64 and UTM metres, 22 nanometres), the grid
points are strictly inside the extent and strictly ordered. -/
theorem C137_inside {p : ℕ} (hp : 8 ≤ p) (minX maxX minY maxY : K) (nx ny : Nat) (h1 : 2 ≤ nx) (h2 : 2 ≤ ny)
    (hnx : nx ≤ 2 ^ p) (hny : ny ≤ 2 ^ p)
    (hx : minX < maxX) (hy : minY < maxY)
    (hcx : 20 * (unit p * (|minX| + (maxX - minX))) < (maxX - minX) / nx)
    (hcy : 20 * (unit p * (|minY| + (maxY - minY))) < (maxY - minY) / ny) :
    ∃ gx gy, groundGridR (fl p) minX maxX minY maxY nx ny = .ok (gx, gy) ∧
      (∀ j i, j < ny → i < nx → minX < gx.px j i ∧ gx.px j i < maxX ∧ minY < gy.px j i ∧ gy.px j i < maxY) ∧
      (∀ j i i', j < ny → i < i' → i' < nx → gx.px j i < gx.px j i') ∧
      (∀ j j' i, i < nx → j < j' → j' < ny → gy.px j' i < gy.px j i) := by
  obtain ⟨gx, gy, h, -, -, -, -, he⟩ := C137_error hp minX maxX minY maxY hx.le hy.le nx ny h1 h2 hnx hny
  have hnx' : (2 : K) ≤ nx := by exact_mod_cast h1
  have hny' : (2 : K) ≤ ny := by exact_mod_cast h2
  have hsx : 0 < (maxX - minX) / nx := div_pos (by linarith) (by linarith)
  have hsy : 0 < (maxY - minY) / ny := div_pos (by linarith) (by linarith)
  have hex : (nx : K) * ((maxX - minX) / nx) = maxX - minX := by field_simp
  have hey : (ny : K) * ((maxY - minY) / ny) = maxY - minY := by field_simp
  simp only [Grids.cellCentre] at he
  generalize (maxX - minX) / (nx : K) = s at *
  generalize (maxY - minY) / (ny : K) = t at *
  generalize unit p * (|minX| + (maxX - minX)) = E at *
  generalize unit p * (|minY| + (maxY - minY)) = F at *
  refine ⟨gx, gy, h, ?_, ?_, ?_⟩
  · intro j i hj hi
    obtain ⟨a, b⟩ := he j i hj hi
    have a := abs_le.mp a
    have b := abs_le.mp b
    have hi' : (i : K) + 1 ≤ nx := by exact_mod_cast hi
    have hj' : (j : K) + 1 ≤ ny := by exact_mod_cast hj
    have p1 := mul_nonneg (Nat.cast_nonneg (α := K) i) hsx.le
    have p2 := mul_nonneg (Nat.cast_nonneg (α := K) j) hsy.le
    have p3 := mul_le_mul_of_nonneg_right hi' hsx.le
    have p4 := mul_le_mul_of_nonneg_right hj' hsy.le
    refine ⟨?_, ?_, ?_, ?_⟩ <;> linarith
  · intro j i i' hj hi hi'
    have a := abs_le.mp (he j i hj (by omega)).1
    have b := abs_le.mp (he j i' hj hi').1
    have hii : (i : K) + 1 ≤ i' := by exact_mod_cast hi
    have := mul_le_mul_of_nonneg_right hii hsx.le
    linarith
  · intro j j' i hi hj hj'
    have a := abs_le.mp (he j i (by omega) hi).2
    have b := abs_le.mp (he j' i hj' hi).2
    have hjj : (j : K) + 1 ≤ j' := by exact_mod_cast hj
    have := mul_le_mul_of_nonneg_right hjj hsy.le
    linarith

/-- A UTM extent of 1 km by 1 km with 1 m pixels, in float64. -/
example : 20 * (unit 53 * (|(500000 : ℚ)| + (501000 - 500000))) < (501000 - 500000) / ((1000 : ℕ) : ℚ) := by
  norm_num [unit]

end

/-! ### Float64 values -/

theorem w136_s : fl 53 (3 / 10 : ℚ) = 5404319552844595 / 18014398509481984 := by
  rw [fl_eq (-2) 5404319552844595 (by norm_num) (by norm_num) (by norm_num [abs_lt])]
  norm_num

theorem w136_p : fl 53 (31 * (5404319552844595 / 18014398509481984) : ℚ) = 5235434566818201 / 562949953421312 := by
  rw [fl_eq (3) 5235434566818201 (by norm_num) (by norm_num) (by norm_num [abs_lt])]
  norm_num

theorem w136_i : fl 53 (1 / (5404319552844595 / 18014398509481984) : ℚ) = 7505999378950827 / 2251799813685248 := by
  rw [fl_eq (1) 7505999378950827 (by norm_num) (by norm_num) (by norm_num [abs_lt])]
  norm_num

theorem w136_q : fl 53 (7505999378950827 / 2251799813685248 * (5235434566818201 / 562949953421312) : ℚ) = 8725724278030335 / 281474976710656 := by
  rw [fl_eq (4) 8725724278030335 (by norm_num) (by norm_num) (by norm_num [abs_lt])]
  norm_num

theorem w137_a : fl 53 (1 / 2 + 10000000000000000 : ℚ) = 10000000000000000 := by
  rw [fl_eq (53) 5000000000000000 (by norm_num) (by norm_num) (by norm_num [abs_lt])]
  norm_num

theorem w137_d : fl 53 (3 / 2 + 10000000000000000 : ℚ) = 10000000000000002 := by
  rw [fl_eq (53) 5000000000000001 (by norm_num) (by norm_num) (by norm_num [abs_lt])]
  norm_num

/-- C136, why the nearest pixel and not the truncated one: with pixels of 0.3 and origin 0, pixel 31 comes back as 30.999999999999996, which
truncates to pixel 30. -/
theorem C136_truncation : ∃ (s x' : ℚ), fl 53 (3 / 10) = s ∧
    worldToPixelR (fl 53) (invNorthUpR (fl 53) ⟨0, s, 0, 0, 0, -1⟩) (pixelToWorldR (fl 53) ⟨0, s, 0, 0, 0, -1⟩ 31 0).1
      (pixelToWorldR (fl 53) ⟨0, s, 0, 0, 0, -1⟩ 31 0).2 = (x', 0) ∧ ⌊x'⌋ = 30 := by
  refine ⟨5404319552844595 / 18014398509481984, 8725724278030335 / 281474976710656, w136_s, ?_, by norm_num [Int.floor_eq_iff]⟩
  rw [roundtrip_eq (by norm_num) _ rfl rfl (isFloat_zero 53)]
  have hp : fl 53 (5235434566818201 / 562949953421312 : ℚ) = 5235434566818201 / 562949953421312 := by rw [← w136_p]; exact fl_idem (by norm_num) _
  have hq : fl 53 (8725724278030335 / 281474976710656 : ℚ) = 8725724278030335 / 281474976710656 := by rw [← w136_q]; exact fl_idem (by norm_num) _
  simp only [neg_zero, zero_div, fl_zero, zero_add, zero_mul, mul_zero, w136_p, hp, w136_i, w136_q, hq]

/-- C137, why the cells must not be tiny: for an extent from 1e16 to 1e16 + 2 in four columns, the first two columns get the same
position, on the left edge of the extent, and the last column lies on the right edge. -/
theorem C137_tiny_cells : ∃ gx gy : A2 ℚ, groundGridR (fl 53) 10000000000000000 (10000000000000000 + 2) 0 2 4 2 = .ok (gx, gy) ∧
    gx.px 0 0 = 10000000000000000 ∧ gx.px 0 1 = 10000000000000000 ∧ gx.px 0 3 = 10000000000000000 + 2 := by
  have hI : ∀ k : ℕ, k ≤ 2 ^ 53 → fl 53 ((k : ℕ) : ℚ) = (k : ℚ) := fun k hk => fl_nat (by norm_num) k hk
  have h2 : fl 53 (10000000000000000 + 2 - 10000000000000000 : ℚ) = 2 := by
    rw [show (10000000000000000 + 2 - 10000000000000000 : ℚ) = ((2 : ℕ) : ℚ) by norm_num]; exact hI 2 (by norm_num)
  have hB : fl 53 (10000000000000000 : ℚ) = 10000000000000000 := fl_of_isFloat (by norm_num) ⟨5000000000000000, 1, by norm_num, by norm_num⟩
  have hB2 : fl 53 (10000000000000000 + 2 : ℚ) = 10000000000000000 + 2 := fl_of_isFloat (by norm_num) ⟨5000000000000001, 1, by norm_num, by norm_num⟩
  have hq : ∀ k : ℤ, |k| ≤ 2 ^ 53 → fl 53 ((k : ℚ) / 4) = (k : ℚ) / 4 := fun k hk =>
    fl_of_isFloat (by norm_num) ⟨k, -2, hk, by norm_num [div_eq_mul_inv]⟩
  have hh : ∀ k : ℤ, |k| ≤ 2 ^ 53 → fl 53 ((k : ℚ) / 2) = (k : ℚ) / 2 := fun k hk =>
    fl_of_isFloat (by norm_num) ⟨k, -1, hk, by norm_num [div_eq_mul_inv]⟩
  have n0 : fl 53 (((0 : ℕ) : ℚ)) = 0 := by simpa using hI 0 (by norm_num)
  have n1 : fl 53 (((1 : ℕ) : ℚ)) = 1 := by simpa using hI 1 (by norm_num)
  have n3 : fl 53 (((3 : ℕ) : ℚ)) = 3 := by simpa using hI 3 (by norm_num)
  have n4 : fl 53 (((4 : ℕ) : ℚ)) = 4 := by simpa using hI 4 (by norm_num)
  have q1 : fl 53 ((1 : ℚ) / 4) = 1 / 4 := by simpa using hq 1 (by norm_num)
  have q3 : fl 53 ((3 : ℚ) / 4) = 3 / 4 := by simpa using hq 3 (by norm_num)
  have t1 : fl 53 ((1 : ℚ) / 2) = 1 / 2 := by simpa using hh 1 (by norm_num)
  have t3 : fl 53 ((3 : ℚ) / 2) = 3 / 2 := by simpa using hh 3 (by norm_num)
  have a0 : axisR (fl 53) (10000000000000000 : ℚ) (10000000000000000 + 2) 4 0 = 10000000000000000 := by
    unfold axisR
    rw [n0, n4, h2, zero_div, fl_zero, zero_mul, fl_zero, zero_add, hB]
  have a1 : axisR (fl 53) (10000000000000000 : ℚ) (10000000000000000 + 2) 4 1 = 10000000000000000 := by
    unfold axisR
    rw [n1, n4, h2, q1, show (1 / 4 * 2 : ℚ) = 1 / 2 by norm_num, t1, w137_a]
  have a3 : axisR (fl 53) (10000000000000000 : ℚ) (10000000000000000 + 2) 4 3 = 10000000000000000 + 2 := by
    unfold axisR
    rw [n3, n4, h2, q3, show (3 / 4 * 2 : ℚ) = 3 / 2 by norm_num, t3, w137_d]
    norm_num
  unfold groundGridR
  simp only []
  rw [if_neg (by norm_num), if_neg (by norm_num)]
  refine ⟨_, _, rfl, ?_, ?_, ?_⟩
  · simp only [a0, a1, sub_self, fl_zero, abs_zero, zero_div, add_zero, hB]
  · simp only [a0, a1, sub_self, fl_zero, abs_zero, zero_div, add_zero, hB]
  · simp only [a0, a1, a3, sub_self, fl_zero, abs_zero, zero_div, add_zero, hB2]


end Verif.Rounded
