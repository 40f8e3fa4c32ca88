import Verif.Model.Geotiff
import Mathlib.Tactic.FieldSimp
import Mathlib.Tactic.NormNum
import Mathlib.Tactic.LinearCombination

/-! C17, C18: geotiff point calculator.  C23: RPC polynomial. -/

set_option linter.unusedSectionVars false

namespace Verif.Geotiff
open Verif ImageUtils

variable {K : Type} [Field K] [LinearOrder K] [IsStrictOrderedRing K]

/-- Specification: the geotransform is invertible (its linear part is non-singular). -/
def Invertible (g : GeoT K) : Prop := g.g1 * g.g5 - g.g2 * g.g4 ≠ 0

/-- C17, pixel to world to pixel. -/
theorem C17_pixel_roundtrip (g : GeoT K) (h : Invertible g) (nx ny : Nat) (x y : K) :
    (mkCalc g nx ny).worldToPixel ((mkCalc g nx ny).pixelToWorld x y).1
      ((mkCalc g nx ny).pixelToWorld x y).2 = .ok (x, y) := by
  unfold Invertible at h
  simp only [mkCalc, Calc.worldToPixel, Calc.pixelToWorld, invGeoT, if_neg h, Except.ok.injEq, Prod.mk.injEq]
  constructor
  · simp only [div_eq_mul_inv]
    linear_combination x * (mul_inv_cancel₀ h)
  · simp only [div_eq_mul_inv]
    linear_combination y * (mul_inv_cancel₀ h)

/-- C17, world to pixel to world. -/
theorem C17_world_roundtrip (g : GeoT K) (h : Invertible g) (nx ny : Nat) (lon lat : K) :
    ∃ x y, (mkCalc g nx ny).worldToPixel lon lat = .ok (x, y) ∧
      (mkCalc g nx ny).pixelToWorld x y = (lon, lat) := by
  unfold Invertible at h
  simp only [mkCalc, Calc.worldToPixel, Calc.pixelToWorld, invGeoT, if_neg h, Except.ok.injEq, Prod.mk.injEq]
  refine ⟨_, _, ⟨rfl, rfl⟩, ?_, ?_⟩
  · simp only [div_eq_mul_inv]
    linear_combination (lon - g.g0) * (mul_inv_cancel₀ h)
  · simp only [div_eq_mul_inv]
    linear_combination (lat - g.g3) * (mul_inv_cancel₀ h)

/-- C17, a singular geotransform cannot be inverted: every world-to-pixel query fails. -/
theorem C17_singular (g : GeoT K) (h : ¬ Invertible g) (nx ny : Nat) (lon lat : K) :
    (mkCalc g nx ny).worldToPixel lon lat = .error .typeError := by
  unfold Invertible at h
  simp only [mkCalc, Calc.worldToPixel, invGeoT]
  rw [if_pos (not_not.mp h)]

example : Invertible (⟨10, 2, 1, 20, -1, -3⟩ : GeoT ℚ) := by norm_num [Invertible]

/-! ### C18 -/

/-- Specification: a point is inside a box (boundary included). -/
def Box.Contains (b : Box K) (p : K × K) : Prop :=
  b.minX ≤ p.1 ∧ p.1 ≤ b.maxX ∧ b.minY ≤ p.2 ∧ p.2 ≤ b.maxY

/-- Specification: a position of the raster, in pixel coordinates. -/
def InRaster (nx ny : Nat) (x y : K) : Prop := 0 ≤ x ∧ x ≤ nx ∧ 0 ≤ y ∧ y ≤ ny

/-- C18 (partial: north-up rasters only, see `C18_rotated_false`): the extent contains every point of
the raster and every box that does contains the extent. -/
theorem C18_smallest_box_partial (g : GeoT K) (h2 : g.g2 = 0) (h4 : g.g4 = 0) (nx ny : Nat) :
    (∀ x y, InRaster nx ny x y → (mkCalc g nx ny).extent.Contains ((mkCalc g nx ny).pixelToWorld x y)) ∧
    (∀ b : Box K, (∀ x y, InRaster nx ny x y → b.Contains ((mkCalc g nx ny).pixelToWorld x y)) →
      b.minX ≤ (mkCalc g nx ny).extent.minX ∧ (mkCalc g nx ny).extent.maxX ≤ b.maxX ∧
      b.minY ≤ (mkCalc g nx ny).extent.minY ∧ (mkCalc g nx ny).extent.maxY ≤ b.maxY) := by
  have hnx : (0 : K) ≤ nx := Nat.cast_nonneg _
  have hny : (0 : K) ≤ ny := Nat.cast_nonneg _
  simp only [mkCalc, Calc.extent, Calc.pixelToWorld, boxOf, h2, h4, Box.Contains, mul_zero, zero_mul, add_zero]
  constructor
  · rintro x y ⟨hx0, hx1, hy0, hy1⟩
    refine ⟨?_, ?_, ?_, ?_⟩
    · rcases le_total 0 g.g1 with h | h
      · apply min_le_of_left_le; nlinarith
      · apply min_le_of_right_le; nlinarith
    · rcases le_total 0 g.g1 with h | h
      · apply le_max_of_le_right; nlinarith
      · apply le_max_of_le_left; nlinarith
    · rcases le_total 0 g.g5 with h | h
      · apply min_le_of_right_le; nlinarith
      · apply min_le_of_left_le; nlinarith
    · rcases le_total 0 g.g5 with h | h
      · apply le_max_of_le_left; nlinarith
      · apply le_max_of_le_right; nlinarith
  · intro b hb
    have h00 := hb 0 0 ⟨le_refl _, hnx, le_refl _, hny⟩
    have hnn := hb nx ny ⟨hnx, le_refl _, hny, le_refl _⟩
    simp only [zero_mul, add_zero] at h00
    exact ⟨le_min h00.1 hnn.1, max_le h00.2.1 hnn.2.1, le_min hnn.2.2.1 h00.2.2.1, max_le hnn.2.2.2 h00.2.2.2⟩

/-- One axis of C18: the interval of the two corner values contains every value exactly when the two steps do not have opposite signs. -/
theorem interval_iff (o a b nx ny : K) (hx : 0 < nx) (hy : 0 < ny) :
    (∀ x y, 0 ≤ x → x ≤ nx → 0 ≤ y → y ≤ ny → min o (o + nx * a + ny * b) ≤ o + x * a + y * b ∧ o + x * a + y * b ≤ max o (o + nx * a + ny * b)) ↔
      0 ≤ a * b := by
  constructor
  · intro h
    have h1 := h nx 0 hx.le le_rfl le_rfl hy.le
    have h2 := h 0 ny le_rfl hx.le hy.le le_rfl
    simp only [zero_mul, add_zero] at h1 h2
    by_contra hc
    push Not at hc
    rcases lt_or_ge 0 a with ha | ha
    · have hb : b < 0 := by by_contra hb; push Not at hb; nlinarith
      have p1 : 0 < nx * a := mul_pos hx ha
      have p2 : ny * b < 0 := mul_neg_of_pos_of_neg hy hb
      rcases le_max_iff.mp h1.2 with q | q <;> linarith
    · have ha' : a < 0 := lt_of_le_of_ne ha (by rintro rfl; simp at hc)
      have hb : 0 < b := by by_contra hb; push Not at hb; nlinarith
      have p1 : nx * a < 0 := mul_neg_of_pos_of_neg hx ha'
      have p2 : 0 < ny * b := mul_pos hy hb
      rcases min_le_iff.mp h1.1 with q | q <;> linarith
  · intro hab x y hx0 hx1 hy0 hy1
    rcases mul_nonneg_iff.mp hab with ⟨ha, hb⟩ | ⟨ha, hb⟩
    · have a1 := mul_le_mul_of_nonneg_right hx1 ha
      have a2 := mul_le_mul_of_nonneg_right hy1 hb
      have a3 := mul_nonneg hx0 ha
      have a4 := mul_nonneg hy0 hb
      exact ⟨min_le_of_left_le (by linarith), le_max_of_le_right (by linarith)⟩
    · have a1 := mul_le_mul_of_nonpos_right hx1 ha
      have a2 := mul_le_mul_of_nonpos_right hy1 hb
      have a3 := mul_nonpos_of_nonneg_of_nonpos hx0 ha
      have a4 := mul_nonpos_of_nonneg_of_nonpos hy0 hb
      exact ⟨min_le_of_right_le (by linarith), le_max_of_le_left (by linarith)⟩

/-- C18, exactly: for a raster with pixels the extent contains every point of the raster exactly when the two steps along each world axis do not
have opposite signs (in particular for north-up rasters); and whatever the geotransform, no box that contains the raster is smaller. -/
theorem C18_contains_iff_partial (g : GeoT K) (nx ny : Nat) (hx : 0 < nx) (hy : 0 < ny) :
    ((∀ x y, InRaster nx ny x y → (mkCalc g nx ny).extent.Contains ((mkCalc g nx ny).pixelToWorld x y)) ↔
      0 ≤ g.g1 * g.g2 ∧ 0 ≤ g.g4 * g.g5) ∧
    (∀ b : Box K, (∀ x y, InRaster nx ny x y → b.Contains ((mkCalc g nx ny).pixelToWorld x y)) →
      b.minX ≤ (mkCalc g nx ny).extent.minX ∧ (mkCalc g nx ny).extent.maxX ≤ b.maxX ∧
      b.minY ≤ (mkCalc g nx ny).extent.minY ∧ (mkCalc g nx ny).extent.maxY ≤ b.maxY) := by
  have hnx : (0 : K) < nx := by exact_mod_cast hx
  have hny : (0 : K) < ny := by exact_mod_cast hy
  constructor
  · rw [← interval_iff g.g0 g.g1 g.g2 nx ny hnx hny, ← interval_iff g.g3 g.g4 g.g5 nx ny hnx hny]
    simp only [InRaster, mkCalc, Calc.extent, Calc.pixelToWorld, boxOf, Box.Contains]
    constructor
    · intro h
      constructor
      · intro x y a1 a2 a3 a4
        have := h x y ⟨a1, a2, a3, a4⟩
        simp only [zero_mul, add_zero] at this
        exact ⟨this.1, this.2.1⟩
      · intro x y a1 a2 a3 a4
        have := h x y ⟨a1, a2, a3, a4⟩
        simp only [zero_mul, add_zero] at this
        rw [min_comm, max_comm]
        exact ⟨this.2.2.1, this.2.2.2⟩
    · rintro ⟨h1, h2⟩ x y ⟨a1, a2, a3, a4⟩
      have b1 := h1 x y a1 a2 a3 a4
      have b2 := h2 x y a1 a2 a3 a4
      simp only [zero_mul, add_zero]
      refine ⟨b1.1, b1.2, ?_, ?_⟩
      · rw [min_comm]; exact b2.1
      · rw [max_comm]; exact b2.2
  · intro b hb
    have h00 := hb 0 0 ⟨le_refl _, hnx.le, le_refl _, hny.le⟩
    have hnn := hb nx ny ⟨hnx.le, le_refl _, hny.le, le_refl _⟩
    simp only [mkCalc, Calc.extent, Calc.pixelToWorld, boxOf, Box.Contains] at *
    exact ⟨le_min h00.1 hnn.1, max_le h00.2.1 hnn.2.1, le_min hnn.2.2.1 h00.2.2.1, max_le hnn.2.2.2 h00.2.2.2⟩

example : ¬ (0 ≤ (⟨0, 1, 1, 0, 1, -1⟩ : GeoT ℚ).g4 * (⟨0, 1, 1, 0, 1, -1⟩ : GeoT ℚ).g5) ∧
    0 ≤ (⟨0, 1, 1, 0, -1, -2⟩ : GeoT ℚ).g4 * (⟨0, 1, 1, 0, -1, -2⟩ : GeoT ℚ).g5 := by norm_num

/-- C18 fails for a rotated raster: a corner of the raster lies outside the reported extent. -/
theorem C18_rotated_false : ∃ (g : GeoT ℚ) (nx ny : Nat) (x y : ℚ), Invertible g ∧ InRaster nx ny x y ∧
    ¬ (mkCalc g nx ny).extent.Contains ((mkCalc g nx ny).pixelToWorld x y) := by
  refine ⟨⟨0, 1, 1, 0, 1, -1⟩, 10, 10, 10, 0, ?_, ?_, ?_⟩
  · norm_num [Invertible]
  · norm_num [InRaster]
  · norm_num [mkCalc, Calc.extent, Calc.pixelToWorld, boxOf, Box.Contains]

example : InRaster 5 7 (5 / 2 : ℚ) 7 := by norm_num [InRaster]

/-! ### C23 -/

/-- Specification: the twenty monomials of the RPC00B cubic polynomial in the documented order
(`L` longitude, `P` latitude, `H` height, all normalised). -/
def rpc00bTerms (L P H : K) : List K :=
  [1, L, P, H, L * P, L * H, P * H, L ^ 2, P ^ 2, H ^ 2, P * L * H, L ^ 3, L * P ^ 2, L * H ^ 2,
   L ^ 2 * P, P ^ 3, P * H ^ 2, L ^ 2 * H, P ^ 2 * H, H ^ 3]

/-- Specification: value of an RPC00B polynomial with coefficients `a 0 .. a 19`. -/
def rpc00b (a : Nat → K) (L P H : K) : K :=
  ((rpc00bTerms L P H).zipIdx.map (fun ti => a ti.2 * ti.1)).sum

/-- The exact difference between the implemented polynomial and RPC00B: the nineteenth term is
`P² L` instead of `P² H`. -/
theorem C23_difference_partial (a : Nat → K) (L P H : K) :
    computeP a P L H = rpc00b a L P H + a 18 * P ^ 2 * (L - H) := by
  simp [rpc00b, rpc00bTerms, computeP, List.zipIdx]
  ring

/-- C23 (partial: only when the nineteenth coefficient of each of the four polynomials is 0): the
projection is the standard rational polynomial, scaled, offset and moved by half a pixel. -/
theorem C23_rpc00b_partial (r : Rpc K) (lon lat alt : K)
    (h : r.sampNum 18 = 0 ∧ r.sampDen 18 = 0 ∧ r.lineNum 18 = 0 ∧ r.lineDen 18 = 0)
    (hs : r.latScale ≠ 0 ∧ r.lonScale ≠ 0 ∧ r.hScale ≠ 0)
    (hd : rpc00b r.sampDen ((lon - r.lonOff) / r.lonScale) ((lat - r.latOff) / r.latScale)
        ((alt - r.hOff) / r.hScale) ≠ 0 ∧
      rpc00b r.lineDen ((lon - r.lonOff) / r.lonScale) ((lat - r.latOff) / r.latScale)
        ((alt - r.hOff) / r.hScale) ≠ 0) :
    let L := (lon - r.lonOff) / r.lonScale
    let P := (lat - r.latOff) / r.latScale
    let H := (alt - r.hOff) / r.hScale
    r.project lon lat alt = some
      (r.sampScale * (rpc00b r.sampNum L P H / rpc00b r.sampDen L P H) + r.sampOff + 1 / 2,
       r.lineScale * (rpc00b r.lineNum L P H / rpc00b r.lineDen L P H) + r.lineOff + 1 / 2) := by
  obtain ⟨h1, h2, h3, h4⟩ := h
  simp only [Rpc.project, Option.bind_eq_bind, fdiv, if_neg hs.1, if_neg hs.2.1, if_neg hs.2.2, Option.bind_some,
    C23_difference_partial, h1, h2, h3, h4, zero_mul, add_zero, if_neg hd.1, if_neg hd.2]
  rw [mul_comm r.sampScale, mul_comm r.lineScale]

/-- C23 fails: there are a coefficient set and a ground point where the computed sample differs from
the RPC00B value. -/
theorem C23_term19_false : ∃ (r : Rpc ℚ) (lon lat alt x y : ℚ), r.project lon lat alt = some (x, y) ∧
    x ≠ r.sampScale * (rpc00b r.sampNum ((lon - r.lonOff) / r.lonScale) ((lat - r.latOff) / r.latScale)
      ((alt - r.hOff) / r.hScale) / rpc00b r.sampDen ((lon - r.lonOff) / r.lonScale)
      ((lat - r.latOff) / r.latScale) ((alt - r.hOff) / r.hScale)) + r.sampOff + 1 / 2 := by
  let one : Nat → ℚ := fun i => if i = 0 then 1 else 0
  let num : Nat → ℚ := fun i => if i = 18 then 1 else 0
  refine ⟨⟨num, one, 1, 0, one, one, 1, 0, 1, 0, 1, 0, 1, 0⟩, 1, 1, 0, 3 / 2, 3 / 2, ?_, ?_⟩
  · norm_num [Rpc.project, fdiv, computeP, num, one]
  · norm_num [rpc00b, rpc00bTerms, List.zipIdx, num, one]

example : ∃ r : Rpc ℚ, (r.sampNum 18 = 0 ∧ r.sampDen 18 = 0 ∧ r.lineNum 18 = 0 ∧ r.lineDen 18 = 0) ∧
    (r.latScale ≠ 0 ∧ r.lonScale ≠ 0 ∧ r.hScale ≠ 0) ∧ rpc00b r.sampDen 1 2 3 ≠ 0 :=
  ⟨⟨fun i => i * (18 - i), fun i => if i = 0 then 1 else 0, 1, 0, fun _ => 0, fun _ => 0, 1, 0, 1, 0, 1, 0, 1, 0⟩,
    by norm_num, by norm_num, by norm_num [rpc00b, rpc00bTerms, List.zipIdx]⟩

end Verif.Geotiff
