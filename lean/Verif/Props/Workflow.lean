import Verif.Model.Workflow
import Verif.Props.Grids
import Verif.Props.Ortho
import Verif.Props.ImageUtils
import Verif.Lemmas.Base
import Mathlib.Tactic.NormNum
import Mathlib.Tactic.FieldSimp
import Mathlib.Tactic.Positivity
import Mathlib.Analysis.SpecialFunctions.Trigonometric.Arctan
import Mathlib.Analysis.SpecialFunctions.Log.Basic

/-! C91 (pixel to world and back, in any world projection), C92 (where a pixel sees the terrain), C93 (size of the full ortho image),
C94 (simulated images), C95 (IGM images), C96 (hemisphere of the local UTM projection), C98 (shifting points), C99 (principal components). -/

set_option linter.unusedSectionVars false
set_option linter.unusedVariables false

namespace Verif.Workflow
open Verif ImageUtils Geotiff Grids Ortho PointCalc

section
variable {K : Type} [Field K] [LinearOrder K] [IsStrictOrderedRing K]

/-! ### C91 -/

/-- The answer of a pixel-to-world call is right for the sensor: it projects onto the pixel. -/
def Answers (forward : K → K → K → K × K) (native : K → K → K → Option (K × K)) (solve : K → K → K → Py (K × K)) (x y alt : K) : Prop :=
  ∃ p, (native x y alt = some p ∨ (native x y alt = none ∧ solve x y alt = .ok p)) ∧ forward p.1 p.2 alt = (x, y)

/-- PARTIAL (horizontal transforms): a pixel taken to the world in any projection and back is the same pixel, when the sensor's own answer (closed form or
solver) is right, and pyproj's transform to the native projection undoes the one from it and leaves altitudes alone. -/
theorem C91_roundtrip_partial (forward : K → K → K → K × K) (native : K → K → K → Option (K × K)) (solve : K → K → K → Py (K × K))
    (T2 : K → K → K × K) (T3 : K → K → K → K × K × K) (hT : ∀ lon lat alt, T3 (T2 lon lat).1 (T2 lon lat).2 alt = (lon, lat, alt))
    (x y alt : K) (h : Answers forward native solve x y alt) :
    (∃ w, pixelToWorld native solve (some T2) x y alt = .ok w ∧
      worldToPixel forward (some T3) (.num w.1) (.num w.2) (some (.num alt)) = .ok (.num x, .num y)) ∧
    (∃ w, pixelToWorld native solve none x y alt = .ok w ∧
      worldToPixel forward none (.num w.1) (.num w.2) (some (.num alt)) = .ok (.num x, .num y)) := by
  obtain ⟨p, hp, hf⟩ := h
  have hb : nativeOrSolve native solve x y alt = .ok p := by
    unfold nativeOrSolve
    rcases hp with hp | ⟨hp, hs⟩
    · rw [hp]
    · rw [hp, hs]
  constructor
  · refine ⟨T2 p.1 p.2, ?_, ?_⟩
    · unfold pixelToWorld
      rw [hb, ok_bind]
    · have := hT p.1 p.2 alt
      simp only [worldToPixel, calcVec, nativeVec, bcast, bAt, ok_bind, and_self, if_true, this, hf]
      rfl
  · refine ⟨p, ?_, ?_⟩
    · unfold pixelToWorld
      rw [hb, ok_bind]
    · simp only [worldToPixel, calcVec, nativeVec, bcast, bAt, ok_bind, and_self, if_true, hf]
      rfl

/-- Without a closed form the solver's error is the call's error. -/
theorem C91_solver_error (native : K → K → K → Option (K × K)) (solve : K → K → K → Py (K × K)) (T : Option (K → K → K × K)) (x y alt : K)
    (e : Err) (h1 : native x y alt = none) (h2 : solve x y alt = .error e) : pixelToWorld native solve T x y alt = .error e := by
  unfold pixelToWorld nativeOrSolve
  rw [h1, h2]
  rfl

/-- FALSE: "the altitude given is in the sensor's own reference in both directions".  Pixel to world leaves it alone, world to pixel transforms it: with a
projection whose heights differ by a constant a sensor that looks slantwise does not find its pixel again. -/
theorem C91_vertical_false : ∃ (forward : ℚ → ℚ → ℚ → ℚ × ℚ) (native : ℚ → ℚ → ℚ → Option (ℚ × ℚ)) (T2 : ℚ → ℚ → ℚ × ℚ)
    (T3 : ℚ → ℚ → ℚ → ℚ × ℚ × ℚ) (x y alt : ℚ) (w : ℚ × ℚ), Answers forward native (fun _ _ _ => .error .valueError) x y alt ∧
    (∀ lon lat alt, T3 (T2 lon lat).1 (T2 lon lat).2 alt = (lon, lat, alt + 30)) ∧
    pixelToWorld native (fun _ _ _ => .error .valueError) (some T2) x y alt = .ok w ∧
    worldToPixel forward (some T3) (.num w.1) (.num w.2) (some (.num alt)) = .ok (.num (x + 30), .num y) := by
  refine ⟨fun lon lat alt => (lon + alt, lat), fun x y alt => some (x - alt, y), fun lon lat => (2 * lon, 2 * lat),
    fun lon lat alt => (lon / 2, lat / 2, alt + 30), 5, 7, 100, (2 * (5 - 100), 2 * 7), ⟨(5 - 100, 7), Or.inl rfl, by norm_num⟩, ?_, rfl, ?_⟩
  · intro lon lat alt; simp
  · simp only [worldToPixel, calcVec, nativeVec, bcast, bAt, ok_bind, and_self, if_true]
    norm_num

example : ∃ (native : ℚ → ℚ → ℚ → Option (ℚ × ℚ)), Answers (fun lon lat alt => (lon + alt, lat)) native (fun _ _ _ => .error .valueError) 5 7 100 :=
  ⟨fun x y alt => some (x - alt, y), (5 - 100, 7), Or.inl rfl, by norm_num⟩

/-! ### C92 -/

/-- The pixel sees the terrain at `p`: `p` is the pixel's position at some altitude, and the terrain there has that altitude. -/
def Sees (toLonLat : K → K → K → K × K) (terrain : K → K → K) (x y : K) (p : K × K) : Prop :=
  ∃ alt, p = toLonLat x y alt ∧ terrain p.1 p.2 = alt

/-- PARTIAL (flat terrain): the point returned is where the pixel sees the terrain. -/
theorem C92_flat_partial (toLonLat : K → K → K → K × K) (e highest x y : K) :
    pixelLonLat toLonLat (fun _ _ => e) highest x y = toLonLat x y e ∧
      Sees toLonLat (fun _ _ => e) x y (pixelLonLat toLonLat (fun _ _ => e) highest x y) := by
  have h : pixelLonLat toLonLat (fun _ _ => e) highest x y = toLonLat x y e := by
    simp only [pixelLonLat, sub_sub_cancel]
  exact ⟨h, e, h, rfl⟩

/-- PARTIAL (one correction step): the point returned is the pixel's position at the altitude of the terrain below its position at the highest altitude; if terrain
altitudes change by at most `L` per unit of distance, the terrain at the returned point is within `L` times the correction of that altitude. -/
theorem C92_one_step_partial (toLonLat : K → K → K → K × K) (terrain : K → K → K) (highest x y L : K)
    (hL : ∀ a b c d, |terrain a b - terrain c d| ≤ L * (|a - c| + |b - d|)) :
    let first := toLonLat x y highest
    let p := pixelLonLat toLonLat terrain highest x y
    p = toLonLat x y (terrain first.1 first.2) ∧
      |terrain p.1 p.2 - terrain first.1 first.2| ≤ L * (|p.1 - first.1| + |p.2 - first.2|) := by
  intro first p
  refine ⟨?_, hL _ _ _ _⟩
  simp only [p, pixelLonLat, sub_sub_cancel, first]

/-- FALSE: on sloping terrain the point returned is not where the pixel sees the terrain. -/
theorem C92_slope_false : ∃ (toLonLat : ℚ → ℚ → ℚ → ℚ × ℚ) (terrain : ℚ → ℚ → ℚ) (highest : ℚ) (x y : ℚ),
    (∃ p, Sees toLonLat terrain x y p) ∧ ¬ Sees toLonLat terrain x y (pixelLonLat toLonLat terrain highest x y) := by
  refine ⟨fun x y alt => (x + alt / 2, y), fun lon _ => lon, 10, 2, 0, ⟨(4, 0), 4, by norm_num, rfl⟩, ?_⟩
  rintro ⟨alt, h1, h2⟩
  simp only [pixelLonLat] at h1 h2
  have := congrArg Prod.fst h1
  simp only at this
  norm_num at this h2
  linarith

/-- FALSE: with a DEM in another projection than the sensor's the elevations are looked up at the sensor's coordinates, unconverted (here: metres against
kilometres), so that even on terrain that is flat around the pixel the point is wrong. -/
theorem C92_projection_false : ∃ (toLonLat : ℚ → ℚ → ℚ → ℚ × ℚ) (dem : ℚ → ℚ → ℚ) (conv : ℚ → ℚ → ℚ × ℚ) (highest x y : ℚ),
    Sees toLonLat (fun lon lat => dem (conv lon lat).1 (conv lon lat).2) x y (toLonLat x y 0) ∧
    ¬ Sees toLonLat (fun lon lat => dem (conv lon lat).1 (conv lon lat).2) x y (pixelLonLat toLonLat dem highest x y) := by
  refine ⟨fun x y alt => (x + alt, y), fun lon _ => if lon < 100 then 0 else 50, fun lon lat => (lon / 1000, lat / 1000), 50, 200, 0,
    ⟨0, rfl, by norm_num⟩, ?_⟩
  rintro ⟨alt, h1, h2⟩
  norm_num [pixelLonLat] at h1 h2
  subst h2
  norm_num at h1

example : Sees (fun x y alt => (x + alt / 2, y)) (fun lon _ => lon) (2 : ℚ) 0 (4, 0) := ⟨4, by norm_num, rfl⟩

/-! ### C93 -/

variable [FloorRing K]

/-- The counts are the largest numbers of pixels of the requested size that fit in the extent, and the columns of the output (its ground grid) are at least the
requested distance apart and less than one part in their number more. -/
theorem C93_spacing (b : Box K) (gsd : K) (hg : 0 < gsd) (hx : b.minX ≤ b.maxX) (hy : b.minY ≤ b.maxY) (hw : 2 * gsd ≤ b.maxX - b.minX)
    (hh : 2 * gsd ≤ b.maxY - b.minY) :
    ∃ nx ny : Nat, fullSize b gsd = .ok ((nx : Int), (ny : Int)) ∧ 2 ≤ nx ∧ 2 ≤ ny ∧
      (nx : K) * gsd ≤ b.maxX - b.minX ∧ b.maxX - b.minX < (nx + 1) * gsd ∧
      (ny : K) * gsd ≤ b.maxY - b.minY ∧ b.maxY - b.minY < (ny + 1) * gsd ∧
      ∃ gx gy, groundGrid b.minX b.maxX b.minY b.maxY nx ny = .ok (gx, gy) ∧
        ∀ j i, gsd ≤ gx.px j (i + 1) - gx.px j i ∧ gx.px j (i + 1) - gx.px j i < gsd + gsd / nx ∧
          gsd ≤ gy.px j i - gy.px (j + 1) i ∧ gy.px j i - gy.px (j + 1) i < gsd + gsd / ny := by
  have count : ∀ d : K, 2 * gsd ≤ d → ∃ n : Nat, pixelCount |d| gsd = .ok (n : Int) ∧ 2 ≤ n ∧ (n : K) * gsd ≤ d ∧ d < (n + 1) * gsd := by
    intro d hd
    have d0 : 0 ≤ d := by linarith
    have hq : 0 ≤ d / gsd := div_nonneg d0 hg.le
    have hf : 0 ≤ ⌊d / gsd⌋ := Int.floor_nonneg.2 hq
    refine ⟨⌊d / gsd⌋.toNat, ?_, ?_, ?_, ?_⟩
    · rw [abs_of_nonneg d0, pixelCount, if_neg hg.ne', pyInt, if_pos hq, Int.toNat_of_nonneg hf]
    · have : (2 : Int) ≤ ⌊d / gsd⌋ := by
        rw [Int.le_floor, le_div_iff₀ hg]
        exact_mod_cast hd
      omega
    · have e : ((⌊d / gsd⌋.toNat : Nat) : K) = ((⌊d / gsd⌋ : Int) : K) := by
        rw [← Int.cast_natCast, Int.toNat_of_nonneg hf]
      rw [e, ← le_div_iff₀ hg]
      exact Int.floor_le _
    · have e : ((⌊d / gsd⌋.toNat : Nat) : K) = ((⌊d / gsd⌋ : Int) : K) := by
        rw [← Int.cast_natCast, Int.toNat_of_nonneg hf]
      rw [e, ← div_lt_iff₀ hg]
      exact Int.lt_floor_add_one _
  obtain ⟨nx, e1, x2, x3, x4⟩ := count _ hw
  obtain ⟨ny, e2, y2, y3, y4⟩ := count _ hh
  obtain ⟨gx, gy, hgg, -, -, -, -, hv⟩ := C34_cell_centres b.minX b.maxX b.minY b.maxY hx hy nx ny x2 y2
  refine ⟨nx, ny, ?_, x2, y2, x3, x4, y3, y4, gx, gy, hgg, ?_⟩
  · unfold fullSize
    rw [e1, e2]
    rfl
  · intro j i
    have ex : ∀ j i, gx.px j i = b.minX + ((i : K) + 1 / 2) * ((b.maxX - b.minX) / nx) := fun j i => congrArg Prod.fst (hv j i)
    have ey : ∀ j i, gy.px j i = b.maxY - ((j : K) + 1 / 2) * ((b.maxY - b.minY) / ny) := fun j i => congrArg Prod.snd (hv j i)
    have hnx : (0 : K) < nx := by exact_mod_cast (by omega : 0 < nx)
    have hny : (0 : K) < ny := by exact_mod_cast (by omega : 0 < ny)
    have sx : gx.px j (i + 1) - gx.px j i = (b.maxX - b.minX) / nx := by rw [ex, ex]; push_cast; ring
    have sy : gy.px j i - gy.px (j + 1) i = (b.maxY - b.minY) / ny := by rw [ey, ey]; push_cast; ring
    rw [sx, sy]
    refine ⟨?_, ?_, ?_, ?_⟩
    · rw [le_div_iff₀ hnx]; linarith
    · rw [div_lt_iff₀ hnx]
      have : (gsd + gsd / nx) * nx = (nx + 1) * gsd := by field_simp
      rw [this]; exact x4
    · rw [le_div_iff₀ hny]; linarith
    · rw [div_lt_iff₀ hny]
      have : (gsd + gsd / ny) * ny = (ny + 1) * gsd := by field_simp
      rw [this]; exact y4

/-- FALSE: "any image can be orthorectified at any distance".  The extent is in the image's units and the distance in metres: an extent smaller than two of them -
so any image with coordinates in degrees, unless its pixels are kilometres wide - is an IndexError. -/
theorem C93_degrees_false (resample : A2 K → K → K → K) (s : Source K) (ext : Box K) (dem : K → K → K) (bands : Option (List Nat)) (nodata gsd : K)
    (hg : 0 < gsd) (h : |ext.maxX - ext.minX| < 2 * gsd ∨ |ext.maxY - ext.minY| < 2 * gsd) :
    fullOrtho resample s ext dem bands nodata gsd = .error .indexError := by
  have count : ∀ d : K, ∃ n : Int, pixelCount |d| gsd = .ok n ∧ (|d| < 2 * gsd → n.toNat < 2) := by
    intro d
    refine ⟨pyInt (|d| / gsd), by rw [pixelCount, if_neg hg.ne'], ?_⟩
    intro hd
    rw [pyInt, if_pos (div_nonneg (abs_nonneg _) hg.le)]
    have : ⌊|d| / gsd⌋ < 2 := by
      rw [Int.floor_lt, div_lt_iff₀ hg]
      exact_mod_cast hd
    omega
  obtain ⟨nx, e1, h1⟩ := count (ext.maxX - ext.minX)
  obtain ⟨ny, e2, h2⟩ := count (ext.maxY - ext.minY)
  have : fullSize ext gsd = .ok (nx, ny) := by
    unfold fullSize
    rw [e1, e2]; rfl
  unfold fullOrtho
  rw [this, ok_bind]
  unfold ortho
  rw [C34_too_small]
  · rfl
  · rcases h with h | h
    · exact Or.inl (h1 h)
    · exact Or.inr (h2 h)

/-- The image itself, end to end: of the counted size, without alpha band, each pixel the resampled source pixel at its ground position, or no-data
where that is not inside. -/
theorem C93_image (resample : A2 K → K → K → K) (s : Source K) (hco : s.coregistered = true) (cube : A3 K) (hl : s.loaded = some cube) (ext : Box K)
    (dem : K → K → K) (bands : List Nat) (hne : bands ≠ []) (hb : ∀ b ∈ bands, b < cube.nb) (nodata gsd : K) (hg : 0 < gsd)
    (hx : ext.minX ≤ ext.maxX) (hy : ext.minY ≤ ext.maxY) (hw : 2 * gsd ≤ ext.maxX - ext.minX) (hh : 2 * gsd ≤ ext.maxY - ext.minY) :
    ∃ (nx ny : Nat) (out : A3 K), fullSize ext gsd = .ok ((nx : Int), (ny : Int)) ∧ fullOrtho resample s ext dem (some bands) nodata gsd = .ok out ∧
      out.ny = ny ∧ out.nx = nx ∧ out.nb = bands.length ∧
      ∀ j i k b, j < ny → i < nx → bands[k]? = some b →
        (Outside s.npixX s.npixY (sourcePos s ext dem nx ny 0 j i) → out.px j i k = s.cast nodata) ∧
        (TwoInside s.npixX s.npixY (sourcePos s ext dem nx ny 0 j i) →
          out.px j i k = s.cast (resample ⟨cube.ny, cube.nx, fun y x => cube.px y x b⟩
            (sourcePos s ext dem nx ny 0 j i).2 (sourcePos s ext dem nx ny 0 j i).1)) := by
  obtain ⟨nx, ny, hs, x2, y2, -⟩ := C93_spacing ext gsd hg hx hy hw hh
  obtain ⟨out, ho, e1, e2, e3, e4⟩ := C36_coregistered resample s hco cube hl nx ny x2 y2 ext hx hy dem bands hne hb nodata
  refine ⟨nx, ny, out, hs, ?_, e1, e2, e3, e4⟩
  unfold fullOrtho
  rw [hs, ok_bind]
  exact ho

/-- A distance of zero is an error: OverflowError, or ValueError when the extent has no width. -/
theorem C93_zero (b : Box K) : fullSize b 0 = .error (if b.minX = b.maxX then .valueError else .overflow) := by
  unfold fullSize pixelCount
  by_cases h : b.minX = b.maxX
  · rw [if_pos rfl, if_pos (by rw [abs_eq_zero, sub_eq_zero]; exact h.symm), if_pos h]; rfl
  · rw [if_pos rfl, if_neg (by rw [abs_eq_zero, sub_eq_zero]; exact fun e => h e.symm), if_neg h]; rfl

example : ∃ nx ny : Nat, fullSize (⟨0, 0, 100, 50⟩ : Box ℚ) 7 = .ok ((nx : Int), (ny : Int)) ∧ 2 ≤ nx ∧ 2 ≤ ny := by
  obtain ⟨nx, ny, h, h1, h2, -⟩ := C93_spacing (⟨0, 0, 100, 50⟩ : Box ℚ) 7 (by norm_num) (by norm_num) (by norm_num) (by norm_num) (by norm_num)
  exact ⟨nx, ny, h, h1, h2⟩

end

/-- PARTIAL: for pixels `s` apart along rows and along columns, the default distance is short of `s` by half of `s/nx + s/ny`. -/
theorem C93_default_gsd_partial (nx ny : Nat) (hx : 0 < nx) (hy : 0 < ny) (p0 p1 p2 : ℝ × ℝ) (s : ℝ)
    (h1 : Real.sqrt ((p1.1 - p0.1) ^ 2 + (p1.2 - p0.2) ^ 2) = (nx - 1) * s)
    (h2 : Real.sqrt ((p2.1 - p0.1) ^ 2 + (p2.2 - p0.2) ^ 2) = (ny - 1) * s) :
    ∃ g, defaultGsd nx ny p0 p1 p2 = .ok g ∧ g = s - (s / nx + s / ny) / 2 := by
  have hnx : (nx : ℝ) ≠ 0 := by exact_mod_cast hx.ne'
  have hny : (ny : ℝ) ≠ 0 := by exact_mod_cast hy.ne'
  unfold defaultGsd
  simp only []
  rw [if_neg (by omega), h1, h2]
  refine ⟨_, rfl, ?_⟩
  field_simp
  ring

/-- FALSE: "the default distance is the pixel spacing": it is always smaller. -/
theorem C93_default_gsd_false (nx ny : Nat) (hx : 0 < nx) (hy : 0 < ny) (p0 p1 p2 : ℝ × ℝ) (s : ℝ) (hs : 0 < s)
    (h1 : Real.sqrt ((p1.1 - p0.1) ^ 2 + (p1.2 - p0.2) ^ 2) = (nx - 1) * s)
    (h2 : Real.sqrt ((p2.1 - p0.1) ^ 2 + (p2.2 - p0.2) ^ 2) = (ny - 1) * s) :
    ∃ g, defaultGsd nx ny p0 p1 p2 = .ok g ∧ g < s := by
  obtain ⟨g, hg, e⟩ := C93_default_gsd_partial nx ny hx hy p0 p1 p2 s h1 h2
  refine ⟨g, hg, ?_⟩
  have hnx : (0 : ℝ) < nx := by exact_mod_cast hx
  have hny : (0 : ℝ) < ny := by exact_mod_cast hy
  have : 0 < s / nx + s / ny := by positivity
  linarith

example : Real.sqrt (((8 : ℝ) - 0) ^ 2 + (0 - 0) ^ 2) = ((5 : Nat) - 1 : ℝ) * 2 := by
  rw [show ((8 : ℝ) - 0) ^ 2 + (0 - 0) ^ 2 = 8 ^ 2 by norm_num, Real.sqrt_sq (by norm_num)]; norm_num

section
variable {K : Type} [Field K] [LinearOrder K] [IsStrictOrderedRing K] [FloorRing K]

/-! ### C94 -/

theorem grid_unit (nx ny : Nat) : ∃ gx gy, createPixelGrid nx ny (1 : K) = .ok (gx, gy) ∧ gx.ny = ny ∧ gx.nx = nx ∧ gy.ny = ny ∧ gy.nx = nx ∧
    ∀ j i, gx.px j i = (i : K) ∧ gy.px j i = (j : K) := by
  unfold createPixelGrid arangeF
  rw [if_neg one_ne_zero, if_neg (by norm_num), if_neg (by norm_num)]
  refine ⟨_, _, rfl, ?_, ?_, ?_, ?_, ?_⟩ <;> simp

/-- The simulated image has the camera's size and one band; pixel `(j, i)` is the geotiff sampled where the ground point of pixel `x = i`, `y = j` at altitude zero
falls. -/
theorem C94_values (ground : K → K → K → K × K) (geo : K → K → K × K) (resample : A2 K → K → K → K) (band : A2 K) (npixX npixY : Nat) :
    ∃ im, simulate ground geo resample band npixX npixY = .ok im ∧ im.ny = npixY ∧ im.nx = npixX ∧ im.nb = 1 ∧
      ∀ j i b, j < npixY → i < npixX →
        im.px j i b = resample band (geo (ground i j 0).1 (ground i j 0).2).2 (geo (ground i j 0).1 (ground i j 0).2).1 := by
  obtain ⟨gx, gy, hg, h1, h2, h3, h4, hv⟩ := grid_unit (K := K) npixX npixY
  unfold simulate
  rw [hg, ok_bind]
  simp only [flattenBand, unflattenBand, h1, h2, if_true, ok_bind]
  refine ⟨_, rfl, rfl, rfl, rfl, ?_⟩
  intro j i b hj hi
  simp only []
  have e1 : (j * npixX + i) / npixX = j := by
    rw [Nat.mul_comm, Nat.mul_add_div (by omega), Nat.div_eq_of_lt hi, Nat.add_zero]
  have e2 : (j * npixX + i) % npixX = i := by
    rw [Nat.mul_comm, Nat.mul_add_mod, Nat.mod_eq_of_lt hi]
  rw [e1, e2, (hv j i).1, (hv j i).2, mul_zero]

theorem simRun_kept (geo : K → K → K × K) (resample : A2 K → K → K → K) (npixX npixY : Nat) (ops : List (SimOp K)) :
    ∀ s : SimState K, ∀ b, s.kept = some b → (simRun geo resample npixX npixY s ops).kept = some b := by
  induction ops with
  | nil => intro s b h; exact h
  | cons o os ih =>
    intro s b h
    refine ih _ b ?_
    cases o with
    | write c => exact h
    | image g => simp only [simStep, SimState.use, h]

/-- Every image after the first shows the geotiff as it was when the first one was made, whatever has been written since. -/
theorem C94_first_band (geo : K → K → K × K) (resample : A2 K → K → K → K) (npixX npixY : Nat) (disk : A2 K) (writes : List (A2 K))
    (later : List (SimOp K)) (g1 g2 : K → K → K → K × K) :
    let s0 : SimState K := ⟨disk, none⟩
    let s1 := simRun geo resample npixX npixY s0 (writes.map .write)
    let first := writes.getLast?.getD disk
    (simStep geo resample npixX npixY s1 (.image g1)).2 = some (simulate g1 geo resample first npixX npixY) ∧
    (simStep geo resample npixX npixY (simRun geo resample npixX npixY s0 (writes.map .write ++ .image g1 :: later)) (.image g2)).2 =
      some (simulate g2 geo resample first npixX npixY) := by
  have hw : ∀ (ws : List (A2 K)) (d : A2 K), simRun geo resample npixX npixY ⟨d, none⟩ (ws.map .write) = ⟨ws.getLast?.getD d, none⟩ := by
    intro ws
    induction ws with
    | nil => intro d; rfl
    | cons w ws ih =>
      intro d
      rw [List.map_cons]
      show simRun geo resample npixX npixY ⟨w, none⟩ (ws.map .write) = _
      rw [ih w, List.getLast?_cons]
      simp
  have happ : ∀ (a b : List (SimOp K)) (s : SimState K), simRun geo resample npixX npixY s (a ++ b) =
      simRun geo resample npixX npixY (simRun geo resample npixX npixY s a) b := by
    intro a
    induction a with
    | nil => intro b s; rfl
    | cons o a ih => intro b s; exact ih b _
  intro s0 s1 first
  have hs1 : s1 = ⟨first, none⟩ := hw writes disk
  constructor
  · rw [hs1]; rfl
  · rw [happ]
    change (simStep geo resample npixX npixY (simRun geo resample npixX npixY (simStep geo resample npixX npixY s1 (.image g1)).1 later) (.image g2)).2 = _
    have hk : (simRun geo resample npixX npixY (simStep geo resample npixX npixY s1 (.image g1)).1 later).kept = some first := by
      apply simRun_kept
      rw [hs1]; rfl
    have huse : ∀ (s : SimState K) b, s.kept = some b → s.use.1 = b := by
      intro s b h
      simp only [SimState.use, h]
    show some (simulate g2 geo resample (SimState.use _).1 npixX npixY) = _
    rw [huse _ _ hk]

/-- FALSE: "the simulated image shows the geotiff at each pixel's ground point".  The ground point is in the simulator's world projection, the geotiff is asked in its own:
with a world projection in kilometres every pixel is sampled elsewhere. -/
theorem C94_projection_false : ∃ (ground : ℚ → ℚ → ℚ → ℚ × ℚ) (geo conv : ℚ → ℚ → ℚ × ℚ) (band : A2 ℚ) (im : A3 ℚ),
    simulate ground geo (fun img y x => img.px ⌊y⌋.toNat ⌊x⌋.toNat) band 2 2 = .ok im ∧
    ∃ j i, im.px j i 0 ≠ band.px ⌊(geo (conv (ground i j 0).1 (ground i j 0).2).1 (conv (ground i j 0).1 (ground i j 0).2).2).2⌋.toNat
      ⌊(geo (conv (ground i j 0).1 (ground i j 0).2).1 (conv (ground i j 0).1 (ground i j 0).2).2).1⌋.toNat := by
  obtain ⟨im, h, -, -, -, hv⟩ := C94_values (K := ℚ) (fun x y _ => (x, y)) (fun lon lat => (lon, lat))
    (fun img y x => img.px ⌊y⌋.toNat ⌊x⌋.toNat) ⟨5000, 5000, fun y x => x⟩ 2 2
  refine ⟨_, _, fun lon lat => (1000 * lon, 1000 * lat), _, im, h, 0, 1, ?_⟩
  rw [hv 0 1 0 (by norm_num) (by norm_num)]
  have : (Int.toNat 1000) = 1000 := rfl
  norm_num [this]

/-! ### C95 -/

/-- The IGM image has the ray caster's shape, the image's data and band count, and its pixel `(x, y)` is at the position the ray caster found for that pixel; the
altitudes are kept too. -/
theorem C95_igm (npixX npixY : Nat) (hx : 0 < npixX) (hy : 0 < npixY) (cast : A2 K → A2 K → Py (A2 K × A2 K × A2 K)) (ray : K → K → K × K × K)
    (hcast : ∀ gx gy : A2 K, cast gx gy = .ok (⟨gx.ny, gx.nx, fun j i => (ray (gx.px j i) (gy.px j i)).1⟩,
      ⟨gx.ny, gx.nx, fun j i => (ray (gx.px j i) (gy.px j i)).2.1⟩, ⟨gx.ny, gx.nx, fun j i => (ray (gx.px j i) (gy.px j i)).2.2⟩)) (c : A3 K) :
    ∃ im, createIgm npixX npixY cast (.cube c) = .ok im ∧ im.data = c ∧ im.nb = c.nb ∧ im.nx = npixX ∧ im.ny = npixY ∧
      (∀ y x : Nat, y < npixY → x < npixX → im.igm.pixelToLonLat (x : Int) (y : Int) = .ok ((ray x y).1, (ray x y).2.1) ∧
        im.igm.alts.px y x = (ray x y).2.2) := by
  obtain ⟨gx, gy, hg, h1, h2, h3, h4, hv⟩ := grid_unit (K := K) npixX npixY
  unfold createIgm
  rw [hg, ok_bind, hcast, ok_bind]
  simp only []
  unfold mkIgm
  rw [if_neg (by simp only []; omega), ok_bind]
  refine ⟨_, rfl, rfl, rfl, h2, h1, ?_⟩
  intro y x hy' hx'
  constructor
  · simp only [Igm.pixelToLonLat]
    rw [pyIdx_nat (by rw [h1]; exact hy'), ok_bind, pyIdx_nat (by rw [h2]; exact hx'), ok_bind, (hv y x).1, (hv y x).2]
  · simp only []
    rw [(hv y x).1, (hv y x).2]

/-- FALSE: "an IGM image can be made of any image": one whose data are not in memory is an AttributeError, a two-dimensional one an IndexError - after the rays have
been cast. -/
theorem C95_data_false (npixX npixY : Nat) (cast : A2 K → A2 K → Py (A2 K × A2 K × A2 K)) (r : A2 K × A2 K × A2 K)
    (h : ∀ gx gy, cast gx gy = .ok r) (a : A2 K) :
    createIgm npixX npixY cast (.none : Data K) = .error .attributeError ∧ createIgm npixX npixY cast (.flat a) = .error .indexError := by
  obtain ⟨gx, gy, hg, -⟩ := grid_unit (K := K) npixX npixY
  constructor <;>
  · unfold createIgm
    rw [hg, ok_bind, h, ok_bind]

example : ∃ im, createIgm 3 2 (fun gx gy => .ok (⟨gx.ny, gx.nx, fun j i => gx.px j i + 1⟩, ⟨gx.ny, gx.nx, fun j i => gy.px j i⟩,
    ⟨gx.ny, gx.nx, fun j i => gx.px j i * gy.px j i⟩)) (.cube (⟨2, 3, 4, fun y x b => y + x + b⟩ : A3 ℚ)) = .ok im ∧ im.nb = 4 := by
  obtain ⟨im, h, -, hb, -⟩ := C95_igm (K := ℚ) 3 2 (by norm_num) (by norm_num)
    (fun gx gy => .ok (⟨gx.ny, gx.nx, fun j i => gx.px j i + 1⟩, ⟨gx.ny, gx.nx, fun j i => gy.px j i⟩,
      ⟨gx.ny, gx.nx, fun j i => gx.px j i * gy.px j i⟩)) (fun x y => (x + 1, y, x * y)) (fun gx gy => rfl) ⟨2, 3, 4, fun y x b => y + x + b⟩
  exact ⟨im, h, hb⟩

/-! ### C96 -/

/-- The local UTM projection is a southern one exactly for points south of the equator; latitudes UTM does not cover are rejected. -/
theorem C96_hemisphere (lat : K) :
    (-80 ≤ lat ∧ lat ≤ 84 → ∃ s, utmSouth lat = .ok s ∧ (s = true ↔ lat < 0)) ∧
    (¬ (-80 ≤ lat ∧ lat ≤ 84) → utmSouth lat = .error .valueError) := by
  constructor
  · intro h
    obtain ⟨h1, h2⟩ := h
    have hn : pyInt (lat + 80) = ⌊lat + 80⌋ := by rw [pyInt, if_pos (by linarith)]
    have f0 : 0 ≤ ⌊lat + 80⌋ := Int.floor_nonneg.2 (by linarith)
    have f1 : ⌊lat + 80⌋ ≤ 164 := by
      have : ⌊lat + 80⌋ < 165 := by rw [Int.floor_lt]; push_cast; linarith
      omega
    have hs : (⌊lat + 80⌋ < 80) ↔ lat < 0 := by
      rw [Int.floor_lt]; push_cast
      constructor <;> intro h <;> linarith
    have table : ∀ q : Fin 21, ∃ c, "CDEFGHJKLMNPQRSTUVWXX".toList[(q : Nat)]? = some c ∧ (c < 'N' ↔ (q : Nat) < 10) := by
      decide +kernel
    obtain ⟨c, hc, hlt⟩ := table ⟨(⌊lat + 80⌋ / 8).toNat, by omega⟩
    simp only at hc hlt
    refine ⟨decide (c < 'N'), ?_, ?_⟩
    · unfold utmSouth utmLetter
      rw [if_pos ⟨h1, h2⟩, hn, hc]
      rfl
    · rw [decide_eq_true_iff, hlt, ← hs]
      omega
  · intro h
    unfold utmSouth utmLetter
    rw [if_neg h]
    rfl

example : utmSouth (-33 : ℚ) = .ok true ∧ utmSouth (43 : ℚ) = .ok false := by
  obtain ⟨s, h1, h2⟩ := (C96_hemisphere (-33 : ℚ)).1 (by norm_num)
  obtain ⟨t, h3, h4⟩ := (C96_hemisphere (43 : ℚ)).1 (by norm_num)
  have hs : s = true := h2.2 (by norm_num)
  have ht : t = false := by
    cases t with
    | false => rfl
    | true => have := h4.1 rfl; norm_num at this
  rw [h1, h3, hs, ht]
  exact ⟨rfl, rfl⟩

/-! ### C98 -/

/-- Shifts add up and can be undone, when pyproj's transforms undo each other. -/
theorem C98_shifts (fwd back : K × K → K × K) (h1 : ∀ p, back (fwd p) = p) (h2 : ∀ p, fwd (back p) = p) (e n e' n' : K) (p : K × K) :
    shiftPoint fwd back e' n' (shiftPoint fwd back e n p) = shiftPoint fwd back (e + e') (n + n') p ∧
    shiftPoint fwd back (-e) (-n) (shiftPoint fwd back e n p) = p ∧ shiftPoint fwd back 0 0 p = p ∧
    (fwd (shiftPoint fwd back e n p)).1 = (fwd p).1 + e ∧ (fwd (shiftPoint fwd back e n p)).2 = (fwd p).2 + n := by
  unfold shiftPoint
  simp [h1, h2, add_assoc]

/-- The envelope has the given bounds when they are ordered, whatever was called minimum and maximum otherwise. -/
theorem C98_bounds (minX maxX maxY minY : K) :
    (minX ≤ maxX → minY ≤ maxY → boundsPolygon minX maxX maxY minY = ⟨minX, minY, maxX, maxY⟩) ∧
    boundsPolygon minX maxX maxY minY = boundsPolygon maxX minX maxY minY ∧
    boundsPolygon minX maxX maxY minY = boundsPolygon minX maxX minY maxY := by
  unfold boundsPolygon
  refine ⟨?_, ?_, ?_⟩
  · intro h1 h2
    simp [h1, h2]
  · simp [min_comm, max_comm]
  · simp [min_comm, max_comm]

example : boundsPolygon (0 : ℚ) 10 20 5 = ⟨0, 5, 10, 20⟩ := (C98_bounds 0 10 20 5).1 (by norm_num) (by norm_num)

end

/-- Web Mercator (EPSG:3857) on a sphere of radius `R`, longitude and latitude in radians. -/
noncomputable def mercator (R : ℝ) (p : ℝ × ℝ) : ℝ × ℝ := (R * p.1, R * Real.log (Real.tan (Real.pi / 4 + p.2 / 2)))

/-- Its inverse. -/
noncomputable def mercatorInv (R : ℝ) (m : ℝ × ℝ) : ℝ × ℝ := (m.1 / R, 2 * Real.arctan (Real.exp (m.2 / R)) - Real.pi / 2)

theorem mercator_inv (R : ℝ) (hR : 0 < R) (p : ℝ × ℝ) (h1 : -(Real.pi / 2) < p.2) (h2 : p.2 < Real.pi / 2) :
    mercatorInv R (mercator R p) = p := by
  have hpos : 0 < Real.tan (Real.pi / 4 + p.2 / 2) := Real.tan_pos_of_pos_of_lt_pi_div_two (by linarith) (by linarith)
  unfold mercatorInv mercator
  have e1 : R * p.1 / R = p.1 := by field_simp
  have e2 : R * Real.log (Real.tan (Real.pi / 4 + p.2 / 2)) / R = Real.log (Real.tan (Real.pi / 4 + p.2 / 2)) := by field_simp
  simp only [e1, e2]
  rw [Real.exp_log hpos, Real.arctan_tan (by linarith) (by linarith)]
  ext <;> simp only []
  ring

/-- PARTIAL (spherical earth, eastward): a shift of `east` metres moves a point along its parallel, by `east · cos(latitude)` metres on the ground. -/
theorem C98_ground_partial (R : ℝ) (hR : 0 < R) (p : ℝ × ℝ) (h1 : -(Real.pi / 2) < p.2) (h2 : p.2 < Real.pi / 2) (east : ℝ) :
    let q := shiftPoint (mercator R) (mercatorInv R) east 0 p
    q.2 = p.2 ∧ R * Real.cos p.2 * (q.1 - p.1) = east * Real.cos p.2 := by
  intro q
  have hq : q = (p.1 + east / R, p.2) := by
    have := mercator_inv R hR p h1 h2
    simp only [q, shiftPoint, add_zero]
    unfold mercatorInv mercator at this ⊢
    have e2 := congrArg Prod.snd this
    simp only at e2
    ext
    · simp only []
      field_simp
    · exact e2
  rw [hq]
  refine ⟨rfl, ?_⟩
  field_simp
  ring

/-- FALSE: "the points move by that many metres": at sixty degrees they move half as far. -/
theorem C98_ground_false (R : ℝ) (hR : 0 < R) (lon east : ℝ) (he : 0 < east) :
    let p : ℝ × ℝ := (lon, Real.pi / 3)
    let q := shiftPoint (mercator R) (mercatorInv R) east 0 p
    R * Real.cos p.2 * (q.1 - p.1) = east / 2 := by
  intro p q
  have hpi := Real.pi_pos
  have := (C98_ground_partial R hR p (by simp only [p]; linarith) (by simp only [p]; linarith) east).2
  rw [this]
  simp only [p]
  rw [Real.cos_pi_div_three]
  ring

/-! ### C99 -/

section
variable {K : Type} [Field K]

/-- The components of pixel `(y, x)` are those scikit-learn computes for that pixel's spectrum: pixel `(y, x)` is sample `y·nx + x`. -/
theorem C99_pixels (fit : A2 K → A2 K) (inPlace : Bool) (img : A3 K) (score : (Nat → K) → Nat → K) (nc : Nat)
    (hfit : ∀ a : A2 K, a.ny = img.ny * img.nx → (∀ y x b, y < img.ny → x < img.nx → a.px (y * img.nx + x) b = img.px y x b) →
      (fit a).ny = a.ny ∧ (fit a).nx = nc ∧ ∀ k b, k < a.ny → (fit a).px k b = score (fun c => a.px k c) b) :
    ∃ t after, cubePca fit inPlace img = .ok (t, after) ∧ t.ny = img.ny ∧ t.nx = img.nx ∧ t.nb = nc ∧
      ∀ y x b, y < img.ny → x < img.nx → t.px y x b = score (fun c => img.px y x c) b := by
  have idx : ∀ y x, x < img.nx → (y * img.nx + x) / img.nx = y ∧ (y * img.nx + x) % img.nx = x := by
    intro y x hx
    constructor
    · rw [Nat.mul_comm, Nat.mul_add_div (by omega), Nat.div_eq_of_lt hx, Nat.add_zero]
    · rw [Nat.mul_comm, Nat.mul_add_mod, Nat.mod_eq_of_lt hx]
  obtain ⟨h1, h2, h3⟩ := hfit ⟨img.ny * img.nx, img.nb, fun k b => img.px (k / img.nx) (k % img.nx) b⟩ rfl (by
    intro y x b hy hx
    simp only [(idx y x hx).1, (idx y x hx).2])
  unfold cubePca
  simp only []
  rw [if_pos h1]
  refine ⟨_, _, rfl, rfl, rfl, h2, ?_⟩
  intro y x b hy hx
  simp only []
  rw [h3 _ _ (by
    have : y * img.nx + x < (y + 1) * img.nx := by rw [Nat.add_mul, Nat.one_mul]; omega
    exact lt_of_lt_of_le this (Nat.mul_le_mul_right _ hy))]
  simp only [(idx y x hx).1, (idx y x hx).2]

/-- PARTIAL (the caller's image is not a floating-point array in one piece): the image is left as it was. -/
theorem C99_unchanged_partial (fit : A2 K → A2 K) (img : A3 K) (t after : A3 K) (h : cubePca fit false img = .ok (t, after)) :
    after = img := by
  unfold cubePca at h
  simp only [Bool.false_eq_true, if_false] at h
  split at h
  · cases h; rfl
  · cases h

theorem sum_rows (f : Nat → K) (m n : Nat) :
    ((List.range (n * m)).map f).sum = ((List.range n).map (fun y => ((List.range m).map (fun x => f (y * m + x))).sum)).sum := by
  induction n with
  | zero => simp
  | succ n ih =>
    rw [Nat.succ_mul, List.range_add, List.map_append, List.sum_append, ih, List.range_succ, List.map_append, List.sum_append]
    simp [List.map_map, Function.comp_def]

/-- The mean of a band over all pixels of an image. -/
def bandMean (img : A3 K) (b : Nat) : K :=
  ((List.range img.ny).map (fun y => ((List.range img.nx).map (fun x => img.px y x b)).sum)).sum / ((img.ny * img.nx : Nat) : K)

/-- What happens to a floating-point image in one piece: it keeps its size, and the mean of each band is subtracted from the band.  So it is left as it
was exactly when every band's mean is zero. -/
theorem C99_in_place (fit : A2 K → A2 K) (img : A3 K) (t after : A3 K) (h : cubePca fit true img = .ok (t, after)) :
    after.ny = img.ny ∧ after.nx = img.nx ∧ after.nb = img.nb ∧ (∀ y x b, after.px y x b = img.px y x b - bandMean img b) ∧
    (0 < img.ny → 0 < img.nx → ((∀ y x b, y < img.ny → x < img.nx → b < img.nb → after.px y x b = img.px y x b) ↔ ∀ b, b < img.nb → bandMean img b = 0)) := by
  unfold cubePca at h
  simp only [if_true] at h
  have hm : ∀ b, colMean (⟨img.ny * img.nx, img.nb, fun k b => img.px (k / img.nx) (k % img.nx) b⟩ : A2 K) b = bandMean img b := by
    intro b
    unfold colMean bandMean
    rw [sum_rows]
    congr 3
    funext y
    congr 1
    apply List.map_congr_left
    intro x hx
    have hx := List.mem_range.mp hx
    show img.px ((y * img.nx + x) / img.nx) ((y * img.nx + x) % img.nx) b = _
    rw [Nat.mul_comm y, Nat.mul_add_div (by omega), Nat.div_eq_of_lt hx, Nat.add_zero, Nat.mul_add_mod, Nat.mod_eq_of_lt hx]
  split at h
  · cases h
    have hv : ∀ y x b, img.px y x b - colMean (⟨img.ny * img.nx, img.nb, fun k b => img.px (k / img.nx) (k % img.nx) b⟩ : A2 K) b =
        img.px y x b - bandMean img b := fun y x b => by rw [hm]
    refine ⟨rfl, rfl, rfl, hv, fun hy hx => ⟨fun he b hb => ?_, fun he y x b _ _ hb => ?_⟩⟩
    · have := he 0 0 b hy hx hb
      simp only [hv] at this
      exact sub_eq_self.mp this
    · simp only [hv]
      rw [he b hb, sub_zero]
  · cases h

/-- FALSE: "the image passed in is left as it was": a floating-point image comes back with the mean spectrum subtracted. -/
theorem C99_unchanged_false : ∃ (img t after : A3 ℚ), cubePca id true img = .ok (t, after) ∧ img.px 0 0 0 = 1 ∧ after.px 0 0 0 = -2 :=
  ⟨⟨1, 2, 1, fun _ x _ => 1 + 4 * x⟩, _, _, rfl, by norm_num, by norm_num [colMean, List.range_succ]⟩

end
end Verif.Workflow
