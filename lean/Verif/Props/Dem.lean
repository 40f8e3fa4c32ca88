import Verif.Lemmas.ImageUtils
import Verif.Props.Geotiff
import Verif.Model.Ortho

/-! C41-C43: digital elevation models. -/

set_option linter.unusedSectionVars false

namespace Verif.Ortho
open Verif ImageUtils Grids Geotiff

section
variable {K : Type} [Field K] [LinearOrder K] [IsStrictOrderedRing K]

/-! ### C41 -/

/-- Specification: the answer has the shape of the query and every entry is `e`. -/
def ConstantAnswer (e : K) : Query K → Answer K → Prop
  | .num _ _, .num v => v = e
  | .d1 x _, .d1 a => a.n = x.n ∧ ∀ k, a.px k = e
  | .d2 x _, .d2 a => a.ny = x.ny ∧ a.nx = x.nx ∧ ∀ j i, a.px j i = e
  | _, _ => False

/-- C41: a constant-elevation DEM is constant, in the shape of the query. -/
theorem C41_constant (e : K) (q : Query K) : ConstantAnswer e q (constElevations e q) := by
  cases q with
  | num x y => simp [constElevations, ConstantAnswer]
  | d1 x y => simp [constElevations, ConstantAnswer]
  | d2 x y => simp [constElevations, ConstantAnswer]

/-- C41: its highest, lowest and mean altitudes are that elevation. -/
theorem C41_alts (e : K) : (constAlts e).1 = e ∧ (constAlts e).2.1 = e ∧ (constAlts e).2.2 = e := ⟨rfl, rfl, rfl⟩

example : constElevations (7 : ℚ) (.d2 ⟨2, 3, fun _ _ => 1⟩ ⟨2, 3, fun _ _ => 1⟩) = .d2 ⟨2, 3, fun _ _ => 0 + 7⟩ := rfl

/-! ### C42 -/

/-- Specification: `c` is the cell containing the coordinate `v` along an axis of `n` cells, or the
closest cell when `v` is outside. -/
def IsCell (n : Nat) (v : K) (c : Nat) : Prop :=
  c < n ∧ (0 ≤ v → v < n → (c : K) ≤ v ∧ v < c + 1) ∧ (v < 0 → c = 0) ∧ ((n : K) ≤ v → c + 1 = n)

theorem clip_cell [FloorRing K] (n : Nat) (hn : 0 < n) (v : K) :
    ∃ c : Nat, clipIdx (toInt v) n = (c : Int) ∧ IsCell n v c := by
  by_cases hv : 0 ≤ v
  · have e : toInt v = ⌊v⌋ := by rw [toInt, pyInt, if_pos hv]
    have f0 : 0 ≤ ⌊v⌋ := Int.floor_nonneg.mpr hv
    have l1 := Int.floor_le v
    have l2 := Int.lt_floor_add_one v
    rw [e]
    by_cases hlt : v < n
    · have : ⌊v⌋ < (n : Int) := by rw [Int.floor_lt]; exact_mod_cast hlt
      refine ⟨⌊v⌋.toNat, by unfold clipIdx; omega, by omega, ?_, ?_, ?_⟩
      · intro _ _
        have hc : ((⌊v⌋.toNat : Nat) : K) = (⌊v⌋ : K) := by
          exact_mod_cast congrArg (Int.cast (R := K)) (Int.toNat_of_nonneg f0)
        rw [hc]; exact ⟨l1, l2⟩
      · intro h; linarith
      · intro h; linarith
    · have : (n : Int) ≤ ⌊v⌋ := by rw [Int.le_floor]; exact_mod_cast not_lt.mp hlt
      refine ⟨n - 1, by unfold clipIdx; omega, by omega, ?_, ?_, ?_⟩
      · intro _ h; exact absurd h hlt
      · intro h; linarith
      · intro _; omega
  · have e : toInt v = ⌈v⌉ := by rw [toInt, pyInt, if_neg hv]
    have : ⌈v⌉ ≤ 0 := by rw [Int.ceil_le]; push_cast; linarith
    rw [e]
    refine ⟨0, by unfold clipIdx; omega, hn, ?_, ?_, ?_⟩
    · intro h; exact absurd h hv
    · intro _; rfl
    · intro h
      exact absurd (le_trans (Nat.cast_nonneg n) h) hv

theorem demCell_ok {V : Type} (dem : A2 V) (h : 2 ≤ dem.ny ∧ 2 ≤ dem.nx) (r c : Nat) (hr : r < dem.ny) (hc : c < dem.nx) :
    demCell dem (r : Int) (c : Int) = .ok (dem.px r c) := by
  unfold demCell
  rw [if_neg (by omega)]
  simp only [pyIdx_nat hr, pyIdx_nat hc, ok_bind]

/-- C42: nearest interpolation returns the cell containing the point, or the closest edge cell, for every
raster of at least two rows and columns, geotransform and world point. -/
theorem C42_nearest {V : Type} [FloorRing K] (g : GeoT K) (dem : A2 V) (h : 2 ≤ dem.ny ∧ 2 ≤ dem.nx)
    (hdet : Invertible g) (lon lat : K) (x y : K)
    (hw : lon = g.g0 + x * g.g1 + y * g.g2 ∧ lat = g.g3 + x * g.g4 + y * g.g5) :
    ∃ r c, IsCell dem.ny y r ∧ IsCell dem.nx x c ∧
      geotiffDemNearest (mkCalc g dem.nx dem.ny) dem lon lat = .ok (dem.px r c) := by
  obtain ⟨r, er, hr⟩ := clip_cell dem.ny (by omega) y
  obtain ⟨c, ec, hc⟩ := clip_cell dem.nx (by omega) x
  refine ⟨r, c, hr, hc, ?_⟩
  have hp : (mkCalc g dem.nx dem.ny).worldToPixel lon lat = .ok (x, y) := by
    rw [hw.1, hw.2]
    exact C17_pixel_roundtrip g hdet dem.nx dem.ny x y
  unfold geotiffDemNearest
  rw [hp]
  simp only [ok_bind, demNearest, er, ec]
  exact demCell_ok dem h r c hr.1 hc.1

/-- C42: hence the result lies between the DEM's lowest and highest altitudes. -/
theorem C42_range [FloorRing K] (g : GeoT K) (dem : A2 K) (h : 2 ≤ dem.ny ∧ 2 ≤ dem.nx)
    (hdet : Invertible g) (lon lat : K) :
    ∃ e lo hi, geotiffDemNearest (mkCalc g dem.nx dem.ny) dem lon lat = .ok e ∧
      demLowest dem = .ok lo ∧ demHighest dem = .ok hi ∧ lo ≤ e ∧ e ≤ hi := by
  obtain ⟨x, y, -, hxy⟩ := C17_world_roundtrip g hdet dem.nx dem.ny lon lat
  obtain ⟨r, c, hr, hc, he⟩ := C42_nearest g dem h hdet lon lat x y
    ⟨(congrArg Prod.fst hxy).symm, (congrArg Prod.snd hxy).symm⟩
  have hmem : dem.px r c ∈ pixels dem := mem_pixels.mpr ⟨r, c, hr.1, hc.1, rfl⟩
  have hne : pixels dem ≠ [] := List.ne_nil_of_mem hmem
  cases hmin : (pixels dem).min? with
  | none => rw [List.min?_eq_none_iff] at hmin; exact absurd hmin hne
  | some lo =>
    cases hmax : (pixels dem).max? with
    | none => rw [List.max?_eq_none_iff] at hmax; exact absurd hmax hne
    | some hi =>
      exact ⟨_, lo, hi, he, by simp only [demLowest, npMin, hmin], by simp only [demHighest, npMax, hmax],
        (min?_spec hmin).2 _ hmem, (max?_spec hmax).2 _ hmem⟩

/-- C42 fails for a raster of a single row or column: every query raises IndexError. -/
theorem C42_single_row_false {V : Type} [FloorRing K] (dem : A2 V) (h : dem.ny = 1 ∨ dem.nx = 1) (x y : K) :
    demNearest dem x y = .error .indexError := by
  unfold demNearest demCell
  rw [if_pos h]; rfl

example : IsCell 3 (-(1 / 2) : ℚ) 0 ∧ IsCell 3 (5 / 2 : ℚ) 2 ∧ IsCell 3 (7 : ℚ) 2 := by
  unfold IsCell
  norm_num

end

/-! ### C43 -/

/-- The value is the average of the four cells at the clipped floor and ceiling positions, weighted with
non-negative weights: their distances. -/
theorem bilinear_ok (dem : A2 ℝ) (h : 2 ≤ dem.ny ∧ 2 ≤ dem.nx) (x y : ℝ) (x1 x2 y1 y2 : Nat)
    (hx1 : x1 < dem.nx) (hx2 : x2 < dem.nx) (hy1 : y1 < dem.ny) (hy2 : y2 < dem.ny)
    (ex1 : clipIdx (toInt x) dem.nx = (x1 : Int)) (ex2 : clipIdx ⌈x⌉ dem.nx = (x2 : Int))
    (ey1 : clipIdx (toInt y) dem.ny = (y1 : Int)) (ey2 : clipIdx ⌈y⌉ dem.ny = (y2 : Int))
    (w11 w12 w21 w22 : ℝ)
    (e11 : w11 = Real.sqrt ((y - y1) * (y - y1) + (x - x1) * (x - x1)))
    (e12 : w12 = Real.sqrt ((y - y1) * (y - y1) + (x2 - x) * (x2 - x)))
    (e21 : w21 = Real.sqrt ((y2 - y) * (y2 - y) + (x - x1) * (x - x1)))
    (e22 : w22 = Real.sqrt ((y2 - y) * (y2 - y) + (x2 - x) * (x2 - x))) :
    demBilinear dem x y = if w11 + w12 + w21 + w22 = 0 then .error .zeroDivision
      else .ok ((dem.px y1 x1 * w11 + dem.px y1 x2 * w12 + dem.px y2 x1 * w21 + dem.px y2 x2 * w22) /
        (w11 + w12 + w21 + w22)) := by
  subst e11 e12 e21 e22
  unfold demBilinear
  simp only [ex1, ey1, ex2, ey2, demCell_ok dem h _ _ hy1 hx1, demCell_ok dem h _ _ hy1 hx2,
    demCell_ok dem h _ _ hy2 hx1, demCell_ok dem h _ _ hy2 hx2, ok_bind, Int.cast_natCast]

theorem clip_total (i : Int) (n : Nat) (hn : 0 < n) : ∃ c : Nat, c < n ∧ clipIdx i n = (c : Int) :=
  ⟨(clipIdx i n).toNat, by unfold clipIdx; omega, by unfold clipIdx; omega⟩

theorem clip_inside (i : Int) (n : Nat) (h0 : 0 ≤ i) (h1 : i < n) : clipIdx i n = i := by
  unfold clipIdx; omega

theorem wavg_between (a b c d w1 w2 w3 w4 lo hi : ℝ) (h1 : 0 ≤ w1) (h2 : 0 ≤ w2) (h3 : 0 ≤ w3) (h4 : 0 ≤ w4)
    (hw : w1 + w2 + w3 + w4 ≠ 0) (ha : lo ≤ a ∧ a ≤ hi) (hb : lo ≤ b ∧ b ≤ hi) (hc : lo ≤ c ∧ c ≤ hi)
    (hd : lo ≤ d ∧ d ≤ hi) : lo ≤ (a * w1 + b * w2 + c * w3 + d * w4) / (w1 + w2 + w3 + w4) ∧
      (a * w1 + b * w2 + c * w3 + d * w4) / (w1 + w2 + w3 + w4) ≤ hi := by
  have hp : 0 < w1 + w2 + w3 + w4 := lt_of_le_of_ne (by positivity) (Ne.symm hw)
  rw [le_div_iff₀ hp, div_le_iff₀ hp]
  constructor
  · linarith [mul_le_mul_of_nonneg_right ha.1 h1, mul_le_mul_of_nonneg_right hb.1 h2,
      mul_le_mul_of_nonneg_right hc.1 h3, mul_le_mul_of_nonneg_right hd.1 h4]
  · linarith [mul_le_mul_of_nonneg_right ha.2 h1, mul_le_mul_of_nonneg_right hb.2 h2,
      mul_le_mul_of_nonneg_right hc.2 h3, mul_le_mul_of_nonneg_right hd.2 h4]

/-- C43 (partial): for every raster of at least two rows and columns and every point inside it, when
bilinear interpolation returns a value it is between the smallest and largest of the four surrounding
cells.  Missing: the weights (`C43_reversed_false`) and grid nodes (`C43_node_false`). -/
theorem C43_between_partial (dem : A2 ℝ) (h : 2 ≤ dem.ny ∧ 2 ≤ dem.nx) (x y e : ℝ)
    (hx : 0 ≤ x ∧ x ≤ (dem.nx : ℝ) - 1) (hy : 0 ≤ y ∧ y ≤ (dem.ny : ℝ) - 1)
    (he : demBilinear dem x y = .ok e) (lo hi : ℝ)
    (hb : ∀ r c : Nat, |(r : ℝ) - y| < 1 → |(c : ℝ) - x| < 1 → lo ≤ dem.px r c ∧ dem.px r c ≤ hi) :
    lo ≤ e ∧ e ≤ hi := by
  have floors : ∀ (v : ℝ) (n : Nat), 0 ≤ v → v ≤ (n : ℝ) - 1 → ∃ a b : Nat, a < n ∧ b < n ∧
      clipIdx (toInt v) n = (a : Int) ∧ clipIdx ⌈v⌉ n = (b : Int) ∧ |(a : ℝ) - v| < 1 ∧ |(b : ℝ) - v| < 1 := by
    intro v n h0 h1
    have f0 : 0 ≤ ⌊v⌋ := Int.floor_nonneg.mpr h0
    have c0 : 0 ≤ ⌈v⌉ := Int.ceil_nonneg h0
    have f1 : ⌊v⌋ < (n : Int) := by rw [Int.floor_lt]; push_cast; linarith
    have c1 : ⌈v⌉ ≤ (n : Int) - 1 := by rw [Int.ceil_le]; push_cast; linarith
    have l1 := Int.floor_le v
    have l2 := Int.lt_floor_add_one v
    have l3 := Int.le_ceil v
    have l4 := Int.ceil_lt_add_one v
    have ea : ((⌊v⌋.toNat : Nat) : ℝ) = (⌊v⌋ : ℝ) := by
      exact_mod_cast congrArg (Int.cast (R := ℝ)) (Int.toNat_of_nonneg f0)
    have eb : ((⌈v⌉.toNat : Nat) : ℝ) = (⌈v⌉ : ℝ) := by
      exact_mod_cast congrArg (Int.cast (R := ℝ)) (Int.toNat_of_nonneg c0)
    refine ⟨⌊v⌋.toNat, ⌈v⌉.toNat, by omega, by omega, ?_, ?_, ?_, ?_⟩
    · rw [toInt, pyInt, if_pos h0, clip_inside _ _ f0 f1]; omega
    · rw [clip_inside _ _ c0 (by omega)]; omega
    · rw [ea, abs_lt]; constructor <;> linarith
    · rw [eb, abs_lt]; constructor <;> linarith
  obtain ⟨x1, x2, hx1, hx2, ex1, ex2, nx1, nx2⟩ := floors x dem.nx hx.1 hx.2
  obtain ⟨y1, y2, hy1, hy2, ey1, ey2, ny1, ny2⟩ := floors y dem.ny hy.1 hy.2
  rw [bilinear_ok dem h x y x1 x2 y1 y2 hx1 hx2 hy1 hy2 ex1 ex2 ey1 ey2 _ _ _ _ rfl rfl rfl rfl] at he
  split at he
  · simp at he
  · rename_i hw
    simp only [Except.ok.injEq] at he
    rw [← he]
    exact wavg_between _ _ _ _ _ _ _ _ lo hi (Real.sqrt_nonneg _) (Real.sqrt_nonneg _) (Real.sqrt_nonneg _)
      (Real.sqrt_nonneg _) hw (hb _ _ ny1 nx1) (hb _ _ ny1 nx2) (hb _ _ ny2 nx1) (hb _ _ ny2 nx2)

/-- C43 (partial), everywhere (also outside the raster): a value returned is between the DEM's lowest and
highest cells. -/
theorem C43_range_partial (dem : A2 ℝ) (h : 2 ≤ dem.ny ∧ 2 ≤ dem.nx) (x y e : ℝ)
    (he : demBilinear dem x y = .ok e) (lo hi : ℝ)
    (hb : ∀ r c : Nat, r < dem.ny → c < dem.nx → lo ≤ dem.px r c ∧ dem.px r c ≤ hi) : lo ≤ e ∧ e ≤ hi := by
  obtain ⟨x1, hx1, ex1⟩ := clip_total (toInt x) dem.nx (by omega)
  obtain ⟨y1, hy1, ey1⟩ := clip_total (toInt y) dem.ny (by omega)
  obtain ⟨x2, hx2, ex2⟩ := clip_total ⌈x⌉ dem.nx (by omega)
  obtain ⟨y2, hy2, ey2⟩ := clip_total ⌈y⌉ dem.ny (by omega)
  rw [bilinear_ok dem h x y x1 x2 y1 y2 hx1 hx2 hy1 hy2 ex1 ex2 ey1 ey2 _ _ _ _ rfl rfl rfl rfl] at he
  split at he
  · simp at he
  · rename_i hw
    simp only [Except.ok.injEq] at he
    rw [← he]
    exact wavg_between _ _ _ _ _ _ _ _ lo hi (Real.sqrt_nonneg _) (Real.sqrt_nonneg _) (Real.sqrt_nonneg _)
      (Real.sqrt_nonneg _) hw (hb _ _ hy1 hx1) (hb _ _ hy1 hx2) (hb _ _ hy2 hx1) (hb _ _ hy2 hx2)

/-- C43 fails at every grid node: the weights are all zero and the call raises ZeroDivisionError. -/
theorem C43_node_false (dem : A2 ℝ) (h : 2 ≤ dem.ny ∧ 2 ≤ dem.nx) (r c : Nat) (hr : r < dem.ny) (hc : c < dem.nx) :
    demBilinear dem (c : ℝ) (r : ℝ) = .error .zeroDivision := by
  have t : ∀ (k n : Nat), k < n → clipIdx (toInt (k : ℝ)) n = (k : Int) ∧ clipIdx ⌈(k : ℝ)⌉ n = (k : Int) := by
    intro k n hk
    constructor
    · rw [toInt, pyInt, if_pos (Nat.cast_nonneg k), Int.floor_natCast, clip_inside _ _ (by omega) (by omega)]
    · rw [Int.ceil_natCast, clip_inside _ _ (by omega) (by omega)]
  rw [bilinear_ok dem h _ _ c c r r hc hc hr hr (t c _ hc).1 (t c _ hc).2 (t r _ hr).1 (t r _ hr).2 0 0 0 0
    (by simp) (by simp) (by simp) (by simp), if_pos (by norm_num)]

/-- C43, exactly: inside the raster the call raises ZeroDivisionError at grid nodes only; elsewhere the value is the average of the four surrounding
cells (those at the rounded-down and rounded-up row and column), each weighted with its distance from the point: the farther the cell, the
larger its weight. -/
theorem C43_exact_partial (dem : A2 ℝ) (h : 2 ≤ dem.ny ∧ 2 ≤ dem.nx) (x y : ℝ)
    (hx : 0 ≤ x ∧ x ≤ (dem.nx : ℝ) - 1) (hy : 0 ≤ y ∧ y ≤ (dem.ny : ℝ) - 1) (d : Nat → Nat → ℝ)
    (hd : ∀ r c : Nat, d r c = Real.sqrt ((y - r) ^ 2 + (x - c) ^ 2)) :
    ((∃ r c : Nat, y = r ∧ x = c) → demBilinear dem x y = .error .zeroDivision) ∧
    ((¬ ∃ r c : Nat, y = r ∧ x = c) → demBilinear dem x y = .ok
      ((d ⌊y⌋₊ ⌊x⌋₊ * dem.px ⌊y⌋₊ ⌊x⌋₊ + d ⌊y⌋₊ ⌈x⌉₊ * dem.px ⌊y⌋₊ ⌈x⌉₊ +
        d ⌈y⌉₊ ⌊x⌋₊ * dem.px ⌈y⌉₊ ⌊x⌋₊ + d ⌈y⌉₊ ⌈x⌉₊ * dem.px ⌈y⌉₊ ⌈x⌉₊) /
       (d ⌊y⌋₊ ⌊x⌋₊ + d ⌊y⌋₊ ⌈x⌉₊ + d ⌈y⌉₊ ⌊x⌋₊ + d ⌈y⌉₊ ⌈x⌉₊))) := by
  constructor
  · rintro ⟨r, c, rfl, rfl⟩
    refine C43_node_false dem h r c ?_ ?_
    · have : (r : ℝ) < dem.ny := by linarith [hy.2]
      exact_mod_cast this
    · have : (c : ℝ) < dem.nx := by linarith [hx.2]
      exact_mod_cast this
  · intro hno
    have bounds : ∀ (v : ℝ) (n : Nat), 0 ≤ v → v ≤ (n : ℝ) - 1 → ⌊v⌋₊ < n ∧ ⌈v⌉₊ < n ∧
        clipIdx (toInt v) n = ((⌊v⌋₊ : Nat) : Int) ∧ clipIdx ⌈v⌉ n = ((⌈v⌉₊ : Nat) : Int) := by
      intro v n h0 h1
      have f1 : ⌊v⌋₊ < n := by rw [Nat.floor_lt h0]; linarith
      have n1 : 1 ≤ n := by omega
      have c1 : ⌈v⌉₊ ≤ n - 1 := by
        rw [Nat.ceil_le, Nat.cast_sub n1]; simpa using h1
      refine ⟨f1, by omega, ?_, ?_⟩
      · rw [toInt, pyInt, if_pos h0, ← Int.natCast_floor_eq_floor h0, clip_inside _ _ (by omega) (by omega)]
      · rw [← Int.natCast_ceil_eq_ceil h0, clip_inside _ _ (by omega) (by omega)]
    obtain ⟨a1, a2, a3, a4⟩ := bounds x dem.nx hx.1 hx.2
    obtain ⟨b1, b2, b3, b4⟩ := bounds y dem.ny hy.1 hy.2
    rw [bilinear_ok dem h x y _ _ _ _ a1 a2 b1 b2 a3 a4 b3 b4 (d ⌊y⌋₊ ⌊x⌋₊) (d ⌊y⌋₊ ⌈x⌉₊) (d ⌈y⌉₊ ⌊x⌋₊) (d ⌈y⌉₊ ⌈x⌉₊)
      (by rw [hd]; congr 1; ring) (by rw [hd]; congr 1; ring) (by rw [hd]; congr 1; ring) (by rw [hd]; congr 1; ring), if_neg]
    · congr 2
      ring
    · intro hz
      have n1 : 0 ≤ d ⌊y⌋₊ ⌊x⌋₊ := by rw [hd]; exact Real.sqrt_nonneg _
      have n2 : 0 ≤ d ⌊y⌋₊ ⌈x⌉₊ := by rw [hd]; exact Real.sqrt_nonneg _
      have n3 : 0 ≤ d ⌈y⌉₊ ⌊x⌋₊ := by rw [hd]; exact Real.sqrt_nonneg _
      have n4 : 0 ≤ d ⌈y⌉₊ ⌈x⌉₊ := by rw [hd]; exact Real.sqrt_nonneg _
      have z1 : d ⌊y⌋₊ ⌊x⌋₊ = 0 := by linarith
      rw [hd, Real.sqrt_eq_zero (by positivity)] at z1
      have s1 : y - ⌊y⌋₊ = 0 := by nlinarith [sq_nonneg (y - ⌊y⌋₊), sq_nonneg (x - ⌊x⌋₊)]
      have s2 : x - ⌊x⌋₊ = 0 := by nlinarith [sq_nonneg (y - ⌊y⌋₊), sq_nonneg (x - ⌊x⌋₊)]
      exact hno ⟨⌊y⌋₊, ⌊x⌋₊, by linarith, by linarith⟩

example : ¬ ∃ r c : Nat, (1 / 2 : ℝ) = r ∧ (3 / 4 : ℝ) = c := by
  rintro ⟨r, _, h, _⟩
  have h2 : (1 : ℝ) = ((2 * r : Nat) : ℝ) := by push_cast; linarith
  have : 1 = 2 * r := by exact_mod_cast h2
  omega

/-- C43: and so does any batch of points of which one is a grid node. -/
theorem C43_batch_node_false (dem : A2 ℝ) (h : 2 ≤ dem.ny ∧ 2 ≤ dem.nx) (pts : List (ℝ × ℝ)) (r c : Nat)
    (hr : r < dem.ny) (hc : c < dem.nx) (hm : ((c : ℝ), (r : ℝ)) ∈ pts) : ∃ e, demBilinearVec dem pts = .error e := by
  induction pts with
  | nil => simp at hm
  | cons p ps ih =>
    unfold demBilinearVec
    rcases List.mem_cons.mp hm with rfl | hm
    · exact ⟨.zeroDivision, by rw [C43_node_false dem h r c hr hc]; rfl⟩
    · obtain ⟨e, he⟩ := ih hm
      cases hp : demBilinear dem p.1 p.2 with
      | error e' => exact ⟨e', rfl⟩
      | ok v => exact ⟨e, by simp only [ok_bind, he]; rfl⟩

/-- C43 fails between nodes: on every row of nodes, between columns `c` and `c + 1`, the closer cell gets
the smaller weight: at fraction `t` the value is `t` times the left cell plus `1 - t` times the right
one. -/
theorem C43_reversed_false (dem : A2 ℝ) (h : 2 ≤ dem.ny ∧ 2 ≤ dem.nx) (r c : Nat) (hr : r < dem.ny)
    (hc : c + 1 < dem.nx) (t : ℝ) (h0 : 0 < t) (h1 : t < 1) :
    demBilinear dem ((c : ℝ) + t) (r : ℝ) = .ok (t * dem.px r c + (1 - t) * dem.px r (c + 1)) := by
  have fl : ⌊(c : ℝ) + t⌋ = (c : Int) := by rw [Int.floor_eq_iff]; push_cast; constructor <;> linarith
  have ce : ⌈(c : ℝ) + t⌉ = (c : Int) + 1 := by rw [Int.ceil_eq_iff]; push_cast; constructor <;> linarith
  have cr : ∀ k n : Nat, k < n → clipIdx (toInt (k : ℝ)) n = (k : Int) ∧ clipIdx ⌈(k : ℝ)⌉ n = (k : Int) := by
    intro k n hk
    constructor
    · rw [toInt, pyInt, if_pos (Nat.cast_nonneg k), Int.floor_natCast, clip_inside _ _ (by omega) (by omega)]
    · rw [Int.ceil_natCast, clip_inside _ _ (by omega) (by omega)]
  have hc0 : (0 : ℝ) ≤ (c : ℝ) + t := by positivity
  rw [bilinear_ok dem h _ _ c (c + 1) r r (by omega) hc hr hr
    (by rw [toInt, pyInt, if_pos hc0, fl, clip_inside _ _ (by omega) (by omega)])
    (by rw [ce, clip_inside _ _ (by omega) (by omega)]; push_cast; rfl)
    (cr r _ hr).1 (cr r _ hr).2 t (1 - t) t (1 - t) ?_ ?_ ?_ ?_, if_neg (by intro hc; linarith)]
  · congr 1
    rw [show t + (1 - t) + t + (1 - t) = 2 by ring]
    ring
  all_goals
    first
    | (rw [show ((r : ℝ) - r) * (r - r) + ((c : ℝ) + t - c) * ((c : ℝ) + t - c) = t * t by ring, Real.sqrt_mul_self h0.le])
    | (push_cast
       rw [show ((r : ℝ) - r) * (r - r) + ((c : ℝ) + 1 - (c + t)) * ((c : ℝ) + 1 - (c + t)) = (1 - t) * (1 - t) by ring,
         Real.sqrt_mul_self (by linarith)])

/-- The reversal changes values: quarter of the way from 0 to 100 gives 75. -/
example : demBilinear ⟨2, 2, fun _ c => if c = 0 then 0 else 100⟩ ((0 : Nat) + 1 / 4) ((0 : Nat) : ℝ) = .ok 75 := by
  rw [C43_reversed_false _ (by norm_num) 0 0 (by norm_num) (by norm_num) (1 / 4) (by norm_num) (by norm_num)]
  norm_num

end Verif.Ortho
