import Verif.Lemmas.ImageUtils
import Verif.Model.Ortho
import Mathlib.Algebra.BigOperators.Group.Finset.Basic
import Mathlib.Order.Interval.Finset.Nat
import Mathlib.Data.Finset.Prod
import Mathlib.Algebra.Order.BigOperators.Group.Finset

/-! C39: terrain obstruction.  C40: window means. -/

set_option linter.unusedSectionVars false

namespace Verif.Ortho
open Verif ImageUtils Grids

section
variable {K : Type} [Field K] [LinearOrder K] [IsStrictOrderedRing K] [FloorRing K]

/-! ### C39 -/

/-- Specification: terrain above the straight line from the ground point `(lon, lat, alt)` to the high
point `(hlon, hlat, halt)` at one of the fractions `1/N, 2/N, ...` strictly between the two ends. -/
def BlockedAt (dem : K → K → K) (lon lat alt hlon hlat halt N : K) : Prop :=
  ∃ m : Nat, 1 ≤ m ∧ (m : K) < N ∧
    alt + (m : K) / N * (halt - alt) < dem (lon + (m : K) / N * (hlon - lon)) (lat + (m : K) / N * (hlat - lat))

/-- The largest of the code's horizontal distances. -/
def IsMaxOf (n : Nat) (f : Nat → K) (mx : K) : Prop := (∃ k, k < n ∧ f k = mx) ∧ ∀ k, k < n → f k ≤ mx

theorem max?_range (n : Nat) (f : Nat → K) (hn : 0 < n) :
    ∃ mx, ((List.range n).map f).max? = some mx ∧ IsMaxOf n f mx := by
  cases h : ((List.range n).map f).max? with
  | none =>
    rw [List.max?_eq_none_iff] at h
    simp at h
    omega
  | some mx =>
    obtain ⟨h1, h2⟩ := max?_spec h
    refine ⟨mx, rfl, ?_, ?_⟩
    · obtain ⟨k, hk, rfl⟩ := List.mem_map.mp h1
      exact ⟨k, by simpa using hk, rfl⟩
    · intro k hk
      exact h2 _ (List.mem_map.mpr ⟨k, by simpa using hk, rfl⟩)

theorem isMaxOf_unique {n : Nat} {f : Nat → K} {a b : K} (ha : IsMaxOf n f a) (hb : IsMaxOf n f b) : a = b := by
  obtain ⟨⟨k, hk, rfl⟩, ha⟩ := ha
  obtain ⟨⟨l, hl, rfl⟩, hb⟩ := hb
  exact le_antisymm (hb k hk) (ha l hl)

theorem steps_mem (N : K) (P : K → Prop) :
    (∃ s ∈ (List.range (⌈N - 1⌉).toNat).map (fun (i : Nat) => 1 + (i : K)), P s) ↔
      ∃ m : Nat, 1 ≤ m ∧ (m : K) < N ∧ P (m : K) := by
  constructor
  · rintro ⟨s, hs, hP⟩
    obtain ⟨i, hi, rfl⟩ := List.mem_map.mp hs
    rw [List.mem_range] at hi
    have h1 : (i : Int) < ⌈N - 1⌉ := by omega
    rw [Int.lt_ceil] at h1
    refine ⟨1 + i, by omega, by push_cast at h1 ⊢; linarith, by push_cast; exact hP⟩
  · rintro ⟨m, h1, h2, hP⟩
    refine ⟨(m : K), List.mem_map.mpr ⟨m - 1, ?_, ?_⟩, hP⟩
    · rw [List.mem_range]
      have : ((m - 1 : Nat) : Int) < ⌈N - 1⌉ := by
        rw [Int.lt_ceil, Int.cast_natCast, Nat.cast_sub h1]
        push_cast
        linarith
      omega
    · rw [Nat.cast_sub h1]; push_cast; ring

/-- C39 (partial): what the code decides, for every scene: the specified test with (a) the terrain
mirrored through the ground point (the samples run away from the sensor), (b) the number of samples
taken from `|dlon + dlat|` rather than a distance, (c) the highest altitude converted to the dtype of
the pixel array.  Missing for the full claim: the unmirrored terrain. -/
theorem C39_mirrored_partial (n : Nat) (hn : 0 < n) (toLonLat : K → K → K → K × K) (dem : K → K → K)
    (highest : K) (castPix : K → K) (px py lons lats : Nat → K) (alts : Option (Nat → K)) (res : K) (hr : res ≠ 0)
    (halt : K) (hhalt : halt = castPix (highest + 1 / 1000)) (hi : Nat → K × K)
    (hhi : ∀ k, hi k = toLonLat (px k) (py k) halt) (a : Nat → K)
    (ha : ∀ k, a k = match alts with
      | some f => f k
      | none => dem (lons k) (lats k)) :
    ∃ mask N, obstructed n toLonLat dem highest castPix px py lons lats alts res = .ok mask ∧
      IsMaxOf n (fun k => |(lons k - (hi k).1) + (lats k - (hi k).2)|) (N * res) ∧
      ∀ k, k < n → (mask k = true ↔
        BlockedAt (fun x y => dem (2 * lons k - x) (2 * lats k - y)) (lons k) (lats k) (a k) (hi k).1 (hi k).2 halt N) := by
  subst hhalt
  obtain rfl : hi = fun k => toLonLat (px k) (py k) (castPix (highest + 1 / 1000)) := funext hhi
  obtain rfl : a = alts.getD (fun k => dem (lons k) (lats k)) := by
    funext k; rw [ha k]; cases alts <;> rfl
  obtain ⟨mx, h1, h2⟩ := max?_range n (fun k => |lons k - (toLonLat (px k) (py k) (castPix (highest + 1 / 1000))).1 +
    (lats k - (toLonLat (px k) (py k) (castPix (highest + 1 / 1000))).2)|) hn
  unfold obstructed
  simp only [h1]
  refine ⟨_, mx / res, rfl, ?_, ?_⟩
  · rw [div_mul_cancel₀ _ hr]
    exact h2
  · intro k _
    simp only [List.any_eq_true, decide_eq_true_eq]
    rw [steps_mem (mx / res) (fun step => alts.getD (fun k => dem (lons k) (lats k)) k +
      (castPix (highest + 1 / 1000) - alts.getD (fun k => dem (lons k) (lats k)) k) * step / (mx / res) <
      dem (lons k + (lons k - (toLonLat (px k) (py k) (castPix (highest + 1 / 1000))).1) * step / (mx / res))
        (lats k + (lats k - (toLonLat (px k) (py k) (castPix (highest + 1 / 1000))).2) * step / (mx / res)))]
    unfold BlockedAt
    apply exists_congr
    intro m
    have e1 : ∀ v h : K, 2 * v - (v + (m : K) / (mx / res) * (h - v)) = v + (v - h) * m / (mx / res) := by
      intro v h; ring
    have e2 : ∀ v h : K, v + (m : K) / (mx / res) * (h - v) = v + (h - v) * m / (mx / res) := by
      intro v h; ring
    simp only [e1, e2 (alts.getD (fun k => dem (lons k) (lats k)) k)]

/-- C39 on flat terrain: a constant DEM never obstructs (float pixel arrays). -/
theorem C39_flat (n : Nat) (hn : 0 < n) (toLonLat : K → K → K → K × K) (e : K) (px py lons lats : Nat → K)
    (res : K) (hr : 0 < res) :
    ∃ mask, obstructed n toLonLat (fun _ _ => e) e id px py lons lats none res = .ok mask ∧
      ∀ k, k < n → mask k = false := by
  obtain ⟨mask, N, h1, -, h3⟩ := C39_mirrored_partial n hn toLonLat (fun _ _ => e) e id px py lons lats none res hr.ne'
    _ rfl _ (fun _ => rfl) _ (fun _ => rfl)
  refine ⟨mask, h1, ?_⟩
  intro k hk
  rw [← Bool.not_eq_true, h3 k hk]
  rintro ⟨m, hm1, hm2, hlt⟩
  have hm0 : (0 : K) < m := by exact_mod_cast hm1
  have : 0 ≤ (m : K) / N * (1 / 1000) := by
    have : 0 < N := by linarith
    positivity
  simp only [id] at hlt
  have e' : e + 1 / 1000 - e = (1 / 1000 : K) := by ring
  rw [e'] at hlt
  linarith

/-- C39 fails diagonally: when every pixel's offset toward the sensor has opposite longitude and latitude
components, nothing is sampled and no pixel is ever marked, whatever the terrain. -/
theorem C39_diagonal_false (n : Nat) (hn : 0 < n) (toLonLat : K → K → K → K × K) (dem : K → K → K)
    (highest : K) (castPix : K → K) (px py lons lats : Nat → K) (alts : Option (Nat → K)) (res : K) (hr : res ≠ 0)
    (hdiag : ∀ k, k < n → lons k - (toLonLat (px k) (py k) (castPix (highest + 1 / 1000))).1 =
      -(lats k - (toLonLat (px k) (py k) (castPix (highest + 1 / 1000))).2)) :
    ∃ mask, obstructed n toLonLat dem highest castPix px py lons lats alts res = .ok mask ∧
      ∀ k, k < n → mask k = false := by
  obtain ⟨mask, N, h1, h2, h3⟩ := C39_mirrored_partial n hn toLonLat dem highest castPix px py lons lats alts res hr
    _ rfl _ (fun _ => rfl) _ (fun _ => rfl)
  refine ⟨mask, h1, ?_⟩
  intro k hk
  rw [← Bool.not_eq_true, h3 k hk]
  rintro ⟨m, hm1, hm2, -⟩
  have hm0 : (1 : K) ≤ m := by exact_mod_cast hm1
  obtain ⟨⟨l, hl, he⟩, -⟩ := h2
  simp only [hdiag l hl, neg_add_cancel, abs_zero] at he
  have : N = 0 := (mul_eq_zero.mp he.symm).resolve_right hr
  linarith

end

/-- The scene of the counterexamples: one pixel with ground point (0, 0, 0), sensor position at altitude
`a` at `(a, 0)`; terrain 60 high at `x = wall`, a summit of 99.999 at `x = 1000`, flat elsewhere.
`sceneLine` is the line of sight to `(100, 0, 100)`. -/
def sceneDem (wall x _y : ℚ) : ℚ := if x = wall then 60 else if x = 1000 then 99999 / 1000 else 0

/-- C39 fails: a wall across the line of sight is not detected. -/
theorem C39_wall_missed_false :
    ∃ mask, obstructed 1 (fun _ _ a => (a, 0)) (sceneDem 50) (99999 / 1000) id (fun _ => 0) (fun _ => 0)
        (fun _ => 0) (fun _ => 0) none 50 = .ok mask ∧ mask 0 = false ∧
      BlockedAt (sceneDem 50) 0 0 0 100 0 100 2 := by
  refine ⟨_, rfl, ?_, 1, by norm_num, by norm_num, by norm_num [sceneDem]⟩
  norm_num [sceneDem]

/-- C39 fails: a wall behind the ground point, with a clear line of sight, is reported. -/
theorem C39_clear_sight_false :
    ∃ mask, obstructed 1 (fun _ _ a => (a, 0)) (sceneDem (-50)) (99999 / 1000) id (fun _ => 0) (fun _ => 0)
        (fun _ => 0) (fun _ => 0) none 50 = .ok mask ∧ mask 0 = true ∧
      ∀ t : ℚ, 0 < t → t < 1 → sceneDem (-50) (t * 100) 0 ≤ t * 100 := by
  refine ⟨_, rfl, ?_, ?_⟩
  · norm_num [sceneDem]
  · intro t h0 h1
    unfold sceneDem
    rw [if_neg (by linarith), if_neg (by linarith)]
    linarith

section
variable {K : Type} [Field K] [LinearOrder K] [IsStrictOrderedRing K] [FloorRing K]

/-! ### C40 -/

/-- Specification: `i` is the integer nearest to `x`, the even one of two equally near. -/
def NearestEven (x : K) (i : Int) : Prop := |x - i| < 1 / 2 ∨ (|x - i| = 1 / 2 ∧ i % 2 = 0)

theorem npRound_spec (x : K) : NearestEven x (npRound x) := by
  have l1 := Int.floor_le x
  have l2 := Int.lt_floor_add_one x
  unfold npRound NearestEven
  simp only []
  split_ifs with h1 h2 h3
  · left; rw [abs_lt]; constructor <;> linarith
  · left; rw [abs_lt]; push_cast; constructor <;> linarith
  · right
    have : x - ⌊x⌋ = 1 / 2 := le_antisymm (by linarith) (by linarith)
    rw [this]; exact ⟨abs_of_pos (by positivity), h3⟩
  · right
    have : x - ⌊x⌋ = 1 / 2 := le_antisymm (by linarith) (by linarith)
    refine ⟨?_, by omega⟩
    push_cast
    rw [show x - ((⌊x⌋ : K) + 1) = -(1 / 2) by linarith, abs_neg]
    exact abs_of_pos (by positivity)

theorem nearestEven_unique {x : K} {i j : Int} (hi : NearestEven x i) (hj : NearestEven x j) : i = j := by
  have key : ∀ {i j : Int}, NearestEven x i → NearestEven x j → i < j → False := by
    intro i j hi hj hlt
    have hc : (i : K) + 1 ≤ j := by exact_mod_cast hlt
    have ai : x - i ≤ 1 / 2 := by rcases hi with h | ⟨h, -⟩ <;> [exact (abs_lt.mp h).2.le; exact le_trans (le_abs_self _) h.le]
    have aj : -(1 / 2) ≤ x - j := by
      rcases hj with h | ⟨h, -⟩
      · exact (abs_lt.mp h).1.le
      · have := neg_abs_le (x - j); rw [h] at this; exact this
    have e1 : x - i = 1 / 2 := by linarith
    have e2 : x - j = -(1 / 2) := by linarith
    have hij : (j : K) = i + 1 := by linarith
    have hij' : j = i + 1 := by exact_mod_cast hij
    have n1 : ¬ |x - i| < 1 / 2 := by rw [e1, abs_of_pos (by positivity)]; exact lt_irrefl _
    have n2 : ¬ |x - j| < 1 / 2 := by rw [e2, abs_neg, abs_of_pos (by positivity)]; exact lt_irrefl _
    have p1 := (hi.resolve_left n1).2
    have p2 := (hj.resolve_left n2).2
    omega
  rcases lt_trichotomy i j with h | h | h
  · exact (key hi hj h).elim
  · exact h
  · exact (key hj hi h).elim

/-- Specification: the pixels of the window of half-width `h` around `(cx, cy)` with a valid value. -/
def validWindow [DecidableEq K] (img : A2 K) (nodata : Option K) (cy cx : Int) (h : Int) : Finset (Nat × Nat) :=
  ((Finset.Ico (cy - h).toNat (cy + h).toNat) ×ˢ (Finset.Ico (cx - h).toNat (cx + h).toNat)).filter
    (fun p => some (img.px p.1 p.2) ≠ nodata)

/-- Specification: the pixels with a valid value among rows `y0` to `y1` and columns `x0` to `x1` (ends excluded). -/
def measuredCells [DecidableEq K] (img : A2 K) (nodata : Option K) (y0 y1 x0 x1 : Nat) : Finset (Nat × Nat) :=
  ((Finset.Ico y0 y1) ×ˢ (Finset.Ico x0 x1)).filter (fun p => some (img.px p.1 p.2) ≠ nodata)

theorem pixelValue_cells (img : A2 K) (nodata : Option K) (window x y : K) (h cx cy : Int) (y0 y1 x0 x1 : Nat)
    (hh : NearestEven (window / 2) h) (hcx : NearestEven x cx) (hcy : NearestEven y cy)
    (b1 : pyBound img.ny (cy - h) = y0) (b2 : pyBound img.ny (cy + h) = y1)
    (b3 : pyBound img.nx (cx - h) = x0) (b4 : pyBound img.nx (cx + h) = x1) :
    (measuredCells img nodata y0 y1 x0 x1 = ∅ → pixelValue img nodata window x y = none) ∧
    (measuredCells img nodata y0 y1 x0 x1 ≠ ∅ → pixelValue img nodata window x y =
      some ((∑ p ∈ measuredCells img nodata y0 y1 x0 x1, img.px p.1 p.2) / ((measuredCells img nodata y0 y1 x0 x1).card : K))) := by
  have hwh := nearestEven_unique (npRound_spec (window / 2)) hh
  have hcx' := nearestEven_unique (npRound_spec x) hcx
  have hcy' := nearestEven_unique (npRound_spec y) hcy
  set good := npWhere (y1 - y0) (x1 - x0)
    (fun r c => decide (some (img.px (y0 + r) (x0 + c)) ≠ nodata)) with hgood
  have hv : pixelValue img nodata window x y = if good = [] then none
      else some ((good.map (fun p => img.px (y0 + p.1) (x0 + p.2))).sum / (good.length : K)) := by
    unfold pixelValue
    simp only [hwh, hcx', hcy', b1, b2, b3, b4]
    rfl
  have hnd : (good.map (fun p => (y0 + p.1, x0 + p.2))).Nodup := by
    apply List.Nodup.map
    · rintro ⟨a, b⟩ ⟨c, d⟩ he
      simp only [Prod.mk.injEq] at he ⊢
      omega
    · refine (npWhere_sorted _ _ _).imp ?_
      rintro ⟨a, b⟩ ⟨c, d⟩ hr he
      simp only [Prod.mk.injEq] at he
      simp only at hr
      omega
  have hset : (good.map (fun p => (y0 + p.1, x0 + p.2))).toFinset = measuredCells img nodata y0 y1 x0 x1 := by
    ext ⟨r, c⟩
    simp only [List.mem_toFinset, List.mem_map, measuredCells, Finset.mem_filter, Finset.mem_product, Finset.mem_Ico]
    constructor
    · rintro ⟨⟨a, b⟩, hm, he⟩
      rw [hgood, npWhere_mem] at hm
      simp only [Prod.mk.injEq] at he
      obtain ⟨rfl, rfl⟩ := he
      obtain ⟨m1, m2, m3⟩ := hm
      exact ⟨⟨⟨by omega, by omega⟩, by omega, by omega⟩, by simpa using m3⟩
    · rintro ⟨⟨⟨r1, r2⟩, c1, c2⟩, hne⟩
      refine ⟨(r - y0, c - x0), ?_, ?_⟩
      · rw [hgood, npWhere_mem]
        refine ⟨by omega, by omega, ?_⟩
        have e1 : y0 + (r - y0) = r := by omega
        have e2 : x0 + (c - x0) = c := by omega
        simpa [e1, e2] using hne
      · simp only [Prod.mk.injEq]; omega
  have hcard : (measuredCells img nodata y0 y1 x0 x1).card = good.length := by
    rw [← hset, List.toFinset_card_of_nodup hnd, List.length_map]
  constructor
  · intro he
    rw [he, Finset.card_empty] at hcard
    rw [hv, if_pos (List.length_eq_zero_iff.mp hcard.symm)]
  · intro he
    rw [hv, if_neg, hcard, ← hset, List.sum_toFinset _ hnd, List.map_map]
    · rfl
    · intro hg
      apply he
      rw [← Finset.card_eq_zero, hcard, hg]; rfl

/-- C40: when the window lies inside the image the value is the mean of its valid pixels; NaN exactly
when it has none.  The half-width and the centre are the nearest integers (halves to even) of
`window / 2` and of the position. -/
theorem C40_window_mean (img : A2 K) (nodata : Option K) (window x y : K) (h cx cy : Int)
    (hh : NearestEven (window / 2) h) (hcx : NearestEven x cx) (hcy : NearestEven y cy)
    (hx : 0 ≤ cx - h ∧ cx + h ≤ img.nx) (hy : 0 ≤ cy - h ∧ cy + h ≤ img.ny) (h0 : 0 ≤ h) :
    (validWindow img nodata cy cx h = ∅ → pixelValue img nodata window x y = none) ∧
    (validWindow img nodata cy cx h ≠ ∅ → pixelValue img nodata window x y =
      some ((∑ p ∈ validWindow img nodata cy cx h, img.px p.1 p.2) / ((validWindow img nodata cy cx h).card : K))) := by
  exact pixelValue_cells img nodata window x y h cx cy _ _ _ _ hh hcx hcy
    (by unfold pyBound; rw [if_neg (by omega)]; omega) (by unfold pyBound; rw [if_neg (by omega)]; omega)
    (by unfold pyBound; rw [if_neg (by omega)]; omega) (by unfold pyBound; rw [if_neg (by omega)]; omega)

/-- C40, beyond the lower and right edges: a window that starts inside the image is cut at the image's edges; the value is the mean of the valid
pixels that are left. -/
theorem C40_cut_at_edges (img : A2 K) (nodata : Option K) (window x y : K) (h cx cy : Int)
    (hh : NearestEven (window / 2) h) (hcx : NearestEven x cx) (hcy : NearestEven y cy)
    (hx : 0 ≤ cx - h) (hy : 0 ≤ cy - h) (h0 : 0 ≤ h) :
    ∃ cells : Finset (Nat × Nat), (∀ r c : Nat, (r, c) ∈ cells ↔ r < img.ny ∧ c < img.nx ∧ cy - h ≤ r ∧ (r : Int) < cy + h ∧
        cx - h ≤ c ∧ (c : Int) < cx + h ∧ some (img.px r c) ≠ nodata) ∧
      (cells = ∅ → pixelValue img nodata window x y = none) ∧
      (cells ≠ ∅ → pixelValue img nodata window x y = some ((∑ p ∈ cells, img.px p.1 p.2) / (cells.card : K))) := by
  refine ⟨_, ?_, pixelValue_cells img nodata window x y h cx cy _ _ _ _ hh hcx hcy rfl rfl rfl rfl⟩
  intro r c
  have e1 : pyBound img.ny (cy - h) = min (cy - h).toNat img.ny := by unfold pyBound; rw [if_neg (by omega)]
  have e2 : pyBound img.ny (cy + h) = min (cy + h).toNat img.ny := by unfold pyBound; rw [if_neg (by omega)]
  have e3 : pyBound img.nx (cx - h) = min (cx - h).toNat img.nx := by unfold pyBound; rw [if_neg (by omega)]
  have e4 : pyBound img.nx (cx + h) = min (cx + h).toNat img.nx := by unfold pyBound; rw [if_neg (by omega)]
  simp only [measuredCells, Finset.mem_filter, Finset.mem_product, Finset.mem_Ico, e1, e2, e3, e4]
  constructor
  · rintro ⟨⟨⟨r1, r2⟩, c1, c2⟩, hne⟩
    exact ⟨by omega, by omega, by omega, by omega, by omega, by omega, hne⟩
  · rintro ⟨r1, c1, r2, r3, c2, c3, hne⟩
    exact ⟨⟨⟨by omega, by omega⟩, by omega, by omega⟩, hne⟩

/-- C40, beyond the upper edge, exactly: a window that starts above the image is not cut but wraps around: its rows are those from the start
counted from the bottom of the image up to its end. -/
theorem C40_wraps_partial (img : A2 K) (nodata : Option K) (window x y : K) (h cx cy : Int)
    (hh : NearestEven (window / 2) h) (hcx : NearestEven x cx) (hcy : NearestEven y cy)
    (hx : 0 ≤ cx - h) (hy : cy - h < 0 ∧ 0 ≤ cy - h + img.ny) (h0 : 0 ≤ h) (h1 : 0 ≤ cy) :
    ∃ cells : Finset (Nat × Nat), (∀ r c : Nat, (r, c) ∈ cells ↔ r < img.ny ∧ c < img.nx ∧ cy - h + img.ny ≤ r ∧ (r : Int) < cy + h ∧
        cx - h ≤ c ∧ (c : Int) < cx + h ∧ some (img.px r c) ≠ nodata) ∧
      (cells = ∅ → pixelValue img nodata window x y = none) ∧
      (cells ≠ ∅ → pixelValue img nodata window x y = some ((∑ p ∈ cells, img.px p.1 p.2) / (cells.card : K))) := by
  refine ⟨_, ?_, pixelValue_cells img nodata window x y h cx cy _ _ _ _ hh hcx hcy rfl rfl rfl rfl⟩
  intro r c
  have e1 : pyBound img.ny (cy - h) = (cy - h + img.ny).toNat := by unfold pyBound; rw [if_pos (by omega)]
  have e2 : pyBound img.ny (cy + h) = min (cy + h).toNat img.ny := by unfold pyBound; rw [if_neg (by omega)]
  have e3 : pyBound img.nx (cx - h) = min (cx - h).toNat img.nx := by unfold pyBound; rw [if_neg (by omega)]
  have e4 : pyBound img.nx (cx + h) = min (cx + h).toNat img.nx := by unfold pyBound; rw [if_neg (by omega)]
  simp only [measuredCells, Finset.mem_filter, Finset.mem_product, Finset.mem_Ico, e1, e2, e3, e4]
  constructor
  · rintro ⟨⟨⟨r1, r2⟩, c1, c2⟩, hne⟩
    exact ⟨by omega, by omega, by omega, by omega, by omega, by omega, hne⟩
  · rintro ⟨r1, c1, r2, r3, c2, c3, hne⟩
    exact ⟨⟨⟨by omega, by omega⟩, by omega, by omega⟩, hne⟩

/-- C40: the value is between the smallest and the largest valid pixel of the window. -/
theorem C40_between (img : A2 K) (nodata : Option K) (window x y : K) (h cx cy : Int)
    (hh : NearestEven (window / 2) h) (hcx : NearestEven x cx) (hcy : NearestEven y cy)
    (hx : 0 ≤ cx - h ∧ cx + h ≤ img.nx) (hy : 0 ≤ cy - h ∧ cy + h ≤ img.ny) (h0 : 0 ≤ h) (v lo hi : K)
    (hv : pixelValue img nodata window x y = some v)
    (hb : ∀ p ∈ validWindow img nodata cy cx h, lo ≤ img.px p.1 p.2 ∧ img.px p.1 p.2 ≤ hi) :
    lo ≤ v ∧ v ≤ hi := by
  obtain ⟨h1, h2⟩ := C40_window_mean img nodata window x y h cx cy hh hcx hcy hx hy h0
  by_cases he : validWindow img nodata cy cx h = ∅
  · rw [h1 he] at hv; simp at hv
  · rw [h2 he] at hv
    simp only [Option.some.injEq] at hv
    have hc : (0 : K) < ((validWindow img nodata cy cx h).card : K) := by
      exact_mod_cast Finset.card_pos.mpr (Finset.nonempty_of_ne_empty he)
    have s1 := Finset.card_nsmul_le_sum _ (fun p : Nat × Nat => img.px p.1 p.2) lo (fun p hp => (hb p hp).1)
    have s2 := Finset.sum_le_card_nsmul _ (fun p : Nat × Nat => img.px p.1 p.2) hi (fun p hp => (hb p hp).2)
    rw [nsmul_eq_mul] at s1 s2
    rw [← hv, le_div_iff₀ hc, div_le_iff₀ hc]
    exact ⟨by linarith [mul_comm lo ((validWindow img nodata cy cx h).card : K)],
      by linarith [mul_comm hi ((validWindow img nodata cy cx h).card : K)]⟩

/-- C40 fails for a window of one pixel: its half-width rounds to zero, and the value is NaN for every
image and position inside it. -/
theorem C40_window_one_false (img : A2 K) (nodata : Option K) (x y : K) (cx cy : Int)
    (hcx : NearestEven x cx) (hcy : NearestEven y cy) (hx : 0 ≤ cx ∧ cx < img.nx) (hy : 0 ≤ cy ∧ cy < img.ny) :
    pixelValue img nodata 1 x y = none := by
  have hh : NearestEven ((1 : K) / 2) 0 := by
    right
    refine ⟨?_, rfl⟩
    simp
  refine (C40_window_mean img nodata 1 x y 0 cx cy hh hcx hcy (by omega) (by omega) le_rfl).1 ?_
  unfold validWindow
  simp

/-- C40 fails at the upper and left edges: a window reaching above the image (so that its first row index
is negative) while its last row is not beyond the image's bottom gives NaN, although the window
contains valid pixels: the slice wraps around. -/
theorem C40_edge_false (img : A2 K) (window x y : K) (h cx cy : Int)
    (hh : NearestEven (window / 2) h) (hcx : NearestEven x cx) (hcy : NearestEven y cy)
    (hy : cy - h < 0 ∧ 0 ≤ cy ∧ cy + h ≤ img.ny + (cy - h)) :
    pixelValue img none window x y = none := by
  obtain rfl := nearestEven_unique (npRound_spec (window / 2)) hh
  obtain rfl := nearestEven_unique (npRound_spec x) hcx
  obtain rfl := nearestEven_unique (npRound_spec y) hcy
  unfold pixelValue
  simp only []
  rw [if_pos]
  have : pyBound img.ny (npRound y + npRound (window / 2)) - pyBound img.ny (npRound y - npRound (window / 2)) = 0 := by
    unfold pyBound
    rw [if_neg (by omega), if_pos (by omega)]
    omega
  rw [this]
  rfl

/-- A case meeting the hypotheses: window 8 at (5.2, 6.9) in a 20 x 20 image. -/
example : NearestEven ((8 : ℚ) / 2) 4 ∧ NearestEven (52 / 10 : ℚ) 5 ∧ NearestEven (69 / 10 : ℚ) 7 := by
  refine ⟨Or.inl ?_, Or.inl ?_, Or.inl ?_⟩ <;> norm_num [abs_lt]

/-- A case of the edge failure: window 8 at (5, 1) in a 20 x 20 image. -/
example : NearestEven (1 : ℚ) 1 ∧ (1 : Int) - 4 < 0 ∧ (0 : Int) ≤ 1 ∧ (1 : Int) + 4 ≤ 20 + (1 - 4) := by
  refine ⟨Or.inl (by norm_num), by norm_num⟩

end
end Verif.Ortho
