import Verif.Lemmas.Base
import Verif.Model.Grids
import Verif.Props.Geotiff
import Mathlib.Tactic.FieldSimp
import Mathlib.Tactic.NormNum
import Mathlib.Tactic.Positivity
import Mathlib.Algebra.Order.BigOperators.Group.List

/-! C32: IGM.  C33: sensor model.  C34, C35, C75: ground grid, geotransform and pixel counts. -/

set_option linter.unusedSectionVars false

namespace Verif.Grids
open Verif ImageUtils Geotiff

section
variable {K : Type} [Field K] [LinearOrder K] [IsStrictOrderedRing K]

/-! ### C32 -/

theorem mkIgm_ok (lons lats : A2 K) (alt : AltArg K) (h : lons.ny ≠ 0 ∧ lons.nx ≠ 0) :
    ∃ g, mkIgm lons lats alt = .ok g ∧ lons = g.lons ∧ lats = g.lats := by
  unfold mkIgm
  rw [if_neg (by omega)]
  exact ⟨_, rfl, rfl, rfl⟩

/-- C32: pixel to lon/lat returns the stored grid values; a pixel outside the grid is an error. -/
theorem C32_pixel_reads_grid (lons lats : A2 K) (alt : AltArg K) (h : lons.ny ≠ 0 ∧ lons.nx ≠ 0) :
    ∃ g, mkIgm lons lats alt = .ok g ∧
      (∀ y x, y < lons.ny → x < lons.nx →
        g.pixelToLonLat (x : Int) (y : Int) = .ok (lons.px y x, lats.px y x)) ∧
      (∀ y x : Int, (lons.ny ≤ y ∨ lons.nx ≤ x) → 0 ≤ y → 0 ≤ x → g.pixelToLonLat x y = .error .indexError) := by
  obtain ⟨g, hg, rfl, rfl⟩ := mkIgm_ok lons lats alt h
  refine ⟨g, hg, ?_, ?_⟩
  · intro y x hy hx
    simp only [Igm.pixelToLonLat, pyIdx_nat hy, pyIdx_nat hx, ok_bind]
  · intro y x h hy hx
    have e : ∀ (n : Nat) (i : Int), 0 ≤ i → (n : Int) ≤ i → pyIdx n i = .error .indexError := by
      intro n i h1 h2
      unfold pyIdx
      rw [if_neg (by omega), if_neg (by omega)]
    simp only [Igm.pixelToLonLat]
    rcases h with h | h
    · rw [e _ _ hy h]; rfl
    · cases hp : pyIdx g.lons.ny y with
      | ok k => simp only [ok_bind, e _ _ hx h]; rfl
      | error er =>
        have : er = .indexError := by
          unfold pyIdx at hp
          split at hp
          · simp at hp
          · split at hp
            · simp at hp
            · simp at hp; exact hp.symm
        rw [this]; rfl

theorem fixDist_pos (d : K) (h : 0 ≤ d) : 0 < fixDist d := by
  unfold fixDist
  split
  · positivity
  · rename_i hn
    rw [not_le, abs_of_nonneg h] at hn
    exact lt_trans (by positivity) hn

theorem weighted_between (nbrs : List (K × Nat)) (coord : Nat → Nat) (w : K × Nat → K) (hw : ∀ n ∈ nbrs, 0 < w n)
    (hne : nbrs ≠ []) (lo hi : K) (hlo : ∀ n ∈ nbrs, lo ≤ (coord n.2 : K)) (hhi : ∀ n ∈ nbrs, (coord n.2 : K) ≤ hi) :
    0 < (nbrs.map w).sum ∧ lo * (nbrs.map w).sum ≤ (nbrs.map (fun n => w n * (coord n.2 : K))).sum ∧
      (nbrs.map (fun n => w n * (coord n.2 : K))).sum ≤ hi * (nbrs.map w).sum := by
  have key : ∀ l : List (K × Nat), (∀ n ∈ l, n ∈ nbrs) →
      0 ≤ (l.map w).sum ∧ lo * (l.map w).sum ≤ (l.map (fun n => w n * (coord n.2 : K))).sum ∧
      (l.map (fun n => w n * (coord n.2 : K))).sum ≤ hi * (l.map w).sum := by
    intro l
    induction l with
    | nil => intro _; simp
    | cons a l ih =>
      intro hm
      obtain ⟨h0, h1, h2⟩ := ih (fun n hn => hm n (by simp [hn]))
      have ha := hm a (by simp)
      have := hw a ha
      have l1 := mul_le_mul_of_nonneg_left (hlo a ha) this.le
      have l2 := mul_le_mul_of_nonneg_left (hhi a ha) this.le
      simp only [List.map_cons, List.sum_cons, mul_add]
      refine ⟨by linarith, by linarith [mul_comm lo (w a)], by linarith [mul_comm hi (w a)]⟩
  obtain ⟨h0, h1, h2⟩ := key nbrs (fun _ h => h)
  refine ⟨?_, h1, h2⟩
  cases nbrs with
  | nil => exact absurd rfl hne
  | cons a l =>
    simp only [List.map_cons, List.sum_cons]
    have := hw a (by simp)
    have : 0 ≤ (l.map w).sum := List.sum_nonneg (by
      intro x hx
      obtain ⟨n, hn, rfl⟩ := List.mem_map.mp hx
      exact (hw n (by simp [hn])).le)
    have := hw a (by simp)
    linarith

theorem idw_between (nbrs : List (K × Nat)) (hne : nbrs ≠ []) (hd : ∀ n ∈ nbrs, 0 ≤ n.1) (coord : Nat → Nat)
    (lo hi : Nat) (hlo : ∀ n ∈ nbrs, lo ≤ coord n.2) (hhi : ∀ n ∈ nbrs, coord n.2 ≤ hi) :
    (lo : K) ≤ idw nbrs coord ∧ idw nbrs coord ≤ hi := by
  obtain ⟨h0, h1, h2⟩ := weighted_between nbrs coord (fun n => 1 / fixDist n.1)
    (fun n hn => by have := fixDist_pos n.1 (hd n hn); positivity) hne (lo : K) (hi : K)
    (fun n hn => by exact_mod_cast hlo n hn) (fun n hn => by exact_mod_cast hhi n hn)
  unfold idw
  exact ⟨by rw [le_div_iff₀ h0]; exact h1, by rw [div_le_iff₀ h0]; exact h2⟩

/-- C32: for every valid nearest-neighbour answer, the pixel lies between the smallest and largest
neighbour indices, hence within `[0, nx-1] x [0, ny-1]`. -/
theorem C32_within_neighbours (lons lats : A2 K) (alt : AltArg K) (h : lons.ny ≠ 0 ∧ lons.nx ≠ 0)
    (nbrs : List (K × Nat)) (hlen : nbrs.length = 6) (hd : ∀ n ∈ nbrs, 0 ≤ n.1)
    (hi : ∀ n ∈ nbrs, n.2 < lons.ny * lons.nx) :
    ∃ g x y, mkIgm lons lats alt = .ok g ∧ g.lonLatToPixel nbrs = .ok (x, y) ∧
      (0 : K) ≤ x ∧ x ≤ (lons.nx : K) - 1 ∧ 0 ≤ y ∧ y ≤ (lons.ny : K) - 1 ∧
      (∀ a b : Nat, (∀ n ∈ nbrs, a ≤ n.2 % lons.nx ∧ n.2 % lons.nx ≤ b) → (a : K) ≤ x ∧ x ≤ b) ∧
      (∀ a b : Nat, (∀ n ∈ nbrs, a ≤ n.2 / lons.nx ∧ n.2 / lons.nx ≤ b) → (a : K) ≤ y ∧ y ≤ b) := by
  have hne : nbrs ≠ [] := by rintro rfl; simp at hlen
  have hx : ∀ a b : Nat, (∀ n ∈ nbrs, a ≤ n.2 % lons.nx ∧ n.2 % lons.nx ≤ b) →
      (a : K) ≤ idw nbrs (fun k => k % lons.nx) ∧ idw nbrs (fun k => k % lons.nx) ≤ b :=
    fun a b hab => idw_between nbrs hne hd _ a b (fun n hn => (hab n hn).1) (fun n hn => (hab n hn).2)
  have hy : ∀ a b : Nat, (∀ n ∈ nbrs, a ≤ n.2 / lons.nx ∧ n.2 / lons.nx ≤ b) →
      (a : K) ≤ idw nbrs (fun k => k / lons.nx) ∧ idw nbrs (fun k => k / lons.nx) ≤ b :=
    fun a b hab => idw_between nbrs hne hd _ a b (fun n hn => (hab n hn).1) (fun n hn => (hab n hn).2)
  have gx := hx 0 (lons.nx - 1) (fun n hn => ⟨by omega, by have := Nat.mod_lt n.2 (Nat.pos_of_ne_zero h.2); omega⟩)
  have gy := hy 0 (lons.ny - 1) (fun n hn => ⟨Nat.zero_le _, by
    have : n.2 / lons.nx < lons.ny := Nat.div_lt_of_lt_mul (by rw [Nat.mul_comm]; exact hi n hn)
    omega⟩)
  rw [Nat.cast_sub (by omega)] at gx gy
  obtain ⟨g, hg, hgl, -⟩ := mkIgm_ok lons lats alt h
  refine ⟨g, _, _, hg, ?_, by exact_mod_cast gx.1, by exact_mod_cast gx.2,
    by exact_mod_cast gy.1, by exact_mod_cast gy.2, hx, hy⟩
  rw [Igm.lonLatToPixel, ← hgl, if_pos]
  rw [List.all_eq_true]
  intro n hn
  simpa using hi n hn

/-- C32: a grid of fewer than six pixels (missing neighbours are reported with the index past the end)
is rejected. -/
theorem C32_small_grid (g : Igm K) (nbrs : List (K × Nat)) (n : K × Nat) (hn : n ∈ nbrs)
    (h : g.lons.ny * g.lons.nx ≤ n.2) : g.lonLatToPixel nbrs = .error .valueError := by
  rw [Igm.lonLatToPixel, if_neg]
  simp only [List.all_eq_true, not_forall]
  exact ⟨n, hn, by simp; exact h⟩

/-- C32: at a grid node (nearest neighbour at distance at most 1e-8, the five others at distance at
least `δ > 1e-8`) the computed column is within `5e-8 / δ` grid widths of the node's column. -/
theorem C32_near_node (coord : Nat → Nat) (m : Nat) (d0 : K) (k0 : Nat) (rest : List (K × Nat))
    (hrest : rest.length = 5) (hd0 : |d0| ≤ 1 / 10 ^ 8) (δ : K) (hδ : 1 / 10 ^ 8 < δ) (hd : ∀ n ∈ rest, δ ≤ n.1)
    (hk0 : coord k0 ≤ m) (hk : ∀ n ∈ rest, coord n.2 ≤ m) :
    |idw ((d0, k0) :: rest) coord - (coord k0 : K)| ≤ 5 / (10 ^ 8 * δ) * m := by
  have hδ0 : 0 < δ := lt_trans (by positivity) hδ
  have hf0 : fixDist d0 = 1 / 10 ^ 8 := by rw [fixDist, if_pos hd0]
  have hf : ∀ n ∈ rest, fixDist n.1 = n.1 := by
    intro n hn
    have := hd n hn
    rw [fixDist, if_neg]
    rw [not_le, abs_of_pos (by linarith)]; linarith
  -- sums over the rest
  have hS : ∀ l : List (K × Nat), (∀ n ∈ l, n ∈ rest) →
      0 ≤ (l.map (fun n => 1 / fixDist n.1)).sum ∧
      |(l.map (fun n => 1 / fixDist n.1 * (coord n.2 : K))).sum - (coord k0 : K) * (l.map (fun n => 1 / fixDist n.1)).sum|
        ≤ (l.length : K) / δ * m := by
    intro l
    induction l with
    | nil => intro _; simp
    | cons a l ih =>
      intro hm
      obtain ⟨h0, h1⟩ := ih (fun n hn => hm n (by simp [hn]))
      have ha := hm a (by simp)
      have hap : 0 < a.1 := by linarith [hd a ha]
      have hinv : 1 / a.1 ≤ 1 / δ := one_div_le_one_div_of_le hδ0 (hd a ha)
      have hinv0 : 0 < 1 / a.1 := by positivity
      simp only [List.map_cons, List.sum_cons, List.length_cons, hf a ha]
      refine ⟨by linarith, ?_⟩
      have hdiff : |(coord a.2 : K) - (coord k0 : K)| ≤ m := by
        have c1 : (coord a.2 : K) ≤ m := by exact_mod_cast hk a ha
        have c2 : (coord k0 : K) ≤ m := by exact_mod_cast hk0
        have c3 : (0 : K) ≤ coord a.2 := Nat.cast_nonneg _
        have c4 : (0 : K) ≤ coord k0 := Nat.cast_nonneg _
        rw [abs_le]; constructor <;> linarith
      have e : 1 / a.1 * (coord a.2 : K) + (l.map (fun n => 1 / fixDist n.1 * (coord n.2 : K))).sum -
          (coord k0 : K) * (1 / a.1 + (l.map (fun n => 1 / fixDist n.1)).sum) =
          1 / a.1 * ((coord a.2 : K) - coord k0) +
          ((l.map (fun n => 1 / fixDist n.1 * (coord n.2 : K))).sum -
            (coord k0 : K) * (l.map (fun n => 1 / fixDist n.1)).sum) := by ring
      rw [e]
      have t1 : |1 / a.1 * ((coord a.2 : K) - coord k0)| ≤ 1 / δ * m := by
        rw [abs_mul, abs_of_pos hinv0]
        exact mul_le_mul hinv hdiff (abs_nonneg _) (by positivity)
      have t2 : (((l.length + 1 : Nat) : K)) / δ * m = 1 / δ * m + (l.length : K) / δ * m := by
        push_cast; ring
      rw [t2]
      exact le_trans (abs_add_le _ _) (add_le_add t1 h1)
  obtain ⟨s0, s1⟩ := hS rest (fun _ h => h)
  rw [hrest] at s1
  unfold idw
  simp only [List.map_cons, List.sum_cons, hf0]
  set S := (rest.map (fun n => 1 / fixDist n.1)).sum
  set T := (rest.map (fun n => 1 / fixDist n.1 * (coord n.2 : K))).sum
  have hW : (10 : K) ^ 8 ≤ 1 / (1 / 10 ^ 8) + S := by
    have : (1 : K) / (1 / 10 ^ 8) = 10 ^ 8 := by norm_num
    rw [this]; linarith
  have hWp : (0 : K) < 1 / (1 / 10 ^ 8) + S := lt_of_lt_of_le (by positivity) hW
  have e : (1 / (1 / 10 ^ 8) * (coord k0 : K) + T) / (1 / (1 / 10 ^ 8) + S) - (coord k0 : K) =
      (T - (coord k0 : K) * S) / (1 / (1 / 10 ^ 8) + S) := by
    field_simp
    ring
  rw [e, abs_div, abs_of_pos hWp, div_le_iff₀ hWp]
  have h5 : ((5 : Nat) : K) / δ * m = 5 / (10 ^ 8 * δ) * m * 10 ^ 8 := by
    push_cast; field_simp
  rw [h5] at s1
  refine le_trans s1 (mul_le_mul_of_nonneg_left hW ?_)
  have : (0 : K) ≤ m := Nat.cast_nonneg _
  positivity

/-- C32: an altitude array is the altitude reported. -/
theorem C32_alt_array (lons lats a : A2 K) (h : lons.ny ≠ 0 ∧ lons.nx ≠ 0) :
    ∃ g, mkIgm lons lats (.array a) = .ok g ∧ g.alts = a := by
  exact ⟨_, by rw [mkIgm, if_neg (by omega)], rfl⟩

/-- C32 fails for a number altitude: it is replaced by 0 everywhere. -/
theorem C32_alt_number_false (lons lats : A2 K) (h : lons.ny ≠ 0 ∧ lons.nx ≠ 0) (v : K) (hv : v ≠ 0) :
    ∃ g, mkIgm lons lats (.number v) = .ok g ∧ g.alts.ny = lons.ny ∧ g.alts.nx = lons.nx ∧
      ∀ y x, g.alts.px y x = 0 ∧ g.alts.px y x ≠ v := by
  exact ⟨_, by rw [mkIgm, if_neg (by omega)], rfl, rfl, fun y x => ⟨rfl, fun hc => hv hc.symm⟩⟩

/-- C32: the approximate centre is the position stored at the middle pixel (the right or lower one of
the two middle pixels when the number of columns or rows is even); an empty grid is rejected. -/
theorem C32_centre (lons lats : A2 K) (alt : AltArg K) :
    (∀ y x, y < lons.ny → x < lons.nx → lons.ny ≤ 2 * y + 1 → 2 * y ≤ lons.ny → lons.nx ≤ 2 * x + 1 → 2 * x ≤ lons.nx →
      ∃ g, mkIgm lons lats alt = .ok g ∧ g.centre = (lons.px y x, lats.px y x)) ∧
    (lons.ny = 0 ∨ lons.nx = 0 → mkIgm lons lats alt = .error .indexError) := by
  refine ⟨?_, ?_⟩
  · intro y x h1 h2 h3 h4 h5 h6
    have hy : lons.ny / 2 = y := by omega
    have hx : lons.nx / 2 = x := by omega
    cases alt <;> exact ⟨_, by rw [mkIgm, if_neg (by omega)], by simp only [hy, hx]⟩
  · intro h
    cases alt <;> rw [mkIgm, if_pos h]

example : (2 : Nat) < 5 ∧ 1 < 3 ∧ 5 ≤ 2 * 2 + 1 ∧ 2 * 2 ≤ 5 ∧ 3 ≤ 2 * 1 + 1 ∧ 2 * 1 ≤ 3 := by omega

example : ∀ n ∈ ([(0, 0), (1, 1), (1, 5), (3 / 2, 6), (2, 2), (2, 10)] : List (ℚ × Nat)),
    0 ≤ n.1 ∧ n.2 < 4 * 5 := by
  simp; norm_num

/-! ### C34 -/

/-- Specification: the centre of cell `(j, i)` of an `ny` by `nx` division of the extent (row 0 at the
top). -/
def cellCentre (minX maxX minY maxY : K) (nx ny j i : Nat) : K × K :=
  (minX + ((i : K) + 1 / 2) * ((maxX - minX) / nx), maxY - ((j : K) + 1 / 2) * ((maxY - minY) / ny))

/-- C34: the ground grid is the grid of cell centres. -/
theorem C34_cell_centres (minX maxX minY maxY : K) (hx : minX ≤ maxX) (hy : minY ≤ maxY) (nx ny : Nat)
    (h1 : 2 ≤ nx) (h2 : 2 ≤ ny) :
    ∃ gx gy, groundGrid minX maxX minY maxY nx ny = .ok (gx, gy) ∧
      gx.ny = ny ∧ gx.nx = nx ∧ gy.ny = ny ∧ gy.nx = nx ∧
      ∀ j i, (gx.px j i, gy.px j i) = cellCentre minX maxX minY maxY nx ny j i := by
  have hnx : (0 : K) < nx := by exact_mod_cast (by omega : 0 < nx)
  have hny : (0 : K) < ny := by exact_mod_cast (by omega : 0 < ny)
  unfold groundGrid
  simp only []
  rw [if_neg (by omega), if_neg (by omega)]
  refine ⟨_, _, rfl, rfl, rfl, rfl, rfl, ?_⟩
  intro j i
  have e1 : |((1 : Nat) : K) / nx * (maxX - minX) + minX - (((0 : Nat) : K) / nx * (maxX - minX) + minX)| =
      (maxX - minX) / nx := by
    rw [abs_of_nonneg]
    · push_cast; ring
    · push_cast
      have : 0 ≤ (maxX - minX) / nx := div_nonneg (by linarith) hnx.le
      have e : 1 / (nx : K) * (maxX - minX) + minX - (0 / nx * (maxX - minX) + minX) = (maxX - minX) / nx := by ring
      rw [e]; exact this
  have e2 : |(((0 : Nat) : K) - ny) * -1 / ny * (maxY - minY) + minY -
      ((((1 : Nat) : K) - ny) * -1 / ny * (maxY - minY) + minY)| = (maxY - minY) / ny := by
    rw [abs_of_nonneg]
    · push_cast; field_simp; ring
    · push_cast
      have : 0 ≤ (maxY - minY) / ny := div_nonneg (by linarith) hny.le
      have e : (0 - (ny : K)) * -1 / ny * (maxY - minY) + minY - ((1 - (ny : K)) * -1 / ny * (maxY - minY) + minY) =
        (maxY - minY) / ny := by field_simp; ring
      rw [e]; exact this
  simp only [e1, e2, cellCentre, Prod.mk.injEq]
  constructor
  · ring
  · field_simp; ring

/-- C34: for a non-degenerate extent the points are strictly inside and symmetric about the centre. -/
theorem C34_inside_symmetric (minX maxX minY maxY : K) (hx : minX < maxX) (hy : minY < maxY) (nx ny : Nat)
    (h1 : 2 ≤ nx) (h2 : 2 ≤ ny) :
    ∃ gx gy, groundGrid minX maxX minY maxY nx ny = .ok (gx, gy) ∧
      ∀ j i, j < ny → i < nx →
        (minX < gx.px j i ∧ gx.px j i < maxX ∧ minY < gy.px j i ∧ gy.px j i < maxY) ∧
        gx.px j i + gx.px j (nx - 1 - i) = minX + maxX ∧ gy.px j i + gy.px (ny - 1 - j) i = minY + maxY := by
  have hnx : (0 : K) < nx := by exact_mod_cast (by omega : 0 < nx)
  have hny : (0 : K) < ny := by exact_mod_cast (by omega : 0 < ny)
  obtain ⟨gx, gy, h, -, -, -, -, hv⟩ := C34_cell_centres minX maxX minY maxY hx.le hy.le nx ny h1 h2
  refine ⟨gx, gy, h, ?_⟩
  intro j i hj hi
  have ex : ∀ j i, gx.px j i = minX + ((i : K) + 1 / 2) * ((maxX - minX) / nx) := fun j i => congrArg Prod.fst (hv j i)
  have ey : ∀ j i, gy.px j i = maxY - ((j : K) + 1 / 2) * ((maxY - minY) / ny) := fun j i => congrArg Prod.snd (hv j i)
  have wx : 0 < (maxX - minX) / nx := div_pos (by linarith) hnx
  have wy : 0 < (maxY - minY) / ny := div_pos (by linarith) hny
  have i0 : (0 : K) ≤ i := Nat.cast_nonneg _
  have j0 : (0 : K) ≤ j := Nat.cast_nonneg _
  have i1 : (i : K) + 1 ≤ nx := by exact_mod_cast hi
  have j1 : (j : K) + 1 ≤ ny := by exact_mod_cast hj
  have fx : (nx : K) * ((maxX - minX) / nx) = maxX - minX := by field_simp
  have fy : (ny : K) * ((maxY - minY) / ny) = maxY - minY := by field_simp
  simp only [ex, ey]
  refine ⟨⟨?_, ?_, ?_, ?_⟩, ?_, ?_⟩
  · have : 0 < ((i : K) + 1 / 2) * ((maxX - minX) / nx) := by positivity
    linarith
  · have : ((i : K) + 1 / 2) * ((maxX - minX) / nx) < nx * ((maxX - minX) / nx) :=
      mul_lt_mul_of_pos_right (by linarith) wx
    linarith
  · have : ((j : K) + 1 / 2) * ((maxY - minY) / ny) < ny * ((maxY - minY) / ny) :=
      mul_lt_mul_of_pos_right (by linarith) wy
    linarith
  · have : 0 < ((j : K) + 1 / 2) * ((maxY - minY) / ny) := by positivity
    linarith
  · rw [Nat.cast_sub (by omega), Nat.cast_sub (by omega)]
    push_cast
    linear_combination fx
  · rw [Nat.cast_sub (by omega), Nat.cast_sub (by omega)]
    push_cast
    linear_combination -fy

/-- C34, error branch: with a single row or column of pixels the grid cannot be built. -/
theorem C34_too_small (minX maxX minY maxY : K) (nx ny : Nat) (h : nx < 2 ∨ ny < 2) :
    groundGrid minX maxX minY maxY nx ny = .error .indexError := by
  unfold groundGrid
  simp only []
  by_cases h1 : ny = 0 ∨ nx < 2
  · rw [if_pos h1]
  · rw [if_neg h1, if_pos (by omega)]

example : ∃ gx gy, groundGrid (0 : ℚ) 10 0 20 5 4 = .ok (gx, gy) ∧ (gx.px 0 0, gy.px 0 0) = (1, 35 / 2) := by
  obtain ⟨gx, gy, h, -, -, -, -, hv⟩ := C34_cell_centres (0 : ℚ) 10 0 20 (by norm_num) (by norm_num) 5 4
    (by norm_num) (by norm_num)
  exact ⟨gx, gy, h, by rw [hv]; norm_num [cellCentre]⟩

/-! ### C35 -/

/-- The world position the attached geotransform gives to the centre of output pixel `(j, i)`. -/
def georefCentre (b : Box K) (nx ny j i : Nat) : K × K :=
  (mkCalc (polyToGeoT b nx ny) nx ny).pixelToWorld ((i : K) + 1 / 2) ((j : K) + 1 / 2)

/-- C35 fails everywhere: for every non-degenerate extent, every output size and every output pixel,
the geotransform gives the pixel's centre a position different (in both coordinates) from the one it
was sampled at. -/
theorem C35_georef_false (b : Box K) (hx : b.minX < b.maxX) (hy : b.minY < b.maxY) (nx ny : Nat)
    (h1 : 2 ≤ nx) (h2 : 2 ≤ ny) :
    ∃ gx gy, groundGrid b.minX b.maxX b.minY b.maxY nx ny = .ok (gx, gy) ∧
      ∀ j i, (georefCentre b nx ny j i).1 ≠ gx.px j i ∧ (georefCentre b nx ny j i).2 ≠ gy.px j i := by
  have hnx : (0 : K) < nx := by exact_mod_cast (by omega : 0 < nx)
  have hny : (0 : K) < ny := by exact_mod_cast (by omega : 0 < ny)
  obtain ⟨gx, gy, h, -, -, -, -, hv⟩ := C34_cell_centres b.minX b.maxX b.minY b.maxY hx.le hy.le nx ny h1 h2
  refine ⟨gx, gy, h, ?_⟩
  intro j i
  have ex : gx.px j i = _ := congrArg Prod.fst (hv j i)
  have ey : gy.px j i = _ := congrArg Prod.snd (hv j i)
  rw [ex, ey]
  simp only [georefCentre, mkCalc, Calc.pixelToWorld, polyToGeoT, cellCentre, mul_zero, add_zero]
  have i0 : (0 : K) < (i : K) + 1 / 2 := by have : (0 : K) ≤ i := Nat.cast_nonneg _; linarith
  have j0 : (0 : K) < (j : K) + 1 / 2 := by have : (0 : K) ≤ j := Nat.cast_nonneg _; linarith
  have lt : ∀ (w : K) (n : K), 0 < w → 0 < n → w / (n + 1) < w / n := by
    intro w n hw hn
    exact div_lt_div_of_pos_left hw hn (by linarith)
  constructor
  · have := mul_lt_mul_of_pos_left (lt _ _ (sub_pos.mpr hx) hnx) i0
    intro hc
    linarith
  · have := mul_lt_mul_of_pos_left (lt _ _ (sub_pos.mpr hy) hny) j0
    intro hc
    linarith

/-- C35 (partial): the two agree up to less than one output pixel: the georeferenced centre is shifted
toward the upper-left corner by `(i + 1/2) / (nx + 1)` pixel widths, `(j + 1/2) / (ny + 1)` heights. -/
theorem C35_subpixel_partial (b : Box K) (hx : b.minX < b.maxX) (hy : b.minY < b.maxY) (nx ny : Nat)
    (h1 : 2 ≤ nx) (h2 : 2 ≤ ny) :
    ∃ gx gy, groundGrid b.minX b.maxX b.minY b.maxY nx ny = .ok (gx, gy) ∧
      ∀ j i, j < ny → i < nx →
        gx.px j i - (georefCentre b nx ny j i).1 = ((i : K) + 1 / 2) / (nx + 1) * ((b.maxX - b.minX) / nx) ∧
        (georefCentre b nx ny j i).2 - gy.px j i = ((j : K) + 1 / 2) / (ny + 1) * ((b.maxY - b.minY) / ny) ∧
        |gx.px j i - (georefCentre b nx ny j i).1| < (b.maxX - b.minX) / nx ∧
        |gy.px j i - (georefCentre b nx ny j i).2| < (b.maxY - b.minY) / ny := by
  have hnx : (0 : K) < nx := by exact_mod_cast (by omega : 0 < nx)
  have hny : (0 : K) < ny := by exact_mod_cast (by omega : 0 < ny)
  obtain ⟨gx, gy, h, -, -, -, -, hv⟩ := C34_cell_centres b.minX b.maxX b.minY b.maxY hx.le hy.le nx ny h1 h2
  refine ⟨gx, gy, h, ?_⟩
  intro j i hj hi
  have ex : gx.px j i = _ := congrArg Prod.fst (hv j i)
  have ey : gy.px j i = _ := congrArg Prod.snd (hv j i)
  have nx1 : (nx : K) + 1 ≠ 0 := by positivity
  have ny1 : (ny : K) + 1 ≠ 0 := by positivity
  have g1 : gx.px j i - (georefCentre b nx ny j i).1 = ((i : K) + 1 / 2) / (nx + 1) * ((b.maxX - b.minX) / nx) := by
    rw [ex]
    simp only [georefCentre, mkCalc, Calc.pixelToWorld, polyToGeoT, cellCentre, mul_zero, add_zero]
    field_simp
    ring
  have g2 : (georefCentre b nx ny j i).2 - gy.px j i = ((j : K) + 1 / 2) / (ny + 1) * ((b.maxY - b.minY) / ny) := by
    rw [ey]
    simp only [georefCentre, mkCalc, Calc.pixelToWorld, polyToGeoT, cellCentre, mul_zero, add_zero]
    field_simp
    ring
  have wx : 0 < (b.maxX - b.minX) / nx := div_pos (by linarith) hnx
  have wy : 0 < (b.maxY - b.minY) / ny := div_pos (by linarith) hny
  have i0 : (0 : K) ≤ i := Nat.cast_nonneg _
  have j0 : (0 : K) ≤ j := Nat.cast_nonneg _
  have i1 : (i : K) + 1 ≤ nx := by exact_mod_cast hi
  have j1 : (j : K) + 1 ≤ ny := by exact_mod_cast hj
  have f1 : ((i : K) + 1 / 2) / (nx + 1) < 1 := by rw [div_lt_one (by linarith)]; linarith
  have f2 : ((j : K) + 1 / 2) / (ny + 1) < 1 := by rw [div_lt_one (by linarith)]; linarith
  refine ⟨g1, g2, ?_, ?_⟩
  · rw [g1, abs_of_nonneg (by positivity)]
    calc _ < 1 * ((b.maxX - b.minX) / nx) := mul_lt_mul_of_pos_right f1 wx
      _ = _ := one_mul _
  · rw [abs_sub_comm, g2, abs_of_nonneg (by positivity)]
    calc _ < 1 * ((b.maxY - b.minY) / ny) := mul_lt_mul_of_pos_right f2 wy
      _ = _ := one_mul _

example : (⟨0, 0, 10, 20⟩ : Box ℚ).minX < (⟨0, 0, 10, 20⟩ : Box ℚ).maxX := by norm_num

/-! ### C75 -/

/-- Specification: `w` is the spread (largest minus smallest) of the values. -/
def IsSpread (vals : List K) (w : K) : Prop :=
  ∃ a ∈ vals, ∃ b ∈ vals, (∀ v ∈ vals, a ≤ v ∧ v ≤ b) ∧ w = b - a

theorem lmax_spec (a : K) (l : List K) : lmax a l ∈ a :: l ∧ ∀ v ∈ a :: l, v ≤ lmax a l := by
  induction l generalizing a with
  | nil => simp [lmax]
  | cons b l ih =>
    have h : lmax a (b :: l) = lmax (max a b) l := rfl
    rw [h]
    obtain ⟨h1, h2⟩ := ih (max a b)
    constructor
    · simp only [List.mem_cons] at h1 ⊢
      rcases h1 with h1 | h1
      · rcases max_choice a b with h' | h' <;> rw [h'] at h1 <;> simp [h', h1]
      · exact Or.inr (Or.inr h1)
    · intro v hv
      simp only [List.mem_cons] at hv
      have h0 := h2 (max a b) (by simp)
      rcases hv with rfl | rfl | hv
      · exact le_trans (le_max_left _ _) h0
      · exact le_trans (le_max_right _ _) h0
      · exact h2 v (by simp [hv])

theorem lmin_spec (a : K) (l : List K) : lmin a l ∈ a :: l ∧ ∀ v ∈ a :: l, lmin a l ≤ v := by
  induction l generalizing a with
  | nil => simp [lmin]
  | cons b l ih =>
    have h : lmin a (b :: l) = lmin (min a b) l := rfl
    rw [h]
    obtain ⟨h1, h2⟩ := ih (min a b)
    constructor
    · simp only [List.mem_cons] at h1 ⊢
      rcases h1 with h1 | h1
      · rcases min_choice a b with h' | h' <;> rw [h'] at h1 <;> simp [h', h1]
      · exact Or.inr (Or.inr h1)
    · intro v hv
      simp only [List.mem_cons] at hv
      have h0 := h2 (min a b) (by simp)
      rcases hv with rfl | rfl | hv
      · exact le_trans h0 (min_le_left _ _)
      · exact le_trans h0 (min_le_right _ _)
      · exact h2 v (by simp [hv])

/-- C75: the pixel counts are the largest whole numbers of pixels that fit in the extent's width and
height. -/
theorem C75_largest_fit [FloorRing K] (pts : List (K × K)) (hne : pts ≠ []) (gsdX gsdY : K) (hx : 0 < gsdX)
    (hy : 0 < gsdY) (w h : K) (hw : IsSpread (pts.map Prod.fst) w) (hh : IsSpread (pts.map Prod.snd) h) :
    ∃ nx ny : Int, pixelsInExtent pts gsdX gsdY = .ok (nx, ny) ∧ 0 ≤ nx ∧ 0 ≤ ny ∧
      (nx : K) * gsdX ≤ w ∧ (ny : K) * gsdY ≤ h ∧
      (∀ m : Int, (m : K) * gsdX ≤ w → m ≤ nx) ∧ (∀ m : Int, (m : K) * gsdY ≤ h → m ≤ ny) := by
  cases pts with
  | nil => exact absurd rfl hne
  | cons p ps =>
    have spread : ∀ (a : K) (l : List K) (w : K), IsSpread (a :: l) w → lmax a l - lmin a l = w ∧ 0 ≤ w := by
      rintro a l w ⟨lo, hlo, hi, hhi, hb, rfl⟩
      obtain ⟨m1, m2⟩ := lmax_spec a l
      obtain ⟨n1, n2⟩ := lmin_spec a l
      have e1 : lmax a l = hi := le_antisymm (hb _ m1).2 (m2 _ hhi)
      have e2 : lmin a l = lo := le_antisymm (n2 _ hlo) (hb _ n1).1
      exact ⟨by rw [e1, e2], by have := (hb _ hhi).1; linarith⟩
    obtain ⟨ew, w0⟩ := spread p.1 (ps.map Prod.fst) w hw
    obtain ⟨eh, h0⟩ := spread p.2 (ps.map Prod.snd) h hh
    have hi : ∀ v g : K, 0 ≤ v → 0 < g → pyInt (v / g) = ⌊v / g⌋ := by
      intro v g hv hg
      rw [pyInt, if_pos (div_nonneg hv hg.le)]
    refine ⟨⌊w / gsdX⌋, ⌊h / gsdY⌋, ?_, Int.floor_nonneg.mpr (div_nonneg w0 hx.le),
      Int.floor_nonneg.mpr (div_nonneg h0 hy.le), ?_, ?_, ?_, ?_⟩
    · unfold pixelsInExtent
      simp only [ew, eh]
      rw [if_neg (by simp [hx.ne', hy.ne']), hi w gsdX w0 hx, hi h gsdY h0 hy]
    · rw [← le_div_iff₀ hx]; exact Int.floor_le _
    · rw [← le_div_iff₀ hy]; exact Int.floor_le _
    · intro m hm; rw [Int.le_floor, le_div_iff₀ hx]; exact hm
    · intro m hm; rw [Int.le_floor, le_div_iff₀ hy]; exact hm

/-- A ground sample distance of zero in either direction is a ZeroDivisionError, an extent without points a ValueError. -/
theorem C75_refused [FloorRing K] (pts : List (K × K)) (gsdX gsdY : K) :
    pixelsInExtent ([] : List (K × K)) gsdX gsdY = .error .valueError ∧
    (pts ≠ [] → (gsdX = 0 ∨ gsdY = 0) → pixelsInExtent pts gsdX gsdY = .error .zeroDivision) := by
  refine ⟨rfl, ?_⟩
  intro hne h
  cases pts with
  | nil => exact absurd rfl hne
  | cons p ps => unfold pixelsInExtent; simp only []; rw [if_pos h]

example : IsSpread ([0, 10, 10, 0, 0] : List ℚ) 10 := ⟨0, by simp, 10, by simp, by simp, by norm_num⟩

end

/-! ### C33 -/

section
variable {C : Type}

/-- Specification: a numbered store: how many bands have a calculator, and which. -/
structure Store (C : Type) where
  count : Nat
  at' : Nat → Option C

/-- Specification of the calls: `set` replaces the store, `add` gives the next band, `update` replaces
the calculator of the band its index denotes and only that one; an index denoting no band has no
effect. -/
def Store.apply (s s' : Store C) : SensorOp C → Prop
  | .set l => s'.count = l.length ∧ ∀ b, s'.at' b = l[b]?
  | .add c => s'.count = s.count + 1 ∧ s'.at' s.count = some c ∧ ∀ b, b ≠ s.count → s'.at' b = s.at' b
  | .update i c => s'.count = s.count ∧
      (∀ k, PyAt s.count i k → s'.at' k = some c) ∧
      (∀ b, ¬ PyAt s.count i b → s'.at' b = s.at' b)

/-- The store a list of calculators denotes. -/
def storeOf (l : List C) : Store C := ⟨l.length, fun b => l[b]?⟩

theorem pyAt_unique {n : Nat} {i : Int} {a b : Nat} (h1 : PyAt n i a) (h2 : PyAt n i b) : a = b := by
  unfold PyAt at h1 h2; omega

/-- C33: every call, in every reachable or unreachable state, acts on the numbered store as
specified; hence so does every history. -/
theorem C33_refines (ops : List (SensorOp C)) (o : SensorOp C) :
    (storeOf (sensorRun ops)).apply (storeOf (sensorRun (ops ++ [o]))) o := by
  have hr : sensorRun (ops ++ [o]) = (match sensorStep (sensorRun ops) o with
      | .ok l' => l'
      | .error _ => sensorRun ops) := by
    unfold sensorRun; rw [List.foldl_append]; rfl
  rw [hr]
  generalize sensorRun ops = l
  cases o with
  | set l' => exact ⟨rfl, fun b => rfl⟩
  | add c =>
    refine ⟨by simp [sensorStep, storeOf], by simp [sensorStep, storeOf], ?_⟩
    intro b hb
    simp only [sensorStep, storeOf] at hb ⊢
    rcases Nat.lt_or_gt_of_ne hb with h | h
    · rw [List.getElem?_append_left h]
    · rw [List.getElem?_eq_none (by simp; omega), List.getElem?_eq_none (by omega)]
  | update i c =>
    simp only [sensorStep]
    cases hp : pyIdx l.length i with
    | error e =>
      simp only [error_bind]
      refine ⟨rfl, ?_, fun b _ => rfl⟩
      intro k hk
      have := (pyIdx_ok_iff l.length i k).mpr hk
      rw [this] at hp; simp at hp
    | ok k =>
      simp only [ok_bind]
      have hk := (pyIdx_ok_iff l.length i k).mp hp
      refine ⟨by simp [storeOf], ?_, ?_⟩
      · intro k' hk'
        have := pyAt_unique hk hk'
        subst this
        simp [storeOf, hk.1]
      · intro b hb
        have : k ≠ b := by rintro rfl; exact hb hk
        simp [storeOf, List.getElem?_set_ne this]

/-- C33: after any history, a query for a band that has a calculator gives exactly that calculator's
answer. -/
theorem C33_query {R : Type} (ops : List (SensorOp C)) (ask : C → Int → R) (b : Nat) (c : C)
    (h : (storeOf (sensorRun ops)).at' b = some c) :
    sensorQuery (sensorRun ops) (some (b : Int)) ask = .ok (some (ask c b)) := by
  simp only [storeOf] at h
  have hb : b < (sensorRun ops).length := by
    by_contra hn
    rw [List.getElem?_eq_none (by omega)] at h
    simp at h
  unfold sensorQuery
  simp only []
  rw [if_pos (by exact_mod_cast hb), pyIdx_nat hb]
  simp only [ok_bind, h]

/-- C33: no band given is an error. -/
theorem C33_band_none {R : Type} (l : List C) (ask : C → Int → R) :
    sensorQuery l none ask = .error .typeError := rfl

/-- C33 fails for a band without calculator: the answer is None, not an error. -/
theorem C33_missing_band_false {R : Type} (ops : List (SensorOp C)) (ask : C → Int → R) (b : Nat)
    (h : (storeOf (sensorRun ops)).at' b = none) :
    sensorQuery (sensorRun ops) (some (b : Int)) ask = .ok none := by
  simp only [storeOf, List.getElem?_eq_none_iff] at h
  unfold sensorQuery
  simp only []
  rw [if_neg (by omega)]

/-- C33 (partial), the exact meaning of the query for every band argument: bands `0..n-1` use their
calculator, `-n..-1` count from the end, below that IndexError, `n` and above None. -/
theorem C33_query_total_partial {R : Type} (l : List C) (ask : C → Int → R) (b : Int) :
    (∀ k c, PyAt l.length b k → l[k]? = some c → sensorQuery l (some b) ask = .ok (some (ask c b))) ∧
    (b < -(l.length : Int) → sensorQuery l (some b) ask = .error .indexError) ∧
    ((l.length : Int) ≤ b → sensorQuery l (some b) ask = .ok none) := by
  refine ⟨?_, ?_, ?_⟩
  · intro k c hk hc
    unfold sensorQuery
    simp only []
    rw [if_pos (by unfold PyAt at hk; omega), (pyIdx_ok_iff _ _ _).mpr hk]
    simp only [ok_bind, hc]
  · intro h
    unfold sensorQuery pyIdx
    simp only []
    rw [if_pos (by omega), if_neg (by omega), if_neg (by omega)]
    rfl
  · intro h
    unfold sensorQuery
    simp only []
    rw [if_neg (by omega)]

/-- C33 fails across models: calculators passed from one model to another stay shared, so updating a
band of one model changes the other model's answers. -/
theorem C33_shared_list_false (w : World C) (a b k : Nat) (c : C) (hk : k < (w.calcs b).length) :
    (((w.share a b).update b k c).calcs a)[k]? = some c := by
  have href : (w.share a b).ref a = (w.share a b).ref b := by
    simp only [World.share, if_true]
    by_cases h : b = a <;> simp [h]
  have hrb : (w.share a b).ref b = w.ref b := by
    simp only [World.share]
    by_cases h : b = a <;> simp [h]
  simp only [World.calcs, World.update, href, if_true]
  rw [hrb]
  unfold World.calcs at hk
  simp [World.share, hk]

example : sensorRun [.add 1, .add 2, .update (-1) 7, .update 5 9, .set [4, 5], .update 0 (3 : Nat)] = [3, 5] := by
  decide

end
end Verif.Grids
