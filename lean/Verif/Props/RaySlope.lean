import Verif.Props.RayCaster
import Verif.Props.Dem

/-! C174: ray casting on terrain of bounded slope: what the sample distance guarantees about the terrain between the samples. -/

set_option linter.unusedSectionVars false

namespace Verif.PointCalc
open Verif ImageUtils

/-- Specification: terrain whose elevation changes by at most `c` per unit of horizontal distance. -/
def Gentle (E : ℝ → ℝ → ℝ) (c : ℝ) : Prop := ∀ p q : ℝ × ℝ, |E p.1 p.2 - E q.1 q.2| ≤ c * horizontalLen (p, q)

theorem segPoint_len (p q : ℝ × ℝ) (a b : ℝ) : horizontalLen (segPoint p q a, segPoint p q b) = |a - b| * horizontalLen (p, q) := by
  unfold horizontalLen segPoint
  simp only []
  rw [show (p.1 + a * (q.1 - p.1) - (p.1 + b * (q.1 - p.1))) ^ 2 + (p.2 + a * (q.2 - p.2) - (p.2 + b * (q.2 - p.2))) ^ 2 =
    (a - b) ^ 2 * ((p.1 - q.1) ^ 2 + (p.2 - q.2) ^ 2) by ring, Real.sqrt_mul (sq_nonneg _), Real.sqrt_sq_eq_abs]

/-- Between two samples the terrain is within half a sample distance times the slope of the straight line between the sampled elevations. -/
theorem chord {E : ℝ → ℝ → ℝ} {c : ℝ} (hE : Gentle E c) (hc : 0 ≤ c) (top bot : ℝ × ℝ) {dist : ℝ} {s : Nat} (hs : 2 ≤ s)
    (hsp : horizontalLen (top, bot) ≤ dist * ((s : ℝ) - 1)) (j : ℝ) {x : ℝ} (h0 : 0 ≤ x) (h1 : x ≤ 1) :
    |E (segPoint top bot ((j + x) / (s - 1))).1 (segPoint top bot ((j + x) / (s - 1))).2 -
      ((1 - x) * E (segPoint top bot (j / (s - 1))).1 (segPoint top bot (j / (s - 1))).2 +
        x * E (segPoint top bot ((j + 1) / (s - 1))).1 (segPoint top bot ((j + 1) / (s - 1))).2)| ≤ c * dist / 2 := by
  have hs1 : (0 : ℝ) < (s : ℝ) - 1 := by have : (2 : ℝ) ≤ s := by exact_mod_cast hs
                                         linarith
  have key : ∀ a b : ℝ, |E (segPoint top bot (a / (s - 1))).1 (segPoint top bot (a / (s - 1))).2 - E (segPoint top bot (b / (s - 1))).1 (segPoint top bot (b / (s - 1))).2| ≤
      c * (|a - b| * dist) := by
    intro a b
    refine (hE _ _).trans (mul_le_mul_of_nonneg_left ?_ hc)
    change horizontalLen (segPoint top bot (a / (s - 1)), segPoint top bot (b / (s - 1))) ≤ _
    rw [segPoint_len, ← sub_div, abs_div, abs_of_pos hs1, div_mul_eq_mul_div, div_le_iff₀ hs1, mul_assoc]
    exact mul_le_mul_of_nonneg_left hsp (abs_nonneg _)
  have k1 := key (j + x) j
  have k2 := key (j + x) (j + 1)
  rw [show j + x - j = x by ring, abs_of_nonneg h0] at k1
  rw [show j + x - (j + 1) = -(1 - x) by ring, abs_neg, abs_of_nonneg (by linarith : (0 : ℝ) ≤ 1 - x)] at k2
  generalize E (segPoint top bot ((j + x) / (s - 1))).1 (segPoint top bot ((j + x) / (s - 1))).2 = e at *
  generalize E (segPoint top bot (j / (s - 1))).1 (segPoint top bot (j / (s - 1))).2 = e0 at *
  generalize E (segPoint top bot ((j + 1) / (s - 1))).1 (segPoint top bot ((j + 1) / (s - 1))).2 = e1 at *
  have hd : 0 ≤ dist := by
    by_contra hneg
    push Not at hneg
    have := mul_neg_of_neg_of_pos hneg hs1
    have h2 : 0 ≤ horizontalLen (top, bot) := Real.sqrt_nonneg _
    linarith
  have e3 : e - ((1 - x) * e0 + x * e1) = (1 - x) * (e - e0) + x * (e - e1) := by ring
  rw [e3]
  have a1 : |(1 - x) * (e - e0)| ≤ (1 - x) * (c * (x * dist)) := by rw [abs_mul, abs_of_nonneg (by linarith : (0 : ℝ) ≤ 1 - x)]; exact mul_le_mul_of_nonneg_left k1 (by linarith)
  have a2 : |x * (e - e1)| ≤ x * (c * ((1 - x) * dist)) := by rw [abs_mul, abs_of_nonneg h0]; exact mul_le_mul_of_nonneg_left k2 h0
  have a3 := abs_add_le ((1 - x) * (e - e0)) (x * (e - e1))
  have a4 : 0 ≤ c * dist * (1 - 2 * x) ^ 2 := by positivity
  nlinarith

/-- C174: a DEM `E` that is within `δ` of a terrain `T` of slope at most `c`, sampled at most `dist` apart: the answer lies on the pixel's ray, its altitude is the terrain's
there up to `c * dist / 2 + δ`, and nowhere before it is the ray below the terrain by more than that. -/
theorem C174_terrain (E T : ℝ → ℝ → ℝ) (c δ : ℝ) (hc : 0 ≤ c) (hG : Gentle T c) (demHi demLo : ℝ) (ground : ℝ → Nat → ℝ × ℝ) (n : Nat) (hn : 0 < n)
    (dist hi lo : Option ℝ) (hd : 0 < dist.getD 5) (hrange : lo.getD demLo < hi.getD demHi) (hE : ∀ u v, lo.getD demLo ≤ E u v ∧ E u v ≤ hi.getD demHi) (A B : ℝ)
    (hA : A = searchTop (hi.getD demHi) (lo.getD demLo)) (hB : B = searchBottom (hi.getD demHi) (lo.getD demLo)) (hslant : ∃ k, k < n ∧ ground A k ≠ ground B k)
    (hδ : ∀ k, k < n → ∀ t, 0 ≤ t → t ≤ 1 → |E (segPoint (ground A k) (ground B k) t).1 (segPoint (ground A k) (ground B k) t).2 -
      T (segPoint (ground A k) (ground B k) t).1 (segPoint (ground A k) (ground B k) t).2| ≤ δ) :
    ∃ hits, pixelToLonLatAlt E demHi demLo ground n dist hi lo = .ok hits ∧ hits.length = n ∧
      ∀ k, k < n → ∃ lon lat alt t, hits[k]? = some (some (lon, lat, alt)) ∧ 0 ≤ t ∧ t < 1 ∧ (lon, lat) = segPoint (ground A k) (ground B k) t ∧ alt = A + t * (B - A) ∧
        |T lon lat - alt| ≤ c * dist.getD 5 / 2 + δ ∧
        ∀ t', 0 ≤ t' → t' ≤ t → T (segPoint (ground A k) (ground B k) t').1 (segPoint (ground A k) (ground B k) t').2 ≤ A + t' * (B - A) + c * dist.getD 5 / 2 + δ := by
  subst hA hB
  obtain ⟨s, hits, hs, hsp, h1, h2, h3⟩ := C21_first_hit E demHi demLo ground n hn dist hi lo hd hrange hE hslant
  refine ⟨hits, h1, h2, ?_⟩
  intro k hk
  obtain ⟨q, hq, i, x, his, x0, x1, hon, halt, hint, hbef, hbel⟩ := h3 k hk
  set A := searchTop (hi.getD demHi) (lo.getD demLo)
  set B := searchBottom (hi.getD demHi) (lo.getD demLo)
  have hsp' := hsp k hk
  have hs1 : (0 : ℝ) < (s : ℝ) - 1 := by have : (2 : ℝ) ≤ s := by exact_mod_cast hs
                                         linarith
  have his' : (i : ℝ) + 1 ≤ (s : ℝ) - 1 := by
    have : ((i + 1 + 1 : ℕ) : ℝ) ≤ (s : ℝ) := by exact_mod_cast (by omega : i + 1 + 1 ≤ s)
    push_cast at this
    linarith
  have i0 : (0 : ℝ) ≤ i := Nat.cast_nonneg i
  -- the sampled line of the DEM is close to the terrain
  have ch : ∀ (j x : ℝ), 0 ≤ j → j + 1 ≤ (s : ℝ) - 1 → 0 ≤ x → x ≤ 1 →
      |T (segPoint (ground A k) (ground B k) ((j + x) / (s - 1))).1 (segPoint (ground A k) (ground B k) ((j + x) / (s - 1))).2 -
        ((1 - x) * E (segPoint (ground A k) (ground B k) (j / (s - 1))).1 (segPoint (ground A k) (ground B k) (j / (s - 1))).2 +
          x * E (segPoint (ground A k) (ground B k) ((j + 1) / (s - 1))).1 (segPoint (ground A k) (ground B k) ((j + 1) / (s - 1))).2)| ≤ c * dist.getD 5 / 2 + δ := by
    intro j x j0 j1 x0 x1
    have a1 := chord hG hc (ground A k) (ground B k) hs hsp' j x0 x1
    have a2 := hδ k hk (j / (s - 1)) (by positivity) (by rw [div_le_one hs1]; linarith)
    have a3 := hδ k hk ((j + 1) / (s - 1)) (by positivity) (by rw [div_le_one hs1]; linarith)
    generalize T (segPoint (ground A k) (ground B k) ((j + x) / (s - 1))).1 (segPoint (ground A k) (ground B k) ((j + x) / (s - 1))).2 = e at *
    generalize E (segPoint (ground A k) (ground B k) (j / (s - 1))).1 (segPoint (ground A k) (ground B k) (j / (s - 1))).2 = e0 at *
    generalize E (segPoint (ground A k) (ground B k) ((j + 1) / (s - 1))).1 (segPoint (ground A k) (ground B k) ((j + 1) / (s - 1))).2 = e1 at *
    generalize T (segPoint (ground A k) (ground B k) (j / (s - 1))).1 (segPoint (ground A k) (ground B k) (j / (s - 1))).2 = t0 at *
    generalize T (segPoint (ground A k) (ground B k) ((j + 1) / (s - 1))).1 (segPoint (ground A k) (ground B k) ((j + 1) / (s - 1))).2 = t1 at *
    have e3 : e - ((1 - x) * e0 + x * e1) = (e - ((1 - x) * t0 + x * t1)) - ((1 - x) * (e0 - t0) + x * (e1 - t1)) := by ring
    rw [e3]
    have b1 : |(1 - x) * (e0 - t0)| ≤ (1 - x) * δ := by rw [abs_mul, abs_of_nonneg (by linarith : (0 : ℝ) ≤ 1 - x)]; exact mul_le_mul_of_nonneg_left a2 (by linarith)
    have b2 : |x * (e1 - t1)| ≤ x * δ := by rw [abs_mul, abs_of_nonneg x0]; exact mul_le_mul_of_nonneg_left a3 x0
    have b3 := abs_add_le ((1 - x) * (e0 - t0)) (x * (e1 - t1))
    have b4 := abs_sub (e - ((1 - x) * t0 + x * t1)) ((1 - x) * (e0 - t0) + x * (e1 - t1))
    linarith
  refine ⟨q.1, q.2.1, q.2.2, (i + x) / (s - 1), hq, by positivity, ?_, hon, halt, ?_, ?_⟩
  · rw [div_lt_one hs1]; linarith
  · have := ch i x i0 his' x0 x1.le
    rw [← hon, ← hint] at this
    exact this
  · intro t' ht0 ht1
    have ht : t' = t' * (s - 1) / (s - 1) := by field_simp
    set z := t' * ((s : ℝ) - 1) with hz
    have z0 : 0 ≤ z := mul_nonneg ht0 hs1.le
    have z1 : z ≤ i + x := by rw [hz]; rwa [le_div_iff₀ hs1] at ht1
    have fl0 := Nat.floor_le z0
    have fl1 := Nat.lt_floor_add_one z
    obtain ⟨j, hj⟩ : ∃ j, j = ⌊z⌋₊ := ⟨_, rfl⟩
    rw [← hj] at fl0 fl1
    obtain ⟨y, hy⟩ : ∃ y, y = z - (j : ℝ) := ⟨_, rfl⟩
    have zy : z = j + y := by rw [hy]; ring
    have y0 : 0 ≤ y := by rw [hy]; linarith
    have y1 : y ≤ 1 := by rw [hy]; linarith
    have hji : j ≤ i := by
      by_contra hgt
      have : ((i + 1 : ℕ) : ℝ) ≤ (j : ℝ) := by exact_mod_cast (by omega : i + 1 ≤ j)
      push_cast at this
      linarith
    have hji' : (j : ℝ) ≤ i := by exact_mod_cast hji
    have c1 := (abs_le.mp (ch j y (Nat.cast_nonneg j) (by linarith) y0 y1)).2
    rw [← zy, ← ht] at c1
    -- the ray is above the sampled line
    have above : (1 - y) * E (segPoint (ground A k) (ground B k) (j / (s - 1))).1 (segPoint (ground A k) (ground B k) (j / (s - 1))).2 +
        y * E (segPoint (ground A k) (ground B k) ((j + 1) / (s - 1))).1 (segPoint (ground A k) (ground B k) ((j + 1) / (s - 1))).2 ≤ A + t' * (B - A) := by
      have hj0 := hbef j hji
      have et : A + t' * (B - A) = (1 - y) * (A + j / (s - 1) * (B - A)) + y * (A + (j + 1) / (s - 1) * (B - A)) := by
        rw [ht, zy]; ring
      rw [et]
      rcases Nat.lt_or_eq_of_le hji with hlt | rfl
      · have hj1 := hbef (j + 1) (by omega)
        push_cast at hj1
        exact add_le_add (mul_le_mul_of_nonneg_left hj0 (by linarith)) (mul_le_mul_of_nonneg_left hj1 y0)
      · have yx : y ≤ x := by rw [zy] at z1; linarith
        have e1 : (1 - x) * (A + j / (s - 1) * (B - A)) + x * (A + (j + 1) / (s - 1) * (B - A)) = q.2.2 := by rw [halt]; ring
        rw [hint] at e1
        generalize E (segPoint (ground A k) (ground B k) (j / (s - 1))).1 (segPoint (ground A k) (ground B k) (j / (s - 1))).2 = e0 at *
        generalize E (segPoint (ground A k) (ground B k) ((j + 1) / (s - 1))).1 (segPoint (ground A k) (ground B k) ((j + 1) / (s - 1))).2 = e2 at *
        generalize A + j / (s - 1) * (B - A) = a0 at *
        generalize A + (j + 1) / (s - 1) * (B - A) = a1 at *
        -- linear, not negative at 0, zero at x
        rcases eq_or_lt_of_le x0 with hx | hx
        · have : y = 0 := le_antisymm (yx.trans hx.symm.le) y0
          rw [this]; linarith
        · have hlin : x * ((1 - y) * (a0 - e0) + y * (a1 - e2)) = (x - y) * (a0 - e0) := by linear_combination y * e1
          have hge : 0 ≤ x * ((1 - y) * (a0 - e0) + y * (a1 - e2)) := by rw [hlin]; exact mul_nonneg (by linarith) (by linarith)
          have := nonneg_of_mul_nonneg_right hge hx
          linarith
    linarith

/-- C174 for the terrain itself. -/
theorem C174_accuracy (E : ℝ → ℝ → ℝ) (c : ℝ) (hc : 0 ≤ c) (hG : Gentle E c) (demHi demLo : ℝ) (ground : ℝ → Nat → ℝ × ℝ) (n : Nat) (hn : 0 < n)
    (dist hi lo : Option ℝ) (hd : 0 < dist.getD 5) (hrange : lo.getD demLo < hi.getD demHi) (hE : ∀ u v, lo.getD demLo ≤ E u v ∧ E u v ≤ hi.getD demHi) (A B : ℝ)
    (hA : A = searchTop (hi.getD demHi) (lo.getD demLo)) (hB : B = searchBottom (hi.getD demHi) (lo.getD demLo)) (hslant : ∃ k, k < n ∧ ground A k ≠ ground B k) :
    ∃ hits, pixelToLonLatAlt E demHi demLo ground n dist hi lo = .ok hits ∧ hits.length = n ∧
      ∀ k, k < n → ∃ lon lat alt t, hits[k]? = some (some (lon, lat, alt)) ∧ 0 ≤ t ∧ t < 1 ∧ (lon, lat) = segPoint (ground A k) (ground B k) t ∧ alt = A + t * (B - A) ∧
        |E lon lat - alt| ≤ c * dist.getD 5 / 2 ∧
        ∀ t', 0 ≤ t' → t' ≤ t → E (segPoint (ground A k) (ground B k) t').1 (segPoint (ground A k) (ground B k) t').2 ≤ A + t' * (B - A) + c * dist.getD 5 / 2 := by
  have := C174_terrain E E c 0 hc hG demHi demLo ground n hn dist hi lo hd hrange hE A B hA hB hslant (fun k _ t _ _ => by simp)
  simpa only [add_zero] using this

/-- C174 for a raster read cell by cell: at the raster's nodes the cells hold the terrain's elevations, and no point is further than `g` from the node of the cell it lies in;
then the raster is within `c * g` of the terrain, at every point inside it. -/
theorem C174_raster (T : ℝ → ℝ → ℝ) (c g : ℝ) (hc : 0 ≤ c) (hG : Gentle T c) (dem : A2 ℝ) (hdem : 2 ≤ dem.ny ∧ 2 ≤ dem.nx) (node : Nat → Nat → ℝ × ℝ)
    (hnode : ∀ r k, r < dem.ny → k < dem.nx → dem.px r k = T (node r k).1 (node r k).2) (p : ℝ × ℝ) (x y : ℝ) (hx : 0 ≤ x ∧ x < dem.nx) (hy : 0 ≤ y ∧ y < dem.ny)
    (hnear : horizontalLen (p, node ⌊y⌋₊ ⌊x⌋₊) ≤ g) : ∃ e, Ortho.demNearest dem x y = .ok e ∧ |e - T p.1 p.2| ≤ c * g := by
  have fx : ⌊x⌋₊ < dem.nx := (Nat.floor_lt hx.1).mpr hx.2
  have fy : ⌊y⌋₊ < dem.ny := (Nat.floor_lt hy.1).mpr hy.2
  have clip : ∀ (v : ℝ) (n : Nat), 0 ≤ v → ⌊v⌋₊ < n → Ortho.clipIdx (Ortho.toInt v) n = ((⌊v⌋₊ : ℕ) : Int) := by
    intro v n h0 h1
    have e : Ortho.toInt v = ((⌊v⌋₊ : ℕ) : Int) := by
      unfold Ortho.toInt Grids.pyInt
      rw [if_pos h0]
      exact (Int.natCast_floor_eq_floor h0).symm
    rw [e]
    unfold Ortho.clipIdx
    omega
  refine ⟨dem.px ⌊y⌋₊ ⌊x⌋₊, ?_, ?_⟩
  · unfold Ortho.demNearest
    rw [clip x dem.nx hx.1 fx, clip y dem.ny hy.1 fy]
    exact Ortho.demCell_ok dem hdem _ _ fy fx
  · rw [hnode _ _ fy fx, abs_sub_comm]
    exact (hG p (node ⌊y⌋₊ ⌊x⌋₊)).trans (mul_le_mul_of_nonneg_left hnear hc)

/-- Beside `C174_accuracy`: a slope of one half, seen slantwise. -/
example : ∃ hits, pixelToLonLatAlt (fun u _ => max (min (u / 2) 100) 0) 100 0 (fun a k => (k - a, 0)) 3 none none none = .ok hits ∧ hits.length = 3 := by
  obtain ⟨hits, h1, h2, -⟩ := C174_accuracy (fun u _ => max (min (u / 2) 100) 0) (1 / 2) (by norm_num) (by
      intro p q
      have h1 : |p.1 - q.1| ≤ horizontalLen (p, q) := by
        unfold horizontalLen
        exact Real.abs_le_sqrt (by nlinarith [sq_nonneg (p.2 - q.2)])
      have h2 : |max (min (p.1 / 2) 100) 0 - max (min (q.1 / 2) 100) 0| ≤ |p.1 / 2 - q.1 / 2| :=
        (abs_max_sub_max_le_abs (min (p.1 / 2) 100) (min (q.1 / 2) 100) 0).trans (abs_inf_sub_inf_le_abs (p.1 / 2) (q.1 / 2) 100)
      have h3 : |p.1 / 2 - q.1 / 2| = 1 / 2 * |p.1 - q.1| := by rw [show p.1 / 2 - q.1 / 2 = 1 / 2 * (p.1 - q.1) by ring, abs_mul]; norm_num
      calc _ ≤ |p.1 / 2 - q.1 / 2| := h2
        _ = 1 / 2 * |p.1 - q.1| := h3
        _ ≤ _ := by linarith) 100 0 (fun a k => (k - a, 0)) 3 (by norm_num) none none none (by norm_num) (by norm_num)
    (by intro u v; constructor
        · exact le_max_right _ _
        · exact max_le (min_le_right _ _) (by norm_num)) _ _ rfl rfl ⟨0, by norm_num, by norm_num [searchTop, searchBottom]⟩
  exact ⟨hits, h1, h2⟩

end Verif.PointCalc
