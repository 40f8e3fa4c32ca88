import Verif.Lemmas.Base
import Verif.Lemmas.Rounding
import Verif.Model.Rounded
import Verif.Props.ImageUtils

/-! C130: blending in float arithmetic.  C131: normalisation in float arithmetic. -/

set_option linter.unusedSectionVars false

namespace Verif.Rounded
open Verif ImageUtils Rounding

section
variable {K : Type} [Field K] [LinearOrder K] [IsStrictOrderedRing K] [FloorRing K]

/-! ### C130 -/

/-- C130, accuracy: for a weight `0 ≤ w ≤ 1` and pixels of magnitude at most `M` every computed pixel is within
`((1+u)³ - 1) M` of the exact blend.
Missing: the computed pixel need not lie between the two images' pixels (`C130_false`). -/
theorem C130_error_partial (p : ℕ) (a b : A2 K) (w M : K) (h0 : 0 ≤ w) (h1 : w ≤ 1) (y x : Nat)
    (ha : |a.px y x| ≤ M) (hb : |b.px y x| ≤ M) :
    |(blendImagesR (fl p) a b w).px y x - (a.px y x * w + b.px y x * (1 - w))| ≤ ((1 + unit p) ^ 3 - 1) * M := by
  have hu := unit_pos (K := K) p
  simp only [blendImagesR]
  obtain ⟨d1, k1, e1⟩ := fl_rel p (a.px y x * w)
  obtain ⟨d2, k2, e2⟩ := fl_rel p (1 - w)
  rw [e2]
  obtain ⟨d3, k3, e3⟩ := fl_rel p (b.px y x * ((1 - w) * (1 + d2)))
  rw [e1, e3]
  obtain ⟨d4, k4, e4⟩ := fl_rel p (a.px y x * w * (1 + d1) + b.px y x * ((1 - w) * (1 + d2)) * (1 + d3))
  rw [e4]
  have r1 : |(1 + d1) * (1 + d4) - 1| ≤ (1 + unit p) ^ 3 - 1 := by
    refine (rel_mul (rel_one k1) (rel_one k4)).trans ?_
    nlinarith [pow_pos hu 2, pow_pos hu 3]
  have r2 : |(1 + d2) * (1 + d3) * (1 + d4) - 1| ≤ (1 + unit p) ^ 3 - 1 := by
    refine (rel_mul (rel_mul (rel_one k2) (rel_one k3)) (rel_one k4)).trans (le_of_eq (by ring))
  have e : (a.px y x * w * (1 + d1) + b.px y x * ((1 - w) * (1 + d2)) * (1 + d3)) * (1 + d4) -
      (a.px y x * w + b.px y x * (1 - w)) =
      a.px y x * w * ((1 + d1) * (1 + d4) - 1) + b.px y x * (1 - w) * ((1 + d2) * (1 + d3) * (1 + d4) - 1) := by ring
  have hE : (0 : K) ≤ (1 + unit p) ^ 3 - 1 := (abs_nonneg _).trans r1
  have hM : 0 ≤ M := (abs_nonneg _).trans ha
  have t1 : |a.px y x * w * ((1 + d1) * (1 + d4) - 1)| ≤ M * w * ((1 + unit p) ^ 3 - 1) := by
    rw [abs_mul, abs_mul, abs_of_nonneg h0]
    exact mul_le_mul (mul_le_mul_of_nonneg_right ha h0) r1 (abs_nonneg _) (by positivity)
  have hq : 0 ≤ 1 - w := by linarith
  have t2 : |b.px y x * (1 - w) * ((1 + d2) * (1 + d3) * (1 + d4) - 1)| ≤ M * (1 - w) * ((1 + unit p) ^ 3 - 1) := by
    rw [abs_mul, abs_mul, abs_of_nonneg hq]
    exact mul_le_mul (mul_le_mul_of_nonneg_right hb hq) r2 (abs_nonneg _) (by positivity)
  rw [e]
  refine (abs_add_le _ _).trans ((add_le_add t1 t2).trans (le_of_eq (by ring)))

/-- C130, extreme weights: weight 1 gives the first image and weight 0 the second, exactly. -/
theorem C130_ends {p : ℕ} (hp : 1 ≤ p) (a b : A2 K) (y x : Nat) :
    (IsFloat p (a.px y x) → (blendImagesR (fl p) a b 1).px y x = a.px y x) ∧
    (IsFloat p (b.px y x) → (blendImagesR (fl p) a b 0).px y x = b.px y x) ∧
    (∀ w, (blendImagesR (fl p) a b w).ny = a.ny ∧ (blendImagesR (fl p) a b w).nx = a.nx) := by
  refine ⟨fun h => ?_, fun h => ?_, fun w => ⟨rfl, rfl⟩⟩
  · simp only [blendImagesR, mul_one, sub_self, fl_zero, mul_zero, add_zero]
    rw [fl_idem hp, fl_of_isFloat hp h]
  · simp only [blendImagesR, mul_zero, sub_zero, fl_zero, fl_one hp, mul_one, zero_add]
    rw [fl_idem hp, fl_of_isFloat hp h]

/-- C130, order: for `0 ≤ w ≤ 1` brighter inputs never give a darker pixel, and non-negative images give
non-negative pixels. -/
theorem C130_monotone {p : ℕ} (hp : 1 ≤ p) (a b a' b' : A2 K) (w : K) (h0 : 0 ≤ w) (h1 : w ≤ 1) (y x : Nat)
    (ha : a.px y x ≤ a'.px y x) (hb : b.px y x ≤ b'.px y x) :
    (blendImagesR (fl p) a b w).px y x ≤ (blendImagesR (fl p) a' b' w).px y x ∧
      (0 ≤ a.px y x → 0 ≤ b.px y x → 0 ≤ (blendImagesR (fl p) a b w).px y x) := by
  have hq : 0 ≤ fl p (1 - w) := fl_nonneg hp (by linarith)
  refine ⟨?_, fun h2 h3 => ?_⟩
  · exact fl_mono hp (add_le_add (fl_mono hp (mul_le_mul_of_nonneg_right ha h0))
      (fl_mono hp (mul_le_mul_of_nonneg_right hb hq)))
  · exact fl_nonneg hp (add_nonneg (fl_nonneg hp (mul_nonneg h2 h0)) (fl_nonneg hp (mul_nonneg h3 hq)))

/-- C130, exchanging the images: for a float weight of at least one half, blending the exchanged images with
weight `1 - w` gives the same pixels. -/
theorem C130_symmetric {p : ℕ} (hp : 1 ≤ p) (a b : A2 K) (w : K) (hw : IsFloat p w) (h0 : 1 / 2 ≤ w) (h1 : w ≤ 1)
    (y x : Nat) : (blendImagesR (fl p) a b w).px y x = (blendImagesR (fl p) b a (1 - w)).px y x := by
  simp only [blendImagesR]
  rw [fl_of_isFloat hp (isFloat_one_sub hw h0 h1), sub_sub_cancel, fl_of_isFloat hp hw, add_comm]

/-- C130, after a cast to an integer type (truncation, here for non-negative pixels): the integer is the one
of the exact blend or off by one, as long as `((1+u)³ - 1) M ≤ 1`. -/
theorem C130_cast {p : ℕ} (a b : A2 K) (w M : K) (h0 : 0 ≤ w) (h1 : w ≤ 1) (y x : Nat)
    (ha : |a.px y x| ≤ M) (hb : |b.px y x| ≤ M) (hM : ((1 + unit p) ^ 3 - 1) * M ≤ 1) :
    |⌊(blendImagesR (fl p) a b w).px y x⌋ - ⌊a.px y x * w + b.px y x * (1 - w)⌋| ≤ 1 :=
  floor_near ((C130_error_partial p a b w M h0 h1 y x ha hb).trans hM)

example : ((1 + (unit 53 : ℚ)) ^ 3 - 1) * 65535 ≤ 1 := by norm_num [unit]
example : IsFloat 53 ((3 : ℚ) / 4) := ⟨3, -2, by norm_num, by norm_num⟩

/-! ### C131 -/

theorem unit_le_five {p : ℕ} (hp : 1 ≤ p) : (unit p : K) ≤ (1 + unit p : K) ^ 5 / (1 - unit p) - 1 := by
  have hu := unit_pos (K := K) p
  have hu2 := unit_le_half (K := K) hp
  generalize (unit p : K) = u at hu hu2
  have h5 : (1 + u) ^ 1 ≤ (1 + u) ^ 5 := pow_le_pow_right₀ (by linarith) (by norm_num)
  have : 1 + u ≤ (1 + u) ^ 5 / (1 - u) := by
    rw [le_div_iff₀ (by linarith)]
    have : (1 + u) * (1 - u) ≤ 1 + u := by nlinarith
    linarith
  linarith

/-- The error of one normalised pixel. -/
theorem norm_error {p : ℕ} (hp : 1 ≤ p) {v mn mx newMin newMax : K} (hlt : mn < mx) (hv1 : mn ≤ v) (hv2 : v ≤ mx)
    (hle : newMin ≤ newMax) :
    |fl p (fl p (fl p (fl p (v - mn) / fl p (mx - mn)) * fl p (newMax - newMin)) + newMin) -
      ((v - mn) / (mx - mn) * (newMax - newMin) + newMin)| ≤
      ((1 + unit p) ^ 5 / (1 - unit p) - 1) * (|newMin| + (newMax - newMin)) := by
  have hu := unit_pos (K := K) p
  have hu2 := unit_le_half (K := K) hp
  have hd0 : 0 < mx - mn := sub_pos.mpr hlt
  have hR0 : 0 ≤ newMax - newMin := sub_nonneg.mpr hle
  obtain ⟨d1, k1, f1⟩ := fl_rel p (v - mn)
  obtain ⟨d2, k2, f2⟩ := fl_rel p (mx - mn)
  obtain ⟨d4, k4, f4⟩ := fl_rel p (newMax - newMin)
  rw [f1, f2, f4]
  obtain ⟨d3, k3, f3⟩ := fl_rel p ((v - mn) * (1 + d1) / ((mx - mn) * (1 + d2)))
  rw [f3]
  obtain ⟨d5, k5, f5⟩ := fl_rel p ((v - mn) * (1 + d1) / ((mx - mn) * (1 + d2)) * (1 + d3) *
    ((newMax - newMin) * (1 + d4)))
  rw [f5]
  obtain ⟨d6, k6, f6⟩ := fl_rel p ((v - mn) * (1 + d1) / ((mx - mn) * (1 + d2)) * (1 + d3) *
    ((newMax - newMin) * (1 + d4)) * (1 + d5) + newMin)
  rw [f6]
  have hd2 : (1 : K) + d2 ≠ 0 := by have := abs_le.mp k2; linarith
  have rt := rel_mul (rel_mul (rel_mul (rel_mul (rel_div (rel_one k1) k2 (by linarith)) (rel_one k3)) (rel_one k4))
    (rel_one k5)) (rel_one k6)
  have hE : (1 + ((1 + ((1 + ((1 + ((1 + unit p) / (1 - unit p) - 1)) * (1 + unit p) - 1)) * (1 + unit p) - 1)) *
      (1 + unit p) - 1)) * (1 + unit p) - 1 = (1 + unit p : K) ^ 5 / (1 - unit p) - 1 := by ring
  rw [hE] at rt
  have hz0 : 0 ≤ (v - mn) / (mx - mn) := div_nonneg (by linarith [hv1]) hd0.le
  have hz1 : (v - mn) / (mx - mn) ≤ 1 := by rw [div_le_one hd0]; linarith [hv2]
  have e : ((v - mn) * (1 + d1) / ((mx - mn) * (1 + d2)) * (1 + d3) * ((newMax - newMin) * (1 + d4)) *
      (1 + d5) + newMin) * (1 + d6) - ((v - mn) / (mx - mn) * (newMax - newMin) + newMin) =
      (v - mn) / (mx - mn) * (newMax - newMin) *
        ((1 + d1) / (1 + d2) * (1 + d3) * (1 + d4) * (1 + d5) * (1 + d6) - 1) + newMin * d6 := by
    have := hd0.ne'
    field_simp
    ring
  rw [e]
  have hEb := unit_le_five (K := K) hp
  have t1 : |(v - mn) / (mx - mn) * (newMax - newMin) *
        ((1 + d1) / (1 + d2) * (1 + d3) * (1 + d4) * (1 + d5) * (1 + d6) - 1)| ≤
      (newMax - newMin) * ((1 + unit p) ^ 5 / (1 - unit p) - 1) := by
    rw [abs_mul, abs_of_nonneg (mul_nonneg hz0 hR0)]
    refine mul_le_mul ?_ rt (abs_nonneg _) hR0
    calc (v - mn) / (mx - mn) * (newMax - newMin) ≤ 1 * (newMax - newMin) :=
          mul_le_mul_of_nonneg_right hz1 hR0
      _ = _ := one_mul _
  have t2 : |newMin * d6| ≤ |newMin| * ((1 + unit p) ^ 5 / (1 - unit p) - 1) := by
    rw [abs_mul]
    exact mul_le_mul_of_nonneg_left (k6.trans hEb) (abs_nonneg _)
  refine (abs_add_le _ _).trans ((add_le_add t1 t2).trans (le_of_eq (by ring)))

/-- C131, what holds of every range: for a non-constant image every pixel of the result is finite, at least
`new_min` and at most `(new_max - new_min) + new_min` as the machine computes it; smallest pixels go to `new_min`
exactly, largest ones to that upper end; the order of pixel values is preserved; and each value is within
`((1+u)⁵/(1-u) - 1) (|new_min| + new_max - new_min)` of the exact one.
Missing: the upper end need not be `new_max` (`C131_false`, but see `C131_range`). -/
theorem C131_partial {p : ℕ} (hp : 1 ≤ p) (img : A2 K) (newMin newMax : K) (hle : newMin ≤ newMax)
    (hmin : IsFloat p newMin)
    (y0 x0 y1 x1 : Nat) (h0 : y0 < img.ny ∧ x0 < img.nx) (h1 : y1 < img.ny ∧ x1 < img.nx)
    (hne : img.px y0 x0 ≠ img.px y1 x1) :
    ∃ (out ex : A2 (Option K)) (v e : Nat → Nat → K), normalizeGrayscaleR (fl p) img newMin newMax = .ok out ∧
      normalizeGrayscale img newMin newMax = .ok ex ∧
      out.ny = img.ny ∧ out.nx = img.nx ∧
      (∀ y x, y < img.ny → x < img.nx → out.px y x = some (v y x) ∧ ex.px y x = some (e y x) ∧
        newMin ≤ v y x ∧ v y x ≤ fl p (fl p (newMax - newMin) + newMin) ∧
        |v y x - e y x| ≤ ((1 + unit p) ^ 5 / (1 - unit p) - 1) * (|newMin| + (newMax - newMin))) ∧
      (∀ y x, y < img.ny → x < img.nx →
        (∀ y' x', y' < img.ny → x' < img.nx → img.px y x ≤ img.px y' x') → v y x = newMin) ∧
      (∀ y x, y < img.ny → x < img.nx →
        (∀ y' x', y' < img.ny → x' < img.nx → img.px y' x' ≤ img.px y x) →
        v y x = fl p (fl p (newMax - newMin) + newMin)) ∧
      (∀ y x y' x', img.px y x ≤ img.px y' x' → v y x ≤ v y' x') := by
  obtain ⟨mn, mx, e1, e2, ⟨ya, xa, hya, hxa, hmn⟩, ⟨yb, xb, hyb, hxb, hmx⟩, hb⟩ :=
    npMinMax (img := img) ⟨by omega, by omega⟩
  have hlt : mn < mx := by
    have a := hb y0 x0 h0.1 h0.2
    have b := hb y1 x1 h1.1 h1.2
    rcases lt_or_gt_of_ne hne with h | h
    · exact lt_of_le_of_lt a.1 (lt_of_lt_of_le h b.2)
    · exact lt_of_le_of_lt b.1 (lt_of_lt_of_le h a.2)
  have hu := unit_pos (K := K) p
  have hu2 := unit_le_half (K := K) hp
  have hd0 : 0 < mx - mn := sub_pos.mpr hlt
  have hd : 0 < fl p (mx - mn) := fl_pos hp hd0
  have hR0 : 0 ≤ newMax - newMin := sub_nonneg.mpr hle
  have hR : 0 ≤ fl p (newMax - newMin) := fl_nonneg hp hR0
  have hmono : ∀ q q' : K, q ≤ q' → fl p (fl p (fl p (fl p (q - mn) / fl p (mx - mn)) * fl p (newMax - newMin)) + newMin) ≤
      fl p (fl p (fl p (fl p (q' - mn) / fl p (mx - mn)) * fl p (newMax - newMin)) + newMin) := by
    intro q q' h
    refine fl_mono hp (add_le_add (fl_mono hp (mul_le_mul_of_nonneg_right (fl_mono hp ?_) hR)) le_rfl)
    exact div_le_div_of_nonneg_right (fl_mono hp (by linarith)) hd.le
  have hbot : fl p (fl p (fl p (fl p (mn - mn) / fl p (mx - mn)) * fl p (newMax - newMin)) + newMin) = newMin := by
    rw [sub_self, fl_zero, zero_div, fl_zero, zero_mul, fl_zero, zero_add, fl_of_isFloat hp hmin]
  have htop : fl p (fl p (fl p (fl p (mx - mn) / fl p (mx - mn)) * fl p (newMax - newMin)) + newMin) =
      fl p (fl p (newMax - newMin) + newMin) := by
    rw [div_self hd.ne', fl_one hp, one_mul, fl_idem hp]
  refine ⟨⟨img.ny, img.nx, fun y x =>
      (fdiv (fl p (img.px y x - mn)) (fl p (mx - mn))).map
        (fun z => fl p (fl p (fl p z * fl p (newMax - newMin)) + newMin))⟩,
    ⟨img.ny, img.nx, fun y x =>
      (fdiv (img.px y x - mn) (mx - mn)).map (fun z => z * (newMax - newMin) + newMin)⟩,
    fun y x => fl p (fl p (fl p (fl p (img.px y x - mn) / fl p (mx - mn)) * fl p (newMax - newMin)) + newMin),
    fun y x => (img.px y x - mn) / (mx - mn) * (newMax - newMin) + newMin, ?_, ?_, rfl, rfl, ?_, ?_, ?_, ?_⟩
  · simp only [normalizeGrayscaleR, e1, e2, ok_bind]
  · simp only [normalizeGrayscale, e1, e2, ok_bind]
  · intro y x hy hx
    have hr := hb y x hy hx
    refine ⟨by simp [fdiv, hd.ne'], by simp [fdiv, hd0.ne'], ?_, ?_, ?_⟩
    · exact le_of_eq_of_le hbot.symm (hmono _ _ hr.1)
    · exact (hmono _ _ hr.2).trans (le_of_eq htop)
    · exact norm_error hp hlt hr.1 hr.2 hle
  · intro y x hy hx h
    have hm : img.px y x = mn := le_antisymm (by rw [← hmn]; exact h ya xa hya hxa) (hb y x hy hx).1
    simp only [hm]
    exact hbot
  · intro y x hy hx h
    have hm : img.px y x = mx := le_antisymm (hb y x hy hx).2 (by rw [← hmx]; exact h yb xb hyb hxb)
    simp only [hm]
    exact htop
  · intro y x y' x' h
    exact hmono _ _ h

/-- C131 for ranges whose width is a float, such as `[0, new_max]` or two integers of moderate size: no pixel
leaves `[new_min, new_max]`, smallest pixels go to `new_min` and largest to `new_max` exactly. -/
theorem C131_range {p : ℕ} (hp : 1 ≤ p) (img : A2 K) (newMin newMax : K) (hle : newMin ≤ newMax)
    (hmin : IsFloat p newMin) (hmax : IsFloat p newMax) (hw : IsFloat p (newMax - newMin))
    (y0 x0 y1 x1 : Nat) (h0 : y0 < img.ny ∧ x0 < img.nx) (h1 : y1 < img.ny ∧ x1 < img.nx)
    (hne : img.px y0 x0 ≠ img.px y1 x1) :
    ∃ (out : A2 (Option K)) (v : Nat → Nat → K), normalizeGrayscaleR (fl p) img newMin newMax = .ok out ∧
      out.ny = img.ny ∧ out.nx = img.nx ∧
      (∀ y x, y < img.ny → x < img.nx → out.px y x = some (v y x) ∧ newMin ≤ v y x ∧ v y x ≤ newMax) ∧
      (∀ y x, y < img.ny → x < img.nx →
        (∀ y' x', y' < img.ny → x' < img.nx → img.px y x ≤ img.px y' x') → v y x = newMin) ∧
      (∀ y x, y < img.ny → x < img.nx →
        (∀ y' x', y' < img.ny → x' < img.nx → img.px y' x' ≤ img.px y x) → v y x = newMax) ∧
      (∀ y x y' x', img.px y x ≤ img.px y' x' → v y x ≤ v y' x') := by
  obtain ⟨out, ex, v, e, a1, -, a2, a3, a4, a5, a6, a7⟩ :=
    C131_partial hp img newMin newMax hle hmin y0 x0 y1 x1 h0 h1 hne
  have ht : fl p (fl p (newMax - newMin) + newMin) = newMax := by
    rw [fl_of_isFloat hp hw, sub_add_cancel, fl_of_isFloat hp hmax]
  rw [ht] at a6
  refine ⟨out, v, a1, a2, a3, ?_, a5, a6, a7⟩
  intro y x hy hx
  have := a4 y x hy hx
  rw [ht] at this
  exact ⟨this.1, this.2.2.1, this.2.2.2.1⟩

/-- C131 for integer ranges (0 to 255, 0 to 65535, -32768 to 32767, ...): the width is a float. -/
theorem C131_integer_range {p : ℕ} (m M : ℤ) (hm : |m| ≤ 2 ^ p) (hM : |M| ≤ 2 ^ p) (hd : |M - m| ≤ 2 ^ p) :
    IsFloat p (m : K) ∧ IsFloat p (M : K) ∧ IsFloat p ((M : K) - m) :=
  ⟨isFloat_int m hm, isFloat_int M hM, by have := isFloat_int (K := K) (M - m) hd; push_cast at this; exact this⟩

/-- C131, constant images: no pixel of the result is finite. -/
theorem C131_constant_image (p : ℕ) (img : A2 K) (newMin newMax c : K) (h : 0 < img.ny ∧ 0 < img.nx)
    (hc : ∀ y x, y < img.ny → x < img.nx → img.px y x = c) :
    ∃ out, normalizeGrayscaleR (fl p) img newMin newMax = .ok out ∧ ∀ y x, out.px y x = none := by
  obtain ⟨mn, mx, e1, e2, ⟨ya, xa, hya, hxa, hmn⟩, ⟨yb, xb, hyb, hxb, hmx⟩, hb⟩ := npMinMax h
  have : mn = mx := by rw [← hmn, ← hmx, hc _ _ hya hxa, hc _ _ hyb hxb]
  exact ⟨_, by simp only [normalizeGrayscaleR, e1, e2, ok_bind]; rfl, by intro y x; simp [fdiv, this, fl_zero]⟩

end

/-! ### Witnesses

The float64 values met when blending two pixels 255 with weights 0.08 and 0.04, and when normalising to
`[0.3, 0.9]`. -/

theorem w130hi_w : fl 53 (2 / 25 : ℚ) = 5764607523034235 / 72057594037927936 := by
  rw [fl_eq (-4) 5764607523034235 (by norm_num) (by norm_num) (by norm_num [abs_lt])]
  norm_num

theorem w130hi_c : fl 53 (1 - 5764607523034235 / 72057594037927936 : ℚ) = 8286623314361713 / 9007199254740992 := by
  rw [fl_eq (-1) 8286623314361713 (by norm_num) (by norm_num) (by norm_num [abs_lt])]
  norm_num

theorem w130hi_a : fl 53 (255 * (5764607523034235 / 72057594037927936) : ℚ) = 5742089524897383 / 281474976710656 := by
  rw [fl_eq (4) 5742089524897383 (by norm_num) (by norm_num) (by norm_num [abs_lt])]
  norm_num

theorem w130hi_b : fl 53 (255 * (8286623314361713 / 9007199254740992) : ℚ) = 2063563423009997 / 8796093022208 := by
  rw [fl_eq (7) 8254253692039988 (by norm_num) (by norm_num) (by norm_num [abs_lt])]
  norm_num

theorem w130hi_s : fl 53 (5742089524897383 / 281474976710656 + 2063563423009997 / 8796093022208 : ℚ) = 8972014882652161 / 35184372088832 := by
  rw [fl_eq (7) 8972014882652161 (by norm_num) (by norm_num) (by norm_num [abs_lt])]
  norm_num

theorem w130lo_w : fl 53 (1 / 25 : ℚ) = 5764607523034235 / 144115188075855872 := by
  rw [fl_eq (-5) 5764607523034235 (by norm_num) (by norm_num) (by norm_num [abs_lt])]
  norm_num

theorem w130lo_c : fl 53 (1 - 5764607523034235 / 144115188075855872 : ℚ) = 1080863910568919 / 1125899906842624 := by
  rw [fl_eq (-1) 8646911284551352 (by norm_num) (by norm_num) (by norm_num [abs_lt])]
  norm_num

theorem w130lo_a : fl 53 (255 * (5764607523034235 / 144115188075855872) : ℚ) = 5742089524897383 / 562949953421312 := by
  rw [fl_eq (3) 5742089524897383 (by norm_num) (by norm_num) (by norm_num [abs_lt])]
  norm_num

theorem w130lo_b : fl 53 (255 * (1080863910568919 / 1125899906842624) : ℚ) = 8613134287346073 / 35184372088832 := by
  rw [fl_eq (7) 8613134287346073 (by norm_num) (by norm_num) (by norm_num [abs_lt])]
  norm_num

theorem w130lo_s : fl 53 (5742089524897383 / 562949953421312 + 8613134287346073 / 35184372088832 : ℚ) = 8972014882652159 / 35184372088832 := by
  rw [fl_eq (7) 8972014882652159 (by norm_num) (by norm_num) (by norm_num [abs_lt])]
  norm_num

theorem w131_min : fl 53 (3 / 10 : ℚ) = 5404319552844595 / 18014398509481984 := by
  rw [fl_eq (-2) 5404319552844595 (by norm_num) (by norm_num) (by norm_num [abs_lt])]
  norm_num

theorem w131_max : fl 53 (9 / 10 : ℚ) = 8106479329266893 / 9007199254740992 := by
  rw [fl_eq (-1) 8106479329266893 (by norm_num) (by norm_num) (by norm_num [abs_lt])]
  norm_num

theorem w131_d : fl 53 (8106479329266893 / 9007199254740992 - 5404319552844595 / 18014398509481984 : ℚ) = 1351079888211149 / 2251799813685248 := by
  rw [fl_eq_even (-1) 5404319552844596 (by norm_num) (by norm_num) (by decide) (by norm_num [abs_le])]
  norm_num

theorem w131_s : fl 53 (1351079888211149 / 2251799813685248 + 5404319552844595 / 18014398509481984 : ℚ) = 4053239664633447 / 4503599627370496 := by
  rw [fl_eq_even (-1) 8106479329266894 (by norm_num) (by norm_num) (by decide) (by norm_num [abs_le])]
  norm_num

/-- C130 fails of the code: blending two pixels of value 255 with weight 0.08 gives a pixel above 255, and with
weight 0.04 a pixel below 255 (254 after a cast to an integer type). -/
theorem C130_false : ∃ w w' : ℚ, fl 53 (8 / 100) = w ∧ fl 53 (4 / 100) = w' ∧ 0 ≤ w ∧ w ≤ 1 ∧ 0 ≤ w' ∧ w' ≤ 1 ∧
    255 < (blendImagesR (fl 53) ⟨1, 1, fun _ _ => 255⟩ ⟨1, 1, fun _ _ => 255⟩ w).px 0 0 ∧
    (blendImagesR (fl 53) ⟨1, 1, fun _ _ => 255⟩ ⟨1, 1, fun _ _ => 255⟩ w').px 0 0 < 255 ∧
    ⌊(blendImagesR (fl 53) ⟨1, 1, fun _ _ => 255⟩ ⟨1, 1, fun _ _ => 255⟩ w').px 0 0⌋ = 254 := by
  refine ⟨5764607523034235 / 72057594037927936, 5764607523034235 / 144115188075855872, ?_, ?_, by norm_num, by norm_num, by norm_num, by norm_num, ?_, ?_, ?_⟩
  · rw [show (8 : ℚ) / 100 = 2 / 25 by norm_num]; exact w130hi_w
  · rw [show (4 : ℚ) / 100 = 1 / 25 by norm_num]; exact w130lo_w
  · simp only [blendImagesR]
    rw [w130hi_c, w130hi_a, w130hi_b, w130hi_s]
    norm_num
  · simp only [blendImagesR]
    rw [w130lo_c, w130lo_a, w130lo_b, w130lo_s]
    norm_num
  · simp only [blendImagesR]
    rw [w130lo_c, w130lo_a, w130lo_b, w130lo_s]
    norm_num

/-- C131 fails of the code: normalising the image `[[0, 1]]` to the range from 0.3 to 0.9 sends its largest pixel
to 0.9000000000000001, above the requested maximum. -/
theorem C131_false : ∃ (m M : ℚ) (out : A2 (Option ℚ)) (v : ℚ), fl 53 (3 / 10) = m ∧ fl 53 (9 / 10) = M ∧
    normalizeGrayscaleR (fl 53) ⟨1, 2, fun _ x => (x : ℚ)⟩ m M = .ok out ∧ out.px 0 1 = some v ∧ M < v := by
  have hf : IsFloat 53 (5404319552844595 / 18014398509481984 : ℚ) := by
    rw [← w131_min]; exact isFloat_fl (by norm_num) _
  obtain ⟨out, ex, v, e, a1, -, a2, a3, a4, a5, a6, a7⟩ :=
    C131_partial (p := 53) (by norm_num) (⟨1, 2, fun _ x => (x : ℚ)⟩ : A2 ℚ) (5404319552844595 / 18014398509481984) (8106479329266893 / 9007199254740992) (by norm_num) hf
      0 0 0 1 ⟨by decide, by decide⟩ ⟨by decide, by decide⟩ (by norm_num)
  refine ⟨_, _, out, v 0 1, w131_min, w131_max, a1, (a4 0 1 (by decide) (by decide)).1, ?_⟩
  rw [a6 0 1 (by decide) (by decide), w131_d, w131_s]
  · norm_num
  · intro y' x' _ hx'
    have : x' ≤ 1 := by
      have : x' < 2 := hx'
      omega
    simp only
    exact_mod_cast this

end Verif.Rounded
