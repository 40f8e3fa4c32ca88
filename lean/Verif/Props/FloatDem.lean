import Verif.Model.FloatDem
import Verif.Props.Dem
import Verif.Props.FloatGeom

/-! C175: elevations interpolated in floating point are close to the exact interpolation. -/

set_option linter.unusedSectionVars false

namespace Verif.FloatGeom
open Verif ImageUtils FloatSpectral

/-- Specification: `sq` computes square roots with a relative error of at most `u`. -/
def Roots (sq : ℝ → ℝ) (u : ℝ) : Prop := ∀ x, 0 ≤ x → |sq x - Real.sqrt x| ≤ u * Real.sqrt x

theorem sqrt_approx {u : ℝ} {k : ℕ} {x' x : ℝ} (hx : 0 ≤ x) (h : Approx u k x' x x) (hx' : 0 ≤ x') : Approx u k (Real.sqrt x') (Real.sqrt x) (Real.sqrt x) := by
  refine ⟨?_, by rw [abs_of_nonneg (Real.sqrt_nonneg x)]⟩
  rcases eq_or_lt_of_le hx with h0 | h0
  · have := h.err
    rw [← h0] at this
    simp only [mul_zero, sub_zero] at this
    have e : x' = 0 := abs_nonpos_iff.mp this
    rw [e, ← h0]
    simp
  · have hs : 0 < Real.sqrt x := Real.sqrt_pos.mpr h0
    have h1 : |Real.sqrt x' - Real.sqrt x| * Real.sqrt x ≤ |x' - x| := by
      have e : x' - x = (Real.sqrt x' - Real.sqrt x) * (Real.sqrt x' + Real.sqrt x) := by
        have a := Real.mul_self_sqrt hx'
        have b := Real.mul_self_sqrt hx
        linear_combination -a + b
      rw [e, abs_mul]
      refine mul_le_mul_of_nonneg_left ?_ (abs_nonneg _)
      rw [abs_of_nonneg (by positivity)]
      linarith [Real.sqrt_nonneg x']
    have h2 := h1.trans h.err
    have h3 : ((1 + u) ^ k - 1) * x = ((1 + u) ^ k - 1) * Real.sqrt x * Real.sqrt x := by rw [mul_assoc, Real.mul_self_sqrt hx]
    rw [h3] at h2
    exact le_of_mul_le_mul_right h2 hs

/-- Rounding keeps the sign. -/
theorem Rounds.nonneg {r : ℝ → ℝ} {u : ℝ} (hr : Rounds r u) (hu1 : u ≤ 1) {x : ℝ} (hx : 0 ≤ x) : 0 ≤ r x := by
  have h := hr x
  rw [abs_of_nonneg hx] at h
  have := (abs_le.mp h).1
  nlinarith

section
variable {r sq : ℝ → ℝ} {u : ℝ}

theorem sq_approx (hr : Rounds r u) (hu : 0 ≤ u) (d : ℝ) : Approx u 3 (r (r d * r d)) (d * d) (d * d) := by
  have a := (Approx.exact u d).round hr hu
  have := a.mul hr hu a
  rw [abs_mul_abs_self] at this
  exact this

/-- A computed weight: at most five roundings, and zero exactly when the exact one is. -/
theorem weightR_approx (hr : Rounds r u) (hsq : Roots sq u) (hu : 0 ≤ u) (hu1 : u ≤ 1) (dy dx : ℝ) :
    Approx u 5 (weightR r sq (r dy) (r dx)) (Real.sqrt (dy * dy + dx * dx)) (Real.sqrt (dy * dy + dx * dx)) ∧ 0 ≤ weightR r sq (r dy) (r dx) := by
  have hyy := sq_approx hr hu dy
  have hxx := sq_approx hr hu dx
  have hs := hyy.add hr hu hxx
  have n1 : 0 ≤ r (r dy * r dy) := Rounds.nonneg hr hu1 (mul_self_nonneg _)
  have n2 : 0 ≤ r (r dx * r dx) := Rounds.nonneg hr hu1 (mul_self_nonneg _)
  have n3 : 0 ≤ r (r (r dy * r dy) + r (r dx * r dx)) := Rounds.nonneg hr hu1 (by linarith)
  have n0 : 0 ≤ dy * dy + dx * dx := add_nonneg (mul_self_nonneg _) (mul_self_nonneg _)
  have hq := sqrt_approx n0 hs n3
  have h5 := hsq _ n3
  unfold weightR
  constructor
  · refine ⟨?_, hq.size⟩
    have a1 := hq.err
    have a2 := hq.size'
    rw [abs_of_nonneg (Real.sqrt_nonneg _)] at a2
    have a3 := mul_le_mul_of_nonneg_left a2 hu
    have a4 := abs_sub_le (sq (r (r (r dy * r dy) + r (r dx * r dx)))) (Real.sqrt (r (r (r dy * r dy) + r (r dx * r dx)))) (Real.sqrt (dy * dy + dx * dx))
    norm_num at a1 a3 ⊢
    have e : ((1 + u) ^ 5 - 1) * Real.sqrt (dy * dy + dx * dx) = u * ((1 + u) ^ 4 * Real.sqrt (dy * dy + dx * dx)) + ((1 + u) ^ 4 - 1) * Real.sqrt (dy * dy + dx * dx) := by ring
    rw [e]
    linarith
  · have := (abs_le.mp h5).1
    have h0 := Real.sqrt_nonneg (r (r (r dy * r dy) + r (r dx * r dx)))
    nlinarith

theorem sum4_approx (hr : Rounds r u) (hu : 0 ≤ u) {k : ℕ} {a b c d a' b' c' d' sa sb sc sd : ℝ} (ha : Approx u k a' a sa) (hb : Approx u k b' b sb) (hc : Approx u k c' c sc)
    (hd : Approx u k d' d sd) : Approx u (k + 3) (sum4R r a' b' c' d') (a + b + c + d) (sa + sb + sc + sd) := by
  have h1 := ha.add hr hu hb
  have h2 := h1.add hr hu hc
  have h3 := h2.add hr hu hd
  exact h3.weaken hu (by omega)

/-- C175: the elevation computed at a point, for every raster, point and rounding: the call raises exactly when exact arithmetic would, and otherwise the result differs from
the exact weighted average by a few roundings of the largest elevation. -/
theorem C175_elevation (hr : Rounds r u) (hsq : Roots sq u) (hu : 0 ≤ u) (hu1 : u ≤ 1 / 20) (dem : A2 ℝ) (hdem : 2 ≤ dem.ny ∧ 2 ≤ dem.nx) (H : ℝ)
    (hH : ∀ i j, i < dem.ny → j < dem.nx → |dem.px i j| ≤ H) (x y : ℝ) :
    (Ortho.demBilinear dem x y = .error .zeroDivision ∧ demBilinearR r sq dem x y = .error .zeroDivision) ∨
    ∃ e e', Ortho.demBilinear dem x y = .ok e ∧ demBilinearR r sq dem x y = .ok e' ∧
      |e' - e| ≤ (u + (1 + u) * (2 * ((1 + u) ^ 9 - 1) / (2 - (1 + u) ^ 9))) * H := by
  have hn : ∀ v : ℝ, ∀ n : Nat, 0 < n → ∃ c : Nat, c < n ∧ Ortho.clipIdx (Ortho.toInt v) n = (c : Int) := fun v n h => Ortho.clip_total _ n h
  obtain ⟨x1, hx1, ex1⟩ := Ortho.clip_total (Ortho.toInt x) dem.nx (by omega)
  obtain ⟨y1, hy1, ey1⟩ := Ortho.clip_total (Ortho.toInt y) dem.ny (by omega)
  obtain ⟨x2, hx2, ex2⟩ := Ortho.clip_total ⌈x⌉ dem.nx (by omega)
  obtain ⟨y2, hy2, ey2⟩ := Ortho.clip_total ⌈y⌉ dem.ny (by omega)
  obtain ⟨a11, p11⟩ := weightR_approx hr hsq hu (by linarith) (y - y1) (x - x1)
  obtain ⟨a12, p12⟩ := weightR_approx hr hsq hu (by linarith) (y - y1) (x2 - x)
  obtain ⟨a21, p21⟩ := weightR_approx hr hsq hu (by linarith) (y2 - y) (x - x1)
  obtain ⟨a22, p22⟩ := weightR_approx hr hsq hu (by linarith) (y2 - y) (x2 - x)
  have eR : demBilinearR r sq dem x y =
      if sum4R r (weightR r sq (r (y - y1)) (r (x - x1))) (weightR r sq (r (y - y1)) (r (x2 - x))) (weightR r sq (r (y2 - y)) (r (x - x1)))
          (weightR r sq (r (y2 - y)) (r (x2 - x))) = 0 then .error .zeroDivision
      else .ok (r (sum4R r (r (dem.px y1 x1 * weightR r sq (r (y - y1)) (r (x - x1)))) (r (dem.px y1 x2 * weightR r sq (r (y - y1)) (r (x2 - x))))
        (r (dem.px y2 x1 * weightR r sq (r (y2 - y)) (r (x - x1)))) (r (dem.px y2 x2 * weightR r sq (r (y2 - y)) (r (x2 - x)))) /
          sum4R r (weightR r sq (r (y - y1)) (r (x - x1))) (weightR r sq (r (y - y1)) (r (x2 - x))) (weightR r sq (r (y2 - y)) (r (x - x1)))
          (weightR r sq (r (y2 - y)) (r (x2 - x))))) := by
    unfold demBilinearR
    simp only [ex1, ey1, ex2, ey2, Ortho.demCell_ok dem hdem _ _ hy1 hx1, Ortho.demCell_ok dem hdem _ _ hy1 hx2,
      Ortho.demCell_ok dem hdem _ _ hy2 hx1, Ortho.demCell_ok dem hdem _ _ hy2 hx2, ok_bind, Int.cast_natCast]
  have eE := Ortho.bilinear_ok dem hdem x y x1 x2 y1 y2 hx1 hx2 hy1 hy2 ex1 ex2 ey1 ey2 _ _ _ _ rfl rfl rfl rfl
  rw [eR, eE]
  clear eR eE
  generalize weightR r sq (r (y - y1)) (r (x - x1)) = w11' at *
  generalize weightR r sq (r (y - y1)) (r (x2 - x)) = w12' at *
  generalize weightR r sq (r (y2 - y)) (r (x - x1)) = w21' at *
  generalize weightR r sq (r (y2 - y)) (r (x2 - x)) = w22' at *
  have g11 := Real.sqrt_nonneg ((y - y1) * (y - y1) + (x - x1) * (x - x1))
  have g12 := Real.sqrt_nonneg ((y - y1) * (y - y1) + (x2 - x) * (x2 - x))
  have g21 := Real.sqrt_nonneg ((y2 - y) * (y2 - y) + (x - x1) * (x - x1))
  have g22 := Real.sqrt_nonneg ((y2 - y) * (y2 - y) + (x2 - x) * (x2 - x))
  generalize Real.sqrt ((y - y1) * (y - y1) + (x - x1) * (x - x1)) = w11 at *
  generalize Real.sqrt ((y - y1) * (y - y1) + (x2 - x) * (x2 - x)) = w12 at *
  generalize Real.sqrt ((y2 - y) * (y2 - y) + (x - x1) * (x - x1)) = w21 at *
  generalize Real.sqrt ((y2 - y) * (y2 - y) + (x2 - x) * (x2 - x)) = w22 at *
  have den := (sum4_approx hr hu a11 a12 a21 a22).weaken (l := 9) hu (by omega)
  have term : ∀ (e w' w : ℝ), Approx u 5 w' w w → Approx u 6 (r (e * w')) (e * w) (|e| * w) := by
    intro e w' w h
    exact ((Approx.exact u e).mul hr hu h)
  have num := sum4_approx hr hu (term (dem.px y1 x1) _ _ a11) (term (dem.px y1 x2) _ _ a12) (term (dem.px y2 x1) _ _ a21) (term (dem.px y2 x2) _ _ a22)
  have hE : (1 + u) ^ 9 < 2 := lt_of_le_of_lt (pow_le_pow_left₀ (by linarith) (by linarith : 1 + u ≤ 1 + 1 / 20) 9) (by norm_num)
  have hE1 := one_le_growth hu 9
  rcases eq_or_ne (w11 + w12 + w21 + w22) 0 with h0 | h0
  · left
    have := den.err
    rw [h0, mul_zero, sub_zero] at this
    have z := abs_nonpos_iff.mp this
    exact ⟨if_pos h0, if_pos z⟩
  · right
    have hW : 0 < w11 + w12 + w21 + w22 := lt_of_le_of_ne (by linarith) h0.symm
    have habs : |w11 + w12 + w21 + w22| = w11 + w12 + w21 + w22 := abs_of_pos hW
    obtain ⟨-, d0, err⟩ := ratio_err (u := u) (k := 9) hr hu num den (by rw [habs]; nlinarith)
    refine ⟨_, _, if_neg h0, if_neg d0, ?_⟩
    refine err.trans ?_
    generalize (1 + u) ^ 9 = G at *
    have H0 : 0 ≤ H := (abs_nonneg _).trans (hH y1 x1 hy1 hx1)
    generalize hw : w11 + w12 + w21 + w22 = W at *
    have sn : |dem.px y1 x1| * w11 + |dem.px y1 x2| * w12 + |dem.px y2 x1| * w21 + |dem.px y2 x2| * w22 ≤ H * W := by
      have b1 := mul_le_mul_of_nonneg_right (hH y1 x1 hy1 hx1) g11
      have b2 := mul_le_mul_of_nonneg_right (hH y1 x2 hy1 hx2) g12
      have b3 := mul_le_mul_of_nonneg_right (hH y2 x1 hy2 hx1) g21
      have b4 := mul_le_mul_of_nonneg_right (hH y2 x2 hy2 hx2) g22
      rw [← hw]
      linarith
    have q : |(dem.px y1 x1 * w11 + dem.px y1 x2 * w12 + dem.px y2 x1 * w21 + dem.px y2 x2 * w22) / W| ≤ H := by
      rw [abs_div, habs, div_le_iff₀ hW]
      exact num.size.trans sn
    have := ratioBound_le (u := u) (E := G - 1) (d := W) (sd := W) hu (by linarith) num.nonneg hW.le q habs.ge sn le_rfl (by nlinarith)
    refine this.trans (le_of_eq ?_)
    have e1 : (G - 1) * (H * W) + H * ((G - 1) * W) = 2 * (G - 1) * H * W := by ring
    have e2 : W - (G - 1) * W = (2 - G) * W := by ring
    rw [e1, e2, mul_div_mul_right _ _ hW.ne']
    ring

/-- C175 in double precision: within 3e-15 of the largest elevation in size (for a raster up to 10 km high: less than a tenth of a nanometre). -/
theorem C175_double (sq : ℝ → ℝ) (hsq : Roots sq (Rounding.unit 53)) (dem : A2 ℝ) (hdem : 2 ≤ dem.ny ∧ 2 ≤ dem.nx) (H : ℝ)
    (hH : ∀ i j, i < dem.ny → j < dem.nx → |dem.px i j| ≤ H) (x y e : ℝ) (he : Ortho.demBilinear dem x y = .ok e) :
    ∃ e', demBilinearR (Rounding.fl 53) sq dem x y = .ok e' ∧ |e' - e| ≤ 3 / 10 ^ 15 * H := by
  have H0 : 0 ≤ H := (abs_nonneg _).trans (hH 0 0 (by omega) (by omega))
  rcases C175_elevation (r := Rounding.fl 53) (Rounding.fl_err' 53) hsq (by unfold Rounding.unit; positivity) (by unfold Rounding.unit; norm_num) dem hdem H hH x y with h | ⟨e1, e', h1, h2, h3⟩
  · rw [h.1] at he; cases he
  · rw [h1] at he
    cases he
    refine ⟨e', h2, h3.trans (mul_le_mul_of_nonneg_right ?_ H0)⟩
    unfold Rounding.unit
    norm_num

end

/-- Beside `C175_double`: a raster, a point between its nodes, and correctly rounded square roots. -/
example : ∃ (sq : ℝ → ℝ) (e : ℝ), Roots sq (Rounding.unit 53) ∧ Ortho.demBilinear (⟨2, 2, fun i j => (100 * i + 10 * j : ℝ)⟩ : A2 ℝ) (1 / 4) 0 = .ok e := by
  have h := Ortho.C43_reversed_false (⟨2, 2, fun i j => (100 * i + 10 * j : ℝ)⟩ : A2 ℝ) ⟨le_rfl, le_rfl⟩ 0 0 (by norm_num) (by norm_num) (1 / 4) (by norm_num) (by norm_num)
  rw [Nat.cast_zero, zero_add] at h
  refine ⟨fun x => Rounding.fl 53 (Real.sqrt x), _, ?_, h⟩
  intro x hx
  have := Rounding.fl_err' 53 (Real.sqrt x)
  rwa [abs_of_nonneg (Real.sqrt_nonneg x)] at this

end Verif.FloatGeom
