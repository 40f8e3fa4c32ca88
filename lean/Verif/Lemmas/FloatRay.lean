import Verif.Model.FloatRay
import Verif.Props.EndToEnd

/-! Helper lemmas for `Verif/Props/FloatRay.lean`. -/

set_option linter.unusedSectionVars false

namespace Verif.PointCalc
open Verif ImageUtils FloatGeom FloatSpectral

section rounding
variable {r : ℝ → ℝ} {u H : ℝ}

/-- A rounding: an error of `a` units of `u * H` before it, a value of at most `b * H`. -/
theorem rnd (hr : Rounds r u) (hu : 0 ≤ u) (hu1 : u ≤ 1 / 1000) (hH : 0 ≤ H) {a b x y : ℝ} (ha : 0 ≤ a) (h : |x - y| ≤ a * (u * H)) (hb : |y| ≤ b * H) :
    |r x - y| ≤ (a * (1001 / 1000) + b) * (u * H) := by
  have hx : |x| ≤ b * H + a * (u * H) := by
    have := abs_add_le (x - y) y
    rw [sub_add_cancel] at this
    linarith
  have h1 := hr x
  have h2 : |r x - y| ≤ |r x - x| + |x - y| := by
    have := abs_add_le (r x - x) (x - y)
    rwa [sub_add_sub_cancel] at this
  have h3 : u * |x| ≤ u * (b * H + a * (u * H)) := mul_le_mul_of_nonneg_left hx hu
  have h4 : u * (a * (u * H)) ≤ 1 / 1000 * (a * (u * H)) := mul_le_mul_of_nonneg_right hu1 (by positivity)
  nlinarith

theorem frac_mem {s i : Nat} (hs : 2 ≤ s) (hi : i < s) : (0 : ℝ) < (s : ℝ) - 1 ∧ 0 ≤ (i : ℝ) / ((s : ℝ) - 1) ∧ (i : ℝ) / ((s : ℝ) - 1) ≤ 1 := by
  have h2 : (2 : ℝ) ≤ s := by exact_mod_cast hs
  have h1 : (0 : ℝ) < (s : ℝ) - 1 := by linarith
  have h3 : ((i + 1 : ℕ) : ℝ) ≤ s := by exact_mod_cast hi
  push_cast at h3
  refine ⟨h1, by positivity, ?_⟩
  rw [div_le_one h1]
  linarith

theorem between_abs {a b f M : ℝ} (ha : |a| ≤ M) (hb : |b| ≤ M) (f0 : 0 ≤ f) (f1 : f ≤ 1) : |a + f * (b - a)| ≤ M := by
  rw [show a + f * (b - a) = (1 - f) * a + f * b by ring]
  refine (abs_add_le _ _).trans ?_
  rw [abs_mul, abs_mul, abs_of_nonneg f0, abs_of_nonneg (by linarith : 0 ≤ 1 - f)]
  have h1 := mul_le_mul_of_nonneg_left ha (by linarith : 0 ≤ 1 - f)
  have h2 := mul_le_mul_of_nonneg_left hb f0
  linarith

theorem abs_diff {a b M : ℝ} (ha : |a| ≤ M) (hb : |b| ≤ M) : |a - b| ≤ 2 * M := (abs_sub _ _).trans (by linarith)

/-- A point of `np.linspace` in float arithmetic. -/
theorem linspaceR_err (hr : Rounds r u) (hu : 0 ≤ u) (hu1 : u ≤ 1 / 1000) (hH : 0 ≤ H) {lo hi : ℝ} (hlo : |lo| ≤ H) (hhi : |hi| ≤ H) {s i : Nat} (hs : 2 ≤ s) (his : i < s) :
    |linspaceR r lo hi s i - (lo + (i : ℝ) / ((s : ℝ) - 1) * (hi - lo))| ≤ 10 * (u * H) := by
  obtain ⟨s1, f0, f1⟩ := frac_mem hs his
  have w0 : 0 ≤ u * H := mul_nonneg hu hH
  have hD : |hi - lo| ≤ 2 * H := abs_diff hhi hlo
  unfold linspaceR
  rw [if_neg (by omega)]
  split_ifs with hlast
  · have : (i : ℝ) / ((s : ℝ) - 1) = 1 := by
      rw [div_eq_one_iff_eq s1.ne']
      have : ((i + 1 : ℕ) : ℝ) = s := by exact_mod_cast hlast
      push_cast at this
      linarith
    rw [this, show hi - (lo + 1 * (hi - lo)) = 0 by ring, abs_zero]
    positivity
  simp only []
  split_ifs with hz
  · generalize hf : (i : ℝ) / ((s : ℝ) - 1) = f at *
    have e1 : |r f - f| ≤ (0 * (1001 / 1000) + 1) * (u * 1) := rnd hr hu hu1 zero_le_one le_rfl (by simp) (by rw [abs_of_nonneg f0]; linarith)
    have e2 : |r (hi - lo) - (hi - lo)| ≤ (0 * (1001 / 1000) + 2) * (u * H) := rnd hr hu hu1 hH le_rfl (by simp) hD
    have e3 : |r f * r (hi - lo) - f * (hi - lo)| ≤ 5 * (u * H) := by
      rw [show r f * r (hi - lo) - f * (hi - lo) = (r f - f) * r (hi - lo) + f * (r (hi - lo) - (hi - lo)) by ring]
      refine (abs_add_le _ _).trans ?_
      rw [abs_mul, abs_mul, abs_of_nonneg f0]
      have h1 : |r (hi - lo)| ≤ 3 * H := by
        have := abs_add_le (r (hi - lo) - (hi - lo)) (hi - lo)
        rw [sub_add_cancel] at this
        have : u * H ≤ 1 / 1000 * H := mul_le_mul_of_nonneg_right hu1 hH
        linarith
      have h2 : |r f - f| * |r (hi - lo)| ≤ u * (3 * H) := mul_le_mul (by linarith) h1 (abs_nonneg _) hu
      have h3 : f * |r (hi - lo) - (hi - lo)| ≤ 1 * (2 * (u * H)) := mul_le_mul f1 (by linarith) (abs_nonneg _) zero_le_one
      linarith
    have e4 : |f * (hi - lo)| ≤ 2 * H := by
      rw [abs_mul, abs_of_nonneg f0]
      have := mul_le_mul f1 hD (abs_nonneg _) zero_le_one
      linarith
    have e5 := rnd hr hu hu1 hH (by norm_num : (0 : ℝ) ≤ 5) e3 e4
    have e6 : |r (r f * r (hi - lo)) + lo - (lo + f * (hi - lo))| ≤ 8 * (u * H) := by
      rw [show r (r f * r (hi - lo)) + lo - (lo + f * (hi - lo)) = r (r f * r (hi - lo)) - f * (hi - lo) by ring]
      linarith
    have e7 := rnd hr hu hu1 hH (by norm_num : (0 : ℝ) ≤ 8) e6 ((between_abs hlo hhi f0 f1).trans (by linarith : H ≤ 1 * H))
    linarith
  · set n := (s : ℝ) - 1 with hn
    have hH' : 0 ≤ H / n := by positivity
    have e2 : |r (hi - lo) - (hi - lo)| ≤ (0 * (1001 / 1000) + 2) * (u * H) := rnd hr hu hu1 hH le_rfl (by simp) hD
    have e3 : |r (hi - lo) / n - (hi - lo) / n| ≤ 2 * (u * (H / n)) := by
      rw [← sub_div, abs_div, abs_of_pos s1, div_le_iff₀ s1]
      have : 2 * (u * (H / n)) * n = 2 * (u * H) := by field_simp
      rw [this]
      linarith
    have e4 : |(hi - lo) / n| ≤ 2 * (H / n) := by
      rw [abs_div, abs_of_pos s1, div_le_iff₀ s1]
      have : 2 * (H / n) * n = 2 * H := by field_simp
      rw [this]; exact hD
    have e5 := rnd hr hu hu1 hH' (by norm_num : (0 : ℝ) ≤ 2) e3 e4
    set f := (i : ℝ) / n with hf
    have hif : (i : ℝ) = f * n := by rw [hf]; field_simp
    have e6 : |(i : ℝ) * r (r (hi - lo) / n) - f * (hi - lo)| ≤ 5 * (u * H) := by
      have : (i : ℝ) * r (r (hi - lo) / n) - f * (hi - lo) = f * n * (r (r (hi - lo) / n) - (hi - lo) / n) := by
        rw [hif]; field_simp
      rw [this, abs_mul, abs_of_nonneg (by positivity : 0 ≤ f * n)]
      have h1 : f * n * |r (r (hi - lo) / n) - (hi - lo) / n| ≤ f * n * ((2 * (1001 / 1000) + 2) * (u * (H / n))) := mul_le_mul_of_nonneg_left e5 (by positivity)
      have h2 : f * n * ((2 * (1001 / 1000) + 2) * (u * (H / n))) = f * ((2 * (1001 / 1000) + 2) * (u * H)) := by field_simp
      have h3 : f * ((2 * (1001 / 1000) + 2) * (u * H)) ≤ 1 * ((2 * (1001 / 1000) + 2) * (u * H)) := mul_le_mul_of_nonneg_right f1 (by positivity)
      linarith
    have e7 : |f * (hi - lo)| ≤ 2 * H := by
      rw [abs_mul, abs_of_nonneg f0]
      have := mul_le_mul f1 hD (abs_nonneg _) zero_le_one
      linarith
    have e8 := rnd hr hu hu1 hH (by norm_num : (0 : ℝ) ≤ 5) e6 e7
    have e9 : |r ((i : ℝ) * r (r (hi - lo) / n)) + lo - (lo + f * (hi - lo))| ≤ 8 * (u * H) := by
      rw [show r ((i : ℝ) * r (r (hi - lo) / n)) + lo - (lo + f * (hi - lo)) = r ((i : ℝ) * r (r (hi - lo) / n)) - f * (hi - lo) by ring]
      linarith
    have e10 := rnd hr hu hu1 hH (by norm_num : (0 : ℝ) ≤ 8) e9 ((between_abs hlo hhi f0 f1).trans (by linarith : H ≤ 1 * H))
    linarith

/-- A sample position in float arithmetic. -/
theorem sample_err (hr : Rounds r u) (hu : 0 ≤ u) (hu1 : u ≤ 1 / 1000) (hH : 0 ≤ H) {a b t' t : ℝ} (ha : |a| ≤ H) (hb : |b| ≤ H) (t0 : 0 ≤ t) (t1 : t ≤ 1)
    (ht : |t' - t| ≤ 10 * u) : |r (r (r (b - a) * t') + a) - (a + t * (b - a))| ≤ 30 * (u * H) := by
  have w0 : 0 ≤ u * H := mul_nonneg hu hH
  have hD : |b - a| ≤ 2 * H := abs_diff hb ha
  have e1 : |r (b - a) - (b - a)| ≤ (0 * (1001 / 1000) + 2) * (u * H) := rnd hr hu hu1 hH le_rfl (by simp) hD
  have h1 : |r (b - a)| ≤ (2 + 1 / 100) * H := by
    have := abs_add_le (r (b - a) - (b - a)) (b - a)
    rw [sub_add_cancel] at this
    have : u * H ≤ 1 / 1000 * H := mul_le_mul_of_nonneg_right hu1 hH
    linarith
  have e2 : |r (b - a) * t' - t * (b - a)| ≤ 23 * (u * H) := by
    rw [show r (b - a) * t' - t * (b - a) = r (b - a) * (t' - t) + t * (r (b - a) - (b - a)) by ring]
    refine (abs_add_le _ _).trans ?_
    rw [abs_mul, abs_mul, abs_of_nonneg t0]
    have h2 : |r (b - a)| * |t' - t| ≤ (2 + 1 / 100) * H * (10 * u) := mul_le_mul h1 ht (abs_nonneg _) (by positivity)
    have h3 : t * |r (b - a) - (b - a)| ≤ 1 * (2 * (u * H)) := mul_le_mul t1 (by linarith) (abs_nonneg _) zero_le_one
    nlinarith
  have e3 : |t * (b - a)| ≤ 2 * H := by
    rw [abs_mul, abs_of_nonneg t0]
    have := mul_le_mul t1 hD (abs_nonneg _) zero_le_one
    linarith
  have e4 := rnd hr hu hu1 hH (by norm_num : (0 : ℝ) ≤ 23) e2 e3
  have e5 : |r (r (b - a) * t') + a - (a + t * (b - a))| ≤ 26 * (u * H) := by
    rw [show r (r (b - a) * t') + a - (a + t * (b - a)) = r (r (b - a) * t') - t * (b - a) by ring]
    linarith
  have e6 := rnd hr hu hu1 hH (by norm_num : (0 : ℝ) ≤ 26) e5 ((between_abs ha hb t0 t1).trans (by linarith : H ≤ 1 * H))
  linarith

theorem quot_err {u W D D' N N' g : ℝ} (hu : 0 ≤ u) (w0 : 0 ≤ W) (hg0 : 0 < g) (hDg : 94 / 100 * g ≤ D) (hg : 1000 * W ≤ g) (hug : u * g ≤ 44 / 10 * W) (hN0 : 0 ≤ N)
    (hND : N ≤ D) (hN : |N' + N| ≤ u * N) (hD : |D' + D| ≤ 130 * W) : |N' / D' - N / D| ≤ 170 * W / g := by
  have hDp : 0 < D := by linarith
  have e5 := (abs_le.mp hD).2
  have a4 : 86 / 100 * D ≤ -D' := by linarith
  have hneg : D' < 0 := by linarith
  have key : N' / D' - N / D = ((N' + N) * D - N * (D' + D)) / (D' * D) := by field_simp [hneg.ne]; ring
  have hpos : 0 < -D' * D := mul_pos (by linarith) hDp
  rw [key, abs_div, abs_mul D', abs_of_pos hDp, abs_of_neg hneg, div_le_div_iff₀ hpos hg0]
  have a1 : |(N' + N) * D - N * (D' + D)| ≤ u * N * D + N * (130 * W) := by
    refine (abs_sub _ _).trans ?_
    rw [abs_mul, abs_mul, abs_of_pos hDp, abs_of_nonneg hN0]
    exact add_le_add (mul_le_mul_of_nonneg_right hN hDp.le) (mul_le_mul_of_nonneg_left hD hN0)
  have a2 : u * N * D + N * (130 * W) ≤ D * (u * D + 130 * W) := by
    have b1 : N * (u * D + 130 * W) ≤ D * (u * D + 130 * W) := mul_le_mul_of_nonneg_right hND (by positivity)
    linarith
  have a3 : (u * D + 130 * W) * g ≤ (44 / 10 + 130 / (94 / 100)) * W * D := by
    have b1 : u * g * D ≤ 44 / 10 * W * D := mul_le_mul_of_nonneg_right hug hDp.le
    have b2 : 130 * W * g ≤ 130 * W * (D / (94 / 100)) := mul_le_mul_of_nonneg_left (by rw [le_div_iff₀ (by norm_num)]; linarith) (by positivity)
    have b3 : (130 * W) * (D / (94 / 100)) = 130 / (94 / 100) * W * D := by ring
    linarith
  have a5 : 170 * W * (86 / 100 * D * D) ≤ 170 * W * (-D' * D) := mul_le_mul_of_nonneg_left (mul_le_mul_of_nonneg_right a4 hDp.le) (by positivity)
  have a6 := mul_le_mul_of_nonneg_right (a1.trans a2) hg0.le
  have a7 := mul_le_mul_of_nonneg_left a3 hDp.le
  have a8 : 0 ≤ W * (D * D) := by positivity
  linarith

/-- The computed fraction of the interval at which ray and terrain cross. -/
theorem crossing_err (hr : Rounds r u) (hu : 0 ≤ u) (hu1 : u ≤ 1 / 1000) (hH : 0 ≤ H) {l1 l2 y1 y2 m g : ℝ} (hl1 : |l1| ≤ H) (hl2 : |l2| ≤ H) (hy1 : |y1| ≤ 11 / 10 * H)
    (hy2 : |y2| ≤ 11 / 10 * H) (hle : l1 ≤ y1) (hlt : y2 < l2) (hm : |m - (y2 - y1)| ≤ 123 * (u * H)) (hg0 : 0 < g) (hg : 1000 * (u * H) ≤ g)
    (hD : g - 60 * (u * H) ≤ y1 - y2 + (l2 - l1)) :
    ∃ x, divR r (r (l1 - y1)) (r (m - r (l2 - l1))) = some x ∧ |x - (y1 - l1) / (y1 - y2 + (l2 - l1))| ≤ 200 * (u * H) / g := by
  have w0 : 0 ≤ u * H := mul_nonneg hu hH
  generalize hD0 : y1 - y2 + (l2 - l1) = D at *
  have hDpos : 94 / 100 * g ≤ D := by linarith
  have hDp : 0 < D := by linarith
  have hDH : D ≤ 43 / 10 * H := by
    have a1 := abs_le.mp hl1
    have a2 := abs_le.mp hl2
    have a3 := abs_le.mp hy1
    have a4 := abs_le.mp hy2
    linarith
  have e1 : |r (l2 - l1) - (l2 - l1)| ≤ (0 * (1001 / 1000) + 2) * (u * H) := rnd hr hu hu1 hH le_rfl (by simp) (abs_diff hl2 hl1)
  have e2 : |m - r (l2 - l1) - (-D)| ≤ 125 * (u * H) := by
    rw [← hD0, show m - r (l2 - l1) - -(y1 - y2 + (l2 - l1)) = (m - (y2 - y1)) - (r (l2 - l1) - (l2 - l1)) by ring]
    exact (abs_sub _ _).trans (by linarith)
  have e3 := rnd hr hu hu1 hH (by norm_num : (0 : ℝ) ≤ 125) e2 (by rw [abs_neg, abs_of_pos hDp]; exact hDH)
  set D' := r (m - r (l2 - l1)) with hD'
  have e4 : |D' + D| ≤ 130 * (u * H) := by
    rw [show D' + D = D' - -D by ring]
    linarith
  have e5 := (abs_le.mp e4).2
  have hneg : D' ≤ -(86 / 100 * D) := by
    have : 130 * (u * H) ≤ 14 / 100 * D := by linarith
    linarith
  have hne : D' ≠ 0 := by linarith
  refine ⟨r (r (l1 - y1) / D'), by rw [divR, fdiv, if_neg hne]; rfl, ?_⟩
  set N := y1 - l1 with hN
  have hN0 : 0 ≤ N := by linarith
  have hND : N ≤ D := by linarith
  have e6 := hr (l1 - y1)
  rw [show l1 - y1 = -N by rw [hN]; ring, abs_neg, abs_of_nonneg hN0] at e6
  rw [show l1 - y1 = -N by rw [hN]; ring]
  set N' := r (-N) with hN'
  have hug : u * g ≤ 44 / 10 * (u * H) := by
    have : g ≤ 44 / 10 * H := by
      have : u * H ≤ 1 / 1000 * H := mul_le_mul_of_nonneg_right hu1 hH
      linarith
    nlinarith
  have hq : |N' / D' - N / D| ≤ 170 * (u * H) / g := quot_err hu w0 hg0 hDpos hg hug hN0 hND (by rw [show N' + N = N' - -N by ring]; exact e6) e4
  have hx1 : N / D ≤ 1 := (div_le_one hDp).mpr hND
  have hx0 : 0 ≤ N / D := by positivity
  have hsmall : 170 * (u * H) / g ≤ 17 / 100 := by rw [div_le_iff₀ hg0]; linarith
  have hqa : |N' / D'| ≤ 117 / 100 := by
    have := abs_add_le (N' / D' - N / D) (N / D)
    rw [sub_add_cancel, abs_of_nonneg hx0] at this
    linarith
  have e7 := hr (N' / D')
  have e8 : u * |N' / D'| ≤ 30 * (u * H) / g := by
    rw [le_div_iff₀ hg0]
    have : u * |N' / D'| ≤ u * (117 / 100) := mul_le_mul_of_nonneg_left hqa hu
    have := mul_le_mul_of_nonneg_right this hg0.le
    nlinarith
  have := abs_add_le (r (N' / D') - N' / D') (N' / D' - N / D)
  rw [sub_add_sub_cancel] at this
  have h200 : 170 * (u * H) / g + 30 * (u * H) / g = 200 * (u * H) / g := by ring
  linarith

/-- The interpolated answer in float arithmetic. -/
theorem interp_err (hr : Rounds r u) (hu : 0 ≤ u) (hu1 : u ≤ 1 / 1000) (hH : 0 ≤ H) {p1 p2 P1 P2 x z η h k : ℝ} (hk : 0 ≤ k) (hk30 : k ≤ 30) (h1 : |p1 - P1| ≤ k * (u * H))
    (h2 : |p2 - P2| ≤ k * (u * H)) (hP1 : |P1| ≤ H) (hP2 : |P2| ≤ H) (z0 : 0 ≤ z) (z1 : z ≤ 1) (hx : |x - z| ≤ η) (hη : η ≤ 1 / 5) (hh : |P2 - P1| ≤ h) :
    |r (r (r (p2 - p1) * x) + p1) - (P1 + z * (P2 - P1))| ≤ (10 + 12 / 5 * k) * (u * H) + η * h := by
  have w0 : 0 ≤ u * H := mul_nonneg hu hH
  have wH : u * H ≤ 1 / 1000 * H := mul_le_mul_of_nonneg_right hu1 hH
  have hkw : k * (u * H) ≤ 30 * (u * H) := mul_le_mul_of_nonneg_right hk30 w0
  have hη0 : 0 ≤ η := (abs_nonneg _).trans hx
  have hx' := abs_le.mp hx
  have xa : |x| ≤ 6 / 5 := abs_le.mpr ⟨by linarith, by linarith⟩
  have xb : |1 - x| ≤ 6 / 5 := abs_le.mpr ⟨by linarith, by linarith⟩
  have q1 : |p1| ≤ 103 / 100 * H := by
    have := abs_add_le (p1 - P1) P1
    rw [sub_add_cancel] at this
    linarith
  have q2 : |p2| ≤ 103 / 100 * H := by
    have := abs_add_le (p2 - P2) P2
    rw [sub_add_cancel] at this
    linarith
  have e1 : |r (p2 - p1) - (p2 - p1)| ≤ (0 * (1001 / 1000) + 206 / 100) * (u * H) := rnd hr hu hu1 hH le_rfl (by simp) ((abs_diff q2 q1).trans (by linarith))
  have e2 : |r (p2 - p1) * x - (p2 - p1) * x| ≤ 248 / 100 * (u * H) := by
    rw [← sub_mul, abs_mul]
    have := mul_le_mul e1 xa (abs_nonneg _) (by positivity)
    linarith
  have e3 : |(p2 - p1) * x| ≤ 248 / 100 * H := by
    rw [abs_mul]
    have := mul_le_mul (abs_diff q2 q1) xa (abs_nonneg _) (by positivity)
    linarith
  have e4 := rnd hr hu hu1 hH (by norm_num : (0 : ℝ) ≤ 248 / 100) e2 e3
  have e5 : |r (r (p2 - p1) * x) + p1 - ((p2 - p1) * x + p1)| ≤ 5 * (u * H) := by
    rw [add_sub_add_right_eq_sub]
    linarith
  have e6 : |(p2 - p1) * x + p1| ≤ 4 * H := (abs_add_le _ _).trans (by linarith)
  have e7 := rnd hr hu hu1 hH (by norm_num : (0 : ℝ) ≤ 5) e5 e6
  have e8 : |(p2 - p1) * x + p1 - (P1 + z * (P2 - P1))| ≤ 12 / 5 * k * (u * H) + η * h := by
    rw [show (p2 - p1) * x + p1 - (P1 + z * (P2 - P1)) = ((1 - x) * (p1 - P1) + x * (p2 - P2)) + (x - z) * (P2 - P1) by ring]
    refine (abs_add_le _ _).trans (add_le_add ((abs_add_le _ _).trans ?_) ?_)
    · rw [abs_mul, abs_mul]
      have a1 := mul_le_mul xb h1 (abs_nonneg _) (by norm_num)
      have a2 := mul_le_mul xa h2 (abs_nonneg _) (by norm_num)
      linarith
    · rw [abs_mul]
      exact mul_le_mul hx hh (abs_nonneg _) hη0
  have := abs_add_le (r (r (r (p2 - p1) * x) + p1) - ((p2 - p1) * x + p1)) ((p2 - p1) * x + p1 - (P1 + z * (P2 - P1)))
  rw [sub_add_sub_cancel] at this
  linarith

end rounding

/-! ### A ray whose samples are known with errors -/

/-- Elevations `l` and ray altitudes `y` at the samples, known up to `δ` and `e`; `l` is above `y` first at sample `i + 1`. -/
theorem sampled {T : ℝ → ℝ → ℝ} {c : ℝ} (hG : Gentle T c) (hc : 0 ≤ c) (top bot : ℝ × ℝ) {dist : ℝ} {s : Nat} (hs : 2 ≤ s)
    (hsp : horizontalLen (top, bot) ≤ dist * ((s : ℝ) - 1)) (A B δ e : ℝ) (l y : Nat → ℝ)
    (hl : ∀ j, j < s → |l j - T (segPoint top bot ((j : ℝ) / (s - 1))).1 (segPoint top bot ((j : ℝ) / (s - 1))).2| ≤ δ)
    (hy : ∀ j, j < s → |y j - (A + (j : ℝ) / (s - 1) * (B - A))| ≤ e) {i : Nat} (his : i + 1 < s) (hbef : ∀ j, j ≤ i → l j ≤ y j) (hlt : y (i + 1) < l (i + 1)) :
    let x := (y i - l i) / (y i - y (i + 1) + (l (i + 1) - l i))
    let t := ((i : ℝ) + x) / (s - 1)
    let a := l i + x * (l (i + 1) - l i)
    0 ≤ x ∧ x < 1 ∧ 0 ≤ t ∧ t < 1 ∧ |T (segPoint top bot t).1 (segPoint top bot t).2 - a| ≤ c * dist / 2 + δ ∧ |a - (A + t * (B - A))| ≤ e ∧
      ∀ t', 0 ≤ t' → t' ≤ t → T (segPoint top bot t').1 (segPoint top bot t').2 ≤ A + t' * (B - A) + c * dist / 2 + δ + e := by
  intro x t a
  have hs1 : (0 : ℝ) < (s : ℝ) - 1 := (frac_mem hs (show 0 < s by omega)).1
  have his' : (i : ℝ) + 1 ≤ (s : ℝ) - 1 := by
    have : ((i + 1 + 1 : ℕ) : ℝ) ≤ (s : ℝ) := by exact_mod_cast (by omega : i + 1 + 1 ≤ s)
    push_cast at this
    linarith
  have i0 : (0 : ℝ) ≤ i := Nat.cast_nonneg i
  have hle := hbef i le_rfl
  have hD : 0 < y i - y (i + 1) + (l (i + 1) - l i) := by linarith
  have x0 : 0 ≤ x := div_nonneg (by linarith) hD.le
  have x1 : x < 1 := (div_lt_one hD).mpr (by linarith)
  have hxd : x * (y i - y (i + 1) + (l (i + 1) - l i)) = y i - l i := div_mul_cancel₀ _ hD.ne'
  have ha : a = (1 - x) * y i + x * y (i + 1) := by
    simp only [a]
    linear_combination hxd
  have t0 : 0 ≤ t := div_nonneg (by linarith) hs1.le
  have t1 : t < 1 := (div_lt_one hs1).mpr (by linarith)
  -- the terrain is close to the sampled line
  have ch : ∀ (j : Nat) (z : ℝ), j + 1 < s → 0 ≤ z → z ≤ 1 →
      |T (segPoint top bot (((j : ℝ) + z) / (s - 1))).1 (segPoint top bot (((j : ℝ) + z) / (s - 1))).2 - ((1 - z) * l j + z * l (j + 1))| ≤ c * dist / 2 + δ := by
    intro j z hj z0 z1
    have a1 := chord hG hc top bot hs hsp j z0 z1
    have a2 := hl j (by omega)
    have a3 := hl (j + 1) hj
    push_cast at a3
    generalize T (segPoint top bot (((j : ℝ) + z) / (s - 1))).1 (segPoint top bot (((j : ℝ) + z) / (s - 1))).2 = q at *
    generalize T (segPoint top bot ((j : ℝ) / (s - 1))).1 (segPoint top bot ((j : ℝ) / (s - 1))).2 = q0 at *
    generalize T (segPoint top bot (((j : ℝ) + 1) / (s - 1))).1 (segPoint top bot (((j : ℝ) + 1) / (s - 1))).2 = q1 at *
    have e3 : q - ((1 - z) * l j + z * l (j + 1)) = (q - ((1 - z) * q0 + z * q1)) - ((1 - z) * (l j - q0) + z * (l (j + 1) - q1)) := by ring
    rw [e3]
    have b1 : |(1 - z) * (l j - q0)| ≤ (1 - z) * δ := by rw [abs_mul, abs_of_nonneg (by linarith : (0 : ℝ) ≤ 1 - z)]; exact mul_le_mul_of_nonneg_left a2 (by linarith)
    have b2 : |z * (l (j + 1) - q1)| ≤ z * δ := by rw [abs_mul, abs_of_nonneg z0]; exact mul_le_mul_of_nonneg_left a3 z0
    have b3 := abs_add_le ((1 - z) * (l j - q0)) (z * (l (j + 1) - q1))
    have b4 := abs_sub (q - ((1 - z) * q0 + z * q1)) ((1 - z) * (l j - q0) + z * (l (j + 1) - q1))
    linarith
  -- the line through the computed altitudes is close to the ray
  have cr : ∀ (j : Nat) (z : ℝ), j + 1 < s → 0 ≤ z → z ≤ 1 → |(1 - z) * y j + z * y (j + 1) - (A + ((j : ℝ) + z) / (s - 1) * (B - A))| ≤ e := by
    intro j z hj z0 z1
    have a2 := hy j (by omega)
    have a3 := hy (j + 1) hj
    push_cast at a3
    rw [show (1 - z) * y j + z * y (j + 1) - (A + ((j : ℝ) + z) / (s - 1) * (B - A)) =
      (1 - z) * (y j - (A + (j : ℝ) / (s - 1) * (B - A))) + z * (y (j + 1) - (A + ((j : ℝ) + 1) / (s - 1) * (B - A))) by ring]
    refine (abs_add_le _ _).trans ?_
    rw [abs_mul, abs_mul, abs_of_nonneg z0, abs_of_nonneg (by linarith : (0 : ℝ) ≤ 1 - z)]
    have b1 := mul_le_mul_of_nonneg_left a2 (by linarith : (0 : ℝ) ≤ 1 - z)
    have b2 := mul_le_mul_of_nonneg_left a3 z0
    linarith
  refine ⟨x0, x1, t0, t1, ?_, ?_, ?_⟩
  · have := ch i x his x0 x1.le
    rw [show (1 - x) * l i + x * l (i + 1) = a by simp only [a]; ring] at this
    exact this
  · have := cr i x his x0 x1.le
    rw [← ha] at this
    exact this
  · intro t' ht0 ht1
    have ht : t' = t' * (s - 1) / (s - 1) := by field_simp
    set z := t' * ((s : ℝ) - 1) with hz
    have z0 : 0 ≤ z := mul_nonneg ht0 hs1.le
    have z1 : z ≤ i + x := by rw [hz]; rwa [le_div_iff₀ hs1] at ht1
    have fl0 := Nat.floor_le z0
    have fl1 := Nat.lt_floor_add_one z
    obtain ⟨j, hj⟩ : ∃ j, j = ⌊z⌋₊ := ⟨_, rfl⟩
    rw [← hj] at fl0 fl1
    obtain ⟨v, hv⟩ : ∃ v, v = z - (j : ℝ) := ⟨_, rfl⟩
    have zv : z = j + v := by rw [hv]; ring
    have v0 : 0 ≤ v := by rw [hv]; linarith
    have v1 : v ≤ 1 := by rw [hv]; linarith
    have hji : j ≤ i := by
      by_contra hgt
      have : ((i + 1 : ℕ) : ℝ) ≤ (j : ℝ) := by exact_mod_cast (by omega : i + 1 ≤ j)
      push_cast at this
      linarith
    have c1 := (abs_le.mp (ch j v (by omega) v0 v1)).2
    have c2 := (abs_le.mp (cr j v (by omega) v0 v1)).2
    rw [← zv, ← ht] at c1 c2
    have above : (1 - v) * l j + v * l (j + 1) ≤ (1 - v) * y j + v * y (j + 1) := by
      have hj0 := hbef j hji
      rcases Nat.lt_or_eq_of_le hji with hlt' | rfl
      · have hj1 := hbef (j + 1) (by omega)
        exact add_le_add (mul_le_mul_of_nonneg_left hj0 (by linarith)) (mul_le_mul_of_nonneg_left hj1 v0)
      · have vx : v ≤ x := by rw [zv] at z1; linarith
        have := mul_le_mul_of_nonneg_right vx hD.le
        rw [hxd] at this
        linarith
    linarith

end Verif.PointCalc
