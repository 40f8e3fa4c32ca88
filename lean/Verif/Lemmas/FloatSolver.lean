import Verif.Model.FloatSolver
import Verif.Lemmas.FloatGeom
import Verif.Props.Convergence

/-! Rounding in one update of the solver: the 2x2 system, the slopes, and the new position. -/

set_option linter.unusedSectionVars false

namespace Verif.PointCalc
open Verif ImageUtils FloatGeom FloatSpectral

variable {K : Type} [Field K] [LinearOrder K] [IsStrictOrderedRing K]

/-- `r (r (a * b) - r (c * d))`. -/
theorem cross_err {r : K → K} {u : K} (hr : Rounds r u) (hu : 0 ≤ u) (hu1 : u ≤ 1 / 100) (a b c d : K) {s : K} (hs : |a| * |b| + |c| * |d| ≤ s) :
    |r (r (a * b) - r (c * d)) - (a * b - c * d)| ≤ 3 * u * s := by
  have h1 := (Approx.exact u (a * b)).round hr hu
  have h2 := (Approx.exact u (c * d)).round hr hu
  have h := (h1.sub hr hu h2).err
  have e : max (0 + 1) (0 + 1) + 1 = 2 := rfl
  rw [e, abs_mul, abs_mul] at h
  refine h.trans ?_
  have h3 : 0 ≤ |a| * |b| + |c| * |d| := by positivity
  have h4 : (1 + u) ^ 2 - 1 ≤ 3 * u := by nlinarith
  have h5 : 0 ≤ (1 + u) ^ 2 - 1 := by nlinarith
  exact mul_le_mul h4 hs h3 (by linarith)

/-- How much the elimination without pivoting enlarges rounding errors: `κ` bounds the ratio of the slopes in the first column, `s` the slopes, `μ` the resolution. -/
def growth (κ s μ : K) : K := (1 + κ) * (8 + 18 * (1 + κ) * s / μ)

/-- The computed solution of the 2x2 system solves it up to a residual. -/
theorem solve_rounded {r : K → K} {u : K} (hr : Rounds r u) (hu : 0 ≤ u) (hu1 : u ≤ 1 / 100) {pxx pxy pyx pyy X Y E s κ μ : K} (hX : |X| ≤ E) (hY : |Y| ≤ E)
    (h2 : |pxy| ≤ s) (h4 : |pyy| ≤ s) (h0 : pxx ≠ 0) (hκ : |pyx| ≤ κ * |pxx|) (hμ0 : 0 < μ) (hμ : μ * |pxx| ≤ |pyy * pxx - pxy * pyx|)
    (hsmall : 8 * u * (1 + κ) * s ≤ μ) :
    ∃ c w, divR r (r (r (Y * pxx) - r (pyx * X))) (r (r (pyy * pxx) - r (pxy * pyx))) = some c ∧ divR r (r (X - r (c * pxy))) pxx = some w ∧
      |pxx * w + pxy * c - X| ≤ u * growth κ s μ * E ∧ |pyx * w + pyy * c - Y| ≤ u * growth κ s μ * E := by
  have hE : 0 ≤ E := (abs_nonneg _).trans hX
  have hs0 : 0 ≤ s := (abs_nonneg _).trans h2
  have hp : 0 < |pxx| := abs_pos.mpr h0
  have hκ0 : 0 ≤ κ := by
    by_contra h
    push Not at h
    have := mul_neg_of_neg_of_pos h hp
    have := abs_nonneg pyx
    linarith
  -- the denominator
  have hden := cross_err hr hu hu1 pyy pxx pxy pyx (s := (1 + κ) * s * |pxx|) (by
    have a1 := mul_le_mul_of_nonneg_right h4 hp.le
    have a2 := mul_le_mul h2 hκ (abs_nonneg _) hs0
    linarith)
  set den := pyy * pxx - pxy * pyx with hdend
  set den' := r (r (pyy * pxx) - r (pxy * pyx)) with hden'd
  have hrel : 3 * u * ((1 + κ) * s * |pxx|) ≤ 3 / 8 * (μ * |pxx|) := by
    have := mul_le_mul_of_nonneg_right hsmall hp.le
    linarith
  have hden1 : 5 / 8 * (μ * |pxx|) ≤ |den'| := by
    have : |den| ≤ |den'| + |den' - den| := by
      have := abs_sub den' (den' - den)
      rwa [sub_sub_cancel] at this
    linarith
  have hμp : 0 < μ * |pxx| := mul_pos hμ0 hp
  have hden0 : den' ≠ 0 := by
    intro h
    rw [h, abs_zero] at hden1
    linarith
  -- the numerator
  have hnum := cross_err hr hu hu1 Y pxx pyx X (s := (1 + κ) * E * |pxx|) (by
    have a1 := mul_le_mul_of_nonneg_right hY hp.le
    have a2 := mul_le_mul hκ hX (abs_nonneg _) (mul_nonneg hκ0 hp.le)
    linarith)
  set num := Y * pxx - pyx * X with hnumd
  set num' := r (r (Y * pxx) - r (pyx * X)) with hnum'd
  have hW : 0 ≤ (1 + κ) * E * |pxx| := by positivity
  have hnum1 : |num| ≤ (1 + κ) * E * |pxx| := by
    have a1 := abs_sub (Y * pxx) (pyx * X)
    rw [abs_mul, abs_mul] at a1
    have a2 := mul_le_mul_of_nonneg_right hY hp.le
    have a3 := mul_le_mul hκ hX (abs_nonneg _) (mul_nonneg hκ0 hp.le)
    linarith
  have hnum2 : |num'| ≤ 103 / 100 * ((1 + κ) * E * |pxx|) := by
    have a1 := abs_add_le (num' - num) num
    rw [sub_add_cancel] at a1
    have a2 := mul_le_mul_of_nonneg_right hu1 hW
    linarith
  set c := r (num' / den') with hcd
  have hq : |num' / den'| ≤ 83 / 50 * ((1 + κ) * E / μ) := by
    rw [abs_div, div_le_iff₀ (abs_pos.mpr hden0)]
    have a1 : (0 : K) ≤ 83 / 50 * ((1 + κ) * E / μ) := by positivity
    have a2 := mul_le_mul_of_nonneg_left hden1 a1
    have a3 : 83 / 50 * ((1 + κ) * E / μ) * (5 / 8 * (μ * |pxx|)) = 83 / 80 * ((1 + κ) * E * |pxx|) := by field_simp; ring
    rw [a3] at a2
    have : 103 / 100 * ((1 + κ) * E * |pxx|) ≤ 83 / 80 * ((1 + κ) * E * |pxx|) := mul_le_mul_of_nonneg_right (by norm_num) hW
    linarith
  have hC0 : 0 ≤ (1 + κ) * E / μ := by positivity
  have hc : |c| ≤ 2 * ((1 + κ) * E / μ) := by
    have a1 := hr.abs_le (num' / den')
    have a2 := mul_le_mul (show 1 + u ≤ 101 / 100 by linarith) hq (abs_nonneg _) (by norm_num)
    have a3 : 101 / 100 * (83 / 50 * ((1 + κ) * E / μ)) ≤ 2 * ((1 + κ) * E / μ) := by
      rw [← mul_assoc]; exact mul_le_mul_of_nonneg_right (by norm_num) hC0
    exact a1.trans (a2.trans a3)
  set C := 2 * ((1 + κ) * E / μ) with hCd
  have hCpos : 0 ≤ C := by rw [hCd]; linarith
  -- the first residual of the elimination
  have hres : |c * den - num| ≤ u * ((1 + κ) * (3 * (C * s) + 5 * E)) * |pxx| := by
    have e : c * den - num = -(c * (den' - den)) + (c - num' / den') * den' + (num' - num) := by
      have : num' / den' * den' = num' := div_mul_cancel₀ _ hden0
      linear_combination this
    have a1 : |c * (den' - den)| ≤ C * (3 * u * ((1 + κ) * s * |pxx|)) := by
      rw [abs_mul]; exact mul_le_mul hc hden (abs_nonneg _) hCpos
    have a2 : |(c - num' / den') * den'| ≤ u * |num'| := by
      rw [abs_mul]
      have := mul_le_mul_of_nonneg_right (hr (num' / den')) (abs_nonneg den')
      have e2 : u * |num' / den'| * |den'| = u * |num'| := by rw [mul_assoc, ← abs_mul, div_mul_cancel₀ _ hden0]
      rwa [e2] at this
    have a3 := mul_le_mul_of_nonneg_left hnum2 hu
    have b1 := abs_add_le (-(c * (den' - den)) + (c - num' / den') * den') (num' - num)
    have b2 := abs_add_le (-(c * (den' - den))) ((c - num' / den') * den')
    rw [abs_neg] at b2
    rw [e]
    have b3 : u * (103 / 100 * ((1 + κ) * E * |pxx|)) ≤ u * (2 * ((1 + κ) * E * |pxx|)) :=
      mul_le_mul_of_nonneg_left (mul_le_mul_of_nonneg_right (by norm_num) hW) hu
    have b4 : u * ((1 + κ) * (3 * (C * s) + 5 * E)) * |pxx| = C * (3 * u * ((1 + κ) * s * |pxx|)) + u * (2 * ((1 + κ) * E * |pxx|)) + 3 * u * ((1 + κ) * E * |pxx|) := by ring
    rw [b4]
    linarith
  -- back substitution
  have hcp : |c * pxy| ≤ C * s := by rw [abs_mul]; exact mul_le_mul hc h2 (abs_nonneg _) hCpos
  have hCs : 0 ≤ C * s := mul_nonneg hCpos hs0
  set t := r (c * pxy) with htd
  have ht1 : |t - c * pxy| ≤ u * (C * s) := (hr _).trans (mul_le_mul_of_nonneg_left hcp hu)
  set z := r (X - t) with hzd
  have hXt : |X - t| ≤ E + 2 * (C * s) := by
    have a1 := abs_sub X t
    have a2 := hr.abs_le (c * pxy)
    have a3 : (1 + u) * |c * pxy| ≤ 2 * (C * s) := mul_le_mul (by linarith) hcp (abs_nonneg _) (by norm_num)
    linarith
  have hz1 : |z - (X - t)| ≤ u * (E + 2 * (C * s)) := (hr _).trans (mul_le_mul_of_nonneg_left hXt hu)
  have hz2 : |z| ≤ 2 * E + 3 * (C * s) := by
    have a2 := hr.abs_le (X - t)
    have a3 : (1 + u) * |X - t| ≤ 101 / 100 * (E + 2 * (C * s)) := mul_le_mul (by linarith) hXt (abs_nonneg _) (by norm_num)
    linarith
  set w := r (z / pxx) with hwd
  have hw1 : |pxx * w - z| ≤ u * (2 * E + 3 * (C * s)) := by
    have e : pxx * w - z = pxx * (w - z / pxx) := by field_simp
    rw [e, abs_mul]
    have a1 := mul_le_mul_of_nonneg_left (hr (z / pxx)) hp.le
    have e2 : |pxx| * (u * |z / pxx|) = u * |z| := by rw [abs_div]; field_simp
    rw [e2] at a1
    exact a1.trans (mul_le_mul_of_nonneg_left hz2 hu)
  have s1 : |pxx * w + pxy * c - X| ≤ u * (3 * E + 6 * (C * s)) := by
    have e : pxx * w + pxy * c - X = (pxx * w - z) + (z - (X - t)) - (t - c * pxy) := by ring
    rw [e]
    have b1 := abs_sub ((pxx * w - z) + (z - (X - t))) (t - c * pxy)
    have b2 := abs_add_le (pxx * w - z) (z - (X - t))
    linarith
  have s2 : |pyx * w + pyy * c - Y| ≤ κ * (u * (3 * E + 6 * (C * s))) + u * ((1 + κ) * (3 * (C * s) + 5 * E)) := by
    have e : pxx * (pyx * w + pyy * c - Y) = pyx * (pxx * w + pxy * c - X) + (c * den - num) := by rw [hdend, hnumd]; ring
    have b0 : |pxx| * |pyx * w + pyy * c - Y| ≤ |pxx| * (κ * (u * (3 * E + 6 * (C * s))) + u * ((1 + κ) * (3 * (C * s) + 5 * E))) := by
      rw [← abs_mul, e]
      have b1 := abs_add_le (pyx * (pxx * w + pxy * c - X)) (c * den - num)
      rw [abs_mul pyx] at b1
      have b2 := mul_le_mul hκ s1 (abs_nonneg _) (mul_nonneg hκ0 hp.le)
      linarith
    exact le_of_mul_le_mul_left b0 hp
  have hCs2 : C * s * 9 = 18 * (1 + κ) * s / μ * E := by rw [hCd]; field_simp; ring
  have g1 : u * growth κ s μ * E = u * ((1 + κ) * (8 * E + 9 * (C * s))) := by
    unfold growth
    rw [show (1 + κ) * (8 * E + 9 * (C * s)) = (1 + κ) * (8 * E + C * s * 9) by ring, hCs2]
    ring
  refine ⟨c, w, ?_, ?_, ?_, ?_⟩
  · rw [divR, fdiv, if_neg hden0]; rfl
  · rw [divR, fdiv, if_neg h0]; rfl
  · rw [g1]
    refine s1.trans (mul_le_mul_of_nonneg_left ?_ hu)
    have : 0 ≤ κ * (8 * E + 9 * (C * s)) := by positivity
    linarith
  · rw [g1]
    refine s2.trans ?_
    have e : κ * (u * (3 * E + 6 * (C * s))) + u * ((1 + κ) * (3 * (C * s) + 5 * E)) = u * (κ * (8 * E + 9 * (C * s)) + (3 * (C * s) + 5 * E)) := by ring
    rw [e]
    refine mul_le_mul_of_nonneg_left ?_ hu
    linarith

/-- The error of a computed slope over a distance `D`: `L` the change of the slopes, `η` the precision of the sensor, `H` the size of the coordinates, `M` the size of the slopes. -/
def slopeErr (u H η L M D : K) : K := (1 + u) * (L + u * (M + L) + (1 + u) * (η + (M + L) * (u * H)) / D) + u * M

/-- A computed slope: `x` is the movement of the image for a coordinate that moved by `δ + t`. -/
theorem slope_rounded {r : K → K} {u : K} (hr : Rounds r u) (hu : 0 ≤ u) {x a δ t L M η H L' : K} (hδ : δ ≠ 0) (ha : |a| ≤ M) (hL : 0 ≤ L)
    (h : |x - a * (δ + t)| ≤ L * |δ + t| + η) (ht : |t| ≤ u * H) (hs : slopeErr u H η L M |δ| ≤ L') :
    ∃ q, divR r (r x) δ = some q ∧ |q - a| ≤ L' := by
  have hp : 0 < |δ| := abs_pos.mpr hδ
  refine ⟨r (r x / δ), by rw [divR, fdiv, if_neg hδ]; rfl, le_trans ?_ hs⟩
  set D := |δ| with hD
  set N := η + (M + L) * (u * H) with hN
  have h1 : |δ + t| ≤ D + u * H := (abs_add_le _ _).trans (by linarith)
  have h2 : |x - a * δ| ≤ L * D + N := by
    have e : x - a * δ = (x - a * (δ + t)) + a * t := by ring
    rw [e]
    have b1 := abs_add_le (x - a * (δ + t)) (a * t)
    rw [abs_mul a] at b1
    have b2 := mul_le_mul ha ht (abs_nonneg _) ((abs_nonneg _).trans ha)
    have b3 := mul_le_mul_of_nonneg_left h1 hL
    linarith
  have h3 : |x| ≤ (M + L) * D + N := by
    have e : x = (x - a * δ) + a * δ := by ring
    have b1 := abs_add_le (x - a * δ) (a * δ)
    rw [← e, abs_mul a] at b1
    have b2 := mul_le_mul_of_nonneg_right ha hp.le
    linarith
  have h4 := hr.step hu h2 h3
  have h5 : |r x / δ - a| ≤ L + u * (M + L) + (1 + u) * N / D := by
    have e : r x / δ - a = (r x - a * δ) / δ := by field_simp
    rw [e, abs_div, div_le_iff₀ hp]
    have : (L + u * (M + L) + (1 + u) * N / D) * D = u * ((M + L) * D + N) + (L * D + N) := by field_simp; ring
    rw [this]
    exact h4
  have h6 : |r x / δ| ≤ (L + u * (M + L) + (1 + u) * N / D) + M := by
    have e : r x / δ = (r x / δ - a) + a := by ring
    have b1 := abs_add_le (r x / δ - a) a
    rw [← e] at b1
    linarith
  have h7 := hr.step hu h5 h6
  refine h7.trans (le_of_eq ?_)
  unfold slopeErr
  rw [← hN]
  ring

/-- Less distance, more error. -/
theorem slopeErr_anti {u H η L M D D' : K} (hu : 0 ≤ u) (hN : 0 ≤ η + (M + L) * (u * H)) (hD : 0 < D) (h : D ≤ D') : slopeErr u H η L M D' ≤ slopeErr u H η L M D := by
  unfold slopeErr
  have h1 : (1 + u) * (η + (M + L) * (u * H)) / D' ≤ (1 + u) * (η + (M + L) * (u * H)) / D := div_le_div_of_nonneg_left (mul_nonneg (by linarith) hN) hD h
  have h2 := mul_le_mul_of_nonneg_left (show L + u * (M + L) + (1 + u) * (η + (M + L) * (u * H)) / D' ≤ L + u * (M + L) + (1 + u) * (η + (M + L) * (u * H)) / D by linarith)
    (show 0 ≤ 1 + u by linarith)
  linarith

/-- One computed update brings the estimate closer to the ground point. -/
theorem step_rounded {r : K → K} {u : K} (hr : Rounds r u) (hu : 0 ≤ u) (hu1 : u ≤ 1 / 100) {f : K → K → K → Option (K × K)} {S : Affine K} {t : Target K} {D : K × K → Prop}
    {L L' L'' η η'' m M κ H : K} {g p : K × K} {dLon dLat : K}
    (hf : CloseTo f S t.alt D L η) (hS : Resolves S t.alt m M) (hg : D g) (hp : D p) (h1 : D (r (p.1 + dLon), p.2)) (h2 : D (p.1, r (p.2 + dLat)))
    (hs : Sees f η t g) (hL0 : 0 ≤ L) (hη : 0 ≤ η) (hL : L ≤ L') (hLon : dLon ≠ 0) (hLat : dLat ≠ 0) (hH1 : |p.1 + dLon| ≤ H) (hH2 : |p.2 + dLat| ≤ H)
    (hG1 : |g.1| ≤ H) (hG2 : |g.2| ≤ H)
    (e1 : slopeErr u H η L M |dLon| ≤ L') (e2 : slopeErr u H η L M |dLat| ≤ L') (ha : L' < |S.a t.alt|) (hκ : M + L' ≤ κ * (|S.a t.alt| - L')) (hm : 5 * L' < m)
    (hsmall : 8 * u * (1 + κ) * (M + L') ≤ m - 2 * L') (hLL : L' ≤ L'')
    (hL'' : (1 + u) * (3 * L' + u * (2 * growth κ (M + L') (m - 2 * L') + 1) * (M + L)) ≤ 3 * L'')
    (hη'' : (1 + u) * (2 * η + u * (2 * growth κ (M + L') (m - 2 * L') + 1) * (2 * η)) + m * (u * H) ≤ 2 * η'') :
    ∃ p', newtonStepR r f dLon dLat t.alt t.x t.y (some p) = some p' ∧ (m - 2 * L'') * apart p' g ≤ 3 * L'' * apart p g + 2 * η'' := by
  have hH0 : 0 ≤ H := (abs_nonneg _).trans hG1
  have hM0 : 0 ≤ M := le_trans (by positivity) hS.most1
  have hL'0 : 0 ≤ L' := hL0.trans hL
  obtain ⟨P1, Q1, hP1, hQ1, x1, y1⟩ := hf _ _ h1 hp
  obtain ⟨P2, Q2, hP2, hQ2, x2, y2⟩ := hf _ _ h2 hp
  obtain ⟨P0, G, hP0, hG, x0, y0⟩ := hf _ _ hp hg
  obtain ⟨G', hG', tx, ty⟩ := hs
  rw [hG] at hG'
  cases hG'
  rw [hP0] at hQ1 hQ2
  have q1 := Option.some.inj hQ1
  have q2 := Option.some.inj hQ2
  subst q1
  subst q2
  have ap1 : apart (r (p.1 + dLon), p.2) p = |dLon + (r (p.1 + dLon) - (p.1 + dLon))| := by
    simp only [apart, sub_self, abs_zero]
    rw [max_eq_left (abs_nonneg _)]
    congr 1; ring
  have ap2 : apart (p.1, r (p.2 + dLat)) p = |dLat + (r (p.2 + dLat) - (p.2 + dLat))| := by
    simp only [apart, sub_self, abs_zero]
    rw [max_eq_right (abs_nonneg _)]
    congr 1; ring
  have t1 : |r (p.1 + dLon) - (p.1 + dLon)| ≤ u * H := (hr _).trans (mul_le_mul_of_nonneg_left hH1 hu)
  have t2 : |r (p.2 + dLat) - (p.2 + dLat)| ≤ u * H := (hr _).trans (mul_le_mul_of_nonneg_left hH2 hu)
  rw [ap1] at x1 y1
  rw [ap2] at x2 y2
  simp only [sub_self, mul_zero, add_zero, zero_add] at x1 x2 y1 y2
  rw [show r (p.1 + dLon) - p.1 = dLon + (r (p.1 + dLon) - (p.1 + dLon)) by ring] at x1 y1
  rw [show r (p.2 + dLat) - p.2 = dLat + (r (p.2 + dLat) - (p.2 + dLat)) by ring] at x2 y2
  have sa : |S.a t.alt| ≤ M := le_trans (by have := abs_nonneg (S.b t.alt); linarith) hS.most1
  have sb : |S.b t.alt| ≤ M := le_trans (by have := abs_nonneg (S.a t.alt); linarith) hS.most1
  have sd : |S.d t.alt| ≤ M := le_trans (by have := abs_nonneg (S.e t.alt); linarith) hS.most2
  have se : |S.e t.alt| ≤ M := le_trans (by have := abs_nonneg (S.d t.alt); linarith) hS.most2
  obtain ⟨pxx, dxx, A⟩ := slope_rounded hr hu hLon sa hL0 x1 t1 e1
  obtain ⟨pyx, dyx, Dd⟩ := slope_rounded hr hu hLon sd hL0 y1 t1 e1
  obtain ⟨pxy, dxy, B⟩ := slope_rounded hr hu hLat sb hL0 x2 t2 e2
  obtain ⟨pyy, dyy, E⟩ := slope_rounded hr hu hLat se hL0 y2 t2 e2
  have big : ∀ q a : K, |a| ≤ M → |q - a| ≤ L' → |q| ≤ M + L' := by
    intro q a h h'
    have := abs_add_le (q - a) a
    rw [sub_add_cancel] at this
    linarith
  have lowxx : |S.a t.alt| - L' ≤ |pxx| := by
    have := abs_sub pxx (pxx - S.a t.alt)
    rw [sub_sub_cancel] at this
    linarith
  have hxx : pxx ≠ 0 := by
    intro h0
    rw [h0, abs_zero] at lowxx
    linarith
  have hκ0 : 0 ≤ κ := by
    by_contra h
    push Not at h
    have := mul_neg_of_neg_of_pos h (show 0 < |S.a t.alt| - L' by linarith)
    linarith
  have kk : |pyx| ≤ κ * |pxx| := (big _ _ sd Dd).trans (hκ.trans (mul_le_mul_of_nonneg_left lowxx hκ0))
  have hμ : (m - 2 * L') * |pxx| ≤ |pyy * pxx - pxy * pyx| := by
    have := stretch hS A B Dd E (-pxy) pxx |pyy * pxx - pxy * pyx| (by rw [show pxx * -pxy + pxy * pxx = 0 by ring, abs_zero]; exact abs_nonneg _)
      (by rw [show pyx * -pxy + pyy * pxx = pyy * pxx - pxy * pyx by ring])
    refine le_trans (mul_le_mul_of_nonneg_left (le_max_right _ _) (by linarith)) this
  -- the residuals
  set R := (M + L) * apart p g + 2 * η with hR
  have hap := apart_nonneg p g
  have key : ∀ a b : K, |a| + |b| ≤ M → |a * (p.1 - g.1) + b * (p.2 - g.2)| ≤ M * apart p g := by
    intro a b hab
    have h1 : |a * (p.1 - g.1)| ≤ |a| * apart p g := by rw [abs_mul]; exact mul_le_mul_of_nonneg_left (le_max_left _ _) (abs_nonneg _)
    have h2 : |b * (p.2 - g.2)| ≤ |b| * apart p g := by rw [abs_mul]; exact mul_le_mul_of_nonneg_left (le_max_right _ _) (abs_nonneg _)
    have h3 := mul_le_mul_of_nonneg_right hab hap
    have := abs_add_le (a * (p.1 - g.1)) (b * (p.2 - g.2))
    linarith
  have rx : |t.x - P0.1| ≤ R := by
    have e : t.x - P0.1 = (t.x - G.1) - ((P0.1 - G.1) - (S.a t.alt * (p.1 - g.1) + S.b t.alt * (p.2 - g.2))) - (S.a t.alt * (p.1 - g.1) + S.b t.alt * (p.2 - g.2)) := by ring
    rw [e]
    have h1 := abs_sub ((t.x - G.1) - ((P0.1 - G.1) - (S.a t.alt * (p.1 - g.1) + S.b t.alt * (p.2 - g.2)))) (S.a t.alt * (p.1 - g.1) + S.b t.alt * (p.2 - g.2))
    have h2 := abs_sub (t.x - G.1) ((P0.1 - G.1) - (S.a t.alt * (p.1 - g.1) + S.b t.alt * (p.2 - g.2)))
    have := key _ _ hS.most1
    linarith
  have ry : |t.y - P0.2| ≤ R := by
    have e : t.y - P0.2 = (t.y - G.2) - ((P0.2 - G.2) - (S.d t.alt * (p.1 - g.1) + S.e t.alt * (p.2 - g.2))) - (S.d t.alt * (p.1 - g.1) + S.e t.alt * (p.2 - g.2)) := by ring
    rw [e]
    have h1 := abs_sub ((t.y - G.2) - ((P0.2 - G.2) - (S.d t.alt * (p.1 - g.1) + S.e t.alt * (p.2 - g.2)))) (S.d t.alt * (p.1 - g.1) + S.e t.alt * (p.2 - g.2))
    have h2 := abs_sub (t.y - G.2) ((P0.2 - G.2) - (S.d t.alt * (p.1 - g.1) + S.e t.alt * (p.2 - g.2)))
    have := key _ _ hS.most2
    linarith
  have hR0 : 0 ≤ R := (abs_nonneg _).trans rx
  have rx' : |r (t.x - P0.1)| ≤ 2 * R := (hr.abs_le _).trans (mul_le_mul (by linarith) rx (abs_nonneg _) (by norm_num))
  have ry' : |r (t.y - P0.2)| ≤ 2 * R := (hr.abs_le _).trans (mul_le_mul (by linarith) ry (abs_nonneg _) (by norm_num))
  obtain ⟨c, w, hc, hw, s1, s2⟩ := solve_rounded hr hu hu1 rx' ry' (big _ _ sb B) (big _ _ se E) hxx kk (show 0 < m - 2 * L' by linarith) hμ hsmall
  set Γ := growth κ (M + L') (m - 2 * L') with hΓ
  have r1 : |pxx * w + pxy * c - (t.x - P0.1)| ≤ u * (2 * Γ + 1) * R := by
    have e : pxx * w + pxy * c - (t.x - P0.1) = (pxx * w + pxy * c - r (t.x - P0.1)) + (r (t.x - P0.1) - (t.x - P0.1)) := by ring
    rw [e]
    have b1 := abs_add_le (pxx * w + pxy * c - r (t.x - P0.1)) (r (t.x - P0.1) - (t.x - P0.1))
    have b2 := (hr (t.x - P0.1)).trans (mul_le_mul_of_nonneg_left rx hu)
    linarith
  have r2 : |pyx * w + pyy * c - (t.y - P0.2)| ≤ u * (2 * Γ + 1) * R := by
    have e : pyx * w + pyy * c - (t.y - P0.2) = (pyx * w + pyy * c - r (t.y - P0.2)) + (r (t.y - P0.2) - (t.y - P0.2)) := by ring
    rw [e]
    have b1 := abs_add_le (pyx * w + pyy * c - r (t.y - P0.2)) (r (t.y - P0.2) - (t.y - P0.2))
    have b2 := (hr (t.y - P0.2)).trans (mul_le_mul_of_nonneg_left ry hu)
    linarith
  have k1 : |pxx * (p.1 + w - g.1) + pxy * (p.2 + c - g.2)| ≤ 3 * L' * apart p g + 2 * η + u * (2 * Γ + 1) * R := by
    have e : pxx * (p.1 + w - g.1) + pxy * (p.2 + c - g.2) = (((pxx - S.a t.alt) * (p.1 - g.1) + (pxy - S.b t.alt) * (p.2 - g.2)) +
        ((t.x - G.1) - ((P0.1 - G.1) - (S.a t.alt * (p.1 - g.1) + S.b t.alt * (p.2 - g.2))))) + (pxx * w + pxy * c - (t.x - P0.1)) := by
      ring
    rw [e]
    have a1 := comb_le A B (le_max_left |p.1 - g.1| |p.2 - g.2|) (le_max_right |p.1 - g.1| |p.2 - g.2|)
    have a2 := abs_sub (t.x - G.1) ((P0.1 - G.1) - (S.a t.alt * (p.1 - g.1) + S.b t.alt * (p.2 - g.2)))
    have a3 := abs_add_le ((pxx - S.a t.alt) * (p.1 - g.1) + (pxy - S.b t.alt) * (p.2 - g.2))
      ((t.x - G.1) - ((P0.1 - G.1) - (S.a t.alt * (p.1 - g.1) + S.b t.alt * (p.2 - g.2))))
    have a4 := mul_le_mul_of_nonneg_right hL hap
    have a5 := abs_add_le (((pxx - S.a t.alt) * (p.1 - g.1) + (pxy - S.b t.alt) * (p.2 - g.2)) +
        ((t.x - G.1) - ((P0.1 - G.1) - (S.a t.alt * (p.1 - g.1) + S.b t.alt * (p.2 - g.2))))) (pxx * w + pxy * c - (t.x - P0.1))
    change |_| ≤ 2 * L' * apart p g at a1
    linarith
  have k2 : |pyx * (p.1 + w - g.1) + pyy * (p.2 + c - g.2)| ≤ 3 * L' * apart p g + 2 * η + u * (2 * Γ + 1) * R := by
    have e : pyx * (p.1 + w - g.1) + pyy * (p.2 + c - g.2) = (((pyx - S.d t.alt) * (p.1 - g.1) + (pyy - S.e t.alt) * (p.2 - g.2)) +
        ((t.y - G.2) - ((P0.2 - G.2) - (S.d t.alt * (p.1 - g.1) + S.e t.alt * (p.2 - g.2))))) + (pyx * w + pyy * c - (t.y - P0.2)) := by
      ring
    rw [e]
    have a1 := comb_le Dd E (le_max_left |p.1 - g.1| |p.2 - g.2|) (le_max_right |p.1 - g.1| |p.2 - g.2|)
    have a2 := abs_sub (t.y - G.2) ((P0.2 - G.2) - (S.d t.alt * (p.1 - g.1) + S.e t.alt * (p.2 - g.2)))
    have a3 := abs_add_le ((pyx - S.d t.alt) * (p.1 - g.1) + (pyy - S.e t.alt) * (p.2 - g.2))
      ((t.y - G.2) - ((P0.2 - G.2) - (S.d t.alt * (p.1 - g.1) + S.e t.alt * (p.2 - g.2))))
    have a4 := mul_le_mul_of_nonneg_right hL hap
    have a5 := abs_add_le (((pyx - S.d t.alt) * (p.1 - g.1) + (pyy - S.e t.alt) * (p.2 - g.2)) +
        ((t.y - G.2) - ((P0.2 - G.2) - (S.d t.alt * (p.1 - g.1) + S.e t.alt * (p.2 - g.2))))) (pyx * w + pyy * c - (t.y - P0.2))
    change |_| ≤ 2 * L' * apart p g at a1
    linarith
  have hst := stretch hS A B Dd E _ _ _ k1 k2
  -- the rounded position
  set d := max |p.1 + w - g.1| |p.2 + c - g.2| with hd
  have near : apart (r (p.1 + w), r (p.2 + c)) g ≤ (1 + u) * d + u * H := by
    have one : ∀ z gz : K, |z - gz| ≤ d → |gz| ≤ H → |r z - gz| ≤ (1 + u) * d + u * H := by
      intro z gz hz hgz
      have b1 : |z| ≤ d + H := by
        have := abs_add_le (z - gz) gz
        rw [sub_add_cancel] at this
        linarith
      have := hr.step hu hz b1
      linarith
    exact max_le (one _ _ (le_max_left _ _) hG1) (one _ _ (le_max_right _ _) hG2)
  refine ⟨(r (p.1 + w), r (p.2 + c)), ?_, ?_⟩
  · simp only [newtonStepR, Option.bind_eq_bind, Option.bind_some, hP0, hP1, hP2, dxx, dxy, dyx, dyy, hc, hw]
  · have hd0 : 0 ≤ d := le_max_of_le_left (abs_nonneg _)
    have hpos : 0 < m - 2 * L' := by linarith
    have b1 : (m - 2 * L'') * apart (r (p.1 + w), r (p.2 + c)) g ≤ (m - 2 * L') * apart (r (p.1 + w), r (p.2 + c)) g :=
      mul_le_mul_of_nonneg_right (by linarith) (apart_nonneg _ _)
    have b2 := mul_le_mul_of_nonneg_left near hpos.le
    have b3 := mul_le_mul_of_nonneg_left hst (show 0 ≤ 1 + u by linarith)
    have b4 : (m - 2 * L') * (u * H) ≤ m * (u * H) := mul_le_mul_of_nonneg_right (by linarith) (mul_nonneg hu hH0)
    have b5 := mul_le_mul_of_nonneg_right hL'' hap
    have b6 : (m - 2 * L') * ((1 + u) * d + u * H) = (1 + u) * ((m - 2 * L') * d) + (m - 2 * L') * (u * H) := by ring
    have b7 : (1 + u) * (3 * L' * apart p g + 2 * η + u * (2 * Γ + 1) * R) =
        (1 + u) * (3 * L' + u * (2 * Γ + 1) * (M + L)) * apart p g + (1 + u) * (2 * η + u * (2 * Γ + 1) * (2 * η)) := by rw [hR]; ring
    linarith

end Verif.PointCalc
