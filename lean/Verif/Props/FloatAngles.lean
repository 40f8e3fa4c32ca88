import Verif.Props.FloatGeom
import Verif.Lemmas.TrigBounds

/-! C172: angles recovered from an orientation matrix in float arithmetic. -/

namespace Verif.FloatGeom
open Verif ImageUtils FloatSpectral

section
variable {L : Lib} {u : ℝ}

/-- Rounding keeps the sign. -/
theorem rounds_pos {r : ℝ → ℝ} (hr : Rounds r u) (hu : 0 ≤ u) (h1 : u < 1) (x : ℝ) : 0 < r x ↔ 0 < x := by
  have h := abs_le.mp (hr x)
  constructor
  · intro h0
    by_contra hx
    rw [abs_of_nonpos (not_lt.mp hx)] at h
    nlinarith [h.2, not_lt.mp hx]
  · intro h0
    rw [abs_of_pos h0] at h
    nlinarith [h.1]

theorem near_pos {x' x : ℝ} (h : |x' - x| ≤ u * |x|) (h1 : u < 1) : (0 < x' ↔ 0 < x) ∧ (x' < 0 ↔ x < 0) := by
  rcases lt_trichotomy x 0 with hx | hx | hx
  · rw [abs_of_neg hx] at h
    have := abs_le.mp h
    refine ⟨⟨fun h0 => ?_, fun h0 => ?_⟩, ⟨fun _ => hx, fun _ => ?_⟩⟩ <;> nlinarith [this.1, this.2]
  · subst hx
    simp only [abs_zero, mul_zero, sub_zero] at h
    have : x' = 0 := abs_eq_zero.mp (le_antisymm h (abs_nonneg _))
    rw [this]
    exact ⟨Iff.rfl, Iff.rfl⟩
  · rw [abs_of_pos hx] at h
    have := abs_le.mp h
    refine ⟨⟨fun _ => hx, fun _ => ?_⟩, ⟨fun h0 => ?_, fun h0 => ?_⟩⟩ <;> nlinarith [this.1, this.2]

/-- The product of minus one float and another is positive exactly when the exact values have opposite signs. -/
theorem neg_mul_pos (h : L.Good u) (hu : 0 ≤ u) (h1 : u < 1) {a' a b' b : ℝ} (ha : |a' - a| ≤ u * |a|) (hb : |b' - b| ≤ u * |b|) :
    0 < L.r (L.r (-1 * a') * b') ↔ a * b < 0 := by
  rw [rounds_pos h.arith hu h1]
  have r1 := rounds_pos h.arith hu h1 (-1 * a')
  have r2 := (near_pos (x' := L.r (-1 * a')) (x := -1 * a') (by simpa using h.arith (-1 * a')) h1).2
  have na := near_pos ha h1
  have nb := near_pos hb h1
  constructor
  · intro h0
    rcases mul_pos_iff.mp h0 with ⟨x, y⟩ | ⟨x, y⟩
    · have : a < 0 := na.2.mp (by linarith [r1.mp x])
      exact mul_neg_of_neg_of_pos this (nb.1.mp y)
    · have : 0 < a := na.1.mp (by linarith [r2.mp x])
      exact mul_neg_of_pos_of_neg this (nb.2.mp y)
  · intro h0
    rcases mul_neg_iff.mp h0 with ⟨x, y⟩ | ⟨x, y⟩
    · exact mul_pos_of_neg_of_neg (r2.mpr (by linarith [na.1.mpr x])) (nb.2.mpr y)
    · exact mul_pos (r1.mpr (by linarith [na.2.mpr x])) (nb.1.mpr y)

/-- Equal sines and nonnegative cosines: how far the cosine of the recovered pitch is off. -/
theorem cos_recovered (h : L.Good u) (hu : 0 ≤ u) (h1 : u ≤ 1 / 100) (p : ℝ) (hc : 1 / 2 ≤ Real.cos p) :
    -1 ≤ L.sn p ∧ L.sn p ≤ 1 ∧ |L.cs (L.asn (L.sn p)) - Real.cos p| ≤ 6 * u := by
  have s2 := Real.sin_sq_add_cos_sq p
  have hs := h.sin p
  have sA : |Real.sin p| ^ 2 ≤ 3 / 4 := by rw [sq_abs]; nlinarith
  have sB : |Real.sin p| ≤ 9 / 10 := by nlinarith [abs_nonneg (Real.sin p)]
  have sC : |L.sn p| ≤ (1 + u) * |Real.sin p| := by
    have : |L.sn p| ≤ |L.sn p - Real.sin p| + |Real.sin p| := by simpa using abs_add_le (L.sn p - Real.sin p) (Real.sin p)
    linarith
  have sD : |L.sn p| ≤ 1 := by nlinarith [abs_nonneg (Real.sin p)]
  obtain ⟨l1, l2⟩ := abs_le.mp sD
  refine ⟨l1, l2, ?_⟩
  -- the cosine of the exact arcsine
  have c1 : Real.cos (Real.arcsin (L.sn p)) = Real.sqrt (1 - L.sn p ^ 2) := Real.cos_arcsin _
  have q0 : 0 ≤ 1 - L.sn p ^ 2 := by have := sq_abs (L.sn p); nlinarith [abs_nonneg (L.sn p)]
  have q1 : Real.sqrt (1 - L.sn p ^ 2) ^ 2 = 1 - L.sn p ^ 2 := Real.sq_sqrt q0
  have q2 := Real.sqrt_nonneg (1 - L.sn p ^ 2)
  obtain ⟨c, hcdef⟩ : ∃ c, c = Real.sqrt (1 - L.sn p ^ 2) := ⟨_, rfl⟩
  rw [← hcdef] at c1 q1 q2
  have e1 : |L.sn p ^ 2 - Real.sin p ^ 2| ≤ (u * |Real.sin p|) * ((2 + u) * |Real.sin p|) := by
    have : L.sn p ^ 2 - Real.sin p ^ 2 = (L.sn p - Real.sin p) * (L.sn p + Real.sin p) := by ring
    rw [this, abs_mul]
    refine mul_le_mul hs ?_ (abs_nonneg _) (by positivity)
    refine (abs_add_le _ _).trans ?_
    linarith
  have e2 : |c - Real.cos p| ≤ 31 / 10 * u := by
    have f : (c - Real.cos p) * (c + Real.cos p) = -(L.sn p ^ 2 - Real.sin p ^ 2) := by nlinarith
    have g : |c - Real.cos p| * (c + Real.cos p) ≤ (u * |Real.sin p|) * ((2 + u) * |Real.sin p|) := by
      have := congrArg abs f
      rw [abs_mul, abs_neg, abs_of_pos (show 0 < c + Real.cos p by linarith)] at this
      rw [this]
      exact e1
    have g2 : (u * |Real.sin p|) * ((2 + u) * |Real.sin p|) ≤ u * (31 / 20) := by
      have : (u * |Real.sin p|) * ((2 + u) * |Real.sin p|) = u * ((2 + u) * |Real.sin p| ^ 2) := by ring
      rw [this]
      refine mul_le_mul_of_nonneg_left ?_ hu
      nlinarith [sq_nonneg |Real.sin p|]
    have g3 : |c - Real.cos p| * (1 / 2) ≤ |c - Real.cos p| * (c + Real.cos p) := mul_le_mul_of_nonneg_left (by linarith) (abs_nonneg _)
    linarith
  have e3 : |Real.cos (L.asn (L.sn p)) - c| ≤ 8 / 5 * u := by
    rw [← c1]
    have a1 := h.arcsin (L.sn p) l1 l2
    have a2 : |Real.arcsin (L.sn p)| ≤ 8 / 5 := by
      have b1 := Real.arcsin_le_pi_div_two (L.sn p)
      have b2 := Real.neg_pi_div_two_le_arcsin (L.sn p)
      have := Real.pi_lt_d2
      exact abs_le.mpr ⟨by linarith, by linarith⟩
    have a3 : |Real.cos (L.asn (L.sn p)) - Real.cos (Real.arcsin (L.sn p))| ≤ |L.asn (L.sn p) - Real.arcsin (L.sn p)| := by
      rw [Real.cos_sub_cos, abs_mul, abs_mul]
      have s1 := Real.abs_sin_le_one ((L.asn (L.sn p) + Real.arcsin (L.sn p)) / 2)
      have s2 : |Real.sin ((L.asn (L.sn p) - Real.arcsin (L.sn p)) / 2)| ≤ |(L.asn (L.sn p) - Real.arcsin (L.sn p)) / 2| := Real.abs_sin_le_abs
      rw [abs_div] at s2
      norm_num at s2 ⊢
      nlinarith [abs_nonneg (Real.sin ((L.asn (L.sn p) + Real.arcsin (L.sn p)) / 2)), abs_nonneg (Real.sin ((L.asn (L.sn p) - Real.arcsin (L.sn p)) / 2))]
    have := mul_le_mul_of_nonneg_left a2 hu
    linarith
  have e4 := h.cos (L.asn (L.sn p))
  have e5 : |L.cs (L.asn (L.sn p)) - Real.cos (L.asn (L.sn p))| ≤ u := by
    have := mul_le_mul_of_nonneg_left (Real.abs_cos_le_one (L.asn (L.sn p))) hu
    linarith
  have t1 := abs_sub_le (L.cs (L.asn (L.sn p))) (Real.cos (L.asn (L.sn p))) (Real.cos p)
  have t2 := abs_sub_le (Real.cos (L.asn (L.sn p))) c (Real.cos p)
  linarith

/-- The inverse cosine is continuous, with a square root at the ends of its range. -/
theorem arccos_near {a b : ℝ} (ha : -1 ≤ a) (ha' : a ≤ 1) (hb : -1 ≤ b) (hb' : b ≤ 1) : |Real.arccos a - Real.arccos b| ≤ Real.pi * Real.sqrt (|a - b| / 2) := by
  wlog hab : a ≤ b generalizing a b with H
  · have := H hb hb' ha ha' (le_of_not_ge hab)
    rwa [abs_sub_comm, abs_sub_comm a b]
  have ea := Real.cos_arccos ha ha'
  have eb := Real.cos_arccos hb hb'
  have h0 := Real.arccos_nonneg b
  have h1 := Real.arccos_le_pi a
  have hle : Real.arccos b ≤ Real.arccos a := Real.arccos_le_arccos hab
  obtain ⟨α, hα⟩ : ∃ α, α = Real.arccos a := ⟨_, rfl⟩
  obtain ⟨β, hβ⟩ : ∃ β, β = Real.arccos b := ⟨_, rfl⟩
  rw [← hα] at ea h1 hle ⊢
  rw [← hβ] at eb h0 hle ⊢
  have hpi := Real.pi_pos
  rw [abs_of_nonneg (by linarith), abs_of_nonpos (by linarith)]
  -- sin((α-β)/2) ≥ (α-β)/π and sin((α+β)/2) ≥ sin((α-β)/2)
  have s1 : (α - β) / Real.pi ≤ Real.sin ((α - β) / 2) := by
    have := Real.mul_le_sin (x := (α - β) / 2) (by linarith) (by linarith)
    have e : 2 / Real.pi * ((α - β) / 2) = (α - β) / Real.pi := by ring
    rwa [e] at this
  have s2 : Real.sin ((α - β) / 2) ≤ Real.sin ((α + β) / 2) := by
    have : Real.sin ((α + β) / 2) - Real.sin ((α - β) / 2) = 2 * Real.sin (β / 2) * Real.cos (α / 2) := by
      rw [Real.sin_sub_sin]
      ring_nf
    have k1 : 0 ≤ Real.sin (β / 2) := Real.sin_nonneg_of_nonneg_of_le_pi (by linarith) (by linarith)
    have k2 : 0 ≤ Real.cos (α / 2) := Real.cos_nonneg_of_neg_pi_div_two_le_of_le (by linarith) (by linarith)
    have := mul_nonneg (mul_nonneg (by norm_num : (0 : ℝ) ≤ 2) k1) k2
    linarith
  have s0 : 0 ≤ (α - β) / Real.pi := div_nonneg (by linarith) hpi.le
  have d : b - a = 2 * Real.sin ((α + β) / 2) * Real.sin ((α - β) / 2) := by
    rw [← ea, ← eb, Real.cos_sub_cos]
    have : (β - α) / 2 = -((α - β) / 2) := by ring
    rw [this, Real.sin_neg, add_comm β α]
    ring
  have k : ((α - β) / Real.pi) ^ 2 ≤ -(a - b) / 2 := by nlinarith
  have := Real.le_sqrt_of_sq_le k
  rw [div_le_iff₀ hpi] at this
  linarith

/-- The float quotient that is given to the inverse cosine. -/
theorem quotient_near (h : L.Good u) (hu : 0 ≤ u) (h1 : u ≤ 1 / 1000) {c' c C m' : ℝ} (hc : 1 / 2 ≤ c) (hC : |C| ≤ 1) (hc' : |c' - c| ≤ 6 * u)
    (hm : Approx u 3 m' (c * C) (c * |C|)) : c' ≠ 0 ∧ |L.r (m' / c') - C| ≤ 17 * u := by
  have c0 : 0 < c := by linarith
  have en : |m' - c * C| ≤ (301 / 100 * u) * c := by
    refine hm.err.trans ?_
    have g : (1 + u) ^ 3 - 1 ≤ 301 / 100 * u := by
      have : (1 + u) ^ 3 - 1 = u * (3 + 3 * u + u * u) := by ring
      rw [this, mul_comm]
      exact mul_le_mul_of_nonneg_right (by nlinarith) hu
    have g0 : (0 : ℝ) ≤ (1 + u) ^ 3 - 1 := by have := one_le_growth hu 3; linarith
    exact mul_le_mul g (by nlinarith) (by positivity) (by positivity)
  have ed : |c' - c| ≤ (12 * u) * c := hc'.trans (by nlinarith)
  have lt : (12 * u) * c < |c| := by rw [abs_of_pos c0]; nlinarith
  obtain ⟨d, q⟩ := quotient_err en ed lt
  refine ⟨d, ?_⟩
  have e : c * C / c = C := by field_simp
  rw [e, abs_of_pos c0] at q
  have q2 : (301 / 100 * u * c + |C| * (12 * u * c)) / (c - 12 * u * c) ≤ 153 / 10 * u := by
    rw [div_le_iff₀ (by nlinarith)]
    have : |C| * (12 * u * c) ≤ 1 * (12 * u * c) := mul_le_mul_of_nonneg_right hC (by positivity)
    have k : 0 ≤ u * c := by positivity
    nlinarith [mul_nonneg k hu, mul_le_mul_of_nonneg_left h1 k]
  have q3 := q.trans q2
  have q4 : |m' / c'| ≤ 153 / 10 * u + 1 := by
    have : |m' / c'| ≤ |m' / c' - C| + |C| := by simpa using abs_add_le (m' / c' - C) C
    linarith
  have := h.arith.step hu q3 q4
  nlinarith

/-- An angle recovered from its computed cosine `C` and the sign of its sine. -/
theorem angle_near (h : L.Good u) (hu : 0 ≤ u) {ρ v : ℝ} (hv : -Real.pi < v) (hv' : v ≤ Real.pi) (hρ : |ρ - Real.cos v| ≤ 17 * u) (hm : |Real.cos v| ≤ 1 - 17 * u) :
    -1 ≤ ρ ∧ ρ ≤ 1 ∧ ∀ neg : Prop, [Decidable neg] → (neg ↔ Real.sin v < 0) →
      |(if neg then -L.acs ρ else L.acs ρ) - v| ≤ Real.pi * (Real.sqrt (17 * u / 2) + u) := by
  have r1 := abs_le.mp hρ
  have r2 := abs_le.mp hm
  have l1 : -1 ≤ ρ := by linarith
  have l2 : ρ ≤ 1 := by linarith
  refine ⟨l1, l2, ?_⟩
  intro neg _ hneg
  have a := h.arccos ρ l1 l2
  have a0 : |Real.arccos ρ| ≤ Real.pi := by rw [abs_of_nonneg (Real.arccos_nonneg ρ)]; exact Real.arccos_le_pi ρ
  have a1 := mul_le_mul_of_nonneg_left a0 hu
  have b := arccos_near l1 l2 (Real.neg_one_le_cos v) (Real.cos_le_one v)
  have b1 : Real.sqrt (|ρ - Real.cos v| / 2) ≤ Real.sqrt (17 * u / 2) := Real.sqrt_le_sqrt (by linarith)
  have b2 := mul_le_mul_of_nonneg_left b1 Real.pi_pos.le
  have total : |L.acs ρ - Real.arccos (Real.cos v)| ≤ Real.pi * (Real.sqrt (17 * u / 2) + u) := by
    have := abs_sub_le (L.acs ρ) (Real.arccos ρ) (Real.arccos (Real.cos v))
    nlinarith
  by_cases hn : neg
  · rw [if_pos hn]
    have hs := hneg.mp hn
    have v0 : v < 0 := by
      by_contra hc
      exact absurd (Real.sin_nonneg_of_nonneg_of_le_pi (not_lt.mp hc) hv') (not_le.mpr hs)
    have e : Real.arccos (Real.cos v) = -v := by
      rw [← Real.cos_neg]
      exact Real.arccos_cos (by linarith) (by linarith)
    rw [e] at total
    have : -L.acs ρ - v = -(L.acs ρ - -v) := by ring
    rw [this, abs_neg]
    exact total
  · rw [if_neg hn]
    have hs : ¬ Real.sin v < 0 := fun hc => hn (hneg.mpr hc)
    have v0 : 0 ≤ v := by
      by_contra hc
      exact hs (Real.sin_neg_of_neg_of_neg_pi_lt (not_le.mp hc) hv)
    rw [Real.arccos_cos v0 hv'] at total
    exact total

/-- C172, for cameras that are neither level nor upside down: if roll and heading keep away from 0 and 180 degrees by so much that their cosines are not within
`17 u` of ±1, and the pitch is at most 60 degrees, the three angles recovered in float arithmetic from the float matrix are numbers close to the angles it was made
from. -/
theorem C172_recovered_partial (h : L.Good u) (hu : 0 ≤ u) (h1 : u ≤ 1 / 1000) (t1 t2 : Fin 3 → Fin 3 → DotTree) (w p k : ℝ) (hw : -Real.pi < w) (hw' : w ≤ Real.pi)
    (hk : -Real.pi < k) (hk' : k ≤ Real.pi) (hp : |p| ≤ Real.pi / 3) (cw : |Real.cos w| ≤ 1 - 17 * u) (ck : |Real.cos k| ≤ 1 - 17 * u) :
    ∃ w' p' k', solveR L (createMR L t1 t2 w p k "rpy") = (some w', some p', some k') ∧ |w' - w| ≤ Real.pi * (Real.sqrt (17 * u / 2) + u) ∧
      |p' - p| ≤ Real.pi * (Real.sqrt (17 * u / 2) + u) ∧ |k' - k| ≤ Real.pi * (Real.sqrt (17 * u / 2) + u) := by
  have hpi := Real.pi_pos
  have cp : 1 / 2 ≤ Real.cos p := by
    rw [← Real.cos_pi_div_three, ← Real.cos_abs p]
    exact Real.cos_le_cos_of_nonneg_of_le_pi (abs_nonneg p) (by linarith) hp
  have cp0 : 0 < Real.cos p := by linarith
  have u1 : u < 1 := by linarith
  obtain ⟨l1, l2, cc⟩ := cos_recovered h hu (by linarith) p cp
  have eM : createMR L t1 t2 w p k "rpy" = mRpyR L w p k := by simp [createMR]
  have mk : Approx u 3 (L.r (L.cs p * L.cs k)) (Real.cos p * Real.cos k) (Real.cos p * |Real.cos k|) := by
    have := (cs_approx h p).mul h.arith hu (cs_approx h k)
    rwa [abs_of_pos cp0] at this
  have mw : Approx u 3 (L.r (L.cs w * L.cs p)) (Real.cos p * Real.cos w) (Real.cos p * |Real.cos w|) := by
    have := (cs_approx h w).mul h.arith hu (cs_approx h p)
    rw [abs_of_pos cp0] at this
    rw [mul_comm (Real.cos p), mul_comm (Real.cos p)]
    exact this
  obtain ⟨c0, qk⟩ := quotient_near h hu h1 cp (Real.abs_cos_le_one k) cc mk
  obtain ⟨_, qw⟩ := quotient_near h hu h1 cp (Real.abs_cos_le_one w) cc mw
  obtain ⟨k1, k2, kk⟩ := angle_near h hu hk hk' qk ck
  obtain ⟨w1, w2, ww⟩ := angle_near h hu hw hw' qw cw
  have nk : 0 < L.r (L.r (-1 * L.cs p) * L.sn k) ↔ Real.sin k < 0 := by
    rw [neg_mul_pos h hu u1 (h.cos p) (h.sin k)]
    exact ⟨fun hn => by by_contra hc; nlinarith [not_lt.mp hc], fun hn => mul_neg_of_pos_of_neg cp0 hn⟩
  have nw : 0 < L.r (L.r (-1 * L.sn w) * L.cs p) ↔ Real.sin w < 0 := by
    rw [neg_mul_pos h hu u1 (h.sin w) (h.cos p)]
    exact ⟨fun hn => by by_contra hc; nlinarith [not_lt.mp hc], fun hn => mul_neg_of_neg_of_pos hn cp0⟩
  have kb := kk (0 < L.r (L.r (-1 * L.cs p) * L.sn k)) nk
  have wb := ww (0 < L.r (L.r (-1 * L.sn w) * L.cs p)) nw
  refine ⟨_, L.asn (L.sn p), _, ?_, wb, ?_, kb⟩
  · rw [eM]
    have m20 : mRpyR L w p k 2 0 = L.sn p := rfl
    have m00 : mRpyR L w p k 0 0 = L.r (L.cs p * L.cs k) := rfl
    have m22 : mRpyR L w p k 2 2 = L.r (L.cs w * L.cs p) := rfl
    have m21 : mRpyR L w p k 2 1 = L.r (L.r (-1 * L.sn w) * L.cs p) := rfl
    have m10 : mRpyR L w p k 1 0 = L.r (L.r (-1 * L.cs p) * L.sn k) := rfl
    simp only [solveR, m20, m00, m22, m21, m10, asinR, if_pos (And.intro l1 l2), Option.map_some, Option.bind_some, acosR, if_neg c0, if_pos (And.intro k1 k2),
      if_pos (And.intro w1 w2), gt_iff_lt]
    by_cases A : 0 < L.r (L.r (-1 * L.sn w) * L.cs p) <;> by_cases B : 0 < L.r (L.r (-1 * L.cs p) * L.sn k) <;>
      simp only [A, B, if_true, if_false]
  · have a := h.arcsin (L.sn p) l1 l2
    have a0 : |Real.arcsin (L.sn p)| ≤ Real.pi := by
      have b1 := Real.arcsin_le_pi_div_two (L.sn p)
      have b2 := Real.neg_pi_div_two_le_arcsin (L.sn p)
      exact abs_le.mpr ⟨by linarith, by linarith⟩
    have a1 := mul_le_mul_of_nonneg_left a0 hu
    have pp := abs_le.mp hp
    have b := arccos_near l1 l2 (Real.neg_one_le_sin p) (Real.sin_le_one p)
    have e : Real.arcsin (Real.sin p) = p := Real.arcsin_sin (by linarith) (by linarith)
    have f : |Real.arcsin (L.sn p) - p| = |Real.arccos (L.sn p) - Real.arccos (Real.sin p)| := by
      rw [Real.arccos, Real.arccos, e, abs_sub_comm]
      congr 1
      ring
    have g : |L.sn p - Real.sin p| / 2 ≤ 17 * u / 2 := by
      have := h.sin p
      have := mul_le_mul_of_nonneg_left (Real.abs_sin_le_one p) hu
      linarith
    have b2 := mul_le_mul_of_nonneg_left (Real.sqrt_le_sqrt g) hpi.le
    have := abs_sub_le (L.asn (L.sn p)) (Real.arcsin (L.sn p)) p
    nlinarith

/-- C172 in double precision: with roll and heading at least a ten-millionth of a radian off 0 and 180 degrees and a pitch of at most 60 degrees, all three angles
are recovered to a five-millionth of a radian. -/
theorem C172_double_partial (h : L.Good (1 / 2 ^ 52)) (t1 t2 : Fin 3 → Fin 3 → DotTree) (w p k : ℝ) (hw : -Real.pi < w) (hw' : w ≤ Real.pi) (hk : -Real.pi < k)
    (hk' : k ≤ Real.pi) (hp : |p| ≤ Real.pi / 3) (sw : 1 / 10 ^ 7 ≤ |Real.sin w|) (sk : 1 / 10 ^ 7 ≤ |Real.sin k|) :
    ∃ w' p' k', solveR L (createMR L t1 t2 w p k "rpy") = (some w', some p', some k') ∧ |w' - w| ≤ 2 / 10 ^ 7 ∧ |p' - p| ≤ 2 / 10 ^ 7 ∧ |k' - k| ≤ 2 / 10 ^ 7 := by
  have key : ∀ v : ℝ, 1 / 10 ^ 7 ≤ |Real.sin v| → |Real.cos v| ≤ 1 - 17 * (1 / 2 ^ 52) := by
    intro v hv
    have s := Real.sin_sq_add_cos_sq v
    rw [← sq_abs (Real.sin v), ← sq_abs (Real.cos v)] at s
    have h2 : ((1 : ℝ) / 10 ^ 7) ^ 2 ≤ |Real.sin v| ^ 2 := pow_le_pow_left₀ (by positivity) hv 2
    refine abs_le_of_sq_le_sq' ?_ (by norm_num) |>.2
    have e : (1 - ((1 : ℝ) / 10 ^ 7) ^ 2) ≤ (1 - 17 * (1 / 2 ^ 52)) ^ 2 := by norm_num
    nlinarith
  obtain ⟨w', p', k', a, b, c, d⟩ := C172_recovered_partial h (by positivity) (by norm_num) t1 t2 w p k hw hw' hk hk' hp (key w sw) (key k sk)
  have bound : Real.pi * (Real.sqrt (17 * (1 / 2 ^ 52) / 2) + 1 / 2 ^ 52) ≤ 2 / 10 ^ 7 := by
    have h1 : Real.sqrt (17 * (1 / 2 ^ 52) / 2) ≤ 5 / 10 ^ 8 := by
      rw [Real.sqrt_le_left (by positivity)]
      norm_num
    have h2 := Real.pi_lt_d2
    have h3 : (0 : ℝ) ≤ Real.sqrt (17 * (1 / 2 ^ 52) / 2) + 1 / 2 ^ 52 := by positivity
    have := mul_le_mul h2.le (add_le_add_left h1 (1 / 2 ^ 52)) h3 (by norm_num)
    refine this.trans ?_
    norm_num
  exact ⟨w', p', k', a, b.trans bound, c.trans bound, d.trans bound⟩

/-- C172 is false of level cameras: for every accuracy `u`, however fine, and every pitch between 0 and 90 degrees, a library that is good to `u` can make both roll
and heading of a camera with roll 0 and heading 0 NaN. -/
theorem C172_level_false (u : ℝ) (hu : 0 < u) (t1 t2 : Fin 3 → Fin 3 → DotTree) (p : ℝ) (hp : 0 < p) (hp' : p < Real.pi / 2) :
    ∃ L : Lib, L.Good u ∧ (solveR L (createMR L t1 t2 0 p 0 "rpy")).1 = none ∧ (solveR L (createMR L t1 t2 0 p 0 "rpy")).2.2 = none := by
  have hpi := Real.pi_pos
  obtain ⟨δ, hδ⟩ : ∃ δ, δ = min u ((Real.pi / 2 - p) / (2 * p)) := ⟨_, rfl⟩
  have d0 : 0 < δ := by rw [hδ]; exact lt_min hu (div_pos (by linarith) (by linarith))
  have d1 : δ ≤ u := by rw [hδ]; exact min_le_left _ _
  have d2 : p * δ < Real.pi / 2 - p := by
    have : δ ≤ (Real.pi / 2 - p) / (2 * p) := by rw [hδ]; exact min_le_right _ _
    rw [le_div_iff₀ (by linarith)] at this
    nlinarith
  refine ⟨⟨id, Real.sin, Real.cos, fun x => Real.arcsin x * (1 + δ), Real.arccos⟩, ?_, ?_⟩
  · refine ⟨fun x => by simp; positivity, fun x => by simp; positivity, fun x => by simp; positivity, fun x _ _ => ?_, fun x _ _ => by simp; positivity⟩
    have : Real.arcsin x * (1 + δ) - Real.arcsin x = δ * Real.arcsin x := by ring
    simp only [this, abs_mul, abs_of_pos d0]
    exact mul_le_mul_of_nonneg_right d1 (abs_nonneg _)
  · have e : Real.arcsin (Real.sin p) = p := Real.arcsin_sin (by linarith) (by linarith)
    have c1 : 0 < Real.cos (p * (1 + δ)) := Real.cos_pos_of_mem_Ioo ⟨by nlinarith, by nlinarith⟩
    have c2 : Real.cos (p * (1 + δ)) < Real.cos p := Real.cos_lt_cos_of_nonneg_of_le_pi (by linarith) (by nlinarith) (by nlinarith)
    have q : ¬ (-1 ≤ Real.cos p / Real.cos (p * (1 + δ)) ∧ Real.cos p / Real.cos (p * (1 + δ)) ≤ 1) := by
      rintro ⟨-, h2⟩
      rw [div_le_one c1] at h2
      linarith
    constructor
    · simp [solveR, createMR, mRpyR, asinR, acosR, Real.neg_one_le_sin, Real.sin_le_one, e, ne_of_gt c1]
      exact fun h3 => not_le.mp (fun h4 => q ⟨h3, h4⟩)
    · simp [solveR, createMR, mRpyR, asinR, acosR, Real.neg_one_le_sin, Real.sin_le_one, e, ne_of_gt c1]
      exact fun h3 => not_le.mp (fun h4 => q ⟨h3, h4⟩)

end

/-! ### A concrete camera in binary64 -/

/-- The best possible library: every function gives the exact result, rounded to the nearest double. -/
noncomputable def lib64 : Lib :=
  ⟨Rounding.fl 53, fun x => Rounding.fl 53 (Real.sin x), fun x => Rounding.fl 53 (Real.cos x), fun x => Rounding.fl 53 (Real.arcsin x),
    fun x => Rounding.fl 53 (Real.arccos x)⟩

theorem lib64_good : lib64.Good (1 / 2 ^ 53) :=
  ⟨fun x => Rounding.fl_err' 53 x, fun x => Rounding.fl_err' 53 _, fun x => Rounding.fl_err' 53 _, fun x _ _ => Rounding.fl_err' 53 _, fun x _ _ => Rounding.fl_err' 53 _⟩

/-- A number in `[1/2, 1)` within less than half a unit in the last place of a multiple of `2^-53` is rounded to it. -/
theorem fl53 {x : ℝ} (m : ℤ) (v : ℝ) (hv : (m : ℝ) = v) (h1 : 1 / 2 ≤ x) (h2 : x < 1) (h : |x - v / 2 ^ 53| < 1 / 2 ^ 54) : Rounding.fl 53 x = v / 2 ^ 53 := by
  subst hv
  have := Rounding.fl_eq (p := 53) (x := x) (-1) m (by norm_num; linarith) (by norm_num; exact h2) (by
    have e : x * (2 : ℝ) ^ (((53 : ℕ) : ℤ) - 1 - -1) - m = (x - m / 2 ^ 53) * 2 ^ 53 := by
      norm_num
      ring
    rw [e, abs_mul, abs_of_pos (by positivity : (0 : ℝ) < 2 ^ 53)]
    calc _ < (1 / 2 ^ 54 : ℝ) * 2 ^ 53 := mul_lt_mul_of_pos_right h (by positivity)
      _ = 1 / 2 := by norm_num)
  rw [this]
  norm_num
  ring

/-- The pitch of the example, 251/256 radians (about 56 degrees), is a double. -/
noncomputable def pitch64 : ℝ := 251 / 256

theorem sin_pitch : |Real.sin pitch64 - 7482806293271830 / 2 ^ 53| < 1 / 2 ^ 54 := by
  have b := (trig_bounds 10 (by norm_num) pitch64 (by unfold pitch64; norm_num)).2
  have c : |sinSum 10 pitch64 - 7482806293271830 / 2 ^ 53| < 1 / 2 ^ 54 - 1 / 10 ^ 18 := by
    unfold sinSum pitch64
    norm_num [Finset.sum_range_succ, Nat.factorial, abs_lt]
  have d : (2 * (10 : ℕ) + 1 : ℝ) / ((2 * 10).factorial * (2 * (10 : ℕ))) ≤ 1 / 10 ^ 18 := by norm_num [Nat.factorial]
  have := abs_sub_le (Real.sin pitch64) (sinSum 10 pitch64) (7482806293271830 / 2 ^ 53)
  linarith

theorem cos_pitch : |Real.cos pitch64 - 5013706053607270 / 2 ^ 53| < 1 / 2 ^ 54 := by
  have b := (trig_bounds 10 (by norm_num) pitch64 (by unfold pitch64; norm_num)).1
  have c : |cosSum 10 pitch64 - 5013706053607270 / 2 ^ 53| < 1 / 2 ^ 54 - 1 / 10 ^ 18 := by
    unfold cosSum pitch64
    norm_num [Finset.sum_range_succ, Nat.factorial, abs_lt]
  have d : (2 * (10 : ℕ) + 1 : ℝ) / ((2 * 10).factorial * (2 * (10 : ℕ))) ≤ 1 / 10 ^ 18 := by norm_num [Nat.factorial]
  have := abs_sub_le (Real.cos pitch64) (cosSum 10 pitch64) (5013706053607270 / 2 ^ 53)
  linarith

theorem cos_back : |Real.cos (8831277394296833 / 2 ^ 53) - 5013706053607269 / 2 ^ 53| < 1 / 2 ^ 54 := by
  have b := (trig_bounds 10 (by norm_num) (8831277394296833 / 2 ^ 53) (by norm_num [abs_le])).1
  have c : |cosSum 10 (8831277394296833 / 2 ^ 53) - 5013706053607269 / 2 ^ 53| < 1 / 2 ^ 54 - 1 / 10 ^ 18 := by
    unfold cosSum
    norm_num [Finset.sum_range_succ, Nat.factorial, abs_lt]
  have d : (2 * (10 : ℕ) + 1 : ℝ) / ((2 * 10).factorial * (2 * (10 : ℕ))) ≤ 1 / 10 ^ 18 := by norm_num [Nat.factorial]
  have := abs_sub_le (Real.cos (8831277394296833 / 2 ^ 53)) (cosSum 10 (8831277394296833 / 2 ^ 53)) (5013706053607269 / 2 ^ 53)
  linarith

theorem arcsin_back : |Real.arcsin (7482806293271830 / 2 ^ 53) - 8831277394296833 / 2 ^ 53| < 1 / 2 ^ 54 := by
  have d : (2 * (10 : ℕ) + 1 : ℝ) / ((2 * 10).factorial * (2 * (10 : ℕ))) ≤ 1 / 10 ^ 18 := by norm_num [Nat.factorial]
  have lo : Real.sin (8831277394296833 / 2 ^ 53 - 1 / 2 ^ 54) < 7482806293271830 / 2 ^ 53 := by
    have b := (trig_bounds 10 (by norm_num) (8831277394296833 / 2 ^ 53 - 1 / 2 ^ 54) (by norm_num [abs_le])).2
    have c : sinSum 10 (8831277394296833 / 2 ^ 53 - 1 / 2 ^ 54) < 7482806293271830 / 2 ^ 53 - 1 / 10 ^ 18 := by
      unfold sinSum
      norm_num [Finset.sum_range_succ, Nat.factorial]
    have := (abs_le.mp (b.trans d)).2
    linarith
  have hi : 7482806293271830 / 2 ^ 53 < Real.sin (8831277394296833 / 2 ^ 53 + 1 / 2 ^ 54) := by
    have b := (trig_bounds 10 (by norm_num) (8831277394296833 / 2 ^ 53 + 1 / 2 ^ 54) (by norm_num [abs_le])).2
    have c : 7482806293271830 / 2 ^ 53 + 1 / 10 ^ 18 < sinSum 10 (8831277394296833 / 2 ^ 53 + 1 / 2 ^ 54) := by
      unfold sinSum
      norm_num [Finset.sum_range_succ, Nat.factorial]
    have := (abs_le.mp (b.trans d)).1
    linarith
  have hpi := Real.pi_gt_three
  rw [abs_lt]
  constructor
  · have := (Real.lt_arcsin_iff_sin_lt (x := 8831277394296833 / 2 ^ 53 - 1 / 2 ^ 54) (y := 7482806293271830 / 2 ^ 53)
      ⟨by norm_num; linarith, by norm_num; linarith⟩ ⟨by norm_num, by norm_num⟩).mpr lo
    linarith
  · have := (Real.arcsin_lt_iff_lt_sin (x := 7482806293271830 / 2 ^ 53) (y := 8831277394296833 / 2 ^ 53 + 1 / 2 ^ 54)
      ⟨by norm_num, by norm_num⟩ ⟨by norm_num; linarith, by norm_num; linarith⟩).mpr hi
    linarith

/-- C172 is false of binary64 with perfectly rounded functions: a camera with a pitch of 251/256 radians and roll and heading 0, or off
0 by up to 1e-8 radians (what the camera simulator adds to avoid this), has NaN for both recovered roll and heading. -/
theorem C172_binary64_false (t1 t2 : Fin 3 → Fin 3 → DotTree) (w k : ℝ) (hw : |w| ≤ 1 / 10 ^ 8) (hk : |k| ≤ 1 / 10 ^ 8) :
    (solveR lib64 (createMR lib64 t1 t2 w pitch64 k "rpy")).1 = none ∧ (solveR lib64 (createMR lib64 t1 t2 w pitch64 k "rpy")).2.2 = none := by
  have one : Rounding.fl 53 (1 : ℝ) = 1 := by
    have := Rounding.fl_exact (K := ℝ) (p := 53) (by norm_num) 1 0 (by norm_num)
    simpa using this
  have s1 : Rounding.fl 53 (Real.sin pitch64) = 7482806293271830 / 2 ^ 53 := by
    have b := abs_lt.mp sin_pitch
    exact fl53 (x := Real.sin pitch64) 7482806293271830 7482806293271830 (by norm_num) (by norm_num at b ⊢; linarith) (by norm_num at b ⊢; linarith) sin_pitch
  have c1 : Rounding.fl 53 (Real.cos pitch64) = 5013706053607270 / 2 ^ 53 := by
    have b := abs_lt.mp cos_pitch
    exact fl53 (x := Real.cos pitch64) 5013706053607270 5013706053607270 (by norm_num) (by norm_num at b ⊢; linarith) (by norm_num at b ⊢; linarith) cos_pitch
  have a1 : Rounding.fl 53 (Real.arcsin (7482806293271830 / 2 ^ 53)) = 8831277394296833 / 2 ^ 53 := by
    have b := abs_lt.mp arcsin_back
    exact fl53 (x := Real.arcsin (7482806293271830 / 2 ^ 53)) 8831277394296833 8831277394296833 (by norm_num) (by norm_num at b ⊢; linarith) (by norm_num at b ⊢; linarith) arcsin_back
  have c2 : Rounding.fl 53 (Real.cos (8831277394296833 / 2 ^ 53)) = 5013706053607269 / 2 ^ 53 := by
    have b := abs_lt.mp cos_back
    exact fl53 (x := Real.cos (8831277394296833 / 2 ^ 53)) 5013706053607269 5013706053607269 (by norm_num) (by norm_num at b ⊢; linarith) (by norm_num at b ⊢; linarith) cos_back
  have m1 : Rounding.fl 53 ((5013706053607270 : ℝ) / 2 ^ 53) = 5013706053607270 / 2 ^ 53 := by
    rw [← c1]
    exact Rounding.fl_of_isFloat (by norm_num) (Rounding.isFloat_fl (by norm_num) _)
  have q : Rounding.fl 53 ((5013706053607270 : ℝ) / 2 ^ 53 / (5013706053607269 / 2 ^ 53)) = (4503599627370497 : ℤ) * (2 : ℝ) ^ ((0 : ℤ) - (((53 : ℕ) : ℤ) - 1)) :=
    Rounding.fl_eq 0 4503599627370497 (by norm_num) (by norm_num) (by norm_num [abs_lt])
  have q1 : ¬ (-1 ≤ Rounding.fl 53 ((5013706053607270 : ℝ) / 2 ^ 53 / (5013706053607269 / 2 ^ 53)) ∧
      Rounding.fl 53 ((5013706053607270 : ℝ) / 2 ^ 53 / (5013706053607269 / 2 ^ 53)) ≤ 1) := by
    rw [q]
    norm_num
  have phi : asinR lib64 (lib64.sn pitch64) = some (8831277394296833 / 2 ^ 53) := by
    have : lib64.sn pitch64 = 7482806293271830 / 2 ^ 53 := s1
    rw [this]
    unfold asinR
    rw [if_pos (by norm_num)]
    exact congrArg some a1
  have cc : lib64.cs (8831277394296833 / 2 ^ 53) = 5013706053607269 / 2 ^ 53 := c2
  have c0 : ∀ v : ℝ, |v| ≤ 1 / 10 ^ 8 → lib64.cs v = 1 := by
    intro v hv
    show Rounding.fl 53 (Real.cos v) = 1
    have g1 := Real.one_sub_sq_div_two_le_cos (x := v)
    have g2 : v ^ 2 ≤ (1 / 10 ^ 8) ^ 2 := by
      rw [← sq_abs]
      exact pow_le_pow_left₀ (abs_nonneg v) hv 2
    rcases eq_or_lt_of_le (Real.cos_le_one v) with e | e
    · rw [e, one]
    · have l : 1 - 1 / 2 ^ 54 < Real.cos v := by
        have : (1 : ℝ) - 1 / 2 ^ 54 < 1 - (1 / 10 ^ 8) ^ 2 / 2 := by norm_num
        linarith
      have := fl53 (x := Real.cos v) 9007199254740992 9007199254740992 (by norm_num) (by norm_num at l ⊢; linarith) e (by
        rw [abs_lt]
        norm_num at l ⊢
        constructor <;> linarith)
      rw [this]
      norm_num
  have cp : lib64.cs pitch64 = 5013706053607270 / 2 ^ 53 := c1
  have key : acosR lib64 (5013706053607270 / 2 ^ 53) (5013706053607269 / 2 ^ 53) = none := by
    unfold acosR
    rw [if_neg (by norm_num)]
    exact if_neg q1
  have m : lib64.r (5013706053607270 / 2 ^ 53) = 5013706053607270 / 2 ^ 53 := m1
  have eM : createMR lib64 t1 t2 w pitch64 k "rpy" = mRpyR lib64 w pitch64 k := by simp [createMR]
  rw [eM]
  have m20 : mRpyR lib64 w pitch64 k 2 0 = lib64.sn pitch64 := rfl
  have m00 : mRpyR lib64 w pitch64 k 0 0 = 5013706053607270 / 2 ^ 53 := by
    show lib64.r (lib64.cs pitch64 * lib64.cs k) = _
    rw [c0 k hk, cp, mul_one, m]
  have m22 : mRpyR lib64 w pitch64 k 2 2 = 5013706053607270 / 2 ^ 53 := by
    show lib64.r (lib64.cs w * lib64.cs pitch64) = _
    rw [c0 w hw, cp, one_mul, m]
  simp only [solveR, m20, m00, m22, phi, Option.map_some, Option.bind_some, cc, key, Option.map_none, ite_self, and_self]

/-- Non-vacuity of C170-C172: the best possible library is good to the last bit, a camera 1000 m above the ground looking straight down sees a point 100 m east and
50 m north, and quarter turns of roll and heading are well away from 0 and 180 degrees. -/
example : lib64.Good (1 / 2 ^ 52) ∧ (∃ t : Fin 3 → Fin 3 → DotTree, ∀ i j, (t i j).Covers 3) ∧
    Camera.camFrame (Rotation.createM 0 0 0 "rpy") ![0, 0, 1000] ![100, 50, 0] = ![100, 50, -1000] ∧
    dist1 ![0, 0, 1000] ![100, 50, 0] ≤ 10 * |(-1000 : ℝ)| ∧ 1 / 10 ^ 7 ≤ |Real.sin (Real.pi / 2)| := by
  refine ⟨?_, ⟨fun _ _ => .fma 1 (.add (.mul 0) (.mul 2)), fun _ _ => (by decide : ([1, 0, 2] : List Nat).Perm (List.range 3))⟩, ?_, ?_, by norm_num⟩
  · have g := lib64_good
    have w : ∀ x : ℝ, (1 / 2 ^ 53 : ℝ) * |x| ≤ 1 / 2 ^ 52 * |x| := fun x => mul_le_mul_of_nonneg_right (by norm_num) (abs_nonneg x)
    exact ⟨fun x => (g.arith x).trans (w _), fun x => (g.sin x).trans (w _), fun x => (g.cos x).trans (w _), fun x a b => (g.arcsin x a b).trans (w _),
      fun x a b => (g.arccos x a b).trans (w _)⟩
  · have e : Rotation.createM 0 0 0 "rpy" = 1 := by
      simp only [Rotation.createM, if_true]
      ext i j
      fin_cases i <;> fin_cases j <;> simp [Rotation.mRpy]
    rw [e]
    simp only [Camera.camFrame, Matrix.one_mulVec]
    ext i
    fin_cases i <;> simp
  · simp [dist1]
    norm_num

end Verif.FloatGeom
