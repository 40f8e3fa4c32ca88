import Verif.Props.SolverSpec
import Verif.Props.FloatGeom

/-! C205: the pixel of a ground position in an RPC image, in IEEE double precision with its exponent range: no overflow, no division by zero, and the effect of subnormal numbers. -/

set_option linter.unusedSectionVars false

namespace Verif.SolverIeee
open Verif Ieee FloatGeom

section
variable {K : Type} [Field K] [LinearOrder K] [IsStrictOrderedRing K]

/-- Rounding with a relative error `u`, as if at least of size `t`. -/
def Slack (r : K → K) (u t : K) : Prop := ∀ x, |r x - x| ≤ u * |x| + u * t

theorem Approx.roundS {r : K → K} {u t x' x s : K} {k : ℕ} (hr : Slack r u t) (hu : 0 ≤ u) (h : Approx u k x' x s) (hs : t ≤ s) : Approx u (k + 2) (r x') x s := by
  refine ⟨?_, h.size⟩
  have h1 := hr x'
  have h2 := h.err
  have h3 := h.size'
  have h4 := abs_sub_le (r x') x' x
  have h5 := mul_le_mul_of_nonneg_left h3 hu
  have h6 := mul_le_mul_of_nonneg_left hs hu
  have g := one_le_growth hu k
  have s0 := h.nonneg
  have e : ((1 + u) ^ (k + 2) - 1) * s = ((1 + u) ^ k - 1) * s + u * ((1 + u) ^ k * s) + u * s + (u * ((1 + u) ^ k - 1) * s + u ^ 2 * (1 + u) ^ k * s) := by ring
  have p1 : 0 ≤ u * ((1 + u) ^ k - 1) * s := mul_nonneg (mul_nonneg hu (by linarith)) s0
  have p2 : 0 ≤ u ^ 2 * (1 + u) ^ k * s := by positivity
  rw [e]
  linarith

theorem _root_.Verif.FloatGeom.Approx.mulS {r : K → K} {u t x' x s y' y : K} {k l : ℕ} (hx : Approx u k x' x s) (hr : Slack r u t) (hu : 0 ≤ u) (hs : t ≤ s) (hy : Approx u l y' y 1) :
    Approx u (k + l + 2) (r (x' * y')) (x * y) s := by
  have := hx.mul' hu hy
  rw [mul_one] at this
  exact Approx.roundS hr hu this hs

theorem _root_.Verif.FloatGeom.Approx.addS {r : K → K} {u t x' x s y' y s' : K} {k l : ℕ} (hx : Approx u k x' x s) (hr : Slack r u t) (hu : 0 ≤ u) (hs : t ≤ s) (hy : Approx u l y' y s')
    (h0 : 0 ≤ s') : Approx u (max k l + 2) (r (x' + y')) (x + y) (s + s') :=
  Approx.roundS hr hu ((hx.weaken hu (le_max_left k l)).add' (hy.weaken hu (le_max_right k l))) (by linarith)

/-- Specification: the sum of the sizes of the twenty coefficients. -/
def coefSize (a : Nat → K) : K := ∑ i ∈ Finset.range 20, a i

theorem polyS {r : K → K} {u t : K} (hr : Slack r u t) (hu : 0 ≤ u) (a A : Nat → K) (ha : ∀ i < 20, |a i| ≤ A i) (hA : ∀ i < 20, t ≤ A i) (h0 : ∀ i < 20, 0 ≤ A i) (h1 : t ≤ 1)
    {x' x y' y z' z : K} (hx : Approx u 4 x' x 1) (hy : Approx u 4 y' y 1) (hz : Approx u 4 z' z 1) :
    Approx u 44 (computePR r a x' y' z') (Geotiff.computeP a x y z) (coefSize A) := by
  have A := fun (i : Nat) (hi : i < 20) => (show Approx u 0 (a i) (a i) (A i) from ⟨by simp, ha i hi⟩)
  have xx := hx.mulS hr hu h1 hx
  have yy := hy.mulS hr hu h1 hy
  have zz := hz.mulS hr hu h1 hz
  have xxx := xx.mulS hr hu h1 hx
  have yyy := yy.mulS hr hu h1 hy
  have zzz := zz.mulS hr hu h1 hz
  have xy := hx.mulS hr hu h1 hy
  have xz := hx.mulS hr hu h1 hz
  have yz := hy.mulS hr hu h1 hz
  have s0 := A 0 (by norm_num)
  have q0 := hA 0 (by norm_num)
  have s1 := s0.addS hr hu q0 ((A 1 (by norm_num)).mulS hr hu (hA 1 (by norm_num)) hy) (h0 1 (by norm_num))
  have q1 := q0.trans (le_add_of_nonneg_right (h0 1 (by norm_num)))
  have s2 := s1.addS hr hu q1 ((A 2 (by norm_num)).mulS hr hu (hA 2 (by norm_num)) hx) (h0 2 (by norm_num))
  have q2 := q1.trans (le_add_of_nonneg_right (h0 2 (by norm_num)))
  have s3 := s2.addS hr hu q2 ((A 3 (by norm_num)).mulS hr hu (hA 3 (by norm_num)) hz) (h0 3 (by norm_num))
  have q3 := q2.trans (le_add_of_nonneg_right (h0 3 (by norm_num)))
  have s4 := s3.addS hr hu q3 ((A 4 (by norm_num)).mulS hr hu (hA 4 (by norm_num)) xy) (h0 4 (by norm_num))
  have q4 := q3.trans (le_add_of_nonneg_right (h0 4 (by norm_num)))
  have s5 := s4.addS hr hu q4 ((A 5 (by norm_num)).mulS hr hu (hA 5 (by norm_num)) yz) (h0 5 (by norm_num))
  have q5 := q4.trans (le_add_of_nonneg_right (h0 5 (by norm_num)))
  have s6 := s5.addS hr hu q5 ((A 6 (by norm_num)).mulS hr hu (hA 6 (by norm_num)) xz) (h0 6 (by norm_num))
  have q6 := q5.trans (le_add_of_nonneg_right (h0 6 (by norm_num)))
  have s7 := s6.addS hr hu q6 ((A 7 (by norm_num)).mulS hr hu (hA 7 (by norm_num)) yy) (h0 7 (by norm_num))
  have q7 := q6.trans (le_add_of_nonneg_right (h0 7 (by norm_num)))
  have s8 := s7.addS hr hu q7 ((A 8 (by norm_num)).mulS hr hu (hA 8 (by norm_num)) xx) (h0 8 (by norm_num))
  have q8 := q7.trans (le_add_of_nonneg_right (h0 8 (by norm_num)))
  have s9 := s8.addS hr hu q8 ((A 9 (by norm_num)).mulS hr hu (hA 9 (by norm_num)) zz) (h0 9 (by norm_num))
  have q9 := q8.trans (le_add_of_nonneg_right (h0 9 (by norm_num)))
  have s10 := s9.addS hr hu q9 ((((A 10 (by norm_num)).mulS hr hu (hA 10 (by norm_num)) hx).mulS hr hu (hA 10 (by norm_num)) hy).mulS hr hu (hA 10 (by norm_num)) hz) (h0 10 (by norm_num))
  have q10 := q9.trans (le_add_of_nonneg_right (h0 10 (by norm_num)))
  have s11 := s10.addS hr hu q10 ((A 11 (by norm_num)).mulS hr hu (hA 11 (by norm_num)) yyy) (h0 11 (by norm_num))
  have q11 := q10.trans (le_add_of_nonneg_right (h0 11 (by norm_num)))
  have s12 := s11.addS hr hu q11 (((A 12 (by norm_num)).mulS hr hu (hA 12 (by norm_num)) hy).mulS hr hu (hA 12 (by norm_num)) xx) (h0 12 (by norm_num))
  have q12 := q11.trans (le_add_of_nonneg_right (h0 12 (by norm_num)))
  have s13 := s12.addS hr hu q12 (((A 13 (by norm_num)).mulS hr hu (hA 13 (by norm_num)) hy).mulS hr hu (hA 13 (by norm_num)) zz) (h0 13 (by norm_num))
  have q13 := q12.trans (le_add_of_nonneg_right (h0 13 (by norm_num)))
  have s14 := s13.addS hr hu q13 (((A 14 (by norm_num)).mulS hr hu (hA 14 (by norm_num)) yy).mulS hr hu (hA 14 (by norm_num)) hx) (h0 14 (by norm_num))
  have q14 := q13.trans (le_add_of_nonneg_right (h0 14 (by norm_num)))
  have s15 := s14.addS hr hu q14 ((A 15 (by norm_num)).mulS hr hu (hA 15 (by norm_num)) xxx) (h0 15 (by norm_num))
  have q15 := q14.trans (le_add_of_nonneg_right (h0 15 (by norm_num)))
  have s16 := s15.addS hr hu q15 (((A 16 (by norm_num)).mulS hr hu (hA 16 (by norm_num)) hx).mulS hr hu (hA 16 (by norm_num)) zz) (h0 16 (by norm_num))
  have q16 := q15.trans (le_add_of_nonneg_right (h0 16 (by norm_num)))
  have s17 := s16.addS hr hu q16 (((A 17 (by norm_num)).mulS hr hu (hA 17 (by norm_num)) yy).mulS hr hu (hA 17 (by norm_num)) hz) (h0 17 (by norm_num))
  have q17 := q16.trans (le_add_of_nonneg_right (h0 17 (by norm_num)))
  have s18 := s17.addS hr hu q17 (((A 18 (by norm_num)).mulS hr hu (hA 18 (by norm_num)) xx).mulS hr hu (hA 18 (by norm_num)) hy) (h0 18 (by norm_num))
  have q18 := q17.trans (le_add_of_nonneg_right (h0 18 (by norm_num)))
  have s19 := s18.addS hr hu q18 ((A 19 (by norm_num)).mulS hr hu (hA 19 (by norm_num)) zzz) (h0 19 (by norm_num))
  have q19 := q18.trans (le_add_of_nonneg_right (h0 19 (by norm_num)))
  have := s19.weaken hu (by decide : _ ≤ 44)
  simp only [coefSize, Finset.sum_range_succ, Finset.sum_range_zero, zero_add]
  exact this

theorem normalS {r : K → K} {u t v w s : K} (hr : Slack r u t) (hu : 0 ≤ u) (hs : t ≤ |s|) (h1 : t ≤ 1) (h0 : s ≠ 0) (h : |(v - w) / s| ≤ 1) :
    Approx u 4 (r (r (v - w) / s)) ((v - w) / s) 1 := by
  have hp : 0 < |s| := abs_pos.mpr h0
  have h2 : |v - w| ≤ |s| := by rw [abs_div, div_le_one hp] at h; exact h
  have a0 : Approx u 0 (v - w) (v - w) |s| := ⟨by simp, h2⟩
  have a1 := (Approx.roundS hr hu a0 hs).div' s
  rw [div_self hp.ne'] at a1
  exact Approx.roundS hr hu a1 h1

/-- The last stage: quotient, scale, offset, half a pixel. -/
theorem lastS {r : K → K} {t n' n d' d S O : K} (hr : Slack r (1 / 2 ^ 53) t) (ht : t ≤ 1 / 2) (hn : Approx (1 / 2 ^ 53) 44 n' n 2) (hd : Approx (1 / 2 ^ 53) 44 d' d 2)
    (hd2 : 1 / 2 ≤ |d|) (hS : |S| ≤ 2 ^ 17) (hO : |O| ≤ 2 ^ 17) :
    1 / 4 ≤ |d'| ∧ |r (r (r (r (n' / d') * S) + O) + 1 / 2) - (n / d * S + O + 1 / 2)| ≤ 2 / 10 ^ 8 := by
  have hu : (0 : K) ≤ 1 / 2 ^ 53 := by positivity
  have hE : ((1 + 1 / 2 ^ 53 : K)) ^ 44 - 1 ≤ 45 / 2 ^ 53 := by norm_num
  have hE0 : (0 : K) ≤ ((1 + 1 / 2 ^ 53 : K)) ^ 44 - 1 := by have := one_le_growth hu 44; linarith
  have en := hn.err
  have ed := hd.err
  generalize ((1 + 1 / 2 ^ 53 : K)) ^ 44 - 1 = E at *
  have hE1 : E ≤ 1 / 2 ^ 40 := hE.trans (by norm_num)
  have hE2 : E * 2 ≤ 1 / 4 := by
    have : (1 : K) / 2 ^ 40 * 2 ≤ 1 / 4 := by norm_num
    linarith
  have q4 : |n / d| ≤ 4 := by
    rw [abs_div, div_le_iff₀ (by linarith)]
    have := hn.size
    linarith
  obtain ⟨-, hq⟩ := quotient_err en ed (by linarith)
  have hd' : 1 / 4 ≤ |d'| := by
    have := abs_sub_abs_le_abs_sub d d'
    rw [abs_sub_comm] at this
    linarith
  refine ⟨hd', ?_⟩
  have hb : (E * 2 + |n / d| * (E * 2)) / (|d| - E * 2) ≤ (45 / 2 ^ 53 * 2 + 4 * (45 / 2 ^ 53 * 2)) / (1 / 2 - 1 / 2 ^ 40 * 2) := by
    refine div_le_div₀ (by positivity) ?_ (by norm_num) (by linarith)
    have := mul_le_mul q4 (show E * 2 ≤ 45 / 2 ^ 53 * 2 by linarith) (by linarith) (by norm_num)
    linarith
  have ht0 : t ≤ 1 := ht.trans (by norm_num)
  have a0 : Approx (1 / 2 ^ 53) 240 (n' / d') (n / d) 4 := by
    refine ⟨hq.trans (hb.trans ?_), q4⟩
    norm_num
  have a1 := Approx.roundS hr hu a0 (by linarith)
  have aS : Approx (1 / 2 ^ 53) 0 S S (2 ^ 17) := ⟨by simp, hS⟩
  have aO : Approx (1 / 2 ^ 53) 0 O O (2 ^ 17) := ⟨by simp, hO⟩
  have aH : Approx (1 / 2 ^ 53) 0 (1 / 2 : K) (1 / 2) (1 / 2) := ⟨by simp, by rw [abs_of_nonneg (by norm_num)]⟩
  have a2 := Approx.roundS hr hu (a1.mul' hu aS) (by linarith)
  have a3 := a2.addS hr hu (by linarith) aO (by positivity)
  have a4 := a3.addS hr hu (by linarith) aH (by positivity)
  have a5 := (a4.weaken hu (by decide : _ ≤ 248)).err
  refine a5.trans ?_
  norm_num

variable [FloorRing K]

theorem slack64 : Slack (roundNum binary64 : K → K) (1 / 2 ^ 53) (2 ^ (-1022 : ℤ)) := by
  intro x
  have h := roundNum_err (K := K) binary64 x
  have e : (2 : K) ^ (binary64.quantum) / 2 = 1 / 2 ^ 53 * 2 ^ (-1022 : ℤ) := by
    have e1 : (1 : K) / 2 ^ 53 = 2 ^ (-53 : ℤ) := by norm_num
    have e2 : (2 : K) ^ (binary64.quantum) / 2 = 2 ^ (binary64.quantum - 1) := by rw [zpow_sub_one₀ (by norm_num), div_eq_mul_inv]
    rw [e1, e2, ← zpow_add₀ (by norm_num)]
    rfl
  rw [e] at h
  exact h

theorem wk {x : K} {e e' : ℤ} (h : |x| ≤ 2 ^ e) (hee : e ≤ e') : |x| ≤ 2 ^ e' := h.trans (zpow_le_zpow_right₀ (by norm_num) hee)

/-- The polynomial of moderate coefficients and coordinates does not overflow: its value is that of the rounded polynomial. -/
theorem poly_value (a : Nat → Num K) (a' : Nat → K) (va : ∀ i < 20, (a i).val = some (a' i)) (ha : ∀ i < 20, |a' i| ≤ 2 ^ (1 : ℤ)) {x y z : Num K} {x' y' z' : K}
    (vx : x.val = some x') (vy : y.val = some y') (vz : z.val = some z') (hx : |x'| ≤ 2 ^ (1 : ℤ)) (hy : |y'| ≤ 2 ^ (1 : ℤ)) (hz : |z'| ≤ 2 ^ (1 : ℤ)) :
    (computePI binary64 a x y z).val = some (computePR (roundNum binary64) a' x' y' z') ∧ |computePR (roundNum binary64) a' x' y' z'| ≤ 2 ^ (30 : ℤ) := by
  obtain ⟨xx, bxx⟩ := mul_value vx vx hx hx (by norm_num) (by norm_num)
  obtain ⟨yy, byy⟩ := mul_value vy vy hy hy (by norm_num) (by norm_num)
  obtain ⟨zz, bzz⟩ := mul_value vz vz hz hz (by norm_num) (by norm_num)
  obtain ⟨xxx, bxxx⟩ := mul_value xx vx bxx hx (by norm_num) (by norm_num)
  obtain ⟨yyy, byyy⟩ := mul_value yy vy byy hy (by norm_num) (by norm_num)
  obtain ⟨zzz, bzzz⟩ := mul_value zz vz bzz hz (by norm_num) (by norm_num)
  obtain ⟨xy, bxy⟩ := mul_value vx vy hx hy (by norm_num) (by norm_num)
  obtain ⟨xz, bxz⟩ := mul_value vx vz hx hz (by norm_num) (by norm_num)
  obtain ⟨yz, byz⟩ := mul_value vy vz hy hz (by norm_num) (by norm_num)
  obtain ⟨t1_0, bt1_0⟩ := mul_value (va 1 (by norm_num)) vy (ha 1 (by norm_num)) hy (by norm_num) (by norm_num)
  obtain ⟨s1, bs1⟩ := add_value (e := 4) (va 0 (by norm_num)) t1_0 (wk (ha 0 (by norm_num)) (by norm_num)) (wk bt1_0 (by norm_num)) (by norm_num) (by norm_num)
  obtain ⟨t2_0, bt2_0⟩ := mul_value (va 2 (by norm_num)) vx (ha 2 (by norm_num)) hx (by norm_num) (by norm_num)
  obtain ⟨s2, bs2⟩ := add_value (e := 5) s1 t2_0 (wk bs1 (by norm_num)) (wk bt2_0 (by norm_num)) (by norm_num) (by norm_num)
  obtain ⟨t3_0, bt3_0⟩ := mul_value (va 3 (by norm_num)) vz (ha 3 (by norm_num)) hz (by norm_num) (by norm_num)
  obtain ⟨s3, bs3⟩ := add_value (e := 6) s2 t3_0 (wk bs2 (by norm_num)) (wk bt3_0 (by norm_num)) (by norm_num) (by norm_num)
  obtain ⟨t4_0, bt4_0⟩ := mul_value (va 4 (by norm_num)) xy (ha 4 (by norm_num)) bxy (by norm_num) (by norm_num)
  obtain ⟨s4, bs4⟩ := add_value (e := 7) s3 t4_0 (wk bs3 (by norm_num)) (wk bt4_0 (by norm_num)) (by norm_num) (by norm_num)
  obtain ⟨t5_0, bt5_0⟩ := mul_value (va 5 (by norm_num)) yz (ha 5 (by norm_num)) byz (by norm_num) (by norm_num)
  obtain ⟨s5, bs5⟩ := add_value (e := 8) s4 t5_0 (wk bs4 (by norm_num)) (wk bt5_0 (by norm_num)) (by norm_num) (by norm_num)
  obtain ⟨t6_0, bt6_0⟩ := mul_value (va 6 (by norm_num)) xz (ha 6 (by norm_num)) bxz (by norm_num) (by norm_num)
  obtain ⟨s6, bs6⟩ := add_value (e := 9) s5 t6_0 (wk bs5 (by norm_num)) (wk bt6_0 (by norm_num)) (by norm_num) (by norm_num)
  obtain ⟨t7_0, bt7_0⟩ := mul_value (va 7 (by norm_num)) yy (ha 7 (by norm_num)) byy (by norm_num) (by norm_num)
  obtain ⟨s7, bs7⟩ := add_value (e := 10) s6 t7_0 (wk bs6 (by norm_num)) (wk bt7_0 (by norm_num)) (by norm_num) (by norm_num)
  obtain ⟨t8_0, bt8_0⟩ := mul_value (va 8 (by norm_num)) xx (ha 8 (by norm_num)) bxx (by norm_num) (by norm_num)
  obtain ⟨s8, bs8⟩ := add_value (e := 11) s7 t8_0 (wk bs7 (by norm_num)) (wk bt8_0 (by norm_num)) (by norm_num) (by norm_num)
  obtain ⟨t9_0, bt9_0⟩ := mul_value (va 9 (by norm_num)) zz (ha 9 (by norm_num)) bzz (by norm_num) (by norm_num)
  obtain ⟨s9, bs9⟩ := add_value (e := 12) s8 t9_0 (wk bs8 (by norm_num)) (wk bt9_0 (by norm_num)) (by norm_num) (by norm_num)
  obtain ⟨t10_0, bt10_0⟩ := mul_value (va 10 (by norm_num)) vx (ha 10 (by norm_num)) hx (by norm_num) (by norm_num)
  obtain ⟨t10_1, bt10_1⟩ := mul_value t10_0 vy bt10_0 hy (by norm_num) (by norm_num)
  obtain ⟨t10_2, bt10_2⟩ := mul_value t10_1 vz bt10_1 hz (by norm_num) (by norm_num)
  obtain ⟨s10, bs10⟩ := add_value (e := 13) s9 t10_2 (wk bs9 (by norm_num)) (wk bt10_2 (by norm_num)) (by norm_num) (by norm_num)
  obtain ⟨t11_0, bt11_0⟩ := mul_value (va 11 (by norm_num)) yyy (ha 11 (by norm_num)) byyy (by norm_num) (by norm_num)
  obtain ⟨s11, bs11⟩ := add_value (e := 14) s10 t11_0 (wk bs10 (by norm_num)) (wk bt11_0 (by norm_num)) (by norm_num) (by norm_num)
  obtain ⟨t12_0, bt12_0⟩ := mul_value (va 12 (by norm_num)) vy (ha 12 (by norm_num)) hy (by norm_num) (by norm_num)
  obtain ⟨t12_1, bt12_1⟩ := mul_value t12_0 xx bt12_0 bxx (by norm_num) (by norm_num)
  obtain ⟨s12, bs12⟩ := add_value (e := 15) s11 t12_1 (wk bs11 (by norm_num)) (wk bt12_1 (by norm_num)) (by norm_num) (by norm_num)
  obtain ⟨t13_0, bt13_0⟩ := mul_value (va 13 (by norm_num)) vy (ha 13 (by norm_num)) hy (by norm_num) (by norm_num)
  obtain ⟨t13_1, bt13_1⟩ := mul_value t13_0 zz bt13_0 bzz (by norm_num) (by norm_num)
  obtain ⟨s13, bs13⟩ := add_value (e := 16) s12 t13_1 (wk bs12 (by norm_num)) (wk bt13_1 (by norm_num)) (by norm_num) (by norm_num)
  obtain ⟨t14_0, bt14_0⟩ := mul_value (va 14 (by norm_num)) yy (ha 14 (by norm_num)) byy (by norm_num) (by norm_num)
  obtain ⟨t14_1, bt14_1⟩ := mul_value t14_0 vx bt14_0 hx (by norm_num) (by norm_num)
  obtain ⟨s14, bs14⟩ := add_value (e := 17) s13 t14_1 (wk bs13 (by norm_num)) (wk bt14_1 (by norm_num)) (by norm_num) (by norm_num)
  obtain ⟨t15_0, bt15_0⟩ := mul_value (va 15 (by norm_num)) xxx (ha 15 (by norm_num)) bxxx (by norm_num) (by norm_num)
  obtain ⟨s15, bs15⟩ := add_value (e := 18) s14 t15_0 (wk bs14 (by norm_num)) (wk bt15_0 (by norm_num)) (by norm_num) (by norm_num)
  obtain ⟨t16_0, bt16_0⟩ := mul_value (va 16 (by norm_num)) vx (ha 16 (by norm_num)) hx (by norm_num) (by norm_num)
  obtain ⟨t16_1, bt16_1⟩ := mul_value t16_0 zz bt16_0 bzz (by norm_num) (by norm_num)
  obtain ⟨s16, bs16⟩ := add_value (e := 19) s15 t16_1 (wk bs15 (by norm_num)) (wk bt16_1 (by norm_num)) (by norm_num) (by norm_num)
  obtain ⟨t17_0, bt17_0⟩ := mul_value (va 17 (by norm_num)) yy (ha 17 (by norm_num)) byy (by norm_num) (by norm_num)
  obtain ⟨t17_1, bt17_1⟩ := mul_value t17_0 vz bt17_0 hz (by norm_num) (by norm_num)
  obtain ⟨s17, bs17⟩ := add_value (e := 20) s16 t17_1 (wk bs16 (by norm_num)) (wk bt17_1 (by norm_num)) (by norm_num) (by norm_num)
  obtain ⟨t18_0, bt18_0⟩ := mul_value (va 18 (by norm_num)) xx (ha 18 (by norm_num)) bxx (by norm_num) (by norm_num)
  obtain ⟨t18_1, bt18_1⟩ := mul_value t18_0 vy bt18_0 hy (by norm_num) (by norm_num)
  obtain ⟨s18, bs18⟩ := add_value (e := 21) s17 t18_1 (wk bs17 (by norm_num)) (wk bt18_1 (by norm_num)) (by norm_num) (by norm_num)
  obtain ⟨t19_0, bt19_0⟩ := mul_value (va 19 (by norm_num)) zzz (ha 19 (by norm_num)) bzzz (by norm_num) (by norm_num)
  obtain ⟨s19, bs19⟩ := add_value (e := 22) s18 t19_0 (wk bs18 (by norm_num)) (wk bt19_0 (by norm_num)) (by norm_num) (by norm_num)
  exact ⟨s19, wk bs19 (by norm_num)⟩

/-- Specification: the RPC whose parameters are the values of the floats in `c`. -/
structure Stores (c : Geotiff.Rpc (Num K)) (v : Geotiff.Rpc K) : Prop where
  sampNum : ∀ i < 20, (c.sampNum i).val = some (v.sampNum i)
  sampDen : ∀ i < 20, (c.sampDen i).val = some (v.sampDen i)
  lineNum : ∀ i < 20, (c.lineNum i).val = some (v.lineNum i)
  lineDen : ∀ i < 20, (c.lineDen i).val = some (v.lineDen i)
  sampScale : c.sampScale.val = some v.sampScale
  sampOff : c.sampOff.val = some v.sampOff
  lineScale : c.lineScale.val = some v.lineScale
  lineOff : c.lineOff.val = some v.lineOff
  latScale : c.latScale.val = some v.latScale
  latOff : c.latOff.val = some v.latOff
  lonScale : c.lonScale.val = some v.lonScale
  lonOff : c.lonOff.val = some v.lonOff
  hScale : c.hScale.val = some v.hScale
  hOff : c.hOff.val = some v.hOff

/-- Specification: coefficients adding up to at most 1.9 in size. -/
def Moderate (a : Nat → K) : Prop := coefSize (fun i => |a i|) ≤ 19 / 10

theorem Moderate.le {a : Nat → K} (h : Moderate a) (i : Nat) (hi : i < 20) : |a i| ≤ 2 ^ (1 : ℤ) := by
  have : |a i| ≤ coefSize (fun i => |a i|) := Finset.single_le_sum (f := fun i => |a i|) (fun j _ => abs_nonneg _) (Finset.mem_range.mpr hi)
  refine this.trans (h.trans ?_)
  norm_num

/-- The polynomial in double precision: no overflow, and the accuracy. -/
theorem poly_double {a' : Nat → K} (h : Moderate a') (a : Nat → Num K) (va : ∀ i < 20, (a i).val = some (a' i)) {x y z : Num K} {x' y' z' u v w : K}
    (vx : x.val = some x') (vy : y.val = some y') (vz : z.val = some z') (hx : Approx (1 / 2 ^ 53) 4 x' u 1) (hy : Approx (1 / 2 ^ 53) 4 y' v 1) (hz : Approx (1 / 2 ^ 53) 4 z' w 1) :
    ∃ p : K, (computePI binary64 a x y z).val = some p ∧ |p| ≤ 2 ^ (30 : ℤ) ∧ Approx (1 / 2 ^ 53) 44 p (Geotiff.computeP a' u v w) 2 := by
  have two : ∀ {s' s : K}, Approx (1 / 2 ^ 53) 4 s' s 1 → |s'| ≤ 2 ^ (1 : ℤ) := by
    intro s' s hs
    refine hs.size'.trans ?_
    norm_num
  obtain ⟨v1, v2⟩ := poly_value a a' va (fun i hi => h.le i hi) vx vy vz (two hx) (two hy) (two hz)
  refine ⟨_, v1, v2, ?_⟩
  have t1 : (2 : K) ^ (-1022 : ℤ) ≤ 1 / 2 ^ 10 := by
    have e : (1 : K) / 2 ^ 10 = 2 ^ (-10 : ℤ) := by norm_num
    rw [e]
    exact zpow_le_zpow_right₀ (by norm_num) (by norm_num)
  have hp := polyS (slack64 (K := K)) (by positivity) a' (fun i => |a' i| + 1 / 2 ^ 10) (fun i _ => by linarith [show (0 : K) ≤ 1 / 2 ^ 10 by positivity])
    (fun i _ => by linarith [abs_nonneg (a' i)]) (fun i _ => by positivity) (t1.trans (by norm_num)) hx hy hz
  refine hp.mono (by positivity) le_rfl ?_
  have e : coefSize (fun i => |a' i| + 1 / 2 ^ 10) = coefSize (fun i => |a' i|) + 20 / 2 ^ 10 := by
    unfold coefSize
    rw [Finset.sum_add_distrib, Finset.sum_const, Finset.card_range]
    simp only [nsmul_eq_mul]
    norm_num
  rw [e]
  unfold Moderate at h
  have : (19 : K) / 10 + 20 / 2 ^ 10 ≤ 2 := by norm_num
  linarith

/-- A normalised coordinate in double precision. -/
theorem normal_double {v o s : Num K} {v' o' s' : K} (hv : v.val = some v') (ho : o.val = some o') (hs : s.val = some s') (bv : |v'| ≤ 2 ^ (100 : ℤ)) (bo : |o'| ≤ 2 ^ (100 : ℤ))
    (bs : 2 ^ (-100 : ℤ) ≤ |s'|) (h : |(v' - o') / s'| ≤ 1) :
    ∃ x' : K, (div binary64 (sub binary64 v o) s).val = some x' ∧ Approx (1 / 2 ^ 53) 4 x' ((v' - o') / s') 1 := by
  obtain ⟨v1, b1⟩ := sub_value hv ho bv bo (by norm_num) (by norm_num)
  obtain ⟨v2, b2⟩ := div_value v1 hs b1 bs (by norm_num) (by norm_num)
  refine ⟨_, v2, normalS (slack64 (K := K)) (by positivity) ((zpow_le_zpow_right₀ (by norm_num) (by norm_num)).trans bs) ?_ ?_ h⟩
  · exact zpow_le_one_of_nonpos₀ (by norm_num) (by norm_num)
  · rintro rfl
    rw [abs_zero] at bs
    exact absurd bs (not_le.mpr (by positivity))

theorem wide {x : K} (h : |x| ≤ 2 ^ 17) : |x| ≤ 2 ^ (17 : ℤ) := by
  refine h.trans (le_of_eq ?_)
  norm_num

/-- One pixel coordinate in double precision. -/
theorem coord_double {num den : Nat → Num K} {num' den' : Nat → K} (hn : Moderate num') (hd : Moderate den') (vn : ∀ i < 20, (num i).val = some (num' i))
    (vd : ∀ i < 20, (den i).val = some (den' i)) {S O x y z : Num K} {S' O' x' y' z' u v w : K} (hS : S.val = some S') (hO : O.val = some O') (bS : |S'| ≤ 2 ^ 17) (bO : |O'| ≤ 2 ^ 17)
    (vx : x.val = some x') (vy : y.val = some y') (vz : z.val = some z') (hx : Approx (1 / 2 ^ 53) 4 x' u 1) (hy : Approx (1 / 2 ^ 53) 4 y' v 1) (hz : Approx (1 / 2 ^ 53) 4 z' w 1)
    (hden : 1 / 2 ≤ |Geotiff.computeP den' u v w|) :
    ∃ X' : K, (add binary64 (add binary64 (mul binary64 (div binary64 (computePI binary64 num x y z) (computePI binary64 den x y z)) S) O) (.fin (1 / 2))).val = some X' ∧
      |X' - (Geotiff.computeP num' u v w / Geotiff.computeP den' u v w * S' + O' + 1 / 2)| ≤ 2 / 10 ^ 8 := by
  obtain ⟨n', n1, n2, n3⟩ := poly_double hn num vn vx vy vz hx hy hz
  obtain ⟨d', d1, d2, d3⟩ := poly_double hd den vd vx vy vz hx hy hz
  have ht : (2 : K) ^ (-1022 : ℤ) ≤ 1 / 2 := by
    have e : (1 : K) / 2 = 2 ^ (-1 : ℤ) := by norm_num
    rw [e]
    exact zpow_le_zpow_right₀ (by norm_num) (by norm_num)
  obtain ⟨hd4, herr⟩ := lastS (slack64 (K := K)) ht n3 d3 hden bS bO
  have hd5 : (2 : K) ^ (-2 : ℤ) ≤ |d'| := by
    refine le_trans (le_of_eq ?_) hd4
    norm_num
  obtain ⟨q1, q2⟩ := div_value n1 d1 n2 hd5 (by norm_num) (by norm_num)
  obtain ⟨m1, m2⟩ := mul_value q1 hS q2 (wide bS) (by norm_num) (by norm_num)
  obtain ⟨a1, a2⟩ := add_value (e := 60) m1 hO (wk m2 (by norm_num)) (wk (wide bO) (by norm_num)) (by norm_num) (by norm_num)
  have hh : |(1 / 2 : K)| ≤ 2 ^ (61 : ℤ) := by
    rw [abs_of_nonneg (by norm_num)]
    refine le_trans (by norm_num : (1 / 2 : K) ≤ 2 ^ (0 : ℤ)) (zpow_le_zpow_right₀ (by norm_num) (by norm_num))
  obtain ⟨h1, -⟩ := add_value (e := 61) (b := .fin (1 / 2)) a1 rfl (wk a2 (by norm_num)) hh (by norm_num) (by norm_num)
  exact ⟨_, h1, herr⟩

/-- C205: the pixel of a position in the box of an RPC (normalised coordinates at most 1), computed in IEEE doubles: both coordinates are finite numbers within two
hundred-millionths of a pixel of the exact ones, subnormal intermediate results included. -/
theorem C205_double (c : Geotiff.Rpc (Num K)) (v : Geotiff.Rpc K) (hc : Stores c v) (lon lat alt : Num K) (lo la al : K) (hlo : lon.val = some lo) (hla : lat.val = some la)
    (hal : alt.val = some al) (b1 : |lo| ≤ 2 ^ (100 : ℤ) ∧ |la| ≤ 2 ^ (100 : ℤ) ∧ |al| ≤ 2 ^ (100 : ℤ))
    (b2 : |v.lonOff| ≤ 2 ^ (100 : ℤ) ∧ |v.latOff| ≤ 2 ^ (100 : ℤ) ∧ |v.hOff| ≤ 2 ^ (100 : ℤ))
    (b3 : 2 ^ (-100 : ℤ) ≤ |v.lonScale| ∧ 2 ^ (-100 : ℤ) ≤ |v.latScale| ∧ 2 ^ (-100 : ℤ) ≤ |v.hScale|)
    (x y z : K) (hx : x * v.latScale = la - v.latOff) (hy : y * v.lonScale = lo - v.lonOff) (hz : z * v.hScale = al - v.hOff) (bx : |x| ≤ 1) (byy : |y| ≤ 1) (bz : |z| ≤ 1)
    (m1 : Moderate v.sampNum) (m2 : Moderate v.sampDen) (m3 : Moderate v.lineNum) (m4 : Moderate v.lineDen)
    (d1 : 1 / 2 ≤ |Geotiff.computeP v.sampDen x y z|) (d2 : 1 / 2 ≤ |Geotiff.computeP v.lineDen x y z|)
    (s1 : |v.sampScale| ≤ 2 ^ 17) (o1 : |v.sampOff| ≤ 2 ^ 17) (s2 : |v.lineScale| ≤ 2 ^ 17) (o2 : |v.lineOff| ≤ 2 ^ 17) :
    ∃ X Y X' Y', v.project lo la al = some (X, Y) ∧ (rpcI binary64 c lon lat alt).1.val = some X' ∧ (rpcI binary64 c lon lat alt).2.val = some Y' ∧
      |X' - X| ≤ 2 / 10 ^ 8 ∧ |Y' - Y| ≤ 2 / 10 ^ 8 := by
  have nz : ∀ {s : K}, (2 : K) ^ (-100 : ℤ) ≤ |s| → s ≠ 0 := by
    rintro s hs rfl
    rw [abs_zero] at hs
    exact absurd hs (not_le.mpr (by positivity))
  have ex : x = (la - v.latOff) / v.latScale := by rw [← hx, mul_div_cancel_right₀ _ (nz b3.2.1)]
  have ey : y = (lo - v.lonOff) / v.lonScale := by rw [← hy, mul_div_cancel_right₀ _ (nz b3.1)]
  have ez : z = (al - v.hOff) / v.hScale := by rw [← hz, mul_div_cancel_right₀ _ (nz b3.2.2)]
  obtain ⟨x', vx, ax⟩ := normal_double hla hc.latOff hc.latScale b1.2.1 b2.2.1 b3.2.1 (ex ▸ bx)
  obtain ⟨y', vy, ay⟩ := normal_double hlo hc.lonOff hc.lonScale b1.1 b2.1 b3.1 (ey ▸ byy)
  obtain ⟨z', vz, az⟩ := normal_double hal hc.hOff hc.hScale b1.2.2 b2.2.2 b3.2.2 (ez ▸ bz)
  rw [← ex] at ax
  rw [← ey] at ay
  rw [← ez] at az
  obtain ⟨X', h1, e1⟩ := coord_double m1 m2 hc.sampNum hc.sampDen hc.sampScale hc.sampOff s1 o1 vx vy vz ax ay az d1
  obtain ⟨Y', h2, e2⟩ := coord_double m3 m4 hc.lineNum hc.lineDen hc.lineScale hc.lineOff s2 o2 vx vy vz ax ay az d2
  refine ⟨_, _, X', Y', ?_, h1, h2, e1, e2⟩
  have n1 : Geotiff.computeP v.sampDen x y z ≠ 0 := fun h => by rw [h, abs_zero] at d1; exact absurd d1 (by norm_num)
  have n2 : Geotiff.computeP v.lineDen x y z ≠ 0 := fun h => by rw [h, abs_zero] at d2; exact absurd d2 (by norm_num)
  simp only [Geotiff.Rpc.project, ImageUtils.fdiv, if_neg (nz b3.1), if_neg (nz b3.2.1), if_neg (nz b3.2.2), ← ex, ← ey, ← ez, if_neg n1, if_neg n2, Option.bind_eq_bind, Option.bind_some]

end

/-! ### Non-vacuity -/

/-- A gentle RPC with a height term in the denominators and a cubic term in the sample numerator. -/
def smoothQ : Geotiff.Rpc ℚ where
  sampNum i := if i = 1 then 1 else if i = 11 then 1 / 64 else 0
  sampDen i := if i = 0 then 1 else if i = 3 then 1 / 8 else 0
  sampScale := 1024
  sampOff := 1024
  lineNum i := if i = 2 then -1 else 0
  lineDen i := if i = 0 then 1 else if i = 3 then 1 / 8 else 0
  lineScale := 512
  lineOff := 512
  latScale := 1 / 4
  latOff := 43
  lonScale := 1 / 2
  lonOff := -77
  hScale := 500
  hOff := 100

/-- A number as a float. -/
def asNum (q : ℚ) : Num ℚ := if q = 0 then .zero false else .fin q

theorem asNum_val (q : ℚ) : (asNum q).val = some q := by
  unfold asNum
  split_ifs with h
  · rw [h]; rfl
  · rfl

/-- The same RPC in floats. -/
def smoothD : Geotiff.Rpc (Num ℚ) where
  sampNum i := asNum (smoothQ.sampNum i)
  sampDen i := asNum (smoothQ.sampDen i)
  sampScale := asNum smoothQ.sampScale
  sampOff := asNum smoothQ.sampOff
  lineNum i := asNum (smoothQ.lineNum i)
  lineDen i := asNum (smoothQ.lineDen i)
  lineScale := asNum smoothQ.lineScale
  lineOff := asNum smoothQ.lineOff
  latScale := asNum smoothQ.latScale
  latOff := asNum smoothQ.latOff
  lonScale := asNum smoothQ.lonScale
  lonOff := asNum smoothQ.lonOff
  hScale := asNum smoothQ.hScale
  hOff := asNum smoothQ.hOff

theorem smooth_stores : Stores smoothD smoothQ where
  sampNum := fun i _ => asNum_val (smoothQ.sampNum i)
  sampDen := fun i _ => asNum_val (smoothQ.sampDen i)
  lineNum := fun i _ => asNum_val (smoothQ.lineNum i)
  lineDen := fun i _ => asNum_val (smoothQ.lineDen i)
  sampScale := asNum_val smoothQ.sampScale
  sampOff := asNum_val smoothQ.sampOff
  lineScale := asNum_val smoothQ.lineScale
  lineOff := asNum_val smoothQ.lineOff
  latScale := asNum_val smoothQ.latScale
  latOff := asNum_val smoothQ.latOff
  lonScale := asNum_val smoothQ.lonScale
  lonOff := asNum_val smoothQ.lonOff
  hScale := asNum_val smoothQ.hScale
  hOff := asNum_val smoothQ.hOff

/-- C205 is not vacuous: a position off the centre of this RPC. -/
example : ∃ X Y X' Y', smoothQ.project (-307 / 4) (345 / 8) 350 = some (X, Y) ∧ (rpcI binary64 smoothD (.fin (-307 / 4)) (.fin (345 / 8)) (.fin 350)).1.val = some X' ∧
    (rpcI binary64 smoothD (.fin (-307 / 4)) (.fin (345 / 8)) (.fin 350)).2.val = some Y' ∧ |X' - X| ≤ 2 / 10 ^ 8 ∧ |Y' - Y| ≤ 2 / 10 ^ 8 := by
  refine C205_double smoothD smoothQ smooth_stores _ _ _ _ _ _ rfl rfl rfl ?_ ?_ ?_ (1 / 2) (1 / 2) (1 / 2) ?_ ?_ ?_ ?_ ?_ ?_ ?_ ?_ ?_ ?_ ?_ ?_ ?_ ?_ ?_ ?_
  all_goals first | decide +kernel | (unfold Moderate coefSize; decide +kernel)

end Verif.SolverIeee
