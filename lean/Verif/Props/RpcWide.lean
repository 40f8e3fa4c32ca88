import Verif.Props.RpcIeee
import Verif.Props.RpcInverse

/-! The RPC projection in IEEE doubles on the positions the pixel-to-ground conversion visits, up to two degrees beyond the footprint (used by C206). -/

set_option linter.unusedSectionVars false

namespace Verif.SolverIeee
open Verif Ieee FloatGeom Rounding

section
variable {K : Type} [Field K] [LinearOrder K] [IsStrictOrderedRing K]

theorem _root_.Verif.FloatGeom.Approx.mulN {r : K → K} {u t x' x s y' y N : K} {k l : ℕ} (hx : Approx u k x' x s) (hr : Slack r u t) (hu : 0 ≤ u) (hs : t ≤ s) (hy : Approx u l y' y N)
    (hN : 1 ≤ N) : Approx u (k + l + 2) (r (x' * y')) (x * y) (s * N) :=
  Approx.roundS hr hu (hx.mul' hu hy) (hs.trans (le_mul_of_one_le_right hx.nonneg hN))

theorem polyN {r : K → K} {u t N : K} (hr : Slack r u t) (hu : 0 ≤ u) (a A : Nat → K) (ha : ∀ i < 20, |a i| ≤ A i) (hA : ∀ i < 20, t ≤ A i) (h0 : ∀ i < 20, 0 ≤ A i) (hN : 1 ≤ N)
    (ht : t ≤ N) {x' x y' y z' z : K} (hx : Approx u 4 x' x N) (hy : Approx u 4 y' y N) (hz : Approx u 4 z' z N) :
    Approx u 44 (computePR r a x' y' z') (Geotiff.computeP a x y z) (Geotiff.computeP A N N N) := by
  have A := fun (i : Nat) (hi : i < 20) => (show Approx u 0 (a i) (a i) (A i) from ⟨by simp, ha i hi⟩)
  have xx := hx.mulN hr hu ht hx hN
  have yy := hy.mulN hr hu ht hy hN
  have zz := hz.mulN hr hu ht hz hN
  have hNN : t ≤ N * N := ht.trans (le_mul_of_one_le_right (by linarith) hN)
  have hN2 : 1 ≤ N * N := one_le_mul_of_one_le_of_one_le hN hN
  have hN3 : 1 ≤ N * N * N := one_le_mul_of_one_le_of_one_le hN2 hN
  have xxx := xx.mulN hr hu hNN hx hN
  have yyy := yy.mulN hr hu hNN hy hN
  have zzz := zz.mulN hr hu hNN hz hN
  have xy := hx.mulN hr hu ht hy hN
  have xz := hx.mulN hr hu ht hz hN
  have yz := hy.mulN hr hu ht hz hN
  have up : ∀ (s c : K), t ≤ s → 0 ≤ s → 1 ≤ c → t ≤ s * c := fun s c h1 h2 h3 => h1.trans (le_mul_of_one_le_right h2 h3)
  have s0 := A 0 (by norm_num)
  have q0 := hA 0 (by norm_num)
  have s1 := s0.addS hr hu q0 ((A 1 (by norm_num)).mulN hr hu (hA 1 (by norm_num)) hy hN) (mul_nonneg (h0 1 (by norm_num)) (zero_le_one.trans hN))
  have q1 := q0.trans (le_add_of_nonneg_right (mul_nonneg (h0 1 (by norm_num)) (zero_le_one.trans hN)))
  have s2 := s1.addS hr hu q1 ((A 2 (by norm_num)).mulN hr hu (hA 2 (by norm_num)) hx hN) (mul_nonneg (h0 2 (by norm_num)) (zero_le_one.trans hN))
  have q2 := q1.trans (le_add_of_nonneg_right (mul_nonneg (h0 2 (by norm_num)) (zero_le_one.trans hN)))
  have s3 := s2.addS hr hu q2 ((A 3 (by norm_num)).mulN hr hu (hA 3 (by norm_num)) hz hN) (mul_nonneg (h0 3 (by norm_num)) (zero_le_one.trans hN))
  have q3 := q2.trans (le_add_of_nonneg_right (mul_nonneg (h0 3 (by norm_num)) (zero_le_one.trans hN)))
  have s4 := s3.addS hr hu q3 ((A 4 (by norm_num)).mulN hr hu (hA 4 (by norm_num)) xy hN2) (mul_nonneg (h0 4 (by norm_num)) (zero_le_one.trans hN2))
  have q4 := q3.trans (le_add_of_nonneg_right (mul_nonneg (h0 4 (by norm_num)) (zero_le_one.trans hN2)))
  have s5 := s4.addS hr hu q4 ((A 5 (by norm_num)).mulN hr hu (hA 5 (by norm_num)) yz hN2) (mul_nonneg (h0 5 (by norm_num)) (zero_le_one.trans hN2))
  have q5 := q4.trans (le_add_of_nonneg_right (mul_nonneg (h0 5 (by norm_num)) (zero_le_one.trans hN2)))
  have s6 := s5.addS hr hu q5 ((A 6 (by norm_num)).mulN hr hu (hA 6 (by norm_num)) xz hN2) (mul_nonneg (h0 6 (by norm_num)) (zero_le_one.trans hN2))
  have q6 := q5.trans (le_add_of_nonneg_right (mul_nonneg (h0 6 (by norm_num)) (zero_le_one.trans hN2)))
  have s7 := s6.addS hr hu q6 ((A 7 (by norm_num)).mulN hr hu (hA 7 (by norm_num)) yy hN2) (mul_nonneg (h0 7 (by norm_num)) (zero_le_one.trans hN2))
  have q7 := q6.trans (le_add_of_nonneg_right (mul_nonneg (h0 7 (by norm_num)) (zero_le_one.trans hN2)))
  have s8 := s7.addS hr hu q7 ((A 8 (by norm_num)).mulN hr hu (hA 8 (by norm_num)) xx hN2) (mul_nonneg (h0 8 (by norm_num)) (zero_le_one.trans hN2))
  have q8 := q7.trans (le_add_of_nonneg_right (mul_nonneg (h0 8 (by norm_num)) (zero_le_one.trans hN2)))
  have s9 := s8.addS hr hu q8 ((A 9 (by norm_num)).mulN hr hu (hA 9 (by norm_num)) zz hN2) (mul_nonneg (h0 9 (by norm_num)) (zero_le_one.trans hN2))
  have q9 := q8.trans (le_add_of_nonneg_right (mul_nonneg (h0 9 (by norm_num)) (zero_le_one.trans hN2)))
  have s10 := s9.addS hr hu q9 ((((A 10 (by norm_num)).mulN hr hu (hA 10 (by norm_num)) hx hN).mulN hr hu (up _ _ (hA 10 (by norm_num)) (h0 10 (by norm_num)) hN) hy hN).mulN hr hu (up _ _ (up _ _ (hA 10 (by norm_num)) (h0 10 (by norm_num)) hN) (mul_nonneg (h0 10 (by norm_num)) (zero_le_one.trans hN)) hN) hz hN) (mul_nonneg (mul_nonneg (mul_nonneg (h0 10 (by norm_num)) (zero_le_one.trans hN)) (zero_le_one.trans hN)) (zero_le_one.trans hN))
  have q10 := q9.trans (le_add_of_nonneg_right (mul_nonneg (mul_nonneg (mul_nonneg (h0 10 (by norm_num)) (zero_le_one.trans hN)) (zero_le_one.trans hN)) (zero_le_one.trans hN)))
  have s11 := s10.addS hr hu q10 ((A 11 (by norm_num)).mulN hr hu (hA 11 (by norm_num)) yyy hN3) (mul_nonneg (h0 11 (by norm_num)) (zero_le_one.trans hN3))
  have q11 := q10.trans (le_add_of_nonneg_right (mul_nonneg (h0 11 (by norm_num)) (zero_le_one.trans hN3)))
  have s12 := s11.addS hr hu q11 (((A 12 (by norm_num)).mulN hr hu (hA 12 (by norm_num)) hy hN).mulN hr hu (up _ _ (hA 12 (by norm_num)) (h0 12 (by norm_num)) hN) xx hN2) (mul_nonneg (mul_nonneg (h0 12 (by norm_num)) (zero_le_one.trans hN)) (zero_le_one.trans hN2))
  have q12 := q11.trans (le_add_of_nonneg_right (mul_nonneg (mul_nonneg (h0 12 (by norm_num)) (zero_le_one.trans hN)) (zero_le_one.trans hN2)))
  have s13 := s12.addS hr hu q12 (((A 13 (by norm_num)).mulN hr hu (hA 13 (by norm_num)) hy hN).mulN hr hu (up _ _ (hA 13 (by norm_num)) (h0 13 (by norm_num)) hN) zz hN2) (mul_nonneg (mul_nonneg (h0 13 (by norm_num)) (zero_le_one.trans hN)) (zero_le_one.trans hN2))
  have q13 := q12.trans (le_add_of_nonneg_right (mul_nonneg (mul_nonneg (h0 13 (by norm_num)) (zero_le_one.trans hN)) (zero_le_one.trans hN2)))
  have s14 := s13.addS hr hu q13 (((A 14 (by norm_num)).mulN hr hu (hA 14 (by norm_num)) yy hN2).mulN hr hu (up _ _ (hA 14 (by norm_num)) (h0 14 (by norm_num)) hN2) hx hN) (mul_nonneg (mul_nonneg (h0 14 (by norm_num)) (zero_le_one.trans hN2)) (zero_le_one.trans hN))
  have q14 := q13.trans (le_add_of_nonneg_right (mul_nonneg (mul_nonneg (h0 14 (by norm_num)) (zero_le_one.trans hN2)) (zero_le_one.trans hN)))
  have s15 := s14.addS hr hu q14 ((A 15 (by norm_num)).mulN hr hu (hA 15 (by norm_num)) xxx hN3) (mul_nonneg (h0 15 (by norm_num)) (zero_le_one.trans hN3))
  have q15 := q14.trans (le_add_of_nonneg_right (mul_nonneg (h0 15 (by norm_num)) (zero_le_one.trans hN3)))
  have s16 := s15.addS hr hu q15 (((A 16 (by norm_num)).mulN hr hu (hA 16 (by norm_num)) hx hN).mulN hr hu (up _ _ (hA 16 (by norm_num)) (h0 16 (by norm_num)) hN) zz hN2) (mul_nonneg (mul_nonneg (h0 16 (by norm_num)) (zero_le_one.trans hN)) (zero_le_one.trans hN2))
  have q16 := q15.trans (le_add_of_nonneg_right (mul_nonneg (mul_nonneg (h0 16 (by norm_num)) (zero_le_one.trans hN)) (zero_le_one.trans hN2)))
  have s17 := s16.addS hr hu q16 (((A 17 (by norm_num)).mulN hr hu (hA 17 (by norm_num)) yy hN2).mulN hr hu (up _ _ (hA 17 (by norm_num)) (h0 17 (by norm_num)) hN2) hz hN) (mul_nonneg (mul_nonneg (h0 17 (by norm_num)) (zero_le_one.trans hN2)) (zero_le_one.trans hN))
  have q17 := q16.trans (le_add_of_nonneg_right (mul_nonneg (mul_nonneg (h0 17 (by norm_num)) (zero_le_one.trans hN2)) (zero_le_one.trans hN)))
  have s18 := s17.addS hr hu q17 (((A 18 (by norm_num)).mulN hr hu (hA 18 (by norm_num)) xx hN2).mulN hr hu (up _ _ (hA 18 (by norm_num)) (h0 18 (by norm_num)) hN2) hy hN) (mul_nonneg (mul_nonneg (h0 18 (by norm_num)) (zero_le_one.trans hN2)) (zero_le_one.trans hN))
  have q18 := q17.trans (le_add_of_nonneg_right (mul_nonneg (mul_nonneg (h0 18 (by norm_num)) (zero_le_one.trans hN2)) (zero_le_one.trans hN)))
  have s19 := s18.addS hr hu q18 ((A 19 (by norm_num)).mulN hr hu (hA 19 (by norm_num)) zzz hN3) (mul_nonneg (h0 19 (by norm_num)) (zero_le_one.trans hN3))
  have q19 := q18.trans (le_add_of_nonneg_right (mul_nonneg (h0 19 (by norm_num)) (zero_le_one.trans hN3)))
  exact s19.weaken hu (by decide : _ ≤ 44)

theorem normalN {r : K → K} {u t v w s N : K} (hr : Slack r u t) (hu : 0 ≤ u) (hs : t ≤ |s|) (hN : 1 ≤ N) (h1 : t ≤ 1) (h0 : s ≠ 0) (h : |(v - w) / s| ≤ N) :
    Approx u 4 (r (r (v - w) / s)) ((v - w) / s) N := by
  have hp : 0 < |s| := abs_pos.mpr h0
  have h2 : |v - w| ≤ |s| * N := by rw [abs_div, div_le_iff₀ hp, mul_comm] at h; exact h
  have a0 : Approx u 0 (v - w) (v - w) (|s| * N) := ⟨by simp, h2⟩
  have a1 := (Approx.roundS hr hu a0 (hs.trans (le_mul_of_one_le_right hp.le hN))).div' s
  rw [mul_div_cancel_left₀ _ hp.ne'] at a1
  exact Approx.roundS hr hu a1 (h1.trans hN)

/-- The last stage far outside the image: quotient, scale, offset, half a pixel. -/
theorem lastN {r : K → K} {t n' n d' d S O : K} (hr : Slack r (1 / 2 ^ 53) t) (ht : t ≤ 1 / 2) (hn : Approx (1 / 2 ^ 53) 44 n' n 128) (hd : Approx (1 / 2 ^ 53) 44 d' d 4)
    (hd2 : 1 / 2 ≤ |d|) (hS : |S| ≤ 2 ^ 16) (hO : |O| ≤ 2 ^ 16) :
    1 / 4 ≤ |d'| ∧ |r (r (r (r (n' / d') * S) + O) + 1 / 2) - (n / d * S + O + 1 / 2)| ≤ 1 / 10 ^ 6 ∧ |n / d * S + O + 1 / 2| ≤ 2 ^ 25 := by
  have hu : (0 : K) ≤ 1 / 2 ^ 53 := by positivity
  have hE : ((1 + 1 / 2 ^ 53 : K)) ^ 44 - 1 ≤ 45 / 2 ^ 53 := by norm_num
  have hE0 : (0 : K) ≤ ((1 + 1 / 2 ^ 53 : K)) ^ 44 - 1 := by have := one_le_growth hu 44; linarith
  have en := hn.err
  have ed := hd.err
  generalize ((1 + 1 / 2 ^ 53 : K)) ^ 44 - 1 = E at *
  have hE1 : E ≤ 1 / 2 ^ 40 := hE.trans (by norm_num)
  have hE2 : E * 4 ≤ 1 / 4 := by
    have : (1 : K) / 2 ^ 40 * 4 ≤ 1 / 4 := by norm_num
    linarith
  have q4 : |n / d| ≤ 256 := by
    rw [abs_div, div_le_iff₀ (by linarith)]
    have := hn.size
    linarith
  obtain ⟨-, hq⟩ := quotient_err en ed (by linarith)
  have hd' : 1 / 4 ≤ |d'| := by
    have := abs_sub_abs_le_abs_sub d d'
    rw [abs_sub_comm] at this
    linarith
  have hb : (E * 128 + |n / d| * (E * 4)) / (|d| - E * 4) ≤ (45 / 2 ^ 53 * 128 + 256 * (45 / 2 ^ 53 * 4)) / (1 / 2 - 1 / 2 ^ 40 * 4) := by
    refine div_le_div₀ (by positivity) ?_ (by norm_num) (by linarith)
    have := mul_le_mul q4 (show E * 4 ≤ 45 / 2 ^ 53 * 4 by linarith) (by linarith) (by norm_num)
    linarith
  have ht0 : t ≤ 1 := ht.trans (by norm_num)
  have a0 : Approx (1 / 2 ^ 53) 420 (n' / d') (n / d) 256 := by
    refine ⟨hq.trans (hb.trans ?_), q4⟩
    have bern := one_add_mul_le_pow (show (-2 : K) ≤ 1 / 2 ^ 53 by norm_num) 420
    push_cast at bern
    refine le_trans (b := 420 * (1 / 2 ^ 53) * 256) (by norm_num) ?_
    generalize ((1 + 1 / 2 ^ 53 : K)) ^ 420 = G at *
    linarith
  have a1 := Approx.roundS hr hu a0 (by linarith)
  have aS : Approx (1 / 2 ^ 53) 0 S S (2 ^ 16) := ⟨by simp, hS⟩
  have aO : Approx (1 / 2 ^ 53) 0 O O (2 ^ 16) := ⟨by simp, hO⟩
  have aH : Approx (1 / 2 ^ 53) 0 (1 / 2 : K) (1 / 2) (1 / 2) := ⟨by simp, by rw [abs_of_nonneg (by norm_num)]⟩
  have a2 := Approx.roundS hr hu (a1.mul' hu aS) (by linarith)
  have a3 := a2.addS hr hu (by linarith) aO (by positivity)
  have a4 := a3.addS hr hu (by linarith) aH (by positivity)
  have a5 := (a4.weaken hu (by decide : _ ≤ 430))
  have g43 : ((1 + 1 / 2 ^ 53 : K)) ^ 43 ≤ 1 + 44 / 2 ^ 53 := by norm_num
  have g430 : ((1 + 1 / 2 ^ 53 : K)) ^ 430 - 1 ≤ 450 / 2 ^ 53 := by
    rw [show (430 : ℕ) = 43 * 10 from rfl, pow_mul]
    have : (((1 + 1 / 2 ^ 53 : K)) ^ 43) ^ 10 ≤ (1 + 44 / 2 ^ 53) ^ 10 := pow_le_pow_left₀ (by positivity) g43 10
    have h : ((1 + 44 / 2 ^ 53 : K)) ^ 10 ≤ 1 + 450 / 2 ^ 53 := by norm_num
    linarith
  refine ⟨hd', a5.err.trans ?_, a5.size.trans ?_⟩
  · refine (mul_le_mul_of_nonneg_right g430 (by positivity)).trans ?_
    norm_num
  · norm_num

variable [FloorRing K]

/-- The polynomial does not overflow. -/
theorem poly_valueN (a : Nat → Num K) (a' : Nat → K) (va : ∀ i < 20, (a i).val = some (a' i)) (ha : ∀ i < 20, |a' i| ≤ 2 ^ (7 : ℤ)) {x y z : Num K} {x' y' z' : K}
    (vx : x.val = some x') (vy : y.val = some y') (vz : z.val = some z') (hx : |x'| ≤ 2 ^ (11 : ℤ)) (hy : |y'| ≤ 2 ^ (11 : ℤ)) (hz : |z'| ≤ 2 ^ (11 : ℤ)) :
    (computePI binary64 a x y z).val = some (computePR (roundNum binary64) a' x' y' z') ∧ |computePR (roundNum binary64) a' x' y' z'| ≤ 2 ^ (70 : ℤ) := by
  obtain ⟨xx, bxx⟩ := mul_value vx vx hx hx (by norm_num) (by norm_num)
  obtain ⟨yy, byy⟩ := mul_value vy vy hy hy (by norm_num) (by norm_num)
  obtain ⟨zz, bzz⟩ := mul_value vz vz hz hz (by norm_num) (by norm_num)
  obtain ⟨xxx, bxxx⟩ := mul_value xx vx bxx hx (by norm_num) (by norm_num)
  obtain ⟨yyy, byyy⟩ := mul_value yy vy byy hy (by norm_num) (by norm_num)
  obtain ⟨zzz, bzzz⟩ := mul_value zz vz bzz hz (by norm_num) (by norm_num)
  obtain ⟨xy, bxy⟩ := mul_value vx vy hx hy (by norm_num) (by norm_num)
  obtain ⟨xz, bxz⟩ := mul_value vx vz hx hz (by norm_num) (by norm_num)
  obtain ⟨yz, byz⟩ := mul_value vy vz hy hz (by norm_num) (by norm_num)
  obtain ⟨t1_0, bt1_0⟩ := mul_value (va 1 (by norm_num)) vy (ha 1 (by norm_num)) hy (by norm_num) (by norm_num)
  obtain ⟨s1, bs1⟩ := add_value (e := 45) (va 0 (by norm_num)) t1_0 (wk (ha 0 (by norm_num)) (by norm_num)) (wk bt1_0 (by norm_num)) (by norm_num) (by norm_num)
  obtain ⟨t2_0, bt2_0⟩ := mul_value (va 2 (by norm_num)) vx (ha 2 (by norm_num)) hx (by norm_num) (by norm_num)
  obtain ⟨s2, bs2⟩ := add_value (e := 46) s1 t2_0 (wk bs1 (by norm_num)) (wk bt2_0 (by norm_num)) (by norm_num) (by norm_num)
  obtain ⟨t3_0, bt3_0⟩ := mul_value (va 3 (by norm_num)) vz (ha 3 (by norm_num)) hz (by norm_num) (by norm_num)
  obtain ⟨s3, bs3⟩ := add_value (e := 47) s2 t3_0 (wk bs2 (by norm_num)) (wk bt3_0 (by norm_num)) (by norm_num) (by norm_num)
  obtain ⟨t4_0, bt4_0⟩ := mul_value (va 4 (by norm_num)) xy (ha 4 (by norm_num)) bxy (by norm_num) (by norm_num)
  obtain ⟨s4, bs4⟩ := add_value (e := 48) s3 t4_0 (wk bs3 (by norm_num)) (wk bt4_0 (by norm_num)) (by norm_num) (by norm_num)
  obtain ⟨t5_0, bt5_0⟩ := mul_value (va 5 (by norm_num)) yz (ha 5 (by norm_num)) byz (by norm_num) (by norm_num)
  obtain ⟨s5, bs5⟩ := add_value (e := 49) s4 t5_0 (wk bs4 (by norm_num)) (wk bt5_0 (by norm_num)) (by norm_num) (by norm_num)
  obtain ⟨t6_0, bt6_0⟩ := mul_value (va 6 (by norm_num)) xz (ha 6 (by norm_num)) bxz (by norm_num) (by norm_num)
  obtain ⟨s6, bs6⟩ := add_value (e := 50) s5 t6_0 (wk bs5 (by norm_num)) (wk bt6_0 (by norm_num)) (by norm_num) (by norm_num)
  obtain ⟨t7_0, bt7_0⟩ := mul_value (va 7 (by norm_num)) yy (ha 7 (by norm_num)) byy (by norm_num) (by norm_num)
  obtain ⟨s7, bs7⟩ := add_value (e := 51) s6 t7_0 (wk bs6 (by norm_num)) (wk bt7_0 (by norm_num)) (by norm_num) (by norm_num)
  obtain ⟨t8_0, bt8_0⟩ := mul_value (va 8 (by norm_num)) xx (ha 8 (by norm_num)) bxx (by norm_num) (by norm_num)
  obtain ⟨s8, bs8⟩ := add_value (e := 52) s7 t8_0 (wk bs7 (by norm_num)) (wk bt8_0 (by norm_num)) (by norm_num) (by norm_num)
  obtain ⟨t9_0, bt9_0⟩ := mul_value (va 9 (by norm_num)) zz (ha 9 (by norm_num)) bzz (by norm_num) (by norm_num)
  obtain ⟨s9, bs9⟩ := add_value (e := 53) s8 t9_0 (wk bs8 (by norm_num)) (wk bt9_0 (by norm_num)) (by norm_num) (by norm_num)
  obtain ⟨t10_0, bt10_0⟩ := mul_value (va 10 (by norm_num)) vx (ha 10 (by norm_num)) hx (by norm_num) (by norm_num)
  obtain ⟨t10_1, bt10_1⟩ := mul_value t10_0 vy bt10_0 hy (by norm_num) (by norm_num)
  obtain ⟨t10_2, bt10_2⟩ := mul_value t10_1 vz bt10_1 hz (by norm_num) (by norm_num)
  obtain ⟨s10, bs10⟩ := add_value (e := 54) s9 t10_2 (wk bs9 (by norm_num)) (wk bt10_2 (by norm_num)) (by norm_num) (by norm_num)
  obtain ⟨t11_0, bt11_0⟩ := mul_value (va 11 (by norm_num)) yyy (ha 11 (by norm_num)) byyy (by norm_num) (by norm_num)
  obtain ⟨s11, bs11⟩ := add_value (e := 55) s10 t11_0 (wk bs10 (by norm_num)) (wk bt11_0 (by norm_num)) (by norm_num) (by norm_num)
  obtain ⟨t12_0, bt12_0⟩ := mul_value (va 12 (by norm_num)) vy (ha 12 (by norm_num)) hy (by norm_num) (by norm_num)
  obtain ⟨t12_1, bt12_1⟩ := mul_value t12_0 xx bt12_0 bxx (by norm_num) (by norm_num)
  obtain ⟨s12, bs12⟩ := add_value (e := 56) s11 t12_1 (wk bs11 (by norm_num)) (wk bt12_1 (by norm_num)) (by norm_num) (by norm_num)
  obtain ⟨t13_0, bt13_0⟩ := mul_value (va 13 (by norm_num)) vy (ha 13 (by norm_num)) hy (by norm_num) (by norm_num)
  obtain ⟨t13_1, bt13_1⟩ := mul_value t13_0 zz bt13_0 bzz (by norm_num) (by norm_num)
  obtain ⟨s13, bs13⟩ := add_value (e := 57) s12 t13_1 (wk bs12 (by norm_num)) (wk bt13_1 (by norm_num)) (by norm_num) (by norm_num)
  obtain ⟨t14_0, bt14_0⟩ := mul_value (va 14 (by norm_num)) yy (ha 14 (by norm_num)) byy (by norm_num) (by norm_num)
  obtain ⟨t14_1, bt14_1⟩ := mul_value t14_0 vx bt14_0 hx (by norm_num) (by norm_num)
  obtain ⟨s14, bs14⟩ := add_value (e := 58) s13 t14_1 (wk bs13 (by norm_num)) (wk bt14_1 (by norm_num)) (by norm_num) (by norm_num)
  obtain ⟨t15_0, bt15_0⟩ := mul_value (va 15 (by norm_num)) xxx (ha 15 (by norm_num)) bxxx (by norm_num) (by norm_num)
  obtain ⟨s15, bs15⟩ := add_value (e := 59) s14 t15_0 (wk bs14 (by norm_num)) (wk bt15_0 (by norm_num)) (by norm_num) (by norm_num)
  obtain ⟨t16_0, bt16_0⟩ := mul_value (va 16 (by norm_num)) vx (ha 16 (by norm_num)) hx (by norm_num) (by norm_num)
  obtain ⟨t16_1, bt16_1⟩ := mul_value t16_0 zz bt16_0 bzz (by norm_num) (by norm_num)
  obtain ⟨s16, bs16⟩ := add_value (e := 60) s15 t16_1 (wk bs15 (by norm_num)) (wk bt16_1 (by norm_num)) (by norm_num) (by norm_num)
  obtain ⟨t17_0, bt17_0⟩ := mul_value (va 17 (by norm_num)) yy (ha 17 (by norm_num)) byy (by norm_num) (by norm_num)
  obtain ⟨t17_1, bt17_1⟩ := mul_value t17_0 vz bt17_0 hz (by norm_num) (by norm_num)
  obtain ⟨s17, bs17⟩ := add_value (e := 61) s16 t17_1 (wk bs16 (by norm_num)) (wk bt17_1 (by norm_num)) (by norm_num) (by norm_num)
  obtain ⟨t18_0, bt18_0⟩ := mul_value (va 18 (by norm_num)) xx (ha 18 (by norm_num)) bxx (by norm_num) (by norm_num)
  obtain ⟨t18_1, bt18_1⟩ := mul_value t18_0 vy bt18_0 hy (by norm_num) (by norm_num)
  obtain ⟨s18, bs18⟩ := add_value (e := 62) s17 t18_1 (wk bs17 (by norm_num)) (wk bt18_1 (by norm_num)) (by norm_num) (by norm_num)
  obtain ⟨t19_0, bt19_0⟩ := mul_value (va 19 (by norm_num)) zzz (ha 19 (by norm_num)) bzzz (by norm_num) (by norm_num)
  obtain ⟨s19, bs19⟩ := add_value (e := 63) s18 t19_0 (wk bs18 (by norm_num)) (wk bt19_0 (by norm_num)) (by norm_num) (by norm_num)
  exact ⟨s19, wk bs19 (by norm_num)⟩

/-- Specification: with coordinates up to `N`, the terms of the polynomial add up to at most `T` in size. -/
def Bounded (a : Nat → K) (N T : K) : Prop := Geotiff.computeP (fun i => |a i|) N N N ≤ T

theorem tiny : (2 : K) ^ (-1022 : ℤ) ≤ 1 / 2 ^ 40 := by
  have e : (1 : K) / 2 ^ 40 = 2 ^ (-40 : ℤ) := by norm_num
  rw [e]
  exact zpow_le_zpow_right₀ (by norm_num) (by norm_num)

theorem computeP_add (a b : Nat → K) (x y z : K) : Geotiff.computeP (fun i => a i + b i) x y z = Geotiff.computeP a x y z + Geotiff.computeP b x y z := by
  unfold Geotiff.computeP
  ring

theorem computeP_const {N : K} (h1 : 1 ≤ N) (h2 : N ≤ 2 ^ 10) : Geotiff.computeP (fun _ => (1 : K) / 2 ^ 40) N N N ≤ 1 := by
  have a2 : N * N ≤ 2 ^ 10 * 2 ^ 10 := mul_le_mul h2 h2 (by linarith) (by norm_num)
  have a3 : N * N * N ≤ 2 ^ 10 * 2 ^ 10 * 2 ^ 10 := mul_le_mul a2 h2 (by linarith) (by norm_num)
  have e : Geotiff.computeP (fun _ => (1 : K) / 2 ^ 40) N N N = 1 / 2 ^ 40 * (1 + 3 * N + 6 * (N * N) + 10 * (N * N * N)) := by
    unfold Geotiff.computeP
    ring
  rw [e]
  have : 1 + 3 * N + 6 * (N * N) + 10 * (N * N * N) ≤ 1 + 3 * 2 ^ 10 + 6 * (2 ^ 10 * 2 ^ 10) + 10 * (2 ^ 10 * 2 ^ 10 * 2 ^ 10) := by linarith
  refine (mul_le_mul_of_nonneg_left this (by positivity)).trans ?_
  norm_num

theorem Bounded.approx {a : Nat → K} {N T : K} (h : Bounded a N T) (h1 : 1 ≤ N) (h2 : N ≤ 2 ^ 10) {x' x y' y z' z : K} (hx : Approx (1 / 2 ^ 53) 4 x' x N)
    (hy : Approx (1 / 2 ^ 53) 4 y' y N) (hz : Approx (1 / 2 ^ 53) 4 z' z N) :
    Approx (1 / 2 ^ 53) 44 (computePR (roundNum binary64) a x' y' z') (Geotiff.computeP a x y z) (T + 1) := by
  have t1 := tiny (K := K)
  have d0 : (0 : K) ≤ 1 / 2 ^ 40 := by positivity
  have hp := polyN (slack64 (K := K)) (by positivity) a (fun i => |a i| + 1 / 2 ^ 40) (fun i _ => by linarith) (fun i _ => by linarith [abs_nonneg (a i)]) (fun i _ => by positivity) h1
    (by linarith [show (1 : K) / 2 ^ 40 ≤ 1 by norm_num]) hx hy hz
  refine hp.mono (by positivity) le_rfl ?_
  rw [computeP_add]
  have := computeP_const h1 h2
  unfold Bounded at h
  linarith

theorem Bounded.coef {a : Nat → K} {N T : K} (h : Bounded a N T) (h1 : 1 ≤ N) (i : Nat) (hi : i < 20) : |a i| ≤ T := by
  refine le_trans ?_ h
  have key : Geotiff.computeP (fun i => |a i|) 1 1 1 ≤ Geotiff.computeP (fun i => |a i|) N N N := by
    have n2 : 1 ≤ N * N := one_le_mul_of_one_le_of_one_le h1 h1
    have n3 : 1 ≤ N * N * N := one_le_mul_of_one_le_of_one_le n2 h1
    have up : ∀ (i : Nat) {c : K}, 1 ≤ c → |a i| ≤ |a i| * c := fun i c hc => le_mul_of_one_le_right (abs_nonneg _) hc
    unfold Geotiff.computeP
    simp only [mul_one]
    have e : ∀ i : Nat, |a i| * N * (N * N) = |a i| * (N * N * N) := fun i => by ring
    have e' : ∀ i : Nat, |a i| * (N * N) * N = |a i| * (N * N * N) := fun i => by ring
    have e'' : |a 10| * N * N * N = |a 10| * (N * N * N) := by ring
    rw [e 12, e 13, e' 14, e 16, e' 17, e' 18, e'']
    linarith [up 1 h1, up 2 h1, up 3 h1, up 4 n2, up 5 n2, up 6 n2, up 7 n2, up 8 n2, up 9 n2, up 10 n3, up 11 n3, up 12 n3, up 13 n3, up 14 n3, up 15 n3, up 16 n3, up 17 n3, up 18 n3,
      up 19 n3]
  refine le_trans ?_ key
  have e : Geotiff.computeP (fun i => |a i|) 1 1 1 = ∑ i ∈ Finset.range 20, |a i| := by
    simp only [Geotiff.computeP, Finset.sum_range_succ, Finset.sum_range_zero, mul_one, zero_add]
  rw [e]
  exact Finset.single_le_sum (f := fun i => |a i|) (fun j _ => abs_nonneg _) (Finset.mem_range.mpr hi)

/-- A double of size at least `2^e` is a multiple of the spacing there. -/
theorem fl_spacing {p : ℕ} (hp : 1 ≤ p) {y : K} (hy : IsFloat p y) {e : ℤ} (h : 2 ^ e ≤ |y|) : Mult (e - p + 1) y := by
  obtain ⟨k, q, hk, rfl⟩ := hy
  rcases le_or_gt (e - p + 1) q with hq | hq
  · exact mult_weaken hq ⟨k, rfl⟩
  · -- then the number is too small unless it is the power of two itself
    have hq' : q ≤ e - p := by omega
    have h1 : |(k : K) * 2 ^ q| ≤ 2 ^ (p : ℤ) * 2 ^ q := by
      rw [abs_mul, abs_of_pos (show (0 : K) < 2 ^ q by positivity)]
      refine mul_le_mul_of_nonneg_right ?_ (by positivity)
      rw [zpow_natCast]
      exact_mod_cast hk
    have h2 : (2 : K) ^ (p : ℤ) * 2 ^ q ≤ 2 ^ e := by
      rw [← zpow_add₀ (by norm_num)]
      exact zpow_le_zpow_right₀ (by norm_num) (by omega)
    have h3 : |(k : K) * 2 ^ q| = 2 ^ e := le_antisymm (h1.trans h2) h
    have hm : Mult (e - p + 1) ((2 : K) ^ e) := mult_weaken (show e - p + 1 ≤ e by omega) ⟨1, by push_cast; ring⟩
    rcases le_total 0 ((k : K) * 2 ^ q) with h4 | h4
    · rw [abs_of_nonneg h4] at h3
      rw [h3]; exact hm
    · rw [abs_of_nonpos h4] at h3
      have : (k : K) * 2 ^ q = 0 - 2 ^ e := by linarith
      rw [this]
      exact Mult.sub ⟨0, by simp⟩ hm

/-- Adding half a pixel leaves a multiple of 2^-54. -/
theorem half_spacing (w : K) (hw : IsFloat 53 w) : Mult (-54) (roundNum binary64 (w + 1 / 2)) := by
  have hh : Mult (-54) (1 / 2 : K) := mult_weaken (show (-54 : ℤ) ≤ -1 by norm_num) ⟨1, by norm_num⟩
  have good : binary64.Good := ⟨by decide, by decide⟩
  have e14 : (2 : K) ^ (-2 : ℤ) = 1 / 4 := by norm_num
  have pl : ∀ {q : ℤ} {x : K}, -1074 ≤ q → Mult q x → roundNum binary64 x = Rounding.fl 53 x := fun {q x} hq h =>
    roundNum_plain binary64 (by decide) (.inr (mult_weaken (show binary64.quantum ≤ q from hq) h))
  rcases le_or_gt (1 / 4) |w + 1 / 2| with h | h
  · have h1 : (2 : K) ^ (-2 : ℤ) ≤ |roundNum binary64 (w + 1 / 2)| := by
      refine roundNum_ge binary64 (by decide) (show (-1022 : ℤ) ≤ -2 by norm_num) ?_
      rw [e14]; exact h
    exact fl_spacing (p := 53) (by norm_num) (roundNum_isFloat binary64 good _) h1
  · have h1 : (2 : K) ^ (-2 : ℤ) ≤ |w| := by
      rw [e14]
      rw [abs_lt] at h
      rw [abs_of_nonpos (by linarith)]
      linarith
    have h2 := Mult.add (fl_spacing (p := 53) (by norm_num) hw h1) hh
    rw [pl (by norm_num) h2]
    exact Mult.fl (by norm_num) h2

/-- One pixel coordinate on the values. -/
theorem coordN {num den : Nat → K} {N : K} (h1 : 1 ≤ N) (h2 : N ≤ 2 ^ 10) (hn : Bounded num N 127) (hd : Bounded den N 3) {S O x' y' z' x y z : K} (bS : |S| ≤ 2 ^ 16) (bO : |O| ≤ 2 ^ 16)
    (hx : Approx (1 / 2 ^ 53) 4 x' x N) (hy : Approx (1 / 2 ^ 53) 4 y' y N) (hz : Approx (1 / 2 ^ 53) 4 z' z N) (hden : 1 / 2 ≤ |Geotiff.computeP den x y z|) :
    1 / 4 ≤ |computePR (roundNum binary64) den x' y' z'| ∧ ∃ X' : K, X' = roundNum binary64 (roundNum binary64 (roundNum binary64 (roundNum binary64
        (computePR (roundNum binary64) num x' y' z' / computePR (roundNum binary64) den x' y' z') * S) + O) + 1 / 2) ∧
      |X' - (Geotiff.computeP num x y z / Geotiff.computeP den x y z * S + O + 1 / 2)| ≤ 1 / 10 ^ 6 ∧ |X'| ≤ 2 ^ 26 ∧ Mult (-54) X' := by
  have an := hn.approx h1 h2 hx hy hz
  have ad := hd.approx h1 h2 hx hy hz
  rw [show (127 : K) + 1 = 128 by norm_num] at an
  rw [show (3 : K) + 1 = 4 by norm_num] at ad
  obtain ⟨b1, b2, b3⟩ := lastN (slack64 (K := K)) ((tiny (K := K)).trans (by norm_num)) an ad hden bS bO
  refine ⟨b1, _, rfl, b2, ?_, half_spacing _ (roundNum_isFloat binary64 ⟨by decide, by decide⟩ _)⟩
  generalize roundNum (K := K) binary64 (roundNum binary64 (roundNum binary64 (roundNum binary64
        (computePR (roundNum binary64) num x' y' z' / computePR (roundNum binary64) den x' y' z') * S) + O) + 1 / 2) = X' at *
  have := abs_add_le (X' - (Geotiff.computeP num x y z / Geotiff.computeP den x y z * S + O + 1 / 2)) (Geotiff.computeP num x y z / Geotiff.computeP den x y z * S + O + 1 / 2)
  rw [sub_add_cancel] at this
  have e : (1 : K) / 10 ^ 6 + 2 ^ 25 ≤ 2 ^ 26 := by norm_num
  linarith

/-- Specification: an RPC of ordinary size: images of at most 65536 pixels, and with normalised coordinates up to `N` numerator terms of at most 127 and denominator terms of at most 3
together. -/
structure OrdinaryUpTo (v : Geotiff.Rpc K) (N : K) : Prop where
  one : 1 ≤ N
  most : N ≤ 2 ^ 10
  sampNum : Bounded v.sampNum N 127
  sampDen : Bounded v.sampDen N 3
  lineNum : Bounded v.lineNum N 127
  lineDen : Bounded v.lineDen N 3
  sampScale : |v.sampScale| ≤ 2 ^ 16
  sampOff : |v.sampOff| ≤ 2 ^ 16
  lineScale : |v.lineScale| ≤ 2 ^ 16
  lineOff : |v.lineOff| ≤ 2 ^ 16
  latScale : 2 ^ (-100 : ℤ) ≤ |v.latScale|
  lonScale : 2 ^ (-100 : ℤ) ≤ |v.lonScale|
  hScale : 2 ^ (-100 : ℤ) ≤ |v.hScale|
  latOff : |v.latOff| ≤ 360
  lonOff : |v.lonOff| ≤ 360
  hOff : |v.hOff| ≤ 2 ^ (100 : ℤ)

/-- Specification: the position is within `N` normalised units, and the denominators are at least 1/2 there. -/
def Regular (v : Geotiff.Rpc K) (N lo la al : K) : Prop :=
  |(la - v.latOff) / v.latScale| ≤ N ∧ |(lo - v.lonOff) / v.lonScale| ≤ N ∧ |(al - v.hOff) / v.hScale| ≤ N ∧
  1 / 2 ≤ |Geotiff.computeP v.sampDen ((la - v.latOff) / v.latScale) ((lo - v.lonOff) / v.lonScale) ((al - v.hOff) / v.hScale)| ∧
  1 / 2 ≤ |Geotiff.computeP v.lineDen ((la - v.latOff) / v.latScale) ((lo - v.lonOff) / v.lonScale) ((al - v.hOff) / v.hScale)|

theorem nz100 {s : K} (hs : (2 : K) ^ (-100 : ℤ) ≤ |s|) : s ≠ 0 := by
  rintro rfl
  rw [abs_zero] at hs
  exact absurd hs (not_le.mpr (by positivity))

theorem tiny100 : (2 : K) ^ (-1022 : ℤ) ≤ 2 ^ (-100 : ℤ) := zpow_le_zpow_right₀ (by norm_num) (by norm_num)

theorem tiny1 : (2 : K) ^ (-1022 : ℤ) ≤ 1 := zpow_le_one_of_nonpos₀ (by norm_num) (by norm_num)

/-- The rounded RPC on the values: accurate to a millionth of a pixel, a multiple of 2^-54. -/
theorem rpcN (v : Geotiff.Rpc K) {N : K} (hv : OrdinaryUpTo v N) (lo la al : K) (h : Regular v N lo la al) :
    ∃ X Y X' Y', v.project lo la al = some (X, Y) ∧ rpcR (roundNum binary64) v lo la al = some (X', Y') ∧ |X' - X| ≤ 1 / 10 ^ 6 ∧ |Y' - Y| ≤ 1 / 10 ^ 6 ∧
      |X'| ≤ 2 ^ 26 ∧ |Y'| ≤ 2 ^ 26 ∧ Mult (-54) X' ∧ Mult (-54) Y' := by
  obtain ⟨b1, b2, b3, d1, d2⟩ := h
  have hu : (0 : K) ≤ 1 / 2 ^ 53 := by positivity
  have ax := normalN (slack64 (K := K)) hu ((tiny100 (K := K)).trans hv.latScale) hv.one (tiny1 (K := K)) (nz100 hv.latScale) b1
  have ay := normalN (slack64 (K := K)) hu ((tiny100 (K := K)).trans hv.lonScale) hv.one (tiny1 (K := K)) (nz100 hv.lonScale) b2
  have az := normalN (slack64 (K := K)) hu ((tiny100 (K := K)).trans hv.hScale) hv.one (tiny1 (K := K)) (nz100 hv.hScale) b3
  obtain ⟨q1, X', eX, x1, x2, x3⟩ := coordN hv.one hv.most hv.sampNum hv.sampDen hv.sampScale hv.sampOff ax ay az d1
  obtain ⟨q2, Y', eY, y1, y2, y3⟩ := coordN hv.one hv.most hv.lineNum hv.lineDen hv.lineScale hv.lineOff ax ay az d2
  have nz : ∀ {d c : K}, 0 < c → c ≤ |d| → d ≠ 0 := by
    rintro d c h0 h rfl
    rw [abs_zero] at h
    exact absurd h (not_le.mpr h0)
  refine ⟨_, _, X', Y', ?_, ?_, x1, y1, x2, y2, x3, y3⟩
  · simp only [Geotiff.Rpc.project, ImageUtils.fdiv, if_neg (nz100 hv.latScale), if_neg (nz100 hv.lonScale), if_neg (nz100 hv.hScale), if_neg (nz (by norm_num) d1),
      if_neg (nz (by norm_num) d2), Option.bind_eq_bind, Option.bind_some]
  · simp only [rpcR, divR, ImageUtils.fdiv, if_neg (nz100 hv.latScale), if_neg (nz100 hv.lonScale), if_neg (nz100 hv.hScale), if_neg (nz (by norm_num) q1),
      if_neg (nz (by norm_num) q2), Option.map_some, Option.bind_eq_bind, Option.bind_some, eX, eY]

theorem coord_valueN {num den : Nat → Num K} {num' den' : Nat → K} {N : K} (h1 : 1 ≤ N) (hn : Bounded num' N 127) (hd : Bounded den' N 3) (vn : ∀ i < 20, (num i).val = some (num' i))
    (vd : ∀ i < 20, (den i).val = some (den' i)) {S O x y z : Num K} {S' O' x' y' z' : K} (hS : S.val = some S') (hO : O.val = some O') (bS : |S'| ≤ 2 ^ 16) (bO : |O'| ≤ 2 ^ 16)
    (vx : x.val = some x') (vy : y.val = some y') (vz : z.val = some z') (hx : |x'| ≤ 2 ^ (11 : ℤ)) (hy : |y'| ≤ 2 ^ (11 : ℤ)) (hz : |z'| ≤ 2 ^ (11 : ℤ))
    (hden : 1 / 4 ≤ |computePR (roundNum binary64) den' x' y' z'|) :
    (add binary64 (add binary64 (mul binary64 (div binary64 (computePI binary64 num x y z) (computePI binary64 den x y z)) S) O) (.fin (1 / 2))).val = some
      (roundNum binary64 (roundNum binary64 (roundNum binary64 (roundNum binary64
        (computePR (roundNum binary64) num' x' y' z' / computePR (roundNum binary64) den' x' y' z') * S') + O') + 1 / 2)) := by
  have c1 : ∀ i < 20, |num' i| ≤ 2 ^ (7 : ℤ) := fun i hi => (hn.coef h1 i hi).trans (by norm_num)
  have c2 : ∀ i < 20, |den' i| ≤ 2 ^ (7 : ℤ) := fun i hi => (hd.coef h1 i hi).trans (by norm_num)
  obtain ⟨n1, n2⟩ := poly_valueN num num' vn c1 vx vy vz hx hy hz
  obtain ⟨d1, d2⟩ := poly_valueN den den' vd c2 vx vy vz hx hy hz
  have wd : ∀ {x : K}, |x| ≤ 2 ^ 16 → |x| ≤ 2 ^ (16 : ℤ) := fun h => h.trans (le_of_eq (by norm_num))
  have hd5 : (2 : K) ^ (-2 : ℤ) ≤ |computePR (roundNum binary64) den' x' y' z'| := by
    refine le_trans (le_of_eq ?_) hden
    norm_num
  obtain ⟨q1, q2⟩ := div_value n1 d1 n2 hd5 (by norm_num) (by norm_num)
  obtain ⟨m1, m2⟩ := mul_value q1 hS q2 (wd bS) (by norm_num) (by norm_num)
  obtain ⟨a1, a2⟩ := add_value (e := 100) m1 hO (wk m2 (by norm_num)) (wk (wd bO) (by norm_num)) (by norm_num) (by norm_num)
  have hh : |(1 / 2 : K)| ≤ 2 ^ (101 : ℤ) := by
    rw [abs_of_nonneg (by norm_num)]
    refine le_trans (by norm_num : (1 / 2 : K) ≤ 2 ^ (0 : ℤ)) (zpow_le_zpow_right₀ (by norm_num) (by norm_num))
  exact (add_value (e := 101) (b := .fin (1 / 2)) a1 rfl (wk a2 (by norm_num)) hh (by norm_num) (by norm_num)).1

/-- The IEEE projection has the values of the rounded one. -/
theorem rpcN_value (c : Geotiff.Rpc (Num K)) (v : Geotiff.Rpc K) (hc : Stores c v) {N : K} (hv : OrdinaryUpTo v N) (lon lat alt : Num K) (lo la al : K) (hlo : lon.val = some lo)
    (hla : lat.val = some la) (hal : alt.val = some al) (b1 : |lo| ≤ 2 ^ (100 : ℤ)) (b2 : |la| ≤ 2 ^ (100 : ℤ)) (b3 : |al| ≤ 2 ^ (100 : ℤ)) (h : Regular v N lo la al) (X' Y' : K)
    (hR : rpcR (roundNum binary64) v lo la al = some (X', Y')) : (rpcI binary64 c lon lat alt).1.val = some X' ∧ (rpcI binary64 c lon lat alt).2.val = some Y' := by
  obtain ⟨r1, r2, r3, d1, d2⟩ := h
  have hu : (0 : K) ≤ 1 / 2 ^ 53 := by positivity
  have ax := normalN (slack64 (K := K)) hu ((tiny100 (K := K)).trans hv.latScale) hv.one (tiny1 (K := K)) (nz100 hv.latScale) r1
  have ay := normalN (slack64 (K := K)) hu ((tiny100 (K := K)).trans hv.lonScale) hv.one (tiny1 (K := K)) (nz100 hv.lonScale) r2
  have az := normalN (slack64 (K := K)) hu ((tiny100 (K := K)).trans hv.hScale) hv.one (tiny1 (K := K)) (nz100 hv.hScale) r3
  obtain ⟨q1, -⟩ := coordN hv.one hv.most hv.sampNum hv.sampDen hv.sampScale hv.sampOff ax ay az d1
  obtain ⟨q2, -⟩ := coordN hv.one hv.most hv.lineNum hv.lineDen hv.lineScale hv.lineOff ax ay az d2
  have two : ∀ {s' s : K}, Approx (1 / 2 ^ 53) 4 s' s N → |s'| ≤ 2 ^ (11 : ℤ) := by
    intro s' s hs
    refine hs.size'.trans ((mul_le_mul_of_nonneg_left hv.most (by positivity)).trans ?_)
    norm_num
  have w360 : ∀ {x : K}, |x| ≤ 360 → |x| ≤ 2 ^ (100 : ℤ) := fun h => h.trans (by norm_num)
  obtain ⟨v1, c1⟩ := sub_value hla hc.latOff b2 (w360 hv.latOff) (by norm_num) (by norm_num)
  obtain ⟨v2, -⟩ := div_value v1 hc.latScale c1 hv.latScale (by norm_num) (by norm_num)
  obtain ⟨w1, e1⟩ := sub_value hlo hc.lonOff b1 (w360 hv.lonOff) (by norm_num) (by norm_num)
  obtain ⟨w2, -⟩ := div_value w1 hc.lonScale e1 hv.lonScale (by norm_num) (by norm_num)
  obtain ⟨z1, f1⟩ := sub_value hal hc.hOff b3 hv.hOff (by norm_num) (by norm_num)
  obtain ⟨z2, -⟩ := div_value z1 hc.hScale f1 hv.hScale (by norm_num) (by norm_num)
  have kX := coord_valueN hv.one hv.sampNum hv.sampDen hc.sampNum hc.sampDen hc.sampScale hc.sampOff hv.sampScale hv.sampOff v2 w2 z2 (two ax) (two ay) (two az) q1
  have kY := coord_valueN hv.one hv.lineNum hv.lineDen hc.lineNum hc.lineDen hc.lineScale hc.lineOff hv.lineScale hv.lineOff v2 w2 z2 (two ax) (two ay) (two az) q2
  have nz : ∀ {d : K}, 1 / 4 ≤ |d| → d ≠ 0 := by
    rintro d h rfl
    rw [abs_zero] at h
    exact absurd h (by norm_num)
  simp only [rpcR, divR, ImageUtils.fdiv, if_neg (nz100 hv.latScale), if_neg (nz100 hv.lonScale), if_neg (nz100 hv.hScale), if_neg (nz q1),
    if_neg (nz q2), Option.map_some, Option.bind_eq_bind, Option.bind_some, Option.some.injEq, Prod.mk.injEq] at hR
  obtain ⟨rfl, rfl⟩ := hR
  exact ⟨kX, kY⟩

end
end Verif.SolverIeee
