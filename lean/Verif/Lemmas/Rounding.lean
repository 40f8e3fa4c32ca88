import Verif.Model.Rounding
import Mathlib.Tactic.Linarith
import Mathlib.Tactic.Ring
import Mathlib.Tactic.FieldSimp
import Mathlib.Tactic.NormNum
import Mathlib.Tactic.Positivity
import Mathlib.Tactic.GCongr
import Mathlib.Algebra.Order.Field.Power

/-! The usual facts about rounding to nearest. -/

set_option linter.unusedSectionVars false

namespace Verif.Rounding

section
variable {K : Type} [Field K] [LinearOrder K] [IsStrictOrderedRing K] [FloorRing K]

theorem roundEven_int (k : ℤ) : roundEven (k : K) = k := by
  unfold roundEven
  simp

theorem roundEven_bounds (q : K) : ⌊q⌋ ≤ roundEven q ∧ roundEven q ≤ ⌊q⌋ + 1 := by
  unfold roundEven
  split_ifs <;> omega

theorem roundEven_err (q : K) : |(roundEven q : K) - q| ≤ 1 / 2 := by
  have h1 := Int.floor_le q
  have h2 := Int.lt_floor_add_one q
  unfold roundEven
  rw [abs_le]
  split_ifs <;> push_cast <;> constructor <;> linarith

theorem roundEven_mono : Monotone (roundEven : K → ℤ) := by
  intro q q' h
  rcases (Int.floor_mono h).lt_or_eq with hf | hf
  · have := (roundEven_bounds q).2
    have := (roundEven_bounds q').1
    omega
  · have hc : (⌊q⌋ : K) = (⌊q'⌋ : K) := by rw [hf]
    unfold roundEven
    rw [hf]
    split_ifs <;> first | omega | (exfalso; linarith)

/-- The only integer at distance less than one half. -/
theorem roundEven_unique {q : K} {m : ℤ} (h : |q - m| < 1 / 2) : roundEven q = m := by
  have e := roundEven_err q
  rw [abs_le] at e
  rw [abs_lt] at h
  have h1 : ((roundEven q : ℤ) : K) < ((m + 1 : ℤ) : K) := by push_cast; linarith [e.1, e.2, h.1, h.2]
  have h2 : ((m : ℤ) : K) < ((roundEven q + 1 : ℤ) : K) := by push_cast; linarith [e.1, e.2, h.1, h.2]
  rw [Int.cast_lt] at h1 h2
  omega

/-- At distance exactly one half the even neighbour is taken. -/
theorem roundEven_even {q : K} {m : ℤ} (h : |q - m| ≤ 1 / 2) (hm : Even m) : roundEven q = m := by
  rcases h.lt_or_eq with h | h
  · exact roundEven_unique h
  · rcases abs_eq (by norm_num : (0 : K) ≤ 1 / 2) |>.mp h with h | h
    · have hf : ⌊q⌋ = m := by
        rw [Int.floor_eq_iff]; constructor <;> linarith
      unfold roundEven
      rw [hf, if_neg (by linarith), if_neg (by linarith), if_pos hm]
    · have hf : ⌊q⌋ = m - 1 := by
        rw [Int.floor_eq_iff]; push_cast; constructor <;> linarith
      have hodd : ¬ Even (m - 1) := by
        intro hc
        obtain ⟨a, ha⟩ := hm
        obtain ⟨b, hb⟩ := hc
        omega
      unfold roundEven
      rw [hf]
      push_cast
      rw [if_neg (by linarith), if_neg (by linarith), if_neg hodd]
      ring

theorem two_pos' : (0 : K) < 2 := by norm_num

theorem zpow_split (a b : ℤ) : (2 : K) ^ (a + b) = 2 ^ a * 2 ^ b := zpow_add₀ two_pos'.ne' a b

theorem log_lo {x : K} (hx : 0 < x) : (2 : K) ^ Int.log 2 x ≤ x := by
  have := Int.zpow_log_le_self (R := K) (b := 2) (by norm_num) hx
  simpa using this

theorem log_hi (x : K) : x < (2 : K) ^ (Int.log 2 x + 1) := by
  have := Int.lt_zpow_succ_log_self (R := K) (b := 2) (by norm_num) x
  simpa using this

theorem log_unique {x : K} (e : ℤ) (h1 : (2 : K) ^ e ≤ x) (h2 : x < 2 ^ (e + 1)) : Int.log 2 x = e := by
  have hx : 0 < x := lt_of_lt_of_le (by positivity) h1
  have a : e ≤ Int.log 2 x := by
    rw [← Int.zpow_le_iff_le_log (by norm_num) hx]; simpa using h1
  have b : Int.log 2 x < e + 1 := by
    rw [← Int.lt_zpow_iff_log_lt (by norm_num) hx]; simpa using h2
  omega

/-- The scaled number lies between `2^(p-1)` and `2^p`. -/
theorem scaled_bounds (p : ℕ) {x : K} (hx : 0 < x) :
    (2 : K) ^ ((p : ℤ) - 1) ≤ x * 2 ^ ((p : ℤ) - 1 - Int.log 2 x) ∧
      x * 2 ^ ((p : ℤ) - 1 - Int.log 2 x) < 2 ^ (p : ℤ) := by
  have hs : (0 : K) < 2 ^ ((p : ℤ) - 1 - Int.log 2 x) := by positivity
  constructor
  · have := mul_le_mul_of_nonneg_right (log_lo hx) hs.le
    rw [← zpow_split] at this
    rwa [show Int.log 2 x + ((p : ℤ) - 1 - Int.log 2 x) = (p : ℤ) - 1 by ring] at this
  · have := mul_lt_mul_of_pos_right (log_hi x) hs
    rw [← zpow_split] at this
    rwa [show Int.log 2 x + 1 + ((p : ℤ) - 1 - Int.log 2 x) = (p : ℤ) by ring] at this

theorem mant_bounds {p : ℕ} (hp : 1 ≤ p) {x : K} (hx : 0 < x) :
    (2 : ℤ) ^ (p - 1) ≤ roundEven (x * 2 ^ ((p : ℤ) - 1 - Int.log 2 x)) ∧
      roundEven (x * 2 ^ ((p : ℤ) - 1 - Int.log 2 x)) ≤ 2 ^ p := by
  obtain ⟨h1, h2⟩ := scaled_bounds p hx
  constructor
  · have h1' : (((2 : ℤ) ^ (p - 1) : ℤ) : K) ≤ x * 2 ^ ((p : ℤ) - 1 - Int.log 2 x) := by
      refine le_trans (le_of_eq ?_) h1
      push_cast
      rw [← zpow_natCast]
      congr 1
      omega
    have := roundEven_mono h1'
    rwa [roundEven_int] at this
  · have h2' : x * 2 ^ ((p : ℤ) - 1 - Int.log 2 x) ≤ (((2 : ℤ) ^ p : ℤ) : K) := by
      refine le_trans h2.le (le_of_eq ?_)
      push_cast
      rw [← zpow_natCast]
    have := roundEven_mono h2'
    rwa [roundEven_int] at this

theorem flPos_bounds {p : ℕ} (hp : 1 ≤ p) {x : K} (hx : 0 < x) :
    (2 : K) ^ Int.log 2 x ≤ flPos p x ∧ flPos p x ≤ 2 ^ (Int.log 2 x + 1) := by
  obtain ⟨h1, h2⟩ := mant_bounds hp hx
  have hs : (0 : K) < 2 ^ (Int.log 2 x - ((p : ℤ) - 1)) := by positivity
  unfold flPos
  constructor
  · have h1' : (2 : K) ^ ((p : ℤ) - 1) ≤ (roundEven (x * 2 ^ ((p : ℤ) - 1 - Int.log 2 x)) : K) := by
      have : (((2 : ℤ) ^ (p - 1) : ℤ) : K) ≤ (roundEven (x * 2 ^ ((p : ℤ) - 1 - Int.log 2 x)) : K) :=
        Int.cast_le.mpr h1
      refine le_trans (le_of_eq ?_) this
      push_cast
      rw [← zpow_natCast]
      congr 1
      omega
    have := mul_le_mul_of_nonneg_right h1' hs.le
    rw [← zpow_split] at this
    rwa [show (p : ℤ) - 1 + (Int.log 2 x - ((p : ℤ) - 1)) = Int.log 2 x by ring] at this
  · have h2' : (roundEven (x * 2 ^ ((p : ℤ) - 1 - Int.log 2 x)) : K) ≤ (2 : K) ^ (p : ℤ) := by
      have : (roundEven (x * 2 ^ ((p : ℤ) - 1 - Int.log 2 x)) : K) ≤ (((2 : ℤ) ^ p : ℤ) : K) :=
        Int.cast_le.mpr h2
      refine le_trans this (le_of_eq ?_)
      push_cast
      rw [← zpow_natCast]
    have := mul_le_mul_of_nonneg_right h2' hs.le
    rw [← zpow_split] at this
    rwa [show (p : ℤ) + (Int.log 2 x - ((p : ℤ) - 1)) = Int.log 2 x + 1 by ring] at this

theorem flPos_zero (p : ℕ) : flPos p (0 : K) = 0 := by
  have := roundEven_int (K := K) 0
  unfold flPos
  rw [zero_mul]
  rw [Int.cast_zero] at this
  rw [this]; simp

theorem flPos_mono {p : ℕ} (hp : 1 ≤ p) {x y : K} (hx : 0 < x) (h : x ≤ y) : flPos p x ≤ flPos p y := by
  have hy : 0 < y := lt_of_lt_of_le hx h
  rcases (Int.log_mono_right (b := 2) hx h).lt_or_eq with hl | hl
  · refine le_trans (flPos_bounds hp hx).2 (le_trans ?_ (flPos_bounds hp hy).1)
    exact zpow_le_zpow_right₀ (by norm_num) (by omega)
  · unfold flPos
    rw [hl]
    refine mul_le_mul_of_nonneg_right ?_ (by positivity)
    exact Int.cast_le.mpr (roundEven_mono (mul_le_mul_of_nonneg_right h (by positivity)))

theorem flPos_pos {p : ℕ} (hp : 1 ≤ p) {x : K} (hx : 0 < x) : 0 < flPos p x :=
  lt_of_lt_of_le (by positivity) (flPos_bounds hp hx).1

theorem flPos_err {p : ℕ} {x : K} (hx : 0 < x) : |flPos p x - x| ≤ x / 2 ^ p := by
  have he := roundEven_err (x * 2 ^ ((p : ℤ) - 1 - Int.log 2 x))
  have hs : (0 : K) < 2 ^ (Int.log 2 x - ((p : ℤ) - 1)) := by positivity
  have hx2 : x = x * 2 ^ ((p : ℤ) - 1 - Int.log 2 x) * 2 ^ (Int.log 2 x - ((p : ℤ) - 1)) := by
    rw [mul_assoc, ← zpow_split, show (p : ℤ) - 1 - Int.log 2 x + (Int.log 2 x - ((p : ℤ) - 1)) = 0 by ring]
    simp
  have h1 : |flPos p x - x| = |(roundEven (x * 2 ^ ((p : ℤ) - 1 - Int.log 2 x)) : K) -
      x * 2 ^ ((p : ℤ) - 1 - Int.log 2 x)| * 2 ^ (Int.log 2 x - ((p : ℤ) - 1)) := by
    conv_lhs => rhs; rhs; rw [hx2]
    unfold flPos
    rw [← sub_mul, abs_mul, abs_of_pos hs]
  rw [h1]
  refine le_trans (mul_le_mul_of_nonneg_right he hs.le) ?_
  have : (1 : K) / 2 * 2 ^ (Int.log 2 x - ((p : ℤ) - 1)) = 2 ^ Int.log 2 x / 2 ^ p := by
    rw [show Int.log 2 x - ((p : ℤ) - 1) = Int.log 2 x + 1 - (p : ℤ) by ring, zpow_sub₀ two_pos'.ne',
      zpow_add₀ two_pos'.ne', zpow_natCast, zpow_one]
    ring
  rw [this]
  exact div_le_div_of_nonneg_right (log_lo hx) (by positivity)

theorem fl_of_pos (p : ℕ) {x : K} (hx : 0 < x) : fl p x = flPos p x := if_neg (not_lt.mpr hx.le)

theorem fl_zero (p : ℕ) : fl p (0 : K) = 0 := by
  unfold fl
  rw [if_neg (lt_irrefl _), flPos_zero]

theorem fl_neg (p : ℕ) (x : K) : fl p (-x) = -fl p x := by
  rcases lt_trichotomy x 0 with h | h | h
  · rw [fl_of_pos p (neg_pos.mpr h)]
    unfold fl
    rw [if_pos h, neg_neg]
  · rw [h, neg_zero, fl_zero, neg_zero]
  · rw [fl_of_pos p h]
    unfold fl
    rw [if_pos (neg_neg_iff_pos.mpr h), neg_neg]

theorem fl_err (p : ℕ) (x : K) : |fl p x - x| ≤ |x| / 2 ^ p := by
  rcases lt_trichotomy x 0 with h | h | h
  · have := flPos_err (p := p) (neg_pos.mpr h)
    rw [← neg_neg x, fl_neg, fl_of_pos p (neg_pos.mpr h), neg_sub_neg, abs_sub_comm, abs_neg, abs_of_pos (neg_pos.mpr h)]
    exact this
  · rw [h, fl_zero]; simp
  · rw [fl_of_pos p h, abs_of_pos h]
    exact flPos_err h

theorem fl_pos {p : ℕ} (hp : 1 ≤ p) {x : K} (hx : 0 < x) : 0 < fl p x := by
  rw [fl_of_pos p hx]; exact flPos_pos hp hx

theorem fl_mono {p : ℕ} (hp : 1 ≤ p) : Monotone (fl p : K → K) := by
  intro x y h
  rcases lt_trichotomy x 0 with hx | hx | hx
  · have hfx : fl p x < 0 := by
      have := fl_pos hp (neg_pos.mpr hx)
      rw [fl_neg] at this
      linarith
    rcases lt_trichotomy y 0 with hy | hy | hy
    · have := flPos_mono hp (neg_pos.mpr hy) (neg_le_neg h)
      rw [← fl_of_pos p (neg_pos.mpr hy), ← fl_of_pos p (neg_pos.mpr hx), fl_neg, fl_neg] at this
      linarith
    · rw [hy, fl_zero]; exact hfx.le
    · exact hfx.le.trans (fl_pos hp hy).le
  · rw [hx, fl_zero]
    rcases (hx ▸ h).lt_or_eq with hy | hy
    · exact (fl_pos hp hy).le
    · rw [← hy, fl_zero]
  · rw [fl_of_pos p hx, fl_of_pos p (hx.trans_le h)]
    exact flPos_mono hp hx h

theorem fl_nonneg {p : ℕ} (hp : 1 ≤ p) {x : K} (hx : 0 ≤ x) : 0 ≤ fl p x := by
  have := fl_mono (K := K) hp hx
  rwa [fl_zero] at this

theorem flPos_exact {p : ℕ} (hp : 1 ≤ p) (k e : ℤ) (hk0 : 0 < k) (hk : k ≤ 2 ^ p) :
    flPos p ((k : K) * 2 ^ e) = (k : K) * 2 ^ e := by
  have hkK : (0 : K) < (k : K) := Int.cast_pos.mpr hk0
  have hx : (0 : K) < (k : K) * 2 ^ e := by positivity
  -- the scaled number is an integer
  have hint : ∃ m : ℤ, (k : K) * 2 ^ e * 2 ^ ((p : ℤ) - 1 - Int.log 2 ((k : K) * 2 ^ e)) = (m : K) := by
    rcases hk.lt_or_eq with hlt | heq
    · have hE : Int.log 2 ((k : K) * 2 ^ e) < e + p := by
        rw [← Int.lt_zpow_iff_log_lt (by norm_num) hx]
        push_cast
        rw [zpow_split, mul_comm]
        refine mul_lt_mul_of_pos_left ?_ (by positivity)
        have : ((k : ℤ) : K) < (((2 : ℤ) ^ p : ℤ) : K) := Int.cast_lt.mpr hlt
        rw [zpow_natCast]
        simpa using this
      obtain ⟨n, hn⟩ := Int.eq_ofNat_of_zero_le (a := e + (p : ℤ) - 1 - Int.log 2 ((k : K) * 2 ^ e)) (by omega)
      refine ⟨k * 2 ^ n, ?_⟩
      rw [mul_assoc, ← zpow_split, show e + ((p : ℤ) - 1 - Int.log 2 ((k : K) * 2 ^ e)) = (n : ℤ) by omega,
        zpow_natCast]
      push_cast
      ring
    · have hx2 : (k : K) * 2 ^ e = 2 ^ ((p : ℤ) + e) := by
        rw [heq, zpow_split, zpow_natCast]; push_cast; ring
      have hE : Int.log 2 ((k : K) * 2 ^ e) = (p : ℤ) + e := by
        rw [hx2]
        have := Int.log_zpow (R := K) (b := 2) (by norm_num) ((p : ℤ) + e)
        simpa using this
      refine ⟨2 ^ (p - 1), ?_⟩
      rw [hE, hx2, ← zpow_split, show (p : ℤ) + e + ((p : ℤ) - 1 - ((p : ℤ) + e)) = ((p - 1 : ℕ) : ℤ) by omega,
        zpow_natCast]
      push_cast
      rfl
  obtain ⟨m, hm⟩ := hint
  unfold flPos
  rw [hm, roundEven_int, ← hm, mul_assoc, ← zpow_split,
    show (p : ℤ) - 1 - Int.log 2 ((k : K) * 2 ^ e) + (Int.log 2 ((k : K) * 2 ^ e) - ((p : ℤ) - 1)) = 0 by ring]
  simp

/-- Numbers with at most `p` significant bits (`2^p` itself included) are not changed. -/
theorem fl_exact {p : ℕ} (hp : 1 ≤ p) (k e : ℤ) (hk : |k| ≤ 2 ^ p) : fl p ((k : K) * 2 ^ e) = (k : K) * 2 ^ e := by
  rcases lt_trichotomy k 0 with h | h | h
  · have h1 : (0 : K) < ((-k : ℤ) : K) * 2 ^ e := by
      have : (0 : K) < ((-k : ℤ) : K) := Int.cast_pos.mpr (by omega)
      positivity
    have h2 := flPos_exact (K := K) hp (-k) e (by omega) (by rw [abs_of_neg h] at hk; exact hk)
    rw [← fl_of_pos p h1] at h2
    push_cast at h2
    rw [neg_mul, fl_neg] at h2
    linarith
  · subst h; simp [fl_zero]
  · have h1 : (0 : K) < (k : K) * 2 ^ e := by
      have : (0 : K) < (k : K) := Int.cast_pos.mpr h
      positivity
    rw [fl_of_pos p h1]
    exact flPos_exact hp k e h (by rw [abs_of_pos h] at hk; exact hk)

/-- Every result has at most `p` significant bits. -/
theorem fl_form {p : ℕ} (hp : 1 ≤ p) (x : K) : ∃ k e : ℤ, |k| ≤ 2 ^ p ∧ fl p x = (k : K) * 2 ^ e := by
  have hpos : ∀ x : K, 0 < x → ∃ k e : ℤ, |k| ≤ 2 ^ p ∧ fl p x = (k : K) * 2 ^ e := by
    intro x hx
    have hm := mant_bounds hp hx
    refine ⟨_, _, ?_, fl_of_pos p hx⟩
    have : (0 : ℤ) ≤ 2 ^ (p - 1) := by positivity
    rw [abs_of_nonneg (le_trans this hm.1)]
    exact hm.2
  rcases lt_trichotomy x 0 with h | h | h
  · obtain ⟨k, e, h1, h2⟩ := hpos (-x) (neg_pos.mpr h)
    refine ⟨-k, e, by rwa [abs_neg], ?_⟩
    rw [fl_neg] at h2
    push_cast
    linarith
  · exact ⟨0, 0, by simp, by rw [h, fl_zero]; simp⟩
  · exact hpos x h

/-- Rounding twice is rounding once. -/
theorem fl_idem {p : ℕ} (hp : 1 ≤ p) (x : K) : fl p (fl p x) = fl p x := by
  obtain ⟨k, e, h1, h2⟩ := fl_form hp x
  rw [h2]
  exact fl_exact hp k e h1

theorem fl_int {p : ℕ} (hp : 1 ≤ p) (k : ℤ) (hk : |k| ≤ 2 ^ p) : fl p (k : K) = (k : K) := by
  have := fl_exact (K := K) hp k 0 hk
  simpa using this

theorem fl_nat {p : ℕ} (hp : 1 ≤ p) (k : ℕ) (hk : k ≤ 2 ^ p) : fl p (k : K) = (k : K) := by
  have := fl_int (K := K) hp (k : ℤ) (by rw [abs_of_nonneg (by omega)]; exact_mod_cast hk)
  simpa using this

theorem fl_one {p : ℕ} (hp : 1 ≤ p) : fl p (1 : K) = 1 := by
  have := fl_nat (K := K) hp 1 Nat.one_le_two_pow
  simpa using this

/-- To compute a rounding: find the exponent and the nearest integer mantissa. -/
theorem fl_eq {p : ℕ} {x : K} (e m : ℤ) (h1 : (2 : K) ^ e ≤ x) (h2 : x < 2 ^ (e + 1))
    (hm : |x * 2 ^ ((p : ℤ) - 1 - e) - m| < 1 / 2) : fl p x = (m : K) * 2 ^ (e - ((p : ℤ) - 1)) := by
  have hx : 0 < x := lt_of_lt_of_le (by positivity) h1
  rw [fl_of_pos p hx]
  unfold flPos
  rw [log_unique e h1 h2, roundEven_unique hm]

/-- The same for ties. -/
theorem fl_eq_even {p : ℕ} {x : K} (e m : ℤ) (h1 : (2 : K) ^ e ≤ x) (h2 : x < 2 ^ (e + 1)) (hev : Even m)
    (hm : |x * 2 ^ ((p : ℤ) - 1 - e) - m| ≤ 1 / 2) : fl p x = (m : K) * 2 ^ (e - ((p : ℤ) - 1)) := by
  have hx : 0 < x := lt_of_lt_of_le (by positivity) h1
  rw [fl_of_pos p hx]
  unfold flPos
  rw [log_unique e h1 h2, roundEven_even hm hev]

/-! ### Floats and relative errors -/

theorem fl_of_isFloat {p : ℕ} (hp : 1 ≤ p) {x : K} (h : IsFloat p x) : fl p x = x := by
  obtain ⟨k, e, h1, rfl⟩ := h
  exact fl_exact hp k e h1

theorem isFloat_fl {p : ℕ} (hp : 1 ≤ p) (x : K) : IsFloat p (fl p x) := fl_form hp x

theorem isFloat_iff {p : ℕ} (hp : 1 ≤ p) (x : K) : IsFloat p x ↔ fl p x = x :=
  ⟨fl_of_isFloat hp, fun h => h ▸ isFloat_fl hp x⟩

theorem isFloat_nat {p : ℕ} (k : ℕ) (hk : k ≤ 2 ^ p) : IsFloat p (k : K) :=
  ⟨k, 0, by rw [abs_of_nonneg (by omega)]; exact_mod_cast hk, by simp⟩

theorem isFloat_int {p : ℕ} (k : ℤ) (hk : |k| ≤ 2 ^ p) : IsFloat p (k : K) := ⟨k, 0, hk, by simp⟩

theorem isFloat_zero (p : ℕ) : IsFloat p (0 : K) := ⟨0, 0, by simp, by simp⟩

theorem isFloat_neg {p : ℕ} {x : K} (h : IsFloat p x) : IsFloat p (-x) := by
  obtain ⟨k, e, h1, rfl⟩ := h
  exact ⟨-k, e, by rwa [abs_neg], by push_cast; ring⟩

theorem unit_pos (p : ℕ) : (0 : K) < unit p := by unfold unit; positivity

theorem unit_le_half {p : ℕ} (hp : 1 ≤ p) : (unit p : K) ≤ 1 / 2 := by
  unfold unit
  apply one_div_le_one_div_of_le (by norm_num)
  calc (2 : K) = 2 ^ 1 := by norm_num
    _ ≤ 2 ^ p := pow_le_pow_right₀ (by norm_num) hp

theorem unit_mul (p : ℕ) : (unit p : K) * 2 ^ p = 1 := by
  unfold unit
  field_simp

theorem fl_err' (p : ℕ) (x : K) : |fl p x - x| ≤ unit p * |x| := by
  have := fl_err p x
  unfold unit
  rwa [one_div, inv_mul_eq_div]

/-- One operation: the exact result times `1 + d` with `|d| ≤ 2^-p`. -/
theorem fl_rel (p : ℕ) (x : K) : ∃ d : K, |d| ≤ unit p ∧ fl p x = x * (1 + d) := by
  rcases eq_or_ne x 0 with h | h
  · exact ⟨0, by rw [abs_zero]; exact (unit_pos p).le, by rw [h, fl_zero]; ring⟩
  · refine ⟨(fl p x - x) / x, ?_, ?_⟩
    · rw [abs_div, div_le_iff₀ (abs_pos.mpr h)]
      exact fl_err' p x
    · field_simp
      ring

theorem fl_le {p : ℕ} {x : K} (hx : 0 ≤ x) : fl p x ≤ x * (1 + unit p) := by
  have := (abs_le.mp (fl_err' p x)).2
  rw [abs_of_nonneg hx] at this
  linarith

theorem le_fl {p : ℕ} {x : K} (hx : 0 ≤ x) : x * (1 - unit p) ≤ fl p x := by
  have := (abs_le.mp (fl_err' p x)).1
  rw [abs_of_nonneg hx] at this
  linarith

theorem fl_abs_le (p : ℕ) (x : K) : |fl p x| ≤ |x| * (1 + unit p) := by
  have := fl_err' p x
  have h2 : |fl p x| ≤ |fl p x - x| + |x| := by
    have := abs_add_le (fl p x - x) x
    simpa using this
  linarith

theorem fl_ne_zero {p : ℕ} (hp : 1 ≤ p) {x : K} (hx : x ≠ 0) : fl p x ≠ 0 := by
  rcases lt_or_gt_of_ne hx with h | h
  · have := fl_pos hp (neg_pos.mpr h)
    rw [fl_neg] at this
    intro hc
    rw [hc] at this
    simp at this
  · exact (fl_pos hp h).ne'

/-- Composition of relative errors. -/
theorem rel_mul {a b A B : K} (ha : |a - 1| ≤ A) (hb : |b - 1| ≤ B) : |a * b - 1| ≤ (1 + A) * (1 + B) - 1 := by
  have e : a * b - 1 = (a - 1) * (b - 1) + (a - 1) + (b - 1) := by ring
  have hA : 0 ≤ A := (abs_nonneg _).trans ha
  have h1 : |(a - 1) * (b - 1)| ≤ A * B := by
    rw [abs_mul]; exact mul_le_mul ha hb (abs_nonneg _) hA
  rw [e]
  have h2 := abs_add_le ((a - 1) * (b - 1) + (a - 1)) (b - 1)
  have h3 := abs_add_le ((a - 1) * (b - 1)) (a - 1)
  linarith

theorem rel_div {a d A u : K} (ha : |a - 1| ≤ A) (hd : |d| ≤ u) (hu : u < 1) :
    |a / (1 + d) - 1| ≤ (1 + A) / (1 - u) - 1 := by
  have hd' := abs_le.mp hd
  have h1 : 0 < 1 + d := by linarith
  have h2 : 0 < 1 - u := by linarith
  have hA : 0 ≤ A := (abs_nonneg _).trans ha
  have e : a / (1 + d) - 1 = (a - 1 - d) / (1 + d) := by field_simp; ring
  have e2 : (1 + A) / (1 - u) - 1 = (A + u) / (1 - u) := by field_simp; ring
  rw [e, e2, abs_div, abs_of_pos h1]
  have h3 : |a - 1 - d| ≤ A + u := (abs_sub _ _).trans (add_le_add ha hd)
  have h4 : 0 ≤ A + u := (abs_nonneg _).trans h3
  exact div_le_div₀ h4 h3 h2 (by linarith)

theorem rel_one {d u : K} (hd : |d| ≤ u) : |(1 + d) - 1| ≤ u := by simpa using hd

/-- `1 - w` is computed exactly for a float `w` between one half and one. -/
theorem isFloat_one_sub {p : ℕ} {w : K} (hw : IsFloat p w) (h1 : 1 / 2 ≤ w) (h2 : w ≤ 1) : IsFloat p (1 - w) := by
  obtain ⟨k, e, hk, rfl⟩ := hw
  have hpos : (0 : K) < 2 ^ e := by positivity
  have hk0 : 0 < k := by
    by_contra hc
    have : (k : K) ≤ 0 := by exact_mod_cast not_lt.mp hc
    have : (k : K) * 2 ^ e ≤ 0 := mul_nonpos_of_nonpos_of_nonneg this hpos.le
    linarith
  have he : e ≤ 0 := by
    by_contra hc
    push Not at hc
    have a1 : (2 : K) ^ (1 : ℤ) ≤ 2 ^ e := zpow_le_zpow_right₀ (by norm_num) (by omega)
    have a2 : (1 : K) ≤ (k : K) := by exact_mod_cast hk0
    have : (1 : K) * 2 ^ (1 : ℤ) ≤ (k : K) * 2 ^ e := mul_le_mul a2 a1 (by positivity) (by linarith)
    norm_num at this
    linarith
  obtain ⟨n, hn⟩ := Int.eq_ofNat_of_zero_le (a := -e) (by omega)
  have hone : ((2 ^ n : ℤ) : K) * 2 ^ e = 1 := by
    push_cast
    rw [← zpow_natCast, ← zpow_split, show (n : ℤ) + e = 0 by omega, zpow_zero]
  refine ⟨2 ^ n - k, e, ?_, ?_⟩
  · have b1 : ((k : ℤ) : K) ≤ ((2 ^ n : ℤ) : K) := by
      by_contra hc
      push Not at hc
      have := mul_lt_mul_of_pos_right hc hpos
      rw [hone] at this
      linarith
    have b2 : ((2 ^ n : ℤ) : K) ≤ ((2 * k : ℤ) : K) := by
      by_contra hc
      push Not at hc
      have := mul_lt_mul_of_pos_right hc hpos
      rw [hone] at this
      push_cast at this
      linarith
    rw [Int.cast_le] at b1 b2
    rw [abs_of_pos hk0] at hk
    rw [abs_of_nonneg (by omega)]
    omega
  · push_cast at hone ⊢
    rw [sub_mul, hone]

theorem floor_near {x y : K} (h : |x - y| ≤ 1) : |⌊x⌋ - ⌊y⌋| ≤ 1 := by
  rw [abs_le] at h
  have h1 : ⌊x⌋ ≤ ⌊y + 1⌋ := Int.floor_mono (by linarith)
  have h2 : ⌊y⌋ ≤ ⌊x + 1⌋ := Int.floor_mono (by linarith)
  rw [Int.floor_add_one] at h1 h2
  rw [abs_le]
  omega

/-! ### Multiples of a power of two -/

/-- `x` is a multiple of `2^e`. -/
def Mult (e : ℤ) (x : K) : Prop := ∃ k : ℤ, x = (k : K) * 2 ^ e

theorem Mult.add {e : ℤ} {x y : K} (hx : Mult e x) (hy : Mult e y) : Mult e (x + y) := by
  obtain ⟨a, rfl⟩ := hx
  obtain ⟨b, rfl⟩ := hy
  exact ⟨a + b, by push_cast; ring⟩

theorem Mult.sub {e : ℤ} {x y : K} (hx : Mult e x) (hy : Mult e y) : Mult e (x - y) := by
  obtain ⟨a, rfl⟩ := hx
  obtain ⟨b, rfl⟩ := hy
  exact ⟨a - b, by push_cast; ring⟩

theorem Mult.int {e : ℤ} (he : e ≤ 0) (n : ℤ) : Mult e (n : K) := by
  obtain ⟨m, hm⟩ := Int.eq_ofNat_of_zero_le (a := -e) (by omega)
  refine ⟨n * 2 ^ m, ?_⟩
  push_cast
  rw [mul_assoc, ← zpow_natCast, ← zpow_split, show (m : ℤ) + e = 0 by omega, zpow_zero, mul_one]

theorem isFloat_of_mult {p : ℕ} {e : ℤ} {x : K} (hx : Mult e x) (hb : |x| ≤ 2 ^ p * 2 ^ e) : IsFloat p x := by
  obtain ⟨k, rfl⟩ := hx
  refine ⟨k, e, ?_, rfl⟩
  have hpos : (0 : K) < 2 ^ e := by positivity
  rw [abs_mul, abs_of_pos hpos] at hb
  have := le_of_mul_le_mul_right hb hpos
  have h2 : ((|k| : ℤ) : K) ≤ (((2 : ℤ) ^ p : ℤ) : K) := by push_cast; exact this
  exact Int.cast_le.mp h2

/-- The fractional part of a non-negative float is a float. -/
theorem isFloat_frac {p : ℕ} {x : K} (hx : IsFloat p x) (h0 : 0 ≤ x) : IsFloat p (x - ⌊x⌋) := by
  obtain ⟨k, e, hk, rfl⟩ := hx
  have hpos : (0 : K) < 2 ^ e := by positivity
  rcases le_or_gt 0 e with he | he
  · obtain ⟨n, rfl⟩ := Int.eq_ofNat_of_zero_le he
    have : (k : K) * 2 ^ ((n : ℤ)) = ((k * 2 ^ n : ℤ) : K) := by push_cast; rw [zpow_natCast]
    rw [this, Int.floor_intCast, sub_self]
    exact isFloat_zero p
  · refine isFloat_of_mult (e := e) (Mult.sub ⟨k, rfl⟩ (Mult.int he.le _)) ?_
    have h1 := Int.floor_le ((k : K) * 2 ^ e)
    have h2 : (0 : K) ≤ ⌊(k : K) * 2 ^ e⌋ := by exact_mod_cast Int.floor_nonneg.mpr h0
    rw [abs_of_nonneg (by linarith)]
    have h3 : (k : K) * 2 ^ e ≤ 2 ^ p * 2 ^ e := by
      refine mul_le_mul_of_nonneg_right ?_ hpos.le
      have : ((k : ℤ) : K) ≤ (((2 : ℤ) ^ p : ℤ) : K) := Int.cast_le.mpr ((le_abs_self k).trans hk)
      simpa using this
    linarith

/-- The largest float below 1 is `1 - 2^-p`. -/
theorem isFloat_lt_one {p : ℕ} (hp : 1 ≤ p) {x : K} (hx : IsFloat p x) (h : x < 1) : x ≤ 1 - unit p := by
  have hu2 := unit_le_half (K := K) hp
  rcases le_or_gt x (1 / 2) with hle | hgt
  · linarith
  obtain ⟨k, e, hk, rfl⟩ := hx
  have hpos : (0 : K) < 2 ^ e := by positivity
  have hk0 : 0 < k := by
    by_contra hc
    have h1 : (k : K) ≤ 0 := by exact_mod_cast not_lt.mp hc
    have : (k : K) * 2 ^ e ≤ 0 := mul_nonpos_of_nonpos_of_nonneg h1 hpos.le
    linarith
  have he : e ≤ 0 := by
    by_contra hc
    push Not at hc
    have a1 : (2 : K) ^ (0 : ℤ) ≤ 2 ^ e := zpow_le_zpow_right₀ (by norm_num) (by omega)
    have a2 : (1 : K) ≤ (k : K) := by exact_mod_cast hk0
    have : (1 : K) * 2 ^ (0 : ℤ) ≤ (k : K) * 2 ^ e := mul_le_mul a2 a1 (by positivity) (by linarith)
    norm_num at this
    linarith
  have hep : -(p : ℤ) ≤ e := by
    by_contra hc
    push Not at hc
    have a1 : (2 : K) ^ e ≤ 2 ^ (-(p : ℤ) - 1) := zpow_le_zpow_right₀ (by norm_num) (by omega)
    have a2 : (k : K) ≤ 2 ^ (p : ℤ) := by
      have : ((k : ℤ) : K) ≤ (((2 : ℤ) ^ p : ℤ) : K) := Int.cast_le.mpr ((le_abs_self k).trans hk)
      rw [zpow_natCast]
      simpa using this
    have : (k : K) * 2 ^ e ≤ 2 ^ (p : ℤ) * 2 ^ (-(p : ℤ) - 1) := mul_le_mul a2 a1 hpos.le (by positivity)
    rw [← zpow_split, show (p : ℤ) + (-(p : ℤ) - 1) = -1 by ring] at this
    norm_num at this
    linarith
  obtain ⟨m, hm⟩ := (Mult.int (K := K) he 1).sub ⟨k, rfl⟩
  rw [Int.cast_one] at hm
  have hm1 : 1 ≤ m := by
    by_contra hc
    have h1 : (m : K) ≤ 0 := by exact_mod_cast (by omega : m ≤ 0)
    have : (m : K) * 2 ^ e ≤ 0 := mul_nonpos_of_nonpos_of_nonneg h1 hpos.le
    linarith
  have h1 : (1 : K) * 2 ^ (-(p : ℤ)) ≤ (m : K) * 2 ^ e :=
    mul_le_mul (by exact_mod_cast hm1) (zpow_le_zpow_right₀ (by norm_num) hep) (by positivity) (by exact_mod_cast (by omega : 0 ≤ m))
  rw [← hm, one_mul, zpow_neg, zpow_natCast] at h1
  have : (unit p : K) = (2 ^ p)⁻¹ := by unfold unit; rw [one_div]
  linarith

end

end Verif.Rounding
