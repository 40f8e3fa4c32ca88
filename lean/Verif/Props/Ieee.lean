import Verif.Lemmas.Ieee

/-! C188: means and demeaned images in IEEE arithmetic, with overflow, underflow, signed zeros, infinities and NaN.
C189: spectral angles in IEEE arithmetic.
C190, C191: what happens outside the range of these theorems. -/

set_option linter.unusedSectionVars false

namespace Verif.Ieee
open Verif FloatSpectral Rounding

section
variable {K : Type} [Field K] [LinearOrder K] [IsStrictOrderedRing K]

/-- Specification: a format with at least one significant bit and two normal exponents. -/
def Format.Good (F : Format) : Prop := 1 ≤ F.p ∧ F.emin < F.emax

/-- Specification: `x` is a finite number of the format: an integer of at most `p` bits times a power of two that is at least the smallest spacing, below the top of the
range. -/
def Format.Number (F : Format) (x : K) : Prop := ∃ k e : ℤ, |k| ≤ 2 ^ F.p ∧ F.emin - (F.p - 1) ≤ e ∧ x = (k : K) * 2 ^ e ∧ |x| < 2 ^ (F.emax + 1)

/-- Specification: the array entry `a` is the finite number `x` (either zero for 0). -/
def Reads (F : Format) (a : Num K) (x : K) : Prop := F.Number x ∧ ((x = 0 ∧ ∃ s, a = .zero s) ∨ (x ≠ 0 ∧ a = .fin x))

theorem Reads.val {F : Format} {a : Num K} {x : K} (h : Reads F a x) : a.val = some x := by
  rcases h.2 with ⟨rfl, s, rfl⟩ | ⟨_, rfl⟩ <;> rfl

theorem Reads.proper {F : Format} {a : Num K} {x : K} (h : Reads F a x) : a.Proper := by
  rcases h.2 with ⟨rfl, s, rfl⟩ | ⟨h0, rfl⟩
  · trivial
  · exact h0

variable [FloorRing K]

theorem mult_weaken {q q' : ℤ} (h : q' ≤ q) {x : K} (hx : Mult q x) : Mult q' x := by
  obtain ⟨k, rfl⟩ := hx
  obtain ⟨m, hm⟩ := Int.eq_ofNat_of_zero_le (a := q - q') (by omega)
  refine ⟨k * 2 ^ m, ?_⟩
  push_cast
  rw [mul_assoc, ← zpow_natCast, ← zpow_split, ← hm]
  congr 2
  omega

theorem Reads.mult {F : Format} {a : Num K} {x : K} (h : Reads F a x) : Mult F.quantum x := by
  obtain ⟨⟨k, e, _, he, hx, _⟩, _⟩ := h
  exact mult_weaken (q := e) he ⟨k, hx⟩

theorem mult_ge {q : ℤ} {x : K} (h : Mult q x) (h0 : x ≠ 0) : 2 ^ q ≤ |x| := by
  obtain ⟨k, rfl⟩ := h
  have hq : (0 : K) < 2 ^ q := by positivity
  have hk : k ≠ 0 := by rintro rfl; simp at h0
  have : (1 : K) ≤ |(k : K)| := by
    have := Int.one_le_abs hk
    exact_mod_cast this
  rw [abs_mul, abs_of_pos hq]
  nlinarith

theorem growth_le (p : ℕ) (n : ℕ) (h : (n : K) * unit p ≤ 1 / 2) : (1 + unit p : K) ^ n ≤ 1 + 2 * n * unit p := by
  have hu := unit_pos (K := K) p
  induction n with
  | zero => simp
  | succ n ih =>
    push_cast at h ⊢
    have h1 : (n : K) * unit p ≤ 1 / 2 := by nlinarith
    have := ih h1
    rw [pow_succ]
    have e := mul_le_mul_of_nonneg_right this (by linarith : (0 : K) ≤ 1 + unit p)
    nlinarith

theorem growth_two {p n : ℕ} (hp : 1 ≤ p) (h : n ≤ 2 ^ (p - 1)) : (1 + unit p : K) ^ n ≤ 2 := by
  have hu := unit_pos (K := K) p
  have h2 : (n : K) * unit p ≤ 1 / 2 := by
    have : (n : K) ≤ 2 ^ (p - 1) := by exact_mod_cast h
    have e : (2 : K) ^ (p - 1) * 2 = 2 ^ p := by rw [← pow_succ]; congr 1; omega
    have um := unit_mul (K := K) p
    have := mul_le_mul_of_nonneg_right this hu.le
    rw [← e] at um
    nlinarith
  have := growth_le p n h2
  nlinarith

theorem round_top (F : Format) (hp : 1 ≤ F.p) {e : ℤ} (hF : F.emin ≤ e) {x : K} (h : |x| ≤ 2 ^ e) : |roundNum F x| ≤ 2 ^ e := by
  unfold roundNum
  split
  · rename_i hlt
    refine le_trans ?_ (zpow_le_zpow_right₀ (by norm_num) hF : (2 : K) ^ F.emin ≤ 2 ^ e)
    have hq : (0 : K) < 2 ^ F.quantum := by positivity
    have hq' : (0 : K) < 2 ^ (-F.quantum) := by positivity
    obtain ⟨m, hm⟩ := Int.eq_ofNat_of_zero_le (a := F.emin - F.quantum) (by unfold Format.quantum; omega)
    have q1 : (2 : K) ^ F.emin * 2 ^ (-F.quantum) = (((2 : ℤ) ^ m : ℤ) : K) := by
      rw [← zpow_split, ← sub_eq_add_neg, hm]
      push_cast
      exact zpow_natCast _ _
    rw [abs_lt] at hlt
    have h1 := roundEven_mono (mul_le_mul_of_nonneg_right hlt.1.le hq'.le)
    have h2 := roundEven_mono (mul_le_mul_of_nonneg_right hlt.2.le hq'.le)
    rw [q1, roundEven_int] at h2
    rw [neg_mul, q1, ← Int.cast_neg, roundEven_int] at h1
    have q2 : (((2 : ℤ) ^ m : ℤ) : K) * 2 ^ F.quantum = 2 ^ F.emin := by
      rw [← q1, mul_assoc, ← zpow_split, neg_add_cancel, zpow_zero, mul_one]
    rw [abs_mul, abs_of_pos hq, ← q2]
    refine mul_le_mul_of_nonneg_right ?_ hq.le
    rw [_root_.abs_le]
    constructor
    · rw [← Int.cast_neg]
      exact Int.cast_le.mpr h1
    · exact Int.cast_le.mpr h2
  · have hone : Rounding.fl F.p ((2 : K) ^ e) = 2 ^ e := by
      have h1 : (1 : ℤ) ≤ 2 ^ F.p := one_le_pow₀ (by norm_num)
      have := fl_exact (K := K) hp 1 e (by simpa using h1)
      simpa using this
    have hm := fl_mono (K := K) hp
    rw [_root_.abs_le] at h ⊢
    have h1 := hm h.1
    have h2 := hm h.2
    rw [fl_neg, hone] at h1
    rw [hone] at h2
    exact ⟨h1, h2⟩

theorem round_sub_top (F : Format) (hF : F.Good) {x : K} (h : |x| ≤ 2 ^ F.emax) : |roundNum F x| ≤ 2 ^ F.emax := round_top F hF.1 hF.2.le h

/-- What an operation gives whose exact result is not beyond the largest power of two. -/
theorem round_roundNum (F : Format) (hF : F.Good) {a : Num K} {x : K} (ha : a.val = some x) (h : |x| ≤ 2 ^ F.emax) : (round F a).val = some (roundNum F x) := by
  cases a with
  | nan => cases ha
  | inf s => cases ha
  | zero s =>
    cases ha
    have : roundNum F (0 : K) = 0 := by
      unfold roundNum
      have : (roundEven (0 : K)) = 0 := by simpa using roundEven_int (K := K) 0
      split <;> simp [this, fl_zero]
    simp [round, Num.val, this]
  | fin y =>
    cases ha
    have hlt : |roundNum F x| < 2 ^ (F.emax + 1) := (round_sub_top F hF h).trans_lt (zpow_lt_zpow_right₀ (by norm_num) (by omega))
    unfold round
    simp only []
    rw [if_neg (not_le.mpr hlt)]
    split
    · rename_i h0
      simp [Num.val, h0]
    · rfl

theorem roundNum_mult (F : Format) (x : K) : Mult F.quantum (roundNum F x) := by
  unfold roundNum
  split
  · exact ⟨_, rfl⟩
  · rename_i h
    have key : ∀ y : K, 2 ^ F.emin ≤ y → Mult F.quantum (Rounding.fl F.p y) := by
      intro y hy
      have hy0 : 0 < y := lt_of_lt_of_le (by positivity) hy
      rw [fl_of_pos F.p hy0, flPos]
      have hlog : F.emin ≤ Int.log 2 y := by
        have := hy.trans_lt (log_hi y)
        rw [zpow_lt_zpow_iff_right₀ (by norm_num)] at this
        omega
      exact mult_weaken (by unfold Format.quantum; omega) ⟨_, rfl⟩
    rcases le_or_gt 0 x with h0 | h0
    · exact key x (by rw [abs_of_nonneg h0] at h; exact not_lt.mp h)
    · have := key (-x) (by rw [abs_of_neg h0] at h; exact not_lt.mp h)
      rw [fl_neg] at this
      obtain ⟨k, hk⟩ := this
      exact ⟨-k, by push_cast; linarith⟩

theorem roundNum_isFloat (F : Format) (hF : F.Good) (x : K) : IsFloat F.p (roundNum F x) := by
  by_cases h : |x| < 2 ^ F.emin
  · refine isFloat_of_mult (roundNum_mult F x) ?_
    have h1 : |roundNum F x| ≤ 2 ^ F.emin := round_top F hF.1 le_rfl h.le
    refine le_trans h1 ?_
    rw [← zpow_natCast, ← zpow_split]
    exact zpow_le_zpow_right₀ (by norm_num) (by unfold Format.quantum; omega)
  · rw [roundNum, if_neg h]
    exact isFloat_fl hF.1 x

theorem number_of {F : Format} {x : K} (h1 : Mult F.quantum x) (h2 : IsFloat F.p x) (h3 : |x| < 2 ^ (F.emax + 1)) : F.Number x := by
  obtain ⟨j, e, hj, hx⟩ := h2
  rcases le_or_gt F.quantum e with he | he
  · exact ⟨j, e, hj, he, hx, h3⟩
  · obtain ⟨k, hk⟩ := h1
    refine ⟨k, F.quantum, ?_, le_rfl, hk, h3⟩
    have hq : (0 : K) < 2 ^ F.quantum := by positivity
    have he0 : (0 : K) < 2 ^ e := by positivity
    have hle : (2 : K) ^ e ≤ 2 ^ F.quantum := zpow_le_zpow_right₀ (by norm_num) he.le
    have e1 : |(k : K)| * 2 ^ F.quantum = |(j : K)| * 2 ^ e := by
      have : |(k : K) * 2 ^ F.quantum| = |(j : K) * 2 ^ e| := by rw [← hk, ← hx]
      rwa [abs_mul, abs_mul, abs_of_pos hq, abs_of_pos he0] at this
    have e2 : |(k : K)| ≤ |(j : K)| := by
      have := mul_le_mul_of_nonneg_left hle (abs_nonneg (j : K))
      exact le_of_mul_le_mul_right (e1.le.trans this) hq
    have e3 : |k| ≤ |j| := by exact_mod_cast e2
    exact e3.trans hj

theorem reads_of {F : Format} {a : Num K} {x : K} (hp : a.Proper) (ha : a.val = some x) (hx : F.Number x) : Reads F a x := by
  refine ⟨hx, ?_⟩
  cases a with
  | nan => cases ha
  | inf s => cases ha
  | zero s => cases ha; exact .inl ⟨rfl, s, rfl⟩
  | fin y => cases ha; exact .inr ⟨hp, rfl⟩

theorem round_reads (F : Format) (hF : F.Good) {a : Num K} {x : K} (hp : a.Proper) (ha : a.val = some x) (h : |x| ≤ 2 ^ F.emax) : Reads F (round F a) (roundNum F x) :=
  reads_of (round_proper F hp) (round_roundNum F hF ha h)
    (number_of (roundNum_mult F x) (roundNum_isFloat F hF x) ((round_sub_top F hF h).trans_lt (zpow_lt_zpow_right₀ (by norm_num) (by omega))))

/-! ### C188 -/

/-- Specification: each order adds up every sample of its band once. -/
def MeanOrdersI (order : Nat → SumTree) (img : A2 (Num K)) : Prop := ∀ b, (order b).Covers img.ny

/-- The sum of a band. -/
theorem band_sum (F : Format) (hF : F.Good) (order : Nat → SumTree) (img : A2 (Num K)) (ho : MeanOrdersI order img) (b : Nat) (v : Nat → K)
    (hv : ∀ k, k < img.ny → Reads F (img.px k b) (v k)) (hn : img.ny ≤ 2 ^ (F.p - 1)) (e : ℤ) (he : e + 1 ≤ F.emax)
    (hb : ∑ k ∈ Finset.range img.ny, |v k| ≤ 2 ^ e) :
    (sumOf F (fun k => img.px k b) (order b)).val = some ((order b).eval (Rounding.fl F.p) v) ∧ Mult F.quantum ((order b).eval (Rounding.fl F.p) v) ∧
      |(order b).eval (Rounding.fl F.p) v| ≤ 2 ^ (e + 1) := by
  have hS : (0 : K) ≤ ∑ k ∈ Finset.range img.ny, |v k| := Finset.sum_nonneg (fun _ _ => abs_nonneg _)
  have hg := growth_two (K := K) hF.1 hn
  have hbig : (1 + unit F.p : K) ^ img.ny * ∑ k ∈ Finset.range img.ny, |v k| ≤ 2 ^ (e + 1) := by
    rw [zpow_split, zpow_one, mul_comm ((2 : K) ^ e)]
    exact mul_le_mul hg hb hS (by norm_num)
  have hl := covers_length (ho b)
  have hp := perm_sum (ho b) (fun k => |v k|)
  obtain ⟨h1, h2⟩ := sumOf_val F hF.1 (fun k => img.px k b) v (order b)
    (fun k hk => by
      have hk' : k < img.ny := by simpa using (ho b).mem_iff.mp hk
      exact ⟨(hv k hk').val, (hv k hk').mult⟩)
    (by rw [hl, hp]; exact hbig.trans (zpow_le_zpow_right₀ (by norm_num) he))
  refine ⟨h1, h2, ?_⟩
  have := SumTree.size (rounds_fl (K := K) F.p) (unit_pos F.p).le v (order b)
  rw [hl, hp] at this
  exact this.trans hbig

/-- A band of `n` samples whose absolute values add up to at most `2^e`: the mean is the quotient of the sum, rounded once. -/
theorem band_mean (F : Format) (hF : F.Good) (order : Nat → SumTree) (img : A2 (Num K)) (ho : MeanOrdersI order img) (b : Nat) (v : Nat → K)
    (hv : ∀ k, k < img.ny → Reads F (img.px k b) (v k)) (hn1 : 1 ≤ img.ny) (hn : img.ny ≤ 2 ^ (F.p - 1)) (e : ℤ) (he : e + 1 ≤ F.emax)
    (hb : ∑ k ∈ Finset.range img.ny, |v k| ≤ 2 ^ e) :
    Reads F ((meanI F order img).px b) (roundNum F ((order b).eval (Rounding.fl F.p) v / img.ny)) ∧ |(order b).eval (Rounding.fl F.p) v / img.ny| ≤ 2 ^ (e + 1) := by
  obtain ⟨h1, _, h3⟩ := band_sum F hF order img ho b v hv hn e he hb
  have hn1' : (1 : K) ≤ img.ny := by exact_mod_cast hn1
  have hn0 : (img.ny : K) ≠ 0 := by positivity
  have hq : |(order b).eval (Rounding.fl F.p) v / img.ny| ≤ 2 ^ (e + 1) := by
    rw [abs_div, abs_of_nonneg (by linarith : (0 : K) ≤ img.ny)]
    exact (div_le_self (abs_nonneg _) hn1').trans h3
  refine ⟨?_, hq⟩
  have hpn : (Num.of (img.ny : K)).Proper := of_proper _
  have hps : (sumOf F (fun k => img.px k b) (order b)).Proper := by
    have : ∀ t : SumTree, (∀ k ∈ t.leaves, k < img.ny) → (sumOf F (fun k => img.px k b) t).Proper := by
      intro t ht
      induction t with
      | leaf k => exact (hv k (ht k (by simp [SumTree.leaves]))).proper
      | node a c iha ihc =>
        simp only [SumTree.leaves, List.mem_append] at ht
        exact round_proper F (exactAdd_proper (iha (fun k hk => ht k (.inl hk))) (ihc (fun k hk => ht k (.inr hk))))
    exact this _ (fun k hk => by simpa using (ho b).mem_iff.mp hk)
  exact round_reads F hF (exactDiv_proper hps hpn) (exactDiv_val h1 (of_val _) hn0) (hq.trans (zpow_le_zpow_right₀ (by norm_num) he))

/-- C188: as long as the absolute values of a band add up to at most a quarter of the largest power of two of the format, its mean is a number, off the exact mean by at most the
relative error of C155 and half the spacing of subnormal numbers, in every order of adding up; inputs and results may be subnormal.  (`u = 2^-p`; `n` samples, `1 ≤ n ≤ 2^(p-1)`.) -/
theorem C188_mean_error (F : Format) (hF : F.Good) (order : Nat → SumTree) (img : A2 (Num K)) (ho : MeanOrdersI order img) (b : Nat) (v : Nat → K)
    (hv : ∀ k, k < img.ny → Reads F (img.px k b) (v k)) (hn1 : 1 ≤ img.ny) (hn : img.ny ≤ 2 ^ (F.p - 1)) (hb : ∑ k ∈ Finset.range img.ny, |v k| ≤ 2 ^ (F.emax - 2)) :
    ∃ m, Reads F ((meanI F order img).px b) m ∧
      |m - (∑ k ∈ Finset.range img.ny, v k) / img.ny| ≤
        ((1 + 1 / 2 ^ F.p) ^ img.ny - 1) * ((∑ k ∈ Finset.range img.ny, |v k|) / img.ny) + 2 ^ (F.emin - (F.p - 1)) / 2 := by
  obtain ⟨h1, h2⟩ := band_mean F hF order img ho b v hv hn1 hn (F.emax - 2) (by omega) hb
  refine ⟨_, h1, ?_⟩
  have hu := unit_pos (K := K) F.p
  have hnp : (0 : K) < img.ny := by exact_mod_cast hn1
  have e1 := SumTree.err (rounds_fl (K := K) F.p) hu.le v (order b)
  rw [perm_sum (ho b), perm_sum (ho b), covers_length (ho b)] at e1
  have e2 := roundNum_err F ((order b).eval (Rounding.fl F.p) v / (img.ny : K))
  have e3 := SumTree.size_sharp (rounds_fl (K := K) F.p) hu.le v (order b)
  rw [perm_sum (ho b), covers_length (ho b)] at e3
  have hpow : (1 + unit F.p : K) ^ img.ny = (1 + unit F.p) * (1 + unit F.p) ^ (img.ny - 1) := by
    rw [← pow_succ']; congr 1; omega
  have hq : F.quantum = F.emin - (F.p - 1) := rfl
  change _ ≤ ((1 + unit F.p) ^ img.ny - 1) * _ + _
  rw [← hq, hpow]
  generalize ∑ k ∈ Finset.range img.ny, v k = s at *
  generalize ∑ k ∈ Finset.range img.ny, |v k| = S at *
  generalize (order b).eval (Rounding.fl F.p) v = s' at *
  generalize (1 + unit F.p : K) ^ (img.ny - 1) = G at *
  generalize (unit F.p : K) = u at *
  have d1 : |s' / (img.ny : K) - s / img.ny| ≤ (G - 1) * (S / img.ny) := by
    rw [← sub_div, abs_div, abs_of_pos hnp, ← mul_div_assoc]
    exact div_le_div_of_nonneg_right e1 hnp.le
  have d2 : |s' / (img.ny : K)| ≤ G * (S / img.ny) := by
    rw [abs_div, abs_of_pos hnp, ← mul_div_assoc]
    exact div_le_div_of_nonneg_right e3 hnp.le
  have d3 := abs_sub_le (roundNum F (s' / (img.ny : K))) (s' / img.ny) (s / img.ny)
  have d4 := mul_le_mul_of_nonneg_left d2 hu.le
  nlinarith

/-- C188: a demeaned value is the difference of the value and the computed mean, correctly rounded: differences do not underflow. -/
theorem C188_demean (F : Format) (hF : F.Good) (order : Nat → SumTree) (img : A2 (Num K)) (ho : MeanOrdersI order img) (b : Nat) (v : Nat → K)
    (hv : ∀ k, k < img.ny → Reads F (img.px k b) (v k)) (hn : img.ny ≤ 2 ^ (F.p - 1)) (hb : ∑ k ∈ Finset.range img.ny, |v k| ≤ 2 ^ (F.emax - 2))
    (k : Nat) (hk : k < img.ny) :
    ∃ m, Reads F ((meanI F order img).px b) m ∧ Reads F ((demeanI F order img).px k b) (Rounding.fl F.p (v k - m)) := by
  obtain ⟨h1, h2⟩ := band_mean F hF order img ho b v hv (by omega) hn (F.emax - 2) (by omega) hb
  refine ⟨_, h1, ?_⟩
  have top := round_top F hF.1 (e := F.emax - 1) (by have := hF.2; omega) (h2.trans (zpow_le_zpow_right₀ (by norm_num) (by omega)))
  have hvk : |v k| ≤ 2 ^ (F.emax - 2) := le_trans (Finset.single_le_sum (fun j _ => abs_nonneg (v j)) (Finset.mem_range.mpr hk)) hb
  have hm := h1.mult
  have hd : Mult F.quantum (v k - roundNum F ((order b).eval (Rounding.fl F.p) v / (img.ny : K))) := Mult.sub (hv k hk).mult hm
  generalize hM : roundNum F ((order b).eval (Rounding.fl F.p) v / (img.ny : K)) = m at *
  have hpl : F.Plain (v k - m) := .inr hd
  have hval : (exactAdd (img.px k b) ((meanI F order img).px b).neg).val = some (v k - m) := by
    rw [sub_eq_add_neg]
    exact exactAdd_val (hv k hk).val (neg_val h1.val)
  have hprop : (exactAdd (img.px k b) ((meanI F order img).px b).neg).Proper := exactAdd_proper (hv k hk).proper (neg_proper h1.proper)
  rw [← roundNum_plain F hF.1 hpl]
  refine round_reads F hF hprop hval ?_
  have := abs_sub (v k) m
  have e1 : (2 : K) ^ F.emax = 2 ^ (F.emax - 2) * 4 := by
    rw [show F.emax = (F.emax - 2) + 2 by ring, zpow_split]; norm_num
  have e2 : (2 : K) ^ (F.emax - 1) = 2 ^ (F.emax - 2) * 2 := by
    rw [show F.emax - 1 = (F.emax - 2) + 1 by ring, zpow_split]; norm_num
  have e0 : (0 : K) < 2 ^ (F.emax - 2) := by positivity
  linarith

/-- C188: one mean per band, and the demeaned image has the size of the image. -/
theorem C188_shape (F : Format) (order : Nat → SumTree) (img : A2 (Num K)) :
    (meanI F order img).n = img.nx ∧ (demeanI F order img).ny = img.ny ∧ (demeanI F order img).nx = img.nx := ⟨rfl, rfl, rfl⟩

/-- C188: samples on a common grid of spacing `2^g` (whole numbers: `g = 0`) that is not too fine for the format: the mean is, bit for bit, the one computed with unbounded
exponents, so that everything known of that one (C155) holds. -/
theorem C188_same (F : Format) (hF : F.Good) (order : Nat → SumTree) (img : A2 (Num K)) (ho : MeanOrdersI order img) (b : Nat) (w : A2 K) (hny : w.ny = img.ny)
    (hv : ∀ k, k < img.ny → Reads F (img.px k b) (w.px k b)) (hn1 : 1 ≤ img.ny) (hn : img.ny ≤ 2 ^ (F.p - 1))
    (hb : ∑ k ∈ Finset.range img.ny, |w.px k b| ≤ 2 ^ (F.emax - 2)) (g : ℤ) (hg : ∀ k, k < img.ny → ∃ j : ℤ, w.px k b = j * 2 ^ g) (hsmall : (img.ny : K) * 2 ^ F.emin ≤ 2 ^ g) :
    ∃ m, Reads F ((meanI F order img).px b) m ∧ (meanR (Rounding.fl F.p) order w).px b = some m := by
  obtain ⟨h1, h2⟩ := band_mean F hF order img ho b (fun k => w.px k b) hv hn1 hn (F.emax - 2) (by omega) hb
  refine ⟨_, h1, ?_⟩
  have hnp : (0 : K) < img.ny := by exact_mod_cast hn1
  have hm : Mult g ((order b).eval (Rounding.fl F.p) (fun k => w.px k b)) := by
    have : ∀ t : SumTree, (∀ k ∈ t.leaves, k < img.ny) → Mult g (t.eval (Rounding.fl F.p) (fun k => w.px k b)) := by
      intro t ht
      induction t with
      | leaf k => exact hg k (ht k (by simp [SumTree.leaves]))
      | node a c iha ihc =>
        simp only [SumTree.leaves, List.mem_append] at ht
        exact Mult.fl hF.1 (Mult.add (iha (fun k hk => ht k (.inl hk))) (ihc (fun k hk => ht k (.inr hk))))
    exact this _ (fun k hk => by simpa using (ho b).mem_iff.mp hk)
  have hpl : F.Plain ((order b).eval (Rounding.fl F.p) (fun k => w.px k b) / (img.ny : K)) := by
    by_cases h0 : (order b).eval (Rounding.fl F.p) (fun k => w.px k b) = 0
    · right
      rw [h0, zero_div]
      exact ⟨0, by simp⟩
    · left
      rw [abs_div, abs_of_pos hnp, le_div_iff₀ hnp, mul_comm]
      exact hsmall.trans (mult_ge hm h0)
  rw [roundNum_plain F hF.1 hpl]
  simp [meanR, meanBandR, ImageUtils.fdiv, hny, hnp.ne']

/-! ### C190 -/

/-- C190 is FALSE at the top of the range: two samples of `2^emax` (float64: about 9e307) have an infinite mean, and the demeaned samples are infinite, although their exact mean is
`2^emax`. -/
theorem C190_overflow_false (F : Format) (hF : F.Good) (order : Nat → SumTree) (ho : order 0 = .node (.leaf 0) (.leaf 1)) :
    Reads F (Num.fin ((2 : K) ^ F.emax)) (2 ^ F.emax) ∧ (meanI F order ⟨2, 1, fun _ _ => Num.fin ((2 : K) ^ F.emax)⟩).px 0 = .inf false ∧
      (demeanI F order ⟨2, 1, fun _ _ => Num.fin ((2 : K) ^ F.emax)⟩).px 0 0 = .inf true := by
  have h0 : (0 : K) < 2 ^ F.emax := by positivity
  have hlt : (2 : K) ^ F.emax < 2 ^ (F.emax + 1) := zpow_lt_zpow_right₀ (by norm_num) (by omega)
  have h1 : (1 : ℤ) ≤ 2 ^ F.p := one_le_pow₀ (by norm_num)
  have hs : (2 : K) ^ F.emax + 2 ^ F.emax = 2 ^ (F.emax + 1) := by rw [zpow_split, zpow_one]; ring
  have hmean : (meanI F order ⟨2, 1, fun _ _ => Num.fin ((2 : K) ^ F.emax)⟩).px 0 = .inf false := by
    have hr : roundNum F ((2 : K) ^ (F.emax + 1)) = 2 ^ (F.emax + 1) := by
      unfold roundNum
      rw [if_neg]
      · have := fl_exact (K := K) hF.1 1 (F.emax + 1) (by simpa using h1)
        simpa using this
      · rw [abs_of_pos (by positivity), not_lt]
        exact zpow_le_zpow_right₀ (by norm_num) (by have := hF.2; omega)
    have hadd : add F (Num.fin ((2 : K) ^ F.emax)) (Num.fin ((2 : K) ^ F.emax)) = .inf false := by
      have hne : (2 : K) ^ (F.emax + 1) ≠ 0 := by positivity
      have hnn : ¬ (2 : K) ^ (F.emax + 1) < 0 := not_lt.mpr (by positivity)
      have hp : (0 : K) < 2 ^ (F.emax + 1) := by positivity
      simp [add, exactAdd, hs, Num.of, hne, round, hr, hnn, abs_of_pos hp]
    unfold meanI
    simp only [ho, sumOf, hadd, div]
    have : Num.of ((2 : ℕ) : K) = .fin 2 := by simp [Num.of]
    rw [this]
    have h2 : ¬ (2 : K) < 0 := by norm_num
    simp [exactDiv, Num.sign, round, h2]
  refine ⟨⟨⟨1, F.emax, by simpa using h1, by have := hF.2; omega, by simp, by rwa [abs_of_pos h0]⟩, .inr ⟨h0.ne', rfl⟩⟩, hmean, ?_⟩
  unfold demeanI
  simp only [hmean, sub, Num.neg, exactAdd, round, Bool.not_false]

/-- C190 (partial): a band whose absolute values add up to at most a quarter of `2^emax` has a finite mean and finite demeaned samples.  Missing: larger samples
(`C190_overflow_false`). -/
theorem C190_finite_partial (F : Format) (hF : F.Good) (order : Nat → SumTree) (img : A2 (Num K)) (ho : MeanOrdersI order img) (b : Nat) (v : Nat → K)
    (hv : ∀ k, k < img.ny → Reads F (img.px k b) (v k)) (hn1 : 1 ≤ img.ny) (hn : img.ny ≤ 2 ^ (F.p - 1)) (hb : ∑ k ∈ Finset.range img.ny, |v k| ≤ 2 ^ (F.emax - 2)) :
    (∃ m, Reads F ((meanI F order img).px b) m) ∧ ∀ k, k < img.ny → ∃ d, Reads F ((demeanI F order img).px k b) d :=
  ⟨(C188_mean_error F hF order img ho b v hv hn1 hn hb).imp fun _ h => h.1, fun k hk => (C188_demean F hF order img ho b v hv hn hb k hk).imp' (fun m => Rounding.fl F.p (v k - m)) fun _ h => h.2⟩

end

/-- The formats of numpy meet the hypotheses. -/
theorem good64 : binary64.Good := ⟨by decide, by decide⟩

theorem good32 : binary32.Good := ⟨by decide, by decide⟩

/-- Non-vacuity: the smallest subnormal number, the largest number and a negative zero of float64. -/
example : Reads binary64 (Num.fin ((2 : ℚ) ^ (-1074 : ℤ))) (2 ^ (-1074 : ℤ)) ∧ Reads binary64 (Num.zero true : Num ℚ) 0 :=
  ⟨⟨⟨1, -1074, by decide, by decide, by simp, by
      rw [abs_of_pos (by positivity)]
      exact zpow_lt_zpow_right₀ (by norm_num) (by decide)⟩, .inr ⟨by positivity, rfl⟩⟩,
    ⟨⟨0, 0, by decide, by decide, by simp, by simp; positivity⟩, .inl ⟨rfl, true, rfl⟩⟩⟩

/-- Non-vacuity of C188: three float64 samples (one subnormal, one zero). -/
example : ∃ m, Reads binary64 ((meanI binary64 (fun _ => .node (.leaf 2) (.node (.leaf 0) (.leaf 1)))
    ⟨3, 1, fun k _ => if k = 0 then .fin 1 else if k = 1 then .zero true else .fin ((2 : ℚ) ^ (-1074 : ℤ))⟩).px 0) m := by
  refine (C188_mean_error binary64 good64 (fun _ => .node (.leaf 2) (.node (.leaf 0) (.leaf 1)))
    ⟨3, 1, fun k _ => if k = 0 then .fin 1 else if k = 1 then .zero true else .fin ((2 : ℚ) ^ (-1074 : ℤ))⟩
    (fun _ => (by decide : ([2, 0, 1] : List Nat).Perm (List.range 3))) 0 (fun k => if k = 0 then 1 else if k = 1 then 0 else (2 : ℚ) ^ (-1074 : ℤ)) ?_ (by decide)
    (by show (3 : ℕ) ≤ 2 ^ 52; norm_num) ?_).imp fun _ h => h.1
  · intro k hk
    have : k = 0 ∨ k = 1 ∨ k = 2 := by have : k < 3 := hk; omega
    rcases this with rfl | rfl | rfl
    · refine ⟨⟨1, 0, by decide, by decide, by simp, ?_⟩, .inr ⟨by simp, by simp⟩⟩
      simp only [if_true, abs_one]
      exact one_lt_zpow₀ (by norm_num) (by decide)
    · refine ⟨⟨0, 0, by decide, by decide, by simp, ?_⟩, .inl ⟨by simp, true, by simp⟩⟩
      simp only [one_ne_zero, if_false, if_true, abs_zero]
      positivity
    · refine ⟨⟨1, -1074, by decide, by decide, by simp, ?_⟩, .inr ⟨by simp, by simp⟩⟩
      simp only [OfNat.ofNat_ne_zero, OfNat.ofNat_ne_one, if_false]
      rw [abs_of_pos (by positivity)]
      exact zpow_lt_zpow_right₀ (by norm_num) (by decide)
  · have e : (2 : ℚ) ^ (-1074 : ℤ) ≤ 1 := zpow_le_one_of_nonpos₀ (by norm_num) (by norm_num)
    have e2 : (2 : ℚ) ^ (1 : ℤ) ≤ 2 ^ (binary64.emax - 2) := zpow_le_zpow_right₀ (by norm_num) (by decide)
    have e3 : (0 : ℚ) < (2 : ℚ) ^ (-1074 : ℤ) := by positivity
    refine le_trans ?_ e2
    simp only [Finset.sum_range_succ, Finset.sum_range_zero]
    simp only [if_true, one_ne_zero, if_false, OfNat.ofNat_ne_zero, OfNat.ofNat_ne_one, abs_one, abs_zero, abs_of_pos e3, zpow_one]
    linarith

end Verif.Ieee
