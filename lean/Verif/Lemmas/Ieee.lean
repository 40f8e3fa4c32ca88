import Verif.Model.Ieee
import Verif.Lemmas.FloatSpectral
import Verif.Props.FloatSpectral

/-! IEEE arithmetic with its exponent range agrees with the arithmetic of unbounded exponents as long as no number leaves the range. -/

set_option linter.unusedSectionVars false

namespace Verif.Ieee
open Verif FloatSpectral Rounding

section
variable {K : Type} [Field K] [LinearOrder K] [IsStrictOrderedRing K]

/-- The value of a datum that is a number. -/
def Num.val : Num K → Option K
  | .nan => none
  | .inf _ => none
  | .zero _ => some 0
  | .fin x => some x

theorem of_val (x : K) : (Num.of x).val = some x := by
  unfold Num.of
  split <;> simp_all [Num.val]

/-- Data in which a zero is not written as a non-zero number. -/
def Num.Proper : Num K → Prop
  | .fin x => x ≠ 0
  | _ => True

theorem of_proper (x : K) : (Num.of x).Proper := by
  unfold Num.of
  split <;> simp_all [Num.Proper]

theorem exactAdd_val {a b : Num K} {x y : K} (ha : a.val = some x) (hb : b.val = some y) : (exactAdd a b).val = some (x + y) := by
  cases a <;> cases b <;> simp_all [Num.val, exactAdd] <;> exact of_val _

theorem exactAdd_proper {a b : Num K} (ha : a.Proper) (hb : b.Proper) : (exactAdd a b).Proper := by
  cases a <;> cases b <;> simp only [exactAdd] <;> first | trivial | exact ha | exact hb | exact of_proper _ | (split <;> trivial)

theorem neg_val {a : Num K} {x : K} (ha : a.val = some x) : a.neg.val = some (-x) := by
  cases a <;> cases ha <;> simp [Num.val, Num.neg]

theorem neg_proper {a : Num K} (ha : a.Proper) : a.neg.Proper := by
  cases a <;> first | trivial | exact neg_ne_zero.mpr ha

theorem exactMul_val {a b : Num K} {x y : K} (ha : a.val = some x) (hb : b.val = some y) : (exactMul a b).val = some (x * y) := by
  cases a <;> cases ha <;> cases b <;> cases hb <;> simp [Num.val, exactMul]

theorem exactMul_proper {a b : Num K} (ha : a.Proper) (hb : b.Proper) : (exactMul a b).Proper := by
  cases a <;> cases b <;> simp_all [Num.Proper, exactMul]

theorem proper_ne {a : Num K} {x : K} (hp : a.Proper) (ha : a.val = some x) : x = 0 ↔ ∃ s, a = .zero s := by
  cases a <;> cases ha <;> simp_all [Num.Proper]

theorem exactDiv_val {a b : Num K} {x y : K} (ha : a.val = some x) (hb : b.val = some y) (hy : y ≠ 0) : (exactDiv a b).val = some (x / y) := by
  cases a <;> cases ha <;> cases b <;> cases hb <;> first | exact absurd rfl hy | simp [Num.val, exactDiv]

theorem exactDiv_proper {a b : Num K} (ha : a.Proper) (hb : b.Proper) : (exactDiv a b).Proper := by
  cases a <;> cases b <;> simp only [exactDiv] <;> first | trivial | exact div_ne_zero ha hb

theorem exactDiv_nan {a b : Num K} (ha : a.val = some 0) (hb : b.val = some 0) (hpa : a.Proper) (hpb : b.Proper) : exactDiv a b = .nan := by
  cases a <;> cases b <;> simp_all [Num.val, exactDiv, Num.Proper]

variable [FloorRing K]

/-- Rounding keeps multiples of a power of two multiples of it. -/
theorem Mult.fl {p : ℕ} (hp : 1 ≤ p) {q : ℤ} {x : K} (h : Mult q x) : Mult q (Rounding.fl p x) := by
  rcases le_or_gt |x| (2 ^ p * 2 ^ q) with hb | hb
  · rw [fl_of_isFloat hp (isFloat_of_mult h hb)]
    exact h
  · have key : ∀ y : K, 2 ^ p * 2 ^ q < y → Mult q (Rounding.fl p y) := by
      intro y hy
      have hy0 : 0 < y := lt_trans (by positivity) hy
      rw [fl_of_pos p hy0, flPos]
      have hlog : (p : ℤ) + q ≤ Int.log 2 y := by
        rw [← zpow_natCast, ← zpow_split] at hy
        have h2 := log_hi y
        have := lt_trans hy h2
        rw [zpow_lt_zpow_iff_right₀ (by norm_num)] at this
        omega
      obtain ⟨m, hm⟩ := Int.eq_ofNat_of_zero_le (a := Int.log 2 y - ((p : ℤ) - 1) - q) (by omega)
      refine ⟨roundEven (y * 2 ^ ((p : ℤ) - 1 - Int.log 2 y)) * 2 ^ m, ?_⟩
      push_cast
      rw [mul_assoc, ← zpow_natCast, ← zpow_split, ← hm]
      congr 2
      omega
    rcases le_or_gt 0 x with h0 | h0
    · exact key x (by rwa [abs_of_nonneg h0] at hb)
    · have := key (-x) (by rwa [abs_of_neg h0] at hb)
      rw [fl_neg] at this
      obtain ⟨k, hk⟩ := this
      exact ⟨-k, by push_cast; linarith⟩

/-- A number the format rounds as if its exponents were unbounded: normal, or a multiple of the spacing of subnormal numbers. -/
def Format.Plain (F : Format) (x : K) : Prop := 2 ^ F.emin ≤ |x| ∨ Mult F.quantum x

theorem roundNum_plain (F : Format) (hp : 1 ≤ F.p) {x : K} (h : F.Plain x) : roundNum F x = Rounding.fl F.p x := by
  unfold roundNum
  split
  · rename_i hlt
    have hm : Mult F.quantum x := h.resolve_left (not_le.mpr hlt)
    have hf : IsFloat F.p x := by
      refine isFloat_of_mult hm (hlt.le.trans ?_)
      rw [← zpow_natCast, ← zpow_split]
      exact zpow_le_zpow_right₀ (by norm_num) (by unfold Format.quantum; omega)
    rw [fl_of_isFloat hp hf]
    obtain ⟨k, rfl⟩ := hm
    rw [mul_assoc, ← zpow_split, add_neg_cancel, zpow_zero, mul_one, roundEven_int]
  · rfl

theorem fl_lt_top {p : ℕ} (hp : 1 ≤ p) {e : ℤ} {x : K} (h : |x| ≤ 2 ^ e) : |Rounding.fl p x| < 2 ^ (e + 1) := by
  have hone : Rounding.fl p ((2 : K) ^ e) = 2 ^ e := by
    have h1 : (1 : ℤ) ≤ 2 ^ p := one_le_pow₀ (by norm_num)
    have := fl_exact (K := K) hp 1 e (by simpa using h1)
    simpa using this
  have hm := fl_mono (K := K) hp
  rw [_root_.abs_le] at h
  have h1 := hm h.1
  have h2 := hm h.2
  rw [fl_neg, hone] at h1
  rw [hone] at h2
  have : |Rounding.fl p x| ≤ 2 ^ e := _root_.abs_le.mpr ⟨h1, h2⟩
  refine this.trans_lt ?_
  exact zpow_lt_zpow_right₀ (by norm_num) (by omega)

/-- The result of an operation whose exact result is in range is the one with unbounded exponents. -/
theorem round_val (F : Format) (hp : 1 ≤ F.p) {a : Num K} {x : K} (ha : a.val = some x) (hpl : F.Plain x) (hb : |x| ≤ 2 ^ F.emax) :
    (round F a).val = some (Rounding.fl F.p x) := by
  cases a with
  | nan => cases ha
  | inf s => cases ha
  | zero s =>
    cases ha
    simp [round, Num.val, fl_zero]
  | fin y =>
    cases ha
    have hlt := fl_lt_top hp hb
    unfold round
    simp only [roundNum_plain F hp hpl]
    rw [if_neg (not_le.mpr hlt)]
    split
    · rename_i h0
      simp [Num.val, h0]
    · rfl

theorem round_proper (F : Format) {a : Num K} (ha : a.Proper) : (round F a).Proper := by
  cases a with
  | nan => trivial
  | inf s => trivial
  | zero s => trivial
  | fin y =>
    unfold round
    simp only []
    split
    · trivial
    · split
      · trivial
      · rename_i h0
        exact h0

theorem sumOf_proper (F : Format) (f : Nat → Num K) (hf : ∀ k, (f k).Proper) (t : SumTree) : (sumOf F f t).Proper := by
  induction t with
  | leaf k => exact hf k
  | node a b iha ihb => exact round_proper F (exactAdd_proper iha ihb)

theorem dotOf_proper (F : Format) (u v : Nat → Num K) (hu : ∀ k, (u k).Proper) (hv : ∀ k, (v k).Proper) (t : DotTree) : (dotOf F u v t).Proper := by
  induction t with
  | mul k => exact round_proper F (exactMul_proper (hu k) (hv k))
  | fma k a iha => exact round_proper F (exactAdd_proper (exactMul_proper (hu k) (hv k)) iha)
  | add a b iha ihb => exact round_proper F (exactAdd_proper iha ihb)

theorem SumTree.size {r : K → K} {u : K} (h : Rounds r u) (hu : 0 ≤ u) (f : Nat → K) (t : SumTree) :
    |t.eval r f| ≤ (1 + u) ^ t.leaves.length * (t.leaves.map (fun k => |f k|)).sum := by
  have e := SumTree.err h hu f t
  have s := abs_sum_le t.leaves f
  have s0 := sum_abs_nonneg t.leaves f
  have h1 : (1 : K) ≤ 1 + u := by linarith
  have hp : (1 + u) ^ (t.leaves.length - 1) ≤ (1 + u) ^ t.leaves.length := pow_le_pow_right₀ h1 (by omega)
  have := abs_add_le (t.eval r f - (t.leaves.map f).sum) (t.leaves.map f).sum
  rw [sub_add_cancel] at this
  have := mul_le_mul_of_nonneg_right hp s0
  linarith

theorem SumTree.size_sharp {r : K → K} {u : K} (h : Rounds r u) (hu : 0 ≤ u) (f : Nat → K) (t : SumTree) :
    |t.eval r f| ≤ (1 + u) ^ (t.leaves.length - 1) * (t.leaves.map (fun k => |f k|)).sum := by
  have e := SumTree.err h hu f t
  have s := abs_sum_le t.leaves f
  have := abs_add_le (t.eval r f - (t.leaves.map f).sum) (t.leaves.map f).sum
  rw [sub_add_cancel] at this
  linarith

theorem DotTree.size {r : K → K} {u : K} (h : Rounds r u) (hu : 0 ≤ u) (x y : Nat → K) (t : DotTree) :
    |t.eval r x y| ≤ (1 + u) ^ t.leaves.length * (t.leaves.map (fun k => |x k * y k|)).sum := by
  have e := DotTree.err h hu x y t
  have s := abs_sum_le t.leaves (fun k => x k * y k)
  have := abs_add_le (t.eval r x y - (t.leaves.map (fun k => x k * y k)).sum) (t.leaves.map (fun k => x k * y k)).sum
  rw [sub_add_cancel] at this
  linarith

/-- Sums never underflow: as long as nothing overflows, the sum is the one with unbounded exponents. -/
theorem sumOf_val (F : Format) (hp : 1 ≤ F.p) (f : Nat → Num K) (v : Nat → K) (t : SumTree) (hv : ∀ k ∈ t.leaves, (f k).val = some (v k) ∧ Mult F.quantum (v k))
    (hb : (1 + unit F.p) ^ t.leaves.length * (t.leaves.map (fun k => |v k|)).sum ≤ 2 ^ F.emax) :
    (sumOf F f t).val = some (t.eval (Rounding.fl F.p) v) ∧ Mult F.quantum (t.eval (Rounding.fl F.p) v) := by
  have hu : (0 : K) ≤ unit F.p := (unit_pos F.p).le
  have h1 : (1 : K) ≤ 1 + unit F.p := by linarith
  induction t with
  | leaf k => exact hv k (by simp [SumTree.leaves])
  | node a b iha ihb =>
    simp only [SumTree.leaves, List.map_append, List.sum_append, List.length_append, List.mem_append] at hv hb
    have sa := sum_abs_nonneg a.leaves v
    have sb := sum_abs_nonneg b.leaves v
    have pa : (1 + unit F.p : K) ^ a.leaves.length ≤ (1 + unit F.p) ^ (a.leaves.length + b.leaves.length) := pow_le_pow_right₀ h1 (by omega)
    have pb : (1 + unit F.p : K) ^ b.leaves.length ≤ (1 + unit F.p) ^ (a.leaves.length + b.leaves.length) := pow_le_pow_right₀ h1 (by omega)
    have p0 : (0 : K) ≤ (1 + unit F.p) ^ (a.leaves.length + b.leaves.length) := by positivity
    have ma := mul_le_mul_of_nonneg_right pa sa
    have mb := mul_le_mul_of_nonneg_right pb sb
    have na := mul_nonneg p0 sa
    have nb := mul_nonneg p0 sb
    rw [mul_add] at hb
    obtain ⟨va, qa⟩ := iha (fun k hk => hv k (.inl hk)) (by linarith)
    obtain ⟨vb, qb⟩ := ihb (fun k hk => hv k (.inr hk)) (by linarith)
    have za := SumTree.size (rounds_fl (K := K) F.p) hu v a
    have zb := SumTree.size (rounds_fl (K := K) F.p) hu v b
    have hq := Mult.add qa qb
    refine ⟨round_val F hp (exactAdd_val va vb) (.inr hq) ?_, Mult.fl hp hq⟩
    have := abs_add_le (a.eval (Rounding.fl F.p) v) (b.eval (Rounding.fl F.p) v)
    linarith

/-- Inner products of numbers that are not too small do not underflow either. -/
theorem dotOf_val (F : Format) (hp : 1 ≤ F.p) (f g : Nat → Num K) (v w : Nat → K) (t : DotTree) (q : ℤ) (hq : F.quantum ≤ q)
    (hv : ∀ k ∈ t.leaves, (f k).val = some (v k) ∧ (g k).val = some (w k) ∧ Mult q (v k * w k))
    (hb : (1 + unit F.p) ^ t.leaves.length * (t.leaves.map (fun k => |v k * w k|)).sum ≤ 2 ^ F.emax) :
    (dotOf F f g t).val = some (t.eval (Rounding.fl F.p) v w) ∧ Mult q (t.eval (Rounding.fl F.p) v w) := by
  have hu : (0 : K) ≤ unit F.p := (unit_pos F.p).le
  have h1 : (1 : K) ≤ 1 + unit F.p := by linarith
  have weak : ∀ {x : K}, Mult q x → Mult F.quantum x := by
    rintro x ⟨k, rfl⟩
    obtain ⟨m, hm⟩ := Int.eq_ofNat_of_zero_le (a := q - F.quantum) (by omega)
    refine ⟨k * 2 ^ m, ?_⟩
    push_cast
    rw [mul_assoc, ← zpow_natCast, ← zpow_split, ← hm]
    congr 2
    omega
  induction t with
  | mul k =>
    obtain ⟨ha, hc, hm⟩ := hv k (by simp [DotTree.leaves])
    simp only [DotTree.leaves, List.map_cons, List.map_nil, List.sum_cons, List.sum_nil, List.length_cons, List.length_nil, add_zero, zero_add, pow_one] at hb
    refine ⟨round_val F hp (exactMul_val ha hc) (.inr (weak hm)) ?_, Mult.fl hp hm⟩
    have := mul_nonneg hu (abs_nonneg (v k * w k))
    linarith
  | fma k a iha =>
    simp only [DotTree.leaves, List.map_cons, List.sum_cons, List.length_cons, List.mem_cons] at hv hb
    obtain ⟨ha, hc, hm⟩ := hv k (.inl rfl)
    have sa := sum_abs_nonneg a.leaves (fun k => v k * w k)
    have pa : (1 + unit F.p : K) ^ a.leaves.length ≤ (1 + unit F.p) ^ (a.leaves.length + 1) := pow_le_pow_right₀ h1 (by omega)
    have pb : (1 : K) ≤ (1 + unit F.p) ^ (a.leaves.length + 1) := one_le_pow₀ h1
    have p0 : (0 : K) ≤ (1 + unit F.p) ^ (a.leaves.length + 1) := by positivity
    have ma := mul_le_mul_of_nonneg_right pa sa
    have mb := mul_le_mul_of_nonneg_right pb (abs_nonneg (v k * w k))
    have na := mul_nonneg p0 sa
    rw [mul_add] at hb
    have n1 := abs_nonneg (v k * w k)
    obtain ⟨va, qa⟩ := iha (fun j hj => hv j (.inr hj)) (by linarith)
    have za := DotTree.size (rounds_fl (K := K) F.p) hu v w a
    have hs := Mult.add hm qa
    refine ⟨round_val F hp (exactAdd_val (exactMul_val ha hc) va) (.inr (weak hs)) ?_, Mult.fl hp hs⟩
    have := abs_add_le (v k * w k) (a.eval (Rounding.fl F.p) v w)
    linarith
  | add a b iha ihb =>
    simp only [DotTree.leaves, List.map_append, List.sum_append, List.length_append, List.mem_append] at hv hb
    have sa := sum_abs_nonneg a.leaves (fun k => v k * w k)
    have sb := sum_abs_nonneg b.leaves (fun k => v k * w k)
    have pa : (1 + unit F.p : K) ^ a.leaves.length ≤ (1 + unit F.p) ^ (a.leaves.length + b.leaves.length) := pow_le_pow_right₀ h1 (by omega)
    have pb : (1 + unit F.p : K) ^ b.leaves.length ≤ (1 + unit F.p) ^ (a.leaves.length + b.leaves.length) := pow_le_pow_right₀ h1 (by omega)
    have p0 : (0 : K) ≤ (1 + unit F.p) ^ (a.leaves.length + b.leaves.length) := by positivity
    have ma := mul_le_mul_of_nonneg_right pa sa
    have mb := mul_le_mul_of_nonneg_right pb sb
    have na := mul_nonneg p0 sa
    have nb := mul_nonneg p0 sb
    rw [mul_add] at hb
    obtain ⟨va, qa⟩ := iha (fun k hk => hv k (.inl hk)) (by linarith)
    obtain ⟨vb, qb⟩ := ihb (fun k hk => hv k (.inr hk)) (by linarith)
    have za := DotTree.size (rounds_fl (K := K) F.p) hu v w a
    have zb := DotTree.size (rounds_fl (K := K) F.p) hu v w b
    have hs := Mult.add qa qb
    refine ⟨round_val F hp (exactAdd_val va vb) (.inr (weak hs)) ?_, Mult.fl hp hs⟩
    have := abs_add_le (a.eval (Rounding.fl F.p) v w) (b.eval (Rounding.fl F.p) v w)
    linarith

/-- Rounding in the format: a relative error and, for subnormal results, half the smallest spacing. -/
theorem roundNum_err (F : Format) (x : K) : |roundNum F x - x| ≤ unit F.p * |x| + 2 ^ F.quantum / 2 := by
  have hq : (0 : K) < 2 ^ F.quantum := by positivity
  unfold roundNum
  split
  · have h := roundEven_err (x * 2 ^ (-F.quantum))
    have e : (roundEven (x * 2 ^ (-F.quantum)) : K) * 2 ^ F.quantum - x = ((roundEven (x * 2 ^ (-F.quantum)) : K) - x * 2 ^ (-F.quantum)) * 2 ^ F.quantum := by
      rw [sub_mul, mul_assoc, ← zpow_split, neg_add_cancel, zpow_zero, mul_one]
    rw [e, abs_mul, abs_of_pos hq]
    have := mul_le_mul_of_nonneg_right h hq.le
    have := mul_nonneg (unit_pos (K := K) F.p).le (abs_nonneg x)
    linarith
  · have := fl_err' F.p x
    linarith

end

theorem exactSqrt_val {a : Num ℝ} {x : ℝ} (ha : a.val = some x) (hx : 0 ≤ x) : (exactSqrt a).val = some (Real.sqrt x) := by
  cases a with
  | nan => cases ha
  | inf s => cases ha
  | zero s =>
    cases ha
    simp [exactSqrt, Num.val]
  | fin y =>
    cases ha
    simp [exactSqrt, Num.val, not_lt.mpr hx]

theorem exactSqrt_proper {a : Num ℝ} (ha : a.Proper) : (exactSqrt a).Proper := by
  cases a with
  | nan => trivial
  | inf s => cases s <;> trivial
  | zero s => trivial
  | fin y =>
    unfold exactSqrt
    simp only []
    split
    · trivial
    · rename_i h
      have hy : 0 < y := lt_of_le_of_ne (not_lt.mp h) (Ne.symm ha)
      exact (Real.sqrt_pos.mpr hy).ne'

end Verif.Ieee
