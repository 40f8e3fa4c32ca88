import Verif.Props.Ieee

/-! C189: spectral angles in IEEE arithmetic, with overflow, underflow, signed zeros, infinities and NaN.
C191: what happens outside the range. -/

set_option linter.unusedSectionVars false

namespace Verif.Ieee
open Verif FloatSpectral Rounding ImageUtils

/-- Specification: a value of moderate size: a finite number of the format, a multiple of `2^-G` and at most `2^H` in size. -/
def Moderate (F : Format) (G H : ℕ) (a : Num ℝ) (x : ℝ) : Prop := Reads F a x ∧ (∃ j : ℤ, x = j * 2 ^ (-(G : ℤ))) ∧ |x| ≤ 2 ^ H

theorem mult_mul {q r : ℤ} {x y : ℝ} (hx : ∃ j : ℤ, x = j * 2 ^ q) (hy : ∃ j : ℤ, y = j * 2 ^ r) : Mult (q + r) (x * y) := by
  obtain ⟨a, rfl⟩ := hx
  obtain ⟨b, rfl⟩ := hy
  refine ⟨a * b, ?_⟩
  rw [zpow_split]
  push_cast
  ring

theorem fl_le_pow {p : ℕ} (hp : 1 ≤ p) {e : ℤ} {x : ℝ} (h : x ≤ 2 ^ e) : Rounding.fl p x ≤ 2 ^ e := by
  have h1 : (1 : ℤ) ≤ 2 ^ p := one_le_pow₀ (by norm_num)
  have h2 := fl_exact (K := ℝ) hp 1 e (by simpa using h1)
  have h3 := fl_mono (K := ℝ) hp h
  simp only [Int.cast_one, one_mul] at h2
  rwa [h2] at h3

theorem pow_le_fl {p : ℕ} (hp : 1 ≤ p) {e : ℤ} {x : ℝ} (h : 2 ^ e ≤ x) : 2 ^ e ≤ Rounding.fl p x := by
  have h1 : (1 : ℤ) ≤ 2 ^ p := one_le_pow₀ (by norm_num)
  have h2 := fl_exact (K := ℝ) hp 1 e (by simpa using h1)
  have h3 := fl_mono (K := ℝ) hp h
  simp only [Int.cast_one, one_mul] at h2
  rwa [h2] at h3

/-- An inner product of moderate values. -/
theorem moderate_dot (F : Format) (hF : F.Good) {G H c n : ℕ} (hc : n ≤ 2 ^ c) (hcp : c + 1 ≤ F.p) (h1 : F.emin ≤ -(2 * G + 2 * H + c + 3 : ℤ)) (h2 : (2 * G + 2 * H + c + 3 : ℤ) ≤ F.emax)
    {d : DotTree} (hd : d.Covers n) {a b : Nat → Num ℝ} {x y : Nat → ℝ} (ha : ∀ k, k < n → Moderate F G H (a k) (x k)) (hb : ∀ k, k < n → Moderate F G H (b k) (y k)) :
    (dotOf F a b d).val = some (d.eval (Rounding.fl F.p) x y) ∧ (dotOf F a b d).Proper ∧ Mult (-(2 * G : ℤ)) (d.eval (Rounding.fl F.p) x y) ∧
      |d.eval (Rounding.fl F.p) x y| ≤ 2 ^ (2 * H + c + 1 : ℤ) := by
  have hmem : ∀ k ∈ d.leaves, k < n := fun k hk => by simpa using hd.mem_iff.mp hk
  have hg : (1 + unit F.p : ℝ) ^ n ≤ 2 := growth_two hF.1 (hc.trans (Nat.pow_le_pow_right (by norm_num) (by omega)))
  have hS : ∑ k ∈ Finset.range n, |x k * y k| ≤ 2 ^ (2 * H + c : ℤ) := by
    calc ∑ k ∈ Finset.range n, |x k * y k| ≤ ∑ k ∈ Finset.range n, (2 : ℝ) ^ (2 * H) := by
          refine Finset.sum_le_sum fun k hk => ?_
          have hk' : k < n := Finset.mem_range.mp hk
          rw [abs_mul, two_mul, pow_add]
          exact mul_le_mul (ha k hk').2.2 (hb k hk').2.2 (abs_nonneg _) (by positivity)
      _ = n * (2 : ℝ) ^ (2 * H) := by rw [Finset.sum_const, Finset.card_range, nsmul_eq_mul]
      _ ≤ 2 ^ c * 2 ^ (2 * H) := by
          refine mul_le_mul_of_nonneg_right ?_ (by positivity)
          exact_mod_cast hc
      _ = 2 ^ (2 * H + c : ℤ) := by
          rw [← pow_add, ← zpow_natCast]
          congr 1
          push_cast
          ring
  have hS0 : 0 ≤ ∑ k ∈ Finset.range n, |x k * y k| := Finset.sum_nonneg fun _ _ => abs_nonneg _
  have hbig : (1 + unit F.p : ℝ) ^ n * ∑ k ∈ Finset.range n, |x k * y k| ≤ 2 ^ (2 * H + c + 1 : ℤ) := by
    rw [zpow_split, zpow_one, mul_comm ((2 : ℝ) ^ (2 * H + c : ℤ))]
    exact mul_le_mul hg hS hS0 (by norm_num)
  have hl := covers_length hd
  have hp := perm_sum hd (fun k => |x k * y k|)
  obtain ⟨e1, e2⟩ := dotOf_val F hF.1 a b x y d (-(2 * G : ℤ)) (by unfold Format.quantum; have := hF.1; omega)
    (fun k hk => ⟨(ha k (hmem k hk)).1.val, (hb k (hmem k hk)).1.val, by
      have := mult_mul (ha k (hmem k hk)).2.1 (hb k (hmem k hk)).2.1
      rwa [← neg_add, ← two_mul] at this⟩)
    (by rw [hl, hp]; exact hbig.trans (zpow_le_zpow_right₀ (by norm_num) (by omega)))
  refine ⟨e1, ?_, e2, ?_⟩
  · have : ∀ t : DotTree, (∀ k ∈ t.leaves, k < n) → (dotOf F a b t).Proper := by
      intro t ht
      induction t with
      | mul k => exact round_proper F (exactMul_proper (ha k (ht k (by simp [DotTree.leaves]))).1.proper (hb k (ht k (by simp [DotTree.leaves]))).1.proper)
      | fma k s ih =>
        simp only [DotTree.leaves, List.mem_cons] at ht
        exact round_proper F (exactAdd_proper (exactMul_proper (ha k (ht k (.inl rfl))).1.proper (hb k (ht k (.inl rfl))).1.proper) (ih fun j hj => ht j (.inr hj)))
      | add s u ihs ihu =>
        simp only [DotTree.leaves, List.mem_append] at ht
        exact round_proper F (exactAdd_proper (ihs fun j hj => ht j (.inl hj)) (ihu fun j hj => ht j (.inr hj)))
    exact this d hmem
  · have := DotTree.size (rounds_fl (K := ℝ) F.p) (unit_pos F.p).le x y d
    rw [hl, hp] at this
    exact this.trans hbig

/-- The rounded square root of a sum of squares. -/
theorem moderate_sqrt (F : Format) (hF : F.Good) {G : ℕ} {A : ℤ} (hA : 0 ≤ A) (h1 : F.emin ≤ -(G : ℤ)) (h2 : A ≤ F.emax) {a : Num ℝ} {x : ℝ} (ha : a.val = some x) (hp : a.Proper)
    (hx0 : 0 ≤ x) (hm : Mult (-(2 * G : ℤ)) x) (hx : x ≤ 2 ^ A) :
    (sqrt F a).val = some (Rounding.fl F.p (Real.sqrt x)) ∧ (sqrt F a).Proper ∧ (x ≠ 0 → 2 ^ (-(G : ℤ)) ≤ Rounding.fl F.p (Real.sqrt x)) ∧ (Rounding.fl F.p (Real.sqrt x)) ^ 2 ≤ 2 ^ (A + 2) := by
  have hlow : x ≠ 0 → (2 : ℝ) ^ (-(G : ℤ)) ≤ Real.sqrt x := by
    intro h0
    have := mult_ge hm h0
    rw [abs_of_nonneg hx0] at this
    refine Real.le_sqrt_of_sq_le ?_
    rwa [← zpow_natCast, ← zpow_mul, show -(G : ℤ) * ((2 : ℕ) : ℤ) = -(2 * G : ℤ) by push_cast; ring]
  have hroot : Real.sqrt x ^ 2 = x := Real.sq_sqrt hx0
  have htop : Real.sqrt x ≤ 2 ^ A := by
    have hone : (1 : ℝ) ≤ 2 ^ A := one_le_zpow₀ (by norm_num) hA
    rw [Real.sqrt_le_iff]
    refine ⟨by positivity, hx.trans ?_⟩
    nlinarith
  have hs0 := Real.sqrt_nonneg x
  refine ⟨round_val F hF.1 (exactSqrt_val ha hx0) ?_ ?_, round_proper F (exactSqrt_proper hp), fun h0 => pow_le_fl hF.1 (hlow h0), ?_⟩
  · by_cases h0 : x = 0
    · right
      rw [h0, Real.sqrt_zero]
      exact ⟨0, by simp⟩
    · left
      rw [abs_of_nonneg hs0]
      exact le_trans (zpow_le_zpow_right₀ (by norm_num) h1) (hlow h0)
  · rw [abs_of_nonneg hs0]
    exact htop.trans (zpow_le_zpow_right₀ (by norm_num) h2)
  · have hu := unit_le_half (K := ℝ) hF.1
    have hle := fl_le (p := F.p) hs0
    have h0 := fl_nonneg (K := ℝ) hF.1 hs0
    have : Rounding.fl F.p (Real.sqrt x) ≤ 2 * Real.sqrt x := by nlinarith
    rw [zpow_split]
    have e : (2 : ℝ) ^ (2 : ℤ) = 4 := by norm_num
    rw [e]
    nlinarith

/-- One score. -/
theorem moderate_score (F : Format) (hF : F.Good) {G H c n : ℕ} (hc : n ≤ 2 ^ c) (hcp : c + 1 ≤ F.p) (h1 : F.emin ≤ -(2 * G + 2 * H + c + 3 : ℤ)) (h2 : (2 * G + 2 * H + c + 3 : ℤ) ≤ F.emax)
    {d1 d2 d3 : DotTree} (hd1 : d1.Covers n) (hd2 : d2.Covers n) (hd3 : d3.Covers n) {a b : Nat → Num ℝ} {t x : Nat → ℝ} (ha : ∀ k, k < n → Moderate F G H (a k) (t k))
    (hb : ∀ k, k < n → Moderate F G H (b k) (x k)) :
    match samScoreR (Rounding.fl F.p) d1 d2 d3 t x with
    | some s => Reads F (samScoreI F d1 d2 d3 a b) s
    | none => samScoreI F d1 d2 d3 a b = .nan := by
  obtain ⟨n1, n2, n3, n4⟩ := moderate_dot F hF hc hcp h1 h2 hd1 ha hb
  obtain ⟨t1, t2, t3, t4⟩ := moderate_dot F hF hc hcp h1 h2 hd2 ha ha
  obtain ⟨x1, x2, x3, x4⟩ := moderate_dot F hF hc hcp h1 h2 hd3 hb hb
  have hu := unit_pos (K := ℝ) F.p
  have hu1 : (unit F.p : ℝ) < 1 := lt_of_le_of_lt (unit_le_half hF.1) (by norm_num)
  have sqT := DotTree.square_bounds (rounds_fl (K := ℝ) F.p) hu.le hu1 t d2
  have sqX := DotTree.square_bounds (rounds_fl (K := ℝ) F.p) hu.le hu1 x d3
  rw [perm_sum hd2] at sqT
  rw [perm_sum hd3] at sqX
  have sT0 : 0 ≤ ∑ k ∈ Finset.range n, t k * t k := Finset.sum_nonneg fun k _ => mul_self_nonneg _
  have sX0 : 0 ≤ ∑ k ∈ Finset.range n, x k * x k := Finset.sum_nonneg fun k _ => mul_self_nonneg _
  have g0 : ∀ m : ℕ, 0 < (1 - unit F.p : ℝ) ^ m := fun m => pow_pos (by linarith) m
  have T0 : 0 ≤ d2.eval (Rounding.fl F.p) t t := le_trans (mul_nonneg (g0 _).le sT0) sqT.1
  have X0 : 0 ≤ d3.eval (Rounding.fl F.p) x x := le_trans (mul_nonneg (g0 _).le sX0) sqX.1
  have zeroT : d2.eval (Rounding.fl F.p) t t = 0 → ∀ k, k < n → t k = 0 := by
    intro h k hk
    rw [h] at sqT
    have : ∑ k ∈ Finset.range n, t k * t k = 0 := le_antisymm (nonpos_of_mul_nonpos_right sqT.1 (g0 _)) sT0
    rw [Finset.sum_eq_zero_iff_of_nonneg fun k _ => mul_self_nonneg _] at this
    exact mul_self_eq_zero.mp (this k (Finset.mem_range.mpr hk))
  have zeroX : d3.eval (Rounding.fl F.p) x x = 0 → ∀ k, k < n → x k = 0 := by
    intro h k hk
    rw [h] at sqX
    have : ∑ k ∈ Finset.range n, x k * x k = 0 := le_antisymm (nonpos_of_mul_nonpos_right sqX.1 (g0 _)) sX0
    rw [Finset.sum_eq_zero_iff_of_nonneg fun k _ => mul_self_nonneg _] at this
    exact mul_self_eq_zero.mp (this k (Finset.mem_range.mpr hk))
  have zeroN : (∀ k, k < n → t k * x k = 0) → d1.eval (Rounding.fl F.p) t x = 0 := by
    intro h
    have := DotTree.size (rounds_fl (K := ℝ) F.p) hu.le t x d1
    rw [perm_sum hd1, Finset.sum_eq_zero (fun k hk => by rw [h k (Finset.mem_range.mp hk), abs_zero]), mul_zero] at this
    exact abs_eq_zero.mp (le_antisymm this (abs_nonneg _))
  have hA : (0 : ℤ) ≤ 2 * H + c + 1 := by positivity
  rw [abs_of_nonneg T0] at t4
  rw [abs_of_nonneg X0] at x4
  obtain ⟨rt1, rt2, rt3, rt4⟩ := moderate_sqrt F hF hA (G := G) (by omega) (by omega) t1 t2 T0 t3 t4
  obtain ⟨rx1, rx2, rx3, rx4⟩ := moderate_sqrt F hF hA (G := G) (by omega) (by omega) x1 x2 X0 x3 x4
  have rt0 : 0 ≤ Rounding.fl F.p (Real.sqrt (d2.eval (Rounding.fl F.p) t t)) := fl_nonneg hF.1 (Real.sqrt_nonneg _)
  have rx0 : 0 ≤ Rounding.fl F.p (Real.sqrt (d3.eval (Rounding.fl F.p) x x)) := fl_nonneg hF.1 (Real.sqrt_nonneg _)
  have zT : d2.eval (Rounding.fl F.p) t t = 0 → Rounding.fl F.p (Real.sqrt (d2.eval (Rounding.fl F.p) t t)) = 0 := fun h => by rw [h, Real.sqrt_zero, fl_zero]
  have zX : d3.eval (Rounding.fl F.p) x x = 0 → Rounding.fl F.p (Real.sqrt (d3.eval (Rounding.fl F.p) x x)) = 0 := fun h => by rw [h, Real.sqrt_zero, fl_zero]
  unfold samScoreR samScoreI
  generalize hN : d1.eval (Rounding.fl F.p) t x = N at *
  generalize hT : d2.eval (Rounding.fl F.p) t t = T at *
  generalize hX : d3.eval (Rounding.fl F.p) x x = X at *
  generalize hRT : Rounding.fl F.p (Real.sqrt T) = RT at *
  generalize hRX : Rounding.fl F.p (Real.sqrt X) = RX at *
  have ptop : RT * RX ≤ 2 ^ (2 * H + c + 3 : ℤ) := by
    have : (2 : ℝ) ^ (2 * H + c + 1 + 2 : ℤ) = 2 ^ (2 * H + c + 3 : ℤ) := by congr 1
    rw [this] at rt4 rx4
    nlinarith [sq_nonneg (RT - RX)]
  have p0 : 0 ≤ RT * RX := mul_nonneg rt0 rx0
  have pplain : F.Plain (RT * RX) ∧ (T ≠ 0 ∧ X ≠ 0 → 2 ^ (-(2 * G : ℤ)) ≤ RT * RX) := by
    by_cases h : T ≠ 0 ∧ X ≠ 0
    · have hlow : (2 : ℝ) ^ (-(2 * G : ℤ)) ≤ RT * RX := by
        have := mul_le_mul (rt3 h.1) (rx3 h.2) (by positivity) rt0
        rwa [← zpow_split, ← neg_add, ← two_mul] at this
      refine ⟨.inl ?_, fun _ => hlow⟩
      rw [abs_of_nonneg p0]
      exact (zpow_le_zpow_right₀ (by norm_num) (by omega)).trans hlow
    · refine ⟨.inr ?_, fun h' => absurd h' h⟩
      have : RT * RX = 0 := by
        rcases not_and_or.mp h with h | h
        · rw [zT (not_not.mp h), zero_mul]
        · rw [zX (not_not.mp h), mul_zero]
      rw [this]
      exact ⟨0, by simp⟩
  have pval : (mul F (sqrt F (dotOf F a a d2)) (sqrt F (dotOf F b b d3))).val = some (Rounding.fl F.p (RT * RX)) :=
    round_val F hF.1 (exactMul_val rt1 rx1) pplain.1 (by rw [abs_of_nonneg p0]; exact ptop.trans (zpow_le_zpow_right₀ (by norm_num) (by omega)))
  have pprop : (mul F (sqrt F (dotOf F a a d2)) (sqrt F (dotOf F b b d3))).Proper := round_proper F (exactMul_proper rt2 rx2)
  by_cases h : T ≠ 0 ∧ X ≠ 0
  · have dlow := pow_le_fl hF.1 (pplain.2 h)
    have dtop := fl_le_pow hF.1 ptop
    generalize Rounding.fl F.p (RT * RX) = D at *
    have D0 : 0 < D := lt_of_lt_of_le (by positivity) dlow
    have hq : fdiv N D = some (N / D) := by unfold fdiv; rw [if_neg D0.ne']
    rw [hq, Option.map_some]
    simp only []
    have hpl : F.Plain (N / D) := by
      by_cases hN0 : N = 0
      · right
        rw [hN0, zero_div]
        exact ⟨0, by simp⟩
      · left
        rw [abs_div, abs_of_pos D0, le_div_iff₀ D0]
        refine le_trans ?_ (mult_ge n3 hN0)
        refine (mul_le_mul_of_nonneg_left dtop (by positivity)).trans ?_
        rw [← zpow_split]
        exact zpow_le_zpow_right₀ (by norm_num) (by omega)
    have htop : |N / D| ≤ 2 ^ F.emax := by
      rw [abs_div, abs_of_pos D0, div_le_iff₀ D0]
      refine n4.trans ?_
      refine le_trans ?_ (mul_le_mul_of_nonneg_left dlow (by positivity))
      rw [← zpow_split]
      exact zpow_le_zpow_right₀ (by norm_num) (by omega)
    rw [← roundNum_plain F hF.1 hpl]
    exact round_reads F hF (exactDiv_proper n2 pprop) (exactDiv_val n1 pval D0.ne') htop
  · have hN0 : N = 0 := by
      apply zeroN
      intro k hk
      rcases not_and_or.mp h with h | h
      · rw [zeroT (not_not.mp h) k hk, zero_mul]
      · rw [zeroX (not_not.mp h) k hk, mul_zero]
    have hP : RT * RX = 0 := by
      rcases not_and_or.mp h with h | h
      · rw [zT (not_not.mp h), zero_mul]
      · rw [zX (not_not.mp h), mul_zero]
    rw [hP, fl_zero] at pval ⊢
    have hq : fdiv N (0 : ℝ) = none := by unfold fdiv; rw [if_pos rfl]
    rw [hq, Option.map_none]
    simp only []
    rw [hN0] at n1
    unfold div
    rw [exactDiv_nan n1 pval n2 pprop]
    rfl

/-! ### C189 -/

/-- C189: for values of moderate size the scores are, bit for bit, those computed with unbounded exponents, so that everything known of these (C156) holds; a score that has no
value there is NaN. -/
theorem C189_same (F : Format) (hF : F.Good) {G H c : ℕ} (order : Nat → DotTree × DotTree × DotTree) (img : A2 (Num ℝ)) (t : A1 (Num ℝ)) (v : A2 ℝ) (w : A1 ℝ)
    (hy : v.ny = img.ny) (hx : v.nx = img.nx) (hw : w.n = t.n) (ho : SamOrders order v) (hc : img.nx ≤ 2 ^ c) (hcp : c + 1 ≤ F.p)
    (h1 : F.emin ≤ -(2 * G + 2 * H + c + 3 : ℤ)) (h2 : (2 * G + 2 * H + c + 3 : ℤ) ≤ F.emax) (ht : ∀ b, b < t.n → Moderate F G H (t.px b) (w.px b))
    (hv : ∀ k b, k < img.ny → b < img.nx → Moderate F G H (img.px k b) (v.px k b)) :
    (t.n ≠ img.nx → samI F order img t = .error .valueError) ∧
      (t.n = img.nx → ∃ s r, samI F order img t = .ok s ∧ samR (Rounding.fl F.p) order v w = .ok r ∧ s.n = img.ny ∧
        ∀ k, k < img.ny → (∀ x, r.px k = some x → Reads F (s.px k) x) ∧ (r.px k = none → s.px k = .nan)) := by
  refine ⟨fun h => if_pos h, fun h => ⟨_, _, if_neg (not_not.mpr h), if_neg (not_not.mpr (by rw [hw, hx, h])), rfl, fun k hk => ?_⟩⟩
  obtain ⟨o1, o2, o3⟩ := ho k
  rw [hx] at o1 o2 o3
  have := moderate_score F hF hc hcp h1 h2 o1 o2 o3 (fun b hb => ht b (h ▸ hb)) (fun b hb => hv k b hk hb)
  simp only []
  constructor
  · intro x hx
    rw [hx] at this
    exact this
  · intro hx
    rw [hx] at this
    exact this

theorem moderate_of {F : Format} {G H : ℕ} {a : Num ℝ} {x : ℝ} (h : Reads F a x) (h1 : x = 0 ∨ 2 ^ ((F.p : ℤ) - G) ≤ |x|) (h2 : |x| ≤ 2 ^ H) : Moderate F G H a x := by
  refine ⟨h, ?_, h2⟩
  obtain ⟨⟨k, e, hk, _, hx, _⟩, _⟩ := h
  rcases h1 with h0 | h1
  · exact ⟨0, by rw [h0]; simp⟩
  · rcases le_or_gt (-(G : ℤ)) e with he | he
    · exact mult_weaken he ⟨k, hx⟩
    · exfalso
      have he0 : (0 : ℝ) < 2 ^ e := by positivity
      have hk' : |(k : ℝ)| ≤ 2 ^ F.p := by exact_mod_cast hk
      rw [hx, abs_mul, abs_of_pos he0] at h1
      have h3 := h1.trans (mul_le_mul_of_nonneg_right hk' he0.le)
      rw [← zpow_natCast, ← zpow_split, zpow_le_zpow_iff_right₀ (by norm_num)] at h3
      omega

/-- C189 as the error of a score: the score of a sample is NaN when the sample or the target is all zero, and otherwise a number off the cosine by at most the bound of C156. -/
theorem C189_score (F : Format) (hF : F.Good) {G H c : ℕ} (order : Nat → DotTree × DotTree × DotTree) (img : A2 (Num ℝ)) (t : A1 (Num ℝ)) (v : A2 ℝ) (w : A1 ℝ)
    (hy : v.ny = img.ny) (hx : v.nx = img.nx) (hw : w.n = t.n) (ho : SamOrders order v) (hn : t.n = img.nx) (hc : img.nx ≤ 2 ^ c) (hcp : c + 1 ≤ F.p)
    (h1 : F.emin ≤ -(2 * G + 2 * H + c + 3 : ℤ)) (h2 : (2 * G + 2 * H + c + 3 : ℤ) ≤ F.emax)
    (ht : ∀ b, b < t.n → Reads F (t.px b) (w.px b) ∧ (w.px b = 0 ∨ 2 ^ ((F.p : ℤ) - G) ≤ |w.px b|) ∧ |w.px b| ≤ 2 ^ H)
    (hv : ∀ k b, k < img.ny → b < img.nx → Reads F (img.px k b) (v.px k b) ∧ (v.px k b = 0 ∨ 2 ^ ((F.p : ℤ) - G) ≤ |v.px k b|) ∧ |v.px k b| ≤ 2 ^ H) :
    ∃ s, samI F order img t = .ok s ∧ s.n = img.ny ∧ ∀ k, k < img.ny →
      ((∀ b, b < img.nx → w.px b = 0) ∨ (∀ b, b < img.nx → v.px k b = 0) → s.px k = .nan) ∧
      ((∃ b, b < img.nx ∧ w.px b ≠ 0) → (∃ b, b < img.nx ∧ v.px k b ≠ 0) → ∃ x, Reads F (s.px k) x ∧
        |x - cosine img.nx w.px (fun b => v.px k b)| ≤ (1 + 1 / 2 ^ F.p) ^ (img.nx + 1) / (1 - 1 / 2 ^ F.p) ^ (img.nx + 3) - 1) := by
  obtain ⟨s, r, e1, e2, e3, e4⟩ := (C189_same F hF order img t v w hy hx hw ho hc hcp h1 h2 (fun b hb => moderate_of (ht b hb).1 (ht b hb).2.1 (ht b hb).2.2)
    (fun k b hk hb => moderate_of (hv k b hk hb).1 (hv k b hk hb).2.1 (hv k b hk hb).2.2)).2 hn
  refine ⟨s, e1, e3, fun k hk => ?_⟩
  have hu : (0 : ℝ) ≤ unit F.p := (unit_pos F.p).le
  have hu1 : (unit F.p : ℝ) < 1 := lt_of_le_of_lt (unit_le_half hF.1) (by norm_num)
  have hd := C156_defined (rounds_fl (K := ℝ) F.p) hu hu1 order v w ho e2 k
  rw [hx] at hd
  constructor
  · intro hz
    apply (e4 k hk).2
    have : ¬ (r.px k).isSome = true := by
      rw [hd]
      rintro ⟨⟨b, hb, hb'⟩, ⟨c, hc, hc'⟩⟩
      rcases hz with hz | hz
      · exact hb' (hz b hb)
      · exact hc' (hz c hc)
    simpa using this
  · intro a1 a2
    obtain ⟨x, hxs⟩ := Option.isSome_iff_exists.mp (hd.mpr ⟨a1, a2⟩)
    refine ⟨x, (e4 k hk).1 x hxs, ?_⟩
    have := (C156_error (rounds_fl (K := ℝ) F.p) hu hu1 order v w ho e2 k hxs).1
    rw [hx] at this
    exact this

/-- C189 in double precision: values that are zero or between `2^-147` and `2^200` in size, at most `2^50` bands. -/
theorem C189_float64 (order : Nat → DotTree × DotTree × DotTree) (img : A2 (Num ℝ)) (t : A1 (Num ℝ)) (v : A2 ℝ) (w : A1 ℝ)
    (hy : v.ny = img.ny) (hx : v.nx = img.nx) (hw : w.n = t.n) (ho : SamOrders order v) (hn : t.n = img.nx) (hc : img.nx ≤ 2 ^ 50)
    (ht : ∀ b, b < t.n → Reads binary64 (t.px b) (w.px b) ∧ (w.px b = 0 ∨ 2 ^ (-147 : ℤ) ≤ |w.px b|) ∧ |w.px b| ≤ 2 ^ 200)
    (hv : ∀ k b, k < img.ny → b < img.nx → Reads binary64 (img.px k b) (v.px k b) ∧ (v.px k b = 0 ∨ 2 ^ (-147 : ℤ) ≤ |v.px k b|) ∧ |v.px k b| ≤ 2 ^ 200) :
    ∃ s, samI binary64 order img t = .ok s ∧ s.n = img.ny ∧ ∀ k, k < img.ny →
      ((∀ b, b < img.nx → w.px b = 0) ∨ (∀ b, b < img.nx → v.px k b = 0) → s.px k = .nan) ∧
      ((∃ b, b < img.nx ∧ w.px b ≠ 0) → (∃ b, b < img.nx ∧ v.px k b ≠ 0) → ∃ x, Reads binary64 (s.px k) x ∧
        |x - cosine img.nx w.px (fun b => v.px k b)| ≤ (8 * img.nx + 16) / 2 ^ 54) := by
  have hG : ((binary64.p : ℤ) - ((200 : ℕ) : ℤ)) = -147 := by decide
  obtain ⟨s, r, e1, e2, e3, e4⟩ := (C189_same binary64 good64 (G := 200) (H := 200) (c := 50) order img t v w hy hx hw ho hc (by decide) (by decide) (by decide)
    (fun b hb => moderate_of (ht b hb).1 (by rw [hG]; exact (ht b hb).2.1) (ht b hb).2.2)
    (fun k b hk hb => moderate_of (hv k b hk hb).1 (by rw [hG]; exact (hv k b hk hb).2.1) (hv k b hk hb).2.2)).2 hn
  obtain ⟨s', f1, f2, f3⟩ := C189_score binary64 good64 (G := 200) (H := 200) (c := 50) order img t v w hy hx hw ho hn hc (by decide) (by decide) (by decide)
    (fun b hb => ⟨(ht b hb).1, by rw [hG]; exact (ht b hb).2.1, (ht b hb).2.2⟩)
    (fun k b hk hb => ⟨(hv k b hk hb).1, by rw [hG]; exact (hv k b hk hb).2.1, (hv k b hk hb).2.2⟩)
  rw [e1] at f1
  cases f1
  refine ⟨s, e1, e3, fun k hk => ⟨(f3 k hk).1, fun a1 a2 => ?_⟩⟩
  have hu : (0 : ℝ) ≤ unit 53 := (unit_pos 53).le
  have hu1 : (unit 53 : ℝ) < 1 := lt_of_le_of_lt (unit_le_half (by norm_num)) (by norm_num)
  have hd := C156_defined (rounds_fl (K := ℝ) 53) hu hu1 order v w ho e2 k
  rw [hx] at hd
  obtain ⟨x, hxs⟩ := Option.isSome_iff_exists.mp (hd.mpr ⟨a1, a2⟩)
  refine ⟨x, (e4 k hk).1 x hxs, ?_⟩
  have := C156_float64 order v w ho (by rw [hx]; exact hc) e2 k hxs
  rwa [hx] at this

/-- C189 in single precision: values that are zero or between `2^-15` and `2^16` in size, at most 4096 bands. -/
theorem C189_float32 (order : Nat → DotTree × DotTree × DotTree) (img : A2 (Num ℝ)) (t : A1 (Num ℝ)) (v : A2 ℝ) (w : A1 ℝ)
    (hy : v.ny = img.ny) (hx : v.nx = img.nx) (hw : w.n = t.n) (ho : SamOrders order v) (hn : t.n = img.nx) (hc : img.nx ≤ 2 ^ 12)
    (ht : ∀ b, b < t.n → Reads binary32 (t.px b) (w.px b) ∧ (w.px b = 0 ∨ 2 ^ (-15 : ℤ) ≤ |w.px b|) ∧ |w.px b| ≤ 2 ^ 16)
    (hv : ∀ k b, k < img.ny → b < img.nx → Reads binary32 (img.px k b) (v.px k b) ∧ (v.px k b = 0 ∨ 2 ^ (-15 : ℤ) ≤ |v.px k b|) ∧ |v.px k b| ≤ 2 ^ 16) :
    ∃ s, samI binary32 order img t = .ok s ∧ s.n = img.ny ∧ ∀ k, k < img.ny →
      ((∀ b, b < img.nx → w.px b = 0) ∨ (∀ b, b < img.nx → v.px k b = 0) → s.px k = .nan) ∧
      ((∃ b, b < img.nx ∧ w.px b ≠ 0) → (∃ b, b < img.nx ∧ v.px k b ≠ 0) → ∃ x, Reads binary32 (s.px k) x ∧
        |x - cosine img.nx w.px (fun b => v.px k b)| ≤ (1 + 1 / 2 ^ 24) ^ (img.nx + 1) / (1 - 1 / 2 ^ 24) ^ (img.nx + 3) - 1) := by
  have hG : ((binary32.p : ℤ) - ((39 : ℕ) : ℤ)) = -15 := by decide
  exact C189_score binary32 good32 (G := 39) (H := 16) (c := 12) order img t v w hy hx hw ho hn hc (by decide) (by decide) (by decide)
    (fun b hb => ⟨(ht b hb).1, by rw [hG]; exact (ht b hb).2.1, (ht b hb).2.2⟩)
    (fun k b hk hb => ⟨(hv k b hk hb).1, by rw [hG]; exact (hv k b hk hb).2.1, (hv k b hk hb).2.2⟩)

/-! ### C191 -/

theorem reads_pow {K : Type} [Field K] [LinearOrder K] [IsStrictOrderedRing K] (F : Format) {e : ℤ} (h1 : F.emin - (F.p - 1) ≤ e) (h2 : e ≤ F.emax) :
    Reads F (Num.fin ((2 : K) ^ e)) (2 ^ e) := by
  have h0 : (0 : K) < 2 ^ e := by positivity
  have hp : (1 : ℤ) ≤ 2 ^ F.p := one_le_pow₀ (by norm_num)
  refine ⟨⟨1, e, by simpa using hp, h1, by simp, ?_⟩, .inr ⟨h0.ne', rfl⟩⟩
  rw [abs_of_pos h0]
  exact zpow_lt_zpow_right₀ (by norm_num) (by omega)

theorem round_pow (F : Format) (hF : F.Good) {e : ℤ} (h1 : F.quantum ≤ e) (h2 : e ≤ F.emax) : round F (Num.fin ((2 : ℝ) ^ e)) = .fin (2 ^ e) := by
  have h0 : (0 : ℝ) < 2 ^ e := by positivity
  have hp : (1 : ℤ) ≤ 2 ^ F.p := one_le_pow₀ (by norm_num)
  have hm : Mult F.quantum ((2 : ℝ) ^ e) := mult_weaken h1 ⟨1, by simp⟩
  have hr : roundNum F ((2 : ℝ) ^ e) = 2 ^ e := by
    rw [roundNum_plain F hF.1 (.inr hm)]
    have := fl_exact (K := ℝ) hF.1 1 e (by simpa using hp)
    simpa using this
  unfold round
  simp only [hr]
  rw [abs_of_pos h0, if_neg (not_le.mpr (zpow_lt_zpow_right₀ (by norm_num) (by omega))), if_neg h0.ne']

theorem round_over (F : Format) (hF : F.Good) {e : ℤ} (h : F.emax + 1 ≤ e) : round F (Num.fin ((2 : ℝ) ^ e)) = .inf false := by
  have h0 : (0 : ℝ) < 2 ^ e := by positivity
  have hp : (1 : ℤ) ≤ 2 ^ F.p := one_le_pow₀ (by norm_num)
  have hpl : F.Plain ((2 : ℝ) ^ e) := by
    left
    rw [abs_of_pos h0]
    exact zpow_le_zpow_right₀ (by norm_num) (by have := hF.2; omega)
  have hr : roundNum F ((2 : ℝ) ^ e) = 2 ^ e := by
    rw [roundNum_plain F hF.1 hpl]
    have := fl_exact (K := ℝ) hF.1 1 e (by simpa using hp)
    simpa using this
  unfold round
  simp only [hr]
  rw [abs_of_pos h0, if_pos (zpow_le_zpow_right₀ (by norm_num) h)]
  simp [h0.le]

theorem round_under (F : Format) (hF : F.Good) {e : ℤ} (h : e + 1 ≤ F.quantum) : round F (Num.fin ((2 : ℝ) ^ e)) = .zero false := by
  have h0 : (0 : ℝ) < 2 ^ e := by positivity
  have hr : roundNum F ((2 : ℝ) ^ e) = 0 := by
    unfold roundNum
    rw [if_pos]
    · have hz : roundEven ((2 : ℝ) ^ e * 2 ^ (-F.quantum)) = 0 := by
        apply roundEven_even _ (by simp)
        rw [Int.cast_zero, sub_zero, ← zpow_split, abs_of_pos (by positivity)]
        have : (2 : ℝ) ^ (e + -F.quantum) ≤ 2 ^ (-1 : ℤ) := zpow_le_zpow_right₀ (by norm_num) (by omega)
        refine this.trans (by norm_num)
      rw [hz]
      simp
    · rw [abs_of_pos h0]
      exact zpow_lt_zpow_right₀ (by norm_num) (by unfold Format.quantum at h; have := hF.1; omega)
  unfold round
  simp only [hr]
  rw [abs_zero, if_neg (not_le.mpr (by positivity))]
  simp [h0.le]

/-- C191 is FALSE for bright samples: against the target (1), the sample (2^e) with `2 e > emax` (float64: from 1.4e154, float32: from 1.9e19) scores 0 instead of 1, the cosine. -/
theorem C191_overflow_false (F : Format) (hF : F.Good) (hF0 : F.emin ≤ 0) {e : ℤ} (he : F.emax + 1 ≤ 2 * e) (he2 : e ≤ F.emax) (he0 : 0 ≤ e) :
    Reads F (Num.fin ((2 : ℝ) ^ e)) (2 ^ e) ∧ cosine 1 (fun _ => 1) (fun _ => (2 : ℝ) ^ e) = 1 ∧
      ∃ s, samI F (fun _ => (.mul 0, .mul 0, .mul 0)) ⟨1, 1, fun _ _ => .fin ((2 : ℝ) ^ e)⟩ ⟨1, fun _ => .fin 1⟩ = .ok s ∧ s.px 0 = .zero false := by
  have h0 : (0 : ℝ) < 2 ^ e := by positivity
  have hq : F.quantum ≤ 0 := by unfold Format.quantum; have := hF.1; omega
  have hemax : 0 ≤ F.emax := he0.trans he2
  refine ⟨reads_pow F (le_trans hq he0) he2, ?_, _, if_neg (by simp), ?_⟩
  · unfold cosine
    simp [Real.sqrt_mul_self h0.le, h0.ne']
  · have r1 : round F (Num.fin (1 : ℝ)) = .fin 1 := by
      have := round_pow F hF hq hemax
      rwa [zpow_zero] at this
    have r2 : round F (Num.fin ((2 : ℝ) ^ e)) = .fin (2 ^ e) := round_pow F hF (hq.trans he0) he2
    have r3 : round F (Num.fin ((2 : ℝ) ^ e * 2 ^ e)) = .inf false := by
      rw [← zpow_split]
      exact round_over F hF (by omega)
    have m1 : mul F (Num.fin (1 : ℝ)) (.fin 1) = .fin 1 := by
      unfold mul exactMul
      simp only [mul_one]
      exact r1
    have m2 : mul F (Num.fin (1 : ℝ)) (.fin (2 ^ e)) = .fin (2 ^ e) := by
      unfold mul exactMul
      simp only [one_mul]
      exact r2
    have m3 : mul F (Num.fin ((2 : ℝ) ^ e)) (.fin (2 ^ e)) = .inf false := r3
    have s1 : sqrt F (Num.fin (1 : ℝ)) = .fin 1 := by
      unfold sqrt exactSqrt
      have : ¬ (1 : ℝ) < 0 := by norm_num
      simp only [this, if_false, Real.sqrt_one]
      exact r1
    have s2 : sqrt F (Num.inf false : Num ℝ) = .inf false := by simp [sqrt, exactSqrt, round]
    have m4 : mul F (Num.fin (1 : ℝ)) (.inf false) = .inf false := by
      simp [mul, exactMul, Num.sign, round]
    show samScoreI F (.mul 0) (.mul 0) (.mul 0) (fun _ => .fin 1) (fun _ => .fin ((2 : ℝ) ^ e)) = _
    unfold samScoreI
    simp only [dotOf, m1, m2, m3, s1, s2, m4]
    simp [div, exactDiv, Num.sign, round, h0.le]

/-- C191 is FALSE for dark samples: against the target (1), the sample (2^e) whose square underflows (float64: below 1.6e-162, float32: below 2.7e-23) scores infinity instead of 1. -/
theorem C191_underflow_false (F : Format) (hF : F.Good) (hF1 : 0 ≤ F.emax) {e : ℤ} (he : 2 * e + 1 ≤ F.emin - (F.p - 1)) (he2 : F.emin - (F.p - 1) ≤ e) :
    Reads F (Num.fin ((2 : ℝ) ^ e)) (2 ^ e) ∧ cosine 1 (fun _ => 1) (fun _ => (2 : ℝ) ^ e) = 1 ∧
      ∃ s, samI F (fun _ => (.mul 0, .mul 0, .mul 0)) ⟨1, 1, fun _ _ => .fin ((2 : ℝ) ^ e)⟩ ⟨1, fun _ => .fin 1⟩ = .ok s ∧ s.px 0 = .inf false := by
  have h0 : (0 : ℝ) < 2 ^ e := by positivity
  have hq : F.quantum ≤ 0 := by unfold Format.quantum; omega
  have he' : e ≤ F.emax := by unfold Format.quantum at hq; omega
  refine ⟨reads_pow F he2 he', ?_, _, if_neg (by simp), ?_⟩
  · unfold cosine
    simp [Real.sqrt_mul_self h0.le, h0.ne']
  · have r1 : round F (Num.fin (1 : ℝ)) = .fin 1 := by
      have := round_pow F hF hq hF1
      rwa [zpow_zero] at this
    have r2 : round F (Num.fin ((2 : ℝ) ^ e)) = .fin (2 ^ e) := round_pow F hF he2 he'
    have m1 : mul F (Num.fin (1 : ℝ)) (.fin 1) = .fin 1 := by
      unfold mul exactMul
      simp only [mul_one]
      exact r1
    have m2 : mul F (Num.fin (1 : ℝ)) (.fin (2 ^ e)) = .fin (2 ^ e) := by
      unfold mul exactMul
      simp only [one_mul]
      exact r2
    have m3 : mul F (Num.fin ((2 : ℝ) ^ e)) (.fin (2 ^ e)) = .zero false := by
      unfold mul exactMul
      simp only []
      rw [← zpow_split]
      exact round_under F hF (by unfold Format.quantum; omega)
    have s1 : sqrt F (Num.fin (1 : ℝ)) = .fin 1 := by
      unfold sqrt exactSqrt
      have : ¬ (1 : ℝ) < 0 := by norm_num
      simp only [this, if_false, Real.sqrt_one]
      exact r1
    have s2 : sqrt F (Num.zero false : Num ℝ) = .zero false := by simp [sqrt, exactSqrt, round]
    have hone : ¬ (1 : ℝ) < 0 := by norm_num
    have m4 : mul F (Num.fin (1 : ℝ)) (.zero false) = .zero false := by
      simp [mul, exactMul, Num.sign, round, hone]
    show samScoreI F (.mul 0) (.mul 0) (.mul 0) (fun _ => .fin 1) (fun _ => .fin ((2 : ℝ) ^ e)) = _
    unfold samScoreI
    simp only [dotOf, m1, m2, m3, s1, s2, m4]
    simp [div, exactDiv, Num.sign, round, h0.le]

/-- Non-vacuity: exponents of float64 and float32 for which the two theorems above apply. -/
example : (binary64.emax + 1 ≤ 2 * (512 : ℤ) ∧ binary32.emax + 1 ≤ 2 * (64 : ℤ)) ∧
    2 * (-538 : ℤ) + 1 ≤ binary64.emin - (binary64.p - 1) ∧ 2 * (-75 : ℤ) + 1 ≤ binary32.emin - (binary32.p - 1) := by decide

/-- C191 (partial): rescaling a sample of moderate size by a power of two that leaves it of moderate size does not change the value of its score.  Missing: samples that become too bright or too dark
(`C191_overflow_false`, `C191_underflow_false`). -/
theorem C191_scale_partial (F : Format) (hF : F.Good) {G H c : ℕ} (order : Nat → DotTree × DotTree × DotTree) (img img' : A2 (Num ℝ)) (t : A1 (Num ℝ)) (v : A2 ℝ) (w : A1 ℝ) (e : Nat → ℤ)
    (hs : img'.ny = img.ny ∧ img'.nx = img.nx) (hy : v.ny = img.ny) (hx : v.nx = img.nx) (hw : w.n = t.n) (ho : SamOrders order v) (hc : img.nx ≤ 2 ^ c) (hcp : c + 1 ≤ F.p)
    (h1 : F.emin ≤ -(2 * G + 2 * H + c + 3 : ℤ)) (h2 : (2 * G + 2 * H + c + 3 : ℤ) ≤ F.emax) (hn : t.n = img.nx) (ht : ∀ b, b < t.n → Moderate F G H (t.px b) (w.px b))
    (hv : ∀ k b, k < img.ny → b < img.nx → Moderate F G H (img.px k b) (v.px k b))
    (hv' : ∀ k b, k < img.ny → b < img.nx → Moderate F G H (img'.px k b) (2 ^ e k * v.px k b)) :
    ∃ s s', samI F order img t = .ok s ∧ samI F order img' t = .ok s' ∧ ∀ k, k < img.ny → (s.px k).val = (s'.px k).val := by
  obtain ⟨s, r, e1, e2, _, e4⟩ := (C189_same F hF order img t v w hy hx hw ho hc hcp h1 h2 ht hv).2 hn
  obtain ⟨s', r', f1, f2, _, f4⟩ := (C189_same F hF order img' t ⟨v.ny, v.nx, fun k b => 2 ^ e k * v.px k b⟩ w (hy.trans hs.1.symm) (hx.trans hs.2.symm) hw ho (by rw [hs.2]; exact hc) hcp
    h1 h2 ht (fun k b hk hb => hv' k b (hs.1 ▸ hk) (hs.2 ▸ hb))).2 (hn.trans hs.2.symm)
  refine ⟨s, s', e1, f1, fun k hk => ?_⟩
  have hsc := C156_scale F.p order v w 0 e
  simp only [zpow_zero, one_mul] at hsc
  rw [show (⟨w.n, fun b => w.px b⟩ : A1 ℝ) = w from rfl, f2, e2] at hsc
  cases hsc
  have hk' : k < img'.ny := by rw [hs.1]; exact hk
  cases hr : r.px k with
  | some x => rw [((e4 k hk).1 x hr).val, ((f4 k hk').1 x hr).val]
  | none => rw [(e4 k hk).2 hr, (f4 k hk').2 hr]

theorem reads_int (n : ℤ) (h0 : n ≠ 0) (h : |n| ≤ 2 ^ 53) : Reads binary64 (Num.fin (n : ℝ)) n := by
  refine ⟨⟨n, 0, h, by decide, by simp, ?_⟩, .inr ⟨by exact_mod_cast h0, rfl⟩⟩
  have h1 : |(n : ℝ)| ≤ 2 ^ 53 := by exact_mod_cast h
  refine h1.trans_lt ?_
  rw [← zpow_natCast]
  exact zpow_lt_zpow_right₀ (by norm_num) (by decide)

/-- Non-vacuity of C189: two samples, (3, -0) and (0, 0), and the target (1, 2), in float64, inner products in any order. -/
example (order : Nat → DotTree × DotTree × DotTree) (ho : SamOrders order ⟨2, 2, fun k b => if k = 0 ∧ b = 0 then 3 else 0⟩) :
    ∃ s, samI binary64 order ⟨2, 2, fun k b => if k = 0 ∧ b = 0 then .fin 3 else .zero (b = 1)⟩ ⟨2, fun b => if b = 0 then .fin 1 else .fin 2⟩ = .ok s ∧
      s.px 1 = .nan ∧ ∃ x, Reads binary64 (s.px 0) x ∧ |x - cosine 2 (fun b => if b = 0 then 1 else 2) (fun b => if b = 0 then 3 else 0)| ≤ 32 / 2 ^ 54 := by
  have z : ∀ s, Reads binary64 (Num.zero s : Num ℝ) 0 := fun s => ⟨⟨0, 0, by decide, by decide, by simp, by simp; positivity⟩, .inl ⟨rfl, s, rfl⟩⟩
  have n1 : Reads binary64 (Num.fin (1 : ℝ)) 1 := by exact_mod_cast reads_int 1 (by decide) (by decide)
  have n2 : Reads binary64 (Num.fin (2 : ℝ)) 2 := by exact_mod_cast reads_int 2 (by decide) (by decide)
  have n3 : Reads binary64 (Num.fin (3 : ℝ)) 3 := by exact_mod_cast reads_int 3 (by decide) (by decide)
  have small : (2 : ℝ) ^ (-147 : ℤ) ≤ 1 := zpow_le_one_of_nonpos₀ (by norm_num) (by norm_num)
  have big : (3 : ℝ) ≤ 2 ^ 200 := le_trans (by norm_num : (3 : ℝ) ≤ 2 ^ 2) (pow_le_pow_right₀ (by norm_num) (by norm_num))
  obtain ⟨s, e1, _, e3⟩ := C189_float64 order ⟨2, 2, fun k b => if k = 0 ∧ b = 0 then .fin 3 else .zero (b = 1)⟩ ⟨2, fun b => if b = 0 then .fin 1 else .fin 2⟩
    ⟨2, 2, fun k b => if k = 0 ∧ b = 0 then 3 else 0⟩ ⟨2, fun b => if b = 0 then 1 else 2⟩ rfl rfl rfl ho rfl (by show (2 : ℕ) ≤ 2 ^ 50; norm_num)
    (by
      intro b _
      by_cases hb : b = 0
      · simp only [hb, if_true]
        exact ⟨n1, .inr (by rwa [abs_one]), by rw [abs_one]; linarith⟩
      · simp only [hb, if_false]
        exact ⟨n2, .inr (by rw [abs_two]; linarith), by rw [abs_two]; linarith⟩)
    (by
      intro k b _ _
      by_cases hb : k = 0 ∧ b = 0
      · simp only [hb, and_self, if_true]
        exact ⟨n3, .inr (by rw [abs_of_pos (by norm_num)]; linarith), by rw [abs_of_pos (by norm_num)]; exact big⟩
      · simp only [hb, if_false]
        exact ⟨z _, .inl trivial, by rw [abs_zero]; positivity⟩)
  refine ⟨s, e1, (e3 1 (by show 1 < 2; norm_num)).1 (.inr (fun b _ => by simp)), ?_⟩
  obtain ⟨x, hx, hb⟩ := (e3 0 (by show 0 < 2; norm_num)).2 ⟨0, by show 0 < 2; norm_num, by simp⟩ ⟨0, by show 0 < 2; norm_num, by simp⟩
  refine ⟨x, hx, ?_⟩
  norm_num at hb ⊢
  simpa using hb

end Verif.Ieee
