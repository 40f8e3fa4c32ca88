import Verif.Lemmas.Base
import Verif.Lemmas.Rounding
import Verif.Model.Rounded
import Verif.Props.ImageUtils

/-! C129: the pixel grid in float arithmetic.

`p` is the number of significant bits (53 for the float64 arithmetic of the code, 24 for float32), `unit p` is
`2^-p`, `fl p` rounds to nearest, ties to even. -/

set_option linter.unusedSectionVars false

namespace Verif.Rounded
open Verif ImageUtils Rounding

section
variable {K : Type} [Field K] [LinearOrder K] [IsStrictOrderedRing K] [FloorRing K]

/-- The float model is the model of C09 when nothing is rounded. -/
theorem createPixelGridR_id (nx ny : Nat) (s : K) : createPixelGridR id nx ny s = createPixelGrid nx ny s := rfl

/-- The float model is the model of C13 when nothing is rounded. -/
theorem blendImagesR_id (a b : A2 K) (p : K) : blendImagesR id a b p = blendImages a b p := rfl

/-- The float model is the model of C10 when nothing is rounded. -/
theorem normalizeGrayscaleR_id (img : A2 K) (newMin newMax : K) :
    normalizeGrayscaleR id img newMin newMax = normalizeGrayscale img newMin newMax := rfl

/-! ### C129 -/

/-- The computed number of steps, before the ceiling, against the exact `n * s`. -/
theorem quotient_bounds {p : ℕ} (hp : 1 ≤ p) (n : Nat) (hn : n ≤ 2 ^ p) (s : K) (hs : 0 < s) :
    (n : K) * s * ((1 - unit p) / (1 + unit p)) ≤ fl p (fl p (n : K) / fl p (1 / s)) ∧
      fl p (fl p (n : K) / fl p (1 / s)) ≤ (n : K) * s * ((1 + unit p) / (1 - unit p)) := by
  have hu := unit_pos (K := K) p
  have hu2 := unit_le_half (K := K) hp
  have h1s : (0 : K) < 1 / s := by positivity
  have hst := fl_pos hp h1s
  have hle := fl_le (p := p) h1s.le
  have hge := le_fl (p := p) h1s.le
  rw [fl_nat hp n hn]
  have hn0 : (0 : K) ≤ (n : K) := Nat.cast_nonneg n
  have hq0 : (0 : K) ≤ (n : K) / fl p (1 / s) := by positivity
  have hq1 : (n : K) * s / (1 + unit p) ≤ (n : K) / fl p (1 / s) := by
    rw [div_le_div_iff₀ (by linarith) hst]
    calc (n : K) * s * fl p (1 / s) ≤ (n : K) * s * (1 / s * (1 + unit p)) :=
          mul_le_mul_of_nonneg_left hle (by positivity)
      _ = (n : K) * (1 + unit p) := by field_simp
  have hq2 : (n : K) / fl p (1 / s) ≤ (n : K) * s / (1 - unit p) := by
    rw [div_le_div_iff₀ hst (by linarith)]
    calc (n : K) * (1 - unit p) = (n : K) * s * (1 / s * (1 - unit p)) := by field_simp
      _ ≤ (n : K) * s * fl p (1 / s) := mul_le_mul_of_nonneg_left hge (by positivity)
  constructor
  · refine le_trans ?_ (le_fl hq0)
    calc (n : K) * s * ((1 - unit p) / (1 + unit p)) = (n : K) * s / (1 + unit p) * (1 - unit p) := by ring
      _ ≤ _ := mul_le_mul_of_nonneg_right hq1 (by linarith)
  · refine le_trans (fl_le hq0) ?_
    calc (n : K) / fl p (1 / s) * (1 + unit p) ≤ (n : K) * s / (1 - unit p) * (1 + unit p) :=
          mul_le_mul_of_nonneg_right hq2 (by linarith)
      _ = _ := by ring

/-- One axis of the grid. -/
theorem axis_bounds {p : ℕ} (hp : 1 ≤ p) (n : Nat) (hn : n ≤ 2 ^ p) (s : K) (hs : 0 < s)
    (hns : 2 * ((n : K) * s) ≤ 2 ^ p - 1) :
    ∃ a, arangeR (fl p) n (fl p (1 / s)) = .ok a ∧
      ⌈(n : K) * s⌉ - 1 ≤ (a.n : Int) ∧ (a.n : Int) ≤ ⌈(n : K) * s⌉ + 1 ∧
      (∀ i, i < a.n → |a.px i - (i : K) / s| ≤ (2 * unit p + unit p ^ 2) * ((i : K) / s)) ∧
      (∀ i, i < a.n → 0 ≤ a.px i ∧ a.px i ≤ n) ∧
      (∀ i i', i ≤ i' → a.px i ≤ a.px i') := by
  have hu := unit_pos (K := K) p
  have hu2 := unit_le_half (K := K) hp
  have hum := unit_mul (K := K) p
  have h1s : (0 : K) < 1 / s := by positivity
  have hst := fl_pos hp h1s
  obtain ⟨b1, b2⟩ := quotient_bounds hp n hn s hs
  set q := fl p (fl p (n : K) / fl p (1 / s)) with hq
  have hN : (0 : K) ≤ (n : K) * s := by positivity
  have hq0 : 0 ≤ q := le_trans (mul_nonneg hN (div_nonneg (by linarith) (by linarith))) b1
  have hsmall : (n : K) * s * (2 * unit p) ≤ 1 - unit p := by
    have := mul_le_mul_of_nonneg_right hns hu.le
    have e : ((2 : K) ^ p - 1) * unit p = 1 - unit p := by rw [sub_mul, mul_comm, hum]; ring
    rw [e] at this
    linarith
  have c1 : (n : K) * s - 1 ≤ q := by
    refine le_trans ?_ b1
    have : (n : K) * s * ((1 - unit p) / (1 + unit p)) = (n : K) * s - (n : K) * s * (2 * unit p) / (1 + unit p) := by
      field_simp
      ring
    rw [this]
    have : (n : K) * s * (2 * unit p) / (1 + unit p) ≤ 1 := by
      rw [div_le_one (by linarith)]; linarith
    linarith
  have c2 : q ≤ (n : K) * s + 1 := by
    refine le_trans b2 ?_
    have : (n : K) * s * ((1 + unit p) / (1 - unit p)) = (n : K) * s + (n : K) * s * (2 * unit p) / (1 - unit p) := by
      have : (1 : K) - unit p ≠ 0 := by linarith
      field_simp
      ring
    rw [this]
    have : (n : K) * s * (2 * unit p) / (1 - unit p) ≤ 1 := by
      rw [div_le_one (by linarith)]; linarith
    linarith
  have hcn : (((⌈q⌉).toNat : Nat) : Int) = ⌈q⌉ := Int.toNat_of_nonneg (Int.ceil_nonneg hq0)
  have hceil2 : ⌈q⌉ ≤ ⌈(n : K) * s⌉ + 1 := by
    have := Int.ceil_mono c2
    rwa [Int.ceil_add_one] at this
  have hceil1 : ⌈(n : K) * s⌉ - 1 ≤ ⌈q⌉ := by
    have := Int.ceil_mono c1
    rwa [Int.ceil_sub_one] at this
  have hidx : ∀ i : Nat, i < (⌈q⌉).toNat → i ≤ 2 ^ p := by
    intro i hi
    have h1 : (i : Int) < ⌈q⌉ := by rw [← hcn]; exact_mod_cast hi
    have h2 : ((i : Int) : K) < q := Int.lt_ceil.mp h1
    have h3 : (i : K) < ((2 ^ p : Nat) : K) := by
      push_cast at h2 ⊢
      have : (1 : K) ≤ 2 ^ p := one_le_pow₀ (by norm_num)
      linarith
    exact (Nat.cast_lt.mp h3).le
  refine ⟨⟨(⌈q⌉).toNat, fun i => fl p (fl p (i : K) * fl p (1 / s))⟩, ?_, ?_, ?_, ?_, ?_, ?_⟩
  · unfold arangeR
    rw [if_neg hst.ne']
  · simp only [hcn]; exact hceil1
  · simp only [hcn]; exact hceil2
  · intro i hi
    simp only at hi ⊢
    rw [fl_nat hp i (hidx i hi)]
    obtain ⟨d, hd, ed⟩ := fl_rel p (1 / s)
    rw [ed]
    obtain ⟨d', hd', ed'⟩ := fl_rel p ((i : K) * (1 / s * (1 + d)))
    rw [ed']
    have e : (i : K) * (1 / s * (1 + d)) * (1 + d') - (i : K) / s = (i : K) / s * ((1 + d) * (1 + d') - 1) := by ring
    rw [e, abs_mul, abs_of_nonneg (by positivity : (0 : K) ≤ (i : K) / s), mul_comm]
    refine mul_le_mul_of_nonneg_right ?_ (by positivity)
    refine le_trans (rel_mul (a := 1 + d) (b := 1 + d') (A := unit p) (B := unit p) (by simpa using hd)
      (by simpa using hd')) (le_of_eq (by ring))
  · intro i hi
    simp only at hi ⊢
    rw [fl_nat hp i (hidx i hi)]
    have hi0 : (0 : K) ≤ (i : K) := Nat.cast_nonneg i
    refine ⟨fl_nonneg hp (by positivity), ?_⟩
    have h1 : (i : Int) < ⌈q⌉ := by rw [← hcn]; exact_mod_cast hi
    have h2 : (i : K) < q := by simpa using Int.lt_ceil.mp h1
    have h3 : (i : K) ≤ fl p (n : K) / fl p (1 / s) := by
      by_contra hc
      push Not at hc
      have := fl_mono (K := K) hp hc.le
      rw [fl_nat hp i (hidx i hi), ← hq] at this
      linarith
    rw [fl_nat hp n hn, le_div_iff₀ hst] at h3
    have := fl_mono (K := K) hp h3
    rwa [fl_nat hp n hn] at this
  · intro i i' hii
    simp only
    apply fl_mono hp
    refine mul_le_mul_of_nonneg_right (fl_mono hp ?_) hst.le
    exact_mod_cast hii

/-- C129, what holds of every positive scale factor: the grid has the exact number of rows and columns or one
more or less; entry `(j, i)` is off by at most `2u + u²` of the exact `(i/s, j/s)`, never negative and never
beyond `(nx, ny)`; entries do not decrease along the axes.
Missing: the exact counts, and entries strictly below `(nx, ny)` (`C129_false`). -/
theorem C129_partial {p : ℕ} (hp : 1 ≤ p) (nx ny : Nat) (hnx : nx ≤ 2 ^ p) (hny : ny ≤ 2 ^ p) (s : K) (hs : 0 < s)
    (hx : 2 * ((nx : K) * s) ≤ 2 ^ p - 1) (hy : 2 * ((ny : K) * s) ≤ 2 ^ p - 1) :
    ∃ xx yy, createPixelGridR (fl p) nx ny s = .ok (xx, yy) ∧
      |(xx.ny : Int) - ⌈(ny : K) * s⌉| ≤ 1 ∧ |(xx.nx : Int) - ⌈(nx : K) * s⌉| ≤ 1 ∧
      yy.ny = xx.ny ∧ yy.nx = xx.nx ∧
      (∀ j i, j < xx.ny → i < xx.nx →
        |xx.px j i - (i : K) / s| ≤ (2 * unit p + unit p ^ 2) * ((i : K) / s) ∧
        |yy.px j i - (j : K) / s| ≤ (2 * unit p + unit p ^ 2) * ((j : K) / s) ∧
        0 ≤ xx.px j i ∧ xx.px j i ≤ nx ∧ 0 ≤ yy.px j i ∧ yy.px j i ≤ ny) ∧
      (∀ j j' i i', j ≤ j' → i ≤ i' → xx.px j i ≤ xx.px j' i' ∧ yy.px j i ≤ yy.px j' i') := by
  obtain ⟨a, ea, a1, a2, a3, a4, a5⟩ := axis_bounds hp nx hnx s hs hx
  obtain ⟨b, eb, b1, b2, b3, b4, b5⟩ := axis_bounds hp ny hny s hs hy
  refine ⟨⟨b.n, a.n, fun _ i => a.px i⟩, ⟨b.n, a.n, fun j _ => b.px j⟩, ?_, ?_, ?_, rfl, rfl, ?_, ?_⟩
  · unfold createPixelGridR
    rw [if_neg hs.ne', ea, ok_bind, eb, ok_bind]
  · rw [abs_le]; simp only; omega
  · rw [abs_le]; simp only; omega
  · intro j i hj hi
    exact ⟨a3 i hi, b3 j hj, (a4 i hi).1, (a4 i hi).2, (b4 j hj).1, (b4 j hj).2⟩
  · intro j j' i i' hj hi
    exact ⟨a5 i i' hi, b5 j j' hj⟩

/-- C129, exact counts: when no integer lies within the rounding error of `nx * s`, the number of columns is
`ceil(nx * s)`; likewise for rows. -/
theorem C129_count {p : ℕ} (hp : 1 ≤ p) (nx ny : Nat) (hnx : nx ≤ 2 ^ p) (hny : ny ≤ 2 ^ p) (s : K) (hs : 0 < s)
    (hx1 : (⌈(nx : K) * s⌉ : K) - 1 < (nx : K) * s * ((1 - unit p) / (1 + unit p)))
    (hx2 : (nx : K) * s * ((1 + unit p) / (1 - unit p)) ≤ ⌈(nx : K) * s⌉)
    (hy1 : (⌈(ny : K) * s⌉ : K) - 1 < (ny : K) * s * ((1 - unit p) / (1 + unit p)))
    (hy2 : (ny : K) * s * ((1 + unit p) / (1 - unit p)) ≤ ⌈(ny : K) * s⌉) :
    ∃ xx yy, createPixelGridR (fl p) nx ny s = .ok (xx, yy) ∧
      (xx.ny : Int) = ⌈(ny : K) * s⌉ ∧ (xx.nx : Int) = ⌈(nx : K) * s⌉ := by
  have hst := fl_pos hp (show (0 : K) < 1 / s by positivity)
  have key : ∀ n : Nat, n ≤ 2 ^ p → (⌈(n : K) * s⌉ : K) - 1 < (n : K) * s * ((1 - unit p) / (1 + unit p)) →
      (n : K) * s * ((1 + unit p) / (1 - unit p)) ≤ ⌈(n : K) * s⌉ →
      (((⌈fl p (fl p (n : K) / fl p (1 / s))⌉).toNat : Nat) : Int) = ⌈(n : K) * s⌉ := by
    intro n hn h1 h2
    obtain ⟨b1, b2⟩ := quotient_bounds hp n hn s hs
    have hc : ⌈fl p (fl p (n : K) / fl p (1 / s))⌉ = ⌈(n : K) * s⌉ := by
      rw [Int.ceil_eq_iff]
      exact ⟨lt_of_lt_of_le h1 b1, le_trans b2 h2⟩
    rw [hc]
    exact Int.toNat_of_nonneg (Int.ceil_nonneg (by positivity))
  refine ⟨⟨(⌈fl p (fl p (ny : K) / fl p (1 / s))⌉).toNat, (⌈fl p (fl p (nx : K) / fl p (1 / s))⌉).toNat,
      fun _ i => fl p (fl p (i : K) * fl p (1 / s))⟩,
    ⟨(⌈fl p (fl p (ny : K) / fl p (1 / s))⌉).toNat, (⌈fl p (fl p (nx : K) / fl p (1 / s))⌉).toNat,
      fun j _ => fl p (fl p (j : K) * fl p (1 / s))⟩, ?_, key ny hny hy1 hy2, key nx hnx hx1 hx2⟩
  · unfold createPixelGridR arangeR
    rw [if_neg hs.ne', if_neg hst.ne', ok_bind, if_neg hst.ne', ok_bind]

/-- C129 for scale factors that are powers of two (1, 2, 1/2, 1/4, ...): no rounding at all, the grid is the one
of C09. -/
theorem C129_power_of_two {p : ℕ} (hp : 1 ≤ p) (nx ny : Nat) (hnx : nx ≤ 2 ^ p) (hny : ny ≤ 2 ^ p) (k : ℤ)
    (hx : (nx : K) * 2 ^ k ≤ 2 ^ p) (hy : (ny : K) * 2 ^ k ≤ 2 ^ p) :
    ∃ xx yy, createPixelGridR (fl p) nx ny ((2 : K) ^ k) = .ok (xx, yy) ∧
      (xx.ny : Int) = ⌈(ny : K) * 2 ^ k⌉ ∧ (xx.nx : Int) = ⌈(nx : K) * 2 ^ k⌉ ∧
      yy.ny = xx.ny ∧ yy.nx = xx.nx ∧
      ∀ j i, j < xx.ny → i < xx.nx →
        xx.px j i = (i : K) / 2 ^ k ∧ yy.px j i = (j : K) / 2 ^ k ∧ xx.px j i < nx ∧ yy.px j i < ny := by
  have hs : (0 : K) < 2 ^ k := by positivity
  have hstep : fl p (1 / (2 : K) ^ k) = 2 ^ (-k) := by
    have := fl_exact (K := K) hp 1 (-k) (by simpa using one_le_pow₀ (by norm_num : (1 : ℤ) ≤ 2))
    rw [Int.cast_one, one_mul] at this
    rwa [one_div, ← zpow_neg]
  have hst : (0 : K) < 2 ^ (-k) := by positivity
  have hq : ∀ n : Nat, n ≤ 2 ^ p → fl p (fl p (n : K) / 2 ^ (-k)) = (n : K) * 2 ^ k := by
    intro n hn
    rw [fl_nat hp n hn, zpow_neg, div_inv_eq_mul]
    have := fl_exact (K := K) hp (n : ℤ) k (by rw [abs_of_nonneg (by omega)]; exact_mod_cast hn)
    simpa using this
  have hlen : ∀ n : Nat, n ≤ 2 ^ p → (((⌈fl p (fl p (n : K) / 2 ^ (-k))⌉).toNat : Nat) : Int) = ⌈(n : K) * 2 ^ k⌉ := by
    intro n hn
    rw [hq n hn]
    exact Int.toNat_of_nonneg (Int.ceil_nonneg (by positivity))
  have hent : ∀ n i : Nat, n ≤ 2 ^ p → (n : K) * 2 ^ k ≤ 2 ^ p →
      i < (⌈fl p (fl p (n : K) / 2 ^ (-k))⌉).toNat →
      fl p (fl p (i : K) * 2 ^ (-k)) = (i : K) / 2 ^ k ∧ (i : K) / 2 ^ k < n := by
    intro n i hn hb hi
    have h1 : (i : Int) < ⌈(n : K) * 2 ^ k⌉ := by rw [← hlen n hn]; exact_mod_cast hi
    have h2 : (i : K) < (n : K) * 2 ^ k := by simpa using Int.lt_ceil.mp h1
    have h3 : i ≤ 2 ^ p := by
      have : (i : K) < ((2 ^ p : Nat) : K) := by push_cast; linarith
      exact (Nat.cast_lt.mp this).le
    refine ⟨?_, by rw [div_lt_iff₀ hs]; exact h2⟩
    rw [fl_nat hp i h3]
    have := fl_exact (K := K) hp (i : ℤ) (-k) (by rw [abs_of_nonneg (by omega)]; exact_mod_cast h3)
    rw [Int.cast_natCast] at this
    rw [this, zpow_neg, div_eq_mul_inv]
  refine ⟨⟨(⌈fl p (fl p (ny : K) / 2 ^ (-k))⌉).toNat, (⌈fl p (fl p (nx : K) / 2 ^ (-k))⌉).toNat,
      fun _ i => fl p (fl p (i : K) * 2 ^ (-k))⟩,
    ⟨(⌈fl p (fl p (ny : K) / 2 ^ (-k))⌉).toNat, (⌈fl p (fl p (nx : K) / 2 ^ (-k))⌉).toNat,
      fun j _ => fl p (fl p (j : K) * 2 ^ (-k))⟩, ?_, hlen ny hny, hlen nx hnx, rfl, rfl, ?_⟩
  · unfold createPixelGridR arangeR
    rw [if_neg hs.ne', hstep, if_neg hst.ne', ok_bind, if_neg hst.ne', ok_bind]
  · intro j i hj hi
    obtain ⟨e1, l1⟩ := hent nx i hnx hx hi
    obtain ⟨e2, l2⟩ := hent ny j hny hy hj
    refine ⟨e1, e2, ?_, ?_⟩
    · simp only; rw [e1]; exact l1
    · simp only; rw [e2]; exact l2

/-- Scale factor 0 raises ZeroDivisionError in float arithmetic too. -/
theorem C129_zero_scale (r : K → K) (nx ny : Nat) : createPixelGridR r nx ny (0 : K) = .error .zeroDivision := by
  simp [createPixelGridR]

end

example : (2 : ℚ) * ((640 : ℕ) * (3 / 10)) ≤ 2 ^ 53 - 1 := by norm_num
example : (480 : ℕ) ≤ 2 ^ 53 ∧ ((480 : ℕ) : ℚ) * 2 ^ (-3 : ℤ) ≤ 2 ^ 53 := by norm_num

/-! The float64 values of the witness: `1 / 49`, `5 / (1 / 49)`, `1 / (1 / 49)` and `245 * (1 / 49)`. -/

theorem w129_step : fl 53 (1 / 49 : ℚ) = 5882252574524729 / 288230376151711744 := by
  rw [fl_eq (-6) 5882252574524729 (by norm_num) (by norm_num) (by norm_num [abs_lt])]
  norm_num

theorem w129_quot : fl 53 (5 / (5882252574524729 / 288230376151711744) : ℚ) = 8620171161763841 / 35184372088832 := by
  rw [fl_eq (7) 8620171161763841 (by norm_num) (by norm_num) (by norm_num [abs_lt])]
  norm_num

theorem w129_quot1 : fl 53 (1 / (5882252574524729 / 288230376151711744) : ℚ) = 6896136929411073 / 140737488355328 := by
  rw [fl_eq (5) 6896136929411073 (by norm_num) (by norm_num) (by norm_num [abs_lt])]
  norm_num

theorem w129_last : fl 53 (245 * (5882252574524729 / 288230376151711744) : ℚ) = 5 := by
  rw [fl_eq (2) 5629499534213120 (by norm_num) (by norm_num) (by norm_num [abs_lt])]
  norm_num

/-- C129 fails of the code: with scale factor 49 an image of 5 columns gives 246 grid columns, not
`ceil(5 * 49) = 245`, and the last one is at 5.0, outside the image. -/
theorem C129_false : ∃ xx yy, createPixelGridR (fl 53) 5 1 (49 : ℚ) = .ok (xx, yy) ∧
    xx.nx = 246 ∧ ⌈((5 : ℕ) : ℚ) * 49⌉ = 245 ∧ xx.px 0 245 = 5 := by
  have h5 : fl 53 ((5 : ℕ) : ℚ) = 5 := by rw [fl_nat (by norm_num) 5 (by norm_num)]; norm_num
  have h1 : fl 53 ((1 : ℕ) : ℚ) = 1 := by rw [fl_nat (by norm_num) 1 (by norm_num)]; norm_num
  have h245 : fl 53 ((245 : ℕ) : ℚ) = 245 := by rw [fl_nat (by norm_num) 245 (by norm_num)]; norm_num
  refine ⟨⟨50, 246, fun _ i => fl 53 (fl 53 (i : ℚ) * fl 53 (1 / 49))⟩,
    ⟨50, 246, fun j _ => fl 53 (fl 53 (j : ℚ) * fl 53 (1 / 49))⟩, ?_, rfl, by norm_num, ?_⟩
  · have hc5 : (⌈fl 53 (fl 53 ((5 : ℕ) : ℚ) / fl 53 (1 / 49))⌉).toNat = 246 := by
      rw [h5, w129_step, w129_quot]; norm_num; rfl
    have hc1 : (⌈fl 53 (fl 53 ((1 : ℕ) : ℚ) / fl 53 (1 / 49))⌉).toNat = 50 := by
      rw [h1, w129_step, w129_quot1]; norm_num; rfl
    have hst : fl 53 (1 / 49 : ℚ) ≠ 0 := by rw [w129_step]; norm_num
    unfold createPixelGridR arangeR
    rw [if_neg (by norm_num), if_neg hst, ok_bind, if_neg hst, ok_bind, hc5, hc1]
  · simp only
    rw [h245, w129_step, w129_last]

end Verif.Rounded
