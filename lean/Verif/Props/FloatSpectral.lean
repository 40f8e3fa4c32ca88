import Verif.Lemmas.FloatSpectral
import Mathlib.Algebra.Order.BigOperators.Ring.Finset
import Mathlib.Algebra.Order.Field.Power

/-! C155: the spectral mean in float arithmetic, for every order of adding up.
C156: the spectral angle in float arithmetic, for every way to compute the inner products.
C157: do these stay in their range?

`Rounds r u` says that each operation has relative error at most `u` (`u = 2^-53` for the float64 arithmetic of the code, `rounds_fl`). -/

set_option linter.unusedSectionVars false

namespace Verif.FloatSpectral
open Verif ImageUtils Rounding

section
variable {K : Type} [Field K] [LinearOrder K] [IsStrictOrderedRing K]

/-- Float arithmetic with `p` significant bits meets `Rounds`. -/
theorem rounds_fl [FloorRing K] (p : ℕ) : Rounds (fl p : K → K) (unit p) := fl_err' p

/-- Each order adds up every sample once. -/
def MeanOrders (order : Nat → SumTree) (img : A2 K) : Prop := ∀ b, (order b).Covers img.ny

/-- Without rounding this is the mean of C21, in every order. -/
theorem meanR_id (order : Nat → SumTree) (img : A2 K) (ho : MeanOrders order img) : meanR id order img = Spectral.meanNoMask img := by
  unfold meanR Spectral.meanNoMask meanBandR
  congr 1
  funext b
  rw [SumTree.eval_id, perm_sum (ho b), Option.map_id]
  rfl

/-! ### C155 -/

/-- An image with at least one sample has a mean in every band; one without samples has none. -/
theorem C155_defined (r : K → K) (order : Nat → SumTree) (img : A2 K) (b : Nat) : ((meanR r order img).px b).isSome = true ↔ img.ny ≠ 0 := by
  unfold meanR meanBandR fdiv
  by_cases h : img.ny = 0 <;> simp [h]

/-- The computed mean is off by at most `(1+u)^n - 1` times the mean absolute value, in every order of adding up. -/
theorem C155_error {r : K → K} {u : K} (h : Rounds r u) (hu : 0 ≤ u) (order : Nat → SumTree) (img : A2 K) (ho : MeanOrders order img) (b : Nat) {m : K}
    (hm : (meanR r order img).px b = some m) :
    |m - (∑ k ∈ Finset.range img.ny, img.px k b) / img.ny| ≤ ((1 + u) ^ img.ny - 1) * ((∑ k ∈ Finset.range img.ny, |img.px k b|) / img.ny) := by
  have e1 := SumTree.err h hu (fun k => img.px k b) (order b)
  rw [perm_sum (ho b), perm_sum (ho b), covers_length (ho b)] at e1
  have hS : (0 : K) ≤ ∑ k ∈ Finset.range img.ny, |img.px k b| := Finset.sum_nonneg (fun _ _ => abs_nonneg _)
  have hT : |∑ k ∈ Finset.range img.ny, img.px k b| ≤ ∑ k ∈ Finset.range img.ny, |img.px k b| := Finset.abs_sum_le_sum_abs _ _
  generalize hs : ∑ k ∈ Finset.range img.ny, img.px k b = s at *
  generalize hS' : ∑ k ∈ Finset.range img.ny, |img.px k b| = S at *
  have hn : (img.ny : K) ≠ 0 := by
    intro h0
    simp [meanR, meanBandR, fdiv, h0] at hm
  have hpos : 0 < (img.ny : K) := lt_of_le_of_ne (Nat.cast_nonneg _) (Ne.symm hn)
  have hm' : m = r ((order b).eval r (fun k => img.px k b) / (img.ny : K)) := by
    simp [meanR, meanBandR, fdiv, hn] at hm
    exact hm.symm
  generalize (order b).eval r (fun k => img.px k b) = s' at *
  have h1n : 1 ≤ img.ny := by
    rcases Nat.eq_zero_or_pos img.ny with h0 | h0
    · simp [h0] at hn
    · exact h0
  have e2 : |s' / (img.ny : K) - s / img.ny| ≤ ((1 + u) ^ (img.ny - 1) - 1) * (S / img.ny) := by
    rw [← sub_div, abs_div, abs_of_pos hpos, ← mul_div_assoc]
    exact div_le_div_of_nonneg_right e1 hpos.le
  have e3 : |s' / (img.ny : K)| ≤ (1 + u) ^ (img.ny - 1) * (S / img.ny) := by
    rw [abs_div, abs_of_pos hpos, ← mul_div_assoc]
    refine div_le_div_of_nonneg_right ?_ hpos.le
    have : |s'| ≤ |s' - s| + |s| := by simpa using abs_add_le (s' - s) s
    linarith
  have e4 := h.step hu e2 e3
  rw [hm']
  refine e4.trans (le_of_eq ?_)
  have : (1 + u) ^ img.ny = (1 + u) ^ (img.ny - 1) * (1 + u) := by rw [← pow_succ]; congr 1; omega
  rw [this]
  ring

/-- A demeaned value is off by at most one rounding of the exact one plus the error `E` of the mean. -/
theorem C155_demean_error {r : K → K} {u : K} (h : Rounds r u) (hu : 0 ≤ u) (order : Nat → SumTree) (img : A2 K) (ho : MeanOrders order img) (k b : Nat) {d : K}
    (hd : (demeanR r order img).px k b = some d) :
    |d - (img.px k b - (∑ j ∈ Finset.range img.ny, img.px j b) / img.ny)| ≤
      u * |img.px k b - (∑ j ∈ Finset.range img.ny, img.px j b) / img.ny| +
        (1 + u) * (((1 + u) ^ img.ny - 1) * ((∑ j ∈ Finset.range img.ny, |img.px j b|) / img.ny)) := by
  simp only [demeanR, Option.map_eq_some_iff] at hd
  obtain ⟨m, hm, rfl⟩ := hd
  have e := C155_error h hu order img ho b hm
  generalize (∑ j ∈ Finset.range img.ny, img.px j b) / (img.ny : K) = mu at *
  generalize ((1 + u) ^ img.ny - 1) * ((∑ j ∈ Finset.range img.ny, |img.px j b|) / (img.ny : K)) = E at *
  generalize img.px k b = x
  have e1 : |(x - m) - (x - mu)| ≤ E := by
    have : (x - m) - (x - mu) = -(m - mu) := by ring
    rw [this, abs_neg]; exact e
  have e2 : |x - m| ≤ |x - mu| + E := by
    have : |x - m| ≤ |(x - m) - (x - mu)| + |x - mu| := by simpa using abs_add_le ((x - m) - (x - mu)) (x - mu)
    linarith
  have := h.step hu e1 e2
  linarith

/-- C155: the demeaned image has the shape of the image, and its values are numbers exactly in the bands where the mean is one. -/
theorem C155_demean_shape (r : K → K) (order : Nat → SumTree) (img : A2 K) :
    (demeanR r order img).ny = img.ny ∧ (demeanR r order img).nx = img.nx ∧
      ∀ k b, (demeanR r order img).px k b = none ↔ (meanR r order img).px b = none :=
  ⟨rfl, rfl, fun k b => by simp [demeanR]⟩

/-- Whole-number images (camera counts): if the absolute values of a band add up to at most `2^p`, no addition rounds, and the mean is the correctly rounded
exact mean, the same in every order. -/
theorem C155_integers [FloorRing K] {p : ℕ} (hp : 1 ≤ p) (order : Nat → SumTree) (img : A2 K) (ho : MeanOrders order img) (b : Nat) (g : Nat → ℤ)
    (hg : ∀ k, k < img.ny → img.px k b = (g k : K)) (hs : ∑ k ∈ Finset.range img.ny, |g k| ≤ 2 ^ p) (hn : img.ny ≠ 0) :
    (meanR (fl p) order img).px b = some (fl p ((∑ k ∈ Finset.range img.ny, img.px k b) / img.ny)) := by
  have hn' : (img.ny : K) ≠ 0 := Nat.cast_ne_zero.mpr hn
  -- the terms of the tree are the whole numbers
  have hev : ∀ t : SumTree, (∀ k ∈ t.leaves, k < img.ny) → t.eval (fl p) (fun k => img.px k b) = t.eval (fl p) (fun k => (g k : K)) := by
    intro t
    induction t with
    | leaf k => intro h; exact hg k (h k (by simp [SumTree.leaves]))
    | node a c iha ihc =>
      intro h
      simp only [SumTree.eval]
      rw [iha (fun k hk => h k (by simp [SumTree.leaves, hk])), ihc (fun k hk => h k (by simp [SumTree.leaves, hk]))]
  have hl : ∀ k ∈ (order b).leaves, k < img.ny := fun k hk => List.mem_range.mp ((ho b).subset hk)
  have hsum : ((order b).leaves.map (fun k => |g k|)).sum = ∑ k ∈ Finset.range img.ny, |g k| := by
    rw [((ho b).map _).sum_eq]
    generalize img.ny = n
    induction n with
    | zero => simp
    | succ n ih => rw [List.range_succ, List.map_append, List.sum_append, ih, Finset.sum_range_succ]; simp
  have hex := SumTree.exact (r := (fl p : K → K)) (M := 2 ^ p) (fun k hk => fl_int hp k hk) g (order b) (by rw [hsum]; exact hs)
  have hval : (((order b).leaves.map g).sum : ℤ) = ∑ k ∈ Finset.range img.ny, g k := by
    rw [((ho b).map _).sum_eq]
    generalize img.ny = n
    induction n with
    | zero => simp
    | succ n ih => rw [List.range_succ, List.map_append, List.sum_append, ih, Finset.sum_range_succ]; simp
  have hpx : (∑ k ∈ Finset.range img.ny, img.px k b) = ((∑ k ∈ Finset.range img.ny, g k : ℤ) : K) := by
    rw [Int.cast_sum]
    exact Finset.sum_congr rfl (fun k hk => hg k (Finset.mem_range.mp hk))
  simp only [meanR, meanBandR, fdiv, hn', if_false, Option.map_some]
  rw [hev _ hl, hex, hval, hpx]

/-- PARTIAL: the mean of a whole-number band lies between its smallest and its largest value, when these are floats. -/
theorem C157_mean_between_partial [FloorRing K] {p : ℕ} (hp : 1 ≤ p) (order : Nat → SumTree) (img : A2 K) (ho : MeanOrders order img) (b : Nat) (g : Nat → ℤ)
    (hg : ∀ k, k < img.ny → img.px k b = (g k : K)) (hs : ∑ k ∈ Finset.range img.ny, |g k| ≤ 2 ^ p) (lo hi : K) (hlo : IsFloat p lo) (hhi : IsFloat p hi)
    (hb : ∀ k, k < img.ny → lo ≤ img.px k b ∧ img.px k b ≤ hi) {m : K} (hm : (meanR (fl p) order img).px b = some m) : lo ≤ m ∧ m ≤ hi := by
  have hn : img.ny ≠ 0 := (C155_defined _ _ _ b).mp (by rw [hm]; rfl)
  rw [C155_integers hp order img ho b g hg hs hn, Option.some.injEq] at hm
  have hpos : 0 < (img.ny : K) := Nat.cast_pos.mpr (Nat.pos_of_ne_zero hn)
  have h1 : lo ≤ (∑ k ∈ Finset.range img.ny, img.px k b) / img.ny := by
    rw [le_div_iff₀ hpos]
    have := Finset.card_nsmul_le_sum (Finset.range img.ny) (fun k => img.px k b) lo (fun k hk => (hb k (Finset.mem_range.mp hk)).1)
    rw [Finset.card_range, nsmul_eq_mul] at this
    linarith
  have h2 : (∑ k ∈ Finset.range img.ny, img.px k b) / img.ny ≤ hi := by
    rw [div_le_iff₀ hpos]
    have := Finset.sum_le_card_nsmul (Finset.range img.ny) (fun k => img.px k b) hi (fun k hk => (hb k (Finset.mem_range.mp hk)).2)
    rw [Finset.card_range, nsmul_eq_mul] at this
    linarith
  rw [← hm]
  constructor
  · have := fl_mono hp h1; rwa [fl_of_isFloat hp hlo] at this
  · have := fl_mono hp h2; rwa [fl_of_isFloat hp hhi] at this

end

/-- The double nearest to 0.1, as a fraction. -/
def tenth : ℚ := 3602879701896397 / 2 ^ 55

/-- FALSE: the float64 mean of a band lies between its smallest and its largest sample. Three samples of 0.1 have the mean 0.10000000000000002. -/
theorem C157_mean_false : ¬ ∀ (order : Nat → SumTree) (img : A2 ℚ), MeanOrders order img → (∀ k b, IsFloat 53 (img.px k b)) → ∀ (b : Nat) (hi m : ℚ),
    (∀ k, k < img.ny → img.px k b ≤ hi) → (meanR (fl 53) order img).px b = some m → m ≤ hi := by
  intro h
  have f1 : fl 53 (tenth + tenth) = 7205759403792794 / 2 ^ 55 := by
    rw [fl_eq (p := 53) (-3) 7205759403792794 (by norm_num [tenth]) (by norm_num [tenth]) (by norm_num [tenth, abs_lt])]
    norm_num
  have f2 : fl 53 (7205759403792794 / 2 ^ 55 + tenth) = 10808639105689192 / 2 ^ 55 := by
    rw [fl_eq_even (p := 53) (-2) 5404319552844596 (by norm_num [tenth]) (by norm_num [tenth]) (by decide +kernel) (by norm_num [tenth, abs_le])]
    norm_num
  have f3 : fl 53 (10808639105689192 / 2 ^ 55 / 3) = (7205759403792795 / 2 ^ 56 : ℚ) := by
    rw [fl_eq (p := 53) (-4) 7205759403792795 (by norm_num) (by norm_num) (by norm_num [abs_lt])]
    norm_num
  have := h (fun _ => .node (.node (.leaf 0) (.leaf 1)) (.leaf 2)) ⟨3, 1, fun _ _ => tenth⟩ (fun _ => by
    show List.Perm [0, 1, 2] (List.range 3)
    decide) (fun _ _ => ⟨3602879701896397, -55, by decide +kernel, by norm_num [tenth]⟩) 0 tenth (7205759403792795 / 2 ^ 56) (fun _ _ => le_rfl) (by
    simp only [meanR, meanBandR, SumTree.eval, f1, f2, fdiv]
    rw [if_neg (by norm_num), Option.map_some]
    congr 1)
  norm_num [tenth] at this

/-- The hypotheses are met: counts 3, 5, 4 added up from the back. -/
example : (⟨4, 1, fun k _ => if k = 3 then 4 else k + 3⟩ : A2 ℚ).ny = 4 ∧
    MeanOrders (fun _ => .node (.leaf 3) (.node (.leaf 2) (.node (.leaf 0) (.leaf 1)))) (⟨4, 1, fun k _ => if k = 3 then 4 else k + 3⟩ : A2 ℚ) :=
  ⟨rfl, fun _ => by show List.Perm [3, 2, 0, 1] (List.range 4); decide⟩

/-! ### C156 -/

/-- Each of the three ways takes every band once. -/
def SamOrders (order : Nat → DotTree × DotTree × DotTree) (img : A2 ℝ) : Prop :=
  ∀ k, (order k).1.Covers img.nx ∧ (order k).2.1.Covers img.nx ∧ (order k).2.2.Covers img.nx

/-- Without rounding this is the spectral angle of C25, in every order. -/
theorem samR_id (order : Nat → DotTree × DotTree × DotTree) (img : A2 ℝ) (t : A1 ℝ) (ho : SamOrders order img) : samR id order img t = Spectral.sam img t := by
  unfold samR Spectral.sam
  by_cases hl : t.n = img.nx
  · rw [if_neg (by simpa using hl), if_pos hl]
    congr 2
    funext k
    obtain ⟨h1, h2, h3⟩ := ho k
    unfold samScoreR
    rw [DotTree.eval_id, DotTree.eval_id, DotTree.eval_id, perm_sum h1, perm_sum h2, perm_sum h3, Option.map_id]
    rfl
  · rw [if_pos (by simpa using hl), if_neg hl]

/-- A target of another length is refused. -/
theorem C156_refused (r : ℝ → ℝ) (order : Nat → DotTree × DotTree × DotTree) (img : A2 ℝ) (t : A1 ℝ) (h : t.n ≠ img.nx) :
    samR r order img t = .error .valueError := if_pos h

/-- Cauchy-Schwarz for the absolute values. -/
theorem cauchy (n : Nat) (t x : Nat → ℝ) : ∑ b ∈ Finset.range n, |t b * x b| ≤
    Real.sqrt (∑ b ∈ Finset.range n, t b * t b) * Real.sqrt (∑ b ∈ Finset.range n, x b * x b) := by
  have h := Real.sum_mul_le_sqrt_mul_sqrt (Finset.range n) (fun b => |t b|) (fun b => |x b|)
  simp only [sq_abs] at h
  simpa only [abs_mul, ← pow_two] using h

/-- A rounded square root of a sum of squares. -/
theorem norm_bounds {r : ℝ → ℝ} {u : ℝ} (h : Rounds r u) (hu : 0 ≤ u) (hu1 : u < 1) {d : DotTree} {n : Nat} (hd : d.Covers n) (x : Nat → ℝ) :
    (1 - u) * Real.sqrt ((1 - u) ^ n) * Real.sqrt (∑ b ∈ Finset.range n, x b * x b) ≤ r (Real.sqrt (d.eval r x x)) ∧
      r (Real.sqrt (d.eval r x x)) ≤ (1 + u) * Real.sqrt ((1 + u) ^ n) * Real.sqrt (∑ b ∈ Finset.range n, x b * x b) := by
  have h0 : (0 : ℝ) ≤ 1 - u := by linarith
  obtain ⟨h1, h2⟩ := DotTree.square_bounds h hu hu1 x d
  rw [perm_sum hd, covers_length hd] at h1 h2
  constructor
  · refine le_trans ?_ (h.ge (Real.sqrt_nonneg _))
    rw [mul_assoc, ← Real.sqrt_mul (pow_nonneg h0 _)]
    exact mul_le_mul_of_nonneg_left (Real.sqrt_le_sqrt h1) h0
  · refine (h.le (Real.sqrt_nonneg _)).trans ?_
    rw [mul_assoc, ← Real.sqrt_mul (pow_nonneg (by linarith) _)]
    exact mul_le_mul_of_nonneg_left (Real.sqrt_le_sqrt h2) (by linarith)

/-- The computed denominator against the product of the norms. -/
theorem den_bounds {r : ℝ → ℝ} {u : ℝ} (h : Rounds r u) (hu : 0 ≤ u) (hu1 : u < 1) {d2 d3 : DotTree} {n : Nat} (h2 : d2.Covers n) (h3 : d3.Covers n) (t x : Nat → ℝ) :
    (1 - u) ^ (n + 3) * (Real.sqrt (∑ b ∈ Finset.range n, t b * t b) * Real.sqrt (∑ b ∈ Finset.range n, x b * x b)) ≤
        r (r (Real.sqrt (d2.eval r t t)) * r (Real.sqrt (d3.eval r x x))) ∧
      r (r (Real.sqrt (d2.eval r t t)) * r (Real.sqrt (d3.eval r x x))) ≤
        (1 + u) ^ (n + 3) * (Real.sqrt (∑ b ∈ Finset.range n, t b * t b) * Real.sqrt (∑ b ∈ Finset.range n, x b * x b)) := by
  have h0 : (0 : ℝ) ≤ 1 - u := by linarith
  obtain ⟨a1, a2⟩ := norm_bounds h hu hu1 h2 t
  obtain ⟨b1, b2⟩ := norm_bounds h hu hu1 h3 x
  have T0 := Real.sqrt_nonneg (∑ b ∈ Finset.range n, t b * t b)
  have X0 := Real.sqrt_nonneg (∑ b ∈ Finset.range n, x b * x b)
  generalize Real.sqrt (∑ b ∈ Finset.range n, t b * t b) = T at *
  generalize Real.sqrt (∑ b ∈ Finset.range n, x b * x b) = X at *
  have s1 := Real.sqrt_nonneg ((1 - u) ^ n)
  have q1 := Real.mul_self_sqrt (pow_nonneg h0 n)
  have s2 := Real.sqrt_nonneg ((1 + u) ^ n)
  have q2 := Real.mul_self_sqrt (pow_nonneg (by linarith : (0 : ℝ) ≤ 1 + u) n)
  have A0 : 0 ≤ r (Real.sqrt (d2.eval r t t)) := le_trans (by positivity) a1
  have B0 : 0 ≤ r (Real.sqrt (d3.eval r x x)) := le_trans (by positivity) b1
  generalize r (Real.sqrt (d2.eval r t t)) = A at *
  generalize r (Real.sqrt (d3.eval r x x)) = B at *
  constructor
  · refine le_trans ?_ (h.ge (mul_nonneg A0 B0))
    refine le_trans (le_of_eq ?_) (mul_le_mul_of_nonneg_left (mul_le_mul a1 b1 (by positivity) A0) h0)
    generalize Real.sqrt ((1 - u) ^ n) = S1 at q1 ⊢
    rw [pow_add, ← q1]; ring
  · refine (h.le (mul_nonneg A0 B0)).trans ?_
    refine (mul_le_mul_of_nonneg_left (mul_le_mul a2 b2 B0 (by positivity)) (by linarith)).trans (le_of_eq ?_)
    generalize Real.sqrt ((1 + u) ^ n) = S2 at q2 ⊢
    rw [pow_add, ← q2]; ring

/-- The score is finite exactly when neither the target nor the sample is all zero. -/
theorem C156_defined {r : ℝ → ℝ} {u : ℝ} (h : Rounds r u) (hu : 0 ≤ u) (hu1 : u < 1) (order : Nat → DotTree × DotTree × DotTree) (img : A2 ℝ) (t : A1 ℝ)
    (ho : SamOrders order img) {s : A1 (Option ℝ)} (hs : samR r order img t = .ok s) (k : Nat) :
    (s.px k).isSome = true ↔ (∃ b, b < img.nx ∧ t.px b ≠ 0) ∧ ∃ b, b < img.nx ∧ img.px k b ≠ 0 := by
  unfold samR at hs
  split at hs
  · cases hs
  cases hs
  obtain ⟨_, h2, h3⟩ := ho k
  obtain ⟨l1, l2⟩ := den_bounds h hu hu1 h2 h3 t.px (fun b => img.px k b)
  have key : ∀ f : Nat → ℝ, (0 < Real.sqrt (∑ b ∈ Finset.range img.nx, f b * f b)) ↔ ∃ b, b < img.nx ∧ f b ≠ 0 := by
    intro f
    rw [Real.sqrt_pos]
    constructor
    · intro hp
      by_contra hc
      push Not at hc
      have : ∑ b ∈ Finset.range img.nx, f b * f b = 0 := Finset.sum_eq_zero (fun b hb => by rw [hc b (Finset.mem_range.mp hb)]; ring)
      linarith
    · rintro ⟨b, hb, hf⟩
      exact Finset.sum_pos' (fun _ _ => mul_self_nonneg _) ⟨b, Finset.mem_range.mpr hb, mul_self_pos.mpr hf⟩
  have hT := Real.sqrt_nonneg (∑ b ∈ Finset.range img.nx, t.px b * t.px b)
  have hX := Real.sqrt_nonneg (∑ b ∈ Finset.range img.nx, img.px k b * img.px k b)
  rw [← key t.px, ← key (fun b => img.px k b)]
  simp only [samScoreR, fdiv]
  generalize r (r (Real.sqrt ((order k).2.1.eval r t.px t.px)) * r (Real.sqrt ((order k).2.2.eval r (fun b => img.px k b) (fun b => img.px k b)))) = D at *
  generalize Real.sqrt (∑ b ∈ Finset.range img.nx, t.px b * t.px b) = T at *
  generalize Real.sqrt (∑ b ∈ Finset.range img.nx, img.px k b * img.px k b) = X at *
  have hq : 0 < (1 - u) ^ (img.nx + 3) := pow_pos (by linarith) _
  by_cases hD : D = 0
  · simp only [hD, if_true, Option.map_none, Option.isSome_none, Bool.false_eq_true, false_iff]
    rintro ⟨ht, hx⟩
    have := mul_pos hq (mul_pos ht hx)
    linarith
  · simp only [hD, if_false, Option.map_some, Option.isSome_some, true_iff]
    by_contra hc
    have hz : T * X = 0 := by
      rcases hT.eq_or_lt with e | e
      · rw [← e, zero_mul]
      · rcases hX.eq_or_lt with e' | e'
        · rw [← e', mul_zero]
        · exact absurd ⟨e, e'⟩ hc
    rw [hz, mul_zero] at l1 l2
    exact hD (le_antisymm l2 l1)

/-- The number the score stands for: the cosine of the angle between target and sample. -/
noncomputable def cosine (n : Nat) (t x : Nat → ℝ) : ℝ :=
  (∑ b ∈ Finset.range n, t b * x b) / (Real.sqrt (∑ b ∈ Finset.range n, t b * t b) * Real.sqrt (∑ b ∈ Finset.range n, x b * x b))

/-- The score is off the cosine by at most `(1+u)^(n+1)/(1-u)^(n+3) - 1`, in every order of the `n` bands; so it is at most that far above 1. -/
theorem C156_error {r : ℝ → ℝ} {u : ℝ} (h : Rounds r u) (hu : 0 ≤ u) (hu1 : u < 1) (order : Nat → DotTree × DotTree × DotTree) (img : A2 ℝ) (t : A1 ℝ)
    (ho : SamOrders order img) {s : A1 (Option ℝ)} (hs : samR r order img t = .ok s) (k : Nat) {v : ℝ} (hv : s.px k = some v) :
    |v - cosine img.nx t.px (fun b => img.px k b)| ≤ (1 + u) ^ (img.nx + 1) / (1 - u) ^ (img.nx + 3) - 1 ∧
      |v| ≤ (1 + u) ^ (img.nx + 1) / (1 - u) ^ (img.nx + 3) := by
  have hdef := (C156_defined h hu hu1 order img t ho hs k).mp (by rw [hv]; rfl)
  unfold samR at hs
  split at hs
  · cases hs
  cases hs
  obtain ⟨h1, h2, h3⟩ := ho k
  obtain ⟨l1, l2⟩ := den_bounds h hu hu1 h2 h3 t.px (fun b => img.px k b)
  have e1 := DotTree.err h hu t.px (fun b => img.px k b) (order k).1
  rw [perm_sum h1, perm_sum h1, covers_length h1] at e1
  have cs := cauchy img.nx t.px (fun b => img.px k b)
  have ab : |∑ b ∈ Finset.range img.nx, t.px b * img.px k b| ≤ ∑ b ∈ Finset.range img.nx, |t.px b * img.px k b| := Finset.abs_sum_le_sum_abs _ _
  have hTX : 0 < Real.sqrt (∑ b ∈ Finset.range img.nx, t.px b * t.px b) * Real.sqrt (∑ b ∈ Finset.range img.nx, img.px k b * img.px k b) := by
    refine mul_pos (Real.sqrt_pos.mpr ?_) (Real.sqrt_pos.mpr ?_)
    · obtain ⟨b, hb, hf⟩ := hdef.1
      exact Finset.sum_pos' (fun _ _ => mul_self_nonneg _) ⟨b, Finset.mem_range.mpr hb, mul_self_pos.mpr hf⟩
    · obtain ⟨b, hb, hf⟩ := hdef.2
      exact Finset.sum_pos' (fun _ _ => mul_self_nonneg _) ⟨b, Finset.mem_range.mpr hb, mul_self_pos.mpr hf⟩
  simp only [samScoreR] at hv
  unfold cosine
  simp only [] at l1 l2 e1 cs ab hTX hv ⊢
  generalize r (r (Real.sqrt ((order k).2.1.eval r t.px t.px)) * r (Real.sqrt ((order k).2.2.eval r (fun b => img.px k b) (fun b => img.px k b)))) = D at *
  generalize (order k).1.eval r t.px (fun b => img.px k b) = d' at *
  generalize Real.sqrt (∑ b ∈ Finset.range img.nx, t.px b * t.px b) * Real.sqrt (∑ b ∈ Finset.range img.nx, img.px k b * img.px k b) = N at *
  generalize ∑ b ∈ Finset.range img.nx, t.px b * img.px k b = d at *
  generalize ∑ b ∈ Finset.range img.nx, |t.px b * img.px k b| = S at *
  generalize img.nx = n at *
  have qm : 0 < (1 - u) ^ (n + 3) := pow_pos (by linarith) _
  have gp : 1 ≤ (1 + u) ^ n := one_le_pow₀ (by linarith)
  have hDp : 0 < D := lt_of_lt_of_le (mul_pos qm hTX) l1
  have hv' : v = r (d' / D) := by
    simp [fdiv, hDp.ne'] at hv
    exact hv.symm
  -- the numerator
  have n1 : |d' - d| ≤ ((1 + u) ^ n - 1) * N := e1.trans (mul_le_mul_of_nonneg_left cs (by linarith))
  have n2 : |d| ≤ N := ab.trans cs
  have n3 : |d'| ≤ (1 + u) ^ n * N := by
    have : |d'| ≤ |d' - d| + |d| := by simpa using abs_add_le (d' - d) d
    linarith
  -- the reciprocal of the denominator
  have r1 : N / D ≤ 1 / (1 - u) ^ (n + 3) := by
    rw [div_le_div_iff₀ hDp qm]; linarith
  have r2 : |N / D - 1| ≤ 1 / (1 - u) ^ (n + 3) - 1 := by
    rw [abs_le]
    constructor
    · have r3 : 1 / (1 + u) ^ (n + 3) ≤ N / D := by
        rw [div_le_div_iff₀ (pow_pos (by linarith) _) hDp]; linarith
      have r4 : (1 - u) ^ (n + 3) * (1 + u) ^ (n + 3) ≤ 1 := by
        rw [← mul_pow]
        exact pow_le_one₀ (mul_nonneg (by linarith) (by linarith)) (by nlinarith)
      have r5 : (1 - u) ^ (n + 3) ≤ 1 / (1 + u) ^ (n + 3) := by
        rw [le_div_iff₀ (pow_pos (by linarith) _)]; exact r4
      have r6 : 2 ≤ 1 / (1 - u) ^ (n + 3) + (1 - u) ^ (n + 3) := by
        have : 1 / (1 - u) ^ (n + 3) + (1 - u) ^ (n + 3) - 2 = (1 - (1 - u) ^ (n + 3)) ^ 2 / (1 - u) ^ (n + 3) := by
          field_simp; ring
        have h' : 0 ≤ (1 - (1 - u) ^ (n + 3)) ^ 2 / (1 - u) ^ (n + 3) := by positivity
        linarith
      linarith
    · linarith
  have big : |d' / D| ≤ (1 + u) ^ n / (1 - u) ^ (n + 3) := by
    rw [abs_div, abs_of_pos hDp, div_le_div_iff₀ hDp qm]
    calc |d'| * (1 - u) ^ (n + 3) ≤ (1 + u) ^ n * N * (1 - u) ^ (n + 3) := mul_le_mul_of_nonneg_right n3 qm.le
      _ = (1 + u) ^ n * ((1 - u) ^ (n + 3) * N) := by ring
      _ ≤ (1 + u) ^ n * D := mul_le_mul_of_nonneg_left l1 (by linarith)
  have err : |d' / D - d / N| ≤ (1 + u) ^ n / (1 - u) ^ (n + 3) - 1 := by
    have e : d' / D - d / N = (d' - d) / N * (N / D) + d / N * (N / D - 1) := by
      field_simp; ring
    have a1 : |(d' - d) / N| ≤ (1 + u) ^ n - 1 := by
      rw [abs_div, abs_of_pos hTX, div_le_iff₀ hTX]; exact n1
    have a2 : |d / N| ≤ 1 := by
      rw [abs_div, abs_of_pos hTX, div_le_iff₀ hTX]; linarith
    have a3 : |N / D| ≤ 1 / (1 - u) ^ (n + 3) := by rw [abs_of_pos (div_pos hTX hDp)]; exact r1
    rw [e]
    refine (abs_add_le _ _).trans ?_
    rw [abs_mul, abs_mul]
    have b1 := mul_le_mul a1 a3 (abs_nonneg _) (by linarith)
    have b2 := mul_le_mul a2 r2 (abs_nonneg _) zero_le_one
    refine (add_le_add b1 b2).trans (le_of_eq ?_)
    ring
  have fin := h.step hu err big
  rw [hv']
  constructor
  · refine fin.trans (le_of_eq ?_)
    rw [pow_succ]; ring
  · refine (h.abs_le _).trans ?_
    refine (mul_le_mul_of_nonneg_left big (by linarith)).trans (le_of_eq ?_)
    rw [pow_succ]; ring

/-- Spectra without negative values never get a negative score. -/
theorem C156_nonneg {r : ℝ → ℝ} {u : ℝ} (h : Rounds r u) (hu1 : u < 1) (order : Nat → DotTree × DotTree × DotTree) (img : A2 ℝ) (t : A1 ℝ)
    (hi : ∀ k b, 0 ≤ img.px k b) (ht : ∀ b, 0 ≤ t.px b) {s : A1 (Option ℝ)} (hs : samR r order img t = .ok s) (k : Nat) {v : ℝ} (hv : s.px k = some v) : 0 ≤ v := by
  unfold samR at hs
  split at hs
  · cases hs
  cases hs
  have up : ∀ {x : ℝ}, 0 ≤ x → 0 ≤ r x := fun hx => le_trans (mul_nonneg (by linarith) hx) (h.ge hx)
  have hd : ∀ (d : DotTree) (x y : Nat → ℝ), (∀ b, 0 ≤ x b) → (∀ b, 0 ≤ y b) → 0 ≤ d.eval r x y := by
    intro d x y hx hy
    induction d with
    | mul k => exact up (mul_nonneg (hx k) (hy k))
    | fma k a ih => exact up (add_nonneg (mul_nonneg (hx k) (hy k)) ih)
    | add a b iha ihb => exact up (add_nonneg iha ihb)
  simp only [samScoreR, fdiv] at hv
  split at hv
  · cases hv
  simp only [Option.map_some, Option.some.injEq] at hv
  rw [← hv]
  exact up (div_nonneg (hd _ _ _ ht (hi k)) (up (mul_nonneg (up (Real.sqrt_nonneg _)) (up (Real.sqrt_nonneg _)))))

/-- `(1-u)^m` against `1 - m u`. -/
theorem one_sub_pow {u : ℝ} (hu : 0 ≤ u) (hu1 : u < 1) (m : Nat) : 1 - m * u ≤ (1 - u) ^ m := by
  induction m with
  | zero => simp
  | succ m ih =>
    rw [pow_succ]
    push_cast
    have h1 : (1 - (m : ℝ) * u) * (1 - u) ≤ (1 - u) ^ m * (1 - u) := mul_le_mul_of_nonneg_right ih (by linarith)
    have h2 : 0 ≤ (m : ℝ) * u * u := by positivity
    nlinarith

/-- The bound of `C156_error` in plain numbers: with at most `2^50` bands, a float64 score is within `(8 n + 16) 2^-54` of the cosine. -/
theorem C156_float64 (order : Nat → DotTree × DotTree × DotTree) (img : A2 ℝ) (t : A1 ℝ) (ho : SamOrders order img) (hn : img.nx ≤ 2 ^ 50)
    {s : A1 (Option ℝ)} (hs : samR (fl 53) order img t = .ok s) (k : Nat) {v : ℝ} (hv : s.px k = some v) :
    |v - cosine img.nx t.px (fun b => img.px k b)| ≤ (8 * img.nx + 16) / 2 ^ 54 := by
  have hu : (0 : ℝ) ≤ unit 53 := (unit_pos 53).le
  have hu1 : (unit 53 : ℝ) < 1 := by have := unit_le_half (K := ℝ) (p := 53) (by norm_num); linarith
  refine (C156_error (rounds_fl 53) hu hu1 order img t ho hs k hv).1.trans ?_
  have hval : (unit 53 : ℝ) = 1 / 2 ^ 53 := rfl
  have hn' : (img.nx : ℝ) ≤ 2 ^ 50 := by exact_mod_cast hn
  have hn0 : (0 : ℝ) ≤ (img.nx : ℝ) := Nat.cast_nonneg _
  have hmu : (2 * (img.nx : ℝ) + 4) * unit 53 ≤ 1 / 2 := by
    rw [hval, mul_one_div, div_le_iff₀ (by positivity)]
    norm_num only at hn' ⊢
    linarith
  generalize hU : (unit 53 : ℝ) = u at *
  generalize hN : img.nx = n at *
  have b1 := one_sub_pow hu hu1 (2 * n + 4)
  have e1 : (1 + u) ^ (n + 1) * (1 - u) ^ (n + 1) ≤ 1 := by
    rw [← mul_pow]
    exact pow_le_one₀ (mul_nonneg (by linarith) (by linarith)) (by nlinarith)
  have p3 : 0 < (1 - u) ^ (n + 3) := pow_pos (by linarith) _
  have p1 : 0 < (1 - u) ^ (n + 1) := pow_pos (by linarith) _
  have p4 : (1 - u) ^ (2 * n + 4) = (1 - u) ^ (n + 1) * (1 - u) ^ (n + 3) := by rw [← pow_add]; congr 1; omega
  push_cast at b1
  have hb : 1 / 2 ≤ (1 - u) ^ (2 * n + 4) := by linarith
  have e2 : (1 + u) ^ (n + 1) / (1 - u) ^ (n + 3) ≤ 1 / (1 - u) ^ (2 * n + 4) := by
    rw [p4, div_le_div_iff₀ p3 (mul_pos p1 p3)]
    calc (1 + u) ^ (n + 1) * ((1 - u) ^ (n + 1) * (1 - u) ^ (n + 3)) = (1 + u) ^ (n + 1) * (1 - u) ^ (n + 1) * (1 - u) ^ (n + 3) := by ring
      _ ≤ 1 * (1 - u) ^ (n + 3) := mul_le_mul_of_nonneg_right e1 p3.le
  have e3 : 1 / (1 - u) ^ (2 * n + 4) - 1 ≤ 2 * ((2 * (n : ℝ) + 4) * u) := by
    have q : 0 < (1 - u) ^ (2 * n + 4) := by linarith
    rw [sub_le_iff_le_add, div_le_iff₀ q]
    have z : 0 ≤ (2 * (n : ℝ) + 4) * u := by positivity
    have w := mul_le_mul_of_nonneg_left hb z
    nlinarith
  have e4 : 2 * ((2 * (n : ℝ) + 4) * u) = (8 * n + 16) / 2 ^ 54 := by
    rw [hval]; ring
  linarith

/-- Scaling a float by a power of two scales its rounding. -/
theorem fl_scale (p : ℕ) (x : ℝ) (e : ℤ) : fl p (2 ^ e * x) = 2 ^ e * fl p x := by
  have h2 : (0 : ℝ) < 2 ^ e := by positivity
  have key : ∀ y : ℝ, 0 < y → fl p (2 ^ e * y) = 2 ^ e * fl p y := by
    intro y hy
    rw [fl_of_pos p (mul_pos h2 hy), fl_of_pos p hy]
    have hl : Int.log 2 (2 ^ e * y) = Int.log 2 y + e := by
      refine log_unique _ ?_ ?_
      · rw [zpow_split, mul_comm]
        exact mul_le_mul_of_nonneg_left (log_lo hy) h2.le
      · rw [show Int.log 2 y + e + 1 = e + (Int.log 2 y + 1) by ring, zpow_split]
        exact mul_lt_mul_of_pos_left (log_hi y) h2
    unfold flPos
    rw [hl]
    have a : 2 ^ e * y * (2 : ℝ) ^ ((p : ℤ) - 1 - (Int.log 2 y + e)) = y * 2 ^ ((p : ℤ) - 1 - Int.log 2 y) := by
      rw [show (p : ℤ) - 1 - Int.log 2 y = e + ((p : ℤ) - 1 - (Int.log 2 y + e)) by ring, zpow_split (K := ℝ) e]
      ring
    have b : (2 : ℝ) ^ (Int.log 2 y + e - ((p : ℤ) - 1)) = 2 ^ e * 2 ^ (Int.log 2 y - ((p : ℤ) - 1)) := by
      rw [← zpow_split]; congr 1; ring
    rw [a, b]
    ring
  rcases lt_trichotomy x 0 with h | h | h
  · have := key (-x) (by linarith)
    rw [mul_neg, fl_neg, fl_neg] at this
    linarith
  · rw [h, mul_zero, fl_zero, mul_zero]
  · exact key x h

/-- Brightening a sample, or rescaling the target, by powers of two changes no bit of the scores. -/
theorem C156_scale (p : ℕ) (order : Nat → DotTree × DotTree × DotTree) (img : A2 ℝ) (t : A1 ℝ) (c : ℤ) (e : Nat → ℤ) :
    samR (fl p) order ⟨img.ny, img.nx, fun k b => 2 ^ e k * img.px k b⟩ ⟨t.n, fun b => 2 ^ c * t.px b⟩ = samR (fl p) order img t := by
  have hd : ∀ (d : DotTree) (x y : Nat → ℝ) (i j : ℤ), d.eval (fl p) (fun b => 2 ^ i * x b) (fun b => 2 ^ j * y b) = 2 ^ (i + j) * d.eval (fl p) x y := by
    intro d x y i j
    induction d with
    | mul k => simp only [DotTree.eval]; rw [← fl_scale, zpow_split]; congr 1; ring
    | fma k a ih => simp only [DotTree.eval]; rw [ih, ← fl_scale, zpow_split]; congr 1; ring
    | add a b iha ihb => simp only [DotTree.eval]; rw [iha, ihb, ← fl_scale]; congr 1; ring
  have hs : ∀ (i : ℤ) (z : ℝ), Real.sqrt (2 ^ (i + i) * z) = 2 ^ i * Real.sqrt z := by
    intro i z
    have h2 : (0 : ℝ) ≤ 2 ^ i := by positivity
    rw [zpow_split, Real.sqrt_mul (mul_nonneg h2 h2), Real.sqrt_mul_self h2]
  unfold samR
  by_cases hl : t.n = img.nx
  · rw [if_neg (by simpa using hl), if_neg (by simpa using hl)]
    congr 2
    funext k
    simp only [samScoreR]
    rw [hd, hd, hd, hs, hs, fl_scale, fl_scale,
      show ∀ a b : ℝ, (2 : ℝ) ^ c * a * (2 ^ e k * b) = 2 ^ (c + e k) * (a * b) from fun a b => by rw [zpow_split]; ring, fl_scale]
    have h2 : (2 : ℝ) ^ (c + e k) ≠ 0 := by positivity
    unfold fdiv
    generalize fl p (fl p (_ : ℝ) * fl p (_ : ℝ)) = D
    by_cases hD : D = 0
    · simp [hD]
    · rw [if_neg (mul_ne_zero h2 hD), if_neg hD, mul_div_mul_left _ _ h2]
  · rw [if_pos (by simpa using hl), if_pos (by simpa using hl)]

/-- The hypotheses are met: two bands, one inner product with a fused multiply-add. -/
example : SamOrders (fun _ => (.fma 1 (.mul 0), .add (.mul 0) (.mul 1), .add (.mul 1) (.mul 0))) ⟨1, 2, fun _ b => b + 1⟩ ∧
    ∃ s, samR (fl 53) (fun _ => (.fma 1 (.mul 0), .add (.mul 0) (.mul 1), .add (.mul 1) (.mul 0))) ⟨1, 2, fun _ b => b + 1⟩ ⟨2, fun _ => 1⟩ = .ok s :=
  ⟨fun _ => ⟨by show List.Perm [1, 0] (List.range 2); decide, by show List.Perm [0, 1] (List.range 2); decide,
    by show List.Perm [1, 0] (List.range 2); decide⟩, _, rfl⟩

/-- PARTIAL: the score is at most `(1+u)^(n+1)/(1-u)^(n+3)` in size, a little above 1. -/
theorem C157_sam_partial {r : ℝ → ℝ} {u : ℝ} (h : Rounds r u) (hu : 0 ≤ u) (hu1 : u < 1) (order : Nat → DotTree × DotTree × DotTree) (img : A2 ℝ) (t : A1 ℝ)
    (ho : SamOrders order img) {s : A1 (Option ℝ)} (hs : samR r order img t = .ok s) (k : Nat) {v : ℝ} (hv : s.px k = some v) :
    |v| ≤ (1 + u) ^ (img.nx + 1) / (1 - u) ^ (img.nx + 3) := (C156_error h hu hu1 order img t ho hs k hv).2

/-- FALSE: the float64 score of a sample is at most 1. A sample equal to the target (1, 1, 1) scores 1.0000000000000002. -/
theorem C157_sam_false : ¬ ∀ (order : Nat → DotTree × DotTree × DotTree) (img : A2 ℝ) (t : A1 ℝ), SamOrders order img → (∀ k b, IsFloat 53 (img.px k b)) →
    (∀ b, IsFloat 53 (t.px b)) → ∀ (s : A1 (Option ℝ)), samR (fl 53) order img t = .ok s → ∀ (k : Nat) (v : ℝ), s.px k = some v → v ≤ 1 := by
  intro h
  have o : IsFloat 53 (1 : ℝ) := by simpa using isFloat_nat (K := ℝ) (p := 53) 1 (by norm_num)
  have f1 : fl 53 (1 : ℝ) = 1 := fl_one (by norm_num)
  have f2 : fl 53 (2 : ℝ) = 2 := by simpa using fl_nat (K := ℝ) (p := 53) (by norm_num) 2 (by norm_num)
  have f3 : fl 53 (3 : ℝ) = 3 := by simpa using fl_nat (K := ℝ) (p := 53) (by norm_num) 3 (by norm_num)
  have s3 : fl 53 (Real.sqrt 3) = 7800463371553962 / 2 ^ 52 := by
    rw [fl_eq (p := 53) 0 7800463371553962 ?_ ?_ ?_]
    · norm_num
    · rw [Real.le_sqrt' (by positivity)]; norm_num
    · rw [Real.sqrt_lt' (by positivity)]; norm_num
    · have a : (7800463371553962 - 1 / 4 : ℝ) / 2 ^ 52 < Real.sqrt 3 := by
        rw [Real.lt_sqrt (by norm_num)]; norm_num
      have b : Real.sqrt 3 < (7800463371553962 + 49 / 100 : ℝ) / 2 ^ 52 := by
        rw [Real.sqrt_lt' (by positivity)]; norm_num
      rw [div_lt_iff₀ (by positivity)] at a
      rw [lt_div_iff₀ (by positivity)] at b
      rw [abs_lt]
      norm_num at a b ⊢
      constructor <;> linarith
  have pr : fl 53 ((7800463371553962 / 2 ^ 52 : ℝ) * (7800463371553962 / 2 ^ 52)) = 6755399441055743 / 2 ^ 51 := by
    rw [fl_eq (p := 53) 1 6755399441055743 (by norm_num) (by norm_num) (by norm_num [abs_lt])]
    norm_num
  have dv : fl 53 ((3 : ℝ) / (6755399441055743 / 2 ^ 51)) = 4503599627370497 / 2 ^ 52 := by
    rw [fl_eq (p := 53) 0 4503599627370497 (by norm_num) (by norm_num) (by norm_num [abs_lt])]
    norm_num
  have ev : DotTree.eval (fl 53) (fun _ => (1 : ℝ)) (fun _ => (1 : ℝ)) (.add (.add (.mul 0) (.mul 1)) (.mul 2)) = 3 := by
    simp only [DotTree.eval, mul_one, f1]
    norm_num [f2, f3]
  have := h (fun _ => (.add (.add (.mul 0) (.mul 1)) (.mul 2), .add (.add (.mul 0) (.mul 1)) (.mul 2), .add (.add (.mul 0) (.mul 1)) (.mul 2)))
    ⟨1, 3, fun _ _ => 1⟩ ⟨3, fun _ => 1⟩ (fun _ => by
      have : List.Perm [0, 1, 2] (List.range 3) := by decide
      exact ⟨this, this, this⟩) (fun _ _ => o) (fun _ => o) _ rfl 0 (4503599627370497 / 2 ^ 52) (by
    simp only [samScoreR, ev, s3, pr, fdiv]
    rw [if_neg (by norm_num), Option.map_some, dv])
  norm_num at this

end Verif.FloatSpectral
