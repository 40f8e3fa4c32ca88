import Verif.Lemmas.Rounding
import Verif.Model.FloatSpectral
import Mathlib.Algebra.BigOperators.Group.Finset.Basic
import Mathlib.Algebra.Order.BigOperators.Group.Finset
import Mathlib.Algebra.BigOperators.Group.List.Basic
import Mathlib.Algebra.Order.BigOperators.Group.List

/-! Error bounds for sums and inner products computed in any order. -/

set_option linter.unusedSectionVars false

namespace Verif.FloatSpectral
open Verif ImageUtils Rounding

section
variable {K : Type} [Field K] [LinearOrder K] [IsStrictOrderedRing K]

/-- Every rounded result is off by at most the relative error `u`. -/
def Rounds (r : K → K) (u : K) : Prop := ∀ x, |r x - x| ≤ u * |x|

/-- The order adds up each of the terms `0 .. n-1` once. -/
def SumTree.Covers (n : Nat) (t : SumTree) : Prop := t.leaves.Perm (List.range n)

/-- The inner product takes each of the terms `0 .. n-1` once. -/
def DotTree.Covers (n : Nat) (t : DotTree) : Prop := t.leaves.Perm (List.range n)

/-- The rounded number is at most a factor `1 + u` larger. -/
theorem Rounds.abs_le {r : K → K} {u : K} (h : Rounds r u) (x : K) : |r x| ≤ (1 + u) * |x| := by
  have h1 := h x
  have h2 : |r x| ≤ |r x - x| + |x| := by
    have := abs_add_le (r x - x) x
    simpa using this
  linarith

/-- Zero is not rounded. -/
theorem Rounds.zero {r : K → K} {u : K} (h : Rounds r u) : r 0 = 0 := by
  have := h 0
  simp only [abs_zero, mul_zero, sub_zero] at this
  exact abs_eq_zero.mp (le_antisymm this (abs_nonneg _))

/-- A rounded nonnegative number from above. -/
theorem Rounds.le {r : K → K} {u : K} (h : Rounds r u) {x : K} (hx : 0 ≤ x) : r x ≤ (1 + u) * x := by
  have := (_root_.abs_le.mp (h x)).2
  rw [abs_of_nonneg hx] at this
  linarith

/-- A rounded nonnegative number from below. -/
theorem Rounds.ge {r : K → K} {u : K} (h : Rounds r u) {x : K} (hx : 0 ≤ x) : (1 - u) * x ≤ r x := by
  have := (_root_.abs_le.mp (h x)).1
  rw [abs_of_nonneg hx] at this
  linarith

/-- A rounded computed value, against the exact one: errors `e` before rounding, at most `B` in size. -/
theorem Rounds.step {r : K → K} {u : K} (h : Rounds r u) (hu : 0 ≤ u) {x y e B : K} (he : |x - y| ≤ e) (hB : |x| ≤ B) : |r x - y| ≤ u * B + e := by
  have h1 := h x
  have h2 : |r x - y| ≤ |r x - x| + |x - y| := abs_sub_le _ _ _
  have h3 : u * |x| ≤ u * B := mul_le_mul_of_nonneg_left hB hu
  linarith

/-- The sum of a list of terms is the sum over the range it permutes. -/
theorem perm_sum {l : List Nat} {n : Nat} (h : l.Perm (List.range n)) (f : Nat → K) : (l.map f).sum = ∑ k ∈ Finset.range n, f k := by
  rw [(h.map f).sum_eq]
  clear h
  induction n with
  | zero => simp
  | succ n ih => rw [List.range_succ, List.map_append, List.sum_append, ih, Finset.sum_range_succ]; simp

/-- The absolute values of the terms add up to something nonnegative. -/
theorem sum_abs_nonneg (l : List Nat) (f : Nat → K) : 0 ≤ (l.map (fun k => |f k|)).sum := by
  induction l with
  | nil => simp
  | cons a l ih => simp only [List.map_cons, List.sum_cons]; have := abs_nonneg (f a); linarith

/-- Triangle inequality. -/
theorem abs_sum_le (l : List Nat) (f : Nat → K) : |(l.map f).sum| ≤ (l.map (fun k => |f k|)).sum := by
  induction l with
  | nil => simp
  | cons a l ih => simp only [List.map_cons, List.sum_cons]; exact (abs_add_le _ _).trans (by linarith)

/-- A tree has at least one term. -/
theorem SumTree.leaves_pos (t : SumTree) : 1 ≤ t.leaves.length := by
  induction t with
  | leaf k => simp [SumTree.leaves]
  | node a b iha ihb => simp only [SumTree.leaves, List.length_append]; omega

/-- An inner product has at least one term. -/
theorem DotTree.leaves_pos (t : DotTree) : 1 ≤ t.leaves.length := by
  induction t with
  | mul k => simp [DotTree.leaves]
  | fma k a iha => simp [DotTree.leaves]
  | add a b iha ihb => simp only [DotTree.leaves, List.length_append]; omega

/-- One rounded addition: error bounds with growth factors `A`, `B` merge into any `G` with `(1+u)*A ≤ G`, `(1+u)*B ≤ G`. -/
theorem add_step {r : K → K} {u : K} (h : Rounds r u) (hu : 0 ≤ u) {a a' b b' sa sb A B G : K} (ha : |a' - a| ≤ (A - 1) * sa) (hb : |b' - b| ≤ (B - 1) * sb)
    (hsa : |a| ≤ sa) (hsb : |b| ≤ sb) (hA : (1 + u) * A ≤ G) (hB : (1 + u) * B ≤ G) : |r (a' + b') - (a + b)| ≤ (G - 1) * (sa + sb) := by
  have sa0 : 0 ≤ sa := (abs_nonneg _).trans hsa
  have sb0 : 0 ≤ sb := (abs_nonneg _).trans hsb
  have e1 : |a'| ≤ A * sa := by
    have : |a'| ≤ |a' - a| + |a| := by simpa using abs_add_le (a' - a) a
    linarith
  have e2 : |b'| ≤ B * sb := by
    have : |b'| ≤ |b' - b| + |b| := by simpa using abs_add_le (b' - b) b
    linarith
  have e3 : |a' + b'| ≤ A * sa + B * sb := (abs_add_le _ _).trans (add_le_add e1 e2)
  have e4 : |(a' + b') - (a + b)| ≤ (A - 1) * sa + (B - 1) * sb := by
    have : (a' + b') - (a + b) = (a' - a) + (b' - b) := by ring
    rw [this]
    exact (abs_add_le _ _).trans (add_le_add ha hb)
  have e5 := h.step hu e4 e3
  have e6 : (1 + u) * A * sa ≤ G * sa := mul_le_mul_of_nonneg_right hA sa0
  have e7 : (1 + u) * B * sb ≤ G * sb := mul_le_mul_of_nonneg_right hB sb0
  linarith

/-- The computed sum against the exact one, for every order. -/
theorem SumTree.err {r : K → K} {u : K} (h : Rounds r u) (hu : 0 ≤ u) (f : Nat → K) (t : SumTree) :
    |t.eval r f - (t.leaves.map f).sum| ≤ ((1 + u) ^ (t.leaves.length - 1) - 1) * (t.leaves.map (fun k => |f k|)).sum := by
  induction t with
  | leaf k => simp [SumTree.eval, SumTree.leaves]
  | node a b iha ihb =>
    have ha := a.leaves_pos
    have hb := b.leaves_pos
    have h1 : (1 : K) ≤ 1 + u := by linarith
    simp only [SumTree.eval, SumTree.leaves, List.map_append, List.sum_append, List.length_append]
    refine add_step h hu iha ihb (abs_sum_le _ _) (abs_sum_le _ _) ?_ ?_
    · rw [← pow_succ']
      exact pow_le_pow_right₀ h1 (by omega)
    · rw [← pow_succ']
      exact pow_le_pow_right₀ h1 (by omega)

/-- The computed inner product against the exact one, for every way to compute it. -/
theorem DotTree.err {r : K → K} {u : K} (h : Rounds r u) (hu : 0 ≤ u) (x y : Nat → K) (t : DotTree) :
    |t.eval r x y - (t.leaves.map (fun k => x k * y k)).sum| ≤ ((1 + u) ^ t.leaves.length - 1) * (t.leaves.map (fun k => |x k * y k|)).sum := by
  have h1 : (1 : K) ≤ 1 + u := by linarith
  induction t with
  | mul k =>
    simp only [DotTree.eval, DotTree.leaves, List.map_cons, List.map_nil, List.sum_cons, List.sum_nil, List.length_cons, List.length_nil, add_zero, zero_add, pow_one,
      add_sub_cancel_left]
    exact h _
  | fma k a iha =>
    simp only [DotTree.eval, DotTree.leaves, List.map_cons, List.sum_cons, List.length_cons]
    refine add_step (A := 1) h hu (by simp) iha le_rfl (abs_sum_le _ _) ?_ ?_
    · rw [mul_one]
      exact le_self_pow₀ h1 (by omega)
    · rw [pow_succ']
  | add a b iha ihb =>
    have ha := a.leaves_pos
    have hb := b.leaves_pos
    simp only [DotTree.eval, DotTree.leaves, List.map_append, List.sum_append, List.length_append]
    refine add_step h hu iha ihb (abs_sum_le _ _) (abs_sum_le _ _) ?_ ?_
    · rw [← pow_succ']
      exact pow_le_pow_right₀ h1 (by omega)
    · rw [← pow_succ']
      exact pow_le_pow_right₀ h1 (by omega)

/-- The computed sum of squares from both sides. -/
theorem DotTree.square_bounds {r : K → K} {u : K} (h : Rounds r u) (hu : 0 ≤ u) (hu1 : u < 1) (x : Nat → K) (t : DotTree) :
    (1 - u) ^ t.leaves.length * (t.leaves.map (fun k => x k * x k)).sum ≤ t.eval r x x ∧
      t.eval r x x ≤ (1 + u) ^ t.leaves.length * (t.leaves.map (fun k => x k * x k)).sum := by
  have h0 : (0 : K) ≤ 1 - u := by linarith
  have hle : (1 : K) - u ≤ 1 := by linarith
  have h1 : (1 : K) ≤ 1 + u := by linarith
  have nn : ∀ l : List Nat, 0 ≤ (l.map (fun k => x k * x k)).sum := by
    intro l
    induction l with
    | nil => simp
    | cons a l ih => simp only [List.map_cons, List.sum_cons]; have := mul_self_nonneg (x a); linarith
  induction t with
  | mul k =>
    simp only [DotTree.eval, DotTree.leaves, List.map_cons, List.map_nil, List.sum_cons, List.sum_nil, List.length_cons, List.length_nil, add_zero, zero_add, pow_one]
    exact ⟨h.ge (mul_self_nonneg _), h.le (mul_self_nonneg _)⟩
  | fma k a iha =>
    simp only [DotTree.eval, DotTree.leaves, List.map_cons, List.sum_cons, List.length_cons]
    have q := mul_self_nonneg (x k)
    have s := nn a.leaves
    have e0 : 0 ≤ a.eval r x x := le_trans (mul_nonneg (pow_nonneg h0 _) s) iha.1
    have l1 := h.ge (add_nonneg q e0)
    have l2 := h.le (add_nonneg q e0)
    have p1 : (1 - u) ^ a.leaves.length ≤ 1 := pow_le_one₀ h0 hle
    have p2 : 1 ≤ (1 + u) ^ a.leaves.length := one_le_pow₀ h1
    constructor
    · refine le_trans ?_ l1
      rw [pow_succ', mul_assoc]
      refine mul_le_mul_of_nonneg_left ?_ h0
      rw [mul_add]
      exact add_le_add (mul_le_of_le_one_left q p1) iha.1
    · refine l2.trans ?_
      rw [pow_succ', mul_assoc]
      refine mul_le_mul_of_nonneg_left ?_ (by linarith)
      rw [mul_add]
      exact add_le_add (le_mul_of_one_le_left q p2) iha.2
  | add a b iha ihb =>
    have ha := a.leaves_pos
    have hb := b.leaves_pos
    have sa := nn a.leaves
    have sb := nn b.leaves
    simp only [DotTree.eval, DotTree.leaves, List.map_append, List.sum_append, List.length_append]
    have ea : 0 ≤ a.eval r x x := le_trans (mul_nonneg (pow_nonneg h0 _) sa) iha.1
    have eb : 0 ≤ b.eval r x x := le_trans (mul_nonneg (pow_nonneg h0 _) sb) ihb.1
    have l1 := h.ge (add_nonneg ea eb)
    have l2 := h.le (add_nonneg ea eb)
    have g : ∀ m, 1 ≤ m → m < a.leaves.length + b.leaves.length → (1 - u) ^ (a.leaves.length + b.leaves.length) ≤ (1 - u) * (1 - u) ^ m := by
      intro m _ hm
      rw [← pow_succ']
      exact pow_le_pow_of_le_one h0 hle (by omega)
    have g' : ∀ m, 1 ≤ m → m < a.leaves.length + b.leaves.length → (1 + u) * (1 + u) ^ m ≤ (1 + u) ^ (a.leaves.length + b.leaves.length) := by
      intro m _ hm
      rw [← pow_succ']
      exact pow_le_pow_right₀ h1 (by omega)
    constructor
    · refine le_trans ?_ l1
      rw [mul_add, mul_add]
      refine add_le_add ?_ ?_
      · exact (mul_le_mul_of_nonneg_right (g _ ha (by omega)) sa).trans (by rw [mul_assoc]; exact mul_le_mul_of_nonneg_left iha.1 h0)
      · exact (mul_le_mul_of_nonneg_right (g _ hb (by omega)) sb).trans (by rw [mul_assoc]; exact mul_le_mul_of_nonneg_left ihb.1 h0)
    · refine l2.trans ?_
      rw [mul_add, mul_add]
      refine add_le_add ?_ ?_
      · exact le_trans (by rw [mul_assoc]; exact mul_le_mul_of_nonneg_left iha.2 (by linarith)) (mul_le_mul_of_nonneg_right (g' _ ha (by omega)) sa)
      · exact le_trans (by rw [mul_assoc]; exact mul_le_mul_of_nonneg_left ihb.2 (by linarith)) (mul_le_mul_of_nonneg_right (g' _ hb (by omega)) sb)

/-- Sums of integers that stay small are exact in every order. -/
theorem SumTree.exact {r : K → K} {M : ℤ} (hr : ∀ k : ℤ, |k| ≤ M → r (k : K) = (k : K)) (g : Nat → ℤ) (t : SumTree)
    (hs : (t.leaves.map (fun k => |g k|)).sum ≤ M) : t.eval r (fun k => (g k : K)) = (((t.leaves.map g).sum : ℤ) : K) := by
  have nn : ∀ l : List Nat, 0 ≤ (l.map (fun k => |g k|)).sum := by
    intro l
    induction l with
    | nil => simp
    | cons a l ih => simp only [List.map_cons, List.sum_cons]; have := abs_nonneg (g a); omega
  have tri : ∀ l : List Nat, |(l.map g).sum| ≤ (l.map (fun k => |g k|)).sum := by
    intro l
    induction l with
    | nil => simp
    | cons a l ih => simp only [List.map_cons, List.sum_cons]; exact (abs_add_le _ _).trans (by omega)
  induction t with
  | leaf k => simp [SumTree.eval, SumTree.leaves]
  | node a b iha ihb =>
    simp only [SumTree.leaves, List.map_append, List.sum_append] at hs
    have na := nn a.leaves
    have nb := nn b.leaves
    simp only [SumTree.eval, SumTree.leaves, List.map_append, List.sum_append]
    rw [iha (by omega), ihb (by omega), ← Int.cast_add]
    refine hr _ ?_
    exact (abs_add_le _ _).trans (by have := tri a.leaves; have := tri b.leaves; omega)

/-- Without rounding every order gives the sum. -/
theorem SumTree.eval_id (f : Nat → K) (t : SumTree) : t.eval id f = (t.leaves.map f).sum := by
  induction t with
  | leaf k => simp [SumTree.eval, SumTree.leaves]
  | node a b iha ihb => simp [SumTree.eval, SumTree.leaves, iha, ihb]

/-- Without rounding every way gives the inner product. -/
theorem DotTree.eval_id (x y : Nat → K) (t : DotTree) : t.eval id x y = (t.leaves.map (fun k => x k * y k)).sum := by
  induction t with
  | mul k => simp [DotTree.eval, DotTree.leaves]
  | fma k a iha => simp [DotTree.eval, DotTree.leaves, iha]
  | add a b iha ihb => simp [DotTree.eval, DotTree.leaves, iha, ihb]

/-- The number of terms. -/
theorem covers_length {l : List Nat} {n : Nat} (h : l.Perm (List.range n)) : l.length = n := by simpa using h.length_eq

end

end Verif.FloatSpectral
