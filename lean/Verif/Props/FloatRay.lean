import Verif.Lemmas.FloatRay

/-! C196: the ray caster in float arithmetic on terrain less steep than the lines of sight.  C197: no such guarantee without that. -/

set_option linter.unusedSectionVars false

namespace Verif.PointCalc
open Verif ImageUtils FloatGeom FloatSpectral

section accuracy
variable {r : ℝ → ℝ} {u H : ℝ}

set_option maxHeartbeats 1000000 in
/-- One ray in float arithmetic. -/
theorem castRayR_spec (hr : Rounds r u) (hu : 0 ≤ u) (hu1 : u ≤ 1 / 1000) (hH : 0 ≤ H) {E T : ℝ → ℝ → ℝ} {c δ : ℝ} (hc : 0 ≤ c) (hG : Gentle T c)
    (hE : ∀ p q, |E p q - T p q| ≤ δ) (hEH : ∀ p q, |E p q| ≤ H) {A B : ℝ} (hA : |A| ≤ H) (hB : |B| ≤ H) {s : Nat} (hs : 2 ≤ s) {top bot : ℝ × ℝ}
    (ht1 : |top.1| ≤ H) (ht2 : |top.2| ≤ H) (hb1 : |bot.1| ≤ H) (hb2 : |bot.2| ≤ H) {D : ℝ} (hsp : horizontalLen (top, bot) ≤ D * ((s : ℝ) - 1))
    (htop : ∀ p q, E p q ≤ A - 10 * (u * H)) (hbot : ∀ p q, B < E p q) {g V : ℝ} (hg0 : 0 < g) (hg : 1000 * (u * H) ≤ g)
    (hV : V = c * D + 2 * (δ + c * (Real.sqrt 2 * (30 * (u * H))))) (hsteep : V + g ≤ (A - B) / ((s : ℝ) - 1)) :
    ∃ (q : ℝ × ℝ × ℝ) (t : ℝ), castRayR r E A B s top bot = .ok (some q) ∧ 0 ≤ t ∧ t < 1 ∧
      apart (q.1, q.2.1) (segPoint top bot t) ≤ 82 * (u * H) + 200 * (u * H) / g * D ∧
      |q.2.2 - (A + t * (B - A))| ≤ 20 * (u * H) + 200 * (u * H) / g * V ∧
      |T (segPoint top bot t).1 (segPoint top bot t).2 - q.2.2| ≤ c * D / 2 + (δ + c * (Real.sqrt 2 * (30 * (u * H)))) + 10 * (u * H) + 200 * (u * H) / g * V ∧
      ∀ t', 0 ≤ t' → t' ≤ t → T (segPoint top bot t').1 (segPoint top bot t').2 ≤
        A + t' * (B - A) + c * D / 2 + (δ + c * (Real.sqrt 2 * (30 * (u * H)))) + 10 * (u * H) := by
  have w0 : 0 ≤ u * H := mul_nonneg hu hH
  have wH : u * H ≤ 1 / 1000 * H := mul_le_mul_of_nonneg_right hu1 hH
  have hs1 : (0 : ℝ) < (s : ℝ) - 1 := (frac_mem hs (show 0 < s by omega)).1
  set δ' := δ + c * (Real.sqrt 2 * (30 * (u * H))) with hδ'
  -- the computed samples
  set lon : Nat → ℝ := fun i => r (r (r (bot.1 - top.1) * linspaceR r 0 1 s i) + top.1) with hlon
  set lat : Nat → ℝ := fun i => r (r (r (bot.2 - top.2) * linspaceR r 0 1 s i) + top.2) with hlat
  set l : Nat → ℝ := fun i => E (lon i) (lat i) with hl
  set y : Nat → ℝ := linspaceR r A B s with hy
  have et : ∀ j, j < s → |linspaceR r 0 1 s j - (j : ℝ) / (s - 1)| ≤ 10 * u := by
    intro j hj
    have := linspaceR_err hr hu hu1 zero_le_one (lo := 0) (hi := 1) (by simp) (by simp) hs hj
    rw [show (0 : ℝ) + (j : ℝ) / (s - 1) * (1 - 0) = (j : ℝ) / (s - 1) by ring, mul_one] at this
    exact this
  have elon : ∀ j, j < s → |lon j - (segPoint top bot ((j : ℝ) / (s - 1))).1| ≤ 30 * (u * H) := fun j hj =>
    sample_err hr hu hu1 hH ht1 hb1 (frac_mem hs hj).2.1 (frac_mem hs hj).2.2 (et j hj)
  have elat : ∀ j, j < s → |lat j - (segPoint top bot ((j : ℝ) / (s - 1))).2| ≤ 30 * (u * H) := fun j hj =>
    sample_err hr hu hu1 hH ht2 hb2 (frac_mem hs hj).2.1 (frac_mem hs hj).2.2 (et j hj)
  have el : ∀ j, j < s → |l j - T (segPoint top bot ((j : ℝ) / (s - 1))).1 (segPoint top bot ((j : ℝ) / (s - 1))).2| ≤ δ' := by
    intro j hj
    have a1 := hE (lon j) (lat j)
    have a2 := gentle_apart hc hG (p := (lon j, lat j)) (q := segPoint top bot ((j : ℝ) / (s - 1))) (ε := 30 * (u * H)) (max_le (elon j hj) (elat j hj))
    have := abs_add_le (E (lon j) (lat j) - T (lon j) (lat j)) (T (lon j) (lat j) - T (segPoint top bot ((j : ℝ) / (s - 1))).1 (segPoint top bot ((j : ℝ) / (s - 1))).2)
    rw [sub_add_sub_cancel] at this
    simp only [hl, hδ']
    linarith
  have ey : ∀ j, j < s → |y j - (A + (j : ℝ) / (s - 1) * (B - A))| ≤ 10 * (u * H) := fun j hj => linspaceR_err hr hu hu1 hH hA hB hs hj
  -- the search
  have hex : ∃ i, i < s ∧ (fun i : Nat => decide (y i < l i)) i = true := by
    refine ⟨s - 1, by omega, ?_⟩
    have : y (s - 1) = B := by
      simp only [hy, linspaceR]
      rw [if_neg (by omega), if_pos (by omega)]
    simp only [decide_eq_true_eq, this]
    exact hbot _ _
  obtain ⟨g1, g2, g3⟩ := searchLoop_spec (fun i : Nat => decide (y i < l i)) s 0 hex
  have hcast : castRayR r E A B s top bot = (do
      let first ← pyIdx s ((searchLoop (fun i : Nat => decide (y i < l i)) s 0 : Int) - 1)
      let second ← pyIdx s (searchLoop (fun i : Nat => decide (y i < l i)) s 0 : Int)
      if s < 2 then Except.error Err.indexError
        else Except.ok ((divR r (r (l first - y first)) (r (r (y 1 - y 0) - r (l second - l first)))).map fun x =>
          (r (r (r (lon second - lon first) * x) + lon first), r (r (r (lat second - lat first) * x) + lat first), r (r (r (l second - l first) * x) + l first)))) := rfl
  rw [hcast]
  generalize searchLoop (fun i : Nat => decide (y i < l i)) s 0 = idx at g1 g2 g3
  have hidx : idx ≠ 0 := by
    rintro rfl
    have h1 : y 0 < l 0 := by simpa using g2
    have h2 := (abs_le.mp (ey 0 (by omega))).1
    rw [Nat.cast_zero, zero_div, zero_mul, add_zero] at h2
    have := htop (lon 0) (lat 0)
    simp only [hl] at h1
    linarith
  obtain ⟨i, rfl⟩ : ∃ i, idx = i + 1 := ⟨idx - 1, by omega⟩
  have p1 : pyIdx s (((i + 1 : Nat) : Int) - 1) = .ok i := by
    rw [pyIdx_ok_iff]; exact ⟨by omega, Or.inl (by omega)⟩
  rw [p1, pyIdx_nat g1]
  simp only [ok_bind]
  rw [if_neg (by omega)]
  have hbef : ∀ j, j ≤ i → l j ≤ y j := by
    intro j hj
    have := g3 j (by omega)
    simpa using this
  have hlt : y (i + 1) < l (i + 1) := by simpa using g2
  obtain ⟨x0, x1, t0, t1, sT, sA, sB⟩ := sampled hG hc top bot hs hsp A B δ' (10 * (u * H)) l y el ey g1 hbef hlt
  set z := (y i - l i) / (y i - y (i + 1) + (l (i + 1) - l i)) with hz
  -- how far samples are apart
  have hstep : ∀ j : ℝ, horizontalLen (segPoint top bot (j / (s - 1)), segPoint top bot ((j + 1) / (s - 1))) ≤ D := by
    intro j
    rw [segPoint_len, ← sub_div, abs_div, abs_of_pos hs1, show j - (j + 1) = -1 by ring, abs_neg, abs_one, one_div, inv_mul_le_iff₀ hs1, mul_comm]
    exact hsp
  have hll : |l (i + 1) - l i| ≤ V := by
    have a1 := el i (by omega)
    have a2 := el (i + 1) g1
    have a3 := (hG (segPoint top bot ((i : ℝ) / (s - 1))) (segPoint top bot (((i : ℝ) + 1) / (s - 1)))).trans (mul_le_mul_of_nonneg_left (hstep i) hc)
    push_cast at a2
    rw [hV]
    rw [abs_le] at *
    constructor <;> linarith
  have hray : ∀ j : Nat, j + 1 < s → |y (j + 1) - y j - (B - A) / (s - 1)| ≤ 20 * (u * H) := by
    intro j hj
    have a1 := ey j (by omega)
    have a2 := ey (j + 1) hj
    push_cast at a2
    have e : (A + ((j : ℝ) + 1) / (s - 1) * (B - A)) - (A + (j : ℝ) / (s - 1) * (B - A)) = (B - A) / (s - 1) := by ring
    rw [← e]
    rw [abs_le] at *
    constructor <;> linarith
  have hBA : |(B - A) / ((s : ℝ) - 1)| ≤ 2 * H := by
    have hs2 : (1 : ℝ) ≤ (s : ℝ) - 1 := by
      have : (2 : ℝ) ≤ s := by exact_mod_cast hs
      linarith
    rw [abs_div, abs_of_pos hs1]
    exact (div_le_self (abs_nonneg _) hs2).trans (abs_diff hB hA)
  have hm := rnd hr hu hu1 hH (by norm_num : (0 : ℝ) ≤ 20) (hray 0 (by omega)) hBA
  rw [zero_add] at hm
  have hm' : |r (y 1 - y 0) - (y (i + 1) - y i)| ≤ 123 * (u * H) := by
    have a1 := hray i g1
    rw [abs_le] at *
    constructor <;> linarith
  have hyH : ∀ j, j < s → |y j| ≤ 11 / 10 * H := by
    intro j hj
    have a1 := ey j hj
    have a2 := between_abs hA hB (frac_mem hs hj).2.1 (frac_mem hs hj).2.2
    have := abs_add_le (y j - (A + (j : ℝ) / (s - 1) * (B - A))) (A + (j : ℝ) / (s - 1) * (B - A))
    rw [sub_add_cancel] at this
    linarith
  have hD : g - 60 * (u * H) ≤ y i - y (i + 1) + (l (i + 1) - l i) := by
    have a1 := (abs_le.mp (hray i g1)).2
    have a2 := (abs_le.mp hll).1
    have e : (B - A) / ((s : ℝ) - 1) = -((A - B) / ((s : ℝ) - 1)) := by rw [← neg_div, neg_sub]
    rw [e] at a1
    linarith
  obtain ⟨x, hx, hxz⟩ := crossing_err hr hu hu1 hH (hEH _ _) (hEH _ _) (hyH i (by omega)) (hyH (i + 1) g1) (hbef i le_rfl) hlt hm' hg0 hg hD
  have hη : 200 * (u * H) / g ≤ 1 / 5 := by rw [div_le_iff₀ hg0]; linarith
  have hη0 : 0 ≤ 200 * (u * H) / g := by positivity
  rw [hx]
  simp only [Option.map_some]
  refine ⟨_, ((i : ℝ) + z) / (s - 1), rfl, t0, t1, ?_, ?_, ?_, ?_⟩
  · have comp : ∀ (a b : ℝ), a + ((i : ℝ) + z) / (s - 1) * (b - a) = (a + (i : ℝ) / (s - 1) * (b - a)) + z * ((a + ((i : ℝ) + 1) / (s - 1) * (b - a)) - (a + (i : ℝ) / (s - 1) * (b - a))) := by
      intro a b; ring
    have len := hstep i
    have l1 : |(segPoint top bot (((i : ℝ) + 1) / (s - 1))).1 - (segPoint top bot ((i : ℝ) / (s - 1))).1| ≤ D := by
      refine le_trans ?_ len
      unfold horizontalLen
      rw [abs_sub_comm]
      exact Real.abs_le_sqrt (by nlinarith [sq_nonneg ((segPoint top bot ((i : ℝ) / (s - 1))).2 - (segPoint top bot (((i : ℝ) + 1) / (s - 1))).2)])
    have l2 : |(segPoint top bot (((i : ℝ) + 1) / (s - 1))).2 - (segPoint top bot ((i : ℝ) / (s - 1))).2| ≤ D := by
      refine le_trans ?_ len
      unfold horizontalLen
      rw [abs_sub_comm]
      exact Real.abs_le_sqrt (by nlinarith [sq_nonneg ((segPoint top bot ((i : ℝ) / (s - 1))).1 - (segPoint top bot (((i : ℝ) + 1) / (s - 1))).1)])
    have f0 := frac_mem hs (show i < s by omega)
    have f1 := frac_mem hs g1
    have elon1 := elon (i + 1) g1
    have elat1 := elat (i + 1) g1
    push_cast at elon1 elat1 f1
    have b1 := interp_err hr hu hu1 hH (by norm_num) le_rfl (elon i (by omega)) elon1 (between_abs ht1 hb1 f0.2.1 f0.2.2) (between_abs ht1 hb1 f1.2.1 f1.2.2) x0 x1.le hxz hη l1
    have b2 := interp_err hr hu hu1 hH (by norm_num) le_rfl (elat i (by omega)) elat1 (between_abs ht2 hb2 f0.2.1 f0.2.2) (between_abs ht2 hb2 f1.2.1 f1.2.2) x0 x1.le hxz hη l2
    have e1 : (segPoint top bot ((i : ℝ) / (s - 1))).1 + z * ((segPoint top bot (((i : ℝ) + 1) / (s - 1))).1 - (segPoint top bot ((i : ℝ) / (s - 1))).1) =
      (segPoint top bot (((i : ℝ) + z) / (s - 1))).1 := (comp top.1 bot.1).symm
    have e2 : (segPoint top bot ((i : ℝ) / (s - 1))).2 + z * ((segPoint top bot (((i : ℝ) + 1) / (s - 1))).2 - (segPoint top bot ((i : ℝ) / (s - 1))).2) =
      (segPoint top bot (((i : ℝ) + z) / (s - 1))).2 := (comp top.2 bot.2).symm
    rw [e1] at b1
    rw [e2] at b2
    refine max_le ?_ ?_
    · refine b1.trans (by linarith)
    · refine b2.trans (by linarith)
  all_goals
    have b3 := interp_err hr hu hu1 hH le_rfl (by norm_num : (0 : ℝ) ≤ 30) (p1 := l i) (p2 := l (i + 1)) (P1 := l i) (P2 := l (i + 1)) (by simp) (by simp) (hEH _ _) (hEH _ _) x0 x1.le hxz hη hll
  · have := abs_add_le (r (r (r (l (i + 1) - l i) * x) + l i) - (l i + z * (l (i + 1) - l i))) (l i + z * (l (i + 1) - l i) - (A + ((i : ℝ) + z) / (s - 1) * (B - A)))
    rw [sub_add_sub_cancel] at this
    simp only []
    linarith
  · have := abs_sub (T (segPoint top bot (((i : ℝ) + z) / (s - 1))).1 (segPoint top bot (((i : ℝ) + z) / (s - 1))).2 - (l i + z * (l (i + 1) - l i)))
      (r (r (r (l (i + 1) - l i) * x) + l i) - (l i + z * (l (i + 1) - l i)))
    rw [sub_sub_sub_cancel_right] at this
    simp only []
    linarith
  · exact sB

theorem low_pow (hu : 0 ≤ u) (hu1 : u ≤ 1 / 1000) : 1 ≤ (1 - u) ^ 4 * (1 + 5 * u) := by
  have h : 1 - 4 * u ≤ (1 - u) ^ 4 := by nlinarith [sq_nonneg u, mul_nonneg hu (sq_nonneg u), sq_nonneg (u * u)]
  have h2 : 1 ≤ (1 - 4 * u) * (1 + 5 * u) := by nlinarith
  exact h2.trans (mul_le_mul_of_nonneg_right h (by linarith))

theorem high_pow (hu : 0 ≤ u) (hu1 : u ≤ 1 / 1000) : (1 + u) ^ 4 ≤ 1 + 5 * u := by
  have h2 : u ^ 2 ≤ u / 1000 := by nlinarith
  have h3 : u ^ 3 ≤ u / 1000 := by nlinarith [mul_nonneg hu (sq_nonneg u)]
  have h4 : u ^ 4 ≤ u / 1000 := by nlinarith [sq_nonneg (u ^ 2)]
  nlinarith

theorem horizontalLenR_bounds (hr : Rounds r u) (hu : 0 ≤ u) (hu1 : u ≤ 1 / 1000) (p : (ℝ × ℝ) × (ℝ × ℝ)) :
    (1 - u) ^ 3 * horizontalLen p ≤ horizontalLenR r Real.sqrt p ∧ horizontalLenR r Real.sqrt p ≤ (1 + u) ^ 3 * horizontalLen p := by
  have m0 : 0 ≤ 1 - u := by linarith
  have p0 : 0 ≤ 1 + u := by linarith
  have sqr : ∀ a : ℝ, (1 - u) ^ 3 * a ^ 2 ≤ r (r a * r a) ∧ r (r a * r a) ≤ (1 + u) ^ 3 * a ^ 2 := by
    intro a
    have h1 := hr a
    have h2 : (1 - u) * |a| ≤ |r a| := by
      have := abs_sub_abs_le_abs_sub a (r a)
      rw [abs_sub_comm] at this
      linarith
    have h3 := hr.abs_le a
    have e : r a * r a = |r a| ^ 2 := by rw [sq_abs]; ring
    have l1 : ((1 - u) * |a|) ^ 2 ≤ |r a| ^ 2 := pow_le_pow_left₀ (by positivity) h2 2
    have l2 : |r a| ^ 2 ≤ ((1 + u) * |a|) ^ 2 := pow_le_pow_left₀ (abs_nonneg _) h3 2
    rw [mul_pow, sq_abs a] at l1 l2
    rw [e]
    have g1 := hr.ge (sq_nonneg |r a|)
    have g2 := hr.le (sq_nonneg |r a|)
    constructor
    · refine le_trans ?_ g1
      have := mul_le_mul_of_nonneg_left l1 m0
      linarith
    · refine g2.trans ?_
      have := mul_le_mul_of_nonneg_left l2 p0
      linarith
  obtain ⟨a1, a2⟩ := sqr (p.1.1 - p.2.1)
  obtain ⟨b1, b2⟩ := sqr (p.1.2 - p.2.2)
  unfold horizontalLenR
  simp only []
  set x := r (r (p.1.1 - p.2.1) * r (p.1.1 - p.2.1))
  set y := r (r (p.1.2 - p.2.2) * r (p.1.2 - p.2.2))
  have hS : horizontalLen p = Real.sqrt ((p.1.1 - p.2.1) ^ 2 + (p.1.2 - p.2.2) ^ 2) := rfl
  set S := (p.1.1 - p.2.1) ^ 2 + (p.1.2 - p.2.2) ^ 2 with hSd
  have S0 : 0 ≤ S := by positivity
  have xy0 : 0 ≤ x + y := le_trans (by positivity : 0 ≤ (1 - u) ^ 3 * S) (by rw [hSd]; linarith)
  have s1 : (1 - u) ^ 4 * S ≤ r (x + y) := by
    refine le_trans ?_ (hr.ge xy0)
    have := mul_le_mul_of_nonneg_left (by rw [hSd]; linarith : (1 - u) ^ 3 * S ≤ x + y) m0
    linarith
  have s2 : r (x + y) ≤ (1 + u) ^ 4 * S := by
    refine (hr.le xy0).trans ?_
    have := mul_le_mul_of_nonneg_left (by rw [hSd]; linarith : x + y ≤ (1 + u) ^ 3 * S) p0
    linarith
  have q1 : (1 - u) ^ 2 * Real.sqrt S ≤ Real.sqrt (r (x + y)) := by
    have e : (1 - u) ^ 2 * Real.sqrt S = Real.sqrt ((1 - u) ^ 4 * S) := by
      rw [Real.sqrt_mul (by positivity), show (1 - u) ^ 4 = ((1 - u) ^ 2) ^ 2 by ring, Real.sqrt_sq (by positivity)]
    rw [e]
    exact Real.sqrt_le_sqrt s1
  have q2 : Real.sqrt (r (x + y)) ≤ (1 + u) ^ 2 * Real.sqrt S := by
    have e : (1 + u) ^ 2 * Real.sqrt S = Real.sqrt ((1 + u) ^ 4 * S) := by
      rw [Real.sqrt_mul (by positivity), show (1 + u) ^ 4 = ((1 + u) ^ 2) ^ 2 by ring, Real.sqrt_sq (by positivity)]
    rw [e]
    exact Real.sqrt_le_sqrt s2
  rw [hS]
  constructor
  · refine le_trans ?_ (hr.ge (Real.sqrt_nonneg _))
    have := mul_le_mul_of_nonneg_left q1 m0
    linarith
  · refine (hr.le (Real.sqrt_nonneg _)).trans ?_
    have := mul_le_mul_of_nonneg_left q2 p0
    linarith

theorem maxLenR_ge (rs : List ((ℝ × ℝ) × (ℝ × ℝ))) {p : (ℝ × ℝ) × (ℝ × ℝ)} (hp : p ∈ rs) : horizontalLenR r Real.sqrt p ≤ maxLenR r Real.sqrt rs := by
  induction rs with
  | nil => simp at hp
  | cons q qs ih =>
    rcases List.mem_cons.mp hp with rfl | h
    · exact le_max_left _ _
    · exact (ih h).trans (le_max_right _ _)

theorem maxLenR_le (rs : List ((ℝ × ℝ) × (ℝ × ℝ))) {M : ℝ} (h0 : 0 ≤ M) (h : ∀ p ∈ rs, horizontalLenR r Real.sqrt p ≤ M) : maxLenR r Real.sqrt rs ≤ M := by
  induction rs with
  | nil => exact h0
  | cons q qs ih => exact max_le (h q (List.mem_cons_self ..)) (ih (fun p hp => h p (List.mem_cons_of_mem _ hp)))

theorem maxLenR_nonneg (rs : List ((ℝ × ℝ) × (ℝ × ℝ))) : 0 ≤ maxLenR r Real.sqrt rs := by
  induction rs with
  | nil => exact le_rfl
  | cons q qs ih => exact ih.trans (le_max_right _ _)

/-- The computed number of samples: every ray is sampled at least every `(1 + 5 * u) * dist`, and not much denser than asked for. -/
theorem rayStepsR_spec (hr : Rounds r u) (hu : 0 ≤ u) (hu1 : u ≤ 1 / 1000) {dist L : ℝ} (hd : 0 < dist) (rs : List ((ℝ × ℝ) × (ℝ × ℝ))) (hL : ∀ p ∈ rs, horizontalLen p ≤ L)
    (hL0 : 0 ≤ L) (hpos : ∃ p ∈ rs, 0 < horizontalLen p) :
    2 ≤ rayStepsR r Real.sqrt dist rs ∧ (∀ p ∈ rs, horizontalLen p ≤ (1 + 5 * u) * dist * ((rayStepsR r Real.sqrt dist rs : ℝ) - 1)) ∧
      ((rayStepsR r Real.sqrt dist rs : ℝ) - 1) * dist ≤ (1 + 5 * u) * L + dist := by
  have m0 : 0 < 1 - u := by linarith
  have p0 : 0 < 1 + u := by linarith
  have hm := maxLenR_nonneg (r := r) rs
  have hmd : 0 ≤ maxLenR r Real.sqrt rs / dist := by positivity
  have q1 := hr.ge hmd
  have q2 := hr.le hmd
  set q := r (maxLenR r Real.sqrt rs / dist) with hq
  have hqp : 0 < q := by
    obtain ⟨p, hp, hlen⟩ := hpos
    have h1 := (horizontalLenR_bounds hr hu hu1 p).1
    have h2 := maxLenR_ge (r := r) rs hp
    have h3 : 0 < (1 - u) ^ 3 * horizontalLen p := by positivity
    exact lt_of_lt_of_le (mul_pos m0 (div_pos (by linarith) hd)) q1
  have hceil : 1 ≤ ⌈q⌉ := Int.one_le_ceil_iff.mpr hqp
  have hsn : ((rayStepsR r Real.sqrt dist rs : ℕ) : ℤ) = ⌈q⌉ + 1 := by
    unfold rayStepsR
    rw [← hq]
    exact Int.toNat_of_nonneg (by omega)
  have hsr : ((rayStepsR r Real.sqrt dist rs : ℕ) : ℝ) - 1 = (⌈q⌉ : ℝ) := by
    have : ((rayStepsR r Real.sqrt dist rs : ℕ) : ℝ) = ((⌈q⌉ + 1 : ℤ) : ℝ) := by rw [← hsn]; simp
    rw [this]; push_cast; ring
  refine ⟨by omega, ?_, ?_⟩
  · intro p hp
    rw [hsr]
    have h1 := (horizontalLenR_bounds hr hu hu1 p).1
    have h2 := maxLenR_ge (r := r) rs hp
    have h3 : q ≤ ⌈q⌉ := Int.le_ceil q
    have h4 : (1 - u) * ((1 - u) ^ 3 * horizontalLen p / dist) ≤ ⌈q⌉ := by
      refine le_trans ?_ (q1.trans h3)
      exact mul_le_mul_of_nonneg_left (div_le_div_of_nonneg_right (h1.trans h2) hd.le) m0.le
    have h5 : (1 - u) ^ 4 * horizontalLen p ≤ ⌈q⌉ * dist := by
      rw [← div_le_iff₀ hd]
      refine le_trans (le_of_eq ?_) h4
      ring
    have h6 := low_pow hu hu1
    have hl0 : 0 ≤ horizontalLen p := Real.sqrt_nonneg _
    have h7 := mul_le_mul_of_nonneg_right h6 hl0
    have h8 := mul_le_mul_of_nonneg_right h5 (by linarith : 0 ≤ 1 + 5 * u)
    linarith
  · rw [hsr]
    have h1 : (⌈q⌉ : ℝ) < q + 1 := Int.ceil_lt_add_one q
    have h2 : maxLenR r Real.sqrt rs ≤ (1 + u) ^ 3 * L := maxLenR_le rs (by positivity) (fun p hp =>
      (horizontalLenR_bounds hr hu hu1 p).2.trans (mul_le_mul_of_nonneg_left (hL p hp) (by positivity)))
    have h3 : q * dist ≤ (1 + 5 * u) * L := by
      have a1 : q * dist ≤ (1 + u) * (maxLenR r Real.sqrt rs / dist) * dist := mul_le_mul_of_nonneg_right q2 hd.le
      have a2 : (1 + u) * (maxLenR r Real.sqrt rs / dist) * dist = (1 + u) * maxLenR r Real.sqrt rs := by field_simp
      have a3 := mul_le_mul_of_nonneg_left h2 p0.le
      have a4 := mul_le_mul_of_nonneg_right (high_pow hu hu1) hL0
      linarith
    have h4 := mul_le_mul_of_nonneg_right h1.le hd.le
    linarith

theorem castRaysR_map (E : ℝ → ℝ → ℝ) (A B : ℝ) (s : Nat) (hs : 2 ≤ s) (f : (ℝ × ℝ) × (ℝ × ℝ) → ℝ × ℝ × ℝ) (rs : List ((ℝ × ℝ) × (ℝ × ℝ)))
    (h : ∀ p ∈ rs, castRayR r E A B s p.1 p.2 = .ok (some (f p))) : castRaysR r E A B s rs = .ok (rs.map (fun p => some (f p))) := by
  induction rs with
  | nil => simp [castRaysR, Nat.not_lt.mpr hs]
  | cons p ps ih =>
    simp only [castRaysR]
    rw [h p (List.mem_cons_self ..), ok_bind, ih (fun q hq => h q (List.mem_cons_of_mem _ hq)), ok_bind]
    rfl

/-- The computed top and bottom of the search are above and below the terrain. -/
theorem search_bounds (hr : Rounds r u) (hu : 0 ≤ u) (hu1 : u ≤ 1 / 1000) {hi lo A B : ℝ} (hA : A = searchTopR r hi lo) (hB : B = searchBottomR r hi lo) (hAH : |A| ≤ H)
    (hBH : |B| ≤ H) (hlt : lo < hi) (hrange : 2000 * (u * H) ≤ hi - lo) : hi ≤ A - 10 * (u * H) ∧ B < lo := by
  have hH : 0 ≤ H := (abs_nonneg _).trans hAH
  have w0 : 0 ≤ u * H := mul_nonneg hu hH
  set ρ := hi - lo with hρ
  have ρ0 : 0 < ρ := by rw [hρ]; linarith
  have m0 : 0 ≤ 1 - u := by linarith
  have h1 := hr.ge ρ0.le
  have h2 := hr.ge (by norm_num : (0 : ℝ) ≤ 1 / 100)
  have h3 : (1 - u) * ρ * ((1 - u) * (1 / 100)) ≤ r ρ * r (1 / 100) := mul_le_mul h1 h2 (by positivity) (le_trans (by positivity) h1)
  have h4 : 0 ≤ r ρ * r (1 / 100) := le_trans (by positivity) h3
  have h5 := hr.ge h4
  have h6 : 99 / 10000 * ρ ≤ r (r ρ * r (1 / 100)) := by
    have a1 : (1 - u) * ((1 - u) * ρ * ((1 - u) * (1 / 100))) ≤ r (r ρ * r (1 / 100)) := le_trans (mul_le_mul_of_nonneg_left h3 m0) h5
    have a2 : (99 : ℝ) / 100 ≤ (1 - u) ^ 3 := by
      have : (999 / 1000 : ℝ) ^ 3 ≤ (1 - u) ^ 3 := pow_le_pow_left₀ (by norm_num) (by linarith) 3
      norm_num at this ⊢
      linarith
    have a3 := mul_le_mul_of_nonneg_right a2 ρ0.le
    linarith
  set v := r (r ρ * r (1 / 100)) with hv
  have size : ∀ x : ℝ, |r x| ≤ H → |r x - x| ≤ 2 * (u * H) := by
    intro x hx
    have a1 := hr x
    have a2 : |x| ≤ |r x| + |r x - x| := by
      have := abs_sub (r x) (r x - x)
      rwa [sub_sub_cancel] at this
    have a3 : |r x - x| ≤ 1 / 1000 * |x| := a1.trans (mul_le_mul_of_nonneg_right hu1 (abs_nonneg _))
    have a4 : |x| ≤ 2 * H := by linarith
    have a5 := mul_le_mul_of_nonneg_left a4 hu
    linarith
  have s1 := size (hi + v) (by rw [hv, hρ]; rw [hA] at hAH; exact hAH)
  have s2 := size (lo - v) (by rw [hv, hρ]; rw [hB] at hBH; exact hBH)
  have eA : A = r (hi + v) := hA
  have eB : B = r (lo - v) := hB
  rw [← eA] at s1
  rw [← eB] at s2
  have b1 := (abs_le.mp s1).1
  have b2 := (abs_le.mp s2).2
  constructor <;> linarith

/-- C196: the whole ray caster in float arithmetic with relative error `u` per operation.  All coordinates and altitudes are at most `H` in size; `E` (the DEM as it is
computed) is within `δ` of a terrain `T` of slope at most `c`.  Along every ray the ray drops, from one sample to the next, by at least `g` more than the terrain can (`V`):
this is what the last hypothesis says, `L` being the longest ray.  Then every pixel gets an answer; it is off the pixel's line by at most the stated rounding errors, on the
terrain, and the terrain is not above the line before it. -/
theorem C196_rays (hr : Rounds r u) (hu : 0 ≤ u) (hu1 : u ≤ 1 / 1000) {E T : ℝ → ℝ → ℝ} {c δ : ℝ} (hc : 0 ≤ c) (hG : Gentle T c) (hE : ∀ p q, |E p q - T p q| ≤ δ)
    (demHi demLo : ℝ) (ground : ℝ → Nat → ℝ × ℝ) (n : Nat) (hn : 0 < n) (dist hi lo : Option ℝ) (hd : 0 < dist.getD 5) (hlt : lo.getD demLo < hi.getD demHi)
    (hrange : 2000 * (u * H) ≤ hi.getD demHi - lo.getD demLo) (hEr : ∀ p q, lo.getD demLo ≤ E p q ∧ E p q ≤ hi.getD demHi) (A B : ℝ)
    (hA : A = searchTopR r (hi.getD demHi) (lo.getD demLo)) (hB : B = searchBottomR r (hi.getD demHi) (lo.getD demLo)) (hAH : |A| ≤ H) (hBH : |B| ≤ H)
    (hgr : ∀ k, k < n → |(ground A k).1| ≤ H ∧ |(ground A k).2| ≤ H ∧ |(ground B k).1| ≤ H ∧ |(ground B k).2| ≤ H) (hslant : ∃ k, k < n ∧ ground A k ≠ ground B k) {L D V g : ℝ}
    (hL : ∀ k, k < n → horizontalLen (ground A k, ground B k) ≤ L) (hD : D = (1 + 5 * u) * dist.getD 5) (hV : V = c * D + 2 * (δ + c * (Real.sqrt 2 * (30 * (u * H)))))
    (hg0 : 0 < g) (hg : 1000 * (u * H) ≤ g) (hsteep : (V + g) * ((1 + 5 * u) * L + dist.getD 5) ≤ (A - B) * dist.getD 5) :
    ∃ hits, pixelToLonLatAltR r Real.sqrt E demHi demLo ground n dist hi lo = .ok hits ∧ hits.length = n ∧
      ∀ k, k < n → ∃ lon lat alt t, hits[k]? = some (some (lon, lat, alt)) ∧ 0 ≤ t ∧ t < 1 ∧
        apart (lon, lat) (segPoint (ground A k) (ground B k) t) ≤ 82 * (u * H) + 200 * (u * H) / g * D ∧
        |alt - (A + t * (B - A))| ≤ 20 * (u * H) + 200 * (u * H) / g * V ∧
        |T lon lat - alt| ≤ c * D / 2 + δ + c * (Real.sqrt 2 * (112 * (u * H) + 200 * (u * H) / g * D)) + 10 * (u * H) + 200 * (u * H) / g * V ∧
        ∀ t', 0 ≤ t' → t' ≤ t → T (segPoint (ground A k) (ground B k) t').1 (segPoint (ground A k) (ground B k) t').2 ≤
          A + t' * (B - A) + c * D / 2 + δ + c * (Real.sqrt 2 * (30 * (u * H))) + 10 * (u * H) := by
  have hH : 0 ≤ H := (abs_nonneg _).trans hAH
  obtain ⟨hiA, loB⟩ := search_bounds hr hu hu1 hA hB hAH hBH hlt hrange
  have w0 : 0 ≤ u * H := mul_nonneg hu hH
  have hEH : ∀ p q, |E p q| ≤ H := by
    intro p q
    have h1 := hEr p q
    have h2 := abs_le.mp hAH
    have h3 := abs_le.mp hBH
    exact abs_le.mpr ⟨by linarith, by linarith⟩
  set rays := (List.range n).map (fun k => (ground A k, ground B k)) with hrays
  have mem : ∀ p ∈ rays, ∃ k, k < n ∧ p = (ground A k, ground B k) := by
    intro p hp
    simp only [hrays, List.mem_map, List.mem_range] at hp
    obtain ⟨k, hk, rfl⟩ := hp
    exact ⟨k, hk, rfl⟩
  have L0 : 0 ≤ L := (Real.sqrt_nonneg _).trans (hL 0 hn)
  have hposlen : ∃ p ∈ rays, 0 < horizontalLen p := by
    obtain ⟨k, hk, hne⟩ := hslant
    refine ⟨(ground A k, ground B k), by simp only [hrays, List.mem_map, List.mem_range]; exact ⟨k, hk, rfl⟩, ?_⟩
    rcases lt_or_eq_of_le (Real.sqrt_nonneg (((ground A k).1 - (ground B k).1) ^ 2 + ((ground A k).2 - (ground B k).2) ^ 2)) with h | h
    · exact h
    · exfalso
      have h1 := (Real.sqrt_eq_zero (by positivity)).mp h.symm
      have h2 := (add_eq_zero_iff_of_nonneg (sq_nonneg _) (sq_nonneg _)).mp h1
      exact hne (Prod.ext (by linarith [pow_eq_zero_iff (two_ne_zero) |>.mp h2.1]) (by linarith [pow_eq_zero_iff (two_ne_zero) |>.mp h2.2]))
  obtain ⟨s2, slen, smax⟩ := rayStepsR_spec hr hu hu1 hd rays (fun p hp => by obtain ⟨k, hk, rfl⟩ := mem p hp; exact hL k hk) L0 hposlen
  set s := rayStepsR r Real.sqrt (dist.getD 5) rays with hs
  have hs1 : (0 : ℝ) < (s : ℝ) - 1 := (frac_mem s2 (show 0 < s by omega)).1
  have V0 : 0 < V + g := by
    have : 0 ≤ δ := (abs_nonneg _).trans (hE 0 0)
    have : 0 ≤ D := by rw [hD]; positivity
    rw [hV]; positivity
  have steep : V + g ≤ (A - B) / ((s : ℝ) - 1) := by
    rw [le_div_iff₀ hs1]
    have a1 := mul_le_mul_of_nonneg_left smax V0.le
    have a2 : (V + g) * ((s : ℝ) - 1) * dist.getD 5 ≤ (A - B) * dist.getD 5 := by linarith
    exact le_of_mul_le_mul_right a2 hd
  have each : ∀ k, k < n → _ := fun k hk => castRayR_spec hr hu hu1 hH hc hG hE hEH hAH hBH s2 (hgr k hk).1 (hgr k hk).2.1 (hgr k hk).2.2.1 (hgr k hk).2.2.2
    (D := D) (by rw [hD]; exact slen _ (by simp only [hrays, List.mem_map, List.mem_range]; exact ⟨k, hk, rfl⟩))
    (fun p q => (hEr p q).2.trans hiA) (fun p q => lt_of_lt_of_le loB (hEr p q).1) hg0 hg hV steep
  have ans : ∀ p : (ℝ × ℝ) × (ℝ × ℝ), ∃ q, p ∈ rays → castRayR r E A B s p.1 p.2 = .ok (some q) := by
    intro p
    by_cases hp : p ∈ rays
    · obtain ⟨k, hk, rfl⟩ := mem p hp
      obtain ⟨q, t, h, -⟩ := each k hk
      exact ⟨q, fun _ => h⟩
    · exact ⟨(0, 0, 0), fun h => absurd h hp⟩
  choose f hf using ans
  refine ⟨rays.map (fun p => some (f p)), ?_, by simp [hrays], ?_⟩
  · unfold pixelToLonLatAltR
    simp only []
    rw [if_neg (by omega), ← hA, ← hB]
    exact castRaysR_map E A B s s2 f rays (fun p hp => hf p hp)
  · intro k hk
    obtain ⟨q, t, hq, t0, t1, c1, c2, c3, c4⟩ := each k hk
    have hfq : f (ground A k, ground B k) = q := by
      have h1 := hf (ground A k, ground B k) (by simp only [hrays, List.mem_map, List.mem_range]; exact ⟨k, hk, rfl⟩)
      rw [hq] at h1
      injection h1 with h1
      injection h1 with h1
      exact h1.symm
    refine ⟨q.1, q.2.1, q.2.2, t, ?_, t0, t1, c1, c2, ?_, ?_⟩
    · simp [hrays, hk, hfq]
    · have a1 := gentle_apart hc hG c1
      simp only [] at a1
      have := abs_add_le (T q.1 q.2.1 - T (segPoint (ground A k) (ground B k) t).1 (segPoint (ground A k) (ground B k) t).2)
        (T (segPoint (ground A k) (ground B k) t).1 (segPoint (ground A k) (ground B k) t).2 - q.2.2)
      rw [sub_add_sub_cancel] at this
      have e : c * (Real.sqrt 2 * (112 * (u * H) + 200 * (u * H) / g * D)) = c * (Real.sqrt 2 * (82 * (u * H) + 200 * (u * H) / g * D)) + c * (Real.sqrt 2 * (30 * (u * H))) := by ring
      rw [e]
      linarith
    · intro t' h0 h1
      have := c4 t' h0 h1
      linarith

end accuracy

end Verif.PointCalc
