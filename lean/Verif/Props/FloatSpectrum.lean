import Verif.Lemmas.FloatSpectrum
import Verif.Props.FloatDetect
import Verif.Props.FloatSpectral

/-! C199: resampling a spectrum in float arithmetic. -/

set_option linter.unusedSectionVars false

namespace Verif.Spectrum
open Verif ImageUtils FloatSpectral FloatGeom

section
variable {K : Type} [Field K] [LinearOrder K] [IsStrictOrderedRing K] {r : K → K} {u : K}

/-- Specification: the area under the response function as the spectrum's wavelengths see it: straight lines between the responses at these wavelengths. -/
def SeenArea (wl : List K) (rsr : List K × List K) (W : K) : Prop :=
  ∃ q : Nat → K, (∀ (i : Nat) (x : K), wl[i]? = some x → Response rsr.1 rsr.2 x (q i)) ∧
    W = ∑ k ∈ Finset.range (wl.length - 1), (wl.getD (k + 1) 0 - wl.getD k 0) * (q (k + 1) + q k) / 2

theorem seenArea_eq {wl : List K} {rsr : List K × List K} {W : K} (hg : GoodResponse rsr) (h : SeenArea wl rsr W) :
    W = trapz (wl.map (interp1 rsr.1 rsr.2)) wl := by
  obtain ⟨q, hq, rfl⟩ := h
  rw [trapz_sum wl _ (by simp)]
  apply Finset.sum_congr rfl
  intro k hk
  have hk' : k + 1 < wl.length := by have := Finset.mem_range.mp hk; omega
  have e : ∀ i, i < wl.length → (wl.map (interp1 rsr.1 rsr.2)).getD i 0 = q i := by
    intro i hi
    rw [List.getD_eq_getElem _ 0 (by simpa using hi), List.getElem_map]
    exact (interp1_spec rsr.1 rsr.2 hg.1 hg.2.1 hg.2.2.1 _).unique hg.2.2.1 (hq i _ (List.getElem?_eq_getElem hi))
  rw [e k (by omega), e (k + 1) hk']

theorem trapz_mulLeft (c : K) : ∀ (xs ys : List K), trapz (ys.map (c * ·)) xs = c * trapz ys xs
  | [], ys => by cases ys with
    | nil => simp [trapz]
    | cons y ys => cases ys <;> simp [trapz]
  | [x], ys => by cases ys with
    | nil => simp [trapz]
    | cons y ys => cases ys <;> simp [trapz]
  | x0 :: x1 :: xs, [] => by simp [trapz]
  | x0 :: x1 :: xs, [y] => by simp [trapz]
  | x0 :: x1 :: xs, y0 :: y1 :: ys => by
    have ih := trapz_mulLeft c (x1 :: xs) (y1 :: ys)
    simp only [List.map_cons, trapz] at ih ⊢
    rw [ih]; ring

theorem trapz_const (c : K) : ∀ (xs : List K) (a b : K), xs.head? = some a → xs.getLast? = some b → trapz (List.replicate xs.length c) xs = c * (b - a)
  | [], a, b, h, _ => by simp at h
  | [x], a, b, h, h' => by simp at h h'; subst h; subst h'; simp [trapz]
  | x0 :: x1 :: xs, a, b, h, h' => by
    have ih := trapz_const c (x1 :: xs) x1 b rfl (by simpa using h')
    simp only [List.length_cons, List.replicate_succ, trapz] at ih ⊢
    rw [ih]
    simp at h
    subst h
    ring

/-- The quotient of the two integrals. -/
theorem resample_core (hr : Rounds r u) (hu : 0 ≤ u) (wl data q' q s : List K) (hs : wl.Pairwise (· < ·)) (h2 : 2 ≤ wl.length)
    (hq' : q'.length = wl.length) (hq : q.length = wl.length) (hsl : s.length = wl.length) (hd : data.length = wl.length) (M : K) (hM : ∀ d ∈ data, |d| ≤ M)
    (ha : ∀ i, Approx u 7 (q'.getD i 0) (q.getD i 0) (s.getD i 0)) (κ : K) (hW : 0 < trapz q wl) (hκ : trapz s wl ≤ κ * trapz q wl)
    (hv : |trapz (List.zipWith (· * ·) data q) wl| ≤ M * trapz q wl) (t t' : SumTree) (ht : t.Covers (wl.length - 1)) (ht' : t'.Covers (wl.length - 1))
    (hsmall : ((1 + u) ^ (wl.length + 10) - 1) * κ ≤ 1 / 2) :
    1 ≤ κ ∧ ∃ v', divR r (trapzR r t (List.zipWith (fun d v => r (d * v)) data q') wl) (trapzR r t' q' wl) = some v' ∧
      |v' - trapz (List.zipWith (· * ·) data q) wl / trapz q wl| ≤ (1 + u) * (4 * (((1 + u) ^ (wl.length + 10) - 1) * κ) * M) + u * M := by
  have hM0 : 0 ≤ M := by
    cases data with
    | nil => simp at hd; omega
    | cons a l => exact (abs_nonneg a).trans (hM a (by simp))
  have hnum : ∀ i, Approx u 8 ((List.zipWith (fun d v => r (d * v)) data q').getD i 0) ((List.zipWith (· * ·) data q).getD i 0) ((s.map (M * ·)).getD i 0) := by
    intro i
    by_cases hi : i < wl.length
    · have h := ha i
      rw [List.getD_eq_getElem q' 0 (by omega), List.getD_eq_getElem q 0 (by omega), List.getD_eq_getElem s 0 (by omega)] at h
      rw [List.getD_eq_getElem _ 0 (by simp; omega), List.getD_eq_getElem _ 0 (by simp; omega), List.getD_eq_getElem _ 0 (by simp; omega)]
      simp only [List.getElem_zipWith, List.getElem_map]
      have h' := (Approx.exact u (data[i]'(by omega))).mul hr hu h
      exact h'.mono hu (by norm_num) (mul_le_mul_of_nonneg_right (hM _ (List.getElem_mem _)) h.nonneg)
    · rw [List.getD_eq_default _ _ (by simp; omega), List.getD_eq_default _ _ (by simp; omega), List.getD_eq_default _ _ (by simp; omega)]
      have := (Approx.exact u (0 : K)).weaken hu (Nat.zero_le 8)
      rwa [abs_zero] at this
  have a1 := trapzR_approx hr hu wl _ _ _ t hs h2 ht (by simp; omega) (by simpa using hsl) hnum
  have a2 := trapzR_approx hr hu wl _ _ _ t' hs h2 ht' hq hsl ha
  rw [trapz_mulLeft] at a1
  set W := trapz q wl with hWdef
  set S := trapz s wl with hSdef
  set N := trapz (List.zipWith (· * ·) data q) wl with hNdef
  set G := (1 + u) ^ (wl.length + 10) - 1 with hG
  have hG0 : 0 ≤ G := by have := one_le_growth hu (wl.length + 10); linarith
  have hS0 : 0 ≤ S := a2.nonneg
  have hWS : W ≤ S := by have := a2.size; rwa [abs_of_pos hW] at this
  have hκ1 : 1 ≤ κ := by
    by_contra h
    have : κ * W < 1 * W := mul_lt_mul_of_pos_right (not_le.mp h) hW
    linarith
  have e1 : |trapzR r t (List.zipWith (fun d v => r (d * v)) data q') wl - N| ≤ G * (M * (κ * W)) := by
    refine a1.err.trans ?_
    have g : (1 + u) ^ (8 + wl.length + 2) - 1 = G := by rw [hG]; congr 2; omega
    rw [g]
    exact mul_le_mul_of_nonneg_left (mul_le_mul_of_nonneg_left hκ hM0) hG0
  have e2 : |trapzR r t' q' wl - W| ≤ G * (κ * W) := by
    refine a2.err.trans ?_
    have g : (1 + u) ^ (7 + wl.length + 2) - 1 ≤ G := by
      have := growth_mono hu (show 7 + wl.length + 2 ≤ wl.length + 10 by omega)
      linarith
    exact (mul_le_mul_of_nonneg_right g hS0).trans (mul_le_mul_of_nonneg_left hκ hG0)
  have hed : G * (κ * W) ≤ W / 2 := by
    have := mul_le_mul_of_nonneg_right hsmall hW.le
    linarith
  obtain ⟨hne, hquo⟩ := quotient_err e1 e2 (by rw [abs_of_pos hW]; linarith)
  refine ⟨hκ1, r (trapzR r t (List.zipWith (fun d v => r (d * v)) data q') wl / trapzR r t' q' wl), by simp [divR, fdiv, hne], ?_⟩
  have hv' : |N / W| ≤ M := by rw [abs_div, abs_of_pos hW, div_le_iff₀ hW]; exact hv
  have hB : |trapzR r t (List.zipWith (fun d v => r (d * v)) data q') wl / trapzR r t' q' wl - N / W| ≤ 4 * (G * κ) * M := by
    refine hquo.trans ?_
    rw [abs_of_pos hW, div_le_iff₀ (by linarith)]
    have k1 : |N / W| * (G * (κ * W)) ≤ M * (G * (κ * W)) := mul_le_mul_of_nonneg_right hv' (by positivity)
    have k2 : 4 * (G * κ) * M * (W / 2) ≤ 4 * (G * κ) * M * (W - G * (κ * W)) := mul_le_mul_of_nonneg_left (by linarith) (by positivity)
    have k3 : 4 * (G * κ) * M * (W / 2) = G * (M * (κ * W)) + M * (G * (κ * W)) := by ring
    linarith
  set Q := trapzR r t (List.zipWith (fun d v => r (d * v)) data q') wl / trapzR r t' q' wl with hQ
  have hQs : |Q| ≤ M + 4 * (G * κ) * M := by
    have h1 : |Q| ≤ |Q - N / W| + |N / W| := by simpa using abs_add_le (Q - N / W) (N / W)
    linarith
  have := hr.step hu hB hQs
  linarith

/-- The exact value of the band, and its size. -/
theorem resample_exact (wl : List K) (hs : wl.Pairwise (· < ·)) (rsr : List K × List K) (hg : GoodResponse rsr)
    (hW : 0 < trapz (wl.map (interp1 rsr.1 rsr.2)) wl) (data : List K) (hd : data.length = wl.length) (M : K) (hM : ∀ d ∈ data, |d| ≤ M) :
    resampleBand wl data rsr = .ok (some (trapz (List.zipWith (· * ·) data (wl.map (interp1 rsr.1 rsr.2))) wl / trapz (wl.map (interp1 rsr.1 rsr.2)) wl)) ∧
    |trapz (List.zipWith (· * ·) data (wl.map (interp1 rsr.1 rsr.2))) wl| ≤ M * trapz (wl.map (interp1 rsr.1 rsr.2)) wl := by
  obtain ⟨g1, g2, g3, g4⟩ := hg
  constructor
  · unfold resampleBand
    rw [if_neg g1, if_neg (by simpa using g2)]
    simp only [hd.symm, if_true, fdiv]
    rw [if_neg hW.ne']
  · rw [trapz_sum _ _ (by simp; omega), trapz_sum _ _ (by simp), Finset.mul_sum]
    refine (Finset.abs_sum_le_sum_abs _ _).trans (Finset.sum_le_sum ?_)
    intro k hk
    have hk' : k + 1 < wl.length := by have := Finset.mem_range.mp hk; omega
    have hx := getD_mono wl hs k hk'
    have e : ∀ i, i < wl.length → |(List.zipWith (· * ·) data (wl.map (interp1 rsr.1 rsr.2))).getD i 0| ≤ M * (wl.map (interp1 rsr.1 rsr.2)).getD i 0 := by
      intro i hi
      rw [List.getD_eq_getElem _ 0 (by simp; omega), List.getD_eq_getElem _ 0 (by simp; omega)]
      simp only [List.getElem_zipWith, List.getElem_map]
      have h0 := (interp1_spec rsr.1 rsr.2 g1 g2 g3 (wl[i]'hi)).nonneg g4
      rw [abs_mul, abs_of_nonneg h0]
      exact mul_le_mul_of_nonneg_right (hM _ (List.getElem_mem _)) h0
    have e0 := e k (by omega)
    have e1 := e (k + 1) hk'
    rw [abs_div, abs_mul, abs_of_nonneg (by linarith : 0 ≤ wl.getD (k + 1) 0 - wl.getD k 0), abs_of_nonneg (by norm_num : (0 : K) ≤ 2)]
    have e2 := (abs_add_le ((List.zipWith (· * ·) data (wl.map (interp1 rsr.1 rsr.2))).getD (k + 1) 0)
      ((List.zipWith (· * ·) data (wl.map (interp1 rsr.1 rsr.2))).getD k 0)).trans (add_le_add e1 e0)
    have e3 := mul_le_mul_of_nonneg_left e2 (by linarith : 0 ≤ wl.getD (k + 1) 0 - wl.getD k 0)
    have e4 : M * ((wl.getD (k + 1) 0 - wl.getD k 0) * ((wl.map (interp1 rsr.1 rsr.2)).getD (k + 1) 0 + (wl.map (interp1 rsr.1 rsr.2)).getD k 0) / 2)
        = (wl.getD (k + 1) 0 - wl.getD k 0) * (M * (wl.map (interp1 rsr.1 rsr.2)).getD (k + 1) 0 + M * (wl.map (interp1 rsr.1 rsr.2)).getD k 0) / 2 := by ring
    rw [e4]
    linarith

theorem interp1R_id (xp fp : List K) (x : K) : interp1R id xp fp x = interp1 xp fp x := by
  unfold interp1R interp1
  cases xp.head? with
  | none => rfl
  | some a =>
    cases xp.getLast? with
    | none => rfl
    | some b =>
      simp only [id]
      split_ifs with c1 c2 c3 c4
      · rfl
      · rfl
      · rw [c4, sub_self, mul_zero, zero_add]
      · rfl
      · rfl

theorem trapzR_id (xs ys : List K) (t : SumTree) (ht : 2 ≤ xs.length → t.Covers (xs.length - 1)) (hy : ys.length = xs.length) : trapzR id t ys xs = trapz ys xs := by
  unfold trapzR
  rw [trapz_sum xs ys hy]
  split_ifs with h
  · rw [show xs.length - 1 = 0 by omega]; rfl
  · rw [SumTree.eval_id, perm_sum (ht (by omega))]
    rfl

/-- With exact arithmetic the float model is the exact one. -/
theorem C199_no_rounding (t t' : SumTree) (wl data : List K) (rsr : List K × List K) (ht : 2 ≤ wl.length → t.Covers (wl.length - 1))
    (ht' : 2 ≤ wl.length → t'.Covers (wl.length - 1)) : resampleBandR id t t' wl data rsr = resampleBand wl data rsr := by
  have hq : wl.map (interp1R id rsr.1 rsr.2) = wl.map (interp1 rsr.1 rsr.2) := List.map_congr_left (fun x _ => interp1R_id _ _ x)
  have hdiv : ∀ a b : K, divR id a b = fdiv a b := fun a b => by unfold divR; cases fdiv a b <;> rfl
  unfold resampleBandR resampleBand
  simp only [hq, hdiv, id]
  split_ifs with h1 h2 h3 h4 h5
  · rfl
  · rfl
  · rw [trapzR_id wl _ t ht (by simp; omega), trapzR_id wl _ t' ht' (by simp)]
  · rw [trapzR_id wl _ t ht (by simp), trapzR_id wl _ t' ht' (by simp)]
  · rw [trapzR_id wl _ t' ht' (by simp)]
  · rfl

/-- C199: in float arithmetic, with any rounding of relative error `u` and any order of adding, the resampled value of a band differs from the exact weighted
average by a small multiple of `u`, of the largest spectral value `M` and of the band's condition number `κ`: twice the peak response times the range of the
wavelengths, over the area of the response the wavelengths see. -/
theorem C199_near (hr : Rounds r u) (hu : 0 ≤ u) (hu2 : u ≤ 1 / 2) (wl data : List K) (hs : wl.Pairwise (· < ·)) (h2 : 2 ≤ wl.length)
    (rsr : List K × List K) (hg : GoodResponse rsr) (P : K) (hP : ∀ y ∈ rsr.2, y ≤ P) (a b : K) (hfirst : wl.head? = some a) (hlast : wl.getLast? = some b)
    (W κ : K) (hA : SeenArea wl rsr W) (hW : 0 < W) (hκ : 2 * P * (b - a) ≤ κ * W) (hd : data.length = wl.length) (M : K) (hM : ∀ d ∈ data, |d| ≤ M)
    (t t' : SumTree) (ht : t.Covers (wl.length - 1)) (ht' : t'.Covers (wl.length - 1)) (hsmall : ((1 + u) ^ (wl.length + 10) - 1) * κ ≤ 1 / 2) :
    1 ≤ κ ∧ ∃ v v', resampleBand wl data rsr = .ok (some v) ∧ resampleBandR r t t' wl data rsr = .ok (some v') ∧
      |v' - v| ≤ (1 + u) * (4 * (((1 + u) ^ (wl.length + 10) - 1) * κ) * M) + u * M := by
  have hWe := seenArea_eq hg hA
  rw [hWe] at hW hκ
  obtain ⟨x1, x2⟩ := resample_exact wl hs rsr hg hW data hd M hM
  obtain ⟨g1, g2, g3, g4⟩ := hg
  have hP0 : 0 ≤ P := by
    obtain ⟨y, hy⟩ : ∃ y, y ∈ rsr.2 := by
      have : rsr.2.length ≠ 0 := by rw [← g2]; exact fun h => g1 (List.length_eq_zero_iff.mp h)
      exact List.exists_mem_of_length_pos (by omega)
    exact (g4 y hy).trans (hP y hy)
  have hap : ∀ i, Approx u 7 ((wl.map (interp1R r rsr.1 rsr.2)).getD i 0) ((wl.map (interp1 rsr.1 rsr.2)).getD i 0) ((List.replicate wl.length (2 * P)).getD i 0) := by
    intro i
    by_cases hi : i < wl.length
    · rw [List.getD_eq_getElem _ 0 (by simpa using hi), List.getD_eq_getElem _ 0 (by simpa using hi), List.getD_eq_getElem _ 0 (by simpa using hi)]
      simp only [List.getElem_map, List.getElem_replicate]
      exact interp1R_approx hr hu hu2 _ _ g2 g3 P g4 hP hP0 _
    · rw [List.getD_eq_default _ _ (by simp; omega), List.getD_eq_default _ _ (by simp; omega), List.getD_eq_default _ _ (by simp; omega)]
      have := (Approx.exact u (0 : K)).weaken hu (Nat.zero_le 7)
      rwa [abs_zero] at this
  obtain ⟨c0, v', c1, c2⟩ := resample_core hr hu wl data _ _ _ hs h2 (by simp) (by simp) (by simp) hd M hM hap κ hW
    (by rw [trapz_const _ wl a b hfirst hlast]; exact hκ) x2 t t' ht ht' hsmall
  refine ⟨c0, _, v', x1, ?_, c2⟩
  unfold resampleBandR
  rw [if_neg g1, if_neg (by simpa using g2)]
  simp only [hd.symm, if_true]
  rw [c1]

/-- C199: a response tabulated at the spectrum's own wavelengths (as far as they lie in its range) needs no condition number. -/
theorem C199_tabulated (hr : Rounds r u) (hu : 0 ≤ u) (wl data : List K) (hs : wl.Pairwise (· < ·)) (h2 : 2 ≤ wl.length)
    (rsr : List K × List K) (hg : GoodResponse rsr) (ho : Overlaps wl rsr)
    (htab : ∀ x ∈ wl, x ∈ rsr.1 ∨ (∀ p ∈ rsr.1, x < p) ∨ (∀ p ∈ rsr.1, p < x)) (hd : data.length = wl.length) (M : K) (hM : ∀ d ∈ data, |d| ≤ M)
    (t t' : SumTree) (ht : t.Covers (wl.length - 1)) (ht' : t'.Covers (wl.length - 1)) (hsmall : (1 + u) ^ (wl.length + 10) - 1 ≤ 1 / 2) :
    ∃ v v', resampleBand wl data rsr = .ok (some v) ∧ resampleBandR r t t' wl data rsr = .ok (some v') ∧
      |v' - v| ≤ (1 + u) * (4 * ((1 + u) ^ (wl.length + 10) - 1) * M) + u * M := by
  have hW : 0 < trapz (wl.map (interp1 rsr.1 rsr.2)) wl := by
    obtain ⟨g1, g2, g3, g4⟩ := hg
    have hnn : ∀ q ∈ wl.map (interp1 rsr.1 rsr.2), 0 ≤ q := by
      intro q hq
      obtain ⟨x, _, rfl⟩ := List.mem_map.mp hq
      exact (interp1_spec rsr.1 rsr.2 g1 g2 g3 x).nonneg g4
    obtain ⟨w, hwl, hw0, hwt, hwp⟩ := trapz_weights wl hs (wl.map (interp1 rsr.1 rsr.2)) (by simp) hnn
    have hpos : ∃ v ∈ w, 0 < v := by
      apply hwp h2
      obtain ⟨x, hx, v, hv, hv0⟩ := ho
      have := hv.unique g3 (interp1_spec rsr.1 rsr.2 g1 g2 g3 x)
      refine ⟨interp1 rsr.1 rsr.2 x, List.mem_map.mpr ⟨x, hx, rfl⟩, ?_⟩
      exact lt_of_le_of_ne ((interp1_spec rsr.1 rsr.2 g1 g2 g3 x).nonneg g4) (by rw [← this]; exact hv0.symm)
    have h := hwt (List.replicate wl.length 1) (by simp)
    have e : ∀ (r : List K), List.zipWith (· * ·) (List.replicate r.length 1) r = r := by
      intro r
      induction r with
      | nil => rfl
      | cons a r ih => simp [List.replicate_succ, ih]
    have e' := e (wl.map (interp1 rsr.1 rsr.2))
    rw [List.length_map] at e'
    rw [e'] at h
    rw [h, ← hwl, dot_ones]
    exact sum_pos_of w hw0 hpos
  obtain ⟨x1, x2⟩ := resample_exact wl hs rsr hg hW data hd M hM
  obtain ⟨g1, g2, g3, g4⟩ := hg
  have hmap : wl.map (interp1R r rsr.1 rsr.2) = wl.map (interp1 rsr.1 rsr.2) :=
    List.map_congr_left (fun x hx => interp1R_exact _ _ g2 g3 x (htab x hx))
  have hap : ∀ i, Approx u 7 ((wl.map (interp1R r rsr.1 rsr.2)).getD i 0) ((wl.map (interp1 rsr.1 rsr.2)).getD i 0) ((wl.map (interp1 rsr.1 rsr.2)).getD i 0) := by
    intro i
    rw [hmap]
    have h0 : 0 ≤ (wl.map (interp1 rsr.1 rsr.2)).getD i 0 := by
      by_cases hi : i < wl.length
      · rw [List.getD_eq_getElem _ 0 (by simpa using hi), List.getElem_map]
        exact (interp1_spec rsr.1 rsr.2 g1 g2 g3 _).nonneg g4
      · rw [List.getD_eq_default _ _ (by simp; omega)]
    have := (Approx.exact u ((wl.map (interp1 rsr.1 rsr.2)).getD i 0)).weaken hu (Nat.zero_le 7)
    rwa [abs_of_nonneg h0] at this
  obtain ⟨c0, v', c1, c2⟩ := resample_core hr hu wl data _ _ _ hs h2 (by simp) (by simp) (by simp) hd M hM hap 1 hW
    (by rw [one_mul]) x2 t t' ht ht' (by rw [mul_one]; exact hsmall)
  rw [mul_one] at c2
  refine ⟨_, v', x1, ?_, c2⟩
  unfold resampleBandR
  rw [if_neg g1, if_neg (by simpa using g2)]
  simp only [hd.symm, if_true]
  rw [c1]

/-- C199 for double precision: up to a million wavelengths, the resampled value of a band lies between the smallest and the largest spectral value up to
`5 (n + 11) κ / 2^53` of the largest magnitude, and that close to the exact average. -/
theorem C199_double [FloorRing K] (wl data : List K) (hs : wl.Pairwise (· < ·)) (h2 : 2 ≤ wl.length) (hn : wl.length ≤ 1000000)
    (rsr : List K × List K) (hg : GoodResponse rsr) (P : K) (hP : ∀ y ∈ rsr.2, y ≤ P) (a b : K) (hfirst : wl.head? = some a) (hlast : wl.getLast? = some b)
    (W κ : K) (hA : SeenArea wl rsr W) (hW : 0 < W) (hκ : 2 * P * (b - a) ≤ κ * W) (hcond : ((wl.length : K) + 11) * κ ≤ 2 ^ 50)
    (hd : data.length = wl.length) (lo hi M : K) (hM : ∀ d ∈ data, |d| ≤ M) (hr : ∀ d ∈ data, lo ≤ d ∧ d ≤ hi)
    (t t' : SumTree) (ht : t.Covers (wl.length - 1)) (ht' : t'.Covers (wl.length - 1)) :
    ∃ v v', resampleBand wl data rsr = .ok (some v) ∧ resampleBandR (Rounding.fl 53) t t' wl data rsr = .ok (some v') ∧
      |v' - v| ≤ 5 * (wl.length + 11) * κ * M / 2 ^ 53 ∧
      lo - 5 * (wl.length + 11) * κ * M / 2 ^ 53 ≤ v' ∧ v' ≤ hi + 5 * (wl.length + 11) * κ * M / 2 ^ 53 := by
  have hu : (0 : K) ≤ Rounding.unit 53 := (Rounding.unit_pos 53).le
  have hu53 : (Rounding.unit 53 : K) * 2 ^ 53 = 1 := Rounding.unit_mul 53
  have hu' : (Rounding.unit 53 : K) = 1 / 2 ^ 53 := by rw [eq_div_iff (by positivity)]; exact hu53
  have hn' : (wl.length : K) ≤ 1000000 := by exact_mod_cast hn
  have hn0 : (0 : K) ≤ wl.length := Nat.cast_nonneg _
  have hG := growth_lin hu (wl.length + 10) (by
    push_cast
    rw [hu', mul_one_div, div_le_one (by positivity)]
    have h1 : ((wl.length : K) + 10) * (wl.length + 10 + 1) ≤ 1000010 * 1000011 :=
      mul_le_mul (by linarith) (by linarith) (by linarith) (by norm_num)
    refine h1.trans (by norm_num))
  push_cast at hG
  have hκ0 : 0 ≤ κ := by
    by_contra h
    have h1 : κ * W < 0 := mul_neg_of_neg_of_pos (not_le.mp h) hW
    obtain ⟨g1, g2, g3, g4⟩ := hg
    have hP0 : 0 ≤ P := by
      obtain ⟨y, hy⟩ : ∃ y, y ∈ rsr.2 := by
        have : rsr.2.length ≠ 0 := by rw [← g2]; exact fun h => g1 (List.length_eq_zero_iff.mp h)
        exact List.exists_mem_of_length_pos (by omega)
      exact (g4 y hy).trans (hP y hy)
    have hab : a ≤ b := by
      rw [List.head?_eq_getElem?] at hfirst
      rw [List.getLast?_eq_getElem?] at hlast
      obtain ⟨i1, e1⟩ := List.getElem?_eq_some_iff.mp hfirst
      obtain ⟨i2, e2⟩ := List.getElem?_eq_some_iff.mp hlast
      rw [← e1, ← e2]
      exact (List.pairwise_iff_getElem.mp hs 0 (wl.length - 1) i1 i2 (by omega)).le
    have : 0 ≤ 2 * P * (b - a) := by have := sub_nonneg.mpr hab; positivity
    linarith
  have hG1 : ((1 + (Rounding.unit 53 : K)) ^ (wl.length + 10) - 1) * κ ≤ (wl.length + 11) * κ / 2 ^ 53 := by
    have := mul_le_mul_of_nonneg_right hG hκ0
    rw [hu'] at this ⊢
    refine this.trans (le_of_eq ?_)
    ring
  obtain ⟨c0, v, v', c1, c2, c3⟩ := C199_near (rounds_fl 53) hu (Rounding.unit_le_half (by norm_num)) wl data hs h2 rsr hg P hP a b hfirst hlast W κ hA hW hκ hd M hM
    t t' ht ht' (by
      refine hG1.trans ?_
      rw [div_le_iff₀ (by positivity)]
      refine hcond.trans (by norm_num))
  have hM0 : 0 ≤ M := by
    cases data with
    | nil => simp at hd; omega
    | cons a l => exact (abs_nonneg a).trans (hM a (by simp))
  have herr : |v' - v| ≤ 5 * (wl.length + 11) * κ * M / 2 ^ 53 := by
    refine c3.trans ?_
    set E := (wl.length + 11) * κ / (2 : K) ^ 53 with hE
    have k1 : (1 + (Rounding.unit 53 : K)) * (4 * (((1 + (Rounding.unit 53 : K)) ^ (wl.length + 10) - 1) * κ) * M) ≤ (1 + Rounding.unit 53) * (4 * E * M) :=
      mul_le_mul_of_nonneg_left (mul_le_mul_of_nonneg_right (by linarith) hM0) (by linarith)
    have k2 : 11 * (Rounding.unit 53 : K) ≤ E := by
      rw [hu', hE, mul_one_div]
      apply div_le_div_of_nonneg_right _ (by positivity)
      nlinarith
    have k3 : (Rounding.unit 53 : K) ≤ 1 / 8 := by rw [hu']; norm_num
    have k4 : 5 * ((wl.length : K) + 11) * κ * M / 2 ^ 53 = 5 * (E * M) := by rw [hE]; ring
    rw [k4]
    have k5 : 0 ≤ E * M := mul_nonneg (by linarith) hM0
    have k6 : 11 * (Rounding.unit 53 : K) * M ≤ E * M := mul_le_mul_of_nonneg_right k2 hM0
    have k7 : (Rounding.unit 53 : K) * (4 * E * M) ≤ 1 / 8 * (4 * E * M) := mul_le_mul_of_nonneg_right k3 (by linarith)
    linarith
  have hov : Overlaps wl rsr := by
    by_contra hno
    obtain ⟨q, hq, hWq⟩ := hA
    have hz : ∀ i, i < wl.length → q i = 0 := by
      intro i hi
      by_contra h0
      exact hno ⟨wl[i], List.getElem_mem _, q i, hq i _ (List.getElem?_eq_getElem hi), h0⟩
    have : W = 0 := by
      rw [hWq]
      apply Finset.sum_eq_zero
      intro k hk
      have hk' : k + 1 < wl.length := by have := Finset.mem_range.mp hk; omega
      rw [hz k (by omega), hz (k + 1) hk']
      simp
    linarith
  obtain ⟨w, w1, w2, w3, w4⟩ := resampleBand_weights wl hs h2 rsr hg hov
  have hv : v = dot w data := by
    have := w4 data hd
    rw [c1] at this
    simpa using this
  obtain ⟨l1, l2⟩ := (C51_average_facts w w2 w3).1 data lo hi (by omega) hr
  have h1 := abs_sub_le_iff.mp herr
  refine ⟨v, v', c1, c2, herr, ?_, ?_⟩
  · rw [← hv] at l1; linarith [h1.2]
  · rw [← hv] at l2; linarith [h1.1]

end

/-! ### C199 is met -/

/-- A band of three samples seen by four wavelengths. -/
theorem C199_example : ∃ v v', resampleBand ([1, 2, 3, 4] : List ℚ) [1 / 10, 1 / 2, 3 / 10, 7 / 10] ([1 / 2, 5 / 2, 7 / 2], [0, 1, 0]) = .ok (some v) ∧
    resampleBandR (Rounding.fl 53) (.node (.leaf 0) (.node (.leaf 1) (.leaf 2))) (.node (.leaf 0) (.node (.leaf 1) (.leaf 2))) ([1, 2, 3, 4] : List ℚ)
      [1 / 10, 1 / 2, 3 / 10, 7 / 10] ([1 / 2, 5 / 2, 7 / 2], [0, 1, 0]) = .ok (some v') ∧ |v' - v| ≤ 5 * (4 + 11) * 8 * 1 / 2 ^ 53 := by
  have hA : SeenArea ([1, 2, 3, 4] : List ℚ) ([1 / 2, 5 / 2, 7 / 2], [0, 1, 0]) (11 / 8) := by
    refine ⟨fun i => [1 / 4, 3 / 4, 1 / 2, 0].getD i 0, ?_, by norm_num [Finset.sum_range_succ]⟩
    intro i x hi
    match i, hi with
    | 0, hi => simp at hi; subst hi; exact Or.inr (Or.inr (Or.inr ⟨0, 1 / 2, 5 / 2, 0, 1, rfl, rfl, rfl, rfl, by norm_num, by norm_num, by norm_num⟩))
    | 1, hi => simp at hi; subst hi; exact Or.inr (Or.inr (Or.inr ⟨0, 1 / 2, 5 / 2, 0, 1, rfl, rfl, rfl, rfl, by norm_num, by norm_num, by norm_num⟩))
    | 2, hi => simp at hi; subst hi; exact Or.inr (Or.inr (Or.inr ⟨1, 5 / 2, 7 / 2, 1, 0, rfl, rfl, rfl, rfl, by norm_num, by norm_num, by norm_num⟩))
    | 3, hi => simp at hi; subst hi; exact Or.inr (Or.inl ⟨⟨7 / 2, rfl, by norm_num⟩, rfl⟩)
  obtain ⟨v, v', h1, h2, h3, _⟩ := C199_double ([1, 2, 3, 4] : List ℚ) [1 / 10, 1 / 2, 3 / 10, 7 / 10] (by simp; norm_num) (by simp) (by simp)
    ([1 / 2, 5 / 2, 7 / 2], [0, 1, 0]) (by refine ⟨by simp, rfl, by simp; norm_num, by simp⟩) 1 (by simp) 1 4 rfl rfl (11 / 8) 8 hA (by norm_num) (by norm_num)
    (by norm_num) rfl (1 / 10) (7 / 10) 1 (by norm_num [abs_of_pos]) (by norm_num) (.node (.leaf 0) (.node (.leaf 1) (.leaf 2))) (.node (.leaf 0) (.node (.leaf 1) (.leaf 2)))
    (by unfold SumTree.Covers; decide) (by unfold SumTree.Covers; decide)
  exact ⟨v, v', h1, h2, by simpa using h3⟩

/-- A band tabulated at the spectrum's wavelengths, in doubles. -/
example : ∃ v v', resampleBand ([1, 2, 3] : List ℚ) [1 / 10, 1 / 2, 3 / 10] ([1, 2], [1 / 3, 1]) = .ok (some v) ∧
    resampleBandR (Rounding.fl 53) (.node (.leaf 1) (.leaf 0)) (.node (.leaf 0) (.leaf 1)) ([1, 2, 3] : List ℚ) [1 / 10, 1 / 2, 3 / 10] ([1, 2], [1 / 3, 1]) = .ok (some v') ∧
      |v' - v| ≤ (1 + Rounding.unit 53) * (4 * ((1 + Rounding.unit 53) ^ (3 + 10) - 1) * 1) + Rounding.unit 53 * 1 :=
  C199_tabulated (rounds_fl 53) (Rounding.unit_pos 53).le [1, 2, 3] [1 / 10, 1 / 2, 3 / 10] (by norm_num) (by simp) ([1, 2], [1 / 3, 1])
    (by refine ⟨by simp, rfl, by simp, by norm_num⟩) ⟨2, by simp, 1, Or.inr (Or.inr (Or.inl ⟨2, rfl, rfl, rfl⟩)), by norm_num⟩
    (by norm_num) rfl 1 (by norm_num [abs_of_pos]) _ _ (by unfold SumTree.Covers; decide) (by unfold SumTree.Covers; decide) (by norm_num [Rounding.unit])

/-! ### C200 -/

/-- Specification: in double precision, resampling any double spectrum with any double band that overlaps it gives values between the smallest and the largest
spectral value, up to one part in a thousand of the largest magnitude. -/
def StaysInRange : Prop :=
  ∀ (wl data : List ℚ) (rsr : List ℚ × List ℚ) (lo hi : ℚ), wl.Pairwise (· < ·) → 2 ≤ wl.length → data.length = wl.length → GoodResponse rsr → Overlaps wl rsr →
    (∀ l ∈ [wl, data, rsr.1, rsr.2], ∀ x ∈ l, Rounding.fl 53 x = x) → (∀ d ∈ data, lo ≤ d ∧ d ≤ hi) →
    ∀ t t' : SumTree, t.Covers (wl.length - 1) → t'.Covers (wl.length - 1) →
      ∃ v, resampleBandR (Rounding.fl 53) t t' wl data rsr = .ok (some v) ∧ lo - max |lo| |hi| / 1000 ≤ v ∧ v ≤ hi + max |lo| |hi| / 1000

/-- C200 fails: a band falling from 0.73 at 0.34 µm to zero at 0.96 µm, seen by a spectrum of reflectances 0 and 1 at the two doubles before 0.96, gives the
reflectance -1: the computed response at the last wavelength is negative. -/
theorem C200_outside_false : ¬ StaysInRange := by
  intro h
  obtain ⟨v, h1, h2, _⟩ := h [4323455642275675 / 2 ^ 52, 8646911284551351 / 2 ^ 53] [0, 1]
    ([6124895493223875 / 2 ^ 54, 1080863910568919 / 2 ^ 50], [1643813863990231 / 2 ^ 51, 0]) 0 1 (by norm_num) (by simp) rfl
    (by refine ⟨by simp, rfl, by norm_num, by norm_num⟩)
    ⟨4323455642275675 / 2 ^ 52, by simp, _, Or.inr (Or.inr (Or.inr ⟨0, _, _, _, _, rfl, rfl, rfl, rfl, by norm_num, by norm_num, rfl⟩)), by norm_num⟩
    (by decide +kernel) (by norm_num) (.leaf 0) (.leaf 0) (by unfold SumTree.Covers; decide) (by unfold SumTree.Covers; decide)
  have e : resampleBandR (Rounding.fl 53) (.leaf 0) (.leaf 0) [4323455642275675 / 2 ^ 52, 8646911284551351 / 2 ^ 53] [0, 1]
    (([6124895493223875 / 2 ^ 54, 1080863910568919 / 2 ^ 50], [1643813863990231 / 2 ^ 51, 0]) : List ℚ × List ℚ) = .ok (some (-1)) := by decide +kernel
  rw [e] at h1
  simp at h1
  subst h1
  norm_num at h2

/-- C200 fails: the response 1.8499999999999999 µm sees is positive but computed as zero, so a spectrum that overlaps the band there only gives no number. -/
theorem C200_nan_false : Overlaps ([8331659310635417 / 2 ^ 52, 2] : List ℚ) ([7475975381435023 / 2 ^ 53, 4165829655317709 / 2 ^ 51], [3332663724254167 / 2 ^ 53, 0]) ∧
    ∀ t : SumTree, t.Covers 1 → resampleBandR (Rounding.fl 53) t t ([8331659310635417 / 2 ^ 52, 2] : List ℚ) [1, 1]
      ([7475975381435023 / 2 ^ 53, 4165829655317709 / 2 ^ 51], [3332663724254167 / 2 ^ 53, 0]) = .ok none := by
  refine ⟨⟨8331659310635417 / 2 ^ 52, by simp, _, Or.inr (Or.inr (Or.inr ⟨0, _, _, _, _, rfl, rfl, rfl, rfl, by norm_num, by norm_num, rfl⟩)), by norm_num⟩, ?_⟩
  intro t ht
  have ht' : t = .leaf 0 := by
    cases t with
    | leaf k =>
      have := ht.mem_iff (a := k)
      simp [SumTree.leaves] at this
      rw [this]
    | node a b =>
      have := covers_length ht
      have ha := a.leaves_pos
      have hb := b.leaves_pos
      simp [SumTree.leaves] at this
      omega
  subst ht'
  decide +kernel

/-- What remains of C200: a band whose seen area is not tiny against twice its peak times the wavelength range. -/
theorem C200_partial {K : Type} [Field K] [LinearOrder K] [IsStrictOrderedRing K] [FloorRing K] (wl data : List K) (hs : wl.Pairwise (· < ·)) (h2 : 2 ≤ wl.length) (hn : wl.length ≤ 1000000)
    (rsr : List K × List K) (hg : GoodResponse rsr) (P : K) (hP : ∀ y ∈ rsr.2, y ≤ P) (a b : K) (hfirst : wl.head? = some a) (hlast : wl.getLast? = some b)
    (W : K) (hA : SeenArea wl rsr W) (hW : 0 < W) (hcond : 2 * P * (b - a) ≤ 1000000 * W)
    (hd : data.length = wl.length) (lo hi : K) (hr : ∀ d ∈ data, lo ≤ d ∧ d ≤ hi)
    (t t' : SumTree) (ht : t.Covers (wl.length - 1)) (ht' : t'.Covers (wl.length - 1)) :
    ∃ v, resampleBandR (Rounding.fl 53) t t' wl data rsr = .ok (some v) ∧ lo - max |lo| |hi| / 1000 ≤ v ∧ v ≤ hi + max |lo| |hi| / 1000 := by
  have hn' : (wl.length : K) ≤ 1000000 := by exact_mod_cast hn
  have hn0 : (0 : K) ≤ wl.length := Nat.cast_nonneg _
  obtain ⟨_, v, _, h1, _, h3, h4⟩ := C199_double wl data hs h2 hn rsr hg P hP a b hfirst hlast W 1000000 hA hW hcond
    (by have : ((wl.length : K) + 11) * 1000000 ≤ 1000011 * 1000000 := mul_le_mul_of_nonneg_right (by linarith) (by norm_num)
        refine this.trans (by norm_num)) hd lo hi (max |lo| |hi|)
    (fun d hm => abs_le_max_abs_abs (hr d hm).1 (hr d hm).2) hr t t' ht ht'
  have hM0 : (0 : K) ≤ max |lo| |hi| := (abs_nonneg _).trans (le_max_left _ _)
  have key : 5 * ((wl.length : K) + 11) * 1000000 * max |lo| |hi| / 2 ^ 53 ≤ max |lo| |hi| / 1000 := by
    rw [div_le_div_iff₀ (by positivity) (by norm_num)]
    have : 5 * ((wl.length : K) + 11) * 1000000 * max |lo| |hi| * 1000 ≤ 5 * 1000011 * 1000000 * max |lo| |hi| * 1000 := by
      have : ((wl.length : K) + 11) * max |lo| |hi| ≤ 1000011 * max |lo| |hi| := mul_le_mul_of_nonneg_right (by linarith) hM0
      linarith
    have h2 : 5 * 1000011 * 1000000 * max |lo| |hi| * 1000 ≤ max |lo| |hi| * (2 : K) ^ 53 := by
      have : (5 * 1000011 * 1000000 * 1000 : K) ≤ 2 ^ 53 := by norm_num
      have := mul_le_mul_of_nonneg_right this hM0
      linarith
    exact this.trans h2
  exact ⟨v, h1, by linarith, by linarith⟩

end Verif.Spectrum
