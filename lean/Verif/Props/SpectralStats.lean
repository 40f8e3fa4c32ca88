import Verif.Lemmas.Spectral
import Mathlib.Tactic.NormNum

/-! C52-C54: spectral mean, covariance and RX. -/

set_option linter.unusedSectionVars false

namespace Verif.Spectral
open Verif ImageUtils
open Finset (range)
open scoped BigOperators

section
variable {K : Type} [Field K] [LinearOrder K] [IsStrictOrderedRing K]

/-! ### C52 -/

/-- Specification: `v` is the mean of the values `f k`, `k` in `s`. -/
def IsMean (s : Finset Nat) (f : Nat → K) (v : K) : Prop := 0 < s.card ∧ v * s.card = ∑ k ∈ s, f k

/-- Specification: the samples a mask leaves (zero marks an unmasked sample). -/
def kept (n : Nat) (mask : Option (A1 K)) : Finset Nat :=
  match mask with
  | none => range n
  | some m => (range n).filter (fun k => m.px k = 0)

/-- Specification: a mask of the image's length, or none. -/
def MaskFits (img : A2 K) : Option (A1 K) → Prop
  | none => True
  | some m => m.n = img.ny

theorem mean_eq (img : A2 K) (mask : Option (A1 K)) (hm : MaskFits img mask) :
    mean img mask = .ok ⟨img.nx, fun b => fdiv (∑ k ∈ kept img.ny mask, img.px k b) ((kept img.ny mask).card : K)⟩ := by
  cases mask with
  | none =>
    unfold mean meanNoMask kept
    simp only [Finset.card_range]
  | some m =>
    unfold mean meanMask kept unmasked maskOk
    have : m.n = img.ny := hm
    simp [this]

/-- C52: the spectral mean is, band by band, the mean over the unmasked samples. -/
theorem C52_mean (img : A2 K) (mask : Option (A1 K)) (hm : MaskFits img mask) (hk : 0 < (kept img.ny mask).card) :
    ∃ m, mean img mask = .ok m ∧ m.n = img.nx ∧
      ∀ b, b < img.nx → ∃ v, m.px b = some v ∧ IsMean (kept img.ny mask) (fun k => img.px k b) v := by
  rw [mean_eq img mask hm]
  refine ⟨_, rfl, rfl, ?_⟩
  intro b _
  have hne : ((kept img.ny mask).card : K) ≠ 0 := by exact_mod_cast hk.ne'
  refine ⟨(∑ k ∈ kept img.ny mask, img.px k b) / ((kept img.ny mask).card : K), ?_, hk, by rw [div_mul_cancel₀ _ hne]⟩
  simp only [fdiv, if_neg hne]

/-- C52: so values of masked samples do not matter. -/
theorem C52_masked_irrelevant (img img' : A2 K) (m : A1 K) (hm : m.n = img.ny) (hy : img'.ny = img.ny) (hx : img'.nx = img.nx)
    (h : ∀ k b, k < img.ny → m.px k = 0 → img'.px k b = img.px k b) : mean img' (some m) = mean img (some m) := by
  rw [mean_eq img (some m) hm, mean_eq img' (some m) (by rw [MaskFits, hy]; exact hm), hy, hx]
  congr 2
  funext b
  congr 1
  refine Finset.sum_congr rfl (fun k hk => ?_)
  simp only [kept, Finset.mem_filter, Finset.mem_range] at hk
  exact h k b hk.1 hk.2

/-- C52: a mean over no sample is reported as masked or NaN, never as a number. -/
theorem C52_nothing_left (img : A2 K) (mask : Option (A1 K)) (hm : MaskFits img mask) (hk : (kept img.ny mask).card = 0) :
    ∃ m, mean img mask = .ok m ∧ ∀ b, m.px b = none := by
  rw [mean_eq img mask hm]
  exact ⟨_, rfl, fun b => by simp [fdiv, hk]⟩

/-- C52: demeaning subtracts one value per band, and leaves mean zero over the unmasked samples (over all
samples without mask). -/
theorem C52_demean (img : A2 K) (mask : Option (A1 K)) (hm : MaskFits img mask) (hk : 0 < (kept img.ny mask).card) :
    ∃ (d : A2 (Option K)) (e : Nat → Nat → K), demean img mask = .ok d ∧ d.ny = img.ny ∧ d.nx = img.nx ∧
      (∀ k b, d.px k b = some (e k b)) ∧ (∀ b, IsMean (kept img.ny mask) (fun k => e k b) 0) ∧
      (∀ k l b, e k b - e l b = img.px k b - img.px l b) := by
  unfold demean
  rw [mean_eq img mask hm]
  have hne : ((kept img.ny mask).card : K) ≠ 0 := by exact_mod_cast hk.ne'
  refine ⟨_, fun k b => img.px k b - avg img (kept img.ny mask) b, rfl, rfl, rfl, ?_, ?_, ?_⟩
  · intro k b
    simp only [fdiv, if_neg hne, Option.map_some]
    rfl
  · intro b
    refine ⟨hk, ?_⟩
    rw [zero_mul, avg_sum_zero img _ hk b]
  · intro k l b
    ring

/-- C52, boundary: a mask of another length is rejected. -/
theorem C52_wrong_mask (img : A2 K) (m : A1 K) (h0 : img.nx ≠ 0) (h : m.n ≠ img.ny) : mean img (some m) = .error .valueError := by
  unfold mean maskOk
  simp [h0, h]

/-- Three samples of two bands with the second masked: the kept samples are 0 and 2. -/
example : (kept 3 (some (⟨3, fun k => if k = 1 then 1 else 0⟩ : A1 ℚ))).card = 2 ∧
    IsMean (kept 3 (some (⟨3, fun k => if k = 1 then 1 else 0⟩ : A1 ℚ))) (fun k => (k : ℚ)) 1 := by
  have e : kept 3 (some (⟨3, fun k => if k = 1 then 1 else 0⟩ : A1 ℚ)) = {0, 2} := by
    ext k
    simp only [kept, Finset.mem_filter, Finset.mem_range, Finset.mem_insert, Finset.mem_singleton]
    constructor
    · rintro ⟨h1, h2⟩
      by_contra hn
      have : k = 1 := by omega
      simp [this] at h2
    · rintro (rfl | rfl) <;> simp
  rw [e]
  refine ⟨rfl, by simp, by norm_num⟩

/-! ### C53 -/

theorem cov_eq (img : A2 K) (mask : Option (A1 K)) (hm : MaskFits img mask) :
    cov img mask = .ok (covOver img (kept img.ny mask)) := by
  cases mask with
  | none => rfl
  | some m =>
    unfold cov kept maskOk
    have : m.n = img.ny := hm
    simp [this]

/-- Specification: `c` is the sample covariance matrix of the bands over the samples in `s`. -/
def IsCovariance (img : A2 K) (s : Finset Nat) (c : Nat → Nat → K) : Prop :=
  ∃ mu : Nat → K, (∀ b, b < img.nx → IsMean s (fun k => img.px k b) (mu b)) ∧
    ∀ b b', b < img.nx → b' < img.nx →
      c b b' * ((s.card : K) - 1) = ∑ k ∈ s, (img.px k b - mu b) * (img.px k b' - mu b')

/-- C53: for at least two (unmasked) samples and a number of bands other than one, the result is the
covariance matrix; it is symmetric and positive semidefinite. -/
theorem C53_covariance (img : A2 K) (mask : Option (A1 K)) (hm : MaskFits img mask) (hk : 2 ≤ (kept img.ny mask).card)
    (h1 : img.nx ≠ 1) :
    ∃ c : Nat → Nat → K, cov img mask = .ok (.mat ⟨img.nx, img.nx, fun i j => some (c i j)⟩) ∧
      IsCovariance img (kept img.ny mask) c ∧ (∀ i j, c i j = c j i) ∧
      ∀ v : Nat → K, 0 ≤ ∑ i ∈ range img.nx, ∑ j ∈ range img.nx, v i * c i j * v j := by
  refine ⟨cv img (kept img.ny mask), ?_, ?_, cv_symm img _, cv_psd img _ hk img.nx⟩
  · rw [cov_eq img mask hm]
    unfold covOver
    rw [if_neg h1]
    congr 3
    funext b c
    exact covEntry_eq img _ hk b c
  · refine ⟨avg img (kept img.ny mask), ?_, ?_⟩
    · intro b _
      have hne : ((kept img.ny mask).card : K) ≠ 0 := by exact_mod_cast (by omega : (kept img.ny mask).card ≠ 0)
      exact ⟨by omega, by rw [avg, div_mul_cancel₀ _ hne]⟩
    · intro b c _ _
      rw [cv, div_mul_cancel₀ _ (card_sub_one_pos _ hk).ne']

/-- C53 (partial): for one band the result is the variance, but as a zero-dimensional array, not as a
one-by-one matrix. -/
theorem C53_one_band_partial (img : A2 K) (mask : Option (A1 K)) (hm : MaskFits img mask) (hk : 2 ≤ (kept img.ny mask).card)
    (h1 : img.nx = 1) :
    ∃ v : K, cov img mask = .ok (.scalar (some v)) ∧ IsCovariance img (kept img.ny mask) (fun _ _ => v) ∧ 0 ≤ v := by
  refine ⟨cv img (kept img.ny mask) 0 0, ?_, ?_, ?_⟩
  · rw [cov_eq img mask hm]
    unfold covOver
    rw [if_pos h1, covEntry_eq img _ hk 0 0]
  · refine ⟨avg img (kept img.ny mask), ?_, ?_⟩
    · intro b _
      have hne : ((kept img.ny mask).card : K) ≠ 0 := by exact_mod_cast (by omega : (kept img.ny mask).card ≠ 0)
      exact ⟨by omega, by rw [avg, div_mul_cancel₀ _ hne]⟩
    · intro b c hb hc
      obtain rfl : b = 0 := by omega
      obtain rfl : c = 0 := by omega
      rw [cv, div_mul_cancel₀ _ (card_sub_one_pos _ hk).ne']
  · have := cv_psd img _ hk 1 (fun _ => 1)
    simpa using this

/-- C53 fails for one band: the result is never a matrix. -/
theorem C53_one_band_false (img : A2 K) (mask : Option (A1 K)) (hm : MaskFits img mask) (h1 : img.nx = 1) (a : A2 (Option K)) :
    cov img mask ≠ .ok (.mat a) := by
  rw [cov_eq img mask hm]
  unfold covOver
  rw [if_pos h1]
  simp

/-- C53: under an affine change of bands `x -> A x + t` (in particular adding a constant spectrum, or a
linear change of bands), the covariance becomes `A C A^T`. -/
theorem C53_affine (img img' : A2 K) (mask : Option (A1 K)) (a : Nat → Nat → K) (t : Nat → K) (c c' : A2 (Option K))
    (hm : MaskFits img mask) (hk : 2 ≤ (kept img.ny mask).card) (hy : img'.ny = img.ny)
    (hp : ∀ k b, k < img.ny → b < img'.nx → img'.px k b = ∑ i ∈ range img.nx, a b i * img.px k i + t b)
    (hc : cov img mask = .ok (.mat c)) (hc' : cov img' mask = .ok (.mat c')) :
    ∃ (e e' : Nat → Nat → K), (∀ i j, c.px i j = some (e i j)) ∧ (∀ i j, c'.px i j = some (e' i j)) ∧
      ∀ b b', b < img'.nx → b' < img'.nx →
        e' b b' = ∑ i ∈ range img.nx, ∑ j ∈ range img.nx, a b i * e i j * a b' j := by
  have hm' : MaskFits img' mask := by
    cases mask with
    | none => trivial
    | some m => rw [MaskFits] at hm ⊢; rw [hy]; exact hm
  rw [cov_eq img mask hm] at hc
  rw [cov_eq img' mask hm', hy] at hc'
  unfold covOver at hc hc'
  split at hc
  · simp at hc
  · split at hc'
    · simp at hc'
    · simp only [Except.ok.injEq, CovAns.mat.injEq] at hc hc'
      subst hc hc'
      refine ⟨cv img (kept img.ny mask), cv img' (kept img.ny mask), fun i j => covEntry_eq _ _ hk _ _,
        fun i j => covEntry_eq _ _ hk _ _, ?_⟩
      intro b b' hb hb'
      have hmem : ∀ k ∈ kept img.ny mask, k < img.ny := by
        intro k hk'
        cases mask with
        | none => simpa [kept] using hk'
        | some m => simp only [kept, Finset.mem_filter, Finset.mem_range] at hk'; exact hk'.1
      exact cv_affine img img' _ (by omega) img.nx a t b b' (fun k hk' => hp k b (hmem k hk') hb)
        (fun k hk' => hp k b' (hmem k hk') hb')

/-- C53: adding the same spectrum to every sample leaves the covariance unchanged. -/
theorem C53_shift (img img' : A2 K) (mask : Option (A1 K)) (t : Nat → K) (hm : MaskFits img mask)
    (hk : 2 ≤ (kept img.ny mask).card) (hy : img'.ny = img.ny) (hx : img'.nx = img.nx)
    (hp : ∀ k b, k < img.ny → img'.px k b = img.px k b + t b) : cov img' mask = cov img mask := by
  have hm' : MaskFits img' mask := by
    cases mask with
    | none => trivial
    | some m => rw [MaskFits] at hm ⊢; rw [hy]; exact hm
  have hmem : ∀ k ∈ kept img.ny mask, k < img.ny := by
    intro k hk'
    cases mask with
    | none => simpa [kept] using hk'
    | some m => simp only [kept, Finset.mem_filter, Finset.mem_range] at hk'; exact hk'.1
  have hne : ((kept img.ny mask).card : K) ≠ 0 := by exact_mod_cast (by omega : (kept img.ny mask).card ≠ 0)
  have havg : ∀ b, avg img' (kept img.ny mask) b = avg img (kept img.ny mask) b + t b := by
    intro b
    unfold avg
    rw [Finset.sum_congr rfl (fun k hk' => hp k b (hmem k hk')), Finset.sum_add_distrib, Finset.sum_const, nsmul_eq_mul,
      add_div, mul_div_cancel_left₀ _ hne]
  rw [cov_eq img mask hm, cov_eq img' mask hm', hy]
  have key : ∀ b c, covEntry img' (kept img.ny mask) b c = covEntry img (kept img.ny mask) b c := by
    intro b c
    rw [covEntry_eq _ _ hk, covEntry_eq _ _ hk]
    unfold cv
    congr 2
    refine Finset.sum_congr rfl (fun k hk' => ?_)
    rw [havg, havg, hp k b (hmem k hk'), hp k c (hmem k hk')]
    ring
  unfold covOver
  rw [hx, key 0 0]
  simp only [key]

/-- C53, boundary: fewer than two samples give no finite covariance. -/
theorem C53_too_few (img : A2 K) (mask : Option (A1 K)) (hm : MaskFits img mask) (hk : (kept img.ny mask).card ≤ 1) :
    cov img mask = .ok (if img.nx = 1 then .scalar none else .mat ⟨img.nx, img.nx, fun _ _ => none⟩) := by
  rw [cov_eq img mask hm]
  unfold covOver
  simp only [covEntry_none img _ hk]

/-- A three-sample, two-band image meets the hypotheses. -/
example : 2 ≤ (kept 3 (none : Option (A1 ℚ))).card ∧ (⟨3, 2, fun k b => (k * (b + 1) : ℚ)⟩ : A2 ℚ).nx ≠ 1 := by
  refine ⟨by simp [kept], by decide⟩

/-! ### C54 -/

/-- Specification: `u^T M v`. -/
def bilin (n : Nat) (m : Nat → Nat → K) (u v : Nat → K) : K := ∑ i ∈ range n, ∑ j ∈ range n, u i * m i j * v j

/-- C54: with given statistics the score of sample `x` is `(x - mean)^T Cinv (x - mean)`. -/
theorem C54_score (inv : A2 (Option K) → Py (A2 (Option K))) (img : A2 K) (m : A1 K) (ic : A2 K) (hm : m.n = img.nx)
    (h1 : ic.ny = img.nx) (h2 : ic.nx = img.nx) :
    ∃ r, rx inv img (some m) (some ic) = .ok r ∧ r.n = img.ny ∧
      ∀ k, k < img.ny → r.px k = some (bilin img.nx ic.px (fun b => img.px k b - m.px b) (fun b => img.px k b - m.px b)) := by
  obtain ⟨g, hg, hgn, hgv⟩ := finite1_of (⟨m.n, fun b => some (m.px b)⟩ : A1 (Option K)) (fun i _ => ⟨_, rfl⟩)
  obtain ⟨g2, hg2, _, _, hgv2⟩ := finite2_of (⟨ic.ny, ic.nx, fun i j => some (ic.px i j)⟩ : A2 (Option K)) (fun i j _ _ => ⟨_, rfl⟩)
  have e : rx inv img (some m) (some ic) = .ok ⟨img.ny, fun k => some (rxScore img g g2 k)⟩ := by
    unfold rx meanOrDefault invOrDefault
    simp only [ok_bind, hm, h1, h2, and_self, if_true]
    simp only [hm] at hg
    simp only [h1, h2] at hg2
    rw [hg, hg2]
  refine ⟨_, e, rfl, ?_⟩
  intro k _
  simp only [Option.some.injEq]
  rw [bilin, ← quad_eq, rxScore]
  apply quad_congr
  · intro i j hi hj
    have := hgv2 i j (by simp; omega) (by simp; omega)
    simpa using this.symm
  · intro i hi
    have := hgv i (by simp; omega)
    simp only [Option.some.injEq] at this
    rw [this]
  · intro i hi
    have := hgv i (by simp; omega)
    simp only [Option.some.injEq] at this
    rw [this]

/-- C54: scores are non-negative for a positive semidefinite inverse covariance, and zero at the mean. -/
theorem C54_nonneg (inv : A2 (Option K) → Py (A2 (Option K))) (img : A2 K) (m : A1 K) (ic : A2 K) (hm : m.n = img.nx)
    (h1 : ic.ny = img.nx) (h2 : ic.nx = img.nx) (hpsd : ∀ v : Nat → K, 0 ≤ bilin img.nx ic.px v v) :
    ∃ r, rx inv img (some m) (some ic) = .ok r ∧
      ∀ k, k < img.ny → ∃ v, r.px k = some v ∧ 0 ≤ v ∧ ((∀ b, b < img.nx → img.px k b = m.px b) → v = 0) := by
  obtain ⟨r, hr, _, hv⟩ := C54_score inv img m ic hm h1 h2
  refine ⟨r, hr, ?_⟩
  intro k hk
  refine ⟨_, hv k hk, hpsd _, ?_⟩
  intro hz
  unfold bilin
  apply Finset.sum_eq_zero
  intro i hi
  apply Finset.sum_eq_zero
  intro j _
  rw [Finset.mem_range] at hi
  simp only [hz i hi, sub_self, zero_mul]

/-- Specification of a matrix inverse as `np.linalg.inv` is documented to return it: all entries finite and
`Cinv C = 1`, for every finite `C` it accepts. -/
def InvContract (inv : A2 (Option K) → Py (A2 (Option K))) : Prop :=
  ∀ (n : Nat) (c : Nat → Nat → K) (r : A2 (Option K)), inv ⟨n, n, fun i j => some (c i j)⟩ = .ok r →
    ∃ e : Nat → Nat → K, r.ny = n ∧ r.nx = n ∧ (∀ i j, i < n → j < n → r.px i j = some (e i j)) ∧
      ∀ i j, i < n → j < n → ∑ k ∈ range n, e i k * c k j = if i = j then 1 else 0

/-- C54: with the default statistics the scores are Mahalanobis distances from the sample mean under the
inverse of the sample covariance, and they sum to (number of samples - 1) * (number of bands). -/
theorem C54_total (inv : A2 (Option K) → Py (A2 (Option K))) (hinv : InvContract inv) (img : A2 K) (hn : 2 ≤ img.ny)
    (r : A1 (Option K)) (hr : rx inv img none none = .ok r) :
    ∃ s : Nat → K, r.n = img.ny ∧ (∀ k, k < img.ny → r.px k = some (s k)) ∧
      ∑ k ∈ range img.ny, s k = ((img.ny : K) - 1) * img.nx := by
  have hk : 2 ≤ (kept img.ny (none : Option (A1 K))).card := by simpa [kept] using hn
  have hkr : kept img.ny (none : Option (A1 K)) = range img.ny := rfl
  by_cases h1 : img.nx = 1
  · exfalso
    unfold rx meanOrDefault invOrDefault at hr
    rw [mean_eq img none trivial, cov_eq img none trivial] at hr
    unfold covOver at hr
    rw [if_pos h1] at hr
    simp only [ok_bind] at hr
    simp [bind, Except.bind] at hr
  · have hcov : cov img none = .ok (.mat ⟨img.nx, img.nx, fun i j => some (cv img (range img.ny) i j)⟩) := by
      rw [cov_eq img none trivial]
      unfold covOver
      rw [if_neg h1]
      congr 3
      funext b c
      exact covEntry_eq img _ hk b c
    unfold rx meanOrDefault invOrDefault at hr
    rw [mean_eq img none trivial, hcov] at hr
    simp only [ok_bind] at hr
    cases hi : inv ⟨img.nx, img.nx, fun i j => some (cv img (range img.ny) i j)⟩ with
    | error e => rw [hi] at hr; simp [bind, Except.bind] at hr
    | ok ic =>
      rw [hi] at hr
      obtain ⟨e, e1, e2, e3, e4⟩ := hinv img.nx _ ic hi
      obtain ⟨g2, hg2, g2y, g2x, hgv2⟩ := finite2_of ic (fun i j hi hj => ⟨_, e3 i j (by omega) (by omega)⟩)
      have hne : ((kept img.ny (none : Option (A1 K))).card : K) ≠ 0 := by exact_mod_cast (by omega : (kept img.ny (none : Option (A1 K))).card ≠ 0)
      obtain ⟨g, hg, hgn, hgv⟩ := finite1_of
        (⟨img.nx, fun b => fdiv (∑ k ∈ kept img.ny (none : Option (A1 K)), img.px k b) ((kept img.ny (none : Option (A1 K))).card : K)⟩ : A1 (Option K))
        (fun i _ => ⟨_, by simp only [fdiv, if_neg hne]; rfl⟩)
      simp only [ok_bind, e1, e2, and_self, if_true] at hr
      rw [hg, hg2] at hr
      simp only [Except.ok.injEq] at hr
      subst hr
      refine ⟨fun k => rxScore img g g2 k, rfl, fun k _ => rfl, ?_⟩
      have hgavg : ∀ b, b < img.nx → g.px b = avg img (range img.ny) b := by
        intro b hb
        have := hgv b hb
        simp only [fdiv, if_neg hne, Option.some.injEq] at this
        rw [← this, avg, hkr]
      have hge : ∀ i j, i < img.nx → j < img.nx → g2.px i j = e i j := by
        intro i j hi hj
        have := hgv2 i j (by omega) (by omega)
        rw [e3 i j hi hj] at this
        simpa using this.symm
      have hs : ∀ k ∈ range img.ny, rxScore img g g2 k = ∑ i ∈ range img.nx, ∑ j ∈ range img.nx,
          e i j * ((img.px k i - avg img (range img.ny) i) * (img.px k j - avg img (range img.ny) j)) := by
        intro k _
        rw [rxScore, quad_eq]
        refine Finset.sum_congr rfl (fun i hi => Finset.sum_congr rfl (fun j hj => ?_))
        rw [Finset.mem_range] at hi hj
        rw [hge i j hi hj, hgavg i hi, hgavg j hj]; ring
      rw [Finset.sum_congr rfl hs, Finset.sum_comm]
      have hin : ∀ i ∈ range img.nx, ∑ k ∈ range img.ny, ∑ j ∈ range img.nx,
          e i j * ((img.px k i - avg img (range img.ny) i) * (img.px k j - avg img (range img.ny) j)) = (img.ny : K) - 1 := by
        intro i hi
        rw [Finset.mem_range] at hi
        rw [Finset.sum_comm]
        have hcv : ∀ j ∈ range img.nx, ∑ k ∈ range img.ny,
            e i j * ((img.px k i - avg img (range img.ny) i) * (img.px k j - avg img (range img.ny) j)) =
              ((img.ny : K) - 1) * (e i j * cv img (range img.ny) j i) := by
          intro j _
          rw [← Finset.mul_sum, cv_symm, cv, Finset.card_range]
          have : (img.ny : K) - 1 ≠ 0 := by
            have : (2 : K) ≤ img.ny := by exact_mod_cast hn
            intro hc; linarith
          field_simp
        rw [Finset.sum_congr rfl hcv, ← Finset.mul_sum, e4 i i hi hi, if_pos rfl, mul_one]
      rw [Finset.sum_congr rfl hin, Finset.sum_const, Finset.card_range, nsmul_eq_mul]
      ring

/-- C54 fails for one band: the default covariance is not a matrix, so its inversion raises LinAlgError. -/
theorem C54_one_band_false (inv : A2 (Option K) → Py (A2 (Option K))) (img : A2 K) (h1 : img.nx = 1) :
    rx inv img none none = .error .linAlgError := by
  unfold rx meanOrDefault invOrDefault
  rw [mean_eq img none trivial, cov_eq img none trivial]
  unfold covOver
  rw [if_pos h1]
  rfl

/-- A two-by-two inverse by Cramer's rule, to show the contract can be met. -/
def inv22 (a : A2 (Option ℚ)) : Py (A2 (Option ℚ)) :=
  match a.px 0 0, a.px 0 1, a.px 1 0, a.px 1 1 with
  | some p, some q, some r, some s =>
    if a.ny = 2 ∧ p * s - q * r ≠ 0 then
      .ok ⟨2, 2, fun i j => some ((if i = 0 then (if j = 0 then s else -q) else (if j = 0 then -r else p)) / (p * s - q * r))⟩
    else .error .linAlgError
  | _, _, _, _ => .error .linAlgError

/-- `inv22` meets the contract, and RX with default statistics succeeds with it on the three samples
(0,0), (1,0), (0,1). -/
example : InvContract inv22 ∧ ∃ r, rx inv22 ⟨3, 2, fun k b => if k = b + 1 then 1 else 0⟩ none none = .ok r := by
  constructor
  · intro n c r h
    unfold inv22 at h
    simp only [] at h
    split at h
    · rename_i hd
      obtain ⟨hn, hd⟩ := hd
      simp only [Except.ok.injEq] at h
      subst hn
      subst h
      refine ⟨fun i j => (if i = 0 then (if j = 0 then c 1 1 else -c 0 1) else (if j = 0 then -c 1 0 else c 0 0)) /
        (c 0 0 * c 1 1 - c 0 1 * c 1 0), rfl, rfl, fun i j _ _ => rfl, ?_⟩
      intro i j hi hj
      rw [Finset.sum_range_succ, Finset.sum_range_one]
      have hi' : i = 0 ∨ i = 1 := by omega
      have hj' : j = 0 ∨ j = 1 := by omega
      rcases hi' with rfl | rfl <;> rcases hj' with rfl | rfl <;> simp [div_mul_eq_mul_div, ← add_div] <;>
        first | (rw [div_eq_one_iff_eq hd]; ring) | (left; ring)
    · simp at h
  · have hc : cov (⟨3, 2, fun k b => if k = b + 1 then (1 : ℚ) else 0⟩ : A2 ℚ) none =
        .ok (.mat ⟨2, 2, fun i j => some (cv (⟨3, 2, fun k b => if k = b + 1 then (1 : ℚ) else 0⟩ : A2 ℚ) (range 3) i j)⟩) := by
      rw [cov_eq _ none trivial]
      unfold covOver
      rw [if_neg (by decide)]
      congr 3
      funext b c
      exact covEntry_eq _ _ (by simp [kept]) b c
    have hd : cv (⟨3, 2, fun k b => if k = b + 1 then (1 : ℚ) else 0⟩ : A2 ℚ) (range 3) 0 0 *
        cv (⟨3, 2, fun k b => if k = b + 1 then (1 : ℚ) else 0⟩ : A2 ℚ) (range 3) 1 1 -
        cv (⟨3, 2, fun k b => if k = b + 1 then (1 : ℚ) else 0⟩ : A2 ℚ) (range 3) 0 1 *
        cv (⟨3, 2, fun k b => if k = b + 1 then (1 : ℚ) else 0⟩ : A2 ℚ) (range 3) 1 0 ≠ 0 := by
      norm_num [cv, avg, Finset.sum_range_succ]
    unfold rx meanOrDefault invOrDefault
    rw [mean_eq _ none trivial, hc]
    simp only [ok_bind, inv22]
    rw [if_pos ⟨trivial, hd⟩]
    simp only [ok_bind, and_self, if_true]
    split <;> exact ⟨_, rfl⟩

end
end Verif.Spectral
