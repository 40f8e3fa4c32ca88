import Verif.Props.SpectralStats

/-! C55-C58: ACE, SAM, agreement of the one- and two-dimensional routines, covariance equalisation. -/

set_option linter.unusedSectionVars false

namespace Verif.Spectral
open Verif ImageUtils
open Finset (range)
open scoped BigOperators

section
variable {K : Type} [Field K] [LinearOrder K] [IsStrictOrderedRing K]

/-! ### C55 -/

/-- Specification: a symmetric positive definite `n` by `n` matrix. -/
def PosDef (n : Nat) (m : Nat → Nat → K) : Prop :=
  (∀ i j, i < n → j < n → m i j = m j i) ∧ ∀ v : Nat → K, (∃ i, i < n ∧ v i ≠ 0) → 0 < bilin n m v v

theorem bilin_zero (n : Nat) (m : Nat → Nat → K) (u v : Nat → K) (h : ∀ i, i < n → v i = 0) : bilin n m u v = 0 := by
  unfold bilin
  apply Finset.sum_eq_zero
  intro i _
  apply Finset.sum_eq_zero
  intro j hj
  rw [Finset.mem_range] at hj
  rw [h j hj, mul_zero]

theorem PosDef.nonneg {n : Nat} {m : Nat → Nat → K} (h : PosDef n m) (v : Nat → K) : 0 ≤ bilin n m v v := by
  by_cases hv : ∃ i, i < n ∧ v i ≠ 0
  · exact (h.2 v hv).le
  · push Not at hv
    rw [bilin_zero n m v v hv]

/-- C55: with a positive definite inverse covariance, ACE scores of non-zero demeaned samples against a
non-zero demeaned target are in [0, 1]. -/
theorem C55_range (img : A2 K) (t : A1 K) (ic : A2 K) (ht : t.n = img.nx) (h1 : ic.ny = img.nx) (h2 : ic.nx = img.nx)
    (hpd : PosDef img.nx ic.px) (htnz : ∃ b, b < img.nx ∧ t.px b ≠ 0) :
    ∃ r, aceDemeaned img t ic = .ok r ∧ r.n = img.ny ∧
      ∀ k, k < img.ny → ((∃ b, b < img.nx ∧ img.px k b ≠ 0) → ∃ v, r.px k = some v ∧ 0 ≤ v ∧ v ≤ 1) ∧
        ((∀ b, b < img.nx → img.px k b = 0) → r.px k = none) := by
  refine ⟨_, by unfold aceDemeaned; rw [if_pos ⟨ht, h1, h2⟩], rfl, ?_⟩
  intro k _
  have htt : 0 < quad img.nx ic.px t.px t.px := by rw [quad_eq]; exact hpd.2 _ htnz
  constructor
  · intro hx
    have hxx : 0 < quad img.nx ic.px (fun b => img.px k b) (fun b => img.px k b) := by rw [quad_eq]; exact hpd.2 _ hx
    have hcs := quad_cauchy img.nx ic.px hpd.1 (fun v => by rw [quad_eq]; exact hpd.nonneg v) t.px (fun b => img.px k b) htt
    have hpos := mul_pos htt hxx
    refine ⟨quad img.nx ic.px t.px (fun b => img.px k b) ^ 2 /
      (quad img.nx ic.px t.px t.px * quad img.nx ic.px (fun b => img.px k b) (fun b => img.px k b)), ?_, ?_, ?_⟩
    · simp only [aceScore, fdiv, if_neg hpos.ne']
    · exact div_nonneg (sq_nonneg _) hpos.le
    · rw [div_le_one hpos]; exact hcs
  · intro hz
    have : quad img.nx ic.px (fun b => img.px k b) (fun b => img.px k b) = 0 := by
      rw [quad_eq]; exact bilin_zero _ _ _ _ hz
    simp only [aceScore, fdiv, this, mul_zero, if_true]

/-- C55: the score is 1 for every non-zero multiple of the target. -/
theorem C55_target_one (img : A2 K) (t : A1 K) (ic : A2 K) (ht : t.n = img.nx) (h1 : ic.ny = img.nx) (h2 : ic.nx = img.nx)
    (hpd : PosDef img.nx ic.px) (htnz : ∃ b, b < img.nx ∧ t.px b ≠ 0) :
    ∃ r, aceDemeaned img t ic = .ok r ∧
      ∀ k, k < img.ny → ∀ c : K, c ≠ 0 → (∀ b, b < img.nx → img.px k b = c * t.px b) → r.px k = some 1 := by
  refine ⟨_, by unfold aceDemeaned; rw [if_pos ⟨ht, h1, h2⟩], ?_⟩
  intro k _ c hc hx
  have htt : 0 < quad img.nx ic.px t.px t.px := by rw [quad_eq]; exact hpd.2 _ htnz
  have e1 : quad img.nx ic.px t.px (fun b => img.px k b) = c * quad img.nx ic.px t.px t.px := by
    rw [← quad_smul_right]
    exact quad_congr _ _ _ _ _ _ _ (fun _ _ _ _ => rfl) (fun _ _ => rfl) hx
  have e2 : quad img.nx ic.px (fun b => img.px k b) (fun b => img.px k b) = c * (c * quad img.nx ic.px t.px t.px) := by
    rw [← quad_smul_right, ← quad_smul_left]
    exact quad_congr _ _ _ _ _ _ _ (fun _ _ _ _ => rfl) hx hx
  have hne : quad img.nx ic.px t.px t.px * (c * (c * quad img.nx ic.px t.px t.px)) ≠ 0 := by
    simp [hc, htt.ne']
  simp only [aceScore, e1, e2, fdiv, if_neg hne]
  congr 1
  rw [div_eq_one_iff_eq hne]
  ring

/-- C55: rescaling the demeaned target by a non-zero factor changes no score, whatever the matrix. -/
theorem C55_target_scale (img : A2 K) (t t' : A1 K) (ic : A2 K) (c : K) (hc : c ≠ 0) (hn : t'.n = t.n)
    (h : ∀ b, b < img.nx → t'.px b = c * t.px b) : aceDemeaned img t' ic = aceDemeaned img t ic := by
  unfold aceDemeaned
  rw [hn]
  congr 3
  funext k
  unfold aceScore
  have e1 : quad img.nx ic.px t'.px (fun b => img.px k b) = c * quad img.nx ic.px t.px (fun b => img.px k b) := by
    rw [← quad_smul_left]
    exact quad_congr _ _ _ _ _ _ _ (fun _ _ _ _ => rfl) h (fun _ _ => rfl)
  have e2 : quad img.nx ic.px t'.px t'.px = c * (c * quad img.nx ic.px t.px t.px) := by
    rw [← quad_smul_right, ← quad_smul_left]
    exact quad_congr _ _ _ _ _ _ _ (fun _ _ _ _ => rfl) h h
  rw [e1, e2]
  unfold fdiv
  by_cases hz : quad img.nx ic.px t.px t.px * quad img.nx ic.px (fun b => img.px k b) (fun b => img.px k b) = 0
  · rw [if_pos hz, if_pos]
    rw [show c * (c * quad img.nx ic.px t.px t.px) * quad img.nx ic.px (fun b => img.px k b) (fun b => img.px k b) =
      c * c * (quad img.nx ic.px t.px t.px * quad img.nx ic.px (fun b => img.px k b) (fun b => img.px k b)) by ring, hz, mul_zero]
  · have hz' : c * (c * quad img.nx ic.px t.px t.px) * quad img.nx ic.px (fun b => img.px k b) (fun b => img.px k b) ≠ 0 := by
      rw [show c * (c * quad img.nx ic.px t.px t.px) * quad img.nx ic.px (fun b => img.px k b) (fun b => img.px k b) =
        c * c * (quad img.nx ic.px t.px t.px * quad img.nx ic.px (fun b => img.px k b) (fun b => img.px k b)) by ring]
      exact mul_ne_zero (mul_ne_zero hc hc) hz
    rw [if_neg hz, if_neg hz']
    congr 1
    rw [div_eq_div_iff hz' hz]
    ring

/-- C55: rescaling each demeaned sample by its own non-zero factor changes no score, whatever the matrix. -/
theorem C55_sample_scale (img img' : A2 K) (t : A1 K) (ic : A2 K) (c : Nat → K) (hc : ∀ k, c k ≠ 0)
    (hy : img'.ny = img.ny) (hx : img'.nx = img.nx) (h : ∀ k b, b < img.nx → img'.px k b = c k * img.px k b) :
    aceDemeaned img' t ic = aceDemeaned img t ic := by
  unfold aceDemeaned
  rw [hy, hx]
  congr 3
  funext k
  unfold aceScore
  have e1 : quad img.nx ic.px t.px (fun b => img'.px k b) = c k * quad img.nx ic.px t.px (fun b => img.px k b) := by
    rw [← quad_smul_right]
    exact quad_congr _ _ _ _ _ _ _ (fun _ _ _ _ => rfl) (fun _ _ => rfl) (h k)
  have e2 : quad img.nx ic.px (fun b => img'.px k b) (fun b => img'.px k b) =
      c k * (c k * quad img.nx ic.px (fun b => img.px k b) (fun b => img.px k b)) := by
    rw [← quad_smul_right, ← quad_smul_left]
    exact quad_congr _ _ _ _ _ _ _ (fun _ _ _ _ => rfl) (h k) (h k)
  rw [e1, e2]
  unfold fdiv
  by_cases hz : quad img.nx ic.px t.px t.px * quad img.nx ic.px (fun b => img.px k b) (fun b => img.px k b) = 0
  · rw [if_pos hz, if_pos]
    rw [show quad img.nx ic.px t.px t.px * (c k * (c k * quad img.nx ic.px (fun b => img.px k b) (fun b => img.px k b))) =
      c k * c k * (quad img.nx ic.px t.px t.px * quad img.nx ic.px (fun b => img.px k b) (fun b => img.px k b)) by ring, hz, mul_zero]
  · have hz' : quad img.nx ic.px t.px t.px * (c k * (c k * quad img.nx ic.px (fun b => img.px k b) (fun b => img.px k b))) ≠ 0 := by
      rw [show quad img.nx ic.px t.px t.px * (c k * (c k * quad img.nx ic.px (fun b => img.px k b) (fun b => img.px k b))) =
        c k * c k * (quad img.nx ic.px t.px t.px * quad img.nx ic.px (fun b => img.px k b) (fun b => img.px k b)) by ring]
      exact mul_ne_zero (mul_ne_zero (hc k) (hc k)) hz
    rw [if_neg hz, if_neg hz']
    congr 1
    rw [div_eq_div_iff hz' hz]
    ring

/-- C55: `ace` with a given mean and inverse covariance is `ace_demeaned` of the demeaned image and target
(a mask is then irrelevant). -/
theorem C55_ace_demeaned (inv : A2 (Option K) → Py (A2 (Option K))) (img d : A2 K) (t td m : A1 K) (ic : A2 K) (mask : Option (A1 K))
    (hm : m.n = img.nx) (hdy : d.ny = img.ny) (hdx : d.nx = img.nx) (htd : td.n = t.n)
    (hd : ∀ k b, b < img.nx → d.px k b = img.px k b - m.px b) (ht : ∀ b, b < img.nx → td.px b = t.px b - m.px b) :
    ace inv img t (some m) (some ic) mask = aceDemeaned d td ic := by
  obtain ⟨g, hg, hgn, hgv⟩ := finite1_of (⟨m.n, fun b => some (m.px b)⟩ : A1 (Option K)) (fun i _ => ⟨_, rfl⟩)
  obtain ⟨g2, hg2, _, _, hgv2⟩ := finite2_of (⟨ic.ny, ic.nx, fun i j => some (ic.px i j)⟩ : A2 (Option K)) (fun i j _ _ => ⟨_, rfl⟩)
  unfold ace meanOrDefault invOrDefault aceDemeaned
  simp only [ok_bind, htd, hdx, hdy, hm, true_and]
  by_cases hc : t.n = img.nx ∧ ic.ny = img.nx ∧ ic.nx = img.nx
  · rw [if_pos hc, if_pos hc]
    simp only [hm] at hg
    rw [hg, hg2]
    simp only []
    congr 2
    funext k
    unfold aceScore
    have hgm : ∀ i, i < img.nx → g.px i = m.px i := by
      intro i hi
      have := hgv i (by simp; omega)
      simpa using this.symm
    have hgi : ∀ i j, i < img.nx → j < img.nx → g2.px i j = ic.px i j := by
      intro i j hi hj
      have := hgv2 i j (by simp; omega) (by simp; omega)
      simpa using this.symm
    have ht' : ∀ i, i < img.nx → t.px i - g.px i = td.px i := fun i hi => by rw [hgm i hi, ht i hi]
    have hd' : ∀ i, i < img.nx → img.px k i - g.px i = d.px k i := fun i hi => by rw [hgm i hi, hd k i hi]
    rw [quad_congr img.nx g2.px ic.px _ td.px _ (fun b => d.px k b) hgi ht' hd',
      quad_congr img.nx g2.px ic.px _ td.px _ td.px hgi ht' ht',
      quad_congr img.nx g2.px ic.px _ (fun b => d.px k b) _ (fun b => d.px k b) hgi hd' hd']
  · rw [if_neg hc, if_neg hc]

/-- The identity is positive definite, and the second sample of the image is twice the target. -/
example : PosDef 2 (fun i j => if i = j then (1 : ℚ) else 0) := by
  constructor
  · intro i j _ _; simp [eq_comm]
  · rintro v ⟨i, hi, hv⟩
    simp only [bilin, Finset.sum_range_succ, Finset.range_zero, Finset.sum_empty]
    simp
    have h0 := mul_self_nonneg (v 0)
    have h1 := mul_self_nonneg (v 1)
    have : i = 0 ∨ i = 1 := by omega
    rcases this with rfl | rfl
    · have := mul_self_pos.mpr hv; linarith
    · have := mul_self_pos.mpr hv; linarith

end

/-! ### C56 -/

/-- Specification: inner product of two spectra. -/
def inner (n : Nat) (u v : Nat → ℝ) : ℝ := ∑ b ∈ range n, u b * v b

theorem inner_pos (n : Nat) (u : Nat → ℝ) (h : ∃ b, b < n ∧ u b ≠ 0) : 0 < inner n u u := by
  obtain ⟨b, hb, hu⟩ := h
  unfold inner
  apply Finset.sum_pos' (fun i _ => mul_self_nonneg _)
  exact ⟨b, Finset.mem_range.mpr hb, mul_self_pos.mpr hu⟩

/-- C56: for a non-zero target, the similarity of a non-zero sample is the cosine of the angle to the
target; it is in [-1, 1], and equal to 1 exactly for the positive multiples of the target. -/
theorem C56_cosine (img : A2 ℝ) (t : A1 ℝ) (ht : t.n = img.nx) (htnz : ∃ b, b < img.nx ∧ t.px b ≠ 0) :
    ∃ r, sam img t = .ok r ∧ r.n = img.ny ∧ ∀ k, k < img.ny → (∃ b, b < img.nx ∧ img.px k b ≠ 0) →
      ∃ v, r.px k = some v ∧
        v * (Real.sqrt (inner img.nx t.px t.px) * Real.sqrt (inner img.nx (img.px k) (img.px k))) = inner img.nx t.px (img.px k) ∧
        -1 ≤ v ∧ v ≤ 1 ∧ (v = 1 ↔ ∃ c : ℝ, 0 < c ∧ ∀ b, b < img.nx → img.px k b = c * t.px b) := by
  refine ⟨_, by unfold sam; rw [if_pos ht], rfl, ?_⟩
  intro k _ hx
  have htt := inner_pos _ _ htnz
  have hxx := inner_pos _ _ hx
  set T := Real.sqrt (inner img.nx t.px t.px) with hT
  set X := Real.sqrt (inner img.nx (img.px k) (img.px k)) with hX
  have hT0 : 0 < T := Real.sqrt_pos.mpr htt
  have hX0 : 0 < X := Real.sqrt_pos.mpr hxx
  have hT2 : T * T = inner img.nx t.px t.px := Real.mul_self_sqrt htt.le
  have hX2 : X * X = inner img.nx (img.px k) (img.px k) := Real.mul_self_sqrt hxx.le
  have hne : T * X ≠ 0 := (mul_pos hT0 hX0).ne'
  set v := inner img.nx t.px (img.px k) / (T * X) with hv
  have hvv : v * (T * X) = inner img.nx t.px (img.px k) := div_mul_cancel₀ _ hne
  -- the squared distance of the two unit vectors
  have dist : ∀ s : ℝ, ∑ b ∈ range img.nx, (img.px k b * T + s * (t.px b * X)) ^ 2 =
      X * X * (T * T) + 2 * s * (v * (T * X)) * (T * X) + s * s * (X * X * (T * T)) := by
    intro s
    have : ∀ b ∈ range img.nx, (img.px k b * T + s * (t.px b * X)) ^ 2 =
        T * T * (img.px k b * img.px k b) + 2 * s * (T * X) * (t.px b * img.px k b) + s * s * (X * X) * (t.px b * t.px b) := by
      intro b _; ring
    rw [Finset.sum_congr rfl this, Finset.sum_add_distrib, Finset.sum_add_distrib, ← Finset.mul_sum, ← Finset.mul_sum, ← Finset.mul_sum]
    have a1 : ∑ b ∈ range img.nx, img.px k b * img.px k b = X * X := hX2.symm
    have a2 : ∑ b ∈ range img.nx, t.px b * img.px k b = v * (T * X) := hvv.symm
    have a3 : ∑ b ∈ range img.nx, t.px b * t.px b = T * T := hT2.symm
    rw [a1, a2, a3]; ring
  have hp : 0 < (T * X) * (T * X) := mul_pos (mul_pos hT0 hX0) (mul_pos hT0 hX0)
  refine ⟨v, ?_, hvv, ?_, ?_, ?_⟩
  · show fdiv (inner img.nx t.px (img.px k)) (T * X) = some v
    unfold fdiv
    rw [if_neg hne]
  · have h := dist 1
    have h0 : 0 ≤ ∑ b ∈ range img.nx, (img.px k b * T + 1 * (t.px b * X)) ^ 2 := Finset.sum_nonneg (fun _ _ => sq_nonneg _)
    rw [h] at h0
    have : 0 ≤ (2 + 2 * v) * ((T * X) * (T * X)) := by linarith [h0]
    have := nonneg_of_mul_nonneg_left this hp
    linarith
  · have h := dist (-1)
    have h0 : 0 ≤ ∑ b ∈ range img.nx, (img.px k b * T + (-1) * (t.px b * X)) ^ 2 := Finset.sum_nonneg (fun _ _ => sq_nonneg _)
    rw [h] at h0
    have : 0 ≤ (2 - 2 * v) * ((T * X) * (T * X)) := by linarith [h0]
    have := nonneg_of_mul_nonneg_left this hp
    linarith
  · constructor
    · intro h1
      have h := dist (-1)
      rw [h1] at h
      have hz : ∑ b ∈ range img.nx, (img.px k b * T + (-1) * (t.px b * X)) ^ 2 = 0 := by rw [h]; ring
      rw [Finset.sum_eq_zero_iff_of_nonneg (fun _ _ => sq_nonneg _)] at hz
      refine ⟨X / T, div_pos hX0 hT0, ?_⟩
      intro b hb
      have := pow_eq_zero_iff (two_ne_zero) |>.mp (hz b (Finset.mem_range.mpr hb))
      have e : img.px k b * T = t.px b * X := by linarith
      rw [div_mul_eq_mul_div, eq_div_iff hT0.ne', e]; ring
    · rintro ⟨c, hc, hb⟩
      have e1 : inner img.nx t.px (img.px k) = c * (T * T) := by
        rw [hT2, inner, inner, Finset.mul_sum]
        refine Finset.sum_congr rfl (fun b hb' => ?_)
        rw [hb b (Finset.mem_range.mp hb')]; ring
      have e2 : X * X = c * c * (T * T) := by
        rw [hX2, hT2, inner, inner, Finset.mul_sum]
        refine Finset.sum_congr rfl (fun b hb' => ?_)
        rw [hb b (Finset.mem_range.mp hb')]; ring
      have e3 : X = c * T := by
        have : X * X = (c * T) * (c * T) := by rw [e2]; ring
        exact (mul_self_inj hX0.le (mul_pos hc hT0).le).mp this
      rw [hv, div_eq_one_iff_eq hne, e1, e3]; ring

/-- C56: multiplying the target and each sample by positive factors changes no similarity. -/
theorem C56_scale (img img' : A2 ℝ) (t t' : A1 ℝ) (c : Nat → ℝ) (s : ℝ) (hc : ∀ k, 0 < c k) (hs : 0 < s)
    (hy : img'.ny = img.ny) (hx : img'.nx = img.nx) (hn : t'.n = t.n)
    (h : ∀ k b, b < img.nx → img'.px k b = c k * img.px k b) (ht : ∀ b, b < img.nx → t'.px b = s * t.px b) :
    sam img' t' = sam img t := by
  unfold sam
  rw [hy, hx, hn]
  congr 3
  funext k
  have e1 : ∑ b ∈ range img.nx, t'.px b * img'.px k b = s * c k * ∑ b ∈ range img.nx, t.px b * img.px k b := by
    rw [Finset.mul_sum]
    refine Finset.sum_congr rfl (fun b hb => ?_)
    rw [Finset.mem_range] at hb
    rw [h k b hb, ht b hb]; ring
  have e2 : ∑ b ∈ range img.nx, t'.px b * t'.px b = s * s * ∑ b ∈ range img.nx, t.px b * t.px b := by
    rw [Finset.mul_sum]
    refine Finset.sum_congr rfl (fun b hb => ?_)
    rw [Finset.mem_range] at hb
    rw [ht b hb]; ring
  have e3 : ∑ b ∈ range img.nx, img'.px k b * img'.px k b = c k * c k * ∑ b ∈ range img.nx, img.px k b * img.px k b := by
    rw [Finset.mul_sum]
    refine Finset.sum_congr rfl (fun b hb => ?_)
    rw [Finset.mem_range] at hb
    rw [h k b hb]; ring
  rw [e1, e2, e3, Real.sqrt_mul (mul_self_nonneg s), Real.sqrt_mul (mul_self_nonneg (c k)), Real.sqrt_mul_self hs.le,
    Real.sqrt_mul_self (hc k).le]
  set A := Real.sqrt (∑ b ∈ range img.nx, t.px b * t.px b)
  set B := Real.sqrt (∑ b ∈ range img.nx, img.px k b * img.px k b)
  have hsc : s * c k ≠ 0 := (mul_pos hs (hc k)).ne'
  unfold fdiv
  have e4 : s * A * (c k * B) = s * c k * (A * B) := by ring
  rw [e4]
  by_cases hz : A * B = 0
  · rw [if_pos hz, if_pos (by rw [hz, mul_zero])]
  · rw [if_neg hz, if_neg (mul_ne_zero hsc hz), mul_div_mul_left _ _ hsc]

end Verif.Spectral
