import Verif.Model.Registration
import Mathlib.Algebra.Order.BigOperators.Group.Finset
import Mathlib.Algebra.BigOperators.Intervals
import Mathlib.Tactic.FieldSimp

/-! Property C15: mutual information (image_registration.py). -/

namespace Verif.Registration
open Verif

open Finset in
theorem histogramMmi_eq (n : Nat) (h1 h2 : Nat → Nat) (j : Nat → Nat → Nat) :
    histogramMmi n h1 h2 j = ∑ k ∈ range n, ∑ m ∈ range n,
      (if (j k m : ℝ) ≠ 0 then (j k m : ℝ) * Real.log ((j k m : ℝ) / ((h1 k : ℝ) * (h2 m : ℝ))) else 0) := by
  have key : ∀ (f : Nat → ℝ), ((List.range n).map f).sum = ∑ k ∈ range n, f k := by
    intro f
    rw [Finset.sum_range]
    rw [← List.sum_ofFn]
    congr 1
    apply List.ext_getElem <;> simp
  unfold histogramMmi
  rw [key]
  apply Finset.sum_congr rfl
  intro k _
  rw [key]

theorem jointHist_swap (n : Nat) (a b : List ℝ) (k m : Nat) : jointHist n a b k m = jointHist n b a m k := by
  unfold jointHist
  rw [← List.zip_swap, List.countP_map]
  apply List.countP_congr
  intro p _
  simp [Function.comp]
  tauto

/-- C15.  Mutual information is symmetric. -/
theorem C15_symmetric (a b : List ℝ) (n : Nat) : imageMmi a b n = imageMmi b a n := by
  unfold imageMmi
  by_cases hn : n = 0
  · simp [hn]
  by_cases hl : a.length = b.length
  · rw [if_neg hn, if_neg hn, if_neg (by simp [hl]), if_neg (by simp [hl])]
    congr 1
    rw [histogramMmi_eq, histogramMmi_eq, Finset.sum_comm]
    apply Finset.sum_congr rfl
    intro k _
    apply Finset.sum_congr rfl
    intro m _
    rw [jointHist_swap n a b m k, mul_comm (hist n a m : ℝ)]
  · rw [if_neg hn, if_neg hn, if_pos hl, if_pos (fun h => hl h.symm)]

theorem jointHist_le_right (n : Nat) (a b : List ℝ) (hl : a.length = b.length) (k m : Nat) :
    jointHist n a b k m ≤ hist n b m := by
  unfold jointHist hist
  calc (a.zip b).countP _ ≤ (a.zip b).countP (fun p => decide (histBin n (histRange b) p.2 = m)) := by
        apply List.countP_mono_left
        intro p _ h
        simp at h ⊢
        exact h.2
    _ = ((a.zip b).map Prod.snd).countP (fun v => decide (histBin n (histRange b) v = m)) := by
        rw [List.countP_map]; rfl
    _ = b.countP _ := by rw [List.map_snd_zip (by omega)]

theorem jointHist_le_left (n : Nat) (a b : List ℝ) (hl : a.length = b.length) (k m : Nat) :
    jointHist n a b k m ≤ hist n a k := by
  rw [jointHist_swap]; exact jointHist_le_right n b a hl.symm m k

theorem histBin_lt (n : Nat) (hn : n ≠ 0) (vs : List ℝ) (v : ℝ) (hv : v ∈ vs) :
    histBin n (histRange vs) v < n := by
  have hne : vs ≠ [] := by intro h; rw [h] at hv; simp at hv
  unfold histBin
  split
  · omega
  · rename_i hvr
    cases hmn : vs.min? with
    | none => rw [List.min?_eq_none_iff] at hmn; exact absurd hmn hne
    | some lo =>
    cases hmx : vs.max? with
    | none => rw [List.max?_eq_none_iff] at hmx; exact absurd hmx hne
    | some hi =>
    have h1 := (List.min?_eq_some_iff.mp hmn).2 v hv
    have h2 := (List.max?_eq_some_iff.mp hmx).2 v hv
    have hr : histRange vs = if lo = hi then (lo - 1/2, hi + 1/2) else (lo, hi) := by
      simp [histRange, hmn, hmx]
    have hb : (histRange vs).1 ≤ v ∧ v < (histRange vs).2 := by
      rw [hr] at hvr ⊢
      split
      · rename_i he
        simp only [] at *
        constructor <;> linarith
      · rename_i he
        rw [if_neg he] at hvr
        exact ⟨h1, lt_of_le_of_ne h2 hvr⟩
    have hd : 0 < (histRange vs).2 - (histRange vs).1 := by linarith [hb.1, hb.2]
    have hnpos : (0 : ℝ) < n := by exact_mod_cast Nat.pos_of_ne_zero hn
    have h3 : (v - (histRange vs).1) * n / ((histRange vs).2 - (histRange vs).1) < n := by
      rw [div_lt_iff₀ hd]
      nlinarith [hb.2]
    rw [Nat.floor_lt (by
      apply div_nonneg _ hd.le
      exact mul_nonneg (by linarith [hb.1]) hnpos.le)]
    exact h3

/-- Row sums of the joint histogram are the histogram of the first image. -/
theorem jointHist_row (n : Nat) (hn : n ≠ 0) (a b : List ℝ) (hl : a.length = b.length) (k : Nat) :
    ∑ m ∈ Finset.range n, jointHist n a b k m = hist n a k := by
  have hR : ∀ (g : ℝ → Nat) (f : ℝ → Nat) (a b : List ℝ), a.length = b.length → (∀ v ∈ b, g v < n) →
      ∑ m ∈ Finset.range n, (a.zip b).countP (fun p => decide (f p.1 = k ∧ g p.2 = m))
        = a.countP (fun v => decide (f v = k)) := by
    intro g f a
    induction a with
    | nil => intro b hl _; simp
    | cons x xs ih =>
      intro b hl hg
      cases b with
      | nil => simp at hl
      | cons y ys =>
        simp only [List.zip_cons_cons, List.countP_cons]
        rw [Finset.sum_add_distrib, ih ys (by simpa using hl) (fun v hv => hg v (by simp [hv]))]
        congr 1
        have hy := hg y (by simp)
        by_cases hf : f x = k
        · simp only [hf, true_and, decide_true]
          rw [Finset.sum_eq_single (g y)]
          · simp
          · intro m _ hm; simp [Ne.symm hm]
          · intro h; simp at h; omega
        · simp [hf]
  exact hR (histBin n (histRange b)) (histBin n (histRange a)) a b hl
    (fun v hv => histBin_lt n hn b v hv)

theorem jointHist_self (n : Nat) (a : List ℝ) (k m : Nat) :
    jointHist n a a k m = if k = m then hist n a k else 0 := by
  have : ∀ (f : ℝ → Nat) (l : List ℝ), (l.zip l).countP (fun p => decide (f p.1 = k ∧ f p.2 = m))
      = if k = m then l.countP (fun v => decide (f v = k)) else 0 := by
    intro f l
    induction l with
    | nil => simp
    | cons x xs ih =>
      simp only [List.zip_cons_cons, List.countP_cons, ih]
      by_cases h : k = m
      · subst h; simp
      · simp only [h, if_false, Nat.zero_add]
        have : ¬ (f x = k ∧ f x = m) := by rintro ⟨h1, h2⟩; exact h (h1.symm.trans h2)
        simp [this]
  exact this (histBin n (histRange a)) a

/-- C15.  No image of the same size has larger mutual information with `a` than `a` itself. -/
theorem C15_self_maximal (a b : List ℝ) (n : Nat) (hn : n ≠ 0) (hl : a.length = b.length) :
    ∃ u v, imageMmi a b n = .ok u ∧ imageMmi a a n = .ok v ∧ u ≤ v := by
  refine ⟨_, _, by unfold imageMmi; rw [if_neg hn, if_neg (by simp [hl])],
    by unfold imageMmi; rw [if_neg hn, if_neg (by simp)], ?_⟩
  rw [histogramMmi_eq, histogramMmi_eq]
  apply Finset.sum_le_sum
  intro k hk
  have hself : ∑ m ∈ Finset.range n, (if (jointHist n a a k m : ℝ) ≠ 0 then
      (jointHist n a a k m : ℝ) * Real.log ((jointHist n a a k m : ℝ) / ((hist n a k : ℝ) * (hist n a m : ℝ))) else 0)
      = - ((hist n a k : ℝ) * Real.log (hist n a k)) := by
    rw [Finset.sum_eq_single k]
    · rw [jointHist_self, if_pos rfl]
      by_cases h0 : (hist n a k : ℝ) = 0
      · simp [h0]
      · rw [if_pos h0]
        have : (hist n a k : ℝ) / ((hist n a k : ℝ) * (hist n a k : ℝ)) = ((hist n a k : ℝ))⁻¹ := by
          field_simp
        rw [this, Real.log_inv]; ring
    · intro m _ hm
      have hkm : ¬ k = m := fun h => hm h.symm
      simp [jointHist_self, hkm]
    · intro h; exact absurd hk h
  rw [hself]
  have hrow : (hist n a k : ℝ) = ∑ m ∈ Finset.range n, (jointHist n a b k m : ℝ) := by
    rw [← jointHist_row n hn a b hl k]; push_cast; rfl
  have : - ((hist n a k : ℝ) * Real.log (hist n a k)) =
      ∑ m ∈ Finset.range n, -((jointHist n a b k m : ℝ) * Real.log (hist n a k)) := by
    rw [Finset.sum_neg_distrib, ← Finset.sum_mul, ← hrow]
  rw [this]
  apply Finset.sum_le_sum
  intro m _
  by_cases h0 : (jointHist n a b k m : ℝ) = 0
  · simp [h0]
  · rw [if_pos h0]
    have hjpos : (0 : ℝ) < jointHist n a b k m := lt_of_le_of_ne (Nat.cast_nonneg _) (Ne.symm h0)
    have h1 : (jointHist n a b k m : ℝ) ≤ hist n a k := by exact_mod_cast jointHist_le_left n a b hl k m
    have h2 : (jointHist n a b k m : ℝ) ≤ hist n b m := by exact_mod_cast jointHist_le_right n a b hl k m
    have hapos : (0 : ℝ) < hist n a k := lt_of_lt_of_le hjpos h1
    have hbpos : (0 : ℝ) < hist n b m := lt_of_lt_of_le hjpos h2
    rw [Real.log_div h0 (by positivity), Real.log_mul hapos.ne' hbpos.ne']
    have hlog : Real.log (jointHist n a b k m) ≤ Real.log (hist n b m) := Real.log_le_log hjpos h2
    nlinarith [mul_nonneg hjpos.le (sub_nonneg.mpr hlog)]

/-! #### The value itself -/

/-- Specification: the interval that is cut into bins: from the smallest to the largest value; for an image with one value `v`, from
`v - 1/2` to `v + 1/2`. -/
def IsRange (vs : List ℝ) (lo hi : ℝ) : Prop :=
  (lo < hi ∧ lo ∈ vs ∧ hi ∈ vs ∧ ∀ v ∈ vs, lo ≤ v ∧ v ≤ hi) ∨
  (∃ v, vs ≠ [] ∧ (∀ w ∈ vs, w = v) ∧ lo = v - 1 / 2 ∧ hi = v + 1 / 2)

/-- Specification: `v` is in bin `k` of `n` equal bins of `[lo, hi]`; a bin contains its lower end but not its upper end, except the last one. -/
def InBin (n k : Nat) (lo hi v : ℝ) : Prop :=
  k < n ∧ lo + k * ((hi - lo) / n) ≤ v ∧ (v < lo + (k + 1) * ((hi - lo) / n) ∨ (k + 1 = n ∧ v = hi))

theorem histRange_eq (vs : List ℝ) (lo hi : ℝ) (h : IsRange vs lo hi) : histRange vs = (lo, hi) ∧ lo < hi ∧ ∀ v ∈ vs, lo ≤ v ∧ v ≤ hi := by
  rcases h with ⟨hlt, h1, h2, h3⟩ | ⟨v, hne, hv, rfl, rfl⟩
  · have e1 : vs.min? = some lo := List.min?_eq_some_iff.2 ⟨h1, fun v hv => (h3 v hv).1⟩
    have e2 : vs.max? = some hi := List.max?_eq_some_iff.2 ⟨h2, fun v hv => (h3 v hv).2⟩
    exact ⟨by simp [histRange, e1, e2, hlt.ne], hlt, h3⟩
  · have hm : v ∈ vs := by
      obtain ⟨w, hw⟩ := List.exists_mem_of_ne_nil vs hne
      rwa [hv w hw] at hw
    have e1 : vs.min? = some v := List.min?_eq_some_iff.2 ⟨hm, fun w hw => (hv w hw).ge⟩
    have e2 : vs.max? = some v := List.max?_eq_some_iff.2 ⟨hm, fun w hw => (hv w hw).le⟩
    refine ⟨by simp [histRange, e1, e2], by linarith, fun w hw => ?_⟩
    rw [hv w hw]
    constructor <;> linarith

theorem histBin_iff (n : Nat) (hn : n ≠ 0) (lo hi v : ℝ) (hlt : lo < hi) (h1 : lo ≤ v) (h2 : v ≤ hi) (k : Nat) :
    histBin n (lo, hi) v = k ↔ InBin n k lo hi v := by
  have hnpos : (0 : ℝ) < n := by exact_mod_cast Nat.pos_of_ne_zero hn
  have hd : 0 < hi - lo := by linarith
  have hw : 0 < (hi - lo) / n := by positivity
  have hfull : (n : ℝ) * ((hi - lo) / n) = hi - lo := by field_simp
  unfold histBin InBin
  simp only []
  by_cases hv : v = hi
  · rw [if_pos hv]
    subst hv
    constructor
    · rintro rfl
      have : ((n - 1 : Nat) : ℝ) = n - 1 := by rw [Nat.cast_sub (by omega)]; simp
      refine ⟨by omega, ?_, Or.inr ⟨by omega, rfl⟩⟩
      rw [this]
      nlinarith
    · rintro ⟨hk, _, h | h⟩
      · have : ((k : ℝ) + 1) ≤ n := by exact_mod_cast hk
        nlinarith
      · omega
  · rw [if_neg hv, Nat.floor_eq_iff (div_nonneg (mul_nonneg (by linarith) hnpos.le) hd.le), le_div_iff₀ hd, div_lt_iff₀ hd]
    have e1 : (k : ℝ) * (hi - lo) ≤ (v - lo) * n ↔ lo + k * ((hi - lo) / n) ≤ v := by
      rw [← sub_nonneg, ← sub_nonneg (b := lo + _)]
      rw [show (v - lo) * n - k * (hi - lo) = n * (v - (lo + k * ((hi - lo) / n))) by field_simp; ring]
      exact ⟨fun h => by_contra fun hc => by push Not at hc; nlinarith, fun h => mul_nonneg hnpos.le h⟩
    have e2 : (v - lo) * n < ((k : ℝ) + 1) * (hi - lo) ↔ v < lo + (k + 1) * ((hi - lo) / n) := by
      rw [← sub_pos, ← sub_pos (b := v)]
      rw [show ((k : ℝ) + 1) * (hi - lo) - (v - lo) * n = n * (lo + (k + 1) * ((hi - lo) / n) - v) by field_simp; ring]
      exact ⟨fun h => by_contra fun hc => by push Not at hc; nlinarith, fun h => mul_pos hnpos h⟩
    rw [e1, e2]
    constructor
    · rintro ⟨ha, hb⟩
      refine ⟨?_, ha, Or.inl hb⟩
      have h3 : v < hi := lt_of_le_of_ne h2 hv
      by_contra hc
      have : (n : ℝ) ≤ k := by exact_mod_cast (by omega : n ≤ k)
      nlinarith
    · rintro ⟨_, ha, hb | hb⟩
      · exact ⟨ha, hb⟩
      · exact absurd hb.2 hv

open Classical in
/-- Specification: number of values in a bin. -/
noncomputable def binCount (n k : Nat) (lo hi : ℝ) (vs : List ℝ) : Nat := vs.countP (fun v => decide (InBin n k lo hi v))

open Classical in
/-- Specification: number of positions at which the first image's value is in bin `k` and the second image's in bin `m`. -/
noncomputable def jointCount (n k m : Nat) (loA hiA loB hiB : ℝ) (a b : List ℝ) : Nat :=
  (a.zip b).countP (fun p => decide (InBin n k loA hiA p.1 ∧ InBin n m loB hiB p.2))

theorem hist_eq (n : Nat) (hn : n ≠ 0) (vs : List ℝ) (lo hi : ℝ) (h : IsRange vs lo hi) (k : Nat) : hist n vs k = binCount n k lo hi vs := by
  obtain ⟨hr, hlt, hb⟩ := histRange_eq vs lo hi h
  unfold hist binCount
  apply List.countP_congr
  intro v hv
  rw [hr]
  simp only [decide_eq_true_eq]
  exact histBin_iff n hn lo hi v hlt (hb v hv).1 (hb v hv).2 k

/-- C15: the value is the sum, over the pairs of bins that occur together, of the joint count times the logarithm of the joint count over the
product of the two counts, with equal-width bins spanning each image's own range of values. -/
theorem C15_value (a b : List ℝ) (n : Nat) (hn : n ≠ 0) (hl : a.length = b.length) (loA hiA loB hiB : ℝ) (ha : IsRange a loA hiA)
    (hb : IsRange b loB hiB) :
    imageMmi a b n = .ok (∑ k ∈ Finset.range n, ∑ m ∈ Finset.range n,
      (if jointCount n k m loA hiA loB hiB a b = 0 then 0 else
        (jointCount n k m loA hiA loB hiB a b : ℝ) * Real.log ((jointCount n k m loA hiA loB hiB a b : ℝ) /
          ((binCount n k loA hiA a : ℝ) * (binCount n m loB hiB b : ℝ))))) := by
  have hj : ∀ k m, jointHist n a b k m = jointCount n k m loA hiA loB hiB a b := by
    intro k m
    obtain ⟨ra, la, ba⟩ := histRange_eq a loA hiA ha
    obtain ⟨rb, lb, bb⟩ := histRange_eq b loB hiB hb
    unfold jointHist jointCount
    apply List.countP_congr
    rintro ⟨v, w⟩ hp
    have hv := (List.of_mem_zip hp).1
    have hw := (List.of_mem_zip hp).2
    simp only [decide_eq_true_eq, ra, rb]
    rw [histBin_iff n hn loA hiA v la (ba v hv).1 (ba v hv).2 k, histBin_iff n hn loB hiB w lb (bb w hw).1 (bb w hw).2 m]
  unfold imageMmi
  rw [if_neg hn, if_neg (by simp [hl]), histogramMmi_eq]
  congr 1
  apply Finset.sum_congr rfl
  intro k _
  apply Finset.sum_congr rfl
  intro m _
  rw [hj, hist_eq n hn a loA hiA ha, hist_eq n hn b loB hiB hb]
  by_cases h0 : jointCount n k m loA hiA loB hiB a b = 0
  · simp [h0]
  · rw [if_neg h0, if_pos (by exact_mod_cast h0)]

theorem hist_affine_range (a : List ℝ) (lo hi s t : ℝ) (hs : 0 < s) (h : lo < hi ∧ lo ∈ a ∧ hi ∈ a ∧ ∀ v ∈ a, lo ≤ v ∧ v ≤ hi) :
    IsRange (a.map (fun v => s * v + t)) (s * lo + t) (s * hi + t) := by
  obtain ⟨h1, h2, h3, h4⟩ := h
  refine Or.inl ⟨by nlinarith, List.mem_map.2 ⟨lo, h2, rfl⟩, List.mem_map.2 ⟨hi, h3, rfl⟩, ?_⟩
  intro v hv
  obtain ⟨w, hw, rfl⟩ := List.mem_map.1 hv
  have := h4 w hw
  constructor <;> nlinarith

theorem inBin_affine (n k : Nat) (lo hi s t v : ℝ) (hs : 0 < s) : InBin n k (s * lo + t) (s * hi + t) (s * v + t) ↔ InBin n k lo hi v := by
  unfold InBin
  have e : (s * hi + t - (s * lo + t)) / n = s * ((hi - lo) / n) := by ring
  rw [e]
  have e1 : s * lo + t + k * (s * ((hi - lo) / n)) ≤ s * v + t ↔ lo + k * ((hi - lo) / n) ≤ v := by
    rw [show s * lo + t + k * (s * ((hi - lo) / n)) = s * (lo + k * ((hi - lo) / n)) + t by ring, add_le_add_iff_right,
      mul_le_mul_iff_right₀ hs]
  have e2 : s * v + t < s * lo + t + (k + 1) * (s * ((hi - lo) / n)) ↔ v < lo + (k + 1) * ((hi - lo) / n) := by
    rw [show s * lo + t + (k + 1) * (s * ((hi - lo) / n)) = s * (lo + (k + 1) * ((hi - lo) / n)) + t by ring, add_lt_add_iff_right,
      mul_lt_mul_iff_right₀ hs]
  have e3 : s * v + t = s * hi + t ↔ v = hi := by
    constructor
    · intro h
      exact mul_left_cancel₀ hs.ne' (by linarith)
    · rintro rfl; rfl
  rw [e1, e2, e3]

/-- C15: brightening and stretching the contrast of one image (which has two different values) does not change the value. -/
theorem C15_contrast (a b : List ℝ) (n : Nat) (hn : n ≠ 0) (hl : a.length = b.length) (s t : ℝ) (hs : 0 < s)
    (loA hiA loB hiB : ℝ) (ha : loA < hiA ∧ loA ∈ a ∧ hiA ∈ a ∧ ∀ v ∈ a, loA ≤ v ∧ v ≤ hiA) (hb : IsRange b loB hiB) :
    imageMmi (a.map (fun v => s * v + t)) b n = imageMmi a b n := by
  rw [C15_value _ b n hn (by simpa using hl) _ _ loB hiB (hist_affine_range a loA hiA s t hs ha) hb,
    C15_value a b n hn hl loA hiA loB hiB (Or.inl ha) hb]
  have h1 : ∀ k, binCount n k (s * loA + t) (s * hiA + t) (a.map (fun v => s * v + t)) = binCount n k loA hiA a := by
    intro k
    unfold binCount
    rw [List.countP_map]
    apply List.countP_congr
    intro v _
    simp [inBin_affine n k loA hiA s t v hs]
  have h2 : ∀ k m, jointCount n k m (s * loA + t) (s * hiA + t) loB hiB (a.map (fun v => s * v + t)) b = jointCount n k m loA hiA loB hiB a b := by
    intro k m
    unfold jointCount
    rw [List.zip_map_left, List.countP_map]
    apply List.countP_congr
    intro p _
    simp [inBin_affine n k loA hiA s t p.1 hs]
  simp only [h1, h2]

/-- The hypotheses of `C15_value` are met. -/
example : IsRange [1, 2, 3] 1 3 ∧ IsRange [4, 4] (4 - 1 / 2) (4 + 1 / 2) ∧ InBin 2 1 1 3 2 ∧ InBin 2 1 1 3 3 := by
  refine ⟨Or.inl ⟨by norm_num, by simp, by simp, ?_⟩, Or.inr ⟨4, by simp, by simp, rfl, rfl⟩, ?_, ?_⟩
  · intro v hv
    simp at hv
    rcases hv with rfl | rfl | rfl <;> norm_num
  · refine ⟨by norm_num, by norm_num, Or.inl (by norm_num)⟩
  · refine ⟨by norm_num, by norm_num, Or.inr ⟨rfl, rfl⟩⟩

/-- C15, error branch: images of different sizes are rejected. -/
theorem C15_size_mismatch (a b : List ℝ) (n : Nat) (hl : a.length ≠ b.length) :
    imageMmi a b n = .error .valueError := by
  unfold imageMmi; split
  · rfl
  · simp only []

example : (100 : Nat) ≠ 0 ∧ ([1, 2, 3] : List ℝ).length = ([3, 1, 2] : List ℝ).length := by simp

end Verif.Registration
