import Verif.Model.Missing
import Verif.Props.SpectralOrder
import Mathlib.Algebra.Order.Monoid.WithTop

/-! C160-C163: missing values (NaN) in images. -/

set_option linter.unusedSectionVars false

namespace Verif.Missing
open Verif ImageUtils Spectral
open Finset (range)
open scoped BigOperators

section
variable {K : Type} [Field K] [LinearOrder K] [IsStrictOrderedRing K]

/-! ### Specification -/

/-- Specification: an image without missing values. -/
def whole (img : A2 K) : A2 (Option K) := ⟨img.ny, img.nx, fun k b => some (img.px k b)⟩

/-- Specification: a vector without missing values. -/
def wholeV (v : A1 K) : A1 (Option K) := ⟨v.n, fun i => some (v.px i)⟩

/-- Specification: the image with an arbitrary number (zero) in place of every missing value. -/
def filled (img : A2 (Option K)) : A2 K := ⟨img.ny, img.nx, fun k b => (img.px k b).getD 0⟩

/-- Specification: sample `k` has no missing value. -/
def Complete (img : A2 (Option K)) (k : Nat) : Prop := ∀ b, b < img.nx → img.px k b ≠ none

/-- Specification: the images have the same shape and the same values in all samples that are not masked. -/
def AgreeUnmasked (mask : A1 K) (img img' : A2 (Option K)) : Prop :=
  img'.ny = img.ny ∧ img'.nx = img.nx ∧ ∀ k b, k < img.ny → mask.px k = 0 → img'.px k b = img.px k b

/-! ### Sums -/

theorem osum_some {s : Finset Nat} {f : Nat → Option K} {g : Nat → K} (h : ∀ k ∈ s, f k = some (g k)) : osum s f = some (∑ k ∈ s, g k) := by
  unfold osum
  rw [if_pos (fun k hk => by rw [h k hk]; rfl)]
  congr 1
  exact Finset.sum_congr rfl (fun k hk => by rw [h k hk]; rfl)

theorem osum_none {s : Finset Nat} {f : Nat → Option K} {k : Nat} (hk : k ∈ s) (h : f k = none) : osum s f = none := by
  unfold osum
  rw [if_neg]
  intro hc
  have := hc k hk
  rw [h] at this
  cases this

theorem osum_congr {s : Finset Nat} {f g : Nat → Option K} (h : ∀ k ∈ s, f k = g k) : osum s f = osum s g := by
  by_cases hc : ∃ k ∈ s, f k = none
  · obtain ⟨k, hk, e⟩ := hc
    rw [osum_none hk e, osum_none hk ((h k hk).symm.trans e)]
  · have : ∀ k ∈ s, f k = some ((f k).getD 0) := by
      intro k hk
      cases e : f k with
      | none => exact absurd ⟨k, hk, e⟩ hc
      | some v => rfl
    rw [osum_some this, osum_some (g := fun k => (f k).getD 0) (fun k hk => by rw [← h k hk]; exact this k hk)]

theorem lift2_none_right (f : K → K → K) (a : Option K) : lift2 f a none = none := by cases a <;> rfl
theorem lift2_none_left (f : K → K → K) (a : Option K) : lift2 f none a = none := by cases a <;> rfl
theorem odiv_none_left (a : Option K) : odiv none a = none := by cases a <;> rfl
theorem odiv_none_right (a : Option K) : odiv a none = none := by cases a <;> rfl

theorem left_kept (n : Nat) (mask : Option (A1 K)) : left n mask = kept n mask := by cases mask <;> rfl

theorem left_lt {n k : Nat} {mask : Option (A1 K)} (h : k ∈ left n mask) : k < n := by
  cases mask with
  | none => exact Finset.mem_range.mp h
  | some m => exact Finset.mem_range.mp (Finset.mem_filter.mp h).1

/-! ### On whole images these are the routines of `Verif.Model.Spectral` -/

theorem meanN_whole (img : A2 K) (mask : Option (A1 K)) : meanN (whole img) mask = mean img mask := by
  cases mask with
  | none =>
    unfold meanN mean meanNoMask fits left whole
    simp only [if_true, Finset.card_range]
    congr 2
    funext b
    rw [osum_some (g := fun k => img.px k b) (fun k _ => rfl)]
    rfl
  | some m =>
    unfold meanN mean meanMask fits left whole maskOk unmasked
    simp only []
    congr 3
    funext b
    rw [osum_some (g := fun k => img.px k b) (fun k _ => rfl)]
    rfl

theorem covEntryN_whole (img : A2 K) (s : Finset Nat) (b c : Nat) : covEntryN (whole img) s b c = covEntry img s b c := by
  unfold covEntryN covEntry
  simp only []
  by_cases h : s.card ≤ 1
  · rw [if_pos h, if_pos h]
  · rw [if_neg h, if_neg h]
    have hne : (s.card : K) ≠ 0 := by exact_mod_cast (by omega : s.card ≠ 0)
    have hm : ∀ b, odiv (osum s (fun k => (whole img).px k b)) (some (s.card : K)) = some ((∑ k ∈ s, img.px k b) / (s.card : K)) := by
      intro b
      rw [osum_some (f := fun k => (whole img).px k b) (g := fun k => img.px k b) (fun k _ => rfl)]
      simp only [odiv, fdiv, if_neg hne]
    simp only [hm]
    rw [osum_some (f := fun k => lift2 (· * ·) (lift2 (· - ·) ((whole img).px k b) (some ((∑ k ∈ s, img.px k b) / (s.card : K))))
        (lift2 (· - ·) ((whole img).px k c) (some ((∑ k ∈ s, img.px k c) / (s.card : K)))))
      (g := fun k => (img.px k b - (∑ k ∈ s, img.px k b) / (s.card : K)) * (img.px k c - (∑ k ∈ s, img.px k c) / (s.card : K))) (fun k _ => rfl)]
    rfl

theorem covN_whole (img : A2 K) (mask : Option (A1 K)) : covN (whole img) mask = cov img mask := by
  unfold covN
  simp only [covEntryN_whole]
  cases mask with
  | none => rfl
  | some m => unfold cov fits maskOk covOver; rfl

theorem demeanN_whole (img : A2 K) (mask : Option (A1 K)) : demeanN (whole img) mask = demean img mask := by
  unfold demeanN demean
  rw [meanN_whole]
  congr 1
  funext m
  congr 2
  funext k b
  cases m.px b <;> rfl

theorem meanOr_whole (img : A2 K) (m : Option (A1 K)) (mask : Option (A1 K)) : meanOr (whole img) (m.map wholeV) mask = meanOrDefault img m mask := by
  cases m with
  | none => exact meanN_whole img mask
  | some m => rfl

theorem invOr_whole (inv : A2 (Option K) → Py (A2 (Option K))) (img : A2 K) (ic : Option (A2 K)) (mask : Option (A1 K)) :
    invOr inv (whole img) (ic.map whole) mask = invOrDefault inv img ic mask := by
  cases ic with
  | none => unfold invOr invOrDefault; simp only [Option.map_none, covN_whole]; rfl
  | some ic => rfl

theorem quadN_some {n : Nat} {m : Nat → Nat → Option K} {u v : Nat → Option K} {m' : Nat → Nat → K} {u' v' : Nat → K}
    (hm : ∀ i j, i < n → j < n → m i j = some (m' i j)) (hu : ∀ i, i < n → u i = some (u' i)) (hv : ∀ i, i < n → v i = some (v' i)) :
    quadN n m u v = some (quad n m' u' v') := by
  unfold quadN quad
  refine osum_some (fun i hi => ?_)
  rw [Finset.mem_range] at hi
  rw [osum_some (g := fun j => m' i j * v' j) (fun j hj => by rw [Finset.mem_range] at hj; rw [hm i j hi hj, hv j hj]; rfl), hu i hi]
  rfl

theorem quadN_none_left {n : Nat} {m : Nat → Nat → Option K} {u v : Nat → Option K} {i : Nat} (hi : i < n) (hu : u i = none) : quadN n m u v = none :=
  osum_none (Finset.mem_range.mpr hi) (by rw [hu, lift2_none_left])

theorem quadN_none_right {n : Nat} {m : Nat → Nat → Option K} {u v : Nat → Option K} {i : Nat} (hi : i < n) (hv : v i = none) : quadN n m u v = none :=
  osum_none (Finset.mem_range.mpr hi) (by rw [osum_none (Finset.mem_range.mpr hi) (by rw [hv, lift2_none_right]), lift2_none_right])

theorem quadN_none_mid {n : Nat} {m : Nat → Nat → Option K} {u v : Nat → Option K} {i j : Nat} (hi : i < n) (hj : j < n) (hm : m i j = none) :
    quadN n m u v = none :=
  osum_none (Finset.mem_range.mpr hi) (by rw [osum_none (Finset.mem_range.mpr hj) (by rw [hm, lift2_none_left]), lift2_none_right])

theorem quadN_congr {n : Nat} {m : Nat → Nat → Option K} {u v u' v' : Nat → Option K} (hu : ∀ i, i < n → u i = u' i) (hv : ∀ i, i < n → v i = v' i) :
    quadN n m u v = quadN n m u' v' := by
  unfold quadN
  refine osum_congr (fun i hi => ?_)
  rw [hu i (Finset.mem_range.mp hi)]
  congr 1
  exact osum_congr (fun j hj => by rw [hv j (Finset.mem_range.mp hj)])

theorem finite1_none {a : A1 (Option K)} (h : finite1 a = none) : ∃ i, i < a.n ∧ a.px i = none := by
  unfold finite1 at h
  split at h
  · cases h
  · rename_i hc
    simp only [List.all_eq_true, List.mem_range, not_forall] at hc
    obtain ⟨i, hi, hn⟩ := hc
    exact ⟨i, hi, by simpa using hn⟩

theorem finite2_none {a : A2 (Option K)} (h : finite2 a = none) : ∃ i j, i < a.ny ∧ j < a.nx ∧ a.px i j = none := by
  unfold finite2 at h
  split at h
  · cases h
  · rename_i hc
    simp only [List.all_eq_true, not_forall] at hc
    obtain ⟨v, hv, hn⟩ := hc
    obtain ⟨i, j, hi, hj, rfl⟩ := mem_pixels.mp hv
    exact ⟨i, j, hi, hj, by simpa using hn⟩

theorem finite1_get {a : A1 (Option K)} {g : A1 K} (h : finite1 a = some g) : ∀ i, i < a.n → a.px i = some (g.px i) := by
  by_cases hc : ∀ i, i < a.n → ∃ v, a.px i = some v
  · obtain ⟨g', h1, h2, h3⟩ := finite1_of a hc
    rw [h1] at h
    cases h
    exact h3
  · push Not at hc
    obtain ⟨i, hi, hn⟩ := hc
    exfalso
    unfold finite1 at h
    split at h
    · rename_i ha
      simp only [List.all_eq_true, List.mem_range] at ha
      have := ha i hi
      cases e : a.px i with
      | none => rw [e] at this; cases this
      | some v => exact hn v e
    · cases h

theorem finite2_get {a : A2 (Option K)} {g : A2 K} (h : finite2 a = some g) : ∀ i j, i < a.ny → j < a.nx → a.px i j = some (g.px i j) := by
  by_cases hc : ∀ i j, i < a.ny → j < a.nx → ∃ v, a.px i j = some v
  · obtain ⟨g', h1, h2, h2', h3⟩ := finite2_of a hc
    rw [h1] at h
    cases h
    exact h3
  · push Not at hc
    obtain ⟨i, j, hi, hj, hn⟩ := hc
    exfalso
    unfold finite2 at h
    split at h
    · rename_i ha
      simp only [List.all_eq_true] at ha
      have := ha (a.px i j) (mem_pixels.mpr ⟨i, j, hi, hj, rfl⟩)
      cases e : a.px i j with
      | none => rw [e] at this; cases this
      | some v => exact hn v e
    · cases h

/-- The score of a sample whose values are `x`, by the model with missing values and by the model without, agree when `x` is whole. -/
theorem rx_sample {nx : Nat} {mm : A1 (Option K)} {c : A2 (Option K)} {x : Nat → Option K} {x' : Nat → K} (hc : mm.n = nx ∧ c.ny = nx ∧ c.nx = nx)
    (hx : ∀ b, b < nx → x b = some (x' b)) :
    quadN nx c.px (fun b => lift2 (· - ·) (x b) (mm.px b)) (fun b => lift2 (· - ·) (x b) (mm.px b)) =
      match finite1 mm, finite2 c with
      | some g, some g2 => some (quad nx g2.px (fun b => x' b - g.px b) (fun b => x' b - g.px b))
      | _, _ => none := by
  cases hg : finite1 mm with
  | none =>
    obtain ⟨i, hi, e⟩ := finite1_none hg
    simp only []
    exact quadN_none_left (i := i) (by omega) (by rw [e, lift2_none_right])
  | some g =>
    cases hg2 : finite2 c with
    | none =>
      obtain ⟨i, j, hi, hj, e⟩ := finite2_none hg2
      simp only []
      exact quadN_none_mid (i := i) (j := j) (by omega) (by omega) e
    | some g2 =>
      simp only []
      refine quadN_some (fun i j hi hj => finite2_get hg2 i j (by omega) (by omega)) ?_ ?_ <;>
      · intro i hi
        rw [hx i hi, finite1_get hg i (by omega)]
        rfl

theorem ace_sample {nx : Nat} {mm : A1 (Option K)} {c : A2 (Option K)} {t x : Nat → Option K} {t' x' : Nat → K} (hc : mm.n = nx ∧ c.ny = nx ∧ c.nx = nx)
    (ht : ∀ b, b < nx → t b = some (t' b)) (hx : ∀ b, b < nx → x b = some (x' b)) :
    aceScoreN nx c.px (fun b => lift2 (· - ·) (t b) (mm.px b)) (fun b => lift2 (· - ·) (x b) (mm.px b)) =
      match finite1 mm, finite2 c with
      | some g, some g2 => aceScore nx g2.px (fun b => t' b - g.px b) (fun b => x' b - g.px b)
      | _, _ => none := by
  cases hg : finite1 mm with
  | none =>
    obtain ⟨i, hi, e⟩ := finite1_none hg
    simp only [aceScoreN]
    rw [quadN_none_left (u := fun b => lift2 (· - ·) (t b) (mm.px b)) (v := fun b => lift2 (· - ·) (x b) (mm.px b)) (i := i) (by omega)
      (by rw [e, lift2_none_right])]
    rfl
  | some g =>
    cases hg2 : finite2 c with
    | none =>
      obtain ⟨i, j, hi, hj, e⟩ := finite2_none hg2
      simp only [aceScoreN]
      rw [quadN_none_mid (u := fun b => lift2 (· - ·) (t b) (mm.px b)) (v := fun b => lift2 (· - ·) (x b) (mm.px b)) (i := i) (j := j) (by omega) (by omega) e]
      rfl
    | some g2 =>
      have ht' : ∀ b, b < nx → lift2 (· - ·) (t b) (mm.px b) = some (t' b - g.px b) := by
        intro i hi
        rw [ht i hi, finite1_get hg i (by omega)]
        rfl
      have hx' : ∀ b, b < nx → lift2 (· - ·) (x b) (mm.px b) = some (x' b - g.px b) := by
        intro i hi
        rw [hx i hi, finite1_get hg i (by omega)]
        rfl
      have hm : ∀ i j, i < nx → j < nx → c.px i j = some (g2.px i j) := fun i j hi hj => finite2_get hg2 i j (by omega) (by omega)
      simp only [aceScoreN, aceScore]
      rw [quadN_some hm ht' hx', quadN_some hm ht' ht', quadN_some hm hx' hx']
      simp only [lift2, odiv, pow_two]

/-- On whole images RX is the RX of `Verif.Model.Spectral`. -/
theorem rxN_whole (inv : A2 (Option K) → Py (A2 (Option K))) (img : A2 K) (m : Option (A1 K)) (ic : Option (A2 K)) :
    Both A1.Same (rxN inv (whole img) (m.map wholeV) (ic.map whole)) (rx inv img m ic) := by
  unfold rxN rx
  rw [meanOr_whole, invOr_whole]
  cases meanOrDefault img m none with
  | error e => exact Or.inl ⟨e, rfl, rfl⟩
  | ok mm =>
    rw [ok_bind, ok_bind]
    cases invOrDefault inv img ic none with
    | error e => exact Or.inl ⟨e, rfl, rfl⟩
    | ok c =>
      rw [ok_bind, ok_bind]
      by_cases hc : mm.n = img.nx ∧ c.ny = img.nx ∧ c.nx = img.nx
      · rw [if_pos hc, if_pos (show mm.n = (whole img).nx ∧ c.ny = (whole img).nx ∧ c.nx = (whole img).nx from hc)]
        have hs := fun k => rx_sample (x := fun b => some (img.px k b)) (x' := fun b => img.px k b) hc (fun b _ => rfl)
        cases hg : finite1 mm with
        | none =>
          refine Or.inr ⟨_, _, rfl, rfl, rfl, fun k _ => ?_⟩
          have := hs k
          rw [hg] at this
          exact this
        | some g =>
          cases hg2 : finite2 c with
          | none =>
            refine Or.inr ⟨_, _, rfl, rfl, rfl, fun k _ => ?_⟩
            have := hs k
            rw [hg, hg2] at this
            exact this
          | some g2 =>
            refine Or.inr ⟨_, _, rfl, rfl, rfl, fun k _ => ?_⟩
            have := hs k
            rw [hg, hg2] at this
            exact this
      · rw [if_neg hc, if_neg (show ¬(mm.n = (whole img).nx ∧ c.ny = (whole img).nx ∧ c.nx = (whole img).nx) from hc)]
        exact Or.inl ⟨_, rfl, rfl⟩

/-! ### C160 -/

/-- C160: what is under the mask, numbers or NaN, has no influence on mean and covariance. -/
theorem C160_statistics (mask : A1 K) (img img' : A2 (Option K)) (h : AgreeUnmasked mask img img') :
    meanN img' (some mask) = meanN img (some mask) ∧ covN img' (some mask) = covN img (some mask) := by
  obtain ⟨h1, h2, h3⟩ := h
  have hs : ∀ b, osum (left img.ny (some mask)) (fun k => img'.px k b) = osum (left img.ny (some mask)) (fun k => img.px k b) := by
    intro b
    refine osum_congr (fun k hk => ?_)
    rw [left, Finset.mem_filter, Finset.mem_range] at hk
    exact h3 k b hk.1 hk.2
  have hf : fits img' (some mask) = fits img (some mask) := by unfold fits; simp only [h1, h2]
  constructor
  · unfold meanN
    rw [hf, h1, h2]
    simp only [hs]
  · unfold covN
    rw [hf, h1, h2]
    have e : ∀ b c, covEntryN img' (left img.ny (some mask)) b c = covEntryN img (left img.ny (some mask)) b c := by
      intro b c
      unfold covEntryN
      simp only [hs]
      congr 2
      refine osum_congr (fun k hk => ?_)
      rw [left, Finset.mem_filter, Finset.mem_range] at hk
      rw [h3 k b hk.1 hk.2, h3 k c hk.1 hk.2]
    simp only [e]

/-- C160: and so none on the ACE score or the demeaned value of any other sample. -/
theorem C160_others (inv : A2 (Option K) → Py (A2 (Option K))) (mask : A1 K) (img img' : A2 (Option K)) (h : AgreeUnmasked mask img img') (t : A1 (Option K))
    (m : Option (A1 (Option K))) (ic : Option (A2 (Option K))) :
    Both (fun r r' => r.n = img.ny ∧ r'.n = img.ny ∧ ∀ k, k < img.ny → (∀ b, b < img.nx → img'.px k b = img.px k b) → r'.px k = r.px k)
      (aceN inv img t m ic (some mask)) (aceN inv img' t m ic (some mask)) ∧
    Both (fun r r' => r.ny = img.ny ∧ r.nx = img.nx ∧ r'.ny = img.ny ∧ r'.nx = img.nx ∧ ∀ k b, k < img.ny → img'.px k b = img.px k b → r'.px k b = r.px k b)
      (demeanN img (some mask)) (demeanN img' (some mask)) := by
  obtain ⟨q1, q2⟩ := C160_statistics mask img img' h
  obtain ⟨h1, h2, h3⟩ := h
  constructor
  · have e1 : meanOr img' m (some mask) = meanOr img m (some mask) := by cases m with
      | none => exact q1
      | some _ => rfl
    have e2 : invOr inv img' ic (some mask) = invOr inv img ic (some mask) := by cases ic with
      | none => unfold invOr; simp only [q2]
      | some _ => rfl
    unfold aceN
    rw [e1, e2, h1, h2]
    cases meanOr img m (some mask) with
    | error e => exact Or.inl ⟨e, rfl, rfl⟩
    | ok mm =>
      rw [ok_bind, ok_bind]
      cases invOr inv img ic (some mask) with
      | error e => exact Or.inl ⟨e, rfl, rfl⟩
      | ok c =>
        rw [ok_bind, ok_bind]
        split
        · refine Or.inr ⟨_, _, rfl, rfl, rfl, rfl, fun k hk hb => ?_⟩
          simp only [aceScoreN]
          have hx : ∀ i, i < img.nx → lift2 (· - ·) (img'.px k i) (mm.px i) = lift2 (· - ·) (img.px k i) (mm.px i) := fun i hi => by rw [hb i hi]
          rw [quadN_congr (u := fun b => lift2 (· - ·) (t.px b) (mm.px b)) (fun i _ => rfl) hx, quadN_congr hx hx]
        · exact Or.inl ⟨_, rfl, rfl⟩
  · unfold demeanN
    rw [q1, h1, h2]
    cases meanN img (some mask) with
    | error e => exact Or.inl ⟨e, rfl, rfl⟩
    | ok mm =>
      rw [ok_bind, ok_bind]
      refine Or.inr ⟨_, _, rfl, rfl, rfl, rfl, rfl, rfl, fun k b hk hb => ?_⟩
      simp only [hb]

/-- An image whose unmasked samples are whole agrees there with the image with the gaps filled. -/
theorem agree_filled {mask : A1 K} {img : A2 (Option K)} (h : ∀ k, k < img.ny → mask.px k = 0 → ∀ b, img.px k b ≠ none) : AgreeUnmasked mask (whole (filled img)) img := by
  refine ⟨rfl, rfl, ?_⟩
  intro k b hk hm
  have := h k hk hm b
  simp only [whole, filled]
  cases e : img.px k b with
  | none => exact absurd e this
  | some v => rfl

/-- C160: when every missing value is under the mask, mean and covariance are those of the image with any numbers in the gaps (so C52, C53 apply), the ACE score
of every complete sample, masked or not, is that of the filled image (so C55 applies), and that of an incomplete sample is NaN. -/
theorem C160_numbers (inv : A2 (Option K) → Py (A2 (Option K))) (mask : A1 K) (img : A2 (Option K))
    (h : ∀ k, k < img.ny → mask.px k = 0 → ∀ b, img.px k b ≠ none) (t : A1 K) (m : Option (A1 K)) (ic : Option (A2 K)) :
    meanN img (some mask) = mean (filled img) (some mask) ∧ covN img (some mask) = cov (filled img) (some mask) ∧
    Both (fun r r' => r.n = img.ny ∧ r'.n = img.ny ∧ ∀ k, k < img.ny → (Complete img k → r.px k = r'.px k) ∧ (¬ Complete img k → r.px k = none))
      (aceN inv img (wholeV t) (m.map wholeV) (ic.map whole) (some mask)) (ace inv (filled img) t m ic (some mask)) := by
  obtain ⟨q1, q2⟩ := C160_statistics mask _ _ (agree_filled h)
  rw [meanN_whole] at q1
  rw [covN_whole] at q2
  refine ⟨q1, q2, ?_⟩
  have e1 : meanOr img (m.map wholeV) (some mask) = meanOrDefault (filled img) m (some mask) := by cases m with
    | none => exact q1
    | some _ => rfl
  have e2 : invOr inv img (ic.map whole) (some mask) = invOrDefault inv (filled img) ic (some mask) := by cases ic with
    | none => unfold invOr invOrDefault; simp only [Option.map_none, q2]; rfl
    | some _ => rfl
  unfold aceN ace
  rw [e1, e2]
  cases meanOrDefault (filled img) m (some mask) with
  | error e => exact Or.inl ⟨e, rfl, rfl⟩
  | ok mm =>
    rw [ok_bind, ok_bind]
    cases invOrDefault inv (filled img) ic (some mask) with
    | error e => exact Or.inl ⟨e, rfl, rfl⟩
    | ok c =>
      rw [ok_bind, ok_bind]
      by_cases hc : mm.n = img.nx ∧ t.n = img.nx ∧ c.ny = img.nx ∧ c.nx = img.nx
      · rw [if_pos (show mm.n = img.nx ∧ (wholeV t).n = img.nx ∧ c.ny = img.nx ∧ c.nx = img.nx from hc),
          if_pos (show mm.n = (filled img).nx ∧ t.n = (filled img).nx ∧ c.ny = (filled img).nx ∧ c.nx = (filled img).nx from hc)]
        have hs : ∀ k, Complete img k → _ := fun k hk => ace_sample (nx := img.nx) (t := fun b => some (t.px b)) (t' := fun b => t.px b) (x := fun b => img.px k b)
          (x' := fun b => (filled img).px k b) ⟨hc.1, hc.2.2.1, hc.2.2.2⟩ (fun b _ => rfl)
          (fun b hb => by
            have := hk b hb
            simp only [filled]
            cases e : img.px k b with
            | none => exact absurd e this
            | some v => rfl)
        have hbad : ∀ k, ¬ Complete img k →
            aceScoreN img.nx c.px (fun b => lift2 (· - ·) ((wholeV t).px b) (mm.px b)) (fun b => lift2 (· - ·) (img.px k b) (mm.px b)) = none := by
          intro k hk
          unfold Complete at hk
          push Not at hk
          obtain ⟨b, hb, e⟩ := hk
          unfold aceScoreN
          rw [quadN_none_right (u := fun b => lift2 (· - ·) ((wholeV t).px b) (mm.px b)) (v := fun b => lift2 (· - ·) (img.px k b) (mm.px b)) hb
            (by rw [e, lift2_none_left])]
          rfl
        cases hg : finite1 mm with
        | none =>
          refine Or.inr ⟨_, _, rfl, rfl, rfl, rfl, fun k _ => ⟨fun hk => ?_, hbad k⟩⟩
          have := hs k hk
          rw [hg] at this
          exact this
        | some g =>
          cases hg2 : finite2 c with
          | none =>
            refine Or.inr ⟨_, _, rfl, rfl, rfl, rfl, fun k _ => ⟨fun hk => ?_, hbad k⟩⟩
            have := hs k hk
            rw [hg, hg2] at this
            exact this
          | some g2 =>
            refine Or.inr ⟨_, _, rfl, rfl, rfl, rfl, fun k _ => ⟨fun hk => ?_, hbad k⟩⟩
            have := hs k hk
            rw [hg, hg2] at this
            exact this
      · rw [if_neg (show ¬(mm.n = img.nx ∧ (wholeV t).n = img.nx ∧ c.ny = img.nx ∧ c.nx = img.nx) from hc),
          if_neg (show ¬(mm.n = (filled img).nx ∧ t.n = (filled img).nx ∧ c.ny = (filled img).nx ∧ c.nx = (filled img).nx) from hc)]
        exact Or.inl ⟨_, rfl, rfl⟩

/-! ### C161 -/

/-- C161 (partial): a band of the mean is a number exactly when some sample is used and none of those used is missing there. -/
theorem C161_mean_partial (img : A2 (Option K)) (mask : Option (A1 K)) (hm : ∀ m, mask = some m → m.n = img.ny) :
    ∃ r, meanN img mask = .ok r ∧ r.n = img.nx ∧
      ∀ b, r.px b ≠ none ↔ (kept img.ny mask).card ≠ 0 ∧ ∀ k ∈ kept img.ny mask, img.px k b ≠ none := by
  have hf : fits img mask = true := by
    cases mask with
    | none => rfl
    | some m => simp [fits, hm m rfl]
  unfold meanN
  rw [if_pos hf]
  refine ⟨_, rfl, rfl, ?_⟩
  intro b
  simp only [left_kept]
  by_cases hc : ∃ k ∈ kept img.ny mask, img.px k b = none
  · obtain ⟨k, hk, e⟩ := hc
    rw [osum_none hk e, odiv_none_left]
    constructor
    · intro h; exact absurd rfl h
    · rintro ⟨-, h⟩; exact absurd e (h k hk)
  · push Not at hc
    rw [osum_some (g := fun k => (img.px k b).getD 0) (fun k hk => by
      cases e : img.px k b with
      | none => exact absurd e (hc k hk)
      | some v => rfl)]
    simp only [odiv, fdiv]
    by_cases h0 : (kept img.ny mask).card = 0
    · simp [h0]
    · have : ((kept img.ny mask).card : K) ≠ 0 := by exact_mod_cast h0
      simp only [if_neg this]
      exact ⟨fun _ => ⟨h0, hc⟩, fun _ => by simp⟩

/-- C161 (partial): with mean and inverse covariance given, a complete sample is scored as if no other sample were missing values, and an incomplete one is NaN. -/
theorem C161_given_partial (inv : A2 (Option K) → Py (A2 (Option K))) (img : A2 (Option K)) (m : A1 K) (ic : A2 K) :
    Both (fun r r' => r.n = img.ny ∧ r'.n = img.ny ∧ ∀ k, k < img.ny → (Complete img k → r.px k = r'.px k ∧ r.px k ≠ none) ∧ (¬ Complete img k → r.px k = none))
      (rxN inv img (some (wholeV m)) (some (whole ic))) (rx inv (filled img) (some m) (some ic)) := by
  by_cases hc : m.n = img.nx ∧ ic.ny = img.nx ∧ ic.nx = img.nx
  · obtain ⟨r', hr', hn', hv'⟩ := C54_score inv (filled img) m ic hc.1 hc.2.1 hc.2.2
    refine Or.inr ⟨⟨img.ny, fun k => quadN img.nx (whole ic).px (fun b => lift2 (· - ·) (img.px k b) ((wholeV m).px b))
      (fun b => lift2 (· - ·) (img.px k b) ((wholeV m).px b))⟩, r', ?_, hr', rfl, hn', ?_⟩
    · unfold rxN meanOr invOr
      simp only [ok_bind]
      rw [if_pos (show (wholeV m).n = img.nx ∧ (whole ic).ny = img.nx ∧ (whole ic).nx = img.nx from hc)]
    · intro k hk
      constructor
      · intro hcm
        have hx : ∀ b, b < img.nx → lift2 (· - ·) (img.px k b) ((wholeV m).px b) = some ((filled img).px k b - m.px b) := by
          intro b hb
          have := hcm b hb
          simp only [filled, wholeV]
          cases e : img.px k b with
          | none => exact absurd e this
          | some v => rfl
        have e : quadN img.nx (whole ic).px (fun b => lift2 (· - ·) (img.px k b) ((wholeV m).px b)) (fun b => lift2 (· - ·) (img.px k b) ((wholeV m).px b)) =
            some (quad img.nx ic.px (fun b => (filled img).px k b - m.px b) (fun b => (filled img).px k b - m.px b)) :=
          quadN_some (fun i j _ _ => rfl) hx hx
        have e2 := hv' k hk
        rw [bilin, ← quad_eq] at e2
        refine ⟨?_, ?_⟩
        · simp only []
          rw [e, e2]
          rfl
        · simp only []
          rw [e]
          simp
      · intro hk'
        unfold Complete at hk'
        push Not at hk'
        obtain ⟨b, hb, e⟩ := hk'
        exact quadN_none_left hb (by rw [e, lift2_none_left])
  · refine Or.inl ⟨.valueError, ?_, ?_⟩
    · unfold rxN meanOr invOr
      simp only [ok_bind]
      rw [if_neg (show ¬((wholeV m).n = img.nx ∧ (whole ic).ny = img.nx ∧ (whole ic).nx = img.nx) from hc)]
    · unfold rx meanOrDefault invOrDefault
      simp only [ok_bind]
      rw [if_neg (show ¬(m.n = (filled img).nx ∧ ic.ny = (filled img).nx ∧ ic.nx = (filled img).nx) from hc)]

/-- C161 is false of RX: one missing value anywhere, and with the computed statistics no sample gets a score, whatever `np.linalg.inv` does. -/
theorem C161_rx_false (inv : A2 (Option K) → Py (A2 (Option K))) (img : A2 (Option K)) (k0 b0 : Nat) (hk : k0 < img.ny) (hb : b0 < img.nx)
    (h : img.px k0 b0 = none) (ic : Option (A2 (Option K))) (r : A1 (Option K)) (hr : rxN inv img none ic = .ok r) : ∀ k, r.px k = none := by
  unfold rxN meanOr meanN at hr
  simp only [fits, if_true, ok_bind] at hr
  obtain ⟨c, -, hr⟩ := bind_ok hr
  split at hr
  · simp only [Except.ok.injEq] at hr
    subst hr
    intro k
    have e : odiv (osum (left img.ny (none : Option (A1 K))) (fun k => img.px k b0)) (some ((left img.ny (none : Option (A1 K))).card : K)) = none := by
      rw [osum_none (s := left img.ny (none : Option (A1 K))) (f := fun k => img.px k b0) (k := k0) (Finset.mem_range.mpr hk) h, odiv_none_left]
    exact quadN_none_left hb (by rw [e, lift2_none_right])
  · cases hr

/-- C161 is false of ACE: one missing value in a sample that is not masked, and no sample gets a score. -/
theorem C161_ace_false (inv : A2 (Option K) → Py (A2 (Option K))) (img : A2 (Option K)) (mask : Option (A1 K)) (k0 b0 : Nat) (hk : k0 ∈ kept img.ny mask)
    (hb : b0 < img.nx) (h : img.px k0 b0 = none) (t : A1 (Option K)) (ic : Option (A2 (Option K))) (r : A1 (Option K))
    (hr : aceN inv img t none ic mask = .ok r) : ∀ k, r.px k = none := by
  unfold aceN meanOr meanN at hr
  simp only [] at hr
  obtain ⟨mm, hm, hr⟩ := bind_ok hr
  obtain ⟨c, -, hr⟩ := bind_ok hr
  split at hm
  · simp only [Except.ok.injEq] at hm
    subst hm
    split at hr
    · simp only [Except.ok.injEq] at hr
      subst hr
      intro k
      have e : odiv (osum (left img.ny mask) (fun k => img.px k b0)) (some ((left img.ny mask).card : K)) = none := by
        rw [osum_none (k := k0) (by rw [left_kept]; exact hk) h, odiv_none_left]
      simp only [aceScoreN]
      rw [quadN_none_left (u := fun b => lift2 (· - ·) (t.px b) (odiv (osum (left img.ny mask) (fun k => img.px k b)) (some ((left img.ny mask).card : K))))
        (v := fun b => lift2 (· - ·) (img.px k b) (odiv (osum (left img.ny mask) (fun k => img.px k b)) (some ((left img.ny mask).card : K)))) hb
        (by rw [e, lift2_none_right])]
      rfl
    · cases hr
  · cases hm

/-! ### C162 -/

/-- C162: a blended pixel is a number exactly when both pixels are, and then it is the weighted mean of the two; no other pixel matters. -/
theorem C162_blend (a b : A2 (Option K)) (p : K) (y x : Nat) :
    (blendN a b p).ny = a.ny ∧ (blendN a b p).nx = a.nx ∧ ((blendN a b p).px y x = none ↔ a.px y x = none ∨ b.px y x = none) ∧
    ∀ u v, a.px y x = some u → b.px y x = some v → (blendN a b p).px y x = some (u * p + v * (1 - p)) := by
  unfold blendN
  simp only []
  refine ⟨trivial, trivial, ?_, ?_⟩
  · cases a.px y x <;> cases b.px y x <;> simp [lift2]
  · intro u v hu hv
    rw [hu, hv]
    rfl

/-- Specification: the numbers among the pixels of an image, in row-major order. -/
def numbers (img : A2 (Option K)) : List K := (pixels img).filterMap id

theorem clip_numbers (img : A2 (Option K)) (nodata : Option K) :
    (clipPixelsN img nodata).filterMap id = (match nodata with | none => numbers img | some d => (numbers img).filter (fun v => v ≠ d)) := by
  cases nodata with
  | none => rfl
  | some d =>
    unfold clipPixelsN numbers
    simp only []
    induction pixels img with
    | nil => rfl
    | cons v l ih =>
      cases v with
      | none =>
        rw [List.filter_cons_of_pos (by simp), List.filterMap_cons_none rfl, List.filterMap_cons_none rfl]
        exact ih
      | some v =>
        by_cases hv : v = d
        · subst hv
          have e : List.filterMap id (some v :: l) = v :: List.filterMap id l := rfl
          rw [List.filter_cons_of_neg (by simp), e, List.filter_cons_of_neg (by simp)]
          exact ih
        · have e : ∀ l : List (Option K), List.filterMap id (some v :: l) = v :: List.filterMap id l := fun _ => rfl
          rw [List.filter_cons_of_pos (by simpa using hv), e, e, List.filter_cons_of_pos (by simpa using hv), ih]

/-- C162: with clip limits given, a pixel's colour is that of its value alone: as in an image without missing values. A missing pixel is NaN in every channel in the
continuous mode. -/
theorem C162_colour_given (img : A2 (Option K)) (pal : Nat → Nat → K) (n : Nat) (hn : n ≠ 0) (continuous : Bool) (mn mx : K) (nodata : Option K) :
    ∃ r r', applyColormapN img pal n continuous (some mn) (some mx) nodata = .ok r ∧
      applyColormap (filled img) pal n continuous (some mn) (some mx) nodata = .ok r' ∧ r.ny = img.ny ∧ r.nx = img.nx ∧ r.nb = 3 ∧
      ∀ y x ch, (img.px y x ≠ none → r.px y x ch = r'.px y x ch) ∧ (img.px y x = none → continuous = true → r.px y x ch = none) := by
  unfold applyColormapN applyColormap clipLimitN clipLimit
  simp only [ok_bind, if_neg hn]
  refine ⟨_, _, rfl, rfl, rfl, rfl, rfl, ?_⟩
  intro y x ch
  simp only [filled]
  constructor
  · intro h
    cases e : img.px y x with
    | none => exact absurd e h
    | some v => rfl
  · intro h hc
    rw [h, hc]
    simp [colormapPixelN, olt]

/-- C162: in the continuous mode a pixel above a limit given is painted with the last colour, whatever the other pixels are: also when they leave no lower limit. -/
theorem C162_above (img : A2 (Option K)) (pal : Nat → Nat → K) (n : Nat) (hn : n ≠ 0) (mx v : K) (minClip nodata : Option K) (r : A3 (Option K))
    (hr : applyColormapN img pal n true minClip (some mx) nodata = .ok r) (y x ch : Nat) (hv : img.px y x = some v) (h : mx < v) :
    r.px y x ch = some (pal (n - 1) ch * 255) := by
  unfold applyColormapN at hr
  obtain ⟨mn, _, hr⟩ := bind_ok hr
  simp only [clipLimitN, ok_bind, if_neg hn] at hr
  cases hr
  simp only [hv]
  cases mn with
  | none => simp [colormapPixelN, olt, h]
  | some mn => simp [colormapPixelN, colormapPixel, h]

/-- C162: and a pixel below a lower limit given, and not above the upper limit, with the first colour, also when there is no upper limit. -/
theorem C162_below (img : A2 (Option K)) (pal : Nat → Nat → K) (n : Nat) (hn : n ≠ 0) (mn v : K) (maxClip nodata : Option K) (r : A3 (Option K))
    (hr : applyColormapN img pal n true (some mn) maxClip nodata = .ok r) (y x ch : Nat) (hv : img.px y x = some v) (h : v < mn)
    (hm : ∀ mx, clipLimitN maxClip (clipPixelsN img nodata) List.max? = .ok (some mx) → v ≤ mx) :
    r.px y x ch = some (pal 0 ch * 255) := by
  unfold applyColormapN at hr
  simp only [clipLimitN, ok_bind] at hr
  obtain ⟨mx, e, hr⟩ := bind_ok hr
  simp only [if_neg hn] at hr
  cases hr
  simp only [hv]
  cases mx with
  | none => simp [colormapPixelN, olt, h]
  | some mx => simp [colormapPixelN, colormapPixel, h, not_lt.mpr (hm mx e)]

/-- Beside `C162_above`: one no-data pixel above the limit and one missing pixel, nothing to take the lower limit from. -/
example : ∃ r, applyColormapN (⟨1, 2, fun _ x => if x = 0 then some 9 else none⟩ : A2 (Option ℚ)) (fun i _ => i) 3 true none (some 5) (some 9) = .ok r ∧
    r.px 0 0 1 = some 510 ∧ r.px 0 1 1 = none := by
  refine ⟨_, rfl, ?_, ?_⟩ <;> decide +kernel

/-- C162: without limits given they are the smallest and the largest number of the image other than the no-data value: missing pixels do not move them, so every number
is coloured as if the missing pixels were not there. -/
theorem C162_colour (img : A2 (Option K)) (pal : Nat → Nat → K) (n : Nat) (continuous : Bool) (nodata : Option K) (mn mx : K)
    (h1 : (match nodata with | none => numbers img | some d => (numbers img).filter (fun v => v ≠ d)).min? = some mn)
    (h2 : (match nodata with | none => numbers img | some d => (numbers img).filter (fun v => v ≠ d)).max? = some mx) :
    applyColormapN img pal n continuous none none nodata = applyColormapN img pal n continuous (some mn) (some mx) nodata := by
  rw [← clip_numbers] at h1 h2
  have hne : clipPixelsN img nodata ≠ [] := by
    intro e
    rw [e] at h1
    cases h1
  have hl : ∀ pick : List K → Option K, clipLimitN none (clipPixelsN img nodata) pick = .ok (pick ((clipPixelsN img nodata).filterMap id)) := by
    intro pick
    cases e : clipPixelsN img nodata with
    | nil => exact absurd e hne
    | cons v l => rfl
  unfold applyColormapN
  rw [hl, hl, h1, h2]
  rfl

/-! ### C163 -/

/-- C163 (partial): an image without missing values is normalised as C10 says. -/
theorem C163_whole_partial (img : A2 K) (newMin newMax : K) : normalizeN (whole img) newMin newMax = normalizeGrayscale img newMin newMax := by
  have hp : pixels (whole img) = (pixels img).map some := by
    unfold pixels whole
    simp only [List.map_flatMap, List.map_map]
    rfl
  have hall : ((pixels img).map some).all (fun v => v.isSome) = true := by simp
  have hfm : ((pixels img).map some).filterMap id = pixels img := by
    induction pixels img with
    | nil => rfl
    | cons v l ih => simp
  unfold normalizeN normalizeGrayscale npMinN npMaxN npMin npMax
  rw [hp]
  cases e : pixels img with
  | nil => rfl
  | cons v l =>
    rw [e] at hall hfm
    simp only [List.map_cons] at hall hfm ⊢
    rw [if_pos hall, if_pos hall, hfm]
    cases e1 : (v :: l).min? with
    | none => rw [List.min?_eq_none_iff] at e1; cases e1
    | some mn =>
      cases e2 : (v :: l).max? with
      | none => rw [List.max?_eq_none_iff] at e2; cases e2
      | some mx => rfl

/-- C163 is false of `normalize_grayscale_image`: one missing pixel makes every pixel NaN. -/
theorem C163_normalise_false (img : A2 (Option K)) (newMin newMax : K) (y0 x0 : Nat) (hy : y0 < img.ny) (hx : x0 < img.nx) (h : img.px y0 x0 = none) :
    ∃ r, normalizeN img newMin newMax = .ok r ∧ r.ny = img.ny ∧ r.nx = img.nx ∧ ∀ y x, r.px y x = none := by
  have hm : img.px y0 x0 ∈ pixels img := mem_pixels.mpr ⟨y0, x0, hy, hx, rfl⟩
  have hall : (pixels img).all (fun v => v.isSome) = false := by
    rw [Bool.eq_false_iff]
    intro hc
    rw [List.all_eq_true] at hc
    have := hc _ hm
    rw [h] at this
    cases this
  have e1 : npMinN img = .ok none := by
    unfold npMinN
    cases e : pixels img with
    | nil => rw [e] at hm; cases hm
    | cons v l =>
      rw [e] at hall
      simp only [hall]
      rfl
  have e2 : npMaxN img = .ok none := by
    unfold npMaxN
    cases e : pixels img with
    | nil => rw [e] at hm; cases hm
    | cons v l =>
      rw [e] at hall
      simp only [hall]
      rfl
  unfold normalizeN
  rw [e1, e2]
  refine ⟨_, rfl, rfl, rfl, ?_⟩
  intro y x
  simp only [lift2_none_right, odiv_none_left, Option.map_none]

end

/-- C161 (partial): the spectral angle of a sample depends on that sample alone: complete samples are scored as in the filled image, incomplete ones are NaN. -/
theorem C161_sam_partial (img : A2 (Option ℝ)) (t : A1 ℝ) :
    Both (fun r r' => r.n = img.ny ∧ r'.n = img.ny ∧ ∀ k, k < img.ny → (Complete img k → r.px k = r'.px k) ∧ (¬ Complete img k → r.px k = none))
      (samN img (wholeV t)) (sam (filled img) t) := by
  unfold samN sam
  by_cases h : t.n = img.nx
  · rw [if_pos (show (wholeV t).n = img.nx from h), if_pos (show t.n = (filled img).nx from h)]
    refine Or.inr ⟨_, _, rfl, rfl, rfl, rfl, fun k hk => ⟨fun hc => ?_, fun hc => ?_⟩⟩
    · have hx : ∀ b ∈ range img.nx, img.px k b = some ((filled img).px k b) := by
        intro b hb
        have := hc b (Finset.mem_range.mp hb)
        simp only [filled]
        cases e : img.px k b with
        | none => exact absurd e this
        | some v => rfl
      simp only []
      rw [osum_some (f := fun b => lift2 (· * ·) ((wholeV t).px b) (img.px k b)) (g := fun b => t.px b * (filled img).px k b) (fun b hb => by rw [hx b hb]; rfl),
        osum_some (f := fun b => lift2 (· * ·) ((wholeV t).px b) ((wholeV t).px b)) (g := fun b => t.px b * t.px b) (fun b hb => rfl),
        osum_some (f := fun b => lift2 (· * ·) (img.px k b) (img.px k b)) (g := fun b => (filled img).px k b * (filled img).px k b) (fun b hb => by rw [hx b hb]; rfl)]
      rfl
    · unfold Complete at hc
      push Not at hc
      obtain ⟨b, hb, e⟩ := hc
      simp only []
      rw [osum_none (f := fun b => lift2 (· * ·) ((wholeV t).px b) (img.px k b)) (Finset.mem_range.mpr hb) (by rw [e, lift2_none_right]), odiv_none_left]
  · rw [if_neg (show ¬(wholeV t).n = img.nx from h), if_neg (show ¬t.n = (filled img).nx from h)]
    exact Or.inl ⟨_, rfl, rfl⟩

/-- C163 is false of `create_detection_image_from_scores`: numpy sorts NaN last (the top element here), so a chip with a missing score is painted over all the chips it overlaps,
however well they score. -/
theorem C163_detection_false {K : Type} [Field K] [LinearOrder K] [IsStrictOrderedRing K] (scores : List (WithTop K)) (uls : List (Int × Int)) (cx cy : Nat)
    (order : List Nat) (hlen : scores.length = uls.length) (hnn : ∀ ul ∈ uls, 0 ≤ ul.1 ∧ 0 ≤ ul.2) (ho : IsArgsort scores order) (j : Nat) (hj : scores[j]? = some ⊤)
    (y x : Nat) (hc : Covers uls cx cy j y x) : ∃ img, detectionImage scores uls cx cy order = .ok img ∧ img.px y x = ⊤ := by
  have hne : uls ≠ [] := by
    rintro rfl
    obtain ⟨ul, h, -⟩ := hc
    cases h
  obtain ⟨img, h1, -, -, -, h2⟩ := C11_detection_image scores uls cx cy order hne hlen hnn ho
  refine ⟨img, h1, ?_⟩
  rcases h2 y x with ⟨hno, -⟩ | ⟨k, hk, e, hmax⟩
  · exact absurd hc (hno j)
  · have := hmax j hc
    rw [List.getD_eq_getElem?_getD, hj, Option.getD_some, ← e] at this
    exact top_le_iff.mp this

theorem lookup_zero {K : Type} [Field K] [LinearOrder K] [IsStrictOrderedRing K] (pal : Nat → K) : ∀ (todo i : Nat) (st : K × K), 0 < i → lookupLoop pal 0 todo i st = st
  | 0, _, _, _ => rfl
  | todo + 1, i, st, hi => by
    rw [lookupLoop, if_neg (by omega), lookup_zero pal todo (i + 1) st (by omega)]

/-- C163 is false of `apply_colormap_to_grayscale_image` in the discrete mode: a missing pixel gets the first colour of the palette, as the smallest values do. -/
theorem C163_discrete_false {K : Type} [Field K] [LinearOrder K] [IsStrictOrderedRing K] (img : A2 (Option K)) (pal : Nat → Nat → K) (n : Nat) (hn : 2 ≤ n)
    (minClip maxClip nodata : Option K) (r : A3 (Option K)) (hr : applyColormapN img pal n false minClip maxClip nodata = .ok r) (y x ch : Nat)
    (h : img.px y x = none) : r.px y x ch = some (pal 0 ch * 255) := by
  unfold applyColormapN at hr
  obtain ⟨mn, -, hr⟩ := bind_ok hr
  obtain ⟨mx, -, hr⟩ := bind_ok hr
  rw [if_neg (by omega)] at hr
  simp only [Except.ok.injEq] at hr
  subst hr
  obtain ⟨m, rfl⟩ : ∃ m, n = m + 2 := ⟨n - 2, by omega⟩
  have e : lookupLoop (fun i => pal i ch) 0 (m + 2 - 1) 0 (0, 0) = (pal 0 ch, pal 1 ch) := by
    rw [show m + 2 - 1 = m + 1 by omega, lookupLoop, lookup_zero _ _ _ _ (by omega)]
    simp
  have o1 : ∀ a : Option K, olt a none = false := fun a => by cases a <;> rfl
  have o2 : ∀ a : Option K, olt none a = false := fun a => by cases a <;> rfl
  simp only [h, colormapPixelN, o2, e]
  cases mn <;> cases mx <;> simp

/-! ### The hypotheses can be met -/

/-- Three samples of two bands, the second masked and incomplete: the statistics are those of the other two. -/
example : ∃ (mask : A1 ℚ) (img : A2 (Option ℚ)), (∀ k, k < img.ny → mask.px k = 0 → ∀ b, img.px k b ≠ none) ∧ ¬ Complete img 1 ∧ Complete img 0 ∧
    kept img.ny (some mask) = {0, 2} := by
  refine ⟨⟨3, fun k => if k = 1 then 1 else 0⟩, ⟨3, 2, fun k b => if k = 1 ∧ b = 0 then none else some (k + b : ℚ)⟩, ?_, ?_, ?_, ?_⟩
  · intro k _ hm b
    have : k ≠ 1 := by
      rintro rfl
      simp at hm
    simp [this]
  · intro h
    exact h 0 (by decide) (by simp)
  · intro b _
    simp
  · simp only [kept]
    decide +kernel

/-- Two overlapping chips, the first without score: argsort puts it last and it hides the second, which scores 5. -/
example : IsArgsort ([⊤, ((5 : ℚ) : WithTop ℚ)]) [1, 0] ∧ Covers [(0, 0), (0, 1)] 2 1 0 0 1 ∧ Covers [(0, 0), (0, 1)] 2 1 1 0 1 := by
  refine ⟨⟨by decide, ?_⟩, ⟨(0, 0), rfl, by decide⟩, ⟨(0, 1), rfl, by decide⟩⟩
  simp

/-- An image with a missing pixel and two different numbers: limits as C162 asks. -/
example : (numbers (⟨1, 3, fun _ x => if x = 1 then none else some (x : ℚ)⟩ : A2 (Option ℚ))).min? = some 0 ∧
    (numbers (⟨1, 3, fun _ x => if x = 1 then none else some (x : ℚ)⟩ : A2 (Option ℚ))).max? = some 2 := by
  constructor <;> decide +kernel

/-- In the discrete mode the missing pixel in the middle looks like the 0 on its left. -/
example : ∃ r, applyColormapN (K := ℚ) ⟨1, 3, fun _ x => if x = 1 then none else some (x : ℚ)⟩ (fun i _ => (i : ℚ) + 1) 2 false none none none = .ok r ∧
    r.px 0 1 0 = r.px 0 0 0 ∧ r.px 0 1 0 = some 255 := by
  refine ⟨_, rfl, ?_, ?_⟩ <;> decide +kernel

end Verif.Missing
