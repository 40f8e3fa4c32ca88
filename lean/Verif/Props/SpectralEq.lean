import Verif.Props.SpectralStats
import Mathlib.LinearAlgebra.Matrix.Notation

/-! C57, C58: agreement of the two-dimensional with the one-dimensional routines, covariance equalisation. -/

set_option linter.unusedSectionVars false

namespace Verif.Spectral
open Verif ImageUtils
open Finset (range)
open scoped BigOperators

/-! ### C57 -/

/-- Specification: the samples of a cube, sample `y * nx + x` being pixel `(y, x)`. -/
def samplesOf {α : Type} (c : A3 α) : A2 α := ⟨c.ny * c.nx, c.nb, fun k b => c.px (k / c.nx) (k % c.nx) b⟩

/-- Specification: a mask image in the same order. -/
def maskSamples {α : Type} (m : A2 α) : A1 α := ⟨m.ny * m.nx, fun k => m.px (k / m.nx) (k % m.nx)⟩

/-- The samples are the pixels: every pixel is a sample and every sample a pixel. -/
theorem samplesOf_spec {α : Type} (c : A3 α) :
    (∀ y x b, y < c.ny → x < c.nx → y * c.nx + x < (samplesOf c).ny ∧ (samplesOf c).px (y * c.nx + x) b = c.px y x b) ∧
    (∀ k, k < (samplesOf c).ny → ∃ y x, y < c.ny ∧ x < c.nx ∧ k = y * c.nx + x) := by
  constructor
  · intro y x b hy hx
    refine ⟨idx_lt hy hx, ?_⟩
    unfold samplesOf
    simp only [(divmod_unique hx).1, (divmod_unique hx).2]
  · intro k hk
    have hk' : k < c.ny * c.nx := hk
    have hx : 0 < c.nx := Nat.pos_of_ne_zero (by rintro h; rw [h] at hk'; omega)
    refine ⟨k / c.nx, k % c.nx, ?_, Nat.mod_lt _ hx, ?_⟩
    · rw [Nat.div_lt_iff_lt_mul hx]; exact hk'
    · rw [Nat.mul_comm]; exact (Nat.div_add_mod k c.nx).symm

/-- Specification: a two-dimensional result agrees with a one-dimensional one: same error, or the value at
`(y, x)` is that of sample `y * nx + x`. -/
def AgreeBand {α : Type} (ny nx : Nat) (one : Py (A1 α)) (two : Py (A2 α)) : Prop :=
  match one with
  | .error e => two = .error e
  | .ok r => ∃ q, two = .ok q ∧ q.ny = ny ∧ q.nx = nx ∧ ∀ y x, y < ny → x < nx → q.px y x = r.px (y * nx + x)

/-- The same for cubes. -/
def AgreeCube {α : Type} (ny nx : Nat) (one : Py (A2 α)) (two : Py (A3 α)) : Prop :=
  match one with
  | .error e => two = .error e
  | .ok r => ∃ q, two = .ok q ∧ q.ny = ny ∧ q.nx = nx ∧ q.nb = r.nx ∧
      ∀ y x b, y < ny → x < nx → q.px y x b = r.px (y * nx + x) b

theorem agreeBand_of {α : Type} (ny nx : Nat) (one : Py (A1 α)) (h : ∀ r, one = .ok r → r.n = ny * nx) :
    AgreeBand ny nx one (do let r ← one; unflattenBand r nx ny) := by
  cases one with
  | error e => rfl
  | ok r =>
    refine ⟨⟨ny, nx, fun y x => r.px (y * nx + x)⟩, ?_, rfl, rfl, fun y x _ _ => rfl⟩
    simp only [ok_bind, unflattenBand, h r rfl, if_true]

theorem agreeCube_of {α : Type} (ny nx : Nat) (one : Py (A2 α)) (h : ∀ r, one = .ok r → r.ny = ny * nx) :
    AgreeCube ny nx one (do let r ← one; unflattenCube r nx ny) := by
  cases one with
  | error e => rfl
  | ok r =>
    refine ⟨⟨ny, nx, r.nx, fun y x b => r.px (y * nx + x) b⟩, ?_, rfl, rfl, rfl, fun y x b _ _ => rfl⟩
    simp only [ok_bind, unflattenCube, h r rfl, if_true]

section
variable {K : Type} [Field K] [LinearOrder K] [IsStrictOrderedRing K]

theorem rx_shape (inv : A2 (Option K) → Py (A2 (Option K))) (img : A2 K) (m : Option (A1 K)) (ic : Option (A2 K)) (r : A1 (Option K))
    (h : rx inv img m ic = .ok r) : r.n = img.ny := by
  unfold rx at h
  cases h1 : meanOrDefault img m none with
  | error e => rw [h1] at h; simp [bind, Except.bind] at h
  | ok m' =>
    rw [h1] at h
    cases h2 : invOrDefault inv img ic none with
    | error e => rw [h2] at h; simp [bind, Except.bind] at h
    | ok ic' =>
      rw [h2] at h
      simp only [ok_bind] at h
      split at h
      · split at h <;> simp only [Except.ok.injEq] at h <;> rw [← h]
      · simp at h

theorem ace_shape (inv : A2 (Option K) → Py (A2 (Option K))) (img : A2 K) (t : A1 K) (m : Option (A1 K)) (ic : Option (A2 K))
    (mask : Option (A1 K)) (r : A1 (Option K)) (h : ace inv img t m ic mask = .ok r) : r.n = img.ny := by
  unfold ace at h
  cases h1 : meanOrDefault img m mask with
  | error e => rw [h1] at h; simp [bind, Except.bind] at h
  | ok m' =>
    rw [h1] at h
    cases h2 : invOrDefault inv img ic mask with
    | error e => rw [h2] at h; simp [bind, Except.bind] at h
    | ok ic' =>
      rw [h2] at h
      simp only [ok_bind] at h
      split at h
      · split at h <;> simp only [Except.ok.injEq] at h <;> rw [← h]
      · simp at h

/-- C57: mean and covariance of a cube are those of its samples. -/
theorem C57_statistics (c : A3 K) (m : Option (A2 K)) :
    mean2 c m = mean (samplesOf c) (m.map maskSamples) ∧ cov2 c m = cov (samplesOf c) (m.map maskSamples) := ⟨rfl, rfl⟩

/-- C57: demeaning a cube demeans its samples. -/
theorem C57_demean (c : A3 K) (m : Option (A2 K)) :
    AgreeCube c.ny c.nx (demean (samplesOf c) (m.map maskSamples)) (demean2 c m) := by
  apply agreeCube_of
  intro r hr
  unfold demean at hr
  cases h1 : mean (samplesOf c) (m.map maskSamples) with
  | error e => rw [h1] at hr; simp [bind, Except.bind] at hr
  | ok v =>
    rw [h1] at hr
    simp only [ok_bind, Except.ok.injEq] at hr
    rw [← hr]; rfl

/-- C57: RX. -/
theorem C57_rx (inv : A2 (Option K) → Py (A2 (Option K))) (c : A3 K) (m : Option (A1 K)) (ic : Option (A2 K)) :
    AgreeBand c.ny c.nx (rx inv (samplesOf c) m ic) (rx2 inv c m ic) :=
  agreeBand_of _ _ _ (fun r hr => rx_shape inv _ m ic r hr)

/-- C57: ACE. -/
theorem C57_ace (inv : A2 (Option K) → Py (A2 (Option K))) (c : A3 K) (t : A1 K) (m : Option (A1 K)) (ic : Option (A2 K))
    (mask : Option (A2 K)) :
    AgreeBand c.ny c.nx (ace inv (samplesOf c) t m ic (mask.map maskSamples)) (ace2 inv c t m ic mask) :=
  agreeBand_of _ _ _ (fun r hr => ace_shape inv _ t m ic _ r hr)

/-- C57: ACE on demeaned data. -/
theorem C57_ace_demeaned (c : A3 K) (t : A1 K) (ic : A2 K) :
    AgreeBand c.ny c.nx (aceDemeaned (samplesOf c) t ic) (aceDemeaned2 c t ic) := by
  apply agreeBand_of
  intro r hr
  unfold aceDemeaned at hr
  split at hr
  · simp only [Except.ok.injEq] at hr; rw [← hr]; rfl
  · simp at hr

/-- C57: SAM. -/
theorem C57_sam (c : A3 ℝ) (t : A1 ℝ) : AgreeBand c.ny c.nx (sam (samplesOf c) t) (sam2 c t) := by
  apply agreeBand_of
  intro r hr
  unfold sam at hr
  split at hr
  · simp only [Except.ok.injEq] at hr; rw [← hr]; rfl
  · simp at hr

/-- C57: covariance equalisation. -/
theorem C57_cov_eq (pw : A2 K → K → Py (A2 K)) (c1 c2 : A3 K) (m1 m2 : Option (A2 K)) :
    AgreeCube c1.ny c1.nx (covEq pw (samplesOf c1) (samplesOf c2) (m1.map maskSamples) (m2.map maskSamples))
      (covEq2 pw c1 c2 m1 m2) := by
  apply agreeCube_of
  intro r hr
  unfold covEq at hr
  cases h1 : covEqMatrix pw (samplesOf c1) (samplesOf c2) (m1.map maskSamples) (m2.map maskSamples) with
  | error e => rw [h1] at hr; simp [bind, Except.bind] at hr
  | ok l =>
    rw [h1] at hr
    simp only [ok_bind] at hr
    split at hr
    · simp only [Except.ok.injEq] at hr; rw [← hr]; rfl
    · simp at hr

/-- C57 (partial): the equalisation matrix, when both masks are given.  Missing: calls without masks
(`C57_transform_no_mask_false`). -/
theorem C57_transform_partial (pw : A2 K → K → Py (A2 K)) (c1 c2 : A3 K) (m1 m2 : A2 K) :
    covEqMatrix2 pw c1 c2 (some m1) (some m2) =
      covEqMatrix pw (samplesOf c1) (samplesOf c2) (some (maskSamples m1)) (some (maskSamples m2)) := rfl

/-- C57 fails: without masks (the default) the two-dimensional routine always raises AttributeError. -/
theorem C57_transform_no_mask_false (pw : A2 K → K → Py (A2 K)) (c1 c2 : A3 K) :
    covEqMatrix2 pw c1 c2 none none = .error .attributeError := rfl

/-! ### C58 -/

/-- Specification: the `n` by `n` matrix of a table. -/
def toM (n : Nat) (f : Nat → Nat → K) : Matrix (Fin n) (Fin n) K := fun i j => f i j

/-- Specification of `fractional_matrix_power` for exponents 1/2 and -1/2 on the symmetric matrices used here:
a symmetric matrix whose square is the argument, and a symmetric matrix `r` with `r a r = 1`. -/
def PowContract (pw : A2 K → K → Py (A2 K)) : Prop :=
  ∀ (n : Nat) (a r : A2 K), a.ny = n → a.nx = n → (toM n a.px).transpose = toM n a.px →
    (pw a (1 / 2) = .ok r → r.ny = n ∧ r.nx = n ∧ (toM n r.px).transpose = toM n r.px ∧ toM n r.px * toM n r.px = toM n a.px) ∧
    (pw a (-1 / 2) = .ok r → r.ny = n ∧ r.nx = n ∧ (toM n r.px).transpose = toM n r.px ∧
      toM n r.px * toM n a.px * toM n r.px = 1)

theorem toM_mul (n : Nat) (a b : A2 K) (ha : a.nx = n) : toM n (matMul a b).px = toM n a.px * toM n b.px := by
  ext i j
  simp only [toM, matMul, Matrix.mul_apply, ha]
  rw [Finset.sum_range (fun k => a.px i k * b.px k j)]

theorem toM_eye (n : Nat) : toM n (eye (K := K) n).px = 1 := by
  ext i j
  simp only [toM, eye, Matrix.one_apply, Fin.ext_iff]

/-- C58: the equalised image has, over its unmasked samples, exactly the covariance matrix of the scene to
match. -/
theorem C58_covariance (pw : A2 K → K → Py (A2 K)) (hpw : PowContract pw) (s1 s2 : A2 K) (m1 m2 : Option (A1 K))
    (hm1 : MaskFits s1 m1) (hm2 : MaskFits s2 m2) (hk1 : 2 ≤ (kept s1.ny m1).card) (hk2 : 2 ≤ (kept s2.ny m2).card)
    (hb : s2.nx = s1.nx) (out : A2 K) (h : covEq pw s1 s2 m1 m2 = .ok out) :
    out.ny = s1.ny ∧ out.nx = s1.nx ∧
      ∃ c c' : A2 (Option K), cov out m1 = .ok (.mat c) ∧ cov s2 m2 = .ok (.mat c') ∧
        ∀ i j, i < s1.nx → j < s1.nx → c.px i j = c'.px i j := by
  have h1 : s1.nx ≠ 1 := by
    intro h1
    unfold covEq covEqMatrix at h
    rw [cov_eq s1 m1 hm1, cov_eq s2 m2 hm2] at h
    unfold covOver at h
    rw [if_pos h1] at h
    simp [bind, Except.bind] at h
  have hc : ∀ (s : A2 K) (m : Option (A1 K)), MaskFits s m → 2 ≤ (kept s.ny m).card → s.nx = s1.nx →
      cov s m = .ok (.mat ⟨s1.nx, s1.nx, fun i j => some (cv s (kept s.ny m) i j)⟩) := by
    intro s m hm hk hs
    rw [cov_eq s m hm]
    unfold covOver
    rw [hs, if_neg h1]
    congr 3
    funext b c
    exact covEntry_eq s _ hk b c
  have hc1 := hc s1 m1 hm1 hk1 rfl
  have hc2 := hc s2 m2 hm2 hk2 hb
  obtain ⟨g1, hg1, g1y, g1x, hv1⟩ := finite2_of (⟨s1.nx, s1.nx, fun i j => some (cv s1 (kept s1.ny m1) i j)⟩ : A2 (Option K))
    (fun i j _ _ => ⟨_, rfl⟩)
  obtain ⟨g2, hg2, g2y, g2x, hv2⟩ := finite2_of (⟨s1.nx, s1.nx, fun i j => some (cv s2 (kept s2.ny m2) i j)⟩ : A2 (Option K))
    (fun i j _ _ => ⟨_, rfl⟩)
  have e1 : toM s1.nx g1.px = toM s1.nx (cv s1 (kept s1.ny m1)) := by
    ext i j
    have := hv1 i j i.2 j.2
    simpa [toM] using this.symm
  have e2 : toM s1.nx g2.px = toM s1.nx (cv s2 (kept s2.ny m2)) := by
    ext i j
    have := hv2 i j i.2 j.2
    simpa [toM] using this.symm
  have sy1 : (toM s1.nx g1.px).transpose = toM s1.nx g1.px := by
    rw [e1]; ext i j; exact cv_symm s1 _ j i
  have sy2 : (toM s1.nx g2.px).transpose = toM s1.nx g2.px := by
    rw [e2]; ext i j; exact cv_symm s2 _ j i
  unfold covEq covEqMatrix at h
  rw [hc1, hc2] at h
  simp only [ok_bind] at h
  rw [hg1, hg2] at h
  simp only [] at h
  cases hr : pw g1 (-1 / 2) with
  | error e => rw [hr] at h; simp [bind, Except.bind] at h
  | ok r =>
    rw [hr] at h
    cases hs : pw g2 (1 / 2) with
    | error e => rw [hs] at h; simp [bind, Except.bind] at h
    | ok s =>
      rw [hs] at h
      simp only [ok_bind] at h
      obtain ⟨ry, rx', rs, rr⟩ := (hpw s1.nx g1 r g1y g1x sy1).2 hr
      obtain ⟨sy, sx, ss, sq⟩ := (hpw s1.nx g2 s g2y g2x sy2).1 hs
      rw [if_pos ⟨sx, ry⟩] at h
      simp only [ok_bind] at h
      have hlx : (matMul (matMul s (eye s1.nx)) r).nx = s1.nx := rx'
      have hly : (matMul (matMul s (eye s1.nx)) r).ny = s1.nx := sy
      rw [if_pos hlx] at h
      simp only [Except.ok.injEq] at h
      set l := matMul (matMul s (eye s1.nx)) r with hl
      have hM : toM s1.nx l.px = toM s1.nx s.px * toM s1.nx r.px := by
        rw [hl, toM_mul s1.nx _ _ (by rfl), toM_mul s1.nx s _ sx, toM_eye, mul_one]
      have hoy : out.ny = s1.ny := by rw [← h]
      have hox : out.nx = s1.nx := by rw [← h]; exact hly
      refine ⟨hoy, hox, ?_⟩
      have hmo : MaskFits out m1 := by
        cases m1 with
        | none => trivial
        | some m => rw [MaskFits] at hm1 ⊢; rw [hoy]; exact hm1
      have hko : 2 ≤ (kept out.ny m1).card := by rw [hoy]; exact hk1
      refine ⟨_, _, hc out m1 hmo hko hox, hc2, ?_⟩
      intro i j hi hj
      simp only [Option.some.injEq]
      rw [hoy]
      have haff := cv_affine s1 out (kept s1.ny m1) (by omega) s1.nx l.px (fun _ => 0) i j
        (fun k _ => by rw [← h]; simp only [hlx, add_zero]) (fun k _ => by rw [← h]; simp only [hlx, add_zero])
      rw [haff]
      have hprod : toM s1.nx l.px * toM s1.nx (cv s1 (kept s1.ny m1)) * (toM s1.nx l.px).transpose = toM s1.nx (cv s2 (kept s2.ny m2)) := by
        rw [hM, Matrix.transpose_mul, rs, ss, ← e1, ← e2, ← sq]
        calc toM s1.nx s.px * toM s1.nx r.px * toM s1.nx g1.px * (toM s1.nx r.px * toM s1.nx s.px)
            = toM s1.nx s.px * (toM s1.nx r.px * toM s1.nx g1.px * toM s1.nx r.px) * toM s1.nx s.px := by
              simp only [Matrix.mul_assoc]
          _ = toM s1.nx s.px * toM s1.nx s.px := by rw [rr, mul_one]
      have hij := congrFun (congrFun hprod ⟨i, hi⟩) ⟨j, hj⟩
      simp only [Matrix.mul_apply, Matrix.transpose_apply, toM] at hij
      rw [← hij, Finset.sum_range (fun i' => ∑ j' ∈ range s1.nx, l.px i i' * cv s1 (kept s1.ny m1) i' j' * l.px j j')]
      have : ∀ a : Fin s1.nx, ∑ j' ∈ range s1.nx, l.px i a * cv s1 (kept s1.ny m1) a j' * l.px j j' =
          ∑ b : Fin s1.nx, l.px i a * cv s1 (kept s1.ny m1) a b * l.px j b := by
        intro a
        rw [Finset.sum_range (fun j' => l.px i a * cv s1 (kept s1.ny m1) a j' * l.px j j')]
      rw [Finset.sum_congr rfl (fun a _ => this a), Finset.sum_comm]
      refine Finset.sum_congr rfl (fun b _ => ?_)
      rw [Finset.sum_mul]

/-- C58 fails for one band: the covariance is not a matrix and the matrix power raises ValueError. -/
theorem C58_one_band_false (pw : A2 K → K → Py (A2 K)) (s1 s2 : A2 K) (h1 : s1.nx = 1) :
    covEq pw s1 s2 none none = .error .valueError := by
  unfold covEq covEqMatrix
  rw [cov_eq s1 none trivial, cov_eq s2 none trivial]
  unfold covOver
  rw [if_pos h1]
  rfl

/-- C58, malformed calls: scenes with different numbers of bands are never equalised; when the two matrix
powers themselves succeed the error is ValueError. -/
theorem C58_band_mismatch (pw : A2 K → K → Py (A2 K))
    (hsq : ∀ a e r, pw a e = .ok r → r.ny = a.ny ∧ r.nx = a.nx)
    (s1 s2 : A2 K) (m1 m2 : Option (A1 K))
    (hm1 : MaskFits s1 m1) (hm2 : MaskFits s2 m2) (hk1 : 2 ≤ (kept s1.ny m1).card) (hk2 : 2 ≤ (kept s2.ny m2).card)
    (h1 : s1.nx ≠ 1) (h2 : s2.nx ≠ 1) (hb : s2.nx ≠ s1.nx) :
    (∀ out, covEq pw s1 s2 m1 m2 ≠ .ok out) ∧
    ((∀ a e, ∃ r, pw a e = .ok r) → covEq pw s1 s2 m1 m2 = .error .valueError) := by
  have hc : ∀ (s : A2 K) (m : Option (A1 K)), MaskFits s m → 2 ≤ (kept s.ny m).card → s.nx ≠ 1 →
      cov s m = .ok (.mat ⟨s.nx, s.nx, fun i j => some (cv s (kept s.ny m) i j)⟩) := by
    intro s m hm hk hs
    rw [cov_eq s m hm]
    unfold covOver
    rw [if_neg hs]
    congr 3
    funext b c
    exact covEntry_eq s _ hk b c
  obtain ⟨g1, hg1, g1y, g1x, -⟩ := finite2_of (⟨s1.nx, s1.nx, fun i j => some (cv s1 (kept s1.ny m1) i j)⟩ : A2 (Option K))
    (fun i j _ _ => ⟨_, rfl⟩)
  obtain ⟨g2, hg2, g2y, g2x, -⟩ := finite2_of (⟨s2.nx, s2.nx, fun i j => some (cv s2 (kept s2.ny m2) i j)⟩ : A2 (Option K))
    (fun i j _ _ => ⟨_, rfl⟩)
  have key : ∀ r s, pw g1 (-1 / 2) = .ok r → pw g2 (1 / 2) = .ok s → covEq pw s1 s2 m1 m2 = .error .valueError := by
    intro r s hr hs
    unfold covEq covEqMatrix
    rw [hc s1 m1 hm1 hk1 h1, hc s2 m2 hm2 hk2 h2]
    simp only [ok_bind]
    rw [hg1, hg2]
    simp only [hr, hs, ok_bind]
    have hsx : s.nx ≠ s1.nx := by
      rw [(hsq _ _ _ hs).2, g2x]; exact hb
    rw [if_neg (fun hh => hsx hh.1)]
    rfl
  constructor
  · intro out h
    have h' := h
    unfold covEq covEqMatrix at h'
    rw [hc s1 m1 hm1 hk1 h1, hc s2 m2 hm2 hk2 h2] at h'
    simp only [ok_bind] at h'
    rw [hg1, hg2] at h'
    simp only [] at h'
    cases hr : pw g1 (-1 / 2) with
    | error e => rw [hr] at h'; simp [bind, Except.bind] at h'
    | ok r =>
      cases hs : pw g2 (1 / 2) with
      | error e => rw [hr, hs] at h'; simp [bind, Except.bind] at h'
      | ok s => rw [key r s hr hs] at h; simp at h
  · intro hall
    obtain ⟨r, hr⟩ := hall g1 (-1 / 2)
    obtain ⟨s, hs⟩ := hall g2 (1 / 2)
    exact key r s hr hs

end

/-- The samples (1,1), (1,-1), (-1,1), (-1,-1), (0,0), whose covariance is the identity. -/
def square5 : A2 ℚ := ⟨5, 2, fun k b =>
  if k = 4 then 0 else if b = 0 then (if k < 2 then 1 else -1) else (if k % 2 = 0 then 1 else -1)⟩

/-- Powers of the identity, to show that the contract can be met. -/
def pwId (a : A2 ℚ) (_ : ℚ) : Py (A2 ℚ) :=
  if a.ny = 2 ∧ a.nx = 2 ∧ a.px 0 0 = 1 ∧ a.px 0 1 = 0 ∧ a.px 1 0 = 0 ∧ a.px 1 1 = 1 then .ok a else .error .valueError

/-- The hypotheses of `C58_covariance` are met. -/
example : PowContract pwId ∧ ∃ out, covEq pwId square5 square5 none none = .ok out := by
  constructor
  · intro n a r hy hx _
    have key : ∀ x, pwId a x = .ok r → r = a ∧ n = 2 ∧ toM n a.px = 1 := by
      intro x h
      unfold pwId at h
      split at h
      · rename_i hc
        obtain ⟨c1, c2, c3, c4, c5, c6⟩ := hc
        simp only [Except.ok.injEq] at h
        have hn : n = 2 := by omega
        subst hn
        refine ⟨h.symm, rfl, ?_⟩
        ext i j
        fin_cases i <;> fin_cases j <;> simp [toM, c3, c4, c5, c6]
      · simp at h
    constructor
    · intro h
      obtain ⟨rfl, hn, hone⟩ := key _ h
      exact ⟨hy, hx, by rw [hone]; simp, by rw [hone]; simp⟩
    · intro h
      obtain ⟨rfl, hn, hone⟩ := key _ h
      exact ⟨hy, hx, by rw [hone]; simp, by rw [hone]; simp⟩
  · have hcv : ∀ i j, i < 2 → j < 2 → cv square5 (range 5) i j = if i = j then 1 else 0 := by
      intro i j hi hj
      have hi' : i = 0 ∨ i = 1 := by omega
      have hj' : j = 0 ∨ j = 1 := by omega
      rcases hi' with rfl | rfl <;> rcases hj' with rfl | rfl <;>
        norm_num [cv, avg, square5, Finset.sum_range_succ]
    have hcov : cov square5 none = .ok (.mat ⟨2, 2, fun i j => some (cv square5 (range 5) i j)⟩) := by
      rw [cov_eq _ none trivial]
      unfold covOver
      rw [if_neg (by decide)]
      congr 3
      funext b c
      exact covEntry_eq _ _ (by simp [kept, square5]) b c
    obtain ⟨g, hg, gy, gx, hv⟩ := finite2_of (⟨2, 2, fun i j => some (cv square5 (range 5) i j)⟩ : A2 (Option ℚ))
      (fun i j _ _ => ⟨_, rfl⟩)
    have hgv : ∀ i j, i < 2 → j < 2 → g.px i j = if i = j then 1 else 0 := by
      intro i j hi hj
      have := hv i j hi hj
      simp only [hcv i j hi hj, Option.some.injEq] at this
      exact this.symm
    have hpw : ∀ x, pwId g x = .ok g := by
      intro x
      unfold pwId
      rw [if_pos ⟨gy, gx, by simp [hgv], by simp [hgv], by simp [hgv], by simp [hgv]⟩]
    unfold covEq covEqMatrix
    rw [hcov]
    simp only [ok_bind]
    rw [hg]
    simp only [hpw, ok_bind]
    have e5 : square5.nx = 2 := rfl
    rw [e5, if_pos ⟨gx, gy⟩]
    simp only [ok_bind]
    rw [if_pos (by exact gx)]
    exact ⟨_, rfl⟩

end Verif.Spectral
