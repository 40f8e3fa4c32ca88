import Verif.Props.SpectralInvariance
import Verif.Props.ImageUtils

/-! C159: spectral statistics do not depend on where the samples are; scores follow the pixels when an image is mirrored, turned, transposed or shuffled. -/

set_option linter.unusedSectionVars false

namespace Verif.Spectral
open Verif ImageUtils
open Finset (range)
open scoped BigOperators

/-! ### Specification -/

/-- Specification: `s` maps the positions below `n` to the positions below `n`, no two to the same. -/
def Shuffle (n : Nat) (s : Nat → Nat) : Prop := (∀ k, k < n → s k < n) ∧ ∀ k l, k < n → l < n → s k = s l → k = l

/-- Specification: row `k` of the second image is row `s k` of the first. -/
def RowsMoved {α : Type} (s : Nat → Nat) (a a' : A2 α) : Prop :=
  a'.ny = a.ny ∧ a'.nx = a.nx ∧ ∀ k b, k < a.ny → a'.px k b = a.px (s k) b

/-- Specification: entry `k` of the second vector is entry `s k` of the first. -/
def EntriesMoved {α : Type} (s : Nat → Nat) (a a' : A1 α) : Prop := a'.n = a.n ∧ ∀ k, k < a.n → a'.px k = a.px (s k)

/-- Specification: the masks of both images are both absent, or moved alike. -/
def MaskMoved {α : Type} (s : Nat → Nat) : Option (A1 α) → Option (A1 α) → Prop
  | none, none => True
  | some m, some m' => EntriesMoved s m m'
  | _, _ => False

/-- Specification: both calls raise the same exception, or both return and the results are related by `R`. -/
def Both {α β : Type} (R : α → β → Prop) (p : Py α) (p' : Py β) : Prop :=
  (∃ e, p = .error e ∧ p' = .error e) ∨ ∃ r r', p = .ok r ∧ p' = .ok r' ∧ R r r'

/-! ### Sums over moved samples -/

section
variable {K : Type} [Field K] [LinearOrder K] [IsStrictOrderedRing K]

theorem shuffle_image {n : Nat} {s : Nat → Nat} (h : Shuffle n s) (p : Nat → Prop) [DecidablePred p] :
    ((range n).filter (fun k => p (s k))).image s = (range n).filter p := by
  have hall : (range n).image s = range n := by
    apply Finset.eq_of_subset_of_card_le
    · intro x hx
      obtain ⟨k, hk, rfl⟩ := Finset.mem_image.mp hx
      exact Finset.mem_range.mpr (h.1 k (Finset.mem_range.mp hk))
    · rw [Finset.card_image_of_injOn]
      intro a ha b hb e
      exact h.2 a b (Finset.mem_range.mp ha) (Finset.mem_range.mp hb) e
  ext x
  simp only [Finset.mem_image, Finset.mem_filter, Finset.mem_range]
  constructor
  · rintro ⟨k, ⟨hk, hp⟩, rfl⟩
    exact ⟨h.1 k hk, hp⟩
  · rintro ⟨hx, hp⟩
    have : x ∈ (range n).image s := by rw [hall]; exact Finset.mem_range.mpr hx
    obtain ⟨k, hk, rfl⟩ := Finset.mem_image.mp this
    exact ⟨k, ⟨Finset.mem_range.mp hk, hp⟩, rfl⟩

/-- The kept samples correspond. -/
theorem kept_moved {n : Nat} {s : Nat → Nat} (h : Shuffle n s) {m m' : Option (A1 K)} (hm : MaskMoved s m m') (hn : ∀ a, m = some a → a.n = n) :
    (kept n m').image s = kept n m ∧ ∀ a ∈ kept n m', ∀ b ∈ kept n m', s a = s b → a = b := by
  have hlt : ∀ m' : Option (A1 K), ∀ a ∈ kept n m', a < n := by
    intro m' a ha
    cases m' with
    | none => exact Finset.mem_range.mp ha
    | some m => exact Finset.mem_range.mp (Finset.mem_filter.mp ha).1
  refine ⟨?_, fun a ha b hb e => h.2 a b (hlt _ a ha) (hlt _ b hb) e⟩
  cases m with
  | none =>
    cases m' with
    | none => have := shuffle_image h (fun _ => True); simpa [kept] using this
    | some _ => exact hm.elim
  | some a =>
    cases m' with
    | none => exact hm.elim
    | some a' =>
      have e : kept n (some a') = (range n).filter (fun k => a.px (s k) = 0) := by
        unfold kept
        refine Finset.filter_congr (fun k hk => ?_)
        rw [hm.2 k (by rw [hn a rfl]; exact Finset.mem_range.mp hk)]
      rw [e]
      exact shuffle_image h (fun k => a.px k = 0)

theorem kept_sum {n : Nat} {s : Nat → Nat} (h : Shuffle n s) {m m' : Option (A1 K)} (hm : MaskMoved s m m') (hn : ∀ a, m = some a → a.n = n)
    (f g : Nat → K) (hfg : ∀ k, k < n → g k = f (s k)) : ∑ k ∈ kept n m', g k = ∑ k ∈ kept n m, f k := by
  obtain ⟨h1, h2⟩ := kept_moved h hm hn
  rw [← h1, Finset.sum_image h2]
  refine Finset.sum_congr rfl (fun k hk => hfg k ?_)
  cases m' with
  | none => exact Finset.mem_range.mp hk
  | some m => exact Finset.mem_range.mp (Finset.mem_filter.mp hk).1

theorem kept_card {n : Nat} {s : Nat → Nat} (h : Shuffle n s) {m m' : Option (A1 K)} (hm : MaskMoved s m m') (hn : ∀ a, m = some a → a.n = n) :
    (kept n m').card = (kept n m).card := by
  obtain ⟨h1, h2⟩ := kept_moved h hm hn
  rw [← h1, Finset.card_image_of_injOn h2]

theorem maskMoved_fits {s : Nat → Nat} {img img' : A2 K} {m m' : Option (A1 K)} (h : RowsMoved s img img') (hm : MaskMoved s m m') (hf : MaskFits img m) :
    MaskFits img' m' := by
  cases m <;> cases m'
  · trivial
  · exact hm.elim
  · exact hm.elim
  · have h1 := hm.1
    have h2 := h.1
    simp only [MaskFits] at *
    omega

theorem fits_len {img : A2 K} {m : Option (A1 K)} (hf : MaskFits img m) : ∀ a, m = some a → a.n = img.ny := by
  rintro a rfl
  exact hf

/-! ### C159: one-dimensional versions -/

/-- C159: the spectral mean is the same. -/
theorem C159_mean {s : Nat → Nat} {img img' : A2 K} {m m' : Option (A1 K)} (hs : Shuffle img.ny s) (h : RowsMoved s img img') (hm : MaskMoved s m m')
    (hf : MaskFits img m) : mean img' m' = mean img m := by
  rw [mean_eq img m hf, mean_eq img' m' (maskMoved_fits h hm hf), h.1, h.2.1, kept_card hs hm (fits_len hf)]
  congr 2
  funext b
  rw [kept_sum hs hm (fits_len hf) (fun k => img.px k b) (fun k => img'.px k b) (fun k hk => h.2.2 k b hk)]

/-- C159: the spectral covariance is the same. -/
theorem C159_cov {s : Nat → Nat} {img img' : A2 K} {m m' : Option (A1 K)} (hs : Shuffle img.ny s) (h : RowsMoved s img img') (hm : MaskMoved s m m')
    (hf : MaskFits img m) : cov img' m' = cov img m := by
  rw [cov_eq img m hf, cov_eq img' m' (maskMoved_fits h hm hf), h.1]
  have e : ∀ b c, covEntry img' (kept img.ny m') b c = covEntry img (kept img.ny m) b c := by
    intro b c
    unfold covEntry
    simp only []
    rw [kept_card hs hm (fits_len hf)]
    have h1 : ∀ b, ∑ k ∈ kept img.ny m', img'.px k b = ∑ k ∈ kept img.ny m, img.px k b :=
      fun b => kept_sum hs hm (fits_len hf) (fun k => img.px k b) (fun k => img'.px k b) (fun k hk => h.2.2 k b hk)
    simp only [h1]
    congr 2
    exact kept_sum hs hm (fits_len hf) _ _ (fun k hk => by rw [h.2.2 k b hk, h.2.2 k c hk])
  unfold covOver
  rw [h.2.1]
  simp only [e]

/-- C159: demeaned samples move with the samples. -/
theorem C159_demean {s : Nat → Nat} {img img' : A2 K} {m m' : Option (A1 K)} (hs : Shuffle img.ny s) (h : RowsMoved s img img') (hm : MaskMoved s m m')
    (hf : MaskFits img m) : Both (RowsMoved s) (demean img m) (demean img' m') := by
  unfold demean
  rw [C159_mean hs h hm hf, mean_eq img m hf, ok_bind, ok_bind]
  refine Or.inr ⟨_, _, rfl, rfl, h.1, h.2.1, ?_⟩
  intro k b hk
  simp only [h.2.2 k b hk]

theorem meanOrDefault_moved {s : Nat → Nat} {img img' : A2 K} {m m' : Option (A1 K)} (hs : Shuffle img.ny s) (h : RowsMoved s img img') (hm : MaskMoved s m m')
    (hf : MaskFits img m) (u : Option (A1 K)) : meanOrDefault img' u m' = meanOrDefault img u m := by
  cases u with
  | none => exact C159_mean hs h hm hf
  | some _ => rfl

theorem invOrDefault_moved (inv : A2 (Option K) → Py (A2 (Option K))) {s : Nat → Nat} {img img' : A2 K} {m m' : Option (A1 K)} (hs : Shuffle img.ny s)
    (h : RowsMoved s img img') (hm : MaskMoved s m m') (hf : MaskFits img m) (u : Option (A2 K)) : invOrDefault inv img' u m' = invOrDefault inv img u m := by
  cases u with
  | none => unfold invOrDefault; simp only []; rw [C159_cov hs h hm hf]
  | some _ => rfl

/-- C159: RX scores move with the samples, whatever statistics are given and whatever the matrix inversion does. -/
theorem C159_rx (inv : A2 (Option K) → Py (A2 (Option K))) {s : Nat → Nat} {img img' : A2 K} (hs : Shuffle img.ny s) (h : RowsMoved s img img')
    (m : Option (A1 K)) (ic : Option (A2 K)) : Both (EntriesMoved s) (rx inv img m ic) (rx inv img' m ic) := by
  unfold rx
  rw [meanOrDefault_moved (m := none) (m' := none) hs h trivial trivial m, invOrDefault_moved inv (m := none) (m' := none) hs h trivial trivial ic, h.2.1]
  cases meanOrDefault img m none with
  | error e => exact Or.inl ⟨e, rfl, rfl⟩
  | ok mm =>
    rw [ok_bind, ok_bind]
    cases invOrDefault inv img ic none with
    | error e => exact Or.inl ⟨e, rfl, rfl⟩
    | ok c =>
      rw [ok_bind, ok_bind]
      split
      · cases finite1 mm with
        | none => exact Or.inr ⟨_, _, rfl, rfl, h.1, fun _ _ => rfl⟩
        | some g =>
          cases finite2 c with
          | none => exact Or.inr ⟨_, _, rfl, rfl, h.1, fun _ _ => rfl⟩
          | some g2 =>
            refine Or.inr ⟨_, _, rfl, rfl, h.1, fun k hk => ?_⟩
            simp only [rxScore, h.2.2 k _ hk, h.2.1]
      · exact Or.inl ⟨_, rfl, rfl⟩

/-- C159: ACE scores move with the samples. -/
theorem C159_ace (inv : A2 (Option K) → Py (A2 (Option K))) {s : Nat → Nat} {img img' : A2 K} {mask mask' : Option (A1 K)} (hs : Shuffle img.ny s)
    (h : RowsMoved s img img') (hm : MaskMoved s mask mask') (hf : MaskFits img mask) (t : A1 K) (m : Option (A1 K)) (ic : Option (A2 K)) :
    Both (EntriesMoved s) (ace inv img t m ic mask) (ace inv img' t m ic mask') := by
  unfold ace
  rw [meanOrDefault_moved hs h hm hf m, invOrDefault_moved inv hs h hm hf ic, h.2.1]
  cases meanOrDefault img m mask with
  | error e => exact Or.inl ⟨e, rfl, rfl⟩
  | ok mm =>
    rw [ok_bind, ok_bind]
    cases invOrDefault inv img ic mask with
    | error e => exact Or.inl ⟨e, rfl, rfl⟩
    | ok c =>
      rw [ok_bind, ok_bind]
      split
      · cases finite1 mm with
        | none => exact Or.inr ⟨_, _, rfl, rfl, h.1, fun _ _ => rfl⟩
        | some g =>
          cases finite2 c with
          | none => exact Or.inr ⟨_, _, rfl, rfl, h.1, fun _ _ => rfl⟩
          | some g2 =>
            refine Or.inr ⟨_, _, rfl, rfl, h.1, fun k hk => ?_⟩
            simp only [h.2.2 k _ hk]
      · exact Or.inl ⟨_, rfl, rfl⟩

/-- C159: so do the scores of `ace_demeaned`. -/
theorem C159_ace_demeaned {s : Nat → Nat} {img img' : A2 K} (h : RowsMoved s img img') (t : A1 K) (ic : A2 K) :
    Both (EntriesMoved s) (aceDemeaned img t ic) (aceDemeaned img' t ic) := by
  unfold aceDemeaned
  rw [h.2.1]
  split
  · refine Or.inr ⟨_, _, rfl, rfl, h.1, fun k hk => ?_⟩
    simp only [h.2.2 k _ hk]
  · exact Or.inl ⟨_, rfl, rfl⟩

/-- C159: equalised samples move with the samples of the first scene, and do not depend on the order of those of the second. -/
theorem C159_cov_eq (pw : A2 K → K → Py (A2 K)) {s s2 : Nat → Nat} {a a' b b' : A2 K} {m m' n n' : Option (A1 K)} (hs : Shuffle a.ny s) (hs2 : Shuffle b.ny s2)
    (h : RowsMoved s a a') (h2 : RowsMoved s2 b b') (hm : MaskMoved s m m') (hn : MaskMoved s2 n n') (hf : MaskFits a m) (hf2 : MaskFits b n) :
    covEqMatrix pw a' b' m' n' = covEqMatrix pw a b m n ∧ Both (RowsMoved s) (covEq pw a b m n) (covEq pw a' b' m' n') := by
  have e : covEqMatrix pw a' b' m' n' = covEqMatrix pw a b m n := by
    unfold covEqMatrix
    rw [C159_cov hs h hm hf, C159_cov hs2 h2 hn hf2, h.2.1]
  refine ⟨e, ?_⟩
  unfold covEq
  rw [e, h.2.1]
  cases covEqMatrix pw a b m n with
  | error e => exact Or.inl ⟨e, rfl, rfl⟩
  | ok l =>
    rw [ok_bind, ok_bind]
    split
    · refine Or.inr ⟨_, _, rfl, rfl, h.1, rfl, fun k i hk => ?_⟩
      simp only [h.2.2 k _ hk]
    · exact Or.inl ⟨_, rfl, rfl⟩

end

/-- C159: spectral angles move with the samples. -/
theorem C159_sam {s : Nat → Nat} {img img' : A2 ℝ} (h : RowsMoved s img img') (t : A1 ℝ) : Both (EntriesMoved s) (sam img t) (sam img' t) := by
  unfold sam
  rw [h.2.1]
  split
  · refine Or.inr ⟨_, _, rfl, rfl, h.1, fun k hk => ?_⟩
    simp only [h.2.2 k _ hk]
  · exact Or.inl ⟨_, rfl, rfl⟩

/-! ### C159: images -/

/-- Specification: a rearrangement of the pixels of an image of `ny` rows and `nx` columns into one of `ny'` rows and `nx'` columns: `p j i` is where the pixel
at row `j`, column `i` comes from. -/
def Rearrangement (ny nx ny' nx' : Nat) (p : Nat → Nat → Nat × Nat) : Prop :=
  ny' * nx' = ny * nx ∧ (∀ j i, j < ny' → i < nx' → (p j i).1 < ny ∧ (p j i).2 < nx) ∧
    ∀ j i j' i', j < ny' → i < nx' → j' < ny' → i' < nx' → p j i = p j' i' → j = j' ∧ i = i'

/-- Specification: the second image has the pixels of the first where `p` says. -/
def PixelsMoved {α : Type} (p : Nat → Nat → Nat × Nat) (a a' : A3 α) : Prop :=
  a'.nb = a.nb ∧ ∀ j i b, j < a'.ny → i < a'.nx → a'.px j i b = a.px (p j i).1 (p j i).2 b

/-- Specification: the same for a band. -/
def BandMoved {α : Type} (p : Nat → Nat → Nat × Nat) (a a' : A2 α) : Prop := ∀ j i, j < a'.ny → i < a'.nx → a'.px j i = a.px (p j i).1 (p j i).2

/-- Specification: masks of the shapes of the images, moved alike, or none. -/
def MasksMoved {α β : Type} (p : Nat → Nat → Nat × Nat) (a a' : A3 β) : Option (A2 α) → Option (A2 α) → Prop
  | none, none => True
  | some m, some m' => m.ny = a.ny ∧ m.nx = a.nx ∧ m'.ny = a'.ny ∧ m'.nx = a'.nx ∧ BandMoved p m m'
  | _, _ => False

/-- The rearrangement of the flattened samples. -/
def flatOrder (nx nx' : Nat) (p : Nat → Nat → Nat × Nat) (k : Nat) : Nat := (p (k / nx') (k % nx')).1 * nx + (p (k / nx') (k % nx')).2

theorem split_lt {n w k : Nat} (h : k < n * w) : k / w < n ∧ k % w < w := by
  have hw : 0 < w := by
    rcases Nat.eq_zero_or_pos w with rfl | h'
    · simp at h
    · exact h'
  exact ⟨Nat.div_lt_of_lt_mul (by rwa [Nat.mul_comm] at h), Nat.mod_lt _ hw⟩

theorem join_div {w a b : Nat} (hb : b < w) : (a * w + b) / w = a ∧ (a * w + b) % w = b := by
  have hw : 0 < w := by omega
  refine ⟨?_, ?_⟩
  · rw [Nat.mul_comm, Nat.mul_add_div hw, Nat.div_eq_of_lt hb, Nat.add_zero]
  · rw [Nat.mul_comm, Nat.mul_add_mod, Nat.mod_eq_of_lt hb]

theorem join_lt {n w a b : Nat} (ha : a < n) (hb : b < w) : a * w + b < n * w := by
  calc a * w + b < a * w + w := by omega
    _ = (a + 1) * w := by ring
    _ ≤ n * w := Nat.mul_le_mul_right _ ha

theorem flatOrder_shuffle {ny nx ny' nx' : Nat} {p : Nat → Nat → Nat × Nat} (h : Rearrangement ny nx ny' nx' p) : Shuffle (ny * nx) (flatOrder nx nx' p) := by
  obtain ⟨h0, h1, h2⟩ := h
  constructor
  · intro k hk
    rw [← h0] at hk
    obtain ⟨a, b⟩ := split_lt hk
    obtain ⟨c, d⟩ := h1 _ _ a b
    exact join_lt c d
  · intro k l hk hl e
    rw [← h0] at hk hl
    obtain ⟨a, b⟩ := split_lt hk
    obtain ⟨a', b'⟩ := split_lt hl
    obtain ⟨c, d⟩ := h1 _ _ a b
    obtain ⟨c', d'⟩ := h1 _ _ a' b'
    unfold flatOrder at e
    have e1 : (p (k / nx') (k % nx')).1 = (p (l / nx') (l % nx')).1 := by
      have := congrArg (· / nx) e
      beta_reduce at this
      rwa [(join_div d).1, (join_div d').1] at this
    have e2 : (p (k / nx') (k % nx')).2 = (p (l / nx') (l % nx')).2 := by
      have := congrArg (· % nx) e
      beta_reduce at this
      rwa [(join_div d).2, (join_div d').2] at this
    obtain ⟨q1, q2⟩ := h2 _ _ _ _ a b a' b' (Prod.ext e1 e2)
    rw [← Nat.div_add_mod k nx', ← Nat.div_add_mod l nx', q1, q2]

section
variable {K : Type} [Field K] [LinearOrder K] [IsStrictOrderedRing K]

theorem flat_rows {α : Type} {p : Nat → Nat → Nat × Nat} {a a' : A3 α} (hr : Rearrangement a.ny a.nx a'.ny a'.nx p) (h : PixelsMoved p a a') :
    Shuffle (flattenCube a).ny (flatOrder a.nx a'.nx p) ∧ RowsMoved (flatOrder a.nx a'.nx p) (flattenCube a) (flattenCube a') := by
  refine ⟨flatOrder_shuffle hr, hr.1, h.1, ?_⟩
  intro k b hk
  have hk' : k < a'.ny * a'.nx := by rw [hr.1]; exact hk
  obtain ⟨x, y⟩ := split_lt hk'
  obtain ⟨c, d⟩ := hr.2.1 _ _ x y
  simp only [flattenCube, flatOrder]
  rw [h.2 _ _ b x y, (join_div d).1, (join_div d).2]

theorem flat_mask {β : Type} {p : Nat → Nat → Nat × Nat} {a a' : A3 β} (hr : Rearrangement a.ny a.nx a'.ny a'.nx p) {m m' : Option (A2 K)}
    (h : MasksMoved p a a' m m') : MaskMoved (flatOrder a.nx a'.nx p) (flatMask m) (flatMask m') := by
  cases m <;> cases m'
  · trivial
  · exact h.elim
  · exact h.elim
  · rename_i m m'
    obtain ⟨h1, h2, h3, h4, h5⟩ := h
    refine ⟨?_, ?_⟩
    · simp only [flattenBand]; rw [h1, h2, h3, h4, hr.1]
    · intro k hk
      simp only [flattenBand] at hk ⊢
      rw [h1, h2] at hk
      have hk' : k < a'.ny * a'.nx := by rw [hr.1]; exact hk
      obtain ⟨x, y⟩ := split_lt hk'
      obtain ⟨c, d⟩ := hr.2.1 _ _ x y
      rw [h4, h2, h5 _ _ (by omega) (by omega), flatOrder, (join_div d).1, (join_div d).2]

theorem flat_fits {p : Nat → Nat → Nat × Nat} {a a' : A3 K} {m m' : Option (A2 K)}
    (h : MasksMoved p a a' m m') : MaskFits (flattenCube a) (flatMask m) := by
  cases m <;> cases m'
  · trivial
  · exact h.elim
  · exact h.elim
  · obtain ⟨h1, h2, -⟩ := h
    simp only [flatMask, Option.map_some, MaskFits, flattenBand, flattenCube, h1, h2]

/-- Results of the one-dimensional routines brought back to images. -/
theorem band_back {p : Nat → Nat → Nat × Nat} {ny nx ny' nx' : Nat} (hr : Rearrangement ny nx ny' nx' p) {α : Type} {r r' : Py (A1 α)}
    (h : Both (EntriesMoved (flatOrder nx nx' p)) r r') (hn : ∀ v, r = .ok v → v.n = ny * nx) :
    Both (fun a a' => a.ny = ny ∧ a.nx = nx ∧ a'.ny = ny' ∧ a'.nx = nx' ∧ BandMoved p a a') (r >>= fun v => unflattenBand v nx ny)
      (r' >>= fun v => unflattenBand v nx' ny') := by
  rcases h with ⟨e, rfl, rfl⟩ | ⟨v, v', rfl, rfl, h1, h2⟩
  · exact Or.inl ⟨e, rfl, rfl⟩
  · have hv := hn v rfl
    refine Or.inr ⟨⟨ny, nx, fun y x => v.px (y * nx + x)⟩, ⟨ny', nx', fun y x => v'.px (y * nx' + x)⟩, ?_, ?_, rfl, rfl, rfl, rfl, ?_⟩
    · rw [ok_bind, unflattenBand, if_pos hv]
    · rw [ok_bind, unflattenBand, if_pos (by rw [h1, hv, hr.1])]
    · intro j i hj hi
      simp only [] at hj hi ⊢
      rw [h2 _ (by rw [hv, ← hr.1]; exact join_lt hj hi), flatOrder, (join_div hi).1, (join_div hi).2]

theorem rx_len {inv : A2 (Option K) → Py (A2 (Option K))} {img : A2 K} {m : Option (A1 K)} {ic : Option (A2 K)} {v : A1 (Option K)}
    (h : rx inv img m ic = .ok v) : v.n = img.ny := by
  unfold rx at h
  obtain ⟨mm, -, h⟩ := bind_ok h
  obtain ⟨c, -, h⟩ := bind_ok h
  split at h
  · split at h <;> · simp only [Except.ok.injEq] at h; subst h; rfl
  · cases h

theorem ace_len {inv : A2 (Option K) → Py (A2 (Option K))} {img : A2 K} {t : A1 K} {m : Option (A1 K)} {ic : Option (A2 K)} {k : Option (A1 K)} {v : A1 (Option K)}
    (h : ace inv img t m ic k = .ok v) : v.n = img.ny := by
  unfold ace at h
  obtain ⟨mm, -, h⟩ := bind_ok h
  obtain ⟨c, -, h⟩ := bind_ok h
  split at h
  · split at h <;> · simp only [Except.ok.injEq] at h; subst h; rfl
  · cases h

/-- C159: mean and covariance of an image are those of the image with its pixels (and mask) moved. -/
theorem C159_image_statistics {p : Nat → Nat → Nat × Nat} {a a' : A3 K} {m m' : Option (A2 K)} (hr : Rearrangement a.ny a.nx a'.ny a'.nx p) (h : PixelsMoved p a a')
    (hm : MasksMoved p a a' m m') : mean2 a' m' = mean2 a m ∧ cov2 a' m' = cov2 a m := by
  obtain ⟨h1, h2⟩ := flat_rows hr h
  exact ⟨C159_mean h1 h2 (flat_mask hr hm) (flat_fits hm), C159_cov h1 h2 (flat_mask hr hm) (flat_fits hm)⟩

/-- C159: the RX image of the moved image is the moved RX image. -/
theorem C159_image_rx (inv : A2 (Option K) → Py (A2 (Option K))) {p : Nat → Nat → Nat × Nat} {a a' : A3 K} (hr : Rearrangement a.ny a.nx a'.ny a'.nx p)
    (h : PixelsMoved p a a') (m : Option (A1 K)) (ic : Option (A2 K)) :
    Both (fun r r' => r.ny = a.ny ∧ r.nx = a.nx ∧ r'.ny = a'.ny ∧ r'.nx = a'.nx ∧ BandMoved p r r') (rx2 inv a m ic) (rx2 inv a' m ic) := by
  obtain ⟨h1, h2⟩ := flat_rows hr h
  exact band_back hr (C159_rx inv h1 h2 m ic) (fun v hv => rx_len hv)

/-- C159: the ACE image of the moved image and mask is the moved ACE image. -/
theorem C159_image_ace (inv : A2 (Option K) → Py (A2 (Option K))) {p : Nat → Nat → Nat × Nat} {a a' : A3 K} {k k' : Option (A2 K)}
    (hr : Rearrangement a.ny a.nx a'.ny a'.nx p) (h : PixelsMoved p a a') (hk : MasksMoved p a a' k k') (t : A1 K) (m : Option (A1 K)) (ic : Option (A2 K)) :
    Both (fun r r' => r.ny = a.ny ∧ r.nx = a.nx ∧ r'.ny = a'.ny ∧ r'.nx = a'.nx ∧ BandMoved p r r') (ace2 inv a t m ic k) (ace2 inv a' t m ic k') := by
  obtain ⟨h1, h2⟩ := flat_rows hr h
  exact band_back hr (C159_ace inv h1 h2 (flat_mask hr hk) (flat_fits hk) t m ic) (fun v hv => ace_len hv)

/-- C159: the same for `ace_demeaned`. -/
theorem C159_image_ace_demeaned {p : Nat → Nat → Nat × Nat} {a a' : A3 K} (hr : Rearrangement a.ny a.nx a'.ny a'.nx p) (h : PixelsMoved p a a')
    (t : A1 K) (ic : A2 K) :
    Both (fun r r' => r.ny = a.ny ∧ r.nx = a.nx ∧ r'.ny = a'.ny ∧ r'.nx = a'.nx ∧ BandMoved p r r') (aceDemeaned2 a t ic) (aceDemeaned2 a' t ic) := by
  obtain ⟨h1, h2⟩ := flat_rows hr h
  refine band_back hr (C159_ace_demeaned h2 t ic) (fun v hv => ?_)
  unfold aceDemeaned at hv
  split at hv
  · simp only [Except.ok.injEq] at hv; subst hv; rfl
  · cases hv

/-- Cubes brought back to images. -/
theorem cube_back {p : Nat → Nat → Nat × Nat} {ny nx ny' nx' : Nat} (hr : Rearrangement ny nx ny' nx' p) {α : Type} {r r' : Py (A2 α)}
    (h : Both (RowsMoved (flatOrder nx nx' p)) r r') (hn : ∀ v, r = .ok v → v.ny = ny * nx) :
    Both (fun a a' => a.ny = ny ∧ a.nx = nx ∧ a'.ny = ny' ∧ a'.nx = nx' ∧ PixelsMoved p a a') (r >>= fun v => unflattenCube v nx ny)
      (r' >>= fun v => unflattenCube v nx' ny') := by
  rcases h with ⟨e, rfl, rfl⟩ | ⟨v, v', rfl, rfl, h1, h2, h3⟩
  · exact Or.inl ⟨e, rfl, rfl⟩
  · have hv := hn v rfl
    refine Or.inr ⟨⟨ny, nx, v.nx, fun y x b => v.px (y * nx + x) b⟩, ⟨ny', nx', v'.nx, fun y x b => v'.px (y * nx' + x) b⟩, ?_, ?_, rfl, rfl, rfl, rfl, h2, ?_⟩
    · rw [ok_bind, unflattenCube, if_pos (by rw [hv])]
    · rw [ok_bind, unflattenCube, if_pos (by rw [h1, hv, hr.1])]
    · intro j i b hj hi
      simp only [] at hj hi ⊢
      rw [h3 _ b (by rw [hv, ← hr.1]; exact join_lt hj hi), flatOrder, (join_div hi).1, (join_div hi).2]

/-- C159: demeaning moves with the pixels. -/
theorem C159_image_demean {p : Nat → Nat → Nat × Nat} {a a' : A3 K} {m m' : Option (A2 K)} (hr : Rearrangement a.ny a.nx a'.ny a'.nx p) (h : PixelsMoved p a a')
    (hm : MasksMoved p a a' m m') :
    Both (fun r r' => r.ny = a.ny ∧ r.nx = a.nx ∧ r'.ny = a'.ny ∧ r'.nx = a'.nx ∧ PixelsMoved p r r') (demean2 a m) (demean2 a' m') := by
  obtain ⟨h1, h2⟩ := flat_rows hr h
  refine cube_back hr (C159_demean h1 h2 (flat_mask hr hm) (flat_fits hm)) (fun v hv => ?_)
  unfold demean at hv
  obtain ⟨mm, -, hv⟩ := bind_ok hv
  simp only [Except.ok.injEq] at hv
  subst hv; rfl

/-- C159: covariance equalisation moves with the pixels of the first image and does not depend on where those of the second are. -/
theorem C159_image_cov_eq (pw : A2 K → K → Py (A2 K)) {p q : Nat → Nat → Nat × Nat} {a a' b b' : A3 K} {m m' n n' : Option (A2 K)}
    (hr : Rearrangement a.ny a.nx a'.ny a'.nx p) (hq : Rearrangement b.ny b.nx b'.ny b'.nx q) (h : PixelsMoved p a a') (h' : PixelsMoved q b b')
    (hm : MasksMoved p a a' m m') (hn : MasksMoved q b b' n n') :
    Both (fun r r' => r.ny = a.ny ∧ r.nx = a.nx ∧ r'.ny = a'.ny ∧ r'.nx = a'.nx ∧ PixelsMoved p r r') (covEq2 pw a b m n) (covEq2 pw a' b' m' n') := by
  obtain ⟨h1, h2⟩ := flat_rows hr h
  obtain ⟨h3, h4⟩ := flat_rows hq h'
  refine cube_back hr (C159_cov_eq pw h1 h3 h2 h4 (flat_mask hr hm) (flat_mask hq hn) (flat_fits hm) (flat_fits hn)).2 (fun v hv => ?_)
  unfold covEq at hv
  obtain ⟨mm, -, hv⟩ := bind_ok hv
  split at hv
  · simp only [Except.ok.injEq] at hv; subst hv; rfl
  · cases hv

end

/-- C159: the SAM image of the moved image is the moved SAM image. -/
theorem C159_image_sam {p : Nat → Nat → Nat × Nat} {a a' : A3 ℝ} (hr : Rearrangement a.ny a.nx a'.ny a'.nx p) (h : PixelsMoved p a a') (t : A1 ℝ) :
    Both (fun r r' => r.ny = a.ny ∧ r.nx = a.nx ∧ r'.ny = a'.ny ∧ r'.nx = a'.nx ∧ BandMoved p r r') (sam2 a t) (sam2 a' t) := by
  obtain ⟨h1, h2⟩ := flat_rows hr h
  refine band_back hr (C159_sam h2 t) (fun v hv => ?_)
  unfold sam at hv
  split at hv
  · simp only [Except.ok.injEq] at hv; subst hv; rfl
  · cases hv

/-- Mirroring left to right, mirroring top to bottom, transposing and turning by a quarter are rearrangements. -/
theorem C159_motions (ny nx : Nat) :
    Rearrangement ny nx ny nx (fun j i => (j, nx - 1 - i)) ∧ Rearrangement ny nx ny nx (fun j i => (ny - 1 - j, i)) ∧
    Rearrangement ny nx nx ny (fun j i => (i, j)) ∧ Rearrangement ny nx nx ny (fun j i => (i, nx - 1 - j)) := by
  refine ⟨⟨rfl, ?_, ?_⟩, ⟨rfl, ?_, ?_⟩, ⟨Nat.mul_comm _ _, ?_, ?_⟩, ⟨Nat.mul_comm _ _, ?_, ?_⟩⟩
  all_goals simp only [Prod.mk.injEq]
  all_goals intros
  all_goals omega

/-- A two by three image of two bands, its mirror image, and masks: the hypotheses of the theorems are met, and the mirror image differs. -/
example : ∃ (a a' : A3 ℚ) (m m' : A2 ℚ), Rearrangement a.ny a.nx a'.ny a'.nx (fun j i => (j, 3 - 1 - i)) ∧ PixelsMoved (fun j i => (j, 3 - 1 - i)) a a' ∧
    MasksMoved (fun j i => (j, 3 - 1 - i)) a a' (some m) (some m') ∧ a.px 0 0 0 ≠ a'.px 0 0 0 ∧ m.px 0 0 ≠ m'.px 0 0 :=
  ⟨⟨2, 3, 2, fun j i b => (j + 2 * i + b * i * j : ℚ)⟩, ⟨2, 3, 2, fun j i b => (j + 2 * ((3 - 1 - i : Nat) : ℚ) + b * ((3 - 1 - i : Nat) : ℚ) * j : ℚ)⟩,
    ⟨2, 3, fun _ i => if i = 0 then 1 else 0⟩, ⟨2, 3, fun _ i => if 3 - 1 - i = 0 then 1 else 0⟩,
    (C159_motions 2 3).1, ⟨rfl, fun _ _ _ _ _ => rfl⟩, ⟨rfl, rfl, rfl, rfl, fun _ _ _ _ => rfl⟩, by norm_num, by norm_num⟩

end Verif.Spectral
