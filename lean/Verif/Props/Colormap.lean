import Verif.Lemmas.ImageUtils
import Mathlib.Tactic.NormNum

/-! Property C12: colormaps (image_utils.py:166-259). -/

set_option linter.unusedSectionVars false

namespace Verif.ImageUtils
open Verif

section C12
variable {K : Type} [Field K] [LinearOrder K] [IsStrictOrderedRing K]

/-! ### Helper lemmas -/

theorem binLoop_spec (pos : Nat → K) (v : K) (todo i : Nat) (st : BinState K) :
    ((∀ k, i ≤ k → k < i + todo → ¬ (pos k ≤ v ∧ v ≤ pos (k + 1))) ∧ binLoop pos v todo i st = st) ∨
    ∃ k, i ≤ k ∧ k < i + todo ∧ pos k ≤ v ∧ v ≤ pos (k + 1) ∧
      (∀ j, k < j → j < i + todo → ¬ (pos j ≤ v ∧ v ≤ pos (j + 1))) ∧
      binLoop pos v todo i st = ⟨int8 k, pos k, pos (k + 1)⟩ := by
  induction todo generalizing i st with
  | zero => left; exact ⟨by intro k h1 h2; omega, rfl⟩
  | succ t ih =>
    have h := ih (i + 1) (if pos i ≤ v ∧ v ≤ pos (i + 1) then ⟨int8 i, pos i, pos (i + 1)⟩ else st)
    rcases h with ⟨hn, he⟩ | ⟨k, h1, h2, h3, h4, h5, h6⟩
    · by_cases hc : pos i ≤ v ∧ v ≤ pos (i + 1)
      · right
        refine ⟨i, by omega, by omega, hc.1, hc.2, ?_, ?_⟩
        · intro j hj1 hj2; exact hn j (by omega) (by omega)
        · simp only [binLoop]; rw [he, if_pos hc]
      · left
        refine ⟨?_, ?_⟩
        · intro k hk1 hk2
          by_cases hki : k = i
          · subst hki; exact hc
          · exact hn k (by omega) (by omega)
        · simp only [binLoop]; rw [he, if_neg hc]
    · right
      exact ⟨k, by omega, by omega, h3, h4, fun j a b => h5 j a (by omega), by simp only [binLoop]; exact h6⟩

theorem lookupLoop_none (pal : Nat → K) (low : Int) (todo i : Nat) (st : K × K)
    (h : ∀ k : Nat, i ≤ k → k < i + todo → low ≠ (k : Int)) : lookupLoop pal low todo i st = st := by
  induction todo generalizing i st with
  | zero => rfl
  | succ t ih =>
    simp only [lookupLoop]
    rw [if_neg (h i (by omega) (by omega))]
    exact ih (i + 1) st (fun k a b => h k (by omega) (by omega))

theorem lookupLoop_hit (pal : Nat → K) (m todo i : Nat) (st : K × K) (h1 : i ≤ m) (h2 : m < i + todo) :
    lookupLoop pal (m : Int) todo i st = (pal m, pal (m + 1)) := by
  induction todo generalizing i st with
  | zero => omega
  | succ t ih =>
    simp only [lookupLoop]
    by_cases hm : m = i
    · subst hm
      rw [if_pos rfl]
      apply lookupLoop_none
      intro k a b; omega
    · exact ih (i + 1) _ (by omega) (by omega)

theorem int8_small {k : Nat} (h : k < 128) : int8 k = (k : Int) := by unfold int8; omega
theorem int8_neg {k : Nat} (h1 : 128 ≤ k) (h2 : k < 256) : int8 k < 0 := by unfold int8; omega

/-- Position of palette colour `k` of `n` on the value axis. -/
def colorPos (minClip maxClip : K) (n k : Nat) : K :=
  minClip + (k : K) * (maxClip - minClip) / ((n : K) - 1)

theorem linspace_eq {lo hi : K} {n k : Nat} (hn : 2 ≤ n) : linspace lo hi n k = colorPos lo hi n k := by
  unfold linspace colorPos
  rw [if_neg (by omega), Nat.cast_sub (by omega)]
  push_cast
  ring

theorem colorPos_step {lo hi : K} {n k : Nat} (hn : 2 ≤ n) (h : lo < hi) :
    colorPos lo hi n k < colorPos lo hi n (k + 1) := by
  have h1 : (0 : K) < (n : K) - 1 := by
    have : (2 : K) ≤ n := by exact_mod_cast hn
    linarith
  have h2 : 0 < (hi - lo) / ((n : K) - 1) := div_pos (by linarith) h1
  unfold colorPos
  push_cast
  rw [mul_div_assoc, mul_div_assoc, add_mul]
  linarith

theorem colorPos_mono {lo hi : K} {n j k : Nat} (hn : 2 ≤ n) (h : lo < hi) (hjk : j ≤ k) :
    colorPos lo hi n j ≤ colorPos lo hi n k := by
  induction hjk with
  | refl => exact le_refl _
  | step _ ih => exact le_trans ih (colorPos_step hn h).le

theorem exists_bin {lo hi v : K} {n : Nat} (hn : 2 ≤ n) (hv0 : lo ≤ v) (hv1 : v ≤ hi) :
    ∃ k, k < n - 1 ∧ colorPos lo hi n k ≤ v ∧ v ≤ colorPos lo hi n (k + 1) := by
  have hend : colorPos lo hi n (n - 1) = hi := by
    unfold colorPos
    have h1 : (0 : K) < (n : K) - 1 := by
      have : (2 : K) ≤ n := by exact_mod_cast hn
      linarith
    rw [Nat.cast_sub (by omega)]
    push_cast
    field_simp
    ring
  have h0 : colorPos lo hi n 0 ≤ v := by simpa [colorPos] using hv0
  -- walk up to the first position above v
  by_contra hc
  push Not at hc
  have : ∀ k, k ≤ n - 1 → colorPos lo hi n k ≤ v ∧ (0 < k → colorPos lo hi n k < v) := by
    intro k
    induction k with
    | zero => intro _; exact ⟨h0, by omega⟩
    | succ k ih =>
      intro hk
      have := hc k (by omega) (ih (by omega)).1
      exact ⟨this.le, fun _ => this⟩
  have h2 := (this (n - 1) (le_refl _)).2 (by omega)
  rw [hend] at h2
  exact absurd hv1 (not_le.mpr h2)

/-! ### C12 -/

/-- C12, inside the clip limits, for palettes of at most 129 colours: the pixel's colour is the
linear interpolation between the two palette colours whose positions bracket the pixel's value.
Missing from the full property: palettes of 130 colours and more, for which the code breaks it
(`C12_false_beyond_128_bins`). -/
theorem C12_interpolates_partial (pal : Nat → K) (n : Nat) (minClip maxClip v : K)
    (hn : 2 ≤ n) (hn2 : n ≤ 129) (hlt : minClip < maxClip) (h0 : minClip ≤ v) (h1 : v ≤ maxClip) :
    ∃ k, k + 1 < n ∧ colorPos minClip maxClip n k ≤ v ∧ v ≤ colorPos minClip maxClip n (k + 1) ∧
      colormapPixel pal n true minClip maxClip v =
        some (255 * (pal k + (pal (k + 1) - pal k) *
          ((v - colorPos minClip maxClip n k) /
            (colorPos minClip maxClip n (k + 1) - colorPos minClip maxClip n k)))) := by
  have hp : ∀ k, linspace minClip maxClip n k = colorPos minClip maxClip n k := fun k => linspace_eq hn
  obtain ⟨k0, hk0, hb0, hb1⟩ := exists_bin hn h0 h1
  rcases binLoop_spec (linspace minClip maxClip n) v (n - 1) 0 ⟨0, 0, 0⟩ with ⟨hno, _⟩ | ⟨k, _, hk, ha, hb, _, he⟩
  · exact absurd ⟨by rw [hp]; exact hb0, by rw [hp]; exact hb1⟩ (hno k0 (by omega) (by omega))
  · rw [hp] at ha hb
    refine ⟨k, by omega, ha, hb, ?_⟩
    have hd : colorPos minClip maxClip n (k + 1) - colorPos minClip maxClip n k ≠ 0 :=
      (sub_pos.mpr (colorPos_step hn hlt)).ne'
    unfold colormapPixel
    simp only [if_true]
    rw [he, int8_small (by omega), lookupLoop_hit pal k (n - 1) 0 (0, 0) (by omega) (by omega)]
    rw [if_neg (not_lt.mpr h1), if_neg (not_lt.mpr h0)]
    simp only [fdiv, hp, if_neg hd, Option.map_some, Option.some.injEq]
    ring

/-- C12: a pixel below (above) the clip limits gets the first (last) palette colour, for every
palette size. -/
theorem C12_clipped (pal : Nat → K) (n : Nat) (minClip maxClip v : K) (hle : minClip ≤ maxClip) :
    (v < minClip → colormapPixel pal n true minClip maxClip v = some (255 * pal 0)) ∧
    (maxClip < v → colormapPixel pal n true minClip maxClip v = some (255 * pal (n - 1))) := by
  constructor
  · intro h
    unfold colormapPixel
    simp only [if_true]
    rw [if_neg (not_lt.mpr (le_trans h.le hle)), if_pos h]
    simp [mul_comm]
  · intro h
    unfold colormapPixel
    simp only [if_true]
    rw [if_pos h]
    simp [mul_comm]

/-- C12, consequence: whatever the pixel, every channel stays within the range of the palette's
channel (palettes of at most 129 colours). -/
theorem C12_within_palette_partial (pal : Nat → K) (n : Nat) (minClip maxClip v lo hi : K)
    (hn : 2 ≤ n) (hn2 : n ≤ 129) (hlt : minClip < maxClip)
    (hpal : ∀ k, k < n → lo ≤ pal k ∧ pal k ≤ hi) :
    ∃ c, colormapPixel pal n true minClip maxClip v = some c ∧ 255 * lo ≤ c ∧ c ≤ 255 * hi := by
  by_cases h0 : v < minClip
  · have := hpal 0 (by omega)
    exact ⟨_, (C12_clipped pal n minClip maxClip v hlt.le).1 h0, by linarith, by linarith⟩
  by_cases h1 : maxClip < v
  · have := hpal (n - 1) (by omega)
    exact ⟨_, (C12_clipped pal n minClip maxClip v hlt.le).2 h1, by linarith, by linarith⟩
  obtain ⟨k, hk, ha, hb, he⟩ := C12_interpolates_partial pal n minClip maxClip v hn hn2 hlt
    (not_lt.mp h0) (not_lt.mp h1)
  refine ⟨_, he, ?_⟩
  have hd : 0 < colorPos minClip maxClip n (k + 1) - colorPos minClip maxClip n k :=
    sub_pos.mpr (colorPos_step hn hlt)
  set w := (v - colorPos minClip maxClip n k) /
            (colorPos minClip maxClip n (k + 1) - colorPos minClip maxClip n k) with hw
  have w0 : 0 ≤ w := div_nonneg (by linarith) hd.le
  have w1 : w ≤ 1 := by rw [hw, div_le_one hd]; linarith
  have p1 := hpal k (by omega)
  have p2 := hpal (k + 1) (by omega)
  constructor
  · nlinarith [mul_nonneg w0 (sub_nonneg.mpr p2.1), mul_nonneg (sub_nonneg.mpr w1) (sub_nonneg.mpr p1.1)]
  · nlinarith [mul_nonneg w0 (sub_nonneg.mpr p2.2), mul_nonneg (sub_nonneg.mpr w1) (sub_nonneg.mpr p1.2)]

/-- C12 is false for palettes of 130 colours or more: the bin number is stored in an int8 array, so
every pixel strictly inside bin `k`, `128 ≤ k < 256`, is black whatever the palette. -/
theorem C12_false_beyond_128_bins (pal : Nat → K) (n k : Nat) (minClip maxClip v : K)
    (hlt : minClip < maxClip) (hk1 : 128 ≤ k) (hk2 : k < 256) (hkn : k + 1 < n)
    (ha : colorPos minClip maxClip n k < v) (hb : v < colorPos minClip maxClip n (k + 1)) :
    colormapPixel pal n true minClip maxClip v = some 0 := by
  have hn : 2 ≤ n := by omega
  have hp : ∀ k, linspace minClip maxClip n k = colorPos minClip maxClip n k := fun k => linspace_eq hn
  have e0 : colorPos minClip maxClip n 0 = minClip := by simp [colorPos]
  have hend : colorPos minClip maxClip n (n - 1) = maxClip := by
    unfold colorPos
    have h1 : (0 : K) < (n : K) - 1 := by
      have : (2 : K) ≤ n := by exact_mod_cast hn
      linarith
    rw [Nat.cast_sub (by omega)]
    push_cast
    field_simp
    ring
  have hv0 : minClip ≤ v := by
    rw [← e0]; exact le_trans (colorPos_mono hn hlt (by omega)) ha.le
  have hv1 : v ≤ maxClip := by
    rw [← hend]; exact le_trans hb.le (colorPos_mono hn hlt (by omega))
  rcases binLoop_spec (linspace minClip maxClip n) v (n - 1) 0 ⟨0, 0, 0⟩ with ⟨hno, _⟩ | ⟨m, _, hm, hma, hmb, _, he⟩
  · exact absurd ⟨by rw [hp]; exact ha.le, by rw [hp]; exact hb.le⟩ (hno k (by omega) (by omega))
  · rw [hp] at hma hmb
    have hmk : m = k := by
      rcases Nat.lt_trichotomy m k with h | h | h
      · have := colorPos_mono (n := n) hn hlt (show m + 1 ≤ k by omega)
        exact absurd (lt_of_lt_of_le ha hmb) (not_lt.mpr this)
      · exact h
      · have := colorPos_mono (n := n) hn hlt (show k + 1 ≤ m by omega)
        exact absurd (lt_of_le_of_lt hma hb) (not_lt.mpr this)
    subst hmk
    have hd : colorPos minClip maxClip n (m + 1) - colorPos minClip maxClip n m ≠ 0 :=
      (sub_pos.mpr (colorPos_step hn hlt)).ne'
    have hneg := int8_neg hk1 hk2
    unfold colormapPixel
    simp only [if_true]
    rw [he, lookupLoop_none pal (int8 m) (n - 1) 0 (0, 0) (by intro j _ _; omega)]
    rw [if_neg (not_lt.mpr hv1), if_neg (not_lt.mpr hv0)]
    simp [fdiv, hp, hd]

/-- C12, exactly, for every palette size: a pixel whose value lies in bin `k` (from its lower end inclusive to its upper end exclusive; the last bin
includes the upper clip limit) is blended from the palette colours `k mod 256` and `k mod 256 + 1` when `k mod 256 < 128`, and is black otherwise.
So the claim holds for the bins 0 to 127 of any palette, and for no other bin unless the palette happens to repeat itself. -/
theorem C12_exact_partial (pal : Nat → K) (n k : Nat) (minClip maxClip v : K) (hlt : minClip < maxClip) (hkn : k + 1 < n)
    (ha : colorPos minClip maxClip n k ≤ v)
    (hb : v < colorPos minClip maxClip n (k + 1) ∨ k + 2 = n ∧ v = maxClip) :
    colormapPixel pal n true minClip maxClip v = some
      (if k % 256 < 128 then 255 * (pal (k % 256) + (pal (k % 256 + 1) - pal (k % 256)) *
          ((v - colorPos minClip maxClip n k) / (colorPos minClip maxClip n (k + 1) - colorPos minClip maxClip n k)))
        else 0) := by
  have hn : 2 ≤ n := by omega
  have hp : ∀ k, linspace minClip maxClip n k = colorPos minClip maxClip n k := fun k => linspace_eq hn
  have e0 : colorPos minClip maxClip n 0 = minClip := by simp [colorPos]
  have hend : colorPos minClip maxClip n (n - 1) = maxClip := by
    unfold colorPos
    have h1 : (0 : K) < (n : K) - 1 := by
      have : (2 : K) ≤ n := by exact_mod_cast hn
      linarith
    rw [Nat.cast_sub (by omega)]
    push_cast
    field_simp
    ring
  have hv0 : minClip ≤ v := by
    rw [← e0]; exact le_trans (colorPos_mono hn hlt (by omega)) ha
  have hbk : v ≤ colorPos minClip maxClip n (k + 1) := by
    rcases hb with hb | ⟨h1, h2⟩
    · exact hb.le
    · rw [h2]; exact le_trans (le_of_eq hend.symm) (colorPos_mono hn hlt (by omega))
  have hv1 : v ≤ maxClip := by
    rw [← hend]; exact le_trans hbk (colorPos_mono hn hlt (by omega))
  rcases binLoop_spec (linspace minClip maxClip n) v (n - 1) 0 ⟨0, 0, 0⟩ with ⟨hno, _⟩ | ⟨m, _, hm, hma, hmb, hlast, he⟩
  · exact absurd ⟨by rw [hp]; exact ha, by rw [hp]; exact hbk⟩ (hno k (by omega) (by omega))
  · rw [hp] at hma hmb
    have hmk : m = k := by
      rcases Nat.lt_trichotomy m k with h | h | h
      · exact absurd ⟨by rw [hp]; exact ha, by rw [hp]; exact hbk⟩ (hlast k h (by omega))
      · exact h
      · rcases hb with hb | ⟨h1, _⟩
        · have := colorPos_mono (n := n) hn hlt (show k + 1 ≤ m by omega)
          exact absurd (lt_of_le_of_lt hma hb) (not_lt.mpr this)
        · omega
    subst hmk
    have hd : colorPos minClip maxClip n (m + 1) - colorPos minClip maxClip n m ≠ 0 :=
      (sub_pos.mpr (colorPos_step hn hlt)).ne'
    unfold colormapPixel
    simp only [if_true]
    rw [he, if_neg (not_lt.mpr hv1), if_neg (not_lt.mpr hv0)]
    by_cases hm8 : m % 256 < 128
    · have hi : int8 m = ((m % 256 : Nat) : Int) := by unfold int8; omega
      have hle : m % 256 ≤ m := Nat.mod_le _ _
      simp only [hi, hm8, if_true]
      rw [lookupLoop_hit pal (m % 256) (n - 1) 0 (0, 0) (by omega) (by omega)]
      simp only [fdiv, hp, if_neg hd, Option.map_some, Option.some.injEq]
      ring
    · have hi : int8 m < 0 := by unfold int8; omega
      simp only []
      rw [lookupLoop_none pal (int8 m) (n - 1) 0 (0, 0) (by intro j _ _; omega)]
      simp [fdiv, hp, hd, hm8]

/-- Value 300.5 of a palette of 401 colours on [0, 400] lies in bin 300. -/
example : (0 : ℚ) < 400 ∧ 300 + 1 < 401 ∧ colorPos (0 : ℚ) 400 401 300 ≤ 300 + 1/2 ∧
    300 + 1/2 < colorPos (0 : ℚ) 400 401 301 ∧ 300 % 256 < 128 := by
  norm_num [colorPos]

/-- C12, degenerate clip limits: when the clip limits coincide (in particular for a constant image
with default limits) an in-range pixel gets no finite colour. -/
theorem C12_equal_limits_not_finite (pal : Nat → K) (n : Nat) (c : K) (hn : 2 ≤ n) :
    colormapPixel pal n true c c c = none := by
  have hp : ∀ k, linspace c c n k = c := by
    intro k; rw [linspace_eq hn]; simp [colorPos]
  unfold colormapPixel
  simp only [if_true, lt_irrefl, if_false]
  rcases binLoop_spec (linspace c c n) c (n - 1) 0 ⟨0, 0, 0⟩ with ⟨hno, _⟩ | ⟨m, _, hm, hma, hmb, _, he⟩
  · exact absurd ⟨by rw [hp], by rw [hp]⟩ (hno 0 (by omega) (by omega))
  · rw [he]; simp [fdiv, hp]

/-- C12 at the level of the whole image: with the default clip limits of a non-constant image every
channel of every pixel is finite and within the palette's range. -/
theorem C12_image_within_palette_partial (img : A2 K) (pal : Nat → Nat → K) (n : Nat) (lo hi : K)
    (hn : 2 ≤ n) (hn2 : n ≤ 129) (hpal : ∀ k ch, k < n → lo ≤ pal k ch ∧ pal k ch ≤ hi)
    (y0 x0 y1 x1 : Nat) (h0 : y0 < img.ny ∧ x0 < img.nx) (h1 : y1 < img.ny ∧ x1 < img.nx)
    (hne : img.px y0 x0 ≠ img.px y1 x1) :
    ∃ out, applyColormap img pal n true none none none = .ok out ∧
      out.ny = img.ny ∧ out.nx = img.nx ∧ out.nb = 3 ∧
      ∀ y x ch, ∃ c, out.px y x ch = some c ∧ 255 * lo ≤ c ∧ c ≤ 255 * hi := by
  have hmem0 : img.px y0 x0 ∈ pixels img := mem_pixels.mpr ⟨y0, x0, h0.1, h0.2, rfl⟩
  have hmem1 : img.px y1 x1 ∈ pixels img := mem_pixels.mpr ⟨y1, x1, h1.1, h1.2, rfl⟩
  cases hmn : (pixels img).min? with
  | none => rw [List.min?_eq_none_iff] at hmn; rw [hmn] at hmem0; simp at hmem0
  | some mn =>
  cases hmx : (pixels img).max? with
  | none => rw [List.max?_eq_none_iff] at hmx; rw [hmx] at hmem0; simp at hmem0
  | some mx =>
  have hlt : mn < mx := by
    have a := (min?_spec hmn).2
    have b := (max?_spec hmx).2
    rcases lt_or_gt_of_ne hne with h | h
    · exact lt_of_le_of_lt (a _ hmem0) (lt_of_lt_of_le h (b _ hmem1))
    · exact lt_of_le_of_lt (a _ hmem1) (lt_of_lt_of_le h (b _ hmem0))
  refine ⟨⟨img.ny, img.nx, 3, fun y x ch =>
    colormapPixel (fun i => pal i ch) n true mn mx (img.px y x)⟩, ?_, rfl, rfl, rfl, ?_⟩
  · simp only [applyColormap, clipPixels, hmn, hmx, clipLimit, ok_bind]
    rw [if_neg (by omega)]
  · intro y x ch
    exact C12_within_palette_partial (fun i => pal i ch) n mn mx (img.px y x) lo hi hn hn2 hlt
      (fun k hk => hpal k ch hk)

/-- C12, discrete mode (`continuous=False`), at most 129 colours: a pixel within the limits gets the
unblended palette colour of its bin, the `n` bins dividing `[minClip, maxClip]` evenly. -/
theorem C12_discrete_partial (pal : Nat → K) (n : Nat) (minClip maxClip v : K)
    (hn : 2 ≤ n) (hn2 : n ≤ 129) (hlt : minClip < maxClip) (h0 : minClip ≤ v) (h1 : v ≤ maxClip) :
    ∃ k, k < n ∧ minClip + (k : K) * (maxClip - minClip) / n ≤ v ∧
      v ≤ minClip + ((k : K) + 1) * (maxClip - minClip) / n ∧
      colormapPixel pal n false minClip maxClip v = some (255 * pal k) := by
  have hnK : (2 : K) ≤ n := by exact_mod_cast hn
  have hn0 : (0 : K) < n := by linarith
  have hn1 : (0 : K) < (n : K) - 1 := by linarith
  set mc := minClip + (maxClip - minClip) * ((n : K) - 1) / (n : K) with hmc
  have hmclt : minClip < mc := by
    have : 0 < (maxClip - minClip) * ((n : K) - 1) / (n : K) :=
      div_pos (mul_pos (by linarith) hn1) hn0
    linarith
  have hpos : ∀ k : Nat, colorPos minClip mc n k = minClip + (k : K) * (maxClip - minClip) / n := by
    intro k
    unfold colorPos
    rw [hmc]
    field_simp
    ring
  by_cases hv : mc < v
  · refine ⟨n - 1, by omega, ?_, ?_, ?_⟩
    · rw [Nat.cast_sub (by omega)]
      push_cast
      have : ((n : K) - 1) * (maxClip - minClip) / n = (maxClip - minClip) * ((n : K) - 1) / n := by ring
      rw [this]; exact hv.le
    · rw [Nat.cast_sub (by omega)]
      push_cast
      have : ((n : K) - 1 + 1) * (maxClip - minClip) / n = maxClip - minClip := by field_simp; ring
      rw [this]; linarith
    · unfold colormapPixel
      simp only [Bool.false_eq_true, if_false]
      rw [← hmc, if_pos hv]
      simp [mul_comm]
  · push Not at hv
    have hp : ∀ k, linspace minClip mc n k = colorPos minClip mc n k := fun k => linspace_eq hn
    obtain ⟨k0, hk0, hb0, hb1⟩ := exists_bin hn h0 hv
    rcases binLoop_spec (linspace minClip mc n) v (n - 1) 0 ⟨0, 0, 0⟩ with ⟨hno, _⟩ | ⟨k, _, hk, ha, hb, _, he⟩
    · exact absurd ⟨by rw [hp]; exact hb0, by rw [hp]; exact hb1⟩ (hno k0 (by omega) (by omega))
    · rw [hp, hpos] at ha hb
      refine ⟨k, by omega, ha, by simpa using hb, ?_⟩
      unfold colormapPixel
      simp only [Bool.false_eq_true, if_false]
      rw [← hmc, he, int8_small (by omega), lookupLoop_hit pal k (n - 1) 0 (0, 0) (by omega) (by omega)]
      rw [if_neg (not_lt.mpr hv), if_neg (not_lt.mpr h0)]
      simp [mul_comm]

/-- C12, refused inputs: an image without usable pixels (empty, or no-data throughout) and without given limits is a ValueError, a palette without
colours (and limits that can be found) an IndexError. -/
theorem C12_refused (img : A2 K) (pal : Nat → Nat → K) (n : Nat) (cont : Bool) (minClip maxClip nodata : Option K) :
    ((∀ y x, y < img.ny → x < img.nx → nodata = some (img.px y x)) → (minClip = none ∨ maxClip = none) →
      applyColormap img pal n cont minClip maxClip nodata = .error .valueError) ∧
    ((∃ y x, y < img.ny ∧ x < img.nx ∧ nodata ≠ some (img.px y x)) → applyColormap img pal 0 cont minClip maxClip nodata = .error .indexError) := by
  have hcl : ∀ v, v ∈ clipPixels img nodata ↔ v ∈ pixels img ∧ nodata ≠ some v := by
    intro v
    unfold clipPixels
    cases nodata with
    | none => simp
    | some d => simp only [List.mem_filter, decide_eq_true_eq, ne_eq, Option.some.injEq, @eq_comm K d v]
  constructor
  · intro h hm
    have he : clipPixels img nodata = [] := by
      rw [List.eq_nil_iff_forall_not_mem]
      intro v hv
      obtain ⟨h1, h2⟩ := (hcl v).1 hv
      obtain ⟨y, x, hy, hx, rfl⟩ := mem_pixels.1 h1
      exact h2 (h y x hy hx)
    unfold applyColormap
    rw [he]
    cases minClip with
    | none => rfl
    | some a =>
      cases maxClip with
      | none => rfl
      | some b => simp at hm
  · rintro ⟨y, x, hy, hx, hne⟩
    have hmem : img.px y x ∈ clipPixels img nodata := (hcl _).2 ⟨mem_pixels.2 ⟨y, x, hy, hx, rfl⟩, hne⟩
    have lim : ∀ (g d : Option K), d ≠ none → ∃ c, clipLimit g d = .ok c := by
      intro g d hd
      cases g with
      | some c => exact ⟨c, rfl⟩
      | none =>
        cases d with
        | none => exact absurd rfl hd
        | some c => exact ⟨c, rfl⟩
    obtain ⟨mn, h1⟩ := lim minClip (clipPixels img nodata).min? (by
      intro e; rw [List.min?_eq_none_iff] at e; rw [e] at hmem; simp at hmem)
    obtain ⟨mx, h2⟩ := lim maxClip (clipPixels img nodata).max? (by
      intro e; rw [List.max?_eq_none_iff] at e; rw [e] at hmem; simp at hmem)
    unfold applyColormap
    rw [h1, ok_bind, h2, ok_bind, if_pos rfl]

end C12

example : colormapPixel (fun k => ([0, 1, 3] : List ℚ).getD k 0) 3 true 0 10 (15/2) = some (255 * 2) := by
  norm_num [colormapPixel, binLoop, lookupLoop, linspace, int8, fdiv]
example : (2 ≤ 6 ∧ 6 ≤ 129) ∧ (0 : ℚ) < 10 := by norm_num
/-- The hypotheses of `C12_false_beyond_128_bins` are met by a 201-colour palette on [0, 200] at
value 128.5. -/
example : colorPos (0 : ℚ) 200 201 128 < 128 + 1/2 ∧ 128 + 1/2 < colorPos (0 : ℚ) 200 201 129 := by
  norm_num [colorPos]

end Verif.ImageUtils
