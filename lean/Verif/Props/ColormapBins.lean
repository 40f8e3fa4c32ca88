import Verif.Props.Colormap
import Mathlib.Tactic.FieldSimp

/-! Property C121: resampling a palette to `n_bins` colours (image_utils.py:191-199). -/

set_option linter.unusedSectionVars false

namespace Verif.ImageUtils
open Verif

section C121
variable {K : Type} [Field K] [LinearOrder K] [IsStrictOrderedRing K]

/-! ### Specification -/

/-- `c` is the colour of a palette of `n` colours at place `u` between 0 (its first colour) and `n - 1` (its last): linear between neighbours. -/
def PaletteAt (pal : Nat → K) (n : Nat) (u c : K) : Prop :=
  ∃ k : Nat, k + 1 < n ∧ (k : K) ≤ u ∧ u ≤ (k : K) + 1 ∧ c = pal k + (pal (k + 1) - pal k) * (u - k)

theorem paletteAt_unique {pal : Nat → K} {n : Nat} {u c c' : K} (h : PaletteAt pal n u c) (h' : PaletteAt pal n u c') : c = c' := by
  obtain ⟨k, _, a1, a2, rfl⟩ := h
  obtain ⟨j, _, b1, b2, rfl⟩ := h'
  have key : ∀ (i l : Nat), i < l → (i : K) ≤ u → u ≤ (i : K) + 1 → (l : K) ≤ u → u ≤ (l : K) + 1 →
      pal i + (pal (i + 1) - pal i) * (u - i) = pal l + (pal (l + 1) - pal l) * (u - l) := by
    intro i l hil i1 i2 l1 l2
    have : ((i + 1 : Nat) : K) ≤ (l : K) := by exact_mod_cast hil
    push_cast at this
    have hu : u = (i : K) + 1 := le_antisymm i2 (le_trans this l1)
    have hl : (l : K) = ((i + 1 : Nat) : K) := by push_cast; linarith
    have hl' : l = i + 1 := by exact_mod_cast hl
    subst hl'
    rw [hu]
    push_cast
    ring
  rcases Nat.lt_trichotomy k j with h | h | h
  · exact key k j h a1 a2 b1 b2
  · subst h; rfl
  · exact (key j k h b1 b2 a1 a2).symm

theorem paletteAt_first {pal : Nat → K} {n : Nat} (hn : 2 ≤ n) : PaletteAt pal n 0 (pal 0) :=
  ⟨0, by omega, by simp, by simp, by simp⟩

theorem paletteAt_last {pal : Nat → K} {n : Nat} (hn : 2 ≤ n) : PaletteAt pal n ((n : K) - 1) (pal (n - 1)) := by
  obtain ⟨k, rfl⟩ := Nat.exists_eq_add_of_le hn
  refine ⟨k, by omega, ?_, ?_, ?_⟩
  · push_cast; linarith
  · push_cast; linarith
  · have : 2 + k - 1 = k + 1 := by omega
    rw [this]
    push_cast
    ring

theorem paletteAt_range {pal : Nat → K} {n : Nat} {u c lo hi : K} (h : PaletteAt pal n u c)
    (hpal : ∀ k, k < n → lo ≤ pal k ∧ pal k ≤ hi) : lo ≤ c ∧ c ≤ hi := by
  obtain ⟨k, hk, a1, a2, rfl⟩ := h
  have p1 := hpal k (by omega)
  have p2 := hpal (k + 1) (by omega)
  have w0 : 0 ≤ u - k := by linarith
  have w1 : 0 ≤ 1 - (u - k) := by linarith
  constructor
  · nlinarith [mul_nonneg w0 (sub_nonneg.mpr p2.1), mul_nonneg w1 (sub_nonneg.mpr p1.1)]
  · nlinarith [mul_nonneg w0 (sub_nonneg.mpr p2.2), mul_nonneg w1 (sub_nonneg.mpr p1.2)]

/-- Continuous mode in terms of the place in the palette. -/
theorem pixel_paletteAt (pal : Nat → K) (n : Nat) (mn mx v : K) (hn : 2 ≤ n) (hn2 : n ≤ 129) (hlt : mn < mx) (h0 : mn ≤ v) (h1 : v ≤ mx) :
    ∃ c, colormapPixel pal n true mn mx v = some (255 * c) ∧ PaletteAt pal n ((v - mn) / (mx - mn) * ((n : K) - 1)) c := by
  obtain ⟨k, hk, ha, hb, he⟩ := C12_interpolates_partial pal n mn mx v hn hn2 hlt h0 h1
  have hd : 0 < mx - mn := by linarith
  have hn1 : (0 : K) < (n : K) - 1 := by
    have : (2 : K) ≤ n := by exact_mod_cast hn
    linarith
  refine ⟨_, he, k, hk, ?_, ?_, ?_⟩
  · unfold colorPos at ha
    have : (k : K) * (mx - mn) / ((n : K) - 1) ≤ v - mn := by linarith
    rw [div_le_iff₀ hn1] at this
    rw [div_mul_eq_mul_div, le_div_iff₀ hd]
    exact this
  · unfold colorPos at hb
    push_cast at hb
    have : v - mn ≤ ((k : K) + 1) * (mx - mn) / ((n : K) - 1) := by linarith
    rw [le_div_iff₀ hn1] at this
    rw [div_mul_eq_mul_div, div_le_iff₀ hd]
    exact this
  · have e : (v - colorPos mn mx n k) / (colorPos mn mx n (k + 1) - colorPos mn mx n k) = (v - mn) / (mx - mn) * ((n : K) - 1) - k := by
      have hs : colorPos mn mx n (k + 1) - colorPos mn mx n k = (mx - mn) / ((n : K) - 1) := by
        unfold colorPos; push_cast; ring
      rw [hs]
      unfold colorPos
      have h2 : (n : K) - 1 ≠ 0 := hn1.ne'
      have h3 : mx - mn ≠ 0 := hd.ne'
      field_simp
      ring
    rw [e]

/-! ### The resampled palette -/

theorem binImage_limits (mn mx : K) (m : Nat) (hm : 2 ≤ m) (hlt : mn < mx) :
    (pixels (binImage mn mx m)).min? = some mn ∧ (pixels (binImage mn mx m)).max? = some mx := by
  have hmem : ∀ i, i < m → colorPos mn mx m i ∈ pixels (binImage mn mx m) := by
    intro i hi
    exact mem_pixels.mpr ⟨0, i, by simp [binImage], hi, by simp only [binImage]; exact linspace_eq hm⟩
  have hall : ∀ w ∈ pixels (binImage mn mx m), ∃ i, i < m ∧ w = colorPos mn mx m i := by
    intro w hw
    obtain ⟨y, x, _, hx, rfl⟩ := mem_pixels.mp hw
    exact ⟨x, hx, by simp only [binImage]; exact linspace_eq hm⟩
  have e0 : colorPos mn mx m 0 = mn := by simp [colorPos]
  have e1 : colorPos mn mx m (m - 1) = mx := by
    unfold colorPos
    have h1 : (0 : K) < (m : K) - 1 := by
      have : (2 : K) ≤ m := by exact_mod_cast hm
      linarith
    rw [Nat.cast_sub (by omega)]
    push_cast
    field_simp
    ring
  have m0 := hmem 0 (by omega)
  have m1 := hmem (m - 1) (by omega)
  rw [e0] at m0
  rw [e1] at m1
  constructor
  · cases h : (pixels (binImage mn mx m)).min? with
    | none => rw [List.min?_eq_none_iff] at h; rw [h] at m0; simp at m0
    | some a =>
      obtain ⟨h1, h2⟩ := min?_spec h
      obtain ⟨i, hi, rfl⟩ := hall a h1
      have := colorPos_mono (n := m) hm hlt (Nat.zero_le i)
      rw [e0] at this
      exact congrArg some (le_antisymm (h2 _ m0) this)
  · cases h : (pixels (binImage mn mx m)).max? with
    | none => rw [List.max?_eq_none_iff] at h; rw [h] at m0; simp at m0
    | some a =>
      obtain ⟨h1, h2⟩ := max?_spec h
      obtain ⟨i, hi, rfl⟩ := hall a h1
      have := colorPos_mono (n := m) (j := i) (k := m - 1) hm hlt (by omega)
      rw [e1] at this
      exact congrArg some (le_antisymm this (h2 _ m1))

theorem bins_ok (pal : Nat → Nat → K) (n m : Nat) (mn mx : K) (hn : 2 ≤ n) (hn2 : n ≤ 129) (hm : 2 ≤ m) (hlt : mn < mx) :
    ∃ p, applyColormap (binImage mn mx m) pal n true none none none = .ok p ∧ allFinite p = true ∧
      ∀ i ch, i < m → PaletteAt (fun k => pal k ch) n ((i : K) / ((m : K) - 1) * ((n : K) - 1)) (binPalette p i ch) := by
  obtain ⟨l1, l2⟩ := binImage_limits mn mx m hm hlt
  have hm1 : (0 : K) < (m : K) - 1 := by
    have : (2 : K) ≤ m := by exact_mod_cast hm
    linarith
  have hd : 0 < mx - mn := by linarith
  have hcol : ∀ i ch, i < m → ∃ c, colormapPixel (fun k => pal k ch) n true mn mx (linspace mn mx m i) = some (255 * c) ∧
      PaletteAt (fun k => pal k ch) n ((i : K) / ((m : K) - 1) * ((n : K) - 1)) c := by
    intro i ch hi
    have hle : (i : K) ≤ (m : K) - 1 := by
      have : ((i + 1 : Nat) : K) ≤ m := by exact_mod_cast hi
      push_cast at this; linarith
    have hv : linspace mn mx m i = mn + (i : K) / ((m : K) - 1) * (mx - mn) := by
      rw [linspace_eq hm]; unfold colorPos; ring
    have hf0 : 0 ≤ (i : K) / ((m : K) - 1) := div_nonneg (Nat.cast_nonneg _) hm1.le
    have hf1 : (i : K) / ((m : K) - 1) ≤ 1 := by rw [div_le_one hm1]; exact hle
    obtain ⟨c, h1, h2⟩ := pixel_paletteAt (fun k => pal k ch) n mn mx (linspace mn mx m i) hn hn2 hlt
      (by rw [hv]; nlinarith) (by rw [hv]; nlinarith)
    refine ⟨c, h1, ?_⟩
    have : (linspace mn mx m i - mn) / (mx - mn) = (i : K) / ((m : K) - 1) := by
      rw [hv, add_sub_cancel_left, mul_div_assoc, div_self hd.ne', mul_one]
    rwa [this] at h2
  refine ⟨⟨1, m, 3, fun y x ch => colormapPixel (fun i => pal i ch) n true mn mx ((binImage mn mx m).px y x)⟩, ?_, ?_, ?_⟩
  · simp only [applyColormap, clipPixels, l1, l2, clipLimit, ok_bind]
    rw [if_neg (by omega)]
    rfl
  · simp only [allFinite, List.all_eq_true, List.mem_range]
    intro i hi ch _
    obtain ⟨c, h1, _⟩ := hcol i ch hi
    simp only [binImage, h1, Option.isSome_some]
  · intro i ch hi
    obtain ⟨c, h1, h2⟩ := hcol i ch hi
    have h255 : (255 : K) ≠ 0 := by norm_num
    have : binPalette ⟨1, m, 3, fun y x ch => colormapPixel (fun i => pal i ch) n true mn mx ((binImage mn mx m).px y x)⟩ i ch = c := by
      simp only [binPalette, binImage, h1, Option.getD_some]
      rw [mul_div_assoc, mul_comm, div_mul_cancel₀ _ h255]
    rw [this]; exact h2

/-! ### C121 -/

/-- The clip limits in force: those given, else the smallest and largest pixel that is not no-data. -/
def Limits (img : A2 K) (minClip maxClip nodata : Option K) (mn mx : K) : Prop :=
  (minClip = some mn ∨ minClip = none ∧ (∃ y x, y < img.ny ∧ x < img.nx ∧ img.px y x = mn ∧ nodata ≠ some mn) ∧
    ∀ y x, y < img.ny → x < img.nx → nodata ≠ some (img.px y x) → mn ≤ img.px y x) ∧
  (maxClip = some mx ∨ maxClip = none ∧ (∃ y x, y < img.ny ∧ x < img.nx ∧ img.px y x = mx ∧ nodata ≠ some mx) ∧
    ∀ y x, y < img.ny → x < img.nx → nodata ≠ some (img.px y x) → img.px y x ≤ mx)

theorem mem_clipPixels {img : A2 K} {nodata : Option K} {w : K} :
    w ∈ clipPixels img nodata ↔ (∃ y x, y < img.ny ∧ x < img.nx ∧ img.px y x = w) ∧ nodata ≠ some w := by
  cases nodata with
  | none => simp [clipPixels, mem_pixels]
  | some d =>
    simp only [clipPixels, List.mem_filter, mem_pixels, decide_eq_true_eq]
    constructor
    · rintro ⟨h, hne⟩
      exact ⟨h, fun he => hne (Option.some.inj he).symm⟩
    · rintro ⟨h, hne⟩
      exact ⟨h, fun he => hne (by rw [he])⟩

theorem limits_ok {img : A2 K} {minClip maxClip nodata : Option K} {mn mx : K} (h : Limits img minClip maxClip nodata mn mx) :
    clipLimit minClip (clipPixels img nodata).min? = .ok mn ∧ clipLimit maxClip (clipPixels img nodata).max? = .ok mx := by
  constructor
  · rcases h.1 with rfl | ⟨rfl, ⟨y, x, hy, hx, he, hne⟩, hall⟩
    · cases (clipPixels img nodata).min? <;> rfl
    · have hmem : mn ∈ clipPixels img nodata := mem_clipPixels.mpr ⟨⟨y, x, hy, hx, he⟩, hne⟩
      cases hm : (clipPixels img nodata).min? with
      | none => rw [List.min?_eq_none_iff] at hm; rw [hm] at hmem; simp at hmem
      | some a =>
        obtain ⟨h1, h2⟩ := min?_spec hm
        obtain ⟨⟨y', x', hy', hx', rfl⟩, hne'⟩ := mem_clipPixels.mp h1
        simp only [clipLimit, le_antisymm (h2 _ hmem) (hall y' x' hy' hx' hne')]
  · rcases h.2 with rfl | ⟨rfl, ⟨y, x, hy, hx, he, hne⟩, hall⟩
    · cases (clipPixels img nodata).max? <;> rfl
    · have hmem : mx ∈ clipPixels img nodata := mem_clipPixels.mpr ⟨⟨y, x, hy, hx, he⟩, hne⟩
      cases hm : (clipPixels img nodata).max? with
      | none => rw [List.max?_eq_none_iff] at hm; rw [hm] at hmem; simp at hmem
      | some a =>
        obtain ⟨h1, h2⟩ := max?_spec hm
        obtain ⟨⟨y', x', hy', hx', rfl⟩, hne'⟩ := mem_clipPixels.mp h1
        simp only [clipLimit, le_antisymm (hall y' x' hy' hx' hne') (h2 _ hmem)]

/-- C121: with `n_bins = m` colours the image is coloured with a palette whose colour `i` is the given palette's colour at the fraction
`i / (m - 1)` of its length. In continuous mode a pixel between the limits is at its own fraction of that palette, pixels beyond the limits have its
first or last colour; in discrete mode a pixel has the colour of the bin, of `m` equal ones, in which it lies. -/
theorem C121_resampled (img : A2 K) (pal : Nat → Nat → K) (n m : Nat) (minClip maxClip nodata : Option K) (mn mx : K)
    (hl : Limits img minClip maxClip nodata mn mx) (hlt : mn < mx) (hn : 2 ≤ n) (hn2 : n ≤ 129) (hm : 2 ≤ m) (hm2 : m ≤ 129) :
    ∃ new : Nat → Nat → K,
      (∀ i ch, i < m → PaletteAt (fun k => pal k ch) n ((i : K) / ((m : K) - 1) * ((n : K) - 1)) (new i ch)) ∧
      (∃ out, applyColormapBins img pal n true minClip maxClip nodata m = .ok out ∧ out.ny = img.ny ∧ out.nx = img.nx ∧ out.nb = 3 ∧
        ∀ y x ch, ∃ c, out.px y x ch = some (255 * c) ∧ (img.px y x < mn → c = new 0 ch) ∧ (mx < img.px y x → c = new (m - 1) ch) ∧
          (mn ≤ img.px y x → img.px y x ≤ mx → PaletteAt (fun k => new k ch) m ((img.px y x - mn) / (mx - mn) * ((m : K) - 1)) c)) ∧
      (∃ out, applyColormapBins img pal n false minClip maxClip nodata m = .ok out ∧ out.ny = img.ny ∧ out.nx = img.nx ∧ out.nb = 3 ∧
        ∀ y x ch, mn ≤ img.px y x → img.px y x ≤ mx → ∃ k, k < m ∧ mn + (k : K) * (mx - mn) / m ≤ img.px y x ∧
          img.px y x ≤ mn + ((k : K) + 1) * (mx - mn) / m ∧ out.px y x ch = some (255 * new k ch)) := by
  obtain ⟨l1, l2⟩ := limits_ok hl
  obtain ⟨p, hp, hfin, hcol⟩ := bins_ok pal n m mn mx hn hn2 hm hlt
  have hrun : ∀ cont, applyColormapBins img pal n cont minClip maxClip nodata m = .ok ⟨img.ny, img.nx, 3, fun y x ch =>
      if allFinite p then colormapPixel (fun i => binPalette p i ch) m cont mn mx (img.px y x) else none⟩ := by
    intro cont
    unfold applyColormapBins
    rw [l1, ok_bind, l2, ok_bind, hp, ok_bind, if_neg (by omega)]
  refine ⟨binPalette p, hcol, ⟨_, hrun true, rfl, rfl, rfl, ?_⟩, ⟨_, hrun false, rfl, rfl, rfl, ?_⟩⟩
  · intro y x ch
    simp only [hfin, if_true]
    by_cases h0 : img.px y x < mn
    · exact ⟨_, (C12_clipped _ m mn mx _ hlt.le).1 h0, fun _ => rfl, fun h => absurd (lt_trans h h0) (not_lt.mpr hlt.le),
        fun h => absurd h0 (not_lt.mpr h)⟩
    by_cases h1 : mx < img.px y x
    · exact ⟨_, (C12_clipped _ m mn mx _ hlt.le).2 h1, fun h => absurd h h0, fun _ => rfl, fun _ h => absurd h1 (not_lt.mpr h)⟩
    obtain ⟨c, e1, e2⟩ := pixel_paletteAt (fun i => binPalette p i ch) m mn mx (img.px y x) hm hm2 hlt (not_lt.mp h0) (not_lt.mp h1)
    exact ⟨c, e1, fun h => absurd h h0, fun h => absurd h h1, fun _ _ => e2⟩
  · intro y x ch h0 h1
    simp only [hfin, if_true]
    exact C12_discrete_partial (fun i => binPalette p i ch) m mn mx (img.px y x) hm hm2 hlt h0 h1

/-- C121, continuous mode: resampling to a number of colours that refines the palette evenly (`m - 1` a multiple of `n - 1`, in particular `m = n`)
does not change the picture. -/
theorem C121_refined (img : A2 K) (pal : Nat → Nat → K) (n m r : Nat) (minClip maxClip nodata : Option K) (mn mx : K)
    (hl : Limits img minClip maxClip nodata mn mx) (hlt : mn < mx) (hn : 2 ≤ n) (hm2 : m ≤ 129) (hr : 1 ≤ r) (hm : m - 1 = r * (n - 1)) :
    ∃ out out', applyColormapBins img pal n true minClip maxClip nodata m = .ok out ∧
      applyColormap img pal n true minClip maxClip nodata = .ok out' ∧ out.ny = out'.ny ∧ out.nx = out'.nx ∧ out.nb = out'.nb ∧
      ∀ y x ch, out.px y x ch = out'.px y x ch := by
  have hmn : n ≤ m := by
    have : n - 1 ≤ m - 1 := by rw [hm]; exact Nat.le_mul_of_pos_left _ hr
    omega
  obtain ⟨new, hnew, ⟨out, ho, o1, o2, o3, o4⟩, _⟩ := C121_resampled img pal n m minClip maxClip nodata mn mx hl hlt hn (by omega) (by omega) hm2
  obtain ⟨l1, l2⟩ := limits_ok hl
  have hrun : applyColormap img pal n true minClip maxClip nodata = .ok ⟨img.ny, img.nx, 3, fun y x ch =>
      colormapPixel (fun i => pal i ch) n true mn mx (img.px y x)⟩ := by
    unfold applyColormap
    rw [l1, ok_bind, l2, ok_bind, if_neg (by omega)]
  refine ⟨out, _, ho, hrun, o1, o2, o3, ?_⟩
  intro y x ch
  obtain ⟨c, e1, e2, e3, e4⟩ := o4 y x ch
  have hnK : (2 : K) ≤ n := by exact_mod_cast hn
  have hn1 : (0 : K) < (n : K) - 1 := by linarith
  have hrK : (1 : K) ≤ r := by exact_mod_cast hr
  have hmK : (m : K) - 1 = r * ((n : K) - 1) := by
    have := congrArg (Nat.cast (R := K)) hm
    rw [Nat.cast_mul, Nat.cast_sub (by omega), Nat.cast_sub (by omega)] at this
    simpa using this
  have hm1 : (0 : K) < (m : K) - 1 := by rw [hmK]; exact mul_pos (by linarith) hn1
  have hr0 : (0 : K) < r := by linarith
  have hplace : ∀ i : Nat, (i : K) / ((m : K) - 1) * ((n : K) - 1) = (i : K) / r := by
    intro i
    rw [hmK]
    have h1 : (n : K) - 1 ≠ 0 := hn1.ne'
    have h2 : (r : K) ≠ 0 := hr0.ne'
    field_simp
  simp only
  rw [e1]
  by_cases h0 : img.px y x < mn
  · rw [(C12_clipped (fun i => pal i ch) n mn mx _ hlt.le).1 h0, e2 h0]
    have := hnew 0 ch (by omega)
    rw [hplace] at this
    simp only [Nat.cast_zero, zero_div] at this
    rw [paletteAt_unique this (paletteAt_first hn)]
  by_cases h1 : mx < img.px y x
  · rw [(C12_clipped (fun i => pal i ch) n mn mx _ hlt.le).2 h1, e3 h1]
    have := hnew (m - 1) ch (by omega)
    rw [Nat.cast_sub (by omega), Nat.cast_one, div_self hm1.ne', one_mul] at this
    rw [paletteAt_unique this (paletteAt_last hn)]
  push Not at h0 h1
  obtain ⟨c', f1, f2⟩ := pixel_paletteAt (fun i => pal i ch) n mn mx (img.px y x) hn (by omega) hlt h0 h1
  rw [f1]
  congr 2
  refine paletteAt_unique ?_ f2
  obtain ⟨k', hk', a1, a2, rfl⟩ := e4 h0 h1
  set t := (img.px y x - mn) / (mx - mn) with ht
  rw [hmK] at a1 a2 ⊢
  have hdiv := Nat.div_add_mod k' r
  have hmod := Nat.mod_lt k' (show 0 < r by omega)
  set k := k' / r with hk
  have b1 : r * k ≤ k' := by omega
  have b2 : k' + 1 ≤ r * (k + 1) := by rw [Nat.mul_add]; omega
  have c1 : (r : K) * k ≤ k' := by exact_mod_cast b1
  have c2 : (k' : K) + 1 ≤ r * ((k : K) + 1) := by exact_mod_cast b2
  have hkn : k + 1 < n := by
    by_contra hc
    have : r * (n - 1) ≤ r * k := Nat.mul_le_mul_left _ (by omega)
    omega
  have g1 : new k' ch = pal k ch + (pal (k + 1) ch - pal k ch) * ((k' : K) / r - k) := by
    have := hnew k' ch (by omega)
    rw [hplace] at this
    refine paletteAt_unique this ⟨k, hkn, ?_, ?_, rfl⟩
    · rw [le_div_iff₀ hr0]; linarith [mul_comm (k : K) r]
    · rw [div_le_iff₀ hr0]; linarith [mul_comm ((k : K) + 1) r]
  have g2 : new (k' + 1) ch = pal k ch + (pal (k + 1) ch - pal k ch) * (((k' : K) + 1) / r - k) := by
    have := hnew (k' + 1) ch (by omega)
    rw [hplace] at this
    push_cast at this
    refine paletteAt_unique this ⟨k, hkn, ?_, ?_, rfl⟩
    · rw [le_div_iff₀ hr0]; linarith [mul_comm (k : K) r]
    · rw [div_le_iff₀ hr0]; linarith [mul_comm ((k : K) + 1) r]
  refine ⟨k, hkn, ?_, ?_, ?_⟩
  · have : (r : K) * k ≤ r * (t * ((n : K) - 1)) := by linarith [mul_left_comm t (r : K) ((n : K) - 1)]
    exact le_of_mul_le_mul_left this hr0
  · have : (r : K) * (t * ((n : K) - 1)) ≤ r * ((k : K) + 1) := by linarith [mul_left_comm t (r : K) ((n : K) - 1)]
    exact le_of_mul_le_mul_left this hr0
  · beta_reduce
    rw [g1, g2]
    have h2 : (r : K) ≠ 0 := hr0.ne'
    field_simp
    ring

/-- C121: no bins at all are a ValueError, a single bin is an IndexError (for a palette of at least one colour). -/
theorem C121_degenerate (img : A2 K) (pal : Nat → Nat → K) (n : Nat) (cont : Bool) (minClip maxClip nodata : Option K) (mn mx : K)
    (hl : Limits img minClip maxClip nodata mn mx) (hn : 1 ≤ n) :
    applyColormapBins img pal n cont minClip maxClip nodata 0 = .error .valueError ∧
    applyColormapBins img pal n cont minClip maxClip nodata 1 = .error .indexError := by
  obtain ⟨l1, l2⟩ := limits_ok hl
  constructor
  · unfold applyColormapBins
    rw [l1, ok_bind, l2, ok_bind]
    have : applyColormap (binImage mn mx 0) pal n true none none none = .error .valueError := by
      unfold applyColormap
      have : clipPixels (binImage mn mx 0) none = [] := by simp [clipPixels, binImage, pixels]
      rw [this]
      rfl
    rw [this]; rfl
  · unfold applyColormapBins
    rw [l1, ok_bind, l2, ok_bind]
    have : ∃ p, applyColormap (binImage mn mx 1) pal n true none none none = .ok p := by
      have h1 : clipPixels (binImage mn mx 1) none = [linspace mn mx 1 0] := by simp [clipPixels, binImage, pixels]
      unfold applyColormap
      simp only [h1, List.min?_singleton, List.max?_singleton, clipLimit, ok_bind]
      rw [if_neg (by omega)]
      exact ⟨_, rfl⟩
    obtain ⟨p, hp⟩ := this
    rw [hp, ok_bind, if_pos rfl]

end C121

/-- An image from 0 to 10 with no-data value -1; a palette of 3 colours is refined evenly by 5 bins. -/
example : Limits (⟨1, 3, fun _ x => if x = 0 then 0 else if x = 1 then 10 else -1⟩ : A2 ℚ) none none (some (-1)) 0 10 ∧ 5 - 1 = 2 * (3 - 1) := by
  refine ⟨⟨Or.inr ⟨rfl, ⟨0, 0, by simp, by simp, by simp, by norm_num⟩, ?_⟩, Or.inr ⟨rfl, ⟨0, 1, by simp, by simp, by simp, by norm_num⟩, ?_⟩⟩, rfl⟩
  all_goals
    intro y x _ hx hne
    simp only at hx
    match x with
    | 0 => norm_num
    | 1 => norm_num
    | 2 => simp at hne
    | x + 3 => omega

end Verif.ImageUtils
