import Verif.Model.IntImages
import Verif.Props.ImageUtils
import Verif.Props.SpectralDetect

/-! Properties C126 (normalising and colouring images of integers) and C127 (spectral angles of images of integers). -/

set_option linter.unusedSectionVars false

namespace Verif.IntImages
open Verif ImageUtils Spectral
open Finset (range)
open scoped BigOperators

/-- The values an integer type can hold: `2 ^ bits` of them, from 0, or half of them negative. -/
def Holds (d : IntT) (v : Int) : Prop :=
  if d.signed then -2 ^ (d.bits - 1) ≤ v ∧ v < 2 ^ (d.bits - 1) else 0 ≤ v ∧ v < 2 ^ d.bits

/-- The image's values are of the type. -/
def InType (d : IntT) (img : A2 Int) : Prop := ∀ y x, y < img.ny → x < img.nx → Holds d (img.px y x)

/-- The same image as floats. -/
def floats {K : Type} [Field K] (img : A2 Int) : A2 K := ⟨img.ny, img.nx, fun y x => (img.px y x : K)⟩

theorem two_pow_half {n : Nat} (h : 1 ≤ n) : (2 : Int) ^ n = 2 ^ (n - 1) + 2 ^ (n - 1) := by
  obtain ⟨m, rfl⟩ : ∃ m, n = m + 1 := ⟨n - 1, by omega⟩
  rw [Nat.add_sub_cancel, pow_succ]; ring

theorem wrap_of_holds {d : IntT} (hb : 1 ≤ d.bits) {v : Int} (h : Holds d v) : wrap d v = v := by
  unfold Holds at h
  unfold wrap IntT.lo
  have := two_pow_half hb
  split at h
  · rename_i hs
    rw [if_pos hs, Int.emod_eq_of_lt (by omega) (by omega)]; omega
  · rename_i hs
    rw [if_neg hs, Int.emod_eq_of_lt (by omega) (by omega)]; omega

/-- What the result of an operation in an integer type is: the value of the type that differs from the exact result by a multiple of `2 ^ bits`. -/
theorem wrap_spec {d : IntT} (hb : 1 ≤ d.bits) (v w : Int) : wrap d v = w ↔ Holds d w ∧ ∃ k : Int, v = w + 2 ^ d.bits * k := by
  have hp : (0 : Int) < 2 ^ d.bits := by positivity
  have h2 := two_pow_half hb
  constructor
  · rintro rfl
    have h0 := Int.emod_nonneg (v - d.lo) hp.ne'
    have h1 := Int.emod_lt_of_pos (v - d.lo) hp
    have h3 := Int.emod_add_mul_ediv (v - d.lo) (2 ^ d.bits)
    refine ⟨?_, (v - d.lo) / 2 ^ d.bits, ?_⟩
    · unfold Holds wrap IntT.lo
      unfold IntT.lo at h0 h1
      cases hs : d.signed
      · simp only [hs, Bool.false_eq_true, if_false] at h0 h1 ⊢
        constructor <;> omega
      · simp only [hs, if_true] at h0 h1 ⊢
        constructor <;> omega
    · unfold wrap; linarith
  · rintro ⟨hw, k, rfl⟩
    have : w + 2 ^ d.bits * k - d.lo = (w - d.lo) + 2 ^ d.bits * k := by ring
    have h3 := wrap_of_holds hb hw
    unfold wrap at h3 ⊢
    rw [this, Int.add_mul_emod_self_left]; exact h3

section C126
variable {K : Type} [Field K] [LinearOrder K] [IsStrictOrderedRing K]

theorem intMinMax_ok {img : A2 Int} (h : 0 < img.ny ∧ 0 < img.nx) :
    ∃ mn mx, intMinMax img = .ok (mn, mx) ∧ (∃ y x, y < img.ny ∧ x < img.nx ∧ img.px y x = mn) ∧
      (∃ y x, y < img.ny ∧ x < img.nx ∧ img.px y x = mx) ∧ ∀ y x, y < img.ny → x < img.nx → mn ≤ img.px y x ∧ img.px y x ≤ mx := by
  have hne : pixels img ≠ [] := by
    intro hc
    have : img.px 0 0 ∈ pixels img := mem_pixels.mpr ⟨0, 0, h.1, h.2, rfl⟩
    rw [hc] at this; simp at this
  obtain ⟨mn, hmn⟩ : ∃ m, (pixels img).min? = some m := by
    cases hh : (pixels img).min? with
    | none => rw [List.min?_eq_none_iff] at hh; exact absurd hh hne
    | some m => exact ⟨m, rfl⟩
  obtain ⟨mx, hmx⟩ : ∃ m, (pixels img).max? = some m := by
    cases hh : (pixels img).max? with
    | none => rw [List.max?_eq_none_iff] at hh; exact absurd hh hne
    | some m => exact ⟨m, rfl⟩
  have h1 := List.min?_eq_some_iff.mp hmn
  have h2 := List.max?_eq_some_iff.mp hmx
  refine ⟨mn, mx, by unfold intMinMax; rw [hmn, hmx], mem_pixels.mp h1.1, mem_pixels.mp h2.1, ?_⟩
  intro y x hy hx
  have hm : img.px y x ∈ pixels img := mem_pixels.mpr ⟨y, x, hy, hx, rfl⟩
  exact ⟨h1.2 _ hm, h2.2 _ hm⟩

theorem floats_minmax {img : A2 Int} {mn mx : Int} (h : 0 < img.ny ∧ 0 < img.nx)
    (h1 : ∃ y x, y < img.ny ∧ x < img.nx ∧ img.px y x = mn) (h2 : ∃ y x, y < img.ny ∧ x < img.nx ∧ img.px y x = mx)
    (hb : ∀ y x, y < img.ny → x < img.nx → mn ≤ img.px y x ∧ img.px y x ≤ mx) :
    npMin (floats img : A2 K) = .ok (mn : K) ∧ npMax (floats img : A2 K) = .ok (mx : K) := by
  obtain ⟨a, b, e1, e2, ⟨ya, xa, hya, hxa, ha⟩, ⟨yb, xb, hyb, hxb, hb'⟩, hab⟩ := npMinMax (K := K) (img := floats img) h
  obtain ⟨y1, x1, hy1, hx1, rfl⟩ := h1
  obtain ⟨y2, x2, hy2, hx2, rfl⟩ := h2
  have p1 := (hab y1 x1 hy1 hx1).1
  have p2 := (hab y2 x2 hy2 hx2).2
  have q1 := (hb ya xa hya hxa).1
  have q2 := (hb yb xb hyb hxb).2
  have r1 : ((img.px y1 x1 : Int) : K) ≤ a := by
    rw [← ha]; show ((img.px y1 x1 : Int) : K) ≤ ((img.px ya xa : Int) : K); exact_mod_cast q1
  have r2 : b ≤ ((img.px y2 x2 : Int) : K) := by
    rw [← hb']; show ((img.px yb xb : Int) : K) ≤ ((img.px y2 x2 : Int) : K); exact_mod_cast q2
  have s1 : a = ((img.px y1 x1 : Int) : K) := le_antisymm p1 r1
  have s2 : b = ((img.px y2 x2 : Int) : K) := le_antisymm r2 p2
  rw [e1, e2, s1, s2]
  exact ⟨rfl, rfl⟩

theorem normalizeInt_ok {d : IntT} {img : A2 Int} {mn mx : Int} (e : intMinMax img = .ok (mn, mx)) (newMin newMax : K) :
    normalizeInt d img newMin newMax = .ok ⟨img.ny, img.nx, fun y x =>
      (fdiv ((wrap d (img.px y x - mn) : Int) : K) ((wrap d (mx - mn) : Int) : K)).map (fun z => z * (newMax - newMin) + newMin)⟩ := by
  simp only [normalizeInt, e, ok_bind]

theorem normalizeFloats_ok {img : A2 Int} {mn mx : Int} (f1 : npMin (floats img : A2 K) = .ok (mn : K))
    (f2 : npMax (floats img : A2 K) = .ok (mx : K)) (newMin newMax : K) :
    normalizeGrayscale (floats img) newMin newMax = .ok ⟨img.ny, img.nx, fun y x =>
      (fdiv ((img.px y x : K) - (mn : K)) ((mx : K) - (mn : K))).map (fun z => z * (newMax - newMin) + newMin)⟩ := by
  simp only [normalizeGrayscale, f1, f2, ok_bind]; rfl

/-- C126 (partial: the range of the image must fit its own type, see `C126_overflow_false`): an image of unsigned integers, or of signed integers
whose values are less than `2 ^ (bits - 1)` apart, is normalised as the same image of floats would be. -/
theorem C126_same_as_floats_partial (d : IntT) (hbits : 1 ≤ d.bits) (img : A2 Int) (hin : InType d img) (hne : 0 < img.ny ∧ 0 < img.nx)
    (hfit : d.signed = false ∨ ∀ y x y' x', y < img.ny → x < img.nx → y' < img.ny → x' < img.nx → img.px y x - img.px y' x' < 2 ^ (d.bits - 1))
    (newMin newMax : K) :
    ∃ r s, normalizeInt d img newMin newMax = .ok r ∧ normalizeGrayscale (floats img) newMin newMax = .ok s ∧ r.Same s := by
  obtain ⟨mn, mx, e, h1, h2, hb⟩ := intMinMax_ok hne
  obtain ⟨f1, f2⟩ := floats_minmax (K := K) hne h1 h2 hb
  refine ⟨_, _, normalizeInt_ok e newMin newMax, normalizeFloats_ok f1 f2 newMin newMax, rfl, rfl, ?_⟩
  intro y x hy hx
  obtain ⟨y1, x1, hy1, hx1, rfl⟩ := h1
  obtain ⟨y2, x2, hy2, hx2, rfl⟩ := h2
  have key : ∀ y x, y < img.ny → x < img.nx → wrap d (img.px y x - img.px y1 x1) = img.px y x - img.px y1 x1 := by
    intro y x hy hx
    apply wrap_of_holds hbits
    have a1 := hin y x hy hx
    have a2 := hin y1 x1 hy1 hx1
    have a3 := (hb y x hy hx).1
    unfold Holds at a1 a2 ⊢
    rcases hfit with hs | hf
    · simp only [hs, Bool.false_eq_true, if_false] at a1 a2 ⊢
      omega
    · cases hs : d.signed
      · simp only [hs, Bool.false_eq_true, if_false] at a1 a2 ⊢
        omega
      · simp only [if_true]
        have := hf y x y1 x1 hy hx hy1 hx1
        have hp : (0 : Int) < 2 ^ (d.bits - 1) := by positivity
        omega
  simp only [floats]
  rw [key y x hy hx, key y2 x2 hy2 hx2]
  push_cast
  rfl

/-- C126 fails for every image of signed integers whose range does not fit its type (for instance int16 data from -20000 to 20000) and that has a
third value: **every** pixel strictly between the extremes leaves the requested range: it goes below it when it is less than `2 ^ (bits - 1)` above
the smallest value, and above it otherwise. -/
theorem C126_overflow_false (d : IntT) (hbits : 1 ≤ d.bits) (hs : d.signed = true) (img : A2 Int) (hin : InType d img)
    (y1 x1 y2 x2 : Nat) (h1 : y1 < img.ny ∧ x1 < img.nx) (h2 : y2 < img.ny ∧ x2 < img.nx)
    (hmin : ∀ y x, y < img.ny → x < img.nx → img.px y1 x1 ≤ img.px y x) (hmax : ∀ y x, y < img.ny → x < img.nx → img.px y x ≤ img.px y2 x2)
    (hover : 2 ^ (d.bits - 1) ≤ img.px y2 x2 - img.px y1 x1) (newMin newMax : K) (hlt : newMin < newMax) :
    ∃ r, normalizeInt d img newMin newMax = .ok r ∧ ∀ y x, y < img.ny → x < img.nx → img.px y1 x1 < img.px y x → img.px y x < img.px y2 x2 →
      ∃ v, r.px y x = some v ∧ (img.px y x - img.px y1 x1 < 2 ^ (d.bits - 1) → v < newMin) ∧
        (2 ^ (d.bits - 1) ≤ img.px y x - img.px y1 x1 → newMax < v) := by
  obtain ⟨mn, mx, e, ⟨ya, xa, hya, hxa, rfl⟩, ⟨yb, xb, hyb, hxb, rfl⟩, hb⟩ := intMinMax_ok (img := img) ⟨by omega, by omega⟩
  have emn : img.px ya xa = img.px y1 x1 := le_antisymm (hb y1 x1 h1.1 h1.2).1 (hmin ya xa hya hxa)
  have emx : img.px yb xb = img.px y2 x2 := le_antisymm (hmax yb xb hyb hxb) (hb y2 x2 h2.1 h2.2).2
  rw [emn, emx] at e
  have hold : ∀ y x, y < img.ny → x < img.nx → -2 ^ (d.bits - 1) ≤ img.px y x ∧ img.px y x < 2 ^ (d.bits - 1) := by
    intro y x hy hx
    have := hin y x hy hx
    unfold Holds at this
    rwa [if_pos hs] at this
  have h22 := two_pow_half hbits
  have g1 := hold y1 x1 h1.1 h1.2
  have g2 := hold y2 x2 h2.1 h2.2
  have big : ∀ v : Int, 2 ^ (d.bits - 1) ≤ v → v < 2 ^ d.bits → wrap d v = v - 2 ^ d.bits := by
    intro v hv hv'
    rw [wrap_spec hbits]
    refine ⟨?_, 1, by ring⟩
    unfold Holds
    rw [if_pos hs]
    omega
  have small : ∀ v : Int, 0 ≤ v → v < 2 ^ (d.bits - 1) → wrap d v = v := by
    intro v hv hv'
    apply wrap_of_holds hbits
    unfold Holds
    rw [if_pos hs]
    omega
  have hD := big (img.px y2 x2 - img.px y1 x1) hover (by omega)
  have hDneg : img.px y2 x2 - img.px y1 x1 - 2 ^ d.bits < 0 := by omega
  set D : Int := img.px y2 x2 - img.px y1 x1 - 2 ^ d.bits with hDdef
  have hDK : ((D : Int) : K) < 0 := by exact_mod_cast hDneg
  refine ⟨_, normalizeInt_ok e newMin newMax, ?_⟩
  intro y x hy hx hlo hhi
  have g := hold y x hy hx
  have hw : 0 < newMax - newMin := by linarith
  refine ⟨((wrap d (img.px y x - img.px y1 x1) : Int) : K) / (D : K) * (newMax - newMin) + newMin, ?_, ?_, ?_⟩
  · simp only [hD]
    unfold fdiv
    rw [if_neg hDK.ne]
    rfl
  · intro hsm
    rw [small _ (by omega) hsm]
    have : 0 < ((img.px y x - img.px y1 x1 : Int) : K) := by exact_mod_cast (by omega)
    have := mul_neg_of_neg_of_pos (div_neg_of_pos_of_neg this hDK) hw
    linarith
  · intro hbg
    rw [big _ hbg (by omega)]
    have h3 : ((img.px y x - img.px y1 x1 - 2 ^ d.bits : Int) : K) < (D : K) := Int.cast_lt.mpr (by omega)
    have h4 : 1 < ((img.px y x - img.px y1 x1 - 2 ^ d.bits : Int) : K) / (D : K) := by
      rw [one_lt_div_of_neg hDK]; exact h3
    nlinarith

/-- C126: hence an image of signed integers keeps its floats' normalisation exactly when its range fits its type or it has no value strictly between
its smallest and largest. -/
theorem C126_iff_partial (d : IntT) (hbits : 1 ≤ d.bits) (hs : d.signed = true) (img : A2 Int) (hin : InType d img)
    (y1 x1 y2 x2 : Nat) (h1 : y1 < img.ny ∧ x1 < img.nx) (h2 : y2 < img.ny ∧ x2 < img.nx)
    (hmin : ∀ y x, y < img.ny → x < img.nx → img.px y1 x1 ≤ img.px y x) (hmax : ∀ y x, y < img.ny → x < img.nx → img.px y x ≤ img.px y2 x2)
    (newMin newMax : K) (hlt : newMin < newMax) :
    (∃ r s, normalizeInt d img newMin newMax = .ok r ∧ normalizeGrayscale (floats img) newMin newMax = .ok s ∧ r.Same s) ↔
      (img.px y2 x2 - img.px y1 x1 < 2 ^ (d.bits - 1) ∨
        ∀ y x, y < img.ny → x < img.nx → img.px y x = img.px y1 x1 ∨ img.px y x = img.px y2 x2) := by
  have hne : 0 < img.ny ∧ 0 < img.nx := ⟨by omega, by omega⟩
  constructor
  · rintro ⟨r, s, e1, e2, hsame⟩
    by_contra hc
    push Not at hc
    obtain ⟨hov, y, x, hy, hx, ha, hb⟩ := hc
    obtain ⟨r', e1', hv⟩ := C126_overflow_false d hbits hs img hin y1 x1 y2 x2 h1 h2 hmin hmax hov newMin newMax hlt
    rw [e1] at e1'
    obtain rfl := Except.ok.inj e1'
    have l1 := lt_of_le_of_ne (hmin y x hy hx) (Ne.symm ha)
    have l2 := lt_of_le_of_ne (hmax y x hy hx) hb
    obtain ⟨v, q1, q2, q3⟩ := hv y x hy hx l1 l2
    obtain ⟨out, w, e3, -, -, hr, -⟩ := C10_normalize (floats img : A2 K) newMin newMax hlt.le y1 x1 y2 x2 h1 h2
      (by simp only [floats]; exact_mod_cast (by omega))
    rw [e2] at e3
    obtain rfl := Except.ok.inj e3
    obtain ⟨p1, p2, p3⟩ := hr y x hy hx
    have hny : r.ny = img.ny ∧ r.nx = img.nx := by
      unfold normalizeInt at e1
      obtain ⟨m, -, e1⟩ := bind_ok e1
      obtain rfl := Except.ok.inj e1
      exact ⟨rfl, rfl⟩
    have := hsame.2.2 y x (by rw [hny.1]; exact hy) (by rw [hny.2]; exact hx)
    rw [q1, p1] at this
    obtain rfl := Option.some.inj this
    rcases lt_or_ge (img.px y x - img.px y1 x1) (2 ^ (d.bits - 1)) with h | h
    · exact absurd p2 (not_le.mpr (q2 h))
    · exact absurd p3 (not_le.mpr (q3 h))
  · intro h
    by_cases hf : img.px y2 x2 - img.px y1 x1 < 2 ^ (d.bits - 1)
    · refine C126_same_as_floats_partial d hbits img hin hne (Or.inr ?_) newMin newMax
      intro y x y' x' hy hx hy' hx'
      have := hmax y x hy hx
      have := hmin y' x' hy' hx'
      omega
    · have h := h.resolve_left hf
      obtain ⟨mn, mx, e, ⟨ya, xa, hya, hxa, rfl⟩, ⟨yb, xb, hyb, hxb, rfl⟩, hb⟩ := intMinMax_ok hne
      have emn : img.px ya xa = img.px y1 x1 := le_antisymm (hb y1 x1 h1.1 h1.2).1 (hmin ya xa hya hxa)
      have emx : img.px yb xb = img.px y2 x2 := le_antisymm (hmax yb xb hyb hxb) (hb y2 x2 h2.1 h2.2).2
      rw [emn, emx] at e
      obtain ⟨f1, f2⟩ := floats_minmax (K := K) hne ⟨y1, x1, h1.1, h1.2, rfl⟩ ⟨y2, x2, h2.1, h2.2, rfl⟩
        (fun y x hy hx => ⟨hmin y x hy hx, hmax y x hy hx⟩)
      refine ⟨_, _, normalizeInt_ok e newMin newMax, normalizeFloats_ok f1 f2 newMin newMax, rfl, rfl, ?_⟩
      intro y x hy hx
      have hp : (0 : Int) < 2 ^ (d.bits - 1) := by positivity
      have hz : wrap d 0 = 0 := wrap_of_holds hbits (by unfold Holds; rw [if_pos hs]; omega)
      have hold : ∀ y x, y < img.ny → x < img.nx → -2 ^ (d.bits - 1) ≤ img.px y x ∧ img.px y x < 2 ^ (d.bits - 1) := by
        intro y x hy hx
        have := hin y x hy hx
        unfold Holds at this
        rwa [if_pos hs] at this
      have h22 := two_pow_half hbits
      have g1 := hold y1 x1 h1.1 h1.2
      have g2 := hold y2 x2 h2.1 h2.2
      have hW : wrap d (img.px y2 x2 - img.px y1 x1) ≠ 0 := by
        intro hw
        rw [wrap_spec hbits] at hw
        obtain ⟨-, k, hk⟩ := hw
        rw [zero_add] at hk
        rcases lt_trichotomy k 0 with hk0 | rfl | hk0
        · nlinarith
        · omega
        · have hp2 : (0 : Int) < 2 ^ d.bits := by positivity
          nlinarith
      simp only [floats]
      rcases h y x hy hx with hv | hv
      · simp only [hv, sub_self, hz]
        unfold fdiv
        have h1' : ((wrap d (img.px y2 x2 - img.px y1 x1) : Int) : K) ≠ 0 := by exact_mod_cast hW
        have h2' : ((img.px y2 x2 : Int) : K) - (img.px y1 x1 : K) ≠ 0 := by
          have : ((img.px y1 x1 : Int) : K) < (img.px y2 x2 : K) := by exact_mod_cast (by omega)
          intro hc; linarith
        rw [if_neg h1', if_neg h2']
        simp
      · simp only [hv]
        unfold fdiv
        have h1' : ((wrap d (img.px y2 x2 - img.px y1 x1) : Int) : K) ≠ 0 := by exact_mod_cast hW
        have h2' : ((img.px y2 x2 : Int) : K) - (img.px y1 x1 : K) ≠ 0 := by
          have : ((img.px y1 x1 : Int) : K) < (img.px y2 x2 : K) := by exact_mod_cast (by omega)
          intro hc; linarith
        rw [if_neg h1', if_neg h2', div_self h1', div_self h2']

/-- C126, empty images: ValueError. -/
theorem C126_empty (d : IntT) (img : A2 Int) (newMin newMax : K) (h : img.ny = 0 ∨ img.nx = 0) :
    normalizeInt d img newMin newMax = .error .valueError := by
  have hp : pixels img = [] := by
    rw [List.eq_nil_iff_forall_not_mem]
    intro c hc
    obtain ⟨y, x, hy, hx, -⟩ := mem_pixels.mp hc
    omega
  simp [normalizeInt, intMinMax, hp, error_bind]

/-- C126, discrete colours with default limits: when the range fits the type (always for unsigned types) a pixel gets the colour the same image of
floats would give it. -/
theorem C126_discrete_partial (d : IntT) (hbits : 1 ≤ d.bits) (pal : Nat → K) (n : Nat) (mn mx v : Int)
    (hfit : Holds d (mx - mn)) :
    some (discretePixelInt d pal n mn mx v) = colormapPixel pal n false (mn : K) (mx : K) (v : K) := by
  unfold discretePixelInt colormapPixel discreteMaxInt
  rw [wrap_of_holds hbits hfit]
  simp only [Bool.false_eq_true, if_false]
  push_cast
  split
  · rfl
  · split <;> rfl

/-- C126 fails for discrete colours too: when the range of an image of signed integers does not fit its type, every pixel gets the last colour
(palettes of two colours or more). -/
theorem C126_discrete_false (d : IntT) (hbits : 1 ≤ d.bits) (hs : d.signed = true) (pal : Nat → K) (n : Nat) (hn : 2 ≤ n) (mn mx v : Int)
    (hmn : Holds d mn) (hmx : Holds d mx) (hover : 2 ^ (d.bits - 1) ≤ mx - mn) (hv : mn ≤ v) :
    discretePixelInt d pal n mn mx v = pal (n - 1) * 255 := by
  unfold Holds at hmn hmx
  rw [if_pos hs] at hmn hmx
  have h22 := two_pow_half hbits
  have hw : wrap d (mx - mn) = mx - mn - 2 ^ d.bits := by
    rw [wrap_spec hbits]
    refine ⟨?_, 1, by ring⟩
    unfold Holds
    rw [if_pos hs]
    omega
  unfold discretePixelInt
  simp only []
  rw [if_pos]
  unfold discreteMaxInt
  rw [hw]
  have h1 : ((mx - mn - 2 ^ d.bits : Int) : K) < 0 := Int.cast_lt_zero.mpr (by omega)
  have h2 : (0 : K) < (n : K) - 1 := by
    have : (2 : K) ≤ (n : K) := by exact_mod_cast hn
    linarith
  have h3 : (0 : K) < (n : K) := by linarith
  have h4 : ((mx - mn - 2 ^ d.bits : Int) : K) * ((n : K) - 1) / (n : K) < 0 := div_neg_of_neg_of_pos (mul_neg_of_neg_of_pos h1 h2) h3
  have h5 : ((mn : Int) : K) ≤ (v : K) := by exact_mod_cast hv
  linarith

/-- int16 elevations -20000, 0, 20000 normalised to [0, 1]: the middle one becomes -20000/25536. -/
example : ∃ r, normalizeInt ⟨true, 16⟩ ⟨1, 3, fun _ x => [-20000, 0, 20000].getD x 0⟩ (0 : ℚ) 1 = .ok r ∧
    r.px 0 0 = some 0 ∧ r.px 0 1 = some (-20000 / 25536) ∧ r.px 0 2 = some 1 := ⟨_, rfl, by decide +kernel, by decide +kernel, by decide +kernel⟩

example : InType ⟨true, 16⟩ ⟨1, 3, fun _ x => [-20000, 0, 20000].getD x 0⟩ := by
  intro y x hy hx
  have : x = 0 ∨ x = 1 ∨ x = 2 := by simp only [] at hx; omega
  rcases this with rfl | rfl | rfl <;> simp [Holds]

example : discretePixelInt ⟨true, 16⟩ (fun i => ([0, 1/2, 1].getD i 0 : ℚ)) 3 (-20000) 20000 (-20000) = 255 := by decide +kernel

end C126

/-! ### C127 -/

/-- The score `sam` should give sample `k`: the cosine of its angle to the target. -/
noncomputable def cosine (n : Nat) (t x : Nat → ℝ) : ℝ := inner n t x / (Real.sqrt (inner n t t) * Real.sqrt (inner n x x))

/-- Sample `k` of an image of integers as a vector. -/
def sample (img : A2 Int) (k : Nat) : Nat → ℝ := fun b => (img.px k b : ℝ)

/-- Any sum of `n` values of the type fits in 64 bits (types of 8, 16 and 32 bits and images of fewer than `2 ^ 31` bands). -/
def SumFits (d : IntT) (n : Nat) : Prop := (n : Int) * 2 ^ d.bits ≤ 2 ^ 63

theorem squares_fit (d : IntT) (hbits : 1 ≤ d.bits) (img : A2 Int) (k : Nat)
    (hfit : ∀ b, b < img.nx → Holds d (img.px k b * img.px k b)) (hsum : Holds d.wide (∑ b ∈ range img.nx, img.px k b * img.px k b)) :
    (squares d img k : ℝ) = inner img.nx (sample img k) (sample img k) := by
  have e : ∑ b ∈ range img.nx, wrap d (img.px k b * img.px k b) = ∑ b ∈ range img.nx, img.px k b * img.px k b :=
    Finset.sum_congr rfl (fun b hb => wrap_of_holds hbits (hfit b (Finset.mem_range.mp hb)))
  unfold squares
  rw [e, wrap_of_holds (by unfold IntT.wide; norm_num) hsum]
  unfold inner sample; push_cast; rfl

/-- For the types of up to 32 bits the sum of squares that fit the type always fits the 64 bits it is accumulated in. -/
theorem sum_fits (d : IntT) (hbits : 1 ≤ d.bits) (img : A2 Int) (k : Nat) (hsum : SumFits d img.nx)
    (hfit : ∀ b, b < img.nx → Holds d (img.px k b * img.px k b)) : Holds d.wide (∑ b ∈ range img.nx, img.px k b * img.px k b) := by
  have h0 : 0 ≤ ∑ b ∈ range img.nx, img.px k b * img.px k b := Finset.sum_nonneg (fun _ _ => mul_self_nonneg _)
  have h1 : ∑ b ∈ range img.nx, img.px k b * img.px k b ≤ ∑ _b ∈ range img.nx, (2 ^ d.bits - 1 : Int) := by
    apply Finset.sum_le_sum
    intro b hb
    have := hfit b (Finset.mem_range.mp hb)
    have h2 := two_pow_half hbits
    have hp : (0 : Int) < 2 ^ (d.bits - 1) := by positivity
    unfold Holds at this
    split at this <;> omega
  rw [Finset.sum_const, Finset.card_range, nsmul_eq_mul] at h1
  unfold SumFits at hsum
  have h3 : (img.nx : Int) * (2 ^ d.bits - 1) = img.nx * 2 ^ d.bits - img.nx := by ring
  have h4 : ∑ b ∈ range img.nx, img.px k b * img.px k b < 2 ^ 63 := by
    rcases Nat.eq_zero_or_pos img.nx with h | h
    · rw [h]; simp
    · have : (0 : Int) < img.nx := by exact_mod_cast h
      omega
  unfold Holds IntT.wide
  simp only []
  split
  · constructor
    · have : (0 : Int) < 2 ^ 63 := by positivity
      omega
    · exact h4
  · refine ⟨h0, lt_trans h4 (by norm_num)⟩

/-- C127 (partial: the squares of the values must fit the image's type, see `C127_overflow_false`): for a target of floats, a sample of an image of
integers gets the score of the same image of floats when the squares of its values fit the image's type. -/
theorem C127_same_as_floats_partial (d : IntT) (hbits : 1 ≤ d.bits) (img : A2 Int) (t : A1 ℝ) (ht : t.n = img.nx) :
    ∃ r s, samInt d img t = .ok r ∧ sam (floats img) t = .ok s ∧ r.n = img.ny ∧ s.n = img.ny ∧
      ∀ k, k < img.ny → (∀ b, b < img.nx → Holds d (img.px k b * img.px k b)) →
        Holds d.wide (∑ b ∈ range img.nx, img.px k b * img.px k b) → r.px k = s.px k := by
  refine ⟨_, _, by unfold samInt; rw [if_pos ht], by unfold sam; rw [if_pos (by exact ht)], rfl, rfl, ?_⟩
  intro k _ hfit hsum
  have h1 : (0 : ℝ) ≤ ∑ b ∈ range img.nx, t.px b * t.px b := Finset.sum_nonneg (fun _ _ => mul_self_nonneg _)
  have h2 : (0 : ℝ) ≤ inner img.nx (sample img k) (sample img k) := Finset.sum_nonneg (fun _ _ => mul_self_nonneg _)
  simp only [squares_fit d hbits img k hfit hsum]
  unfold fsqrt
  rw [if_neg (not_lt.mpr h1), if_neg (not_lt.mpr h2)]
  rfl

/-- C127: an image of integers and a target of the same type: the score is that of floats when moreover the two inner products with the target fit. -/
theorem C127_same_type_partial (d : IntT) (hbits : 1 ≤ d.bits) (img : A2 Int) (t : A1 Int) (ht : t.n = img.nx)
    (htt : Holds d (∑ b ∈ range img.nx, t.px b * t.px b)) :
    ∃ r s, samSame d img t = .ok r ∧ sam (floats img) ⟨t.n, fun b => (t.px b : ℝ)⟩ = .ok s ∧ r.n = img.ny ∧ s.n = img.ny ∧
      ∀ k, k < img.ny → (∀ b, b < img.nx → Holds d (img.px k b * img.px k b)) →
        Holds d.wide (∑ b ∈ range img.nx, img.px k b * img.px k b) → Holds d (∑ b ∈ range img.nx, t.px b * img.px k b) →
        r.px k = s.px k := by
  refine ⟨_, _, by unfold samSame; rw [if_pos ht], by unfold sam; rw [if_pos (by exact ht)], rfl, rfl, ?_⟩
  intro k _ hfit hsum hx
  have h1 : (0 : ℝ) ≤ ((∑ b ∈ range img.nx, t.px b * t.px b : Int) : ℝ) := by
    exact_mod_cast Finset.sum_nonneg (fun b (_ : b ∈ range img.nx) => mul_self_nonneg (t.px b))
  have h2 : (0 : ℝ) ≤ inner img.nx (sample img k) (sample img k) := Finset.sum_nonneg (fun _ _ => mul_self_nonneg _)
  simp only [squares_fit d hbits img k hfit hsum, wrap_of_holds hbits htt, wrap_of_holds hbits hx]
  unfold fsqrt
  rw [if_neg (not_lt.mpr h1), if_neg (not_lt.mpr h2)]
  unfold ratio floats
  simp only []
  push_cast
  rfl

theorem fdiv_eq_some {a b v : ℝ} : fdiv a b = some v ↔ b ≠ 0 ∧ v = a / b := by
  unfold fdiv
  by_cases h : b = 0
  · simp [h]
  · rw [if_neg h]
    constructor
    · rintro ⟨⟩; exact ⟨h, rfl⟩
    · rintro ⟨-, rfl⟩; rfl

/-- The sum of the squares as computed, for an unsigned type: at most the true sum, less as soon as one square does not fit. -/
theorem squares_le (d : IntT) (hs : d.signed = false) (img : A2 Int) (k : Nat) (hsum : SumFits d img.nx) :
    0 ≤ (squares d img k : ℝ) ∧ (squares d img k : ℝ) ≤ inner img.nx (sample img k) (sample img k) ∧
    ((squares d img k : ℝ) = inner img.nx (sample img k) (sample img k) ↔ ∀ b, b < img.nx → img.px k b * img.px k b < 2 ^ d.bits) := by
  have hp : (0 : Int) < 2 ^ d.bits := by positivity
  have hw : ∀ v : Int, wrap d v = v % 2 ^ d.bits := by
    intro v
    unfold wrap IntT.lo
    simp [hs]
  have hle : ∀ b, 0 ≤ wrap d (img.px k b * img.px k b) ∧ wrap d (img.px k b * img.px k b) < 2 ^ d.bits ∧
      wrap d (img.px k b * img.px k b) ≤ img.px k b * img.px k b := by
    intro b
    rw [hw]
    have h0 := mul_self_nonneg (img.px k b)
    refine ⟨Int.emod_nonneg _ hp.ne', Int.emod_lt_of_pos _ hp, ?_⟩
    have := Int.emod_add_mul_ediv (img.px k b * img.px k b) (2 ^ d.bits)
    have h2 : 0 ≤ img.px k b * img.px k b / 2 ^ d.bits := Int.ediv_nonneg h0 hp.le
    nlinarith
  have hS0 : 0 ≤ ∑ b ∈ range img.nx, wrap d (img.px k b * img.px k b) := Finset.sum_nonneg (fun b _ => (hle b).1)
  have hS1 : ∑ b ∈ range img.nx, wrap d (img.px k b * img.px k b) < 2 ^ 64 := by
    have h1 : ∑ b ∈ range img.nx, wrap d (img.px k b * img.px k b) ≤ ∑ _b ∈ range img.nx, (2 ^ d.bits : Int) :=
      Finset.sum_le_sum (fun b _ => (hle b).2.1.le)
    rw [Finset.sum_const, Finset.card_range, nsmul_eq_mul] at h1
    unfold SumFits at hsum
    exact lt_of_le_of_lt (h1.trans hsum) (by norm_num)
  have e : squares d img k = ∑ b ∈ range img.nx, wrap d (img.px k b * img.px k b) := by
    unfold squares
    apply wrap_of_holds (by unfold IntT.wide; norm_num)
    unfold Holds IntT.wide
    simp only [hs, Bool.false_eq_true, if_false]
    exact ⟨hS0, hS1⟩
  have einner : inner img.nx (sample img k) (sample img k) = ((∑ b ∈ range img.nx, img.px k b * img.px k b : Int) : ℝ) := by
    unfold inner sample; push_cast; rfl
  rw [e, einner]
  refine ⟨by exact_mod_cast hS0, by exact_mod_cast Finset.sum_le_sum (fun b _ => (hle b).2.2), ?_⟩
  rw [Int.cast_inj, Finset.sum_eq_sum_iff_of_le (fun b _ => (hle b).2.2)]
  constructor
  · intro h b hb
    have := h b (Finset.mem_range.mpr hb)
    rw [← this]; exact (hle b).2.1
  · intro h b hb
    rw [hw]
    exact Int.emod_eq_of_lt (mul_self_nonneg _) (h b (Finset.mem_range.mp hb))

/-- C127, unsigned types and a target of floats, exactly: the score of a sample that has one is the cosine of its angle to the target if and only if
all squares of its values fit the type or the sample is orthogonal to the target; otherwise the score is farther from zero than the cosine. -/
theorem C127_unsigned_iff_partial (d : IntT) (hbits : 1 ≤ d.bits) (hs : d.signed = false) (img : A2 Int) (t : A1 ℝ) (ht : t.n = img.nx)
    (htnz : ∃ b, b < img.nx ∧ t.px b ≠ 0) (hsum : SumFits d img.nx) :
    ∃ r, samInt d img t = .ok r ∧ ∀ k, k < img.ny → ∀ v, r.px k = some v →
      ((v = cosine img.nx t.px (sample img k) ↔
        (∀ b, b < img.nx → img.px k b * img.px k b < 2 ^ d.bits) ∨ inner img.nx t.px (sample img k) = 0) ∧
      |cosine img.nx t.px (sample img k)| ≤ |v|) := by
  refine ⟨_, by unfold samInt; rw [if_pos ht], ?_⟩
  intro k _ v hv
  obtain ⟨q0, q1, q2⟩ := squares_le d hs img k hsum
  have htt : 0 < inner img.nx t.px t.px := inner_pos _ _ htnz
  simp only [] at hv
  have eT : ∑ b ∈ range img.nx, t.px b * t.px b = inner img.nx t.px t.px := rfl
  have eN : ∑ b ∈ range img.nx, t.px b * (img.px k b : ℝ) = inner img.nx t.px (sample img k) := rfl
  rw [eT, eN] at hv
  unfold fsqrt at hv
  rw [if_neg (not_lt.mpr htt.le), if_neg (not_lt.mpr q0)] at hv
  unfold ratio at hv
  simp only [] at hv
  obtain ⟨hne, hv⟩ := fdiv_eq_some.mp hv
  set T := Real.sqrt (inner img.nx t.px t.px) with hT
  have hT0 : 0 < T := Real.sqrt_pos.mpr htt
  set R' := Real.sqrt (squares d img k : ℝ) with hR'
  set R := Real.sqrt (inner img.nx (sample img k) (sample img k)) with hR
  have hR'0 : 0 < R' := lt_of_le_of_ne (Real.sqrt_nonneg _) (fun h => hne (by rw [← h, mul_zero]))
  have hRR : R' ≤ R := Real.sqrt_le_sqrt q1
  have hR0 : 0 < R := lt_of_lt_of_le hR'0 hRR
  have hc : cosine img.nx t.px (sample img k) = inner img.nx t.px (sample img k) / (T * R) := rfl
  rw [hc, hv]
  set N := inner img.nx t.px (sample img k)
  constructor
  · rw [div_eq_div_iff (mul_pos hT0 hR'0).ne' (mul_pos hT0 hR0).ne']
    constructor
    · intro h
      by_cases hN : N = 0
      · exact Or.inr hN
      · left
        rw [← q2]
        have h1 : T * R = T * R' := mul_left_cancel₀ hN h
        have h2 : R = R' := mul_left_cancel₀ hT0.ne' h1
        have := congrArg (fun z => z * z) h2
        simp only [hR, hR'] at this
        rw [Real.mul_self_sqrt (q0.trans q1), Real.mul_self_sqrt q0] at this
        exact this.symm
    · rintro (h | h)
      · have : R' = R := by rw [hR', hR, q2.mpr h]
        rw [this]
      · rw [h]; ring
  · rw [abs_div, abs_div, abs_of_pos (mul_pos hT0 hR'0), abs_of_pos (mul_pos hT0 hR0)]
    exact div_le_div_of_nonneg_left (abs_nonneg _) (mul_pos hT0 hR'0) (mul_le_mul_of_nonneg_left hRR hT0.le)

/-- C127 fails for unsigned images: a sample that is exactly the target, with a square that does not fit the type, never gets the score 1: it gets
more than 1, or none at all. -/
theorem C127_overflow_false (d : IntT) (hbits : 1 ≤ d.bits) (hs : d.signed = false) (img : A2 Int) (t : A1 ℝ) (ht : t.n = img.nx)
    (hsum : SumFits d img.nx) (k : Nat) (hk : k < img.ny) (htk : ∀ b, b < img.nx → t.px b = (img.px k b : ℝ))
    (b : Nat) (hb : b < img.nx) (hover : 2 ^ d.bits ≤ img.px k b * img.px k b) :
    ∃ r, samInt d img t = .ok r ∧ (r.px k = none ∨ ∃ v, r.px k = some v ∧ 1 < v) := by
  have hp : (0 : Int) < 2 ^ d.bits := by positivity
  have hnz : img.px k b ≠ 0 := by
    intro h; rw [h] at hover; omega
  have htnz : ∃ b, b < img.nx ∧ t.px b ≠ 0 := ⟨b, hb, by rw [htk b hb]; exact_mod_cast hnz⟩
  obtain ⟨r, e, h⟩ := C127_unsigned_iff_partial d hbits hs img t ht htnz hsum
  refine ⟨r, e, ?_⟩
  cases hv : r.px k with
  | none => exact Or.inl rfl
  | some v =>
    right
    refine ⟨v, rfl, ?_⟩
    obtain ⟨h1, h2⟩ := h k hk v hv
    have eNT : inner img.nx t.px (sample img k) = inner img.nx t.px t.px :=
      Finset.sum_congr rfl (fun b hb => by rw [htk b (Finset.mem_range.mp hb)]; rfl)
    have eXX : inner img.nx (sample img k) (sample img k) = inner img.nx t.px t.px :=
      Finset.sum_congr rfl (fun b hb => by rw [htk b (Finset.mem_range.mp hb)]; rfl)
    have htt : 0 < inner img.nx t.px t.px := inner_pos _ _ htnz
    have hc : cosine img.nx t.px (sample img k) = 1 := by
      unfold cosine
      rw [eNT, eXX, Real.mul_self_sqrt htt.le, div_self htt.ne']
    rw [hc] at h1 h2
    have hne : v ≠ 1 := by
      intro hc1
      rcases h1.mp hc1 with h | h
      · exact absurd (h b hb) (not_lt.mpr hover)
      · rw [eNT] at h; exact htt.ne' h
    have hv0 : 0 ≤ v := by
      unfold samInt at e
      rw [if_pos ht] at e
      obtain rfl := Except.ok.inj e
      simp only [] at hv
      unfold ratio at hv
      split at hv
      · rename_i l r' hl hr
        obtain ⟨-, rfl⟩ := fdiv_eq_some.mp hv
        have hl0 : 0 ≤ l := by
          unfold fsqrt at hl
          split at hl
          · cases hl
          · obtain rfl := Option.some.inj hl; exact Real.sqrt_nonneg _
        have hr0 : 0 ≤ r' := by
          unfold fsqrt at hr
          split at hr
          · cases hr
          · obtain rfl := Option.some.inj hr; exact Real.sqrt_nonneg _
        apply div_nonneg _ (mul_nonneg hl0 hr0)
        have : ∑ b ∈ range img.nx, t.px b * (img.px k b : ℝ) = inner img.nx t.px (sample img k) := rfl
        rw [this, eNT]; exact htt.le
      · cases hv
    rw [abs_one, abs_of_nonneg hv0] at h2
    exact lt_of_le_of_ne h2 (Ne.symm hne)

/-- C127 fails for unsigned images of an even number of bits: a sample whose values are multiples of `2 ^ (bits / 2)` (256, 512, ... in uint16) has no
finite score, whatever the target. -/
theorem C127_multiples_false (d : IntT) (h : Nat) (hh : 1 ≤ h) (hd : d = ⟨false, 2 * h⟩) (img : A2 Int) (t : A1 ℝ) (ht : t.n = img.nx) (k : Nat)
    (hm : ∀ b, b < img.nx → ∃ m : Int, img.px k b = 2 ^ h * m) : ∃ r, samInt d img t = .ok r ∧ r.px k = none := by
  refine ⟨_, by unfold samInt; rw [if_pos ht], ?_⟩
  have hz : squares d img k = 0 := by
    unfold squares
    have : ∑ b ∈ range img.nx, wrap d (img.px k b * img.px k b) = 0 := by
      apply Finset.sum_eq_zero
      intro b hb
      obtain ⟨m, e⟩ := hm b (Finset.mem_range.mp hb)
      subst hd
      unfold wrap IntT.lo
      simp only [Bool.false_eq_true, if_false, sub_zero, add_zero]
      apply Int.emod_eq_zero_of_dvd
      exact ⟨m * m, by rw [e, two_mul, pow_add]; ring⟩
    rw [this]
    subst hd
    unfold wrap IntT.lo IntT.wide
    simp
  simp only [hz]
  unfold fsqrt ratio
  rw [if_neg (by simp : ¬ ((0 : Int) : ℝ) < 0)]
  split
  · rename_i l r hl hr
    simp only [Int.cast_zero, Real.sqrt_zero, Option.some.injEq] at hr
    unfold fdiv
    rw [← hr, mul_zero, if_pos rfl]
  · rfl

/-- C127 fails when a sample of an unsigned image is the target itself, of the image's type: if the squares fit but their sum does not, the score is
less than 1 (or none), although the sample is the target. -/
theorem C127_self_false (d : IntT) (hbits : 1 ≤ d.bits) (hs : d.signed = false) (img : A2 Int) (k : Nat) (hsum : SumFits d img.nx)
    (hfit : ∀ b, b < img.nx → img.px k b * img.px k b < 2 ^ d.bits)
    (hover : 2 ^ d.bits ≤ ∑ b ∈ range img.nx, img.px k b * img.px k b) :
    ∃ r, samSame d img ⟨img.nx, img.px k⟩ = .ok r ∧ (r.px k = none ∨ ∃ v, r.px k = some v ∧ v < 1) := by
  refine ⟨_, by unfold samSame; rw [if_pos rfl], ?_⟩
  have hp : (0 : Int) < 2 ^ d.bits := by positivity
  obtain ⟨q0, -, q2⟩ := squares_le d hs img k hsum
  have hS := q2.mpr hfit
  have einner : inner img.nx (sample img k) (sample img k) = ((∑ b ∈ range img.nx, img.px k b * img.px k b : Int) : ℝ) := by
    unfold inner sample; push_cast; rfl
  rw [einner] at hS
  have hw : ∀ v : Int, wrap d v = v % 2 ^ d.bits := by
    intro v; unfold wrap IntT.lo; simp [hs]
  set S : Int := ∑ b ∈ range img.nx, img.px k b * img.px k b with hSdef
  have hW0 : 0 ≤ wrap d S := by rw [hw]; exact Int.emod_nonneg _ hp.ne'
  have hW1 : wrap d S < S := by rw [hw]; exact lt_of_lt_of_le (Int.emod_lt_of_pos _ hp) hover
  have hW0' : (0 : ℝ) ≤ (wrap d S : ℝ) := by exact_mod_cast hW0
  have hW1' : (wrap d S : ℝ) < (S : ℝ) := by exact_mod_cast hW1
  simp only [hS]
  rw [← hSdef]
  unfold fsqrt
  rw [if_neg (not_lt.mpr hW0'), if_neg (not_lt.mpr (hW0'.trans hW1'.le))]
  unfold ratio
  simp only []
  set W : ℝ := (wrap d S : ℝ)
  by_cases hz : W = 0
  · left
    unfold fdiv
    rw [hz]; simp
  · right
    have hWp : 0 < W := lt_of_le_of_ne hW0' (Ne.symm hz)
    have hSp : (0 : ℝ) < (S : ℝ) := hWp.trans hW1'
    have hne : Real.sqrt W * Real.sqrt (S : ℝ) ≠ 0 := (mul_pos (Real.sqrt_pos.mpr hWp) (Real.sqrt_pos.mpr hSp)).ne'
    refine ⟨_, fdiv_eq_some.mpr ⟨hne, rfl⟩, ?_⟩
    rw [div_lt_one (mul_pos (Real.sqrt_pos.mpr hWp) (Real.sqrt_pos.mpr hSp))]
    calc W = Real.sqrt W * Real.sqrt W := (Real.mul_self_sqrt hWp.le).symm
      _ < Real.sqrt W * Real.sqrt (S : ℝ) := mul_lt_mul_of_pos_left (Real.sqrt_lt_sqrt hWp.le hW1') (Real.sqrt_pos.mpr hWp)

/-- C127: a target of another length than the samples is an error. -/
theorem C127_wrong_length (d : IntT) (img : A2 Int) : (∀ t : A1 ℝ, t.n ≠ img.nx → samInt d img t = .error .valueError) ∧
    ∀ t : A1 Int, t.n ≠ img.nx → samSame d img t = .error .valueError :=
  ⟨fun t h => by unfold samInt; rw [if_neg h], fun t h => by unfold samSame; rw [if_neg h]⟩

/-- A uint8 image of one sample (10, 10, 10): every square is 100, their sum 300 is stored as 44. -/
example : ∃ r, samSame ⟨false, 8⟩ ⟨1, 3, fun _ _ => 10⟩ ⟨3, fun _ => 10⟩ = .ok r ∧ (r.px 0 = none ∨ ∃ v, r.px 0 = some v ∧ v < 1) :=
  C127_self_false ⟨false, 8⟩ (by decide) rfl ⟨1, 3, fun _ _ => 10⟩ 0 (by unfold SumFits; norm_num) (by intro b _; norm_num)
    (by simp)

/-- A uint16 image of one sample (300, 1): 300 * 300 does not fit. -/
example : ∃ r, samInt ⟨false, 16⟩ ⟨1, 2, fun _ b => [300, 1].getD b 0⟩ ⟨2, fun b => (([300, 1].getD b 0 : Int) : ℝ)⟩ = .ok r ∧
    (r.px 0 = none ∨ ∃ v, r.px 0 = some v ∧ 1 < v) :=
  C127_overflow_false ⟨false, 16⟩ (by decide) rfl ⟨1, 2, fun _ b => [300, 1].getD b 0⟩ _ rfl (by unfold SumFits; norm_num) 0 (by norm_num)
    (by intro b _; rfl) 0 (by norm_num) (by simp)

/-- Small values: the squares of (3, 4) fit in uint8, and the score of the sample against itself as floats is that of floats. -/
example : ∃ r s, samInt ⟨false, 8⟩ ⟨1, 2, fun _ b => [3, 4].getD b 0⟩ ⟨2, fun b => (([3, 4].getD b 0 : Int) : ℝ)⟩ = .ok r ∧
    sam (floats ⟨1, 2, fun _ b => [3, 4].getD b 0⟩) ⟨2, fun b => (([3, 4].getD b 0 : Int) : ℝ)⟩ = .ok s ∧ r.px 0 = s.px 0 := by
  obtain ⟨r, s, e1, e2, -, -, h⟩ := C127_same_as_floats_partial ⟨false, 8⟩ (by decide) ⟨1, 2, fun _ b => [3, 4].getD b 0⟩
    ⟨2, fun b => (([3, 4].getD b 0 : Int) : ℝ)⟩ rfl
  refine ⟨r, s, e1, e2, h 0 (by norm_num) ?_ ?_⟩
  · intro b hb
    have : b = 0 ∨ b = 1 := by simp only [] at hb; omega
    rcases this with rfl | rfl <;> simp [Holds]
  · simp [Holds, IntT.wide, Finset.sum_range_succ]

/-- uint8 data 10, 200: normalised as floats would be. -/
example : ∃ r, normalizeInt ⟨false, 8⟩ ⟨1, 3, fun _ x => [10, 105, 200].getD x 0⟩ (0 : ℚ) 1 = .ok r ∧
    r.px 0 0 = some 0 ∧ r.px 0 1 = some (1 / 2) ∧ r.px 0 2 = some 1 := ⟨_, rfl, by decide +kernel, by decide +kernel, by decide +kernel⟩

end Verif.IntImages
