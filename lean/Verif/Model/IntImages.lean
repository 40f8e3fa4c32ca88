import Verif.Model.Spectral

/-! Models of the array functions that compute in the integer type of the image they are given:
`normalize_grayscale_image` and the discrete colormap limits of `/repo/resippy/utils/image_utils/image_utils.py`, and `sam` of
`/repo/resippy/spectral/spectral_image_processing_1d.py`.

numpy adds, subtracts and multiplies integers of one type in that type, silently modulo a power of two; it divides and takes square roots in
floating point. Rounding is not modelled. -/

namespace Verif.IntImages
open Verif ImageUtils Spectral
open Finset (range)
open scoped BigOperators

/-- A numpy integer type: signed or not, and its number of bits (8, 16, 32 or 64). See image_utils.py:125-133. -/
structure IntT where
  signed : Bool
  bits : Nat

/-- The smallest value of an integer type. Used for `wrap`, image_utils.py:127-128. -/
def IntT.lo (d : IntT) : Int := if d.signed then -2 ^ (d.bits - 1) else 0

/-- The value of an integer type congruent to `v`: what an operation with exact result `v` gives (image_utils.py:128,
spectral_image_processing_1d.py:171, 176, 178-179). -/
def wrap (d : IntT) (v : Int) : Int := (v - d.lo) % 2 ^ d.bits + d.lo

/-- The type in which `np.sum` adds integers of type `d`: 64 bits of the same signedness (spectral_image_processing_1d.py:178). -/
def IntT.wide (d : IntT) : IntT := ⟨d.signed, 64⟩

/-- `np.min` and `np.max` of an integer image: ValueError when empty. Used for `normalizeInt`, image_utils.py:126-127. -/
def intMinMax (img : A2 Int) : Py (Int × Int) :=
  match (pixels img).min?, (pixels img).max? with
  | some a, some b => .ok (a, b)
  | _, _ => .error .valueError

section
variable {K : Type} [Field K] [LinearOrder K] [IsStrictOrderedRing K]

/-- `normalize_grayscale_image` (image_utils.py:125-133) with `output_dtype=None` of an image of integer type `d`: the two differences of line 128
are computed in that type, their quotient and the rest in floating point. A pixel is `none` when the result is not finite. -/
def normalizeInt (d : IntT) (img : A2 Int) (newMin newMax : K) : Py (A2 (Option K)) := do
  let m ← intMinMax img
  .ok ⟨img.ny, img.nx, fun y x =>
    (fdiv ((wrap d (img.px y x - m.1) : Int) : K) ((wrap d (m.2 - m.1) : Int) : K)).map (fun z => z * (newMax - newMin) + newMin)⟩

/-- The upper limit of the discrete colormap with default limits `mn`, `mx` of an image of integer type `d` (image_utils.py:204-205):
`max_clip - min_clip` is a difference of two numbers of that type; what follows is a Python int or a float. -/
def discreteMaxInt (d : IntT) (mn mx : Int) (n : Nat) : K := (mn : K) + ((wrap d (mx - mn) : Int) : K) * ((n : K) - 1) / (n : K)

/-- `apply_colormap_to_grayscale_image` (image_utils.py:166-259) with `continuous=False`, default limits and no no-data value, for an image of integer
type `d` and a palette of `n` colours: one channel of one pixel. With the upper limit known the pixel gets the unblended colour of its bin. -/
def discretePixelInt (d : IntT) (pal : Nat → K) (n : Nat) (mn mx v : Int) : K :=
  let maxClip : K := discreteMaxInt d mn mx n
  let st := binLoop (linspace (mn : K) maxClip n) (v : K) (n - 1) 0 ⟨0, 0, 0⟩
  let c := lookupLoop pal st.low (n - 1) 0 (0, 0)
  (if maxClip < (v : K) then pal (n - 1) else if (v : K) < (mn : K) then pal 0 else c.1) * 255

end

/-- `np.sqrt`: of a negative number it is NaN. Used for `samInt`, spectral_image_processing_1d.py:176-179. -/
noncomputable def fsqrt (x : ℝ) : Option ℝ := if x < 0 then none else some (Real.sqrt x)

/-- The quotient of line 180 of spectral_image_processing_1d.py. -/
noncomputable def ratio (num : ℝ) (left right : Option ℝ) : Option ℝ :=
  match left, right with
  | some l, some r => fdiv num (l * r)
  | _, _ => none

/-- The sum of squares of sample `k` (spectral_image_processing_1d.py:178-179): `np.multiply` in the type of the image, `np.sum` in 64 bits. -/
def squares (d : IntT) (img : A2 Int) (k : Nat) : Int := wrap d.wide (∑ b ∈ range img.nx, wrap d (img.px k b * img.px k b))

/-- `sam` (spectral_image_processing_1d.py:165-181) of an image of integer type `d` and a target of floats: only the squares of the image's values
are computed in integers. -/
noncomputable def samInt (d : IntT) (img : A2 Int) (t : A1 ℝ) : Py (A1 (Option ℝ)) :=
  if t.n = img.nx then
    .ok ⟨img.ny, fun k => ratio (∑ b ∈ range img.nx, t.px b * (img.px k b : ℝ)) (fsqrt (∑ b ∈ range img.nx, t.px b * t.px b))
      (fsqrt (squares d img k : ℝ))⟩
  else .error .valueError

/-- `sam` (spectral_image_processing_1d.py:165-181) of an image of integer type `d` and a target of the same type, for instance a pixel of the image:
`np.dot` of integers is computed in their type. -/
noncomputable def samSame (d : IntT) (img : A2 Int) (t : A1 Int) : Py (A1 (Option ℝ)) :=
  if t.n = img.nx then
    .ok ⟨img.ny, fun k => ratio ((wrap d (∑ b ∈ range img.nx, t.px b * img.px k b) : Int) : ℝ)
      (fsqrt ((wrap d (∑ b ∈ range img.nx, t.px b * t.px b) : Int) : ℝ)) (fsqrt (squares d img k : ℝ))⟩
  else .error .valueError

end Verif.IntImages
