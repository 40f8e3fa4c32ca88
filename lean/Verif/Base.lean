import Mathlib.Data.List.Dedup
import Mathlib.Data.List.Sort
import Mathlib.Data.Rat.Floor
import Mathlib.Tactic.Ring
import Mathlib.Tactic.Linarith

/-!
Python and numpy notions shared by the models: exceptions as values, integer indices and
slices with their negative wrap-around, `numpy.arange` on integers, `sorted(set(..))`,
and arrays as a shape together with an index function.
-/

namespace Verif

/-- Python exception classes raised by the modelled code (messages are not modelled).
Used throughout; Python itself, not one file of the repository. -/
inductive Err where
  | valueError
  | indexError
  | typeError
  | attributeError
  | keyError
  | zeroDivision
  | notImplemented
  | fileNotFound
  | unboundLocal
  | linAlgError
  | stopIteration
  | overflow
  | nameError
  | loops            -- not an exception: the call never returns
  deriving DecidableEq, Repr

/-- A Python call: a value or an exception.
Used throughout; Python itself, not one file of the repository. -/
abbrev Py := Except Err

/-- Python integer index `a[i]` into a sequence of length `n`: negative indices count from the
end, anything else out of range raises IndexError. Used for `resolveBands`, image_chipper.py:102. -/
def pyIdx (n : Nat) (i : Int) : Py Nat :=
  if 0 ≤ i ∧ i < n then .ok i.toNat
  else if -(n : Int) ≤ i ∧ i < 0 then .ok (i + n).toNat
  else .error .indexError

/-- Python slice bound: negative counts from the end; clamped to `[0, n]`.
Used for `copyChip`, image_chipper.py:101-102. -/
def pyBound (n : Nat) (a : Int) : Nat :=
  if a < 0 then (a + n).toNat else min a.toNat n

/-- Length of the Python slice `s[a:b]` of a sequence of length `n`.
Used for `copyChip`, image_chipper.py:101-102. -/
def pySliceLen (n : Nat) (a b : Int) : Nat := pyBound n b - pyBound n a

/-- `numpy.arange(0, n, step)` for integer arguments: step 0 raises ZeroDivisionError,
a negative step gives the empty array, otherwise `0, step, 2*step, ...` below `n`
(`ceil(n/step)` elements). Used for `axisGrid`, image_chipper.py:31, 33, 35. -/
def pyArange (n : Nat) (step : Int) : Py (List Int) :=
  if step = 0 then .error .zeroDivision
  else if step < 0 then .ok []
  else .ok ((List.range ((n + step.toNat - 1) / step.toNat)).map (fun (k : Nat) => (k : Int) * step))

/-- `sorted(list(set(xs)))`. Used for `axisGrid`, image_chipper.py:31, 33, 35. -/
def sortedSet (xs : List Int) : List Int := (xs.dedup).insertionSort (· ≤ ·)

/-- A two-dimensional array: shape `(ny, nx)` and its entries (only in-bounds entries matter).
See image_utils.py:20-78. -/
structure A2 (α : Type) where
  ny : Nat
  nx : Nat
  px : Nat → Nat → α

/-- A three-dimensional array: shape `(ny, nx, nb)` and its entries.
Used for `toCube`, image_chipper.py:25-29, 72-76. -/
structure A3 (α : Type) where
  ny : Nat
  nx : Nat
  nb : Nat
  px : Nat → Nat → Nat → α

/-- Equality of two-dimensional arrays: same shape, same entries within the shape.
See image_utils.py:20-78. -/
def A2.Same {α : Type} (a b : A2 α) : Prop :=
  a.ny = b.ny ∧ a.nx = b.nx ∧ ∀ y x, y < a.ny → x < a.nx → a.px y x = b.px y x

/-- Equality of three-dimensional arrays. See image_chipper.py:25-113. -/
def A3.Same {α : Type} (a b : A3 α) : Prop :=
  a.ny = b.ny ∧ a.nx = b.nx ∧ a.nb = b.nb ∧
    ∀ y x z, y < a.ny → x < a.nx → z < a.nb → a.px y x z = b.px y x z

/-- An image passed by a user: a two-dimensional (grayscale) or three-dimensional array.
Used for `toCube`, image_chipper.py:25-29, 72-76. -/
inductive Img (α : Type) where
  | gray (a : A2 α)
  | cube (a : A3 α)

end Verif

namespace Verif

/-- Number of rows of an image. See image_chipper.py:25-29. -/
def Img.ny {α : Type} : Img α → Nat
  | .gray a => a.ny
  | .cube a => a.ny

/-- Number of columns of an image. See image_chipper.py:25-29. -/
def Img.nx {α : Type} : Img α → Nat
  | .gray a => a.nx
  | .cube a => a.nx

/-- Number of bands of an image (a grayscale image has one). See image_chipper.py:25-29. -/
def Img.nb {α : Type} : Img α → Nat
  | .gray _ => 1
  | .cube a => a.nb

/-- Value of an image at row `y`, column `x`, band `b`. See image_chipper.py:25-29. -/
def Img.value {α : Type} : Img α → Nat → Nat → Nat → α
  | .gray a, y, x, _ => a.px y x
  | .cube a, y, x, b => a.px y x b

/-- What a Python index denotes: `k` is the position denoted by the index `i` in a sequence of
length `n` (so `i` is `k`, or `k - n` counting from the end). See image_chipper.py:102. -/
def PyAt (n : Nat) (i : Int) (k : Nat) : Prop :=
  k < n ∧ (i = (k : Int) ∨ i = (k : Int) - n)

end Verif
