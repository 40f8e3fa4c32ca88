import Verif.Base

/-! Model of the helpers that look at an array's shape: `/repo/resippy/utils/image_utils/image_utils.py`,
`/repo/resippy/utils/spectral_utils.py` and `/repo/resippy/utils/image_utils/image_chipper.py`. -/

namespace Verif.Shapes
open Verif

/-- A numpy array with any number of axes. Used for `isGrayscale`, image_utils.py:136-138. -/
structure ND (α : Type) where
  shape : List Nat
  px : List Nat → α

/-- `arr.shape[k]` (image_utils.py:144-149): IndexError when there is no such axis. -/
def axis {α : Type} (a : ND α) (k : Nat) : Py Nat :=
  match a.shape[k]? with
  | some n => .ok n
  | none => .error .indexError

/-- `is_grayscale` (image_utils.py:136-138). -/
def isGrayscale {α : Type} (a : ND α) : Bool := a.shape.length == 2

/-- `get_image_ny_nx_nbands` (image_utils.py:141-150). -/
def nyNxNbands {α : Type} (a : ND α) : Py (Nat × Nat × Nat) := do
  let ny ← axis a 0
  let nx ← axis a 1
  let nb ← if isGrayscale a then .ok 1 else axis a 2
  .ok (ny, nx, nb)

/-- `get_2d_cube_nx_ny_nbands` (spectral_utils.py:8-12). -/
def cubeNxNyNbands {α : Type} (a : ND α) : Py (Nat × Nat × Nat) := do
  let nx ← axis a 1
  let ny ← axis a 0
  let nb ← axis a 2
  .ok (nx, ny, nb)

/-- `is_2d_cube` (spectral_utils.py:15-29): the answer, and whether a warning is given. -/
def is2dCube {α : Type} (a : ND α) : Bool × Bool :=
  if a.shape.length = 3 then (true, false) else if a.shape.length = 2 then (false, false) else (false, true)

/-- `is_1d_cube` (spectral_utils.py:32-45). -/
def is1dCube {α : Type} (a : ND α) : Bool × Bool :=
  if a.shape.length = 2 then (true, false) else if a.shape.length = 3 then (false, false) else (false, true)

/-- `get_nchips` (image_chipper.py:11-13). -/
def nChips {α : Type} (a : ND α) : Py Nat := axis a 0

/-- A PIL image: width, height, number of channels when its pixels are tuples. Used for `resizeImage`, image_utils.py:273-275. -/
structure Pil (α : Type) where
  width : Nat
  height : Nat
  channels : Option Nat
  px : Nat → Nat → Nat → α

/-- `Image.fromarray` of 8-bit data (image_utils.py:273): one channel from two axes, or two to four channels on the third; anything else is
a TypeError. -/
def toPil {α : Type} (a : ND α) : Py (Pil α) :=
  match a.shape with
  | [ny, nx] => .ok ⟨nx, ny, none, fun y x _ => a.px [y, x]⟩
  | [ny, nx, nb] => if nb = 2 ∨ nb = 3 ∨ nb = 4 then .ok ⟨nx, ny, some nb, fun y x b => a.px [y, x, b]⟩ else .error .typeError
  | _ => .error .typeError

/-- `np.array(pil_image)` (image_utils.py:275). -/
def fromPil {α : Type} (p : Pil α) : ND α :=
  match p.channels with
  | none => ⟨[p.height, p.width], fun i => p.px (i.getD 0 0) (i.getD 1 0) 0⟩
  | some nb => ⟨[p.height, p.width, nb], fun i => p.px (i.getD 0 0) (i.getD 1 0) (i.getD 2 0)⟩

/-- `Image.Image.resize(pil, (w, h))` (image_utils.py:274): to its own size an image is copied, otherwise each pixel of the result is what the
resampling filter makes of the image (`filter`); a size of 0 is a ValueError. -/
def pilResize {α : Type} (filter : Pil α → Nat → Nat → Nat → Nat → Nat → α) (p : Pil α) (w h : Nat) : Py (Pil α) :=
  if w = p.width ∧ h = p.height then .ok p
  else if w = 0 ∨ h = 0 then .error .valueError
  else .ok ⟨w, h, p.channels, filter p w h⟩

/-- `resize_image` (image_utils.py:269-276). -/
def resizeImage {α : Type} (filter : Pil α → Nat → Nat → Nat → Nat → Nat → α) (a : ND α) (newNy newNx : Nat) : Py (ND α) := do
  let p ← toPil a
  let r ← pilResize filter p newNx newNy
  .ok (fromPil r)

/-- `gdal_grid_image_band` (image_utils.py:82-122): unpacks `image_to_warp.size`, one int, into two names: TypeError. -/
def gdalGrid {α : Type} (_image : ND α) : Py PUnit := .error .typeError

end Verif.Shapes
