import Verif.Base
import Mathlib.Algebra.Order.Field.Basic

/-! Model of `/repo/resippy/utils/image_utils/image_utils.py`,
`/repo/resippy/utils/image_utils/image_mask_utils.py` and the reshaping helpers of
`/repo/resippy/utils/spectral_utils.py`. -/

namespace Verif

/-- A one-dimensional array: length and entries (only in-bounds entries matter).
Used for `flattenBand`, image_utils.py:56-61. -/
structure A1 (α : Type) where
  n : Nat
  px : Nat → α

/-- Equality of one-dimensional arrays. See image_utils.py:56-61. -/
def A1.Same {α : Type} (a b : A1 α) : Prop := a.n = b.n ∧ ∀ k, k < a.n → a.px k = b.px k

namespace ImageUtils

/-- `create_uniform_image_data` (image_utils.py:14-26) with a list of band values; a list longer
than `nbands` makes the band assignment raise IndexError.  The final `astype` is not modelled. -/
def createUniformList {α : Type} [Zero α] (nx ny nbands : Nat) (values : List α) : Py (A3 α) :=
  if values.length ≤ nbands then .ok ⟨ny, nx, nbands, fun _ _ b => values.getD b 0⟩
  else .error .indexError

/-- `create_uniform_image_data` (image_utils.py:20-22) with a single int value. -/
def createUniformInt {α : Type} (nx ny nbands : Nat) (value : α) : A3 α :=
  ⟨ny, nx, nbands, fun _ _ _ => value⟩

/-- `flatten_image_band` (image_utils.py:56-61): `np.reshape` to one dimension, row-major. -/
def flattenBand {α : Type} (a : A2 α) : A1 α := ⟨a.ny * a.nx, fun k => a.px (k / a.nx) (k % a.nx)⟩

/-- `unflatten_image_band` (image_utils.py:64-68): `np.reshape(v, (ny, nx))`, ValueError when the
number of elements differs. -/
def unflattenBand {α : Type} (v : A1 α) (nx ny : Nat) : Py (A2 α) :=
  if v.n = ny * nx then .ok ⟨ny, nx, fun y x => v.px (y * nx + x)⟩ else .error .valueError

/-- `flatten_image_cube` (spectral_utils.py:48-59): `np.reshape(cube, (ny*nx, nbands))`; the result
is a two-dimensional array whose rows are pixels. -/
def flattenCube {α : Type} (a : A3 α) : A2 α :=
  ⟨a.ny * a.nx, a.nb, fun k b => a.px (k / a.nx) (k % a.nx) b⟩

/-- `unflatten_image_cube` (spectral_utils.py:62-75): `np.reshape(image, (ny, nx, nbands))`. -/
def unflattenCube {α : Type} (v : A2 α) (nx ny : Nat) : Py (A3 α) :=
  if v.ny * v.nx = ny * nx * v.nx then
    .ok ⟨ny, nx, v.nx, fun y x b => v.px (y * nx + x) b⟩
  else .error .valueError

section field
variable {K : Type} [Field K] [LinearOrder K] [IsStrictOrderedRing K]

/-- `np.arange(0, n, step)` with a float step: `ceil(n/step)` entries (none when that is not
positive), entry `i` being `i * step`; step 0 raises ZeroDivisionError.
Used for `createPixelGrid`, image_utils.py:71-78. -/
def arangeF [FloorRing K] (n : Nat) (step : K) : Py (A1 K) :=
  if step = 0 then .error .zeroDivision
  else .ok ⟨(⌈(n : K) / step⌉).toNat, fun i => (i : K) * step⟩

/-- `create_pixel_grid` (image_utils.py:71-78): two `arange`s and `np.meshgrid`.  `1.0 /
scale_factor` raises ZeroDivisionError for scale factor 0. -/
def createPixelGrid [FloorRing K] (nx ny : Nat) (scale : K) : Py (A2 K × A2 K) := do
  if scale = 0 then .error .zeroDivision
  else
    let x ← arangeF nx (1 / scale)
    let y ← arangeF ny (1 / scale)
    .ok (⟨y.n, x.n, fun _ i => x.px i⟩, ⟨y.n, x.n, fun j _ => y.px j⟩)

/-- The entries of a two-dimensional array in row-major order.
Used for `clipPixels`, image_utils.py:175-188. -/
def pixels {α : Type} (a : A2 α) : List α :=
  (List.range a.ny).flatMap (fun y => (List.range a.nx).map (fun x => a.px y x))

/-- `np.min`: ValueError on an empty array.
Used for `normalizeGrayscale`, image_utils.py:125-133. -/
def npMin (a : A2 K) : Py K :=
  match (pixels a).min? with
  | some m => .ok m
  | none => .error .valueError

/-- `np.max`: ValueError on an empty array.
Used for `normalizeGrayscale`, image_utils.py:125-133. -/
def npMax (a : A2 K) : Py K :=
  match (pixels a).max? with
  | some m => .ok m
  | none => .error .valueError

/-- Float division: `none` stands for the non-finite results (inf or NaN) of a zero divisor.
Used for `normalizeGrayscale`, image_utils.py:125-133. -/
def fdiv (a b : K) : Option K := if b = 0 then none else some (a / b)

/-- `normalize_grayscale_image` (image_utils.py:125-133) with `output_dtype=None`.  A pixel is
`none` when the float computation gives a non-finite value. -/
def normalizeGrayscale (img : A2 K) (newMin newMax : K) : Py (A2 (Option K)) := do
  let mn ← npMin img
  let mx ← npMax img
  .ok ⟨img.ny, img.nx, fun y x =>
    (fdiv (img.px y x - mn) (mx - mn)).map (fun z => z * (newMax - newMin) + newMin)⟩

/-- `blend_images` (image_utils.py:262-266) on images of equal shape (numpy broadcasting of unequal
shapes is not modelled). -/
def blendImages (a b : A2 K) (p : K) : A2 K :=
  ⟨a.ny, a.nx, fun y x => a.px y x * p + b.px y x * (1 - p)⟩

end field

section detection
variable {K : Type} [Zero K]

/-- Largest entry of an integer column; ValueError when empty (`ndarray.max`).
Used for `detectionImage`, image_utils.py:153-162. -/
def intMax (l : List Int) : Py Int :=
  match l.max? with
  | some m => .ok m
  | none => .error .valueError

/-- One slice assignment `img[y:y+cy, x:x+cx] = score` (image_utils.py:161) on an image of shape
`(ny, nx)`. -/
def paint (ny nx cy cx : Nat) (px : Nat → Nat → K) (ul : Int × Int) (s : K) : Nat → Nat → K :=
  fun y x => if pyBound ny ul.1 ≤ y ∧ y < pyBound ny (ul.1 + cy) ∧
      pyBound nx ul.2 ≤ x ∧ x < pyBound nx (ul.2 + cx) then s else px y x

/-- The loop over `score_sorted_indices` (image_utils.py:158-161); an index without an upper left
raises IndexError. -/
def paintLoop (ny nx cy cx : Nat) (scores : List K) (uls : List (Int × Int)) :
    List Nat → (Nat → Nat → K) → Py (Nat → Nat → K)
  | [], px => .ok px
  | i :: is, px =>
    match uls[i]?, scores[i]? with
    | some ul, some s => paintLoop ny nx cy cx scores uls is (paint ny nx cy cx px ul s)
    | _, _ => .error .indexError

/-- `create_detection_image_from_scores` (image_utils.py:153-162).  `order` is the result of
`np.argsort(score_values)` (a parameter: the order of equal scores is unspecified).  A negative
image size raises ValueError in `np.zeros`. -/
def detectionImage (scores : List K) (uls : List (Int × Int)) (cx cy : Nat) (order : List Nat) :
    Py (A2 K) := do
  let my ← intMax (uls.map Prod.fst)
  let mx ← intMax (uls.map Prod.snd)
  if my + cy < 0 ∨ mx + cx < 0 then .error .valueError
  else
    let ny := (my + cy).toNat
    let nx := (mx + cx).toNat
    let px ← paintLoop ny nx cy cx scores uls order (fun _ _ => 0)
    .ok ⟨ny, nx, px⟩

end detection

/-! ### Colormap -/

section colormap
variable {K : Type} [Field K] [LinearOrder K] [IsStrictOrderedRing K]

/-- Storing a Python int in an int8 array wraps it into [-128, 127] (image_utils.py:208-209, 222). -/
def int8 (i : Nat) : Int := ((i : Int) + 128) % 256 - 128

/-- `np.linspace(lo, hi, n)[i]` (image_utils.py:207): for one point, `lo`. -/
def linspace (lo hi : K) (n i : Nat) : K :=
  if n ≤ 1 then lo else lo + (i : K) * ((hi - lo) / ((n - 1 : Nat) : K))

/-- State of one pixel after the bin loop: int8 low index, and the two bracketing positions.
Used for `binLoop`, image_utils.py:220-225. -/
structure BinState (K : Type) where
  low : Int
  lo : K
  hi : K

/-- The bin loop of one pixel (image_utils.py:220-225), bins `i, i+1, ...`, `todo` left: a later
matching bin overwrites an earlier one. -/
def binLoop (pos : Nat → K) (v : K) : Nat → Nat → BinState K → BinState K
  | 0, _, st => st
  | todo + 1, i, st =>
    binLoop pos v todo (i + 1)
      (if pos i ≤ v ∧ v ≤ pos (i + 1) then ⟨int8 i, pos i, pos (i + 1)⟩ else st)

/-- The palette lookup loop of one pixel and one channel (image_utils.py:230-236): `(low, high)`
colours for the bin whose number equals the stored int8 index; zeros when no bin matches. -/
def lookupLoop (pal : Nat → K) (low : Int) : Nat → Nat → K × K → K × K
  | 0, _, st => st
  | todo + 1, i, st =>
    lookupLoop pal low todo (i + 1) (if low = (i : Int) then (pal i, pal (i + 1)) else st)

/-- One channel of one pixel of `apply_colormap_to_grayscale_image` with explicit clip limits and
`n` palette colours (image_utils.py:204-257, before the dtype conversion).  `pal` is one column of
the palette; a colour is `none` when the float computation gives a non-finite value. -/
def colormapPixel (pal : Nat → K) (n : Nat) (continuous : Bool) (minClip maxClip0 v : K) :
    Option K :=
  let maxClip := if continuous then maxClip0
    else minClip + (maxClip0 - minClip) * ((n : K) - 1) / (n : K)
  let pos := linspace minClip maxClip n
  let st := binLoop pos v (n - 1) 0 ⟨0, 0, 0⟩
  let c := lookupLoop pal st.low (n - 1) 0 (0, 0)
  let inside := if continuous then
      (fdiv (v - st.lo) (st.hi - st.lo)).map (fun w => c.1 * (1 - w) + c.2 * w)
    else some c.1
  let col := if maxClip < v then some (pal (n - 1))
    else if v < minClip then some (pal 0) else inside
  col.map (fun z => z * 255)

/-- The pixels used for the default clip limits: all of them, or those different from the no-data
value (image_utils.py:175-188). -/
def clipPixels (img : A2 K) (nodata : Option K) : List K :=
  match nodata with
  | none => pixels img
  | some d => (pixels img).filter (fun v => v ≠ d)

/-- A clip limit: the given one or `np.nanmin`/`np.nanmax` of the usable pixels (ValueError when
there is none) (image_utils.py:179-188). -/
def clipLimit (given : Option K) (default : Option K) : Py K :=
  match given, default with
  | some c, _ => .ok c
  | none, some c => .ok c
  | none, none => .error .valueError

/-- `apply_colormap_to_grayscale_image` (image_utils.py:166-259) with `n_bins=None` and a palette of
`n` colours, `pal i ch` being channel `ch` of colour `i`.  The `n_bins` resampling of the palette (191-199)
is `applyColormapBins`; NaN pixels and the final `output_dtype` conversion are not modelled. -/
def applyColormap (img : A2 K) (pal : Nat → Nat → K) (n : Nat) (continuous : Bool)
    (minClip maxClip nodata : Option K) : Py (A3 (Option K)) := do
  let mn ← clipLimit minClip (clipPixels img nodata).min?
  let mx ← clipLimit maxClip (clipPixels img nodata).max?
  if n = 0 then .error .indexError   -- color_palette[0, :]
  else .ok ⟨img.ny, img.nx, 3, fun y x ch =>
    colormapPixel (fun i => pal i ch) n continuous mn mx (img.px y x)⟩

/-- `np.linspace(min_clip, max_clip, n_bins)` as an image of one row (image_utils.py:192-193). -/
def binImage (lo hi : K) (m : Nat) : A2 K := ⟨1, m, fun _ i => linspace lo hi m i⟩

/-- All colours of the resampled palette are finite. Used for `applyColormapBins`, image_utils.py:194-199. -/
def allFinite (p : A3 (Option K)) : Bool := (List.range p.nx).all (fun i => (List.range 3).all (fun ch => (p.px 0 i ch).isSome))

/-- The resampled palette: the colours of the row of bins divided by 255 (image_utils.py:194-199). -/
def binPalette (p : A3 (Option K)) : Nat → Nat → K := fun i ch => (p.px 0 i ch).getD 0 / 255

/-- `apply_colormap_to_grayscale_image` (image_utils.py:166-259) with `n_bins=m`: the palette is first resampled by colouring a row of `m` values
between the clip limits. For `m = 1` `np.squeeze` makes the palette one-dimensional and `color_palette[0, :]` raises IndexError; for `m = 0` the
row is empty and has no minimum. Simplified: when a resampled colour is not finite every pixel is reported as not finite (in the code, those
that use it). -/
def applyColormapBins (img : A2 K) (pal : Nat → Nat → K) (n : Nat) (continuous : Bool)
    (minClip maxClip nodata : Option K) (m : Nat) : Py (A3 (Option K)) := do
  let mn ← clipLimit minClip (clipPixels img nodata).min?
  let mx ← clipLimit maxClip (clipPixels img nodata).max?
  let p ← applyColormap (binImage mn mx m) pal n true none none none
  if m = 1 then .error .indexError
  else .ok ⟨img.ny, img.nx, 3, fun y x ch =>
    if allFinite p then colormapPixel (fun i => binPalette p i ch) m continuous mn mx (img.px y x) else none⟩

end colormap

/-! ### Point masks (image_mask_utils.py) -/

section masks
variable {α : Type} [DecidableEq α]

/-- `np.where(mask)` of a two-dimensional boolean array: the true positions in row-major order.
Used for `colorLocations`, image_mask_utils.py:18-19. -/
def npWhere (ny nx : Nat) (m : Nat → Nat → Bool) : List (Nat × Nat) :=
  (List.range ny).flatMap (fun y =>
    ((List.range nx).filter (fun x => m y x)).map (fun x => (y, x)))

/-- Number of bands left after stripping the alpha channel (image_mask_utils.py:13-14). -/
def maskBands (nb : Nat) : Nat := if nb = 4 then 3 else nb

/-- The locations of one colour (image_mask_utils.py:18-19).  `image == rgb_tuple` broadcasts a
single band against the three components; any number of bands other than 1 and 3 makes the
comparison fail and `np.sum(..., axis=2)` raise. -/
def colorLocations (img : A3 α) (rgb : α × α × α) : Py (List (Nat × Nat)) :=
  let nb := maskBands img.nb
  if nb = 3 then
    .ok (npWhere img.ny img.nx (fun y x =>
      decide ((if img.px y x 0 = rgb.1 then 1 else 0) + (if img.px y x 1 = rgb.2.1 then 1 else 0)
        + (if img.px y x 2 = rgb.2.2 then 1 else 0) = 3)))
  else if nb = 1 then
    .ok (npWhere img.ny img.nx (fun y x =>
      decide ((if img.px y x 0 = rgb.1 then 1 else 0) + (if img.px y x 0 = rgb.2.1 then 1 else 0)
        + (if img.px y x 0 = rgb.2.2 then 1 else 0) = 3)))
  else .error .valueError

/-- The dictionary loop (image_mask_utils.py:16-21): entries `(colour, label)` in dictionary order;
`locs_dict[label] = ...` overwrites. -/
def maskDictLoop {L : Type} [DecidableEq L] (img : A3 α) :
    List ((α × α × α) × L) → (L → Option (List (Nat × Nat))) → Py (L → Option (List (Nat × Nat)))
  | [], d => .ok d
  | (c, l) :: rest, d => do
    let locs ← colorLocations img c
    maskDictLoop img rest (fun l' => if l' = l then some locs else d l')

/-- `rgb_image_point_mask_to_pixel_locations` with a dictionary (image_mask_utils.py:7-21).
Parsing of hexadecimal colour names (`colorutils`) is external: colours are given as triples.
Three-dimensional images only (a grayscale image makes `np.sum(axis=2)` raise). -/
def pointMaskDict {L : Type} [DecidableEq L] (img : A3 α) (entries : List ((α × α × α) × L)) :
    Py (L → Option (List (Nat × Nat))) := maskDictLoop img entries (fun _ => none)

/-- `rgb_image_point_mask_to_pixel_locations` without a dictionary (image_mask_utils.py:22-25) on
integer images. -/
def pointMask (img : A3 Int) : List (Nat × Nat) :=
  npWhere img.ny img.nx (fun y x =>
    decide (0 < ((List.range (maskBands img.nb)).map (fun b => img.px y x b)).sum))

end masks
end ImageUtils
end Verif
