import Verif.Str

/-! Model of `/repo/resippy/utils/image_utils/image_chipper.py`. -/

namespace Verif.Chipper
open Verif

/-- The `bands` argument: `None`, an `int`, or a list of ints (image_chipper.py:62, 67-68). -/
inductive Bands where
  | none
  | one (b : Int)
  | many (bs : List Int)

/-- The array of chips: shape `(n, ny, nx)` when `nb = none`, `(n, ny, nx, nb)` otherwise; for
three-dimensional results the band index is ignored.
Used for `chipForDisk`, image_chipper.py:149-153. -/
structure Chips (α : Type) where
  n : Nat
  ny : Nat
  nx : Nat
  nb : Option Nat
  px : Nat → Nat → Nat → Nat → α

/-- Result of the chipping functions: `(all_chips, upper_lefts)`.
Used for `byUpperLefts`, image_chipper.py:57-113. -/
structure Out (α : Type) where
  chips : Chips α
  uls : List (Int × Int)

/-- `np.reshape(input_image, (ny, nx, 1))` of a grayscale input, identity on a cube
(image_chipper.py:25-29, 72-76). -/
def toCube {α : Type} : Img α → A3 α
  | .gray a => ⟨a.ny, a.nx, 1, fun y x _ => a.px y x⟩
  | .cube a => a

/-- `len(input_image.shape) == 2` (image_chipper.py:25, 72). -/
def isGray {α : Type} : Img α → Bool
  | .gray _ => true
  | .cube _ => false

/-- Clamping of one axis of the upper lefts when `keep_within_image_bounds`
(image_chipper.py:79-84): first `> n - chip` becomes `n - chip`, then `< 0` becomes `0`. -/
def clampUl (n chip : Nat) (u : Int) : Int :=
  let u1 := if u > (n : Int) - chip then (n : Int) - chip else u
  if u1 < 0 then 0 else u1

/-- The list of band indices actually used (image_chipper.py:67-68, 88-91). -/
def bandList (nbands : Nat) : Bands → List Int
  | .none => (List.range nbands).map (fun (k : Nat) => (k : Int))
  | .one b => [b]
  | .many bs => bs

/-- Resolution of the band indices by numpy fancy indexing: IndexError if one is out of range
(image_chipper.py:102). -/
def resolveBands (nbands : Nat) : List Int → Py (List Nat)
  | [] => .ok []
  | b :: bs => do
    let i ← pyIdx nbands b
    let is ← resolveBands nbands bs
    .ok (i :: is)

/-- One iteration of the chip copy (image_chipper.py:101-102): the source slice
`input_image[y: y+cy, x: x+cx, bands]` is assigned to `all_chips[k,:,:,:]`; numpy raises
ValueError unless each slice length equals the chip length or is 1 (broadcast). -/
def copyChip {α : Type} (img : A3 α) (cy cx : Nat) (bs : List Int) (y x : Int) :
    Py (Nat → Nat → Nat → α) := do
  let is ← resolveBands img.nb bs
  let hy := pySliceLen img.ny y (y + cy)
  let hx := pySliceLen img.nx x (x + cx)
  if (hy = cy ∨ hy = 1) ∧ (hx = cx ∨ hx = 1) then
    .ok (fun i j b => img.px (pyBound img.ny y + (if hy = cy then i else 0))
      (pyBound img.nx x + (if hx = cx then j else 0)) (is.getD b 0))
  else .error .valueError

/-- The loop over `zip(pixel_y_ul_list, pixel_x_ul_list)` with its `chip_counter`, array update
and list of upper lefts (image_chipper.py:96-104).  The progress ledger (105-108) is not
modelled: it does not influence the result. -/
def chipLoop {α : Type} (img : A3 α) (cy cx : Nat) (bs : List Int) :
    List (Int × Int) → Nat → (Nat → Nat → Nat → Nat → α) → List (Int × Int) →
    Py ((Nat → Nat → Nat → Nat → α) × List (Int × Int))
  | [], _, px, uls => .ok (px, uls)
  | (y, x) :: rest, k, px, uls => do
    let c ← copyChip img cy cx bs y x
    chipLoop img cy cx bs rest (k + 1) (fun k' => if k' = k then c else px k') (uls ++ [(y, x)])

/-- `chip_images_by_pixel_upper_lefts` (image_chipper.py:57-113).  Chip sizes are naturals
(`np.zeros` raises ValueError on negative ones); `np.zeros` fills with `0`. -/
def byUpperLefts {α : Type} [Zero α] (image : Img α) (ys xs : List Int) (cy cx : Nat)
    (bands : Bands) (keep : Bool) : Py (Out α) := do
  let img := toCube image
  let xs' := if keep then xs.map (clampUl img.nx cx) else xs
  let ys' := if keep then ys.map (clampUl img.ny cy) else ys
  let n := ys'.length
  let bs := bandList img.nb bands
  let grayOut := isGray image || bs.length == 1
  let (px, uls) ← chipLoop img cy cx bs (ys'.zip xs') 0 (fun _ _ _ _ => 0) []
  if grayOut then
    -- np.reshape(all_chips, (n_chips, cy, cx)): sizes must agree
    if n * cy * cx * bs.length = n * cy * cx then
      .ok ⟨⟨n, cy, cx, none, fun k i j _ => px k i j 0⟩, uls⟩
    else .error .valueError
  else .ok ⟨⟨n, cy, cx, some bs.length, px⟩, uls⟩

/-- One axis of the whole-image grid (image_chipper.py:31, 33, 35): `arange`, clamp
`>= n - chip` to `n - chip`, `sorted(list(set(..)))`. -/
def axisGrid (n chip : Nat) (overlap : Int) : Py (List Int) := do
  let idxs ← pyArange n ((chip : Int) - overlap)
  .ok (sortedSet (idxs.map (fun u => if u ≥ (n : Int) - chip then (n : Int) - chip else u)))

/-- `chip_entire_image_to_memory` (image_chipper.py:16-52). -/
def chipEntire {α : Type} [Zero α] (image : Img α) (cy cx : Nat) (oy ox : Int)
    (bands : Bands) (keep : Bool) : Py (Out α) := do
  let img := toCube image
  let yi ← axisGrid img.ny cy oy
  let xi ← axisGrid img.nx cx ox
  -- nested loops 41-44
  let pairs := yi.flatMap (fun y => xi.map (fun x => (y, x)))
  byUpperLefts (.cube img) (pairs.map Prod.fst) (pairs.map Prod.snd) cy cx bands keep

/-- `int(v)` / `.astype(int)` of a float: truncation toward zero.
Used for `byCenters`, image_chipper.py:116-132. -/
def truncZ (q : ℚ) : Int := if 0 ≤ q then ⌊q⌋ else ⌈q⌉

/-- `chip_images_by_pixel_centers` (image_chipper.py:116-132).  Centres are rationals. -/
def byCenters {α : Type} [Zero α] (image : Img α) (yc xc : List ℚ) (cy cx : Nat)
    (bands : Bands) (keep : Bool) : Py (Out α) :=
  byUpperLefts image (yc.map (fun c => truncZ (c - (cy : ℚ) / 2)))
    (xc.map (fun c => truncZ (c - (cx : ℚ) / 2))) cy cx bands keep

end Verif.Chipper

namespace Verif.Chipper
open Verif

/-- Chip `i` as handed to `imageio.imsave`: `image_chips[i,:,:,:]` then the alpha band removed when
`remove_alpha` and the last axis has length 4 (image_chipper.py:149-153).  The optional resize is
the parameter `resize` (PIL is not modelled; identity when no output size is given). -/
def chipForDisk {α : Type} (chips : Chips α) (nb : Nat) (resize : A3 α → A3 α) (removeAlpha : Bool)
    (i : Nat) : A3 α :=
  let chip := resize ⟨chips.ny, chips.nx, nb, fun y x b => chips.px i y x b⟩
  if removeAlpha = true ∧ chip.nb = 4 then { chip with nb := 3 } else chip

/-- File name of chip `i` (image_chipper.py:154-158).  `fnames_list[i]` raises IndexError when the
list is too short. -/
def chipPath (outputDir base : Str) (fnames : Option (List Str)) (fmt : Str) (i : Nat) : Py Str := do
  let name ← match fnames with
    | none => Except.ok (base ++ ['_'] ++ zfill 8 (natStr i))
    | some l => match l[i]? with
      | some f => .ok f
      | none => .error .indexError
  .ok (pathJoin outputDir (name ++ ['.'] ++ removeChar '.' fmt))

/-- The loop of `write_chips_to_disk` from index `i`, `todo` chips left (image_chipper.py:148-159);
the file system is a map from paths to the saved image, `imageio.imsave` stores the image. -/
def writeLoop {α : Type} (chips : Chips α) (nb : Nat) (resize : A3 α → A3 α) (removeAlpha : Bool)
    (outputDir base : Str) (fnames : Option (List Str)) (fmt : Str) :
    Nat → Nat → (Str → Option (A3 α)) → Py (Str → Option (A3 α))
  | 0, _, fs => .ok fs
  | todo + 1, i, fs => do
    let p ← chipPath outputDir base fnames fmt i
    let c := chipForDisk chips nb resize removeAlpha i
    writeLoop chips nb resize removeAlpha outputDir base fnames fmt todo (i + 1)
      (fun q => if q = p then some c else fs q)

/-- `write_chips_to_disk` (image_chipper.py:135-164).  Three-dimensional (grayscale) chips make
`image_chips[i, :, :, :]` raise IndexError. -/
def writeChips {α : Type} (chips : Chips α) (resize : A3 α → A3 α) (removeAlpha : Bool)
    (outputDir : Str) (base : Option Str) (fnames : Option (List Str)) (fmt : Str)
    (fs : Str → Option (A3 α)) : Py (Str → Option (A3 α)) :=
  let base' := match base with
    | none => basename outputDir
    | some b => b
  match chips.nb with
  | none => if chips.n = 0 then .ok fs else .error .indexError
  | some nb => writeLoop chips nb resize removeAlpha outputDir base' fnames fmt chips.n 0 fs

end Verif.Chipper
