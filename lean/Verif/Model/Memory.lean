import Verif.Model.Chipper
import Verif.Model.ImageUtils

/-! numpy arrays in memory: which functions copy and which share.  `/repo/resippy/utils/image_utils/image_utils.py` (flattening),
`/repo/resippy/utils/spectral_utils.py`, `/repo/resippy/utils/image_utils/image_chipper.py`, `/repo/resippy/spectral/spectral_image_processing_2d.py`. -/

namespace Verif.Memory
open Verif ImageUtils

variable {α : Type}

/-- Memory: numbered buffers and their elements; buffers from `next` on are not in use.
Used for `flattenBandM`, image_utils.py:56-61. -/
structure Heap (α : Type) where
  next : Nat
  cell : Nat → Int → α

/-- A one-dimensional numpy array: buffer, position of the first element, length, distance between elements (negative for a reversed array).
Used for `flattenBandM`, image_utils.py:56-61. -/
structure V1 where
  buf : Nat
  off : Int
  n : Nat
  s : Int

/-- A two-dimensional numpy array. See `V1`; image_utils.py:56-61. -/
structure V2 where
  buf : Nat
  off : Int
  ny : Nat
  sy : Int
  nx : Nat
  sx : Int

/-- A three-dimensional numpy array. See `V1`; spectral_utils.py:48-59. -/
structure V3 where
  buf : Nat
  off : Int
  ny : Nat
  sy : Int
  nx : Nat
  sx : Int
  nb : Nat
  sb : Int

/-- Position of an element in the buffer. See image_utils.py:56-61. -/
def V1.addr (a : V1) (k : Nat) : Int := a.off + k * a.s

/-- Position of an element in the buffer. See image_utils.py:56-61. -/
def V2.addr (a : V2) (y x : Nat) : Int := a.off + y * a.sy + x * a.sx

/-- Position of an element in the buffer. See spectral_utils.py:48-59. -/
def V3.addr (a : V3) (y x b : Nat) : Int := a.off + y * a.sy + x * a.sx + b * a.sb

/-- The contents of an array. See image_utils.py:56-61. -/
def Heap.get1 (h : Heap α) (a : V1) : A1 α := ⟨a.n, fun k => h.cell a.buf (a.addr k)⟩

/-- The contents of an array. See image_utils.py:56-61. -/
def Heap.get2 (h : Heap α) (a : V2) : A2 α := ⟨a.ny, a.nx, fun y x => h.cell a.buf (a.addr y x)⟩

/-- The contents of an array. See spectral_utils.py:48-59. -/
def Heap.get3 (h : Heap α) (a : V3) : A3 α := ⟨a.ny, a.nx, a.nb, fun y x b => h.cell a.buf (a.addr y x b)⟩

/-- One element of a buffer overwritten. Used for `putChip`, image_chipper.py:101-102. -/
def Heap.put (h : Heap α) (b : Nat) (i : Int) (v : α) : Heap α := { h with cell := fun b' i' => if b' = b ∧ i' = i then v else h.cell b' i' }

/-- A new buffer with the given elements. Used for `flattenBandM`, image_utils.py:60. -/
def Heap.alloc (h : Heap α) (f : Int → α) : Heap α := ⟨h.next + 1, fun b i => if b = h.next then f i else h.cell b i⟩

/-- `flatten_image_band` (image_utils.py:56-61).  `np.reshape` returns a view when the rows follow one another at equal distances (or there is one row or one column), a new
array otherwise. -/
def flattenBandM (h : Heap α) (a : V2) : Heap α × V1 :=
  if a.ny = 1 then (h, ⟨a.buf, a.off, a.ny * a.nx, a.sx⟩)
  else if a.nx = 1 then (h, ⟨a.buf, a.off, a.ny * a.nx, a.sy⟩)
  else if a.sy = a.nx * a.sx then (h, ⟨a.buf, a.off, a.ny * a.nx, a.sx⟩)
  else (h.alloc (fun i => (flattenBand (h.get2 a)).px i.toNat), ⟨h.next, 0, a.ny * a.nx, 1⟩)

/-- `unflatten_image_band` (image_utils.py:64-68): always a view. -/
def unflattenBandM (v : V1) (nx ny : Nat) : Py V2 :=
  if v.n = ny * nx then .ok ⟨v.buf, v.off, ny, nx * v.s, nx, v.s⟩ else .error .valueError

/-- `flatten_image_cube` (spectral_utils.py:48-59).  See `flattenBandM`. -/
def flattenCubeM (h : Heap α) (a : V3) : Heap α × V2 :=
  if a.ny = 1 then (h, ⟨a.buf, a.off, a.ny * a.nx, a.sx, a.nb, a.sb⟩)
  else if a.nx = 1 then (h, ⟨a.buf, a.off, a.ny * a.nx, a.sy, a.nb, a.sb⟩)
  else if a.sy = a.nx * a.sx then (h, ⟨a.buf, a.off, a.ny * a.nx, a.sx, a.nb, a.sb⟩)
  else (h.alloc (fun i => (flattenCube (h.get3 a)).px (i.toNat / a.nb) (i.toNat % a.nb)), ⟨h.next, 0, a.ny * a.nx, a.nb, a.nb, 1⟩)

/-- `unflatten_image_cube` (spectral_utils.py:62-75): always a view. -/
def unflattenCubeM (v : V2) (nx ny : Nat) : Py V3 :=
  if v.ny * v.nx = ny * nx * v.nx then .ok ⟨v.buf, v.off, ny, nx * v.sy, nx, v.sy, v.nx, v.sx⟩ else .error .valueError

/-- The detectors on images, `rx_anomaly_detector`, `ace_demeaned` and `sam` (spectral_image_processing_2d.py:64-75, 96-114): flatten, apply the one-dimensional detector
`f` (arithmetic on whole arrays: a new array), unflatten. -/
def detect2d (f : A2 α → Py (A1 α)) (h : Heap α) (a : V3) : Heap α × Py V2 :=
  let r := flattenCubeM h a
  match f (r.1.get2 r.2) with
  | .error e => (r.1, .error e)
  | .ok s => (r.1.alloc (fun i => s.px i.toNat), unflattenBandM ⟨r.1.next, 0, s.n, 1⟩ a.nx a.ny)

/-- `demean_image_data` on images (spectral_image_processing_2d.py:42-51): flatten, subtract the mean (a new array), unflatten. -/
def demean2d (f : A2 α → Py (A2 α)) (h : Heap α) (a : V3) : Heap α × Py V3 :=
  let r := flattenCubeM h a
  match f (r.1.get2 r.2) with
  | .error e => (r.1, .error e)
  | .ok s => (r.1.alloc (fun i => s.px (i.toNat / s.nx) (i.toNat % s.nx)), unflattenCubeM ⟨r.1.next, 0, s.ny, s.nx, s.nx, 1⟩ a.nx a.ny)

/-! ### The chipper -/

/-- An image passed to the chipper: a band or a cube. Used for `byUpperLeftsM`, image_chipper.py:72-76. -/
inductive Picture where
  | gray (a : V2)
  | cube (a : V3)

/-- The contents of an image. Used for `byUpperLeftsM`, image_chipper.py:72-76. -/
def Heap.picture (h : Heap α) : Picture → Img α
  | .gray a => .gray (h.get2 a)
  | .cube a => .cube (h.get3 a)

/-- `np.reshape(input_image, (ny, nx, 1))` of a band: a view (image_chipper.py:72-76). -/
def Picture.toCube : Picture → V3
  | .gray a => ⟨a.buf, a.off, a.ny, a.sy, a.nx, a.sx, 1, 0⟩
  | .cube a => a

/-- `len(np.shape(input_image)) == 2` (image_chipper.py:72-76). -/
def Picture.isGray : Picture → Bool
  | .gray _ => true
  | .cube _ => false

/-- Locations given as a list or as an array of ints (image_chipper.py:58-59). -/
inductive Locs where
  | list (l : List Int)
  | array (a : V1)

/-- The locations as a list. Used for `npArray`, image_chipper.py:70-71. -/
def Locs.read (h : Heap Int) : Locs → List Int
  | .list l => l
  | .array a => (List.range a.n).map (fun k => h.cell a.buf (a.addr k))

/-- `np.array(locations)`: a new array (image_chipper.py:70-71). -/
def npArray (h : Heap Int) (l : Locs) : Heap Int × V1 :=
  (h.alloc (fun i => (l.read h).getD i.toNat 0), ⟨h.next, 0, (l.read h).length, 1⟩)

/-- `array[np.where(cond(array))] = value`, in place (image_chipper.py:80-84). -/
def assignWhere (cond : Int → Bool) (v : Int) (a : V1) : Nat → Heap Int → Heap Int
  | 0, h => h
  | k + 1, h => let h' := assignWhere cond v a k h
    if cond (h'.cell a.buf (a.addr k)) then h'.put a.buf (a.addr k) v else h'

/-- `all_chips[k, :, :, :] = chip` (image_chipper.py:101-102): the elements of the new array, shape `(n, cy, cx, nb)`. -/
def putChip (h : Heap α) (b k cy cx nb : Nat) (c : Nat → Nat → Nat → α) : Heap α :=
  ⟨h.next, fun b' i =>
    if b' = b ∧ 0 ≤ i ∧ i.toNat / (cy * cx * nb) = k then c (i.toNat % (cy * cx * nb) / (cx * nb)) (i.toNat % (cx * nb) / nb) (i.toNat % nb)
    else h.cell b' i⟩

/-- The loop over the chips (image_chipper.py:96-104); the image is read while the chips are written. -/
def chipLoopM (img : V3) (cy cx : Nat) (bs : List Int) (b : Nat) : List (Int × Int) → Nat → List (Int × Int) → Heap α → Heap α × Py (List (Int × Int))
  | [], _, uls, h => (h, .ok uls)
  | (y, x) :: rest, k, uls, h =>
    match Chipper.copyChip (h.get3 img) cy cx bs y x with
    | .error e => (h, .error e)
    | .ok c => chipLoopM img cy cx bs b rest (k + 1) (uls ++ [(y, x)]) (putChip h b k cy cx bs.length c)

/-- The array of chips: its buffer (it fills a new one), its shape; `none` for the number of bands when it has three axes (image_chipper.py:94, 110-111). -/
structure ChipArr where
  buf : Nat
  n : Nat
  ny : Nat
  nx : Nat
  nb : Option Nat

/-- The contents of the array of chips. Used for `byUpperLeftsM`, image_chipper.py:94-113. -/
def Heap.chips (h : Heap α) (c : ChipArr) : Chipper.Chips α :=
  ⟨c.n, c.ny, c.nx, c.nb, fun k i j b => h.cell c.buf ((((k * c.ny + i) * c.nx + j) * c.nb.getD 1 + (if c.nb = none then 0 else b) : Nat) : Int)⟩

/-- `chip_images_by_pixel_upper_lefts` (image_chipper.py:57-113) in memory: pixels in one heap, locations in another; what has been done when it raises stays done. -/
def byUpperLeftsM [Zero α] (h : Heap α) (hi : Heap Int) (image : Picture) (ys xs : Locs) (cy cx : Nat) (bands : Chipper.Bands) (keep : Bool) :
    (Heap α × Heap Int) × Py (ChipArr × List (Int × Int)) :=
  let (hi1, ax) := npArray hi xs
  let (hi2, ay) := npArray hi1 ys
  let img := image.toCube
  let hi3 := if keep then
      let g1 := assignWhere (fun u => decide (u > (img.nx : Int) - cx)) ((img.nx : Int) - cx) ax ax.n hi2
      let g2 := assignWhere (fun u => decide (u > (img.ny : Int) - cy)) ((img.ny : Int) - cy) ay ay.n g1
      let g3 := assignWhere (fun u => decide (u < 0)) 0 ax ax.n g2
      assignWhere (fun u => decide (u < 0)) 0 ay ay.n g3
    else hi2
  let bs := Chipper.bandList img.nb bands
  let grayOut := image.isGray || bs.length == 1
  let h1 := h.alloc (fun _ => 0)
  match chipLoopM img cy cx bs h.next (((Locs.array ay).read hi3).zip ((Locs.array ax).read hi3)) 0 [] h1 with
  | (h2, .error e) => ((h2, hi3), .error e)
  | (h2, .ok uls) =>
    if grayOut then
      if ay.n * cy * cx * bs.length = ay.n * cy * cx then ((h2, hi3), .ok (⟨h.next, ay.n, cy, cx, none⟩, uls)) else ((h2, hi3), .error .valueError)
    else ((h2, hi3), .ok (⟨h.next, ay.n, cy, cx, some bs.length⟩, uls))

end Verif.Memory
