import Verif.Str
import Verif.Model.Grids

/-! Model of the image objects: `/repo/resippy/image_objects/abstract_image.py`,
`/repo/resippy/image_objects/abstract_image_metadata.py` and the classes built on them. -/

namespace Verif.Images
open Verif

/-! ### Image data: numpy arrays are shared by reference -/

/-- A numpy array of shape `(ny, nx, nbands)`; `cast` is the conversion to its dtype done by an assignment into it.
Used for `Arr.setBand`, abstract_image.py:104. -/
structure Arr (α : Type) where
  a : A3 α
  cast : α → α

/-- All arrays of the program by address, and for every image object the address stored in `_image_data`
(`none` is Python's None). Used for `World.step`, abstract_image.py:48-56. -/
structure World (α : Type) where
  mem : Nat → Arr α
  img : Nat → Option Nat

/-- Calls made by a program: `images[i].set_image_data(p)`, `images[i].set_image_band(v, b)`, and the program's own
assignment `p[y, x, b] = v` to an array it holds. Used for `World.step`, abstract_image.py:48-56. -/
inductive Op (α : Type) where
  | setData (i p : Nat)
  | setBand (i : Nat) (v : A2 α) (b : Int)
  | poke (p y x b : Nat) (v : α)

/-- `_image_data[:, :, band_num] = image_data` on one array (abstract_image.py:104): numpy broadcasting lets each side of
the band be 1 or equal to that of the image, anything else is a ValueError; a wrong band is an IndexError, raised first. -/
def Arr.setBand {α : Type} (m : Arr α) (v : A2 α) (b : Int) : Py (Arr α) := do
  let k ← pyIdx m.a.nb b
  if (v.ny = m.a.ny ∨ v.ny = 1) ∧ (v.nx = m.a.nx ∨ v.nx = 1) then
    .ok { m with a := ⟨m.a.ny, m.a.nx, m.a.nb, fun y x z =>
      if z = k then m.cast (v.px (if v.ny = 1 then 0 else y) (if v.nx = 1 then 0 else x)) else m.a.px y x z⟩ }
  else .error .valueError

/-- One entry of an array overwritten. Used for `Op`, abstract_image.py:48-56. -/
def Arr.poke {α : Type} (m : Arr α) (y x b : Nat) (v : α) : Arr α :=
  { m with a := ⟨m.a.ny, m.a.nx, m.a.nb, fun y' x' z => if y' = y ∧ x' = x ∧ z = b then m.cast v else m.a.px y' x' z⟩ }

/-- Memory with the array at `p` replaced. Used for `World.step`, abstract_image.py:48-56. -/
def World.put {α : Type} (w : World α) (p : Nat) (m : Arr α) : World α :=
  { w with mem := fun q => if q = p then m else w.mem q }

/-- `set_image_data` (abstract_image.py:48-56) and `set_image_band` (abstract_image.py:93-104); assigning into None is a
TypeError. -/
def World.step {α : Type} (w : World α) : Op α → Py (World α)
  | .setData i p => .ok { w with img := fun j => if j = i then some p else w.img j }
  | .setBand i v b =>
    match w.img i with
    | none => .error .typeError
    | some p => do
      let m ← (w.mem p).setBand v b
      .ok (w.put p m)
  | .poke p y x b v => .ok (w.put p ((w.mem p).poke y x b v))

/-- A history of calls; one that raises leaves everything as it was.
See abstract_image.py:48-104. -/
def World.run {α : Type} (w : World α) (ops : List (Op α)) : World α :=
  ops.foldl (fun w op => match w.step op with
    | .ok w' => w'
    | .error _ => w) w

/-- What `_image_data[:, :, band_num]` returns: a view of one band of an array.
Used for `World.getBand`, abstract_image.py:82-91. -/
structure View where
  p : Nat
  k : Nat

/-- `get_image_band` (abstract_image.py:82-91). -/
def World.getBand {α : Type} (w : World α) (i : Nat) (b : Int) : Py View :=
  match w.img i with
  | none => .error .typeError
  | some p => do
    let k ← pyIdx (w.mem p).a.nb b
    .ok ⟨p, k⟩

/-- The contents of a view at a given moment. See abstract_image.py:82-91. -/
def World.read {α : Type} (w : World α) (v : View) : A2 α :=
  ⟨(w.mem v.p).a.ny, (w.mem v.p).a.nx, fun y x => (w.mem v.p).a.px y x v.k⟩

/-! ### Metadata -/

/-- The entries of `metadata_dict` with a setter and a getter.
Used for `setterKey`, abstract_image_metadata.py:56-103. -/
inductive MField where
  | imageName | npixX | npixY | nBands | nodata | gdalType
  deriving DecidableEq

/-- The key used by each setter (abstract_image_metadata.py:56-103, geotiff_metadata.py:25-28). -/
def setterKey : MField → Str
  | .imageName => "img_name".toList
  | .npixX => "npix_x".toList
  | .npixY => "npix_y".toList
  | .nBands => "n_bands".toList
  | .nodata => "nodata_val".toList
  | .gdalType => "gdal_datatype".toList

/-- The key used by each getter (abstract_image_metadata.py:26-54, 105-112, geotiff_metadata.py:30-31). -/
def getterKey : MField → Str
  | .imageName => "img_name".toList
  | .npixX => "npix_x".toList
  | .npixY => "npix_y".toList
  | .nBands => "n_bands".toList
  | .nodata => "nodata_val".toList
  | .gdalType => "gdal_datatype".toList

/-- `metadata_dict`: the last value assigned to a key; values are arbitrary, `none` is Python's None.
Used for `newMetadata`, abstract_image_metadata.py:17-24. -/
abbrev MDict (V : Type) := Str → Option (Option V)

/-- `metadata_dict[key] = value`. Used for `newMetadata`, abstract_image_metadata.py:17-24. -/
def assign {V : Type} (d : MDict V) (k : Str) (v : Option V) : MDict V := fun k' => if k' = k then some v else d k'

/-- `AbstractImageMetadata()` (abstract_image_metadata.py:17-24). -/
def newMetadata (V : Type) : MDict V := assign (fun _ => none) (setterKey .nodata) none

/-- A setter call. See abstract_image_metadata.py:56-103. -/
def setField {V : Type} (d : MDict V) (c : MField × Option V) : MDict V := assign d (setterKey c.1) c.2

/-- A getter call: KeyError when nothing was stored. See abstract_image_metadata.py:26-54. -/
def getField {V : Type} (d : MDict V) (f : MField) : Py (Option V) :=
  match d (getterKey f) with
  | none => .error .keyError
  | some v => .ok v

/-- `IgmMetadata.from_params` (igm_metadata.py:6-17). -/
def igmMetadata (nx ny nb : Nat) : MDict Nat :=
  [(MField.npixX, some nx), (MField.npixY, some ny), (MField.nBands, some nb)].foldl setField (newMetadata Nat)

/-- `MicasenseMetadata()` (micasense_metadata.py:6-11). -/
def micasenseMetadata : MDict Nat :=
  [(MField.nBands, some 5), (MField.npixX, some 1280), (MField.npixY, some 960)].foldl setField (newMetadata Nat)

/-! ### Images on disk read through GDAL -/

/-- A GDAL raster: sizes, data type, bands, geotransform, projection and no-data value (the same on every band, as the
modelled code writes it). Used for `openImage`, geotiff_image.py:25-35. -/
structure Dset (K P : Type) where
  nx : Nat
  ny : Nat
  nb : Nat
  dtype : Nat
  px : Nat → Nat → Nat → K
  geot : K × K × K × K × K × K
  proj : P
  nodata : Option K

/-- `dset.GetRasterBand(n).ReadAsArray()`: bands are numbered from 1, another number gives None, which has no
`ReadAsArray` (AttributeError). Used for `DImage.readBand`, geotiff_image.py:95-99. -/
def Dset.readBand {K P : Type} (d : Dset K P) (n : Int) : Py (A2 K) :=
  if 1 ≤ n ∧ n ≤ d.nb then .ok ⟨d.ny, d.nx, fun y x => d.px y x (n - 1).toNat⟩ else .error .attributeError

/-- An image object backed by a GDAL dataset. Used for `DImage.readBand`, geotiff_image.py:95-99. -/
structure DImage (K P : Type) where
  data : Option (A3 K)
  nx : Nat
  ny : Nat
  nb : Nat
  dtype : Nat
  nodata : Option K
  geot : K × K × K × K × K × K
  proj : P
  dset : Option (Dset K P)

variable {K P : Type}

/-- `read_band_from_disk` of `GeotiffImage` and `ViewReadyStereoImage` (geotiff_image.py:95-99,
view_ready_stereo_image.py:55-59); without a dataset AttributeError. -/
def DImage.readBand (im : DImage K P) (b : Int) : Py (A2 K) :=
  match im.dset with
  | none => .error .attributeError
  | some d => d.readBand (b + 1)

/-- The loop of `read_all_image_data_from_disk` from band `start` on.
Used for `DImage.readAll`, geotiff_image.py:88-93. -/
def DImage.readBands (im : DImage K P) : Nat → Nat → Py (List (A2 K))
  | _, 0 => .ok []
  | start, n + 1 => do
    let a ← im.readBand start
    let as ← im.readBands (start + 1) n
    .ok (a :: as)

/-- `np.stack(l, axis=2)`: no arrays, or arrays of different shapes, are a ValueError.
Used for `DImage.readAll`, geotiff_image.py:88-93. -/
def stackBands [Inhabited K] : List (A2 K) → Py (A3 K)
  | [] => .error .valueError
  | a :: as =>
    if as.all (fun c => decide (c.ny = a.ny ∧ c.nx = a.nx)) then
      .ok ⟨a.ny, a.nx, as.length + 1, fun y x z => match (a :: as)[z]? with
        | some c => c.px y x
        | none => default⟩
    else .error .valueError

/-- `read_all_image_data_from_disk` of the same classes (geotiff_image.py:88-93, view_ready_stereo_image.py:48-53) and of
`PhysicalCameraImage` (physical_camera_image.py:17-23). -/
def DImage.readAll [Inhabited K] (im : DImage K P) : Py (A3 K) := do
  let l ← im.readBands 0 im.nb
  stackBands l

/-- `get_image_band` on the loaded data (abstract_image.py:82-91). -/
def DImage.getBand (im : DImage K P) (b : Int) : Py (A2 K) :=
  match im.data with
  | none => .error .typeError
  | some c => do
    let k ← pyIdx c.nb b
    .ok ⟨c.ny, c.nx, fun y x => c.px y x k⟩

/-- `PhysicalCameraImage.read_band_from_disk` (physical_camera_image.py:25-34); what `get_image_band` returns is never
None. -/
def DImage.readBandPhysical (im : DImage K P) (b : Int) : Py (A2 K) := im.getBand b

/-- `GeotiffImage.init_from_file` (geotiff_image.py:25-35, geotiff_metadata.py:9-23): band 1 must exist. -/
def openImage (d : Dset K P) : Py (DImage K P) :=
  if d.nb = 0 then .error .attributeError
  else .ok ⟨none, d.nx, d.ny, d.nb, d.dtype, d.nodata, d.geot, d.proj, some d⟩

/-- `GeotiffImage.init_from_numpy_array` (geotiff_image.py:37-73). -/
def fromArray (a : Img K) (dtype : Nat) (geot : K × K × K × K × K × K) (proj : P) (nodata : Option K) : DImage K P :=
  let cube : A3 K := match a with
    | .cube c => c
    | .gray g => ⟨g.ny, g.nx, 1, fun y x _ => g.px y x⟩
  ⟨some cube, cube.nx, cube.ny, cube.nb, dtype, nodata, geot, proj, none⟩

/-- `dataset.GetRasterBand(n).WriteArray(a)` for a band that exists: an array larger than the raster is a ValueError,
a smaller one fills the upper left corner; `cast` is the conversion to the raster's data type.
Used for `DImage.writeBands`, geotiff_image.py:139-142. -/
def Dset.writeBand (cast : K → K) (d : Dset K P) (k : Nat) (a : A2 K) : Py (Dset K P) :=
  if a.nx ≤ d.nx ∧ a.ny ≤ d.ny then
    .ok { d with px := fun y x z => if z = k ∧ y < a.ny ∧ x < a.nx then cast (a.px y x) else d.px y x z }
  else .error .valueError

/-- The loop over the bands of `write_to_disk` (geotiff_image.py:139-142) from band `start` on; the no-data value is
truncated by `int`. -/
def DImage.writeBands [Field K] [LinearOrder K] [IsStrictOrderedRing K] [FloorRing K] (cast : K → K) (im : DImage K P) :
    Nat → Nat → Dset K P → Py (Dset K P)
  | _, 0, d => .ok d
  | start, n + 1, d => do
    let a ← im.getBand start
    let d ← d.writeBand cast start a
    im.writeBands cast (start + 1) n
      (match im.nodata with
       | none => d
       | some v => { d with nodata := some ((Verif.Grids.pyInt v : Int) : K) })

/-- `GeotiffImage.write_to_disk` (geotiff_image.py:122-144): the image object afterwards (its data may have been loaded)
and the dataset in the file, or the exception.  `get_gdal_mem_datset` (geotiff_image.py:101-120) is the same without a
file. -/
def DImage.write [Field K] [LinearOrder K] [IsStrictOrderedRing K] [FloorRing K] [Inhabited K] (cast : K → K)
    (im : DImage K P) : Py (DImage K P × Dset K P) := do
  let blank : Dset K P := ⟨im.nx, im.ny, im.nb, im.dtype, fun _ _ _ => 0, im.geot, im.proj, none⟩
  let im ← match im.data with
    | some _ => .ok im
    | none => do
      let all ← im.readAll
      .ok { im with data := some all }
  let d ← im.writeBands cast 0 im.nb blank
  .ok (im, d)

/-- A no-data value that is not a finite number; GDAL returns such values for float rasters.
Used for `DImage.writeSpecial`, geotiff_image.py:141-142. -/
inductive Special where
  | nan
  | inf
  deriving DecidableEq

/-- Python `int` of a value that is not finite (geotiff_image.py:142): ValueError for NaN, OverflowError for an infinity. -/
def Special.intErr : Special → Err
  | .nan => .valueError
  | .inf => .overflow

/-- `GeotiffImage.write_to_disk` (geotiff_image.py:122-144) of an image whose no-data value is `v` (the field `nodata`
is not used): the first band is written, then the no-data value is converted. -/
def DImage.writeSpecial [Zero K] [Inhabited K] (cast : K → K) (im : DImage K P) (v : Special) :
    Py (DImage K P × Dset K P) := do
  let blank : Dset K P := ⟨im.nx, im.ny, im.nb, im.dtype, fun _ _ _ => 0, im.geot, im.proj, none⟩
  let im ← match im.data with
    | some _ => .ok im
    | none => do
      let all ← im.readAll
      .ok { im with data := some all }
  if im.nb = 0 then .ok (im, blank)
  else
    let a ← im.getBand 0
    let _ ← blank.writeBand cast 0 a
    .error v.intErr

/-! ### MicaSense -/

/-- `MicasenseImage.read_band_from_disk` (micasense_image.py:24-27): Python list indexing. -/
def micaReadBand (files : List (A2 K)) (b : Int) : Py (A2 K) := do
  let k ← pyIdx files.length b
  match files[k]? with
  | some a => .ok a
  | none => .error .indexError

/-- `MicasenseImage.read_all_image_data_from_disk` (micasense_image.py:18-22): `np.dstack`. -/
def micaReadAll [Inhabited K] (files : List (A2 K)) : Py (A3 K) := stackBands files

/-- A rational EXIF value: numerator and denominator.
Used for `dmsToDd`, micasense_image.py:62-76. -/
structure Ratio where
  num : Int
  den : Int

/-- `_dms_tag_to_dd` (micasense_image.py:62-76): only the seconds are divided by their denominator. -/
def dmsToDd [Field K] (d m s : Ratio) (ref : Str) : Py K :=
  if s.den = 0 then .error .zeroDivision
  else
    let sign : K := if ref = ['S'] ∨ ref = ['W'] then -1 else 1
    .ok (sign * ((d.num : K) + (m.num : K) / 60 + ((s.num : K) / (s.den : K)) / 3600))

/-- Value of a string of decimal digits, as `int` reads it.
Used for `subSeconds`, micasense_image.py:47-48. -/
def digitsInt (s : Str) : Nat := s.foldl (fun acc c => acc * 10 + (c.toNat - 48)) 0

/-- `float('0.' + digits)` for a string of decimal digits.
Used for `subSeconds`, micasense_image.py:47-48. -/
def zeroPoint [Field K] (digits : Str) : K := (digitsInt digits : K) / 10 ^ digits.length

/-- The fraction of a second of `get_gps_timestamp_and_center` (micasense_image.py:47-48), for a tag made of digits:
the digits are converted by `int` and back before they follow `0.`. -/
def subSeconds [Field K] (tag : Str) : K := zeroPoint (natStr (digitsInt tag))

end Verif.Images
