import Verif.Model.Envi
import Verif.Model.Images
import Verif.Model.Grids

/-! Model of the image objects as their factories make them, and of the attributes of image and DEM objects:
`/repo/resippy/image_objects` and `/repo/resippy/photogrammetry/dem/abstract_dem.py`. -/

namespace Verif.ImageObjects
open Verif Images

/-! ### ENVI images -/

/-- An `EnviImage` (envi_image.py:12-15): the dataset GDAL opened (None when it could not) and samples, lines and bands of the header. -/
structure EnviImg (K P : Type) where
  dset : Option (Dset K P)
  samples : Int
  lines : Int
  bands : Int

variable {K P : Type}

/-- `EnviImage.init_from_file` (envi_image.py:17-35), `EnviImageFactory.from_file` (envi_image_factory.py:8-12): the raster as GDAL opens it, the
sizes from the header file. -/
def enviOpen {F : Type} (pf : Str → Option F) (ls : Str) (gdalOpen : Str → Option (Dset K P)) (fs : Envi.FS) (image : Str) (hdr : Option Str) :
    Py (EnviImg K P) := do
  let m ← Envi.imageMetadata pf ls fs image hdr
  .ok ⟨gdalOpen image, m.1, m.2.1, m.2.2⟩

/-- `EnviImage.read_band_from_disk` (envi_image.py:37-41). -/
def EnviImg.readBand (im : EnviImg K P) (b : Int) : Py (A2 K) :=
  match im.dset with
  | none => .error .attributeError
  | some d => d.readBand (b + 1)

/-- The loop of `EnviImage.read_all_image_data_from_disk` (envi_image.py:43-47). -/
def EnviImg.readBands (im : EnviImg K P) : Nat → Nat → Py (List (A2 K))
  | _, 0 => .ok []
  | start, n + 1 => do
    let a ← im.readBand start
    let as ← im.readBands (start + 1) n
    .ok (a :: as)

/-- `EnviImage.read_all_image_data_from_disk` (envi_image.py:43-48); `range` of a negative number is empty. -/
def EnviImg.readAll [Inhabited K] (im : EnviImg K P) : Py (A3 K) := do
  let l ← im.readBands 0 im.bands.toNat
  stackBands l

/-! ### The two ways to the attributes of an overhead image -/

/-- What an attribute holds: an object, or still the abstract class given by the constructor. Used for `newOverhead`,
abstract_earth_overhead_image.py:20-23. -/
inductive Ref (T : Type) where
  | cls
  | obj (t : T)
deriving DecidableEq

/-- An overhead image: its point calculator and metadata (abstract_earth_overhead_image.py:20-23). -/
structure Overhead (C M : Type) where
  pointCalc : Ref C
  metadata : Ref M

/-- `AbstractEarthOverheadImage.__init__` (abstract_earth_overhead_image.py:20-23). -/
def newOverhead (C M : Type) : Overhead C M := ⟨.cls, .cls⟩

/-- Assignments: by method or by property (abstract_earth_overhead_image.py:53-62, 68-72, 78-82, abstract_image.py:65-72). -/
inductive AttrOp (C M : Type) where
  | setPointCalculator (c : C)
  | pointcalc (c : C)
  | setMetadata (m : M)
  | metadata (m : M)

/-- One assignment (abstract_earth_overhead_image.py:53-62, 68-72, 78-82, abstract_image.py:65-72). -/
def Overhead.step {C M : Type} (o : Overhead C M) : AttrOp C M → Overhead C M
  | .setPointCalculator c => { o with pointCalc := .obj c }
  | .pointcalc c => { o with pointCalc := .obj c }
  | .setMetadata m => { o with metadata := .obj m }
  | .metadata m => { o with metadata := .obj m }

/-- `get_point_calculator` (abstract_earth_overhead_image.py:25-32). -/
def Overhead.getPointCalculator {C M : Type} (o : Overhead C M) : Ref C := o.pointCalc

/-- `pointcalc` (abstract_earth_overhead_image.py:64-66). -/
def Overhead.pointcalcProp {C M : Type} (o : Overhead C M) : Ref C := o.pointCalc

/-- `get_metadata` (abstract_image.py:74-81). -/
def Overhead.getMetadata {C M : Type} (o : Overhead C M) : Ref M := o.metadata

/-- `metadata` (abstract_earth_overhead_image.py:74-76). -/
def Overhead.metadataProp {C M : Type} (o : Overhead C M) : Ref M := o.metadata

/-! ### Factories -/

/-- The metadata kept by `PhysicalCameraMetadata` and `ViewReadyStereoMetadata` (physical_camera_metadata.py:10-31,
view_ready_stereo_metadata.py:10-31), and `IgmMetadata` (igm_metadata.py:8-17), where type and no-data value stay None. -/
structure Meta (K : Type) where
  name : Option Str
  nx : Nat
  ny : Nat
  nb : Nat
  dtype : Option Nat
  nodata : Option K
deriving DecidableEq

/-- An image object as a factory returns it. Used for `physicalFromFile`, physical_camera_image_factory.py:12-21. -/
structure Made (K P C : Type) where
  data : Option (A3 K)
  dset : Option (Dset K P)
  metadata : Meta K
  pointCalc : C
  readWithGdal : Bool

/-- `_from_gdal_file`, `_from_file` (physical_camera_metadata.py:10-23, view_ready_stereo_metadata.py:10-23): a file GDAL cannot open, or one
without bands, is an AttributeError; `root` is `os.path.splitext(fname)[0]`. -/
def metaFromFile (gdalOpen : Str → Option (Dset K P)) (root : Str → Str) (fname : Str) : Py (Meta K) :=
  match gdalOpen fname with
  | none => .error .attributeError
  | some d => if d.nb = 0 then .error .attributeError else .ok ⟨some (root fname), d.nx, d.ny, d.nb, some d.dtype, d.nodata⟩

/-- `PhysicalCameraImageFactory.from_gdal_file_and_single_point_calc` (physical_camera_image_factory.py:12-21). -/
def physicalFromFile {C : Type} (gdalOpen : Str → Option (Dset K P)) (root : Str → Str) (fname : Str) (c : C) : Py (Made K P C) := do
  let m ← metaFromFile gdalOpen root fname
  .ok ⟨none, gdalOpen fname, m, c, true⟩

/-- `PhysicalCameraImageFactory.from_numpy_array_metadata_and_single_point_calc` (physical_camera_image_factory.py:24-32). -/
def physicalFromArray {C : Type} (a : A3 K) (m : Meta K) (c : C) : Made K P C := ⟨some a, none, m, c, true⟩

/-- `ViewReadyStereoImage.init_from_file` (view_ready_stereo_image.py:23-32, view_ready_stereo_image_factory.py:9-12); `rpc` reads the point
calculator of a file (rpc_point_calc.py, modelled in `Setup`). -/
def vrsFromFile {C : Type} (gdalOpen : Str → Option (Dset K P)) (root : Str → Str) (rpc : Str → Py C) (fname : Str) : Py (Made K P C) := do
  let m ← metaFromFile gdalOpen root fname
  let c ← rpc fname
  .ok ⟨none, gdalOpen fname, m, c, true⟩

/-- `IgmImage.from_params` (igm_image.py:10-26, igm_metadata.py:8-17) for two-dimensional longitudes; `mk` makes the calculator. -/
def igmFromParams {C : Type} (mk : A2 K → A2 K → Py C) (a : Option (A3 K)) (lons lats : A2 K) (nb : Nat) : Py (Made K P C) := do
  let c ← mk lons lats
  .ok ⟨a, none, ⟨none, lons.nx, lons.ny, nb, none, none⟩, c, true⟩

/-- The loop of `read_all_image_data_from_disk` of the GDAL-backed classes. Used for `Made.readAll`, physical_camera_image.py:17-23. -/
def readBandsOf (d : Option (Dset K P)) : Nat → Nat → Py (List (A2 K))
  | _, 0 => .ok []
  | start, n + 1 => do
    let a ← match d with
      | none => (.error .attributeError : Py (A2 K))
      | some d => d.readBand (start + 1)
    let as ← readBandsOf d (start + 1) n
    .ok (a :: as)

/-- `PhysicalCameraImage.read_all_image_data_from_disk` (physical_camera_image.py:17-23): with `read_with_gdal` switched off no band is read and the
empty list cannot be stacked. -/
def Made.readAll {C : Type} [Inhabited K] (im : Made K P C) : Py (A3 K) := do
  let l ← if im.readWithGdal then readBandsOf im.dset 0 im.metadata.nb else .ok []
  stackBands l

/-- `IgmImage.read_all_image_data_from_disk` and `read_band_from_disk` (igm_image.py:28-32): nothing, for every image. -/
def igmRead {C : Type} (_ : Made K P C) : Option (A3 K) := none

/-! ### Attributes of DEM objects -/

/-- The instance variables `proj` and `reference` of a DEM; `none` when they were never assigned: neither `GeotiffDem.__init__` nor
`ConstantElevationDem.__init__` calls the constructor that would (abstract_dem.py:14-20, geotiff_dem.py:12-16, constant_elevation_dem.py:10-11). -/
structure DemAttrs (Q : Type) where
  proj : Option Q
  reference : Option Int

/-- A DEM just made, `ConstantElevationDem(e)` (constant_elevation_dem.py:10-11, dem_factory.py:32-35) or `GeotiffDem()` (geotiff_dem.py:12-16). -/
def newDem (Q : Type) : DemAttrs Q := ⟨none, none⟩

/-- Assignments to a DEM (abstract_dem.py:22-25, 30-33; geotiff_dem.py:73-74). -/
inductive DemOp (Q : Type) where
  | setProjection (q : Q)
  | setReference (code : Int)
  | setImage (proj : Q)

/-- One assignment (abstract_dem.py:22-25, 30-33; geotiff_dem.py:73-74). -/
def DemAttrs.step {Q : Type} (d : DemAttrs Q) : DemOp Q → DemAttrs Q
  | .setProjection q => { d with proj := some q }
  | .setReference c => { d with reference := some c }
  | .setImage q => { d with proj := some q }

/-- `get_projection` (abstract_dem.py:27-28): AttributeError when the variable does not exist. -/
def DemAttrs.getProjection {Q : Type} (d : DemAttrs Q) : Py Q :=
  match d.proj with
  | some q => .ok q
  | none => .error .attributeError

/-- `get_reference` (abstract_dem.py:35-36). -/
def DemAttrs.getReference {Q : Type} (d : DemAttrs Q) : Py Int :=
  match d.reference with
  | some q => .ok q
  | none => .error .attributeError

end Verif.ImageObjects
