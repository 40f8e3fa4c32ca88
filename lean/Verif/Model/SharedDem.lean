import Verif.Model.Warp

/-! DEM objects (`/repo/resippy/photogrammetry/dem/geotiff_dem.py`) that may share image objects
(`/repo/resippy/image_objects/earth_overhead/geotiff/geotiff_image.py`) with each other and with the caller; a call that raises keeps what it did before. -/

namespace Verif.Warp
open Verif ImageUtils Ortho Images

section
variable {K P : Type} [Field K] [LinearOrder K] [IsStrictOrderedRing K] [FloorRing K] [Inhabited K]

/-- A `GeotiffDem` (geotiff_dem.py:12-16): its own state and the number of its image object; `none` before an image was set. -/
structure DemRef (K : Type) where
  state : DemState K
  image : Option Nat

/-- Image objects, DEM objects and the files GDAL can open (geotiff_dem.py:12-78). -/
structure Scene (K P : Type) where
  images : List (DImage K P)
  dems : List (DemRef K)
  files : Files K P

/-- `remove_nodata_values` (geotiff_dem.py:61-67) with the object kept when it raises: the value is stored first, and storing NaN in an integer array raises. -/
def removeNodataIO (s : DemState K) (v : Option K) : DemState K × Py Unit :=
  match removeNodata s v with
  | .ok s' => (s', .ok ())
  | .error e => ({ s with nodata := v }, .error e)

/-- `set_geotiff_image` (geotiff_dem.py:69-75) with the object kept when it raises: the image is stored first, then read.  Images of one band with two rows and
columns or more, as in `DemGeo.setImage` (others are outside the model: ValueError). -/
def setImageIO (floating : Nat → Bool) (d : DemRef K) (a : Nat) (im : DImage K P) : DemRef K × Py Unit :=
  match im.readAll with
  | .error e => (⟨d.state, some a⟩, .error e)
  | .ok all =>
    if all.nb = 1 ∧ all.ny ≠ 1 ∧ all.nx ≠ 1 then
      let r := removeNodataIO { d.state with data := some ⟨all.ny, all.nx, fun y x => some (all.px y x 0)⟩, floating := floating im.dtype } d.state.nodata
      (⟨r.1, some a⟩, r.2)
    else (⟨d.state, some a⟩, .error .valueError)

/-- `dem.set_geotiff_image(image)` on the DEM number `k` and the image number `a` (geotiff_dem.py:69-75); numbers of objects that do not exist are outside the
model (TypeError). -/
def Scene.setImage (floating : Nat → Bool) (s : Scene K P) (k a : Nat) : Scene K P × Py Unit :=
  match s.dems[k]?, s.images[a]? with
  | some d, some im => ({ s with dems := s.dems.set k (setImageIO floating d a im).1 }, (setImageIO floating d a im).2)
  | _, _ => (s, .error .typeError)

/-- The image number of a DEM and the image; an object without an image has the class `GeotiffImage` itself, of which methods cannot be called (TypeError,
geotiff_dem.py:14). -/
def Scene.imageOf (s : Scene K P) (k : Nat) : Py (Nat × DImage K P) :=
  match s.dems[k]? with
  | none => .error .typeError
  | some d => match d.image with
    | none => .error .typeError
    | some a => match s.images[a]? with
      | none => .error .typeError
      | some im => .ok (a, im)

/-- The files after `gdal.Warp` (geotiff_image.py:158): unchanged when it fails. -/
def warped (files : Files K P) (dst : Str) (r : Option (Dset K P)) : Files K P :=
  match r with
  | none => files
  | some d => fun n => if n = dst then some d else files n

/-- `convert_to_geoid_heights` and `convert_to_ellipsoid_heights` of the DEM number `k` (geotiff_dem.py:35-59, geotiff_image.py:147-162): the DEM's image is
warped into a file, the image made from that file is a new object, the old image object is closed, the new one is set. -/
def Scene.convert (W : SrsPair → Dset K P → Option (Dset K P)) (cast : K → K) (floating : Nat → Bool) (srs : P → Str) (s : Scene K P) (k : Nat)
    (dst grid : Str) (toGeoid : Bool) : Scene K P × Py Unit :=
  match s.imageOf k with
  | .error e => (s, .error e)
  | .ok (a, im) =>
    match warpSource cast im with
    | .error e => (s, .error e)
    | .ok src =>
      let ops := if toGeoid then geoidOps (srs im.proj) grid else ellipsoidOps (srs im.proj) grid
      let files' := warped s.files dst (W ops src)
      match openName files' dst with
      | .error e => ({ s with files := files' }, .error e)
      | .ok new =>
        Scene.setImage floating { s with images := s.images.set a { im with dset := none } ++ [new], files := files' } k s.images.length

/-- What a program does with DEMs and images: set an image, convert heights, load an image's data (`set_image_data(read_all_image_data_from_disk())`), remove a
no-data value, choose the interpolation, close an image (geotiff_dem.py:18-78, geotiff_image.py:188-189). -/
inductive SceneOp where
  | setImage (k a : Nat)
  | convert (k : Nat) (dst grid : Str) (toGeoid : Bool)
  | load (a : Nat)
  | close (a : Nat)

/-- One operation (geotiff_dem.py:35-75, geotiff_image.py:88-93, 188-189); an operation on an object that does not exist does nothing. -/
def Scene.step (W : SrsPair → Dset K P → Option (Dset K P)) (cast : K → K) (floating : Nat → Bool) (srs : P → Str) (s : Scene K P) : SceneOp → Scene K P × Py Unit
  | .setImage k a => s.setImage floating k a
  | .convert k dst grid g => s.convert W cast floating srs k dst grid g
  | .load a => match s.images[a]? with
    | none => (s, .error .typeError)
    | some im => match im.readAll with
      | .error e => (s, .error e)
      | .ok all => ({ s with images := s.images.set a { im with data := some all } }, .ok ())
  | .close a => match s.images[a]? with
    | none => (s, .error .typeError)
    | some im => ({ s with images := s.images.set a { im with dset := none } }, .ok ())

/-- Several operations, errors caught (geotiff_dem.py:35-75). -/
def Scene.run (W : SrsPair → Dset K P → Option (Dset K P)) (cast : K → K) (floating : Nat → Bool) (srs : P → Str) (s : Scene K P) (ops : List SceneOp) : Scene K P :=
  ops.foldl (fun s op => (s.step W cast floating srs op).1) s

end
end Verif.Warp
