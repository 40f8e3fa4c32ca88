import Verif.Model.Images

/-! GeoTIFF image objects and the files they are opened from and written to: `/repo/resippy/image_objects/earth_overhead/geotiff/geotiff_image.py`.  An opened image keeps
a GDAL dataset and reads pixels from the file only when they are asked for; `write_to_disk` empties the target file before it looks at the data. -/

namespace Verif.GeoFiles
open Verif Verif.Images

variable {K P : Type}

/-- A GeoTIFF file: its raster, and its no-data value when that is not a finite number (then `d.nodata` is not used). Used for `FS`, geotiff_image.py:25-35, 122-144. -/
structure GFile (K P : Type) where
  d : Dset K P
  special : Option Special

/-- The files by name.  Creating a file gives it a new generation number, so that a dataset opened before can be told from one opened after.
Used for `write`, geotiff_image.py:122-144. -/
structure FS (K P : Type) where
  files : Str → Option (Nat × GFile K P)
  next : Nat

/-- A dataset returned by `gdal.Open` (geotiff_image.py:29): the file's name and the generation that was there. -/
structure Handle where
  path : Str
  gen : Nat
  deriving DecidableEq

/-- A `GeotiffImage` (geotiff_image.py:15-21): data and metadata in `im` (its field `dset` is not used), the dataset in `handle`. -/
structure GImage (K P : Type) where
  im : DImage K P
  special : Option Special
  handle : Option Handle

/-- What GDAL does when a band is read through a dataset whose file has been created anew since: it is given the handle, what the file holds now, and the band number, and may
return anything or fail.  Blocks still in GDAL's cache are not modelled.  Used for `readBand`, geotiff_image.py:95-99. -/
abbrev Stale (K P : Type) := Handle → Option (GFile K P) → Int → Py (A2 K)

/-- `read_band_from_disk` (geotiff_image.py:95-99). -/
def readBand (stale : Stale K P) (fs : FS K P) (g : GImage K P) (b : Int) : Py (A2 K) :=
  match g.handle with
  | none => .error .attributeError
  | some h =>
    match fs.files h.path with
    | none => stale h none (b + 1)
    | some (gen, f) => if gen = h.gen then f.d.readBand (b + 1) else stale h (some f) (b + 1)

/-- The loop of `read_all_image_data_from_disk` from band `start` on (geotiff_image.py:89-92). -/
def readBands (stale : Stale K P) (fs : FS K P) (g : GImage K P) : Nat → Nat → Py (List (A2 K))
  | _, 0 => .ok []
  | start, n + 1 => do
    let a ← readBand stale fs g start
    let as ← readBands stale fs g (start + 1) n
    .ok (a :: as)

/-- `read_all_image_data_from_disk` (geotiff_image.py:88-93). -/
def readAll [Inhabited K] (stale : Stale K P) (fs : FS K P) (g : GImage K P) : Py (A3 K) := do
  let l ← readBands stale fs g 0 g.im.nb
  stackBands l

/-- `init_from_file` (geotiff_image.py:24-35, geotiff_metadata.py:9-23): a file that is missing, or without a band, is an AttributeError (`gdal.Open` and `GetRasterBand`
return None). -/
def openFile (fs : FS K P) (p : Str) : Py (GImage K P) :=
  match fs.files p with
  | none => .error .attributeError
  | some (gen, f) =>
    if f.d.nb = 0 then .error .attributeError
    else .ok ⟨⟨none, f.d.nx, f.d.ny, f.d.nb, f.d.dtype, f.d.nodata, f.d.geot, f.d.proj, none⟩, f.special, some ⟨p, gen⟩⟩

/-- `driver.Create(fname, ...)` with the geotransform and the projection (geotiff_image.py:129-137): whatever was in the file is gone. -/
def FS.create (fs : FS K P) (p : Str) (d : Dset K P) : FS K P :=
  ⟨fun q => if q = p then some (fs.next, ⟨d, none⟩) else fs.files q, fs.next + 1⟩

/-- The created file after bands have been written to it (geotiff_image.py:140-144). -/
def FS.fill (fs : FS K P) (p : Str) (gen : Nat) (d : Dset K P) : FS K P :=
  ⟨fun q => if q = p then some (gen, ⟨d, none⟩) else fs.files q, fs.next⟩

section
variable [Field K] [LinearOrder K] [IsStrictOrderedRing K] [FloorRing K]

/-- The loop over the bands (geotiff_image.py:140-143) from band `start` on: the raster as it is when the loop ends or an exception leaves it.  The no-data value is converted
by `int`, which raises for NaN and infinities. -/
def writeLoop (cast : K → K) (im : DImage K P) (special : Option Special) : Nat → Nat → Dset K P → Dset K P × Py Unit
  | _, 0, d => (d, .ok ())
  | start, n + 1, d =>
    match im.getBand start with
    | .error e => (d, .error e)
    | .ok a =>
      match d.writeBand cast start a with
      | .error e => (d, .error e)
      | .ok d' =>
        match special with
        | some v => (d', .error v.intErr)
        | none => writeLoop cast im special (start + 1) n (match im.nodata with
          | none => d'
          | some v => { d' with nodata := some ((Verif.Grids.pyInt v : Int) : K) })

/-- The raster `driver.Create` makes, with the geotransform and the projection set (geotiff_image.py:129-137). -/
def blank (im : DImage K P) : Dset K P := ⟨im.nx, im.ny, im.nb, im.dtype, fun _ _ _ => 0, im.geot, im.proj, none⟩

/-- `write_to_disk` (geotiff_image.py:122-145): files, image object and outcome.  A raster without pixels or bands is refused by `driver.Create`, which returns None before it
touches the file. -/
def write [Inhabited K] (cast : K → K) (stale : Stale K P) (fs : FS K P) (g : GImage K P) (p : Str) : FS K P × GImage K P × Py Unit :=
  if g.im.nx = 0 ∨ g.im.ny = 0 ∨ g.im.nb = 0 then (fs, g, .error .attributeError)
  else
    let fs1 := fs.create p (blank g.im)
    match g.im.data with
    | some _ =>
      let w := writeLoop cast g.im g.special 0 g.im.nb (blank g.im)
      (fs1.fill p fs.next w.1, g, w.2)
    | none =>
      match readAll stale fs1 g with
      | .error e => (fs1, g, .error e)
      | .ok c =>
        let g1 := { g with im := { g.im with data := some c } }
        let w := writeLoop cast g1.im g1.special 0 g1.im.nb (blank g1.im)
        (fs1.fill p fs.next w.1, g1, w.2)

/-- Calls a program makes with image objects, which it keeps under numbers: opening a file, making an image from an array (geotiff_image.py:37-72), `set_image_data`, loading
(`set_image_data(read_all_image_data_from_disk())`), reading, `close_image` (geotiff_image.py:188-189) and `write_to_disk`. -/
inductive Op (K P : Type) where
  | opens (i : Nat) (p : Str)
  | make (i : Nat) (im : DImage K P) (special : Option Special)
  | setData (i : Nat) (a : A3 K)
  | load (i : Nat)
  | readBand (i : Nat) (b : Int)
  | readAll (i : Nat)
  | getBand (i : Nat) (b : Int)
  | close (i : Nat)
  | write (i : Nat) (p : Str)

/-- What a call returns. Used for `step`, geotiff_image.py:88-99. -/
inductive Out (K : Type) where
  | unit
  | band (a : A2 K)
  | cube (a : A3 K)

/-- The program's state: files and image objects (`none`: not bound yet). Used for `step`, geotiff_image.py:24-145. -/
structure St (K P : Type) where
  fs : FS K P
  imgs : Nat → Option (GImage K P)

/-- A state with one more image object. Used for `step`, geotiff_image.py:24-145. -/
def St.bind (s : St K P) (i : Nat) (g : GImage K P) : St K P := { s with imgs := fun j => if j = i then some g else s.imgs j }

/-- One call (geotiff_image.py:24-145, 188-189, abstract_image.py:48-91); a name not bound is a NameError. -/
def step [Inhabited K] (cast : K → K) (stale : Stale K P) (s : St K P) : Op K P → St K P × Py (Out K)
  | .opens i p =>
    match openFile s.fs p with
    | .error e => (s, .error e)
    | .ok g => (s.bind i g, .ok .unit)
  | .make i im special => (s.bind i ⟨{ im with dset := none }, special, none⟩, .ok .unit)
  | .setData i a =>
    match s.imgs i with
    | none => (s, .error .nameError)
    | some g => (s.bind i { g with im := { g.im with data := some a } }, .ok .unit)
  | .load i =>
    match s.imgs i with
    | none => (s, .error .nameError)
    | some g =>
      match readAll stale s.fs g with
      | .error e => (s, .error e)
      | .ok c => (s.bind i { g with im := { g.im with data := some c } }, .ok .unit)
  | .readBand i b =>
    match s.imgs i with
    | none => (s, .error .nameError)
    | some g => (s, (readBand stale s.fs g b).map .band)
  | .readAll i =>
    match s.imgs i with
    | none => (s, .error .nameError)
    | some g => (s, (readAll stale s.fs g).map .cube)
  | .getBand i b =>
    match s.imgs i with
    | none => (s, .error .nameError)
    | some g => (s, (g.im.getBand b).map .band)
  | .close i =>
    match s.imgs i with
    | none => (s, .error .nameError)
    | some g => (s.bind i { g with handle := none }, .ok .unit)
  | .write i p =>
    match s.imgs i with
    | none => (s, .error .nameError)
    | some g =>
      let w := write cast stale s.fs g p
      (({ s with fs := w.1 } : St K P).bind i w.2.1, w.2.2.map (fun _ => .unit))

/-- A program: its calls one after another, exceptions caught; what every call returned. See geotiff_image.py:24-145. -/
def run [Inhabited K] (cast : K → K) (stale : Stale K P) : St K P → List (Op K P) → St K P × List (Py (Out K))
  | s, [] => (s, [])
  | s, op :: ops =>
    let r := step cast stale s op
    let rest := run cast stale r.1 ops
    (rest.1, r.2 :: rest.2)

end

end Verif.GeoFiles
