import Verif.Model.Readers
import Verif.Model.Images

/-! Model of `/repo/resippy/image_objects/earth_overhead/micasense/micasense_image_factory.py`. -/

namespace Verif.Micasense
open Verif Envi TextUtils Readers ImageUtils

/-- The part of a path up to and including the last '/' (`os.path.split` on POSIX).  Used for `splitextPath`, micasense_image_factory.py:28. -/
def dirPart (p : Str) : Str := (p.reverse.dropWhile (fun c => c ≠ '/')).reverse

/-- The part of a path after the last '/'.  Used for `splitextPath`, micasense_image_factory.py:28. -/
def basePart (p : Str) : Str := (p.reverse.takeWhile (fun c => c ≠ '/')).reverse

/-- `os.path.splitext(p)[0]` on POSIX (micasense_image_factory.py:28). -/
def splitextPath (p : Str) : Str := dirPart p ++ splitextRoot (basePart p)

/-- The image name: the first band's path without extension, up to its last underscore (micasense_image_factory.py:28-32); without any
underscore the name is empty. -/
def imageName (band1 : Str) : Str := List.intercalate ['_'] (splitOn '_' (splitextPath band1)).dropLast

/-- The five keys of the dictionary of band file names, in the order they are used (micasense_image_factory.py:36-41, 57-61). -/
def bandKeys : List Str := ["band1".toList, "band2".toList, "band3".toList, "band4".toList, "band5".toList]

/-- `d[key]` (micasense_image_factory.py:36-41): KeyError when absent. -/
def fileOf (d : Dict Str) (key : Str) : Py Str :=
  match lookup d key with
  | some f => .ok f
  | none => .error .keyError

/-- A `MicasenseImage` as the factory leaves it: files, name, no-data value, the sensor model's calculators and projection
(micasense_image_factory.py:19-46). -/
structure Mica (P Pr : Type) where
  files : List Str
  name : Str
  nodata : Int
  calcs : List P
  projection : Pr
  coregistered : Bool

/-- `_from_point_calcs` (micasense_image_factory.py:19-46) on five calculators: `proj` reads a calculator's projection, `setProj` sets it;
the sensor model's `set_projection` sets it on every calculator. -/
def fromCalcs {P Pr : Type} (proj : P → Pr) (setProj : Pr → P → P) (d : Dict Str) (calcs : List P) : Py (Mica P Pr) :=
  match calcs with
  | [] => .error .indexError
  | c :: _ => do
    let band1 ← fileOf d "band1".toList
    let files ← bandKeys.mapM (fileOf d)
    .ok ⟨files, imageName band1, 0, calcs.map (setProj (proj c)), proj c, false⟩

/-- `from_image_number_and_pix4d` and `from_image_number_and_opencv` (micasense_image_factory.py:48-105): `create` makes a band's
calculator from its file name (approximate centre not modelled). -/
def fromNames {P Pr : Type} (create : Str → Py P) (proj : P → Pr) (setProj : Pr → P → P) (d : Dict Str) : Py (Mica P Pr) := do
  let calcs ← bandKeys.mapM (fun k => do
    let f ← fileOf d k
    create f)
  fromCalcs proj setProj d calcs

/-- `s.rfind('.')` (micasense_image_factory.py:81). -/
def rfindDot (s : Str) : Int :=
  match s.reverse.findIdx? (fun c => c = '.') with
  | some k => (s.length : Int) - 1 - k
  | none => -1

/-- `int(band_fname[band_fname.rfind('.')-1])` (micasense_image_factory.py:81), for ASCII names: a negative index counts from the end. -/
def bandNumber (fname : Str) : Py Nat := do
  let k ← pyIdx fname.length (rfindDot fname - 1)
  match fname[k]? with
  | some c => if '0' ≤ c ∧ c ≤ '9' then .ok (c.toNat - 48) else .error .valueError
  | none => .error .indexError

/-- `create_point_calc` of the OpenCV variant (micasense_image_factory.py:80-91): the first parameter set with the band number; `make` is
`OpenCVPointCalc.init_from_params` with both pixel axes reversed. -/
def openCvCreate {Q P : Type} (params : List (Nat × Q)) (make : Q → Py P) (fname : Str) : Py P := do
  let n ← bandNumber fname
  match params.find? (fun p => p.1 = n) with
  | some p => make p.2
  | none => .error .indexError

/-! ### Images from arrays -/

/-- `os.path.join(dir, name)` on POSIX (micasense_image_factory.py:125). -/
def pathJoin (dir name : Str) : Str :=
  if ['/'].isPrefixOf name then name
  else if dir = [] ∨ dir.getLast? = some '/' then dir ++ name
  else dir ++ '/' :: name

/-- What the file of a band holds (micasense_image_factory.py:126-127, 139): the band is squeezed before PIL makes an image of it; a vector becomes a
column, a single number is an IndexError.  Number types PIL stores without loss. -/
def savedBand {K : Type} (a : A2 K) : Py (A2 K) :=
  if a.ny = 1 ∧ a.nx = 1 then .error .indexError
  else if a.ny = 1 then .ok ⟨a.nx, 1, fun i _ => a.px 0 i⟩
  else .ok a

/-- The name of the file of band `b` (micasense_image_factory.py:122-125, 135-138): `fresh b` is the uuid made for it. -/
def bandFile (dir : Str) (names : Option (List Str)) (fresh : Nat → Str) (b : Nat) : Py Str :=
  match names with
  | some l => match l[b]? with
    | some n => .ok (pathJoin dir n)
    | none => .error .indexError
  | none => .ok (pathJoin dir (fresh b))

/-- The loop over the bands (micasense_image_factory.py:134-140): `todo` bands left from band `b`; files on disk and file names so far. -/
def writeBands {K : Type} (dir : Str) (names : Option (List Str)) (fresh : Nat → Str) (img : A3 K) :
    Nat → Nat → Dict (A2 K) → List Str → Py (Dict (A2 K) × List Str)
  | 0, _, fs, out => .ok (fs, out)
  | todo + 1, b, fs, out => do
    let fn ← bandFile dir names fresh b
    let a ← savedBand ⟨img.ny, img.nx, fun y x => img.px y x b⟩
    writeBands dir names fresh img todo (b + 1) (setKey fs fn a) (out ++ [fn])

/-- `from_numpy_and_pix4d` (micasense_image_factory.py:107-145) on a three-dimensional array: the files on disk afterwards and the image's
band files. -/
def fromNumpy {K : Type} (dir : Str) (names : Option (List Str)) (fresh : Nat → Str) (img : A3 K) (fs : Dict (A2 K)) :
    Py (Dict (A2 K) × List Str) :=
  writeBands dir names fresh img img.nb 0 fs []

/-- Reading a band of the image (micasense_image.py:24-27) from the files on disk. -/
def readBand {K : Type} (fs : Dict (A2 K)) (files : List Str) (b : Int) : Py (A2 K) := do
  let k ← pyIdx files.length b
  match files[k]? with
  | some f => match lookup fs f with
    | some a => .ok a
    | none => .error .fileNotFound
  | none => .error .indexError

end Verif.Micasense
