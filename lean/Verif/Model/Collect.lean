import Verif.Model.Camera
import Verif.Model.Readers
import Verif.Model.Micasense

/-! A whole pix4d collect: from the directory to the point calculator of an image.
`/repo/resippy/utils/pix4d_utils.py` and
`/repo/resippy/image_objects/earth_overhead/earth_overhead_point_calculators/pix4d_point_calc.py`. -/

namespace Verif.Collect
open Verif Verif.TextUtils Verif.Envi Verif.Readers Verif.Camera Verif.Rotation

/-- The endings of the standard file names (pix4d_utils.py:149-152). -/
def extEnding : Str := "calibrated_external_camera_parameters.txt".toList
/-- See `extEnding` (pix4d_utils.py:150). -/
def intEnding : Str := "pix4d_calibrated_internal_camera_parameters.cam".toList
/-- See `extEnding` (pix4d_utils.py:151). -/
def calEnding : Str := "calibrated_camera_parameters.txt".toList
/-- See `extEnding` (pix4d_utils.py:152). -/
def wktEnding : Str := "wkt.prj".toList

/-- The name of one parameter file: the given one, or the first of the directory with the ending (pix4d_utils.py:156-166). -/
def chooseFile (listing : List Str) (given : Option Str) (ending : Str) : Py Str :=
  match given with
  | some n => .ok n
  | none => match listing.filter (fun n => ending.isSuffixOf n) with
    | [] => .error .indexError
    | n :: _ => .ok n

/-- `open(path, 'r').read()`. Used for `makeMasterDir`, pix4d_utils.py:173-180. -/
def readFile (content : Str → Option Str) (path : Str) : Py Str :=
  match content path with
  | some t => .ok t
  | none => .error .fileNotFound

/-- `make_master_dict` (pix4d_utils.py:122-204): `listing` is `os.listdir(base_path)`, `content` the files by path.  The projection file must exist;
what is made of it and the entries 'projection' and 'r_matrix_computed' are left out here, see `makeMasterAll`. -/
def makeMasterDir {F : Type} (pf : Str → Option F) (ls search : Str) (listing : List Str) (content : Str → Option Str) (base : Str)
    (ext int cal wkt : Option Str) : Py (Dict (Master F)) := do
  let e ← chooseFile listing ext extEnding
  let i ← chooseFile listing int intEnding
  let c ← chooseFile listing cal calEnding
  let w ← chooseFile listing wkt wktEnding
  let et ← readFile content (Micasense.pathJoin base e)
  let external ← readExternal pf ls et
  let it ← readFile content (Micasense.pathJoin base i)
  let internal ← readInternal pf ls search it
  let ct ← readFile content (Micasense.pathJoin base c)
  let calibrated ← readCalibrated pf ls ct
  let _ ← readFile content (Micasense.pathJoin base w)
  masterDict external internal calibrated

/-- A value of the dictionary `make_master_dict` returns: an image's dictionary, the collect's projection or a rotation matrix.
Used for `fullTurn`, pix4d_utils.py:178-203. -/
inductive MasterVal (P : Type) where
  | image (m : Master ℝ)
  | projection (p : P)
  | rotation (r : M3)

/-- The key of the projection (pix4d_utils.py:188). -/
def projKey : Str := "projection".toList

/-- The key of the computed rotation matrix (pix4d_utils.py:203). -/
def rotKey : Str := "r_matrix_computed".toList

/-- One turn of the loop over the images (pix4d_utils.py:190-203): the image's entry and then, in the same dictionary, the rotation matrix
computed from its angles. -/
noncomputable def fullTurn {P : Type} (external : Dict (List ℝ)) (internal : List (Dict ℝ)) (d : Dict (MasterVal P)) (p : Str × Readers.Calibrated ℝ) :
    Py (Dict (MasterVal P)) := do
  let e ← masterEntry external internal p
  let r ← createR e.2.external
  .ok (setKey (setKey d e.1 (.image e.2)) rotKey (.rotation r))

/-- `make_master_dict` (pix4d_utils.py:122-204) with all its entries; `mkProj` is what osr and pyproj make of the text of the projection file
(pix4d_utils.py:181-187). -/
noncomputable def makeMasterAll {P : Type} (mkProj : Str → Py P) (pf : Str → Option ℝ) (ls search : Str) (listing : List Str)
    (content : Str → Option Str) (base : Str) (ext int cal wkt : Option Str) : Py (Dict (MasterVal P)) := do
  let e ← chooseFile listing ext extEnding
  let i ← chooseFile listing int intEnding
  let c ← chooseFile listing cal calEnding
  let w ← chooseFile listing wkt wktEnding
  let et ← readFile content (Micasense.pathJoin base e)
  let external ← readExternal pf ls et
  let it ← readFile content (Micasense.pathJoin base i)
  let internal ← readInternal pf ls search it
  let ct ← readFile content (Micasense.pathJoin base c)
  let calibrated ← readCalibrated pf ls ct
  let wt ← readFile content (Micasense.pathJoin base w)
  let p ← mkProj wt
  calibrated.foldlM (fullTurn external internal) [(projKey, .projection p)]

/-- A 3 by 3 array from its rows; another shape is refused when points are projected (here at once).
Used for `initFromMaster`, pix4d_point_calc.py:87. -/
def rot3 (rows : List (List ℝ)) : Py M3 :=
  match rows with
  | [[a, b, c], [d, e, f], [g, h, i]] => .ok !![a, b, c; d, e, f; g, h, i]
  | _ => .error .valueError

/-- A dictionary subscript. Used for `initFromMaster`, pix4d_point_calc.py:90-93. -/
def getKey (d : Dict ℝ) (k : Str) : Py ℝ :=
  match lookup d k with
  | some v => .ok v
  | none => .error .keyError

/-- `np.squeeze` of a list of rows for the distortion coefficients: the row of a single one (pix4d_utils.py:51-54). -/
def oneRow (rows : List (List ℝ)) : List ℝ := match rows with
  | [r] => r
  | _ => []

/-- `Pix4dPointCalc.init_from_params` (pix4d_point_calc.py:62-112) on the dictionary made by `make_master_dict`: the keys it reads, handed to
`Camera.initPix4d`.  When several things are missing the exception may be another one than Python's. -/
noncomputable def initFromMaster (imageKey : Str) (all : Dict (Master ℝ)) (model : Option String) : Py Pix4d :=
  match lookup all (basename imageKey) with
  | none => .error .keyError
  | some m => do
    let r ← rot3 m.calibrated.r
    let w ← getKey m.internal "fpa_width_mm".toList
    let f ← getKey m.internal "F".toList
    let px ← getKey m.internal "Px".toList
    let py ← getKey m.internal "Py".toList
    initPix4d imageKey [(basename imageKey,
      ⟨r, m.external, m.calibrated.nx, m.calibrated.ny, w, f, px, py, oneRow m.calibrated.tangential, oneRow m.calibrated.radial⟩)] model

end Verif.Collect
