import Verif.Model.Envi
import Verif.Model.TextUtils
import Mathlib.Algebra.Field.Basic

/-! Model of the readers of text files: `/repo/resippy/utils/pix4d_utils.py`,
`/repo/resippy/spectral/spectrum_factories` and `/repo/resippy/utils/csv_utils.py`.
`pf` is Python's `float(str)`, `none` for its ValueError; `ls` is `os.linesep`. -/

namespace Verif.Readers
open Verif Verif.TextUtils Verif.Envi

/-- Pieces of `s` between the characters satisfying `p`.
Used for `words`, svc_spectral_factory.py:26-30. -/
def splitBy (p : Char → Bool) : Str → List Str
  | [] => [[]]
  | c :: s =>
    if p c then [] :: splitBy p s
    else match splitBy p s with
      | [] => [[c]]
      | w :: ws => (c :: w) :: ws

/-- `s.split()`. Used for `svcLine`, svc_spectral_factory.py:26-30. -/
def words (s : Str) : List Str := (splitBy isWs s).filter (fun w => w ≠ [])

/-- `float(s)`. Used for `readExternalLine`, pix4d_utils.py:86-87. -/
def toFloat {F : Type} (pf : Str → Option F) (s : Str) : Py F :=
  match pf s with
  | some v => .ok v
  | none => .error .valueError

/-- `int(s)`. Used for `readRecord`, pix4d_utils.py:48-68. -/
def toIntPy (s : Str) : Py Int :=
  match parseInt s with
  | some n => .ok n
  | none => .error .valueError

/-- `list(map(float, row.split()))`. Used for `readRecord`, pix4d_utils.py:48-68. -/
def floatRow {F : Type} (pf : Str → Option F) (row : Str) : Py (List F) := (words row).mapM (toFloat pf)

/-! ### pix4d -/

/-- The values stored for one image by `read_calibrated_camera_parameters`.  Matrices are lists of rows; the shapes of the
numpy arrays built from them are not modelled. Used for `readRecord`, pix4d_utils.py:48-68. -/
structure Calibrated (F : Type) where
  nx : Int
  ny : Int
  k : List (List F)
  radial : List (List F)
  tangential : List (List F)
  t : List (List F)
  r : List (List F)

/-- One record of ten lines (pix4d_utils.py:48-68); the first is `file_params[0]`. -/
def readRecord {F : Type} (pf : Str → Option F) (rec : List Str) : Py (Str × Calibrated F) := do
  let first ← match rec with
    | [] => .error .indexError
    | l :: _ => .ok l
  match splitOn ' ' first with
  | [fname, w, h] => do
    let k ← ((rec.drop 1).take 3).mapM (floatRow pf)
    let radial ← ((rec.drop 4).take 1).mapM (floatRow pf)
    let tangential ← ((rec.drop 5).take 1).mapM (floatRow pf)
    let t ← ((rec.drop 6).take 1).mapM (floatRow pf)
    let r ← ((rec.drop 7).take 3).mapM (floatRow pf)
    let nx ← toIntPy w
    let ny ← toIntPy h
    .ok (fname, ⟨nx, ny, k, radial, tangential, t, r⟩)
  | _ => .error .valueError

/-- `[params[x:x + 10] for x in range(0, len(params), 10)]` (pix4d_utils.py:47). -/
def chunks10 (l : List Str) : List (List Str) :=
  (List.range ((l.length + 9) / 10)).map (fun j => (l.drop (10 * j)).take 10)

/-- Records into the dictionary, in order (pix4d_utils.py:48-69). -/
def storeAll {V : Type} (f : List Str → Py (Str × V)) : List (List Str) → Dict V → Py (Dict V)
  | [], d => .ok d
  | rec :: recs, d => do
    let (k, v) ← f rec
    storeAll f recs (setKey d k v)

/-- `read_calibrated_camera_parameters` (pix4d_utils.py:26-70) on the file's text. -/
def readCalibrated {F : Type} (pf : Str → Option F) (ls file : Str) : Py (Dict (Calibrated F)) :=
  storeAll (readRecord pf) (chunks10 ((readTextList ls file).drop 8)) []

/-- One line of the external parameters (pix4d_utils.py:86-87); the name and six numbers. -/
def readExternalLine {F : Type} (pf : Str → Option F) (line : Str) : Py (Str × List F) :=
  match splitOn ' ' line with
  | [fname, x, y, z, omega, phi, kappa] => do
    let vs ← [x, y, z, omega, phi, kappa].mapM (toFloat pf)
    .ok (fname, vs)
  | _ => .error .valueError

/-- `read_calibrated_external_camera_parameters` (pix4d_utils.py:73-88); the method of the same name of Pix4dPointCalc has the same text
(pix4d_point_calc.py:176-187). -/
def readExternal {F : Type} (pf : Str → Option F) (ls file : Str) : Py (Dict (List F)) :=
  storeAll (fun rec => match rec with
    | [l] => readExternalLine pf l
    | _ => .error .valueError) (((readTextList ls file).drop 1).map (fun l => [l])) []

/-- `sub in s`. Used for `internalLine`, pix4d_utils.py:244-256. -/
def contains (sub s : Str) : Bool := findStr sub s ≠ -1

/-- `s[s.rfind(" ") + 1:]`: what follows the last space, everything when there is none.
Used for `internalLine`, pix4d_utils.py:244-256. -/
def afterLastSpace (s : Str) : Str := (s.reverse.takeWhile (· ≠ ' ')).reverse

/-- One line of a camera block (pix4d_utils.py:244-256). -/
def internalLine {F : Type} (pf : Str → Option F) (d : Dict F) (txt : Str) : Py (Dict F) :=
  if ['#'].isPrefixOf txt then
    if contains "Focal Length mm".toList txt then
      match splitOn 'x' (replaceStr "mm".toList [] (afterLastSpace txt)) with
      | [w, h] => do
        let w ← toFloat pf w
        let h ← toFloat pf h
        .ok (setKey (setKey d "fpa_width_mm".toList w) "fpa_height_mm".toList h)
      | _ => .error .valueError
    else .ok d
  else match splitOn ' ' txt with
    | [key, val] => do
      let v ← toFloat pf val
      .ok (setKey d key v)
    | _ => .error .valueError

/-- The dictionary of one block: its lines without the empty ones (pix4d_utils.py:241-257). -/
def internalBlock {F : Type} (pf : Str → Option F) (block : List Str) : Py (Dict F) :=
  (block.filter (fun l => l ≠ [])).foldlM (internalLine pf) []

/-- Line numbers containing the search text, from line `i` on (pix4d_utils.py:232-234). -/
def starts (search : Str) : Nat → List Str → List Nat
  | _, [] => []
  | i, l :: ls => if contains search l then i :: starts search (i + 1) ls else starts search (i + 1) ls

/-- `read_pix4d_calibrated_internal_camera_parameters` (pix4d_utils.py:207-258) on the lines of the file.  The end of the
last block is `i`, the number of the last line; for an empty file it is unbound.  The method of the same name of Pix4dPointCalc has the
same text (pix4d_point_calc.py:189-224). -/
def readInternalLines {F : Type} (pf : Str → Option F) (search : Str) (lines : List Str) : Py (List (Dict F)) :=
  if lines = [] then .error .unboundLocal
  else
    let s := starts search 0 lines
    let e := s.drop 1 ++ [lines.length - 1]
    (s.zip e).mapM (fun p => internalBlock pf ((lines.drop (p.1 + 1)).take (p.2 - (p.1 + 1))))

/-- The same on the file's text. Used for `makeMaster`, pix4d_utils.py:180-204. -/
def readInternal {F : Type} (pf : Str → Option F) (ls search file : Str) : Py (List (Dict F)) :=
  readInternalLines pf search (readTextList ls file)

/-- `os.path.splitext(p)[0]` for a name without directory: what precedes the last dot, unless only dots precede it.
Used for `cameraText`, pix4d_utils.py:197. -/
def splitextRoot (p : Str) : Str :=
  let r := p.reverse.dropWhile (fun c => c ≠ '.')
  match r with
  | [] => p
  | _ :: before => if before.all (fun c => c = '.') then p else before.reverse

/-- `os.path.splitext(key)[0].split("_")[-1]` (pix4d_utils.py:197). -/
def cameraText (key : Str) : Str := (splitOn '_' (splitextRoot key)).getLast?.getD []

/-- What the master dictionary holds for one image.
Used for `masterEntry`, pix4d_utils.py:190-202. -/
structure Master (F : Type) where
  calibrated : Calibrated F
  external : List F
  internal : Dict F

/-- The internal parameters for one image name (pix4d_utils.py:197-201). -/
def cameraOf {F : Type} (internal : List (Dict F)) (key : Str) : Py (Dict F) := do
  if (cameraText key).length ≠ 1 then .error .valueError
  else
    let n ← toIntPy (cameraText key)
    let k ← pyIdx internal.length (n - 1)
    match internal[k]? with
    | some d => .ok d
    | none => .error .indexError

/-- The entry of one image (pix4d_utils.py:190-202). -/
def masterEntry {F : Type} (external : Dict (List F)) (internal : List (Dict F)) (p : Str × Calibrated F) : Py (Str × Master F) := do
  let e ← match lookup external p.1 with
    | some e => .ok e
    | none => .error .keyError
  let i ← cameraOf internal p.1
  .ok (p.1, ⟨p.2, e, i⟩)

/-- The loop of `make_master_dict` (pix4d_utils.py:190-203), on the dictionaries read from the files.  The entries
'projection' and 'r_matrix_computed' stored beside the images (pix4d_utils.py:188, 203) are not modelled. -/
def masterDict {F : Type} (external : Dict (List F)) (internal : List (Dict F)) (calibrated : Dict (Calibrated F)) : Py (Dict (Master F)) :=
  calibrated.mapM (masterEntry external internal)

/-- `make_master_dict` (pix4d_utils.py:180-204) on the texts of the three parameter files, the files having been found and the
projection file read. -/
def makeMaster {F : Type} (pf : Str → Option F) (ls search extFile intFile calFile : Str) : Py (Dict (Master F)) := do
  let external ← readExternal pf ls extFile
  let internal ← readInternal pf ls search intFile
  let calibrated ← readCalibrated pf ls calFile
  masterDict external internal calibrated

/-! ### Spectra -/

section
variable {K : Type} [Field K]

/-- Wavelengths and values as two lists, in step, from rows (the loops of the readers).
Used for `svc`, svc_spectral_factory.py:10-40. -/
def pairs (f : Str → Py (K × K)) : List Str → Py (List K × List K)
  | [] => .ok ([], [])
  | l :: ls => do
    let (w, r) ← f l
    let (ws, rs) ← pairs f ls
    .ok (w :: ws, r :: rs)

/-- Index of the line after the first one starting with `data`, or the number of lines (svc_spectral_factory.py:17-21). -/
def dataIndex : List Str → Nat
  | [] => 0
  | l :: ls => if "data".toList.isPrefixOf l then 1 else 1 + dataIndex ls

/-- One line of an SVC file (svc_spectral_factory.py:26-30): four fields, the last in percent. -/
def svcLine (pf : Str → Option K) (l : Str) : Py (K × K) :=
  match words l with
  | [wave, _, _, ref] => do
    let w ← toFloat pf wave
    let r ← toFloat pf ref
    .ok (w, r / 100)
  | _ => .error .valueError

/-- `SvcAsciiFileFactory.from_sig_file` (svc_spectral_factory.py:10-40). -/
def svc (pf : Str → Option K) (file : Str) : Py (List K × List K) :=
  let content := readlines (decodeText file)
  pairs (svcLine pf) (content.drop (dataIndex content))

/-- One line of an ENVI plot file (envi_ascii_plot_file_factory.py:21-26). -/
def enviLine (pf : Str → Option K) (ls : Str) (l : Str) : Py (K × K) :=
  match words (List.intercalate [' '] (words (removeNewlines ls l))) with
  | [w, r] => do
    let w ← toFloat pf w
    let r ← toFloat pf r
    .ok (w, r)
  | _ => .error .valueError

/-- `EnviAsciiPlotFileFactory.from_ascii_file` (envi_ascii_plot_file_factory.py:11-36): three header lines. -/
def enviPlot (pf : Str → Option K) (ls file : Str) : Py (List K × List K) :=
  pairs (enviLine pf ls) ((readlines (decodeText file)).drop 3)

/-- One row of a delimited file, as `csv.reader` gives it for a line without quotes; an empty line gives no fields.
Used for `csvLine`, csv_spectral_factory.py:28-32. -/
def csvRow (delim : Char) (l : Str) : List Str :=
  let l := l.filter (fun c => c ≠ '\n')
  if l = [] then [] else splitOn delim l

/-- `row[i]`. Used for `csvLine`, csv_spectral_factory.py:28-32. -/
def field (row : List Str) (i : Int) : Py Str := do
  let k ← pyIdx row.length i
  match row[k]? with
  | some s => .ok s
  | none => .error .indexError

/-- One row of the csv reader's loop (csv_spectral_factory.py:28-32). -/
def csvLine (pf : Str → Option K) (delim : Char) (wi ri : Int) (l : Str) : Py (K × K) := do
  let w ← field (csvRow delim l) wi
  let r ← field (csvRow delim l) ri
  let w ← toFloat pf w
  let r ← toFloat pf r
  .ok (w, r)

/-- `CsvAsciiFileFactory.from_csv_file` (csv_spectral_factory.py:13-43): skipping more header lines than there are lines
raises StopIteration.  Files without quoted fields. -/
def csvSpectrum (pf : Str → Option K) (delim : Char) (nheader : Nat) (wi ri : Int) (file : Str) : Py (List K × List K) :=
  let content := readlines (decodeText file)
  if content.length < nheader then .error .stopIteration
  else pairs (csvLine pf delim wi ri) (content.drop nheader)

/-- `[float(x.strip()) for x in content[1:]]` (usgs_ascii_spectral_factory.py:24-26, 62-65, 71-74). -/
def usgsColumn (pf : Str → Option K) (file : Str) : Py (List K) :=
  (((readlines (decodeText file)).map strip).drop 1).mapM (toFloat pf)

/-- `UsgsAsciiSpectralFactory.from_ascii_file` (usgs_ascii_spectral_factory.py:16-36) on the three files' text, when the
wavelength and resolution files are found. -/
def usgs (pf : Str → Option K) (wavelengthFile fwhmFile file : Str) : Py (List K × List K × List K) := do
  let w ← usgsColumn pf wavelengthFile
  let f ← usgsColumn pf fwhmFile
  let r ← usgsColumn pf file
  .ok (w, f, r)

/-- The first `.txt` file whose lower-case name contains one of two texts (usgs_ascii_spectral_factory.py:38-57); `none` is
the None returned by falling out of the loop. -/
def findTxt (names : List Str) (a b : Str) : Option Str :=
  names.find? (fun n => contains a (lower n) || contains b (lower n))

/-- `open(name)` of a file of the directory (usgs_ascii_spectral_factory.py:62, 71): TypeError for None. -/
def openTxt (dir : List (Str × Str)) : Option Str → Py Str
  | none => .error .typeError
  | some n => match dir.find? (fun e => e.1 = n) with
    | some e => .ok e.2
    | none => .error .fileNotFound

/-- `UsgsAsciiSpectralFactory.from_ascii_file` (usgs_ascii_spectral_factory.py:16-36) with the search for the wavelength and resolution files:
`dir` are the names and texts of the `.txt` files of the grandparent directory in the order `glob` lists them, `file` the text of the
spectrum. -/
def usgsFromDir (pf : Str → Option K) (dir : List (Str × Str)) (file : Str) : Py (List K × List K × List K) := do
  let wf ← openTxt dir (findTxt (dir.map Prod.fst) "wavelength".toList "waves".toList)
  let w ← usgsColumn pf wf
  let ff ← openTxt dir (findTxt (dir.map Prod.fst) "resolution".toList "bandpass".toList)
  let f ← usgsColumn pf ff
  let r ← usgsColumn pf file
  .ok (w, f, r)

end

end Verif.Readers
