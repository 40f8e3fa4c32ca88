import Verif.Model.NavObject

/-! Loading navigation files into an object, once by a factory or again and again: `load_from_file` of `/repo/resippy/photogrammetry/nav/applanix_eo_nav.py` and
`applanix_sbet_nav.py`, with what is left when it raises; `/repo/resippy/photogrammetry/nav/nav_factory.py`. -/

namespace Verif.Nav
open Verif Envi

section
variable {K P : Type} [Field K] [LinearOrder K] [IsStrictOrderedRing K]

/-- A navigation object: its four attributes (abstract_nav.py:11-15). -/
structure NavState (K P : Type) where
  data : Option (Dict (List K))
  numRecords : Nat
  recordLength : Nat
  projection : Option P

/-- `AbstractNav.__init__` (abstract_nav.py:11-15, applanix_eo_nav.py:12-14, applanix_sbet_nav.py:12-14). -/
def navInit : NavState K P := ⟨none, 0, 0, none⟩

/-- The projection arguments of `load_from_file` (applanix_eo_nav.py:16-22); `zone` is None or a string. -/
structure ProjArgs where
  proj : Str
  zone : Option Str
  ellps : Str
  datum : Str

/-- The keyword arguments given to `pyproj.Proj` besides `preserve_units=True` (applanix_eo_nav.py:60-63, applanix_sbet_nav.py:41-44): no zone when it is None or empty. -/
def ProjArgs.keywords (a : ProjArgs) : List (Str × Str) :=
  match a.zone with
  | none => [("proj".toList, a.proj), ("ellps".toList, a.ellps), ("datum".toList, a.datum)]
  | some z =>
    if z = [] then [("proj".toList, a.proj), ("ellps".toList, a.ellps), ("datum".toList, a.datum)]
    else [("proj".toList, a.proj), ("zone".toList, z), ("ellps".toList, a.ellps), ("datum".toList, a.datum)]

/-- Last part of both loaders: the projection is assigned unless pyproj refuses the arguments (applanix_eo_nav.py:60-63, applanix_sbet_nav.py:41-44). -/
def setNavProjection (mkProj : List (Str × Str) → Py P) (s : NavState K P) (a : ProjArgs) : NavState K P × Py Unit :=
  match mkProj a.keywords with
  | .ok p => ({ s with projection := some p }, .ok ())
  | .error e => (s, .error e)

/-- `ApplanixEONav.load_from_file` (applanix_eo_nav.py:16-63).  `openFile` gives the white-space separated parts of the file's lines, or the error of
`open` or of decoding. -/
def loadEo (openFile : Str → Py (List (List Str))) (parse : Str → Option K) (mkProj : List (Str × Str) → Py P) (s : NavState K P) (fname : Str) (a : ProjArgs) :
    NavState K P × Py Unit :=
  match openFile fname with
  | .error e => (s, .error e)
  | .ok lines =>
    let o := eoObject parse lines
    setNavProjection mkProj { s with data := some o.data, numRecords := o.numRecords, recordLength := o.recordLength } a

/-- `ApplanixSBETNav.load_from_file` (applanix_sbet_nav.py:16-44).  `pdal` stands for making, validating and executing the pipeline: the number of records
and the first array (fields and columns) if there is one. -/
def loadSbet (pdal : Str → Py (Nat × Option (List (Str × List K)))) (mkProj : List (Str × Str) → Py P) (s : NavState K P) (fname : Str) (a : ProjArgs) :
    NavState K P × Py Unit :=
  match pdal fname with
  | .error e => (s, .error e)
  | .ok (n, none) => ({ s with numRecords := n }, .error .indexError)
  | .ok (n, some fields) =>
    let o := sbetLoad fields n
    setNavProjection mkProj { s with data := some o.data, numRecords := o.numRecords, recordLength := o.recordLength } a

/-- A factory call: a new object is loaded and returned unless loading raises (nav_factory.py:8-27). -/
def navFactory (load : NavState K P → NavState K P × Py Unit) : Py (NavState K P) :=
  match load navInit with
  | (s, .ok _) => .ok s
  | (_, .error e) => .error e

end
end Verif.Nav
