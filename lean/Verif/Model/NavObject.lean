import Verif.Model.Nav
import Verif.Model.TextUtils
import Verif.Model.Envi

/-! Model of the navigation objects of `/repo/resippy/photogrammetry/nav`: the dictionary of columns, the named
getters and the record getter. -/

namespace Verif.Nav
open Verif ImageUtils Envi

section
variable {K : Type} [Field K] [LinearOrder K] [IsStrictOrderedRing K]

/-- A loaded navigation object: `_nav_data`, `_num_records`, `_record_length` (abstract_nav.py:11-15). -/
structure NavObj (K : Type) where
  data : Dict (List K)
  numRecords : Nat
  recordLength : Nat

/-- `ApplanixSBETNav.load_from_file` (applanix_sbet_nav.py:29-39) on the structured array pdal returns: its field names
and columns.  The number of records is what pdal reports: the length of the columns. -/
def sbetLoad (fields : List (Str × List K)) (n : Nat) : NavObj K :=
  ⟨fields.foldl (fun d f => setKey d (TextUtils.snake f.1) f.2) [], n, fields.length⟩

/-- `ApplanixEONav.load_from_file` (applanix_eo_nav.py:42-55) on the lines' parts. -/
def eoObject (parse : Str → Option K) (lines : List (List Str)) : NavObj K :=
  let c := eoLoad parse lines
  ⟨[("gps_time".toList, c 0), ("easting".toList, c 1), ("northing".toList, c 2), ("height".toList, c 3),
    ("omega".toList, c 4), ("phi".toList, c 5), ("kappa".toList, c 6), ("lat".toList, c 7), ("lon".toList, c 8)],
   (c 0).length, 7⟩

/-- `self._nav_data[key]` (applanix_sbet_nav.py:48, 97): KeyError for an unknown name. -/
def colOf (d : Dict (List K)) (key : Str) : Py (List K) :=
  match lookup d key with
  | some c => .ok c
  | none => .error .keyError

/-- The six getters (abstract_nav.py:82-132). -/
inductive Quantity where
  | worldY | worldX | alt | roll | pitch | heading
deriving DecidableEq

/-- The column each SBET getter reads (applanix_sbet_nav.py:97, 113, 129, 145, 161, 177). -/
def sbetKey : Quantity → Str
  | .worldY => "y".toList
  | .worldX => "x".toList
  | .alt => "z".toList
  | .roll => "roll".toList
  | .pitch => "pitch".toList
  | .heading => "azimuth".toList

/-- The column each EO getter reads (applanix_eo_nav.py:115, 131, 147, 163, 179, 195). -/
def eoKey : Quantity → Str
  | .worldY => "northing".toList
  | .worldX => "easting".toList
  | .alt => "height".toList
  | .roll => "omega".toList
  | .pitch => "phi".toList
  | .heading => "kappa".toList

/-- The times of a query as the native getters receive them (abstract_nav.py:134-149). -/
def flatQuery : NavQ K → List K
  | .num t => [t]
  | .d1 l => l
  | .d2 a => pixels a

/-- A public getter of an object (abstract_nav.py:82-132, applanix_sbet_nav.py:90-186): the column is looked up only when
all times are in range. -/
def getter (o : NavObj K) (key : Str) (q : NavQ K) : Py (NavAns K) := do
  let times ← colOf o.data "gps_time".toList
  let r ← inRange times (flatQuery q)
  if r then do
    let col ← colOf o.data key
    get times col q
  else .ok .none

/-- One record: the interpolated value of every column, by name (applanix_sbet_nav.py:81-83). -/
abbrev Record (K : Type) := Dict (Option K)

/-- The interpolations of all columns (applanix_sbet_nav.py:81-83). -/
def allColumns (times : List K) (q : List K) : Dict (List K) → Py (List (Str × List (Option K)))
  | [] => .ok []
  | (k, c) :: d => do
    let vs ← interpAll times c q
    let rest ← allColumns times q d
    .ok ((k, vs) :: rest)

/-- `_get_nav_records_native` (applanix_sbet_nav.py:74-88, applanix_eo_nav.py:92-106). -/
def recordsNative (o : NavObj K) (q : List K) : Py (Option (List (Record K))) := do
  let times ← colOf o.data "gps_time".toList
  let r ← inRange times q
  if r then do
    let cols ← allColumns times q o.data
    .ok (some ((List.range q.length).map (fun i => cols.map (fun kv => (kv.1, kv.2.getD i none)))))
  else .ok none

/-- Answers of `get_nav_records`, in the shape of the query (abstract_nav.py:72-80, 151-162). -/
inductive RecAns (K : Type) where
  | none
  | num (v : Record K)
  | d1 (l : List (Record K))
  | d2 (a : A2 (Record K))

/-- `get_nav_records` (abstract_nav.py:72-80, 151-162). -/
def getRecords (o : NavObj K) (q : NavQ K) : Py (RecAns K) := do
  let r ← recordsNative o (flatQuery q)
  match r with
  | Option.none => .ok .none
  | some l => match q with
    | .num _ => match l with
      | v :: _ => .ok (.num v)
      | [] => .error .indexError
    | .d1 _ => .ok (.d1 l)
    | .d2 a =>
      if l.length = a.ny * a.nx then .ok (.d2 ⟨a.ny, a.nx, fun j i => l.getD (j * a.nx + i) []⟩)
      else .error .valueError

end
end Verif.Nav
