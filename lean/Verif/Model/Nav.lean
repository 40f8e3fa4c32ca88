import Verif.Model.ImageUtils
import Verif.Str

/-! Model of `/repo/resippy/photogrammetry/nav/abstract_nav.py`, `applanix_sbet_nav.py`,
`applanix_eo_nav.py` and of `/repo/resippy/utils/time_utils.py`.

The two nav classes contain the same code for the getters; only the column names differ. -/

namespace Verif.Nav
open Verif ImageUtils

section
variable {K : Type} [Field K] [LinearOrder K] [IsStrictOrderedRing K]

/-! ### Getters -/

/-- `_gps_times_in_range` (applanix_sbet_nav.py:45-51, applanix_eo_nav.py:63-69): an empty time column
raises IndexError. -/
def inRange (times : List K) (q : List K) : Py Bool :=
  match times.head?, times.getLast? with
  | some a, some b => .ok (q.all (fun t => decide (a ≤ t)) && q.all (fun t => decide (t ≤ b)))
  | _, _ => .error .indexError

/-- `np.searchsorted(times, t)` (side 'left'): the number of entries smaller than `t` (for the sorted
columns it is documented for). Used for `interpAt`, applanix_sbet_nav.py:60-72, 92-108. -/
def searchLeft (times : List K) (t : K) : Nat := times.countP (fun s => decide (s < t))

/-- Fancy indexing of a column with one (possibly negative) index.
Used for `interpAt`, applanix_sbet_nav.py:60-72, 92-108. -/
def gather (col : List K) (i : Int) : Py K := do
  let k ← pyIdx col.length i
  match col[k]? with
  | some v => .ok v
  | none => .error .indexError

/-- `_linear_interp` (applanix_sbet_nav.py:53-58): `none` is a non-finite result. -/
def linearInterp (x x0 x1 y0 y1 : K) : Option K := fdiv (y0 * (x1 - x) + y1 * (x - x0)) (x1 - x0)

/-- One queried time: `_get_indexes`, `_get_xs`, the two column values and the interpolation
(applanix_sbet_nav.py:60-72, 92-108). -/
def interpAt (times col : List K) (t : K) : Py (Option K) := do
  let right : Int := (searchLeft times t : Int)
  let left : Int := right - 1
  let x0 ← gather times left
  let x1 ← gather times right
  let y0 ← gather col left
  let y1 ← gather col right
  .ok (linearInterp t x0 x1 y0 y1)

/-- The queried times one after the other. Used for `native`, applanix_sbet_nav.py:92-186. -/
def interpAll (times col : List K) : List K → Py (List (Option K))
  | [] => .ok []
  | t :: ts => do
    let v ← interpAt times col t
    let vs ← interpAll times col ts
    .ok (v :: vs)

/-- A native getter such as `_get_alts_native` (applanix_sbet_nav.py:92-186, applanix_eo_nav.py:110-204)
on a vector of times: `None` when a time is out of range. -/
def native (times col : List K) (q : List K) : Py (Option (List (Option K))) := do
  let r ← inRange times q
  if r then do
    let vs ← interpAll times col q
    .ok (some vs)
  else .ok none

/-- Queries: a number, a vector, an image (abstract_nav.py:134-149).  Arrays of three or more dimensions
are not modelled. -/
inductive NavQ (K : Type) where
  | num (t : K)
  | d1 (l : List K)
  | d2 (a : A2 K)

/-- Answers: None or a value in the shape of the query. Used for `get`, abstract_nav.py:72-162. -/
inductive NavAns (K : Type) where
  | none
  | num (v : Option K)
  | d1 (l : List (Option K))
  | d2 (a : A2 (Option K))

/-- A public getter: `_format_input_array`, the native getter, `_format_output_array`
(abstract_nav.py:72-162). -/
def get (times col : List K) : NavQ K → Py (NavAns K)
  | .num t => do
    let r ← native times col [t]
    match r with
    | Option.none => .ok .none
    | some l => match l with
      | v :: _ => .ok (.num v)
      | [] => .error .indexError
  | .d1 l => do
    let r ← native times col l
    match r with
    | Option.none => .ok .none
    | some l => .ok (.d1 l)
  | .d2 a => do
    let r ← native times col (pixels a)
    match r with
    | Option.none => .ok .none
    | some l =>
      if l.length = a.ny * a.nx then .ok (.d2 ⟨a.ny, a.nx, fun j i => l.getD (j * a.nx + i) Option.none⟩)
      else .error .valueError

/-! ### Exterior-orientation file reader -/

/-- The nine columns, in the order they are appended to (applanix_eo_nav.py:22, 29-37): gps_time, easting,
northing, height, omega, phi, kappa, lat, lon. -/
abbrev Cols (K : Type) := Nat → List K

/-- The appends of one line from field `j` on (applanix_eo_nav.py:28-39): `todo` fields left.  `parse` is
`float(..)` (`none`: ValueError); a missing field raises IndexError; both exceptions are swallowed and
leave the appends already made. -/
def appendFields (parse : Str → Option K) (parts : List Str) : Nat → Nat → Cols K → Cols K
  | 0, _, c => c
  | todo + 1, j, c =>
    match (parts[j + 1]?).bind parse with
    | none => c
    | some v => appendFields parse parts todo (j + 1) (fun k => if k = j then c k ++ [v] else c k)

/-- One line of the file, already split into its parts (applanix_eo_nav.py:25-39). -/
def eoLine (parse : Str → Option K) (c : Cols K) (parts : List Str) : Cols K := appendFields parse parts 9 0 c

/-- `load_from_file` (applanix_eo_nav.py:16-52): the columns read from a file given as its lines' parts. -/
def eoLoad (parse : Str → Option K) (lines : List (List Str)) : Cols K := lines.foldl (eoLine parse) (fun _ => [])

/-! ### GPS time -/

/-- `datetime(...).timestamp()` of a naive date: the date is read in the local time zone.  `d` is the date as if it were UTC, in seconds since 1970;
`z d` is what the zone's rules then in force add (positive west of Greenwich; 0 on a machine set to UTC).  Used for `leapTable`, time_utils.py:6-30. -/
def naiveStamp (z : K → K) (d : K) : K := d + z d

/-- The leap-second table (time_utils.py:6-26) as Unix timestamps and TAI-UTC seconds, built when the module is imported, in the time zone `z`. -/
def leapTable (z : K → K) : List (K × K) :=
  [(naiveStamp z 315532800, 19), (naiveStamp z 362793600, 20), (naiveStamp z 394329600, 21), (naiveStamp z 425865600, 22),
   (naiveStamp z 489024000, 23), (naiveStamp z 567993600, 24), (naiveStamp z 631152000, 25), (naiveStamp z 662688000, 26),
   (naiveStamp z 709948800, 27), (naiveStamp z 741484800, 28), (naiveStamp z 773020800, 29), (naiveStamp z 820454400, 30),
   (naiveStamp z 867715200, 31), (naiveStamp z 915148800, 32), (naiveStamp z 1136073600, 33), (naiveStamp z 1230768000, 34),
   (naiveStamp z 1341100800, 35), (naiveStamp z 1435708800, 36), (naiveStamp z 1483228800, 37)]

/-- `_GPS_EPOCH.timestamp()` (time_utils.py:29). -/
def gpsEpoch (z : K → K) : K := naiveStamp z 315964800

/-- `_UNIX_EPOCH.timestamp()` (time_utils.py:30). -/
def unixEpoch (z : K → K) : K := naiveStamp z 0

/-- The loop of the standard library's `bisect_right(a, x, lo, hi)` (CPython's bisect.py), called at time_utils.py:45. -/
def bisectLoop (a : List K) (x : K) (lo hi : Nat) : Py Nat :=
  if h : lo < hi then
    match a[(lo + hi) / 2]? with
    | none => .error .indexError
    | some m => if x < m then bisectLoop a x lo ((lo + hi) / 2) else bisectLoop a x ((lo + hi) / 2 + 1) hi
  else .ok lo
termination_by hi - lo
decreasing_by all_goals omega

/-- `bisect_right(a, x)` (time_utils.py:45). -/
def bisectRight (a : List K) (x : K) : Py Nat := bisectLoop a x 0 a.length

/-- `_get_leapseconds` (time_utils.py:42-46); index -1 wraps to the last entry. -/
def leapSeconds (z : K → K) (t : K) : Py K := do
  let n ← bisectRight ((leapTable z).map (fun e => e.1)) t
  let i ← pyIdx (leapTable z).length ((n : Int) - 1)
  match (leapTable z)[i]? with
  | some e => .ok e.2
  | none => .error .indexError

/-- `_get_gps_leapsecond_offset` (time_utils.py:49-51). -/
def gpsOffset (z : K → K) (t : K) : Py K := do
  let a ← leapSeconds z t
  let b ← leapSeconds z (gpsEpoch z)
  .ok (a - b)

/-- `utc_timestamp_to_gps_timestamp` (time_utils.py:54-57). -/
def utcToGps (z : K → K) (t : K) : Py K := do
  let o ← gpsOffset z t
  .ok (t - (gpsEpoch z - unixEpoch z) + o)

/-- `gps_timestamp_to_utc_timestamp` (time_utils.py:60-63). -/
def gpsToUtc (z : K → K) (g : K) : Py K := do
  let u := g + (gpsEpoch z - unixEpoch z)
  let o ← gpsOffset z u
  .ok (u - o)

/-- `utc_timestamp_to_gps_week_and_seconds` (time_utils.py:66-73): `weeks % 1` is the fractional part,
non-negative also for negative `weeks`. -/
def gpsWeek [FloorRing K] (z : K → K) (t : K) : Py (Int × K) := do
  let g ← utcToGps z t
  let weeks := g / 604800
  .ok (⌊weeks⌋, (weeks - ⌊weeks⌋) * 7 * 86400)

end
end Verif.Nav
