import Verif.Model.Nav
import Verif.Model.Images
import Verif.Model.Readers

/-! Model of `MicasenseImage.get_gps_timestamp_and_center`
(`/repo/resippy/image_objects/earth_overhead/micasense/micasense_image.py:29-60`).
The calendar is Python's `datetime` (proleptic Gregorian), written as in CPython's `_pydatetime.py`. -/

namespace Verif.Exif
open Verif Verif.Images Verif.TextUtils

/-- A date and time of day. Used for `timestampOf`, micasense_image.py:44. -/
structure Civil where
  year : Nat
  month : Nat
  day : Nat
  hour : Nat
  minute : Nat
  second : Nat
deriving DecidableEq, Repr

/-- Leap years of the Gregorian calendar. Used for `timestampOf`, micasense_image.py:44. -/
def isLeap (y : Nat) : Bool := decide (y % 4 = 0 ∧ (y % 100 ≠ 0 ∨ y % 400 = 0))

/-- Days of a month. Used for `timestampOf`, micasense_image.py:44. -/
def monthDays (y m : Nat) : Nat :=
  if m = 2 then (if isLeap y then 29 else 28)
  else if m = 4 ∨ m = 6 ∨ m = 9 ∨ m = 11 then 30 else 31

/-- Days of the year before a month. Used for `timestampOf`, micasense_image.py:44. -/
def daysBeforeMonth (y : Nat) : Nat → Nat
  | 0 => 0
  | 1 => 0
  | m + 2 => daysBeforeMonth y (m + 1) + monthDays y (m + 1)

/-- Days before a year. Used for `timestampOf`, micasense_image.py:44. -/
def daysBeforeYear (y : Nat) : Nat := (y - 1) * 365 + (y - 1) / 4 - (y - 1) / 100 + (y - 1) / 400

/-- `datetime(year, month, day, hour, minute, second)` accepts the fields. Used for `timestampOf`, micasense_image.py:44. -/
def Civil.valid (c : Civil) : Bool :=
  decide (1 ≤ c.year ∧ c.year ≤ 9999 ∧ 1 ≤ c.month ∧ c.month ≤ 12 ∧ 1 ≤ c.day ∧ c.day ≤ monthDays c.year c.month ∧ c.hour ≤ 23 ∧ c.minute ≤ 59 ∧
    c.second ≤ 59)

/-- Seconds of the date since 1970-01-01 (whose ordinal is 719163). Used for `timestampOf`, micasense_image.py:44. -/
def Civil.seconds (c : Civil) : Int :=
  (((daysBeforeYear c.year + daysBeforeMonth c.year c.month + c.day : Nat) : Int) - 719163) * 86400 + c.hour * 3600 + c.minute * 60 + c.second

/-- `datetime(..., tzinfo=timezone.utc).timestamp()` (micasense_image.py:44). -/
def timestampOf (c : Civil) : Py Int := if c.valid then .ok c.seconds else .error .valueError

/-- `int(s[a:b])` (micasense_image.py:37-42): a negative number (a sign) is refused by `datetime`, here at once. -/
def slice (s : Str) (a b : Nat) : Py Nat := do
  let n ← Readers.toIntPy ((s.drop a).take (b - a))
  if n < 0 then .error .valueError else .ok n.toNat

/-- The time of the tag 'EXIF DateTimeOriginal' (micasense_image.py:36-44). -/
def exifTime (s : Str) : Py Int := do
  let year ← slice s 0 4
  let month ← slice s 5 7
  let day ← slice s 8 10
  let hour ← slice s 11 13
  let minute ← slice s 14 16
  let second ← slice s 17 19
  timestampOf ⟨year, month, day, hour, minute, second⟩

/-- `float('0.{}'.format(int(tag)))` (micasense_image.py:47-48) for a tag of digits; other tags (signs, blanks) are ValueErrors here. -/
def fraction {K : Type} [Field K] (tag : Str) : Py K := if tag ≠ [] ∧ tag.all isDig then .ok (subSeconds tag) else .error .valueError

/-- The tags read (micasense_image.py:33-58). -/
structure Tags where
  dateTime : Str
  subSec : Str
  lon : Ratio × Ratio × Ratio
  lonRef : Str
  lat : Ratio × Ratio × Ratio
  latRef : Str

/-- `get_gps_timestamp_and_center` (micasense_image.py:29-60) on the tags of the band's file: GPS timestamp, longitude, latitude.  `z` is the local
time zone (see `Nav.naiveStamp`).  A missing tag (KeyError) is not modelled. -/
def gpsTimestampAndCenter {K : Type} [Field K] [LinearOrder K] [IsStrictOrderedRing K] [FloorRing K] (z : K → K) (t : Tags) : Py (K × K × K) := do
  let utc ← exifTime t.dateTime
  let ws ← Nav.gpsWeek z (utc : K)
  let f ← fraction t.subSec
  let lon ← dmsToDd t.lon.1 t.lon.2.1 t.lon.2.2 t.lonRef
  let lat ← dmsToDd t.lat.1 t.lat.2.1 t.lat.2.2 t.latRef
  .ok (ws.2 + f, lon, lat)

end Verif.Exif
