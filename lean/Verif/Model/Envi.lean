import Verif.Model.TextUtils

/-! Model of `/repo/resippy/utils/envi_utils.py` and of the header part of
`/repo/resippy/image_objects/envi/{envi_image,envi_metadata}.py`. -/

namespace Verif.Envi
open Verif TextUtils

/-! ### Data types -/

/-- numpy data types: those of the table, and any other (with its item size): complex128, bool, int8, float16,
byte-swapped types and so on. Used for `table`, envi_utils.py:6-21. -/
inductive DType where
  | u8 | i16 | i32 | f32 | f64 | c64 | u16 | u32 | i64 | u64
  | other (tag : Nat) (size : Nat)
  deriving DecidableEq

/-- `dtype.itemsize`. Used for `DType`, envi_utils.py:6-21. -/
def DType.size : DType → Nat
  | .u8 => 1
  | .i16 => 2
  | .i32 => 4
  | .f32 => 4
  | .f64 => 8
  | .c64 => 8
  | .u16 => 2
  | .u32 => 4
  | .i64 => 8
  | .u64 => 8
  | .other _ n => n

/-- `ENVI_DTYPES_TO_NUMPY` (envi_utils.py:6-21), in order; the keys, decimal strings, are kept as ints. -/
def table : List (Int × Option DType) :=
  [(1, some .u8), (2, some .i16), (3, some .i32), (4, some .f32), (5, some .f64), (6, none), (7, none), (8, none),
   (9, some .c64), (10, none), (11, none), (12, some .u16), (13, some .u32), (14, some .i64), (15, some .u64)]

/-- `envi_dtype_to_numpy_dtype` (envi_utils.py:24-26): KeyError for a code not in the table, None for some. -/
def toNumpy (code : Int) : Py (Option DType) :=
  match table.find? (fun p => p.1 = code) with
  | none => .error .keyError
  | some p => .ok p.2

/-- `numpy_dtype_to_envi_dtype` (envi_utils.py:29-33): the first key with this value, None if there is none.
(Old numpy versions also consider None equal to float64, which comes first in the table anyway.) -/
def toEnvi (d : DType) : Option Int := (table.find? (fun p => p.2 = some d)).map Prod.fst

/-! ### Headers -/

/-- `s.find(sub)`: the index of the first occurrence, or -1.
Used for `isEqualsEntry`, envi_utils.py:94-103. -/
def findStr (sub : Str) : Str → Int
  | [] => if sub = [] then 0 else -1
  | c :: s => if sub.isPrefixOf (c :: s) then 0 else if findStr sub s = -1 then -1 else findStr sub s + 1

/-- ASCII whitespace, as stripped by `str.strip`. Used for `lstrip`, envi_utils.py:122-145. -/
def isWs (c : Char) : Bool :=
  c = ' ' || c = '\t' || c = '\n' || c = '\r' || c = '\x0b' || c = '\x0c' ||
  c = '\x1c' || c = '\x1d' || c = '\x1e' || c = '\x1f'

/-- `str.lstrip(s)`. Used for `step`, envi_utils.py:122-145. -/
def lstrip (s : Str) : Str := s.dropWhile isWs

/-- `str.rstrip(s)`. Used for `step`, envi_utils.py:122-145. -/
def rstrip (s : Str) : Str := (s.reverse.dropWhile isWs).reverse

/-- `str.strip(s)`. Used for `step`, envi_utils.py:122-145. -/
def strip (s : Str) : Str := lstrip (rstrip s)

/-- `s[0:i]` for `i ≥ -1`. Used for `step`, envi_utils.py:122-145. -/
def upTo (s : Str) (i : Int) : Str := if i < 0 then s.dropLast else s.take i.toNat

/-- `s[i + 1:]` for `i ≥ -1`. Used for `step`, envi_utils.py:122-145. -/
def after (s : Str) (i : Int) : Str := s.drop (i + 1).toNat

/-- `key, val = s.split('=', 1)`: ValueError when there is no `=`.
Used for `step`, envi_utils.py:122-145. -/
def splitFirst (s : Str) : Py (Str × Str) :=
  if '=' ∈ s then .ok (s.takeWhile (fun c => c ≠ '='), (s.dropWhile (fun c => c ≠ '=')).drop 1) else .error .valueError

/-- `key, val = s.split('=')`: ValueError unless there is exactly one `=`.
Used for `step`, envi_utils.py:122-145. -/
def splitOnly (s : Str) : Py (Str × Str) :=
  if s.count '=' = 1 then splitFirst s else .error .valueError

/-- `is_equals_entry` (envi_utils.py:94-103); falling through returns None, which is false. -/
def isEqualsEntry (ls t : Str) : Bool :=
  let bracket := findStr ['{'] t
  let equals := findStr ['='] t
  let newline := findStr ls t
  if equals = -1 then false
  else if bracket < newline ∧ bracket ≠ -1 then false
  else if equals < newline then true
  else false

/-- `is_bracket_entry` (envi_utils.py:105-113). -/
def isBracketEntry (ls t : Str) : Bool :=
  let bracket := findStr ['{'] t
  let newline := findStr ls t
  if bracket = -1 then false
  else if bracket < newline then true
  else false

/-- `entry_has_newline` (envi_utils.py:115-118). -/
def hasNewline (ls t : Str) : Bool := findStr ls t ≠ -1

/-- One turn of the loop (envi_utils.py:122-145): the remaining text, the key and the value. -/
def step (ls t : Str) : Py (Str × Str × Str) :=
  if isBracketEntry ls t then
    let r := findStr ['}'] t
    match splitFirst (upTo t r) with
    | .error e => .error e
    | .ok (k, v) => .ok (after t r, lstrip (rstrip k), strip v)
  else if isEqualsEntry ls t then
    let n := findStr ls t
    match splitOnly (upTo t n) with
    | .error e => .error e
    | .ok (k, v) => .ok (after t n, lstrip (rstrip k), strip v)
  else if hasNewline ls t then
    let n := findStr ls t
    .ok (after t n, lstrip (rstrip []), strip [])
  else .ok (t.drop 1, lstrip (rstrip []), strip [])

/-- A Python dict with string keys, in insertion order. Used for `turns`, envi_utils.py:120-146. -/
abbrev Dict (V : Type) := List (Str × V)

/-- `d[k] = v`: replaces the value of an existing key in place, otherwise appends.
Used for `turns`, envi_utils.py:120-146. -/
def setKey {V : Type} (d : Dict V) (k : Str) (v : V) : Dict V :=
  if d.any (fun p => p.1 = k) then d.map (fun p => if p.1 = k then (k, v) else p) else d ++ [(k, v)]

/-- `d[k]`, as an option. See envi_utils.py:162-170. -/
def lookup {V : Type} (d : Dict V) (k : Str) : Option V := (d.find? (fun p => p.1 = k)).map Prod.snd

/-- The state of the loop after `n` turns (envi_utils.py:120-146); the loop stops when the text is empty
(`is not ""` compares with the one empty string CPython has). -/
def turns (ls : Str) : Nat → Str × Dict Str → Py (Str × Dict Str)
  | 0, s => .ok s
  | n + 1, (t, d) =>
    if t = [] then .ok (t, d)
    else match step ls t with
      | .error e => .error e
      | .ok (t', k, v) => turns ls n (t', setKey d k v)

/-- The result of the loop (envi_utils.py:120-146): `loops` when it never ends, which is the case when a turn does
not shorten the text (shown equivalent to running `turns` forever in `Lemmas/Envi.lean`). -/
def parseLoop (ls t : Str) (d : Dict Str) : Py (Dict Str) :=
  if t = [] then .ok d
  else match step ls t with
    | .error e => .error e
    | .ok (t', k, v) => if _h : t'.length < t.length then parseLoop ls t' (setKey d k v) else .error .loops
termination_by t.length

/-- A header value after the conversions of envi_utils.py:162-170: text, int or array of floats. -/
inductive HVal (F : Type) where
  | str (s : Str)
  | int (n : Int)
  | arr (l : List F)

/-- `s.split(c)`. Used for `bracketToArray`, envi_utils.py:151-156. -/
def splitOn (c : Char) : Str → List Str
  | [] => [[]]
  | a :: s =>
    if a = c then [] :: splitOn c s
    else match splitOn c s with
      | [] => [[a]]
      | p :: ps => (a :: p) :: ps

/-- `int(s)`: optional sign and decimal digits, surrounded by whitespace (underscores between digits are not
modelled). Used for `convert`, envi_utils.py:162-170. -/
def parseInt (s : Str) : Option Int :=
  let s := strip s
  let nat (s : Str) : Option Nat :=
    if s ≠ [] ∧ s.all isDig then some (s.foldl (fun acc c => acc * 10 + (c.toNat - 48)) 0) else none
  match s with
  | '-' :: r => (nat r).map (fun n => -(n : Int))
  | '+' :: r => (nat r).map (fun n => (n : Int))
  | r => (nat r).map (fun n => (n : Int))

/-- `bracket_ndarr_entries` (envi_utils.py:158). -/
def arrayKeys : List Str := ["fwhm".toList, "wavelength".toList]

/-- `equals_int_entries` (envi_utils.py:159-160). -/
def intKeys : List Str :=
  ["samples".toList, "lines".toList, "bands".toList, "header offset".toList, "data type".toList, "byte order".toList,
   "x start".toList, "y start".toList]

/-- `bracket_entry_to_ndarray` (envi_utils.py:151-156); `pf` is `float(s)`, none when it raises ValueError. -/
def bracketToArray {F : Type} (pf : Str → Option F) (ls s : Str) : Py (List F) :=
  let s := removeChar '}' (removeChar '{' (removeChar ' ' (replaceStr ls [] s)))
  (splitOn ',' s).mapM (fun x => match pf x with
    | some v => .ok v
    | none => .error .valueError)

/-- One entry of the conversion loop (envi_utils.py:162-170).  No key is in both lists. -/
def convert {F : Type} (pf : Str → Option F) (ls : Str) (p : Str × Str) : Py (Str × HVal F) :=
  if lower p.1 ∈ arrayKeys then
    match bracketToArray pf ls p.2 with
    | .error e => .error e
    | .ok l => .ok (p.1, .arr l)
  else if lower p.1 ∈ intKeys then
    match parseInt (removeChar ' ' p.2) with
    | none => .error .valueError
    | some n => .ok (p.1, .int n)
  else .ok (p.1, .str p.2)

/-- `read_envi_header` (envi_utils.py:36-171) on a file's text (before newline translation).  The list of valid
entries (envi_utils.py:38-85) is never used. -/
def readHeaderText {F : Type} (pf : Str → Option F) (ls file : Str) : Py (Dict (HVal F)) :=
  match parseLoop ls (cleanupNewlines ls (decodeText file)) [] with
  | .error e => .error e
  | .ok d => (d.filter (fun p => p.1 ≠ [])).mapM (convert pf ls)

/-- `write_envi_header` (envi_utils.py:175-182): the text written, before newline translation; the values as
`str(val)`. -/
def headerText (d : Dict Str) : Str :=
  "ENVI".toList ++ ['\n'] ++ d.flatMap (fun p => p.1 ++ " = ".toList ++ p.2 ++ ['\n'])

/-! ### Images -/

/-- An image cube: data type and, for each line, sample and band, the bytes of the value.
Used for `rawData`, envi_utils.py:193-201. -/
structure Cube where
  dtype : DType
  arr : A3 (List Nat)

/-- Files by path; contents as bytes. Used for `writeImage`, envi_utils.py:186-212. -/
abbrev FS := Str → Option (List Nat)

/-- Contents of one file replaced. Used for `writeImage`, envi_utils.py:186-212. -/
def FS.put (fs : FS) (path : Str) (b : List Nat) : FS := fun p => if p = path then some b else fs p

/-- Text as bytes (ASCII). Used for `headerBytes`, envi_utils.py:186-212. -/
def toBytes (s : Str) : List Nat := s.map Char.toNat

/-- Bytes as text (ASCII). Used for `readHeader`, envi_utils.py:215-234. -/
def toText (b : List Nat) : Str := b.map Char.ofNat

/-- The turns of the two nested loops over lines and bands (envi_utils.py:197-198, 254-255). -/
def bilPairs (ny nb : Nat) : List (Nat × Nat) :=
  (List.range ny).flatMap (fun l => (List.range nb).map (fun b => (l, b)))

/-- `raw[i:i+len(chunk)] = chunk`. Used for `rawData`, envi_utils.py:193-201. -/
def assignSlice {α : Type} (raw : List α) (i : Nat) (chunk : List α) : List α :=
  raw.take i ++ chunk ++ raw.drop (i + chunk.length)

/-- `raw_data` (envi_utils.py:193-201). -/
def rawData (c : Cube) (interleave : Str) : List (List Nat) :=
  let zeros := List.replicate (c.arr.ny * c.arr.nx * c.arr.nb) (List.replicate c.dtype.size 0)
  if interleave = "bil".toList then
    ((bilPairs c.arr.ny c.arr.nb).foldl (fun (s : List (List Nat) × Nat) p =>
      let chunk := (List.range c.arr.nx).map (fun x => c.arr.px p.1 x p.2)
      (assignSlice s.1 s.2 chunk, s.2 + c.arr.nx)) (zeros, 0)).1
  else zeros

/-- `str(n)` of an int. Used for `headerDict`, envi_utils.py:206-211. -/
def intStr (n : Int) : Str := if n < 0 then '-' :: natStr n.natAbs else natStr n.natAbs

/-- The header written for a cube (envi_utils.py:206-211), as `str(val)`. -/
def headerDict (c : Cube) (code : Int) (interleave : Str) : Dict Str :=
  [("samples".toList, natStr c.arr.nx), ("lines".toList, natStr c.arr.ny), ("bands".toList, natStr c.arr.nb),
   ("data type".toList, intStr code), ("interleave".toList, interleave)]

/-- The bytes of the data file (envi_utils.py:202). -/
def dataBytes (c : Cube) (interleave : Str) : List Nat := (rawData c interleave).flatten

/-- The bytes of the header file. Used for `writeImage`, envi_utils.py:186-212. -/
def headerBytes (ls : Str) (c : Cube) (code : Int) (interleave : Str) : List Nat :=
  toBytes (encodeText ls (headerText (headerDict c code interleave)))

/-- The header's name when none is given (envi_utils.py:191-192). -/
def headerName (fname : Str) (hdr : Option Str) : Str := hdr.getD (fname ++ ".hdr".toList)

/-- `write_envi_image` (envi_utils.py:186-212): the files afterwards, and how the call ended.  A data type not in the
table is a TypeError (`int(None)`), after the data file has been written. -/
def writeImage (ls : Str) (fs : FS) (c : Cube) (fname : Str) (hdr : Option Str) (interleave : Str) : FS × Py Unit :=
  let fs1 := fs.put fname (dataBytes c interleave)
  match toEnvi c.dtype with
  | none => (fs1, .error .typeError)
  | some code => (fs1.put (headerName fname hdr) (headerBytes ls c code interleave), .ok ())

/-- The guesses for the header's name (envi_utils.py:218-225): the last one that exists.  None when neither exists. -/
def guessHeader (fs : FS) (image : Str) : Option Str :=
  [image.take (image.length - 4) ++ ".hdr".toList, image ++ ".hdr".toList].foldl
    (fun acc g => if (fs g).isSome then some g else acc) none

/-- `open(name, 'r').read()` for the header; `open(None)` is a TypeError.
Used for `readImage`, envi_utils.py:215-234. -/
def readHeader {F : Type} (pf : Str → Option F) (ls : Str) (fs : FS) (name : Option Str) : Py (Dict (HVal F)) :=
  match name with
  | none => .error .typeError
  | some h =>
    match fs h with
    | none => .error .fileNotFound
    | some b => readHeaderText pf ls (toText b)

/-- `header[key]` of an int entry; the converted entries are ints.
Used for `readImage`, envi_utils.py:215-234. -/
def getInt {F : Type} (d : Dict (HVal F)) (k : Str) : Py Int :=
  match lookup d k with
  | none => .error .keyError
  | some (.int n) => .ok n
  | some (.str s) => match parseInt s with
    | some n => .ok n
    | none => .error .valueError
  | some (.arr _) => .error .typeError

/-- `np.fromfile(path, dtype)` (envi_utils.py:237-242): whole items, an incomplete last one is dropped; a data type
of None is numpy's default, float64. -/
def fromFile (fs : FS) (path : Str) (d : Option DType) : Py (DType × List (List Nat)) :=
  match fs path with
  | none => .error .fileNotFound
  | some b =>
    let dt := d.getD .f64
    .ok (dt, (List.range (b.length / dt.size)).map (fun i => (b.drop (i * dt.size)).take dt.size))

/-- `image_cube[l, :, b] = chunk` (envi_utils.py:257): as many values as samples, or one for all of them. -/
def setLine (nx : Nat) (px : Nat → Nat → Nat → List Nat) (l b : Nat) (chunk : List (List Nat)) : Py (Nat → Nat → Nat → List Nat) :=
  if chunk.length = nx then .ok (fun y x z => if y = l ∧ z = b then chunk.getD x [] else px y x z)
  else if chunk.length = 1 then .ok (fun y x z => if y = l ∧ z = b then chunk.getD 0 [] else px y x z)
  else .error .valueError

/-- One turn of the loops of `construct_image_cube_from_raw_data` (envi_utils.py:256-258): the pixels and the
counter. -/
def readTurn (nx : Nat) (raw : List (List Nat)) (s : (Nat → Nat → Nat → List Nat) × Nat) (p : Nat × Nat) :
    Py ((Nat → Nat → Nat → List Nat) × Nat) :=
  match setLine nx s.1 p.1 p.2 ((raw.drop s.2).take nx) with
  | .error e => .error e
  | .ok px => .ok (px, s.2 + nx)

/-- `construct_image_cube_from_raw_data` (envi_utils.py:245-259). -/
def construct (dt : DType) (raw : List (List Nat)) (nx ny nb : Int) (interleave : Str) : Py Cube :=
  if nx < 0 ∨ ny < 0 ∨ nb < 0 then .error .valueError
  else
    let zero : Nat → Nat → Nat → List Nat := fun _ _ _ => List.replicate dt.size 0
    if interleave = "bil".toList then
      match (bilPairs ny.toNat nb.toNat).foldlM (readTurn nx.toNat raw) (zero, 0) with
      | .error e => .error e
      | .ok s => .ok ⟨dt, ny.toNat, nx.toNat, nb.toNat, s.1⟩
    else .ok ⟨dt, ny.toNat, nx.toNat, nb.toNat, zero⟩

/-- The `interleave` entry; never an array or an int.
Used for `readImage`, envi_utils.py:215-234. -/
def getStr {F : Type} (d : Dict (HVal F)) (k : Str) : Py Str :=
  match lookup d k with
  | none => .error .keyError
  | some (.str s) => .ok s
  | some (.int n) => .ok (intStr n)
  | some (.arr _) => .error .typeError

/-- The header file used: the given one, or a guess (envi_utils.py:218-225). -/
def headerChoice (fs : FS) (image : Str) : Option Str → Option Str
  | some h => some h
  | none => guessHeader fs image

/-- `read_envi_image` (envi_utils.py:215-234). -/
def readImage {F : Type} (pf : Str → Option F) (ls : Str) (fs : FS) (image : Str) (hdr : Option Str) : Py Cube := do
  let d ← readHeader pf ls fs (headerChoice fs image hdr)
  let nx ← getInt d "samples".toList
  let ny ← getInt d "lines".toList
  let nb ← getInt d "bands".toList
  let code ← getInt d "data type".toList
  let interleave ← getStr d "interleave".toList
  let dt ← toNumpy code
  let raw ← fromFile fs image dt
  construct raw.1 raw.2 nx ny nb interleave

/-- `EnviImage.init_from_file` (envi_image.py:17-36) and `EnviMetadata.init_from_header` (envi_metadata.py:11-19): the
header file chosen (guesses in the other order, the last one that exists) and (samples, lines, bands). -/
def guessHeaderImage (fs : FS) (image : Str) : Option Str :=
  [image ++ ".hdr".toList, image.take (image.length - 4) ++ ".hdr".toList].foldl
    (fun acc g => if (fs g).isSome then some g else acc) none

/-- The dimensions `EnviImage.init_from_file` reports through its metadata.
See envi_image.py:17-35. -/
def imageMetadata {F : Type} (pf : Str → Option F) (ls : Str) (fs : FS) (image : Str) (hdr : Option Str) : Py (Int × Int × Int) := do
  let name := match hdr with
    | some h => some h
    | none => guessHeaderImage fs image
  let d ← readHeader pf ls fs name
  let nx ← getInt d "samples".toList
  let ny ← getInt d "lines".toList
  let nb ← getInt d "bands".toList
  .ok (nx, ny, nb)

end Verif.Envi
