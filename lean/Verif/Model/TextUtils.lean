import Verif.Str

/-! Model of `/repo/resippy/utils/string_utils.py`, `/repo/resippy/utils/file_utils.py` and
`/repo/resippy/utils/numpy_and_array_utils.py`. -/

namespace Verif.TextUtils
open Verif

/-- Python `s.replace(old, new)` for a non-empty `old`: leftmost, non-overlapping.
Used for `cleanupNewlines`, string_utils.py:5-14. -/
def replaceStr (old new : Str) : Str → Str
  | [] => []
  | c :: s =>
    if old.isPrefixOf (c :: s) then new ++ replaceStr old new (s.drop (old.length - 1))
    else c :: replaceStr old new s
termination_by s => s.length
decreasing_by
  · simp; omega
  · simp

/-- `os.linesep` on POSIX. See string_utils.py:5-14. -/
def posixSep : Str := ['\n']

/-- `os.linesep` on Windows. See string_utils.py:5-14. -/
def windowsSep : Str := ['\r', '\n']

/-- `cleanup_newlines` (string_utils.py:5-14); `ls` is `os.linesep`. -/
def cleanupNewlines (ls text : Str) : Str :=
  replaceStr ['\n'] ls (replaceStr ['\r'] ls (replaceStr ['\r', '\n'] ls text))

/-- `remove_newlines` (string_utils.py:17-28). -/
def removeNewlines (ls text : Str) : Str := replaceStr ls [] (cleanupNewlines ls text)

/-! ### Snake case -/

/-- `[A-Z]`. Used for `sub1`, string_utils.py:38. -/
def isUp (c : Char) : Bool := decide ('A' ≤ c ∧ c ≤ 'Z')

/-- `[a-z]`. Used for `sub1`, string_utils.py:38. -/
def isLow (c : Char) : Bool := decide ('a' ≤ c ∧ c ≤ 'z')

/-- `[0-9]`. Used for `sub2`, string_utils.py:39. -/
def isDig (c : Char) : Bool := decide ('0' ≤ c ∧ c ≤ '9')

/-- `sub('(.)([A-Z][a-z]+)', r'\1_\2', text)` (string_utils.py:38): non-overlapping matches from the left,
`.` matching anything but a newline, `[a-z]+` as long as possible. -/
def sub1 : Str → Str
  | c :: u :: rest =>
    if c ≠ '\n' ∧ isUp u ∧ rest.takeWhile isLow ≠ [] then
      c :: '_' :: u :: (rest.takeWhile isLow ++ sub1 (rest.dropWhile isLow))
    else c :: sub1 (u :: rest)
  | s => s
termination_by s => s.length
decreasing_by
  · have := (List.dropWhile_suffix isLow (l := rest)).length_le
    simp; omega
  · simp

/-- `sub('([a-z0-9])([A-Z])', r'\1_\2', s1)` (string_utils.py:39). -/
def sub2 : Str → Str
  | c :: u :: rest =>
    if (isLow c ∨ isDig c) ∧ isUp u then c :: '_' :: u :: sub2 rest
    else c :: sub2 (u :: rest)
  | s => s

/-- `.lower()` on ASCII text (string_utils.py:39). -/
def lower (s : Str) : Str := s.map Char.toLower

/-- `convert_to_snake_case` (string_utils.py:31-39), on ASCII text. -/
def snake (s : Str) : Str := lower (sub2 (sub1 s))

/-! ### Text files -/

/-- The text a file opened with mode 'w' ends up with on disk: every newline written becomes `os.linesep`.
Used for `writeTextList`, file_utils.py:77-83. -/
def encodeText (ls text : Str) : Str := replaceStr ['\n'] ls text

/-- Universal-newline decoding of a file opened with mode 'r'.
Used for `readTextList`, file_utils.py:86-92. -/
def decodeText : Str → Str
  | [] => []
  | '\r' :: '\n' :: s => '\n' :: decodeText s
  | c :: s => if c = '\r' then '\n' :: decodeText s else c :: decodeText s

/-- `f.readlines()`: pieces ending with a newline, and what follows the last one unless empty.
Used for `readTextList`, file_utils.py:86-92. -/
def readlines : Str → List Str
  | [] => []
  | c :: s =>
    if c = '\n' then [c] :: readlines s
    else match readlines s with
      | [] => [[c]]
      | l :: ls => (c :: l) :: ls

/-- `write_text_list_to_file` (file_utils.py:77-83): the file's contents; assigning to the last entry of an
empty list raises IndexError. -/
def writeTextList (ls : Str) (l : List Str) : Py Str :=
  match l.getLast? with
  | none => .error .indexError
  | some e => .ok (encodeText ls ((l.dropLast.map (fun s => s ++ ['\n'])).flatten ++ e))

/-- `read_text_list_from_file` (file_utils.py:86-92). -/
def readTextList (ls : Str) (file : Str) : List Str := (readlines (decodeText file)).map (removeNewlines ls)

/-! ### Directory listings -/

/-- A directory entry: its name (without separators) and whether it is a directory.
Used for `globMatch`, file_utils.py:36. -/
structure Entry where
  name : Str
  isDir : Bool

/-- The `extensions` argument: None, a string, a list of strings, anything else.
Used for `patterns`, file_utils.py:23-32. -/
inductive Exts where
  | none
  | one (s : Str)
  | many (l : List Str)
  | other

/-- `extension.replace(".", "").replace("*", "")` (file_utils.py:26, 28). -/
def sanitize (e : Str) : Str := removeChar '*' (removeChar '.' e)

/-- `glob.glob(directory + os.path.sep + "*." + ext)` (file_utils.py:36): the entries, files and directories
alike, whose name does not start with a dot and matches; names of the directory and extensions without the
wildcards `?` and `[`.  `none` is the pattern `*.*`. -/
def globMatch (ext : Option Str) (e : Entry) : Bool :=
  e.name.head? ≠ some '.' &&
    match ext with
    | Option.none => e.name.contains '.'
    | some x => ('.' :: x).isSuffixOf e.name

/-- The patterns of `get_all_files_in_dir` (file_utils.py:23-32): TypeError for anything but None, a string
or a list. -/
def patterns : Exts → Py (List (Option Str))
  | .none => .ok [Option.none]
  | .one s => .ok [some (sanitize s)]
  | .many l => .ok (l.map (fun s => some (sanitize s)))
  | .other => .error .typeError

/-- `get_all_files_in_dir` (file_utils.py:19-44) on a directory with the given entries: base names. -/
def allFiles (dir : List Entry) (x : Exts) : Py (List Str) := do
  let ps ← patterns x
  .ok (ps.flatMap (fun p => (dir.filter (globMatch p)).map Entry.name))

/-- `get_files_in_dir_that_start_with` (file_utils.py:47-65), as base names; `prefixes` is the list of
prefixes (a single string is wrapped in a list). -/
def filesStartingWith (dir : List Entry) (prefixes : List Str) (x : Exts) : Py (List Str) := do
  let all ← allFiles dir x
  .ok (prefixes.flatMap (fun p => all.filter (fun n => p.isPrefixOf n)))

/-- `get_all_folders_in_dir` (file_utils.py:14-16), as base names. -/
def allFolders (dir : List Entry) : List Str := (dir.filter Entry.isDir).map Entry.name

/-- `get_path_from_subdirs` (file_utils.py:68-74). -/
def pathFromSubdirs (base : Str) (subdirs : List Str) : Str := subdirs.foldl pathJoin base

/-! ### Lists and tuples -/

/-- `np.array(rows).transpose()` as nested lists; values of one type (numpy's conversions between types are not
modelled).  No row gives an empty list, rows of no entry give an empty list.  Rows of different lengths are a ValueError
in numpy 1.24 and later (`strict`); earlier versions make a one-dimensional array of the rows, which transposing leaves as
it is.  Used for `tuplesToLists`, numpy_and_array_utils.py:6-8. -/
def transposeRows {α : Type} (strict : Bool) (rows : List (List α)) : Py (List (List α)) :=
  match rows with
  | [] => .ok []
  | r :: rs =>
    if rs.all (fun s => s.length = r.length) then
      .ok ((List.range r.length).map (fun j => rows.filterMap (fun s => s[j]?)))
    else if strict then .error .valueError
    else .ok rows

/-- `list_of_tuples_to_separate_lists` (numpy_and_array_utils.py:6-8). -/
def tuplesToLists {α : Type} (strict : Bool) (t : List (List α)) : Py (List (List α)) := transposeRows strict t

/-- `separate_lists_to_list_of_tuples` (numpy_and_array_utils.py:11-16). -/
def listsToTuples {α : Type} (strict : Bool) (l : List (List α)) : Py (List (List α)) := transposeRows strict l

/-- `remove_all_entries_from_list` (numpy_and_array_utils.py:19-22). -/
def removeAll {α : Type} [DecidableEq α] (l : List α) (v : α) : List α := l.filter (fun x => x ≠ v)

end Verif.TextUtils
