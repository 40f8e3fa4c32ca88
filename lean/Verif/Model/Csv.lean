import Verif.Model.Readers

/-! Model of `/repo/resippy/utils/csv_utils.py`. -/

namespace Verif.Readers
open Verif Verif.TextUtils Verif.Envi

/-- `data[:, i]` for `data = np.asarray(rows)` (csv_utils.py:16, 19-20).  Rows of one length give a two-dimensional array;
no rows, or rows of several lengths, give a one-dimensional one (numpy before 1.24; later versions raise ValueError for the
latter), whose indexing with two indices is an IndexError, as is a column beyond the last. -/
def dataColumn (rows : List (List Str)) (i : Nat) : Py (List Str) :=
  match rows with
  | [] => .error .indexError
  | r :: _ =>
    if rows.all (fun row => row.length = r.length) then
      if i < r.length then .ok (rows.map (fun row => row.getD i [])) else .error .indexError
    else .error .indexError

/-- The loop over the header names (csv_utils.py:18-20), from column `i` on. -/
def headerLoop (rows : List (List Str)) : List Str → Nat → Dict (List Str) → Py (Dict (List Str))
  | [], _, d => .ok d
  | name :: names, i, d => do
    let c ← dataColumn rows i
    headerLoop rows names (i + 1) (setKey d name c)

/-- `CsvUtils.single_line_header_csv_to_dict` (csv_utils.py:7-21) on the file's text, for files without quote characters;
`next` on an empty file raises StopIteration. -/
def csvDict (delim : Char) (file : Str) : Py (Dict (List Str)) :=
  match readlines (decodeText file) with
  | [] => .error .stopIteration
  | h :: rest => headerLoop (rest.map (csvRow delim)) (csvRow delim h) 0 []

end Verif.Readers
