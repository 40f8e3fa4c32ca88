import Verif.Model.Envi

/-! `write_envi_header` of `/repo/resippy/utils/envi_utils.py` for a dictionary of values as `read_envi_header` returns them. -/

namespace Verif.Envi
open Verif TextUtils

variable {F : Type}

/-- `str(val)` (envi_utils.py:181); `sa` is `str` of a numpy array. -/
def strVal (sa : List F → Str) : HVal F → Str
  | .str s => s
  | .int n => intStr n
  | .arr l => sa l

/-- `write_envi_header` (envi_utils.py:175-182) on a dictionary of text, ints and arrays: the text on disk. -/
def writeHeader (sa : List F → Str) (ls : Str) (d : Dict (HVal F)) : Str := encodeText ls (headerText (d.map (fun p => (p.1, strVal sa p.2))))

end Verif.Envi
