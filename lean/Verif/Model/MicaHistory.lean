import Verif.Model.Micasense

/-! Several images made by `MicasenseImageFactory.from_numpy_and_pix4d`
(`/repo/resippy/image_objects/earth_overhead/micasense/micasense_image_factory.py:97-144`) one after another on one disk; a call that raises leaves behind what it
had written so far. -/

namespace Verif.Micasense
open Verif Envi TextUtils Readers ImageUtils

variable {K : Type}

/-- The loop over the bands (micasense_image_factory.py:131-139) with the disk kept when it raises: `todo` bands left from band `b`.  The name is looked up first, then
PIL makes an image of the band, then the file is written. -/
def writeBandsIO (dir : Str) (names : Option (List Str)) (fresh : Nat → Str) (img : A3 K) :
    Nat → Nat → Dict (A2 K) → List Str → Dict (A2 K) × Py (List Str)
  | 0, _, fs, out => (fs, .ok out)
  | todo + 1, b, fs, out =>
    match bandFile dir names fresh b with
    | .error e => (fs, .error e)
    | .ok fn =>
      match savedBand (⟨img.ny, img.nx, fun y x => img.px y x b⟩ : A2 K) with
      | .error e => (fs, .error e)
      | .ok a => writeBandsIO dir names fresh img todo (b + 1) (setKey fs fn a) (out ++ [fn])

/-- The arguments of one call of `from_numpy_and_pix4d` (micasense_image_factory.py:97-102); `fresh` are the uuid names made during the call. -/
structure Request (K : Type) where
  dir : Str
  names : Option (List Str)
  fresh : Nat → Str
  img : A3 K

/-- One call (micasense_image_factory.py:97-144): the disk afterwards, and the image's band files or the error. -/
def Request.run (r : Request K) (fs : Dict (A2 K)) : Dict (A2 K) × Py (List Str) :=
  writeBandsIO r.dir r.names r.fresh r.img r.img.nb 0 fs []

/-- Calls made one after another, each error caught by the caller (micasense_image_factory.py:97-144): the disk at the end and the answers. -/
def runRequests : List (Request K) → Dict (A2 K) → Dict (A2 K) × List (Py (List Str))
  | [], fs => (fs, [])
  | r :: rs, fs => ((runRequests rs (r.run fs).1).1, (r.run fs).2 :: (runRequests rs (r.run fs).1).2)

end Verif.Micasense
