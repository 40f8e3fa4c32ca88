import Verif.Model.Ortho
import Verif.Model.Rounded

/-! `/repo/resippy/photogrammetry/ortho_tools.py:178-248` in floating-point arithmetic: the ground grid is computed with rounded operations, the elevations and the
projection are those of the (float) elevation model and point calculator, and the nearest source pixel is found by scipy with a rounded addition. -/

set_option linter.unusedSectionVars false

namespace Verif.Ortho
open Verif ImageUtils Geotiff Grids

section
variable {K : Type} [Field K] [LinearOrder K] [IsStrictOrderedRing K]

/-- `scipy.ndimage.map_coordinates(img, [y, x], order=0)` at one point (ortho_tools.py:212, 229) in float arithmetic: the tests against the size of the image are exact, the
index is `floor(c + 0.5)` with a rounded addition. -/
def mapCoord0R [FloorRing K] (r : K → K) (img : A2 K) (y x : K) : K :=
  if y < 0 ∨ (img.ny : K) - 1 < y ∨ x < 0 ∨ (img.nx : K) - 1 < x then 0
  else img.px (⌊r (y + 1 / 2)⌋).toNat (⌊r (x + 1 / 2)⌋).toNat

/-- The image data of `create_ortho_gtiff_image_world_to_sensor` (ortho_tools.py:178-248) in float arithmetic: `ortho` with the rounded ground grid.  `s.project` and `dem` are
the projection and the elevations as computed.  The tests against the margins (lines 238-242) compare floats with small integers and are exact. -/
def orthoR (r : K → K) (resample : A2 K → K → K → K) (s : Source K) (nx ny : Nat) (ext : Box K) (dem : K → K → K)
    (bands : Option (List Nat)) (nodata : K) (mask : Bool) : Py (A3 K) := do
  let (gx, gy) ← Rounded.groundGridR r ext.minX ext.maxX ext.minY ext.maxY nx ny
  let alts : A2 K := ⟨gx.ny, gx.nx, fun j i => dem (gx.px j i) (gy.px j i)⟩
  let bands := bands.getD (List.range s.nBands)
  let images ←
    if s.coregistered then collect (orthoBandShared resample s gx gy alts nx ny nodata) bands
    else collect (orthoBandSeparate resample s gx gy alts nx ny) bands
  let im ← stack2 nx ny images
  if mask then maskImage s.cast im nodata else .ok im

end

end Verif.Ortho
