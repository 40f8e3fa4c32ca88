import Verif.Model.Warp
import Verif.Props.Ortho
import Verif.Props.ImageUtils
import Verif.Props.ImageFiles
import Verif.Props.DemObject

/-! C107 (warping geotiffs and converting DEM heights), C108 (resampling with scikit-image and the orthorectifier using it). -/

set_option linter.unusedSectionVars false

namespace Verif.Warp
open Verif ImageUtils Geotiff Grids Ortho Images

/-! ### C108 -/

section
variable {K : Type} [Field K] [LinearOrder K] [IsStrictOrderedRing K] [FloorRing K]

/-- Specification: the names of the interpolations, in the order of the spline degree. -/
def names : List Str :=
  ["nearest".toList, "bilinear".toList, "biquadratic".toList, "bicubic".toList, "biquartic".toList, "biquintic".toList]

theorem splineOrder_ok (name : Str) (k : Nat) (h : names[k]? = some name) : splineOrder name = .ok k := by
  match k, h with
  | 0, h => obtain rfl := Option.some.inj h; decide +kernel
  | 1, h => obtain rfl := Option.some.inj h; decide +kernel
  | 2, h => obtain rfl := Option.some.inj h; decide +kernel
  | 3, h => obtain rfl := Option.some.inj h; decide +kernel
  | 4, h => obtain rfl := Option.some.inj h; decide +kernel
  | 5, h => obtain rfl := Option.some.inj h; decide +kernel
  | n + 6, h => simp [names] at h

theorem splineOrder_error (name : Str) (h : name ∉ names) : splineOrder name = .error .valueError := by
  simp only [names, List.mem_cons, List.not_mem_nil, not_or] at h
  obtain ⟨h0, h1, h2, h3, h4, h5, -⟩ := h
  unfold splineOrder
  rw [if_neg h0, if_neg h1, if_neg h2, if_neg h3, if_neg h4, if_neg h5]

theorem near (v : K) (n : Nat) (h0 : 0 ≤ v) (h1 : v ≤ (n : K) - 1) : ((⌊v + 1 / 2⌋).toNat) < n ∧
    |(((⌊v + 1 / 2⌋).toNat : Nat) : K) - v| ≤ 1 / 2 := by
  have hf : 0 ≤ ⌊v + 1 / 2⌋ := Int.floor_nonneg.mpr (by positivity)
  have hc : (((⌊v + 1 / 2⌋).toNat : Nat) : K) = (⌊v + 1 / 2⌋ : K) := by
    exact_mod_cast congrArg (Int.cast (R := K)) (Int.toNat_of_nonneg hf)
  have l1 := Int.floor_le (v + 1 / 2)
  have l2 := Int.lt_floor_add_one (v + 1 / 2)
  constructor
  · have : (((⌊v + 1 / 2⌋).toNat : Nat) : K) < n := by rw [hc]; linarith
    exact_mod_cast this
  · rw [hc, abs_le]; constructor <;> linarith

/-- Specification: the value of one resampled pixel.  Outside the image it is the no-data value.  Inside, `nearest` gives the pixel whose
centre is nearest; a spline gives the spline's value limited to the range of the image. -/
def IsResampled (spline : Nat → A2 K → K → K → K) (img : A2 K) (nodata : K) (degree : Nat) (p : K × K) (v : K) : Prop :=
  (Outside img.nx img.ny p → v = nodata) ∧
  (¬ Outside img.nx img.ny p → degree = 0 →
    ∃ r c : Nat, r < img.ny ∧ c < img.nx ∧ |(c : K) - p.1| ≤ 1 / 2 ∧ |(r : K) - p.2| ≤ 1 / 2 ∧ v = img.px r c) ∧
  (¬ Outside img.nx img.ny p → degree ≠ 0 →
    ((∃ r c : Nat, r < img.ny ∧ c < img.nx ∧ img.px r c ≤ spline degree img p.2 p.1) ∧
     (∃ r c : Nat, r < img.ny ∧ c < img.nx ∧ spline degree img p.2 p.1 ≤ img.px r c) → v = spline degree img p.2 p.1) ∧
    (v = nodata ∨ ∃ r c r' c' : Nat, r < img.ny ∧ c < img.nx ∧ r' < img.ny ∧ c' < img.nx ∧ img.px r c ≤ v ∧ v ≤ img.px r' c'))

theorem mapCoord_outside (spline : Nat → A2 K → K → K → K) (k : Nat) (img : A2 K) (nodata : K) (p : K × K)
    (h : Outside img.nx img.ny p) : mapCoord spline k img nodata p.2 p.1 = nodata := by
  unfold mapCoord
  rw [if_pos]
  rcases h with h | h | h | h
  · exact Or.inr (Or.inr (Or.inl h))
  · exact Or.inr (Or.inr (Or.inr h))
  · exact Or.inl h
  · exact Or.inr (Or.inl h)

theorem mapCoord_inside (spline : Nat → A2 K → K → K → K) (k : Nat) (img : A2 K) (nodata : K) (p : K × K)
    (h : ¬ Outside img.nx img.ny p) : mapCoord spline k img nodata p.2 p.1 =
      if k = 0 then img.px (⌊p.2 + 1 / 2⌋).toNat (⌊p.1 + 1 / 2⌋).toNat else spline k img p.2 p.1 := by
  unfold mapCoord
  rw [if_neg]
  simp only [Outside, not_or] at h ⊢
  exact ⟨h.2.2.1, h.2.2.2, h.1, h.2.1⟩

theorem clip_id {lo hi v : K} (h1 : lo ≤ v) (h2 : v ≤ hi) : clip lo hi v = v := by
  unfold clip
  rw [max_eq_left h1, min_eq_left h2]

theorem clip_range {lo hi v : K} (h : lo ≤ hi) : lo ≤ clip lo hi v ∧ clip lo hi v ≤ hi := by
  unfold clip
  exact ⟨le_min (le_max_right _ _) h, min_le_right _ _⟩

theorem warpPixel_resampled (spline : Nat → A2 K → K → K → K) (k : Nat) (img : A2 K) (lo hi nodata : K) (p : K × K)
    (hr : k ≠ 0 → lo ≤ hi ∧ (∃ y x, y < img.ny ∧ x < img.nx ∧ img.px y x = lo) ∧ (∃ y x, y < img.ny ∧ x < img.nx ∧ img.px y x = hi) ∧
      ∀ y x, y < img.ny → x < img.nx → lo ≤ img.px y x ∧ img.px y x ≤ hi) :
    IsResampled spline img nodata k p (warpPixel spline k img lo hi nodata p.2 p.1) := by
  refine ⟨?_, ?_, ?_⟩
  · intro h
    unfold warpPixel
    simp only [mapCoord_outside spline k img nodata p h]
    split_ifs with a b
    · rfl
    · exact clip_id b.1 b.2
    · rfl
  · intro h hk
    unfold warpPixel
    simp only [mapCoord_inside spline k img nodata p h, if_pos hk]
    simp only [Outside, not_or, not_lt] at h
    obtain ⟨a1, a2, a3, a4⟩ := h
    obtain ⟨c1, c2⟩ := near p.1 _ a1 a2
    obtain ⟨d1, d2⟩ := near p.2 _ a3 a4
    exact ⟨_, _, d1, c1, c2, d2, rfl⟩
  · intro h hk
    obtain ⟨h0, ⟨y1, x1, b1, b2, b3⟩, ⟨y2, x2, c1, c2, c3⟩, hall⟩ := hr hk
    unfold warpPixel
    simp only [mapCoord_inside spline k img nodata p h, if_neg hk]
    constructor
    · rintro ⟨⟨r, c, e1, e2, e3⟩, ⟨r', c', f1, f2, f3⟩⟩
      have g1 := le_trans (hall r c e1 e2).1 e3
      have g2 := le_trans f3 (hall r' c' f1 f2).2
      split_ifs with a b
      · exact clip_id g1 g2
      · exact b.symm
      · exact clip_id g1 g2
    · split_ifs with a b
      · exact Or.inr ⟨y1, x1, y2, x2, b1, b2, c1, c2, by rw [b3]; exact (clip_range h0).1, by rw [c3]; exact (clip_range h0).2⟩
      · exact Or.inl rfl
      · exact Or.inr ⟨y1, x1, y2, x2, b1, b2, c1, c2, by rw [b3]; exact (clip_range h0).1, by rw [c3]; exact (clip_range h0).2⟩

theorem gridWarp_ok (spline : Nat → A2 K → K → K → K) (img xs ys : A2 K) (hs : xs.ny = ys.ny ∧ xs.nx = ys.nx)
    (hi : 0 < img.ny ∧ 0 < img.nx) (nodata : K) (name : Str) (k : Nat) (hn : names[k]? = some name) :
    ∃ out, gridWarp spline img xs ys nodata name = .ok out ∧ out.ny = ys.ny ∧ out.nx = ys.nx ∧
      ∀ j i, IsResampled spline img nodata k (xs.px j i, ys.px j i) (out.px j i) := by
  unfold gridWarp
  rw [if_pos hs, splineOrder_ok name k hn, ok_bind]
  by_cases hk : k = 0
  · subst hk
    rw [if_pos rfl]
    refine ⟨_, rfl, rfl, rfl, ?_⟩
    intro j i
    exact warpPixel_resampled spline 0 img 0 0 nodata (xs.px j i, ys.px j i) (fun h => absurd rfl h)
  · rw [if_neg hk]
    obtain ⟨mn, mx, e1, e2, e3, e4, e5⟩ := npMinMax hi
    rw [e1, ok_bind, e2, ok_bind]
    refine ⟨_, rfl, rfl, rfl, ?_⟩
    intro j i
    refine warpPixel_resampled spline k img mn mx nodata (xs.px j i, ys.px j i) (fun _ => ⟨?_, e3, e4, e5⟩)
    have := e5 0 0 hi.1 hi.2
    exact le_trans this.1 this.2

/-- C108, `grid_warp_image_band`: for every interpolation name, image, coordinate arrays and no-data value, every pixel of the result is the
resampled value at its coordinates, the no-data value outside the image. -/
theorem C108_grid_warp (spline : Nat → A2 K → K → K → K) (img xs ys : A2 K) (hs : xs.ny = ys.ny ∧ xs.nx = ys.nx)
    (hi : 0 < img.ny ∧ 0 < img.nx) (nodata : K) (name : Str) (k : Nat) (hn : names[k]? = some name) :
    ∃ out, gridWarp spline img xs ys nodata name = .ok out ∧ out.ny = ys.ny ∧ out.nx = ys.nx ∧
      ∀ j i, IsResampled spline img nodata k (xs.px j i, ys.px j i) (out.px j i) :=
  gridWarp_ok spline img xs ys hs hi nodata name k hn

/-- C108: any other interpolation name raises ValueError. -/
theorem C108_unknown_name (spline : Nat → A2 K → K → K → K) (img xs ys : A2 K) (nodata : K) (name : Str) (h : name ∉ names) :
    gridWarp spline img xs ys nodata name = .error .valueError := by
  unfold gridWarp
  split
  · rw [splineOrder_error name h]; rfl
  · rfl

/-- C108, the orthorectifier: the bands either have a projection each and are read from disk, or share that of band 0 and are in memory; in both
cases every pixel of the result is the resampled value, converted to the image's data type, at the position of its ground cell in the
image, and the no-data value outside. -/
theorem C108_ortho_partial (spline : Nat → A2 K → K → K → K) (s : Source K) (img : Nat → A2 K)
    (himg : ∀ b, 0 < (img b).ny ∧ 0 < (img b).nx) (nx ny : Nat) (h1 : 2 ≤ nx) (h2 : 2 ≤ ny) (ext : Box K)
    (hx : ext.minX ≤ ext.maxX) (hy : ext.minY ≤ ext.maxY) (dem : K → K → K) (bands : List Nat) (hne : bands ≠ [])
    (hb : ∀ b ∈ bands, if s.coregistered = true then ∃ cube, s.loaded = some cube ∧ b < cube.nb ∧
      img b = ⟨cube.ny, cube.nx, fun y x => cube.px y x b⟩ else s.disk b = .ok (img b)) (nodata : K)
    (name : Str) (d : Nat) (hn : names[d]? = some name) :
    ∃ out, orthoBackup spline s nx ny ext dem (some bands) nodata name false = .ok out ∧
      out.ny = ny ∧ out.nx = nx ∧ out.nb = bands.length ∧
      ∀ j i k b, j < ny → i < nx → bands[k]? = some b →
        ∃ v, out.px j i k = s.cast v ∧
          IsResampled spline (img b) nodata d (sourcePos s ext dem nx ny (if s.coregistered = true then 0 else b) j i) v := by
  classical
  have : Nonempty (A2 K) := ⟨⟨0, 0, fun _ _ => 0⟩⟩
  have hone : ∀ b ∈ bands, ∃ r, backupBand spline s
      ⟨ny, nx, fun j i => (cellCentre ext.minX ext.maxX ext.minY ext.maxY nx ny j i).1⟩
      ⟨ny, nx, fun j i => (cellCentre ext.minX ext.maxX ext.minY ext.maxY nx ny j i).2⟩
      ⟨ny, nx, fun j i => dem (cellCentre ext.minX ext.maxX ext.minY ext.maxY nx ny j i).1
        (cellCentre ext.minX ext.maxX ext.minY ext.maxY nx ny j i).2⟩ nodata name b = .ok r ∧
      ∀ j i, j < ny → i < nx → ∃ v, r.px j i = s.cast v ∧
          IsResampled spline (img b) nodata d (sourcePos s ext dem nx ny (if s.coregistered = true then 0 else b) j i) v := by
    intro b hbm
    have hb' := hb b hbm
    obtain ⟨r, hr, -, -, hv⟩ := gridWarp_ok spline (img b)
      ⟨ny, nx, fun j i => (sourcePos s ext dem nx ny (if s.coregistered = true then 0 else b) j i).1⟩
      ⟨ny, nx, fun j i => (sourcePos s ext dem nx ny (if s.coregistered = true then 0 else b) j i).2⟩ ⟨rfl, rfl⟩ (himg b) nodata name d hn
    have hget : backupSource s b = .ok (img b) := by
      unfold backupSource
      split_ifs at hb' ⊢ with hco
      · obtain ⟨cube, e1, e2, e3⟩ := hb'
        rw [e1, e3]
        unfold getBand
        simp only []
        rw [if_pos e2]
      · exact hb'
    refine ⟨⟨r.ny, r.nx, fun j i => s.cast (r.px j i)⟩, ?_, ?_⟩
    · unfold backupBand
      simp only []
      rw [hget, ok_bind]
      simp only [sourcePos] at hr
      rw [hr, ok_bind]
    · intro j i _ _
      exact ⟨r.px j i, rfl, hv j i⟩
  choose! g hg hgv using hone
  obtain ⟨out, ho, e1, e2, e3, e4⟩ := stack2_ok nx ny (bands.map g) (by simpa using hne)
  refine ⟨out, ?_, e1, e2, by simpa using e3, ?_⟩
  · unfold orthoBackup
    rw [groundGrid_eq hx hy h1 h2]
    simp only [ok_bind, Option.getD_some]
    rw [collect_ok _ bands g hg, ok_bind, ho]
    rfl
  · intro j i k b hj hi hk
    have hbm : b ∈ bands := List.mem_of_getElem? hk
    rw [e4 j i k (g b) (by simp [hk])]
    exact hgv b hbm j i hj hi

/-- C108 fails for an image whose bands share one projection and which is not loaded: TypeError, although the function has a line that would read the
band from disk. -/
theorem C108_not_loaded_false (spline : Nat → A2 K → K → K → K) (s : Source K) (hco : s.coregistered = true) (hl : s.loaded = none)
    (nx ny : Nat) (h1 : 2 ≤ nx) (h2 : 2 ≤ ny) (ext : Box K) (hx : ext.minX ≤ ext.maxX) (hy : ext.minY ≤ ext.maxY) (dem : K → K → K)
    (b : Nat) (bs : List Nat) (nodata : K) (name : Str) (m : Bool) :
    orthoBackup spline s nx ny ext dem (some (b :: bs)) nodata name m = .error .typeError := by
  unfold orthoBackup
  rw [groundGrid_eq hx hy h1 h2]
  simp only [ok_bind, Option.getD_some]
  rw [collect_error _ b bs .typeError (by simp only [backupBand, backupSource, hco, if_true, hl, getBand]; rfl)]
  rfl

/-- C108: an unknown interpolation name raises in the orthorectifier too, whenever there is a band to resample. -/
theorem C108_ortho_unknown_name (spline : Nat → A2 K → K → K → K) (s : Source K) (hco : s.coregistered = false) (a : A2 K)
    (nx ny : Nat) (h1 : 2 ≤ nx) (h2 : 2 ≤ ny) (ext : Box K) (hx : ext.minX ≤ ext.maxX) (hy : ext.minY ≤ ext.maxY) (dem : K → K → K)
    (b : Nat) (bs : List Nat) (hb : s.disk b = .ok a) (nodata : K) (name : Str) (h : name ∉ names) (m : Bool) :
    orthoBackup spline s nx ny ext dem (some (b :: bs)) nodata name m = .error .valueError := by
  unfold orthoBackup
  rw [groundGrid_eq hx hy h1 h2]
  simp only [ok_bind, Option.getD_some]
  rw [collect_error _ b bs .valueError (by
    have e : backupSource s b = .ok a := by unfold backupSource; rw [hco, hb]; rfl
    simp only [backupBand, e, ok_bind]
    rw [ C108_unknown_name _ _ _ _ _ _ h]; rfl)]
  rfl

end

example : names[3]? = some "bicubic".toList ∧ "lanczos".toList ∉ names := by decide +kernel

/-- A 2 x 2 image resampled with `nearest` at three points, the last one outside. -/
example : (gridWarp (fun _ _ _ _ => (0 : ℚ)) ⟨2, 2, fun y x => 10 * y + x⟩ ⟨1, 3, fun _ i => i / 2⟩ ⟨1, 3, fun _ i => i⟩ (-1) "nearest".toList).map
    (fun o => (o.px 0 0, o.px 0 1, o.px 0 2)) = .ok (0, 11, -1) := by
  rw [gridWarp, if_pos ⟨rfl, rfl⟩, splineOrder_ok _ 0 rfl]
  simp only [ok_bind, if_true, Except.map]
  simp [warpPixel, mapCoord]
  norm_num

/-! ### C107 -/

section
variable {K P O : Type} [Field K] [LinearOrder K] [IsStrictOrderedRing K] [FloorRing K] [Inhabited K]

/-- Specification: `im` is what opening a file holding `d` gives, and its pixels are those of `d`. -/
def Opened (d : Dset K P) (im : DImage K P) : Prop :=
  im.nx = d.nx ∧ im.ny = d.ny ∧ im.nb = d.nb ∧ im.dtype = d.dtype ∧ im.nodata = d.nodata ∧ im.geot = d.geot ∧ im.proj = d.proj ∧
    im.data = none ∧ ∃ c, im.readAll = .ok c ∧ c.Same ⟨d.ny, d.nx, d.nb, d.px⟩

theorem openName_ok (files : Files K P) (name : Str) (d : Dset K P) (h : files name = some d) (hb : d.nb ≠ 0) :
    ∃ im, openName files name = .ok im ∧ Opened d im := by
  have ho : openImage d = .ok ⟨none, d.nx, d.ny, d.nb, d.dtype, d.nodata, d.geot, d.proj, some d⟩ := by
    unfold openImage; rw [if_neg hb]
  obtain ⟨c, h1, h2, -⟩ := C78_band_of_all_partial d _ ho
  refine ⟨_, ?_, rfl, rfl, rfl, rfl, rfl, rfl, rfl, rfl, c, h1, h2⟩
  unfold openName
  simp only [h]
  exact ho

/-- Specification: the dataset GDAL is given for an image: the open file's, or for an image without a file one with the image's metadata and the
pixels in memory. -/
def IsSource (cast : K → K) (im : DImage K P) (src : Dset K P) : Prop :=
  im.dset = some src ∨
  ∃ c, im.dset = none ∧ im.data = some c ∧ c.ny = im.ny ∧ c.nx = im.nx ∧ c.nb = im.nb ∧ 0 < im.nb ∧
    src.ny = im.ny ∧ src.nx = im.nx ∧ src.nb = im.nb ∧ src.dtype = im.dtype ∧ src.geot = im.geot ∧ src.proj = im.proj ∧
    (∀ y x z, y < im.ny → x < im.nx → z < im.nb → src.px y x z = cast (c.px y x z)) ∧
    src.nodata = im.nodata.map (fun v => ((Verif.Grids.pyInt v : Int) : K))

theorem warpSource_file (cast : K → K) (im : DImage K P) (src : Dset K P) (h : im.dset = some src) :
    warpSource cast im = .ok src := by
  unfold warpSource
  simp only [h]

theorem warpSource_memory (cast : K → K) (im : DImage K P) (c : A3 K) (h : im.dset = none) (hc : im.data = some c)
    (h1 : c.ny = im.ny) (h2 : c.nx = im.nx) (h3 : c.nb = im.nb) (hnb : 0 < im.nb) :
    ∃ src, warpSource cast im = .ok src ∧ IsSource cast im src := by
  obtain ⟨d, e1, e2, e3, e4, e5, e6, e7, e8, e9⟩ := writeBands_ok cast im c hc im.nb 0
    ⟨im.nx, im.ny, im.nb, im.dtype, fun _ _ _ => 0, im.geot, im.proj, none⟩ (by omega) (by simp only []; omega) (by simp only []; omega)
  simp only [] at e2 e3 e4 e5 e6 e7 e8 e9
  refine ⟨d, ?_, Or.inr ⟨c, h, hc, h1, h2, h3, hnb, e3, e2, e4, e5, e6, e7, ?_, ?_⟩⟩
  · unfold warpSource
    simp only [h]
    unfold DImage.write
    simp only [hc]
    rw [ok_bind, e1]
    rfl
  · intro y x z hy hx hz
    rw [e8, if_pos ⟨⟨by omega, by omega⟩, by omega, by omega⟩]
  · rw [e9, if_neg (by omega)]
    cases im.nodata <;> rfl

/-- C107: an image with an open file, or made from an array: if GDAL warps its dataset, the result is the warped raster, which is also what the
destination file (or the default name) holds; no other file changes. -/
theorem C107_warp_partial (W : O → Dset K P → Option (Dset K P)) (cast : K → K) (files : Files K P) (im : DImage K P)
    (him : im.dset ≠ none ∨ ∃ c, im.data = some c ∧ c.ny = im.ny ∧ c.nx = im.nx ∧ c.nb = im.nb ∧ 0 < im.nb)
    (ops : O) (dst : Option Str) (hW : ∀ src, IsSource cast im src → ∃ d, W ops src = some d ∧ d.nb ≠ 0) :
    ∃ src d files' out, IsSource cast im src ∧ W ops src = some d ∧ gdalwarp W cast files im ops dst = .ok (files', out) ∧
      Opened d out ∧
      files' (dst.getD "/vsimem/tmp_gdalwarp_geotiff.vrt".toList) = some d ∧
      ∀ n, n ≠ dst.getD "/vsimem/tmp_gdalwarp_geotiff.vrt".toList → files' n = files n := by
  obtain ⟨src, hs1, hs2⟩ : ∃ src, warpSource cast im = .ok src ∧ IsSource cast im src := by
    cases hd : im.dset with
    | some src => exact ⟨src, warpSource_file cast im src hd, Or.inl hd⟩
    | none =>
      rcases him with h | ⟨c, h1, h2, h3, h4, h5⟩
      · exact absurd hd h
      · exact warpSource_memory cast im c hd h1 h2 h3 h4 h5
  obtain ⟨d, hd, hb⟩ := hW src hs2
  obtain ⟨out, ho1, ho2⟩ := openName_ok (fun n => if n = dst.getD defaultName then some d else files n) (dst.getD defaultName) d
    (by simp) hb
  refine ⟨src, d, fun n => if n = dst.getD defaultName then some d else files n, out, hs2, hd, ?_, ho2, ?_, ?_⟩
  · unfold gdalwarp
    rw [hs1, ok_bind]
    simp only [hd]
    rw [ho1, ok_bind]
  · exact if_pos rfl
  · intro n hn
    exact if_neg hn

/-- C107 fails for changes made in memory: for an image with an open file, whatever is set as its image data, the file's pixels are warped. -/
theorem C107_changes_ignored_false (W : O → Dset K P → Option (Dset K P)) (cast : K → K) (files : Files K P) (im : DImage K P)
    (src : Dset K P) (hs : im.dset = some src) (c : Option (A3 K)) (ops : O) (dst : Option Str) :
    gdalwarp W cast files { im with data := c } ops dst = gdalwarp W cast files im ops dst := by
  unfold gdalwarp
  rw [warpSource_file cast im src hs, warpSource_file cast { im with data := c } src hs]

/-- C107 fails when GDAL does and a file of the destination's name exists already, such as that of an earlier warp under the default name: that
file is returned as if it were the result. -/
theorem C107_stale_false (W : O → Dset K P → Option (Dset K P)) (cast : K → K) (files : Files K P) (im : DImage K P)
    (src : Dset K P) (hs : im.dset = some src) (ops : O) (hW : W ops src = none) (dst : Option Str) (old : Dset K P)
    (hold : files (dst.getD "/vsimem/tmp_gdalwarp_geotiff.vrt".toList) = some old) (hb : old.nb ≠ 0) :
    ∃ out, gdalwarp W cast files im ops dst = .ok (files, out) ∧ Opened old out := by
  obtain ⟨out, h1, h2⟩ := openName_ok files (dst.getD defaultName) old hold hb
  refine ⟨out, ?_, h2⟩
  unfold gdalwarp
  rw [warpSource_file cast im src hs, ok_bind]
  simp only [hW]
  rw [h1, ok_bind]

/-- C107: when GDAL fails and there is no such file, the call raises. -/
theorem C107_gdal_fails (W : O → Dset K P → Option (Dset K P)) (cast : K → K) (files : Files K P) (im : DImage K P)
    (src : Dset K P) (hs : im.dset = some src) (ops : O) (hW : W ops src = none) (dst : Option Str)
    (hold : files (dst.getD "/vsimem/tmp_gdalwarp_geotiff.vrt".toList) = none) :
    gdalwarp W cast files im ops dst = .error .attributeError := by
  unfold gdalwarp
  rw [warpSource_file cast im src hs, ok_bind]
  simp only [hW]
  unfold openName
  have : files (dst.getD defaultName) = none := hold
  simp only [this]
  rfl

/-- C107: an image that was closed before its data was loaded has nothing to warp: AttributeError. -/
theorem C107_closed (W : O → Dset K P → Option (Dset K P)) (cast : K → K) (files : Files K P) (im : DImage K P)
    (hs : im.dset = none) (hd : im.data = none) (hnb : 0 < im.nb) (ops : O) (dst : Option Str) :
    gdalwarp W cast files im ops dst = .error .attributeError := by
  obtain ⟨n, hn⟩ : ∃ n, im.nb = n + 1 := ⟨im.nb - 1, by omega⟩
  have hb : im.readBands 0 im.nb = .error .attributeError := by
    rw [hn]
    unfold DImage.readBands
    simp only [DImage.readBand, hs]
    rfl
  unfold gdalwarp warpSource
  simp only [hs]
  unfold DImage.write
  simp only [hd]
  unfold DImage.readAll
  rw [hb]
  rfl

/-- C107, height conversion of a DEM: after it the elevations are those of the warped raster, with NaN in exactly the cells holding the DEM's no-data
value; the no-data value and the interpolation method are kept. -/
theorem C107_dem_partial (W : SrsPair → Dset K P → Option (Dset K P)) (cast : K → K) (floating : Nat → Bool) (srs : P → Str) (files : Files K P)
    (s : DemGeo K P) (src : Dset K P) (hs : s.gtiff.dset = some src) (dst grid : Str) (toGeoid : Bool)
    (d : Dset K P) (hb : d.nb = 1) (hsz : 2 ≤ d.ny ∧ 2 ≤ d.nx) (hf : floating d.dtype = true)
    (hW : W (if toGeoid = true then ⟨srs s.gtiff.proj, srs s.gtiff.proj ++ " +geoidgrids=".toList ++ grid⟩
      else ⟨srs s.gtiff.proj ++ " +geoidgrids=".toList ++ grid, srs s.gtiff.proj⟩) src = some d) :
    ∃ files' s' data, s.convert W cast floating srs files dst grid toGeoid = .ok (files', s') ∧ Opened d s'.gtiff ∧
      s'.dem.data = some data ∧ IsMasked ⟨d.ny, d.nx, fun y x => d.px y x 0⟩ (fun v => s.dem.nodata = some v) data ∧
      s'.dem.nodata = s.dem.nodata ∧ s'.dem.method = s.dem.method ∧
      files' dst = some d ∧ ∀ n, n ≠ dst → files' n = files n := by
  obtain ⟨out, ho1, ho2⟩ := openName_ok (fun n => if n = dst then some d else files n) dst d (by simp) (by omega)
  obtain ⟨c, hr, hc1, hc2, hc3, hc4⟩ := ho2.2.2.2.2.2.2.2.2
  simp only [] at hc1 hc2 hc3 hc4
  obtain ⟨s1, e1, e2, -, e4, -, e6⟩ := removeNodata_ok
    { s.dem with data := some ⟨c.ny, c.nx, fun y x => some (c.px y x 0)⟩, floating := floating out.dtype } s.dem.nodata
    (by simp only []; rw [ho2.2.2.2.1]; exact hf)
  obtain ⟨data, f1, f2⟩ := e6 ⟨d.ny, d.nx, fun y x => d.px y x 0⟩ (fun _ => False) _ rfl
    ⟨hc1, hc2, fun y x hy hx => ⟨fun h => h.elim, fun _ => by
      simp only [] at hy hx ⊢
      rw [hc4 y x 0 (by omega) (by omega) (by omega)]⟩⟩
  refine ⟨fun n => if n = dst then some d else files n, ⟨s1, out⟩, data, ?_, ho2, f1, ?_, e2, e4, if_pos rfl, fun n hn => if_neg hn⟩
  · have hg : ∀ ops, ops = (if toGeoid = true then geoidOps (srs s.gtiff.proj) grid else ellipsoidOps (srs s.gtiff.proj) grid) →
        gdalwarp W cast files s.gtiff ops (some dst) = .ok (fun n => if n = dst then some d else files n, out) := by
      rintro ops rfl
      have hW' : W (if toGeoid = true then geoidOps (srs s.gtiff.proj) grid else ellipsoidOps (srs s.gtiff.proj) grid) src = some d := by
        rw [← hW]
        cases toGeoid <;> rfl
      unfold gdalwarp
      rw [warpSource_file cast _ src hs, ok_bind]
      simp only [hW', Option.getD_some]
      rw [ho1, ok_bind]
    unfold DemGeo.convert
    simp only []
    rw [hg _ rfl, ok_bind]
    unfold DemGeo.setImage
    rw [hr, ok_bind, if_pos ⟨by omega, by omega, by omega⟩]
    unfold setGeotiff
    simp only []
    rw [e1]
    rfl
  · refine ⟨f2.1, f2.2.1, ?_⟩
    intro y x hy hx
    have := f2.2.2 y x hy hx
    simpa using this

/-- C107: the two height conversions are each other's reverse: they give GDAL the same pair of reference systems in opposite order. -/
theorem C107_reverse (W : SrsPair → Dset K P → Option (Dset K P)) (cast : K → K) (floating : Nat → Bool) (srs : P → Str) (files : Files K P)
    (s : DemGeo K P) (dst grid : Str) :
    s.convert W cast floating srs files dst grid true = s.convert (fun p => W ⟨p.dst, p.src⟩) cast floating srs files dst grid false := by
  unfold DemGeo.convert
  simp only [Bool.false_eq_true, if_true, if_false, geoidOps, ellipsoidOps]
  rfl

/-- C107 fails for `convert_reference`: it raises NameError for every DEM, file and code. -/
theorem C107_convert_reference_false (floating : Nat → Bool) (files : Files K P) (s : DemGeo K P) (dst : Str) (epsg : Int) :
    s.convertReference floating files dst epsg = .error .nameError := rfl

/-- C107 fails for `create_map_tiles`: it raises TypeError for every image. -/
theorem C107_map_tiles_false (files : Files K P) (im : DImage K P) : createMapTiles files im = .error .typeError := rfl

end

/-- A 2 x 2 raster in one file, warped by a `gdal.Warp` that adds 5 to every pixel: the hypotheses of `C107_warp_partial` and `C107_dem_partial` hold. -/
example :
    let src : Dset ℚ Unit := ⟨2, 2, 1, 6, fun y x _ => 10 * y + x, (0, 1, 0, 0, 0, -1), (), none⟩
    let W : SrsPair → Dset ℚ Unit → Option (Dset ℚ Unit) := fun _ d => some { d with px := fun y x z => d.px y x z + 5 }
    let im : DImage ℚ Unit := ⟨none, 2, 2, 1, 6, none, (0, 1, 0, 0, 0, -1), (), some src⟩
    im.dset ≠ none ∧ (∀ s, IsSource id im s → ∃ d, W ⟨[], []⟩ s = some d ∧ d.nb ≠ 0) ∧
      ∃ d, W (geoidOps [] []) src = some d ∧ d.nb = 1 ∧ d.px 1 1 0 = 16 := by
  refine ⟨by simp, ?_, _, rfl, rfl, by norm_num⟩
  rintro s (h | ⟨c, h, -⟩)
  · obtain rfl := Option.some.inj h
    exact ⟨_, rfl, by simp⟩
  · simp at h

end Verif.Warp
