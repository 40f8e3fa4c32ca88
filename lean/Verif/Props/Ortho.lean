import Verif.Lemmas.ImageUtils
import Verif.Props.Grids
import Verif.Model.Ortho
import Mathlib.Algebra.BigOperators.Group.Finset.Basic
import Mathlib.Order.Interval.Finset.Nat
import Mathlib.Analysis.Convex.Hull

/-! C36-C40: orthorectification, masks, extents, obstruction, pixel values. -/

set_option linter.unusedSectionVars false

namespace Verif.Ortho
open Verif ImageUtils Geotiff Grids

section
variable {K : Type} [Field K] [LinearOrder K] [IsStrictOrderedRing K]

/-! ### C36 -/

/-- Specification: a pixel position outside the image. -/
def Outside (npixX npixY : Nat) (p : K × K) : Prop :=
  p.1 < 0 ∨ (npixX : K) - 1 < p.1 ∨ p.2 < 0 ∨ (npixY : K) - 1 < p.2

/-- Specification: a pixel position at least two pixels inside the image. -/
def TwoInside (npixX npixY : Nat) (p : K × K) : Prop :=
  2 ≤ p.1 ∧ p.1 ≤ (npixX : K) - 1 - 2 ∧ 2 ≤ p.2 ∧ p.2 ≤ (npixY : K) - 1 - 2

/-- Specification: where output pixel `(j, i)` is in the source image, per the projection of band `b`:
the centre of the output cell, at the DEM's elevation there. -/
def sourcePos (s : Source K) (ext : Box K) (dem : K → K → K) (nx ny b j i : Nat) : K × K :=
  let g := cellCentre ext.minX ext.maxX ext.minY ext.maxY nx ny j i
  s.project b g.1 g.2 (dem g.1 g.2)

theorem collect_ok {A : Type} (f : Nat → Py A) (l : List Nat) (g : Nat → A) (h : ∀ b ∈ l, f b = .ok (g b)) :
    collect f l = .ok (l.map g) := by
  induction l with
  | nil => rfl
  | cons b bs ih =>
    rw [collect, h b (by simp)]
    simp only [ok_bind]
    rw [ih (fun b' hb' => h b' (by simp [hb']))]
    rfl

theorem collect_error {A : Type} (f : Nat → Py A) (b : Nat) (bs : List Nat) (e : Err) (h : f b = .error e) :
    collect f (b :: bs) = .error e := by
  rw [collect, h]; rfl

theorem regrid_ok (resample : A2 K → K → K → K) (cast : K → K) (img : A2 K) (nx ny : Nat) (fy fx : Nat → Nat → K) :
    ∃ r, regrid resample cast img ⟨ny, nx, fy⟩ ⟨ny, nx, fx⟩ nx ny = .ok r ∧
      ∀ j i, j < ny → i < nx → r.px j i = cast (resample img (fy j i) (fx j i)) := by
  refine ⟨⟨ny, nx, fun j i => cast (resample img (fy ((j * nx + i) / nx) ((j * nx + i) % nx))
    (fx ((j * nx + i) / nx) ((j * nx + i) % nx)))⟩, ?_, ?_⟩
  · simp only [regrid, flattenBand, unflattenBand, if_true, ok_bind]
  · intro j i _ hi
    obtain ⟨e1, e2⟩ := divmod_unique (y := j) hi
    simp only [e1, e2]

theorem stack2_ok (nx ny : Nat) (l : List (A2 K)) (h : l ≠ []) :
    ∃ o, stack2 nx ny l = .ok o ∧ o.ny = ny ∧ o.nx = nx ∧ o.nb = l.length ∧
      ∀ y x b a, l[b]? = some a → o.px y x b = a.px y x := by
  refine ⟨_, by rw [stack2, if_neg h], rfl, rfl, rfl, ?_⟩
  intro y x b a hb
  simp only [hb]

theorem groundGrid_eq {ext : Box K} (hx : ext.minX ≤ ext.maxX) (hy : ext.minY ≤ ext.maxY) {nx ny : Nat}
    (h1 : 2 ≤ nx) (h2 : 2 ≤ ny) :
    groundGrid ext.minX ext.maxX ext.minY ext.maxY nx ny =
      .ok (⟨ny, nx, fun j i => (cellCentre ext.minX ext.maxX ext.minY ext.maxY nx ny j i).1⟩,
           ⟨ny, nx, fun j i => (cellCentre ext.minX ext.maxX ext.minY ext.maxY nx ny j i).2⟩) := by
  obtain ⟨gx, gy, h, a, b, c, d, e⟩ := C34_cell_centres ext.minX ext.maxX ext.minY ext.maxY hx hy nx ny h1 h2
  rw [h]
  obtain ⟨gxy, gxx, gxp⟩ := gx
  obtain ⟨gyy, gyx, gyp⟩ := gy
  simp only at a b c d
  subst a; subst b; subst c; subst d
  congr 2
  · congr 1; funext j i; exact congrArg Prod.fst (e j i)
  · congr 1; funext j i; exact congrArg Prod.snd (e j i)

/-- C36, co-registered bands, exactly: the no-data value unless the position is more than 0 and less than the size minus two in both
coordinates, otherwise the resampled value of the requested band. -/
theorem C36_coregistered_exact (resample : A2 K → K → K → K) (s : Source K) (hco : s.coregistered = true)
    (cube : A3 K) (hl : s.loaded = some cube) (nx ny : Nat) (h1 : 2 ≤ nx) (h2 : 2 ≤ ny) (ext : Box K)
    (hx : ext.minX ≤ ext.maxX) (hy : ext.minY ≤ ext.maxY) (dem : K → K → K) (bands : List Nat) (hne : bands ≠ [])
    (hb : ∀ b ∈ bands, b < cube.nb) (nodata : K) :
    ∃ out, ortho resample s nx ny ext dem (some bands) nodata false = .ok out ∧
      out.ny = ny ∧ out.nx = nx ∧ out.nb = bands.length ∧
      ∀ j i k b, j < ny → i < nx → bands[k]? = some b →
        out.px j i k =
          if (s.npixY : K) - 2 ≤ (sourcePos s ext dem nx ny 0 j i).2 ∨ (sourcePos s ext dem nx ny 0 j i).2 ≤ 0 ∨
            (s.npixX : K) - 2 ≤ (sourcePos s ext dem nx ny 0 j i).1 ∨ (sourcePos s ext dem nx ny 0 j i).1 ≤ 0 then s.cast nodata
          else s.cast (resample ⟨cube.ny, cube.nx, fun y x => cube.px y x b⟩
            (sourcePos s ext dem nx ny 0 j i).2 (sourcePos s ext dem nx ny 0 j i).1) := by
  classical
  have : Nonempty (A2 K) := ⟨⟨0, 0, fun _ _ => 0⟩⟩
  set P : Nat → Nat → K × K := fun j i => sourcePos s ext dem nx ny 0 j i with hP
  have hone : ∀ b ∈ bands, ∃ r, orthoBandShared resample s
      ⟨ny, nx, fun j i => (cellCentre ext.minX ext.maxX ext.minY ext.maxY nx ny j i).1⟩
      ⟨ny, nx, fun j i => (cellCentre ext.minX ext.maxX ext.minY ext.maxY nx ny j i).2⟩
      ⟨ny, nx, fun j i => dem (cellCentre ext.minX ext.maxX ext.minY ext.maxY nx ny j i).1
        (cellCentre ext.minX ext.maxX ext.minY ext.maxY nx ny j i).2⟩ nx ny nodata b = .ok r ∧
      ∀ j i, j < ny → i < nx → r.px j i =
        if (s.npixY : K) - 2 ≤ (P j i).2 ∨ (P j i).2 ≤ 0 ∨ (s.npixX : K) - 2 ≤ (P j i).1 ∨ (P j i).1 ≤ 0 then s.cast nodata
        else s.cast (resample ⟨cube.ny, cube.nx, fun y x => cube.px y x b⟩ (P j i).2 (P j i).1) := by
    intro b hbm
    obtain ⟨r, hr, hv⟩ := regrid_ok resample s.cast ⟨cube.ny, cube.nx, fun y x => cube.px y x b⟩ nx ny
      (fun j i => (P j i).2) (fun j i => (P j i).1)
    have hr' := hr
    rw [hP] at hr'
    simp only [sourcePos] at hr'
    unfold orthoBandShared
    simp only [hl, getBand, if_pos (hb b hbm), ok_bind, hr']
    refine ⟨_, rfl, ?_⟩
    intro j i hj hi
    simp only [setWhere, hv j i hj hi, hP, sourcePos, decide_eq_true_eq]
    split_ifs <;> first | rfl | (exfalso; tauto)
  choose! g hg hgv using hone
  obtain ⟨out, ho, e1, e2, e3, e4⟩ := stack2_ok nx ny (bands.map g) (by simpa using hne)
  refine ⟨out, ?_, e1, e2, by simpa using e3, ?_⟩
  · unfold ortho
    rw [groundGrid_eq hx hy h1 h2]
    simp only [ok_bind, hco, if_true, Option.getD_some]
    rw [collect_ok _ bands g hg]
    simp only [ok_bind, ho]
    rfl
  · intro j i k b hj hi hk
    have hbm : b ∈ bands := List.mem_of_getElem? hk
    have hv := e4 j i k (g b) (by simp [hk])
    rw [hv, hgv b hbm j i hj hi]

/-- C36, co-registered bands (the bands share one projection): every output pixel that falls outside
the source image has the no-data value in every band; every one at least two pixels inside has the
resampled value of the requested band.  `cast` is the conversion to the image's dtype. -/
theorem C36_coregistered (resample : A2 K → K → K → K) (s : Source K) (hco : s.coregistered = true)
    (cube : A3 K) (hl : s.loaded = some cube) (nx ny : Nat) (h1 : 2 ≤ nx) (h2 : 2 ≤ ny) (ext : Box K)
    (hx : ext.minX ≤ ext.maxX) (hy : ext.minY ≤ ext.maxY) (dem : K → K → K) (bands : List Nat) (hne : bands ≠ [])
    (hb : ∀ b ∈ bands, b < cube.nb) (nodata : K) :
    ∃ out, ortho resample s nx ny ext dem (some bands) nodata false = .ok out ∧
      out.ny = ny ∧ out.nx = nx ∧ out.nb = bands.length ∧
      ∀ j i k b, j < ny → i < nx → bands[k]? = some b →
        (Outside s.npixX s.npixY (sourcePos s ext dem nx ny 0 j i) → out.px j i k = s.cast nodata) ∧
        (TwoInside s.npixX s.npixY (sourcePos s ext dem nx ny 0 j i) →
          out.px j i k = s.cast (resample ⟨cube.ny, cube.nx, fun y x => cube.px y x b⟩
            (sourcePos s ext dem nx ny 0 j i).2 (sourcePos s ext dem nx ny 0 j i).1)) := by
  obtain ⟨out, ho, e1, e2, e3, e4⟩ := C36_coregistered_exact resample s hco cube hl nx ny h1 h2 ext hx hy dem bands hne hb nodata
  refine ⟨out, ho, e1, e2, e3, ?_⟩
  intro j i k b hj hi hk
  rw [e4 j i k b hj hi hk]
  constructor
  · intro ho
    rw [if_pos]
    rcases ho with h | h | h | h
    · exact Or.inr (Or.inr (Or.inr h.le))
    · exact Or.inr (Or.inr (Or.inl (by linarith)))
    · exact Or.inr (Or.inl h.le)
    · exact Or.inl (by linarith)
  · rintro ⟨a1, a2, a3, a4⟩
    rw [if_neg]
    rintro (h | h | h | h) <;> linarith

/-- The image built when bands are not co-registered: every pixel of every band is the resampled value
at the position given by that band's own projection. -/
theorem ortho_separate (resample : A2 K → K → K → K) (s : Source K) (hco : s.coregistered = false)
    (img : Nat → A2 K) (nx ny : Nat) (h1 : 2 ≤ nx) (h2 : 2 ≤ ny) (ext : Box K)
    (hx : ext.minX ≤ ext.maxX) (hy : ext.minY ≤ ext.maxY) (dem : K → K → K) (bands : List Nat) (hne : bands ≠ [])
    (hb : ∀ b ∈ bands, s.disk b = .ok (img b)) (nodata : K) :
    ∃ out, ortho resample s nx ny ext dem (some bands) nodata false = .ok out ∧
      out.ny = ny ∧ out.nx = nx ∧ out.nb = bands.length ∧
      ∀ j i k b, j < ny → i < nx → bands[k]? = some b →
          out.px j i k = s.cast (resample (img b)
            (sourcePos s ext dem nx ny b j i).2 (sourcePos s ext dem nx ny b j i).1) := by
  classical
  have : Nonempty (A2 K) := ⟨⟨0, 0, fun _ _ => 0⟩⟩
  have hone : ∀ b ∈ bands, ∃ r, orthoBandSeparate resample s
      ⟨ny, nx, fun j i => (cellCentre ext.minX ext.maxX ext.minY ext.maxY nx ny j i).1⟩
      ⟨ny, nx, fun j i => (cellCentre ext.minX ext.maxX ext.minY ext.maxY nx ny j i).2⟩
      ⟨ny, nx, fun j i => dem (cellCentre ext.minX ext.maxX ext.minY ext.maxY nx ny j i).1
        (cellCentre ext.minX ext.maxX ext.minY ext.maxY nx ny j i).2⟩ nx ny b = .ok r ∧
      ∀ j i, j < ny → i < nx → r.px j i = s.cast (resample (img b)
            (sourcePos s ext dem nx ny b j i).2 (sourcePos s ext dem nx ny b j i).1) := by
    intro b hbm
    obtain ⟨r, hr, hv⟩ := regrid_ok resample s.cast (img b) nx ny
      (fun j i => (sourcePos s ext dem nx ny b j i).2) (fun j i => (sourcePos s ext dem nx ny b j i).1)
    refine ⟨r, ?_, hv⟩
    unfold orthoBandSeparate
    simp only [hb b hbm, ok_bind]
    exact hr
  choose! g hg hgv using hone
  obtain ⟨out, ho, e1, e2, e3, e4⟩ := stack2_ok nx ny (bands.map g) (by simpa using hne)
  refine ⟨out, ?_, e1, e2, by simpa using e3, ?_⟩
  · unfold ortho
    rw [groundGrid_eq hx hy h1 h2]
    simp only [ok_bind, hco, Option.getD_some]
    rw [if_neg (by simp), collect_ok _ bands g hg]
    simp only [ok_bind, ho]
    rfl
  · intro j i k b hj hi hk
    have hbm : b ∈ bands := List.mem_of_getElem? hk
    rw [e4 j i k (g b) (by simp [hk]), hgv b hbm j i hj hi]

/-- C36 fails when bands are not co-registered: with nearest resampling, every output pixel that falls
outside the source image gets 0 whatever the no-data value is. -/
theorem C36_separate_bands_false [FloorRing K] (s : Source K) (hco : s.coregistered = false)
    (img : Nat → A2 K) (hsz : ∀ b, (img b).nx = s.npixX ∧ (img b).ny = s.npixY)
    (nx ny : Nat) (h1 : 2 ≤ nx) (h2 : 2 ≤ ny) (ext : Box K)
    (hx : ext.minX ≤ ext.maxX) (hy : ext.minY ≤ ext.maxY) (dem : K → K → K) (bands : List Nat) (hne : bands ≠ [])
    (hb : ∀ b ∈ bands, s.disk b = .ok (img b)) (nodata : K) (hnd : s.cast nodata ≠ s.cast 0) :
    ∃ out, ortho mapCoord0 s nx ny ext dem (some bands) nodata false = .ok out ∧
      ∀ j i k b, j < ny → i < nx → bands[k]? = some b →
        Outside s.npixX s.npixY (sourcePos s ext dem nx ny b j i) →
          out.px j i k = s.cast 0 ∧ out.px j i k ≠ s.cast nodata := by
  obtain ⟨out, ho, -, -, -, hv⟩ := ortho_separate mapCoord0 s hco img nx ny h1 h2 ext hx hy dem bands hne hb nodata
  refine ⟨out, ho, ?_⟩
  intro j i k b hj hi hk hout
  have e : out.px j i k = s.cast 0 := by
    rw [hv j i k b hj hi hk, mapCoord0, if_pos]
    rw [(hsz b).1, (hsz b).2]
    rcases hout with h | h | h | h
    · exact Or.inr (Or.inr (Or.inl h))
    · exact Or.inr (Or.inr (Or.inr h))
    · exact Or.inl h
    · exact Or.inr (Or.inl h)
  exact ⟨e, by rw [e]; exact hnd.symm⟩

/-- C36 (partial), not co-registered bands: what holds is that pixels inside carry the nearest source
pixel of the requested band, projected with that band's own model, and that the default no-data value
0 marks the pixels outside. -/
theorem C36_separate_bands_partial [FloorRing K] (s : Source K) (hco : s.coregistered = false)
    (img : Nat → A2 K) (hsz : ∀ b, (img b).nx = s.npixX ∧ (img b).ny = s.npixY)
    (nx ny : Nat) (h1 : 2 ≤ nx) (h2 : 2 ≤ ny) (ext : Box K)
    (hx : ext.minX ≤ ext.maxX) (hy : ext.minY ≤ ext.maxY) (dem : K → K → K) (bands : List Nat) (hne : bands ≠ [])
    (hb : ∀ b ∈ bands, s.disk b = .ok (img b)) :
    ∃ out, ortho mapCoord0 s nx ny ext dem (some bands) 0 false = .ok out ∧
      ∀ j i k b, j < ny → i < nx → bands[k]? = some b →
        (Outside s.npixX s.npixY (sourcePos s ext dem nx ny b j i) → out.px j i k = s.cast 0) ∧
        (¬ Outside s.npixX s.npixY (sourcePos s ext dem nx ny b j i) → ∃ r c : Nat, r < s.npixY ∧ c < s.npixX ∧
          |(c : K) - (sourcePos s ext dem nx ny b j i).1| ≤ 1 / 2 ∧
          |(r : K) - (sourcePos s ext dem nx ny b j i).2| ≤ 1 / 2 ∧
          out.px j i k = s.cast ((img b).px r c)) := by
  obtain ⟨out, ho, -, -, -, hv⟩ := ortho_separate mapCoord0 s hco img nx ny h1 h2 ext hx hy dem bands hne hb 0
  refine ⟨out, ho, ?_⟩
  intro j i k b hj hi hk
  rw [hv j i k b hj hi hk]
  generalize sourcePos s ext dem nx ny b j i = p
  have near : ∀ (v : K) (n : Nat), 0 ≤ v → v ≤ (n : K) - 1 → ((⌊v + 1 / 2⌋).toNat) < n ∧
      |(((⌊v + 1 / 2⌋).toNat : Nat) : K) - v| ≤ 1 / 2 := by
    intro v n h0 h1
    have hf : 0 ≤ ⌊v + 1 / 2⌋ := Int.floor_nonneg.mpr (by positivity)
    have hc : (((⌊v + 1 / 2⌋).toNat : Nat) : K) = (⌊v + 1 / 2⌋ : K) := by
      exact_mod_cast congrArg (Int.cast (R := K)) (Int.toNat_of_nonneg hf)
    have l1 := Int.floor_le (v + 1 / 2)
    have l2 := Int.lt_floor_add_one (v + 1 / 2)
    constructor
    · have : (((⌊v + 1 / 2⌋).toNat : Nat) : K) < n := by rw [hc]; linarith
      exact_mod_cast this
    · rw [hc, abs_le]; constructor <;> linarith
  constructor
  · intro hout
    rw [mapCoord0, if_pos]
    rw [(hsz b).1, (hsz b).2]
    rcases hout with h | h | h | h
    · exact Or.inr (Or.inr (Or.inl h))
    · exact Or.inr (Or.inr (Or.inr h))
    · exact Or.inl h
    · exact Or.inr (Or.inl h)
  · intro hin
    simp only [Outside, not_or, not_lt] at hin
    obtain ⟨a1, a2, a3, a4⟩ := hin
    obtain ⟨c1, c2⟩ := near p.1 _ a1 a2
    obtain ⟨d1, d2⟩ := near p.2 _ a3 a4
    refine ⟨_, _, d1, c1, c2, d2, ?_⟩
    rw [mapCoord0, if_neg]
    rw [(hsz b).1, (hsz b).2]
    simp only [not_or, not_lt]
    exact ⟨a3, a4, a1, a2⟩

/-- C36 error branches: an image that is not loaded (co-registered path) raises; no bands raise. -/
theorem C36_not_loaded (resample : A2 K → K → K → K) (s : Source K) (hco : s.coregistered = true)
    (hl : s.loaded = none) (nx ny : Nat) (h1 : 2 ≤ nx) (h2 : 2 ≤ ny) (ext : Box K)
    (hx : ext.minX ≤ ext.maxX) (hy : ext.minY ≤ ext.maxY) (dem : K → K → K) (b : Nat) (bs : List Nat) (nodata : K) (m : Bool) :
    ortho resample s nx ny ext dem (some (b :: bs)) nodata m = .error .typeError := by
  unfold ortho
  rw [groundGrid_eq hx hy h1 h2]
  simp only [ok_bind, hco, if_true, Option.getD_some]
  rw [collect_error _ b bs .typeError (by simp only [orthoBandShared, hl, getBand]; rfl)]
  rfl

/-- A concrete source (4 x 5 pixels, two bands, ground position = pixel position) for the hypotheses
above; its output pixel (0, 0) of a 10 x 10 extent falls outside and pixel (3, 1) inside. -/
def demoSource (co : Bool) : Source ℚ :=
  ⟨5, 7, 2, co, some ⟨7, 5, 2, fun y x b => 10 * y + x + 100 * b⟩, fun b => .ok ⟨7, 5, fun y x => 10 * y + x + 100 * b⟩,
    fun _ x y _ => (x, y), id⟩

example : Outside 5 7 (sourcePos (demoSource true) ⟨0, 0, 10, 10⟩ (fun _ _ => 0) 4 4 0 0 0) ∧
    TwoInside 7 7 (sourcePos (demoSource true) ⟨0, 0, 10, 10⟩ (fun _ _ => 0) 4 4 0 2 1) := by
  constructor
  · simp [Outside, sourcePos, demoSource, cellCentre]; norm_num
  · simp [TwoInside, sourcePos, demoSource, cellCentre]; norm_num

/-! ### C37 -/

/-- C37: masking keeps the bands and appends one that is 0 exactly where band 0 is the no-data value
and 255 elsewhere (for any dtype holding 0 and 255). -/
theorem C37_mask (cast : K → K) (h0 : cast 0 = 0) (h255 : cast 255 = 255) (img : A3 K) (hb : img.nb ≠ 0) (nodata : K) :
    ∃ out, maskImage cast img nodata = .ok out ∧ out.ny = img.ny ∧ out.nx = img.nx ∧ out.nb = img.nb + 1 ∧
      ∀ y x, (∀ b, b < img.nb → out.px y x b = img.px y x b) ∧
        (out.px y x img.nb = 0 ↔ img.px y x 0 = nodata) ∧
        (img.px y x 0 ≠ nodata → out.px y x img.nb = 255) := by
  unfold maskImage
  rw [if_neg hb]
  refine ⟨_, rfl, rfl, rfl, rfl, ?_⟩
  intro y x
  refine ⟨fun b hb' => by simp [hb'], ?_, ?_⟩
  · simp only [lt_irrefl, if_false, h0, h255]
    split_ifs with h
    · simp [h]
    · simp [h]
  · intro h
    simp [h, h255]

/-- C37: an image without bands is an error. -/
theorem C37_no_band (cast : K → K) (img : A3 K) (hb : img.nb = 0) (nodata : K) :
    maskImage cast img nodata = .error .indexError := by rw [maskImage, if_pos hb]

example : (∀ v : ℚ, (id : ℚ → ℚ) v = v) ∧ (⟨1, 2, 3, fun _ x _ => x⟩ : A3 ℚ).nb ≠ 0 := by simp

end

/-- int8 conversion of an integer-valued number (numpy wraps). -/
def castInt8 (v : ℚ) : ℚ := (((v.floor + 128) % 256 - 128 : Int) : ℚ)

/-- C37 fails for an int8 image: the opaque value is stored as -1, never 255. -/
theorem C37_int8_false (img : A3 ℚ) (hb : img.nb ≠ 0) (nodata : ℚ) :
    ∃ out, maskImage castInt8 img nodata = .ok out ∧
      ∀ y x, img.px y x 0 ≠ nodata → out.px y x img.nb = -1 := by
  unfold maskImage
  rw [if_neg hb]
  refine ⟨_, rfl, ?_⟩
  intro y x h
  have : castInt8 255 = -1 := by
    have : ((255 : ℚ)).floor = 255 := by exact Rat.floor_intCast 255
    unfold castInt8
    rw [this]; norm_num
  simp [h, this]

section
variable {K : Type} [Field K] [LinearOrder K] [IsStrictOrderedRing K]

/-! ### C38 -/

/-- Specification: a border pixel of an `nx` by `ny` image. -/
def IsBorder (nx ny : Nat) (p : Nat × Nat) : Prop :=
  p.1 < nx ∧ p.2 < ny ∧ (p.1 = 0 ∨ p.1 = nx - 1 ∨ p.2 = 0 ∨ p.2 = ny - 1)

/-- C38: the pixels used for the extent are exactly the border pixels. -/
theorem C38_border (nx ny : Nat) (hx : nx ≠ 0) (hy : ny ≠ 0) :
    ∃ l, extentPixels nx ny = .ok l ∧ ∀ p, p ∈ l ↔ IsBorder nx ny p := by
  refine ⟨_, by rw [extentPixels, if_neg (by omega)], ?_⟩
  rintro ⟨x, y⟩
  simp only []
  rw [List.zip_append (by simp), List.zip_append (by simp), List.zip_append (by simp)]
  simp only [List.zip_map', List.mem_append, List.mem_map, List.mem_range, Prod.mk.injEq, IsBorder]
  constructor
  · rintro (((⟨a, h, rfl, rfl⟩ | ⟨a, h, rfl, rfl⟩) | ⟨a, h, rfl, rfl⟩) | ⟨a, h, rfl, rfl⟩) <;> omega
  · rintro ⟨h1, h2, h | h | h | h⟩
    · exact Or.inr ⟨y, h2, h.symm, rfl⟩
    · exact Or.inl (Or.inl (Or.inr ⟨y, h2, h.symm, rfl⟩))
    · exact Or.inl (Or.inl (Or.inl ⟨x, h1, rfl, h.symm⟩))
    · exact Or.inl (Or.inr ⟨x, h1, rfl, h.symm⟩)

/-- C38: the extent's points are the ground positions of the border pixels: of band 0 for
co-registered bands, of every requested band otherwise. -/
theorem C38_points (toLonLat : Nat → K → K → K → K × K) (dem : K → K → K) (highest : K) (co : Bool) (bands : List Nat)
    (nx ny : Nat) (hx : nx ≠ 0) (hy : ny ≠ 0) :
    ∃ l, extentPoints toLonLat dem highest co bands nx ny = .ok l ∧
      ∀ g, g ∈ l ↔ ∃ b p, (if co then b = 0 else b ∈ bands) ∧ IsBorder nx ny p ∧
        g = toLonLat b (p.1 : K) (p.2 : K)
          (dem (toLonLat b (p.1 : K) (p.2 : K) highest).1 (toLonLat b (p.1 : K) (p.2 : K) highest).2) := by
  obtain ⟨l, hl, hm⟩ := C38_border nx ny hx hy
  have hpx : ∀ b (p : Nat × Nat), pixelLonLat (toLonLat b) dem highest (p.1 : K) (p.2 : K) =
      toLonLat b (p.1 : K) (p.2 : K)
          (dem (toLonLat b (p.1 : K) (p.2 : K) highest).1 (toLonLat b (p.1 : K) (p.2 : K) highest).2) := by
    intro b p
    simp only [pixelLonLat, sub_sub_cancel]
  unfold extentPoints
  rw [hl]
  simp only [ok_bind]
  refine ⟨_, rfl, ?_⟩
  intro g
  cases co with
  | true =>
    simp only [if_true, List.mem_map, hm, hpx]
    constructor
    · rintro ⟨p, hp, rfl⟩; exact ⟨0, p, rfl, hp, rfl⟩
    · rintro ⟨b, p, rfl, hp, rfl⟩; exact ⟨p, hp, rfl⟩
  | false =>
    simp only [Bool.false_eq_true, if_false, List.mem_flatMap, List.mem_map, hm, hpx]
    constructor
    · rintro ⟨b, hb, p, hp, rfl⟩; exact ⟨b, p, hb, hp, rfl⟩
    · rintro ⟨b, p, hb, hp, rfl⟩; exact ⟨b, hb, p, hp, rfl⟩

/-- C38: an empty image is an error. -/
theorem C38_empty (nx ny : Nat) (h : nx = 0 ∨ ny = 0) : extentPixels nx ny = .error .indexError := by
  rw [extentPixels, if_pos h]

/-- C38, coverage: if the sensor sends every pixel into the convex hull of the ground positions of the
border pixels, then every pixel's ground position is in the convex hull of the extent's points
(before shapely's final `simplify(0.001)`, see `C38_simplified`). -/
theorem C38_coverage (toLonLat : Nat → K → K → K → K × K) (dem : K → K → K) (highest : K) (bands : List Nat)
    (nx ny : Nat) (hx : nx ≠ 0) (hy : ny ≠ 0) (ground : Nat × Nat → K × K)
    (hground : ∀ p, ground p = toLonLat 0 (p.1 : K) (p.2 : K)
          (dem (toLonLat 0 (p.1 : K) (p.2 : K) highest).1 (toLonLat 0 (p.1 : K) (p.2 : K) highest).2))
    (hull : ∀ p : Nat × Nat, p.1 < nx → p.2 < ny → ground p ∈ convexHull K {g | ∃ q, IsBorder nx ny q ∧ g = ground q}) :
    ∃ l, extentPoints toLonLat dem highest true bands nx ny = .ok l ∧
      ∀ p : Nat × Nat, p.1 < nx → p.2 < ny → ground p ∈ convexHull K {g | g ∈ l} := by
  obtain ⟨l, hl, hm⟩ := C38_points toLonLat dem highest true bands nx ny hx hy
  refine ⟨l, hl, ?_⟩
  intro p h1 h2
  have : {g | g ∈ l} = {g | ∃ q, IsBorder nx ny q ∧ g = ground q} := by
    ext g
    simp only [Set.mem_ofPred_eq, hm, if_true]
    constructor
    · rintro ⟨b, q, rfl, hq, rfl⟩; exact ⟨q, hq, (hground q).symm⟩
    · rintro ⟨q, hq, rfl⟩; exact ⟨0, q, rfl, hq, hground q⟩
  rw [this]
  exact hull p h1 h2

/-- C38, coverage of the returned polygon: `simplify(0.001)` (shapely) only promises that every point
of the hull is within 0.001 of the result; so every pixel's ground position is within 0.001 (in the
units of the DEM's coordinates) of the extent. -/
theorem C38_simplified (toLonLat : Nat → K → K → K → K × K) (dem : K → K → K) (highest : K) (bands : List Nat)
    (nx ny : Nat) (hx : nx ≠ 0) (hy : ny ≠ 0) (ground : Nat × Nat → K × K)
    (hground : ∀ p, ground p = toLonLat 0 (p.1 : K) (p.2 : K)
          (dem (toLonLat 0 (p.1 : K) (p.2 : K) highest).1 (toLonLat 0 (p.1 : K) (p.2 : K) highest).2))
    (hull : ∀ p : Nat × Nat, p.1 < nx → p.2 < ny → ground p ∈ convexHull K {g | ∃ q, IsBorder nx ny q ∧ g = ground q})
    (simplify : Set (K × K) → Set (K × K))
    (hs : ∀ S, ∀ g ∈ S, ∃ q ∈ simplify S, |g.1 - q.1| ≤ 1 / 1000 ∧ |g.2 - q.2| ≤ 1 / 1000) :
    ∃ l, extentPoints toLonLat dem highest true bands nx ny = .ok l ∧
      ∀ p : Nat × Nat, p.1 < nx → p.2 < ny → ∃ q ∈ simplify (convexHull K {g | g ∈ l}),
        |(ground p).1 - q.1| ≤ 1 / 1000 ∧ |(ground p).2 - q.2| ≤ 1 / 1000 := by
  obtain ⟨l, hl, h⟩ := C38_coverage toLonLat dem highest bands nx ny hx hy ground hground hull
  exact ⟨l, hl, fun p h1 h2 => hs _ _ (h p h1 h2)⟩

/-- The coverage hypotheses hold for a sensor that is the identity at altitude 0: pixel `(1, 1)` of a
3 x 3 image is the midpoint of border pixels `(0, 1)` and `(2, 1)`. -/
example : ∀ p : Nat × Nat, p.1 < 3 → p.2 < 3 → ((p.1 : ℚ), (p.2 : ℚ)) ∈
    convexHull ℚ {g | ∃ q, IsBorder 3 3 q ∧ g = ((q.1 : ℚ), (q.2 : ℚ))} := by
  rintro ⟨x, y⟩ h1 h2
  simp only at h1 h2
  by_cases hb : IsBorder 3 3 (x, y)
  · exact subset_convexHull ℚ _ ⟨(x, y), hb, rfl⟩
  · have : x = 1 ∧ y = 1 := by unfold IsBorder at hb; simp only at hb; omega
    obtain ⟨rfl, rfl⟩ := this
    have a : ((0 : ℚ), (1 : ℚ)) ∈ convexHull ℚ {g | ∃ q, IsBorder 3 3 q ∧ g = ((q.1 : ℚ), (q.2 : ℚ))} :=
      subset_convexHull ℚ _ ⟨(0, 1), by unfold IsBorder; decide, by norm_num⟩
    have b : ((2 : ℚ), (1 : ℚ)) ∈ convexHull ℚ {g | ∃ q, IsBorder 3 3 q ∧ g = ((q.1 : ℚ), (q.2 : ℚ))} :=
      subset_convexHull ℚ _ ⟨(2, 1), by unfold IsBorder; decide, by norm_num⟩
    have := (convex_convexHull ℚ _) a b (show (0 : ℚ) ≤ 1 / 2 by norm_num) (show (0 : ℚ) ≤ 1 / 2 by norm_num) (by norm_num)
    convert this using 1
    ext <;> norm_num

example : IsBorder 4 3 (3, 1) ∧ ¬ IsBorder 4 3 (2, 1) := by unfold IsBorder; decide

end

end Verif.Ortho
