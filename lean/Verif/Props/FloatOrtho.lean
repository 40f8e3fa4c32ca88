import Verif.Model.FloatOrtho
import Verif.Props.Ortho
import Verif.Props.RoundedGeo
import Verif.Props.FloatCamera
import Verif.Props.FloatAngles

/-! C198: the orthophoto in double precision. -/

set_option linter.unusedSectionVars false

namespace Verif.Ortho
open Verif ImageUtils Geotiff Grids FloatSpectral Rounded

section
variable {K : Type} [Field K] [LinearOrder K] [IsStrictOrderedRing K]

/-- Specification: `v` is the value of a pixel of `img` whose centre is at most half a pixel and `δ` away from the position `p` in both directions. -/
def ShowsNear (img : A2 K) (cast : K → K) (p : K × K) (δ v : K) : Prop :=
  ∃ row col : Nat, row < img.ny ∧ col < img.nx ∧ |(col : K) - p.1| ≤ 1 / 2 + δ ∧ |(row : K) - p.2| ≤ 1 / 2 + δ ∧ v = cast (img.px row col)

/-- Specification: the position `p` is inside the part of the image that an orthophoto shows (more than 0, less than the size minus two) by more than `δ`. -/
def ShownBy (δ : K) (npixX npixY : Nat) (p : K × K) : Prop :=
  δ < p.1 ∧ p.1 < (npixX : K) - 2 - δ ∧ δ < p.2 ∧ p.2 < (npixY : K) - 2 - δ

/-- Specification: the position `p` is outside the part of the image that an orthophoto shows by at least `δ`. -/
def HiddenBy (δ : K) (npixX npixY : Nat) (p : K × K) : Prop :=
  p.1 ≤ -δ ∨ (npixX : K) - 2 + δ ≤ p.1 ∨ p.2 ≤ -δ ∨ (npixY : K) - 2 + δ ≤ p.2

/-- The image data built from a given ground grid, co-registered bands. -/
theorem orthoR_shared (r : K → K) (resample : A2 K → K → K → K) (s : Source K) (hco : s.coregistered = true)
    (cube : A3 K) (hl : s.loaded = some cube) (nx ny : Nat) (ext : Box K) (gx gy : Nat → Nat → K)
    (hg : groundGridR r ext.minX ext.maxX ext.minY ext.maxY nx ny = .ok (⟨ny, nx, gx⟩, ⟨ny, nx, gy⟩)) (dem : K → K → K) (bands : List Nat) (hne : bands ≠ [])
    (hb : ∀ b ∈ bands, b < cube.nb) (nodata : K) :
    ∃ out, orthoR r resample s nx ny ext dem (some bands) nodata false = .ok out ∧
      out.ny = ny ∧ out.nx = nx ∧ out.nb = bands.length ∧
      ∀ j i k b, j < ny → i < nx → bands[k]? = some b →
        out.px j i k =
          if (s.npixY : K) - 2 ≤ (s.project 0 (gx j i) (gy j i) (dem (gx j i) (gy j i))).2 ∨ (s.project 0 (gx j i) (gy j i) (dem (gx j i) (gy j i))).2 ≤ 0 ∨
            (s.npixX : K) - 2 ≤ (s.project 0 (gx j i) (gy j i) (dem (gx j i) (gy j i))).1 ∨ (s.project 0 (gx j i) (gy j i) (dem (gx j i) (gy j i))).1 ≤ 0 then s.cast nodata
          else s.cast (resample ⟨cube.ny, cube.nx, fun y x => cube.px y x b⟩
            (s.project 0 (gx j i) (gy j i) (dem (gx j i) (gy j i))).2 (s.project 0 (gx j i) (gy j i) (dem (gx j i) (gy j i))).1) := by
  classical
  have : Nonempty (A2 K) := ⟨⟨0, 0, fun _ _ => 0⟩⟩
  set P : Nat → Nat → K × K := fun j i => s.project 0 (gx j i) (gy j i) (dem (gx j i) (gy j i)) with hP
  have hone : ∀ b ∈ bands, ∃ q, orthoBandShared resample s ⟨ny, nx, gx⟩ ⟨ny, nx, gy⟩ ⟨ny, nx, fun j i => dem (gx j i) (gy j i)⟩ nx ny nodata b = .ok q ∧
      ∀ j i, j < ny → i < nx → q.px j i =
        if (s.npixY : K) - 2 ≤ (P j i).2 ∨ (P j i).2 ≤ 0 ∨ (s.npixX : K) - 2 ≤ (P j i).1 ∨ (P j i).1 ≤ 0 then s.cast nodata
        else s.cast (resample ⟨cube.ny, cube.nx, fun y x => cube.px y x b⟩ (P j i).2 (P j i).1) := by
    intro b hbm
    obtain ⟨q, hr, hv⟩ := regrid_ok resample s.cast ⟨cube.ny, cube.nx, fun y x => cube.px y x b⟩ nx ny
      (fun j i => (P j i).2) (fun j i => (P j i).1)
    have hr' := hr
    rw [hP] at hr'
    unfold orthoBandShared
    simp only [hl, getBand, if_pos (hb b hbm), ok_bind, hr']
    refine ⟨_, rfl, ?_⟩
    intro j i hj hi
    simp only [setWhere, hv j i hj hi, hP, decide_eq_true_eq]
    split_ifs <;> first | rfl | (exfalso; tauto)
  choose! g hgo hgv using hone
  obtain ⟨out, ho, e1, e2, e3, e4⟩ := stack2_ok nx ny (bands.map g) (by simpa using hne)
  refine ⟨out, ?_, e1, e2, by simpa using e3, ?_⟩
  · unfold orthoR
    rw [hg]
    simp only [ok_bind, hco, if_true, Option.getD_some]
    rw [collect_ok _ bands g hgo]
    simp only [ok_bind, ho]
    rfl
  · intro j i k b hj hi hk
    have hbm : b ∈ bands := List.mem_of_getElem? hk
    have hv := e4 j i k (g b) (by simp [hk])
    rw [hv, hgv b hbm j i hj hi]

/-- C198, identity: with exact arithmetic the float orthophoto is the orthophoto of `Model/Ortho.lean`: the same size and the same value at every pixel of every band. -/
theorem C198_no_rounding [FloorRing K] (s : Source K) (hco : s.coregistered = true) (cube : A3 K) (hl : s.loaded = some cube) (nx ny : Nat) (h1 : 2 ≤ nx) (h2 : 2 ≤ ny)
    (ext : Box K) (hx : ext.minX ≤ ext.maxX) (hy : ext.minY ≤ ext.maxY) (dem : K → K → K) (bands : List Nat) (hne : bands ≠ []) (hb : ∀ b ∈ bands, b < cube.nb) (nodata : K) :
    ∃ out out', orthoR id (mapCoord0R id) s nx ny ext dem (some bands) nodata false = .ok out ∧ ortho mapCoord0 s nx ny ext dem (some bands) nodata false = .ok out' ∧ out.Same out' := by
  obtain ⟨gx, gy, gx', gy', e, e', s1, s2⟩ := groundGridR_id ext.minX ext.maxX ext.minY ext.maxY nx ny h1 h2
  rw [groundGrid_eq hx hy h1 h2] at e'
  cases e'
  obtain ⟨gxy, gxx, gxp⟩ := gx
  obtain ⟨gyy, gyx, gyp⟩ := gy
  obtain ⟨a1, a2, a3⟩ := s1
  obtain ⟨b1, b2, b3⟩ := s2
  simp only at a1 a2 a3 b1 b2 b3
  subst a1; subst a2; subst b1; subst b2
  obtain ⟨out, ho, c1, c2, c3, c4⟩ := orthoR_shared id (mapCoord0R id) s hco cube hl gyx gyy ext gxp gyp e dem bands hne hb nodata
  obtain ⟨out', ho', d1, d2, d3, d4⟩ := C36_coregistered_exact mapCoord0 s hco cube hl gyx gyy h1 h2 ext hx hy dem bands hne hb nodata
  refine ⟨out, out', ho, ho', by rw [c1, d1], by rw [c2, d2], by rw [c3, d3], fun j i k hj hi hk => ?_⟩
  rw [c1] at hj
  rw [c2] at hi
  rw [c3] at hk
  have hb' := List.getElem?_eq_getElem hk
  rw [c4 j i k _ hj hi hb', d4 j i k _ hj hi hb', a3 j i hj hi, b3 j i hj hi]
  rfl

/-- The index scipy finds for a position is at most half a pixel and the rounding of one addition away, and in the image. -/
theorem near_index [FloorRing K] {r : K → K} {u : K} (hr : Rounds r u) {y η : K} {n : Nat} (h0 : 0 ≤ y) (h1 : y < (n : K) - 2) (hη : u * n ≤ η) (hη1 : η ≤ 1 / 4) (hu : 0 ≤ u) :
    (⌊r (y + 1 / 2)⌋).toNat < n ∧ |(((⌊r (y + 1 / 2)⌋).toNat : Nat) : K) - y| ≤ 1 / 2 + η := by
  have e := hr (y + 1 / 2)
  rw [abs_of_nonneg (by linarith : 0 ≤ y + 1 / 2)] at e
  have e1 : u * (y + 1 / 2) ≤ η := le_trans (mul_le_mul_of_nonneg_left (by linarith) hu) hη
  rw [abs_le] at e
  have l1 := Int.floor_le (r (y + 1 / 2))
  have l2 := Int.lt_floor_add_one (r (y + 1 / 2))
  have hf : 0 ≤ ⌊r (y + 1 / 2)⌋ := Int.floor_nonneg.mpr (by linarith [e.1])
  have hc : (((⌊r (y + 1 / 2)⌋).toNat : Nat) : K) = (⌊r (y + 1 / 2)⌋ : K) := by
    exact_mod_cast congrArg (Int.cast (R := K)) (Int.toNat_of_nonneg hf)
  constructor
  · have : (((⌊r (y + 1 / 2)⌋).toNat : Nat) : K) < n := by rw [hc]; linarith [e.2]
    exact_mod_cast this
  · rw [hc, abs_le]; constructor <;> linarith [e.1, e.2]

/-- C198, any camera: let the computed position of every output pixel be within `δ` of the position `P` it should have.  Then every output pixel whose true position is inside
the shown part of the image by more than `δ` shows a source pixel at most half a pixel, `δ` and one rounding (`η`) away; one that is outside by at least `δ` shows the no-data
value; and on the border, one or the other. -/
theorem C198_nearest [FloorRing K] {r : K → K} {u : K} (hr : Rounds r u) (hu : 0 ≤ u) (s : Source K) (hco : s.coregistered = true)
    (cube : A3 K) (hl : s.loaded = some cube) (hcx : cube.nx = s.npixX) (hcy : cube.ny = s.npixY) {η : K} (hηx : u * s.npixX ≤ η) (hηy : u * s.npixY ≤ η) (hη : η ≤ 1 / 4)
    (nx ny : Nat) (ext : Box K) (gx gy : A2 K)
    (hg : groundGridR r ext.minX ext.maxX ext.minY ext.maxY nx ny = .ok (gx, gy)) (dem : K → K → K) (bands : List Nat) (hne : bands ≠ [])
    (hb : ∀ b ∈ bands, b < cube.nb) (nodata : K) (P : Nat → Nat → K × K) (δ : K)
    (herr : ∀ j i, j < ny → i < nx → |(s.project 0 (gx.px j i) (gy.px j i) (dem (gx.px j i) (gy.px j i))).1 - (P j i).1| ≤ δ ∧
      |(s.project 0 (gx.px j i) (gy.px j i) (dem (gx.px j i) (gy.px j i))).2 - (P j i).2| ≤ δ) :
    ∃ out, orthoR r (mapCoord0R r) s nx ny ext dem (some bands) nodata false = .ok out ∧
      out.ny = ny ∧ out.nx = nx ∧ out.nb = bands.length ∧
      ∀ j i k b, j < ny → i < nx → bands[k]? = some b →
        (ShownBy δ s.npixX s.npixY (P j i) → ShowsNear ⟨cube.ny, cube.nx, fun y x => cube.px y x b⟩ s.cast (P j i) (δ + η) (out.px j i k)) ∧
        (HiddenBy δ s.npixX s.npixY (P j i) → out.px j i k = s.cast nodata) ∧
        (out.px j i k = s.cast nodata ∨ ShowsNear ⟨cube.ny, cube.nx, fun y x => cube.px y x b⟩ s.cast (P j i) (δ + η) (out.px j i k)) := by
  have sh : gx.ny = ny ∧ gx.nx = nx ∧ gy.ny = ny ∧ gy.nx = nx := by
    unfold groundGridR at hg
    simp only [] at hg
    split_ifs at hg
    cases hg
    exact ⟨rfl, rfl, rfl, rfl⟩
  obtain ⟨gxy, gxx, gxp⟩ := gx
  obtain ⟨gyy, gyx, gyp⟩ := gy
  obtain ⟨a, b, c, d⟩ := sh
  simp only at a b c d
  subst a; subst b; subst c; subst d
  obtain ⟨out, ho, e1, e2, e3, hv⟩ := orthoR_shared r (mapCoord0R r) s hco cube hl gyx gyy ext gxp gyp hg dem bands hne hb nodata
  refine ⟨out, ho, e1, e2, e3, ?_⟩
  intro j i k b hj hi hk
  have hval := hv j i k b hj hi hk
  obtain ⟨ex, ey⟩ := herr j i hj hi
  simp only at ex ey
  generalize s.project 0 (gxp j i) (gyp j i) (dem (gxp j i) (gyp j i)) = q at *
  rw [abs_le] at ex ey
  have near : ¬ ((s.npixY : K) - 2 ≤ q.2 ∨ q.2 ≤ 0 ∨ (s.npixX : K) - 2 ≤ q.1 ∨ q.1 ≤ 0) →
      ShowsNear ⟨cube.ny, cube.nx, fun y x => cube.px y x b⟩ s.cast (P j i) (δ + η) (out.px j i k) := by
    intro h
    rw [if_neg h] at hval
    push Not at h
    obtain ⟨h1, h2, h3, h4⟩ := h
    obtain ⟨r1, r2⟩ := near_index hr h2.le h1 hηy hη hu
    obtain ⟨c1, c2⟩ := near_index hr h4.le h3 hηx hη hu
    refine ⟨_, _, by rw [← hcy] at r1; exact r1, by rw [← hcx] at c1; exact c1, ?_, ?_, ?_⟩
    · rw [abs_le] at c2 ⊢
      constructor <;> linarith [c2.1, c2.2, ex.1, ex.2]
    · rw [abs_le] at r2 ⊢
      constructor <;> linarith [r2.1, r2.2, ey.1, ey.2]
    · rw [hval, mapCoord0R, if_neg]
      simp only [hcx, hcy]
      push Not
      exact ⟨h2.le, by linarith, h4.le, by linarith⟩
  refine ⟨?_, ?_, ?_⟩
  · rintro ⟨a1, a2, a3, a4⟩
    refine near ?_
    rintro (h | h | h | h) <;> linarith [ex.1, ex.2, ey.1, ey.2]
  · intro h
    rw [hval, if_pos]
    rcases h with h | h | h | h
    · exact Or.inr (Or.inr (Or.inr (by linarith [ex.2])))
    · exact Or.inr (Or.inr (Or.inl (by linarith [ex.1])))
    · exact Or.inr (Or.inl (by linarith [ey.2]))
    · exact Or.inl (by linarith [ey.1])
  · by_cases h : ((s.npixY : K) - 2 ≤ q.2 ∨ q.2 ≤ 0 ∨ (s.npixX : K) - 2 ≤ q.1 ∨ q.1 ≤ 0)
    · exact Or.inl (by rw [hval, if_pos h])
    · exact Or.inr (near h)

end

end Verif.Ortho

namespace Verif.FloatGeom
open Verif ImageUtils FloatSpectral Camera

/-- How far the exact pixel moves when the point moves by `t` (summed along the axes): at most eleven times `t` over the depth, times the focal length in pixels. -/
theorem pixel_moves (c : Fpa) (hm : ∀ i j, |c.cam.m i j| ≤ 1) (hpx : 0 < c.pitchX) (hpy : 0 < c.pitchY) (p p' : Fin 3 → ℝ) {t : ℝ} (ht : dist1 p p' ≤ t)
    (hZ : camFrame c.cam.m c.cam.pos p 2 ≠ 0) (hd : dist1 c.cam.pos p ≤ 9 * |camFrame c.cam.m c.cam.pos p 2|) (h11 : 11 * t ≤ |camFrame c.cam.m c.cam.pos p 2|) :
    camFrame c.cam.m c.cam.pos p' 2 ≠ 0 ∧ dist1 c.cam.pos p' ≤ 10 * |camFrame c.cam.m c.cam.pos p' 2| ∧
    ∃ q q', c.pixel p = some q ∧ c.pixel p' = some q' ∧ |q'.1 - q.1| ≤ |c.cam.f| / c.pitchX * (11 * t / |camFrame c.cam.m c.cam.pos p 2|) ∧
      |q'.2 - q.2| ≤ |c.cam.f| / c.pitchY * (11 * t / |camFrame c.cam.m c.cam.pos p 2|) := by
  have t0 : 0 ≤ t := le_trans (by unfold dist1; positivity) ht
  have hmul : ∀ i j (x : ℝ), |c.cam.m i j * x| ≤ |x| := by
    intro i j x
    rw [abs_mul]
    exact mul_le_of_le_one_left (abs_nonneg x) (hm i j)
  have row : ∀ (i : Fin 3) (a b : Fin 3 → ℝ), |c.cam.m i 0 * (b 0 - a 0) + c.cam.m i 1 * (b 1 - a 1) + c.cam.m i 2 * (b 2 - a 2)| ≤ dist1 a b := by
    intro i a b
    refine (abs_add_three _ _ _).trans ?_
    unfold dist1
    linarith [hmul i 0 (b 0 - a 0), hmul i 1 (b 1 - a 1), hmul i 2 (b 2 - a 2)]
  have size : ∀ i, |camFrame c.cam.m c.cam.pos p i| ≤ dist1 c.cam.pos p := by
    intro i
    rw [camFrame_apply]
    exact row i _ _
  have move : ∀ i, |camFrame c.cam.m c.cam.pos p' i - camFrame c.cam.m c.cam.pos p i| ≤ t := by
    intro i
    rw [camFrame_apply, camFrame_apply]
    refine le_trans (le_of_eq ?_) ((row i p p').trans ht)
    congr 1
    ring
  set Z := camFrame c.cam.m c.cam.pos p 2 with hZd
  set Z' := camFrame c.cam.m c.cam.pos p' 2 with hZd'
  have z0 : 0 < |Z| := abs_pos.mpr hZ
  have hZ' : 10 / 11 * |Z| ≤ |Z'| := by
    have := abs_sub_abs_le_abs_sub Z Z'
    rw [abs_sub_comm] at this
    linarith [move 2]
  have z0' : 0 < |Z'| := by linarith
  have n0 : Z' ≠ 0 := abs_pos.mp z0'
  have hdd : dist1 c.cam.pos p' ≤ dist1 c.cam.pos p + t := by
    refine le_trans ?_ (add_le_add_right ht _)
    unfold dist1
    have := fun i => abs_sub_le (p' i) (p i) (c.cam.pos i)
    linarith [this 0, this 1, this 2]
  have quot : ∀ i, |camFrame c.cam.m c.cam.pos p' i / Z' - camFrame c.cam.m c.cam.pos p i / Z| ≤ 11 * t / |Z| := by
    intro i
    have e : camFrame c.cam.m c.cam.pos p' i / Z' - camFrame c.cam.m c.cam.pos p i / Z =
        ((camFrame c.cam.m c.cam.pos p' i - camFrame c.cam.m c.cam.pos p i) - camFrame c.cam.m c.cam.pos p i / Z * (Z' - Z)) / Z' := by
      field_simp
      ring
    have q9 : |camFrame c.cam.m c.cam.pos p i / Z| ≤ 9 := by
      rw [abs_div, div_le_iff₀ z0]
      exact (size i).trans hd
    rw [e, abs_div]
    have num : |(camFrame c.cam.m c.cam.pos p' i - camFrame c.cam.m c.cam.pos p i) - camFrame c.cam.m c.cam.pos p i / Z * (Z' - Z)| ≤ 10 * t := by
      refine (abs_sub _ _).trans ?_
      rw [abs_mul]
      have := mul_le_mul q9 (move 2) (abs_nonneg _) (by norm_num)
      linarith [move i]
    rw [div_le_div_iff₀ z0' z0]
    have := mul_le_mul_of_nonneg_right num z0.le
    nlinarith
  refine ⟨n0, by linarith, ?_⟩
  have coord : ∀ (flip : Bool) (n pitch a b : ℝ), 0 < pitch → |b - a| ≤ 11 * t / |Z| →
      |((if flip then (-1 : ℝ) else 1) * (-c.cam.f * b) / pitch + n / 2) - ((if flip then (-1 : ℝ) else 1) * (-c.cam.f * a) / pitch + n / 2)| ≤ |c.cam.f| / pitch * (11 * t / |Z|) := by
    intro flip n pitch a b hp hab
    have e : ((if flip then (-1 : ℝ) else 1) * (-c.cam.f * b) / pitch + n / 2) - ((if flip then (-1 : ℝ) else 1) * (-c.cam.f * a) / pitch + n / 2) =
        (if flip then (-1 : ℝ) else 1) * (-(c.cam.f / pitch * (b - a))) := by
      field_simp
      ring
    have e1 : |(if flip then (-1 : ℝ) else 1)| = 1 := by cases flip <;> simp
    rw [e, abs_mul, e1, one_mul, abs_neg, abs_mul, abs_div, abs_of_pos hp]
    exact mul_le_mul_of_nonneg_left hab (by positivity)
  refine ⟨(_, _), (_, _), ?_, ?_, coord c.flipX c.npixX c.pitchX _ _ hpx (quot 0), coord c.flipY c.npixY c.pitchY _ _ hpy (quot 1)⟩
  · rw [pixel_eq c _ hpx.ne' hpy.ne', imagePlane_eq, if_neg hZ]
    rfl
  · rw [pixel_eq c _ hpx.ne' hpy.ne', imagePlane_eq, if_neg n0]
    rfl

end Verif.FloatGeom

namespace Verif.Ortho
open Verif ImageUtils Geotiff Grids FloatSpectral Rounded FloatGeom Camera

/-- Specification: the ground point that output pixel `(j, i)` stands for: the centre of its cell at the elevation of the terrain there. -/
noncomputable def groundPoint (ext : Box ℝ) (dem : ℝ → ℝ → ℝ) (nx ny j i : Nat) : Fin 3 → ℝ :=
  let g := cellCentre ext.minX ext.maxX ext.minY ext.maxY nx ny j i
  ![g.1, g.2, dem g.1 g.2]

/-- C198 for the frame camera in double precision, with a library good to the last bit.  The elevations the code computes are off by at most `h` (which includes how the terrain
changes over the rounding of the ground position), every point is at least `D` deep and not more than nine times as far away as it is deep.  Then the position of each output
pixel in the source image is off by at most `δ`, where `t` bounds how far the computed ground point is off. -/
theorem C198_camera {L : Lib} (hL : L.Good (1 / 2 ^ 52)) (hr : L.r = Rounding.fl 53) (t1 t2 : Fin 3 → Fin 3 → DotTree) (c : Fpa) (w ph k : ℝ)
    (hm : c.cam.m = Rotation.createM w ph k "rpy") (hpx : 0 < c.pitchX) (hpy : 0 < c.pitchY)
    (s : Source ℝ) (hco : s.coregistered = true) (hnx : c.npixX = s.npixX) (hny : c.npixY = s.npixY) (hsx : s.npixX ≤ 10 ^ 6) (hsy : s.npixY ≤ 10 ^ 6)
    (hproj : ∀ x y z q, fpaPixelR L.r c (createMR L t1 t2 w ph k "rpy") ![x, y, z] = some q → s.project 0 x y z = q)
    (cube : A3 ℝ) (hl : s.loaded = some cube) (hcx : cube.nx = s.npixX) (hcy : cube.ny = s.npixY)
    (nx ny : Nat) (h1 : 2 ≤ nx) (h2 : 2 ≤ ny) (h1' : nx ≤ 2 ^ 53) (h2' : ny ≤ 2 ^ 53) (ext : Box ℝ) (hx : ext.minX ≤ ext.maxX) (hy : ext.minY ≤ ext.maxY)
    (dem demF : ℝ → ℝ → ℝ) (h t D δ : ℝ)
    (hdem : ∀ j i, j < ny → i < nx → ∀ x y, |x - (cellCentre ext.minX ext.maxX ext.minY ext.maxY nx ny j i).1| ≤ 10 * (Rounding.unit 53 * (|ext.minX| + (ext.maxX - ext.minX))) →
      |y - (cellCentre ext.minX ext.maxX ext.minY ext.maxY nx ny j i).2| ≤ 10 * (Rounding.unit 53 * (|ext.minY| + (ext.maxY - ext.minY))) →
      |demF x y - dem (cellCentre ext.minX ext.maxX ext.minY ext.maxY nx ny j i).1 (cellCentre ext.minX ext.maxX ext.minY ext.maxY nx ny j i).2| ≤ h)
    (ht : 10 * (Rounding.unit 53 * (|ext.minX| + (ext.maxX - ext.minX))) + 10 * (Rounding.unit 53 * (|ext.minY| + (ext.maxY - ext.minY))) + h ≤ t)
    (hD : 0 < D) (htD : 11 * t ≤ D)
    (hdeep : ∀ j i, j < ny → i < nx → D ≤ |camFrame c.cam.m c.cam.pos (groundPoint ext dem nx ny j i) 2| ∧
      dist1 c.cam.pos (groundPoint ext dem nx ny j i) ≤ 9 * |camFrame c.cam.m c.cam.pos (groundPoint ext dem nx ny j i) 2|)
    (hδx : |c.cam.f| / c.pitchX * (11 * t / D) + (2 * (|c.cam.f| / c.pitchX) + s.npixX) / 10 ^ 12 ≤ δ)
    (hδy : |c.cam.f| / c.pitchY * (11 * t / D) + (2 * (|c.cam.f| / c.pitchY) + s.npixY) / 10 ^ 12 ≤ δ)
    (bands : List Nat) (hne : bands ≠ []) (hb : ∀ b ∈ bands, b < cube.nb) (nodata : ℝ) :
    ∃ out, orthoR L.r (mapCoord0R L.r) s nx ny ext demF (some bands) nodata false = .ok out ∧
      out.ny = ny ∧ out.nx = nx ∧ out.nb = bands.length ∧
      ∀ j i, j < ny → i < nx → ∃ P, c.pixel (groundPoint ext dem nx ny j i) = some P ∧ ∀ k b, bands[k]? = some b →
        (ShownBy δ s.npixX s.npixY P → ShowsNear ⟨cube.ny, cube.nx, fun y x => cube.px y x b⟩ s.cast P (δ + 1 / 10 ^ 9) (out.px j i k)) ∧
        (HiddenBy δ s.npixX s.npixY P → out.px j i k = s.cast nodata) ∧
        (out.px j i k = s.cast nodata ∨ ShowsNear ⟨cube.ny, cube.nx, fun y x => cube.px y x b⟩ s.cast P (δ + 1 / 10 ^ 9) (out.px j i k)) := by
  obtain ⟨gx, gy, hg, -, -, -, -, hgv⟩ := C137_error (K := ℝ) (p := 53) (by norm_num) ext.minX ext.maxX ext.minY ext.maxY hx hy nx ny h1 h2 h1' h2'
  rw [← hr] at hg
  have hm1 : ∀ i j, |c.cam.m i j| ≤ 1 := by
    intro i j
    have eM : Rotation.createM w ph k "rpy" = Rotation.mRpy w ph k := by simp [Rotation.createM]
    rw [hm, eM]
    exact (mRpyR_approx hL (by positivity) w ph k i j).size
  have key : ∀ j i, j < ny → i < nx → ∃ P, c.pixel (groundPoint ext dem nx ny j i) = some P ∧
      |(s.project 0 (gx.px j i) (gy.px j i) (demF (gx.px j i) (gy.px j i))).1 - P.1| ≤ δ ∧
      |(s.project 0 (gx.px j i) (gy.px j i) (demF (gx.px j i) (gy.px j i))).2 - P.2| ≤ δ := by
    intro j i hj hi
    obtain ⟨ex, ey⟩ := hgv j i hj hi
    obtain ⟨hZ, hd⟩ := hdeep j i hj hi
    have z0 : 0 < |camFrame c.cam.m c.cam.pos (groundPoint ext dem nx ny j i) 2| := by linarith
    have hdist : dist1 (groundPoint ext dem nx ny j i) ![gx.px j i, gy.px j i, demF (gx.px j i) (gy.px j i)] ≤ t := by
      have e3 := hdem j i hj hi _ _ ex ey
      have : dist1 (groundPoint ext dem nx ny j i) ![gx.px j i, gy.px j i, demF (gx.px j i) (gy.px j i)] =
        |gx.px j i - (cellCentre ext.minX ext.maxX ext.minY ext.maxY nx ny j i).1| + |gy.px j i - (cellCentre ext.minX ext.maxX ext.minY ext.maxY nx ny j i).2| +
        |demF (gx.px j i) (gy.px j i) - dem (cellCentre ext.minX ext.maxX ext.minY ext.maxY nx ny j i).1 (cellCentre ext.minX ext.maxX ext.minY ext.maxY nx ny j i).2| := rfl
      rw [this]
      linarith
    obtain ⟨n0, d10, q, q', hq, hq', bx, bY⟩ := pixel_moves c hm1 hpx hpy _ _ hdist (abs_pos.mp z0) hd (htD.trans hZ)
    obtain ⟨p, p', hp, hp', cx, cy⟩ := C181_double hL t1 t2 c w ph k hm hpx hpy (by rw [hnx]; positivity) (by rw [hny]; positivity) _ n0 d10
    rw [hq'] at hp
    cases hp
    rw [hproj _ _ _ _ hp']
    have t0 : 0 ≤ t := le_trans (by unfold dist1; positivity) hdist
    have mono : 11 * t / |camFrame c.cam.m c.cam.pos (groundPoint ext dem nx ny j i) 2| ≤ 11 * t / D :=
      div_le_div_of_nonneg_left (by positivity) hD hZ
    refine ⟨q, hq, ?_, ?_⟩
    · refine (abs_sub_le _ q'.1 _).trans ?_
      rw [hnx] at cx
      have := mul_le_mul_of_nonneg_left mono (by positivity : 0 ≤ |c.cam.f| / c.pitchX)
      linarith
    · refine (abs_sub_le _ q'.2 _).trans ?_
      rw [hny] at cy
      have := mul_le_mul_of_nonneg_left mono (by positivity : 0 ≤ |c.cam.f| / c.pitchY)
      linarith
  choose! P hP hP1 hP2 using key
  have size : ∀ n : Nat, n ≤ 10 ^ 6 → (1 / 2 ^ 52 : ℝ) * n ≤ 1 / 10 ^ 9 := by
    intro n hn
    have : (n : ℝ) ≤ 10 ^ 6 := by exact_mod_cast hn
    have h2 : (0 : ℝ) ≤ n := Nat.cast_nonneg n
    calc (1 / 2 ^ 52 : ℝ) * n ≤ 1 / 2 ^ 52 * 10 ^ 6 := mul_le_mul_of_nonneg_left this (by positivity)
      _ ≤ 1 / 10 ^ 9 := by norm_num
  obtain ⟨out, ho, e1, e2, e3, hv⟩ := C198_nearest hL.arith (by positivity) s hco cube hl hcx hcy (η := 1 / 10 ^ 9) (size _ hsx) (size _ hsy) (by norm_num) nx ny ext gx gy hg demF
    bands hne hb nodata P δ (fun j i hj hi => ⟨hP1 j i hj hi, hP2 j i hj hi⟩)
  exact ⟨out, ho, e1, e2, e3, fun j i hj hi => ⟨P j i, hP j i hj hi, fun k b hk => hv j i k b hj hi hk⟩⟩

/-- C198 in double precision over flat terrain (also the default, elevation 0): coordinates up to thirty thousand kilometres in all, points at least ten metres deep, a focal
length of at most a hundred thousand pixels and at most a million pixels per side.  Every output pixel shows a source pixel whose centre is within 0.52 pixels of where the
ground point is in the image, and the border between image and no-data value is off by at most a hundredth of a pixel. -/
theorem C198_flat {L : Lib} (hL : L.Good (1 / 2 ^ 52)) (hr : L.r = Rounding.fl 53) (t1 t2 : Fin 3 → Fin 3 → DotTree) (c : Fpa) (w ph k : ℝ)
    (hm : c.cam.m = Rotation.createM w ph k "rpy") (hpx : 0 < c.pitchX) (hpy : 0 < c.pitchY)
    (hfx : |c.cam.f| / c.pitchX ≤ 10 ^ 5) (hfy : |c.cam.f| / c.pitchY ≤ 10 ^ 5)
    (s : Source ℝ) (hco : s.coregistered = true) (hnx : c.npixX = s.npixX) (hny : c.npixY = s.npixY) (hsx : s.npixX ≤ 10 ^ 6) (hsy : s.npixY ≤ 10 ^ 6)
    (hproj : ∀ x y z q, fpaPixelR L.r c (createMR L t1 t2 w ph k "rpy") ![x, y, z] = some q → s.project 0 x y z = q)
    (cube : A3 ℝ) (hl : s.loaded = some cube) (hcx : cube.nx = s.npixX) (hcy : cube.ny = s.npixY)
    (nx ny : Nat) (h1 : 2 ≤ nx) (h2 : 2 ≤ ny) (h1' : nx ≤ 2 ^ 53) (h2' : ny ≤ 2 ^ 53) (ext : Box ℝ) (hx : ext.minX ≤ ext.maxX) (hy : ext.minY ≤ ext.maxY)
    (hex : |ext.minX| + (ext.maxX - ext.minX) ≤ 3 * 10 ^ 7) (hey : |ext.minY| + (ext.maxY - ext.minY) ≤ 3 * 10 ^ 7) (e : ℝ)
    (hdeep : ∀ j i, j < ny → i < nx → 10 ≤ |camFrame c.cam.m c.cam.pos (groundPoint ext (fun _ _ => e) nx ny j i) 2| ∧
      dist1 c.cam.pos (groundPoint ext (fun _ _ => e) nx ny j i) ≤ 9 * |camFrame c.cam.m c.cam.pos (groundPoint ext (fun _ _ => e) nx ny j i) 2|)
    (bands : List Nat) (hne : bands ≠ []) (hb : ∀ b ∈ bands, b < cube.nb) (nodata : ℝ) :
    ∃ out, orthoR L.r (mapCoord0R L.r) s nx ny ext (fun _ _ => e) (some bands) nodata false = .ok out ∧
      out.ny = ny ∧ out.nx = nx ∧ out.nb = bands.length ∧
      ∀ j i, j < ny → i < nx → ∃ P, c.pixel (groundPoint ext (fun _ _ => e) nx ny j i) = some P ∧ ∀ k b, bands[k]? = some b →
        (ShownBy (1 / 100) s.npixX s.npixY P → ShowsNear ⟨cube.ny, cube.nx, fun y x => cube.px y x b⟩ s.cast P (1 / 50) (out.px j i k)) ∧
        (HiddenBy (1 / 100) s.npixX s.npixY P → out.px j i k = s.cast nodata) ∧
        (out.px j i k = s.cast nodata ∨ ShowsNear ⟨cube.ny, cube.nx, fun y x => cube.px y x b⟩ s.cast P (1 / 50) (out.px j i k)) := by
  have hu : Rounding.unit (K := ℝ) 53 = 1 / 2 ^ 53 := by norm_num [Rounding.unit]
  have bound : ∀ (F : ℝ) (n : Nat), F ≤ 10 ^ 5 → n ≤ 10 ^ 6 → F * (11 * (7 / 10 ^ 8) / 10) + (2 * F + n) / 10 ^ 12 ≤ 1 / 100 := by
    intro F n hF hn
    have : (n : ℝ) ≤ 10 ^ 6 := by exact_mod_cast hn
    linarith
  obtain ⟨out, ho, e1, e2, e3, hv⟩ := C198_camera hL hr t1 t2 c w ph k hm hpx hpy s hco hnx hny hsx hsy hproj cube hl hcx hcy nx ny h1 h2 h1' h2' ext hx hy (fun _ _ => e) (fun _ _ => e)
    0 (7 / 10 ^ 8) 10 (1 / 100) (by intros; simp) (by rw [hu]; linarith) (by norm_num) (by norm_num) hdeep (bound _ _ hfx hsx) (bound _ _ hfy hsy) bands hne hb nodata
  have weaken : ∀ img cast P v, ShowsNear img cast P ((1 : ℝ) / 100 + 1 / 10 ^ 9) v → ShowsNear img cast P (1 / 50) v := by
    rintro img cast P v ⟨row, col, a, b, x, y, z⟩
    exact ⟨row, col, a, b, x.trans (by norm_num), y.trans (by norm_num), z⟩
  refine ⟨out, ho, e1, e2, e3, fun j i hj hi => ?_⟩
  obtain ⟨P, hP, hk⟩ := hv j i hj hi
  refine ⟨P, hP, fun k b hb => ?_⟩
  obtain ⟨x, y, z⟩ := hk k b hb
  exact ⟨fun h => weaken _ _ _ _ (x h), y, z.imp_right (weaken _ _ _ _)⟩

/-- Beside `C198_flat` (and so `C198_camera` and `C198_nearest`): a camera 100 m above the ground looking down, one metre per pixel, 8 by 8 pixels of one band, onto 4 by 4 cells of one
metre.  The upper left output pixel is at position (2.5, 5.5) of the source. -/
example (cube : A3 ℝ) (hc : cube.nx = 8 ∧ cube.ny = 8 ∧ cube.nb = 1) : ∃ (cam : Fpa) (s : Source ℝ) (out : A3 ℝ),
    cam = ⟨⟨![0, 0, 100], 1, Rotation.createM 0 0 0 "rpy"⟩, 1 / 100, 1 / 100, 8, 8, false, false⟩ ∧
    s.project = (fun _ x y z => (fpaPixelR lib64.r cam (createMR lib64 (fun _ _ => .mul 0) (fun _ _ => .mul 0) 0 0 0 "rpy") ![x, y, z]).getD (0, 0)) ∧
    orthoR lib64.r (mapCoord0R lib64.r) s 4 4 ⟨-2, -2, 2, 2⟩ (fun _ _ => 0) (some [0]) (-1) false = .ok out ∧
    cam.pixel (groundPoint ⟨-2, -2, 2, 2⟩ (fun _ _ => 0) 4 4 0 0) = some (5 / 2, 11 / 2) ∧
    ShowsNear ⟨cube.ny, cube.nx, fun y x => cube.px y x 0⟩ id (5 / 2, 11 / 2) (1 / 50) (out.px 0 0 0) := by
  have g : lib64.Good (1 / 2 ^ 52) := by
    have g := lib64_good
    have w : ∀ x : ℝ, (1 / 2 ^ 53 : ℝ) * |x| ≤ 1 / 2 ^ 52 * |x| := fun x => mul_le_mul_of_nonneg_right (by norm_num) (abs_nonneg x)
    exact ⟨fun x => (g.arith x).trans (w _), fun x => (g.sin x).trans (w _), fun x => (g.cos x).trans (w _), fun x a b => (g.arcsin x a b).trans (w _),
      fun x a b => (g.arccos x a b).trans (w _)⟩
  have e1 : Rotation.createM 0 0 0 "rpy" = 1 := by
    simp only [Rotation.createM, if_true]
    ext i j
    fin_cases i <;> fin_cases j <;> simp [Rotation.mRpy]
  let c : Fpa := ⟨⟨![0, 0, 100], 1, Rotation.createM 0 0 0 "rpy"⟩, 1 / 100, 1 / 100, 8, 8, false, false⟩
  have hcm : c.cam.m = 1 := e1
  have z : ∀ i j : Fin 3, i ≠ j → (1 : Rotation.M3) i j = 0 := fun i j h => Matrix.one_apply_ne h
  have o : ∀ i : Fin 3, (1 : Rotation.M3) i i = 1 := fun i => Matrix.one_apply_eq i
  have fr : ∀ p : Fin 3 → ℝ, camFrame c.cam.m c.cam.pos p 0 = p 0 ∧ camFrame c.cam.m c.cam.pos p 1 = p 1 ∧ camFrame c.cam.m c.cam.pos p 2 = p 2 - 100 := by
    intro p
    simp only [camFrame_apply, hcm, z 0 1 (by decide), z 0 2 (by decide), z 1 0 (by decide), z 1 2 (by decide), z 2 0 (by decide), z 2 1 (by decide), o]
    have e0 : c.cam.pos 0 = 0 := rfl
    have e1 : c.cam.pos 1 = 0 := rfl
    have e2 : c.cam.pos 2 = 100 := rfl
    rw [e0, e1, e2]
    refine ⟨?_, ?_, ?_⟩ <;> ring
  let s : Source ℝ := ⟨8, 8, 1, true, some cube, fun _ => .error .typeError,
    fun _ x y z => (fpaPixelR lib64.r c (createMR lib64 (fun _ _ => .mul 0) (fun _ _ => .mul 0) 0 0 0 "rpy") ![x, y, z]).getD (0, 0), id⟩
  have gp : ∀ j i : Nat, groundPoint ⟨-2, -2, 2, 2⟩ (fun _ _ => 0) 4 4 j i 0 = -2 + ((i : ℝ) + 1 / 2) ∧ groundPoint ⟨-2, -2, 2, 2⟩ (fun _ _ => 0) 4 4 j i 1 = 2 - ((j : ℝ) + 1 / 2) ∧
      groundPoint ⟨-2, -2, 2, 2⟩ (fun _ _ => 0) 4 4 j i 2 = 0 := by
    intro j i
    refine ⟨?_, ?_, rfl⟩
    · change (-2 : ℝ) + ((i : ℝ) + 1 / 2) * ((2 - -2) / ((4 : Nat) : ℝ)) = _
      push_cast
      ring
    · change (2 : ℝ) - ((j : ℝ) + 1 / 2) * ((2 - -2) / ((4 : Nat) : ℝ)) = _
      push_cast
      ring
  have px : c.pixel (groundPoint ⟨-2, -2, 2, 2⟩ (fun _ _ => 0) 4 4 0 0) = some (5 / 2, 11 / 2) := by
    obtain ⟨f0, f1, f2⟩ := fr (groundPoint ⟨-2, -2, 2, 2⟩ (fun _ _ => 0) 4 4 0 0)
    rw [(gp 0 0).1] at f0
    rw [(gp 0 0).2.1] at f1
    rw [(gp 0 0).2.2] at f2
    rw [pixel_eq c _ (by norm_num [c]) (by norm_num [c]), imagePlane_eq, if_neg (show ¬ camFrame c.cam.m c.cam.pos _ 2 = 0 by rw [f2]; norm_num), f0, f1, f2]
    norm_num [c]
  obtain ⟨out, ho, -, -, -, hv⟩ := C198_flat g rfl (fun _ _ => .mul 0) (fun _ _ => .mul 0) c 0 0 0 rfl (by norm_num [c]) (by norm_num [c]) (by norm_num [c]) (by norm_num [c])
    s rfl (by norm_num [c, s]) (by norm_num [c, s]) (by norm_num [s]) (by norm_num [s]) (by intro x y z q h; simp only [s, h, Option.getD_some]) cube rfl hc.1 hc.2.1 4 4
    (by norm_num) (by norm_num) (by norm_num) (by norm_num) ⟨-2, -2, 2, 2⟩ (by norm_num) (by norm_num) (by norm_num) (by norm_num) 0 (by
      intro j i hj hi
      rw [(fr _).2.2]
      obtain ⟨d0, d1, d2⟩ := gp j i
      unfold dist1
      rw [d0, d1, d2]
      have e0 : c.cam.pos 0 = 0 := rfl
      have e1 : c.cam.pos 1 = 0 := rfl
      have e2 : c.cam.pos 2 = 100 := rfl
      rw [e0, e1, e2]
      have i0 : (0 : ℝ) ≤ i := Nat.cast_nonneg i
      have j0 : (0 : ℝ) ≤ j := Nat.cast_nonneg j
      have i1 : (i : ℝ) ≤ 3 := by exact_mod_cast (by omega : i ≤ 3)
      have j1 : (j : ℝ) ≤ 3 := by exact_mod_cast (by omega : j ≤ 3)
      have a0 : |-2 + ((i : ℝ) + 1 / 2) - 0| ≤ 2 := by rw [abs_le]; constructor <;> linarith
      have a1 : |2 - ((j : ℝ) + 1 / 2) - 0| ≤ 2 := by rw [abs_le]; constructor <;> linarith
      norm_num at a0 a1 ⊢
      linarith) [0] (by simp) (by simp [hc.2.2]) (-1)
  obtain ⟨P, hP, hk⟩ := hv 0 0 (by norm_num) (by norm_num)
  rw [px] at hP
  cases hP
  exact ⟨c, s, out, rfl, rfl, ho, px, (hk 0 0 rfl).1 (by unfold ShownBy; norm_num [s])⟩

/-- C198: the nearest pixel itself is not guaranteed.  At the position just below the middle between rows 0 and 1, every image with at least two rows and one column gives row 1
in double precision, row 0 in exact arithmetic. -/
theorem C198_tie (img : A2 ℚ) (hy : 2 ≤ img.ny) (hx : 1 ≤ img.nx) :
    mapCoord0R (Rounding.fl 53) img (1 / 2 - 1 / 2 ^ 54) 0 = img.px 1 0 ∧ mapCoord0 img (1 / 2 - 1 / 2 ^ 54) 0 = img.px 0 0 := by
  have h1 : (2 : ℚ) ≤ img.ny := by exact_mod_cast hy
  have h2 : (1 : ℚ) ≤ img.nx := by exact_mod_cast hx
  have c : ¬ ((1 / 2 - 1 / 2 ^ 54 : ℚ) < 0 ∨ (img.ny : ℚ) - 1 < 1 / 2 - 1 / 2 ^ 54 ∨ (0 : ℚ) < 0 ∨ (img.nx : ℚ) - 1 < 0) := by
    push Not
    norm_num
    constructor <;> linarith
  have a1 : ⌊Rounding.fl 53 ((1 / 2 - 1 / 2 ^ 54 : ℚ) + 1 / 2)⌋ = 1 := by decide +kernel
  have a2 : ⌊Rounding.fl 53 ((0 : ℚ) + 1 / 2)⌋ = 0 := by decide +kernel
  have a3 : ⌊(1 / 2 - 1 / 2 ^ 54 : ℚ) + 1 / 2⌋ = 0 := by decide +kernel
  have a4 : ⌊(0 : ℚ) + 1 / 2⌋ = 0 := by decide +kernel
  unfold mapCoord0R mapCoord0
  rw [if_neg c, if_neg c, a1, a2, a3, a4]
  exact ⟨rfl, rfl⟩

end Verif.Ortho
