import Verif.Props.FloatOrtho

/-! C198: the transparency band of the orthophoto in float arithmetic. -/

set_option linter.unusedSectionVars false

namespace Verif.Ortho
open Verif ImageUtils Geotiff Grids FloatSpectral Rounded

section
variable {K : Type} [Field K] [LinearOrder K] [IsStrictOrderedRing K]

/-- The masked float orthophoto in terms of the plain one. -/
theorem orthoR_masked (r : K → K) (resample : A2 K → K → K → K) (s : Source K) (nx ny : Nat) (ext : Box K) (dem : K → K → K) (bands : Option (List Nat))
    (nodata : K) (out : A3 K) (h : orthoR r resample s nx ny ext dem bands nodata false = .ok out) :
    orthoR r resample s nx ny ext dem bands nodata true = maskImage s.cast out nodata := by
  unfold orthoR at h ⊢
  obtain ⟨g, hg, h⟩ := bind_ok h
  rw [hg, ok_bind]
  simp only [] at h ⊢
  split at h
  all_goals
    rename_i hc
    simp only [hc, if_true, if_false, Bool.false_eq_true]
    obtain ⟨l, hl, h⟩ := bind_ok h
    rw [hl, ok_bind]
    obtain ⟨a, ha, h⟩ := bind_ok h
    rw [ha, ok_bind]
    simp only [Bool.false_eq_true, if_false] at h
    rw [Except.ok.inj h]

/-- C198 with a transparency band, any camera: the bands are those of the plain orthophoto; the last band is 0 wherever the true position is outside the shown part of the image by at
least `δ`, and where it is inside by more than `δ`, it is 0 or 255 as a source pixel of the first requested band at most half a pixel, `δ` and one rounding away is the no-data
value or not. -/
theorem C198_transparency [FloorRing K] {r : K → K} {u : K} (hr : Rounds r u) (hu : 0 ≤ u) (s : Source K) (hco : s.coregistered = true)
    (cube : A3 K) (hl : s.loaded = some cube) (hcx : cube.nx = s.npixX) (hcy : cube.ny = s.npixY) {η : K} (hηx : u * s.npixX ≤ η) (hηy : u * s.npixY ≤ η) (hη : η ≤ 1 / 4)
    (nx ny : Nat) (ext : Box K) (gx gy : A2 K)
    (hg : groundGridR r ext.minX ext.maxX ext.minY ext.maxY nx ny = .ok (gx, gy)) (dem : K → K → K) (b0 : Nat) (bands : List Nat)
    (hb : ∀ b ∈ b0 :: bands, b < cube.nb) (nodata : K) (hnd : s.cast nodata = nodata) (c0 : s.cast 0 = 0) (c255 : s.cast 255 = 255) (P : Nat → Nat → K × K) (δ : K)
    (herr : ∀ j i, j < ny → i < nx → |(s.project 0 (gx.px j i) (gy.px j i) (dem (gx.px j i) (gy.px j i))).1 - (P j i).1| ≤ δ ∧
      |(s.project 0 (gx.px j i) (gy.px j i) (dem (gx.px j i) (gy.px j i))).2 - (P j i).2| ≤ δ) :
    ∃ out out', orthoR r (mapCoord0R r) s nx ny ext dem (some (b0 :: bands)) nodata false = .ok out ∧
      orthoR r (mapCoord0R r) s nx ny ext dem (some (b0 :: bands)) nodata true = .ok out' ∧
      out'.ny = ny ∧ out'.nx = nx ∧ out'.nb = bands.length + 2 ∧
      ∀ j i, j < ny → i < nx → (∀ k, k < bands.length + 1 → out'.px j i k = out.px j i k) ∧
        (HiddenBy δ s.npixX s.npixY (P j i) → out'.px j i (bands.length + 1) = 0) ∧
        (ShownBy δ s.npixX s.npixY (P j i) → ∃ v, ShowsNear ⟨cube.ny, cube.nx, fun y x => cube.px y x b0⟩ s.cast (P j i) (δ + η) v ∧
          (v = nodata → out'.px j i (bands.length + 1) = 0) ∧ (v ≠ nodata → out'.px j i (bands.length + 1) = 255)) := by
  obtain ⟨out, ho, h1, h2, h3, hv⟩ := C198_nearest hr hu s hco cube hl hcx hcy hηx hηy hη nx ny ext gx gy hg dem (b0 :: bands) (by simp) hb nodata P δ herr
  have h3' : out.nb = bands.length + 1 := by rw [h3]; rfl
  obtain ⟨out', ho', g1, g2, g3, hm⟩ := C37_mask s.cast c0 c255 out (by rw [h3']; omega) nodata
  refine ⟨out, out', ho, ?_, g1.trans h1, g2.trans h2, by rw [g3, h3'], ?_⟩
  · rw [orthoR_masked r _ s nx ny ext dem _ nodata out ho, ho']
  intro j i hj hi
  obtain ⟨m1, m2, m3⟩ := hm j i
  rw [h3'] at m1 m2 m3
  obtain ⟨v1, v2, -⟩ := hv j i 0 b0 hj hi rfl
  refine ⟨m1, fun hh => m2.mpr ((v2 hh).trans hnd), fun hs => ⟨out.px j i 0, v1 hs, fun h => m2.mpr h, m3⟩⟩

/-- `C198_transparency` is not vacuous: one grey band of 8 by 8 pixels, 4 by 4 cells, a camera that sees the ground one to one, exact arithmetic. -/
example (cube : A3 ℚ) (hc : cube.nx = 8 ∧ cube.ny = 8 ∧ cube.nb = 1) (s : Source ℚ) (hs : s = ⟨8, 8, 1, true, some cube, fun _ => .error .typeError, fun _ x y _ => (x, y), id⟩) :
    ∃ out out', orthoR id (mapCoord0R id) s 4 4 ⟨0, 0, 4, 4⟩ (fun _ _ => 0) (some [0]) (-1) false = .ok out ∧
      orthoR id (mapCoord0R id) s 4 4 ⟨0, 0, 4, 4⟩ (fun _ _ => 0) (some [0]) (-1) true = .ok out' ∧ out'.nb = 2 := by
  subst hs
  obtain ⟨gx, gy, hg⟩ : ∃ gx gy : A2 ℚ, groundGridR (id : ℚ → ℚ) 0 4 0 4 4 4 = .ok (gx, gy) := ⟨_, _, rfl⟩
  obtain ⟨out, out', a, b, -, -, c, -⟩ := C198_transparency (r := (id : ℚ → ℚ)) (u := 0) (fun x => by simp) le_rfl ⟨8, 8, 1, true, some cube, fun _ => .error .typeError, fun _ x y _ => (x, y), id⟩
    rfl cube rfl hc.1 hc.2.1 (η := 0) (by simp) (by simp) (by norm_num) 4 4 ⟨0, 0, 4, 4⟩ gx gy hg (fun _ _ => 0) 0 [] (by simp [hc.2.2]) (-1) rfl rfl rfl
    (fun j i => (gx.px j i, gy.px j i)) 0 (by intro j i _ _; simp)
  exact ⟨out, out', a, b, c⟩

end
end Verif.Ortho
