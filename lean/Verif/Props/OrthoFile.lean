import Verif.Model.OrthoFile
import Verif.Props.Ortho
import Verif.Props.ImageFiles

/-! C122: an orthophoto written, opened again and looked up by ground position. -/

set_option linter.unusedSectionVars false

namespace Verif.OrthoFile
open Verif Geotiff Grids Ortho Images

variable {K P : Type} [Field K] [LinearOrder K] [IsStrictOrderedRing K] [FloorRing K] [Inhabited K]

/-- Position of a ground coordinate in the output raster, one axis: cells of width `w / (n + 1)` on the map, but samples taken at the centres of
cells of width `w / n`. -/
theorem axis_close (w : K) (hw : 0 < w) (n : Nat) (x : K) (i : Nat) (hi : i < n) (h0 : (i : K) ≤ x) (h1 : x < (i : K) + 1) :
    |((i : K) + 1 / 2) * (w / n) - x * (w / ((n : K) + 1))| < 3 / 2 * (w / n) := by
  have hn : (0 : K) < n := by exact_mod_cast (by omega : 0 < n)
  have hn1 : (0 : K) < (n : K) + 1 := by linarith
  have hi' : (i : K) + 1 ≤ n := by exact_mod_cast hi
  have hi0 : (0 : K) ≤ i := Nat.cast_nonneg _
  have e : w / ((n : K) + 1) = (w / n) * (n / ((n : K) + 1)) := by field_simp
  set p := w / (n : K) with hp
  have hp0 : 0 < p := by rw [hp]; positivity
  set t := (n : K) / ((n : K) + 1) with ht
  have ht1 : t < 1 := by rw [ht, div_lt_one hn1]; linarith
  have ht0 : 0 < t := by rw [ht]; positivity
  have htn : t * ((n : K) + 1) = n := by rw [ht]; field_simp
  rw [e]
  have key : (i : K) + 1 / 2 - x * t < 3 / 2 ∧ -(3 / 2) < (i : K) + 1 / 2 - x * t := by
    constructor
    · have : (i : K) * t ≤ x * t := mul_le_mul_of_nonneg_right h0 ht0.le
      have : (i : K) - i * t < 1 := by nlinarith
      linarith
    · have : x * t < ((i : K) + 1) * t := mul_lt_mul_of_pos_right h1 ht0
      nlinarith
  have e2 : ((i : K) + 1 / 2) * p - x * (p * t) = ((i : K) + 1 / 2 - x * t) * p := by ring
  rw [e2, abs_lt]
  constructor <;> nlinarith [key.1, key.2]

/-- C122. An orthophoto of a loaded image with co-registered bands can be written and opened again.  In the file every ground point that lies on the
raster shows, in every requested band, the source image at (the elevation of) a ground point `q` less than one and a half output pixels away in each
direction: the no-data value when `q` is outside the source, the resampled value of the band when it is at least two pixels inside. -/
theorem C122_orthophoto_file (resample : A2 K → K → K → K) (s : Source K) (hco : s.coregistered = true)
    (cube : A3 K) (hl : s.loaded = some cube) (nx ny : Nat) (h1 : 2 ≤ nx) (h2 : 2 ≤ ny) (ext : Box K)
    (hx : ext.minX < ext.maxX) (hy : ext.minY < ext.maxY) (dem : K → K → K) (bands : List Nat) (hne : bands ≠ [])
    (hb : ∀ b ∈ bands, b < cube.nb) (nodata : Int) (dtype : Nat) (proj : P) (hcast : ∀ v, s.cast (s.cast v) = s.cast v) :
    ∃ (im : DImage K P) (d : Dset K P) (im2 : DImage K P) (c2 : A3 K),
      orthoImage resample s nx ny ext dem (some bands) (nodata : K) false dtype proj = .ok im ∧ im.write s.cast = .ok (im, d) ∧
      openImage d = .ok im2 ∧ im2.readAll = .ok c2 ∧ c2.ny = ny ∧ c2.nx = nx ∧ c2.nb = bands.length ∧
      im2.proj = proj ∧ im2.dtype = dtype ∧ im2.nodata = some (nodata : K) ∧
      ∀ lon lat x y, (calcOf im2).worldToPixel lon lat = .ok (x, y) → 0 ≤ x → x < nx → 0 ≤ y → y < ny →
        ∃ q : K × K, |q.1 - lon| < 3 / 2 * ((ext.maxX - ext.minX) / nx) ∧ |q.2 - lat| < 3 / 2 * ((ext.maxY - ext.minY) / ny) ∧
          ∀ (k b : Nat), bands[k]? = some b →
            (Outside s.npixX s.npixY (s.project 0 q.1 q.2 (dem q.1 q.2)) → c2.px ⌊y⌋.toNat ⌊x⌋.toNat k = s.cast nodata) ∧
            (TwoInside s.npixX s.npixY (s.project 0 q.1 q.2 (dem q.1 q.2)) → c2.px ⌊y⌋.toNat ⌊x⌋.toNat k =
              s.cast (resample ⟨cube.ny, cube.nx, fun y x => cube.px y x b⟩ (s.project 0 q.1 q.2 (dem q.1 q.2)).2
                (s.project 0 q.1 q.2 (dem q.1 q.2)).1)) := by
  obtain ⟨out, ho, e1, e2, e3, e4⟩ := C36_coregistered_exact resample s hco cube hl nx ny h1 h2 ext hx.le hy.le dem bands hne hb (nodata : K)
  obtain ⟨out', ho', _, _, _, f4⟩ := C36_coregistered resample s hco cube hl nx ny h1 h2 ext hx.le hy.le dem bands hne hb (nodata : K)
  obtain rfl : out = out' := by rw [ho] at ho'; exact Except.ok.inj ho'
  set im : DImage K P := { fromArray (.cube out) dtype (geoTuple (polyToGeoT ext nx ny)) proj none with nodata := some (nodata : K) } with him
  have hnb : 0 < bands.length := List.length_pos_iff.2 hne
  obtain ⟨d, im2, c2, r1, r2, r3, r4, r5, r6, r7, r8, r9, r10, r11⟩ := C79_roundtrip_partial s.cast im out (by rw [him]; rfl) (by rw [him]; rfl)
    (by rw [him]; rfl) (by rw [him]; rfl) (by rw [him]; show 0 < out.nb; omega) (by
      intro y x z hy hx hz
      obtain ⟨b, hbz⟩ : ∃ b, bands[z]? = some b := ⟨_, List.getElem?_eq_getElem (by omega)⟩
      rw [e4 y x z b (by omega) (by omega) hbz]
      split <;> exact hcast _)
  obtain ⟨t1, t2, t3, t4⟩ := r4
  refine ⟨im, d, im2, c2, ?_, r1, r2, r3, by omega, by omega, by omega, by rw [r10, him]; rfl, by rw [r8, him]; rfl, ?_, ?_⟩
  · unfold orthoImage
    rw [ho, ok_bind]
  · rw [r11, him]
    simp only [Option.map_some, Option.some.injEq]
    unfold Verif.Grids.pyInt
    split
    · rw [Int.floor_intCast]
    · rw [Int.ceil_intCast]
  intro lon lat x y hw x0 x1 y0 y1
  have hw0 : (0 : K) < ext.maxX - ext.minX := sub_pos.2 hx
  have hh0 : (0 : K) < ext.maxY - ext.minY := sub_pos.2 hy
  have hnx : (0 : K) < nx := by exact_mod_cast (by omega : 0 < nx)
  have hny : (0 : K) < ny := by exact_mod_cast (by omega : 0 < ny)
  have hg : geoOf im2.geot = polyToGeoT ext nx ny := by rw [r9, him]; rfl
  have hinv : Geotiff.Invertible (polyToGeoT ext nx ny) := by
    unfold Geotiff.Invertible polyToGeoT
    have a1 : 0 < (ext.maxX - ext.minX) / ((nx : K) + 1) := by positivity
    have a2 : 0 < (ext.maxY - ext.minY) / ((ny : K) + 1) := by positivity
    simp only [mul_zero, sub_zero]
    have := mul_pos a1 a2
    intro h
    linarith
  obtain ⟨x', y', hw', hp⟩ := C17_world_roundtrip (polyToGeoT ext nx ny) hinv im2.nx im2.ny lon lat
  unfold calcOf at hw
  rw [hg, hw'] at hw
  obtain ⟨rfl, rfl⟩ := Prod.mk.inj (Except.ok.inj hw)
  simp only [mkCalc, Calc.pixelToWorld, polyToGeoT, mul_zero, add_zero, Prod.mk.injEq] at hp
  obtain ⟨hp1, hp2⟩ := hp
  obtain ⟨i, hi⟩ : ∃ i : Nat, ⌊x'⌋ = (i : Int) := ⟨_, (Int.toNat_of_nonneg (Int.floor_nonneg.2 x0)).symm⟩
  obtain ⟨j, hj⟩ : ∃ j : Nat, ⌊y'⌋ = (j : Int) := ⟨_, (Int.toNat_of_nonneg (Int.floor_nonneg.2 y0)).symm⟩
  rw [hi, hj, Int.toNat_natCast, Int.toNat_natCast]
  have xi0 : (i : K) ≤ x' := by have := Int.floor_le x'; rw [hi] at this; exact_mod_cast this
  have xi1 : x' < (i : K) + 1 := by have := Int.lt_floor_add_one x'; rw [hi] at this; exact_mod_cast this
  have yj0 : (j : K) ≤ y' := by have := Int.floor_le y'; rw [hj] at this; exact_mod_cast this
  have yj1 : y' < (j : K) + 1 := by have := Int.lt_floor_add_one y'; rw [hj] at this; exact_mod_cast this
  have hin : i < nx := by exact_mod_cast lt_of_le_of_lt xi0 x1
  have hjn : j < ny := by exact_mod_cast lt_of_le_of_lt yj0 y1
  refine ⟨cellCentre ext.minX ext.maxX ext.minY ext.maxY nx ny j i, ?_, ?_, ?_⟩
  · have := axis_close _ hw0 nx x' i hin xi0 xi1
    rw [← hp1]
    have e : (cellCentre ext.minX ext.maxX ext.minY ext.maxY nx ny j i).1 - (ext.minX + x' * ((ext.maxX - ext.minX) / ((nx : K) + 1))) =
        ((i : K) + 1 / 2) * ((ext.maxX - ext.minX) / nx) - x' * ((ext.maxX - ext.minX) / ((nx : K) + 1)) := by
      simp only [cellCentre]; ring
    rw [e]; exact this
  · have := axis_close _ hh0 ny y' j hjn yj0 yj1
    rw [← hp2, ← abs_neg]
    have e : -((cellCentre ext.minX ext.maxX ext.minY ext.maxY nx ny j i).2 - (ext.maxY + y' * (-1 * ((ext.maxY - ext.minY) / ((ny : K) + 1))))) =
        ((j : K) + 1 / 2) * ((ext.maxY - ext.minY) / ny) - y' * ((ext.maxY - ext.minY) / ((ny : K) + 1)) := by
      simp only [cellCentre]; ring
    rw [e]; exact this
  · intro k b hk
    have hkl : k < bands.length := (List.getElem?_eq_some_iff.1 hk).1
    rw [t4 j i k (by omega) (by omega) (by omega)]
    exact f4 j i k b hjn hin hk

/-- C122: the ground points that lie on the raster, whatever the file: those of the extent less its last column and row, one part in the number of
columns and rows plus one. -/
theorem C122_on_raster (ext : Box K) (hx : ext.minX < ext.maxX) (hy : ext.minY < ext.maxY) (nx ny : Nat) (im : DImage K P)
    (hg : im.geot = geoTuple (polyToGeoT ext nx ny)) (lon lat : K) :
    ∃ x y, (calcOf im).worldToPixel lon lat = .ok (x, y) ∧
      ((0 ≤ x ∧ x < nx) ↔ (ext.minX ≤ lon ∧ lon < ext.maxX - (ext.maxX - ext.minX) / ((nx : K) + 1))) ∧
      ((0 ≤ y ∧ y < ny) ↔ (ext.minY + (ext.maxY - ext.minY) / ((ny : K) + 1) < lat ∧ lat ≤ ext.maxY)) := by
  have hw0 : (0 : K) < ext.maxX - ext.minX := sub_pos.2 hx
  have hh0 : (0 : K) < ext.maxY - ext.minY := sub_pos.2 hy
  have hnx : (0 : K) < (nx : K) + 1 := by positivity
  have hny : (0 : K) < (ny : K) + 1 := by positivity
  have a1 : 0 < (ext.maxX - ext.minX) / ((nx : K) + 1) := by positivity
  have a2 : 0 < (ext.maxY - ext.minY) / ((ny : K) + 1) := by positivity
  have hinv : Geotiff.Invertible (polyToGeoT ext nx ny) := by
    unfold Geotiff.Invertible polyToGeoT
    simp only [mul_zero, sub_zero]
    have := mul_pos a1 a2
    intro h
    linarith
  obtain ⟨x, y, hw, hp⟩ := C17_world_roundtrip (polyToGeoT ext nx ny) hinv im.nx im.ny lon lat
  refine ⟨x, y, ?_, ?_, ?_⟩
  · unfold calcOf
    rw [hg]
    exact hw
  all_goals
    simp only [mkCalc, Calc.pixelToWorld, polyToGeoT, mul_zero, add_zero, Prod.mk.injEq] at hp
    obtain ⟨hp1, hp2⟩ := hp
  · set g := (ext.maxX - ext.minX) / ((nx : K) + 1) with hgd
    have hW : ext.maxX - ext.minX = ((nx : K) + 1) * g := by rw [hgd]; field_simp
    constructor
    · rintro ⟨h0, h1⟩
      have := mul_nonneg h0 a1.le
      have := mul_lt_mul_of_pos_right h1 a1
      constructor <;> nlinarith
    · rintro ⟨h0, h1⟩
      constructor
      · have : 0 ≤ x * g := by linarith
        exact nonneg_of_mul_nonneg_left this a1
      · have : x * g < nx * g := by nlinarith
        exact lt_of_mul_lt_mul_right this a1.le
  · set g := (ext.maxY - ext.minY) / ((ny : K) + 1) with hgd
    have hW : ext.maxY - ext.minY = ((ny : K) + 1) * g := by rw [hgd]; field_simp
    constructor
    · rintro ⟨h0, h1⟩
      have := mul_nonneg h0 a2.le
      have := mul_lt_mul_of_pos_right h1 a2
      constructor <;> nlinarith
    · rintro ⟨h0, h1⟩
      constructor
      · have : 0 ≤ y * g := by linarith
        exact nonneg_of_mul_nonneg_left this a2
      · have : y * g < ny * g := by nlinarith
        exact lt_of_mul_lt_mul_right this a2.le

/-- A source to which C122 applies: 9 by 9 pixels, whole numbers of bytes, one pixel per unit of ground. -/
example : ∃ (s : Source ℚ) (cube : A3 ℚ), s.coregistered = true ∧ s.loaded = some cube ∧ (∀ b ∈ [0], b < cube.nb) ∧
    (∀ v, s.cast (s.cast v) = s.cast v) ∧ TwoInside s.npixX s.npixY (s.project 0 4 4 0) ∧ Outside s.npixX s.npixY (s.project 0 20 4 0) := by
  refine ⟨⟨9, 9, 1, true, some ⟨9, 9, 1, fun y x _ => (y : ℚ) + x⟩, fun _ => .error .indexError, fun _ lon lat _ => (lon, lat), fun v => v⟩,
    ⟨9, 9, 1, fun y x _ => (y : ℚ) + x⟩, rfl, rfl, by simp, by simp, ?_, ?_⟩
  · norm_num [TwoInside]
  · norm_num [Outside]

/-- Ground points on the raster of a 4 by 4 orthophoto of the square from 0 to 10. -/
example : ∃ x y, (calcOf (⟨none, 4, 4, 1, 1, none, geoTuple (polyToGeoT ⟨0, 0, 10, 10⟩ 4 4), (), none⟩ : DImage ℚ Unit)).worldToPixel 5 5 = .ok (x, y) ∧
    0 ≤ x ∧ x < 4 ∧ 0 ≤ y ∧ y < 4 := by
  obtain ⟨x, y, h, hx, hy⟩ := C122_on_raster (⟨0, 0, 10, 10⟩ : Box ℚ) (by norm_num) (by norm_num) 4 4
    (⟨none, 4, 4, 1, 1, none, geoTuple (polyToGeoT ⟨0, 0, 10, 10⟩ 4 4), (), none⟩ : DImage ℚ Unit) rfl 5 5
  have a := hx.2 (by norm_num)
  have b := hy.2 (by norm_num)
  exact ⟨x, y, h, by exact_mod_cast a.1, by exact_mod_cast a.2, by exact_mod_cast b.1, by exact_mod_cast b.2⟩

/-! ### C123 -/

/-- The masked orthophoto in terms of the plain one. -/
theorem ortho_masked (resample : A2 K → K → K → K) (s : Source K) (nx ny : Nat) (ext : Box K) (dem : K → K → K) (bands : Option (List Nat))
    (nodata : K) (out : A3 K) (h : ortho resample s nx ny ext dem bands nodata false = .ok out) :
    ortho resample s nx ny ext dem bands nodata true = maskImage s.cast out nodata := by
  unfold ortho at h ⊢
  obtain ⟨g, hg, h⟩ := bind_ok h
  rw [hg, ok_bind]
  simp only [] at h ⊢
  split at h
  all_goals
    rename_i hc
    simp only [hc, if_true, if_false, Bool.false_eq_true]
    obtain ⟨l, hl, h⟩ := bind_ok h
    rw [hl, ok_bind]
    obtain ⟨a, ha, h⟩ := bind_ok h
    rw [ha, ok_bind]
    simp only [Bool.false_eq_true, if_false] at h
    rw [Except.ok.inj h]

/-- C123 (partial): for a no-data value of the image's data type, the transparency band is 0 wherever the output pixel falls outside the source, and
255 wherever it falls at least two pixels inside and the first requested band has another value there; the other bands are those of the plain
orthophoto. -/
theorem C123_transparency_partial (resample : A2 K → K → K → K) (s : Source K) (hco : s.coregistered = true)
    (cube : A3 K) (hl : s.loaded = some cube) (nx ny : Nat) (h1 : 2 ≤ nx) (h2 : 2 ≤ ny) (ext : Box K)
    (hx : ext.minX ≤ ext.maxX) (hy : ext.minY ≤ ext.maxY) (dem : K → K → K) (b0 : Nat) (bands : List Nat)
    (hb : ∀ b ∈ b0 :: bands, b < cube.nb) (nodata : K) (hnd : s.cast nodata = nodata) (c0 : s.cast 0 = 0) (c255 : s.cast 255 = 255) :
    ∃ plain out, ortho resample s nx ny ext dem (some (b0 :: bands)) nodata false = .ok plain ∧
      ortho resample s nx ny ext dem (some (b0 :: bands)) nodata true = .ok out ∧
      out.ny = ny ∧ out.nx = nx ∧ out.nb = bands.length + 2 ∧
      ∀ j i, j < ny → i < nx → (∀ k, k ≤ bands.length → out.px j i k = plain.px j i k) ∧
        (Outside s.npixX s.npixY (sourcePos s ext dem nx ny 0 j i) → out.px j i (bands.length + 1) = 0) ∧
        (TwoInside s.npixX s.npixY (sourcePos s ext dem nx ny 0 j i) →
          s.cast (resample ⟨cube.ny, cube.nx, fun y x => cube.px y x b0⟩ (sourcePos s ext dem nx ny 0 j i).2
            (sourcePos s ext dem nx ny 0 j i).1) ≠ nodata → out.px j i (bands.length + 1) = 255) := by
  obtain ⟨plain, ho, e1, e2, e3, e4⟩ := C36_coregistered resample s hco cube hl nx ny h1 h2 ext hx hy dem (b0 :: bands) (by simp) hb nodata
  have e3' : plain.nb = bands.length + 1 := by simpa using e3
  obtain ⟨out, hm, m1, m2, m3, m4⟩ := C37_mask s.cast c0 c255 plain (by omega) nodata
  refine ⟨plain, out, ho, by rw [ortho_masked _ _ _ _ _ _ _ _ _ ho, hm], by omega, by omega, by omega, ?_⟩
  intro j i hj hi
  obtain ⟨a, b, c⟩ := m4 j i
  rw [e3'] at a b c
  obtain ⟨p, q⟩ := e4 j i 0 b0 hj hi rfl
  refine ⟨fun k hk => a k (by omega), fun h => b.2 (by rw [p h, hnd]), fun h hv => c (by rw [q h]; exact hv)⟩

/-- C123 fails at dark pixels: a pixel at least two pixels inside the source whose first band happens to have the no-data value is transparent. -/
theorem C123_dark_false (resample : A2 K → K → K → K) (s : Source K) (hco : s.coregistered = true)
    (cube : A3 K) (hl : s.loaded = some cube) (nx ny : Nat) (h1 : 2 ≤ nx) (h2 : 2 ≤ ny) (ext : Box K)
    (hx : ext.minX ≤ ext.maxX) (hy : ext.minY ≤ ext.maxY) (dem : K → K → K) (b0 : Nat) (bands : List Nat)
    (hb : ∀ b ∈ b0 :: bands, b < cube.nb) (nodata : K) (c0 : s.cast 0 = 0) (c255 : s.cast 255 = 255) :
    ∃ out, ortho resample s nx ny ext dem (some (b0 :: bands)) nodata true = .ok out ∧
      ∀ j i, j < ny → i < nx → TwoInside s.npixX s.npixY (sourcePos s ext dem nx ny 0 j i) →
        s.cast (resample ⟨cube.ny, cube.nx, fun y x => cube.px y x b0⟩ (sourcePos s ext dem nx ny 0 j i).2
            (sourcePos s ext dem nx ny 0 j i).1) = nodata → out.px j i (bands.length + 1) = 0 := by
  obtain ⟨plain, ho, e1, e2, e3, e4⟩ := C36_coregistered resample s hco cube hl nx ny h1 h2 ext hx hy dem (b0 :: bands) (by simp) hb nodata
  have e3' : plain.nb = bands.length + 1 := by simpa using e3
  obtain ⟨out, hm, m1, m2, m3, m4⟩ := C37_mask s.cast c0 c255 plain (by omega) nodata
  refine ⟨out, by rw [ortho_masked _ _ _ _ _ _ _ _ _ ho, hm], ?_⟩
  intro j i hj hi ht hv
  obtain ⟨a, b, c⟩ := m4 j i
  rw [e3'] at b
  exact b.2 (by rw [(e4 j i 0 b0 hj hi rfl).2 ht]; exact hv)

/-- C123 fails for a no-data value the data type cannot hold (such as -1 for bytes): every pixel outside the source is opaque. -/
theorem C123_unrepresentable_false (resample : A2 K → K → K → K) (s : Source K) (hco : s.coregistered = true)
    (cube : A3 K) (hl : s.loaded = some cube) (nx ny : Nat) (h1 : 2 ≤ nx) (h2 : 2 ≤ ny) (ext : Box K)
    (hx : ext.minX ≤ ext.maxX) (hy : ext.minY ≤ ext.maxY) (dem : K → K → K) (b0 : Nat) (bands : List Nat)
    (hb : ∀ b ∈ b0 :: bands, b < cube.nb) (nodata : K) (hnd : s.cast nodata ≠ nodata) (c0 : s.cast 0 = 0) (c255 : s.cast 255 = 255) :
    ∃ out, ortho resample s nx ny ext dem (some (b0 :: bands)) nodata true = .ok out ∧
      ∀ j i, j < ny → i < nx → Outside s.npixX s.npixY (sourcePos s ext dem nx ny 0 j i) → out.px j i (bands.length + 1) = 255 := by
  obtain ⟨plain, ho, e1, e2, e3, e4⟩ := C36_coregistered resample s hco cube hl nx ny h1 h2 ext hx hy dem (b0 :: bands) (by simp) hb nodata
  have e3' : plain.nb = bands.length + 1 := by simpa using e3
  obtain ⟨out, hm, m1, m2, m3, m4⟩ := C37_mask s.cast c0 c255 plain (by omega) nodata
  refine ⟨out, by rw [ortho_masked _ _ _ _ _ _ _ _ _ ho, hm], ?_⟩
  intro j i hj hi ht
  obtain ⟨a, b, c⟩ := m4 j i
  rw [e3'] at c
  exact c (by rw [(e4 j i 0 b0 hj hi rfl).1 ht]; exact hnd)

/-- Bytes hold 0 and 255 but not -1. -/
example : ∃ cast : ℚ → ℚ, cast 0 = 0 ∧ cast 255 = 255 ∧ cast (-1) ≠ -1 ∧ ∀ v, cast (cast v) = cast v := by
  refine ⟨fun v => if v < 0 then 255 else v, by norm_num, by norm_num, by norm_num, ?_⟩
  intro v
  by_cases h : v < 0
  · simp [h]
  · simp [h]

end Verif.OrthoFile
