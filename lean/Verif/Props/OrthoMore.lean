import Verif.Props.FloatOrtho
import Verif.Props.Warp
import Verif.Props.Images

/-! C198 for images whose bands have a projection each, C108 with a transparency band, C70 for a program that writes into an array it holds. -/

set_option linter.unusedSectionVars false

namespace Verif.Ortho
open Verif ImageUtils Geotiff Grids FloatSpectral Rounded

variable {K : Type} [Field K] [LinearOrder K] [IsStrictOrderedRing K]

/-- C198, bands with a projection each: the orthophoto in float arithmetic exists, with the requested size and a band for every requested one, and each of its pixels is the band of the
image read from disk, resampled at the position to which that band's own projection takes the centre of the ground cell as computed.  No test against the margins is made. -/
theorem C198_separate (r : K → K) (resample : A2 K → K → K → K) (s : Source K) (hco : s.coregistered = false) (img : Nat → A2 K) (nx ny : Nat) (ext : Box K) (gx gy : Nat → Nat → K)
    (hg : groundGridR r ext.minX ext.maxX ext.minY ext.maxY nx ny = .ok (⟨ny, nx, gx⟩, ⟨ny, nx, gy⟩)) (dem : K → K → K) (bands : List Nat) (hne : bands ≠ [])
    (hb : ∀ b ∈ bands, s.disk b = .ok (img b)) (nodata : K) :
    ∃ out, orthoR r resample s nx ny ext dem (some bands) nodata false = .ok out ∧ out.ny = ny ∧ out.nx = nx ∧ out.nb = bands.length ∧
      ∀ j i k b, j < ny → i < nx → bands[k]? = some b →
        out.px j i k = s.cast (resample (img b) (s.project b (gx j i) (gy j i) (dem (gx j i) (gy j i))).2 (s.project b (gx j i) (gy j i) (dem (gx j i) (gy j i))).1) := by
  classical
  have : Nonempty (A2 K) := ⟨⟨0, 0, fun _ _ => 0⟩⟩
  have hone : ∀ b ∈ bands, ∃ q, orthoBandSeparate resample s ⟨ny, nx, gx⟩ ⟨ny, nx, gy⟩ ⟨ny, nx, fun j i => dem (gx j i) (gy j i)⟩ nx ny b = .ok q ∧
      ∀ j i, j < ny → i < nx →
        q.px j i = s.cast (resample (img b) (s.project b (gx j i) (gy j i) (dem (gx j i) (gy j i))).2 (s.project b (gx j i) (gy j i) (dem (gx j i) (gy j i))).1) := by
    intro b hbm
    obtain ⟨q, hr, hv⟩ := regrid_ok resample s.cast (img b) nx ny
      (fun j i => (s.project b (gx j i) (gy j i) (dem (gx j i) (gy j i))).2) (fun j i => (s.project b (gx j i) (gy j i) (dem (gx j i) (gy j i))).1)
    refine ⟨q, ?_, hv⟩
    unfold orthoBandSeparate
    simp only [hb b hbm, ok_bind]
    exact hr
  choose! g hgo hgv using hone
  obtain ⟨out, ho, e1, e2, e3, e4⟩ := stack2_ok nx ny (bands.map g) (by simpa using hne)
  refine ⟨out, ?_, e1, e2, by simpa using e3, ?_⟩
  · unfold orthoR
    rw [hg]
    simp only [ok_bind, hco, Option.getD_some]
    rw [if_neg (by simp), collect_ok _ bands g hgo]
    simp only [ok_bind, ho]
    rfl
  · intro j i k b hj hi hk
    have hbm : b ∈ bands := List.mem_of_getElem? hk
    rw [e4 j i k (g b) (by simp [hk]), hgv b hbm j i hj hi]

/-- `C198_separate` is not vacuous: two bands shifted by a pixel against each other, 6 by 4 cells. -/
example (im : Nat → A2 ℚ) : ∃ out, orthoR id (mapCoord0R id) ⟨8, 8, 2, false, none, fun b => .ok (im b), fun b x y _ => (x + b, y), id⟩ 6 4 ⟨0, 0, 6, 4⟩ (fun _ _ => 0) (some [1, 0]) (-1) false =
    .ok out ∧ out.ny = 4 ∧ out.nx = 6 ∧ out.nb = 2 := by
  obtain ⟨gx, gy, hg⟩ : ∃ gx gy : Nat → Nat → ℚ, groundGridR (id : ℚ → ℚ) 0 6 0 4 6 4 = .ok (⟨4, 6, gx⟩, ⟨4, 6, gy⟩) := ⟨_, _, rfl⟩
  obtain ⟨out, h1, h2, h3, h4, -⟩ := C198_separate (id : ℚ → ℚ) (mapCoord0R id) ⟨8, 8, 2, false, none, fun b => .ok (im b), fun b x y _ => (x + b, y), id⟩ rfl im 6 4 ⟨0, 0, 6, 4⟩ gx gy hg
    (fun _ _ => 0) [1, 0] (by simp) (by simp) (-1)
  exact ⟨out, h1, h2, h3, h4⟩

end Verif.Ortho

namespace Verif.Warp
open Verif ImageUtils Geotiff Grids Ortho Images

variable {K : Type} [Field K] [LinearOrder K] [IsStrictOrderedRing K] [FloorRing K]

/-- C108 with a transparency band: whenever the orthorectifier returns an image with at least one band, asking for the transparency band gives the same bands and one more, which is 0
exactly where the first band is the no-data value and 255 elsewhere. -/
theorem C108_transparency (spline : Nat → A2 K → K → K → K) (s : Source K) (h0 : s.cast 0 = 0) (h255 : s.cast 255 = 255) (nx ny : Nat) (ext : Box K) (dem : K → K → K)
    (bands : Option (List Nat)) (nodata : K) (name : Str) (out : A3 K) (h : orthoBackup spline s nx ny ext dem bands nodata name false = .ok out) (hb : out.nb ≠ 0) :
    ∃ out', orthoBackup spline s nx ny ext dem bands nodata name true = .ok out' ∧ out'.ny = out.ny ∧ out'.nx = out.nx ∧ out'.nb = out.nb + 1 ∧
      ∀ y x, (∀ b, b < out.nb → out'.px y x b = out.px y x b) ∧ (out'.px y x out.nb = 0 ↔ out.px y x 0 = nodata) ∧ (out.px y x 0 ≠ nodata → out'.px y x out.nb = 255) := by
  obtain ⟨out', e, hh⟩ := C37_mask s.cast h0 h255 out hb nodata
  refine ⟨out', ?_, hh⟩
  unfold orthoBackup at h ⊢
  obtain ⟨g, hg, h⟩ := bind_ok h
  rw [hg, ok_bind]
  simp only [] at h ⊢
  obtain ⟨l, hl, h⟩ := bind_ok h
  rw [hl, ok_bind]
  obtain ⟨a, ha, h⟩ := bind_ok h
  rw [ha, ok_bind]
  simp only [Bool.false_eq_true, if_false] at h
  rw [Except.ok.inj h]
  simpa using e

/-- `C108_transparency` is not vacuous: one band of 8 by 8 pixels read from disk, 4 by 4 cells. -/
example (spline : Nat → A2 ℚ → ℚ → ℚ → ℚ) (im : A2 ℚ) (hi : im.ny = 8 ∧ im.nx = 8) (name : Str) (d : Nat) (hn : names[d]? = some name) :
    ∃ out out', orthoBackup spline ⟨8, 8, 1, false, none, fun _ => .ok im, fun _ x y _ => (x, y), id⟩ 4 4 ⟨0, 0, 4, 4⟩ (fun _ _ => 0) (some [0]) (-1) name false = .ok out ∧
      orthoBackup spline ⟨8, 8, 1, false, none, fun _ => .ok im, fun _ x y _ => (x, y), id⟩ 4 4 ⟨0, 0, 4, 4⟩ (fun _ _ => 0) (some [0]) (-1) name true = .ok out' ∧ out'.nb = 2 := by
  obtain ⟨out, h1, -, -, h4, -⟩ := C108_ortho_partial spline ⟨8, 8, 1, false, none, fun _ => .ok im, fun _ x y _ => (x, y), id⟩ (fun _ => im) (fun _ => by omega) 4 4 (by norm_num) (by norm_num)
    ⟨0, 0, 4, 4⟩ (by norm_num) (by norm_num) (fun _ _ => 0) [0] (by simp) (by intro b _; simp) (-1) name d hn
  obtain ⟨out', g1, -, -, g4, -⟩ := C108_transparency spline _ rfl rfl _ _ _ _ _ _ _ out h1 (by rw [h4]; simp)
  exact ⟨out, out', h1, g1, by rw [g4, h4]; rfl⟩

end Verif.Warp

namespace Verif.Images
open Verif

variable {α : Type}

/-- C70, a program writing into an array it holds: every image whose data is that array shows the written value, converted to the array's type, at that row, column and band, and the
old value everywhere else; its size, the images' references and every other array stay as they were. -/
theorem C70_poke (w w' : World α) (p y x b : Nat) (v : α) (h : w.step (.poke p y x b v) = .ok w') :
    (w'.mem p).a.px y x b = (w.mem p).cast v ∧ (∀ y' x' b', (y', x', b') ≠ (y, x, b) → (w'.mem p).a.px y' x' b' = (w.mem p).a.px y' x' b') ∧
      (w'.mem p).a.ny = (w.mem p).a.ny ∧ (w'.mem p).a.nx = (w.mem p).a.nx ∧ (w'.mem p).a.nb = (w.mem p).a.nb ∧ (w'.mem p).cast = (w.mem p).cast ∧ w'.img = w.img ∧
      ∀ q, q ≠ p → w'.mem q = w.mem q := by
  simp only [World.step, Except.ok.injEq] at h
  subst h
  refine ⟨?_, ?_, ?_, ?_, ?_, ?_, rfl, ?_⟩
  · simp [World.put, Arr.poke]
  · intro y' x' b' hne
    simp only [World.put, Arr.poke, if_true]
    rw [if_neg]
    rintro ⟨rfl, rfl, rfl⟩
    exact hne rfl
  · simp [World.put, Arr.poke]
  · simp [World.put, Arr.poke]
  · simp [World.put, Arr.poke]
  · simp [World.put, Arr.poke]
  · intro q hq
    simp [World.put, hq]

/-- `C70_poke` is not vacuous: the entry in row 1, column 0 of a 2 by 3 image becomes 7, the one in row 0, column 1 stays 0. -/
example : ∃ w' : World Nat, (⟨fun _ => ⟨⟨2, 3, 1, fun _ _ _ => 0⟩, id⟩, fun _ => some 0⟩ : World Nat).step (.poke 0 1 0 0 7) = .ok w' ∧
    (w'.mem 0).a.px 1 0 0 = 7 ∧ (w'.mem 0).a.px 0 1 0 = 0 ∧ (w'.mem 0).a.ny = 2 := by
  refine ⟨_, rfl, ?_⟩
  obtain ⟨h1, h2, h3, -⟩ := C70_poke (⟨fun _ => ⟨⟨2, 3, 1, fun _ _ _ => 0⟩, id⟩, fun _ => some 0⟩ : World Nat) _ 0 1 0 0 7 rfl
  exact ⟨h1, (h2 0 1 0 (by simp)).trans rfl, h3⟩

end Verif.Images
