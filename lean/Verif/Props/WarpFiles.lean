import Verif.Model.WarpFiles
import Verif.Props.GeoFilesOwn
import Verif.Props.Warp

/-! C179: the image a warp returned, when other images are warped afterwards. -/

set_option linter.unusedSectionVars false

namespace Verif.GeoFiles
open Verif Verif.Images

variable {K P : Type} [Field K] [LinearOrder K] [IsStrictOrderedRing K] [FloorRing K] [Inhabited K]

theorem warp_other (cast : K → K) (lost : Handle → Option (GFile K P) → Dset K P) (fs : FS K P) (g : GImage K P) (W : Dset K P → Option (Dset K P)) (dst : Option Str) (q : Str)
    (hq : q ≠ dst.getD Verif.Warp.defaultName) : (warp cast lost fs g W dst).1.files q = fs.files q := by
  unfold warp
  cases warpFrom cast lost fs g with
  | error e => rfl
  | ok src =>
    simp only []
    cases W src with
    | none => rfl
    | some d => simp [FS.create, hq]

/-- A series of warps: each with its image, its options and its destination. -/
def warps (cast : K → K) (lost : Handle → Option (GFile K P) → Dset K P) : FS K P → List (GImage K P × (Dset K P → Option (Dset K P)) × Option Str) → FS K P
  | fs, [] => fs
  | fs, x :: xs => warps cast lost (warp cast lost fs x.1 x.2.1 x.2.2).1 xs

theorem warps_other (cast : K → K) (lost : Handle → Option (GFile K P) → Dset K P) (q : Str) (xs : List (GImage K P × (Dset K P → Option (Dset K P)) × Option Str)) :
    ∀ fs : FS K P, (∀ x ∈ xs, q ≠ x.2.2.getD Verif.Warp.defaultName) → (warps cast lost fs xs).files q = fs.files q := by
  induction xs with
  | nil => intro fs _; rfl
  | cons x xs ih =>
    intro fs h
    show (warps cast lost (warp cast lost fs x.1 x.2.1 x.2.2).1 xs).files q = _
    rw [ih _ (fun y hy => h y (List.mem_cons_of_mem _ hy)), warp_other cast lost fs x.1 x.2.1 x.2.2 q (h x List.mem_cons_self)]

/-- Specification: the raster an image stands for: that of its file, which is still the one that was opened, or for an image without a file one with the image's metadata and
the pixels in memory. -/
def Shown (cast : K → K) (fs : FS K P) (g : GImage K P) (src : Dset K P) : Prop :=
  (∃ h f, g.handle = some h ∧ fs.files h.path = some (h.gen, f) ∧ src = f.d) ∨
  (g.handle = none ∧ g.special = none ∧ Verif.Warp.IsSource cast { g.im with dset := none } src)

/-- Specification: the image has a file that is still the one that was opened, or no file and pixels that fit its metadata. -/
def Whole (fs : FS K P) (g : GImage K P) : Prop :=
  (∃ h f, g.handle = some h ∧ fs.files h.path = some (h.gen, f)) ∨
  (g.handle = none ∧ g.special = none ∧ ∃ c, g.im.data = some c ∧ c.ny = g.im.ny ∧ c.nx = g.im.nx ∧ c.nb = g.im.nb ∧ 0 < g.im.nb)

theorem warpFrom_shown (cast : K → K) (lost : Handle → Option (GFile K P) → Dset K P) (fs : FS K P) (g : GImage K P) (hg : Whole fs g) :
    ∃ src, warpFrom cast lost fs g = .ok src ∧ Shown cast fs g src := by
  rcases hg with ⟨h, f, h1, h2⟩ | ⟨h1, h2, c, h3, h4, h5, h6, h7⟩
  · refine ⟨f.d, ?_, .inl ⟨h, f, h1, h2, rfl⟩⟩
    unfold warpFrom
    simp only [h1, h2, if_true]
  · obtain ⟨d', w, a1, a2, a3, a4, a5, a6, a7, a8⟩ := Verif.Images.writeBands_ok cast g.im c h3 g.im.nb 0 (blank g.im) (by omega) (by show c.nx ≤ g.im.nx; omega) (by show c.ny ≤ g.im.ny; omega)
    refine ⟨d', ?_, .inr ⟨h1, h2, .inr ⟨c, rfl, h3, h4, h5, h6, h7, a2, a1, a3, a4, a5, a6, ?_, ?_⟩⟩⟩
    · unfold warpFrom
      simp only [h1, h3, h2, writeLoop_ok cast g.im _ _ _ _ w]
      rfl
    · intro y x z hy hx hz
      rw [a7, if_pos ⟨⟨Nat.zero_le _, by simpa using hz⟩, by simpa [h4] using hy, by simpa [h5] using hx⟩]
    · rw [a8, if_neg (by omega)]
      show _ = g.im.nodata.map _
      cases g.im.nodata <;> rfl

theorem warp_named (cast : K → K) (lost : Handle → Option (GFile K P) → Dset K P) (stale : Stale K P) (fs : FS K P) (g : GImage K P) (W : Dset K P → Option (Dset K P))
    (dst : Option Str) (src d : Dset K P) (hs : warpFrom cast lost fs g = .ok src) (hW : W src = some d) (hd : 0 < d.nb)
    (later : List (GImage K P × (Dset K P → Option (Dset K P)) × Option Str)) (hl : ∀ x ∈ later, dst.getD Verif.Warp.defaultName ≠ x.2.2.getD Verif.Warp.defaultName) :
    ∃ out c, (warp cast lost fs g W dst).2 = .ok out ∧ readAll stale (warps cast lost (warp cast lost fs g W dst).1 later) out = .ok c ∧ c.Same ⟨d.ny, d.nx, d.nb, d.px⟩ := by
  have hw : warp cast lost fs g W dst = (fs.create (dst.getD Verif.Warp.defaultName) d, openFile (fs.create (dst.getD Verif.Warp.defaultName) d) (dst.getD Verif.Warp.defaultName)) := by
    unfold warp
    simp only [hs, hW]
  rw [hw]
  generalize dst.getD Verif.Warp.defaultName = name at hl
  have hfile : (fs.create name d).files name = some (fs.next, ⟨d, none⟩) := by simp [FS.create]
  have ho : openFile (fs.create name d) name = .ok ⟨⟨none, d.nx, d.ny, d.nb, d.dtype, d.nodata, d.geot, d.proj, none⟩, none, some ⟨name, fs.next⟩⟩ := by
    unfold openFile
    simp only [hfile]
    rw [if_neg (by omega)]
  have hlate := (warps_other cast lost name later (fs.create name d) hl).trans hfile
  have hlate2 := hlate
  generalize hg : (⟨⟨none, d.nx, d.ny, d.nb, d.dtype, d.nodata, d.geot, d.proj, none⟩, none, some ⟨name, fs.next⟩⟩ : GImage K P) = out at ho
  generalize (warps cast lost (fs.create name d) later) = fs2 at hlate
  obtain ⟨c, r1, r2⟩ := readAll_ok ⟨none, d.nx, d.ny, d.nb, d.dtype, d.nodata, d.geot, d.proj, some d⟩ d rfl rfl hd
  refine ⟨out, c, ho, ?_, r2⟩
  rw [← r1]
  have hb : ∀ b : Int, readBand stale fs2 out b = (⟨none, d.nx, d.ny, d.nb, d.dtype, d.nodata, d.geot, d.proj, some d⟩ : DImage K P).readBand b := by
    intro b
    rw [← hg]
    unfold readBand DImage.readBand
    simp only [hlate, if_true]
  have hbs : ∀ n s, readBands stale fs2 out s n = (⟨none, d.nx, d.ny, d.nb, d.dtype, d.nodata, d.geot, d.proj, some d⟩ : DImage K P).readBands s n := by
    intro n
    induction n with
    | zero => intro s; rfl
    | succ n ih =>
      intro s
      unfold readBands DImage.readBands
      rw [hb, ih]
  unfold readAll DImage.readAll
  rw [hbs, ← hg]

/-- C179 for warps with destinations of their own: the image a warp returned has the pixels GDAL made of the raster the image stands for, however many images are warped to other
destinations before it is read. -/
theorem C179_named_partial (cast : K → K) (lost : Handle → Option (GFile K P) → Dset K P) (stale : Stale K P) (fs : FS K P) (g : GImage K P) (hg : Whole fs g)
    (W : Dset K P → Option (Dset K P)) (hW : ∀ src, Shown cast fs g src → ∃ d, W src = some d ∧ 0 < d.nb)
    (dst : Option Str) (later : List (GImage K P × (Dset K P → Option (Dset K P)) × Option Str))
    (hl : ∀ x ∈ later, dst.getD Verif.Warp.defaultName ≠ x.2.2.getD Verif.Warp.defaultName) :
    ∃ src d out c, Shown cast fs g src ∧ W src = some d ∧ (warp cast lost fs g W dst).2 = .ok out ∧
      readAll stale (warps cast lost (warp cast lost fs g W dst).1 later) out = .ok c ∧ c.Same ⟨d.ny, d.nx, d.nb, d.px⟩ := by
  obtain ⟨src, h1, h2⟩ := warpFrom_shown cast lost fs g hg
  obtain ⟨d, h3, h4⟩ := hW src h2
  obtain ⟨out, c, h5, h6, h7⟩ := warp_named cast lost stale fs g W dst src d h1 h3 h4 later hl
  exact ⟨src, d, out, c, h2, h3, h5, h6, h7⟩

/-- C179 is false for a destination that is used twice: what is read from the first result is what GDAL makes of a dataset whose file now holds the second raster; the first raster does not enter. -/
theorem C179_reused_false (cast : K → K) (lost : Handle → Option (GFile K P) → Dset K P) (stale : Stale K P) (fs : FS K P) (g1 g2 : GImage K P) (W1 W2 : Dset K P → Option (Dset K P))
    (dst : Option Str) (s1 s2 d1 d2 : Dset K P) (h1 : warpFrom cast lost fs g1 = .ok s1) (hW1 : W1 s1 = some d1) (hd : 0 < d1.nb)
    (h2 : warpFrom cast lost (warp cast lost fs g1 W1 dst).1 g2 = .ok s2) (hW2 : W2 s2 = some d2) : ∃ out, (warp cast lost fs g1 W1 dst).2 = .ok out ∧
      ∀ b : Int, readBand stale (warp cast lost (warp cast lost fs g1 W1 dst).1 g2 W2 dst).1 out b = stale ⟨dst.getD Verif.Warp.defaultName, fs.next⟩ (some ⟨d2, none⟩) (b + 1) := by
  have hw : ∀ fs g W s d, warpFrom cast lost fs g = .ok s → W s = some d →
      warp cast lost fs g W dst = (fs.create (dst.getD Verif.Warp.defaultName) d, openFile (fs.create (dst.getD Verif.Warp.defaultName) d) (dst.getD Verif.Warp.defaultName)) := by
    intro fs g W s d hs hW
    unfold warp
    simp only [hs, hW]
  rw [hw _ g2 W2 s2 d2 h2 hW2, hw fs g1 W1 s1 d1 h1 hW1]
  generalize dst.getD Verif.Warp.defaultName = name
  refine ⟨⟨⟨none, d1.nx, d1.ny, d1.nb, d1.dtype, d1.nodata, d1.geot, d1.proj, none⟩, none, some ⟨name, fs.next⟩⟩, ?_, fun b => ?_⟩
  · simp only [openFile, FS.create, if_true]
    rw [if_neg (by omega)]
  · simp only [readBand, FS.create, if_true]
    rw [if_neg (by omega)]

/-- C179 is false when the destination is left out: two images are warped one after another, then the first result is read.  Whatever GDAL does with the first dataset, for some images
the pixels are not those of the first warp. -/
theorem C179_default_name_false (stale : Stale K Unit) (lost : Handle → Option (GFile K Unit) → Dset K Unit) : ∃ (g1 g2 : GImage K Unit) (d1 : Dset K Unit) (fs fs1 fs2 : FS K Unit) (out1 out2 : GImage K Unit),
    warp id lost fs g1 some none = (fs1, .ok out1) ∧ warp id lost fs1 g2 some none = (fs2, .ok out2) ∧ warpFrom id lost fs g1 = .ok d1 ∧
    ¬ ∃ c, readAll stale fs2 out1 = .ok c ∧ c.Same ⟨d1.ny, d1.nx, d1.nb, d1.px⟩ := by
  let g : K → GImage K Unit := fun v => ⟨⟨some ⟨1, 1, 1, fun _ _ _ => v⟩, 1, 1, 1, 0, none, (0, 0, 0, 0, 0, 0), (), none⟩, none, none⟩
  let d : K → Dset K Unit := fun v => ⟨1, 1, 1, 0, fun y x z => if z = 0 ∧ y < 1 ∧ x < 1 then v else 0, (0, 0, 0, 0, 0, 0), (), none⟩
  let fs : FS K Unit := ⟨fun _ => none, 0⟩
  let name := Verif.Warp.defaultName
  have hsrc : ∀ (v : K) (fs : FS K Unit), warpFrom id lost fs (g v) = .ok (d v) := fun v fs => rfl
  have hwarp : ∀ (v : K) (fs : FS K Unit), warp id lost fs (g v) some none = (fs.create name (d v), openFile (fs.create name (d v)) name) := fun v fs => rfl
  have hout : ∀ (v : K) (fs : FS K Unit), openFile (fs.create name (d v)) name = .ok ⟨⟨none, 1, 1, 1, 0, none, (0, 0, 0, 0, 0, 0), (), none⟩, none, some ⟨name, fs.next⟩⟩ := by
    intro v fs
    simp only [openFile, FS.create, if_true]
    rfl
  let out : Nat → GImage K Unit := fun n => ⟨⟨none, 1, 1, 1, 0, none, (0, 0, 0, 0, 0, 0), (), none⟩, none, some ⟨name, n⟩⟩
  by_contra hall
  push Not at hall
  have get := fun v => hall (g v) (g 2) (d v) fs (fs.create name (d v)) ((fs.create name (d v)).create name (d 2)) (out 0) (out 1)
    (by rw [hwarp, hout]) (by rw [hwarp, hout]; rfl) (hsrc v fs)
  have same : (fs.create name (d 0)).create name (d 2) = (fs.create name (d 1)).create name (d 2) := by
    unfold FS.create
    congr 1
    funext q
    by_cases hq : q = name
    · simp only [if_pos hq]
    · simp only [if_neg hq]
  obtain ⟨c0, h0, h1⟩ := get 0
  obtain ⟨c1, h2, h3⟩ := get 1
  rw [same, h2] at h0
  cases h0
  have a0 := h1.2.2.2 0 0 0 (by rw [h1.1]; exact Nat.one_pos) (by rw [h1.2.1]; exact Nat.one_pos) (by rw [h1.2.2.1]; exact Nat.one_pos)
  have a1 := h3.2.2.2 0 0 0 (by rw [h1.1]; exact Nat.one_pos) (by rw [h1.2.1]; exact Nat.one_pos) (by rw [h1.2.2.1]; exact Nat.one_pos)
  rw [a0] at a1
  simp [d] at a1

/-- Beside `C179_named_partial`: an image in memory, and one opened from a file, warped to a file of their own while others use the default name. -/
example : ∃ (fs : FS ℚ Unit) (g g' : GImage ℚ Unit) (later : List (GImage ℚ Unit × (Dset ℚ Unit → Option (Dset ℚ Unit)) × Option Str)),
    Whole fs g ∧ g.handle = none ∧ Whole fs g' ∧ g'.handle ≠ none ∧ (∀ src, Shown id fs g src → ∃ d, some src = some d ∧ 0 < d.nb) ∧
    (∀ src, Shown id fs g' src → ∃ d, some src = some d ∧ 0 < d.nb) ∧ later.length = 2 ∧
    ∀ x ∈ later, (some ['a'] : Option Str).getD Verif.Warp.defaultName ≠ x.2.2.getD Verif.Warp.defaultName := by
  let g : GImage ℚ Unit := ⟨⟨some ⟨1, 1, 1, fun _ _ _ => 7⟩, 1, 1, 1, 0, none, (0, 0, 0, 0, 0, 0), (), none⟩, none, none⟩
  let g' : GImage ℚ Unit := ⟨⟨none, 1, 1, 1, 0, none, (0, 0, 0, 0, 0, 0), (), none⟩, none, some ⟨['c'], 0⟩⟩
  refine ⟨⟨fun q => if q = ['c'] then some (0, ⟨⟨1, 1, 1, 0, fun _ _ _ => 3, (0, 0, 0, 0, 0, 0), (), none⟩, none⟩) else none, 1⟩, g, g',
    [(g, some, none), (g, some, some ['b'])], .inr ⟨rfl, rfl, _, rfl, rfl, rfl, rfl, Nat.one_pos⟩, rfl, .inl ⟨_, _, rfl, rfl⟩, (fun e => by cases e), ?_, ?_, rfl, ?_⟩
  · rintro src (⟨h, f, h1, -, -⟩ | ⟨-, -, h1 | ⟨c, -, -, -, -, -, -, -, -, h2, -⟩⟩)
    · cases h1
    · cases h1
    · exact ⟨src, rfl, by rw [h2]; exact Nat.one_pos⟩
  · rintro src (⟨h, f, h1, h2, h3⟩ | ⟨h1, -⟩)
    · cases h1
      cases h2
      exact ⟨src, rfl, by rw [h3]; exact Nat.one_pos⟩
    · cases h1
  intro x hx
  simp at hx
  rcases hx with rfl | rfl
  · decide
  · decide

end Verif.GeoFiles
