import Verif.Model.ImageObjects
import Verif.Props.ImageFiles
import Verif.Props.EnviImage

/-! C111 (the data of an ENVI image object), C113 (attributes and factories of overhead images), C114 (projection and vertical reference of a DEM). -/

set_option linter.unusedSectionVars false
set_option linter.unusedVariables false

namespace Verif.ImageObjects
open Verif Images

variable {K P : Type}

/-! ### Reading bands -/

theorem bandsOf_ok (d : Dset K P) : ∀ (n start : Nat), start + n ≤ d.nb → ∃ l : List (A2 K), readBandsOf (some d) start n = .ok l ∧ l.length = n ∧
      ∀ k, k < n → l[k]? = some ⟨d.ny, d.nx, fun y x => d.px y x (start + k)⟩ := by
  intro n
  induction n with
  | zero => intro start _; exact ⟨[], rfl, rfl, by intro k hk; omega⟩
  | succ n ih =>
    intro start h
    obtain ⟨l, h1, h2, h3⟩ := ih (start + 1) (by omega)
    have hb : d.readBand ((start : Int) + 1) = .ok ⟨d.ny, d.nx, fun y x => d.px y x start⟩ := by
      simp only [Dset.readBand]
      rw [if_pos (by omega)]
      simp
    refine ⟨⟨d.ny, d.nx, fun y x => d.px y x start⟩ :: l, ?_, by simp [h2], ?_⟩
    · unfold readBandsOf
      simp only [hb, ok_bind, h1]
    · intro k hk
      cases k with
      | zero => rfl
      | succ k =>
        rw [List.getElem?_cons_succ, h3 k (by omega)]
        have : start + 1 + k = start + (k + 1) := by omega
        rw [this]

theorem bandsOf_short (d : Dset K P) : ∀ (n start : Nat), start ≤ d.nb → d.nb < start + n → readBandsOf (some d) start n = .error .attributeError := by
  intro n
  induction n with
  | zero => intro start h1 h2; omega
  | succ n ih =>
    intro start h1 h2
    unfold readBandsOf
    simp only [Dset.readBand]
    by_cases h : start < d.nb
    · rw [if_pos (by omega)]
      simp only [ok_bind]
      rw [ih (start + 1) (by omega) (by omega)]
      rfl
    · rw [if_neg (by omega)]
      rfl

theorem bandsOf_none (n start : Nat) : readBandsOf (none : Option (Dset K P)) start (n + 1) = .error .attributeError := rfl

theorem readBands_eq (im : EnviImg K P) : ∀ n start, im.readBands start n = readBandsOf im.dset start n := by
  intro n
  induction n with
  | zero => intro start; rfl
  | succ n ih =>
    intro start
    unfold EnviImg.readBands readBandsOf EnviImg.readBand
    rw [ih]
    cases im.dset <;> rfl

theorem stacked [Inhabited K] (d : Dset K P) (n : Nat) (h1 : 1 ≤ n) (h2 : n ≤ d.nb) :
    ∃ c, (do let l ← readBandsOf (some d) 0 n; stackBands l) = .ok c ∧ c.Same ⟨d.ny, d.nx, n, d.px⟩ := by
  obtain ⟨l, e1, e2, e3⟩ := bandsOf_ok d n 0 (by omega)
  have hmem : ∀ a ∈ l, a.ny = d.ny ∧ a.nx = d.nx := by
    intro a ha
    obtain ⟨k, hk, rfl⟩ := List.mem_iff_getElem.1 ha
    have := e3 k (by omega)
    rw [List.getElem?_eq_getElem hk] at this
    rw [Option.some.inj this]
    exact ⟨rfl, rfl⟩
  obtain ⟨c, f1, f2, f3, f4, f5⟩ := stack_same l d.ny d.nx (by rintro rfl; simp at e2; omega) hmem
  refine ⟨c, ?_, f2, f3, by rw [f4, e2], ?_⟩
  · rw [e1, ok_bind, f1]
  · intro y x z _ _ hz
    rw [f5 z _ (e3 z (by simp only [f4, e2] at hz; exact hz)) y x]
    simp

/-! ### C111 -/

/-- C111: when the header names at most the bands of the raster, `read_all_image_data_from_disk` returns exactly that many of the raster's bands,
from the first, and `read_band_from_disk(b)` is band `b` of them. -/
theorem C111_read_all_partial [Inhabited K] (im : EnviImg K P) (d : Dset K P) (hd : im.dset = some d) (h1 : 1 ≤ im.bands) (h2 : im.bands ≤ d.nb) :
    ∃ c, im.readAll = .ok c ∧ c.Same ⟨d.ny, d.nx, im.bands.toNat, d.px⟩ ∧
      ∀ b : Nat, (b : Int) < im.bands → ∃ a, im.readBand b = .ok a ∧ a.ny = c.ny ∧ a.nx = c.nx ∧
        ∀ y x, y < c.ny → x < c.nx → a.px y x = c.px y x b := by
  obtain ⟨c, e1, e2⟩ := stacked d im.bands.toNat (by omega) (by omega)
  refine ⟨c, ?_, e2, ?_⟩
  · unfold EnviImg.readAll
    rw [readBands_eq, hd]
    exact e1
  · intro b hb
    refine ⟨⟨d.ny, d.nx, fun y x => d.px y x b⟩, ?_, e2.1.symm, e2.2.1.symm, ?_⟩
    · simp only [EnviImg.readBand, hd, Dset.readBand]
      rw [if_pos (by omega)]
      simp
    · intro y x hy hx
      exact (e2.2.2.2 y x b hy hx (by have := e2.2.2.1; simp only [] at this; omega)).symm

/-- C111: written by `write_envi_image` and opened as an `EnviImage`: when no header of the shorter name lies beside it and GDAL reads the raster
that was written, the image has the written sizes and reading it gives the written array. -/
theorem C111_written_partial {F : Type} (pf : Str → Option F) (ls : Str) (hls : Envi.Sep ls) (fs : Envi.FS) (c : Envi.Cube)
    (hs : Envi.Supported c.dtype) (fname : Str) (h : fs (fname.take (fname.length - 4) ++ ".hdr".toList) = none)
    (h3 : fname.take (fname.length - 4) ++ ".hdr".toList ≠ fname) (gdalOpen : Str → Option (Dset (List Nat) P)) (d : Dset (List Nat) P)
    (hg : gdalOpen fname = some d) (hc : (⟨d.ny, d.nx, d.nb, d.px⟩ : A3 (List Nat)).Same c.arr) (hnb : 0 < c.arr.nb) :
    ∃ im r, enviOpen pf ls gdalOpen (Envi.writeImage ls fs c fname none "bil".toList).1 fname none = .ok im ∧
      im.samples = c.arr.nx ∧ im.lines = c.arr.ny ∧ im.bands = c.arr.nb ∧ im.readAll = .ok r ∧ r.Same c.arr := by
  obtain ⟨c1, c2, c3, c4⟩ := hc
  simp only [] at c1 c2 c3 c4
  have hopen : enviOpen pf ls gdalOpen (Envi.writeImage ls fs c fname none "bil".toList).1 fname none =
      .ok ⟨some d, c.arr.nx, c.arr.ny, c.arr.nb⟩ := by
    unfold enviOpen
    rw [Envi.C77_metadata_partial pf ls hls fs c hs fname h h3, ok_bind, hg]
  obtain ⟨r, e1, e2, -⟩ := C111_read_all_partial ⟨some d, c.arr.nx, c.arr.ny, c.arr.nb⟩ d rfl (by simp only []; omega) (by simp only []; omega)
  refine ⟨_, r, hopen, rfl, rfl, rfl, e1, ?_⟩
  obtain ⟨r1, r2, r3, r4⟩ := e2
  simp only [Int.toNat_natCast] at r1 r2 r3 r4
  refine ⟨by omega, by omega, by omega, ?_⟩
  intro y x z hy hx hz
  rw [r4 y x z hy hx hz]
  exact c4 y x z (by omega) (by omega) (by omega)

/-- C111: the failures: a header with more bands than the raster, or no raster at all: AttributeError; a header with no band: ValueError. -/
theorem C111_failures [Inhabited K] (im : EnviImg K P) :
    (∀ d, im.dset = some d → (d.nb : Int) < im.bands → im.readAll = .error .attributeError) ∧
    (im.dset = none → 1 ≤ im.bands → im.readAll = .error .attributeError) ∧
    (im.bands ≤ 0 → im.readAll = .error .valueError) ∧
    (im.dset = none → ∀ b, im.readBand b = .error .attributeError) ∧
    (∀ d, im.dset = some d → ∀ b : Int, (b < 0 ∨ (d.nb : Int) ≤ b) → im.readBand b = .error .attributeError) := by
  refine ⟨?_, ?_, ?_, ?_, ?_⟩
  · intro d hd h
    unfold EnviImg.readAll
    rw [readBands_eq, hd, bandsOf_short d _ 0 (by omega) (by omega)]
    rfl
  · intro hd h
    unfold EnviImg.readAll
    rw [readBands_eq, hd]
    obtain ⟨n, hn⟩ : ∃ n, im.bands.toNat = n + 1 := ⟨im.bands.toNat - 1, by omega⟩
    rw [hn]
    rfl
  · intro h
    unfold EnviImg.readAll
    rw [show im.bands.toNat = 0 by omega]
    rfl
  · intro hd b
    simp only [EnviImg.readBand, hd]
  · intro d hd b hb
    simp only [EnviImg.readBand, hd, Dset.readBand]
    rw [if_neg (by omega)]

/-- C111 fails when the header chosen is not the raster's: an image opened on a file just written, beside which the header of another image with the
shorter name lies, has that image's sizes; reading then returns fewer bands than were written without any exception. -/
theorem C111_stale_header_false {F : Type} (pf : Str → Option F) :
    ∃ (fs0 : Envi.FS) (c : Envi.Cube) (d : Dset (List Nat) Unit), (⟨d.ny, d.nx, d.nb, d.px⟩ : A3 (List Nat)).Same c.arr ∧
      ∃ im r, enviOpen pf TextUtils.posixSep (fun _ => some d) (Envi.writeImage TextUtils.posixSep fs0 c "img.dat".toList none "bil".toList).1 "img.dat".toList none =
        .ok im ∧ im.readAll = .ok r ∧ r.nb < c.arr.nb ∧ im.samples ≠ c.arr.nx ∧ (r.nx : Int) ≠ im.samples := by
  let old : Envi.Cube := ⟨.u8, 5, 5, 1, fun _ _ _ => [0]⟩
  let new : Envi.Cube := ⟨.u8, 1, 2, 3, fun _ x _ => [x]⟩
  let d : Dset (List Nat) Unit := ⟨2, 1, 3, 1, fun _ x _ => [x], ([], [], [], [], [], []), (), none⟩
  let e0 : Envi.FS := fun _ => none
  let fs0 : Envi.FS := (Envi.writeImage TextUtils.posixSep (fun _ => none) old "img".toList none "bil".toList).1
  have hso : Envi.Supported old.dtype := by intro t n h; simp [old] at h
  have hsn : Envi.Supported new.dtype := by intro t n h; simp [new] at h
  obtain ⟨code, h1, h2, -⟩ := Envi.supported_code hsn
  obtain ⟨codeO, o1, o2, -⟩ := Envi.supported_code hso
  have hfs : ∀ p, (Envi.writeImage TextUtils.posixSep fs0 new "img.dat".toList none "bil".toList).1 p =
      ((((e0).put "img".toList (Envi.dataBytes old "bil".toList)).put "img.hdr".toList (Envi.headerBytes TextUtils.posixSep old codeO "bil".toList)).put
        "img.dat".toList (Envi.dataBytes new "bil".toList)).put "img.dat.hdr".toList (Envi.headerBytes TextUtils.posixSep new code "bil".toList) p := by
    intro p
    simp only [fs0, Envi.writeImage, h1, o1]
    rfl
  have hm : Envi.imageMetadata pf TextUtils.posixSep (Envi.writeImage TextUtils.posixSep fs0 new "img.dat".toList none "bil".toList).1 "img.dat".toList none =
      .ok (5, 5, 1) := by
    have hfs' := funext hfs
    rw [hfs']
    have e2 : (((((e0).put "img".toList (Envi.dataBytes old "bil".toList)).put "img.hdr".toList (Envi.headerBytes TextUtils.posixSep old codeO "bil".toList)).put
        "img.dat".toList (Envi.dataBytes new "bil".toList)).put "img.dat.hdr".toList (Envi.headerBytes TextUtils.posixSep new code "bil".toList))
        "img.hdr".toList = some (Envi.headerBytes TextUtils.posixSep old codeO "bil".toList) := by
      rw [Envi.put_other _ _ _ _ (by decide +kernel), Envi.put_other _ _ _ _ (by decide +kernel), Envi.put_same]
    have hname : Envi.guessHeaderImage (((((e0).put "img".toList (Envi.dataBytes old "bil".toList)).put "img.hdr".toList (Envi.headerBytes TextUtils.posixSep old codeO "bil".toList)).put
        "img.dat".toList (Envi.dataBytes new "bil".toList)).put "img.dat.hdr".toList (Envi.headerBytes TextUtils.posixSep new code "bil".toList)) "img.dat".toList =
        some "img.hdr".toList := by
      unfold Envi.guessHeaderImage
      have : "img.dat".toList.take ("img.dat".toList.length - 4) ++ ".hdr".toList = "img.hdr".toList := by decide +kernel
      simp only [List.foldl_cons, List.foldl_nil, this, e2, Option.isSome_some, if_true]
    obtain ⟨dd, hd, e3, e4, e5, -⟩ := Envi.header_full pf TextUtils.posixSep (.inl rfl) old codeO "bil".toList Envi.plain_bil
    have hr : Envi.readHeader pf TextUtils.posixSep (((((e0).put "img".toList (Envi.dataBytes old "bil".toList)).put "img.hdr".toList (Envi.headerBytes TextUtils.posixSep old codeO "bil".toList)).put
        "img.dat".toList (Envi.dataBytes new "bil".toList)).put "img.dat.hdr".toList (Envi.headerBytes TextUtils.posixSep new code "bil".toList)) (some "img.hdr".toList) = .ok dd := by
      simp only [Envi.readHeader, e2]
      unfold Envi.headerBytes
      rw [Envi.toText_toBytes]
      exact hd
    unfold Envi.imageMetadata
    simp only [hname, hr]
    show (Envi.getInt dd "samples".toList >>= _) = _
    rw [e3, e4, e5]
    rfl
  refine ⟨fs0, new, d, ⟨rfl, rfl, rfl, fun _ _ _ _ _ _ => rfl⟩, ⟨some d, 5, 5, 1⟩, ?_⟩
  obtain ⟨r, f1, f2, -⟩ := C111_read_all_partial (⟨some d, 5, 5, 1⟩ : EnviImg (List Nat) Unit) d rfl (by simp) (by simp [d])
  refine ⟨r, ?_, f1, ?_, by simp [new], ?_⟩
  · unfold enviOpen
    rw [hm, ok_bind]
  · rw [f2.2.2.1]; simp [new]
  · rw [f2.2.1]; simp [d]

example : ∃ im r, enviOpen (F := Unit) (fun _ => none) TextUtils.posixSep
      (fun _ => some (⟨2, 1, 3, 1, fun _ x _ => [x], ([], [], [], [], [], []), (), none⟩ : Dset (List Nat) Unit))
      (Envi.writeImage TextUtils.posixSep (fun _ => none) ⟨.u8, 1, 2, 3, fun _ x _ => [x]⟩ "img.dat".toList none "bil".toList).1 "img.dat".toList none = .ok im ∧
      im.bands = 3 ∧ im.readAll = .ok r ∧ r.px 0 1 2 = [1] := by
  obtain ⟨im, r, h1, h2, h3, h4, h5, h6⟩ := C111_written_partial (F := Unit) (fun _ => none) TextUtils.posixSep (.inl rfl) (fun _ => none)
    ⟨.u8, 1, 2, 3, fun _ x _ => [x]⟩ (by intro t n h; simp at h) "img.dat".toList rfl (by decide +kernel)
    (fun _ => some (⟨2, 1, 3, 1, fun _ x _ => [x], ([], [], [], [], [], []), (), none⟩ : Dset (List Nat) Unit)) _ rfl ⟨rfl, rfl, rfl, fun _ _ _ _ _ _ => rfl⟩ (by simp)
  exact ⟨im, r, h1, h4, h5, h6.2.2.2 0 1 2 (by rw [h6.1]; simp) (by rw [h6.2.1]; simp) (by rw [h6.2.2.1]; simp)⟩

/-! ### C113 -/

/-- What was last assigned to the point calculator in a history, by either way. -/
def LastCalc {C M : Type} : List (AttrOp C M) → Option C
  | [] => none
  | op :: rest => match LastCalc rest, op with
    | some c, _ => some c
    | none, .setPointCalculator c => some c
    | none, .pointcalc c => some c
    | none, _ => none

/-- What was last assigned to the metadata in a history, by either way. -/
def LastMeta {C M : Type} : List (AttrOp C M) → Option M
  | [] => none
  | op :: rest => match LastMeta rest, op with
    | some c, _ => some c
    | none, .setMetadata c => some c
    | none, .metadata c => some c
    | none, _ => none

theorem foldl_attrs {C M : Type} (ops : List (AttrOp C M)) : ∀ o : Overhead C M,
    (ops.foldl Overhead.step o).pointCalc = (match LastCalc ops with | some c => .obj c | none => o.pointCalc) ∧
    (ops.foldl Overhead.step o).metadata = (match LastMeta ops with | some c => .obj c | none => o.metadata) := by
  induction ops with
  | nil => intro o; exact ⟨rfl, rfl⟩
  | cons op rest ih =>
    intro o
    rw [List.foldl_cons, (ih _).1, (ih _).2]
    constructor
    · simp only [LastCalc]
      cases LastCalc rest <;> cases op <;> rfl
    · simp only [LastMeta]
      cases LastMeta rest <;> cases op <;> rfl

/-- C113: after any history of assignments, by method or by property, both ways of reading give the point calculator and the metadata assigned last. -/
theorem C113_attributes {C M : Type} (ops : List (AttrOp C M)) :
    (∀ c, LastCalc ops = some c → (ops.foldl Overhead.step (newOverhead C M)).getPointCalculator = .obj c ∧
      (ops.foldl Overhead.step (newOverhead C M)).pointcalcProp = .obj c) ∧
    (∀ m, LastMeta ops = some m → (ops.foldl Overhead.step (newOverhead C M)).getMetadata = .obj m ∧
      (ops.foldl Overhead.step (newOverhead C M)).metadataProp = .obj m) := by
  have h := foldl_attrs ops (newOverhead C M)
  refine ⟨fun c hc => ?_, fun m hm => ?_⟩
  · have := h.1; rw [hc] at this; exact ⟨this, this⟩
  · have := h.2; rw [hm] at this; exact ⟨this, this⟩

/-- C113: an attribute never assigned reads as the abstract class itself, an object no check for None notices. -/
theorem C113_unset_false {C M : Type} (ops : List (AttrOp C M)) :
    (LastCalc ops = none → (ops.foldl Overhead.step (newOverhead C M)).getPointCalculator = .cls) ∧
    (LastMeta ops = none → (ops.foldl Overhead.step (newOverhead C M)).getMetadata = .cls) := by
  have h := foldl_attrs ops (newOverhead C M)
  refine ⟨fun hc => ?_, fun hm => ?_⟩
  · have := h.1; rw [hc] at this; exact this
  · have := h.2; rw [hm] at this; exact this

/-- C113: an image made from a file has the metadata of the raster and the calculator given (or read from the file), its data are loaded on request
and are the raster's; a file that cannot be opened or has no band is an AttributeError. -/
theorem C113_from_file {C : Type} [Inhabited K] (gdalOpen : Str → Option (Dset K P)) (root : Str → Str) (fname : Str) (c : C) :
    (∀ d, gdalOpen fname = some d → 0 < d.nb → ∃ im r, physicalFromFile gdalOpen root fname c = .ok im ∧
      vrsFromFile gdalOpen root (fun _ => .ok c) fname = .ok im ∧
      im.metadata = ⟨some (root fname), d.nx, d.ny, d.nb, some d.dtype, d.nodata⟩ ∧ im.pointCalc = c ∧ im.data = none ∧
      im.readAll = .ok r ∧ r.Same ⟨d.ny, d.nx, d.nb, d.px⟩) ∧
    ((gdalOpen fname = none ∨ ∃ d, gdalOpen fname = some d ∧ d.nb = 0) →
      physicalFromFile gdalOpen root fname c = .error .attributeError ∧
      ∀ rpc : Str → Py C, vrsFromFile gdalOpen root rpc fname = .error .attributeError) ∧
    (∀ d e rpc, gdalOpen fname = some d → 0 < d.nb → rpc fname = .error e → vrsFromFile (C := C) gdalOpen root rpc fname = .error e) := by
  refine ⟨?_, ?_, ?_⟩
  · intro d hd hnb
    obtain ⟨r, h1, h2⟩ := stacked d d.nb (by omega) (by omega)
    refine ⟨⟨none, some d, ⟨some (root fname), d.nx, d.ny, d.nb, some d.dtype, d.nodata⟩, c, true⟩, r, ?_, ?_, rfl, rfl, rfl, ?_, h2⟩
    · simp only [physicalFromFile, metaFromFile, hd, if_neg (show ¬ d.nb = 0 by omega), ok_bind]
    · simp only [vrsFromFile, metaFromFile, hd, if_neg (show ¬ d.nb = 0 by omega), ok_bind]
    · unfold Made.readAll
      simp only [if_true]
      exact h1
  · intro h
    have hm : metaFromFile gdalOpen root fname = .error .attributeError := by
      unfold metaFromFile
      rcases h with h | ⟨d, h, h0⟩
      · rw [h]
      · rw [h]; simp only [if_pos h0]
    refine ⟨?_, fun rpc => ?_⟩
    · unfold physicalFromFile; rw [hm]; rfl
    · unfold vrsFromFile; rw [hm]; rfl
  · intro d e rpc hd hnb he
    simp only [vrsFromFile, metaFromFile, hd, if_neg (show ¬ d.nb = 0 by omega), ok_bind, he]
    rfl

/-- C113: `set_read_with_gdal(False)` leaves a physical-camera image that cannot be read: ValueError. -/
theorem C113_not_with_gdal {C : Type} [Inhabited K] (im : Made K P C) (h : im.readWithGdal = false) : im.readAll = .error .valueError := by
  unfold Made.readAll
  simp only [h]
  rfl

/-- C113: an image made from an array has the array, metadata and calculator given; reading it from disk is an AttributeError, or a ValueError when
the metadata has no band. -/
theorem C113_from_array {C : Type} [Inhabited K] (a : A3 K) (m : Meta K) (c : C) :
    (physicalFromArray (P := P) a m c).data = some a ∧ (physicalFromArray (P := P) a m c).metadata = m ∧
    (physicalFromArray (P := P) a m c).pointCalc = c ∧
    (0 < m.nb → (physicalFromArray (P := P) a m c).readAll = .error .attributeError) ∧
    (m.nb = 0 → (physicalFromArray (P := P) a m c).readAll = .error .valueError) := by
  refine ⟨rfl, rfl, rfl, ?_, ?_⟩
  · intro h
    unfold Made.readAll physicalFromArray
    obtain ⟨n, hn⟩ : ∃ n, m.nb = n + 1 := ⟨m.nb - 1, by omega⟩
    simp only [hn, if_true]
    rfl
  · intro h
    unfold Made.readAll physicalFromArray
    simp only [h, if_true]
    rfl

/-- C113: an IGM image has the data given, the rows and columns of the longitudes, the number of bands given, and no file name, type or no-data
value; an error of its calculator is raised. -/
theorem C113_igm {C : Type} (mk : A2 K → A2 K → Py C) (a : Option (A3 K)) (lons lats : A2 K) (nb : Nat) :
    (∀ c, mk lons lats = .ok c → ∃ im : Made K P C, igmFromParams mk a lons lats nb = .ok im ∧ im.data = a ∧ im.pointCalc = c ∧
      im.metadata = ⟨none, lons.nx, lons.ny, nb, none, none⟩ ∧ igmRead im = none) ∧
    (∀ e, mk lons lats = .error e → igmFromParams (P := P) mk a lons lats nb = .error e) := by
  refine ⟨fun c hc => ⟨⟨a, none, ⟨none, lons.nx, lons.ny, nb, none, none⟩, c, true⟩, ?_, rfl, rfl, rfl, rfl⟩, fun e he => ?_⟩
  · unfold igmFromParams; rw [hc]; rfl
  · unfold igmFromParams; rw [he]; rfl

/-- C113 fails: metadata and data need not agree: for every array there are metadata, and for IGM images a number of bands, that contradict it and
are accepted. -/
theorem C113_metadata_false {C : Type} (a : A3 K) (c : C) (lons lats : A2 K) :
    (∃ m : Meta K, (physicalFromArray (P := P) a m c).data = some a ∧ (physicalFromArray (P := P) a m c).metadata.nb ≠ a.nb ∧
      (physicalFromArray (P := P) a m c).metadata.nx ≠ a.nx) ∧
    (∃ (nb : Nat) (im : Made K P C), igmFromParams (fun _ _ => .ok c) (some a) lons lats nb = .ok im ∧ im.data = some a ∧ im.metadata.nb ≠ a.nb) := by
  refine ⟨⟨⟨none, a.nx + 1, a.ny, a.nb + 1, none, none⟩, rfl, ?_, ?_⟩, a.nb + 1, ⟨some a, none, ⟨none, lons.nx, lons.ny, a.nb + 1, none, none⟩, c, true⟩, rfl, rfl, ?_⟩
  · show a.nb + 1 ≠ a.nb; omega
  · show a.nx + 1 ≠ a.nx; omega
  · show a.nb + 1 ≠ a.nb; omega

example : ([.setPointCalculator 1, .metadata "m", .pointcalc 2].foldl Overhead.step (newOverhead Nat String)).getPointCalculator = .obj 2 :=
  ((C113_attributes [.setPointCalculator 1, .metadata "m", .pointcalc 2]).1 2 rfl).1

example : ∃ im r, physicalFromFile (fun _ => some (⟨2, 1, 3, 1, fun _ x z => x + z, (0, 0, 0, 0, 0, 0), (), none⟩ : Dset Nat Unit)) id "a.tif".toList "calc" =
    .ok im ∧ im.readAll = .ok r ∧ r.px 0 1 2 = 3 := by
  obtain ⟨im, r, h1, -, -, -, -, h2, h3⟩ := (C113_from_file (fun _ => some (⟨2, 1, 3, 1, fun _ x z => x + z, (0, 0, 0, 0, 0, 0), (), none⟩ : Dset Nat Unit)) id
    "a.tif".toList "calc").1 _ rfl (by simp)
  exact ⟨im, r, h1, h2, h3.2.2.2 0 1 2 (by rw [h3.1]; simp) (by rw [h3.2.1]; simp) (by rw [h3.2.2.1]; simp)⟩

/-! ### C114 -/

/-- The projection assigned last in a history, by `set_projection` or with an image. -/
def LastProj {Q : Type} : List (DemOp Q) → Option Q
  | [] => none
  | op :: rest => match LastProj rest, op with
    | some c, _ => some c
    | none, .setProjection c => some c
    | none, .setImage c => some c
    | none, _ => none

/-- The vertical reference assigned last in a history. -/
def LastRef {Q : Type} : List (DemOp Q) → Option Int
  | [] => none
  | op :: rest => match LastRef rest, op with
    | some c, _ => some c
    | none, .setReference c => some c
    | none, _ => none

theorem foldl_dem {Q : Type} (ops : List (DemOp Q)) : ∀ d : DemAttrs Q,
    (ops.foldl DemAttrs.step d).proj = (LastProj ops).or d.proj ∧ (ops.foldl DemAttrs.step d).reference = (LastRef ops).or d.reference := by
  induction ops with
  | nil => intro d; exact ⟨rfl, rfl⟩
  | cons op rest ih =>
    intro d
    rw [List.foldl_cons, (ih _).1, (ih _).2]
    constructor
    · simp only [LastProj]
      cases LastProj rest <;> cases op <;> rfl
    · simp only [LastRef]
      cases LastRef rest <;> cases op <;> rfl

/-- C114: after any history of assignments a DEM has the projection and the vertical reference assigned last, each independent of the other. -/
theorem C114_attributes_partial {Q : Type} (ops : List (DemOp Q)) :
    (∀ q, LastProj ops = some q → (ops.foldl DemAttrs.step (newDem Q)).getProjection = .ok q) ∧
    (∀ c, LastRef ops = some c → (ops.foldl DemAttrs.step (newDem Q)).getReference = .ok c) := by
  have h := foldl_dem ops (newDem Q)
  refine ⟨fun q hq => ?_, fun c hc => ?_⟩
  · rw [hq] at h; unfold DemAttrs.getProjection; rw [h.1]; rfl
  · rw [hc] at h; unfold DemAttrs.getReference; rw [h.2]; rfl

/-- C114 fails before an assignment: asking for a projection or reference that was never assigned is an AttributeError, though the base class
declares defaults: so for every constant-elevation DEM as the factory makes it. -/
theorem C114_unset_false {Q : Type} (ops : List (DemOp Q)) :
    (LastProj ops = none → (ops.foldl DemAttrs.step (newDem Q)).getProjection = .error .attributeError) ∧
    (LastRef ops = none → (ops.foldl DemAttrs.step (newDem Q)).getReference = .error .attributeError) := by
  have h := foldl_dem ops (newDem Q)
  refine ⟨fun hq => ?_, fun hc => ?_⟩
  · rw [hq] at h; unfold DemAttrs.getProjection; rw [h.1]; rfl
  · rw [hc] at h; unfold DemAttrs.getReference; rw [h.2]; rfl

example : ([.setImage "utm", .setReference 5703].foldl DemAttrs.step (newDem String)).getProjection = .ok "utm" ∧
    (newDem String).getProjection = .error .attributeError :=
  ⟨(C114_attributes_partial [.setImage "utm", .setReference 5703]).1 _ rfl, (C114_unset_false []).1 rfl⟩

end Verif.ImageObjects
