import Verif.Model.Images
import Verif.Lemmas.Base
import Verif.Lemmas.Str
import Mathlib.Tactic.NormNum
import Mathlib.Tactic.FieldSimp

/-! C78 (one band or all bands from disk), C79 (GeoTIFF written and opened again), C80 (fractions of a second in MicaSense
images), C81 (degrees, minutes and seconds). -/

set_option linter.unusedSectionVars false
set_option linter.unusedVariables false

namespace Verif.Images
open Verif

variable {K P : Type}

/-! ### C78 -/

theorem readBands_ok (im : DImage K P) (d : Dset K P) (hd : im.dset = some d) :
    ∀ (n start : Nat), start + n ≤ d.nb → ∃ l : List (A2 K), im.readBands start n = .ok l ∧ l.length = n ∧
      ∀ k, k < n → l[k]? = some ⟨d.ny, d.nx, fun y x => d.px y x (start + k)⟩ := by
  intro n
  induction n with
  | zero => intro start _; exact ⟨[], rfl, rfl, by intro k hk; omega⟩
  | succ n ih =>
    intro start h
    obtain ⟨l, h1, h2, h3⟩ := ih (start + 1) (by omega)
    have hb : im.readBand (start : Int) = .ok ⟨d.ny, d.nx, fun y x => d.px y x start⟩ := by
      simp only [DImage.readBand, hd, Dset.readBand]
      rw [if_pos (by omega)]
      simp
    refine ⟨⟨d.ny, d.nx, fun y x => d.px y x start⟩ :: l, ?_, by simp [h2], ?_⟩
    · unfold DImage.readBands
      rw [hb, ok_bind, h1]
      rfl
    · intro k hk
      cases k with
      | zero => rfl
      | succ k =>
        rw [List.getElem?_cons_succ, h3 k (by omega)]
        have : start + 1 + k = start + (k + 1) := by omega
        rw [this]

theorem stack_same [Inhabited K] (l : List (A2 K)) (ny nx : Nat) (hne : l ≠ []) (h : ∀ a ∈ l, a.ny = ny ∧ a.nx = nx) :
    ∃ c, stackBands l = .ok c ∧ c.ny = ny ∧ c.nx = nx ∧ c.nb = l.length ∧
      ∀ (k : Nat) (a : A2 K), l[k]? = some a → ∀ y x, c.px y x k = a.px y x := by
  cases l with
  | nil => exact absurd rfl hne
  | cons a as =>
    unfold stackBands
    simp only []
    rw [if_pos]
    · refine ⟨_, rfl, (h a List.mem_cons_self).1, (h a List.mem_cons_self).2, by simp, ?_⟩
      intro k c hk y x
      simp only [hk]
    · rw [List.all_eq_true]
      intro c hc
      have h1 := h c (List.mem_cons_of_mem _ hc)
      have h2 := h a List.mem_cons_self
      simp [h1.1, h1.2, h2.1, h2.2]

theorem readAll_ok [Inhabited K] (im : DImage K P) (d : Dset K P) (hd : im.dset = some d) (hn : im.nb = d.nb) (hpos : 0 < d.nb) :
    ∃ c, im.readAll = .ok c ∧ c.Same ⟨d.ny, d.nx, d.nb, d.px⟩ := by
  obtain ⟨l, h1, h2, h3⟩ := readBands_ok im d hd im.nb 0 (by omega)
  have hmem : ∀ a ∈ l, a.ny = d.ny ∧ a.nx = d.nx := by
    intro a ha
    obtain ⟨k, hk, rfl⟩ := List.mem_iff_getElem.1 ha
    have := h3 k (by omega)
    rw [List.getElem?_eq_getElem hk] at this
    rw [Option.some.inj this]
    exact ⟨rfl, rfl⟩
  obtain ⟨c, e1, e2, e3, e4, e5⟩ := stack_same l d.ny d.nx (by rintro rfl; simp at h2; omega) hmem
  refine ⟨c, ?_, e2, e3, by rw [e4, h2, hn], ?_⟩
  · unfold DImage.readAll
    rw [h1, ok_bind, e1]
  · intro y x z _ _ hz
    rw [e5 z _ (h3 z (by omega)) y x]
    simp

/-- For an image opened from a file, `read_all_image_data_from_disk` returns all pixels of the file and
`read_band_from_disk(b)`, for every band number from 0, returns band `b` of them. -/
theorem C78_band_of_all_partial [Inhabited K] (d : Dset K P) (im : DImage K P) (ho : openImage d = .ok im) :
    ∃ c, im.readAll = .ok c ∧ c.Same ⟨d.ny, d.nx, d.nb, d.px⟩ ∧
      ∀ b : Nat, b < d.nb → ∃ a, im.readBand b = .ok a ∧ a.Same ⟨c.ny, c.nx, fun y x => c.px y x b⟩ := by
  unfold openImage at ho
  split at ho
  · simp at ho
  · rename_i hnb
    simp only [Except.ok.injEq] at ho
    subst ho
    obtain ⟨c, h1, h2⟩ := readAll_ok ⟨none, d.nx, d.ny, d.nb, d.dtype, d.nodata, d.geot, d.proj, some d⟩ d rfl rfl (by omega)
    refine ⟨c, h1, h2, ?_⟩
    intro b hb
    obtain ⟨s1, s2, s3, s4⟩ := h2
    refine ⟨⟨d.ny, d.nx, fun y x => d.px y x b⟩, ?_, s1.symm, s2.symm, ?_⟩
    · simp only [DImage.readBand, Dset.readBand]
      rw [if_pos (by omega)]
      simp
    · intro y x hy hx
      exact (s4 y x b (by rw [s1]; exact hy) (by rw [s2]; exact hx) (by rw [s3]; exact hb)).symm

/-- A negative band number, which selects a band from the end in memory, raises AttributeError on disk. -/
theorem C78_negative_false [Inhabited K] (d : Dset K P) (im : DImage K P) (ho : openImage d = .ok im) (b : Int) (hb : b < 0)
    (hlow : -(d.nb : Int) ≤ b) :
    im.readBand b = .error .attributeError ∧
      ∃ c, im.readAll = .ok c ∧ ∃ a, ({ im with data := some c } : DImage K P).getBand b = .ok a := by
  obtain ⟨c, h1, h2, _⟩ := C78_band_of_all_partial d im ho
  refine ⟨?_, c, h1, ?_⟩
  · unfold openImage at ho
    split at ho
    · simp at ho
    · simp only [Except.ok.injEq] at ho
      subst ho
      simp only [DImage.readBand, Dset.readBand]
      rw [if_neg (by omega)]
  · obtain ⟨k, hk⟩ := pyIdx_total (n := d.nb) hlow (by omega)
    simp only [DImage.getBand, h2.2.2.1, hk, ok_bind]
    exact ⟨_, rfl⟩

/-- For a MicaSense image whose band files have one size, both agree for every band number, counted from either end. -/
theorem C78_micasense [Inhabited K] (files : List (A2 K)) (ny nx : Nat) (hne : files ≠ []) (h : ∀ a ∈ files, a.ny = ny ∧ a.nx = nx) :
    ∃ c, micaReadAll files = .ok c ∧ c.nb = files.length ∧
      ∀ (b : Int) (k : Nat), PyAt files.length b k → ∃ a, micaReadBand files b = .ok a ∧ a.Same ⟨c.ny, c.nx, fun y x => c.px y x k⟩ := by
  obtain ⟨c, h1, h2, h3, h4, h5⟩ := stack_same files ny nx hne h
  refine ⟨c, h1, h4, ?_⟩
  intro b k hk
  have hget : files[k]? = some (files[k]'hk.1) := List.getElem?_eq_getElem hk.1
  refine ⟨files[k]'hk.1, ?_, ?_, ?_, ?_⟩
  · simp only [micaReadBand, (pyIdx_ok_iff _ _ _).2 hk, ok_bind, hget]
  · rw [h2]; exact (h _ (List.getElem_mem _)).1
  · rw [h3]; exact (h _ (List.getElem_mem _)).2
  · intro y x _ _
    exact (h5 k _ hget y x).symm

/-- Band files of two sizes: reading all bands fails, reading one does not. -/
theorem C78_micasense_sizes_false [Inhabited K] (a c : A2 K) (h : a.ny ≠ c.ny ∨ a.nx ≠ c.nx) :
    micaReadAll [a, c] = .error .valueError ∧ micaReadBand [a, c] 0 = .ok a ∧ micaReadBand [a, c] 1 = .ok c := by
  refine ⟨?_, rfl, rfl⟩
  unfold micaReadAll stackBands
  simp only []
  rw [if_neg]
  simp only [List.all_cons, List.all_nil, Bool.and_true, decide_eq_true_eq]
  rintro ⟨h1, h2⟩
  rcases h with h | h
  · exact h h1.symm
  · exact h h2.symm

example : ∃ im, openImage (⟨2, 1, 2, 1, fun _ x z => (10 * z + x : Int), (0, 1, 0, 0, 0, -1), (), none⟩ : Dset Int Unit) = .ok im ∧
    ∃ c, im.readAll = .ok c ∧ c.px 0 1 1 = 11 := by
  refine ⟨_, rfl, ?_⟩
  obtain ⟨c, h1, h2, _⟩ := C78_band_of_all_partial (⟨2, 1, 2, 1, fun _ x z => (10 * z + x : Int), (0, 1, 0, 0, 0, -1), (), none⟩ : Dset Int Unit) _ rfl
  exact ⟨c, h1, h2.2.2.2 0 1 1 (by rw [h2.1]; simp) (by rw [h2.2.1]; simp) (by rw [h2.2.2.1]; simp)⟩

/-! ### C79 -/

section
variable [Field K] [LinearOrder K] [IsStrictOrderedRing K] [FloorRing K] [Inhabited K]

theorem writeBands_ok (cast : K → K) (im : DImage K P) (c : A3 K) (hc : im.data = some c) :
    ∀ (n start : Nat) (d : Dset K P), start + n ≤ c.nb → c.nx ≤ d.nx → c.ny ≤ d.ny →
      ∃ d', im.writeBands cast start n d = .ok d' ∧ d'.nx = d.nx ∧ d'.ny = d.ny ∧ d'.nb = d.nb ∧ d'.dtype = d.dtype ∧
        d'.geot = d.geot ∧ d'.proj = d.proj ∧
        (∀ y x z, d'.px y x z = if (start ≤ z ∧ z < start + n) ∧ y < c.ny ∧ x < c.nx then cast (c.px y x z) else d.px y x z) ∧
        d'.nodata = (if n = 0 then d.nodata else match im.nodata with
          | none => d.nodata
          | some v => some ((Verif.Grids.pyInt v : Int) : K)) := by
  intro n
  induction n with
  | zero =>
    intro start d _ _ _
    refine ⟨d, rfl, rfl, rfl, rfl, rfl, rfl, rfl, ?_, rfl⟩
    intro y x z
    rw [if_neg (by omega)]
  | succ n ih =>
    intro start d h1 h2 h3
    have hb : im.getBand (start : Int) = .ok ⟨c.ny, c.nx, fun y x => c.px y x start⟩ := by
      simp only [DImage.getBand, hc]
      rw [pyIdx_nat (by omega), ok_bind]
    unfold DImage.writeBands
    rw [hb, ok_bind]
    unfold Dset.writeBand
    rw [if_pos ⟨h2, h3⟩, ok_bind]
    have key : ∀ d1 : Dset K P, d1.nx = d.nx → d1.ny = d.ny → d1.nb = d.nb → d1.dtype = d.dtype → d1.geot = d.geot → d1.proj = d.proj →
        (∀ y x z, d1.px y x z = if z = start ∧ y < c.ny ∧ x < c.nx then cast (c.px y x start) else d.px y x z) →
        d1.nodata = (match im.nodata with
          | none => d.nodata
          | some v => some ((Verif.Grids.pyInt v : Int) : K)) →
        ∃ d', im.writeBands cast (start + 1) n d1 = .ok d' ∧ d'.nx = d.nx ∧ d'.ny = d.ny ∧ d'.nb = d.nb ∧ d'.dtype = d.dtype ∧
          d'.geot = d.geot ∧ d'.proj = d.proj ∧
          (∀ y x z, d'.px y x z = if (start ≤ z ∧ z < start + (n + 1)) ∧ y < c.ny ∧ x < c.nx then cast (c.px y x z) else d.px y x z) ∧
          d'.nodata = (if n + 1 = 0 then d.nodata else match im.nodata with
            | none => d.nodata
            | some v => some ((Verif.Grids.pyInt v : Int) : K)) := by
      intro d1 g1 g2 g3 g4 g5 g6 g7 g8
      obtain ⟨d', e1, e2, e3, e4, e5, e6, e7, e8, e9⟩ := ih (start + 1) d1 (by omega) (by omega) (by omega)
      refine ⟨d', e1, by rw [e2, g1], by rw [e3, g2], by rw [e4, g3], by rw [e5, g4], by rw [e6, g5], by rw [e7, g6], ?_, ?_⟩
      · intro y x z
        rw [e8, g7]
        by_cases hz : z = start
        · subst hz
          rw [if_neg (by omega)]
          by_cases hyx : y < c.ny ∧ x < c.nx
          · rw [if_pos ⟨rfl, hyx⟩, if_pos ⟨by omega, hyx⟩]
          · rw [if_neg (fun e => hyx e.2), if_neg (fun e => hyx e.2)]
        · rw [if_neg (fun (e : z = start ∧ _) => hz e.1)]
          by_cases hr : (start + 1 ≤ z ∧ z < start + 1 + n) ∧ y < c.ny ∧ x < c.nx
          · rw [if_pos hr, if_pos ⟨by omega, hr.2⟩]
          · rw [if_neg hr, if_neg]
            rintro ⟨q1, q2⟩
            exact hr ⟨by omega, q2⟩
      · rw [e9, if_neg (Nat.succ_ne_zero n)]
        split
        · exact g8
        · cases hn : im.nodata with
          | none => rw [hn] at g8; exact g8
          | some v => rfl
    cases hn : im.nodata with
    | none =>
      simp only []
      rw [hn] at key
      exact key _ rfl rfl rfl rfl rfl rfl (fun _ _ _ => rfl) rfl
    | some v =>
      simp only []
      rw [hn] at key
      exact key _ rfl rfl rfl rfl rfl rfl (fun _ _ _ => rfl) rfl

/-- An image whose data fits its metadata, in values of the file's data type: what `write_to_disk` writes, opened again,
has the same size, data type, geotransform and projection, and the same pixels; its no-data value is that of the image
truncated to an integer. -/
theorem C79_roundtrip_partial (cast : K → K) (im : DImage K P) (c : A3 K) (hc : im.data = some c) (h1 : c.ny = im.ny)
    (h2 : c.nx = im.nx) (h3 : c.nb = im.nb) (hnb : 0 < im.nb)
    (hv : ∀ y x z, y < c.ny → x < c.nx → z < c.nb → cast (c.px y x z) = c.px y x z) :
    ∃ d im2 c2, im.write cast = .ok (im, d) ∧ openImage d = .ok im2 ∧ im2.readAll = .ok c2 ∧ c2.Same c ∧
      im2.nx = im.nx ∧ im2.ny = im.ny ∧ im2.nb = im.nb ∧ im2.dtype = im.dtype ∧ im2.geot = im.geot ∧ im2.proj = im.proj ∧
      im2.nodata = im.nodata.map (fun v => ((Verif.Grids.pyInt v : Int) : K)) := by
  obtain ⟨d, e1, e2, e3, e4, e5, e6, e7, e8, e9⟩ := writeBands_ok cast im c hc im.nb 0
    ⟨im.nx, im.ny, im.nb, im.dtype, fun _ _ _ => 0, im.geot, im.proj, none⟩ (by omega) (by simp only []; omega) (by simp only []; omega)
  simp only [] at e2 e3 e4 e5 e6 e7 e8 e9
  obtain ⟨c2, r1, r2⟩ := readAll_ok ⟨none, d.nx, d.ny, d.nb, d.dtype, d.nodata, d.geot, d.proj, some d⟩ d rfl rfl (by omega)
  refine ⟨d, ⟨none, d.nx, d.ny, d.nb, d.dtype, d.nodata, d.geot, d.proj, some d⟩, c2, ?_, ?_, r1, ?_, e2, e3, e4, e5, e6, e7, ?_⟩
  · unfold DImage.write
    simp only [hc]
    rw [ok_bind, e1]
    rfl
  · unfold openImage
    rw [if_neg (by omega)]
  · obtain ⟨s1, s2, s3, s4⟩ := r2
    simp only [] at s1 s2 s3 s4
    refine ⟨by omega, by omega, by omega, ?_⟩
    intro y x z hy hx hz
    rw [s4 y x z hy hx hz, e8, if_pos ⟨⟨by omega, by omega⟩, by omega, by omega⟩]
    exact hv y x z (by omega) (by omega) (by omega)
  · rw [e9, if_neg (by omega)]
    cases im.nodata <;> rfl

/-- In particular for an image made from an array, with a whole number or no no-data value, everything comes back. -/
theorem C79_from_array_partial (cast : K → K) (a : Img K) (dtype : Nat) (geot : K × K × K × K × K × K) (proj : P) (nodata : Option K)
    (hnb : 0 < a.nb) (hv : ∀ y x z, y < a.ny → x < a.nx → z < a.nb → cast (a.value y x z) = a.value y x z)
    (hint : ∀ v, nodata = some v → ∃ n : Int, v = n) :
    ∃ d im2 c2, (fromArray a dtype geot proj nodata).write cast = .ok (fromArray a dtype geot proj nodata, d) ∧ openImage d = .ok im2 ∧
      im2.readAll = .ok c2 ∧ c2.Same ⟨a.ny, a.nx, a.nb, a.value⟩ ∧ im2.dtype = dtype ∧ im2.geot = geot ∧ im2.proj = proj ∧ im2.nodata = nodata := by
  obtain ⟨c, hc, q1, q2, q3, q4⟩ : ∃ c, (fromArray a dtype geot proj nodata).data = some c ∧ c.ny = a.ny ∧ c.nx = a.nx ∧ c.nb = a.nb ∧ c.px = a.value := by
    cases a with
    | gray g => exact ⟨_, rfl, rfl, rfl, rfl, rfl⟩
    | cube c => exact ⟨_, rfl, rfl, rfl, rfl, rfl⟩
  have m1 : (fromArray a dtype geot proj nodata).ny = a.ny := by cases a <;> rfl
  have m2 : (fromArray a dtype geot proj nodata).nx = a.nx := by cases a <;> rfl
  have m3 : (fromArray a dtype geot proj nodata).nb = a.nb := by cases a <;> rfl
  obtain ⟨d, im2, c2, r1, r2, r3, r4, r5, r6, r7, r8, r9, r10, r11⟩ := C79_roundtrip_partial cast (fromArray a dtype geot proj nodata) c hc
    (by omega) (by omega) (by omega) (by omega) (by
      intro y x z hy hx hz
      rw [q4]
      exact hv y x z (by omega) (by omega) (by omega))
  refine ⟨d, im2, c2, r1, r2, r3, ?_, by rw [r8]; cases a <;> rfl, by rw [r9]; cases a <;> rfl, by rw [r10]; cases a <;> rfl, ?_⟩
  · obtain ⟨t1, t2, t3, t4⟩ := r4
    refine ⟨by simp only []; omega, by simp only []; omega, by simp only []; omega, ?_⟩
    intro y x z hy hx hz
    rw [t4 y x z hy hx hz, q4]
  · rw [r11]
    have : (fromArray a dtype geot proj nodata).nodata = nodata := by cases a <;> rfl
    rw [this]
    cases nodata with
    | none => rfl
    | some v =>
      obtain ⟨n, rfl⟩ := hint v rfl
      simp only [Option.map_some, Option.some.injEq]
      unfold Verif.Grids.pyInt
      split
      · rw [Int.floor_intCast]
      · rw [Int.ceil_intCast]

/-- A no-data value that is not a whole number never comes back, whatever the image. -/
theorem C79_nodata_false (cast : K → K) (im : DImage K P) (c : A3 K) (hc : im.data = some c) (h1 : c.ny = im.ny)
    (h2 : c.nx = im.nx) (h3 : c.nb = im.nb) (hnb : 0 < im.nb)
    (hv : ∀ y x z, y < c.ny → x < c.nx → z < c.nb → cast (c.px y x z) = c.px y x z) (v : K) (hn : im.nodata = some v)
    (hv2 : ∀ n : Int, v ≠ n) :
    ∃ d im2, im.write cast = .ok (im, d) ∧ openImage d = .ok im2 ∧ im2.nodata ≠ im.nodata := by
  obtain ⟨d, im2, c2, r1, r2, r3, r4, r5, r6, r7, r8, r9, r10, r11⟩ := C79_roundtrip_partial cast im c hc h1 h2 h3 hnb hv
  refine ⟨d, im2, r1, r2, ?_⟩
  rw [r11, hn]
  intro e
  exact hv2 _ (Option.some.inj e).symm

/-- An image opened from a file and written elsewhere without having been loaded: the copy has the pixels of the file, and
the image object is left with its data loaded. -/
theorem C79_copy_partial (cast : K → K) (src : Dset K P) (im : DImage K P) (ho : openImage src = .ok im)
    (hv : ∀ y x z, y < src.ny → x < src.nx → z < src.nb → cast (src.px y x z) = src.px y x z) :
    ∃ c d im2 c2, im.write cast = .ok ({ im with data := some c }, d) ∧ openImage d = .ok im2 ∧ im2.readAll = .ok c2 ∧
      c2.Same ⟨src.ny, src.nx, src.nb, src.px⟩ ∧ im2.dtype = src.dtype ∧ im2.geot = src.geot ∧ im2.proj = src.proj := by
  obtain ⟨c, h1, h2, _⟩ := C78_band_of_all_partial src im ho
  unfold openImage at ho
  split at ho
  · simp at ho
  · rename_i hnb
    simp only [Except.ok.injEq] at ho
    subst ho
    obtain ⟨s1, s2, s3, s4⟩ := h2
    simp only [] at s1 s2 s3 s4
    obtain ⟨d, im2, c2, r1, r2, r3, r4, r5, r6, r7, r8, r9, r10, r11⟩ := C79_roundtrip_partial cast
      (⟨some c, src.nx, src.ny, src.nb, src.dtype, src.nodata, src.geot, src.proj, some src⟩ : DImage K P) c rfl s1 s2 s3 (by simp only []; omega) (by
        intro y x z hy hx hz
        rw [s4 y x z hy hx hz]
        exact hv y x z (by omega) (by omega) (by omega))
    refine ⟨c, d, im2, c2, ?_, r2, r3, ?_, r8, r9, r10⟩
    · unfold DImage.write at r1 ⊢
      simp only [] at r1 ⊢
      rw [h1]
      exact r1
    · obtain ⟨t1, t2, t3, t4⟩ := r4
      refine ⟨by simp only []; omega, by simp only []; omega, by simp only []; omega, ?_⟩
      intro y x z hy hx hz
      rw [t4 y x z hy hx hz, s4 y x z (by omega) (by omega) (by omega)]

/-- An image with NaN (or an infinity) as its no-data value, the usual one of float rasters, can never be written: an
image whose data fits its metadata raises ValueError (OverflowError). -/
theorem C79_nan_nodata_false (cast : K → K) (im : DImage K P) (c : A3 K) (hc : im.data = some c) (h1 : c.ny = im.ny)
    (h2 : c.nx = im.nx) (h3 : c.nb = im.nb) (hnb : 0 < im.nb) :
    im.writeSpecial cast .nan = .error .valueError ∧ im.writeSpecial cast .inf = .error .overflow := by
  have key : ∀ v : Special, im.writeSpecial cast v = .error v.intErr := by
    intro v
    unfold DImage.writeSpecial
    simp only [hc]
    rw [ok_bind, if_neg (by omega)]
    have hb : im.getBand 0 = .ok ⟨c.ny, c.nx, fun y x => c.px y x 0⟩ := by
      simp only [DImage.getBand, hc]
      have := pyIdx_nat (n := c.nb) (k := 0) (by omega)
      simp only [Nat.cast_zero] at this
      rw [this, ok_bind]
    rw [hb, ok_bind]
    unfold Dset.writeBand
    rw [if_pos (by simp only []; omega), ok_bind]
  exact ⟨key .nan, key .inf⟩

/-- The same for an image opened from a float raster with a NaN no-data value: a copy cannot be made. -/
theorem C79_nan_copy_false (cast : K → K) (src : Dset K P) (im : DImage K P) (ho : openImage src = .ok im) :
    im.writeSpecial cast .nan = .error .valueError := by
  obtain ⟨c, h1, h2, _⟩ := C78_band_of_all_partial src im ho
  unfold openImage at ho
  split at ho
  · simp at ho
  · rename_i hnb
    simp only [Except.ok.injEq] at ho
    subst ho
    obtain ⟨s1, s2, s3, s4⟩ := h2
    simp only [] at s1 s2 s3
    have := (C79_nan_nodata_false cast
      (⟨some c, src.nx, src.ny, src.nb, src.dtype, src.nodata, src.geot, src.proj, some src⟩ : DImage K P) c rfl s1 s2 s3
      (by simp only []; omega)).1
    unfold DImage.writeSpecial at this ⊢
    simp only [] at this ⊢
    rw [h1]
    exact this

/-- Data replaced by a larger array without changing the metadata cannot be written. -/
theorem C79_larger_data_false (cast : K → K) (im : DImage K P) (c : A3 K) (hc : im.data = some c) (hnb : 0 < im.nb) (hcb : 0 < c.nb)
    (h : im.nx < c.nx ∨ im.ny < c.ny) : im.write cast = .error .valueError := by
  unfold DImage.write
  simp only [hc]
  rw [ok_bind]
  obtain ⟨n, hn⟩ : ∃ n, im.nb = n + 1 := ⟨im.nb - 1, by omega⟩
  rw [hn]
  unfold DImage.writeBands
  have hb : im.getBand ((0 : Nat) : Int) = .ok ⟨c.ny, c.nx, fun y x => c.px y x 0⟩ := by
    simp only [DImage.getBand, hc]
    rw [pyIdx_nat hcb, ok_bind]
  rw [hb, ok_bind]
  unfold Dset.writeBand
  rw [if_neg (by simp only []; omega)]
  rfl

end

example : ∃ d im2 c2, (fromArray (.gray ⟨1, 2, fun _ x => (x : ℚ)⟩) 1 (0, 1, 0, 0, 0, -1) () (some 255)).write id =
      .ok (fromArray (.gray ⟨1, 2, fun _ x => (x : ℚ)⟩) 1 (0, 1, 0, 0, 0, -1) () (some 255), d) ∧ openImage d = .ok im2 ∧
      im2.readAll = .ok c2 ∧ c2.Same ⟨1, 2, 1, fun _ x _ => (x : ℚ)⟩ ∧ im2.dtype = 1 ∧ im2.geot = (0, 1, 0, 0, 0, -1) ∧ im2.proj = () ∧
      im2.nodata = some (255 : ℚ) :=
  C79_from_array_partial id (.gray ⟨1, 2, fun _ x => (x : ℚ)⟩) 1 (0, 1, 0, 0, 0, -1) () (some 255) (by simp [Img.nb]) (fun _ _ _ _ _ _ => rfl)
    (by intro v hv; exact ⟨255, by rw [← Option.some.inj hv]; norm_num⟩)

example : ∃ d im2, (⟨some ⟨1, 1, 1, fun _ _ _ => 0⟩, 1, 1, 1, 1, some (1 / 2), (0, 1, 0, 0, 0, -1), (), none⟩ : DImage ℚ Unit).write id =
      .ok (⟨some ⟨1, 1, 1, fun _ _ _ => 0⟩, 1, 1, 1, 1, some (1 / 2), (0, 1, 0, 0, 0, -1), (), none⟩, d) ∧ openImage d = .ok im2 ∧
      im2.nodata ≠ some (1 / 2) := by
  refine C79_nodata_false id _ ⟨1, 1, 1, fun _ _ _ => 0⟩ rfl rfl rfl rfl (by simp) (fun _ _ _ _ _ _ => rfl) (1 / 2) rfl ?_
  intro n hn
  have h2 : (1 : ℚ) = ((2 * n : Int) : ℚ) := by push_cast; linarith
  have : (1 : Int) = 2 * n := by exact_mod_cast h2
  omega

/-! ### C80 -/

section
variable [Field K] [LinearOrder K] [IsStrictOrderedRing K]

theorem digitsInt_eq (s : Str) : digitsInt s = digitsVal s := rfl

/-- The fraction of a second recorded by a MicaSense image as the digits `tag`, when the first digit is not 0 (or there is a
single digit): the value of `0.tag`. -/
theorem C80_fraction_partial (n : Nat) : (subSeconds (natStr n) : K) = (n : K) / 10 ^ (natStr n).length := by
  unfold subSeconds zeroPoint
  rw [digitsInt_eq, digitsVal_natStr, digitsInt_eq, digitsVal_natStr]

/-- With `k` leading zeros the value is `10 ^ k` times what the tag says. -/
theorem C80_leading_zeros_false (n k : Nat) (hn : 0 < n) (hk : 0 < k) :
    (subSeconds (List.replicate k '0' ++ natStr n) : K) =
      10 ^ k * ((digitsVal (List.replicate k '0' ++ natStr n) : K) / 10 ^ (List.replicate k '0' ++ natStr n).length) ∧
    (subSeconds (List.replicate k '0' ++ natStr n) : K) ≠
      (digitsVal (List.replicate k '0' ++ natStr n) : K) / 10 ^ (List.replicate k '0' ++ natStr n).length := by
  have h1 : (subSeconds (List.replicate k '0' ++ natStr n) : K) = (n : K) / 10 ^ (natStr n).length := by
    unfold subSeconds zeroPoint
    rw [digitsInt_eq, digitsInt_eq, digitsVal_zeros, digitsVal_natStr, digitsVal_natStr]
  have h10 : (10 : K) ≠ 0 := by norm_num
  have h2 : (digitsVal (List.replicate k '0' ++ natStr n) : K) / 10 ^ (List.replicate k '0' ++ natStr n).length =
      (n : K) / (10 ^ k * 10 ^ (natStr n).length) := by
    rw [digitsVal_zeros, digitsVal_natStr, List.length_append, List.length_replicate, pow_add]
  have h3 : (subSeconds (List.replicate k '0' ++ natStr n) : K) =
      10 ^ k * ((digitsVal (List.replicate k '0' ++ natStr n) : K) / 10 ^ (List.replicate k '0' ++ natStr n).length) := by
    rw [h1, h2]
    field_simp
  refine ⟨h3, ?_⟩
  rw [h3]
  have hpos : (0 : K) < (digitsVal (List.replicate k '0' ++ natStr n) : K) / 10 ^ (List.replicate k '0' ++ natStr n).length := by
    rw [h2]
    exact div_pos (by exact_mod_cast hn) (mul_pos (by positivity) (by positivity))
  intro e
  have h4 : (1 : K) < 10 ^ k := one_lt_pow₀ (by norm_num) (by omega)
  nlinarith

example : (subSeconds ['0', '5'] : ℚ) = 1 / 2 ∧ (digitsVal ['0', '5'] : ℚ) / 10 ^ (['0', '5'] : Str).length = 1 / 20 := by
  have e : (['0', '5'] : Str) = List.replicate 1 '0' ++ natStr 5 := by
    unfold natStr
    rfl
  have h5 : digitsVal ['0', '5'] = 5 := by decide
  constructor
  · rw [e, (C80_leading_zeros_false (K := ℚ) 5 1 (by omega) (by omega)).1, ← e, h5]
    norm_num
  · rw [h5]
    norm_num

/-! ### C81 -/

/-- Value of a rational EXIF tag. -/
def Ratio.val (r : Ratio) : K := (r.num : K) / (r.den : K)

/-- Degrees and minutes given as whole numbers: the result is degrees plus minutes / 60 plus seconds / 3600, negative
exactly for the southern and western references. -/
theorem C81_dms_partial (d m s : Ratio) (hd : d.den = 1) (hm : m.den = 1) (hs : s.den ≠ 0) (ref : Str) :
    (dmsToDd d m s ref : Py K) =
      .ok ((if ref = ['S'] ∨ ref = ['W'] then -1 else 1) * (d.val + m.val / 60 + s.val / 3600)) := by
  unfold dmsToDd Ratio.val
  rw [if_neg hs, hd, hm]
  simp

/-- Minutes (or degrees) given with another denominator are read as if they were whole: the result differs from the angle
of the tag unless the two errors cancel. -/
theorem C81_denominators_false (d m s : Ratio) (hs : s.den ≠ 0) (ref : Str)
    (h : (d.num : K) + (m.num : K) / 60 ≠ d.val + m.val / 60) :
    ∃ r : K, dmsToDd d m s ref = .ok r ∧
      r ≠ (if ref = ['S'] ∨ ref = ['W'] then -1 else 1) * (d.val + m.val / 60 + s.val / 3600) := by
  unfold dmsToDd
  rw [if_neg hs]
  refine ⟨_, rfl, ?_⟩
  intro e
  apply h
  have hsgn : (if ref = ['S'] ∨ ref = ['W'] then (-1 : K) else 1) ≠ 0 := by split <;> norm_num
  have := mul_left_cancel₀ hsgn e
  have e2 : (s.val : K) = (s.num : K) / (s.den : K) := rfl
  rw [← e2] at this
  linarith

/-- C81, exactly: the result is the angle of the tags if and only if degrees and minutes, read without their denominators, add up to the same. -/
theorem C81_exact_partial (d m s : Ratio) (hs : s.den ≠ 0) (ref : Str) :
    (dmsToDd d m s ref : Py K) = .ok ((if ref = ['S'] ∨ ref = ['W'] then -1 else 1) * (d.val + m.val / 60 + s.val / 3600)) ↔
      (d.num : K) + (m.num : K) / 60 = d.val + m.val / 60 := by
  constructor
  · intro h
    by_contra hn
    obtain ⟨r, h1, h2⟩ := C81_denominators_false d m s hs ref hn
    rw [h] at h1
    exact h2 (Except.ok.inj h1).symm
  · intro h
    unfold dmsToDd
    rw [if_neg hs]
    congr 1
    rw [← h]
    have e2 : (s.val : K) = (s.num : K) / (s.den : K) := rfl
    rw [e2]

/-- A zero denominator of the seconds raises ZeroDivisionError. -/
theorem C81_zero_denominator (d m s : Ratio) (hs : s.den = 0) (ref : Str) :
    (dmsToDd d m s ref : Py K) = .error .zeroDivision := by
  unfold dmsToDd
  rw [if_pos hs]

/-- 45° 30.5' written as 45/1, 305/10, 0/1. -/
example : ∃ r : ℚ, dmsToDd ⟨45, 1⟩ ⟨305, 10⟩ ⟨0, 1⟩ ['N'] = .ok r ∧ r ≠ 45 + (61 / 2) / 60 := by
  obtain ⟨r, h1, h2⟩ := C81_denominators_false (K := ℚ) ⟨45, 1⟩ ⟨305, 10⟩ ⟨0, 1⟩ (by decide) ['N'] (by norm_num [Ratio.val])
  refine ⟨r, h1, ?_⟩
  have : ¬ ((['N'] : Str) = ['S'] ∨ (['N'] : Str) = ['W']) := by decide
  rw [if_neg this] at h2
  intro e
  apply h2
  rw [e]
  norm_num [Ratio.val]

end

end Verif.Images
