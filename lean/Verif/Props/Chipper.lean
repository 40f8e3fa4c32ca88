import Verif.Lemmas.Chipper

/-! Properties C01-C06: cutting an image into chips (image_chipper.py). -/

namespace Verif.Chipper
open Verif

/-! ### Specification -/

/-- Output band `b` of a chip is band `band` of the image, for the `bands` argument given. -/
def BandSel (nb : Nat) (bands : Bands) (b band : Nat) : Prop :=
  match bands with
  | .none => b < nb ∧ band = b
  | .one v => b = 0 ∧ PyAt nb v band
  | .many vs => ∃ v, vs[b]? = some v ∧ PyAt nb v band

/-- The `bands` argument names existing bands. -/
def BandsValid (nb : Nat) : Bands → Prop
  | .none => True
  | .one v => -(nb : Int) ≤ v ∧ v < nb
  | .many vs => ∀ v ∈ vs, -(nb : Int) ≤ v ∧ v < nb

/-- Number of bands of each chip. -/
def nOut (nb : Nat) : Bands → Nat
  | .none => nb
  | .one _ => 1
  | .many vs => vs.length

/-- The call is one numpy can give a shape to: a two-dimensional input selects one band. -/
def ShapeOk {α : Type} (image : Img α) (bands : Bands) : Prop :=
  ∀ a : A2 α, image = .gray a → nOut image.nb bands = 1

theorem isGray_iff {α : Type} (image : Img α) : isGray image = true ↔ ∃ a : A2 α, image = .gray a := by
  cases image <;> simp [isGray]

theorem shapeOk_iff {α : Type} (image : Img α) (bands : Bands) :
    ShapeOk image bands ↔ (isGray image = true → nOut image.nb bands = 1) := by
  unfold ShapeOk
  rw [isGray_iff]
  exact ⟨fun h ⟨a, e⟩ => h a e, fun h a e => h ⟨a, e⟩⟩

/-- Chip `k` is the window of the image with upper left `(y, x)`: same value at every pixel. -/
def IsWindow {α : Type} (image : Img α) (bands : Bands) (cy cx : Nat) (chips : Chips α)
    (k : Nat) (y x : Nat) : Prop :=
  y + cy ≤ image.ny ∧ x + cx ≤ image.nx ∧
  ∀ i j b, i < cy → j < cx → b < nOut image.nb bands →
    ∃ band, BandSel image.nb bands b band ∧ chips.px k i j b = image.value (y + i) (x + j) band

/-! ### Bridging lemmas -/

theorem bandList_length (nb : Nat) (bands : Bands) : (bandList nb bands).length = nOut nb bands := by
  cases bands <;> simp [bandList, nOut]

theorem bandList_sel {nb : Nat} {bands : Bands} {is : List Nat}
    (h : resolveBands nb (bandList nb bands) = .ok is) {b : Nat} (hb : b < nOut nb bands) :
    BandSel nb bands b (is.getD b 0) := by
  have hb' : b < (bandList nb bands).length := by rw [bandList_length]; exact hb
  have h2 := (resolveBands_ok h).2 b hb'
  cases bands with
  | none =>
    simp [bandList] at h2
    simp only [nOut] at hb
    refine ⟨hb, ?_⟩
    obtain ⟨h3, h4⟩ := h2
    simp at *
    omega
  | one v =>
    simp only [nOut] at hb
    obtain rfl : b = 0 := by omega
    simpa [BandSel, bandList] using h2
  | many vs =>
    exact ⟨vs[b]'hb, List.getElem?_eq_getElem _, h2⟩

theorem resolve_valid {nb : Nat} {bands : Bands} (h : BandsValid nb bands) :
    ∃ is, resolveBands nb (bandList nb bands) = .ok is := by
  apply resolveBands_total
  cases bands with
  | none => intro b hb; simp [bandList] at hb; obtain ⟨k, hk, rfl⟩ := hb; omega
  | one v => intro b hb; simp [bandList] at hb; subst hb; exact h
  | many vs => exact h

/-- The loop over in-bounds upper lefts yields windows. -/
theorem window_of_loop {α : Type} [Zero α] {image : Img α} {ys xs : List Int} {cy cx : Nat}
    {bands : Bands} {keep : Bool} {out : Out α}
    (h : byUpperLefts image ys xs cy cx bands keep = .ok out)
    {k : Nat} (hk : k < out.uls.length)
    (hy0 : 0 ≤ out.uls[k].1) (hy1 : out.uls[k].1 + cy ≤ image.ny)
    (hx0 : 0 ≤ out.uls[k].2) (hx1 : out.uls[k].2 + cx ≤ image.nx) :
    IsWindow image bands cy cx out.chips k out.uls[k].1.toNat out.uls[k].2.toNat := by
  obtain ⟨px, hl, hn, hny, hnx, hnb, hpx, hsz⟩ := byUpperLefts_ok h
  obtain ⟨hu, hc, _⟩ := chipLoop_ok hl
  simp only [List.nil_append] at hu
  have hkl := hk
  rw [hu] at hkl
  have hck := hc k hkl
  simp only [Nat.zero_add] at hck
  have huk : out.uls[k] = ((if keep then ys.map (clampUl image.ny cy) else ys).zip
          (if keep then xs.map (clampUl image.nx cx) else xs))[k] := by
    simp only [hu]
  rw [← huk] at hck
  rw [copyChip_fits hy0 (by rw [toCube_ny]; exact hy1) hx0 (by rw [toCube_nx]; exact hx1)] at hck
  refine ⟨by omega, by omega, ?_⟩
  intro i j b hi hj hb
  cases hr : resolveBands (toCube image).nb (bandList image.nb bands) with
  | error e => rw [hr] at hck; cases hck
  | ok is =>
    rw [hr] at hck
    simp only [Except.map, Except.ok.injEq] at hck
    rw [toCube_nb] at hr
    refine ⟨is.getD b 0, bandList_sel hr hb, ?_⟩
    rw [hpx, ← hck]
    simp only [toCube_px]
    rw [bandList_length] at hsz ⊢
    by_cases hg : (isGray image || nOut image.nb bands == 1) = true
    · simp only [hg, if_true]
      have h1 := hsz hg
      have hb1 : nOut image.nb bands = 1 := by
        have hpos : 0 < ys.length * cy * cx := by
          have hy : 0 < ys.length := by
            rw [hu] at hk
            simp only [List.length_zip] at hk
            have : (if keep then ys.map (clampUl image.ny cy) else ys).length = ys.length := by
              split <;> simp
            omega
          exact Nat.mul_pos (Nat.mul_pos hy (by omega)) (by omega)
        exact Nat.eq_of_mul_eq_mul_left hpos (by omega)
      obtain rfl : b = 0 := by omega
      rfl
    · simp only [hg]
      rfl

/-! ### C04: clamping -/

/-- C04.  With `keep_within_image_bounds` and a chip that fits, one chip per request, in request
order, at the requested position clamped per axis; never an error for valid bands. -/
theorem C04_requests_clamped {α : Type} [Zero α] (image : Img α) (ys xs : List Int) (cy cx : Nat)
    (bands : Bands) (hcy : cy ≤ image.ny) (hcx : cx ≤ image.nx) (hlen : ys.length = xs.length)
    (hb : BandsValid image.nb bands) (hg : ShapeOk image bands) :
    ∃ out, byUpperLefts image ys xs cy cx bands true = .ok out ∧
      out.uls.length = ys.length ∧ out.chips.n = ys.length ∧
      ∀ k (h1 : k < ys.length) (h2 : k < xs.length) (h3 : k < out.uls.length),
        out.uls[k] = (max 0 (min ys[k] ((image.ny : Int) - cy)),
                      max 0 (min xs[k] ((image.nx : Int) - cx))) ∧
        IsWindow image bands cy cx out.chips k out.uls[k].1.toNat out.uls[k].2.toNat := by
  have hcopy : ∀ p ∈ (if true then ys.map (clampUl image.ny cy) else ys).zip
          (if true then xs.map (clampUl image.nx cx) else xs),
        ∃ c, copyChip (toCube image) cy cx (bandList image.nb bands) p.1 p.2 = .ok c := by
    rintro ⟨y, x⟩ hp
    have hpy := (List.of_mem_zip hp).1
    have hpx := (List.of_mem_zip hp).2
    simp at hpy hpx
    obtain ⟨u, _, rfl⟩ := hpy
    obtain ⟨v, _, rfl⟩ := hpx
    rw [copyChip_fits (clampUl_range hcy u).1 (by rw [toCube_ny]; exact (clampUl_range hcy u).2)
      (clampUl_range hcx v).1 (by rw [toCube_nx]; exact (clampUl_range hcx v).2)]
    obtain ⟨is, his⟩ := resolve_valid hb
    rw [toCube_nb, his]
    exact ⟨_, rfl⟩
  obtain ⟨out, hout⟩ := byUpperLefts_total hcopy (by rw [bandList_length]; exact (shapeOk_iff _ _).1 hg)
  obtain ⟨px, hl, hn, _⟩ := byUpperLefts_ok hout
  obtain ⟨hu, _, _⟩ := chipLoop_ok hl
  have hul : out.uls = (ys.map (clampUl image.ny cy)).zip (xs.map (clampUl image.nx cx)) := by
    simpa using hu
  refine ⟨out, hout, by simp [hul, hlen], hn, ?_⟩
  intro k h1 h2 h3
  have hk : out.uls[k] = (clampUl image.ny cy ys[k], clampUl image.nx cx xs[k]) := by
    simp [hul]
  refine ⟨by rw [hk, clampUl_fits hcy, clampUl_fits hcx], ?_⟩
  apply window_of_loop hout
  · rw [hk]; exact (clampUl_range hcy _).1
  · rw [hk]; exact (clampUl_range hcy _).2
  · rw [hk]; exact (clampUl_range hcx _).1
  · rw [hk]; exact (clampUl_range hcx _).2

/-- C04, last clause: a request that already fits is not moved. -/
theorem C04_fitting_request_not_moved {α : Type} [Zero α] (image : Img α) (ys xs : List Int)
    (cy cx : Nat) (bands : Bands) (out : Out α)
    (h : byUpperLefts image ys xs cy cx bands true = .ok out)
    (k : Nat) (h1 : k < ys.length) (h2 : k < xs.length)
    (hy : 0 ≤ ys[k] ∧ ys[k] + cy ≤ image.ny) (hx : 0 ≤ xs[k] ∧ xs[k] + cx ≤ image.nx) :
    out.uls[k]? = some (ys[k], xs[k]) := by
  obtain ⟨px, hl, hn, _⟩ := byUpperLefts_ok h
  obtain ⟨hu, _, _⟩ := chipLoop_ok hl
  have hul : out.uls = (ys.map (clampUl image.ny cy)).zip (xs.map (clampUl image.nx cx)) := by
    simpa using hu
  have e1 : clampUl image.ny cy ys[k] = ys[k] := by rw [clampUl_fits (by omega)]; omega
  have e2 : clampUl image.nx cx xs[k] = xs[k] := by rw [clampUl_fits (by omega)]; omega
  rw [hul, List.getElem?_eq_getElem (by simp; omega)]
  simp [e1, e2]

/-- Test image used in the examples: 4 x 5 pixels, 2 bands. -/
def demo : Img Int := .cube ⟨4, 5, 2, fun y x b => 100 * y + 10 * x + b⟩

example : (2 ≤ demo.ny ∧ 3 ≤ demo.nx) ∧ ([3, -1] : List Int).length = ([0, 9] : List Int).length ∧
    BandsValid demo.nb (.many [1, -2]) ∧ ShapeOk demo (.many [1, -2]) := by
  refine ⟨by decide, rfl, ?_, ?_⟩
  · intro v hv; simp at hv; rcases hv with rfl | rfl <;> decide
  · intro a h; simp [demo] at h

/-- C04: asking a two-dimensional image for a list of bands whose length is not one is a ValueError (for chips that are not empty and fit, and
existing bands); with exactly one band the call succeeds, whatever the request (`C04_requests_clamped`). -/
theorem C04_gray_bands {α : Type} [Zero α] (a : A2 α) (y x : Int) (ys xs : List Int) (cy cx : Nat) (bs : List Int)
    (hy : 0 < cy) (hx : 0 < cx) (hcy : cy ≤ a.ny) (hcx : cx ≤ a.nx) (hb : ∀ b ∈ bs, b = 0 ∨ b = -1) (hlen : bs.length ≠ 1) :
    byUpperLefts (.gray a) (y :: ys) (x :: xs) cy cx (.many bs) true = .error .valueError := by
  have hcopy : ∀ p ∈ ((y :: ys).map (clampUl a.ny cy)).zip ((x :: xs).map (clampUl a.nx cx)),
        ∃ c, copyChip (toCube (.gray a)) cy cx bs p.1 p.2 = .ok c := by
    rintro ⟨y, x⟩ hp
    have hpy := (List.of_mem_zip hp).1
    have hpx := (List.of_mem_zip hp).2
    simp only [List.mem_map] at hpy hpx
    obtain ⟨u, _, rfl⟩ := hpy
    obtain ⟨v, _, rfl⟩ := hpx
    rw [copyChip_fits (clampUl_range hcy u).1 (by rw [toCube_ny]; exact (clampUl_range hcy u).2)
      (clampUl_range hcx v).1 (by rw [toCube_nx]; exact (clampUl_range hcx v).2)]
    obtain ⟨is, his⟩ := resolve_valid (nb := 1) (bands := .many bs) (fun v hv => by rcases hb v hv with rfl | rfl <;> decide)
    rw [toCube_nb]
    have his' : resolveBands 1 bs = .ok is := his
    simp only [Img.nb, his', ok_bind]
    exact ⟨_, rfl⟩
  obtain ⟨⟨px, uls⟩, hr⟩ := chipLoop_total (k := 0) (px := fun _ _ _ _ => 0) (uls := []) hcopy
  have hz : (ys.length + 1) * cy * cx * bs.length ≠ (ys.length + 1) * cy * cx := by
    intro h
    have : (ys.length + 1) * cy * cx ≠ 0 := by positivity
    exact hlen (Nat.eq_of_mul_eq_mul_left (Nat.pos_of_ne_zero this) (by rw [h, Nat.mul_one]))
  unfold byUpperLefts
  have hr' : chipLoop (toCube (Img.gray a)) cy cx bs
      ((List.map (clampUl a.ny cy) (y :: ys)).zip (List.map (clampUl a.nx cx) (x :: xs))) 0 (fun _ _ _ _ => 0) [] = Except.ok (px, uls) := hr
  simp only [toCube_ny, toCube_nx, toCube_nb, Img.ny, Img.nx, Img.nb, bandList, if_true, hr', ok_bind, isGray, Bool.true_or,
    List.length_map, List.length_cons]
  rw [if_neg hz]

example : (∀ b ∈ ([0, -1] : List Int), b = 0 ∨ b = -1) ∧ ([0, -1] : List Int).length ≠ 1 := by decide

/-! ### C02: content -/

/-- C02 for `keep_within_image_bounds=True` (the default): every successful call with chips no
larger than the image returns exact windows of the image at the returned upper lefts, of the
requested size and number of bands.  What is missing from the full property is
`keep_within_image_bounds=False`, for which the code breaks it: see
`C02_false_without_keep`. -/
theorem C02_chips_are_windows_partial {α : Type} [Zero α] (image : Img α) (ys xs : List Int)
    (cy cx : Nat) (bands : Bands) (out : Out α) (hcy : cy ≤ image.ny) (hcx : cx ≤ image.nx)
    (hlen : ys.length = xs.length)
    (h : byUpperLefts image ys xs cy cx bands true = .ok out) :
    out.uls.length = ys.length ∧ out.chips.n = ys.length ∧ out.chips.ny = cy ∧ out.chips.nx = cx ∧
    (out.chips.nb = none ∨ out.chips.nb = some (nOut image.nb bands)) ∧
    (out.chips.nb = none ↔ (∃ a : A2 α, image = .gray a) ∨ nOut image.nb bands = 1) ∧
    ∀ k (hk : k < out.uls.length), 0 ≤ out.uls[k].1 ∧ 0 ≤ out.uls[k].2 ∧
      IsWindow image bands cy cx out.chips k out.uls[k].1.toNat out.uls[k].2.toNat := by
  obtain ⟨px, hl, hn, hny, hnx, hnb, _⟩ := byUpperLefts_ok h
  obtain ⟨hu, _, _⟩ := chipLoop_ok hl
  have hul : out.uls = (ys.map (clampUl image.ny cy)).zip (xs.map (clampUl image.nx cx)) := by
    simpa using hu
  rw [bandList_length] at hnb
  refine ⟨by simp [hul, hlen], hn, hny, hnx, ?_, ?_, ?_⟩
  · rw [hnb]; split <;> simp
  · rw [← isGray_iff, hnb]; split <;> simp_all
  intro k hk
  have hk1 : k < ys.length := by rw [hul] at hk; simp at hk; omega
  have hk2 : k < xs.length := by omega
  have e : out.uls[k] = (clampUl image.ny cy ys[k], clampUl image.nx cx xs[k]) := by
    simp [hul]
  refine ⟨by rw [e]; exact (clampUl_range hcy _).1, by rw [e]; exact (clampUl_range hcx _).1, ?_⟩
  apply window_of_loop h
  · rw [e]; exact (clampUl_range hcy _).1
  · rw [e]; exact (clampUl_range hcy _).2
  · rw [e]; exact (clampUl_range hcx _).1
  · rw [e]; exact (clampUl_range hcx _).2

example : ∃ out, byUpperLefts demo [3, -1] [0, 9] 2 3 (.many [1, -2]) true = .ok out ∧
    out.uls = [(2, 0), (0, 2)] ∧ out.chips.px 0 1 2 0 = 321 ∧ out.chips.px 0 1 2 1 = 320 := by
  refine ⟨_, rfl, ?_, ?_, ?_⟩ <;> decide

/-- C02 is false for `keep_within_image_bounds=False`: asking a 4 x 5 image for a 3 x 3 chip at
row 3 (the last row) does not raise; numpy broadcasts the single remaining row, so row 1 of the
chip repeats row 3 of the image although the image has no row 4. -/
theorem C02_false_without_keep :
    ∃ out, byUpperLefts demo [3] [0] 3 3 .none false = .ok out ∧
      out.uls = [(3, 0)] ∧ ¬ (3 + 3 ≤ demo.ny) ∧
      out.chips.px 0 1 0 0 = demo.value 3 0 0 ∧ out.chips.px 0 2 2 1 = demo.value 3 2 1 := by
  refine ⟨_, rfl, ?_, ?_, ?_, ?_⟩ <;> decide

/-- What does hold for `keep_within_image_bounds=False`: if no axis is reduced to a single row or
column (the broadcasting case), every pixel of every chip is the image pixel at the Python
index `upper left + offset` (negative indices counting from the end). -/
theorem C02_without_keep_partial {α : Type} [Zero α] (image : Img α) (ys xs : List Int)
    (cy cx : Nat) (bands : Bands) (out : Out α)
    (h : byUpperLefts image ys xs cy cx bands false = .ok out)
    (k : Nat) (hk : k < out.uls.length)
    (hy : pySliceLen image.ny out.uls[k].1 (out.uls[k].1 + cy) ≠ 1)
    (hx : pySliceLen image.nx out.uls[k].2 (out.uls[k].2 + cx) ≠ 1)
    (i j b : Nat) (hi : i < cy) (hj : j < cx) (hb : b < nOut image.nb bands) :
    ∃ y x band, PyAt image.ny (out.uls[k].1 + i) y ∧ PyAt image.nx (out.uls[k].2 + j) x ∧
      BandSel image.nb bands b band ∧ out.chips.px k i j b = image.value y x band := by
  obtain ⟨px, hl, hn, hny, hnx, hnb, hpx, hsz⟩ := byUpperLefts_ok h
  obtain ⟨hu, hc, _⟩ := chipLoop_ok hl
  simp only [List.nil_append] at hu
  have hkl := hk
  rw [hu] at hkl
  have hck := hc k hkl
  simp only [Nat.zero_add] at hck
  have huk : out.uls[k] = ((if false then ys.map (clampUl image.ny cy) else ys).zip
          (if false then xs.map (clampUl image.nx cx) else xs))[k]'hkl := by
    simp only [hu]
  rw [← huk] at hck
  generalize out.uls[k] = p at *
  unfold copyChip at hck
  obtain ⟨is, his, hck⟩ := bind_ok hck
  rw [toCube_nb] at his
  simp only [toCube_ny, toCube_nx, toCube_px] at hck
  split at hck
  · rename_i hcond
    have e1 : pySliceLen image.ny p.1 (p.1 + cy) = cy := by tauto
    have e2 : pySliceLen image.nx p.2 (p.2 + cx) = cx := by tauto
    simp only [e1, e2, if_true, Except.ok.injEq] at hck
    refine ⟨pyBound image.ny p.1 + i, pyBound image.nx p.2 + j, is.getD b 0, ?_, ?_,
      bandList_sel his hb, ?_⟩
    · unfold pySliceLen pyBound at e1
      unfold PyAt pyBound
      split at e1 <;> split at e1 <;> (split) <;> omega
    · unfold pySliceLen pyBound at e2
      unfold PyAt pyBound
      split at e2 <;> split at e2 <;> (split) <;> omega
    · rw [hpx, ← hck]
      rw [bandList_length] at hsz ⊢
      by_cases hg : (isGray image || nOut image.nb bands == 1) = true
      · simp only [hg, if_true]
        have h1 := hsz hg
        have hpos : 0 < ys.length * cy * cx := by
          have hy' : 0 < ys.length := by
            simp [List.length_zip] at hkl
            omega
          exact Nat.mul_pos (Nat.mul_pos hy' (by omega)) (by omega)
        have hb1 : nOut image.nb bands = 1 := Nat.eq_of_mul_eq_mul_left hpos (by omega)
        obtain rfl : b = 0 := by omega
        rfl
      · simp only [hg]
        rfl
  · cases hck

example : ∃ out, byUpperLefts demo [-3] [1] 2 3 .none false = .ok out ∧
    ∃ hk : 0 < out.uls.length, pySliceLen demo.ny out.uls[0].1 (out.uls[0].1 + 2) ≠ 1 ∧
    out.chips.px 0 0 0 0 = demo.value 1 1 0 := by
  refine ⟨_, rfl, ?_, ?_, ?_⟩ <;> decide

/-- One axis of a request that is not moved into the image: it starts inside the image and either fits or starts at the last row (column). -/
def Accepted (n c : Nat) (u : Nat) : Prop := u + c ≤ n ∨ u + 1 = n

/-- The row (column) of the image shown at offset `i` of an accepted request: the one at that place when the request fits, else the last one. -/
def shownAt (n c u i : Nat) : Nat := if u + c ≤ n then u + i else u

theorem slice_accepted {n c u : Nat} (hc : 1 ≤ c) :
    (pySliceLen n (u : Int) ((u : Int) + c) = c ∨ pySliceLen n (u : Int) ((u : Int) + c) = 1) ↔ Accepted n c u := by
  unfold pySliceLen pyBound Accepted
  rw [if_neg (by omega), if_neg (by omega)]
  omega

theorem slice_shown {n c u i : Nat} (hc : 1 ≤ c) (h : Accepted n c u) (hi : i < c) :
    pyBound n (u : Int) + (if pySliceLen n (u : Int) ((u : Int) + c) = c then i else 0) = shownAt n c u i := by
  unfold pySliceLen pyBound shownAt
  unfold Accepted at h
  have h1 : ¬ ((u : Int) < 0) := by omega
  have h2 : ¬ ((u : Int) + c < 0) := by omega
  simp only [h1, h2, if_false]
  split <;> split <;> omega

/-- C02 without `keep_within_image_bounds`, exactly: requests at pixels of the image (not negative) are accepted exactly when each one fits or
starts at the last row (column); then chip `k` shows the rows and columns of its window, except that a chip that does not fit repeats the last
row (column). -/
theorem C02_without_keep_exact_partial {α : Type} [Zero α] (image : Img α) (ys xs : List Nat) (cy cx : Nat) (bands : Bands)
    (hcy : 1 ≤ cy) (hcx : 1 ≤ cx) (hlen : ys.length = xs.length) (hb : BandsValid image.nb bands) (hg : ShapeOk image bands) :
    ((∃ out, byUpperLefts image (ys.map Int.ofNat) (xs.map Int.ofNat) cy cx bands false = .ok out) ↔
      (∀ (k y x : Nat), ys[k]? = some y → xs[k]? = some x → Accepted image.ny cy y ∧ Accepted image.nx cx x)) ∧
    ∀ out, byUpperLefts image (ys.map Int.ofNat) (xs.map Int.ofNat) cy cx bands false = .ok out →
      out.uls = (ys.map Int.ofNat).zip (xs.map Int.ofNat) ∧
      ∀ (k y x : Nat), ys[k]? = some y → xs[k]? = some x → ∀ i j b, i < cy → j < cx → b < nOut image.nb bands →
        ∃ band, BandSel image.nb bands b band ∧
          out.chips.px k i j b = image.value (shownAt image.ny cy y i) (shownAt image.nx cx x j) band := by
  have hmem : ∀ p ∈ (ys.map Int.ofNat).zip (xs.map Int.ofNat), ∃ (k y x : Nat), ys[k]? = some y ∧ xs[k]? = some x ∧ p = ((y : Int), (x : Int)) := by
    intro p hp
    obtain ⟨k, hk, rfl⟩ := List.mem_iff_getElem.mp hp
    simp only [List.length_zip, List.length_map] at hk
    exact ⟨k, ys[k], xs[k], by simp, by simp, by simp⟩
  have hget : ∀ {out : Out α}, byUpperLefts image (ys.map Int.ofNat) (xs.map Int.ofNat) cy cx bands false = .ok out →
      out.uls = (ys.map Int.ofNat).zip (xs.map Int.ofNat) ∧
      ∀ (k y x : Nat), ys[k]? = some y → xs[k]? = some x → (Accepted image.ny cy y ∧ Accepted image.nx cx x) ∧
        ∀ i j b, i < cy → j < cx → b < nOut image.nb bands →
        ∃ band, BandSel image.nb bands b band ∧
          out.chips.px k i j b = image.value (shownAt image.ny cy y i) (shownAt image.nx cx x j) band := by
    intro out h
    obtain ⟨px, hl, hn, hny, hnx, hnb, hpx, hsz⟩ := byUpperLefts_ok h
    obtain ⟨hu, hc, _⟩ := chipLoop_ok hl
    simp only [List.nil_append] at hu
    refine ⟨by simpa using hu, ?_⟩
    intro k y x hy hx
    obtain ⟨hky, rfl⟩ := List.getElem?_eq_some_iff.mp hy
    obtain ⟨hkx, rfl⟩ := List.getElem?_eq_some_iff.mp hx
    have hck := hc k (by simp; omega)
    simp only [Bool.false_eq_true, if_false, List.getElem_zip, List.getElem_map, Nat.zero_add] at hck
    unfold copyChip at hck
    obtain ⟨is, his, hck⟩ := bind_ok hck
    rw [toCube_nb] at his
    simp only [toCube_ny, toCube_nx, toCube_px, Int.ofNat_eq_natCast] at hck
    split at hck
    · rename_i hcond
      have a1 := (slice_accepted hcy).mp hcond.1
      have a2 := (slice_accepted hcx).mp hcond.2
      refine ⟨⟨a1, a2⟩, ?_⟩
      intro i j b hi hj hb'
      refine ⟨is.getD b 0, bandList_sel his hb', ?_⟩
      simp only [Except.ok.injEq] at hck
      rw [hpx, ← hck]
      have hb0 : b = (if (isGray image || (bandList image.nb bands).length == 1) = true then 0 else b) := by
        rw [bandList_length]
        split
        · rename_i hg'
          have h1 : nOut image.nb bands = 1 := by
            rcases Bool.or_eq_true _ _ ▸ hg' with h1 | h1
            · exact (shapeOk_iff _ _).1 hg h1
            · simpa using h1
          omega
        · rfl
      rw [← hb0]
      simp only []
      rw [slice_shown hcy a1 hi, slice_shown hcx a2 hj]
    · cases hck
  refine ⟨⟨fun ⟨out, h⟩ k y x hy hx => ((hget h).2 k y x hy hx).1, ?_⟩, fun out h => ⟨(hget h).1, fun k y x hy hx => ((hget h).2 k y x hy hx).2⟩⟩
  intro h
  apply byUpperLefts_total
  · intro p hp
    simp only [Bool.false_eq_true, if_false] at hp
    obtain ⟨k, y, x, hy, hx, rfl⟩ := hmem p hp
    obtain ⟨a1, a2⟩ := h k y x hy hx
    obtain ⟨is, his⟩ := resolve_valid hb
    unfold copyChip
    rw [toCube_nb, his]
    simp only [ok_bind, toCube_ny, toCube_nx]
    rw [if_pos ⟨(slice_accepted hcy).mpr a1, (slice_accepted hcx).mpr a2⟩]
    exact ⟨_, rfl⟩
  · rw [bandList_length]; exact (shapeOk_iff _ _).1 hg

example : (∀ (k y x : Nat), [3, 1][k]? = some y → [0, 2][k]? = some x → Accepted demo.ny 3 y ∧ Accepted demo.nx 3 x) ∧
    ∃ out, byUpperLefts demo [3, 1] [0, 2] 3 3 .none false = .ok out ∧ out.chips.px 0 2 1 0 = demo.value 3 1 0 := by
  refine ⟨?_, _, rfl, by decide⟩
  intro k y x h1 h2
  match k with
  | 0 => cases h1; cases h2; unfold Accepted; decide
  | 1 => cases h1; cases h2; unfold Accepted; decide
  | k + 2 => simp at h1

/-! ### C01, C03: the whole image -/

/-- The nested loops of the whole-image grid. -/
theorem chipEntire_ok {α : Type} [Zero α] (image : Img α) (cy cx : Nat) (oy ox : Int)
    (bands : Bands) (keep : Bool) (hcy : 0 < cy ∧ cy ≤ image.ny) (hcx : 0 < cx ∧ cx ≤ image.nx)
    (hoy : 0 ≤ oy ∧ oy < cy) (hox : 0 ≤ ox ∧ ox < cx) (hb : BandsValid image.nb bands) :
    ∃ yi xi out, axisGrid image.ny cy oy = .ok yi ∧ axisGrid image.nx cx ox = .ok xi ∧
      chipEntire image cy cx oy ox bands keep = .ok out ∧
      out.uls = yi.flatMap (fun y => xi.map (fun x => (y, x))) ∧
      out.chips.n = out.uls.length ∧ out.chips.ny = cy ∧ out.chips.nx = cx ∧
      ∀ k (hk : k < out.uls.length), out.uls[k].1 ∈ yi ∧ out.uls[k].2 ∈ xi ∧
        IsWindow image bands cy cx out.chips k out.uls[k].1.toNat out.uls[k].2.toNat := by
  obtain ⟨yi, hyi, _⟩ := axisGrid_spec hcy.1 hcy.2 hoy.1 hoy.2
  obtain ⟨xi, hxi, _⟩ := axisGrid_spec hcx.1 hcx.2 hox.1 hox.2
  have hby : ∀ u ∈ yi, 0 ≤ u ∧ u + cy ≤ image.ny := fun u hu =>
    axisGrid_bounds hcy.1 hcy.2 hoy.1 hoy.2 hyi hu
  have hbx : ∀ u ∈ xi, 0 ≤ u ∧ u + cx ≤ image.nx := fun u hu =>
    axisGrid_bounds hcx.1 hcx.2 hox.1 hox.2 hxi hu
  set pairs := yi.flatMap (fun y => xi.map (fun x => (y, x))) with hpairs
  have hpm : ∀ p ∈ pairs, p.1 ∈ yi ∧ p.2 ∈ xi := by
    rintro ⟨y, x⟩ hp
    simp [hpairs] at hp
    exact hp
  have hclampy : (pairs.map Prod.fst).map (clampUl image.ny cy) = pairs.map Prod.fst := by
    rw [List.map_map]
    apply List.map_congr_left
    intro p hp
    have := hby _ (hpm p hp).1
    simp only [Function.comp]
    rw [clampUl_fits hcy.2]; omega
  have hclampx : (pairs.map Prod.snd).map (clampUl image.nx cx) = pairs.map Prod.snd := by
    rw [List.map_map]
    apply List.map_congr_left
    intro p hp
    have := hbx _ (hpm p hp).2
    simp only [Function.comp]
    rw [clampUl_fits hcx.2]; omega
  have hzip : (pairs.map Prod.fst).zip (pairs.map Prod.snd) = pairs := by
    rw [List.zip_map']; simp
  have hz2 : ((if keep then (pairs.map Prod.fst).map (clampUl image.ny cy) else pairs.map Prod.fst).zip
          (if keep then (pairs.map Prod.snd).map (clampUl image.nx cx) else pairs.map Prod.snd)) = pairs := by
    rw [hclampy, hclampx]; simp [hzip]
  have e1 : (Img.cube (toCube image)).ny = image.ny := toCube_ny image
  have e2 : (Img.cube (toCube image)).nx = image.nx := toCube_nx image
  have e3 : (Img.cube (toCube image)).nb = image.nb := toCube_nb image
  have hcopy : ∀ p ∈ pairs,
      ∃ c, copyChip (toCube (Img.cube (toCube image))) cy cx (bandList (Img.cube (toCube image)).nb bands)
        p.1 p.2 = .ok c := by
    intro p hp
    rw [toCube_cube, copyChip_fits (hby _ (hpm p hp).1).1 (by rw [toCube_ny]; exact (hby _ (hpm p hp).1).2)
      (hbx _ (hpm p hp).2).1 (by rw [toCube_nx]; exact (hbx _ (hpm p hp).2).2)]
    obtain ⟨is, his⟩ := resolve_valid hb
    rw [toCube_nb, e3, his]
    exact ⟨_, rfl⟩
  obtain ⟨out, hout⟩ := byUpperLefts_total (image := Img.cube (toCube image)) (bands := bands)
    (keep := keep) (ys := pairs.map Prod.fst) (xs := pairs.map Prod.snd) (cy := cy) (cx := cx)
    (by rw [e1, e2, hz2]; exact hcopy) (by intro h; simp [isGray] at h)
  obtain ⟨px, hl, hn, hny, hnx, _⟩ := byUpperLefts_ok hout
  obtain ⟨hu, _, _⟩ := chipLoop_ok hl
  rw [e1, e2, hz2] at hu
  simp only [List.nil_append] at hu
  refine ⟨yi, xi, out, hyi, hxi, ?_, hu, ?_, hny, hnx, ?_⟩
  · unfold chipEntire
    simp only [toCube_ny, toCube_nx]
    rw [hyi, hxi]
    exact hout
  · rw [hn, hu]; simp
  · intro k hk
    have hm := hpm (out.uls[k]) (by rw [← hu]; exact List.getElem_mem hk)
    refine ⟨hm.1, hm.2, ?_⟩
    have hw := window_of_loop hout hk (hby _ hm.1).1 (by rw [e1]; exact (hby _ hm.1).2)
      (hbx _ hm.2).1 (by rw [e2]; exact (hbx _ hm.2).2)
    obtain ⟨w1, w2, w3⟩ := hw
    rw [e1] at w1; rw [e2] at w2; rw [e3] at w3
    refine ⟨w1, w2, ?_⟩
    intro i j b hi hj hb'
    obtain ⟨band, hs, hv⟩ := w3 i j b hi hj hb'
    exact ⟨band, hs, by rw [hv]; exact toCube_px image _ _ _⟩

/-- C01.  Chipping a whole image succeeds and every pixel lies in some chip, where it appears at
its offset from that chip's upper left with the value it has in the image. -/
theorem C01_every_pixel_covered {α : Type} [Zero α] (image : Img α) (cy cx : Nat) (oy ox : Int)
    (bands : Bands) (keep : Bool) (hcy : 0 < cy ∧ cy ≤ image.ny) (hcx : 0 < cx ∧ cx ≤ image.nx)
    (hoy : 0 ≤ oy ∧ oy < cy) (hox : 0 ≤ ox ∧ ox < cx) (hb : BandsValid image.nb bands) :
    ∃ out, chipEntire image cy cx oy ox bands keep = .ok out ∧
      out.chips.n = out.uls.length ∧
      ∀ y x, y < image.ny → x < image.nx →
        ∃ k uy ux : Nat, out.uls[k]? = some ((uy : Int), (ux : Int)) ∧
          uy ≤ y ∧ y < uy + cy ∧ ux ≤ x ∧ x < ux + cx ∧
          ∀ b, b < nOut image.nb bands → ∃ band, BandSel image.nb bands b band ∧
            out.chips.px k (y - uy) (x - ux) b = image.value y x band := by
  obtain ⟨yi, xi, out, hyi, hxi, hout, hu, hn, _, _, hw⟩ :=
    chipEntire_ok image cy cx oy ox bands keep hcy hcx hoy hox hb
  refine ⟨out, hout, hn, ?_⟩
  intro y x hy hx
  obtain ⟨uy, huy, hy1, hy2⟩ := axisGrid_cover hcy.1 hcy.2 hoy.1 hoy.2 hyi hy
  obtain ⟨ux, hux, hx1, hx2⟩ := axisGrid_cover hcx.1 hcx.2 hox.1 hox.2 hxi hx
  have by' := axisGrid_bounds hcy.1 hcy.2 hoy.1 hoy.2 hyi huy
  have bx' := axisGrid_bounds hcx.1 hcx.2 hox.1 hox.2 hxi hux
  have hmem : (uy, ux) ∈ out.uls := by rw [hu]; simp [huy, hux]
  obtain ⟨k, hk, hke⟩ := List.mem_iff_getElem.mp hmem
  obtain ⟨_, _, w1, w2, w3⟩ := hw k hk
  rw [hke] at w1 w2 w3
  refine ⟨k, uy.toNat, ux.toNat, ?_, by omega, by omega, by omega, by omega, ?_⟩
  · rw [List.getElem?_eq_getElem hk, hke]
    have h1 : ((uy.toNat : Nat) : Int) = uy := by omega
    have h2 : ((ux.toNat : Nat) : Int) = ux := by omega
    rw [h1, h2]
  · intro b hb'
    obtain ⟨band, hs, hv⟩ := w3 (y - uy.toNat) (x - ux.toNat) b (by omega) (by omega) hb'
    refine ⟨band, hs, ?_⟩
    rw [hv]
    have a1 : uy.toNat + (y - uy.toNat) = y := by omega
    have a2 : ux.toNat + (x - ux.toNat) = x := by omega
    simp only [a1, a2]

example : (0 < 3 ∧ 3 ≤ demo.ny) ∧ (0 < 2 ∧ 2 ≤ demo.nx) ∧ ((0 : Int) ≤ 1 ∧ (1 : Int) < 3) ∧
    BandsValid demo.nb .none := by
  refine ⟨by decide, by decide, by decide, trivial⟩

example : ∃ out, chipEntire demo 3 2 1 0 .none true = .ok out ∧
    out.uls = [(0,0), (0,2), (0,3), (1,0), (1,2), (1,3)] := by
  refine ⟨_, rfl, ?_⟩; decide

theorem flatMap_pairwise {yi xi : List Int} (hy : yi.Pairwise (· < ·)) (hx : xi.Pairwise (· < ·)) :
    (yi.flatMap (fun y => xi.map (fun x => (y, x)))).Pairwise
      (fun p q => p.1 < q.1 ∨ (p.1 = q.1 ∧ p.2 < q.2)) := by
  induction yi with
  | nil => simp
  | cons y ys ih =>
    rw [List.flatMap_cons, List.pairwise_append]
    rw [List.pairwise_cons] at hy
    refine ⟨?_, ih hy.2, ?_⟩
    · rw [List.pairwise_map]
      exact hx.imp (fun {a b} h => Or.inr ⟨rfl, h⟩)
    · rintro ⟨a, b⟩ ha ⟨c, d⟩ hc
      simp at ha hc
      left
      simp only
      rw [← ha.2]
      exact hy.1 c hc.1

/-- C03.  The upper lefts of a whole-image chipping are strictly increasing in row-major order
(hence distinct), every chip lies within the image, the upper lefts are the full product of the
row positions and column positions, both start at 0, end flush with the image, and consecutive
positions differ by at most `chip - overlap`. -/
theorem C03_grid {α : Type} [Zero α] (image : Img α) (cy cx : Nat) (oy ox : Int)
    (bands : Bands) (keep : Bool) (hcy : 0 < cy ∧ cy ≤ image.ny) (hcx : 0 < cx ∧ cx ≤ image.nx)
    (hoy : 0 ≤ oy ∧ oy < cy) (hox : 0 ≤ ox ∧ ox < cx) (hb : BandsValid image.nb bands) :
    ∃ out, chipEntire image cy cx oy ox bands keep = .ok out ∧
      out.uls.Pairwise (fun p q => p.1 < q.1 ∨ (p.1 = q.1 ∧ p.2 < q.2)) ∧
      (∀ p ∈ out.uls, 0 ≤ p.1 ∧ p.1 + cy ≤ image.ny ∧ 0 ≤ p.2 ∧ p.2 + cx ≤ image.nx) ∧
      ∃ rows cols : List Int,
        (∀ p, p ∈ out.uls ↔ p.1 ∈ rows ∧ p.2 ∈ cols) ∧
        rows.Pairwise (· < ·) ∧ cols.Pairwise (· < ·) ∧
        0 ∈ rows ∧ 0 ∈ cols ∧ ((image.ny : Int) - cy) ∈ rows ∧ ((image.nx : Int) - cx) ∈ cols ∧
        (∀ k (hk : k + 1 < rows.length), rows[k+1] - rows[k] ≤ (cy : Int) - oy) ∧
        (∀ k (hk : k + 1 < cols.length), cols[k+1] - cols[k] ≤ (cx : Int) - ox) := by
  obtain ⟨yi, xi, out, hyi, hxi, hout, hu, hn, _, _, hw⟩ :=
    chipEntire_ok image cy cx oy ox bands keep hcy hcx hoy hox hb
  obtain ⟨yi', hyi', hys, hym⟩ := axisGrid_spec hcy.1 hcy.2 hoy.1 hoy.2
  obtain ⟨xi', hxi', hxs, hxm⟩ := axisGrid_spec hcx.1 hcx.2 hox.1 hox.2
  rw [hyi] at hyi'; cases hyi'
  rw [hxi] at hxi'; cases hxi'
  refine ⟨out, hout, by rw [hu]; exact flatMap_pairwise hys hxs, ?_, yi, xi, ?_, hys, hxs,
    ?_, ?_, (hym _).mpr (Or.inr rfl), (hxm _).mpr (Or.inr rfl), ?_, ?_⟩
  · intro p hp
    rw [hu] at hp
    simp at hp
    obtain ⟨a, ha, b, hb, rfl⟩ := hp
    have h1 := axisGrid_bounds hcy.1 hcy.2 hoy.1 hoy.2 hyi ha
    have h2 := axisGrid_bounds hcx.1 hcx.2 hox.1 hox.2 hxi hb
    exact ⟨h1.1, h1.2, h2.1, h2.2⟩
  · rintro ⟨a, b⟩; rw [hu]; simp
  · rw [hym]
    by_cases h : (0 : Int) < (image.ny : Int) - cy
    · exact Or.inl ⟨0, by simp, h⟩
    · right; omega
  · rw [hxm]
    by_cases h : (0 : Int) < (image.nx : Int) - cx
    · exact Or.inl ⟨0, by simp, h⟩
    · right; omega
  · intro k hk; exact axisGrid_gap hcy.1 hcy.2 hoy.1 hoy.2 hyi hk
  · intro k hk; exact axisGrid_gap hcx.1 hcx.2 hox.1 hox.2 hxi hk

/-- Outside the guard of C01/C03: an overlap equal to the chip size makes `numpy.arange` divide
by zero, for every image. -/
theorem C03_overlap_equal_chip_raises {α : Type} [Zero α] (image : Img α) (cy cx : Nat) (ox : Int)
    (bands : Bands) (keep : Bool) :
    chipEntire image cy cx cy ox bands keep = .error .zeroDivision := by
  unfold chipEntire axisGrid pyArange
  simp [bind, Except.bind]

/-! ### C05: chips by centres -/

/-- C05, first clause: chips by centre are chips by upper left at the centre minus half a chip,
truncated toward zero. -/
theorem C05_centers_are_upper_lefts {α : Type} [Zero α] (image : Img α) (yc xc : List ℚ)
    (cy cx : Nat) (bands : Bands) (keep : Bool) (ys xs : List Int)
    (hy : List.Forall₂ (fun (c : ℚ) (u : Int) => |(u : ℚ)| ≤ |c - (cy : ℚ) / 2| ∧ |c - (cy : ℚ) / 2| < |(u : ℚ)| + 1 ∧
      0 ≤ (u : ℚ) * (c - (cy : ℚ) / 2)) yc ys)
    (hx : List.Forall₂ (fun (c : ℚ) (u : Int) => |(u : ℚ)| ≤ |c - (cx : ℚ) / 2| ∧ |c - (cx : ℚ) / 2| < |(u : ℚ)| + 1 ∧
      0 ≤ (u : ℚ) * (c - (cx : ℚ) / 2)) xc xs) :
    byCenters image yc xc cy cx bands keep = byUpperLefts image ys xs cy cx bands keep := by
  have key : ∀ (q : ℚ) (u : Int), |(u : ℚ)| ≤ |q| → |q| < |(u : ℚ)| + 1 → 0 ≤ (u : ℚ) * q →
      truncZ q = u := by
    intro q u h1 h2 h3
    unfold truncZ
    split
    · rename_i hq
      rw [abs_of_nonneg hq] at h1 h2
      have hu : 0 ≤ (u : ℚ) := by
        by_contra hu
        push Not at hu
        rw [abs_of_neg hu] at h1 h2
        have : 0 < q := by
          have : (u : ℚ) ≤ -1 := by
            have : u < 0 := by exact_mod_cast hu
            exact_mod_cast (by omega : u ≤ -1)
          linarith
        nlinarith
      rw [abs_of_nonneg hu] at h1 h2
      rw [Int.floor_eq_iff]
      exact ⟨h1, h2⟩
    · rename_i hq
      push Not at hq
      rw [abs_of_neg hq] at h1 h2
      have hu : (u : ℚ) ≤ 0 := by
        by_contra hu
        push Not at hu
        nlinarith
      rw [abs_of_nonpos hu] at h1 h2
      rw [Int.ceil_eq_iff]
      constructor <;> linarith
  have hmap : ∀ (c : Nat) (l : List ℚ) (us : List Int),
      List.Forall₂ (fun (q : ℚ) (u : Int) => |(u : ℚ)| ≤ |q - (c : ℚ) / 2| ∧ |q - (c : ℚ) / 2| < |(u : ℚ)| + 1 ∧
      0 ≤ (u : ℚ) * (q - (c : ℚ) / 2)) l us → l.map (fun q => truncZ (q - (c : ℚ) / 2)) = us := by
    intro c l us h
    induction h with
    | nil => rfl
    | cons h _ ih => simp [ih, key _ _ h.1 h.2.1 h.2.2]
  unfold byCenters
  rw [hmap cy yc ys hy, hmap cx xc xs hx]

theorem truncZ_center {c n : Nat} {p : Int} (hc : 2 ≤ c) (hcn : c ≤ n) (hp0 : 0 ≤ p) (hpn : p < n) :
    clampUl n c (truncZ ((p : ℚ) - (c : ℚ) / 2)) ≤ p ∧
      p < clampUl n c (truncZ ((p : ℚ) - (c : ℚ) / 2)) + c := by
  have h2 : truncZ ((p : ℚ) - (c : ℚ) / 2) ≤ p ∧ p < truncZ ((p : ℚ) - (c : ℚ) / 2) + c ∨
      truncZ ((p : ℚ) - (c : ℚ) / 2) ≤ 0 ∧ p < c := by
    unfold truncZ
    split
    · rename_i hq
      left
      have a1 := Int.floor_le ((p : ℚ) - (c : ℚ) / 2)
      have a2 := Int.lt_floor_add_one ((p : ℚ) - (c : ℚ) / 2)
      have hc' : (2 : ℚ) ≤ c := by exact_mod_cast hc
      constructor
      · have : ((⌊(p : ℚ) - (c : ℚ) / 2⌋ : Int) : ℚ) ≤ (p : ℚ) := by linarith
        exact_mod_cast this
      · have : (p : ℚ) < ((⌊(p : ℚ) - (c : ℚ) / 2⌋ : Int) : ℚ) + c := by linarith
        exact_mod_cast this
    · rename_i hq
      push Not at hq
      right
      constructor
      · rw [Int.ceil_le]; push_cast; linarith
      · have hc0 : (0 : ℚ) ≤ c := by positivity
        have : (p : ℚ) < (c : ℚ) := by linarith
        exact_mod_cast this
  rw [clampUl_fits hcn]
  omega

/-- C05, second clause, for chips of at least two pixels per axis: the chip of an in-image centre
pixel contains that pixel.  Missing: one-pixel chips, for which the code breaks the property
(`C05_false_for_single_pixel_chip`). -/
theorem C05_chip_contains_center_partial {α : Type} [Zero α] (image : Img α) (yc xc : List Int)
    (cy cx : Nat) (bands : Bands) (hcy : 2 ≤ cy ∧ cy ≤ image.ny) (hcx : 2 ≤ cx ∧ cx ≤ image.nx)
    (hlen : yc.length = xc.length) (hb : BandsValid image.nb bands) (hg : ShapeOk image bands)
    (hyc : ∀ y ∈ yc, 0 ≤ y ∧ y < image.ny) (hxc : ∀ x ∈ xc, 0 ≤ x ∧ x < image.nx) :
    ∃ out, byCenters image (yc.map (fun (z : Int) => (z : ℚ))) (xc.map (fun (z : Int) => (z : ℚ))) cy cx bands true
        = .ok out ∧ out.uls.length = yc.length ∧
      ∀ k (h1 : k < yc.length) (h2 : k < xc.length), ∃ uy ux : Nat,
        out.uls[k]? = some ((uy : Int), (ux : Int)) ∧
        (uy : Int) ≤ yc[k] ∧ yc[k] < uy + cy ∧ (ux : Int) ≤ xc[k] ∧ xc[k] < ux + cx ∧
        IsWindow image bands cy cx out.chips k uy ux := by
  obtain ⟨out, hout, hl, hn, hk⟩ := C04_requests_clamped image
    ((yc.map (fun (z : Int) => (z : ℚ))).map (fun c => truncZ (c - (cy : ℚ) / 2)))
    ((xc.map (fun (z : Int) => (z : ℚ))).map (fun c => truncZ (c - (cx : ℚ) / 2))) cy cx bands hcy.2 hcx.2
    (by simpa using hlen) hb hg
  refine ⟨out, hout, by simpa using hl, ?_⟩
  intro k h1 h2
  obtain ⟨e, w⟩ := hk k (by simpa using h1) (by simpa using h2) (by rw [hl]; simpa using h1)
  have ty := truncZ_center (p := yc[k]) hcy.1 hcy.2 (hyc _ (List.getElem_mem h1)).1
    (hyc _ (List.getElem_mem h1)).2
  have tx := truncZ_center (p := xc[k]) hcx.1 hcx.2 (hxc _ (List.getElem_mem h2)).1
    (hxc _ (List.getElem_mem h2)).2
  rw [clampUl_fits hcy.2] at ty
  rw [clampUl_fits hcx.2] at tx
  simp only [List.getElem_map] at e
  rw [e] at w
  refine ⟨_, _, ?_, ?_, ?_, ?_, ?_, w⟩
  · rw [List.getElem?_eq_getElem (by rw [hl]; simpa using h1), e]
    simp only [Option.some.injEq, Prod.mk.injEq]
    omega
  all_goals simp only; omega

example : (2 ≤ 2 ∧ 2 ≤ demo.ny) ∧ (2 ≤ 3 ∧ 3 ≤ demo.nx) ∧
    (∀ y ∈ ([0, 3] : List Int), 0 ≤ y ∧ y < demo.ny) ∧ (∀ x ∈ ([2, 4] : List Int), 0 ≤ x ∧ x < demo.nx) := by
  decide

theorem truncZ_half (p : Nat) (hp : 1 ≤ p) : truncZ ((p : ℚ) - ((1 : Nat) : ℚ) / 2) = (p : Int) - 1 := by
  unfold truncZ
  have : (1 : ℚ) ≤ p := by exact_mod_cast hp
  rw [if_pos (by push_cast; linarith), Int.floor_eq_iff]
  push_cast
  constructor <;> linarith

/-- C05 is false for one-pixel chips: for every image with more than one row and column the chip
"centred" on pixel (1, 1) is pixel (0, 0), because 1 - 0.5 is truncated to 0. -/
theorem C05_false_for_single_pixel_chip {α : Type} [Zero α] (image : Img α)
    (hy : 2 ≤ image.ny) (hx : 2 ≤ image.nx) :
    ∃ out, byCenters image [1] [1] 1 1 .none true = .ok out ∧ out.uls = [((0 : Int), (0 : Int))] := by
  obtain ⟨out, hout, hl, hn, hk⟩ := C04_requests_clamped image
    [truncZ ((1 : ℚ) - ((1 : Nat) : ℚ) / 2)] [truncZ ((1 : ℚ) - ((1 : Nat) : ℚ) / 2)] 1 1 .none
    (by omega) (by omega) rfl trivial (by intro h; cases image <;> simp_all [isGray, nOut, Img.nb])
  refine ⟨out, hout, ?_⟩
  have h0 : 0 < out.uls.length := by rw [hl]; simp
  obtain ⟨e, _⟩ := hk 0 (by simp) (by simp) h0
  have t := truncZ_half 1 (by omega)
  have t' : truncZ ((1 : ℚ) - ((1 : Nat) : ℚ) / 2) = 0 := by simpa using t
  simp only [List.getElem_cons_zero, t'] at e
  apply List.ext_getElem
  · rw [hl]; rfl
  · intro n h1 h2
    have : n = 0 := by simp at h2; omega
    subst this
    rw [e]
    simp

theorem truncZ_contains {c n : Nat} {p : Int} (hc : 1 ≤ c) (hcn : c ≤ n) (hp0 : 0 ≤ p) (hpn : p < n) :
    (clampUl n c (truncZ ((p : ℚ) - (c : ℚ) / 2)) ≤ p ∧ p < clampUl n c (truncZ ((p : ℚ) - (c : ℚ) / 2)) + c) ↔ (2 ≤ c ∨ p = 0) := by
  by_cases h2 : 2 ≤ c
  · exact ⟨fun _ => Or.inl h2, fun _ => truncZ_center h2 hcn hp0 hpn⟩
  · obtain rfl : c = 1 := by omega
    obtain ⟨q, rfl⟩ := Int.eq_ofNat_of_zero_le hp0
    rw [clampUl_fits hcn]
    rcases Nat.eq_zero_or_pos q with rfl | hq
    · have : truncZ (((0 : Nat) : Int) - ((1 : Nat) : ℚ) / 2) ≤ 0 := by
        unfold truncZ
        rw [if_neg (by norm_num), Int.ceil_le]
        norm_num
      constructor
      · intro _; right; rfl
      · intro _; omega
    · have := truncZ_half q hq
      simp only [Int.cast_natCast]
      rw [this]
      omega

/-- C05, second clause, exactly: the chip requested by a centre pixel inside the image contains it, along each axis, exactly when the chip has at
least two pixels there or the centre is at 0. -/
theorem C05_contains_iff_partial {α : Type} [Zero α] (image : Img α) (yc xc : Int) (cy cx : Nat) (bands : Bands)
    (hcy : 1 ≤ cy ∧ cy ≤ image.ny) (hcx : 1 ≤ cx ∧ cx ≤ image.nx) (hb : BandsValid image.nb bands) (hg : ShapeOk image bands)
    (hyc : 0 ≤ yc ∧ yc < image.ny) (hxc : 0 ≤ xc ∧ xc < image.nx) :
    ∃ out, ∃ uy ux : Int, byCenters image [(yc : ℚ)] [(xc : ℚ)] cy cx bands true = .ok out ∧ out.uls = [(uy, ux)] ∧
      ((uy ≤ yc ∧ yc < uy + cy) ↔ (2 ≤ cy ∨ yc = 0)) ∧ ((ux ≤ xc ∧ xc < ux + cx) ↔ (2 ≤ cx ∨ xc = 0)) := by
  obtain ⟨out, hout, hl, hn, hk⟩ := C04_requests_clamped image
    [truncZ ((yc : ℚ) - (cy : ℚ) / 2)] [truncZ ((xc : ℚ) - (cx : ℚ) / 2)] cy cx bands hcy.2 hcx.2 rfl hb hg
  obtain ⟨e, _⟩ := hk 0 (by simp) (by simp) (by rw [hl]; simp)
  have ty := truncZ_contains hcy.1 hcy.2 hyc.1 hyc.2
  have tx := truncZ_contains hcx.1 hcx.2 hxc.1 hxc.2
  rw [clampUl_fits hcy.2] at ty
  rw [clampUl_fits hcx.2] at tx
  refine ⟨out, _, _, hout, ?_, ty, tx⟩
  match hu : out.uls, hl with
  | [p], _ => simp only [hu, List.getElem_cons_zero] at e; rw [e]

example : (1 ≤ 1 ∧ 1 ≤ demo.ny) ∧ (1 ≤ 2 ∧ 2 ≤ demo.nx) ∧ BandsValid demo.nb .none ∧ ShapeOk demo .none :=
  ⟨by decide, by decide, trivial, by intro a h; simp [demo] at h⟩

/-! ### C06: oversize chips -/

/-- C06 is false: a 1 x 5 image happily yields a 3 x 3 "chip" whose rows all repeat the only row
of the image, because numpy broadcasts the length-one slice. -/
theorem C06_false_broadcast :
    ∃ out, byUpperLefts (.gray ⟨1, 5, fun _ x => (x : Int)⟩) [0] [1] 3 3 .none true = .ok out ∧
      out.chips.ny = 3 ∧ out.chips.px 0 2 1 0 = 2 := by
  refine ⟨_, rfl, ?_, ?_⟩ <;> decide

theorem pySliceLen_le (n : Nat) (a b : Int) : pySliceLen n a b ≤ n := by
  unfold pySliceLen pyBound; split <;> split <;> omega

theorem clampUl_big {n c : Nat} (h : n < c) (u : Int) : clampUl n c u = 0 := by
  unfold clampUl; simp only; split <;> split <;> omega

/-- C06 for images whose too small dimension is not exactly one pixel: an oversize chip in either
direction raises.  Missing: images of height or width 1 (`C06_false_broadcast`) and
`keep_within_image_bounds=False`. -/
theorem C06_oversize_rejected_partial {α : Type} [Zero α] (image : Img α) (ys xs : List Int)
    (cy cx : Nat) (bands : Bands) (h0 : ys ≠ []) (h0' : xs ≠ [])
    (h : image.ny < cy ∧ image.ny ≠ 1 ∨ image.nx < cx ∧ image.nx ≠ 1) :
    ∃ e, byUpperLefts image ys xs cy cx bands true = .error e := by
  obtain ⟨y, ys, rfl⟩ := List.exists_cons_of_ne_nil h0
  obtain ⟨x, xs, rfl⟩ := List.exists_cons_of_ne_nil h0'
  cases hr : byUpperLefts image (y :: ys) (x :: xs) cy cx bands true with
  | error e => exact ⟨e, rfl⟩
  | ok out =>
    obtain ⟨px, hl, _⟩ := byUpperLefts_ok hr
    obtain ⟨_, hc, _⟩ := chipLoop_ok hl
    have h1 := hc 0 (by simp)
    simp at h1
    unfold copyChip at h1
    obtain ⟨is, _, h1⟩ := bind_ok h1
    simp only [toCube_ny, toCube_nx] at h1
    split at h1
    · rename_i hcond
      exfalso
      rcases h with ⟨h, h'⟩ | ⟨h, h'⟩
      · rw [clampUl_big h] at hcond
        have : pySliceLen image.ny 0 (0 + (cy : Int)) = image.ny := by
          unfold pySliceLen pyBound
          rw [if_neg (by omega), if_neg (by omega)]; omega
        omega
      · rw [clampUl_big h] at hcond
        have : pySliceLen image.nx 0 (0 + (cx : Int)) = image.nx := by
          unfold pySliceLen pyBound
          rw [if_neg (by omega), if_neg (by omega)]; omega
        omega
    · cases h1

/-- The error of an oversize chip is a ValueError (with usable bands), an IndexError when a band is out of range. -/
theorem C06_refused {α : Type} [Zero α] (image : Img α) (y x : Int) (ys xs : List Int) (cy cx : Nat) (bands : Bands) (keep : Bool) :
    (BandsValid image.nb bands → (image.ny < cy ∧ image.ny ≠ 1 ∨ image.nx < cx ∧ image.nx ≠ 1) →
      byUpperLefts image (y :: ys) (x :: xs) cy cx bands true = .error .valueError) ∧
    ((∃ b ∈ bandList image.nb bands, b < -(image.nb : Int) ∨ (image.nb : Int) ≤ b) →
      byUpperLefts image (y :: ys) (x :: xs) cy cx bands keep = .error .indexError) := by
  constructor
  · intro hb h
    obtain ⟨is, his⟩ := resolve_valid hb
    have hcopy : copyChip (toCube image) cy cx (bandList image.nb bands) (clampUl image.ny cy y) (clampUl image.nx cx x) = .error .valueError := by
      unfold copyChip
      rw [toCube_nb, his, ok_bind]
      simp only [toCube_ny, toCube_nx]
      rw [if_neg]
      have full : ∀ n c : Nat, n < c → pySliceLen n 0 (0 + (c : Int)) = n := by
        intro n c hc
        unfold pySliceLen pyBound
        rw [if_neg (by omega), if_neg (by omega)]; omega
      rintro ⟨c1, c2⟩
      rcases h with ⟨h, h'⟩ | ⟨h, h'⟩
      · rw [clampUl_big h, full _ _ h] at c1; omega
      · rw [clampUl_big h, full _ _ h] at c2; omega
    unfold byUpperLefts
    simp only [if_true, toCube_nb, toCube_ny, toCube_nx, List.map_cons, List.zip_cons_cons, chipLoop]
    rw [hcopy]
    rfl
  · rintro ⟨b, hb, hr⟩
    have hres : ∀ l : List Int, b ∈ l → resolveBands image.nb l = .error .indexError := by
      intro l
      induction l with
      | nil => simp
      | cons a l ih =>
        intro hm
        have hp : ∀ c : Int, pyIdx image.nb c = .error .indexError ∨ ∃ k, pyIdx image.nb c = .ok k := by
          intro c
          unfold pyIdx
          repeat' split
          all_goals first | exact Or.inl rfl | exact Or.inr ⟨_, rfl⟩
        rw [resolveBands]
        rcases hp a with e | ⟨k, e⟩
        · rw [e]; rfl
        · rw [e, ok_bind]
          rcases List.mem_cons.mp hm with rfl | hm
          · exfalso
            have h1 : PyAt image.nb b k := (pyIdx_ok_iff _ _ _).mp e
            unfold PyAt at h1
            omega
          · rw [ih hm]; rfl
    unfold byUpperLefts
    simp only [toCube_nb, toCube_ny, toCube_nx]
    have hz : ∃ p rest, ((if keep then (y :: ys).map (clampUl image.ny cy) else y :: ys).zip (if keep then (x :: xs).map (clampUl image.nx cx) else x :: xs)) = p :: rest := by
      cases keep <;> exact ⟨_, _, rfl⟩
    obtain ⟨p, rest, hz⟩ := hz
    rw [hz]
    obtain ⟨a, c⟩ := p
    simp only [chipLoop]
    unfold copyChip
    rw [toCube_nb, hres _ hb]
    rfl

example : demo.ny < 6 ∧ demo.ny ≠ 1 := by decide

/-- The exact condition for acceptance of one oversize-or-not request: every chip accepted with
`keep_within_image_bounds` either fits along an axis or the image has length one there. -/
theorem C06_accepted_iff {α : Type} [Zero α] (image : Img α) (y x : Int) (cy cx : Nat)
    (hb : ShapeOk image .none) :
    (∃ out, byUpperLefts image [y] [x] cy cx .none true = .ok out) ↔
      (cy ≤ image.ny ∨ image.ny = 1) ∧ (cx ≤ image.nx ∨ image.nx = 1) := by
  have hlen : ∀ (n c : Nat) (u : Int),
      (pySliceLen n (clampUl n c u) (clampUl n c u + c) = c ∨
        pySliceLen n (clampUl n c u) (clampUl n c u + c) = 1) ↔ (c ≤ n ∨ n = 1) := by
    intro n c u
    by_cases hc : c ≤ n
    · have := pySlice_fits (clampUl_range hc u).1 (clampUl_range hc u).2
      simp [this.1, hc]
    · rw [clampUl_big (by omega)]
      have : pySliceLen n 0 (0 + (c : Int)) = n := by
        unfold pySliceLen pyBound
        rw [if_neg (by omega), if_neg (by omega)]; omega
      rw [this]; omega
  constructor
  · rintro ⟨out, hr⟩
    obtain ⟨px, hl, _⟩ := byUpperLefts_ok hr
    obtain ⟨_, hc, _⟩ := chipLoop_ok hl
    have h1 := hc 0 (by simp)
    simp at h1
    unfold copyChip at h1
    obtain ⟨is, _, h1⟩ := bind_ok h1
    simp only [toCube_ny, toCube_nx] at h1
    split at h1
    · rename_i hcond
      exact ⟨(hlen _ _ _).mp hcond.1, (hlen _ _ _).mp hcond.2⟩
    · cases h1
  · rintro ⟨h1, h2⟩
    apply byUpperLefts_total
    · intro p hp
      simp at hp
      subst hp
      obtain ⟨is, his⟩ := resolve_valid (nb := image.nb) (bands := .none) trivial
      unfold copyChip
      rw [toCube_nb, his]
      simp only [ok_bind, toCube_ny, toCube_nx]
      rw [if_pos ⟨(hlen _ _ _).mpr h1, (hlen _ _ _).mpr h2⟩]
      exact ⟨_, rfl⟩
    · rw [bandList_length]; exact (shapeOk_iff _ _).1 hb

example : ShapeOk demo .none := by intro a h; simp [demo] at h

end Verif.Chipper
