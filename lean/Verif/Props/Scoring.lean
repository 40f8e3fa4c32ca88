import Verif.Model.Scoring
import Verif.Props.Chipper
import Verif.Props.ImageUtils
import Verif.Props.TextUtils

/-! Properties C84-C86: scoring the chips of an image with a neural network, the detection image made from
the scores, and the label file. -/

namespace Verif.Scoring
open Verif Chipper ImageUtils

set_option linter.unusedSectionVars false

section
variable {K : Type} [Field K] [LinearOrder K] [IsStrictOrderedRing K]

/-! ### Specification -/

/-- The number of bands the network sees: the fourth band of a four-band image is the alpha channel. -/
def bandsSeen (nb : Nat) : Nat := if nb = 4 then 3 else nb

/-- `w` is the window of the image with upper left `(y, x)`, without the alpha channel. -/
def IsChip (image : A3 K) (cy cx : Nat) (y x : Nat) (w : A3 K) : Prop :=
  w.ny = cy ∧ w.nx = cx ∧ w.nb = bandsSeen image.nb ∧ y + cy ≤ image.ny ∧ x + cx ≤ image.nx ∧
  ∀ i j b, i < cy → j < cx → b < bandsSeen image.nb → w.px i j b = image.px (y + i) (x + j) b

/-- The network, as far as the caller sees it: resizing and prediction only see the entries of an array,
and every prediction has one number per class. -/
structure Network (resize : A3 K → A3 K) (predict : A3 (Option K) → List K) (classes : Nat) : Prop where
  resize_same : ∀ a b : A3 K, a.Same b → (resize a).Same (resize b)
  resize_pos : ∀ a : A3 K, 0 < a.nb → 0 < (resize a).ny ∧ 0 < (resize a).nx ∧ 0 < (resize a).nb
  predict_same : ∀ a b : A3 (Option K), a.Same b → predict a = predict b
  length : ∀ a, (predict a).length = classes

/-- `v` occurs in the array. -/
def Occurs (a : A3 K) (v : K) : Prop := ∃ y x b, y < a.ny ∧ x < a.nx ∧ b < a.nb ∧ a.px y x b = v

/-- `v` is what the network is shown for the resized chip `a`: the pixels over 255 (the default), the pixels
stretched so that the smallest becomes 0 and the largest 1 (not a number for a constant chip), or for
any other method name the pixels themselves. -/
def Shown (method : Str) (a : A3 K) (v : A3 (Option K)) : Prop :=
  v.ny = a.ny ∧ v.nx = a.nx ∧ v.nb = a.nb ∧
  ∃ f : K → Option K, (∀ y x b, y < a.ny → x < a.nx → b < a.nb → v.px y x b = f (a.px y x b)) ∧
    ((method = "divide_by_255".toList ∧ ∀ p, f p = some (p / 255)) ∨
     (method = "min_max_per_chip".toList ∧ ∃ mn mx, Occurs a mn ∧ Occurs a mx ∧ (∀ p, Occurs a p → mn ≤ p ∧ p ≤ mx) ∧
        ∀ p, f p = if mn = mx then none else some ((p - mn) / (mx - mn))) ∨
     (method ≠ "divide_by_255".toList ∧ method ≠ "min_max_per_chip".toList ∧ ∀ p, f p = some p))

/-! ### Lemmas -/

theorem mem_entries (a : A3 K) (v : K) : v ∈ entries a ↔ Occurs a v := by
  unfold entries Occurs
  simp only [List.mem_flatMap, List.mem_range, List.mem_map]
  constructor
  · rintro ⟨y, hy, x, hx, b, hb, e⟩
    exact ⟨y, x, b, hy, hx, hb, e⟩
  · rintro ⟨y, x, b, hy, hx, hb, e⟩
    exact ⟨y, hy, x, hx, b, hb, e⟩

theorem normalise_shown (method : Str) (a : A3 K) (h : 0 < a.ny ∧ 0 < a.nx ∧ 0 < a.nb) :
    ∃ v, normalise method a = .ok v ∧ Shown method a v := by
  unfold normalise
  by_cases h1 : method = "divide_by_255".toList
  · rw [if_pos h1]
    exact ⟨_, rfl, rfl, rfl, rfl, fun p => some (p / 255), fun _ _ _ _ _ _ => rfl, Or.inl ⟨h1, fun _ => rfl⟩⟩
  · rw [if_neg h1]
    by_cases h2 : method = "min_max_per_chip".toList
    · rw [if_pos h2]
      have hne : entries a ≠ [] := by
        intro e
        have : a.px 0 0 0 ∈ entries a := (mem_entries a _).mpr ⟨0, 0, 0, h.1, h.2.1, h.2.2, rfl⟩
        rw [e] at this
        simp at this
      cases hmn : (entries a).min? with
      | none => exact absurd (List.min?_eq_none_iff.mp hmn) hne
      | some mn =>
        cases hmx : (entries a).max? with
        | none => exact absurd (List.max?_eq_none_iff.mp hmx) hne
        | some mx =>
          obtain ⟨m1, m2⟩ := min?_spec hmn
          obtain ⟨x1, x2⟩ := max?_spec hmx
          refine ⟨_, rfl, rfl, rfl, rfl, fun p => fdiv (p - mn) (mx - mn), fun _ _ _ _ _ _ => rfl,
            Or.inr (Or.inl ⟨h2, mn, mx, (mem_entries a _).mp m1, (mem_entries a _).mp x1, ?_, ?_⟩)⟩
          · intro p hp
            exact ⟨m2 p ((mem_entries a p).mpr hp), x2 p ((mem_entries a p).mpr hp)⟩
          · intro p
            show fdiv (p - mn) (mx - mn) = _
            unfold fdiv
            by_cases he : mn = mx
            · have h0 : mx - mn = 0 := by rw [he]; exact sub_self _
              rw [if_pos he, if_pos h0]
            · have h0 : ¬ mx - mn = 0 := fun h0 => he (sub_eq_zero.mp h0).symm
              rw [if_neg he, if_neg h0]
    · rw [if_neg h2]
      exact ⟨_, rfl, rfl, rfl, rfl, some, fun _ _ _ _ _ _ => rfl, Or.inr (Or.inr ⟨h1, h2, fun _ => rfl⟩)⟩

/-- What the network is shown depends on the chip's entries only. -/
theorem shown_same (method : Str) (a b : A3 K) (v : A3 (Option K)) (h : a.Same b) (hv : Shown method a v) :
    Shown method b v := by
  obtain ⟨s1, s2, s3, s4⟩ := h
  obtain ⟨v1, v2, v3, f, vf, hm⟩ := hv
  have hocc : ∀ p, Occurs a p ↔ Occurs b p := by
    intro p
    constructor
    · rintro ⟨y, x, c, hy, hx, hc, e⟩
      exact ⟨y, x, c, by omega, by omega, by omega, by rw [← s4 y x c hy hx hc]; exact e⟩
    · rintro ⟨y, x, c, hy, hx, hc, e⟩
      exact ⟨y, x, c, by omega, by omega, by omega, by rw [s4 y x c (by omega) (by omega) (by omega)]; exact e⟩
  refine ⟨by omega, by omega, by omega, f, ?_, ?_⟩
  · intro y x c hy hx hc
    rw [vf y x c (by omega) (by omega) (by omega), s4 y x c (by omega) (by omega) (by omega)]
  · rcases hm with hm | ⟨h1, mn, mx, o1, o2, o3, o4⟩ | hm
    · exact Or.inl hm
    · exact Or.inr (Or.inl ⟨h1, mn, mx, (hocc _).mp o1, (hocc _).mp o2, fun p hp => o3 p ((hocc p).mpr hp), o4⟩)
    · exact Or.inr (Or.inr hm)

/-- What the network is shown is determined by the chip. -/
theorem shown_unique (method : Str) (a : A3 K) (v w : A3 (Option K)) (hv : Shown method a v) (hw : Shown method a w) :
    v.Same w := by
  obtain ⟨v1, v2, v3, f, vf, hm⟩ := hv
  obtain ⟨w1, w2, w3, g, wf, hm'⟩ := hw
  refine ⟨by omega, by omega, by omega, ?_⟩
  intro y x b hy hx hb
  rw [vf y x b (by omega) (by omega) (by omega), wf y x b (by omega) (by omega) (by omega)]
  rcases hm with ⟨e, h⟩ | ⟨e, mn, mx, o1, o2, o3, o4⟩ | ⟨e1, e2, h⟩ <;>
    rcases hm' with ⟨e', h'⟩ | ⟨e', mn', mx', p1, p2, p3, p4⟩ | ⟨e1', e2', h'⟩
  · rw [h, h']
  · rw [e] at e'; exact absurd e' (by decide)
  · exact absurd e e1'
  · rw [e'] at e; exact absurd e (by decide)
  · have a1 : mn = mn' := le_antisymm (o3 _ p1).1 (p3 _ o1).1
    have a2 : mx = mx' := le_antisymm (p3 _ o2).2 (o3 _ p2).2
    rw [o4, p4, a1, a2]
  · exact absurd e e2'
  · exact absurd e' e1
  · exact absurd e' e2
  · rw [h, h']

theorem scoreLoop_ok (resize : A3 K → A3 K) (method : Str) (predict : A3 (Option K) → List K) (c : Chips K)
    (hf : ∀ i, ∃ v, normalise method (resize (chipAt c i)) = .ok v ∧ Shown method (resize (chipAt c i)) v) (todo i : Nat) :
    ∃ rows, scoreLoop resize method predict true c todo i = .ok rows ∧ rows.length = todo ∧
      ∀ k, k < todo → ∃ v, Shown method (resize (chipAt c (i + k))) v ∧ rows[k]? = some (predict v) := by
  induction todo generalizing i with
  | zero => exact ⟨[], rfl, rfl, fun k hk => by omega⟩
  | succ n ih =>
    obtain ⟨v, hv, hs⟩ := hf i
    obtain ⟨rows, hr, hl, hk⟩ := ih (i + 1)
    refine ⟨predict v :: rows, ?_, by simp [hl], ?_⟩
    · unfold scoreLoop
      rw [hv, ok_bind]
      simp only [if_true]
      rw [hr, ok_bind]
    · intro k hk'
      match k with
      | 0 => exact ⟨v, hs, rfl⟩
      | k + 1 =>
        obtain ⟨w, hw, he⟩ := hk k (by omega)
        exact ⟨w, by rw [show i + (k + 1) = i + 1 + k by omega]; exact hw, by simpa using he⟩

theorem trunc_overlap (c : Nat) (p : ℚ) (hc : 0 < c) (h0 : 0 ≤ p) (h1 : p < 1) :
    0 ≤ truncZ (c * p) ∧ truncZ (c * p) < c := by
  have hcp : 0 ≤ (c : ℚ) * p := by positivity
  unfold truncZ
  rw [if_pos hcp]
  refine ⟨Int.floor_nonneg.mpr hcp, ?_⟩
  rw [Int.floor_lt]
  have : (0 : ℚ) < c := by exact_mod_cast hc
  push_cast
  nlinarith

/-- The bands of the chips of a whole image. -/
theorem chipEntire_bands {α : Type} [Zero α] {a : A3 α} {cy cx : Nat} {oy ox : Int} {keep : Bool} {out : Out α}
    (h : chipEntire (.cube a) cy cx oy ox .none keep = .ok out) : out.chips.nb.getD 1 = a.nb := by
  unfold chipEntire at h
  obtain ⟨yi, _, h⟩ := bind_ok h
  obtain ⟨xi, _, h⟩ := bind_ok h
  obtain ⟨px, _, _, _, _, hb, _⟩ := byUpperLefts_ok h
  have e : (bandList (Img.cube (toCube (Img.cube a))).nb Bands.none).length = a.nb := by
    simp [bandList, toCube, Img.nb]
  rw [hb, e]
  by_cases h1 : a.nb = 1
  · simp [h1]
  · simp [isGray, h1]

/-- The image without its alpha channel. -/
def noAlpha (a : A3 K) : A3 K := if a.nb = 4 then ⟨a.ny, a.nx, 3, a.px⟩ else a

theorem noAlpha_ny (a : A3 K) : (noAlpha a).ny = a.ny := by unfold noAlpha; split <;> rfl
theorem noAlpha_nx (a : A3 K) : (noAlpha a).nx = a.nx := by unfold noAlpha; split <;> rfl
theorem noAlpha_nb (a : A3 K) : (noAlpha a).nb = bandsSeen a.nb := by unfold noAlpha bandsSeen; split <;> rfl
theorem noAlpha_px (a : A3 K) : (noAlpha a).px = a.px := by unfold noAlpha; split <;> rfl

theorem squeeze_d2 (rows : List (List K)) (c : Nat) (hn : 2 ≤ rows.length) (hc : 2 ≤ c)
    (h : ∀ r ∈ rows, r.length = c) : squeeze rows = .d2 rows := by
  match rows, hn with
  | r :: s :: rs, _ =>
    have hr := h r (by simp)
    have step : squeeze (r :: s :: rs) = if r.length = 1 then Scores.d1 ((r :: s :: rs).flatten) else .d2 (r :: s :: rs) := by
      unfold squeeze
      split <;> simp_all
    rw [step, if_neg (by omega)]

theorem column_ok (k : Nat) (rows : List (List K)) (h : ∀ r ∈ rows, k < r.length) :
    column k rows = .ok (rows.map (fun r => r.getD k 0)) := by
  induction rows with
  | nil => rfl
  | cons r rs ih =>
    have hr := h r (by simp)
    unfold column
    rw [List.getElem?_eq_getElem hr]
    simp only []
    rw [ih (fun r hr => h r (by simp [hr])), ok_bind]
    simp [List.getD, List.getElem?_eq_getElem hr]

theorem labelIndex_spec (labels : List Str) (k : Nat) (thing : Str) (hk : labels[k]? = some thing)
    (hfirst : ∀ j < k, labels[j]? ≠ some thing) : labelIndex labels thing = .ok k := by
  have h : labels.findIdx? (fun l => l == thing) = some k := by
    rw [List.findIdx?_eq_some_iff_getElem]
    obtain ⟨hlt, he⟩ := List.getElem?_eq_some_iff.mp hk
    refine ⟨hlt, by simp [he], ?_⟩
    intro j hj
    have := hfirst j hj
    rw [List.getElem?_eq_getElem (by omega)] at this
    simpa using this
  unfold labelIndex
  rw [h]

/-- The chips of the image the network is shown. -/
theorem windows (a : A3 K) (cx cy : Nat) (oy ox : Int)
    (hcy : 0 < cy ∧ cy ≤ a.ny) (hcx : 0 < cx ∧ cx ≤ a.nx) (hoy : 0 ≤ oy ∧ oy < cy) (hox : 0 ≤ ox ∧ ox < cx) :
    ∃ out, chipEntire (.cube (noAlpha a)) cy cx oy ox .none true = .ok out ∧ out.chips.n = out.uls.length ∧
      ∀ (k : Nat) (u : Int × Int), out.uls[k]? = some u →
        0 ≤ u.1 ∧ 0 ≤ u.2 ∧ IsChip a cy cx u.1.toNat u.2.toNat (chipAt out.chips k) := by
  obtain ⟨yi, xi, out, hyi, hxi, hout, hu, hn, hny, hnx, hw⟩ := chipEntire_ok (.cube (noAlpha a)) cy cx oy ox .none true
    (by simp only [Img.ny, noAlpha_ny]; exact hcy) (by simp only [Img.nx, noAlpha_nx]; exact hcx) hoy hox trivial
  refine ⟨out, hout, hn, ?_⟩
  intro k u hk
  obtain ⟨hlt, he⟩ := List.getElem?_eq_some_iff.mp hk
  obtain ⟨m1, m2, w1, w2, w3⟩ := hw k hlt
  rw [he] at m1 m2 w1 w2 w3
  simp only [Img.ny, Img.nx, noAlpha_ny, noAlpha_nx] at w1 w2
  have b1 := axisGrid_bounds hcy.1 (n := (Img.cube (noAlpha a)).ny) (by simp only [Img.ny, noAlpha_ny]; exact hcy.2)
    hoy.1 hoy.2 hyi m1
  have b2 := axisGrid_bounds hcx.1 (n := (Img.cube (noAlpha a)).nx) (by simp only [Img.nx, noAlpha_nx]; exact hcx.2)
    hox.1 hox.2 hxi m2
  refine ⟨b1.1, b2.1, hny, hnx, ?_, w1, w2, ?_⟩
  · show out.chips.nb.getD 1 = _
    rw [chipEntire_bands hout, noAlpha_nb]
  · intro i j b hi hj hb
    obtain ⟨band, hs, hv⟩ := w3 i j b hi hj (by simp only [nOut, Img.nb, noAlpha_nb]; exact hb)
    simp only [BandSel] at hs
    rw [hs.2] at hv
    show out.chips.px k i j b = _
    rw [hv]
    simp only [Img.value, noAlpha_px]

theorem isChip_same (a : A3 K) (cy cx y x : Nat) (v w : A3 K) (hv : IsChip a cy cx y x v) (hw : IsChip a cy cx y x w) :
    v.Same w := by
  obtain ⟨v1, v2, v3, _, _, v6⟩ := hv
  obtain ⟨w1, w2, w3, _, _, w6⟩ := hw
  refine ⟨by rw [v1, w1], by rw [v2, w2], by rw [v3, w3], ?_⟩
  intro i j b hi hj hb
  rw [v1] at hi
  rw [v2] at hj
  rw [v3] at hb
  rw [v6 i j b hi hj hb, w6 i j b hi hj hb]

theorem two_le_length {α : Type} (l : List α) (a b : α) (ha : a ∈ l) (hb : b ∈ l) (h : a ≠ b) : 2 ≤ l.length := by
  match l, ha, hb with
  | [c], ha, hb =>
    simp at ha hb
    exact absurd (ha.trans hb.symm) h
  | _ :: _ :: _, _, _ => simp

/-- What scoring computes before the column of one label is selected. -/
theorem core (resize : A3 K → A3 K) (predict : A3 (Option K) → List K) (classes : Nat)
    (hnet : Network resize predict classes) (a : A3 K) (hnb : 0 < a.nb) (method : Str) (cx cy : Nat) (px py : ℚ)
    (hcy : 0 < cy ∧ cy ≤ a.ny) (hcx : 0 < cx ∧ cx ≤ a.nx) (hpy : 0 ≤ py ∧ py < 1) (hpx : 0 ≤ px ∧ px < 1) :
    ∃ out rows, chipEntire (.cube (noAlpha a)) cy cx (truncZ (cy * py)) (truncZ (cx * px)) .none true = .ok out ∧
      scoreLoop resize method predict true out.chips out.chips.n 0 = .ok rows ∧
      rows.length = out.uls.length ∧ (∀ r ∈ rows, r.length = classes) ∧
      (∀ (k : Nat) (u : Int × Int), out.uls[k]? = some u → 0 ≤ u.1 ∧ 0 ≤ u.2 ∧
        u.1 + cy ≤ a.ny ∧ u.2 + cx ≤ a.nx ∧
        ∀ w : A3 K, IsChip a cy cx u.1.toNat u.2.toNat w → ∃ v, Shown method (resize w) v ∧ rows[k]? = some (predict v)) ∧
      ((0, 0) ∈ out.uls ∧ ((a.ny : Int) - cy, 0) ∈ out.uls ∧ (0, (a.nx : Int) - cx) ∈ out.uls) ∧
      (∀ y x, y < a.ny → x < a.nx → ∃ u ∈ out.uls, u.1 ≤ (y : Int) ∧ (y : Int) < u.1 + cy ∧
        u.2 ≤ (x : Int) ∧ (x : Int) < u.2 + cx) := by
  have hoy := trunc_overlap cy py hcy.1 hpy.1 hpy.2
  have hox := trunc_overlap cx px hcx.1 hpx.1 hpx.2
  obtain ⟨out, hout, hn, hw⟩ := windows a cx cy (truncZ (cy * py)) (truncZ (cx * px)) hcy hcx hoy hox
  have hcy' : 0 < cy ∧ cy ≤ (Img.cube (noAlpha a)).ny := by simp only [Img.ny, noAlpha_ny]; exact hcy
  have hcx' : 0 < cx ∧ cx ≤ (Img.cube (noAlpha a)).nx := by simp only [Img.nx, noAlpha_nx]; exact hcx
  obtain ⟨out1, ho1, _, hcov⟩ := C01_every_pixel_covered (.cube (noAlpha a)) cy cx (truncZ (cy * py)) (truncZ (cx * px))
    .none true hcy' hcx' hoy hox trivial
  obtain ⟨out2, ho2, _, hin, R, C, hm, _, _, r0, c0, r1, c1, _⟩ := C03_grid (.cube (noAlpha a)) cy cx (truncZ (cy * py)) (truncZ (cx * px))
    .none true hcy' hcx' hoy hox trivial
  rw [hout] at ho1 ho2
  cases ho1
  cases ho2
  simp only [Img.ny, Img.nx, noAlpha_ny, noAlpha_nx] at r1 c1 hin hcov
  have hcb : ∀ i, 0 < (chipAt out.chips i).nb := by
    intro i
    show 0 < out.chips.nb.getD 1
    rw [chipEntire_bands hout, noAlpha_nb]
    unfold bandsSeen
    split <;> omega
  obtain ⟨rows, hsl, hrl, hrk⟩ := scoreLoop_ok resize method predict out.chips
    (fun i => normalise_shown method _ (hnet.resize_pos _ (hcb i))) out.chips.n 0
  refine ⟨out, rows, hout, hsl, by rw [hrl, hn], ?_, ?_, ⟨(hm _).mpr ⟨r0, c0⟩, (hm _).mpr ⟨r1, c0⟩, (hm _).mpr ⟨r0, c1⟩⟩, ?_⟩
  · intro r hr
    obtain ⟨k, hk, hke⟩ := List.mem_iff_getElem.mp hr
    obtain ⟨v, _, he⟩ := hrk k (by omega)
    rw [List.getElem?_eq_getElem hk, hke] at he
    cases he
    exact hnet.length _
  · intro k u hk
    obtain ⟨u1, u2, hc⟩ := hw k u hk
    have hb := hin u (List.mem_of_getElem? hk)
    refine ⟨u1, u2, hb.2.1, hb.2.2.2, ?_⟩
    intro w hwc
    obtain ⟨hlt, _⟩ := List.getElem?_eq_some_iff.mp hk
    obtain ⟨v, hv, he⟩ := hrk k (by omega)
    rw [Nat.zero_add] at hv
    exact ⟨v, shown_same method _ _ v (hnet.resize_same _ _ (isChip_same a cy cx _ _ _ _ hc hwc)) hv, he⟩
  · intro y x hy hx
    obtain ⟨k, uy, ux, hk, h1, h2, h3, h4, _⟩ := hcov y x hy hx
    refine ⟨_, List.mem_of_getElem? hk, ?_, ?_, ?_, ?_⟩ <;> simp only <;> omega

theorem many (a : A3 K) (cx cy : Nat) (uls : List (Int × Int)) (h00 : (0, 0) ∈ uls)
    (hy : ((a.ny : Int) - cy, 0) ∈ uls) (hx : (0, (a.nx : Int) - cx) ∈ uls) (hmany : cy < a.ny ∨ cx < a.nx) : 2 ≤ uls.length := by
  rcases hmany with h | h
  · exact two_le_length uls _ _ h00 hy (by intro e; have := congrArg Prod.fst e; simp only at this; omega)
  · exact two_le_length uls _ _ h00 hx (by intro e; have := congrArg Prod.snd e; simp only at this; omega)

/-! ### C84 -/

/-- C84.  With a progress ledger, a network of at least two classes and an image larger than one chip, scoring
returns one row per chip in the order of the upper lefts, and row `k` is the network's prediction for the
window of the image at upper left `k` (without alpha, resized, normalised as requested); every pixel of the image lies in
one of those windows.  Missing: the default call without ledger and images of one chip, where the claim
is false (below). -/
theorem C84_scores_aligned_partial (resize : A3 K → A3 K) (predict : A3 (Option K) → List K) (classes : Nat)
    (hnet : Network resize predict classes) (h2 : 2 ≤ classes) (a : A3 K) (hnb : 0 < a.nb)
    (method : Str) (cx cy : Nat) (px py : ℚ)
    (hcy : 0 < cy ∧ cy ≤ a.ny) (hcx : 0 < cx ∧ cx ≤ a.nx) (hpy : 0 ≤ py ∧ py < 1) (hpx : 0 ≤ px ∧ px < 1)
    (hmany : cy < a.ny ∨ cx < a.nx) (thing : Option Str) (labels : Option (List Str)) (hl : labels = none ∨ thing = none) :
    ∃ rows uls, chipAndScore resize predict (.cube a) cx cy px py method labels thing true
        = .ok (.d2 rows, uls) ∧
      rows.length = uls.length ∧
      (∀ (k : Nat) (u : Int × Int), uls[k]? = some u → 0 ≤ u.1 ∧ 0 ≤ u.2 ∧
        ∀ w : A3 K, IsChip a cy cx u.1.toNat u.2.toNat w →
          ∃ v, Shown method (resize w) v ∧ rows[k]? = some (predict v)) ∧
      (∀ y x, y < a.ny → x < a.nx → ∃ u ∈ uls, u.1 ≤ (y : Int) ∧ (y : Int) < u.1 + cy ∧
        u.2 ≤ (x : Int) ∧ (x : Int) < u.2 + cx) := by
  obtain ⟨out, rows, hout, hs, hlen, hrl, hw, ⟨h00, h10, h01⟩, hcov⟩ :=
    core resize predict classes hnet a hnb method cx cy px py hcy hcx hpy hpx
  have hm := many a cx cy out.uls h00 h10 h01 hmany
  refine ⟨rows, out.uls, ?_, hlen, fun k u hk => ⟨(hw k u hk).1, (hw k u hk).2.1, (hw k u hk).2.2.2.2⟩, hcov⟩
  have hd : dropAlpha (Img.cube a) = .ok (noAlpha a) := rfl
  unfold chipAndScore
  rw [hd, ok_bind, hout, ok_bind, hs, ok_bind]
  rw [squeeze_d2 rows classes (by omega) h2 hrl]
  rcases hl with rfl | rfl
  · rfl
  · cases labels <;> rfl

/-- C84, one class: with the label list and the class to find given, entry `k` of the returned vector is the
network's score of that class for the window at upper left `k`. -/
theorem C84_class_scores_partial (resize : A3 K → A3 K) (predict : A3 (Option K) → List K) (classes : Nat)
    (hnet : Network resize predict classes) (h2 : 2 ≤ classes) (a : A3 K) (hnb : 0 < a.nb)
    (method : Str) (cx cy : Nat) (px py : ℚ)
    (hcy : 0 < cy ∧ cy ≤ a.ny) (hcx : 0 < cx ∧ cx ≤ a.nx) (hpy : 0 ≤ py ∧ py < 1) (hpx : 0 ≤ px ∧ px < 1)
    (hmany : cy < a.ny ∨ cx < a.nx) (labels : List Str) (thing : Str) (c : Nat) (hc : c < classes)
    (ht : labels[c]? = some thing) (hfirst : ∀ j < c, labels[j]? ≠ some thing) :
    ∃ l uls, chipAndScore resize predict (.cube a) cx cy px py method (some labels) (some thing) true
        = .ok (.d1 l, uls) ∧
      l.length = uls.length ∧
      (∀ (k : Nat) (u : Int × Int), uls[k]? = some u → 0 ≤ u.1 ∧ 0 ≤ u.2 ∧
        u.1 + cy ≤ a.ny ∧ u.2 + cx ≤ a.nx ∧
        ∀ w : A3 K, IsChip a cy cx u.1.toNat u.2.toNat w → ∃ v, Shown method (resize w) v ∧ l[k]? = (predict v)[c]?) ∧
      ((0, 0) ∈ uls ∧ ((a.ny : Int) - cy, 0) ∈ uls ∧ (0, (a.nx : Int) - cx) ∈ uls) ∧
      (∀ y x, y < a.ny → x < a.nx → ∃ u ∈ uls, u.1 ≤ (y : Int) ∧ (y : Int) < u.1 + cy ∧
        u.2 ≤ (x : Int) ∧ (x : Int) < u.2 + cx) := by
  obtain ⟨out, rows, hout, hs, hlen, hrl, hw, ⟨h00, h10, h01⟩, hcov⟩ :=
    core resize predict classes hnet a hnb method cx cy px py hcy hcx hpy hpx
  have hm := many a cx cy out.uls h00 h10 h01 hmany
  refine ⟨rows.map (fun r => r.getD c 0), out.uls, ?_, by simp [hlen], ?_, ⟨h00, h10, h01⟩, hcov⟩
  · have hd : dropAlpha (Img.cube a) = .ok (noAlpha a) := rfl
    unfold chipAndScore
    rw [hd, ok_bind, hout, ok_bind, hs, ok_bind]
    rw [squeeze_d2 rows classes (by omega) h2 hrl]
    simp only []
    rw [labelIndex_spec labels c thing ht hfirst, ok_bind]
    unfold scoreColumn
    simp only []
    rw [column_ok c rows (fun r hr => by rw [hrl r hr]; exact hc), ok_bind]
    rfl
  · intro k u hk
    obtain ⟨h1, h2, h3, h4, h5⟩ := hw k u hk
    refine ⟨h1, h2, h3, h4, ?_⟩
    intro w hwc
    obtain ⟨v, hv, he⟩ := h5 w hwc
    refine ⟨v, hv, ?_⟩
    have hlt : c < (predict v).length := by rw [hnet.length]; exact hc
    rw [List.getElem?_map, he]
    simp [List.getD, List.getElem?_eq_getElem hlt]

/-- C84: a class that the label list has beyond the network's outputs is an IndexError. -/
theorem C84_label_without_output (resize : A3 K → A3 K) (predict : A3 (Option K) → List K) (classes : Nat)
    (hnet : Network resize predict classes) (h2 : 2 ≤ classes) (a : A3 K) (hnb : 0 < a.nb)
    (method : Str) (cx cy : Nat) (px py : ℚ)
    (hcy : 0 < cy ∧ cy ≤ a.ny) (hcx : 0 < cx ∧ cx ≤ a.nx) (hpy : 0 ≤ py ∧ py < 1) (hpx : 0 ≤ px ∧ px < 1)
    (hmany : cy < a.ny ∨ cx < a.nx) (labels : List Str) (thing : Str) (c : Nat) (hc : classes ≤ c)
    (ht : labels[c]? = some thing) (hfirst : ∀ j < c, labels[j]? ≠ some thing) :
    chipAndScore resize predict (.cube a) cx cy px py method (some labels) (some thing) true = .error .indexError := by
  obtain ⟨out, rows, hout, hs, hlen, hrl, hw, ⟨h00, h10, h01⟩, hcov⟩ :=
    core resize predict classes hnet a hnb method cx cy px py hcy hcx hpy hpx
  have hm := many a cx cy out.uls h00 h10 h01 hmany
  have hd : dropAlpha (Img.cube a) = .ok (noAlpha a) := rfl
  unfold chipAndScore
  rw [hd, ok_bind, hout, ok_bind, hs, ok_bind]
  rw [squeeze_d2 rows classes (by omega) h2 hrl]
  simp only []
  rw [labelIndex_spec labels c thing ht hfirst, ok_bind]
  unfold scoreColumn
  simp only []
  cases rows with
  | nil => simp at hlen; omega
  | cons r rs =>
    unfold column
    rw [List.getElem?_eq_none (by rw [hrl r (by simp)]; exact hc)]
    rfl

/-- C84 is false for the default call: without a progress ledger every image that has a chip makes scoring
raise AttributeError. -/
theorem C84_default_ledger_false (resize : A3 K → A3 K) (predict : A3 (Option K) → List K) (classes : Nat)
    (hnet : Network resize predict classes) (a : A3 K) (hnb : 0 < a.nb) (method : Str) (cx cy : Nat) (px py : ℚ) (labels : Option (List Str)) (thing : Option Str)
    (hcy : 0 < cy ∧ cy ≤ a.ny) (hcx : 0 < cx ∧ cx ≤ a.nx) (hpy : 0 ≤ py ∧ py < 1) (hpx : 0 ≤ px ∧ px < 1) :
    chipAndScore resize predict (.cube a) cx cy px py method labels thing false = .error .attributeError := by
  have hoy := trunc_overlap cy py hcy.1 hpy.1 hpy.2
  have hox := trunc_overlap cx px hcx.1 hpx.1 hpx.2
  obtain ⟨out, hout, hn, hw⟩ := windows a cx cy (truncZ (cy * py)) (truncZ (cx * px)) hcy hcx hoy hox
  have hcy' : 0 < cy ∧ cy ≤ (Img.cube (noAlpha a)).ny := by simp only [Img.ny, noAlpha_ny]; exact hcy
  have hcx' : 0 < cx ∧ cx ≤ (Img.cube (noAlpha a)).nx := by simp only [Img.nx, noAlpha_nx]; exact hcx
  obtain ⟨out1, ho1, _, hcov⟩ := C01_every_pixel_covered (.cube (noAlpha a)) cy cx (truncZ (cy * py)) (truncZ (cx * px))
    .none true hcy' hcx' hoy hox trivial
  rw [hout] at ho1
  cases ho1
  obtain ⟨k, uy, ux, hk, _⟩ := hcov 0 0 (by omega) (by omega)
  obtain ⟨hlt, _⟩ := List.getElem?_eq_some_iff.mp hk
  have hd : dropAlpha (Img.cube a) = .ok (noAlpha a) := rfl
  unfold chipAndScore
  rw [hd, ok_bind, hout, ok_bind]
  obtain ⟨m, hm⟩ : ∃ m, out.chips.n = m + 1 := ⟨out.chips.n - 1, by omega⟩
  rw [hm]
  unfold scoreLoop
  have hcb : 0 < (chipAt out.chips 0).nb := by
    show 0 < out.chips.nb.getD 1
    rw [chipEntire_bands hout, noAlpha_nb]
    unfold bandsSeen
    split <;> omega
  obtain ⟨v, hv, _⟩ := normalise_shown method _ (hnet.resize_pos _ hcb)
  rw [hv, ok_bind]
  rfl

/-- C84 is false for an image of exactly one chip: asking for one class raises IndexError, because the only
row has lost its axis. -/
theorem C84_single_chip_false (resize : A3 K → A3 K) (predict : A3 (Option K) → List K) (classes : Nat)
    (hnet : Network resize predict classes) (a : A3 K) (hnb : 0 < a.nb) (method : Str) (ha : 0 < a.ny ∧ 0 < a.nx)
    (labels : List Str) (thing : Str) (c : Nat)
    (ht : labels[c]? = some thing) (hfirst : ∀ j < c, labels[j]? ≠ some thing) :
    chipAndScore resize predict (.cube a) a.nx a.ny 0 0 method (some labels) (some thing) true
      = .error .indexError := by
  obtain ⟨out, rows, hout, hs, hlen, hrl, hw, ⟨h00, h10, h01⟩, hcov⟩ :=
    core resize predict classes hnet a hnb method a.nx a.ny 0 0 ⟨ha.1, le_refl _⟩ ⟨ha.2, le_refl _⟩ ⟨le_refl _, by norm_num⟩
      ⟨le_refl _, by norm_num⟩
  have hone : out.uls.length = 1 := by
    obtain ⟨out2, ho2, hp, hin, _⟩ := C03_grid (.cube (noAlpha a)) a.ny a.nx (truncZ (a.ny * 0)) (truncZ (a.nx * 0))
      .none true (by simp only [Img.ny, noAlpha_ny]; exact ⟨ha.1, le_refl _⟩)
      (by simp only [Img.nx, noAlpha_nx]; exact ⟨ha.2, le_refl _⟩) (trunc_overlap a.ny 0 ha.1 (le_refl _) (by norm_num))
      (trunc_overlap a.nx 0 ha.2 (le_refl _) (by norm_num)) trivial
    rw [hout] at ho2
    cases ho2
    simp only [Img.ny, Img.nx, noAlpha_ny, noAlpha_nx] at hin
    have hz : ∀ u ∈ out.uls, u = (0, 0) := by
      intro u hu
      have := hin u hu
      ext
      · simp only; omega
      · simp only; omega
    match hul : out.uls, h00 with
    | [_], _ => rfl
    | u :: v :: r, _ =>
      rw [hul] at hz hp
      have e1 := hz u (by simp)
      have e2 := hz v (by simp)
      rw [List.pairwise_cons] at hp
      have := hp.1 v (by simp)
      rw [e1, e2] at this
      simp at this
  have hd : dropAlpha (Img.cube a) = .ok (noAlpha a) := rfl
  unfold chipAndScore
  rw [hd, ok_bind, hout, ok_bind, hs, ok_bind]
  simp only []
  rw [labelIndex_spec labels c thing ht hfirst, ok_bind]
  rw [hone] at hlen
  match rows, hlen with
  | [r], _ =>
    unfold squeeze
    match r with
    | [] => rfl
    | [_] => rfl
    | _ :: _ :: _ => rfl

/-- An empty chip cannot be stretched: ValueError. -/
theorem C84_empty_chip (a : A3 K) (h : a.ny = 0 ∨ a.nx = 0 ∨ a.nb = 0) : normalise "min_max_per_chip".toList a = .error .valueError := by
  have he : entries a = [] := by
    rw [List.eq_nil_iff_forall_not_mem]
    intro v hv
    obtain ⟨y, x, b, hy, hx, hb, -⟩ := (mem_entries a v).mp hv
    omega
  unfold normalise
  rw [if_neg (by decide), if_pos rfl, he]
  rfl

/-- An unknown class is a ValueError. -/
theorem C84_unknown_class (labels : List Str) (thing : Str) (h : thing ∉ labels) :
    labelIndex labels thing = .error .valueError := by
  have : labels.findIdx? (fun l => l == thing) = none := by
    rw [List.findIdx?_eq_none_iff]
    intro x hx
    simp only [beq_eq_false_iff_ne]
    rintro rfl
    exact h hx
  unfold labelIndex
  rw [this]

/-- A two-dimensional image is rejected. -/
theorem C84_gray_rejected (resize : A3 K → A3 K) (predict : A3 (Option K) → List K) (a : A2 K) (cx cy : Nat)
    (px py : ℚ) (m : Str) (labels : Option (List Str)) (thing : Option Str) (ledger : Bool) :
    chipAndScore resize predict (.gray a) cx cy px py m labels thing ledger = .error .indexError := rfl

/-! ### C85 -/

/-- C85.  Scoring an image for one class and handing the scores with the upper lefts (as an array) to the
detection image gives an image of exactly the size of the input in which every pixel is the largest
score of the class among the windows containing the pixel. -/
theorem C85_heat_map_partial (resize : A3 K → A3 K) (predict : A3 (Option K) → List K) (classes : Nat)
    (hnet : Network resize predict classes) (h2 : 2 ≤ classes) (a : A3 K) (hnb : 0 < a.nb)
    (method : Str) (cx cy : Nat) (px py : ℚ)
    (hcy : 0 < cy ∧ cy ≤ a.ny) (hcx : 0 < cx ∧ cx ≤ a.nx) (hpy : 0 ≤ py ∧ py < 1) (hpx : 0 ≤ px ∧ px < 1)
    (hmany : cy < a.ny ∨ cx < a.nx) (labels : List Str) (thing : Str) (c : Nat) (hc : c < classes)
    (ht : labels[c]? = some thing) (hfirst : ∀ j < c, labels[j]? ≠ some thing) :
    ∃ l uls, chipAndScore resize predict (.cube a) cx cy px py method (some labels) (some thing) true
        = .ok (.d1 l, uls) ∧
      ∀ order, IsArgsort l order → ∃ img, detectionFrom true l uls cx cy order = .ok img ∧
        img.ny = a.ny ∧ img.nx = a.nx ∧
        ∀ y x, y < a.ny → x < a.nx →
          (∃ u ∈ uls, (u.1 ≤ (y : Int) ∧ (y : Int) < u.1 + cy ∧ u.2 ≤ (x : Int) ∧ (x : Int) < u.2 + cx) ∧
            ∀ w v, IsChip a cy cx u.1.toNat u.2.toNat w → Shown method (resize w) v → (predict v)[c]? = some (img.px y x)) ∧
          (∀ u ∈ uls, (u.1 ≤ (y : Int) ∧ (y : Int) < u.1 + cy ∧ u.2 ≤ (x : Int) ∧ (x : Int) < u.2 + cx) →
            ∀ w v, IsChip a cy cx u.1.toNat u.2.toNat w → Shown method (resize w) v → ∀ q, (predict v)[c]? = some q → q ≤ img.px y x) := by
  obtain ⟨l, uls, he, hlen, hw, ⟨h00, h10, h01⟩, hcov⟩ :=
    C84_class_scores_partial resize predict classes hnet h2 a hnb method cx cy px py hcy hcx hpy hpx hmany labels thing c hc ht hfirst
  refine ⟨l, uls, he, ?_⟩
  intro order ho
  have hne : uls ≠ [] := by
    intro h
    rw [h] at h00
    simp at h00
  have hget : ∀ u ∈ uls, ∃ k : Nat, uls[k]? = some u := fun u hu => by
    obtain ⟨k, hk, hke⟩ := List.mem_iff_getElem.mp hu
    exact ⟨k, by rw [List.getElem?_eq_getElem hk, hke]⟩
  have hb : ∀ u ∈ uls, 0 ≤ u.1 ∧ 0 ≤ u.2 ∧ u.1 + cy ≤ a.ny ∧ u.2 + cx ≤ a.nx := by
    intro u hu
    obtain ⟨k, hk⟩ := hget u hu
    obtain ⟨b1, b2, b3, b4, _⟩ := hw k u hk
    exact ⟨b1, b2, b3, b4⟩
  obtain ⟨img, hi, hfit, ⟨t1, ht1, e1⟩, ⟨t2, ht2, e2⟩, hpx'⟩ :=
    C11_detection_image l uls cx cy order hne hlen (fun u hu => ⟨(hb u hu).1, (hb u hu).2.1⟩) ho
  have ny : img.ny = a.ny := by
    have := (hfit _ h10).1
    have := (hb _ ht1).2.2.1
    simp only at *
    omega
  have nx : img.nx = a.nx := by
    have := (hfit _ h01).2
    have := (hb _ ht2).2.2.2
    simp only at *
    omega
  refine ⟨img, hi, ny, nx, ?_⟩
  intro y x hy hx
  have hval : ∀ (k : Nat) (u : Int × Int), uls[k]? = some u → ∀ w v, IsChip a cy cx u.1.toNat u.2.toNat w →
      Shown method (resize w) v → (predict v)[c]? = some (l.getD k 0) := by
    intro k u hk w v hwc hv
    obtain ⟨v', hv', he'⟩ := (hw k u hk).2.2.2.2 w hwc
    rw [hnet.predict_same v v' (shown_unique method _ v v' hv hv'), ← he']
    obtain ⟨hlt, _⟩ := List.getElem?_eq_some_iff.mp hk
    rw [List.getD, List.getElem?_eq_getElem (by omega)]
    rfl
  rcases hpx' y x with ⟨hn, _⟩ | ⟨k, ⟨u, hku, hu⟩, hv, hmax⟩
  · obtain ⟨u, hu, c1, c2, c3, c4⟩ := hcov y x hy hx
    obtain ⟨k, hk⟩ := hget u hu
    exact absurd ⟨u, hk, c1, c2, c3, c4⟩ (hn k)
  · refine ⟨⟨u, List.mem_of_getElem? hku, hu, ?_⟩, ?_⟩
    · intro w v hwc hvs
      rw [hv]
      exact hval k u hku w v hwc hvs
    · intro u' hu' hc' w v hwc hvs q hvv
      obtain ⟨k', hk'⟩ := hget u' hu'
      rw [hval k' u' hk' w v hwc hvs] at hvv
      cases hvv
      rw [hv]
      exact hmax k' ⟨u', hk', hc'⟩

/-- C85 is false without the conversion: the chipper returns a list of tuples, which the detection image
rejects with TypeError. -/
theorem C85_list_of_tuples_false (scores : List K) (uls : List (Int × Int)) (cx cy : Nat) (order : List Nat) :
    detectionFrom false scores uls cx cy order = .error .typeError := rfl

end

/-! A concrete case: a 3 by 3 image of four bands, 2 by 2 chips, half overlap; the network answers with the
first pixel and its negation. -/

def demoResize (a : A3 ℚ) : A3 ℚ := ⟨1, 1, 1, fun _ _ _ => if 0 < a.ny ∧ 0 < a.nx ∧ 0 < a.nb then a.px 0 0 0 else 0⟩

def demoPredict (a : A3 (Option ℚ)) : List ℚ :=
  if 0 < a.ny ∧ 0 < a.nx ∧ 0 < a.nb then [(a.px 0 0 0).getD 0, -(a.px 0 0 0).getD 0] else [0, 0]

theorem demoNetwork : Network demoResize demoPredict 2 where
  resize_pos := fun _ _ => ⟨Nat.one_pos, Nat.one_pos, Nat.one_pos⟩
  resize_same := by
    rintro a b ⟨h1, h2, h3, h4⟩
    refine ⟨rfl, rfl, rfl, ?_⟩
    intro y x z _ _ _
    simp only [demoResize, ← h1, ← h2, ← h3]
    by_cases h : 0 < a.ny ∧ 0 < a.nx ∧ 0 < a.nb
    · rw [if_pos h, if_pos h, h4 0 0 0 h.1 h.2.1 h.2.2]
    · rw [if_neg h, if_neg h]
  predict_same := by
    rintro a b ⟨h1, h2, h3, h4⟩
    simp only [demoPredict, ← h1, ← h2, ← h3]
    by_cases h : 0 < a.ny ∧ 0 < a.nx ∧ 0 < a.nb
    · rw [if_pos h, if_pos h, h4 0 0 0 h.1 h.2.1 h.2.2]
    · rw [if_neg h, if_neg h]
  length := by
    intro a
    unfold demoPredict
    split <;> rfl

def demoImage : A3 ℚ := ⟨3, 3, 4, fun y x b => 10 * y + x + 100 * b⟩

example : 2 ≤ 2 ∧ 0 < demoImage.nb ∧ (0 < 2 ∧ 2 ≤ demoImage.ny) ∧ (0 < 2 ∧ 2 ≤ demoImage.nx) ∧ ((0 : ℚ) ≤ 1 / 2 ∧ (1 / 2 : ℚ) < 1) ∧
    (2 < demoImage.ny ∨ 2 < demoImage.nx) ∧ (["boat".toList, "car".toList] : List Str)[1]? = some "car".toList ∧
    ∀ j < 1, (["boat".toList, "car".toList] : List Str)[j]? ≠ some "car".toList := by
  refine ⟨by decide, by decide, by decide, by decide, by norm_num, by decide, rfl, ?_⟩
  intro j hj
  obtain rfl : j = 0 := by omega
  decide

/-! ### C86 -/

theorem sorted_position (l : List Str) (hs : l.Pairwise (· < ·)) (k : Nat) (n : Str) (hk : l[k]? = some n) :
    l.countP (fun m => decide (m < n)) = k := by
  induction l generalizing k with
  | nil => simp at hk
  | cons a l ih =>
    rw [List.pairwise_cons] at hs
    match k with
    | 0 =>
      simp at hk
      subst hk
      rw [List.countP_eq_zero]
      intro m hm
      rcases List.mem_cons.mp hm with rfl | hm
      · simp
      · simp [le_of_lt (hs.1 m hm)]
    | k + 1 =>
      simp at hk
      rw [List.countP_cons, ih hs.2 k hk]
      have : a < n := hs.1 n (List.mem_of_getElem? hk)
      simp [this]

theorem labels_sorted (names : List Str) (hn : names.Nodup) :
    (names.mergeSort (fun a b => decide (a ≤ b))).Pairwise (· < ·) := by
  have h1 := List.pairwise_mergeSort (le := fun a b : Str => decide (a ≤ b))
    (by intro a b c h1 h2; simp only [decide_eq_true_eq] at *; exact le_trans h1 h2)
    (by intro a b; simp only [Bool.or_eq_true, decide_eq_true_eq]; exact le_total a b) names
  have h2 : (names.mergeSort (fun a b => decide (a ≤ b))).Nodup := ((List.mergeSort_perm names _).nodup_iff).mpr hn
  have h3 : (names.mergeSort (fun a b => decide (a ≤ b))).Pairwise (fun a b => (decide (a ≤ b) : Bool) = true ∧ a ≠ b) :=
    h1.and h2
  exact h3.imp (fun {a b} h => lt_of_le_of_ne (by simpa using h.1) h.2)

/-- C86.  Keras numbers the classes of a training directory in the order of their names.  Then the label file
written next to the trained model, read back as a list of lines, gives for every class exactly the
column of the network's output that belongs to it. -/
theorem C86_label_file (sep : Str) (hsep : sep = TextUtils.posixSep ∨ sep = TextUtils.windowsSep)
    (classes : List (Str × Nat)) (hne : classes ≠ []) (hnd : (classes.map Prod.fst).Nodup)
    (hname : ∀ e ∈ classes, e.1 ≠ [] ∧ '\r' ∉ e.1 ∧ '\n' ∉ e.1)
    (hnum : ∀ e ∈ classes, e.2 = (classes.filter (fun f => decide (f.1 < e.1))).length) :
    ∃ file, writeLabels sep classes = .ok file ∧
      (TextUtils.readTextList sep file).length = classes.length ∧
      ∀ e ∈ classes, labelIndex (TextUtils.readTextList sep file) e.1 = .ok e.2 := by
  set names := classes.map Prod.fst with hnames
  set l := names.mergeSort (fun a b => decide (a ≤ b)) with hl
  have hperm : l.Perm names := List.mergeSort_perm names _
  have hmem : ∀ s ∈ l, s ≠ [] ∧ '\r' ∉ s ∧ '\n' ∉ s := by
    intro s hs
    obtain ⟨e, he, rfl⟩ := List.mem_map.mp (hperm.mem_iff.mp hs)
    exact hname e he
  have hlne : l ≠ [] := by
    intro h
    have := hperm.length_eq
    rw [h, hnames] at this
    simp at this
    exact hne (List.length_eq_zero_iff.mp this.symm)
  obtain ⟨i, t, hit⟩ : ∃ i t, l = i ++ [t] := ⟨l.dropLast, l.getLast hlne, (List.dropLast_append_getLast hlne).symm⟩
  have ht := hmem t (by rw [hit]; simp)
  obtain ⟨file, hf, hr, _⟩ := TextUtils.C63_roundtrip_partial sep hsep i t (by
    intro s hs
    exact (hmem s (by rw [hit]; exact hs)).2)
  have hread := hr ht.1
  rw [← hit] at hread hf
  refine ⟨file, hf, ?_, ?_⟩
  · rw [hread, hperm.length_eq, hnames, List.length_map]
  · intro e he
    rw [hread]
    have hsort := labels_sorted names hnd
    rw [← hl] at hsort
    have hein : e.1 ∈ l := hperm.mem_iff.mpr (List.mem_map_of_mem he)
    obtain ⟨k, hk, hke⟩ := List.mem_iff_getElem.mp hein
    have hk' : l[k]? = some e.1 := by rw [List.getElem?_eq_getElem hk, hke]
    have hpos := sorted_position l hsort k e.1 hk'
    have hcnt : l.countP (fun m => decide (m < e.1)) = e.2 := by
      rw [hperm.countP_eq, hnames, List.countP_map, hnum e he, List.countP_eq_length_filter]
      rfl
    rw [← hcnt, hpos]
    apply labelIndex_spec l k e.1 hk'
    intro j hj hc
    have := sorted_position l hsort j e.1 hc
    omega

example : ∃ classes : List (Str × Nat), 2 ≤ classes.length ∧ (classes.map Prod.fst).Nodup ∧
    (∀ e ∈ classes, e.1 ≠ [] ∧ '\r' ∉ e.1 ∧ '\n' ∉ e.1) ∧
    ∀ e ∈ classes, e.2 = (classes.filter (fun f => decide (f.1 < e.1))).length :=
  ⟨[("car".toList, 1), ("boat".toList, 0)], by decide, by decide, by decide, by decide⟩

end Verif.Scoring
