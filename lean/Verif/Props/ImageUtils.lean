import Verif.Lemmas.ImageUtils
import Mathlib.Algebra.Order.Floor.Ring

/-! Properties C08-C11, C13, C14: array reshaping, pixel grids, normalisation, detection images,
blending and point masks. -/

set_option linter.unusedSectionVars false

namespace Verif.ImageUtils
open Verif

/-! ### C08: flatten / unflatten -/

/-- C08.  Unflattening a flattened band gives the band back. -/
theorem C08_unflatten_flatten_band {α : Type} (a : A2 α) :
    ∃ a', unflattenBand (flattenBand a) a.nx a.ny = .ok a' ∧ a'.Same a := by
  refine ⟨⟨a.ny, a.nx, fun y x => a.px ((y * a.nx + x) / a.nx) ((y * a.nx + x) % a.nx)⟩, ?_, rfl, rfl, ?_⟩
  · simp [unflattenBand, flattenBand]
  · intro y x _ hx
    simp only at hx ⊢
    rw [(divmod_unique hx).1, (divmod_unique hx).2]

/-- C08.  Flattening an unflattened vector gives the vector back, for every vector of the right
length. -/
theorem C08_flatten_unflatten_band {α : Type} (v : A1 α) (nx ny : Nat) (h : v.n = ny * nx) :
    ∃ a, unflattenBand v nx ny = .ok a ∧ a.ny = ny ∧ a.nx = nx ∧ (flattenBand a).Same v := by
  refine ⟨⟨ny, nx, fun y x => v.px (y * nx + x)⟩, by simp [unflattenBand, h], rfl, rfl, ?_⟩
  refine ⟨by simp [flattenBand, h], ?_⟩
  intro k hk
  simp only [flattenBand]
  congr 1
  rw [Nat.mul_comm]; exact Nat.div_add_mod k nx

/-- C08.  A vector of the wrong length is rejected. -/
theorem C08_unflatten_rejects {α : Type} (v : A1 α) (nx ny : Nat) (h : v.n ≠ ny * nx) :
    unflattenBand v nx ny = .error .valueError := by simp [unflattenBand, h]

/-- C08.  Flattening is row-major: pixel `(y, x)` is element `y * nx + x`, and there are `ny * nx`
elements. -/
theorem C08_flatten_row_major {α : Type} (a : A2 α) :
    (flattenBand a).n = a.ny * a.nx ∧
    ∀ y x, y < a.ny → x < a.nx → y * a.nx + x < (flattenBand a).n ∧
      (flattenBand a).px (y * a.nx + x) = a.px y x := by
  refine ⟨rfl, ?_⟩
  intro y x hy hx
  refine ⟨idx_lt hy hx, ?_⟩
  simp only [flattenBand]
  rw [(divmod_unique hx).1, (divmod_unique hx).2]

/-- C08 for cubes: row-major with the bands of a pixel kept together, and mutually inverse. -/
theorem C08_cube {α : Type} (a : A3 α) :
    (flattenCube a).ny = a.ny * a.nx ∧ (flattenCube a).nx = a.nb ∧
    (∀ y x b, y < a.ny → x < a.nx → (flattenCube a).px (y * a.nx + x) b = a.px y x b) ∧
    ∃ a', unflattenCube (flattenCube a) a.nx a.ny = .ok a' ∧ a'.Same a := by
  refine ⟨rfl, rfl, ?_, ?_⟩
  · intro y x b _ hx
    simp only [flattenCube]
    rw [(divmod_unique hx).1, (divmod_unique hx).2]
  · refine ⟨⟨a.ny, a.nx, a.nb, fun y x b => a.px ((y * a.nx + x) / a.nx) ((y * a.nx + x) % a.nx) b⟩,
      ?_, rfl, rfl, rfl, ?_⟩
    · simp [unflattenCube, flattenCube]
    · intro y x b _ hx _
      simp only at hx ⊢
      rw [(divmod_unique hx).1, (divmod_unique hx).2]

theorem C08_flatten_unflatten_cube {α : Type} (v : A2 α) (nx ny : Nat) (h : v.ny = ny * nx) :
    ∃ a, unflattenCube v nx ny = .ok a ∧ a.ny = ny ∧ a.nx = nx ∧ a.nb = v.nx ∧
      (flattenCube a).Same v := by
  refine ⟨⟨ny, nx, v.nx, fun y x b => v.px (y * nx + x) b⟩, by simp [unflattenCube, h], rfl, rfl, rfl, ?_⟩
  refine ⟨by simp [flattenCube, h], rfl, ?_⟩
  intro k b _ _
  simp only [flattenCube]
  congr 1
  rw [Nat.mul_comm]; exact Nat.div_add_mod k nx

/-- C08 for cubes: a sample count different from `ny * nx` is rejected (as soon as there is a band). -/
theorem C08_unflatten_cube_rejects {α : Type} (v : A2 α) (nx ny : Nat) (h : v.ny ≠ ny * nx)
    (hb : 0 < v.nx) : unflattenCube v nx ny = .error .valueError := by
  unfold unflattenCube
  rw [if_neg]
  intro hc
  exact h (Nat.eq_of_mul_eq_mul_right hb hc)

example : (⟨6, fun k => k * k⟩ : A1 Nat).n = 2 * 3 := rfl
example : ((flattenBand (⟨2, 3, fun y x => 10 * y + x⟩ : A2 Nat)).px 4) = 11 := by decide

/-! ### C09: pixel grid -/

section C09
variable {K : Type} [Field K] [LinearOrder K] [IsStrictOrderedRing K] [FloorRing K]

/-- C09.  For a positive scale factor `s` the grid has `ceil(ny*s)` rows and `ceil(nx*s)` columns,
entry `(j, i)` being `(i/s, j/s)`, strictly below `(nx, ny)`. -/
theorem C09_pixel_grid (nx ny : Nat) (s : K) (hs : 0 < s) :
    ∃ xx yy, createPixelGrid nx ny s = .ok (xx, yy) ∧
      (xx.ny : Int) = ⌈(ny : K) * s⌉ ∧ (xx.nx : Int) = ⌈(nx : K) * s⌉ ∧
      yy.ny = xx.ny ∧ yy.nx = xx.nx ∧
      ∀ j i, j < xx.ny → i < xx.nx →
        xx.px j i = (i : K) / s ∧ yy.px j i = (j : K) / s ∧ xx.px j i < nx ∧ yy.px j i < ny := by
  have hlen : ∀ n : Nat, (((⌈(n : K) / (1 / s)⌉).toNat : Nat) : Int) = ⌈(n : K) * s⌉ := by
    intro n
    rw [div_div_eq_mul_div, div_one]
    apply Int.toNat_of_nonneg
    apply Int.ceil_nonneg
    positivity
  have hlt : ∀ (n i : Nat), i < (⌈(n : K) / (1 / s)⌉).toNat → (i : K) / s < n := by
    intro n i hi
    have h1 : (i : Int) < ⌈(n : K) * s⌉ := by rw [← hlen]; exact_mod_cast hi
    rw [Int.lt_ceil] at h1
    rw [div_lt_iff₀ hs]
    exact_mod_cast h1
  refine ⟨⟨(⌈(ny : K) / (1 / s)⌉).toNat, (⌈(nx : K) / (1 / s)⌉).toNat, fun _ i => (i : K) * (1 / s)⟩,
    ⟨(⌈(ny : K) / (1 / s)⌉).toNat, (⌈(nx : K) / (1 / s)⌉).toNat, fun j _ => (j : K) * (1 / s)⟩,
    ?_, ?_, ?_, rfl, rfl, ?_⟩
  · unfold createPixelGrid arangeF
    have h1 : (1 : K) / s ≠ 0 := by positivity
    simp only [if_neg hs.ne', if_neg h1, ok_bind]
  · exact hlen ny
  · exact hlen nx
  · intro j i hj hi
    simp only at hj hi ⊢
    refine ⟨by ring, by ring, ?_, ?_⟩
    · have := hlt nx i hi; rwa [div_eq_mul_one_div] at this
    · have := hlt ny j hj; rwa [div_eq_mul_one_div] at this

/-- C09 with the default scale factor: `(ny, nx)` arrays of pixel coordinates. -/
theorem C09_pixel_grid_default (nx ny : Nat) :
    ∃ xx yy, createPixelGrid nx ny (1 : K) = .ok (xx, yy) ∧
      xx.ny = ny ∧ xx.nx = nx ∧ yy.ny = ny ∧ yy.nx = nx ∧
      ∀ j i, xx.px j i = (i : K) ∧ yy.px j i = (j : K) := by
  refine ⟨⟨ny, nx, fun _ i => (i : K) * (1 / 1)⟩, ⟨ny, nx, fun j _ => (j : K) * (1 / 1)⟩, ?_, rfl, rfl, rfl, rfl, ?_⟩
  · unfold createPixelGrid arangeF
    simp [ok_bind]
  · intro j i; simp

/-- C09, error branch: scale factor 0 raises ZeroDivisionError. -/
theorem C09_zero_scale (nx ny : Nat) : createPixelGrid nx ny (0 : K) = .error .zeroDivision := by
  simp [createPixelGrid]

end C09

example : (0 : ℚ) < 5/2 := by norm_num

/-! ### C10: normalisation -/

section C10
variable {K : Type} [Field K] [LinearOrder K] [IsStrictOrderedRing K]

theorem npMinMax {img : A2 K} (h : 0 < img.ny ∧ 0 < img.nx) :
    ∃ mn mx, npMin img = .ok mn ∧ npMax img = .ok mx ∧
      (∃ y x, y < img.ny ∧ x < img.nx ∧ img.px y x = mn) ∧
      (∃ y x, y < img.ny ∧ x < img.nx ∧ img.px y x = mx) ∧
      ∀ y x, y < img.ny → x < img.nx → mn ≤ img.px y x ∧ img.px y x ≤ mx := by
  have hne : pixels img ≠ [] := by
    intro hc
    have : img.px 0 0 ∈ pixels img := mem_pixels.mpr ⟨0, 0, h.1, h.2, rfl⟩
    rw [hc] at this; simp at this
  obtain ⟨mn, hmn⟩ : ∃ m, (pixels img).min? = some m := by
    cases hh : (pixels img).min? with
    | none => rw [List.min?_eq_none_iff] at hh; exact absurd hh hne
    | some m => exact ⟨m, rfl⟩
  obtain ⟨mx, hmx⟩ : ∃ m, (pixels img).max? = some m := by
    cases hh : (pixels img).max? with
    | none => rw [List.max?_eq_none_iff] at hh; exact absurd hh hne
    | some m => exact ⟨m, rfl⟩
  have s1 := min?_spec hmn
  have s2 := max?_spec hmx
  refine ⟨mn, mx, by simp [npMin, hmn], by simp [npMax, hmx], mem_pixels.mp s1.1, mem_pixels.mp s2.1, ?_⟩
  intro y x hy hx
  have : img.px y x ∈ pixels img := mem_pixels.mpr ⟨y, x, hy, hx, rfl⟩
  exact ⟨s1.2 _ this, s2.2 _ this⟩

/-- C10.  For a non-constant image and `new_min ≤ new_max` every pixel is finite and within
`[new_min, new_max]`, smallest pixels go to `new_min`, largest to `new_max`, and the order of pixel
values is preserved (strictly when `new_min < new_max`). -/
theorem C10_normalize (img : A2 K) (newMin newMax : K) (hle : newMin ≤ newMax)
    (y0 x0 y1 x1 : Nat) (h0 : y0 < img.ny ∧ x0 < img.nx) (h1 : y1 < img.ny ∧ x1 < img.nx)
    (hne : img.px y0 x0 ≠ img.px y1 x1) :
    ∃ (out : A2 (Option K)) (v : Nat → Nat → K), normalizeGrayscale img newMin newMax = .ok out ∧
      out.ny = img.ny ∧ out.nx = img.nx ∧
      (∀ y x, y < img.ny → x < img.nx → out.px y x = some (v y x) ∧
        newMin ≤ v y x ∧ v y x ≤ newMax) ∧
      (∀ y x, y < img.ny → x < img.nx →
        (∀ y' x', y' < img.ny → x' < img.nx → img.px y x ≤ img.px y' x') → v y x = newMin) ∧
      (∀ y x, y < img.ny → x < img.nx →
        (∀ y' x', y' < img.ny → x' < img.nx → img.px y' x' ≤ img.px y x) → v y x = newMax) ∧
      (∀ y x y' x', img.px y x ≤ img.px y' x' → v y x ≤ v y' x') ∧
      (newMin < newMax → ∀ y x y' x', img.px y x < img.px y' x' → v y x < v y' x') := by
  obtain ⟨mn, mx, e1, e2, ⟨ya, xa, hya, hxa, hmn⟩, ⟨yb, xb, hyb, hxb, hmx⟩, hb⟩ :=
    npMinMax (img := img) ⟨by omega, by omega⟩
  have hlt : mn < mx := by
    have a := hb y0 x0 h0.1 h0.2
    have b := hb y1 x1 h1.1 h1.2
    rcases lt_or_gt_of_ne hne with h | h
    · exact lt_of_le_of_lt a.1 (lt_of_lt_of_le h b.2)
    · exact lt_of_le_of_lt b.1 (lt_of_lt_of_le h a.2)
  have hd : 0 < mx - mn := sub_pos.mpr hlt
  have hr : 0 ≤ newMax - newMin := sub_nonneg.mpr hle
  refine ⟨⟨img.ny, img.nx, fun y x =>
      (fdiv (img.px y x - mn) (mx - mn)).map (fun z => z * (newMax - newMin) + newMin)⟩,
    fun y x => (img.px y x - mn) / (mx - mn) * (newMax - newMin) + newMin, ?_, rfl, rfl, ?_, ?_, ?_, ?_, ?_⟩
  · simp [normalizeGrayscale, e1, e2, ok_bind]
  · intro y x hy hx
    have := hb y x hy hx
    refine ⟨by simp [fdiv, hd.ne'], ?_, ?_⟩
    · have : 0 ≤ (img.px y x - mn) / (mx - mn) := div_nonneg (by linarith) hd.le
      nlinarith
    · have h' : (img.px y x - mn) / (mx - mn) ≤ 1 := by
        rw [div_le_one hd]; linarith
      nlinarith
  · intro y x hy hx h
    have hm : img.px y x = mn := le_antisymm (by rw [← hmn]; exact h ya xa hya hxa) (hb y x hy hx).1
    simp [hm]
  · intro y x hy hx h
    have hm : img.px y x = mx := le_antisymm (hb y x hy hx).2 (by rw [← hmx]; exact h yb xb hyb hxb)
    simp only [hm]
    field_simp
    ring
  · intro y x y' x' h
    have : (img.px y x - mn) / (mx - mn) ≤ (img.px y' x' - mn) / (mx - mn) := by
      apply div_le_div_of_nonneg_right _ hd.le; linarith
    nlinarith
  · intro hlt' y x y' x' h
    have : (img.px y x - mn) / (mx - mn) < (img.px y' x' - mn) / (mx - mn) := by
      apply div_lt_div_of_pos_right _ hd; linarith
    have hp : 0 < newMax - newMin := sub_pos.mpr hlt'
    nlinarith

/-- C10, constant images: no pixel of the result is finite. -/
theorem C10_constant_image (img : A2 K) (newMin newMax c : K) (h : 0 < img.ny ∧ 0 < img.nx)
    (hc : ∀ y x, y < img.ny → x < img.nx → img.px y x = c) :
    ∃ out, normalizeGrayscale img newMin newMax = .ok out ∧ ∀ y x, out.px y x = none := by
  obtain ⟨mn, mx, e1, e2, ⟨ya, xa, hya, hxa, hmn⟩, ⟨yb, xb, hyb, hxb, hmx⟩, hb⟩ := npMinMax h
  have : mn = mx := by rw [← hmn, ← hmx, hc _ _ hya hxa, hc _ _ hyb hxb]
  exact ⟨_, by simp only [normalizeGrayscale, e1, e2, ok_bind]; rfl, by intro y x; simp [fdiv, this]⟩

/-- C10, empty images: ValueError. -/
theorem C10_empty_image (img : A2 K) (newMin newMax : K) (h : img.ny = 0 ∨ img.nx = 0) :
    normalizeGrayscale img newMin newMax = .error .valueError := by
  have : pixels img = [] := by
    rcases h with h | h
    · simp [pixels, h]
    · simp [pixels, h]
  simp [normalizeGrayscale, npMin, this, error_bind]

end C10

example : ∃ img : A2 ℚ, (0 < img.ny ∧ 1 < img.nx) ∧ img.px 0 0 ≠ img.px 0 1 :=
  ⟨⟨2, 2, fun y x => y + x⟩, by decide, by norm_num⟩

/-! ### C11: detection image -/

section C11
variable {K : Type} [Zero K] [LinearOrder K]

/-- Chip `k` covers pixel `(y, x)`. -/
def Covers (uls : List (Int × Int)) (cx cy : Nat) (k y x : Nat) : Prop :=
  ∃ ul, uls[k]? = some ul ∧ ul.1 ≤ y ∧ (y : Int) < ul.1 + cy ∧ ul.2 ≤ x ∧ (x : Int) < ul.2 + cx

/-- `order` is a possible answer of `np.argsort(scores)`: a permutation of the indices along which
the scores do not decrease (the order of equal scores is arbitrary). -/
def IsArgsort (scores : List K) (order : List Nat) : Prop :=
  order.Perm (List.range scores.length) ∧
  order.Pairwise (fun i j => scores.getD i 0 ≤ scores.getD j 0)

theorem paintLoop_spec (ny nx cy cx : Nat) (scores : List K) (uls : List (Int × Int))
    (hlen : scores.length = uls.length)
    (hb : ∀ ul ∈ uls, 0 ≤ ul.1 ∧ ul.1 + cy ≤ ny ∧ 0 ≤ ul.2 ∧ ul.2 + cx ≤ nx)
    (order : List Nat) (ho : ∀ i ∈ order, i < scores.length)
    (hs : order.Pairwise (fun i j => scores.getD i 0 ≤ scores.getD j 0)) (px : Nat → Nat → K) :
    ∃ px', paintLoop ny nx cy cx scores uls order px = .ok px' ∧
      ∀ y x, ((∀ k ∈ order, ¬ Covers uls cx cy k y x) ∧ px' y x = px y x) ∨
        ∃ k ∈ order, Covers uls cx cy k y x ∧ px' y x = scores.getD k 0 ∧
          ∀ j ∈ order, Covers uls cx cy j y x → scores.getD j 0 ≤ scores.getD k 0 := by
  induction order generalizing px with
  | nil => exact ⟨px, rfl, fun y x => Or.inl ⟨by simp, rfl⟩⟩
  | cons i is ih =>
    have hi : i < scores.length := ho i (by simp)
    have hi' : i < uls.length := by omega
    rw [List.pairwise_cons] at hs
    obtain ⟨px', h1, h2⟩ := ih (fun j hj => ho j (by simp [hj])) hs.2
      (paint ny nx cy cx px uls[i] scores[i])
    refine ⟨px', by simp [paintLoop, List.getElem?_eq_getElem hi, List.getElem?_eq_getElem hi', h1], ?_⟩
    intro y x
    have hcov : Covers uls cx cy i y x ↔
        (pyBound ny uls[i].1 ≤ y ∧ y < pyBound ny (uls[i].1 + cy) ∧
          pyBound nx uls[i].2 ≤ x ∧ x < pyBound nx (uls[i].2 + cx)) := by
      have hbi := hb uls[i] (List.getElem_mem hi')
      unfold Covers pyBound
      rw [List.getElem?_eq_getElem hi']
      rw [if_neg (by omega), if_neg (by omega), if_neg (by omega), if_neg (by omega)]
      constructor
      · rintro ⟨ul, he, h⟩
        cases he
        omega
      · intro h
        exact ⟨_, rfl, by omega⟩
    rcases h2 y x with ⟨hnc, he⟩ | ⟨k, hk, hck, he, hmax⟩
    · by_cases hc : Covers uls cx cy i y x
      · right
        refine ⟨i, by simp, hc, ?_, ?_⟩
        · rw [he, paint, if_pos (hcov.mp hc)]
          simp [List.getElem?_eq_getElem hi]
        · intro j hj hcj
          rcases List.mem_cons.mp hj with rfl | hj
          · exact le_refl _
          · exact absurd hcj (hnc j hj)
      · left
        refine ⟨?_, ?_⟩
        · intro k hk
          rcases List.mem_cons.mp hk with rfl | hk
          · exact hc
          · exact hnc k hk
        · rw [he, paint, if_neg (fun h => hc (hcov.mpr h))]
    · right
      refine ⟨k, by simp [hk], hck, he, ?_⟩
      intro j hj hcj
      rcases List.mem_cons.mp hj with rfl | hj
      · exact hs.1 k hk
      · exact hmax j hj hcj

theorem intMax_spec {l : List Int} (h : l ≠ []) : ∃ m, intMax l = .ok m ∧ m ∈ l ∧ ∀ v ∈ l, v ≤ m := by
  cases hm : l.max? with
  | none => rw [List.max?_eq_none_iff] at hm; exact absurd hm h
  | some m => exact ⟨m, by simp [intMax, hm], (max?_spec hm).1, (max?_spec hm).2⟩

/-- C11.  For non-negative upper lefts, one score per chip and any answer of argsort, the detection
image holds at each pixel the largest score among the chips covering it, 0 where there is none, and
is just large enough to hold every chip. -/
theorem C11_detection_image (scores : List K) (uls : List (Int × Int)) (cx cy : Nat)
    (order : List Nat) (hne : uls ≠ []) (hlen : scores.length = uls.length)
    (hnn : ∀ ul ∈ uls, 0 ≤ ul.1 ∧ 0 ≤ ul.2) (ho : IsArgsort scores order) :
    ∃ img, detectionImage scores uls cx cy order = .ok img ∧
      (∀ ul ∈ uls, ul.1 + cy ≤ img.ny ∧ ul.2 + cx ≤ img.nx) ∧
      (∃ ul ∈ uls, ul.1 + cy = img.ny) ∧ (∃ ul ∈ uls, ul.2 + cx = img.nx) ∧
      ∀ y x, ((∀ k, ¬ Covers uls cx cy k y x) ∧ img.px y x = 0) ∨
        ∃ k, Covers uls cx cy k y x ∧ img.px y x = scores.getD k 0 ∧
          ∀ j, Covers uls cx cy j y x → scores.getD j 0 ≤ scores.getD k 0 := by
  obtain ⟨my, e1, m1, b1⟩ := intMax_spec (l := uls.map Prod.fst) (by simpa using hne)
  obtain ⟨mx, e2, m2, b2⟩ := intMax_spec (l := uls.map Prod.snd) (by simpa using hne)
  obtain ⟨u1, hu1, rfl⟩ := List.mem_map.mp m1
  obtain ⟨u2, hu2, rfl⟩ := List.mem_map.mp m2
  have n1 := hnn u1 hu1
  have n2 := hnn u2 hu2
  have hfit : ∀ ul ∈ uls, 0 ≤ ul.1 ∧ ul.1 + cy ≤ ((u1.1 + cy).toNat : Int) ∧ 0 ≤ ul.2 ∧
      ul.2 + cx ≤ ((u2.2 + cx).toNat : Int) := by
    intro ul hul
    have a := b1 ul.1 (List.mem_map_of_mem hul)
    have b := b2 ul.2 (List.mem_map_of_mem hul)
    have c := hnn ul hul
    omega
  obtain ⟨px, hp, hspec⟩ := paintLoop_spec (u1.1 + cy).toNat (u2.2 + cx).toNat cy cx scores uls hlen
    hfit order (by intro i hi; simpa using ho.1.mem_iff.mp hi) ho.2 (fun _ _ => 0)
  refine ⟨⟨(u1.1 + cy).toNat, (u2.2 + cx).toNat, px⟩, ?_, ?_, ⟨u1, hu1, ?_⟩, ⟨u2, hu2, ?_⟩, ?_⟩
  · unfold detectionImage
    rw [e1, e2]
    simp only [ok_bind]
    rw [if_neg (by omega), hp]
    rfl
  · intro ul hul
    have := hfit ul hul
    exact ⟨this.2.1, this.2.2.2⟩
  · simp only; omega
  · simp only; omega
  · intro y x
    have hmem : ∀ k, Covers uls cx cy k y x → k ∈ order := by
      rintro k ⟨ul, hk, _⟩
      have hlt : k < uls.length := by
        by_contra hc
        rw [List.getElem?_eq_none (by omega)] at hk
        cases hk
      exact ho.1.mem_iff.mpr (by simp; omega)
    rcases hspec y x with ⟨h, he⟩ | ⟨k, hk, hc, he, hm⟩
    · exact Or.inl ⟨fun k hc => h k (hmem k hc) hc, he⟩
    · exact Or.inr ⟨k, hc, he, fun j hj => hm j (hmem j hj) hj⟩

/-- C11, order independence: however argsort orders equal scores, the image is the same. -/
theorem C11_order_independent (scores : List K) (uls : List (Int × Int)) (cx cy : Nat)
    (order order' : List Nat) (hne : uls ≠ []) (hlen : scores.length = uls.length)
    (hnn : ∀ ul ∈ uls, 0 ≤ ul.1 ∧ 0 ≤ ul.2) (ho : IsArgsort scores order)
    (ho' : IsArgsort scores order') :
    detectionImage scores uls cx cy order = detectionImage scores uls cx cy order' := by
  obtain ⟨img, h1, a1, ⟨t1, ht1, b1⟩, ⟨t2, ht2, c1⟩, d1⟩ :=
    C11_detection_image scores uls cx cy order hne hlen hnn ho
  obtain ⟨img', h2, a2, ⟨s1, hs1, b2⟩, ⟨s2, hs2, c2⟩, d2⟩ :=
    C11_detection_image scores uls cx cy order' hne hlen hnn ho'
  rw [h1, h2]
  have e1 : img.ny = img'.ny := by
    have := (a1 s1 hs1).1; have := (a2 t1 ht1).1; omega
  have e2 : img.nx = img'.nx := by
    have := (a1 s2 hs2).2; have := (a2 t2 ht2).2; omega
  have e3 : img.px = img'.px := by
    funext y x
    rcases d1 y x with ⟨n1, v1⟩ | ⟨k1, k1c, v1, m1⟩ <;> rcases d2 y x with ⟨n2, v2⟩ | ⟨k2, k2c, v2, m2⟩
    · rw [v1, v2]
    · exact absurd k2c (n1 k2)
    · exact absurd k1c (n2 k1)
    · rw [v1, v2]; exact le_antisymm (m2 k1 k1c) (m1 k2 k2c)
  cases img; cases img'
  simp only at e1 e2 e3
  subst e1 e2 e3
  rfl

/-- C11, listing order: listing the chips (with their scores) in another order gives the same image. -/
theorem C11_listing_order (chips chips' : List (K × (Int × Int))) (hp : chips.Perm chips') (cx cy : Nat)
    (order order' : List Nat) (hne : chips ≠ []) (hnn : ∀ c ∈ chips, 0 ≤ c.2.1 ∧ 0 ≤ c.2.2)
    (ho : IsArgsort (chips.map Prod.fst) order) (ho' : IsArgsort (chips'.map Prod.fst) order') :
    detectionImage (chips.map Prod.fst) (chips.map Prod.snd) cx cy order =
      detectionImage (chips'.map Prod.fst) (chips'.map Prod.snd) cx cy order' := by
  have hne' : chips' ≠ [] := by
    rintro rfl
    exact hne hp.eq_nil
  have key : ∀ (l : List (K × (Int × Int))) (k y x : Nat), Covers (l.map Prod.snd) cx cy k y x →
      ∃ c ∈ l, (l.map Prod.fst).getD k 0 = c.1 ∧ c.2.1 ≤ y ∧ (y : Int) < c.2.1 + cy ∧ c.2.2 ≤ x ∧ (x : Int) < c.2.2 + cx := by
    rintro l k y x ⟨ul, hk, hcov⟩
    rw [List.getElem?_map, Option.map_eq_some_iff] at hk
    obtain ⟨c, hc, rfl⟩ := hk
    refine ⟨c, List.mem_of_getElem? hc, ?_, hcov⟩
    rw [List.getD_eq_getElem?_getD, List.getElem?_map, hc]
    rfl
  have back : ∀ (l : List (K × (Int × Int))) (y x : Nat) (c : K × (Int × Int)), c ∈ l →
      (c.2.1 ≤ y ∧ (y : Int) < c.2.1 + cy ∧ c.2.2 ≤ x ∧ (x : Int) < c.2.2 + cx) →
      ∃ k, Covers (l.map Prod.snd) cx cy k y x ∧ (l.map Prod.fst).getD k 0 = c.1 := by
    intro l y x c hc hcov
    obtain ⟨k, hk⟩ := List.mem_iff_getElem?.mp hc
    refine ⟨k, ⟨c.2, by rw [List.getElem?_map, hk]; rfl, hcov⟩, ?_⟩
    rw [List.getD_eq_getElem?_getD, List.getElem?_map, hk]
    rfl
  obtain ⟨img, h1, a1, ⟨t1, ht1, b1⟩, ⟨t2, ht2, c1⟩, d1⟩ :=
    C11_detection_image (chips.map Prod.fst) (chips.map Prod.snd) cx cy order (by simpa using hne) (by simp)
      (by intro ul hul; obtain ⟨c, hc, rfl⟩ := List.mem_map.mp hul; exact hnn c hc) ho
  obtain ⟨img', h2, a2, ⟨s1, hs1, b2⟩, ⟨s2, hs2, c2⟩, d2⟩ :=
    C11_detection_image (chips'.map Prod.fst) (chips'.map Prod.snd) cx cy order' (by simpa using hne') (by simp)
      (by intro ul hul; obtain ⟨c, hc, rfl⟩ := List.mem_map.mp hul; exact hnn c (hp.mem_iff.mpr hc)) ho'
  have hpm : (chips.map Prod.snd).Perm (chips'.map Prod.snd) := hp.map _
  rw [h1, h2]
  have e1 : img.ny = img'.ny := by
    have := (a1 s1 (hpm.mem_iff.mpr hs1)).1; have := (a2 t1 (hpm.mem_iff.mp ht1)).1; omega
  have e2 : img.nx = img'.nx := by
    have := (a1 s2 (hpm.mem_iff.mpr hs2)).2; have := (a2 t2 (hpm.mem_iff.mp ht2)).2; omega
  have e3 : img.px = img'.px := by
    funext y x
    rcases d1 y x with ⟨n1, v1⟩ | ⟨k1, k1c, v1, m1⟩ <;> rcases d2 y x with ⟨n2, v2⟩ | ⟨k2, k2c, v2, m2⟩
    · rw [v1, v2]
    · obtain ⟨c, hc, -, hcov⟩ := key _ _ _ _ k2c
      obtain ⟨k, hk, -⟩ := back chips y x c (hp.mem_iff.mpr hc) hcov
      exact absurd hk (n1 k)
    · obtain ⟨c, hc, -, hcov⟩ := key _ _ _ _ k1c
      obtain ⟨k, hk, -⟩ := back chips' y x c (hp.mem_iff.mp hc) hcov
      exact absurd hk (n2 k)
    · rw [v1, v2]
      obtain ⟨c, hc, hcv, hcov⟩ := key _ _ _ _ k1c
      obtain ⟨k, hk, hkv⟩ := back chips' y x c (hp.mem_iff.mp hc) hcov
      obtain ⟨d, hd, hdv, hdov⟩ := key _ _ _ _ k2c
      obtain ⟨j, hj, hjv⟩ := back chips y x d (hp.mem_iff.mpr hd) hdov
      have i1 := m2 k hk
      have i2 := m1 j hj
      rw [hkv, ← hcv] at i1
      rw [hjv, ← hdv] at i2
      exact le_antisymm i1 i2
  cases img; cases img'
  simp only at e1 e2 e3
  subst e1 e2 e3
  rfl

/-- C11, refused input: no chips, chips wholly above or to the left of the image, or more scores than chips. -/
theorem C11_refused (scores : List K) (uls : List (Int × Int)) (cx cy : Nat) (order : List Nat)
    (ho : order.Perm (List.range scores.length)) :
    (uls = [] → detectionImage scores uls cx cy order = .error .valueError) ∧
    (uls ≠ [] → ((∀ ul ∈ uls, ul.1 + cy < 0) ∨ (∀ ul ∈ uls, ul.2 + cx < 0)) →
      detectionImage scores uls cx cy order = .error .valueError) ∧
    (uls ≠ [] → (∃ ul ∈ uls, 0 ≤ ul.1 + cy) → (∃ ul ∈ uls, 0 ≤ ul.2 + cx) → uls.length < scores.length →
      detectionImage scores uls cx cy order = .error .indexError) := by
  refine ⟨?_, ?_, ?_⟩
  · rintro rfl
    rfl
  · intro hne h
    obtain ⟨my, e1, m1, b1⟩ := intMax_spec (l := uls.map Prod.fst) (by simpa using hne)
    obtain ⟨mx, e2, m2, b2⟩ := intMax_spec (l := uls.map Prod.snd) (by simpa using hne)
    obtain ⟨u1, hu1, rfl⟩ := List.mem_map.mp m1
    obtain ⟨u2, hu2, rfl⟩ := List.mem_map.mp m2
    unfold detectionImage
    rw [e1, e2]
    simp only [ok_bind]
    rw [if_pos]
    rcases h with h | h
    · exact Or.inl (h u1 hu1)
    · exact Or.inr (h u2 hu2)
  · intro hne ⟨v1, hv1, q1⟩ ⟨v2, hv2, q2⟩ hlen
    obtain ⟨my, e1, m1, b1⟩ := intMax_spec (l := uls.map Prod.fst) (by simpa using hne)
    obtain ⟨mx, e2, m2, b2⟩ := intMax_spec (l := uls.map Prod.snd) (by simpa using hne)
    have g1 := b1 _ (List.mem_map_of_mem hv1)
    have g2 := b2 _ (List.mem_map_of_mem hv2)
    unfold detectionImage
    rw [e1, e2]
    simp only [ok_bind]
    rw [if_neg (by omega)]
    have hloop : ∀ (is : List Nat) (px : Nat → Nat → K), (∃ i ∈ is, uls.length ≤ i) →
        paintLoop (my + cy).toNat (mx + cx).toNat cy cx scores uls is px = .error .indexError := by
      intro is
      induction is with
      | nil => rintro px ⟨i, hi, -⟩; simp at hi
      | cons a is ih =>
        rintro px ⟨i, hi, hl⟩
        unfold paintLoop
        split
        · rename_i ul s hul hs
          rcases List.mem_cons.mp hi with rfl | hi
          · rw [List.getElem?_eq_none hl] at hul; cases hul
          · exact ih _ ⟨i, hi, hl⟩
        · rfl
    rw [hloop order _ ⟨uls.length, ho.mem_iff.mpr (by simp; exact hlen), le_rfl⟩]
    rfl

end C11

example : IsArgsort ([3, 1, 3] : List Int) [1, 2, 0] ∧ IsArgsort ([3, 1, 3] : List Int) [1, 0, 2] := by
  refine ⟨⟨by decide, by decide⟩, ⟨by decide, by decide⟩⟩

example : ∃ img, detectionImage ([3, 1, 2] : List Int) [(0,0), (1,1), (0,1)] 2 2 [1, 2, 0] = .ok img ∧
    img.ny = 3 ∧ img.nx = 3 ∧ img.px 1 1 = 3 ∧ img.px 1 2 = 2 ∧ img.px 2 2 = 1 ∧ img.px 2 0 = 0 := by
  refine ⟨_, rfl, ?_⟩; decide

/-! ### C100: uniform images -/

/-- C100: the image has the requested number of rows, columns and bands; with one number every pixel of every band has it, with a list every
pixel of band `b` has the list's entry `b` and the bands beyond the list are zero; a list with more entries than bands is an IndexError. -/
theorem C100_uniform {α : Type} [Zero α] (nx ny nbands : Nat) :
    (∀ (value : α), (createUniformInt nx ny nbands value).ny = ny ∧ (createUniformInt nx ny nbands value).nx = nx ∧
      (createUniformInt nx ny nbands value).nb = nbands ∧
      ∀ y x b, y < ny → x < nx → b < nbands → (createUniformInt nx ny nbands value).px y x b = value) ∧
    (∀ values : List α, values.length ≤ nbands → ∃ im, createUniformList nx ny nbands values = .ok im ∧ im.ny = ny ∧ im.nx = nx ∧ im.nb = nbands ∧
      ∀ y x b, y < ny → x < nx → b < nbands →
        (∀ v, values[b]? = some v → im.px y x b = v) ∧ (values.length ≤ b → im.px y x b = 0)) ∧
    (∀ values : List α, nbands < values.length → createUniformList nx ny nbands values = .error .indexError) := by
  refine ⟨fun v => ⟨rfl, rfl, rfl, fun _ _ _ _ _ _ => rfl⟩, ?_, ?_⟩
  · intro values h
    refine ⟨_, if_pos h, rfl, rfl, rfl, ?_⟩
    intro y x b _ _ _
    refine ⟨fun v hv => by simp [List.getD_eq_getElem?_getD, hv], fun hb => by simp [List.getD_eq_getElem?_getD, List.getElem?_eq_none hb]⟩
  · intro values h
    exact if_neg (by omega)

/-- A list of three values for three bands is accepted. -/
example : ∃ im, createUniformList 4 3 3 ([7, 8, 9] : List Nat) = .ok im ∧ im.px 2 3 2 = 9 := ⟨_, rfl, rfl⟩

/-! ### C13: blending -/

section C13
variable {K : Type} [Field K] [LinearOrder K] [IsStrictOrderedRing K]

/-- C13.  For `0 ≤ p ≤ 1` every blended pixel lies between the two images' pixels; `p = 1` gives the
first image, `p = 0` the second; exchanging the images and `p` with `1 - p` changes nothing. -/
theorem C13_blend (a b : A2 K) (p : K) (y x : Nat) :
    ((0 ≤ p ∧ p ≤ 1) → min (a.px y x) (b.px y x) ≤ (blendImages a b p).px y x ∧
      (blendImages a b p).px y x ≤ max (a.px y x) (b.px y x)) ∧
    (blendImages a b 1).px y x = a.px y x ∧ (blendImages a b 0).px y x = b.px y x ∧
    (blendImages a b p).px y x = (blendImages b a (1 - p)).px y x ∧
    (blendImages a b p).ny = a.ny ∧ (blendImages a b p).nx = a.nx := by
  refine ⟨?_, by simp [blendImages], by simp [blendImages], by simp only [blendImages]; ring, rfl, rfl⟩
  rintro ⟨h0, h1⟩
  simp only [blendImages]
  have hq : 0 ≤ 1 - p := by linarith
  constructor
  · calc min (a.px y x) (b.px y x) = min (a.px y x) (b.px y x) * p + min (a.px y x) (b.px y x) * (1 - p) := by ring
      _ ≤ _ := add_le_add (mul_le_mul_of_nonneg_right (min_le_left _ _) h0)
          (mul_le_mul_of_nonneg_right (min_le_right _ _) hq)
  · calc a.px y x * p + b.px y x * (1 - p)
        ≤ max (a.px y x) (b.px y x) * p + max (a.px y x) (b.px y x) * (1 - p) :=
          add_le_add (mul_le_mul_of_nonneg_right (le_max_left _ _) h0)
          (mul_le_mul_of_nonneg_right (le_max_right _ _) hq)
      _ = _ := by ring

end C13

example : ((0 : ℚ) ≤ 3/10) ∧ ((3 : ℚ)/10 ≤ 1) := by norm_num
example : (blendImages (⟨1, 1, fun _ _ => 10⟩ : A2 ℚ) ⟨1, 1, fun _ _ => 20⟩ (3/10)).px 0 0 = 17 := by
  norm_num [blendImages]

/-! ### C14: point masks -/

section C14
variable {α L : Type} [DecidableEq α] [DecidableEq L]

/-- `locs` lists, in strictly increasing row-major order, exactly the pixels with property `P`. -/
def Lists (ny nx : Nat) (P : Nat → Nat → Prop) (locs : List (Nat × Nat)) : Prop :=
  locs.Pairwise (fun p q => p.1 < q.1 ∨ (p.1 = q.1 ∧ p.2 < q.2)) ∧
  ∀ y x, (y, x) ∈ locs ↔ y < ny ∧ x < nx ∧ P y x

theorem sum3 (p q r : Prop) [Decidable p] [Decidable q] [Decidable r] :
    ((if p then 1 else 0) + (if q then 1 else 0) + (if r then 1 else 0) = 3) ↔ (p ∧ q ∧ r) := by
  by_cases hp : p <;> by_cases hq : q <;> by_cases hr : r <;> simp [hp, hq, hr]

theorem colorLocations_spec (img : A3 α) (c : α × α × α) (h : img.nb = 3 ∨ img.nb = 4) :
    ∃ locs, colorLocations img c = .ok locs ∧
      Lists img.ny img.nx (fun y x => img.px y x 0 = c.1 ∧ img.px y x 1 = c.2.1 ∧ img.px y x 2 = c.2.2) locs := by
  have hm : maskBands img.nb = 3 := by rcases h with h | h <;> simp [maskBands, h]
  refine ⟨_, by unfold colorLocations; simp only [hm, if_true]; rfl, npWhere_sorted _ _ _, ?_⟩
  intro y x
  rw [npWhere_mem, decide_eq_true_iff, sum3]

theorem maskDictLoop_spec (img : A3 α) (h : img.nb = 3 ∨ img.nb = 4)
    (entries : List ((α × α × α) × L)) (d : L → Option (List (Nat × Nat)))
    (hd : (entries.map Prod.snd).Nodup) :
    ∃ d', maskDictLoop img entries d = .ok d' ∧
      (∀ c l, (c, l) ∈ entries → ∃ locs, d' l = some locs ∧ colorLocations img c = .ok locs) ∧
      (∀ l, l ∉ entries.map Prod.snd → d' l = d l) := by
  induction entries generalizing d with
  | nil => exact ⟨d, rfl, by simp, by simp⟩
  | cons e es ih =>
    obtain ⟨c, l⟩ := e
    obtain ⟨locs, hl, _⟩ := colorLocations_spec img c h
    simp only [List.map_cons, List.nodup_cons] at hd
    obtain ⟨d', h1, h2, h3⟩ := ih (fun l' => if l' = l then some locs else d l') hd.2
    refine ⟨d', by simp [maskDictLoop, hl, ok_bind, h1], ?_, ?_⟩
    · intro c' l' hm
      rcases List.mem_cons.mp hm with he | hm
      · cases he
        exact ⟨locs, by rw [h3 l hd.1]; simp, hl⟩
      · exact h2 c' l' hm
    · intro l' hl'
      simp only [List.map_cons, List.mem_cons, not_or] at hl'
      rw [h3 l' hl'.2]; simp [hl'.1]

/-- C14 with a dictionary whose labels are distinct: the entry of each label lists, in row-major
order and without repeats, exactly the pixels whose first three bands are the label's colour
(a fourth band is ignored); no other label appears.  Missing from the full property: dictionaries
giving two colours the same label, where the code keeps only the last colour
(`C14_false_shared_label`). -/
theorem C14_mask_dict_partial (img : A3 α) (h : img.nb = 3 ∨ img.nb = 4)
    (entries : List ((α × α × α) × L)) (hd : (entries.map Prod.snd).Nodup) :
    ∃ d, pointMaskDict img entries = .ok d ∧
      (∀ c l, (c, l) ∈ entries → ∃ locs, d l = some locs ∧
        Lists img.ny img.nx
          (fun y x => img.px y x 0 = c.1 ∧ img.px y x 1 = c.2.1 ∧ img.px y x 2 = c.2.2) locs) ∧
      (∀ l, l ∉ entries.map Prod.snd → d l = none) := by
  obtain ⟨d, h1, h2, h3⟩ := maskDictLoop_spec img h entries (fun _ => none) hd
  refine ⟨d, h1, ?_, h3⟩
  intro c l hm
  obtain ⟨locs, e1, e2⟩ := h2 c l hm
  obtain ⟨locs', e3, e4⟩ := colorLocations_spec img c h
  rw [e2] at e3; cases e3
  exact ⟨locs, e1, e4⟩

/-- C14 with any dictionary, exactly: a label's entry lists the pixels of the last colour given that label; other labels do not appear. -/
theorem C14_mask_dict_exact_partial (img : A3 α) (h : img.nb = 3 ∨ img.nb = 4) (entries : List ((α × α × α) × L)) :
    ∃ d, pointMaskDict img entries = .ok d ∧
      (∀ pre c l post, entries = pre ++ (c, l) :: post → l ∉ post.map Prod.snd → ∃ locs, d l = some locs ∧
        Lists img.ny img.nx
          (fun y x => img.px y x 0 = c.1 ∧ img.px y x 1 = c.2.1 ∧ img.px y x 2 = c.2.2) locs) ∧
      (∀ l, l ∉ entries.map Prod.snd → d l = none) := by
  have key : ∀ (es : List ((α × α × α) × L)) (d0 : L → Option (List (Nat × Nat))), ∃ d, maskDictLoop img es d0 = .ok d ∧
      (∀ pre c l post, es = pre ++ (c, l) :: post → l ∉ post.map Prod.snd → ∃ locs, d l = some locs ∧ colorLocations img c = .ok locs) ∧
      (∀ l, l ∉ es.map Prod.snd → d l = d0 l) := by
    intro es
    induction es with
    | nil => intro d0; exact ⟨d0, rfl, by simp, by simp⟩
    | cons e es ih =>
      intro d0
      obtain ⟨c, l⟩ := e
      obtain ⟨locs, hl, _⟩ := colorLocations_spec img c h
      obtain ⟨d', h1, h2, h3⟩ := ih (fun l' => if l' = l then some locs else d0 l')
      refine ⟨d', by simp [maskDictLoop, hl, ok_bind, h1], ?_, ?_⟩
      · intro pre c' l' post he hnot
        cases pre with
        | nil =>
          simp only [List.nil_append, List.cons.injEq, Prod.mk.injEq] at he
          obtain ⟨⟨rfl, rfl⟩, rfl⟩ := he
          exact ⟨locs, by rw [h3 l hnot]; simp, hl⟩
        | cons p pre =>
          simp only [List.cons_append, List.cons.injEq] at he
          exact h2 pre c' l' post he.2 hnot
      · intro l' hl'
        simp only [List.map_cons, List.mem_cons, not_or] at hl'
        rw [h3 l' hl'.2]; simp [hl'.1]
  obtain ⟨d, h1, h2, h3⟩ := key entries (fun _ => none)
  refine ⟨d, h1, ?_, h3⟩
  intro pre c l post he hnot
  obtain ⟨locs, e1, e2⟩ := h2 pre c l post he hnot
  obtain ⟨locs', e3, e4⟩ := colorLocations_spec img c h
  rw [e2] at e3; cases e3
  exact ⟨locs, e1, e4⟩

example : ([((1, 0, 0), "tree"), ((0, 1, 0), "tree")] : List ((Nat × Nat × Nat) × String)) =
    [((1, 0, 0), "tree")] ++ ((0, 1, 0), "tree") :: [] ∧ "tree" ∉ (([] : List ((Nat × Nat × Nat) × String)).map Prod.snd) := by simp

/-- C14 is false when two colours share a label: the pixels of the first colour are lost. -/
theorem C14_false_shared_label :
    ∃ (img : A3 Nat) (d : String → Option (List (Nat × Nat))),
      pointMaskDict img [((1, 0, 0), "tree"), ((0, 1, 0), "tree")] = .ok d ∧
      img.px 0 0 0 = 1 ∧ img.px 0 0 1 = 0 ∧ img.px 0 0 2 = 0 ∧ img.ny = 1 ∧ img.nx = 2 ∧
      d "tree" = some [(0, 1)] := by
  refine ⟨⟨1, 2, 3, fun _ x b => if x = b then 1 else 0⟩, _, rfl, ?_⟩
  decide

/-- C14 without a dictionary, for images with non-negative values: exactly the pixels having some
non-zero band among those kept (the first three when there are four), in row-major order. -/
theorem C14_mask_any (img : A3 Int) (hnn : ∀ y x b, 0 ≤ img.px y x b) :
    Lists img.ny img.nx
      (fun y x => ∃ b, b < (if img.nb = 4 then 3 else img.nb) ∧ img.px y x b ≠ 0) (pointMask img) := by
  refine ⟨npWhere_sorted _ _ _, ?_⟩
  intro y x
  unfold pointMask
  rw [npWhere_mem, decide_eq_true_iff]
  have key : ∀ (n : Nat), 0 < ((List.range n).map (fun b => img.px y x b)).sum ↔
      ∃ b, b < n ∧ img.px y x b ≠ 0 := by
    intro n
    induction n with
    | zero => simp
    | succ n ih =>
      rw [List.range_succ, List.map_append, List.sum_append]
      have hsum : 0 ≤ ((List.range n).map (fun b => img.px y x b)).sum := by
        apply List.sum_nonneg
        intro v hv
        obtain ⟨b, _, rfl⟩ := List.mem_map.mp hv
        exact hnn y x b
      have hn := hnn y x n
      constructor
      · intro h
        by_cases h0 : img.px y x n = 0
        · simp [h0] at h
          obtain ⟨b, hb, hne⟩ := ih.mp h
          exact ⟨b, by omega, hne⟩
        · exact ⟨n, by omega, h0⟩
      · rintro ⟨b, hb, hne⟩
        simp only [List.map_cons, List.map_nil, List.sum_cons, List.sum_nil, add_zero]
        rcases Nat.lt_or_eq_of_le (Nat.lt_succ_iff.mp hb) with h' | h'
        · have := ih.mpr ⟨b, h', hne⟩
          omega
        · subst h'; omega
  rw [key]
  rfl

/-- C14 for one band: exactly the pixels whose value equals all three components of the colour are listed; in particular none for a colour
that is not a grey. -/
theorem C14_one_band (img : A3 α) (h : img.nb = 1) (c : α × α × α) :
    ∃ locs, colorLocations img c = .ok locs ∧
      Lists img.ny img.nx (fun y x => img.px y x 0 = c.1 ∧ img.px y x 0 = c.2.1 ∧ img.px y x 0 = c.2.2) locs := by
  have hm : maskBands img.nb = 1 := by simp [maskBands, h]
  refine ⟨_, by unfold colorLocations; simp only [hm, if_true]; rfl, npWhere_sorted _ _ _, ?_⟩
  intro y x
  rw [npWhere_mem, decide_eq_true_iff, sum3]

/-- C14, error branch: two bands (or any number other than 1, 3 or 4) cannot be compared with a
colour. -/
theorem C14_wrong_bands (img : A3 α) (h1 : img.nb ≠ 1) (h3 : img.nb ≠ 3) (h4 : img.nb ≠ 4)
    (c : α × α × α) : colorLocations img c = .error .valueError := by
  simp [colorLocations, maskBands, h1, h3, h4]

end C14

example : (([((1, 0, 0), "a"), ((0, 1, 0), "b")] : List ((Nat × Nat × Nat) × String)).map Prod.snd).Nodup := by
  decide
example : pointMask ⟨2, 2, 4, fun y x b => if b = 3 then 255 else if y = 1 ∧ x = 0 then 7 else 0⟩ = [(1, 0)] := by
  decide

end Verif.ImageUtils
