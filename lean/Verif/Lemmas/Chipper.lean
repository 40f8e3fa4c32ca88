import Verif.Model.Chipper
import Verif.Lemmas.Base

/-! Helper lemmas for the chipper model. -/

namespace Verif.Chipper
open Verif

theorem toCube_ny {α : Type} (i : Img α) : (toCube i).ny = i.ny := by cases i <;> rfl
theorem toCube_nx {α : Type} (i : Img α) : (toCube i).nx = i.nx := by cases i <;> rfl
theorem toCube_nb {α : Type} (i : Img α) : (toCube i).nb = i.nb := by cases i <;> rfl
theorem toCube_px {α : Type} (i : Img α) (y x b : Nat) : (toCube i).px y x b = i.value y x b := by
  cases i <;> rfl
theorem toCube_cube {α : Type} (a : A3 α) : toCube (.cube a) = a := rfl


theorem resolveBands_ok {nb : Nat} {bs : List Int} {is : List Nat}
    (h : resolveBands nb bs = .ok is) :
    is.length = bs.length ∧ ∀ k, (hk : k < bs.length) → PyAt nb (bs[k]) (is.getD k 0) := by
  induction bs generalizing is with
  | nil => simp [resolveBands] at h; subst h; simp
  | cons b bs ih =>
    obtain ⟨i, hi, h⟩ := bind_ok h
    obtain ⟨is', his, h⟩ := bind_ok h
    cases h
    obtain ⟨hl, hp⟩ := ih his
    refine ⟨by simp [hl], ?_⟩
    intro k hk
    cases k with
    | zero => simpa using (pyIdx_ok_iff _ _ _).mp hi
    | succ k =>
      have := hp k (by simpa using hk)
      simpa using this

theorem resolveBands_total {nb : Nat} {bs : List Int}
    (h : ∀ b ∈ bs, -(nb : Int) ≤ b ∧ b < nb) : ∃ is, resolveBands nb bs = .ok is := by
  induction bs with
  | nil => exact ⟨[], rfl⟩
  | cons b bs ih =>
    obtain ⟨is, his⟩ := ih (fun b hb => h b (by simp [hb]))
    obtain ⟨i, hi⟩ := pyIdx_total (h b (by simp)).1 (h b (by simp)).2
    exact ⟨i :: is, by simp [resolveBands, hi, his, ok_bind]⟩

theorem resolveBands_range (nb : Nat) :
    ∃ is, resolveBands nb ((List.range nb).map (fun (k : Nat) => (k : Int))) = .ok is := by
  apply resolveBands_total
  intro b hb
  simp at hb
  obtain ⟨k, hk, rfl⟩ := hb
  omega

theorem pySlice_fits {n c : Nat} {y : Int} (h0 : 0 ≤ y) (h1 : y + c ≤ n) :
    pySliceLen n y (y + c) = c ∧ pyBound n y = y.toNat := by
  unfold pySliceLen pyBound
  rw [if_neg (by omega), if_neg (by omega)]
  omega

/-- A chip that fits is copied verbatim. -/
theorem copyChip_fits {α : Type} {img : A3 α} {cy cx : Nat} {bs : List Int} {y x : Int}
    (hy0 : 0 ≤ y) (hy1 : y + cy ≤ img.ny) (hx0 : 0 ≤ x) (hx1 : x + cx ≤ img.nx) :
    copyChip img cy cx bs y x = (resolveBands img.nb bs).map
      (fun is => fun i j b => img.px (y.toNat + i) (x.toNat + j) (is.getD b 0)) := by
  obtain ⟨a1, a2⟩ := pySlice_fits hy0 hy1
  obtain ⟨b1, b2⟩ := pySlice_fits hx0 hx1
  unfold copyChip
  cases hr : resolveBands img.nb bs with
  | error e => rfl
  | ok is => simp [ok_bind, a1, a2, b1, b2, Except.map]

theorem chipLoop_ok {α : Type} {img : A3 α} {cy cx : Nat} {bs : List Int} {l : List (Int × Int)}
    {k : Nat} {px px' : Nat → Nat → Nat → Nat → α} {uls uls' : List (Int × Int)}
    (h : chipLoop img cy cx bs l k px uls = .ok (px', uls')) :
    uls' = uls ++ l ∧
    (∀ m, (hm : m < l.length) → copyChip img cy cx bs l[m].1 l[m].2 = .ok (px' (k + m))) ∧
    (∀ k', k' < k ∨ k + l.length ≤ k' → px' k' = px k') := by
  induction l generalizing k px uls with
  | nil => simp [chipLoop] at h; obtain ⟨rfl, rfl⟩ := h; simp
  | cons p l ih =>
    obtain ⟨y, x⟩ := p
    obtain ⟨c, hc, h⟩ := bind_ok h
    obtain ⟨h1, h2, h3⟩ := ih h
    refine ⟨by simp [h1], ?_, ?_⟩
    · intro m hm
      cases m with
      | zero =>
        have := h3 k (by omega)
        simp at this
        simp [this, hc]
      | succ m =>
        have := h2 m (by simpa using hm)
        simpa [Nat.add_assoc, Nat.add_comm 1 m] using this
    · intro k' hk'
      have hne : k' ≠ k := by simp at hk'; omega
      have := h3 k' (by simp at hk'; omega)
      simpa [hne] using this

theorem chipLoop_total {α : Type} {img : A3 α} {cy cx : Nat} {bs : List Int} {l : List (Int × Int)}
    {k : Nat} {px : Nat → Nat → Nat → Nat → α} {uls : List (Int × Int)}
    (h : ∀ p ∈ l, ∃ c, copyChip img cy cx bs p.1 p.2 = .ok c) :
    ∃ r, chipLoop img cy cx bs l k px uls = .ok r := by
  induction l generalizing k px uls with
  | nil => exact ⟨_, rfl⟩
  | cons p l ih =>
    obtain ⟨y, x⟩ := p
    obtain ⟨c, hc⟩ := h (y, x) (by simp)
    simp only at hc
    obtain ⟨r, hr⟩ := ih (k := k+1) (px := fun k' => if k' = k then c else px k')
      (uls := uls ++ [(y, x)]) (fun p hp => h p (by simp [hp]))
    exact ⟨r, by simp [chipLoop, hc, ok_bind, hr]⟩

/-- An error in one chip is an error of the whole call. -/
theorem chipLoop_error {α : Type} {img : A3 α} {cy cx : Nat} {bs : List Int} {l : List (Int × Int)}
    {k : Nat} {px : Nat → Nat → Nat → Nat → α} {uls : List (Int × Int)} {p : Int × Int}
    (hp : p ∈ l) (h : ∀ c, copyChip img cy cx bs p.1 p.2 ≠ .ok c) :
    ∃ e, chipLoop img cy cx bs l k px uls = .error e := by
  cases hr : chipLoop img cy cx bs l k px uls with
  | error e => exact ⟨e, rfl⟩
  | ok r =>
    obtain ⟨px', uls'⟩ := r
    obtain ⟨_, h2, _⟩ := chipLoop_ok hr
    obtain ⟨m, hm, rfl⟩ := List.mem_iff_getElem.mp hp
    exact absurd (h2 m hm) (h _)

theorem clampUl_fits {n c : Nat} (h : c ≤ n) (u : Int) :
    clampUl n c u = max 0 (min u ((n : Int) - c)) := by
  unfold clampUl; simp only; split <;> split <;> omega

theorem clampUl_range {n c : Nat} (h : c ≤ n) (u : Int) :
    0 ≤ clampUl n c u ∧ clampUl n c u + c ≤ n := by
  rw [clampUl_fits h]; omega

/-- What a successful `byUpperLefts` returns, in terms of the loop. -/
theorem byUpperLefts_ok {α : Type} [Zero α] {image : Img α} {ys xs : List Int} {cy cx : Nat}
    {bands : Bands} {keep : Bool} {out : Out α}
    (h : byUpperLefts image ys xs cy cx bands keep = .ok out) :
    ∃ px, chipLoop (toCube image) cy cx (bandList image.nb bands)
        ((if keep then ys.map (clampUl image.ny cy) else ys).zip
          (if keep then xs.map (clampUl image.nx cx) else xs)) 0 (fun _ _ _ _ => 0) []
        = .ok (px, out.uls) ∧
      out.chips.n = ys.length ∧ out.chips.ny = cy ∧ out.chips.nx = cx ∧
      (out.chips.nb = if isGray image || (bandList image.nb bands).length == 1 then none
        else some (bandList image.nb bands).length) ∧
      (∀ k i j b, out.chips.px k i j b =
        px k i j (if isGray image || (bandList image.nb bands).length == 1 then 0 else b)) ∧
      ((isGray image || (bandList image.nb bands).length == 1) = true →
        ys.length * cy * cx * (bandList image.nb bands).length = ys.length * cy * cx) := by
  unfold byUpperLefts at h
  simp only [toCube_ny, toCube_nx, toCube_nb] at h
  obtain ⟨⟨px, uls⟩, h1, h⟩ := bind_ok h
  refine ⟨px, ?_⟩
  have hlen : (if keep then ys.map (clampUl image.ny cy) else ys).length = ys.length := by
    split <;> simp
  simp only [hlen] at h
  by_cases hg : (isGray image || (bandList image.nb bands).length == 1) = true
  · simp only [hg, if_true] at h
    split at h
    · rename_i hsz
      cases h
      simp [h1, hg]
      simpa using hsz
    · cases h
  · simp only [hg] at h
    cases h
    simp [h1, hg]

theorem byUpperLefts_total {α : Type} [Zero α] {image : Img α} {ys xs : List Int} {cy cx : Nat}
    {bands : Bands} {keep : Bool}
    (h : ∀ p ∈ (if keep then ys.map (clampUl image.ny cy) else ys).zip
          (if keep then xs.map (clampUl image.nx cx) else xs),
        ∃ c, copyChip (toCube image) cy cx (bandList image.nb bands) p.1 p.2 = .ok c)
    (hg : isGray image = true → (bandList image.nb bands).length = 1) :
    ∃ out, byUpperLefts image ys xs cy cx bands keep = .ok out := by
  obtain ⟨⟨px, uls⟩, hr⟩ := chipLoop_total (k := 0) (px := fun _ _ _ _ => 0) (uls := []) h
  unfold byUpperLefts
  simp only [toCube_ny, toCube_nx, toCube_nb, hr, ok_bind]
  split
  · rename_i hh
    have : (bandList image.nb bands).length = 1 := by
      simp at hh
      rcases hh with hh | hh
      · exact hg hh
      · exact hh
    simp [this]
  · exact ⟨_, rfl⟩

/-- The grid along one axis, for a chip that fits and a sensible overlap. -/
theorem axisGrid_spec {n c : Nat} {ov : Int} (hc : 0 < c) (hcn : c ≤ n) (h0 : 0 ≤ ov) (h1 : ov < c) :
    ∃ l, axisGrid n c ov = .ok l ∧ l.Pairwise (· < ·) ∧
      (∀ u, u ∈ l ↔ (∃ k : Nat, u = (k : Int) * (c - ov) ∧ u < (n : Int) - c) ∨ u = (n : Int) - c) := by
  obtain ⟨l, hl, hmem⟩ := pyArange_pos (n := n) (step := (c : Int) - ov) (by omega)
  refine ⟨_, by unfold axisGrid; rw [hl]; rfl, sortedSet_pairwise _, ?_⟩
  intro u
  simp only [mem_sortedSet, List.mem_map, hmem]
  constructor
  · rintro ⟨v, ⟨k, hk, hv⟩, rfl⟩
    split
    · exact Or.inr rfl
    · exact Or.inl ⟨k, hk, by omega⟩
  · rintro (⟨k, hk, hu⟩ | hu)
    · exact ⟨u, ⟨k, hk, by omega⟩, by rw [if_neg (by omega)]⟩
    · -- the last multiple below n is clamped
      obtain ⟨s, hs⟩ := Int.eq_ofNat_of_zero_le (show 0 ≤ (c : Int) - ov by omega)
      rw [hs]
      have hs0 : 0 < s := by omega
      refine ⟨(((n - 1) / s : Nat) : Int) * (s : Int), ⟨(n - 1) / s, rfl, ?_⟩, ?_⟩
      · have := Nat.div_mul_le_self (n - 1) s
        have h3 : (n - 1) / s * s < n := by omega
        exact_mod_cast h3
      · have := Nat.div_add_mod (n - 1) s
        have h2 := Nat.mod_lt (n - 1) hs0
        have h4 : (n - 1) / s * s ≥ n - s := by
          rw [Nat.mul_comm] at this; omega
        have h5 : (((n - 1) / s : Nat) : Int) * (s : Int) ≥ (n : Int) - s := by
          have : (((n - 1) / s * s : Nat) : Int) ≥ (n : Int) - s := by omega
          simpa using this
        rw [if_pos (by omega), hu]

theorem axisGrid_bounds {n c : Nat} {ov : Int} (hc : 0 < c) (hcn : c ≤ n) (h0 : 0 ≤ ov) (h1 : ov < c)
    {l : List Int} (h : axisGrid n c ov = .ok l) {u : Int} (hu : u ∈ l) : 0 ≤ u ∧ u + c ≤ n := by
  obtain ⟨l', hl', _, hm⟩ := axisGrid_spec hc hcn h0 h1
  rw [h] at hl'; cases hl'
  rcases (hm u).mp hu with ⟨k, hk, hlt⟩ | he
  · have : 0 ≤ (k : Int) * (c - ov) := mul_nonneg (by omega) (by omega)
    omega
  · omega

theorem axisGrid_cover {n c : Nat} {ov : Int} (hc : 0 < c) (hcn : c ≤ n) (h0 : 0 ≤ ov) (h1 : ov < c)
    {l : List Int} (h : axisGrid n c ov = .ok l) {p : Nat} (hp : p < n) :
    ∃ u ∈ l, u ≤ p ∧ (p : Int) < u + c := by
  obtain ⟨l', hl', _, hm⟩ := axisGrid_spec hc hcn h0 h1
  rw [h] at hl'; cases hl'
  by_cases hpl : (p : Int) ≥ (n : Int) - c
  · exact ⟨(n : Int) - c, (hm _).mpr (Or.inr rfl), by omega, by omega⟩
  · obtain ⟨s, hs⟩ := Int.eq_ofNat_of_zero_le (show 0 ≤ (c : Int) - ov by omega)
    have hs0 : 0 < s := by omega
    have e1 := Nat.div_add_mod p s
    have e2 := Nat.mod_lt p hs0
    have e3 : p / s * s ≤ p := Nat.div_mul_le_self p s
    have e4 : p < p / s * s + s := by rw [Nat.mul_comm] at e1; omega
    refine ⟨((p / s : Nat) : Int) * ((c : Int) - ov), (hm _).mpr (Or.inl ⟨p / s, rfl, ?_⟩), ?_, ?_⟩
    · rw [hs]; have : ((p / s * s : Nat) : Int) < (n : Int) - c := by omega
      simpa using this
    · rw [hs]; have : ((p / s * s : Nat) : Int) ≤ (p : Int) := by omega
      simpa using this
    · rw [hs]; have : (p : Int) < ((p / s * s : Nat) : Int) + c := by omega
      simpa using this

/-- Consecutive grid positions are at most `c - ov` apart; the first is 0. -/
theorem axisGrid_gap {n c : Nat} {ov : Int} (hc : 0 < c) (hcn : c ≤ n) (h0 : 0 ≤ ov) (h1 : ov < c)
    {l : List Int} (h : axisGrid n c ov = .ok l) {k : Nat} (hk : k + 1 < l.length) :
    l[k+1] - l[k] ≤ (c : Int) - ov := by
  obtain ⟨l', hl', hs, hm⟩ := axisGrid_spec hc hcn h0 h1
  rw [h] at hl'; cases hl'
  have hlt : l[k] < l[k+1] := (List.pairwise_iff_getElem.mp hs) k (k+1) (by omega) hk (by omega)
  have hb := axisGrid_bounds hc hcn h0 h1 h (List.getElem_mem hk)
  rcases (hm l[k]).mp (List.getElem_mem (by omega)) with ⟨j, hj, hjlt⟩ | he
  · by_cases hlast : (((j + 1 : Nat) : Int) * (c - ov)) < (n : Int) - c
    · have hmem := (hm _).mpr (Or.inl ⟨j + 1, rfl, hlast⟩)
      have := pairwise_lt_consecutive hs hk hmem (by rw [hj]; push_cast; nlinarith)
      rw [hj]; push_cast at this; nlinarith
    · rw [hj]; push_cast at hlast; nlinarith
  · omega

end Verif.Chipper
