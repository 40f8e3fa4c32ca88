import Verif.Lemmas.ImageUtils
import Verif.Model.Spectrum
import Mathlib.Tactic.FieldSimp
import Mathlib.Tactic.NormNum

/-! C50, C51: spectra. -/

set_option linter.unusedSectionVars false

namespace Verif.Spectrum
open Verif ImageUtils

section
variable {K : Type} [Field K] [LinearOrder K] [IsStrictOrderedRing K]

/-! ### C50 -/

/-- Specification: the states any program using one spectrum can reach: it allocates arrays, hands arrays it
holds to the setter, writes to arrays it holds and reads the spectrum. -/
inductive Reach : St K → Prop
  | init : Reach St.init
  | alloc {s} (h : Reach s) (a : Arr K) : Reach (alloc s a).1
  | setData {s} (h : Reach s) (p : Nat) (hp : p < s.next) : Reach (setData s p)
  | setNodata {s} (h : Reach s) (v : Option K) : Reach (setNodata s v)
  | write {s} (h : Reach s) (p i : Nat) (v : Option K) (hp : p < s.next) : Reach (write s p i v)
  | get {s s'} (h : Reach s) (f : Bool) (r : Option Nat) (hg : getData s f = .ok (s', r)) : Reach s'

/-- Specification: histories of reads, of writes to arrays returned by these reads, and of allocations; the
list holds the addresses returned so far. -/
inductive Reads : St K → List Nat → St K → List Nat → Prop
  | refl (s l) : Reads s l s l
  | alloc {s l s' l'} (h : Reads s l s' l') (a : Arr K) : Reads s l (alloc s' a).1 l'
  | write {s l s' l'} (h : Reads s l s' l') (p i : Nat) (v : Option K) (hp : p ∈ l') : Reads s l (write s' p i v) l'
  | get {s l s' l' s''} (h : Reads s l s' l') (f : Bool) (p : Nat) (hg : getData s' f = .ok (s'', some p)) :
      Reads s l s'' (p :: l')

/-- Specification: what a read with the given flag reports: the values of the returned array, or the
exception, or None. -/
def reported (s : St K) (f : Bool) : Py (Option (List (Option K))) :=
  match getData s f with
  | .error e => .error e
  | .ok (s', r) => .ok (r.map (fun p => (s'.heap p).vals))

theorem Reach.valid {s : St K} (h : Reach s) : ∀ p, s.data = some p → p < s.next := by
  induction h with
  | init => intro p hp; simp [St.init] at hp
  | alloc h a ih => intro p hp; have := ih p hp; simp only [Spectrum.alloc]; omega
  | setData h q hq ih => intro p hp; simp only [Spectrum.setData, Option.some.injEq] at hp; subst hp; exact hq
  | setNodata h v ih => intro p hp; exact ih p hp
  | write h q i v hq ih => intro p hp; exact ih p hp
  | get h f r hg ih =>
    intro p hp
    unfold getData at hg
    split at hg
    · split at hg
      · simp at hg
      · simp only [Except.ok.injEq, Prod.mk.injEq] at hg; rw [← hg.1] at hp ⊢; exact ih p hp
    · simp only [] at hg
      split at hg
      · split at hg
        · simp at hg
        · simp only [Except.ok.injEq, Prod.mk.injEq] at hg
          rw [← hg.1] at hp ⊢
          have := ih p hp
          simp only [Spectrum.alloc]; omega
      · simp only [Except.ok.injEq, Prod.mk.injEq] at hg
        rw [← hg.1] at hp ⊢
        have := ih p hp
        simp only [Spectrum.alloc]; omega

/-- A read returns a fresh array and leaves everything else alone. -/
theorem getData_frame {s s' : St K} {f : Bool} {p : Nat} (h : getData s f = .ok (s', some p)) :
    p = s.next ∧ s'.next = s.next + 1 ∧ s'.data = s.data ∧ s'.nodata = s.nodata ∧ ∀ q, q < s.next → s'.heap q = s.heap q := by
  unfold getData at h
  split at h
  · split at h <;> simp at h
  · simp only [] at h
    split at h
    · split at h
      · simp at h
      · simp only [Except.ok.injEq, Prod.mk.injEq, Option.some.injEq] at h
        obtain ⟨rfl, rfl⟩ := h
        refine ⟨rfl, rfl, rfl, rfl, ?_⟩
        intro q hq
        simp only [Spectrum.alloc]
        rw [if_neg (by omega)]
    · simp only [Except.ok.injEq, Prod.mk.injEq, Option.some.injEq] at h
      obtain ⟨rfl, rfl⟩ := h
      refine ⟨rfl, rfl, rfl, rfl, ?_⟩
      intro q hq
      simp only [Spectrum.alloc]
      rw [if_neg (by omega)]

/-- What a read reports depends only on the data array and the no-data value. -/
theorem reported_eq (s : St K) (f : Bool) : reported s f =
    match s.data with
    | none => if f then .error .typeError else .ok none
    | some p => if f then (if (s.heap p).isInt then .error .valueError else .ok (some (replaceNodata s.nodata (s.heap p).vals)))
        else .ok (some (s.heap p).vals) := by
  unfold reported getData
  cases s.data with
  | none => cases f <;> rfl
  | some p =>
    simp only []
    cases f with
    | false => simp [Spectrum.alloc]
    | true =>
      cases hi : (s.heap p).isInt with
      | true => simp
      | false => simp [Spectrum.alloc]

/-- C50: whatever happened before, no history of reads and of modifications of the arrays they return
changes what reading the spectrum reports. -/
theorem C50_independent (s : St K) (hs : Reach s) (s' : St K) (l : List Nat) (h : Reads s [] s' l) (f : Bool) :
    reported s' f = reported s f := by
  have hv := hs.valid
  have inv : s'.data = s.data ∧ s'.nodata = s.nodata ∧ s.next ≤ s'.next ∧ (∀ p ∈ l, s.next ≤ p) ∧
      ∀ q, q < s.next → s'.heap q = s.heap q := by
    generalize hl0 : ([] : List Nat) = l0 at h
    induction h with
    | refl => subst hl0; exact ⟨rfl, rfl, le_rfl, by simp, fun q _ => rfl⟩
    | alloc h a ih =>
      obtain ⟨a1, a2, a3, a4, a5⟩ := ih
      refine ⟨a1, a2, by simp only [Spectrum.alloc]; omega, a4, ?_⟩
      intro q hq
      simp only [Spectrum.alloc]
      rw [if_neg (by omega)]
      exact a5 q hq
    | write h p i v hp ih =>
      obtain ⟨a1, a2, a3, a4, a5⟩ := ih
      refine ⟨a1, a2, a3, a4, ?_⟩
      intro q hq
      have := a4 p hp
      simp only [Spectrum.write]
      rw [if_neg (by omega)]
      exact a5 q hq
    | get h f p hg ih =>
      obtain ⟨a1, a2, a3, a4, a5⟩ := ih
      obtain ⟨b1, b2, b3, b4, b5⟩ := getData_frame hg
      refine ⟨by rw [b3, a1], by rw [b4, a2], by omega, ?_, ?_⟩
      · intro q hq
        rcases List.mem_cons.mp hq with rfl | hq
        · omega
        · exact a4 q hq
      · intro q hq
        rw [b5 q (by omega)]
        exact a5 q hq
  obtain ⟨a1, a2, a3, a4, a5⟩ := inv
  rw [reported_eq, reported_eq, a1, a2]
  cases hd : s.data with
  | none => rfl
  | some p => simp only [a5 p (hv p hd)]

/-- C50: for float data a read reports NaN exactly at the entries equal to the no-data value (and at those
that were NaN already), and every other entry unchanged. -/
theorem C50_values (s : St K) (p : Nat) (hd : s.data = some p) (hf : (s.heap p).isInt = false) :
    ∃ out, reported s true = .ok (some out) ∧ out.length = (s.heap p).vals.length ∧
      ∀ (i : Nat) (v : Option K), (s.heap p).vals[i]? = some v →
        out[i]? = some (if v ≠ none ∧ v = s.nodata then none else v) := by
  rw [reported_eq, hd]
  refine ⟨replaceNodata s.nodata (s.heap p).vals, by simp [hf], by simp [replaceNodata], ?_⟩
  intro i v hv
  simp only [replaceNodata, List.getElem?_map, hv, Option.map_some, Option.some.injEq]
  cases v with
  | none => simp
  | some x =>
    simp only [Option.isSome_some, Bool.true_and, beq_iff_eq, ne_eq, reduceCtorEq, not_false_eq_true, true_and]

/-- C50: with `nodata_to_nan=False` the data are reported as they are. -/
theorem C50_raw_values (s : St K) (p : Nat) (hd : s.data = some p) : reported s false = .ok (some (s.heap p).vals) := by
  rw [reported_eq, hd]; simp

/-- C50 fails for integer data: the default read always raises ValueError. -/
theorem C50_integer_false (s : St K) (p : Nat) (hd : s.data = some p) (hi : (s.heap p).isInt = true) :
    reported s true = .error .valueError := by
  rw [reported_eq, hd]; simp [hi]

/-- C50: the array a read returns holds exactly what is reported, is a new one (no array the caller could
know already), and after the default read it is an array of floats, so NaN and fractions can be stored in it
and it can serve as data of another spectrum; a raw read keeps the number type of the data. -/
theorem C50_returned_array (s s' : St K) (f : Bool) (p q : Nat) (hd : s.data = some p)
    (h : getData s f = .ok (s', some q)) :
    q = s.next ∧ reported s f = .ok (some (s'.heap q).vals) ∧
    (f = true → (s'.heap q).isInt = false) ∧ (f = false → (s'.heap q).isInt = (s.heap p).isInt) ∧
    reported (setData s' q) f = .ok (some (s'.heap q).vals) := by
  have hr : reported s f = .ok (some (s'.heap q).vals) := by
    unfold reported; rw [h]; rfl
  unfold getData at h
  simp only [hd] at h
  have hq : q = s.next ∧ (f = true → (s'.heap q).isInt = false) ∧ (f = false → (s'.heap q).isInt = (s.heap p).isInt)
      ∧ (f = true → (s'.heap q).vals = replaceNodata s.nodata (s.heap p).vals ∧ s'.nodata = s.nodata) := by
    cases f with
    | true =>
      simp only [if_true] at h
      split at h
      · simp at h
      · simp only [Except.ok.injEq, Prod.mk.injEq, Option.some.injEq] at h
        obtain ⟨rfl, rfl⟩ := h
        simp [alloc]
    | false =>
      simp only [Bool.false_eq_true, if_false, Except.ok.injEq, Prod.mk.injEq, Option.some.injEq] at h
      obtain ⟨rfl, rfl⟩ := h
      simp [alloc]
  refine ⟨hq.1, hr, hq.2.1, hq.2.2.1, ?_⟩
  rw [reported_eq]
  cases f with
  | false => simp [setData]
  | true =>
    obtain ⟨e1, e2⟩ := hq.2.2.2 rfl
    simp only [setData, hq.2.1 rfl, e2, e1, Bool.false_eq_true, if_false, if_true]
    simp only [replaceNodata, List.map_map, Except.ok.injEq, Option.some.injEq]
    apply List.map_congr_left
    intro v _
    simp only [Function.comp]
    by_cases hv : (v.isSome && v == s.nodata) = true
    · simp [hv]
    · simp [hv]

example : ∃ s' q, getData (setData (alloc (St.init : St ℚ) ⟨false, [some 1, some 2]⟩).1 0) true = .ok (s', some q) :=
  ⟨_, _, rfl⟩

/-- Beyond C50: the array given to the setter stays shared: writing to it changes what reads report. -/
theorem C50_setter_shares (s : St K) (p i : Nat) (v : Option K) (hd : s.data = some p) :
    reported (write s p i v) false = .ok (some ((s.heap p).vals.set i v)) := by
  rw [reported_eq]
  simp [write, hd]

/-- A reachable state with float data, a read of it, and a write to the returned array. -/
example : ∃ (s s' : St ℚ) (l : List Nat), Reach s ∧ Reads s [] s' l ∧ s.data = some 0 ∧ (s.heap 0).isInt = false ∧ l = [1] ∧
    (s'.heap 1).vals = [some 5, some 2] := by
  let s0 : St ℚ := (alloc St.init ⟨false, [some 1, some 2]⟩).1
  let s1 : St ℚ := setData s0 0
  have hg : getData s1 true = .ok ((alloc s1 ⟨false, replaceNodata s1.nodata (s1.heap 0).vals⟩).1, some 1) := rfl
  refine ⟨s1, _, [1], Reach.setData (Reach.alloc Reach.init _) 0 (by simp [alloc, St.init]),
    Reads.write (Reads.get (Reads.refl s1 []) true 1 hg) 1 0 (some 5) (by simp), rfl, rfl, rfl, ?_⟩
  simp [write, alloc, s1, s0, setData, St.init, replaceNodata]

/-! ### C51 -/

/-- Specification: the response at wavelength `x` of a response function given by samples: zero outside the
sampled range, on the straight line between neighbouring samples inside. -/
def Response (xp fp : List K) (x v : K) : Prop :=
  ((∃ a, xp.head? = some a ∧ x < a) ∧ v = 0) ∨ ((∃ b, xp.getLast? = some b ∧ b < x) ∧ v = 0) ∨
  (∃ b, xp.getLast? = some b ∧ x = b ∧ fp.getLast? = some v) ∨
  (∃ (j : Nat) (x0 x1 y0 y1 : K), xp[j]? = some x0 ∧ xp[j + 1]? = some x1 ∧ fp[j]? = some y0 ∧ fp[j + 1]? = some y1 ∧
    x0 ≤ x ∧ x < x1 ∧ v = y0 + (x - x0) / (x1 - x0) * (y1 - y0))

theorem countLe_spec (xp : List K) (hs : xp.Pairwise (· < ·)) (x : K) (i : Nat) (p : K) (hi : xp[i]? = some p) :
    p ≤ x ↔ i < xp.countP (fun p => decide (p ≤ x)) := by
  induction xp generalizing i with
  | nil => simp at hi
  | cons a l ih =>
    rw [List.pairwise_cons] at hs
    by_cases ha : a ≤ x
    · rw [List.countP_cons_of_pos (by simpa using ha)]
      cases i with
      | zero => simp only [List.getElem?_cons_zero, Option.some.injEq] at hi; subst hi; simp [ha]
      | succ i =>
        rw [List.getElem?_cons_succ] at hi
        rw [ih hs.2 i hi]; omega
    · rw [List.countP_cons_of_neg (by simpa using ha)]
      have hz : l.countP (fun p => decide (p ≤ x)) = 0 := by
        rw [List.countP_eq_zero]
        intro b hb
        simp only [decide_eq_true_eq, not_le]
        exact lt_trans (not_le.mp ha) (hs.1 b hb)
      rw [hz]
      cases i with
      | zero => simp only [List.getElem?_cons_zero, Option.some.injEq] at hi; subst hi; simpa using ha
      | succ i =>
        rw [List.getElem?_cons_succ] at hi
        have := hs.1 p (List.mem_of_getElem? hi)
        simp only [Nat.not_lt_zero, iff_false, not_le]
        exact lt_trans (not_le.mp ha) this

theorem interp1_spec (xp fp : List K) (hne : xp ≠ []) (hl : xp.length = fp.length) (hs : xp.Pairwise (· < ·)) (x : K) :
    Response xp fp x (interp1 xp fp x) := by
  obtain ⟨a, ha⟩ : ∃ a, xp.head? = some a := by
    cases xp with
    | nil => exact absurd rfl hne
    | cons a l => exact ⟨a, rfl⟩
  obtain ⟨b, hb⟩ : ∃ b, xp.getLast? = some b := ⟨_, List.getLast?_eq_some_getLast hne⟩
  have hn : 0 < xp.length := List.length_pos_iff.mpr hne
  unfold interp1
  simp only [ha, hb]
  by_cases h1 : x < a
  · rw [if_pos h1]; exact Or.inl ⟨⟨a, ha, h1⟩, rfl⟩
  rw [if_neg h1]
  by_cases h2 : b < x
  · rw [if_pos h2]; exact Or.inr (Or.inl ⟨⟨b, hb, h2⟩, rfl⟩)
  rw [if_neg h2]
  set c := xp.countP (fun p => decide (p ≤ x)) with hc
  have hget : ∀ (l : List K) (k : Nat), k < l.length → l[k]? = some (l.getD k 0) := by
    intro l k hk; simp [hk]
  have hspec := countLe_spec xp hs x
  have ha' : xp[0]? = some a := by rw [← List.head?_eq_getElem?]; exact ha
  have hc0 : 0 < c := (hspec 0 a ha').mp (not_lt.mp h1)
  have hcl : c ≤ xp.length := List.countP_le_length
  by_cases hj : c - 1 + 1 < xp.length
  · rw [if_pos hj]
    right; right; right
    have e0 := hget xp (c - 1) (by omega)
    have e1 := hget xp (c - 1 + 1) hj
    have f0 := hget fp (c - 1) (by omega)
    have f1 := hget fp (c - 1 + 1) (by omega)
    refine ⟨c - 1, _, _, _, _, e0, e1, f0, f1, (hspec _ _ e0).mpr (by omega), ?_, ?_⟩
    · by_contra hn'
      have := (hspec _ _ e1).mp (not_lt.mp hn')
      omega
    · ring
  · rw [if_neg hj]
    right; right; left
    have hb' : xp[xp.length - 1]? = some b := by rw [← List.getLast?_eq_getElem?]; exact hb
    have hcn : c - 1 = xp.length - 1 := by omega
    have hbx := (hspec _ b hb').mpr (by omega)
    refine ⟨b, hb, le_antisymm (not_lt.mp h2) hbx, ?_⟩
    rw [List.getLast?_eq_getElem?, hcn, hl]
    exact hget fp (fp.length - 1) (by omega)

theorem Response.nonneg {xp fp : List K} {x v : K} (h : Response xp fp x v) (hf : ∀ y ∈ fp, 0 ≤ y) : 0 ≤ v := by
  rcases h with ⟨_, rfl⟩ | ⟨_, rfl⟩ | ⟨b, _, _, h⟩ | ⟨j, x0, x1, y0, y1, _, _, h3, h4, h5, h6, rfl⟩
  · exact le_rfl
  · exact le_rfl
  · exact hf v (List.mem_of_getLast? h)
  · have hy0 := hf y0 (List.mem_of_getElem? h3)
    have hy1 := hf y1 (List.mem_of_getElem? h4)
    have hd : 0 < x1 - x0 := by linarith
    have e : y0 + (x - x0) / (x1 - x0) * (y1 - y0) = ((x1 - x) * y0 + (x - x0) * y1) / (x1 - x0) := by
      field_simp; ring
    rw [e]
    apply div_nonneg _ hd.le
    have := mul_nonneg (by linarith : 0 ≤ x1 - x) hy0
    have := mul_nonneg (by linarith : 0 ≤ x - x0) hy1
    linarith

/-- Specification: the weighted sum of values. -/
def dot (w d : List K) : K := (List.zipWith (· * ·) w d).sum

theorem trapz_weights (xs : List K) (hs : xs.Pairwise (· < ·)) : ∀ (rs : List K), rs.length = xs.length → (∀ r ∈ rs, 0 ≤ r) →
    ∃ w : List K, w.length = xs.length ∧ (∀ v ∈ w, 0 ≤ v) ∧
      (∀ ys : List K, ys.length = xs.length → trapz (List.zipWith (· * ·) ys rs) xs = dot w ys) ∧
      (2 ≤ xs.length → (∃ r ∈ rs, 0 < r) → ∃ v ∈ w, 0 < v) := by
  induction xs with
  | nil =>
    intro rs hl _
    refine ⟨[], rfl, by simp, ?_, by simp⟩
    intro ys hy
    simp at hy; subst hy
    simp [trapz, dot]
  | cons x0 xs ih =>
    intro rs hl hr
    cases xs with
    | nil =>
      refine ⟨[0], rfl, by simp, ?_, by simp⟩
      intro ys hy
      match ys, hy with
      | [y], _ =>
        match rs, hl with
        | [r], _ => simp [trapz, dot]
    | cons x1 xs =>
      match rs, hl with
      | r0 :: r1 :: rs, hl =>
        rw [List.pairwise_cons] at hs
        have h01 : x0 < x1 := hs.1 x1 (by simp)
        obtain ⟨w, hwl, hw0, hwt, hwp⟩ := ih hs.2 (r1 :: rs) (by simpa using hl) (fun r hr' => hr r (by simp at hr' ⊢; tauto))
        match w, hwl with
        | w1 :: ws, hwl =>
          have hr0 := hr r0 (by simp)
          have hr1 := hr r1 (by simp)
          have hw1 := hw0 w1 (by simp)
          refine ⟨(x1 - x0) * r0 / 2 :: ((x1 - x0) * r1 / 2 + w1) :: ws, by simpa using hwl, ?_, ?_, ?_⟩
          · intro v hv
            rcases List.mem_cons.mp hv with rfl | hv
            · exact div_nonneg (mul_nonneg (by linarith) hr0) (by norm_num)
            · rcases List.mem_cons.mp hv with rfl | hv
              · have := div_nonneg (mul_nonneg (by linarith : 0 ≤ x1 - x0) hr1) (by norm_num : (0:K) ≤ 2)
                linarith
              · exact hw0 v (by simp [hv])
          · intro ys hy
            match ys, hy with
            | y0 :: y1 :: ys, hy =>
              have := hwt (y1 :: ys) (by simpa using hy)
              simp only [List.zipWith_cons_cons, dot, List.sum_cons] at this ⊢
              simp only [trapz]
              rw [this]
              ring
          · intro _ hex
            obtain ⟨r, hrm, hrp⟩ := hex
            rcases List.mem_cons.mp hrm with rfl | hrm
            · exact ⟨_, List.mem_cons_self, div_pos (mul_pos (by linarith) hrp) (by norm_num)⟩
            · rcases List.mem_cons.mp hrm with rfl | hrm
              · refine ⟨(x1 - x0) * r / 2 + w1, by simp, ?_⟩
                have := div_pos (mul_pos (by linarith : 0 < x1 - x0) hrp) (by norm_num : (0:K) < 2)
                linarith
              · -- a positive response further on
                have h2 : 2 ≤ (x1 :: xs).length := by
                  have : rs.length = xs.length := by simpa using hl
                  have := List.length_pos_of_mem hrm
                  simp; omega
                obtain ⟨v, hv, hvp⟩ := hwp h2 ⟨r, by simp [hrm], hrp⟩
                rcases List.mem_cons.mp hv with rfl | hv
                · refine ⟨(x1 - x0) * r1 / 2 + v, by simp, ?_⟩
                  have := div_nonneg (mul_nonneg (by linarith : 0 ≤ x1 - x0) hr1) (by norm_num : (0:K) ≤ 2)
                  linarith
                · exact ⟨v, by simp [hv], hvp⟩

/-- Specification: response functions as the claim needs them: at least one sample, as many values as
wavelengths, increasing wavelengths, no negative response. -/
def GoodResponse (rsr : List K × List K) : Prop :=
  rsr.1 ≠ [] ∧ rsr.1.length = rsr.2.length ∧ rsr.1.Pairwise (· < ·) ∧ ∀ y ∈ rsr.2, 0 ≤ y

/-- Specification: the response is non-zero at one of the spectrum's wavelengths. -/
def Overlaps (wl : List K) (rsr : List K × List K) : Prop := ∃ x ∈ wl, ∃ v, Response rsr.1 rsr.2 x v ∧ v ≠ 0

theorem Response.unique {xp fp : List K} (hs : xp.Pairwise (· < ·)) {x v v' : K} (h : Response xp fp x v) (h' : Response xp fp x v') :
    v = v' := by
  have sorted : ∀ (i j : Nat) (p q : K), xp[i]? = some p → xp[j]? = some q → i < j → p < q := by
    intro i j p q hi hj hij
    obtain ⟨hi', rfl⟩ := List.getElem?_eq_some_iff.mp hi
    obtain ⟨hj', rfl⟩ := List.getElem?_eq_some_iff.mp hj
    exact List.pairwise_iff_getElem.mp hs i j hi' hj' hij
  have hle : ∀ (i j : Nat) (p q : K), xp[i]? = some p → xp[j]? = some q → i ≤ j → p ≤ q := by
    intro i j p q hi hj hij
    rcases Nat.lt_or_ge i j with h | h
    · exact (sorted i j p q hi hj h).le
    · have : i = j := by omega
      subst this; rw [hi] at hj; simp at hj; exact hj.le
  have first : ∀ (a p : K) (j : Nat), xp.head? = some a → xp[j]? = some p → a ≤ p := by
    intro a p j ha hj
    rw [List.head?_eq_getElem?] at ha
    exact hle 0 j a p ha hj (by omega)
  have last : ∀ (b p : K) (j : Nat), xp.getLast? = some b → xp[j]? = some p → p ≤ b := by
    intro b p j hb hj
    rw [List.getLast?_eq_getElem?] at hb
    have : j < xp.length := (List.getElem?_eq_some_iff.mp hj).1
    exact hle j (xp.length - 1) p b hj hb (by omega)
  have lastmem : ∀ b, xp.getLast? = some b → xp[xp.length - 1]? = some b := by
    intro b hb; rw [← List.getLast?_eq_getElem?]; exact hb
  rcases h with ⟨⟨a, ha, hxa⟩, rfl⟩ | ⟨⟨b, hb, hbx⟩, rfl⟩ | ⟨b, hb, rfl, hv⟩ | ⟨j, x0, x1, y0, y1, e0, e1, f0, f1, g0, g1, rfl⟩
  · rcases h' with ⟨_, rfl⟩ | ⟨_, rfl⟩ | ⟨b', hb', rfl, _⟩ | ⟨j', x0', x1', y0', y1', e0', e1', f0', f1', g0', g1', rfl⟩
    · rfl
    · rfl
    · exact absurd (first a x _ ha (lastmem x hb')) (not_le.mpr hxa)
    · exact absurd (le_trans (first a x0' j' ha e0') g0') (not_le.mpr hxa)
  · rcases h' with ⟨_, rfl⟩ | ⟨_, rfl⟩ | ⟨b', hb', rfl, _⟩ | ⟨j', x0', x1', y0', y1', e0', e1', f0', f1', g0', g1', rfl⟩
    · rfl
    · rfl
    · rw [hb] at hb'; simp at hb'; subst hb'; exact absurd hbx (lt_irrefl _)
    · exact absurd (lt_of_lt_of_le (lt_trans hbx g1') (last b x1' _ hb e1')) (lt_irrefl _)
  · rcases h' with ⟨⟨a', ha', hxa'⟩, rfl⟩ | ⟨⟨b', hb', hbx'⟩, rfl⟩ | ⟨b', hb', _, hv'⟩ | ⟨j', x0', x1', y0', y1', e0', e1', f0', f1', g0', g1', rfl⟩
    · exact absurd (first a' x _ ha' (lastmem x hb)) (not_le.mpr hxa')
    · rw [hb] at hb'; simp at hb'; subst hb'; exact absurd hbx' (lt_irrefl _)
    · rw [hv] at hv'; simpa using hv'
    · exact absurd (lt_of_lt_of_le g1' (last x x1' _ hb e1')) (lt_irrefl _)
  · rcases h' with ⟨⟨a', ha', hxa'⟩, rfl⟩ | ⟨⟨b', hb', hbx'⟩, rfl⟩ | ⟨b', hb', rfl, hv'⟩ | ⟨j', x0', x1', y0', y1', e0', e1', f0', f1', g0', g1', rfl⟩
    · exact absurd (le_trans (first a' x0 j ha' e0) g0) (not_le.mpr hxa')
    · exact absurd (lt_of_lt_of_le (lt_trans hbx' g1) (last b' x1 _ hb' e1)) (lt_irrefl _)
    · exact absurd (lt_of_lt_of_le g1 (last x x1 _ hb' e1)) (lt_irrefl _)
    · have hjj : j = j' := by
        rcases Nat.lt_trichotomy j j' with hlt | heq | hgt
        · have := hle (j + 1) j' x1 x0' e1 e0' (by omega); exact absurd (lt_of_lt_of_le g1 (le_trans this g0')) (lt_irrefl _)
        · exact heq
        · have := hle (j' + 1) j x1' x0 e1' e0 (by omega); exact absurd (lt_of_lt_of_le g1' (le_trans this g0)) (lt_irrefl _)
      subst hjj
      rw [e0] at e0'; rw [e1] at e1'; rw [f0] at f0'; rw [f1] at f1'
      simp only [Option.some.injEq] at e0' e1' f0' f1'
      subst e0' e1' f0' f1'
      rfl

theorem dot_ones (w : List K) : dot w (List.replicate w.length 1) = w.sum := by
  induction w with
  | nil => rfl
  | cons a w ih =>
    simp only [dot, List.length_cons, List.replicate_succ, List.zipWith_cons_cons, List.sum_cons, mul_one] at ih ⊢
    rw [ih]

theorem sum_pos_of (w : List K) (h0 : ∀ v ∈ w, 0 ≤ v) (h : ∃ v ∈ w, 0 < v) : 0 < w.sum := by
  induction w with
  | nil => simp at h
  | cons a w ih =>
    rw [List.sum_cons]
    have hw : 0 ≤ w.sum := List.sum_nonneg (fun v hv => h0 v (by simp [hv]))
    obtain ⟨v, hv, hp⟩ := h
    rcases List.mem_cons.mp hv with rfl | hv
    · linarith
    · have := ih (fun v hv => h0 v (by simp [hv])) ⟨v, hv, hp⟩
      have := h0 a (by simp)
      linarith

theorem dot_div (w d : List K) (c : K) : dot (w.map (fun v => v / c)) d = dot w d / c := by
  unfold dot
  induction w generalizing d with
  | nil => simp
  | cons a w ih =>
    cases d with
    | nil => simp
    | cons b d =>
      simp only [List.map_cons, List.zipWith_cons_cons, List.sum_cons]
      rw [ih d]; ring

theorem resampleBand_weights (wl : List K) (hs : wl.Pairwise (· < ·)) (h2 : 2 ≤ wl.length) (rsr : List K × List K)
    (hg : GoodResponse rsr) (ho : Overlaps wl rsr) :
    ∃ w : List K, w.length = wl.length ∧ (∀ v ∈ w, 0 ≤ v) ∧ w.sum = 1 ∧
      ∀ data : List K, data.length = wl.length → resampleBand wl data rsr = .ok (some (dot w data)) := by
  obtain ⟨g1, g2, g3, g4⟩ := hg
  have hnn : ∀ r ∈ wl.map (interp1 rsr.1 rsr.2), 0 ≤ r := by
    intro r hr
    obtain ⟨x, _, rfl⟩ := List.mem_map.mp hr
    exact (interp1_spec rsr.1 rsr.2 g1 g2 g3 x).nonneg g4
  obtain ⟨w, hwl, hw0, hwt, hwp⟩ := trapz_weights wl hs (wl.map (interp1 rsr.1 rsr.2)) (by simp) hnn
  have hpos : ∃ v ∈ w, 0 < v := by
    apply hwp h2
    obtain ⟨x, hx, v, hv, hv0⟩ := ho
    have := hv.unique g3 (interp1_spec rsr.1 rsr.2 g1 g2 g3 x)
    refine ⟨interp1 rsr.1 rsr.2 x, List.mem_map.mpr ⟨x, hx, rfl⟩, ?_⟩
    exact lt_of_le_of_ne ((interp1_spec rsr.1 rsr.2 g1 g2 g3 x).nonneg g4) (by rw [← this]; exact hv0.symm)
  have hsum := sum_pos_of w hw0 hpos
  have hones : trapz (wl.map (interp1 rsr.1 rsr.2)) wl = w.sum := by
    have h := hwt (List.replicate wl.length 1) (by simp)
    have e : ∀ (r : List K), List.zipWith (· * ·) (List.replicate r.length 1) r = r := by
      intro r
      induction r with
      | nil => rfl
      | cons a r ih => simp [List.replicate_succ, ih]
    have e' := e (wl.map (interp1 rsr.1 rsr.2))
    rw [List.length_map] at e'
    rw [e'] at h
    rw [h, ← hwl, dot_ones]
  refine ⟨w.map (fun v => v / w.sum), by simp [hwl], ?_, ?_, ?_⟩
  · intro v hv
    obtain ⟨u, hu, rfl⟩ := List.mem_map.mp hv
    exact div_nonneg (hw0 u hu) hsum.le
  · have h := dot_div w (List.replicate w.length 1) w.sum
    have h' := dot_ones (w.map (fun v => v / w.sum))
    rw [List.length_map] at h'
    rw [h'] at h
    rw [h, dot_ones, div_self hsum.ne']
  · intro data hd
    unfold resampleBand
    rw [if_neg g1, if_neg (by simpa using g2)]
    simp only [hd.symm, if_true, hones, hwt data hd, fdiv]
    rw [if_neg hsum.ne', dot_div]

/-- C51: for a spectrum at increasing wavelengths and response functions that overlap it, each returned value
is an average of the spectral values with non-negative weights of sum one that do not depend on the
spectral values; there is one value per response function. -/
theorem C51_weighted_average (wl : List K) (hs : wl.Pairwise (· < ·)) (h2 : 2 ≤ wl.length) (rsrs : List (List K × List K))
    (hg : ∀ r ∈ rsrs, GoodResponse r) (ho : ∀ r ∈ rsrs, Overlaps wl r) :
    ∃ ws : List (List K), ws.length = rsrs.length ∧ (∀ w ∈ ws, w.length = wl.length ∧ (∀ v ∈ w, 0 ≤ v) ∧ w.sum = 1) ∧
      ∀ data : List K, data.length = wl.length → resample wl data rsrs = .ok (ws.map (fun w => some (dot w data))) := by
  induction rsrs with
  | nil => exact ⟨[], rfl, by simp, fun _ _ => rfl⟩
  | cons r rs ih =>
    obtain ⟨ws, e1, e2, e3⟩ := ih (fun r hr => hg r (by simp [hr])) (fun r hr => ho r (by simp [hr]))
    obtain ⟨w, f1, f2, f3, f4⟩ := resampleBand_weights wl hs h2 r (hg r (by simp)) (ho r (by simp))
    refine ⟨w :: ws, by simp [e1], ?_, ?_⟩
    · intro w' hw'
      rcases List.mem_cons.mp hw' with rfl | hw'
      · exact ⟨f1, f2, f3⟩
      · exact e2 w' hw'
    · intro data hd
      unfold resample
      rw [f4 data hd, e3 data hd]
      rfl

/-- C51: an average with non-negative weights of sum one lies between the smallest and largest values, is
`c` on a constant spectrum `c`, and is linear. -/
theorem C51_average_facts (w : List K) (h0 : ∀ v ∈ w, 0 ≤ v) (h1 : w.sum = 1) :
    (∀ (d : List K) (lo hi : K), d.length = w.length → (∀ v ∈ d, lo ≤ v ∧ v ≤ hi) → lo ≤ dot w d ∧ dot w d ≤ hi) ∧
    (∀ c : K, dot w (List.replicate w.length c) = c) ∧
    (∀ (d d' : List K) (a b : K), d.length = d'.length →
      dot w (List.zipWith (fun x y => a * x + b * y) d d') = a * dot w d + b * dot w d') := by
  refine ⟨?_, ?_, ?_⟩
  · intro d lo hi hl hb
    have key : ∀ (w d : List K), d.length = w.length → (∀ v ∈ w, 0 ≤ v) → (∀ v ∈ d, lo ≤ v ∧ v ≤ hi) →
        lo * w.sum ≤ dot w d ∧ dot w d ≤ hi * w.sum := by
      intro w
      induction w with
      | nil => intro d hl _ _; simp at hl; subst hl; simp [dot]
      | cons a w ih =>
        intro d hl h0 hb
        match d, hl with
        | b :: d, hl =>
          obtain ⟨i1, i2⟩ := ih d (by simpa using hl) (fun v hv => h0 v (by simp [hv])) (fun v hv => hb v (by simp [hv]))
          have ha := h0 a (by simp)
          obtain ⟨b1, b2⟩ := hb b (by simp)
          simp only [dot, List.zipWith_cons_cons, List.sum_cons] at i1 i2 ⊢
          have m1 := mul_le_mul_of_nonneg_left b1 ha
          have m2 := mul_le_mul_of_nonneg_left b2 ha
          constructor <;> nlinarith
    have := key w d hl h0 hb
    rw [h1, mul_one, mul_one] at this
    exact this
  · intro c
    have key : ∀ w : List K, dot w (List.replicate w.length c) = w.sum * c := by
      intro w
      induction w with
      | nil => simp [dot]
      | cons a w ih =>
        simp only [dot, List.length_cons, List.replicate_succ, List.zipWith_cons_cons, List.sum_cons] at ih ⊢
        rw [ih]; ring
    rw [key, h1, one_mul]
  · intro d d' a b hl
    clear h0 h1
    induction w generalizing d d' with
    | nil => simp [dot]
    | cons x w ih =>
      match d, d', hl with
      | [], [], _ => simp [dot]
      | u :: d, v :: d', hl =>
        have := ih d d' (by simpa using hl)
        simp only [dot, List.zipWith_cons_cons, List.sum_cons] at this ⊢
        rw [this]; ring

/-- C51, boundary: a response function that vanishes at all wavelengths of the spectrum gives no number. -/
theorem C51_no_overlap (wl data : List K) (hl : wl.length = data.length) (rsr : List K × List K) (hg : GoodResponse rsr)
    (ho : ¬ Overlaps wl rsr) : resampleBand wl data rsr = .ok none := by
  obtain ⟨g1, g2, g3, g4⟩ := hg
  have hz : wl.map (interp1 rsr.1 rsr.2) = List.replicate wl.length 0 := by
    rw [List.eq_replicate_iff]
    refine ⟨by simp, ?_⟩
    intro b hb
    obtain ⟨x, hx, rfl⟩ := List.mem_map.mp hb
    by_contra hn
    exact ho ⟨x, hx, _, interp1_spec rsr.1 rsr.2 g1 g2 g3 x, hn⟩
  have ht : ∀ (n : Nat) (xs : List K), trapz (List.replicate n 0) xs = 0 := by
    intro n
    induction n with
    | zero => intro xs; simp [trapz]
    | succ n ih =>
      intro xs
      match n, xs with
      | 0, xs => simp [trapz]
      | n + 1, [] => simp [trapz, List.replicate_succ]
      | n + 1, [x] => simp [trapz, List.replicate_succ]
      | n + 1, x0 :: x1 :: xs =>
        have := ih (x1 :: xs)
        simp only [List.replicate_succ, trapz] at this ⊢
        rw [this]; ring
  unfold resampleBand
  rw [if_neg g1, if_neg (by simpa using g2)]
  simp only [hl, hz, ht, fdiv, if_true]

/-- C51, malformed calls: an empty response, a response whose values and wavelengths differ in number, and a
spectrum of several values whose number differs from that of its (several) wavelengths, are all rejected
with ValueError; the whole resampling then fails, whichever response it is. -/
theorem C51_malformed (wl data : List K) (rsrs : List (List K × List K)) (rsr : List K × List K) (hr : rsr ∈ rsrs)
    (hbad : rsr.1 = [] ∨ rsr.1.length ≠ rsr.2.length ∨
      (wl.length ≠ data.length ∧ data.length ≠ 1 ∧ (wl.length ≠ 1 ∨ 2 < data.length))) :
    resample wl data rsrs = .error .valueError := by
  have hval : ∀ r e, resampleBand wl data r = .error e → e = .valueError := by
    intro r e h
    unfold resampleBand at h
    simp only [] at h
    split_ifs at h <;> (injection h with h; exact h.symm)
  have hone : resampleBand wl data rsr = .error .valueError := by
    unfold resampleBand
    by_cases h1 : rsr.1 = []
    · rw [if_pos h1]
    · rw [if_neg h1]
      by_cases h2 : rsr.1.length ≠ rsr.2.length
      · rw [if_pos h2]
      · rw [if_neg h2]
        rcases hbad with h | h | ⟨ha, hb, hc⟩
        · exact absurd h h1
        · exact absurd h h2
        · simp only []
          rw [if_neg ha, if_neg hb, if_neg (by omega)]
  induction rsrs with
  | nil => simp at hr
  | cons r rs ih =>
    unfold resample
    cases hb : resampleBand wl data r with
    | error e => rw [hval r e hb]; rfl
    | ok v =>
      rcases List.mem_cons.mp hr with rfl | hr
      · rw [hone] at hb; simp at hb
      · rw [ih hr]; rfl

example : resample ([1, 2, 3] : List ℚ) [1, 2] [([1, 2, 3], [0, 1, 0])] = .error .valueError :=
  C51_malformed _ _ _ ([1, 2, 3], [0, 1, 0]) (by simp) (by right; right; simp)

theorem trapz_scale (c : K) (r xs : List K) : trapz (r.map (c * ·)) xs = c * trapz r xs := by
  induction r generalizing xs with
  | nil => cases xs <;> simp [trapz]
  | cons a r ih =>
    match r, xs with
    | [], xs => cases xs <;> simp [trapz]
    | b :: r, [] => simp [trapz]
    | b :: r, [x] => simp [trapz]
    | b :: r, x0 :: x1 :: xs =>
      have := ih (x1 :: xs)
      simp only [List.map_cons, trapz] at this ⊢
      rw [this]; ring

/-- C51, boundary: a spectrum of one value at several wavelengths is not rejected: the value is taken as a
constant spectrum and is what every overlapping band reports. -/
theorem C51_broadcast (wl : List K) (hs : wl.Pairwise (· < ·)) (h2 : 2 ≤ wl.length) (rsr : List K × List K)
    (hg : GoodResponse rsr) (ho : Overlaps wl rsr) (c : K) : resampleBand wl [c] rsr = .ok (some c) := by
  obtain ⟨w, w1, w2, w3, w4⟩ := resampleBand_weights wl hs h2 rsr hg ho
  have h0 := w4 (List.replicate wl.length 1) (by simp)
  have h0' : dot w (List.replicate wl.length 1) = 1 := by rw [← w1, dot_ones, w3]
  rw [h0'] at h0
  obtain ⟨g1, g2, _⟩ := hg
  unfold resampleBand at h0 ⊢
  rw [if_neg g1, if_neg (by simpa using g2)] at h0 ⊢
  simp only [List.length_replicate, if_true] at h0
  have hlen : ¬ wl.length = [c].length := by simp; omega
  simp only []
  rw [if_neg hlen, if_pos (by simp)]
  simp only [List.headD_cons]
  have e : ∀ (r : List K), List.zipWith (· * ·) (List.replicate r.length 1) r = r := by
    intro r
    induction r with
    | nil => rfl
    | cons a r ih => simp [List.replicate_succ, ih]
  have e' := e (wl.map (interp1 rsr.1 rsr.2))
  rw [List.length_map] at e'
  rw [e'] at h0
  rw [trapz_scale]
  unfold fdiv at h0 ⊢
  split_ifs at h0 ⊢ with hz
  · simp at h0
  · rw [mul_div_assoc, div_self hz, mul_one]

/-- A spectrum at 1, 2, 3 and a triangular response around 2. -/
example : GoodResponse (([1, 2, 3] : List ℚ), ([0, 1, 0] : List ℚ)) ∧ Overlaps ([1, 2, 3] : List ℚ) ([1, 2, 3], [0, 1, 0]) := by
  constructor
  · refine ⟨by simp, rfl, by simp; norm_num, by simp⟩
  · refine ⟨2, by simp, 1, ?_, by norm_num⟩
    right; right; right
    exact ⟨1, 2, 3, 1, 0, rfl, rfl, rfl, rfl, by norm_num, by norm_num, by norm_num⟩

end
end Verif.Spectrum
