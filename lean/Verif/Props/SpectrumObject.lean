import Verif.Model.SpectrumObject
import Verif.Props.Spectrum

/-! C109: the attributes of a spectrum, its units, and the spectrum made by resampling. -/

set_option linter.unusedSectionVars false

namespace Verif.SpectrumObject
open Verif Spectrum

section
variable {K : Type} [Field K] [LinearOrder K] [IsStrictOrderedRing K]

/-! ### Specification -/

/-- The value given in the last call of one setter of one spectrum, None without such a call. -/
def LastSet (ops : List (Op K)) (s : Nat) (a : Attr) (v : Option (Val K)) : Prop :=
  (v = none ∧ ∀ v', Op.set s a v' ∉ ops) ∨
  ∃ before after, ops = before ++ .set s a v :: after ∧ ∀ v', Op.set s a v' ∉ after

/-- Spectrum `s` has the given wavelengths (an array without NaN) and float data (`none` is NaN) in allocated arrays. -/
def Holds (w : World K) (s : Nat) (wl : List K) (data : List (Option K)) : Prop :=
  ∃ p q, get w s .wavelengths = some (.arr p) ∧ p < w.next ∧ (w.heap p).vals = wl.map some ∧
    get w s .data = some (.arr q) ∧ q < w.next ∧ (w.heap q).isInt = false ∧ (w.heap q).vals = data

/-- A data value is missing: NaN or the spectrum's no-data value. -/
def Missing (w : World K) (s : Nat) (v : Option K) : Prop := v = none ∨ ∃ x, v = some x ∧ get w s .nodata = some (.num x)

/-! ### Lemmas -/

theorem var_inj {a b : Attr} (h : getterVar a = setterVar b) : a = b := by
  revert h
  cases a <;> cases b <;> decide +kernel

theorem var_eq (a : Attr) : getterVar a = setterVar a := by cases a <;> rfl

theorem get_step_set (w : World K) (s t : Nat) (a b : Attr) (v : Option (Val K)) :
    get (step w (.set t b v)) s a = if s = t ∧ a = b then v else get w s a := by
  unfold get step
  by_cases hs : s = t
  · subst hs
    by_cases ha : a = b
    · subst ha
      simp [var_eq]
    · have : getterVar a ≠ setterVar b := fun h => ha (var_inj h)
      simp [ha, this]
  · simp [hs]

theorem get_step_write (w : World K) (s : Nat) (a : Attr) (p i : Nat) (v : Option K) :
    get (step w (.write p i v)) s a = get w s a := rfl

theorem run_append (w : World K) (l m : List (Op K)) : run w (l ++ m) = run (run w l) m := List.foldl_append

theorem nodataOf_some (w : World K) (s : Nat) (x : K) : nodataOf w s = some x ↔ get w s .nodata = some (.num x) := by
  unfold nodataOf
  split
  · rename_i v h
    rw [h]; simp
  · rename_i h
    constructor
    · intro h'; simp at h'
    · intro h'; exact absurd h' (h x)

theorem getData_ok (w : World K) (s q : Nat) (hd : get w s .data = some (.arr q)) (hf : (w.heap q).isInt = false) :
    getData w s true = .ok ((w.alloc ⟨false, replaceNodata (nodataOf w s) (w.heap q).vals⟩).1, some w.next) := by
  unfold getData
  simp only [hd]
  rw [if_pos trivial, hf]
  rfl

theorem finite_map (l : List K) : finite (l.map some) = some l := by
  induction l with
  | nil => rfl
  | cons v l ih => rw [List.map_cons, finite, ih]; rfl

/-- Everything allocated in `w` is as it was in `w'`. -/
def Extends (w w' : World K) : Prop :=
  w.next ≤ w'.next ∧ w'.specs = w.specs ∧ w'.count = w.count ∧ ∀ p, p < w.next → w'.heap p = w.heap p

theorem Extends.refl (w : World K) : Extends w w := ⟨le_rfl, rfl, rfl, fun _ _ => rfl⟩

theorem Extends.trans {a b c : World K} (h1 : Extends a b) (h2 : Extends b c) : Extends a c :=
  ⟨h1.1.trans h2.1, h2.2.1.trans h1.2.1, h2.2.2.1.trans h1.2.2.1, fun p hp => (h2.2.2.2 p (hp.trans_le h1.1)).trans (h1.2.2.2 p hp)⟩

theorem Extends.get {a b : World K} (h : Extends a b) (s : Nat) (x : Attr) : get b s x = get a s x := by
  unfold SpectrumObject.get; rw [h.2.1]

theorem Extends.holds {a b : World K} (h : Extends a b) {s : Nat} {wl : List K} {data : List (Option K)} (hh : Holds a s wl data) :
    Holds b s wl data := by
  obtain ⟨p, q, h1, h2, h3, h4, h5, h6, h7⟩ := hh
  exact ⟨p, q, by rw [h.get]; exact h1, h2.trans_le h.1, by rw [h.2.2.2 p h2]; exact h3, by rw [h.get]; exact h4, h5.trans_le h.1,
    by rw [h.2.2.2 q h5]; exact h6, by rw [h.2.2.2 q h5]; exact h7⟩

theorem alloc_extends (w : World K) (a : Arr K) : Extends w (w.alloc a).1 := by
  refine ⟨Nat.le_succ _, rfl, rfl, ?_⟩
  intro p hp
  simp only [World.alloc]
  rw [if_neg (by omega)]

theorem alloc_new (w : World K) (a : Arr K) : (w.alloc a).1.heap w.next = a := by
  simp [World.alloc]

theorem replace_keep (w : World K) (s : Nat) (l : List K) (h : ∀ v ∈ l, ¬ Missing w s (some v)) :
    replaceNodata (nodataOf w s) (l.map some) = l.map some := by
  unfold replaceNodata
  rw [List.map_map]
  apply List.map_congr_left
  intro v hv
  have := h v hv
  simp only [Function.comp, Option.isSome_some, Bool.true_and, beq_iff_eq]
  rw [if_neg]
  intro e
  exact this (Or.inr ⟨v, rfl, (nodataOf_some w s v).1 e.symm⟩)

theorem replace_missing (w : World K) (s : Nat) (l : List (Option K)) (h : ∃ v ∈ l, Missing w s v) :
    (replaceNodata (nodataOf w s) l).any (·.isNone) = true := by
  obtain ⟨v, hv, hm⟩ := h
  rw [List.any_eq_true]
  refine ⟨none, ?_, rfl⟩
  unfold replaceNodata
  rw [List.mem_map]
  refine ⟨v, hv, ?_⟩
  rcases hm with rfl | ⟨x, rfl, hx⟩
  · simp
  · rw [(nodataOf_some w s x).2 hx]; simp

theorem response_ok (w : World K) (t : Nat) (x y : List K) (h : Holds w t x (y.map some)) (hm : ∀ v ∈ y, ¬ Missing w t (some v)) :
    ∃ w', response w t = .ok (w', (x, y)) ∧ Extends w w' := by
  obtain ⟨p, q, h1, h2, h3, h4, h5, h6, h7⟩ := h
  refine ⟨(w.alloc ⟨false, replaceNodata (nodataOf w t) (w.heap q).vals⟩).1, ?_, alloc_extends _ _⟩
  unfold response
  rw [getData_ok w t q h4 h6, ok_bind]
  simp only [h1, addr]
  rw [h3, finite_map, alloc_new, h7, replace_keep w t y hm]
  simp only [finite_map]

/-- The value of one resampled band, as the properties need it. -/
def BandValue (w : World K) (s : Nat) (wl : List K) (data : List (Option K)) (r : List K × List K) (v : Option K) : Prop :=
  ((∃ x ∈ data, Missing w s x) → v = none) ∧
  (∀ d : List K, data = d.map some → (∀ x ∈ d, ¬ Missing w s (some x)) → resampleBand wl d r = .ok v)

theorem resampleBand_total (wl data : List K) (r : List K × List K) (hl : wl.length = data.length) (h1 : r.1 ≠ [])
    (h2 : r.1.length = r.2.length) : ∃ v, resampleBand wl data r = .ok v := by
  unfold resampleBand
  rw [if_neg h1, if_neg (by simpa using h2)]
  simp only []
  rw [if_pos hl]
  exact ⟨_, rfl⟩

theorem band_ok (w : World K) (s : Nat) (wl : List K) (data : List (Option K)) (hl : wl.length = data.length)
    (r : List K × List K) (h1 : r.1 ≠ []) (h2 : r.1.length = r.2.length) :
    ∃ v, resampleNan wl (replaceNodata (nodataOf w s) data) r = .ok v ∧ BandValue w s wl data r v := by
  obtain ⟨b, hb⟩ := resampleBand_total wl ((replaceNodata (nodataOf w s) data).map (·.getD 0)) r
    (by simp [replaceNodata, hl]) h1 h2
  refine ⟨if (replaceNodata (nodataOf w s) data).any (·.isNone) then none else b, ?_, ?_, ?_⟩
  · unfold resampleNan
    rw [hb, ok_bind]
  · intro hm
    rw [if_pos (replace_missing w s data hm)]
  · rintro d rfl hd
    rw [replace_keep w s d hd] at hb ⊢
    rw [List.map_map] at hb
    have e : d.map ((fun x => x.getD 0) ∘ some) = d := by
      conv_rhs => rw [← List.map_id d]
      rfl
    rw [e] at hb
    rw [hb, if_neg]
    simp

theorem loop_ok (s : Nat) (wl : List K) (data : List (Option K)) (hl : wl.length = data.length) (rx ry : Nat → List K) :
    ∀ (rsrs : List Nat) (w : World K), Holds w s wl data →
      (∀ t ∈ rsrs, Holds w t (rx t) ((ry t).map some) ∧ (∀ v ∈ ry t, ¬ Missing w t (some v)) ∧ rx t ≠ [] ∧ (rx t).length = (ry t).length) →
      ∃ w' vals, resampleLoop s w rsrs = .ok (w', vals) ∧ Extends w w' ∧ vals.length = rsrs.length ∧
        ∀ (k t : Nat), rsrs[k]? = some t → ∃ v, vals[k]? = some v ∧ BandValue w s wl data (rx t, ry t) v := by
  intro rsrs
  induction rsrs with
  | nil => intro w _ _; exact ⟨w, [], rfl, Extends.refl w, rfl, by simp⟩
  | cons t rest ih =>
    intro w hs hr
    obtain ⟨g1, g2, g3, g4⟩ := hr t (by simp)
    obtain ⟨w1, e1, x1⟩ := response_ok w t (rx t) (ry t) g1 g2
    have hs1 := x1.holds hs
    obtain ⟨p, q, h1, h2, h3, h4, h5, h6, h7⟩ := hs1
    have e2 := getData_ok w1 s q h4 h6
    have x2 := alloc_extends w1 (⟨false, replaceNodata (nodataOf w1 s) (w1.heap q).vals⟩ : Arr K)
    have x12 := x1.trans x2
    obtain ⟨v, hv1, hv2⟩ := band_ok w1 s wl data hl (rx t, ry t) g3 g4
    obtain ⟨w3, vals, e3, x3, l3, f3⟩ := ih _ (x12.holds hs) (by
      intro t' ht'
      obtain ⟨k1, k2, k3, k4⟩ := hr t' (by simp [ht'])
      refine ⟨x12.holds k1, ?_, k3, k4⟩
      intro u hu hm
      apply k2 u hu
      rcases hm with hm | ⟨z, hz1, hz2⟩
      · exact Or.inl hm
      · exact Or.inr ⟨z, hz1, by rw [x12.get] at hz2; exact hz2⟩)
    have hmiss : ∀ {a b : World K}, Extends a b → ∀ r u, BandValue b s wl data r u → BandValue a s wl data r u := by
      intro a b hx r u hb
      have hm : ∀ z, Missing a s z ↔ Missing b s z := by
        intro z; unfold Missing; rw [hx.get]
      refine ⟨fun ⟨z, hz, hz'⟩ => hb.1 ⟨z, hz, (hm z).1 hz'⟩, fun d hd hd' => hb.2 d hd (fun z hz hz' => hd' z hz ((hm _).2 hz'))⟩
    refine ⟨w3, v :: vals, ?_, x12.trans x3, by simp [l3], ?_⟩
    · unfold resampleLoop
      rw [e1, ok_bind]
      simp only []
      rw [e2, ok_bind]
      have a1 : addr (get (w1.alloc ⟨false, replaceNodata (nodataOf w1 s) (w1.heap q).vals⟩).1 s .wavelengths) = some p := by
        rw [x2.get, h1]; rfl
      simp only [a1]
      rw [x2.2.2.2 p h2, h3, finite_map]
      simp only []
      rw [alloc_new, h7, hv1, ok_bind]
      rw [h7] at e3
      rw [e3, ok_bind]
    · intro k t' hk
      cases k with
      | zero =>
        simp only [List.getElem?_cons_zero, Option.some.injEq] at hk
        subst hk
        exact ⟨v, rfl, hmiss x1 _ _ hv2⟩
      | succ k =>
        rw [List.getElem?_cons_succ] at hk
        obtain ⟨u, hu1, hu2⟩ := f3 k t' hk
        exact ⟨u, by rw [List.getElem?_cons_succ]; exact hu1, hmiss x12 _ _ hu2⟩

/-! ### Properties -/

/-- C109.  After any history of setter calls on any number of spectra and of assignments to arrays, every getter (without units) returns
exactly what its own setter was last given for that spectrum, None when that never happened. -/
theorem C109_last_set (w : World K) (s : Nat) (hs : w.specs s = fun _ => none) (ops : List (Op K)) (a : Attr) :
    LastSet ops s a (get (run w ops) s a) := by
  induction ops using List.reverseRecOn with
  | nil =>
    left
    refine ⟨?_, by simp⟩
    show w.specs s _ = none
    rw [hs]
  | append_singleton ops op ih =>
    rw [run_append]
    show LastSet _ _ _ (get (step (run w ops) op) s a)
    cases op with
    | set t b v =>
      rw [get_step_set]
      by_cases h : s = t ∧ a = b
      · obtain ⟨rfl, rfl⟩ := h
        rw [if_pos ⟨rfl, rfl⟩]
        exact Or.inr ⟨ops, [], rfl, by simp⟩
      · rw [if_neg h]
        have hne : ∀ v', Op.set s a v' ≠ Op.set t b v := by
          intro v' e
          injection e with e1 e2 e3
          exact h ⟨e1, e2⟩
        rcases ih with ⟨h1, h2⟩ | ⟨l, m, h1, h2⟩
        · refine Or.inl ⟨h1, fun v' hv' => ?_⟩
          rcases List.mem_append.mp hv' with h' | h'
          · exact h2 v' h'
          · exact hne v' (by simpa using h')
        · refine Or.inr ⟨l, m ++ [.set t b v], by simpa using congrArg (· ++ [_]) h1, fun v' hv' => ?_⟩
          rcases List.mem_append.mp hv' with h' | h'
          · exact h2 v' h'
          · exact hne v' (by simpa using h')
    | write p i v =>
      rw [get_step_write]
      rcases ih with ⟨h1, h2⟩ | ⟨l, m, h1, h2⟩
      · refine Or.inl ⟨h1, fun v' hv' => ?_⟩
        rcases List.mem_append.mp hv' with h' | h'
        · exact h2 v' h'
        · simp at h'
      · refine Or.inr ⟨l, m ++ [.write p i v], by simpa using congrArg (· ++ [_]) h1, fun v' hv' => ?_⟩
        rcases List.mem_append.mp hv' with h' | h'
        · exact h2 v' h'
        · simp at h'

/-- C109 fails for wavelengths and widths: unlike the spectral data they are returned as the stored array itself, so assigning to an entry of
what the getter returned changes what it returns from then on. -/
theorem C109_live_arrays_false (w : World K) (s : Nat) (a : Attr) (p i : Nat) (old v : Option K)
    (h : get w s a = some (.arr p)) (hi : (w.heap p).vals[i]? = some old) (hv : v ≠ old) :
    get (step w (.write p i v)) s a = some (.arr p) ∧ ((step w (.write p i v)).heap p).vals[i]? = some v ∧
      ((step w (.write p i v)).heap p).vals ≠ (w.heap p).vals := by
  have e : ((step w (.write p i v)).heap p).vals = (w.heap p).vals.set i v := by simp [step]
  have hlt : i < (w.heap p).vals.length := (List.getElem?_eq_some_iff.mp hi).1
  have e2 : ((step w (.write p i v)).heap p).vals[i]? = some v := by rw [e, List.getElem?_set_self hlt]
  refine ⟨h, e2, ?_⟩
  intro e'
  rw [e', hi] at e2
  exact hv (Option.some.inj e2).symm

/-- C109: the spectral data, in contrast, are copied: no assignment to the array returned changes any array or spectrum that existed. -/
theorem C109_data_copied (w w' : World K) (s q : Nat) (f : Bool) (h : getData w s f = .ok (w', some q)) (i : Nat) (v : Option K) :
    (∀ p, p < w.next → (step w' (.write q i v)).heap p = w.heap p) ∧ (step w' (.write q i v)).specs = w.specs := by
  have key : ∃ a, w' = (w.alloc a).1 ∧ q = w.next := by
    unfold getData at h
    split at h
    · simp only [] at h
      split_ifs at h <;> (simp only [Except.ok.injEq, Prod.mk.injEq, Option.some.injEq] at h; exact ⟨_, h.1.symm, h.2.symm⟩)
    · split_ifs at h
      simp at h
  obtain ⟨a, rfl, rfl⟩ := key
  refine ⟨?_, rfl⟩
  intro p hp
  simp only [step, World.alloc]
  rw [if_neg (by omega), if_neg (by omega)]

/-- C109, with units: for wavelengths, widths and data stored with a pint unit the result has the stored values (for data: as the getter without units
reports them) and that unit, and is a new array; nothing else changes. -/
theorem C109_with_units_partial (w : World K) (s p : Nat) (a : Attr) (u : Str) (ha : a = .wavelengths ∨ a = .fwhm)
    (h : get w s a = some (.arr p)) (hu : get w s .wavelengthUnits = some (.unit (.pint u))) (f : Bool) :
    ∃ w' q, getWithUnits w s a f = some (.ok (w', (q, u))) ∧ (w'.heap q).vals = (w.heap p).vals ∧ w.next ≤ q ∧ Extends w w' := by
  refine ⟨(w.alloc ⟨(w.heap p).isInt, (w.heap p).vals⟩).1, w.next, ?_, ?_, le_rfl, alloc_extends _ _⟩
  · rcases ha with rfl | rfl
    · simp only [getWithUnits, h, addr, hu, times]; rfl
    · simp only [getWithUnits, h, addr, hu, times]; rfl
  · rw [alloc_new]

/-- C109, with units, for the spectral data. -/
theorem C109_data_with_units_partial (w : World K) (s : Nat) (u : Str) (hu : get w s .spectrumUnits = some (.unit (.pint u))) (f : Bool)
    (w1 : World K) (q1 : Nat) (h : getData w s f = .ok (w1, some q1)) :
    ∃ w' q, getWithUnits w s .data f = some (.ok (w', (q, u))) ∧ (w'.heap q).vals = (w1.heap q1).vals ∧ q1 ≠ q := by
  have hq : q1 < w1.next := by
    unfold getData at h
    split at h
    · simp only [] at h
      split_ifs at h <;> (
        simp only [Except.ok.injEq, Prod.mk.injEq, Option.some.injEq, World.alloc] at h
        obtain ⟨rfl, rfl⟩ := h
        exact Nat.lt_succ_self _)
    · split_ifs at h
      simp at h
  refine ⟨(w1.alloc ⟨(w1.heap q1).isInt, (w1.heap q1).vals⟩).1, w1.next, ?_, ?_, by omega⟩
  · simp only [getWithUnits, h, ok_bind, hu, times]; rfl
  · rw [alloc_new]

/-- C109 fails with units for spectra from ENVI, SVC and csv files: these readers store the units as text ("nanometers", "reflectance_0-1"), and
asking for wavelengths, widths or data with units then raises TypeError whenever there is an array; so it does without units. -/
theorem C109_text_units_false (w : World K) (s p : Nat) (f : Bool) (n : Str) :
    ((get w s .wavelengthUnits = some (.unit (.text n)) ∨ get w s .wavelengthUnits = none) →
      (get w s .wavelengths = some (.arr p) → getWithUnits w s .wavelengths f = some (.error .typeError)) ∧
      (get w s .fwhm = some (.arr p) → getWithUnits w s .fwhm f = some (.error .typeError))) ∧
    ((get w s .spectrumUnits = some (.unit (.text n)) ∨ get w s .spectrumUnits = none) →
      get w s .data = some (.arr p) → (w.heap p).isInt = false → getWithUnits w s .data f = some (.error .typeError)) := by
  refine ⟨fun hu => ⟨fun h => ?_, fun h => ?_⟩, fun hu h hf => ?_⟩
  · rcases hu with hu | hu <;> simp only [getWithUnits, h, addr, hu, times]
  · rcases hu with hu | hu <;> simp only [getWithUnits, h, addr, hu, times]
  · have hg : ∃ w1 q1, getData w s f = .ok (w1, some q1) := by
      cases f with
      | true => exact ⟨_, _, getData_ok w s p h hf⟩
      | false => exact ⟨_, _, by unfold getData; simp only [h]; rfl⟩
    obtain ⟨w1, q1, hg⟩ := hg
    rcases hu with hu | hu <;> simp only [getWithUnits, hg, ok_bind, hu, times]

theorem get_alloc (w : World K) (x : Arr K) (s : Nat) (a : Attr) : get (w.alloc x).1 s a = get w s a := rfl

theorem get_newSpec (w : World K) (s : Nat) (a : Attr) :
    get (w.newSpec (newSpectrum K)).1 s a = if s = w.count then none else get w s a := by
  unfold get World.newSpec
  by_cases h : s = w.count
  · simp [h, newSpectrum]
  · simp [h]

/-- The new spectrum of `resampleSpectrum`, after the loop. -/
theorem filled_spec (w : World K) (s : Nat) (hs : s < w.count) (centers : Nat) (vals : List (Option K)) :
    let w2 := (w.newSpec (newSpectrum K)).1
    let w3 := step w2 (.set w.count .wavelengths (some (.arr centers)))
    let w4 := (w3.alloc ⟨false, vals⟩).1
    let w5 := step w4 (.set w.count .data (some (.arr w.next)))
    let w6 := step w5 (.set w.count .spectrumUnits (get w5 s .spectrumUnits))
    (∀ t, t < w.count → w6.specs t = w.specs t) ∧
    (∀ a, get w6 w.count a = if a = .spectrumUnits then get w s .spectrumUnits else if a = .data then some (.arr w.next) else
      if a = .wavelengths then some (.arr centers) else none) ∧
    (w6.heap w.next).vals = vals ∧ ∀ p, p < w.next → w6.heap p = w.heap p := by
  intro w2 w3 w4 w5 w6
  have hne : s ≠ w.count := by omega
  refine ⟨fun t ht => ?_, fun a => ?_, ?_, fun p hp => ?_⟩
  · have : t ≠ w.count := by omega
    simp [w6, w5, w4, w3, w2, step, World.newSpec, World.alloc, this]
  · simp only [w6, w5, w4, w3, w2, get_step_set, get_alloc, get_newSpec, hne, false_and, if_false, true_and, if_true]
  · simp [w6, w5, w4, w3, w2, step, World.newSpec, World.alloc]
  · have : p ≠ w.next := by omega
    simp [w6, w5, w4, w3, w2, step, World.newSpec, World.alloc, this]

/-- C109, resampling: the new spectrum has the given band centres as its wavelengths, one value per response function (that of C51 for data without
missing values), and the spectrum's units; no array or spectrum that existed is changed. -/
theorem C109_resampled_partial (w : World K) (s : Nat) (wl : List K) (data : List (Option K)) (hs : Holds w s wl data) (hsc : s < w.count)
    (hl : wl.length = data.length) (rsrs : List Nat) (rx ry : Nat → List K)
    (hr : ∀ t ∈ rsrs, Holds w t (rx t) ((ry t).map some) ∧ (∀ v ∈ ry t, ¬ Missing w t (some v)) ∧ rx t ≠ [] ∧ (rx t).length = (ry t).length)
    (centers : Nat) :
    ∃ w' n d, resampleSpectrum w s rsrs centers = .ok (w', n) ∧ w.count ≤ n ∧ w'.count = n + 1 ∧
      get w' n .wavelengths = some (.arr centers) ∧ get w' n .data = some (.arr d) ∧ w.next ≤ d ∧ (w'.heap d).vals.length = rsrs.length ∧
      (∀ (k t : Nat), rsrs[k]? = some t → ∃ v, (w'.heap d).vals[k]? = some v ∧ BandValue w s wl data (rx t, ry t) v) ∧
      get w' n .spectrumUnits = get w s .spectrumUnits ∧
      get w' n .wavelengthUnits = none ∧ get w' n .fwhm = none ∧ get w' n .nodata = none ∧
      (∀ p, p < w.next → w'.heap p = w.heap p) ∧ ∀ t, t < w.count → w'.specs t = w.specs t := by
  obtain ⟨w1, vals, e1, x1, l1, f1⟩ := loop_ok s wl data hl rx ry rsrs w hs hr
  have hcount : w1.count = w.count := x1.2.2.1
  obtain ⟨g2, g3, g4, g5⟩ := filled_spec w1 s (by omega) centers vals
  refine ⟨_, _, _, ?_, hcount.ge, rfl, (g3 .wavelengths).trans (by simp), (g3 .data).trans (by simp), x1.1, ?_, ?_, ?_,
    (g3 .wavelengthUnits).trans (by simp), (g3 .fwhm).trans (by simp), (g3 .nodata).trans (by simp), ?_, ?_⟩
  · unfold resampleSpectrum
    rw [e1, ok_bind]
    rfl
  · rw [g4, l1]
  · intro k t hk
    obtain ⟨v, hv1, hv2⟩ := f1 k t hk
    exact ⟨v, by rw [g4]; exact hv1, hv2⟩
  · exact (g3 .spectrumUnits).trans (by simp [x1.get])
  · intro p hp
    rw [g5 p (by have := x1.1; omega), x1.2.2.2 p hp]
  · intro t ht
    rw [g2 t (by omega), x1.2.1]

/-- C109 fails for missing values: one NaN or no-data value anywhere in the spectrum, even where every response function is zero, makes every band of
the result NaN. -/
theorem C109_missing_spreads_false (w : World K) (s : Nat) (wl : List K) (data : List (Option K)) (hs : Holds w s wl data) (hsc : s < w.count)
    (hl : wl.length = data.length) (hm : ∃ x ∈ data, Missing w s x) (rsrs : List Nat) (rx ry : Nat → List K)
    (hr : ∀ t ∈ rsrs, Holds w t (rx t) ((ry t).map some) ∧ (∀ v ∈ ry t, ¬ Missing w t (some v)) ∧ rx t ≠ [] ∧ (rx t).length = (ry t).length)
    (centers : Nat) :
    ∃ w' n d, resampleSpectrum w s rsrs centers = .ok (w', n) ∧ get w' n .data = some (.arr d) ∧ (w'.heap d).vals = rsrs.map (fun _ => none) := by
  obtain ⟨w', n, d, h1, -, -, -, h2, -, h3, h4, -⟩ := C109_resampled_partial w s wl data hs hsc hl rsrs rx ry hr centers
  refine ⟨w', n, d, h1, h2, ?_⟩
  apply List.ext_getElem?
  intro k
  by_cases hk : k < rsrs.length
  · obtain ⟨v, hv1, hv2⟩ := h4 k rsrs[k] (List.getElem?_eq_getElem hk)
    rw [hv1, hv2.1 hm]
    simp [hk]
  · rw [List.getElem?_eq_none (by omega), List.getElem?_eq_none (by simp; omega)]

/-- C109 fails for the unit of the new spectrum's wavelengths: it is never set, so that asking for them with units raises TypeError. -/
theorem C109_unit_lost_false (w : World K) (s : Nat) (wl : List K) (data : List (Option K)) (hs : Holds w s wl data) (hsc : s < w.count)
    (hl : wl.length = data.length) (rsrs : List Nat) (rx ry : Nat → List K)
    (hr : ∀ t ∈ rsrs, Holds w t (rx t) ((ry t).map some) ∧ (∀ v ∈ ry t, ¬ Missing w t (some v)) ∧ rx t ≠ [] ∧ (rx t).length = (ry t).length)
    (centers : Nat) (f : Bool) :
    ∃ w' n, resampleSpectrum w s rsrs centers = .ok (w', n) ∧ getWithUnits w' n .wavelengths f = some (.error .typeError) := by
  obtain ⟨w', n, d, h1, -, -, h2, -, -, -, -, -, h3, -⟩ := C109_resampled_partial w s wl data hs hsc hl rsrs rx ry hr centers
  exact ⟨w', n, h1, ((C109_text_units_false w' n centers f []).1 (Or.inr h3)).1 h2⟩

/-- C109 fails when the spectrum and the response functions have different wavelength units, such as nanometres from an SVC file and micrometres: the numbers
are compared as they are, whatever the units stored; if all wavelengths of the spectrum are larger numbers than those of a response, that band is
NaN. -/
theorem C109_units_mixed_false (w : World K) (s : Nat) (wl : List K) (d : List K) (hs : Holds w s wl (d.map some)) (hsc : s < w.count)
    (hl : wl.length = d.length) (hm : ∀ x ∈ d, ¬ Missing w s (some x)) (rsrs : List Nat) (rx ry : Nat → List K)
    (hr : ∀ t ∈ rsrs, Holds w t (rx t) ((ry t).map some) ∧ (∀ v ∈ ry t, ¬ Missing w t (some v)) ∧ GoodResponse (rx t, ry t))
    (hbig : ∀ x ∈ wl, ∀ t ∈ rsrs, ∀ y ∈ rx t, y < x) (centers : Nat) :
    ∃ w' n d, resampleSpectrum w s rsrs centers = .ok (w', n) ∧ get w' n .data = some (.arr d) ∧
      (w'.heap d).vals = rsrs.map (fun _ => none) := by
  obtain ⟨w', n, q, h1, -, -, -, h2, -, h3, h4, -⟩ := C109_resampled_partial w s wl (d.map some) hs hsc (by simpa using hl) rsrs rx ry
    (fun t ht => ⟨(hr t ht).1, (hr t ht).2.1, (hr t ht).2.2.1, (hr t ht).2.2.2.1⟩) centers
  refine ⟨w', n, q, h1, h2, ?_⟩
  apply List.ext_getElem?
  intro k
  by_cases hk : k < rsrs.length
  · obtain ⟨v, hv1, hv2⟩ := h4 k rsrs[k] (List.getElem?_eq_getElem hk)
    have ht : rsrs[k] ∈ rsrs := List.getElem_mem hk
    have hg := (hr _ ht).2.2
    have hno : ¬ Overlaps wl (rx rsrs[k], ry rsrs[k]) := by
      rintro ⟨x, hx, v', hresp, hne⟩
      have huniq := Response.unique hg.2.2.1 hresp (interp1_spec (rx rsrs[k]) (ry rsrs[k]) hg.1 hg.2.1 hg.2.2.1 x)
      apply hne
      rw [huniq]
      unfold interp1
      obtain ⟨z, hz⟩ : ∃ z, (rx rsrs[k]).getLast? = some z := by
        cases hh : (rx rsrs[k]).getLast? with
        | none => exact absurd (List.getLast?_eq_none_iff.mp hh) hg.1
        | some z => exact ⟨z, rfl⟩
      obtain ⟨y, hy⟩ : ∃ y, (rx rsrs[k]).head? = some y := by
        cases hh : (rx rsrs[k]).head? with
        | none => exact absurd (List.head?_eq_none_iff.mp hh) hg.1
        | some y => exact ⟨y, rfl⟩
      have l1 := hbig x hx _ ht y (List.mem_of_head? hy)
      have l2 := hbig x hx _ ht z (List.mem_of_getLast? hz)
      simp only [hy, hz]
      rw [if_neg (not_lt.mpr l1.le), if_pos l2]
    have hb := hv2.2 d rfl hm
    rw [C51_no_overlap wl d hl _ hg hno] at hb
    rw [hv1, ← Except.ok.inj hb]
    simp [hk]
  · rw [List.getElem?_eq_none (by omega), List.getElem?_eq_none (by simp; omega)]

/-- C109, data that cannot be resampled: integer data, in the spectrum or in a response function, is a ValueError (NaN cannot be put into an integer
array, even if no value is missing); data or wavelengths never set are a TypeError. -/
theorem C109_failures (w : World K) (s t : Nat) (rest : List Nat) (centers : Nat) (x y : List K) (p : Nat) :
    (get w s .data = some (.arr p) → (w.heap p).isInt = true → getData w s true = .error .valueError) ∧
    (get w s .data = none → getData w s true = .error .typeError ∧ getData w s false = .ok (w, none)) ∧
    (get w t .data = some (.arr p) → (w.heap p).isInt = true → resampleSpectrum w s (t :: rest) centers = .error .valueError) ∧
    (get w t .data = none → resampleSpectrum w s (t :: rest) centers = .error .typeError) ∧
    (get w t .data = some (.arr p) → (w.heap p).isInt = false → get w t .wavelengths = none →
      resampleSpectrum w s (t :: rest) centers = .error .typeError) ∧
    (Holds w t x (y.map some) → (∀ v ∈ y, ¬ Missing w t (some v)) → get w s .data = some (.arr p) → p < w.next → (w.heap p).isInt = true →
      resampleSpectrum w s (t :: rest) centers = .error .valueError) ∧
    (Holds w t x (y.map some) → (∀ v ∈ y, ¬ Missing w t (some v)) → get w s .data = none →
      resampleSpectrum w s (t :: rest) centers = .error .typeError) ∧
    (Holds w t x (y.map some) → (∀ v ∈ y, ¬ Missing w t (some v)) → get w s .data = some (.arr p) → p < w.next → (w.heap p).isInt = false →
      get w s .wavelengths = none → resampleSpectrum w s (t :: rest) centers = .error .typeError) := by
  have g1 : ∀ (w : World K) s, get w s .data = some (.arr p) → (w.heap p).isInt = true → getData w s true = .error .valueError := by
    intro w s h1 h2
    unfold getData
    simp only [h1, h2, if_true]
  have g2 : ∀ (w : World K) s, get w s .data = none → getData w s true = .error .typeError := by
    intro w s h1
    unfold getData
    simp only [h1, if_true]
  refine ⟨g1 w s, fun h => ⟨g2 w s h, ?_⟩, fun h1 h2 => ?_, fun h1 => ?_, fun h1 h2 h3 => ?_, fun h1 h2 h3 h4 h5 => ?_, fun h1 h2 h3 => ?_,
    fun h1 h2 h3 h4 h5 h6 => ?_⟩
  · unfold getData
    simp only [h, Bool.false_eq_true, if_false]
  · unfold resampleSpectrum resampleLoop response
    rw [g1 w t h1 h2]; rfl
  · unfold resampleSpectrum resampleLoop response
    rw [g2 w t h1]; rfl
  · unfold resampleSpectrum resampleLoop response
    rw [getData_ok w t p h1 h2, ok_bind]
    simp only [h3, addr]
    rfl
  · obtain ⟨w', e, ext⟩ := response_ok w t x y h1 h2
    unfold resampleSpectrum resampleLoop
    rw [e, ok_bind]
    simp only []
    rw [g1 w' s (by rw [ext.get, h3]) (by rw [ext.2.2.2 p h4, h5])]; rfl
  · obtain ⟨w', e, ext⟩ := response_ok w t x y h1 h2
    unfold resampleSpectrum resampleLoop
    rw [e, ok_bind]
    simp only []
    rw [g2 w' s (by rw [ext.get, h3])]; rfl
  · obtain ⟨w', e, ext⟩ := response_ok w t x y h1 h2
    unfold resampleSpectrum resampleLoop
    rw [e, ok_bind]
    simp only []
    rw [getData_ok w' s p (by rw [ext.get, h3]) (by rw [ext.2.2.2 p h4, h5]), ok_bind]
    simp only [get_alloc, ext.get, h6, addr]
    rfl

end

/-- A world with a spectrum (0) of two values in nanometres and a response function (1) in micrometres: the hypotheses above hold. -/
example : ∃ w : World ℚ, Holds w 0 [500, 600] ([7, 8].map some) ∧ Holds w 1 [1/2, 3/5] ([1, 1].map some) ∧ 0 < w.count ∧
    get w 0 .wavelengthUnits = some (.unit (.text "nanometers".toList)) ∧ (∀ x ∈ [(7 : ℚ), 8], ¬ Missing w 0 (some x)) := by
  let w0 : World ℚ := ⟨4, fun p => if p = 0 then ⟨false, [some 500, some 600]⟩ else if p = 1 then ⟨false, [some 7, some 8]⟩ else
    if p = 2 then ⟨false, [some (1/2), some (3/5)]⟩ else ⟨false, [some 1, some 1]⟩, 2, fun _ _ => none⟩
  refine ⟨run w0 [.set 0 .wavelengths (some (.arr 0)), .set 0 .data (some (.arr 1)), .set 1 .wavelengths (some (.arr 2)),
    .set 1 .data (some (.arr 3)), .set 0 .wavelengthUnits (some (.unit (.text "nanometers".toList)))], ?_, ?_, ?_, ?_, ?_⟩
  · exact ⟨0, 1, by simp [run, get_step_set], by simp [run, step, w0], by simp [run, step, w0], by simp [run, get_step_set],
      by simp [run, step, w0], by simp [run, step, w0], by simp [run, step, w0]⟩
  · exact ⟨2, 3, by simp [run, get_step_set], by simp [run, step, w0], by simp [run, step, w0], by simp [run, get_step_set],
      by simp [run, step, w0], by simp [run, step, w0], by simp [run, step, w0]⟩
  · simp [run, step, w0]
  · simp [run, get_step_set]
  · intro x _ hm
    rcases hm with hm | ⟨y, -, hm⟩
    · simp at hm
    · simp only [run, List.foldl_cons, List.foldl_nil, get_step_set] at hm
      simp [get, w0] at hm

end Verif.SpectrumObject
