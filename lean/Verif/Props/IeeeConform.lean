import Verif.Props.Ieee

/-! Conformance of the arithmetic of `Model/Ieee.lean` with IEEE 754-2019 (clauses 3.3, 3.6, 6.1-6.3, 7.2-7.5): the parameters of the two formats, and the results of
operations on zeros, infinities and NaN.  These are facts about the trusted reading of the hardware, not claims about the library. -/

set_option linter.unusedSectionVars false

namespace Verif.Ieee
open Verif FloatSpectral

section
variable {K : Type} [Field K] [LinearOrder K] [IsStrictOrderedRing K]

/-- IEEE 754 table 3.5: precision, largest exponent, and `emin = 1 - emax`; the smallest positive number is `2^-1074`, respectively `2^-149`. -/
theorem ieee_formats : (binary64.p = 53 ∧ binary64.emax = 1023 ∧ binary64.emin = 1 - binary64.emax ∧ binary64.quantum = -1074) ∧
    (binary32.p = 24 ∧ binary32.emax = 127 ∧ binary32.emin = 1 - binary32.emax ∧ binary32.quantum = -149) := by decide

variable [FloorRing K]

/-- 6.3: a sum of zeros is negative exactly when both are. -/
theorem ieee_zero_sum (F : Format) (s t : Bool) : add F (Num.zero s : Num K) (.zero t) = .zero true ↔ s = true ∧ t = true := by
  cases s <;> cases t <;> simp [add, exactAdd, round]

/-- 6.3: a number minus itself is `+0`; a zero minus itself too. -/
theorem ieee_cancel (F : Format) (x : K) : sub F (Num.fin x) (.fin x) = .zero false ∧ sub F (Num.zero true : Num K) (.zero true) = .zero false := by
  constructor
  · simp [sub, exactAdd, Num.neg, Num.of, round]
  · simp [sub, exactAdd, Num.neg, round]

/-- 7.2: the invalid operations give NaN. -/
theorem ieee_invalid (F : Format) (s t : Bool) : add F (Num.inf s : Num K) (.inf !s) = .nan ∧ mul F (Num.zero s : Num K) (.inf t) = .nan ∧ mul F (Num.inf s : Num K) (.zero t) = .nan ∧
    div F (Num.zero s : Num K) (.zero t) = .nan ∧ div F (Num.inf s : Num K) (.inf t) = .nan := by
  refine ⟨?_, rfl, rfl, rfl, rfl⟩
  cases s <;> simp [add, exactAdd, round]

/-- 6.2: NaN is propagated by every operation. -/
theorem ieee_nan (F : Format) (a : Num K) : add F .nan a = .nan ∧ add F a .nan = .nan ∧ mul F .nan a = .nan ∧ mul F a .nan = .nan ∧ div F .nan a = .nan ∧ div F a .nan = .nan ∧
    sub F .nan a = .nan ∧ sub F a .nan = .nan := by
  cases a <;> refine ⟨rfl, rfl, rfl, rfl, rfl, rfl, rfl, rfl⟩

/-- 7.3: a non-zero number divided by zero is infinite, with the product of the signs; 6.1: divided by infinity it is zero. -/
theorem ieee_div_zero (F : Format) (x : K) (s : Bool) : div F (Num.fin x) (.zero s) = .inf (decide (x < 0) ^^ s) ∧ div F (Num.fin x) (.inf s) = .zero (decide (x < 0) ^^ s) ∧
    mul F (Num.fin x) (.inf s) = .inf (decide (x < 0) ^^ s) ∧ mul F (Num.fin x) (.zero s) = .zero (decide (x < 0) ^^ s) := ⟨rfl, rfl, rfl, rfl⟩

/-- 6.1: an infinity absorbs numbers and infinities of its own sign. -/
theorem ieee_inf (F : Format) (x : K) (s t : Bool) : add F (Num.inf s) (.fin x) = .inf s ∧ add F (.fin x) (Num.inf s) = .inf s ∧ add F (Num.inf s : Num K) (.inf s) = .inf s ∧
    add F (Num.inf s : Num K) (.zero t) = .inf s ∧ add F (Num.zero t : Num K) (.inf s) = .inf s ∧ div F (Num.inf s : Num K) (.zero t) = .inf (s ^^ t) ∧
    mul F (Num.inf s : Num K) (.inf t) = .inf (s ^^ t) := by
  refine ⟨rfl, rfl, ?_, rfl, rfl, rfl, rfl⟩
  cases s <;> simp [add, exactAdd, round]

/-- The sample count and other literal numbers: zero is `+0`, and a number is itself. -/
theorem ieee_literal (x : K) (hx : x ≠ 0) : (Num.of (0 : K) = .zero false) ∧ Num.of x = .fin x := by simp [Num.of, hx]

end
end Verif.Ieee
