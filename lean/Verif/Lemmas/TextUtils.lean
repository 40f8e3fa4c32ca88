import Verif.Model.TextUtils
import Mathlib.Tactic.Tauto

/-! Lemmas about the text utilities. -/

namespace Verif.TextUtils
open Verif

/-- Replacing a single character. -/
theorem replaceStr_single (a : Char) (new : Str) (s : Str) :
    replaceStr [a] new s = s.flatMap (fun c => if c = a then new else [c]) := by
  induction s with
  | nil => simp [replaceStr]
  | cons c s ih =>
    rw [replaceStr, List.flatMap_cons]
    by_cases h : c = a
    · subst h
      simp [ih]
    · have : [a].isPrefixOf (c :: s) = false := by simp [List.isPrefixOf, Ne.symm h]
      rw [this]
      simp [h, ih]

theorem replaceStr_crlf_cons (new s : Str) : replaceStr ['\r', '\n'] new ('\r' :: '\n' :: s) = new ++ replaceStr ['\r', '\n'] new s := by
  rw [replaceStr]; simp

theorem replaceStr_crlf_other (new : Str) (c : Char) (s : Str) (h : ¬ (c = '\r' ∧ s.head? = some '\n')) :
    replaceStr ['\r', '\n'] new (c :: s) = c :: replaceStr ['\r', '\n'] new s := by
  rw [replaceStr]
  have : ['\r', '\n'].isPrefixOf (c :: s) = false := by
    cases s with
    | nil => simp [List.isPrefixOf]
    | cons d s =>
      simp only [List.isPrefixOf, Bool.and_true, Bool.and_eq_false_iff, beq_eq_false_iff_ne, ne_eq]
      simp only [List.head?_cons, Option.some.injEq, not_and] at h
      by_cases hc : c = '\r'
      · right; exact fun e => h hc e.symm
      · left; exact fun e => hc e.symm
  rw [this]; simp

theorem decode_crlf (s : Str) : decodeText ('\r' :: '\n' :: s) = '\n' :: decodeText s := by
  rw [decodeText]

theorem decode_cr (s : Str) (h : s.head? ≠ some '\n') : decodeText ('\r' :: s) = '\n' :: decodeText s := by
  cases s with
  | nil => simp [decodeText]
  | cons d s =>
    rw [decodeText]
    · simp
    · intro s' _ e; simp at h e; exact h e.1

theorem decode_other (c : Char) (s : Str) (h : c ≠ '\r') : decodeText (c :: s) = c :: decodeText s := by
  rw [decodeText]
  · simp [h]
  · intro s' e _; exact h e

/-- Case analysis along line ends. -/
theorem newline_induction {P : Str → Prop} (nil : P []) (crlf : ∀ s, P s → P ('\r' :: '\n' :: s))
    (cr : ∀ s, s.head? ≠ some '\n' → P s → P ('\r' :: s)) (other : ∀ c s, c ≠ '\r' → P s → P (c :: s)) (s : Str) : P s := by
  induction hn : s.length using Nat.strong_induction_on generalizing s with
  | _ n ih =>
    match s, hn with
    | [], _ => exact nil
    | c :: s, hn =>
      by_cases hc : c = '\r'
      · subst hc
        by_cases hh : s.head? = some '\n'
        · match s, hh with
          | d :: s, hh =>
            simp only [List.head?_cons, Option.some.injEq] at hh
            subst hh
            exact crlf s (ih s.length (by simp at hn; omega) s rfl)
        · exact cr s hh (ih s.length (by simp at hn; omega) s rfl)
      · exact other c s hc (ih s.length (by simp at hn; omega) s rfl)

theorem cleanup_posix (s : Str) : cleanupNewlines posixSep s = decodeText s := by
  unfold cleanupNewlines posixSep
  rw [replaceStr_single, replaceStr_single]
  have h3 : ∀ t : Str, t.flatMap (fun c => if c = '\n' then ['\n'] else [c]) = t := by
    intro t
    induction t with
    | nil => rfl
    | cons c t ih =>
      rw [List.flatMap_cons, ih]
      by_cases h : c = '\n' <;> simp [h]
  rw [h3]
  induction s using newline_induction with
  | nil => simp [replaceStr, decodeText]
  | crlf s ih => rw [replaceStr_crlf_cons, List.flatMap_append, ih, decode_crlf]; simp
  | cr s h ih => rw [replaceStr_crlf_other _ _ _ (by tauto), List.flatMap_cons, ih, decode_cr s h]; simp
  | other c s h ih => rw [replaceStr_crlf_other _ _ _ (by tauto), List.flatMap_cons, ih, decode_other c s h]; simp [h]

theorem decode_no_cr (s : Str) : '\r' ∉ decodeText s := by
  induction s using newline_induction with
  | nil => simp [decodeText]
  | crlf s ih => rw [decode_crlf]; simp [ih]
  | cr s h ih => rw [decode_cr s h]; simp [ih]
  | other c s h ih => rw [decode_other c s h]; simp [ih, Ne.symm h]

theorem decode_id (s : Str) (h : '\r' ∉ s) : decodeText s = s := by
  induction s with
  | nil => rfl
  | cons c s ih =>
    simp only [List.mem_cons, not_or] at h
    rw [decode_other c s (Ne.symm h.1), ih h.2]

theorem decode_filter (s : Str) : (decodeText s).filter (fun c => c ≠ '\n') = s.filter (fun c => c ≠ '\r' ∧ c ≠ '\n') := by
  induction s using newline_induction with
  | nil => rfl
  | crlf s ih => rw [decode_crlf]; simpa using ih
  | cr s h ih => rw [decode_cr s h]; simpa using ih
  | other c s h ih =>
    rw [decode_other c s h]
    by_cases hn : c = '\n'
    · subst hn; simpa using ih
    · simp only [List.filter_cons, hn, h, ne_eq, not_false_eq_true, and_self, decide_true, if_true]
      rw [ih]

theorem flatMap_remove (a : Char) (s : Str) : s.flatMap (fun c => if c = a then ([] : Str) else [c]) = s.filter (fun c => c ≠ a) := by
  induction s with
  | nil => rfl
  | cons c s ih =>
    rw [List.flatMap_cons, List.filter_cons, ih]
    by_cases h : c = a <;> simp [h]

end Verif.TextUtils
