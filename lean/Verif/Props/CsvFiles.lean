import Verif.Model.Csv
import Verif.Props.SpectrumFiles
import Verif.Lemmas.Envi

/-! Property C83: a csv file with a header line becomes a dictionary of columns. -/

namespace Verif.Readers
open Verif Verif.TextUtils Verif.Envi

/-! ### Specification -/

/-- `col` is column `i` of the table. -/
def IsColumn (table : List (List Str)) (i : Nat) (col : List Str) : Prop :=
  col.length = table.length ∧
  ∀ (r : Nat) (row : List Str), table[r]? = some row → ∃ cell, row[i]? = some cell ∧ col[r]? = some cell

/-- The table is a non-empty rectangle of at least `n` columns. -/
def Rectangle (table : List (List Str)) (n : Nat) : Prop :=
  ∃ w, n ≤ w ∧ table ≠ [] ∧ ∀ row ∈ table, row.length = w

/-! ### Lemmas -/

theorem dataColumn_ok (table : List (List Str)) (n i : Nat) (h : Rectangle table n) (hi : i < n) :
    ∃ c, dataColumn table i = .ok c ∧ IsColumn table i c := by
  obtain ⟨w, hn, hne, hw⟩ := h
  match table, hne with
  | r :: rs, _ =>
    have hr := hw r (by simp)
    refine ⟨(r :: rs).map (fun row => row.getD i []), ?_, by simp, ?_⟩
    · unfold dataColumn
      simp only []
      rw [if_pos, if_pos (by omega)]
      rw [List.all_eq_true]
      intro row hrow
      simp [hw row hrow, hr]
    · intro k row hk
      have hl := hw row (List.mem_of_getElem? hk)
      refine ⟨row[i]'(by omega), List.getElem?_eq_getElem _, ?_⟩
      rw [List.getElem?_map, hk]
      simp [List.getElem?_eq_getElem (show i < row.length by omega)]

theorem dataColumn_error (table : List (List Str)) (i : Nat) (h : ¬ Rectangle table (i + 1)) :
    dataColumn table i = .error .indexError := by
  unfold dataColumn
  match table with
  | [] => rfl
  | r :: rs =>
    simp only []
    split
    · rename_i ha
      split
      · rename_i hi
        refine absurd ⟨r.length, hi, by simp, ?_⟩ h
        intro row hrow
        rw [List.all_eq_true] at ha
        simpa using ha row hrow
      · rfl
    · rfl

theorem headerLoop_ok (table : List (List Str)) (n : Nat) (h : Rectangle table n) (names : List Str) (i : Nat)
    (hi : i + names.length ≤ n) (d : Dict (List Str)) :
    ∃ d', headerLoop table names i d = .ok d' ∧
      (∀ (k : Nat) (name : Str), names[k]? = some name → (∀ j, k < j → names[j]? ≠ some name) →
        ∃ c, lookup d' name = some c ∧ IsColumn table (i + k) c) ∧
      (∀ name, name ∉ names → lookup d' name = lookup d name) := by
  induction names generalizing i d with
  | nil => exact ⟨d, rfl, by simp, fun _ _ => rfl⟩
  | cons a names ih =>
    simp only [List.length_cons] at hi
    obtain ⟨c, hc, hcol⟩ := dataColumn_ok table n i h (by omega)
    obtain ⟨d', hd, h1, h2⟩ := ih (i + 1) (by omega) (setKey d a c)
    refine ⟨d', ?_, ?_, ?_⟩
    · unfold headerLoop
      rw [hc, ok_bind, hd]
    · intro k name hk hlast
      match k with
      | 0 =>
        simp only [List.getElem?_cons_zero, Option.some.injEq] at hk
        subst hk
        refine ⟨c, ?_, hcol⟩
        rw [h2 a, lookup_setKey, if_pos rfl]
        intro hm
        obtain ⟨j, hj⟩ := List.getElem?_of_mem hm
        exact hlast (j + 1) (by omega) (by simpa using hj)
      | k + 1 =>
        obtain ⟨c', e, hc'⟩ := h1 k name (by simpa using hk) (fun j hj => by simpa using hlast (j + 1) (by omega))
        exact ⟨c', e, by rw [show i + (k + 1) = i + 1 + k by omega]; exact hc'⟩
    · intro name hn
      rw [List.mem_cons, not_or] at hn
      rw [h2 name hn.2, lookup_setKey, if_neg hn.1]

theorem headerLoop_error (table : List (List Str)) (names : List Str) (i : Nat) (d : Dict (List Str)) (hne : names ≠ [])
    (h : ¬ Rectangle table (i + names.length)) : headerLoop table names i d = .error .indexError := by
  induction names generalizing i d with
  | nil => exact absurd rfl hne
  | cons a names ih =>
    unfold headerLoop
    by_cases h1 : Rectangle table (i + 1)
    · obtain ⟨c, hc, _⟩ := dataColumn_ok table (i + 1) i h1 (by omega)
      rw [hc, ok_bind]
      refine ih (i + 1) _ ?_ ?_
      · rintro rfl
        exact h h1
      · rw [show i + 1 + names.length = i + (a :: names).length by simp; omega]
        exact h
    · rw [dataColumn_error table i h1, error_bind]

/-! ### Properties -/

/-- C83.  Of a file whose first line has the cells `header` and whose other lines have the cells `table`: if the table is a
rectangle with at least as many columns as the header has names, the result maps every name to the complete
column below it, in order (the last such column if the name is repeated), and has no other names; if it is not
(no data line, lines with different numbers of cells, a blank line, too few columns), reading fails. -/
theorem C83_csv_columns (delim : Char) (file head : Str) (rows : List Str) (hl : HasLines file (head :: rows))
    (header : List Str) (hh : Cells delim head header) (table : List (List Str)) (ht : List.Forall₂ (Cells delim) rows table) :
    (Rectangle table header.length → ∃ d, csvDict delim file = .ok d ∧
      (∀ (i : Nat) (name : Str), header[i]? = some name → (∀ j, i < j → header[j]? ≠ some name) →
        ∃ c, lookup d name = some c ∧ IsColumn table i c) ∧
      (∀ name, name ∉ header → lookup d name = none)) ∧
    (header ≠ [] → ¬ Rectangle table header.length → csvDict delim file = .error .indexError) := by
  have hraw := hasLines_raw hl
  have hplain := hasLines_plain hl
  unfold csvDict
  generalize readlines (decodeText file) = content at hraw
  cases hraw with
  | cons h1 h2 =>
    rename_i a as
    have e1 : csvRow delim a = header := (cells_iff delim a head (hplain _ (by simp)) h1 header).1 hh
    have e2 : as.map (csvRow delim) = table := by
      have hp : ∀ l ∈ rows, Plain l := fun l m => hplain l (by simp [m])
      clear hplain hl hh e1 h1
      induction h2 generalizing table with
      | nil => cases ht; rfl
      | cons r1 _ ih =>
        cases ht with
        | cons t1 t2 =>
          rw [List.map_cons, (cells_iff delim _ _ (hp _ (by simp)) r1 _).1 t1, ih _ t2 (fun l m => hp l (by simp [m]))]
    simp only []
    rw [e1, e2]
    constructor
    · intro hr
      obtain ⟨d, hd, a1, a2⟩ := headerLoop_ok table header.length hr header 0 (by omega) []
      refine ⟨d, hd, ?_, ?_⟩
      · intro i name hi hlast
        obtain ⟨c, x, y⟩ := a1 i name hi hlast
        exact ⟨c, x, by rw [Nat.zero_add] at y; exact y⟩
      · intro name hn
        rw [a2 name hn]
        rfl
    · intro hne hr
      exact headerLoop_error table header 0 [] hne (by rw [Nat.zero_add]; exact hr)

/-- C83, the empty file: reading fails. -/
theorem C83_csv_empty (delim : Char) (file : Str) (hl : HasLines file []) : csvDict delim file = .error .stopIteration := by
  have hraw := hasLines_raw hl
  unfold csvDict
  generalize readlines (decodeText file) = content at hraw
  cases hraw
  rfl

example : HasLines "a,b\n1,2\n3,4\n".toList ["a,b".toList, "1,2".toList, "3,4".toList] :=
  .lf (l := "a,b".toList) ⟨by decide, by decide⟩ (.lf (l := "1,2".toList) ⟨by decide, by decide⟩
    (.lf (l := "3,4".toList) ⟨by decide, by decide⟩ .nil))

example : Cells ',' "a,b".toList ["a".toList, "b".toList] ∧ Cells ',' "1,2".toList ["1".toList, "2".toList] ∧
    Rectangle [["1".toList, "2".toList], ["3".toList, "4".toList]] 2 ∧ ¬ Rectangle [["1".toList, "2".toList], []] 2 :=
  ⟨.inr ⟨by decide, by decide, rfl, by decide⟩, .inr ⟨by decide, by decide, rfl, by decide⟩, ⟨2, by decide, by decide, by decide⟩,
    fun ⟨w, _, _, h⟩ => by
      have h1 := h ["1".toList, "2".toList] (by simp)
      have h2 := h [] (by simp)
      simp at h1 h2
      omega⟩

end Verif.Readers
