import Verif.Props.TextUtils
import Verif.Props.EnviImage

/-! C141: a text list whose write was interrupted (file_utils.py:77-92). -/

namespace Verif.TextUtils
open Verif

/-- The text of a list of lines as `write_text_list_to_file` writes it: a newline between every two lines. -/
def lineText (l : List Str) (e : Str) : Str := (l.map (fun s => s ++ ['\n'])).flatten ++ e

theorem prefix_lines (l : List Str) (e h : Str) (hp : h <+: lineText l e) :
    ∃ k s, k ≤ l.length ∧ s <+: (l ++ [e]).getD k [] ∧ h = lineText (l.take k) s := by
  induction l generalizing h with
  | nil =>
    refine ⟨0, h, le_refl _, ?_, ?_⟩
    · simpa [lineText] using hp
    · simp [lineText]
  | cons a l ih =>
    have e1 : lineText (a :: l) e = (a ++ ['\n']) ++ lineText l e := by simp [lineText]
    rw [e1] at hp
    rcases Nat.lt_or_ge h.length (a ++ ['\n']).length with hlt | hge
    · have h1 : h <+: a ++ ['\n'] := List.prefix_of_prefix_length_le hp (List.prefix_append _ _) (by omega)
      refine ⟨0, h, by omega, ?_, by simp [lineText]⟩
      have h2 : h <+: a := List.prefix_of_prefix_length_le h1 (List.prefix_append _ _) (by rw [List.length_append, List.length_singleton] at hlt; omega)
      simpa using h2
    · obtain ⟨r, rfl⟩ := List.prefix_of_prefix_length_le (List.prefix_append _ _) hp hge
      rw [List.prefix_append_right_inj] at hp
      obtain ⟨k, s, h1, h2, rfl⟩ := ih r hp
      refine ⟨k + 1, s, by simp; omega, by simpa using h2, by simp [lineText]⟩

/-- C141 (partial): when `write_text_list_to_file` was stopped, so that the file holds only the beginning of what was to be written,
`read_text_list_from_file` returns the first lines and then at most one line that is the beginning of the next.  Missing: that an incomplete list is
not returned at all (`C141_cut_false`). -/
theorem C141_first_lines_partial (ls : Str) (hls : ls = posixSep ∨ ls = windowsSep) (l : List Str) (e : Str)
    (h : ∀ s ∈ l ++ [e], '\r' ∉ s ∧ '\n' ∉ s) (file part : Str) (hw : writeTextList ls (l ++ [e]) = .ok file) (hp : part <+: file) :
    ∃ (k : Nat) (s : Str), k ≤ l.length ∧ s <+: (l ++ [e]).getD k [] ∧ readTextList ls part = (l ++ [e]).take k ++ if s = [] then [] else [s] := by
  have hfile : file = encodeText ls (lineText l e) := by
    unfold writeTextList at hw
    simp only [List.getLast?_append, List.getLast?_singleton, Option.some_or, List.dropLast_concat, Except.ok.injEq] at hw
    exact hw.symm
  have hl : ∀ s ∈ l, '\r' ∉ s ∧ '\n' ∉ s := fun s hs => h s (by simp [hs])
  have he := h e (by simp)
  have hr : '\r' ∉ lineText l e := by
    unfold lineText
    simp only [List.mem_append, List.mem_flatten, List.mem_map, not_or, not_exists, not_and]
    refine ⟨?_, he.1⟩
    rintro x ⟨s, hs, rfl⟩ hx
    simp only [List.mem_append, List.mem_singleton] at hx
    rcases hx with hx | hx
    · exact (hl s hs).1 hx
    · exact absurd hx (by decide)
  rw [hfile] at hp
  obtain ⟨k, s, h1, h2, h3⟩ := prefix_lines l e _ (Verif.Envi.decode_prefix ls _ part hls hr hp)
  refine ⟨k, s, h1, h2, ?_⟩
  unfold readTextList
  rw [h3]
  unfold lineText
  have hs : '\r' ∉ s ∧ '\n' ∉ s := by
    have hmem : (l ++ [e]).getD k [] ∈ l ++ [e] := by
      have hk : k < (l ++ [e]).length := by simp; omega
      rw [List.getD_eq_getElem?_getD, List.getElem?_eq_getElem hk]
      exact List.getElem_mem _
    have := h _ hmem
    exact ⟨fun hc => this.1 (h2.subset hc), fun hc => this.2 (h2.subset hc)⟩
  rw [read_written ls hls (l.take k) s (fun x hx => hl x (List.mem_of_mem_take hx)) hs, List.take_append_of_le_length h1]

/-- C141 is false: a file that lacks only the last letter is read without complaint, as the same list with a shorter last line. -/
theorem C141_cut_false (ls : Str) (hls : ls = posixSep ∨ ls = windowsSep) (l : List Str) (e : Str) (c : Char) (hc : e ≠ [])
    (h : ∀ s ∈ l ++ [e ++ [c]], '\r' ∉ s ∧ '\n' ∉ s) :
    ∃ file part, writeTextList ls (l ++ [e ++ [c]]) = .ok file ∧ part <+: file ∧ part ≠ file ∧ readTextList ls part = l ++ [e] := by
  have hcc := h (e ++ [c]) (by simp)
  simp only [List.mem_append, List.mem_singleton, not_or] at hcc
  obtain ⟨part, hp, hr, -⟩ := C63_roundtrip_partial ls hls l e (by
    intro s hs
    rw [List.mem_append, List.mem_singleton] at hs
    rcases hs with hs | rfl
    · exact h s (by simp [hs])
    · exact ⟨hcc.1.1, hcc.2.1⟩)
  have h1 : part = encodeText ls (lineText l e) := by
    unfold writeTextList at hp
    simp only [List.getLast?_append, List.getLast?_singleton, Option.some_or, List.dropLast_concat, Except.ok.injEq] at hp
    exact hp.symm
  have h2 : encodeText ls (lineText l (e ++ [c])) = encodeText ls (lineText l e) ++ [c] := by
    have : lineText l (e ++ [c]) = lineText l e ++ [c] := by simp [lineText]
    rw [this, Envi.encode_append, Envi.encode_cons ls c [] (fun hh => hcc.2.2 hh.symm), Envi.encode_nil]
  refine ⟨encodeText ls (lineText l (e ++ [c])), part, ?_, ?_, ?_, hr hc⟩
  · unfold writeTextList
    simp [lineText]
  · rw [h2, h1]; exact List.prefix_append _ _
  · rw [h2, h1]; intro hh; have := congrArg List.length hh; simp at this

/-- The label file of two classes, cut: the second class is called "do". -/
example : ∃ file part, writeTextList posixSep ["cat".toList, "dog".toList] = .ok file ∧ part <+: file ∧ part ≠ file ∧
    readTextList posixSep part = ["cat".toList, "do".toList] :=
  C141_cut_false posixSep (.inl rfl) ["cat".toList] "do".toList 'g' (by decide) (by decide)

end Verif.TextUtils
