import Verif.Model.Workflow
import Verif.Props.Pix4d

/-! C97: the P-matrix reader. -/

namespace Verif.Workflow
open Verif Envi TextUtils Readers

/-- A line of a P-matrix file: a name and numbers, separated by single spaces, without other white space. -/
structure IsPLine (pf : Str → Option ℚ) (line name : Str) (vs : List ℚ) : Prop where
  tokens : ∃ ts : List Str, line = List.intercalate [' '] (name :: ts) ∧ ts.map pf = vs.map some ∧
    ∀ t ∈ name :: ts, t ≠ [] ∧ ∀ c ∈ t, isWs c = false

theorem strip_ends (s : Str) (h1 : ∀ c, s.head? = some c → isWs c = false) (h2 : ∀ c, s.getLast? = some c → isWs c = false) : strip s = s := by
  have hd : ∀ s : Str, (∀ c, s.head? = some c → isWs c = false) → s.dropWhile isWs = s := by
    intro s h
    cases s with
    | nil => rfl
    | cons c s => rw [List.dropWhile_cons, h c rfl]; simp
  unfold strip rstrip lstrip
  rw [hd s.reverse (by intro c hc; rw [List.head?_reverse] at hc; exact h2 c hc), List.reverse_reverse, hd s h1]

theorem mem_join (c : Char) (ts : List Str) (h : c ∈ List.intercalate [' '] ts) : c = ' ' ∨ ∃ t ∈ ts, c ∈ t := by
  induction ts with
  | nil => simp [List.intercalate] at h
  | cons t ts ih =>
    cases ts with
    | nil => right; exact ⟨t, by simp, by simpa [List.intercalate] using h⟩
    | cons u ts =>
      have e : List.intercalate [' '] (t :: u :: ts) = t ++ ' ' :: List.intercalate [' '] (u :: ts) := by simp [List.intercalate]
      rw [e] at h
      rcases List.mem_append.1 h with h | h
      · exact Or.inr ⟨t, by simp, h⟩
      · rcases List.mem_cons.1 h with h | h
        · exact Or.inl h
        · rcases ih h with h | ⟨t', ht, hc⟩
          · exact Or.inl h
          · exact Or.inr ⟨t', List.mem_cons_of_mem _ ht, hc⟩

theorem join_head (t : Str) (ts : List Str) (ht : t ≠ []) : (List.intercalate [' '] (t :: ts)).head? = t.head? := by
  cases ts with
  | nil => simp [List.intercalate]
  | cons u ts =>
    have e : List.intercalate [' '] (t :: u :: ts) = t ++ ' ' :: List.intercalate [' '] (u :: ts) := by simp [List.intercalate]
    rw [e]
    cases t with
    | nil => exact absurd rfl ht
    | cons c t => rfl

theorem join_last (ts : List Str) (h : ∀ t ∈ ts, t ≠ []) (c : Char) (hc : (List.intercalate [' '] ts).getLast? = some c) :
    ∃ t ∈ ts, c ∈ t := by
  induction ts with
  | nil => simp [List.intercalate] at hc
  | cons t ts ih =>
    cases ts with
    | nil => exact ⟨t, by simp, by
        have : List.intercalate [' '] [t] = t := by simp [List.intercalate]
        rw [this] at hc
        exact List.mem_of_getLast? hc⟩
    | cons u ts =>
      have e : List.intercalate [' '] (t :: u :: ts) = t ++ ' ' :: List.intercalate [' '] (u :: ts) := by simp [List.intercalate]
      have hne : List.intercalate [' '] (u :: ts) ≠ [] := by
        intro h0
        have := join_head u ts (h u (by simp))
        rw [h0] at this
        have hu := h u (by simp)
        cases u with
        | nil => exact hu rfl
        | cons c u => simp at this
      rw [e, List.getLast?_append, List.getLast?_cons] at hc
      obtain ⟨d, hd⟩ := List.getLast?_isSome.2 hne |> Option.isSome_iff_exists.1
      simp only [hd, Option.getD_some, Option.some_or, Option.some.injEq] at hc
      obtain ⟨t', ht', hc'⟩ := ih (fun t ht => h t (List.mem_cons_of_mem _ ht)) (by rw [hd, hc])
      exact ⟨t', List.mem_cons_of_mem _ ht', hc'⟩

theorem pLine_ok (pf : Str → Option ℚ) (ls : Str) (hls : ls = posixSep ∨ ls = windowsSep) (raw line name : Str) (vs : List ℚ)
    (hr : Raw raw line) (h : IsPLine pf line name vs) : pLine pf ls raw = .ok (name, vs) := by
  obtain ⟨ts, hl, hv, ht⟩ := h.tokens
  have hws : ∀ t ∈ name :: ts, ∀ c ∈ t, isWs c = false := fun t h => (ht t h).2
  have hstrip : strip raw = line := by
    rw [strip_raw hr]
    apply strip_ends
    · intro c hc
      rw [hl, join_head name ts (ht name (by simp)).1] at hc
      exact hws name (by simp) c (List.mem_of_mem_head? (by rw [hc]; rfl))
    · intro c hc
      rw [hl] at hc
      obtain ⟨t, h1, h2⟩ := join_last _ (fun t h => (ht t h).1) c hc
      exact hws t h1 c h2
  have hplain : '\r' ∉ line ∧ '\n' ∉ line := by
    constructor <;>
    · intro hm
      rw [hl] at hm
      rcases mem_join _ _ hm with h | ⟨t, h1, h2⟩
      · exact absurd h (by decide)
      · have := hws t h1 _ h2
        exact absurd this (by decide)
  unfold pLine
  rw [hstrip, (C64_no_newline line hplain.1 hplain.2 ls hls).2, hl,
    splitOn_join ' ' (name :: ts) (by simp) (fun t h hm => by have := hws t h ' ' hm; exact absurd this (by decide))]
  simp only []
  have : ts.mapM (toFloat pf) = .ok vs := by
    rw [mapM_ok_iff]
    have hlen : ts.length = vs.length := by simpa using congrArg List.length hv
    refine ⟨hlen.symm, ?_⟩
    intro i a ha
    have e : (ts.map pf)[i]? = (vs.map some)[i]? := by rw [hv]
    rw [List.getElem?_map, List.getElem?_map, ha] at e
    cases hvi : vs[i]? with
    | none => rw [hvi] at e; simp at e
    | some v =>
      rw [hvi] at e
      simp only [Option.map_some, Option.some.injEq] at e
      exact ⟨v, by unfold toFloat; rw [e], rfl⟩
  rw [this]
  rfl

/-- Every line's numbers are found under its name, the last line's when a name is repeated; no other name is found.  All three line endings, with or without one at the
end of the file. -/
theorem C97_p_matrices (pf : Str → Option ℚ) (ls : Str) (hls : ls = posixSep ∨ ls = windowsSep) (file : Str) (rows : List Str)
    (entries : List (Str × List ℚ)) (hl : HasLines file rows) (hlen : rows.length = entries.length)
    (hr : ∀ (i : Nat) (row : Str) (name : Str) (vs : List ℚ), rows[i]? = some row → entries[i]? = some (name, vs) → IsPLine pf row name vs) :
    ∃ d, readP pf ls file = .ok d ∧ FromEntries entries d := by
  refine ⟨_, ?_, fromEntries_foldl entries⟩
  unfold readP
  have hraw := hasLines_raw hl
  have : (readlines (decodeText file)).mapM (pLine pf ls) = .ok entries := by
    rw [mapM_ok_iff]
    have hlen2 := hraw.length_eq
    refine ⟨by rw [hlen2, hlen], ?_⟩
    intro i a ha
    have hi : i < rows.length := by rw [← hlen2]; exact (List.getElem?_eq_some_iff.1 ha).1
    have hi' : i < entries.length := by rw [← hlen]; exact hi
    refine ⟨entries[i], ?_, by rw [List.getElem?_eq_getElem hi']⟩
    have hri : Raw a rows[i] := by
      have ea : a = (readlines (decodeText file))[i]'(by rw [hlen2]; exact hi) := by
        rw [List.getElem?_eq_getElem (by rw [hlen2]; exact hi)] at ha
        exact (Option.some.inj ha).symm
      rw [ea]
      exact hraw.get (by rw [hlen2]; exact hi) hi
    have := pLine_ok pf ls hls a rows[i] entries[i].1 entries[i].2 hri
      (hr i _ _ _ (List.getElem?_eq_getElem hi) (List.getElem?_eq_getElem hi'))
    exact this
  rw [this]
  rfl

/-- FALSE: "only the named files have an entry": a blank line adds an entry without a name and without numbers. -/
theorem C97_blank_false : ∃ (d : Dict (List ℚ)), readP (fun s => if s = "1".toList then some 1 else none) posixSep "a.jpg 1\n\n".toList = .ok d ∧
    lookup d [] = some [] :=
  ⟨[("a.jpg".toList, [1]), ([], [])], by decide +kernel, by decide +kernel⟩

/-- A name with a space is a ValueError unless its parts are numbers. -/
theorem C97_space_in_name : readP (fun s => if s = "1".toList then some 1 else none) posixSep "my image.jpg 1\n".toList = .error .valueError := by
  decide +kernel

example : IsPLine (fun s => if s = "1".toList then some 1 else none) "a.jpg 1 1".toList "a.jpg".toList [1, 1] :=
  ⟨["1".toList, "1".toList], rfl, by decide, by decide⟩

end Verif.Workflow
