import Verif.Lemmas.TextUtils

/-! C63-C67: text, list and directory utilities. -/

namespace Verif.TextUtils
open Verif

/-! ### C64 -/

/-- On POSIX `cleanup_newlines` turns each of `\r\n`, `\r`, `\n` into one `\n`, leaves no carriage return and is
idempotent. -/
theorem C64_cleanup_posix (t : Str) :
    cleanupNewlines posixSep t = decodeText t ∧ '\r' ∉ cleanupNewlines posixSep t ∧
    cleanupNewlines posixSep (cleanupNewlines posixSep t) = cleanupNewlines posixSep t := by
  refine ⟨cleanup_posix t, ?_, ?_⟩
  · rw [cleanup_posix]; exact decode_no_cr t
  · rw [cleanup_posix, cleanup_posix, decode_id _ (decode_no_cr t)]

/-- On POSIX `remove_newlines` deletes exactly the carriage returns and line feeds. -/
theorem C64_remove_posix (t : Str) :
    removeNewlines posixSep t = t.filter (fun c => c ≠ '\r' ∧ c ≠ '\n') := by
  unfold removeNewlines
  rw [cleanup_posix, ← decode_filter]
  unfold posixSep
  rw [replaceStr_single, flatMap_remove]

example : removeNewlines posixSep ['a', '\r', '\n', 'b', '\n', '\r'] = ['a', 'b'] := by
  rw [C64_remove_posix]; rfl

/-- What `cleanup_newlines` does with each character on Windows. -/
theorem cleanup_windows (t : Str) : cleanupNewlines windowsSep t =
    t.flatMap (fun c => if c = '\r' then ['\r', '\r', '\n'] else if c = '\n' then ['\r', '\n'] else [c]) := by
  unfold cleanupNewlines windowsSep
  rw [replaceStr_single, replaceStr_single]
  have h1 : replaceStr ['\r', '\n'] ['\r', '\n'] t = t := by
    induction t using newline_induction with
    | nil => simp [replaceStr]
    | crlf s ih => rw [replaceStr_crlf_cons, ih]; rfl
    | cr s h ih => rw [replaceStr_crlf_other _ _ _ (by tauto), ih]
    | other c s h ih => rw [replaceStr_crlf_other _ _ _ (by tauto), ih]
  rw [h1, List.flatMap_assoc]
  congr 1
  funext c
  by_cases hr : c = '\r'
  · subst hr; simp
  · by_cases hn : c = '\n' <;> simp [hr, hn]

theorem remove_windows (t : Str) : removeNewlines windowsSep t = t.filter (fun c => c ≠ '\n') := by
  unfold removeNewlines
  rw [cleanup_windows]
  unfold windowsSep
  induction t with
  | nil => simp [replaceStr]
  | cons c t ih =>
    rw [List.flatMap_cons, List.filter_cons]
    by_cases hr : c = '\r'
    · subst hr
      simp only [if_true, List.cons_append, List.nil_append]
      rw [replaceStr_crlf_other _ _ _ (by simp), replaceStr_crlf_cons, ih]
      simp
    · by_cases hn : c = '\n'
      · subst hn
        simp only [hr, if_false, if_true, List.cons_append, List.nil_append]
        rw [replaceStr_crlf_cons, ih]
        simp
      · simp only [hr, hn, if_false, List.cons_append, List.nil_append]
        rw [replaceStr_crlf_other _ _ _ (by simp [hr]), ih]
        simp [hn]

/-- On Windows exactly the line feeds are deleted: the statement holds for text without carriage returns. -/
theorem C64_remove_windows_partial (t : Str) :
    removeNewlines windowsSep t = t.filter (fun c => c ≠ '\n') ∧
    ('\r' ∉ t → removeNewlines windowsSep t = t.filter (fun c => c ≠ '\r' ∧ c ≠ '\n')) := by
  refine ⟨remove_windows t, ?_⟩
  intro h
  rw [remove_windows]
  apply List.filter_congr
  intro c hc
  have : c ≠ '\r' := fun e => h (e ▸ hc)
  simp [this]

example : '\r' ∉ ['a', '\n', 'b'] ∧ removeNewlines windowsSep ['a', '\n', 'b'] = ['a', 'b'] := by
  refine ⟨by decide, ?_⟩
  rw [remove_windows]; rfl

/-- On Windows `remove_newlines` leaves every carriage return in place. -/
theorem C64_remove_windows_false (t : Str) (h : '\r' ∈ t) : '\r' ∈ removeNewlines windowsSep t := by
  rw [remove_windows]; simp [h]

example : '\r' ∈ removeNewlines windowsSep ['a', '\r', '\n', 'b'] := C64_remove_windows_false _ (by decide)

/-- On Windows `cleanup_newlines` is idempotent on no text with a line end: each call makes it longer. -/
theorem C64_cleanup_windows_false (t : Str) (h : '\r' ∈ t ∨ '\n' ∈ t) :
    t.length < (cleanupNewlines windowsSep t).length ∧
    cleanupNewlines windowsSep (cleanupNewlines windowsSep t) ≠ cleanupNewlines windowsSep t := by
  have key : ∀ t : Str, t.length ≤ (cleanupNewlines windowsSep t).length ∧
      ('\r' ∈ t ∨ '\n' ∈ t → t.length < (cleanupNewlines windowsSep t).length ∧ '\n' ∈ cleanupNewlines windowsSep t) := by
    intro t
    rw [cleanup_windows]
    induction t with
    | nil => simp
    | cons c t ih =>
      rw [List.flatMap_cons]
      by_cases hr : c = '\r'
      · subst hr
        simp only [if_true, List.length_append, List.length_cons, List.length_nil]
        refine ⟨by omega, fun _ => ⟨by omega, by simp⟩⟩
      · by_cases hn : c = '\n'
        · subst hn
          simp only [hr, if_false, if_true, List.length_append, List.length_cons, List.length_nil]
          refine ⟨by omega, fun _ => ⟨by omega, by simp⟩⟩
        · simp only [hr, hn, if_false, List.length_append, List.length_cons, List.length_nil, List.mem_cons,
            List.mem_append, List.not_mem_nil, or_false]
          refine ⟨by omega, ?_⟩
          intro h
          have h' : '\r' ∈ t ∨ '\n' ∈ t := by
            rcases h with (h | h) | (h | h)
            · exact absurd h.symm hr
            · exact .inl h
            · exact absurd h.symm hn
            · exact .inr h
          exact ⟨by have := (ih.2 h').1; omega, .inr (ih.2 h').2⟩
  refine ⟨((key t).2 h).1, ?_⟩
  intro e
  have h2 := ((key (cleanupNewlines windowsSep t)).2 (.inr ((key t).2 h).2)).1
  rw [e] at h2
  omega

/-- Text without a line end is left alone on every platform. -/
theorem C64_no_newline (t : Str) (hr : '\r' ∉ t) (hn : '\n' ∉ t) (ls : Str) (hls : ls = posixSep ∨ ls = windowsSep) :
    cleanupNewlines ls t = t ∧ removeNewlines ls t = t := by
  have hf : t.filter (fun c => c ≠ '\r' ∧ c ≠ '\n') = t := by
    rw [List.filter_eq_self]
    intro c hc
    have h1 : c ≠ '\r' := fun e => hr (e ▸ hc)
    have h2 : c ≠ '\n' := fun e => hn (e ▸ hc)
    simp [h1, h2]
  rcases hls with rfl | rfl
  · refine ⟨by rw [cleanup_posix, decode_id t hr], by rw [C64_remove_posix, hf]⟩
  · refine ⟨?_, by rw [(C64_remove_windows_partial t).2 hr, hf]⟩
    rw [cleanup_windows]
    clear hf
    induction t with
    | nil => rfl
    | cons c t ih =>
      simp only [List.mem_cons, not_or] at hr hn
      rw [List.flatMap_cons, ih hr.2 hn.2]
      simp [Ne.symm hr.1, Ne.symm hn.1]

/-! ### C63 -/

theorem readlines_line (l s : Str) (h : '\n' ∉ l) : readlines (l ++ '\n' :: s) = (l ++ ['\n']) :: readlines s := by
  induction l with
  | nil => simp [readlines]
  | cons c l ih =>
    simp only [List.mem_cons, not_or] at h
    rw [List.cons_append, readlines, if_neg (Ne.symm h.1), ih h.2]
    rfl

theorem readlines_last (l : Str) (h : '\n' ∉ l) : readlines l = if l = [] then [] else [l] := by
  induction l with
  | nil => rfl
  | cons c l ih =>
    simp only [List.mem_cons, not_or] at h
    rw [readlines, if_neg (Ne.symm h.1), ih h.2]
    by_cases hl : l = [] <;> simp [hl]

/-- Universal newlines undo the platform's line ends. -/
theorem decode_encode (ls t : Str) (hls : ls = posixSep ∨ ls = windowsSep) (hr : '\r' ∉ t) : decodeText (encodeText ls t) = t := by
  unfold encodeText
  rw [replaceStr_single]
  induction t with
  | nil => rfl
  | cons c t ih =>
    simp only [List.mem_cons, not_or] at hr
    rw [List.flatMap_cons]
    by_cases hc : c = '\n'
    · subst hc
      rcases hls with rfl | rfl
      · simp only [posixSep, if_true, List.cons_append, List.nil_append]
        rw [decode_other _ _ (by decide)]
        have := ih hr.2
        simp only [posixSep] at this
        rw [this]
      · simp only [windowsSep, if_true, List.cons_append, List.nil_append]
        rw [decode_crlf]
        have := ih hr.2
        simp only [windowsSep] at this
        rw [this]
    · simp only [hc, if_false, List.cons_append, List.nil_append]
      rw [decode_other _ _ (Ne.symm hr.1), ih hr.2]

theorem remove_line (ls l : Str) (hls : ls = posixSep ∨ ls = windowsSep) (hr : '\r' ∉ l) (hn : '\n' ∉ l) :
    removeNewlines ls (l ++ ['\n']) = l := by
  have hf : ∀ c ∈ l, c ≠ '\r' ∧ c ≠ '\n' := fun c hc => ⟨fun e => hr (e ▸ hc), fun e => hn (e ▸ hc)⟩
  rcases hls with rfl | rfl
  · rw [C64_remove_posix, List.filter_append]
    simp only [ne_eq, List.filter_cons, List.filter_nil]
    rw [List.filter_eq_self.2 (by intro c hc; simpa using hf c hc)]
    simp
  · rw [remove_windows, List.filter_append]
    simp only [ne_eq, List.filter_cons, List.filter_nil]
    rw [List.filter_eq_self.2 (by intro c hc; simpa using (hf c hc).2)]
    simp

theorem read_written (ls : Str) (hls : ls = posixSep ∨ ls = windowsSep) (l : List Str) (e : Str)
    (h : ∀ s ∈ l, '\r' ∉ s ∧ '\n' ∉ s) (he : '\r' ∉ e ∧ '\n' ∉ e) :
    (readlines ((l.map (fun s => s ++ ['\n'])).flatten ++ e)).map (removeNewlines ls) = l ++ if e = [] then [] else [e] := by
  induction l with
  | nil =>
    simp only [List.map_nil, List.flatten_nil, List.nil_append]
    rw [readlines_last e he.2]
    by_cases hz : e = []
    · simp [hz]
    · simp only [hz, if_false, List.map_cons, List.map_nil]
      rw [(C64_no_newline e he.1 he.2 ls hls).2]
  | cons s l ih =>
    have hs := h s (by simp)
    have e1 : ((s :: l).map (fun s => s ++ ['\n'])).flatten ++ e = s ++ '\n' :: ((l.map (fun s => s ++ ['\n'])).flatten ++ e) := by
      simp
    rw [e1, readlines_line s _ hs.2, List.map_cons, ih (fun x hx => h x (by simp [hx])), remove_line ls s hls hs.1 hs.2]
    rfl

/-- Exactly what comes back: the list as written, except that an empty last entry is lost. -/
theorem C63_roundtrip_partial (ls : Str) (hls : ls = posixSep ∨ ls = windowsSep) (l : List Str) (e : Str)
    (h : ∀ s ∈ l ++ [e], '\r' ∉ s ∧ '\n' ∉ s) :
    ∃ file, writeTextList ls (l ++ [e]) = .ok file ∧
      (e ≠ [] → readTextList ls file = l ++ [e]) ∧ (e = [] → readTextList ls file = l) := by
  have hl : ∀ s ∈ l, '\r' ∉ s ∧ '\n' ∉ s := fun s hs => h s (by simp [hs])
  have he := h e (by simp)
  have hw : writeTextList ls (l ++ [e]) = .ok (encodeText ls ((l.map (fun s => s ++ ['\n'])).flatten ++ e)) := by
    unfold writeTextList
    simp
  refine ⟨_, hw, ?_⟩
  have hr : '\r' ∉ (l.map (fun s => s ++ ['\n'])).flatten ++ e := by
    simp only [List.mem_append, List.mem_flatten, List.mem_map, not_or, not_exists, not_and]
    refine ⟨?_, he.1⟩
    rintro x ⟨s, hs, rfl⟩ hx
    simp only [List.mem_append, List.mem_singleton] at hx
    rcases hx with hx | hx
    · exact (hl s hs).1 hx
    · exact absurd hx (by decide)
  unfold readTextList
  rw [decode_encode ls _ hls hr, read_written ls hls l e hl he]
  constructor
  · intro hz; simp [hz]
  · intro hz; simp [hz]

example : ∃ file, writeTextList windowsSep [['a', 'b'], [], ['c']] = .ok file ∧
    readTextList windowsSep file = [['a', 'b'], [], ['c']] := by
  obtain ⟨f, h1, h2, _⟩ := C63_roundtrip_partial windowsSep (.inr rfl) [['a', 'b'], []] ['c'] (by decide)
  exact ⟨f, h1, h2 (by decide)⟩

/-- A list whose last line is empty does not survive, and the empty list cannot be written. -/
theorem C63_empty_last_line_false (ls : Str) (hls : ls = posixSep ∨ ls = windowsSep) (l : List Str)
    (h : ∀ s ∈ l, '\r' ∉ s ∧ '\n' ∉ s) :
    (∃ file, writeTextList ls (l ++ [[]]) = .ok file ∧ readTextList ls file ≠ l ++ [[]]) ∧
    writeTextList ls [] = .error .indexError := by
  constructor
  · obtain ⟨f, h1, _, h2⟩ := C63_roundtrip_partial ls hls l [] (by
      intro s hs
      rw [List.mem_append, List.mem_singleton] at hs
      rcases hs with hs | hs
      · exact h s hs
      · subst hs; simp)
    refine ⟨f, h1, ?_⟩
    rw [h2 rfl]
    simp
  · rfl

/-! ### C65 -/

theorem toLower_cases (c : Char) : (isUp c = true ∧ isLow c.toLower = true) ∨ (isUp c = false ∧ c.toLower = c) := by
  unfold isUp isLow
  rw [decide_eq_true_iff, decide_eq_true_iff, decide_eq_false_iff_not]
  by_cases h : 'A' ≤ c ∧ c ≤ 'Z'
  · left
    refine ⟨h, ?_⟩
    unfold Char.toLower
    have h1 : c.val ≥ 'A'.val ∧ c.val ≤ 'Z'.val := h
    rw [dif_pos h1]
    constructor
    · show (97 : UInt32) ≤ c.val + (0x20 : UInt32)
      have a := UInt32.le_iff_toNat_le.1 h1.1
      have b := UInt32.le_iff_toNat_le.1 h1.2
      rw [UInt32.le_iff_toNat_le]
      simp at a b ⊢
      omega
    · show c.val + (0x20 : UInt32) ≤ (122 : UInt32)
      have a := UInt32.le_iff_toNat_le.1 h1.1
      have b := UInt32.le_iff_toNat_le.1 h1.2
      rw [UInt32.le_iff_toNat_le]
      simp at a b ⊢
      omega
  · right
    refine ⟨h, ?_⟩
    unfold Char.toLower
    have h1 : ¬ (c.val ≥ 'A'.val ∧ c.val ≤ 'Z'.val) := h
    rw [dif_neg h1]

theorem isLow_not_up (c : Char) (h : isLow c = true) : isUp c = false := by
  unfold isLow isUp at *
  rw [decide_eq_true_iff] at h
  rw [decide_eq_false_iff_not]
  intro h2
  have : 'a' ≤ 'Z' := Char.le_trans h.1 h2.2
  exact absurd this (by decide)

theorem toLower_not_up (c : Char) : isUp c.toLower = false := by
  rcases toLower_cases c with ⟨_, h⟩ | ⟨h, e⟩
  · exact isLow_not_up _ h
  · rw [e]; exact h

theorem toLower_underscore (c : Char) : c.toLower = '_' ↔ c = '_' := by
  rcases toLower_cases c with ⟨h1, h⟩ | ⟨h, e⟩
  · constructor
    · intro e; rw [e] at h; exact absurd h (by decide)
    · intro e; subst e; exact absurd h1 (by decide)
  · rw [e]

theorem sub1_id (s : Str) (h : ∀ c ∈ s, isUp c = false) : sub1 s = s := by
  induction s with
  | nil => simp [sub1]
  | cons c s ih =>
    cases s with
    | nil => simp [sub1]
    | cons u r =>
      rw [sub1, if_neg (by simp [h u (by simp)]), ih (fun x hx => h x (by simp [hx]))]

theorem sub2_id (s : Str) (h : ∀ c ∈ s, isUp c = false) : sub2 s = s := by
  induction s with
  | nil => simp [sub2]
  | cons c s ih =>
    cases s with
    | nil => simp [sub2]
    | cons u r =>
      rw [sub2, if_neg (by simp [h u (by simp)]), ih (fun x hx => h x (by simp [hx]))]

theorem sub1_remove (s : Str) : removeChar '_' (sub1 s) = removeChar '_' s := by
  induction hn : s.length using Nat.strong_induction_on generalizing s with
  | _ n ih =>
    match s, hn with
    | [], _ => simp [sub1]
    | [c], _ => simp [sub1]
    | c :: u :: rest, hn =>
      rw [sub1]
      split
      · have hlen := (List.dropWhile_suffix isLow (l := rest)).length_le
        have := ih _ (by simp at hn; omega) (rest.dropWhile isLow) rfl
        unfold removeChar at *
        rw [List.filter_cons, List.filter_cons, List.filter_cons, List.filter_append, this, ← List.filter_append,
          List.takeWhile_append_dropWhile, List.filter_cons, List.filter_cons]
        simp
      · have := ih _ (by simp at hn; simp; omega) (u :: rest) rfl
        unfold removeChar at *
        rw [List.filter_cons, this]
        conv_rhs => rw [List.filter_cons]

theorem sub2_remove (s : Str) : removeChar '_' (sub2 s) = removeChar '_' s := by
  induction hn : s.length using Nat.strong_induction_on generalizing s with
  | _ n ih =>
    match s, hn with
    | [], _ => simp [sub2]
    | [c], _ => simp [sub2]
    | c :: u :: rest, hn =>
      rw [sub2]
      split
      · have := ih _ (by simp at hn; omega) rest rfl
        unfold removeChar at *
        rw [List.filter_cons, List.filter_cons, List.filter_cons, this, List.filter_cons, List.filter_cons]
        simp
      · have := ih _ (by simp at hn; simp; omega) (u :: rest) rfl
        unfold removeChar at *
        rw [List.filter_cons, this]
        conv_rhs => rw [List.filter_cons]

theorem lower_remove (s : Str) : removeChar '_' (lower s) = lower (removeChar '_' s) := by
  unfold removeChar lower
  rw [List.filter_map]
  congr 1
  apply List.filter_congr
  intro c _
  simp [toLower_underscore]

/-- No upper-case letter is left; but for underscores the text is the input in lower case; converting again
changes nothing. -/
theorem C65_snake (s : Str) :
    (∀ c ∈ snake s, ¬ ('A' ≤ c ∧ c ≤ 'Z')) ∧
    (snake s).filter (fun c => c ≠ '_') = (s.map Char.toLower).filter (fun c => c ≠ '_') ∧
    snake (snake s) = snake s := by
  have hup : ∀ c ∈ snake s, isUp c = false := by
    intro c hc
    unfold snake lower at hc
    rw [List.mem_map] at hc
    obtain ⟨d, _, rfl⟩ := hc
    exact toLower_not_up d
  refine ⟨?_, ?_, ?_⟩
  · intro c hc
    have := hup c hc
    unfold isUp at this
    rwa [decide_eq_false_iff_not] at this
  · have := lower_remove (sub2 (sub1 s))
    rw [sub2_remove, sub1_remove, ← lower_remove] at this
    exact this
  · rw [show snake (snake s) = lower (sub2 (sub1 (snake s))) from rfl]
    rw [sub1_id _ hup, sub2_id _ hup]
    unfold lower
    rw [List.map_congr_left (g := id), List.map_id]
    intro c hc
    rcases toLower_cases c with ⟨h1, _⟩ | ⟨_, e⟩
    · rw [hup c hc] at h1; exact absurd h1 (by decide)
    · exact e

/-- Specification: a capitalised word: one upper-case letter followed by at least one lower-case letter. -/
def CapWord (w : Str) : Prop :=
  ∃ u ls, w = u :: ls ∧ isUp u = true ∧ ls ≠ [] ∧ ∀ c ∈ ls, isLow c = true

theorem isUp_not_low (c : Char) (h : isUp c = true) : isLow c = false := by
  by_contra hc
  have := isLow_not_up c (by simpa using hc)
  rw [h] at this; exact absurd this (by decide)

theorem isUp_not_dig (c : Char) (h : isUp c = true) : isDig c = false := by
  unfold isUp isDig at *
  rw [decide_eq_true_iff] at h
  rw [decide_eq_false_iff_not]
  intro h2
  have : 'A' ≤ '9' := Char.le_trans h.1 h2.2
  exact absurd this (by decide)

theorem sub1_walk (c : Char) (ls t : Str) (h : ∀ d ∈ ls, isUp d = false) (hz : ls ≠ []) :
    sub1 (c :: (ls ++ t)) = (c :: ls).dropLast ++ sub1 (ls.getLast hz :: t) := by
  induction ls generalizing c with
  | nil => exact absurd rfl hz
  | cons d ls ih =>
    rw [List.cons_append, sub1, if_neg (by simp [h d (by simp)])]
    by_cases hl : ls = []
    · subst hl; simp
    · rw [ih d (fun x hx => h x (by simp [hx])) hl, List.getLast_cons hl]
      rw [List.dropLast_cons_of_ne_nil (by simp : d :: ls ≠ [])]
      rfl

theorem sub2_walk (c : Char) (ls t : Str) (h : ∀ d ∈ ls, isUp d = false) (hz : ls ≠ []) :
    sub2 (c :: (ls ++ t)) = (c :: ls).dropLast ++ sub2 (ls.getLast hz :: t) := by
  induction ls generalizing c with
  | nil => exact absurd rfl hz
  | cons d ls ih =>
    rw [List.cons_append, sub2, if_neg (by simp [h d (by simp)])]
    by_cases hl : ls = []
    · subst hl; simp
    · rw [ih d (fun x hx => h x (by simp [hx])) hl, List.getLast_cons hl]
      rw [List.dropLast_cons_of_ne_nil (by simp : d :: ls ≠ [])]
      rfl

theorem takeWhile_low (ls t : Str) (h : ∀ c ∈ ls, isLow c = true) (ht : ∀ c, t.head? = some c → isLow c = false) :
    (ls ++ t).takeWhile isLow = ls ∧ (ls ++ t).dropWhile isLow = t := by
  induction ls with
  | nil =>
    cases t with
    | nil => simp
    | cons c t => have := ht c (by simp); simp [this]
  | cons c ls ih =>
    have h1 := h c (by simp)
    have h2 := ih (fun d hd => h d (by simp [hd]))
    simp [h1, h2]

theorem head_words (ws : List Str) (h : ∀ w ∈ ws, CapWord w) : ∀ c, (ws.flatten).head? = some c → isLow c = false := by
  intro c hc
  cases ws with
  | nil => simp at hc
  | cons w ws =>
    obtain ⟨u, ls, rfl, hu, _, _⟩ := h w (by simp)
    simp at hc
    subst hc
    exact isUp_not_low _ hu

theorem join_split (u : Char) (ls : Str) (hz : ls ≠ []) : (u :: ls).dropLast ++ [ls.getLast hz] = u :: ls := by
  have := List.dropLast_append_getLast (l := u :: ls) (by simp)
  rw [List.getLast_cons hz] at this
  exact this

theorem sub1_two (w1 w2 : Str) (t : Str) (h1 : CapWord w1) (h2 : CapWord w2) (ht : ∀ c, t.head? = some c → isLow c = false) :
    sub1 (w1 ++ (w2 ++ t)) = w1 ++ '_' :: (w2 ++ sub1 t) := by
  obtain ⟨u, ls, rfl, hu, hz, hl⟩ := h1
  obtain ⟨v, ms, rfl, hv, mz, hm⟩ := h2
  rw [List.cons_append, sub1_walk u ls _ (fun d hd => isLow_not_up d (hl d hd)) hz, List.cons_append, sub1]
  obtain ⟨e1, e2⟩ := takeWhile_low ms t hm ht
  have hne : ls.getLast hz ≠ '\n' := by
    intro e
    have := hl _ (List.getLast_mem hz)
    rw [e] at this; exact absurd this (by decide)
  rw [if_pos ⟨hne, hv, by rw [e1]; exact mz⟩, e1, e2]
  have := join_split u ls hz
  rw [show (u :: ls).dropLast ++ ls.getLast hz :: '_' :: v :: (ms ++ sub1 t) =
    ((u :: ls).dropLast ++ [ls.getLast hz]) ++ '_' :: v :: (ms ++ sub1 t) by simp, this]
  simp

theorem sub1_one (w : Str) (h : CapWord w) : sub1 w = w := by
  obtain ⟨u, ls, rfl, hu, hz, hl⟩ := h
  have := sub1_walk u ls [] (fun d hd => isLow_not_up d (hl d hd)) hz
  rw [List.append_nil] at this
  rw [this, show sub1 [ls.getLast hz] = [ls.getLast hz] by simp [sub1], join_split u ls hz]

theorem sub2_underscore (w : Str) (t : Str) (h : CapWord w) : sub2 (w ++ '_' :: t) = w ++ '_' :: sub2 t := by
  obtain ⟨u, ls, rfl, hu, hz, hl⟩ := h
  rw [List.cons_append, sub2_walk u ls _ (fun d hd => isLow_not_up d (hl d hd)) hz, sub2, if_neg (by
    intro hh; exact absurd hh.2 (by decide))]
  have e : sub2 ('_' :: t) = '_' :: sub2 t := by
    cases t with
    | nil => simp [sub2]
    | cons a t =>
      rw [sub2, if_neg]
      intro hh
      rcases hh.1 with h | h <;> exact absurd h (by decide)
  rw [e]
  have := join_split u ls hz
  rw [show (u :: ls).dropLast ++ ls.getLast hz :: '_' :: sub2 t = ((u :: ls).dropLast ++ [ls.getLast hz]) ++ '_' :: sub2 t by simp, this]

theorem sub2_cap (w : Str) (v : Char) (t : Str) (h : CapWord w) (hv : isUp v = true) (ht : ∀ c, t.head? = some c → isUp c = false) :
    sub2 (w ++ v :: t) = w ++ '_' :: sub2 (v :: t) := by
  obtain ⟨u, ls, rfl, hu, hz, hl⟩ := h
  rw [List.cons_append, sub2_walk u ls _ (fun d hd => isLow_not_up d (hl d hd)) hz, sub2,
    if_pos ⟨.inl (hl _ (List.getLast_mem hz)), hv⟩]
  have e : sub2 (v :: t) = v :: sub2 t := by
    cases t with
    | nil => simp [sub2]
    | cons a t =>
      rw [sub2, if_neg]
      intro hh
      have := ht a (by simp)
      rw [hh.2] at this
      exact absurd this (by decide)
  rw [e]
  have := join_split u ls hz
  rw [show (u :: ls).dropLast ++ ls.getLast hz :: '_' :: v :: sub2 t = ((u :: ls).dropLast ++ [ls.getLast hz]) ++ '_' :: v :: sub2 t by simp, this]

theorem sub2_one (w : Str) (h : CapWord w) : sub2 w = w := by
  obtain ⟨u, ls, rfl, hu, hz, hl⟩ := h
  have := sub2_walk u ls [] (fun d hd => isLow_not_up d (hl d hd)) hz
  rw [List.append_nil] at this
  rw [this, show sub2 [ls.getLast hz] = [ls.getLast hz] by simp [sub2], join_split u ls hz]

/-- Specification: words separated by underscores. -/
def joinUnderscore : List Str → Str
  | [] => []
  | [w] => w
  | w :: ws => w ++ '_' :: joinUnderscore ws

theorem sub_words (ws : List Str) (h : ∀ w ∈ ws, CapWord w) : sub2 (sub1 ws.flatten) = joinUnderscore ws := by
  induction hn : ws.length using Nat.strong_induction_on generalizing ws with
  | _ n ih =>
    match ws, hn with
    | [], _ => simp [sub1, sub2, joinUnderscore]
    | [w], _ =>
      simp only [List.flatten_cons, List.flatten_nil, List.append_nil, joinUnderscore]
      rw [sub1_one w (h w (by simp)), sub2_one w (h w (by simp))]
    | [w, x], _ =>
      simp only [List.flatten_cons, List.flatten_nil, List.append_nil, joinUnderscore]
      have := sub1_two w x [] (h w (by simp)) (h x (by simp)) (by simp)
      rw [List.append_nil, show sub1 [] = [] by simp [sub1], List.append_nil] at this
      rw [this, sub2_underscore w _ (h w (by simp)), sub2_one x (h x (by simp))]
    | w :: x :: y :: ws, hn =>
      have hws : ∀ z ∈ y :: ws, CapWord z := fun z hz => h z (by simp at hz ⊢; tauto)
      have e := sub1_two w x (y :: ws).flatten (h w (by simp)) (h x (by simp)) (head_words _ hws)
      have ihh := ih (y :: ws).length (by simp at hn ⊢; omega) (y :: ws) hws rfl
      rw [List.flatten_cons, List.flatten_cons, e, sub2_underscore w _ (h w (by simp))]
      -- the text starts with the first letter of `y`, followed by a lower-case letter
      obtain ⟨v, t, ht, hv, hlow⟩ : ∃ v t, sub1 (y :: ws).flatten = v :: t ∧ isUp v = true ∧ ∀ c, t.head? = some c → isUp c = false := by
        obtain ⟨v, ms, rfl, hv, mz, hm⟩ := h y (by simp)
        rw [List.flatten_cons, List.cons_append, sub1_walk v ms _ (fun d hd => isLow_not_up d (hm d hd)) mz]
        rw [List.dropLast_cons_of_ne_nil mz]
        refine ⟨v, _, rfl, hv, ?_⟩
        intro c hc
        cases ms with
        | nil => exact absurd rfl mz
        | cons a ms =>
          apply isLow_not_up
          apply hm
          by_cases hms : ms = []
          · subst hms
            simp only [List.dropLast_singleton, List.getLast_singleton] at hc
            have : ∃ r, sub1 (a :: ws.flatten) = a :: r := by
              cases hf : ws.flatten with
              | nil => exact ⟨[], by simp [sub1]⟩
              | cons b r =>
                rw [sub1]
                split
                · exact ⟨_, rfl⟩
                · exact ⟨_, rfl⟩
            obtain ⟨r, hr⟩ := this
            rw [hr] at hc
            simp at hc
            simp [hc]
          · rw [List.dropLast_cons_of_ne_nil hms] at hc
            simp at hc
            simp [hc]
      rw [ht, sub2_cap x v t (h x (by simp)) hv hlow, ← ht, ihh]
      simp [joinUnderscore]

/-- Run-together capitalised words come out in lower case, separated by single underscores. -/
theorem C65_words (ws : List Str) (h : ∀ w ∈ ws, CapWord w) :
    snake ws.flatten = joinUnderscore (ws.map (List.map Char.toLower)) := by
  unfold snake
  rw [sub_words ws h]
  unfold lower
  clear h
  induction ws with
  | nil => rfl
  | cons w ws ih =>
    cases ws with
    | nil => rfl
    | cons x ws =>
      simp only [joinUnderscore, List.map_append, List.map_cons] at ih ⊢
      rw [ih]
      rfl

example : snake "FooBarBaz".toList = "foo_bar_baz".toList := by
  have := C65_words ["Foo".toList, "Bar".toList, "Baz".toList] (by
    intro w hw
    simp only [List.mem_cons, List.not_mem_nil, or_false] at hw
    rcases hw with rfl | rfl | rfl
    · exact ⟨'F', ['o', 'o'], rfl, by decide, by decide, by decide⟩
    · exact ⟨'B', ['a', 'r'], rfl, by decide, by decide, by decide⟩
    · exact ⟨'B', ['a', 'z'], rfl, by decide, by decide, by decide⟩)
  simpa [joinUnderscore] using this

/-! ### C66 -/

theorem col_get {α : Type} (rows : List (List α)) (m j : Nat) (hj : j < m) (h : ∀ r ∈ rows, r.length = m) (i : Nat) :
    (rows.filterMap (fun s => s[j]?))[i]? = rows[i]?.bind (fun s => s[j]?) ∧
    (rows.filterMap (fun s => s[j]?)).length = rows.length := by
  induction rows generalizing i with
  | nil => simp
  | cons r rows ih =>
    have hr : r[j]? = some (r[j]'(by rw [h r (by simp)]; exact hj)) := by simp
    have ih' := ih (fun s hs => h s (by simp [hs]))
    rw [List.filterMap_cons, hr]
    refine ⟨?_, by simp [(ih' 0).2]⟩
    cases i with
    | zero => simp
    | succ i => simpa using (ih' i).1

theorem transpose_eq {α : Type} (st : Bool) (rows : List (List α)) (m : Nat) (hn : rows ≠ []) (h : ∀ r ∈ rows, r.length = m) :
    transposeRows st rows = .ok ((List.range m).map (fun j => rows.filterMap (fun s => s[j]?))) := by
  cases rows with
  | nil => exact absurd rfl hn
  | cons r rs =>
    have hr := h r (by simp)
    unfold transposeRows
    simp only []
    rw [if_pos, hr]
    rw [List.all_eq_true]
    intro s hs
    simp [h s (by simp [hs]), hr]

/-- Specification: `cols` is the table `rows` read column by column. -/
def IsTranspose {α : Type} (rows cols : List (List α)) : Prop :=
  ∀ i j : Nat, (rows[i]?.bind (fun r => r[j]?)) = (cols[j]?.bind (fun c => c[i]?))

/-- On a table of at least one row and one column the conversions return the columns, and each undoes the
other. -/
theorem C66_transpose {α : Type} (st : Bool) (rows : List (List α)) (m : Nat) (hn : rows ≠ []) (hm : 0 < m) (h : ∀ r ∈ rows, r.length = m) :
    (∃ cols, tuplesToLists st rows = .ok cols ∧ cols.length = m ∧ (∀ c ∈ cols, c.length = rows.length) ∧ IsTranspose rows cols ∧
      listsToTuples st cols = .ok rows) ∧
    (∃ cols, listsToTuples st rows = .ok cols ∧ cols.length = m ∧ (∀ c ∈ cols, c.length = rows.length) ∧ IsTranspose rows cols ∧
      tuplesToLists st cols = .ok rows) := by
  suffices hh : ∃ cols, transposeRows st rows = .ok cols ∧ cols.length = m ∧ (∀ c ∈ cols, c.length = rows.length) ∧
      IsTranspose rows cols ∧ transposeRows st cols = .ok rows from ⟨hh, hh⟩
  refine ⟨_, transpose_eq st rows m hn h, by simp, ?_, ?_, ?_⟩
  · intro c hc
    rw [List.mem_map] at hc
    obtain ⟨j, hj, rfl⟩ := hc
    exact (col_get rows m j (List.mem_range.1 hj) h 0).2
  · intro i j
    by_cases hj : j < m
    · simp only [List.getElem?_map, List.getElem?_range hj, Option.map_some, Option.bind_some]
      rw [(col_get rows m j hj h i).1]
    · have e1 : ((List.range m).map (fun j => rows.filterMap (fun s => s[j]?)))[j]? = none := by
        rw [List.getElem?_eq_none]; simp; omega
      rw [e1]
      simp only [Option.bind_none]
      cases hr : rows[i]? with
      | none => rfl
      | some r =>
        have := h r (List.mem_of_getElem? hr)
        simp; omega
  · have hc : ∀ c ∈ (List.range m).map (fun j => rows.filterMap (fun s => s[j]?)), c.length = rows.length := by
      intro c hc
      rw [List.mem_map] at hc
      obtain ⟨j, hj, rfl⟩ := hc
      exact (col_get rows m j (List.mem_range.1 hj) h 0).2
    rw [transpose_eq st _ rows.length (by simp; omega) hc]
    congr 1
    apply List.ext_getElem?
    intro i
    by_cases hi : i < rows.length
    · rw [List.getElem?_map, List.getElem?_range hi, Option.map_some, List.getElem?_eq_getElem hi]
      congr 1
      apply List.ext_getElem?
      intro j
      rw [(col_get _ rows.length i hi hc j).1]
      by_cases hj : j < m
      · rw [List.getElem?_map, List.getElem?_range hj, Option.map_some, Option.bind_some,
          (col_get rows m j hj h i).1, List.getElem?_eq_getElem hi, Option.bind_some]
      · have := h _ (List.getElem_mem hi)
        rw [List.getElem?_eq_none (by simp; omega), List.getElem?_eq_none (by omega)]
        rfl
    · rw [List.getElem?_eq_none (by simp; omega), List.getElem?_eq_none (by omega)]

example : tuplesToLists true [[1, 2, 3], [4, 5, 6]] = .ok [[1, 4], [2, 5], [3, 6]] := by decide

/-- A table with no column is not recovered: the conversion returns the empty list, which has no rows. -/
theorem C66_no_column {α : Type} (st : Bool) (n : Nat) :
    tuplesToLists st (List.replicate (n + 1) ([] : List α)) = .ok [] ∧ listsToTuples st ([] : List (List α)) = .ok [] := by
  refine ⟨?_, rfl⟩
  unfold tuplesToLists
  rw [transpose_eq st _ 0 (by simp [List.replicate_succ]) (by intro r hr; rw [List.eq_of_mem_replicate hr]; rfl)]
  rfl

/-- C66: rows of different lengths are rejected with ValueError by both routines (numpy 1.24 and later). -/
theorem C66_ragged {α : Type} (rows : List (List α)) (r s : List α) (hr : r ∈ rows) (hs : s ∈ rows)
    (h : r.length ≠ s.length) :
    tuplesToLists true rows = .error .valueError ∧ listsToTuples true rows = .error .valueError := by
  suffices hh : transposeRows true rows = .error .valueError from ⟨hh, hh⟩
  cases rows with
  | nil => simp at hr
  | cons a as =>
    unfold transposeRows
    simp only []
    rw [if_neg, if_pos trivial]
    intro hall
    rw [List.all_eq_true] at hall
    have key : ∀ x ∈ a :: as, x.length = a.length := by
      intro x hx
      rcases List.mem_cons.mp hx with rfl | hx
      · rfl
      · simpa using hall x hx
    exact h ((key r hr).trans (key s hs).symm)

/-- C66: with the numpy versions before 1.24 (the only ones the rest of the package runs with: it uses `np.int`) rows of
different lengths come back as they are, without an error. -/
theorem C66_ragged_old {α : Type} (rows : List (List α)) (r s : List α) (hr : r ∈ rows) (hs : s ∈ rows)
    (h : r.length ≠ s.length) :
    tuplesToLists false rows = .ok rows ∧ listsToTuples false rows = .ok rows := by
  suffices hh : transposeRows false rows = .ok rows from ⟨hh, hh⟩
  cases rows with
  | nil => simp at hr
  | cons a as =>
    unfold transposeRows
    simp only []
    rw [if_neg, if_neg (by simp)]
    intro hall
    rw [List.all_eq_true] at hall
    have key : ∀ x ∈ a :: as, x.length = a.length := by
      intro x hx
      rcases List.mem_cons.mp hx with rfl | hx
      · rfl
      · simpa using hall x hx
    exact h ((key r hr).trans (key s hs).symm)

example : tuplesToLists true [[1, 2], [3]] = .error .valueError :=
  (C66_ragged _ [1, 2] [3] (by simp) (by simp) (by simp)).1

/-- `remove_all_entries_from_list` deletes every occurrence and nothing else, in order. -/
theorem C66_remove {α : Type} [DecidableEq α] (l : List α) (v : α) :
    v ∉ removeAll l v ∧ (removeAll l v).Sublist l ∧ ∀ x, x ≠ v → (removeAll l v).count x = l.count x := by
  unfold removeAll
  refine ⟨by simp, List.filter_sublist, ?_⟩
  intro x hx
  rw [List.count_filter]
  simpa using hx

example : removeAll [1, 2, 1, 3] 1 = [2, 3] := by decide

/-! ### C67 -/

/-- Specification: a plain extension, without the characters the listing strips. -/
def PlainExt (x : Str) : Prop := '.' ∉ x ∧ '*' ∉ x

/-- Specification: the name ends with a dot and the extension. -/
def HasExt (name x : Str) : Prop := ∃ stem, name = stem ++ '.' :: x

theorem sanitize_plain (x : Str) (h : PlainExt x) : sanitize x = x := by
  have hf : ∀ (s : Str) (a : Char), a ∉ s → s.filter (fun c => decide (c ≠ a)) = s := by
    intro s a ha
    rw [List.filter_eq_self]
    intro c hc
    simp only [decide_eq_true_eq]
    exact fun e => ha (e ▸ hc)
  unfold sanitize removeChar
  rw [hf x '.' h.1, hf x '*' h.2]

theorem globMatch_some (x : Str) (e : Entry) : globMatch (some x) e = true ↔ e.name.head? ≠ some '.' ∧ HasExt e.name x := by
  unfold globMatch HasExt
  simp only [Bool.and_eq_true, decide_eq_true_eq, List.isSuffixOf_iff_suffix]
  refine and_congr_right (fun _ => ?_)
  constructor
  · rintro ⟨t, ht⟩; exact ⟨t, ht.symm⟩
  · rintro ⟨t, ht⟩; exact ⟨t, ht.symm⟩

theorem mem_allFiles_many (dir : List Entry) (xs : List Str) (hx : ∀ x ∈ xs, PlainExt x) :
    ∃ all, allFiles dir (.many xs) = .ok all ∧
      all = xs.flatMap (fun x => (dir.filter (globMatch (some x))).map Entry.name) := by
  refine ⟨_, rfl, ?_⟩
  rw [List.flatMap_map]
  apply List.flatMap_congr
  intro x hx'
  rw [sanitize_plain x (hx x hx')]

/-- With plain extensions, exactly the entries are returned that are not hidden, have one of the extensions and
start with one of the prefixes; each once when directory names are distinct, the extensions are distinct and
no prefix starts with another.  Missing from the full statement: entries that are directories are returned,
hidden files are not. -/
theorem C67_listing_partial (dir : List Entry) (ps xs : List Str) (hx : ∀ x ∈ xs, PlainExt x) :
    ∃ out, filesStartingWith dir ps (.many xs) = .ok out ∧
      (∀ n, n ∈ out ↔ ∃ e ∈ dir, e.name = n ∧ n.head? ≠ some '.' ∧ (∃ x ∈ xs, HasExt n x) ∧ ∃ p ∈ ps, p <+: n) ∧
      ((dir.map Entry.name).Nodup → xs.Nodup → ps.Pairwise (fun p q => ¬ p <+: q ∧ ¬ q <+: p) → out.Nodup) := by
  obtain ⟨all, ha, e⟩ := mem_allFiles_many dir xs hx
  refine ⟨ps.flatMap (fun p => all.filter (fun n => p.isPrefixOf n)), ?_, ?_, ?_⟩
  · unfold filesStartingWith; rw [ha]; rfl
  · intro n
    subst e
    simp only [List.mem_flatMap, List.mem_filter, List.mem_map, List.isPrefixOf_iff_prefix, globMatch_some]
    constructor
    · rintro ⟨p, hp, ⟨x, hx', en, ⟨hen, hh, hext⟩, rfl⟩, hpre⟩
      exact ⟨en, hen, rfl, hh, ⟨x, hx', hext⟩, p, hp, hpre⟩
    · rintro ⟨en, hen, rfl, hh, ⟨x, hx', hext⟩, p, hp, hpre⟩
      exact ⟨p, hp, ⟨x, hx', en, ⟨hen, hh, hext⟩, rfl⟩, hpre⟩
  · intro hd hxn hps
    have hall : all.Nodup := by
      rw [e, List.nodup_flatMap]
      refine ⟨?_, ?_⟩
      · intro x _
        exact hd.sublist (List.Sublist.map _ List.filter_sublist)
      · refine List.Pairwise.imp_of_mem ?_ hxn
        intro x y hxm hym hxy n hn1 hn2
        simp only [List.mem_map, List.mem_filter, globMatch_some] at hn1 hn2
        obtain ⟨e1, ⟨_, _, s1, h1⟩, rfl⟩ := hn1
        obtain ⟨e2, ⟨_, _, s2, h2⟩, h3⟩ := hn2
        apply hxy
        rw [h3, h1] at h2
        -- the last dot splits both the same way
        have k : ∀ (s : Str) (x : Str), '.' ∉ x → ((s ++ '.' :: x).reverse.takeWhile (fun c => c ≠ '.')).reverse = x := by
          intro s x hx
          rw [List.reverse_append, List.reverse_cons, List.append_assoc]
          rw [List.takeWhile_append_of_pos (by
            intro c hc
            rw [List.mem_reverse] at hc
            simp only [decide_eq_true_eq]
            exact fun e => hx (e ▸ hc))]
          simp
        rw [← k s1 x (hx x hxm).1, h2, k s2 y (hx y hym).1]
    rw [List.nodup_flatMap]
    refine ⟨fun p _ => hall.filter _, ?_⟩
    refine List.Pairwise.imp ?_ hps
    intro p q hpq n hn1 hn2
    simp only [List.mem_filter, List.isPrefixOf_iff_prefix] at hn1 hn2
    rcases List.prefix_or_prefix_of_prefix hn1.2 hn2.2 with h | h
    · exact hpq.1 h
    · exact hpq.2 h

example : filesStartingWith [⟨"a1.txt".toList, false⟩, ⟨"b.txt".toList, false⟩, ⟨"a2.png".toList, false⟩] ["a".toList] (.many ["txt".toList])
    = .ok ["a1.txt".toList] := by decide

/-- Any directory whose name matches is reported among the files; no hidden file ever is. -/
theorem C67_kinds_false (dir : List Entry) (p x : Str) (h : PlainExt x) (n : Str) (hn : HasExt n x) (hp : p <+: n) :
    (n.head? ≠ some '.' → ∃ out, filesStartingWith (⟨n, true⟩ :: dir) [p] (.one x) = .ok out ∧ n ∈ out) ∧
    (n.head? = some '.' → ∃ out, filesStartingWith (⟨n, false⟩ :: dir) [p] (.one x) = .ok out ∧ n ∉ out) := by
  have key : ∀ d : List Entry, filesStartingWith d [p] (.one x) = filesStartingWith d [p] (.many [x]) := fun _ => rfl
  constructor
  · intro hh
    obtain ⟨out, h1, h2, _⟩ := C67_listing_partial (⟨n, true⟩ :: dir) [p] [x] (by simpa using h)
    exact ⟨out, by rw [key]; exact h1, (h2 n).2 ⟨⟨n, true⟩, by simp, rfl, hh, ⟨x, by simp, hn⟩, p, by simp, hp⟩⟩
  · intro hh
    obtain ⟨out, h1, h2, _⟩ := C67_listing_partial (⟨n, false⟩ :: dir) [p] [x] (by simpa using h)
    refine ⟨out, by rw [key]; exact h1, ?_⟩
    intro hm
    obtain ⟨_, _, _, h3, _⟩ := (h2 n).1 hm
    exact h3 hh

/-- A file matching two prefixes is listed twice; a dotted extension loses its inner dot; without extensions,
files without a dot are left out. -/
theorem C67_patterns_false :
    filesStartingWith [⟨"img1.tif".toList, false⟩] ["im".toList, "img".toList] (.one "tif".toList)
      = .ok ["img1.tif".toList, "img1.tif".toList] ∧
    filesStartingWith [⟨"a.tar.gz".toList, false⟩] ["a".toList] (.one "tar.gz".toList) = .ok [] ∧
    filesStartingWith [⟨"README".toList, false⟩] ["R".toList] .none = .ok [] := by
  refine ⟨by decide, by decide, by decide⟩

theorem count_flatMap {α β : Type} [BEq β] (l : List α) (f : α → List β) (b : β) :
    (l.flatMap f).count b = (l.map (fun a => (f a).count b)).sum := by
  induction l with
  | nil => rfl
  | cons a l ih => rw [List.flatMap_cons, List.count_append, ih, List.map_cons, List.sum_cons]

theorem sum_ite_count {α : Type} (l : List α) (p : α → Bool) (k : Nat) : (l.map (fun a => if p a then k else 0)).sum = l.countP p * k := by
  induction l with
  | nil => simp
  | cons a l ih =>
    rw [List.map_cons, List.sum_cons, ih, List.countP_cons]
    by_cases h : p a <;> simp [h] <;> ring

theorem count_filter_if {β : Type} [BEq β] [LawfulBEq β] (l : List β) (p : β → Bool) (b : β) : (l.filter p).count b = if p b then l.count b else 0 := by
  by_cases h : p b
  · rw [if_pos h, List.count_filter h]
  · rw [if_neg h, List.count_eq_zero]
    intro hm
    exact h (List.mem_filter.1 hm).2

/-- C67, exactly, for any extensions and prefixes: dots and stars are taken out of the extensions, and a visible entry, file or folder, of a
directory is listed once for every pair of an extension it has and a prefix it starts with; without extensions (None), once for every prefix if it
has a dot at all. -/
theorem C67_exact_partial (dir : List Entry) (hd : (dir.map Entry.name).Nodup) (ps xs : List Str) (n : Str) :
    (∃ out, filesStartingWith dir ps (.many xs) = .ok out ∧ out.count n =
      if n ∈ dir.map Entry.name ∧ n.head? ≠ some '.' then
        ps.countP (fun p => p.isPrefixOf n) * xs.countP (fun x => ('.' :: x.filter (fun c => c ≠ '.' ∧ c ≠ '*')).isSuffixOf n) else 0) ∧
    (∃ out, filesStartingWith dir ps .none = .ok out ∧ out.count n =
      if n ∈ dir.map Entry.name ∧ n.head? ≠ some '.' ∧ '.' ∈ n then ps.countP (fun p => p.isPrefixOf n) else 0) := by
  have hsan : ∀ x : Str, sanitize x = x.filter (fun c => c ≠ '.' ∧ c ≠ '*') := by
    intro x
    unfold sanitize removeChar
    rw [List.filter_filter]
    apply List.filter_congr
    intro c _
    rw [← Bool.decide_and, decide_eq_decide, and_comm]
  have hone : ∀ q : Option Str, ((dir.filter (globMatch q)).map Entry.name).count n =
      if n ∈ dir.map Entry.name ∧ globMatch q ⟨n, false⟩ = true then 1 else 0 := by
    intro q
    have hg : ∀ e : Entry, globMatch q e = globMatch q ⟨e.name, false⟩ := fun e => rfl
    have hnd : ((dir.filter (globMatch q)).map Entry.name).Nodup := hd.sublist (List.Sublist.map _ List.filter_sublist)
    by_cases hm : n ∈ (dir.filter (globMatch q)).map Entry.name
    · rw [List.count_eq_one_of_mem hnd hm, if_pos]
      obtain ⟨e, he, rfl⟩ := List.mem_map.1 hm
      rw [List.mem_filter] at he
      exact ⟨List.mem_map_of_mem he.1, by rw [← hg]; exact he.2⟩
    · rw [List.count_eq_zero.2 hm, if_neg]
      rintro ⟨h1, h2⟩
      obtain ⟨e, he, rfl⟩ := List.mem_map.1 h1
      exact hm (List.mem_map_of_mem (List.mem_filter.2 ⟨he, by rw [hg]; exact h2⟩))
  constructor
  · refine ⟨_, rfl, ?_⟩
    rw [count_flatMap]
    simp only [count_filter_if]
    rw [sum_ite_count, List.flatMap_map, count_flatMap]
    simp only [hone]
    by_cases h : n ∈ dir.map Entry.name ∧ n.head? ≠ some '.'
    · rw [if_pos h]
      congr 1
      rw [← Nat.mul_one (xs.countP _), ← sum_ite_count]
      congr 1
      apply List.map_congr_left
      intro x _
      have hx := globMatch_some (sanitize x) ⟨n, false⟩
      have hs : HasExt n (sanitize x) ↔ ('.' :: sanitize x).isSuffixOf n = true := by
        rw [List.isSuffixOf_iff_suffix]
        exact ⟨fun ⟨t, ht⟩ => ⟨t, ht.symm⟩, fun ⟨t, ht⟩ => ⟨t, ht.symm⟩⟩
      rw [← hsan]
      by_cases hb : ('.' :: sanitize x).isSuffixOf n = true
      · rw [if_pos hb, if_pos ⟨h.1, hx.2 ⟨h.2, hs.2 hb⟩⟩]
      · rw [if_neg hb, if_neg (fun hh => hb (hs.1 (hx.1 hh.2).2))]
    · rw [if_neg h]
      have : (xs.map (fun x => if n ∈ dir.map Entry.name ∧ globMatch (some (sanitize x)) ⟨n, false⟩ = true then 1 else 0)) = xs.map (fun _ => 0) := by
        apply List.map_congr_left
        intro x _
        rw [if_neg]
        rintro ⟨h1, h2⟩
        exact h ⟨h1, ((globMatch_some (sanitize x) ⟨n, false⟩).1 h2).1⟩
      rw [this]
      simp
  · refine ⟨_, rfl, ?_⟩
    rw [count_flatMap]
    simp only [count_filter_if]
    rw [sum_ite_count]
    have he : ([Option.none].flatMap (fun p => (dir.filter (globMatch p)).map Entry.name)).count n =
        if n ∈ dir.map Entry.name ∧ n.head? ≠ some '.' ∧ '.' ∈ n then 1 else 0 := by
      rw [List.flatMap_cons, List.flatMap_nil, List.append_nil, hone]
      have : globMatch Option.none ⟨n, false⟩ = true ↔ n.head? ≠ some '.' ∧ '.' ∈ n := by
        unfold globMatch
        simp
      simp only [this]
    rw [he]
    split <;> simp

example : ([⟨"a.tif".toList, false⟩, ⟨"b.d".toList, true⟩] : List Entry).map Entry.name = ["a.tif".toList, "b.d".toList] ∧
    (["a.tif".toList, "b.d".toList] : List Str).Nodup := ⟨rfl, by decide⟩

/-- An argument that is neither None, a string nor a list is refused. -/
theorem C67_bad_extensions (dir : List Entry) (ps : List Str) : filesStartingWith dir ps .other = .error .typeError := rfl

end Verif.TextUtils
