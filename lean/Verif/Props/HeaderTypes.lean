import Verif.Lemmas.EnviImage
import Mathlib.Data.List.Induction
import Mathlib.Data.List.TakeWhile

/-! C186: what each value of an ENVI header becomes. -/

namespace Verif.Envi
open Verif TextUtils

variable {F : Type}

/-! ### Stripping -/

theorem strip_ws_append (a s : Str) (h : ∀ c ∈ a, isWs c = true) : strip (a ++ s) = strip s := by
  induction a with
  | nil => rfl
  | cons c a ih =>
    rw [List.cons_append, strip_cons _ _ (h c (by simp)), ih (fun c hc => h c (by simp [hc]))]

theorem strip_append_all (s b : Str) (h : ∀ c ∈ b, isWs c = true) : strip (s ++ b) = strip s := by
  induction b using List.reverseRecOn with
  | nil => rw [List.append_nil]
  | append_singleton b c ih =>
    rw [← List.append_assoc, strip_append_ws _ _ (h c (by simp)), ih (fun c hc => h c (by simp [hc]))]

theorem dropWhile_split (s : Str) : ∃ a, s = a ++ s.dropWhile isWs ∧ ∀ c ∈ a, isWs c = true := by
  refine ⟨s.takeWhile isWs, (List.takeWhile_append_dropWhile).symm, ?_⟩
  intro c hc
  exact List.mem_takeWhile_imp hc

/-- A text is its stripped text between whitespace. -/
theorem strip_split (s : Str) : ∃ a b, s = a ++ strip s ++ b ∧ (∀ c ∈ a, isWs c = true) ∧ ∀ c ∈ b, isWs c = true := by
  obtain ⟨b, hb, hbw⟩ := dropWhile_split s.reverse
  obtain ⟨a, ha, haw⟩ := dropWhile_split (rstrip s)
  refine ⟨a, b.reverse, ?_, haw, fun c hc => hbw c (by simpa using hc)⟩
  have h1 : s = rstrip s ++ b.reverse := by
    have := congrArg List.reverse hb
    rw [List.reverse_reverse, List.reverse_append] at this
    exact this
  have h2 : a ++ strip s = rstrip s := ha.symm
  rw [h2]
  exact h1

/-- The ends of a stripped text are not whitespace. -/
theorem strip_ends (s : Str) : (∀ c, (strip s).head? = some c → isWs c = false) ∧ ∀ c, (strip s).getLast? = some c → isWs c = false := by
  constructor
  · intro c hc
    unfold strip lstrip at hc
    have := List.head?_dropWhile_not isWs (rstrip s)
    rw [hc] at this
    simpa using this
  · intro c hc
    have hr : ∀ c, (rstrip s).getLast? = some c → isWs c = false := by
      intro c hc
      unfold rstrip at hc
      rw [List.getLast?_reverse] at hc
      have := List.head?_dropWhile_not isWs s.reverse
      rw [hc] at this
      simpa using this
    apply hr
    obtain ⟨a, ha, _⟩ := dropWhile_split (rstrip s)
    have h2 : rstrip s = a ++ strip s := ha
    rw [h2, List.getLast?_append, hc]
    rfl

theorem strip_fixed {s : Str} (h1 : ∀ c, s.head? = some c → isWs c = false) (h2 : ∀ c, s.getLast? = some c → isWs c = false) : strip s = s := by
  have e : rstrip s = s := by
    unfold rstrip
    cases hr : s.reverse with
    | nil =>
      have : s = [] := by simpa using hr
      rw [this]
      rfl
    | cons c t =>
      have hc : isWs c = false := h2 c (by rw [← List.head?_reverse, hr]; rfl)
      rw [List.dropWhile_cons, hc]
      simp only [Bool.false_eq_true, if_false]
      rw [← hr, List.reverse_reverse]
  unfold strip
  rw [e]
  unfold lstrip
  cases s with
  | nil => rfl
  | cons c t =>
    rw [List.dropWhile_cons, h1 c rfl]
    rfl

/-! ### Whole numbers -/

/-- Specification: `n` written in decimal digits, with or without a sign. -/
def Whole (t : Str) (n : Int) : Prop :=
  ∃ ds : Str, ds ≠ [] ∧ (∀ c ∈ ds, isDig c = true) ∧
    ((t = ds ∧ n = digitsVal ds) ∨ (t = '+' :: ds ∧ n = digitsVal ds) ∨ (t = '-' :: ds ∧ n = -(digitsVal ds : Int)))

theorem whole_not_ws {t : Str} {n : Int} (h : Whole t n) : ∀ c ∈ t, isWs c = false := by
  obtain ⟨ds, _, hd, h⟩ := h
  have key : ∀ c ∈ ds, isWs c = false := fun c hc => (isDig_not c (hd c hc)).1
  rcases h with ⟨rfl, _⟩ | ⟨rfl, _⟩ | ⟨rfl, _⟩
  · exact key
  · intro c hc
    rcases List.mem_cons.mp hc with rfl | hc
    · decide
    · exact key c hc
  · intro c hc
    rcases List.mem_cons.mp hc with rfl | hc
    · decide
    · exact key c hc

/-- `int` accepts exactly the whole numbers, with whitespace around them. -/
theorem parseInt_iff (s : Str) (n : Int) : parseInt s = some n ↔ Whole (strip s) n := by
  unfold parseInt
  simp only []
  generalize strip s = t
  constructor
  · intro h
    split at h
    · rename_i r
      by_cases hr : r ≠ [] ∧ r.all isDig = true
      · rw [if_pos hr] at h
        have h := Option.some.inj h
        exact ⟨r, hr.1, List.all_eq_true.mp hr.2, .inr (.inr ⟨rfl, h.symm⟩)⟩
      · rw [if_neg hr] at h
        exact absurd h (by simp)
    · rename_i r
      by_cases hr : r ≠ [] ∧ r.all isDig = true
      · rw [if_pos hr] at h
        have h := Option.some.inj h
        exact ⟨r, hr.1, List.all_eq_true.mp hr.2, .inr (.inl ⟨rfl, h.symm⟩)⟩
      · rw [if_neg hr] at h
        exact absurd h (by simp)
    · by_cases hr : t ≠ [] ∧ t.all isDig = true
      · rw [if_pos hr] at h
        have h := Option.some.inj h
        exact ⟨t, hr.1, List.all_eq_true.mp hr.2, .inl ⟨rfl, h.symm⟩⟩
      · rw [if_neg hr] at h
        exact absurd h (by simp)
  · rintro ⟨ds, hne, hd, h⟩
    have hall : ds.all isDig = true := List.all_eq_true.mpr hd
    rcases h with ⟨rfl, rfl⟩ | ⟨rfl, rfl⟩ | ⟨rfl, rfl⟩
    · match t, hne with
      | c :: r, _ =>
        have hc := isDig_not c (hd c (by simp))
        split
        · rename_i e; simp at e; exact absurd e.1 hc.2.2.2.2.2.2.1
        · rename_i e; simp at e; exact absurd e.1 hc.2.2.2.2.2.2.2
        · rw [if_pos ⟨by simp, hall⟩]
          rfl
    · simp only []
      rw [if_pos ⟨hne, hall⟩]
      rfl
    · simp only []
      rw [if_pos ⟨hne, hall⟩]
      rfl

theorem whole_unique {t : Str} {m n : Int} (h1 : Whole t m) (h2 : Whole t n) : m = n := by
  have e : strip t = t := strip_id t (whole_not_ws h1)
  have a := (parseInt_iff t m).2 (by rw [e]; exact h1)
  have b := (parseInt_iff t n).2 (by rw [e]; exact h2)
  rw [a] at b
  exact Option.some.inj b

/-! ### Lists of numbers -/

/-- Specification: pieces separated by commas. -/
def Commas (s : Str) (ps : List Str) : Prop := ps ≠ [] ∧ (∀ p ∈ ps, ',' ∉ p) ∧ s = List.intercalate [','] ps

theorem splitOn_commas (s : Str) : Commas s (splitOn ',' s) := by
  induction s with
  | nil => exact ⟨by simp [splitOn], by simp [splitOn], rfl⟩
  | cons a s ih =>
    obtain ⟨h1, h2, h3⟩ := ih
    unfold splitOn
    by_cases ha : a = ','
    · rw [if_pos ha]
      refine ⟨by simp, ?_, ?_⟩
      · intro p hp
        rcases List.mem_cons.mp hp with rfl | hp
        · simp
        · exact h2 p hp
      · match hs : splitOn ',' s, h1 with
        | q :: qs, _ =>
          rw [ha]
          rw [hs] at h3
          rw [List.intercalate_cons_cons, ← h3]
          rfl
    · rw [if_neg ha]
      match hs : splitOn ',' s, h1 with
      | q :: qs, _ =>
        rw [hs] at h2 h3
        refine ⟨by simp, ?_, ?_⟩
        · intro p hp
          rcases List.mem_cons.mp hp with rfl | hp
          · have := h2 q (by simp)
            simp only [List.mem_cons, not_or]
            exact ⟨fun e => ha e.symm, this⟩
          · exact h2 p (by simp [hp])
        · cases qs with
          | nil => simpa using h3
          | cons q' qs =>
            rw [List.intercalate_cons_cons] at h3 ⊢
            rw [h3]
            rfl

theorem splitOn_piece (p : Str) (h : ',' ∉ p) : splitOn ',' p = [p] := by
  induction p with
  | nil => rfl
  | cons a p ih =>
    simp only [List.mem_cons, not_or] at h
    unfold splitOn
    rw [if_neg (fun e => h.1 e.symm), ih h.2]

theorem splitOn_append (p s : Str) (h : ',' ∉ p) : splitOn ',' (p ++ ',' :: s) = p :: splitOn ',' s := by
  induction p with
  | nil =>
    rw [List.nil_append, splitOn, if_pos rfl]
  | cons a p ih =>
    simp only [List.mem_cons, not_or] at h
    rw [List.cons_append, splitOn, if_neg (fun e => h.1 e.symm), ih h.2]

theorem commas_splitOn {s : Str} {ps : List Str} (h : Commas s ps) : splitOn ',' s = ps := by
  obtain ⟨h1, h2, rfl⟩ := h
  induction ps with
  | nil => exact absurd rfl h1
  | cons p ps ih =>
    cases ps with
    | nil =>
      have : List.intercalate [','] [p] = p := by simp
      rw [this]
      exact splitOn_piece p (h2 p (by simp))
    | cons q qs =>
      rw [List.intercalate_cons_cons]
      have := splitOn_append p (List.intercalate [','] (q :: qs)) (h2 p (by simp))
      rw [List.append_assoc]
      erw [this]
      rw [ih (by simp) (fun x hx => h2 x (by simp [hx]))]

/-! ### Line ends -/

theorem encode_ws {ls : Str} (hls : Sep ls) (a : Str) (h : ∀ c ∈ a, isWs c = true) : ∀ c ∈ encodeText ls a, isWs c = true := by
  unfold encodeText
  rw [replaceStr_single]
  intro c hc
  rw [List.mem_flatMap] at hc
  obtain ⟨x, hx, hc⟩ := hc
  split at hc
  · rcases hls with rfl | rfl
    · simp only [posixSep, List.mem_singleton] at hc
      subst hc
      decide
    · simp only [windowsSep, List.mem_cons, List.not_mem_nil, or_false] at hc
      rcases hc with rfl | rfl <;> decide
  · simp only [List.mem_singleton] at hc
    subst hc
    exact h _ hx

theorem encode_head {ls s : Str} (h : ∀ c, s.head? = some c → isWs c = false) : ∀ c, (encodeText ls s).head? = some c → isWs c = false := by
  intro c hc
  cases s with
  | nil => rw [encode_nil] at hc; simp at hc
  | cons x t =>
    have hx := h x rfl
    have hn : x ≠ '\n' := by
      rintro rfl
      simp [isWs] at hx
    rw [encode_cons ls x t hn] at hc
    simp only [List.head?_cons, Option.some.injEq] at hc
    rwa [← hc]

theorem encode_last {ls s : Str} (h : ∀ c, s.getLast? = some c → isWs c = false) : ∀ c, (encodeText ls s).getLast? = some c → isWs c = false := by
  intro c hc
  rcases List.eq_nil_or_concat s with rfl | ⟨t, x, rfl⟩
  · rw [encode_nil] at hc; simp at hc
  · rw [List.concat_eq_append] at h hc
    have hx := h x (by simp)
    have hn : x ≠ '\n' := by
      rintro rfl
      simp [isWs] at hx
    rw [encode_append, encode_cons ls x [] hn, encode_nil] at hc
    simp only [List.getLast?_append, List.getLast?_singleton, Option.some_or, Option.some.injEq] at hc
    rwa [← hc]

theorem strip_encode {ls : Str} (hls : Sep ls) (s : Str) : strip (encodeText ls s) = encodeText ls (strip s) := by
  obtain ⟨a, b, hs, ha, hb⟩ := strip_split s
  obtain ⟨h1, h2⟩ := strip_ends s
  conv_lhs => rw [hs]
  rw [encode_append, encode_append, strip_append_all _ _ (encode_ws hls b hb), strip_ws_append _ _ (encode_ws hls a ha)]
  exact strip_fixed (encode_head h1) (encode_last h2)

/-- Removing the platform's line ends from a text removes its newlines. -/
theorem remove_encode {ls : Str} (hls : Sep ls) (s : Str) (h : '\r' ∉ s) : replaceStr ls [] (encodeText ls s) = removeChar '\n' s := by
  rcases hls with rfl | rfl
  · unfold encodeText posixSep removeChar
    rw [replaceStr_single, replaceStr_single]
    induction s with
    | nil => rfl
    | cons c s ih =>
      simp only [List.mem_cons, not_or] at h
      rw [List.flatMap_cons, List.flatMap_append, ih h.2]
      by_cases hc : c = '\n' <;> simp [hc]
  · induction s with
    | nil => rw [encode_nil]; simp [replaceStr, removeChar]
    | cons c s ih =>
      simp only [List.mem_cons, not_or] at h
      by_cases hc : c = '\n'
      · subst hc
        have e : encodeText windowsSep ('\n' :: s) = '\r' :: '\n' :: encodeText windowsSep s := by
          have := encode_append windowsSep ['\n'] s
          rw [encode_nl] at this
          exact this
        rw [e, replaceStr, if_pos (by simp [windowsSep])]
        have : List.drop (windowsSep.length - 1) ('\n' :: encodeText windowsSep s) = encodeText windowsSep s := rfl
        rw [this, ih h.2]
        simp [removeChar]
      · rw [encode_cons _ _ _ hc, replaceStr, if_neg (by simp [windowsSep, Ne.symm h.1, h.1]), ih h.2]
        simp [removeChar, hc]

/-! ### C186 -/

/-- Specification: the names of the entries that are lists of numbers, and of those that are whole numbers. -/
def listNames : List String := ["fwhm", "wavelength"]
def wholeNames : List String := ["samples", "lines", "bands", "header offset", "data type", "byte order", "x start", "y start"]

/-- Specification: an entry has one of these names, in upper or lower case. -/
def Named (names : List String) (k : Str) : Prop := ∃ s ∈ names, lower k = s.toList

/-- Specification: the value of the entry `k` for the text `y` of the file (between `=` and the end of the line or the closing brace, without whitespace around it).  A list: the
numbers between the commas, blanks, newlines and braces ignored.  A whole number: decimal digits, perhaps a sign, blanks ignored.  Everything else: the text, with the line ends of the
platform. -/
def HeaderValue (pf : Str → Option F) (ls k y : Str) (w : HVal F) : Prop :=
  (Named listNames k ∧ ∃ ps l, Commas (y.filter (fun c => c ∉ [' ', '\n', '{', '}'])) ps ∧ List.Forall₂ (fun p x => pf p = some x) ps l ∧ w = .arr l) ∨
  (¬ Named listNames k ∧ Named wholeNames k ∧ ∃ n, Whole (y.filter (fun c => c ≠ ' ')) n ∧ w = .int n) ∨
  (¬ Named listNames k ∧ ¬ Named wholeNames k ∧ w = .str (encodeText ls y))

theorem named_list (k : Str) : Named listNames k ↔ lower k ∈ arrayKeys := by
  simp [Named, listNames, arrayKeys]

theorem named_whole (k : Str) : Named wholeNames k ↔ lower k ∈ intKeys := by
  simp [Named, wholeNames, intKeys]

theorem mapM_forall₂ (pf : Str → Option F) (ps : List Str) (l : List F) :
    (ps.mapM (fun x => match pf x with | some v => Except.ok v | none => Except.error Err.valueError) : Py (List F)) = .ok l ↔ List.Forall₂ (fun p x => pf p = some x) ps l := by
  induction ps generalizing l with
  | nil =>
    simp only [List.mapM_nil, List.forall₂_nil_left_iff]
    constructor
    · intro h
      cases h
      rfl
    · rintro rfl
      rfl
  | cons p ps ih =>
    rw [List.mapM_cons]
    cases hp : pf p with
    | none =>
      constructor
      · intro h
        cases h
      · intro h
        cases h with
        | cons h _ => rw [hp] at h; cases h
    | some v =>
      cases hm : (ps.mapM (fun x => match pf x with | some v => Except.ok v | none => Except.error Err.valueError) : Py (List F)) with
      | error e =>
        constructor
        · intro h
          cases h
        · intro h
          cases h with
          | cons h1 h2 =>
            rw [(ih _).2 h2] at hm
            cases hm
      | ok l' =>
        constructor
        · intro h
          cases h
          exact .cons hp ((ih _).1 hm)
        · intro h
          cases h with
          | cons h1 h2 =>
            rw [(ih _).2 h2] at hm
            rw [hp] at h1
            cases hm
            cases h1
            rfl

theorem whole_stripped {y : Str} (hy : strip y = y) : strip (removeChar ' ' y) = removeChar ' ' y := by
  have he := strip_ends y
  rw [hy] at he
  apply strip_fixed
  · intro c hc
    cases y with
    | nil => simp [removeChar] at hc
    | cons x t =>
      have hx := he.1 x rfl
      have hn : x ≠ ' ' := by rintro rfl; simp [isWs] at hx
      have : removeChar ' ' (x :: t) = x :: removeChar ' ' t := by simp [removeChar, hn]
      rw [this] at hc
      simp only [List.head?_cons, Option.some.injEq] at hc
      rwa [← hc]
  · intro c hc
    rcases List.eq_nil_or_concat y with rfl | ⟨t, x, rfl⟩
    · simp [removeChar] at hc
    · rw [List.concat_eq_append] at he hc
      have hx := he.2 x (by simp)
      have hn : x ≠ ' ' := by rintro rfl; simp [isWs] at hx
      have : removeChar ' ' (t ++ [x]) = removeChar ' ' t ++ [x] := by simp [removeChar, hn]
      rw [this] at hc
      simp only [List.getLast?_append, List.getLast?_singleton, Option.some_or, Option.some.injEq] at hc
      rwa [← hc]

theorem typed_value (pf : Str → Option F) {ls : Str} (hls : Sep ls) (k y : Str) (hr : '\r' ∉ y) (hy : strip y = y) (w : HVal F) :
    Typed pf ls k (encodeText ls y) w ↔ HeaderValue pf ls k y w := by
  unfold Typed HeaderValue
  simp only [named_list, named_whole]
  have h1 : ∀ l, bracketToArray pf ls (encodeText ls y) = .ok l ↔
      ∃ ps, Commas (y.filter (fun c => c ∉ [' ', '\n', '{', '}'])) ps ∧ List.Forall₂ (fun p x => pf p = some x) ps l := by
    intro l
    unfold bracketToArray
    simp only []
    rw [remove_encode hls y hr]
    have e : removeChar '}' (removeChar '{' (removeChar ' ' (removeChar '\n' y))) = y.filter (fun c => c ∉ [' ', '\n', '{', '}']) := by
      unfold removeChar
      rw [List.filter_filter, List.filter_filter, List.filter_filter]
      congr 1
      funext c
      simp only [List.mem_cons, List.not_mem_nil, or_false]
      by_cases a1 : c = ' ' <;> by_cases a2 : c = '\n' <;> by_cases a3 : c = '{' <;> by_cases a4 : c = '}' <;> simp [a1, a2, a3, a4]
    rw [e]
    constructor
    · intro h
      exact ⟨_, splitOn_commas _, (mapM_forall₂ pf _ l).1 h⟩
    · rintro ⟨ps, hc, hf⟩
      rw [commas_splitOn hc]
      exact (mapM_forall₂ pf _ l).2 hf
  have h2 : ∀ n, parseInt (removeChar ' ' (encodeText ls y)) = some n ↔ Whole (y.filter (fun c => c ≠ ' ')) n := by
    intro n
    rw [parseInt_iff]
    by_cases hn : '\n' ∈ y
    · constructor
      · intro h
        exfalso
        have hs : strip (encodeText ls y) = encodeText ls y := by rw [strip_encode hls, hy]
        rw [whole_stripped hs] at h
        have hm : '\n' ∈ encodeText ls y := by
          unfold encodeText
          rw [replaceStr_single, List.mem_flatMap]
          refine ⟨'\n', hn, ?_⟩
          rw [if_pos rfl]
          rcases hls with rfl | rfl <;> decide
        have := whole_not_ws h '\n' (by simp [removeChar, hm])
        simp [isWs] at this
      · intro h
        exfalso
        have := whole_not_ws h '\n' (by simp [hn])
        simp [isWs] at this
    · rw [encode_id ls y hn, whole_stripped hy]
      rfl
  constructor
  · rintro (⟨hk, l, hl, rfl⟩ | ⟨hk, hk', n, hn, rfl⟩ | h)
    · obtain ⟨ps, a, b⟩ := (h1 l).1 hl
      exact .inl ⟨hk, ps, l, a, b, rfl⟩
    · exact .inr (.inl ⟨hk, hk', n, (h2 n).1 hn, rfl⟩)
    · exact .inr (.inr h)
  · rintro (⟨hk, ps, l, a, b, rfl⟩ | ⟨hk, hk', n, hn, rfl⟩ | h)
    · exact .inl ⟨hk, l, (h1 l).2 ⟨ps, a, b⟩, rfl⟩
    · exact .inr (.inl ⟨hk, hk', n, (h2 n).2 hn, rfl⟩)
    · exact .inr (.inr h)

/-- Specification: key and text of a piece, without whitespace around them. -/
def Item.keyText : Item → Option (Str × Str)
  | .comment _ => none
  | .entry k v => some (strip k, strip v)
  | .block k pre body => some (strip k, strip (pre ++ '{' :: body))

/-- Specification: the text of the last piece with a key. -/
def lastText (items : List Item) (k : Str) : Option Str :=
  (((items.filterMap Item.keyText).filter (fun p => p.1 = k)).getLast?).map Prod.snd

theorem strip_mem {s : Str} {c : Char} (h : c ∈ strip s) : c ∈ s := by
  obtain ⟨a, b, hs, _, _⟩ := strip_split s
  rw [hs]
  simp [h]

theorem strip_strip (s : Str) : strip (strip s) = strip s := strip_fixed (strip_ends s).1 (strip_ends s).2

theorem keyVal_text {ls : Str} (hls : Sep ls) (it : Item) (ho : it.Ok) : it.keyVal ls = it.keyText.map (fun p => (p.1, encodeText ls p.2)) := by
  cases it with
  | comment c => rfl
  | entry k v =>
    have hn : '\n' ∉ strip v := fun h => ho.2.1.2 (strip_mem h)
    simp only [Item.keyVal, Item.keyText, Option.map_some, encode_id ls _ hn]
  | block k pre body =>
    have hp : '\n' ∉ pre := ho.2.1.2
    simp only [Item.keyVal, Item.keyText, Option.map_some]
    rw [← strip_encode hls, encode_append, encode_id ls pre hp, encode_cons ls '{' body (by decide)]

theorem keyText_ok (it : Item) (ho : it.Ok) (k y : Str) (h : it.keyText = some (k, y)) : '\r' ∉ y ∧ strip y = y := by
  cases it with
  | comment c => simp [Item.keyText] at h
  | entry k v =>
    simp only [Item.keyText, Option.some.injEq, Prod.mk.injEq] at h
    rw [← h.2]
    exact ⟨fun hm => ho.2.1.1 (strip_mem hm), strip_strip v⟩
  | block k pre body =>
    simp only [Item.keyText, Option.some.injEq, Prod.mk.injEq] at h
    rw [← h.2]
    refine ⟨fun hm => ?_, strip_strip _⟩
    have := strip_mem hm
    simp only [List.mem_append, List.mem_cons] at this
    rcases this with h | h | h
    · exact ho.2.1.1 h
    · exact absurd h (by decide)
    · exact ho.2.2.1 h

theorem lastValue_text {ls : Str} (hls : Sep ls) (items : List Item) (ho : ∀ it ∈ items, it.Ok) (k : Str) :
    lastValue ls items k = (lastText items k).map (encodeText ls) := by
  unfold lastValue lastText
  have e : items.filterMap (Item.keyVal ls) = (items.filterMap Item.keyText).map (fun p => (p.1, encodeText ls p.2)) := by
    rw [List.map_filterMap]
    exact List.filterMap_congr (fun it hit => keyVal_text hls it (ho it hit))
  rw [e, List.filter_map, List.getLast?_map, Option.map_map, Option.map_map]
  rfl

theorem lastText_ok (items : List Item) (ho : ∀ it ∈ items, it.Ok) (k y : Str) (h : lastText items k = some y) : '\r' ∉ y ∧ strip y = y := by
  unfold lastText at h
  rw [Option.map_eq_some_iff] at h
  obtain ⟨p, hp, rfl⟩ := h
  have hm := List.mem_of_getLast? hp
  rw [List.mem_filter, List.mem_filterMap] at hm
  obtain ⟨⟨it, hit, hkv⟩, _⟩ := hm
  exact keyText_ok it (ho it hit) p.1 p.2 hkv

/-- C186: for every header of lines and blocks, each ended by a line end: every entry is what `HeaderValue` says of the text of its last piece, for any case of its name; nothing else is an
entry; and the reader raises ValueError exactly when some entry has no value. -/
theorem C186_entries (pf : Str → Option F) (ls : Str) (hls : Sep ls) (items : List Item) (ho : ∀ it ∈ items, it.Ok) :
    ((∀ k y, k ≠ [] → lastText items k = some y → ∃ w, HeaderValue pf ls k y w) →
      ∃ d, readHeaderText pf ls (encodeText ls (items.flatMap Item.text)) = .ok d ∧
        ∀ k, k ≠ [] → (lastText items k = none → lookup d k = none) ∧ ∀ y, lastText items k = some y → ∀ w, HeaderValue pf ls k y w ↔ lookup d k = some w) ∧
    ((∃ k y, k ≠ [] ∧ lastText items k = some y ∧ ¬ ∃ w, HeaderValue pf ls k y w) →
      readHeaderText pf ls (encodeText ls (items.flatMap Item.text)) = .error .valueError) := by
  have hc := C60_entries_partial pf ls hls items ho [] ⟨by simp, by simp⟩ (by simp)
  rw [List.append_nil] at hc
  have tv : ∀ k y, lastText items k = some y → ∀ w, Typed pf ls k (encodeText ls y) w ↔ HeaderValue pf ls k y w := by
    intro k y hy w
    obtain ⟨h1, h2⟩ := lastText_ok items ho k y hy
    exact typed_value pf hls k y h1 h2 w
  constructor
  · intro hall
    obtain ⟨d, hd, hl⟩ := hc.1 (by
      intro k v hk hv
      rw [lastValue_text hls items ho, Option.map_eq_some_iff] at hv
      obtain ⟨y, hy, rfl⟩ := hv
      obtain ⟨w, hw⟩ := hall k y hk hy
      exact ⟨w, (tv k y hy w).2 hw⟩)
    refine ⟨d, hd, fun k hk => ⟨fun hn => (hl k hk).1 (by rw [lastValue_text hls items ho, hn]; rfl), ?_⟩⟩
    intro y hy w
    obtain ⟨w', hw', hlk⟩ := (hl k hk).2 (encodeText ls y) (by rw [lastValue_text hls items ho, hy]; rfl)
    constructor
    · intro hw
      have := (convert_typed pf ls k (encodeText ls y) w).2 ((tv k y hy w).2 hw)
      have h2 := (convert_typed pf ls k (encodeText ls y) w').2 hw'
      rw [this] at h2
      cases h2
      exact hlk
    · intro hw
      rw [hlk] at hw
      cases hw
      exact (tv k y hy _).1 hw'
  · rintro ⟨k, y, hk, hy, hno⟩
    refine hc.2 ⟨k, encodeText ls y, hk, by rw [lastValue_text hls items ho, hy]; rfl, ?_⟩
    rintro ⟨w, hw⟩
    exact hno ⟨w, (tv k y hy w).1 hw⟩

/-- The lines of the example. -/
def exampleItems : List Item := [.comment "ENVI".toList, .entry "Samples ".toList " 1 200 ".toList, .entry "y start".toList " -3".toList,
  .block "wavelength ".toList " ".toList " 400.5,\n  1e3 ".toList, .entry "sensor type".toList " AVIRIS".toList]

/-- The numbers of the example. -/
def exampleFloat (s : Str) : Option Nat := if s = "400.5".toList then some 4005 else if s = "1e3".toList then some 1000 else none

/-- The hypotheses are met, and the result is the expected one: `Samples = 1 200`, `y start = -3`, two wavelengths on two lines and a sensor type, with Windows line ends. -/
example : ∃ d, readHeaderText exampleFloat windowsSep (encodeText windowsSep (exampleItems.flatMap Item.text)) = .ok d ∧
      lookup d "Samples".toList = some (.int 1200) ∧ lookup d "y start".toList = some (.int (-3)) ∧ lookup d "wavelength".toList = some (.arr [4005, 1000]) ∧
      lookup d "sensor type".toList = some (.str "AVIRIS".toList) := by
  have v1 : HeaderValue exampleFloat windowsSep "Samples".toList "1 200".toList (.int 1200) :=
    .inr (.inl ⟨by rw [named_list]; decide, by rw [named_whole]; decide, 1200, ⟨"1200".toList, by decide, by decide, .inl ⟨by decide, by decide⟩⟩, rfl⟩)
  have v2 : HeaderValue exampleFloat windowsSep "y start".toList "-3".toList (.int (-3)) :=
    .inr (.inl ⟨by rw [named_list]; decide, by rw [named_whole]; decide, -3, ⟨"3".toList, by decide, by decide, .inr (.inr ⟨by decide, by decide⟩)⟩, rfl⟩)
  have v3 : HeaderValue exampleFloat windowsSep "wavelength".toList "{ 400.5,\n  1e3".toList (.arr [4005, 1000]) :=
    .inl ⟨by rw [named_list]; decide, ["400.5".toList, "1e3".toList], _, ⟨by decide, by decide, by decide⟩, .cons (by decide) (.cons (by decide) .nil), rfl⟩
  have v4 : HeaderValue exampleFloat windowsSep "sensor type".toList "AVIRIS".toList (.str "AVIRIS".toList) :=
    .inr (.inr ⟨by rw [named_list]; decide, by rw [named_whole]; decide, by rw [encode_id _ _ (by decide)]⟩)
  have ho : ∀ it ∈ exampleItems, it.Ok := by
    intro it hit
    simp only [exampleItems, List.mem_cons, List.not_mem_nil, or_false] at hit
    rcases hit with rfl | rfl | rfl | rfl | rfl
    · exact ⟨⟨by decide, by decide⟩, by decide, by decide⟩
    · exact ⟨⟨by decide, by decide⟩, ⟨by decide, by decide⟩, by decide, by decide, by decide, by decide⟩
    · exact ⟨⟨by decide, by decide⟩, ⟨by decide, by decide⟩, by decide, by decide, by decide, by decide⟩
    · exact ⟨⟨by decide, by decide⟩, ⟨by decide, by decide⟩, by decide, by decide, by decide, by decide, by decide⟩
    · exact ⟨⟨by decide, by decide⟩, ⟨by decide, by decide⟩, by decide, by decide, by decide, by decide⟩
  obtain ⟨d, hd, hl⟩ := (C186_entries exampleFloat windowsSep (.inr rfl) exampleItems ho).1 (by
    intro k y _ hy
    unfold lastText at hy
    rw [Option.map_eq_some_iff] at hy
    obtain ⟨p, hp, rfl⟩ := hy
    have hm := List.mem_of_getLast? hp
    rw [List.mem_filter] at hm
    obtain ⟨hm, hk⟩ := hm
    have e : exampleItems.filterMap Item.keyText = [("Samples".toList, "1 200".toList), ("y start".toList, "-3".toList), ("wavelength".toList, "{ 400.5,\n  1e3".toList),
        ("sensor type".toList, "AVIRIS".toList)] := by decide
    rw [e] at hm
    simp only [decide_eq_true_eq] at hk
    subst hk
    simp only [List.mem_cons, List.not_mem_nil, or_false] at hm
    rcases hm with rfl | rfl | rfl | rfl
    exacts [⟨_, v1⟩, ⟨_, v2⟩, ⟨_, v3⟩, ⟨_, v4⟩])
  exact ⟨d, hd, ((hl _ (by decide)).2 _ (by decide) _).1 v1, ((hl _ (by decide)).2 _ (by decide) _).1 v2, ((hl _ (by decide)).2 _ (by decide) _).1 v3,
    ((hl _ (by decide)).2 _ (by decide) _).1 v4⟩

end Verif.Envi
