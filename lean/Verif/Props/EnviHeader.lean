import Mathlib.Tactic.IntervalCases
import Verif.Lemmas.EnviHeader

/-! C60, C61: ENVI headers and data types. -/

namespace Verif.Envi
open Verif TextUtils

variable {F : Type}

/-! ### C61 -/

/-- Specification: the data types of the ENVI format documentation, for the codes numpy has a type for; complex
types are given by item size (6: two float32, 9: two float64). -/
def enviDoc : List (Int × DType) :=
  [(1, .u8), (2, .i16), (3, .i32), (4, .f32), (5, .f64), (6, .c64), (9, .other 128 16), (12, .u16), (13, .u32), (14, .i64), (15, .u64)]

/-- Every code with a type comes back from it, and every type with a code comes back from it. -/
theorem C61_roundtrip (code : Int) (d : DType) :
    toNumpy code = .ok (some d) ↔ toEnvi d = some code := by
  constructor
  · intro h
    unfold toNumpy at h
    split at h
    · simp at h
    · rename_i p hp
      have hm := List.mem_of_find?_eq_some hp
      have hc := List.find?_some hp
      simp only [decide_eq_true_eq] at hc
      simp only [Except.ok.injEq] at h
      simp only [table, List.mem_cons, List.not_mem_nil, or_false] at hm
      rcases hm with rfl | rfl | rfl | rfl | rfl | rfl | rfl | rfl | rfl | rfl | rfl | rfl | rfl | rfl | rfl <;>
        simp only [reduceCtorEq, Option.some.injEq] at h hc <;> subst hc <;> subst h <;> rfl
  · intro h
    unfold toEnvi at h
    rw [Option.map_eq_some_iff] at h
    obtain ⟨p, hp, hc⟩ := h
    have hm := List.mem_of_find?_eq_some hp
    have hd := List.find?_some hp
    simp only [decide_eq_true_eq] at hd
    simp only [table, List.mem_cons, List.not_mem_nil, or_false] at hm
    rcases hm with rfl | rfl | rfl | rfl | rfl | rfl | rfl | rfl | rfl | rfl | rfl | rfl | rfl | rfl | rfl <;>
        simp only [reduceCtorEq, Option.some.injEq] at hd hc <;> subst hc <;> subst hd <;> rfl

example : toNumpy 12 = .ok (some .u16) ∧ toEnvi .u16 = some 12 := by decide

/-- The codes other than 6 and 9 denote the documented types. -/
theorem C61_documented_partial (code : Int) (d : DType) (h6 : code ≠ 6) (h9 : code ≠ 9) :
    (code, d) ∈ enviDoc ↔ toNumpy code = .ok (some d) := by
  constructor
  · intro h
    simp only [enviDoc, List.mem_cons, List.not_mem_nil, or_false, Prod.mk.injEq] at h
    rcases h with h | h | h | h | h | h | h | h | h | h | h <;> obtain ⟨rfl, rfl⟩ := h <;> first | rfl | (exact absurd rfl h6) | (exact absurd rfl h9)
  · intro h
    unfold toNumpy at h
    split at h
    · simp at h
    · rename_i p hp
      have hm := List.mem_of_find?_eq_some hp
      have hc := List.find?_some hp
      simp only [decide_eq_true_eq] at hc
      simp only [Except.ok.injEq] at h
      simp only [table, List.mem_cons, List.not_mem_nil, or_false] at hm
      rcases hm with rfl | rfl | rfl | rfl | rfl | rfl | rfl | rfl | rfl | rfl | rfl | rfl | rfl | rfl | rfl <;>
        simp only [reduceCtorEq, Option.some.injEq] at h hc <;> subst hc <;> subst h <;>
        first | (exact absurd rfl h9) | (simp [enviDoc])

/-- Every code but 1 to 15 is a KeyError; the codes 6, 7, 8, 10 and 11 give no type and all others do. -/
theorem C61_unknown (code : Int) :
    (toNumpy code = .error .keyError ↔ code < 1 ∨ 15 < code) ∧
    (toNumpy code = .ok none ↔ code = 6 ∨ code = 7 ∨ code = 8 ∨ code = 10 ∨ code = 11) := by
  by_cases h : code < 1 ∨ 15 < code
  · have : toNumpy code = .error .keyError := by
      unfold toNumpy
      rw [List.find?_eq_none.2 (by
        intro p hp
        simp only [table, List.mem_cons, List.not_mem_nil, or_false] at hp
        simp only [decide_eq_true_eq]
        rcases hp with rfl | rfl | rfl | rfl | rfl | rfl | rfl | rfl | rfl | rfl | rfl | rfl | rfl | rfl | rfl <;> simp only [] <;> omega)]
    rw [this]
    simp only [h, true_iff, reduceCtorEq, false_iff]
    refine ⟨trivial, by omega⟩
  · obtain ⟨n, rfl⟩ : ∃ n : Nat, code = n := ⟨code.toNat, by omega⟩
    have hn : n < 16 ∧ 0 < n := by omega
    obtain ⟨h1, h2⟩ := hn
    interval_cases n <;> decide

/-- Code 9, documented as double precision complex, is taken as single precision; and the files of code 6, documented
as single precision complex, are read as float64. -/
theorem C61_complex_false :
    toNumpy 9 = .ok (some .c64) ∧ (9, DType.c64) ∉ enviDoc ∧ toEnvi .c64 = some 9 ∧
    (∀ (fs : FS) (path : Str) (b : List Nat), fs path = some b → toNumpy 6 = .ok none ∧
      ∃ raw, fromFile fs path none = .ok (.f64, raw)) := by
  refine ⟨rfl, by simp [enviDoc], rfl, ?_⟩
  intro fs path b h
  refine ⟨rfl, ?_⟩
  unfold fromFile
  rw [h]
  exact ⟨_, rfl⟩

/-! ### C60 -/

/-- Specification: the loop of `read_envi_header` ends: after some number of turns the text is used up or an
exception is raised. -/
def Terminates (ls file : Str) : Prop :=
  ∃ n, (∃ d, turns ls n (cleanupNewlines ls (decodeText file), []) = .ok ([], d)) ∨
    ∃ e, turns ls n (cleanupNewlines ls (decodeText file), []) = .error e

theorem step_suffix {ls t t' k v : Str} (h : step ls t = .ok (t', k, v)) : t' <:+ t := by
  unfold step at h
  split at h
  · simp only [] at h
    split at h
    · simp at h
    · simp only [Except.ok.injEq, Prod.mk.injEq] at h
      rw [← h.1]; exact List.drop_suffix _ _
  · split at h
    · simp only [] at h
      split at h
      · simp at h
      · simp only [Except.ok.injEq, Prod.mk.injEq] at h
        rw [← h.1]; exact List.drop_suffix _ _
    · split at h
      · simp only [Except.ok.injEq, Prod.mk.injEq] at h
        rw [← h.1]; exact List.drop_suffix _ _
      · simp only [Except.ok.injEq, Prod.mk.injEq] at h
        rw [← h.1]; exact List.drop_suffix _ _

theorem step_shorter {ls t t' k v : Str} (ht : t ≠ []) (hb : '{' ∈ t → '}' ∈ t) (h : step ls t = .ok (t', k, v)) :
    t'.length < t.length := by
  have key : ∀ i : Int, 0 ≤ i → (after t i).length < t.length := by
    intro i hi
    unfold after
    rw [List.length_drop]
    have : 0 < t.length := List.length_pos_iff.2 ht
    omega
  unfold step at h
  split at h
  · rename_i hbr
    simp only [] at h
    split at h
    · simp at h
    · simp only [Except.ok.injEq, Prod.mk.injEq] at h
      rw [← h.1]
      apply key
      have hm : '{' ∈ t := by
        by_contra hc
        unfold isBracketEntry at hbr
        rw [findStr_none '{' [] t hc] at hbr
        simp at hbr
      exact (findStr_lt '}' t (hb hm)).1
  · split at h
    · rename_i heq
      simp only [] at h
      split at h
      · simp at h
      · simp only [Except.ok.injEq, Prod.mk.injEq] at h
        rw [← h.1]
        apply key
        unfold isEqualsEntry at heq
        simp only [] at heq
        have := findStr_ge ['='] t
        split at heq
        · simp at heq
        · split at heq
          · simp at heq
          · split at heq
            · omega
            · simp at heq
    · split at h
      · rename_i hnl
        simp only [Except.ok.injEq, Prod.mk.injEq] at h
        rw [← h.1]
        apply key
        unfold hasNewline at hnl
        have := findStr_ge ls t
        simp at hnl
        omega
      · simp only [Except.ok.injEq, Prod.mk.injEq] at h
        rw [← h.1]
        have : 0 < t.length := List.length_pos_iff.2 ht
        simp; omega

theorem parse_no_loop (ls t : Str) (d : Dict Str) (h : ∀ p q, t = p ++ '{' :: q → '}' ∈ q) : parseLoop ls t d ≠ .error .loops := by
  induction hn : t.length using Nat.strong_induction_on generalizing t d with
  | _ n ih =>
    by_cases ht : t = []
    · subst ht; rw [parseLoop_nil]; simp
    · cases hs : step ls t with
      | error e => rw [parseLoop_err ht hs, step_err hs]; simp
      | ok r =>
        obtain ⟨t', k, v⟩ := r
        have hl := step_shorter ht (by
          intro hm
          obtain ⟨p, q, e⟩ := List.append_of_mem hm
          have := h p q e
          rw [e]; simp [this]) hs
        rw [parseLoop_step ht hs hl]
        refine ih t'.length (by omega) t' _ ?_ rfl
        intro p q e
        obtain ⟨w, hw⟩ := step_suffix hs
        refine h (w ++ p) q ?_
        rw [← hw, e]; simp

/-- The reader ends on every file in which each opening brace is followed, sooner or later, by a closing one. -/
theorem C60_terminates_partial (ls file : Str) (hls : Sep ls) (h : ∀ p q, decodeText file = p ++ '{' :: q → '}' ∈ q) :
    Terminates ls file := by
  have hn := parse_no_loop ls (cleanupNewlines ls (decodeText file)) [] (by
    rw [header_text ls file hls]
    generalize decodeText file = t at h
    intro p q e
    induction t generalizing p with
    | nil => rw [encode_nil] at e; simp at e
    | cons c t ih =>
      have ht : ∀ p q, t = p ++ '{' :: q → '}' ∈ q := fun p q e => h (c :: p) q (by rw [e]; rfl)
      by_cases hc : c = '\n'
      · subst hc
        rw [show '\n' :: t = ['\n'] ++ t from rfl, encode_append, encode_nl] at e
        rcases hls with rfl | rfl
        · match p, e with
          | [], e => simp [posixSep] at e
          | a :: p, e =>
            simp only [posixSep, List.cons_append, List.nil_append, List.cons.injEq] at e
            exact ih ht p e.2
        · match p, e with
          | [], e => simp [windowsSep] at e
          | [a], e => simp [windowsSep] at e
          | a :: b :: p, e =>
            simp only [windowsSep, List.cons_append, List.nil_append, List.cons.injEq] at e
            exact ih ht p e.2.2
      · rw [encode_cons ls c t hc] at e
        match p, e with
        | [], e =>
          simp only [List.nil_append, List.cons.injEq] at e
          rw [← e.2, mem_encode ls t hls '}' (by decide) (by decide)]
          exact h [] t (by rw [e.1]; rfl)
        | a :: p, e =>
          simp only [List.cons_append, List.cons.injEq] at e
          exact ih ht p e.2)
  obtain ⟨h1, h2, _⟩ := parseLoop_turns ls (cleanupNewlines ls (decodeText file)) []
  cases hp : parseLoop ls (cleanupNewlines ls (decodeText file)) [] with
  | ok d =>
    obtain ⟨n, hn⟩ := (h1 d).1 hp
    exact ⟨n, .inl ⟨d, hn⟩⟩
  | error e =>
    have he : e ≠ .loops := fun e' => hn (by rw [hp, e'])
    obtain ⟨n, hn⟩ := (h2 e he).1 hp
    exact ⟨n, .inr ⟨e, hn⟩⟩

example : Terminates posixSep "ENVI\nsamples = 3\nwavelength = { 1,\n 2 }\n".toList :=
  C60_terminates_partial _ _ (.inl rfl) (by
    intro p q e
    have hd : decodeText "ENVI\nsamples = 3\nwavelength = { 1,\n 2 }\n".toList = "ENVI\nsamples = 3\nwavelength = ".toList ++ '{' :: " 1,\n 2 }\n".toList := by decide
    rw [hd] at e
    have k : ∀ (a b p q : Str), '{' ∉ a → '{' ∉ b → a ++ '{' :: b = p ++ '{' :: q → b = q := by
      intro a
      induction a with
      | nil =>
        intro b p q _ hb e
        cases p with
        | nil => simpa using e
        | cons c p =>
          simp only [List.nil_append, List.cons_append, List.cons.injEq] at e
          exact absurd (by rw [e.2]; simp) hb
      | cons c a ih =>
        intro b p q ha hb e
        simp only [List.mem_cons, not_or] at ha
        cases p with
        | nil =>
          simp only [List.cons_append, List.nil_append, List.cons.injEq] at e
          exact absurd e.1.symm ha.1
        | cons d p =>
          simp only [List.cons_append, List.cons.injEq] at e
          exact ih b p q ha.2 hb e.2
    rw [← k _ _ _ _ (by decide) (by decide) e]
    decide)

/-- The reader never ends on a header with an unclosed brace in a `key = {` line that is followed by a line end. -/
theorem C60_unclosed_brace_false (ls : Str) (hls : Sep ls) (items : List Item) (ho : ∀ it ∈ items, it.Ok) (k pre body : Str)
    (hk : NoNl k) (hp : NoNl pre) (hb : '\r' ∉ body) (hk1 : '}' ∉ k) (hp1 : '}' ∉ pre) (hb1 : '}' ∉ body) (hnl : '\n' ∈ body) :
    ¬ Terminates ls (encodeText ls (items.flatMap Item.text ++ (k ++ '=' :: pre ++ '{' :: body))) := by
  have hdec : decodeText (encodeText ls (items.flatMap Item.text ++ (k ++ '=' :: pre ++ '{' :: body))) =
      items.flatMap Item.text ++ (k ++ '=' :: pre ++ '{' :: body) := by
    apply decode_encode ls _ hls
    simp only [List.mem_append, List.mem_flatMap, List.mem_cons, not_or, not_exists, not_and]
    refine ⟨?_, ⟨hk.1, by decide, hp.1⟩, by decide, hb⟩
    intro it hit
    have := ho it hit
    cases it with
    | comment c => simp only [Item.text, List.mem_append, List.mem_singleton, not_or]; exact ⟨this.1.1, by decide⟩
    | entry k v =>
      simp only [Item.text, List.mem_append, List.mem_cons, List.not_mem_nil, or_false, not_or]
      exact ⟨⟨this.1.1, by decide, this.2.1.1⟩, by decide⟩
    | block k pre body =>
      simp only [Item.text, List.mem_append, List.mem_cons, List.not_mem_nil, or_false, not_or]
      exact ⟨⟨⟨this.1.1, by decide, this.2.1.1⟩, by decide, this.2.2.1⟩, by decide, by decide⟩
  have hloop : parseLoop ls (cleanupNewlines ls (decodeText (encodeText ls (items.flatMap Item.text ++ (k ++ '=' :: pre ++ '{' :: body))))) []
      = .error .loops := by
    rw [header_text ls _ hls, hdec]
    obtain ⟨l1, d1, hl1, e1, _⟩ := parse_items hls (.inl rfl) items ho (k ++ '=' :: pre ++ '{' :: body) ([] : Dict Str)
    rw [List.nil_append] at e1
    rw [e1]
    have hnn : NoNl (k ++ '=' :: (pre ++ ['{'])) := by
      refine ⟨?_, ?_⟩
      · simp only [List.mem_append, List.mem_cons, not_or]
        exact ⟨hk.1, by decide, hp.1, by decide, by simp⟩
      · simp only [List.mem_append, List.mem_cons, not_or]
        exact ⟨hk.2, by decide, hp.2, by decide, by simp⟩
    have etext : l1 ++ encodeText ls (k ++ '=' :: pre ++ '{' :: body) = (l1 ++ (k ++ '=' :: (pre ++ ['{']))) ++ encodeText ls body := by
      rw [show k ++ '=' :: pre ++ '{' :: body = (k ++ '=' :: (pre ++ ['{'])) ++ body by simp, encode_append, encode_id ls _ hnn.2]
      simp
    obtain ⟨a, as, hls', hp', _, _⟩ := lead_noHead hls hl1 hnn
    have hfind : findStr ls (encodeText ls body) ≠ -1 := by
      obtain ⟨u, w, rfl⟩ := List.append_of_mem hnl
      rw [show u ++ '\n' :: w = u ++ (['\n'] ++ w) from rfl, encode_append, encode_append, encode_nl]
      generalize encodeText ls u = u'
      generalize encodeText ls w = w'
      rw [hls']
      induction u' with
      | nil => rw [List.nil_append, findStr_here]; decide
      | cons c u' ih =>
        rw [List.cons_append, findStr]
        have := findStr_ge (a :: as) (u' ++ ((a :: as) ++ w'))
        split
        · decide
        · omega
    rw [etext]
    have hnl' := findStr_append a as (l1 ++ (k ++ '=' :: (pre ++ ['{']))) (encodeText ls body) hp'
    rw [← hls', if_neg hfind] at hnl'
    have hge := findStr_ge ls (encodeText ls body)
    have fb := (findStr_before '{' (l1 ++ (k ++ '=' :: (pre ++ ['{']))) (encodeText ls body)).2 (by simp)
    have h1 : isBracketEntry ls (l1 ++ (k ++ '=' :: (pre ++ ['{'])) ++ encodeText ls body) = true := by
      unfold isBracketEntry
      simp only [hnl']
      rw [if_neg fb.2, if_pos (by have := fb.1; omega)]
    have hclose : findStr ['}'] (l1 ++ (k ++ '=' :: (pre ++ ['{'])) ++ encodeText ls body) = -1 := by
      apply findStr_none
      simp only [List.mem_append, List.mem_cons, not_or]
      refine ⟨⟨lead_not _ _ _ hls hl1 (by decide), hk1, by decide, hp1, by decide, by simp⟩, ?_⟩
      rw [mem_encode ls body hls '}' (by decide) (by decide)]
      exact hb1
    have hne : encodeText ls body ≠ [] := by
      intro e
      rw [e] at hfind
      exact hfind (by rw [hls']; unfold findStr; simp)
    have hsp : ∃ k' v', splitFirst (upTo (l1 ++ (k ++ '=' :: (pre ++ ['{'])) ++ encodeText ls body) (-1)) = .ok (k', v') := by
      unfold splitFirst
      rw [if_pos]
      · exact ⟨_, _, rfl⟩
      · unfold upTo
        rw [if_pos (by omega), List.dropLast_append_of_ne_nil hne]
        simp
    obtain ⟨k', v', hsp⟩ := hsp
    refine parseLoop_stuck (k := lstrip (rstrip k')) (v := strip v') (by simp) ?_
    unfold step
    rw [h1]
    simp only [if_true, hclose, hsp]
    simp [after]
  rintro ⟨n, h⟩
  obtain ⟨t', d', h1, h2⟩ := (parseLoop_turns ls _ []).2.2.1 hloop n
  rcases h with ⟨d, h⟩ | ⟨e, h⟩
  · rw [h1] at h; simp at h; exact h2 h.1
  · rw [h1] at h; simp at h

example : ¬ Terminates posixSep "ENVI\nwavelength = { 1,\n 2\n".toList := by
  have := C60_unclosed_brace_false posixSep (.inl rfl) [.comment "ENVI".toList] (by
    intro it hit; simp at hit; subst hit; exact ⟨⟨by decide, by decide⟩, by decide, by decide⟩)
    "wavelength ".toList " ".toList " 1,\n 2\n".toList ⟨by decide, by decide⟩ ⟨by decide, by decide⟩ (by decide) (by decide) (by decide) (by decide) (by decide)
  rw [encode_posix] at this
  exact this
where encode_posix (t : Str) : encodeText posixSep t = t := by
        unfold encodeText posixSep
        rw [replaceStr_single]
        induction t with
        | nil => rfl
        | cons c t ih =>
          rw [List.flatMap_cons, ih]
          by_cases h : c = '\n' <;> simp [h]

/-- Specification: what a header value becomes. -/
def Typed (pf : Str → Option F) (ls k v : Str) (w : HVal F) : Prop :=
  (lower k ∈ arrayKeys ∧ ∃ l, bracketToArray pf ls v = .ok l ∧ w = .arr l) ∨
  (lower k ∉ arrayKeys ∧ lower k ∈ intKeys ∧ ∃ n, parseInt (removeChar ' ' v) = some n ∧ w = .int n) ∨
  (lower k ∉ arrayKeys ∧ lower k ∉ intKeys ∧ w = .str v)

theorem convert_typed (pf : Str → Option F) (ls k v : Str) (w : HVal F) : convert pf ls (k, v) = .ok (k, w) ↔ Typed pf ls k v w := by
  unfold convert Typed
  by_cases h1 : lower k ∈ arrayKeys
  · simp only [h1, if_true, not_true, false_and, or_false, true_and]
    cases hb : bracketToArray pf ls v with
    | error e => simp
    | ok l => simp [eq_comm]
  · by_cases h2 : lower k ∈ intKeys
    · simp only [h1, h2, if_true, if_false, not_true, not_false_iff, false_and, false_or, or_false, true_and]
      cases hb : parseInt (removeChar ' ' v) with
      | none => simp
      | some n => simp [eq_comm]
    · simp only [h1, h2, if_false, not_false_iff, false_and, false_or, true_and]
      simp [eq_comm]

/-- For every header made of lines and blocks, each ended by a line end, followed by an unfinished line: the
reader ends; every entry of the dictionary is the (converted) value of the last piece with that key; every key of
a piece is there.  It raises ValueError exactly when some value cannot be converted.  Missing from the full statement:
the entry on an unfinished last line is dropped. -/
theorem C60_entries_partial (pf : Str → Option F) (ls : Str) (hls : Sep ls) (items : List Item) (ho : ∀ it ∈ items, it.Ok)
    (tail : Str) (ht : NoNl tail) (hb : '{' ∉ tail) :
    ((∀ k v, k ≠ [] → lastValue ls items k = some v → ∃ w, Typed pf ls k v w) →
      ∃ d, readHeaderText pf ls (encodeText ls (items.flatMap Item.text ++ tail)) = .ok d ∧
        ∀ k, k ≠ [] → (lastValue ls items k = none → lookup d k = none) ∧
          ∀ v, lastValue ls items k = some v → ∃ w, Typed pf ls k v w ∧ lookup d k = some w) ∧
    ((∃ k v, k ≠ [] ∧ lastValue ls items k = some v ∧ ¬ ∃ w, Typed pf ls k v w) →
      readHeaderText pf ls (encodeText ls (items.flatMap Item.text ++ tail)) = .error .valueError) := by
  have hdec : decodeText (encodeText ls (items.flatMap Item.text ++ tail)) = items.flatMap Item.text ++ tail := by
    apply decode_encode ls _ hls
    simp only [List.mem_append, List.mem_flatMap, not_or, not_exists, not_and]
    refine ⟨?_, ht.1⟩
    intro it hit
    have := ho it hit
    cases it with
    | comment c => simp only [Item.text, List.mem_append, List.mem_singleton, not_or]; exact ⟨this.1.1, by decide⟩
    | entry k v =>
      simp only [Item.text, List.mem_append, List.mem_cons, List.not_mem_nil, or_false, not_or]
      exact ⟨⟨this.1.1, by decide, this.2.1.1⟩, by decide⟩
    | block k pre body =>
      simp only [Item.text, List.mem_append, List.mem_cons, List.not_mem_nil, or_false, not_or]
      exact ⟨⟨⟨this.1.1, by decide, this.2.1.1⟩, by decide, this.2.2.1⟩, by decide, by decide⟩
  obtain ⟨d, hd, hnod, hlook⟩ := parse_all hls items ho tail ht hb
  have hread : readHeaderText pf ls (encodeText ls (items.flatMap Item.text ++ tail)) =
      (d.filter (fun p => p.1 ≠ [])).mapM (convert pf ls) := by
    unfold readHeaderText
    rw [header_text ls _ hls, hdec, hd]
  rw [hread]
  have hmem : ∀ p ∈ d.filter (fun p => p.1 ≠ []), p.1 ≠ [] ∧ lastValue ls items p.1 = some p.2 := by
    intro p hp
    rw [List.mem_filter] at hp
    have hne : p.1 ≠ [] := by simpa using hp.2
    exact ⟨hne, by rw [← hlook p.1 hne]; exact mem_lookup d hnod p hp.1⟩
  constructor
  · intro hall
    obtain ⟨r, hr, hk⟩ := mapM_convert_ok pf ls (d.filter (fun p => p.1 ≠ [])) (by
      intro p hp
      obtain ⟨h1, h2⟩ := hmem p hp
      obtain ⟨w, hw⟩ := hall p.1 p.2 h1 h2
      exact ⟨_, (convert_typed pf ls p.1 p.2 w).2 hw⟩)
    refine ⟨r, hr, ?_⟩
    intro k hkn
    have := hk k
    rw [lookup_filter d k hkn, hlook k hkn] at this
    refine ⟨this.1, ?_⟩
    intro v hv
    obtain ⟨w, hw, hl⟩ := this.2 v hv
    exact ⟨w, (convert_typed pf ls k v w).1 hw, hl⟩
  · rintro ⟨k, v, hkn, hv, hno⟩
    have hm : (k, v) ∈ d.filter (fun p => p.1 ≠ []) := by
      rw [List.mem_filter]
      exact ⟨lookup_some_mem d k v (by rw [hlook k hkn]; exact hv), by simpa using hkn⟩
    cases hc : convert pf ls (k, v) with
    | error e => exact mapM_convert_err pf ls _ (k, v) hm e hc
    | ok q =>
      exfalso
      have hq := convert_key pf ls (k, v) q hc
      exact hno ⟨q.2, (convert_typed pf ls k v q.2).1 (by rw [hc]; exact congrArg _ (Prod.ext hq rfl))⟩

example : ∃ d, readHeaderText (F := Unit) (fun _ => some ()) posixSep
      (encodeText posixSep ([Item.comment "ENVI".toList, .entry "samples ".toList " 3".toList, .block "wavelength ".toList " ".toList " 1,\n 2".toList].flatMap Item.text ++ [])) = .ok d ∧
      lookup d "wavelength".toList = some (.arr [(), ()]) := by
  obtain ⟨h, _⟩ := C60_entries_partial (F := Unit) (fun _ => some ()) posixSep (.inl rfl)
    [Item.comment "ENVI".toList, .entry "samples ".toList " 3".toList, .block "wavelength ".toList " ".toList " 1,\n 2".toList]
    (by
      intro it hit
      simp only [List.mem_cons, List.not_mem_nil, or_false] at hit
      rcases hit with rfl | rfl | rfl
      · exact ⟨⟨by decide, by decide⟩, by decide, by decide⟩
      · exact ⟨⟨by decide, by decide⟩, ⟨by decide, by decide⟩, by decide, by decide, by decide, by decide⟩
      · exact ⟨⟨by decide, by decide⟩, ⟨by decide, by decide⟩, by decide, by decide, by decide, by decide, by decide⟩)
    [] ⟨by simp, by simp⟩ (by simp)
  have hL : ∀ k, lastValue posixSep [Item.comment "ENVI".toList, .entry "samples ".toList " 3".toList, .block "wavelength ".toList " ".toList " 1,\n 2".toList] k =
      if k = "wavelength".toList then some "{ 1,\n 2".toList else if k = "samples".toList then some "3".toList else none := by
    intro k
    rw [lastValue_cons, lastValue_cons, lastValue_cons, lastValue_nil]
    have e1 : encodeText posixSep " 1,\n 2".toList = " 1,\n 2".toList := by
      unfold encodeText; rw [replaceStr_single]; decide
    simp only [Item.keyVal, e1]
    rw [show strip "wavelength ".toList = "wavelength".toList by decide, show strip "samples ".toList = "samples".toList by decide,
      show strip (" ".toList ++ '{' :: " 1,\n 2".toList) = "{ 1,\n 2".toList by decide, show strip " 3".toList = "3".toList by decide]
    have gen : ∀ A B va vb : Str, A ≠ B →
        (((none : Option Str).or (if A = k then some va else none)).or (if B = k then some vb else none)).or none =
        if k = A then some va else if k = B then some vb else none := by
      intro A B va vb hAB
      by_cases h1 : A = k
      · subst h1; simp
      · by_cases h2 : B = k
        · subst h2; simp [h1, Ne.symm h1]
        · simp [h1, h2, Ne.symm h1, Ne.symm h2]
    exact gen _ _ _ _ (by decide)
  have hA : ∃ l : List Unit, bracketToArray (fun _ => some ()) posixSep "{ 1,\n 2".toList = .ok l ∧ l = [(), ()] := by
    unfold bracketToArray posixSep
    rw [replaceStr_single]
    exact ⟨_, rfl, rfl⟩
  obtain ⟨l, hl, hl2⟩ := hA
  obtain ⟨d, hd, hk⟩ := h (by
    intro k v _ hv
    rw [hL k] at hv
    split at hv
    · rename_i hk
      simp only [Option.some.injEq] at hv
      subst hv; subst hk
      exact ⟨.arr l, .inl ⟨by decide, l, hl, rfl⟩⟩
    · split at hv
      · rename_i hk
        simp only [Option.some.injEq] at hv
        subst hv; subst hk
        exact ⟨.int 3, .inr (.inl ⟨by decide, by decide, 3, by decide, rfl⟩)⟩
      · simp at hv)
  refine ⟨d, hd, ?_⟩
  obtain ⟨w, hw, hlk⟩ := (hk "wavelength".toList (by decide)).2 _ (by rw [hL]; rfl)
  rw [hlk]
  rcases hw with ⟨_, l', hl', rfl⟩ | ⟨hn, _⟩ | ⟨hn, _⟩
  · rw [hl] at hl'
    simp only [Except.ok.injEq] at hl'
    rw [← hl', hl2]
  · exact absurd (by decide) hn
  · exact absurd (by decide) hn

/-- An entry on the last line of a file without a line end at its end is lost. -/
theorem C60_last_line_false (pf : Str → Option F) (ls : Str) (hls : Sep ls) (k v : Str) (hk : NoNl k) (hv : NoNl v)
    (hkb : '{' ∉ k) (hvb : '{' ∉ v) (hne : strip k ≠ []) :
    ∃ d, readHeaderText pf ls (encodeText ls (k ++ '=' :: v)) = .ok d ∧ lookup d (strip k) = none := by
  obtain ⟨h, _⟩ := C60_entries_partial pf ls hls [] (by simp) (k ++ '=' :: v) (by
    refine ⟨?_, ?_⟩
    · simp only [List.mem_append, List.mem_cons, not_or]
      exact ⟨hk.1, by decide, hv.1⟩
    · simp only [List.mem_append, List.mem_cons, not_or]
      exact ⟨hk.2, by decide, hv.2⟩) (by
    simp only [List.mem_append, List.mem_cons, not_or]
    exact ⟨hkb, by decide, hvb⟩)
  obtain ⟨d, hd, hl⟩ := h (by intro k v _ h; simp [lastValue_nil] at h)
  exact ⟨d, by simpa using hd, (hl (strip k) hne).1 (lastValue_nil _ _)⟩

/-- A line whose value contains another `=` makes the reader fail. -/
theorem C60_second_equals_false (pf : Str → Option F) (ls : Str) (hls : Sep ls) (items : List Item) (ho : ∀ it ∈ items, it.Ok)
    (k v w tail : Str) (hk : NoNl k) (hv : NoNl v) (hw : NoNl w) (hkb : '{' ∉ k) (hvb : '{' ∉ v) (hwb : '{' ∉ w) (htl : '\r' ∉ tail) :
    readHeaderText pf ls (encodeText ls (items.flatMap Item.text ++ (k ++ '=' :: v ++ '=' :: w ++ '\n' :: tail))) = .error .valueError := by
  have hline : NoNl (k ++ '=' :: v ++ '=' :: w) := by
    refine ⟨?_, ?_⟩
    · simp only [List.mem_append, List.mem_cons, not_or]
      exact ⟨⟨hk.1, by decide, hv.1⟩, by decide, hw.1⟩
    · simp only [List.mem_append, List.mem_cons, not_or]
      exact ⟨⟨hk.2, by decide, hv.2⟩, by decide, hw.2⟩
  have hdec : decodeText (encodeText ls (items.flatMap Item.text ++ (k ++ '=' :: v ++ '=' :: w ++ '\n' :: tail))) =
      items.flatMap Item.text ++ (k ++ '=' :: v ++ '=' :: w ++ '\n' :: tail) := by
    apply decode_encode ls _ hls
    rw [List.mem_append, not_or]
    refine ⟨?_, ?_⟩
    · simp only [List.mem_flatMap, not_exists, not_and]
      intro it hit
      have := ho it hit
      cases it with
      | comment c => simp only [Item.text, List.mem_append, List.mem_singleton, not_or]; exact ⟨this.1.1, by decide⟩
      | entry k v =>
        simp only [Item.text, List.mem_append, List.mem_cons, List.not_mem_nil, or_false, not_or]
        exact ⟨⟨this.1.1, by decide, this.2.1.1⟩, by decide⟩
      | block k pre body =>
        simp only [Item.text, List.mem_append, List.mem_cons, List.not_mem_nil, or_false, not_or]
        exact ⟨⟨⟨this.1.1, by decide, this.2.1.1⟩, by decide, this.2.2.1⟩, by decide, by decide⟩
    · rw [List.mem_append, not_or]
      refine ⟨hline.1, ?_⟩
      simp only [List.mem_cons, not_or]
      exact ⟨by decide, htl⟩
  unfold readHeaderText
  rw [header_text ls _ hls, hdec]
  obtain ⟨l1, d1, hl1, e1, _⟩ := parse_items hls (.inl rfl) items ho (k ++ '=' :: v ++ '=' :: w ++ '\n' :: tail) ([] : Dict Str)
  rw [List.nil_append] at e1
  rw [e1]
  obtain ⟨a, as, hls', hp', _, _⟩ := lead_noHead hls hl1 hline
  have etext : l1 ++ encodeText ls (k ++ '=' :: v ++ '=' :: w ++ '\n' :: tail) =
      (l1 ++ (k ++ '=' :: v ++ '=' :: w)) ++ ((a :: as) ++ encodeText ls tail) := by
    rw [encode_append, encode_id ls _ hline.2, show '\n' :: tail = ['\n'] ++ tail from rfl, encode_append, encode_nl, ← hls']
    simp
  rw [etext]
  have hnl := findStr_at a as (l1 ++ (k ++ '=' :: v ++ '=' :: w)) (encodeText ls tail) hp'
  have hb' : '{' ∉ l1 ++ (k ++ '=' :: v ++ '=' :: w) := by
    simp only [List.mem_append, List.mem_cons, not_or]
    exact ⟨lead_not _ _ _ hls hl1 (by decide), ⟨hkb, by decide, hvb⟩, by decide, hwb⟩
  have fb := (findStr_before '{' (l1 ++ (k ++ '=' :: v ++ '=' :: w)) ((a :: as) ++ encodeText ls tail)).not.2 hb'
  have fe := (findStr_before '=' (l1 ++ (k ++ '=' :: v ++ '=' :: w)) ((a :: as) ++ encodeText ls tail)).2 (by simp)
  rw [parseLoop_err (e := .valueError)]
  · simp
  · rw [hls']
    have h1 : isBracketEntry (a :: as) (l1 ++ (k ++ '=' :: v ++ '=' :: w) ++ ((a :: as) ++ encodeText (a :: as) tail)) = false := by
      rw [hls'] at hnl fb
      unfold isBracketEntry
      simp only [hnl]
      split
      · rfl
      · split
        · exact absurd ⟨by assumption, by assumption⟩ fb
        · rfl
    have h2 : isEqualsEntry (a :: as) (l1 ++ (k ++ '=' :: v ++ '=' :: w) ++ ((a :: as) ++ encodeText (a :: as) tail)) = true := by
      rw [hls'] at hnl fb fe
      unfold isEqualsEntry
      simp only [hnl]
      rw [if_neg fe.2, if_neg fb, if_pos fe.1]
    rw [hls'] at hnl
    unfold step
    rw [h1, h2]
    simp only [Bool.false_eq_true, if_false, if_true, hnl]
    rw [upTo_len]
    unfold splitOnly
    rw [if_neg]
    simp only [List.count_append, List.count_cons_self]
    omega

end Verif.Envi
