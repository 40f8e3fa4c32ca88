import Verif.Model.Envi
import Verif.Lemmas.TextUtils
import Verif.Lemmas.Str

/-! Lemmas about the ENVI reader and writer. -/

namespace Verif.Envi
open Verif TextUtils

/-! ### Finding -/

theorem findStr_ge (sub s : Str) : -1 ≤ findStr sub s := by
  induction s with
  | nil => unfold findStr; split <;> omega
  | cons c s ih =>
    unfold findStr
    split
    · omega
    · split
      · omega
      · omega

theorem findStr_append (a : Char) (as p w : Str) (h : a ∉ p) :
    findStr (a :: as) (p ++ w) = if findStr (a :: as) w = -1 then -1 else p.length + findStr (a :: as) w := by
  induction p with
  | nil =>
    simp only [List.nil_append, List.length_nil, Nat.cast_zero, zero_add]
    split <;> simp_all
  | cons c p ih =>
    simp only [List.mem_cons, not_or] at h
    have hpre : (a :: as).isPrefixOf (c :: (p ++ w)) = false := by simp [List.isPrefixOf, h.1]
    rw [List.cons_append, findStr, hpre, ih h.2]
    have := findStr_ge (a :: as) w
    by_cases hw : findStr (a :: as) w = -1
    · simp [hw]
    · simp only [hw, if_false, List.length_cons, Nat.cast_add, Nat.cast_one]
      have hne : ¬ ((p.length : Int) + findStr (a :: as) w = -1) := by omega
      simp only [hne, if_false, Bool.false_eq_true]
      omega

theorem findStr_here (a : Char) (as r : Str) : findStr (a :: as) ((a :: as) ++ r) = 0 := by
  rw [List.cons_append, findStr]
  have : (a :: as).isPrefixOf (a :: (as ++ r)) = true := by
    rw [List.isPrefixOf_iff_prefix]
    exact ⟨r, rfl⟩
  rw [this]; rfl

theorem findStr_at (a : Char) (as p r : Str) (h : a ∉ p) : findStr (a :: as) (p ++ ((a :: as) ++ r)) = p.length := by
  rw [findStr_append a as p _ h, findStr_here]
  simp

theorem findStr_none (a : Char) (as s : Str) (h : a ∉ s) : findStr (a :: as) s = -1 := by
  have := findStr_append a as s [] h
  rw [List.append_nil] at this
  rw [this]
  have : findStr (a :: as) [] = -1 := by unfold findStr; simp
  simp [this]

theorem findStr_lt (a : Char) (s : Str) (h : a ∈ s) : 0 ≤ findStr [a] s ∧ findStr [a] s < s.length := by
  obtain ⟨p, r, rfl, hp⟩ := List.eq_append_cons_of_mem h
  have := findStr_at a [] p r hp
  simp only [List.cons_append, List.nil_append] at this
  rw [this]
  simp

theorem findStr_eq_neg (a : Char) (s : Str) : findStr [a] s = -1 ↔ a ∉ s := by
  constructor
  · intro h hm
    have := findStr_lt a s hm
    omega
  · exact findStr_none a [] s

/-- A character is found before position `|p|` exactly when it occurs in `p`. -/
theorem findStr_before (c : Char) (p w : Str) : (findStr [c] (p ++ w) < p.length ∧ findStr [c] (p ++ w) ≠ -1) ↔ c ∈ p := by
  constructor
  · rintro ⟨h1, h2⟩
    by_contra hp
    rw [findStr_append c [] p w hp] at h1 h2
    have := findStr_ge [c] w
    split at h1
    · simp_all
    · omega
  · intro h
    obtain ⟨q, r, rfl, hq⟩ := List.eq_append_cons_of_mem h
    have e : findStr [c] (q ++ c :: r ++ w) = q.length := by
      have := findStr_at c [] q (r ++ w) hq
      simpa using this
    rw [e]
    simp

theorem findStr_len (sub s : Str) (h : sub ≠ []) : findStr sub s < s.length := by
  induction s with
  | nil => unfold findStr; simp [h]
  | cons c s ih =>
    unfold findStr
    split
    · simp
    · split
      · simp; omega
      · simp; omega

/-! ### The two platforms -/

/-- What the proofs use about `os.linesep`. -/
def Sep (ls : Str) : Prop := ls = posixSep ∨ ls = windowsSep

/-- A line of logical text: no carriage return or line feed. -/
def NoNl (s : Str) : Prop := '\r' ∉ s ∧ '\n' ∉ s

/-- What may precede an entry: nothing, or the second half of the previous line end. -/
def Lead (ls lead : Str) : Prop := lead = [] ∨ lead = ls.drop 1

theorem lead_noHead {ls lead p : Str} (hls : Sep ls) (hl : Lead ls lead) (hp : NoNl p) :
    ∃ a as, ls = a :: as ∧ a ∉ lead ++ p ∧ Lead ls as ∧ as = ls.drop 1 := by
  rcases hls with rfl | rfl
  · refine ⟨'\n', [], rfl, ?_, .inl rfl, rfl⟩
    rcases hl with rfl | rfl <;> simpa [posixSep] using hp.2
  · refine ⟨'\r', ['\n'], rfl, ?_, .inr rfl, rfl⟩
    rcases hl with rfl | rfl <;> simpa [windowsSep] using hp.1

theorem lead_not (ls lead : Str) (c : Char) (hls : Sep ls) (hl : Lead ls lead) (hc : c ≠ '\n') : c ∉ lead := by
  rcases hls with rfl | rfl <;> rcases hl with rfl | rfl <;> simp [posixSep, windowsSep, hc]

/-! ### Stripping -/

theorem rstrip_cons (w : Char) (s : Str) (hw : isWs w = true) : rstrip (w :: s) = if rstrip s = [] then [] else w :: rstrip s := by
  unfold rstrip
  rw [List.reverse_cons, List.dropWhile_append]
  by_cases h : (s.reverse.dropWhile isWs) = []
  · simp [h, hw]
  · have : (s.reverse.dropWhile isWs).isEmpty = false := by simpa using h
    rw [this]
    simp [h]

theorem strip_cons (w : Char) (s : Str) (hw : isWs w = true) : strip (w :: s) = strip s := by
  unfold strip
  rw [rstrip_cons w s hw]
  split
  · rename_i h; rw [h]
  · unfold lstrip; rw [List.dropWhile_cons, hw]; simp

theorem strip_append_ws (w : Char) (s : Str) (hw : isWs w = true) : strip (s ++ [w]) = strip s := by
  unfold strip rstrip
  simp [hw]

theorem strip_id (s : Str) (h : ∀ c ∈ s, isWs c = false) : strip s = s := by
  have hd : ∀ s : Str, (∀ c ∈ s, isWs c = false) → s.dropWhile isWs = s := by
    intro s h
    cases s with
    | nil => rfl
    | cons c s => rw [List.dropWhile_cons, h c (by simp)]; simp
  unfold strip rstrip lstrip
  rw [hd s.reverse (by intro c hc; exact h c (by simpa using hc)), List.reverse_reverse, hd s h]

theorem strip_lead {ls lead : Str} (s : Str) (hls : Sep ls) (hl : Lead ls lead) : strip (lead ++ s) = strip s := by
  rcases hls with rfl | rfl <;> rcases hl with rfl | rfl
  · rfl
  · rfl
  · rfl
  · exact strip_cons '\n' s (by decide)

theorem strip_nil : strip [] = [] := rfl

/-! ### One turn of the loop -/

theorem take_len_append (p w : Str) : (p ++ w).take p.length = p := by simp

theorem upTo_len (p w : Str) : upTo (p ++ w) (p.length : Int) = p := by
  unfold upTo
  rw [if_neg (by omega)]
  simp

theorem after_len (p : Str) (a : Char) (w : Str) : after (p ++ a :: w) (p.length : Int) = w := by
  unfold after
  have : ((p.length : Int) + 1).toNat = p.length + 1 := by omega
  rw [this]
  simp

theorem splitFirst_at (k v : Str) (h : '=' ∉ k) : splitFirst (k ++ '=' :: v) = .ok (k, v) := by
  unfold splitFirst
  rw [if_pos (by simp)]
  have hk : ∀ c ∈ k, (decide (c ≠ '=')) = true := by
    intro c hc
    simp only [decide_eq_true_eq]
    exact fun e => h (e ▸ hc)
  rw [List.takeWhile_append_of_pos hk, List.dropWhile_append_of_pos hk]
  simp

theorem splitOnly_at (k v : Str) (h : '=' ∉ k) (hv : '=' ∉ v) : splitOnly (k ++ '=' :: v) = .ok (k, v) := by
  unfold splitOnly
  rw [if_pos, splitFirst_at k v h]
  rw [List.count_append, List.count_cons, List.count_eq_zero_of_not_mem h, List.count_eq_zero_of_not_mem hv]
  simp

/-- A line without `=` and `{` is skipped. -/
theorem step_comment {ls lead c r : Str} (hls : Sep ls) (hl : Lead ls lead) (hc : NoNl c) (he : '=' ∉ c) (hb : '{' ∉ c) :
    step ls (lead ++ c ++ ls ++ r) = .ok (ls.drop 1 ++ r, [], []) := by
  obtain ⟨a, as, rfl, hp, _, _⟩ := lead_noHead hls hl hc
  have e0 : lead ++ c ++ (a :: as) ++ r = (lead ++ c) ++ ((a :: as) ++ r) := by simp
  have hnl := findStr_at a as (lead ++ c) r hp
  have hb' : '{' ∉ lead ++ c := by
    rw [List.mem_append, not_or]; exact ⟨lead_not _ _ _ hls hl (by decide), hb⟩
  have he' : '=' ∉ lead ++ c := by
    rw [List.mem_append, not_or]; exact ⟨lead_not _ _ _ hls hl (by decide), he⟩
  have fb := (findStr_before '{' (lead ++ c) ((a :: as) ++ r)).not.2 hb'
  have fe := (findStr_before '=' (lead ++ c) ((a :: as) ++ r)).not.2 he'
  rw [e0]
  have h1 : isBracketEntry (a :: as) (lead ++ c ++ ((a :: as) ++ r)) = false := by
    unfold isBracketEntry
    simp only [hnl]
    split
    · rfl
    · split
      · exact absurd ⟨by assumption, by assumption⟩ fb
      · rfl
  have h2 : isEqualsEntry (a :: as) (lead ++ c ++ ((a :: as) ++ r)) = false := by
    unfold isEqualsEntry
    simp only [hnl]
    rw [if_neg fb]
    split
    · rfl
    · split
      · exact absurd ⟨by assumption, by assumption⟩ fe
      · rfl
  have h3 : hasNewline (a :: as) (lead ++ c ++ ((a :: as) ++ r)) = true := by
    unfold hasNewline
    rw [hnl]
    simp
    omega
  unfold step
  rw [h1, h2, h3]
  simp only [Bool.false_eq_true, if_false, if_true, hnl]
  rw [List.cons_append, after_len]
  rfl

/-- A line `key = value` without `{`. -/
theorem step_entry {ls lead k v r : Str} (hls : Sep ls) (hl : Lead ls lead) (hk : NoNl k) (hv : NoNl v)
    (hke : '=' ∉ k) (hve : '=' ∉ v) (hkb : '{' ∉ k) (hvb : '{' ∉ v) :
    step ls (lead ++ (k ++ '=' :: v) ++ ls ++ r) = .ok (ls.drop 1 ++ r, strip k, strip v) := by
  have hc : NoNl (k ++ '=' :: v) := by
    refine ⟨?_, ?_⟩
    · simp only [List.mem_append, List.mem_cons, not_or]
      exact ⟨hk.1, by decide, hv.1⟩
    · simp only [List.mem_append, List.mem_cons, not_or]
      exact ⟨hk.2, by decide, hv.2⟩
  obtain ⟨a, as, rfl, hp, _, _⟩ := lead_noHead hls hl hc
  have e0 : lead ++ (k ++ '=' :: v) ++ (a :: as) ++ r = (lead ++ (k ++ '=' :: v)) ++ ((a :: as) ++ r) := by simp
  have hnl := findStr_at a as (lead ++ (k ++ '=' :: v)) r hp
  have hb' : '{' ∉ lead ++ (k ++ '=' :: v) := by
    simp only [List.mem_append, List.mem_cons, not_or]
    exact ⟨lead_not _ _ _ hls hl (by decide), hkb, by decide, hvb⟩
  have fb := (findStr_before '{' (lead ++ (k ++ '=' :: v)) ((a :: as) ++ r)).not.2 hb'
  have fe := (findStr_before '=' (lead ++ (k ++ '=' :: v)) ((a :: as) ++ r)).2 (by simp)
  rw [e0]
  have h1 : isBracketEntry (a :: as) (lead ++ (k ++ '=' :: v) ++ ((a :: as) ++ r)) = false := by
    unfold isBracketEntry
    simp only [hnl]
    split
    · rfl
    · split
      · exact absurd ⟨by assumption, by assumption⟩ fb
      · rfl
  have h2 : isEqualsEntry (a :: as) (lead ++ (k ++ '=' :: v) ++ ((a :: as) ++ r)) = true := by
    unfold isEqualsEntry
    simp only [hnl]
    rw [if_neg fe.2, if_neg fb, if_pos fe.1]
  unfold step
  rw [h1, h2]
  simp only [Bool.false_eq_true, if_false, if_true, hnl]
  rw [upTo_len, ← List.append_assoc lead k ('=' :: v), splitOnly_at (lead ++ k) v (by
    rw [List.mem_append, not_or]; exact ⟨lead_not _ _ _ hls hl (by decide), hke⟩) hve]
  simp only []
  rw [List.append_assoc lead k, List.cons_append, after_len]
  have := strip_lead k hls hl
  unfold strip at this
  rw [this]
  rfl

/-- A block `key = { ... }`, closed, with a line end somewhere behind its opening brace. -/
theorem step_block {ls lead k pre body r : Str} (hls : Sep ls) (hl : Lead ls lead) (hk : NoNl k) (hpre : NoNl pre)
    (hke : '=' ∉ k) (hkb : '}' ∉ k) (hpb : '}' ∉ pre) (hbb : '}' ∉ body)
    (hr : findStr ls (body ++ '}' :: r) ≠ -1) :
    step ls (lead ++ (k ++ '=' :: (pre ++ '{' :: (body ++ '}' :: r)))) = .ok (r, strip k, strip (pre ++ '{' :: body)) := by
  have hc : NoNl (k ++ '=' :: (pre ++ ['{'])) := by
    refine ⟨?_, ?_⟩
    · simp only [List.mem_append, List.mem_cons, not_or]
      exact ⟨hk.1, by decide, hpre.1, by decide⟩
    · simp only [List.mem_append, List.mem_cons, not_or]
      exact ⟨hk.2, by decide, hpre.2, by decide⟩
  obtain ⟨a, as, rfl, hp, _, _⟩ := lead_noHead hls hl hc
  have e1 : lead ++ (k ++ '=' :: (pre ++ '{' :: (body ++ '}' :: r))) =
      (lead ++ (k ++ '=' :: (pre ++ ['{']))) ++ (body ++ '}' :: r) := by simp
  have e2 : lead ++ (k ++ '=' :: (pre ++ '{' :: (body ++ '}' :: r))) =
      (lead ++ (k ++ '=' :: (pre ++ '{' :: body))) ++ '}' :: r := by simp
  have hnl := findStr_append a as (lead ++ (k ++ '=' :: (pre ++ ['{']))) (body ++ '}' :: r) hp
  rw [if_neg hr] at hnl
  have hge := findStr_ge (a :: as) (body ++ '}' :: r)
  have fb := (findStr_before '{' (lead ++ (k ++ '=' :: (pre ++ ['{']))) (body ++ '}' :: r)).2 (by simp)
  have h1 : isBracketEntry (a :: as) (lead ++ (k ++ '=' :: (pre ++ '{' :: (body ++ '}' :: r)))) = true := by
    rw [e1]
    unfold isBracketEntry
    simp only [hnl]
    rw [if_neg fb.2, if_pos (by have := fb.1; omega)]
  have hrb : findStr ['}'] (lead ++ (k ++ '=' :: (pre ++ '{' :: (body ++ '}' :: r)))) =
      (lead ++ (k ++ '=' :: (pre ++ '{' :: body))).length := by
    rw [e2]
    have := findStr_at '}' [] (lead ++ (k ++ '=' :: (pre ++ '{' :: body))) r (by
      simp only [List.mem_append, List.mem_cons, not_or]
      exact ⟨lead_not _ _ _ hls hl (by decide), hkb, by decide, hpb, by decide, hbb⟩)
    simpa using this
  unfold step
  rw [h1]
  simp only [if_true, hrb]
  rw [e2, upTo_len, after_len, ← List.append_assoc lead k ('=' :: (pre ++ '{' :: body)), splitFirst_at (lead ++ k) _ (by
    rw [List.mem_append, not_or]; exact ⟨lead_not _ _ _ hls hl (by decide), hke⟩)]
  simp only []
  have := strip_lead k hls hl
  unfold strip at this
  rw [this]
  rfl

/-- Text without a line end and without `{` loses one character. -/
theorem step_rest {ls t : Str} (hls : Sep ls) (hr : '\r' ∉ t) (hn : ls = posixSep → '\n' ∉ t) (hb : '{' ∉ t) :
    step ls t = .ok (t.drop 1, [], []) := by
  have hnl : findStr ls t = -1 := by
    rcases hls with rfl | rfl
    · exact findStr_none '\n' [] t (hn rfl)
    · exact findStr_none '\r' ['\n'] t hr
  have hbr : findStr ['{'] t = -1 := findStr_none '{' [] t hb
  unfold step
  have h1 : isBracketEntry ls t = false := by unfold isBracketEntry; simp [hbr]
  have h2 : isEqualsEntry ls t = false := by
    unfold isEqualsEntry
    simp only [hnl, hbr]
    have := findStr_ge ['='] t
    split
    · rfl
    · split
      · rfl
      · split
        · omega
        · rfl
  have h3 : hasNewline ls t = false := by unfold hasNewline; simp [hnl]
  rw [h1, h2, h3]
  rfl

/-! ### The loop -/

/-- A turn shortens the text or leaves it as it is. -/
theorem step_length {ls t t' k v : Str} (ht : t ≠ []) (h : step ls t = .ok (t', k, v)) :
    t'.length < t.length ∨ t' = t := by
  have key : ∀ i : Int, -1 ≤ i → (after t i).length < t.length ∨ after t i = t := by
    intro i hi
    unfold after
    by_cases hi0 : i = -1
    · right; subst hi0; simp
    · left
      rw [List.length_drop]
      have : 0 < t.length := List.length_pos_iff.2 ht
      omega
  unfold step at h
  split at h
  · simp only [] at h
    split at h
    · exact absurd h (by simp)
    · simp only [Except.ok.injEq, Prod.mk.injEq] at h
      rw [← h.1]
      exact key _ (findStr_ge _ _)
  · split at h
    · simp only [] at h
      split at h
      · exact absurd h (by simp)
      · simp only [Except.ok.injEq, Prod.mk.injEq] at h
        rw [← h.1]
        exact key _ (findStr_ge _ _)
    · split at h
      · simp only [Except.ok.injEq, Prod.mk.injEq] at h
        rw [← h.1]
        exact key _ (findStr_ge _ _)
      · simp only [Except.ok.injEq, Prod.mk.injEq] at h
        rw [← h.1]
        left
        have : 0 < t.length := List.length_pos_iff.2 ht
        simp; omega

theorem parseLoop_nil (ls : Str) (d : Dict Str) : parseLoop ls [] d = .ok d := by
  unfold parseLoop; simp

theorem parseLoop_step {ls t t' k v : Str} {d : Dict Str} (ht : t ≠ []) (h : step ls t = .ok (t', k, v)) (hl : t'.length < t.length) :
    parseLoop ls t d = parseLoop ls t' (setKey d k v) := by
  conv_lhs => unfold parseLoop
  rw [if_neg ht, h]
  simp only []
  rw [dif_pos hl]

theorem parseLoop_stuck {ls t k v : Str} {d : Dict Str} (ht : t ≠ []) (h : step ls t = .ok (t, k, v)) :
    parseLoop ls t d = .error .loops := by
  unfold parseLoop
  rw [if_neg ht, h]
  simp only []
  rw [dif_neg (by omega)]

theorem parseLoop_err {ls t : Str} {d : Dict Str} {e : Err} (ht : t ≠ []) (h : step ls t = .error e) :
    parseLoop ls t d = .error e := by
  unfold parseLoop
  rw [if_neg ht, h]

theorem step_err {ls t : Str} {e : Err} (h : step ls t = .error e) : e = .valueError := by
  have k1 : ∀ s e, splitFirst s = .error e → e = .valueError := by
    intro s e h; unfold splitFirst at h; split at h <;> simp at h; exact h.symm
  have k2 : ∀ s e, splitOnly s = .error e → e = .valueError := by
    intro s e h; unfold splitOnly at h; split at h
    · exact k1 _ _ h
    · simp at h; exact h.symm
  unfold step at h
  split at h
  · simp only [] at h
    split at h
    · rename_i e' he; simp at h; subst h; exact k1 _ _ he
    · simp at h
  · split at h
    · simp only [] at h
      split at h
      · rename_i e' he; simp at h; subst h; exact k2 _ _ he
      · simp at h
    · split at h <;> simp at h

/-- The result function agrees with running the loop. -/
theorem parseLoop_turns (ls t : Str) (d : Dict Str) :
    (∀ d', parseLoop ls t d = .ok d' ↔ ∃ n, turns ls n (t, d) = .ok ([], d')) ∧
    (∀ e, e ≠ .loops → (parseLoop ls t d = .error e ↔ ∃ n, turns ls n (t, d) = .error e)) ∧
    (parseLoop ls t d = .error .loops ↔ ∀ n, ∃ t' d', turns ls n (t, d) = .ok (t', d') ∧ t' ≠ []) := by
  induction hn : t.length using Nat.strong_induction_on generalizing t d with
  | _ n ih =>
    by_cases ht : t = []
    · subst ht
      have hT : ∀ n, turns ls n ([], d) = .ok ([], d) := by
        intro n; cases n <;> simp [turns]
      rw [parseLoop_nil]
      refine ⟨?_, ?_, ?_⟩
      · intro d'; simp [hT]
      · intro e _; simp [hT]
      · simp [hT]
    · cases hs : step ls t with
      | error e =>
        have he := step_err hs
        subst he
        have hT : ∀ n, turns ls (n + 1) (t, d) = .error .valueError := by
          intro n; simp [turns, ht, hs]
        rw [parseLoop_err ht hs]
        refine ⟨?_, ?_, ?_⟩
        · intro d'
          simp only [reduceCtorEq, false_iff, not_exists]
          intro n
          cases n with
          | zero => simp [turns, ht]
          | succ n => simp [hT]
        · intro e _
          constructor
          · intro h; exact ⟨1, by rw [hT]; simpa using h⟩
          · rintro ⟨n, h⟩
            cases n with
            | zero => simp [turns] at h
            | succ n => rw [hT] at h; simpa using h
        · simp only [Except.error.injEq, reduceCtorEq, false_iff]
          intro h
          obtain ⟨t', d', h1, _⟩ := h 1
          rw [hT] at h1
          simp at h1
      | ok r =>
        obtain ⟨t', k, v⟩ := r
        have hT : ∀ n, turns ls (n + 1) (t, d) = turns ls n (t', setKey d k v) := by
          intro n; simp [turns, ht, hs]
        rcases step_length ht hs with hl | he
        · rw [parseLoop_step ht hs hl]
          obtain ⟨i1, i2, i3⟩ := ih t'.length (by omega) t' (setKey d k v) rfl
          refine ⟨?_, ?_, ?_⟩
          · intro d'
            rw [i1]
            constructor
            · rintro ⟨n, h⟩; exact ⟨n + 1, by rw [hT]; exact h⟩
            · rintro ⟨n, h⟩
              cases n with
              | zero => simp [turns, ht] at h
              | succ n => exact ⟨n, by rw [← hT]; exact h⟩
          · intro e he
            rw [i2 e he]
            constructor
            · rintro ⟨n, h⟩; exact ⟨n + 1, by rw [hT]; exact h⟩
            · rintro ⟨n, h⟩
              cases n with
              | zero => simp [turns] at h
              | succ n => exact ⟨n, by rw [← hT]; exact h⟩
          · rw [i3]
            constructor
            · intro h n
              cases n with
              | zero => exact ⟨t, d, rfl, ht⟩
              | succ n => rw [hT]; exact h n
            · intro h n
              have := h (n + 1)
              rw [hT] at this
              exact this
        · subst he
          rw [parseLoop_stuck ht hs]
          have hstuck : ∀ n d, ∃ d', turns ls n (t', d) = .ok (t', d') := by
            intro n
            induction n with
            | zero => intro d; exact ⟨d, rfl⟩
            | succ n ihn => intro d; simp only [turns, ht, if_false, hs]; exact ihn _
          refine ⟨?_, ?_, ?_⟩
          · intro d'
            simp only [reduceCtorEq, false_iff, not_exists]
            intro n h
            obtain ⟨d2, h2⟩ := hstuck n d
            rw [h2] at h
            simp at h
            exact ht h.1
          · intro e he
            constructor
            · intro h; simp at h; exact absurd h.symm he
            · rintro ⟨n, h⟩
              obtain ⟨d2, h2⟩ := hstuck n d
              rw [h2] at h
              simp at h
          · simp only [true_iff]
            intro n
            obtain ⟨d2, h2⟩ := hstuck n d
            exact ⟨t', d2, h2, ht⟩

/-! ### Dictionaries -/

theorem lookup_setKey {V : Type} (d : Dict V) (k k' : Str) (v : V) :
    lookup (setKey d k v) k' = if k' = k then some v else lookup d k' := by
  unfold setKey lookup
  induction d with
  | nil =>
    simp only [List.any_nil, Bool.false_eq_true, if_false, List.nil_append]
    by_cases h : k' = k
    · simp [h]
    · simp [h, Ne.symm h]
  | cons p d ih =>
    by_cases hp : p.1 = k
    · simp only [List.any_cons, hp, decide_true, Bool.true_or, if_true, List.map_cons]
      by_cases h : k' = k
      · subst h; simp
      · simp only [List.find?_cons, Ne.symm h, decide_false, h, if_false]
        rw [show (decide (p.1 = k')) = false by simp [hp, Ne.symm h]]
        congr 1
        clear ih
        induction d with
        | nil => rfl
        | cons q d ihd =>
          rw [List.map_cons, List.find?_cons, List.find?_cons]
          by_cases hq : q.1 = k
          · simp [hq, Ne.symm h, ihd]
          · simp [hq, ihd]
    · simp only [List.any_cons, hp, decide_false, Bool.false_or]
      by_cases hany : (d.any fun p => decide (p.1 = k)) = true
      · simp only [hany, if_true, List.map_cons, hp, if_false, List.find?_cons] at ih ⊢
        by_cases hpk : p.1 = k'
        · have : k' ≠ k := fun e => hp (hpk.trans e)
          simp [hpk, this]
        · simp only [hpk, decide_false]; exact ih
      · simp only [hany, if_false, Bool.false_eq_true, List.cons_append, List.find?_cons] at ih ⊢
        by_cases hpk : p.1 = k'
        · have : k' ≠ k := fun e => hp (hpk.trans e)
          simp [hpk, this]
        · simp only [hpk, decide_false]; exact ih

theorem setKey_mem {V : Type} (d : Dict V) (k : Str) (v : V) (p : Str × V) (h : p ∈ setKey d k v) : p ∈ d ∨ p = (k, v) := by
  unfold setKey at h
  split at h
  · rw [List.mem_map] at h
    obtain ⟨q, hq, e⟩ := h
    split at e
    · right; exact e.symm
    · left; rw [← e]; exact hq
  · simpa using h

end Verif.Envi
