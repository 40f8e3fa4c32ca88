import Verif.Model.Readers
import Verif.Lemmas.Base
import Verif.Lemmas.Envi
import Verif.Lemmas.EnviHeader
import Verif.Lemmas.TextUtils
import Verif.Props.TextUtils

/-! Helper lemmas about the readers of text files: fields of a line, records of a file. -/

set_option linter.unusedVariables false

namespace Verif.Readers
open Verif Verif.TextUtils Verif.Envi

/-! ### Fields separated by white space -/

/-- A field: at least one character, none of them white space. -/
def Token (t : Str) : Prop := t ≠ [] ∧ ∀ c ∈ t, isWs c = false

/-- The line `s` consists of the fields `ts`, in order, separated (and possibly surrounded) by white space. -/
inductive Fields : Str → List Str → Prop
  | none {s : Str} : (∀ c ∈ s, isWs c = true) → Fields s []
  | more {s t rest : Str} {ts : List Str} : (∀ c ∈ s, isWs c = true) → Token t →
      (∀ c, rest.head? = some c → isWs c = true) → Fields rest ts → Fields (s ++ t ++ rest) (t :: ts)

theorem words_ws (c : Char) (s : Str) (h : isWs c = true) : words (c :: s) = words s := by
  unfold words
  rw [splitBy, if_pos h]
  simp

theorem words_wss (w s : Str) (h : ∀ c ∈ w, isWs c = true) : words (w ++ s) = words s := by
  induction w with
  | nil => rfl
  | cons c w ih =>
    rw [List.cons_append, words_ws c _ (h c List.mem_cons_self), ih (fun d hd => h d (List.mem_cons_of_mem _ hd))]

theorem splitBy_ne (p : Char → Bool) (s : Str) : splitBy p s ≠ [] := by
  cases s with
  | nil => simp [splitBy]
  | cons c s =>
    unfold splitBy
    split
    · simp
    · split <;> simp

theorem splitBy_token (p : Char → Bool) (t rest : Str) (ht : ∀ c ∈ t, p c = false) :
    ∃ w ws, splitBy p rest = w :: ws ∧ splitBy p (t ++ rest) = (t ++ w) :: ws := by
  obtain ⟨w, ws, h⟩ := List.exists_cons_of_ne_nil (splitBy_ne p rest)
  refine ⟨w, ws, h, ?_⟩
  induction t with
  | nil => exact h
  | cons c t ih =>
    rw [List.cons_append, splitBy]
    have := ih (fun d hd => ht d (List.mem_cons_of_mem _ hd))
    simp [this, ht c List.mem_cons_self]

theorem words_token (t rest : Str) (ht : Token t) (hr : ∀ c, rest.head? = some c → isWs c = true) :
    words (t ++ rest) = t :: words rest := by
  obtain ⟨w, ws, h1, h2⟩ := splitBy_token isWs t rest ht.2
  have hw : w = [] := by
    cases rest with
    | nil => simp [splitBy] at h1; exact h1.1
    | cons c rest =>
      rw [splitBy, if_pos (hr c rfl)] at h1
      simp at h1
      exact h1.1
  subst hw
  unfold words
  rw [h2, h1]
  simp [ht.1]

theorem fields_words_eq {s : Str} {ts : List Str} (h : Fields s ts) : words s = ts := by
  induction h with
  | none h =>
    rename_i s
    rw [← List.append_nil s, words_wss _ _ h]
    rfl
  | more hs ht hr _ ih =>
    rw [List.append_assoc, words_wss _ _ hs, words_token _ _ ht hr, ih]

theorem fields_cons_ws {s : Str} {ts : List Str} (c : Char) (hc : isWs c = true) (h : Fields s ts) : Fields (c :: s) ts := by
  cases h with
  | none h =>
    refine .none ?_
    intro d hd
    rcases List.mem_cons.1 hd with rfl | hd
    · exact hc
    · exact h d hd
  | more hs ht hr hf =>
    rename_i w t rest ts
    have := Fields.more (s := c :: w) (t := t) (rest := rest) (ts := ts) (by
      intro d hd
      rcases List.mem_cons.1 hd with rfl | hd
      · exact hc
      · exact hs d hd) ht hr hf
    simpa using this

/-- Every line has its fields. -/
theorem fields_words (s : Str) : Fields s (words s) := by
  induction hn : s.length using Nat.strongRecOn generalizing s with
  | _ n ih =>
    cases s with
    | nil => exact .none (by simp)
    | cons c s =>
      by_cases hc : isWs c = true
      · rw [words_ws c s hc]
        exact fields_cons_ws c hc (ih s.length (by simp at hn; omega) s rfl)
      · have hc' : isWs c = false := by simpa using hc
        let t := (c :: s).takeWhile (fun d => !isWs d)
        let r := (c :: s).dropWhile (fun d => !isWs d)
        have e : c :: s = t ++ r := (List.takeWhile_append_dropWhile).symm
        have ht : Token t := by
          constructor
          · show (c :: s).takeWhile (fun d => !isWs d) ≠ []
            rw [List.takeWhile_cons_of_pos (by simp [hc'])]
            simp
          · intro d hd
            have := List.all_takeWhile (p := fun d => !isWs d) (l := c :: s)
            rw [List.all_eq_true] at this
            simpa using this d hd
        have hr : ∀ d, r.head? = some d → isWs d = true := by
          intro d hd
          have := List.head?_dropWhile_not (fun d => !isWs d) (c :: s)
          rw [show ((c :: s).dropWhile (fun d => !isWs d)).head? = some d from hd] at this
          simpa using this
        rw [e, words_token t r ht hr]
        have hlen : r.length < n := by
          have h1 := congrArg List.length e
          rw [List.length_append, hn] at h1
          have : 0 < t.length := List.length_pos_of_ne_nil ht.1
          omega
        have := Fields.more (s := []) (t := t) (rest := r) (by simp) ht hr (ih r.length hlen r rfl)
        simpa using this

theorem fields_iff (s : Str) (ts : List Str) : Fields s ts ↔ words s = ts :=
  ⟨fields_words_eq, fun h => h ▸ fields_words s⟩

theorem fields_tokens {s : Str} {ts : List Str} (h : Fields s ts) : ∀ t ∈ ts, Token t := by
  induction h with
  | none _ => simp
  | more _ ht _ _ ih =>
    intro t h
    rcases List.mem_cons.1 h with rfl | h
    · exact ht
    · exact ih t h

theorem fields_join (ts : List Str) (h : ∀ t ∈ ts, Token t) : Fields (List.intercalate [' '] ts) ts := by
  induction ts with
  | nil => exact .none (by simp)
  | cons t ts ih =>
    cases ts with
    | nil =>
      have := Fields.more (s := []) (t := t) (rest := []) (ts := []) (by simp) (h t List.mem_cons_self) (by simp) (.none (by simp))
      simpa [List.intercalate] using this
    | cons u us =>
      have e : List.intercalate [' '] (t :: u :: us) = [] ++ t ++ (' ' :: List.intercalate [' '] (u :: us)) := by
        simp [List.intercalate]
      rw [e]
      refine .more (by simp) (h t List.mem_cons_self) ?_ ?_
      · intro c hc
        simp at hc
        rw [← hc]; decide
      · exact fields_cons_ws ' ' (by decide) (ih (fun x hx => h x (List.mem_cons_of_mem _ hx)))

theorem words_join_words (s : Str) : words (List.intercalate [' '] (words s)) = words s :=
  fields_words_eq (fields_join _ (fields_tokens (fields_words s)))

/-! ### Fields separated by a single character -/

theorem splitOn_ne (c : Char) (s : Str) : splitOn c s ≠ [] := by
  cases s with
  | nil => simp [splitOn]
  | cons a s =>
    unfold splitOn
    split
    · simp
    · split <;> simp

theorem splitOn_append (c : Char) (t rest : Str) (h : c ∉ t) : splitOn c (t ++ c :: rest) = t :: splitOn c rest := by
  induction t with
  | nil => simp [splitOn]
  | cons a t ih =>
    rw [List.cons_append, splitOn, if_neg (fun e => h (by rw [e]; exact List.mem_cons_self)), ih (fun m => h (List.mem_cons_of_mem _ m))]

theorem splitOn_single (c : Char) (t : Str) (h : c ∉ t) : splitOn c t = [t] := by
  induction t with
  | nil => simp [splitOn]
  | cons a t ih =>
    rw [splitOn, if_neg (fun e => h (by rw [e]; exact List.mem_cons_self)), ih (fun m => h (List.mem_cons_of_mem _ m))]

theorem splitOn_join (c : Char) (ts : List Str) (hne : ts ≠ []) (h : ∀ t ∈ ts, c ∉ t) :
    splitOn c (List.intercalate [c] ts) = ts := by
  induction ts with
  | nil => exact absurd rfl hne
  | cons t ts ih =>
    cases ts with
    | nil => simpa [List.intercalate] using splitOn_single c t (h t List.mem_cons_self)
    | cons u us =>
      have e : List.intercalate [c] (t :: u :: us) = t ++ (c :: List.intercalate [c] (u :: us)) := by
        simp [List.intercalate]
      rw [e, splitOn_append c t _ (h t List.mem_cons_self), ih (by simp) (fun x hx => h x (List.mem_cons_of_mem _ hx))]

theorem join_splitOn (c : Char) (s : Str) : List.intercalate [c] (splitOn c s) = s ∧ ∀ t ∈ splitOn c s, c ∉ t := by
  induction s with
  | nil => simp [splitOn, List.intercalate]
  | cons a s ih =>
    unfold splitOn
    by_cases h : a = c
    · rw [if_pos h]
      obtain ⟨u, us, e⟩ := List.exists_cons_of_ne_nil (splitOn_ne c s)
      rw [e] at ih ⊢
      constructor
      · have : List.intercalate [c] ([] :: u :: us) = c :: List.intercalate [c] (u :: us) := by simp [List.intercalate]
        rw [this, ih.1, h]
      · intro t ht
        rcases List.mem_cons.1 ht with rfl | ht
        · simp
        · exact ih.2 t ht
    · rw [if_neg h]
      obtain ⟨u, us, e⟩ := List.exists_cons_of_ne_nil (splitOn_ne c s)
      rw [e] at ih ⊢
      simp only []
      constructor
      · have : List.intercalate [c] ((a :: u) :: us) = a :: List.intercalate [c] (u :: us) := by
          cases us <;> simp [List.intercalate]
        rw [this, ih.1]
      · intro t ht
        rcases List.mem_cons.1 ht with rfl | ht
        · intro m
          rcases List.mem_cons.1 m with e | m
          · exact h e.symm
          · exact ih.2 u List.mem_cons_self m
        · exact ih.2 t (List.mem_cons_of_mem _ ht)

/-- What `splitOn` returns: the unique list of pieces without the separator whose concatenation is the text. -/
theorem splitOn_iff (c : Char) (s : Str) (ts : List Str) :
    splitOn c s = ts ↔ ts ≠ [] ∧ s = List.intercalate [c] ts ∧ ∀ t ∈ ts, c ∉ t := by
  constructor
  · rintro rfl
    exact ⟨splitOn_ne c s, (join_splitOn c s).1.symm, (join_splitOn c s).2⟩
  · rintro ⟨h1, rfl, h3⟩
    exact splitOn_join c ts h1 h3

/-! ### mapM -/

theorem toFloat_ok {F : Type} {pf : Str → Option F} {s : Str} {v : F} : toFloat pf s = .ok v ↔ pf s = some v := by
  unfold toFloat
  cases h : pf s <;> simp

theorem mapM_ok_iff {α β : Type} (f : α → Py β) (l : List α) (out : List β) :
    l.mapM f = .ok out ↔ out.length = l.length ∧ ∀ (i : Nat) (a : α), l[i]? = some a → ∃ b, f a = .ok b ∧ out[i]? = some b := by
  induction l generalizing out with
  | nil =>
    rw [List.mapM_nil]
    constructor
    · intro h
      have : out = [] := by
        have := Except.ok.inj h
        exact this.symm
      subst this
      exact ⟨rfl, by simp⟩
    · rintro ⟨h, _⟩
      have : out = [] := List.length_eq_zero_iff.1 h
      rw [this]; rfl
  | cons a l ih =>
    rw [List.mapM_cons]
    constructor
    · intro h
      obtain ⟨b, hb, h⟩ := bind_ok h
      obtain ⟨bs, hbs, h⟩ := bind_ok h
      have e : out = b :: bs := (Except.ok.inj h).symm
      subst e
      obtain ⟨h1, h2⟩ := (ih bs).1 hbs
      refine ⟨by simp [h1], ?_⟩
      intro i c hi
      cases i with
      | zero => simp at hi; subst hi; exact ⟨b, hb, rfl⟩
      | succ i => simpa using h2 i c (by simpa using hi)
    · rintro ⟨h1, h2⟩
      cases out with
      | nil => simp at h1
      | cons b bs =>
        obtain ⟨b', hb', e⟩ := h2 0 a rfl
        simp at e
        subst e
        rw [hb', ok_bind, (ih bs).2 ⟨by simpa using h1, fun i c hi => by simpa using h2 (i + 1) c (by simpa using hi)⟩]
        rfl

theorem mapM_of_map {α β : Type} (f : α → Py β) (l : List α) (g : α → β) (h : ∀ a ∈ l, f a = .ok (g a)) : l.mapM f = .ok (l.map g) := by
  rw [mapM_ok_iff]
  refine ⟨by simp, ?_⟩
  intro i a hi
  refine ⟨g a, h a (List.mem_of_getElem? hi), ?_⟩
  rw [List.getElem?_map, hi]
  rfl

/-! ### Dictionaries -/

/-- The last value given to `k` in a list of assignments. -/
def lastOf {V : Type} (kvs : List (Str × V)) (k : Str) : Option V := ((kvs.filter (fun p => p.1 = k)).getLast?).map Prod.snd

theorem lookup_foldl {V : Type} (kvs : List (Str × V)) : ∀ (d : Dict V) (k : Str),
    lookup (kvs.foldl (fun d p => setKey d p.1 p.2) d) k = match lastOf kvs k with
      | some v => some v
      | none => lookup d k := by
  induction kvs with
  | nil => intro d k; rfl
  | cons p kvs ih =>
    intro d k
    rw [List.foldl_cons, ih]
    unfold lastOf
    rw [List.filter_cons]
    by_cases h : p.1 = k
    · simp only [h, decide_true, if_true]
      cases hl : kvs.filter (fun p => p.1 = k) with
      | nil =>
        simp only [List.getLast?_nil, Option.map_none, List.getLast?_singleton, Option.map_some]
        rw [lookup_setKey, if_pos rfl]
      | cons q qs =>
        simp only [List.getLast?_cons_cons]
        rw [List.getLast?_eq_some_getLast (by simp)]
        rfl
    · simp only [h, decide_false, Bool.false_eq_true, if_false]
      cases hl : (kvs.filter (fun p => p.1 = k)).getLast? with
      | none =>
        simp only [Option.map_none]
        rw [lookup_setKey, if_neg (fun e => h e.symm)]
      | some v => rfl

theorem storeAll_ok {V : Type} (f : List Str → Py (Str × V)) (recs : List (List Str)) (kvs : List (Str × V))
    (hl : recs.length = kvs.length) (h : ∀ (i : Nat) (r : List Str) (p : Str × V), recs[i]? = some r → kvs[i]? = some p → f r = .ok p) :
    ∀ d, storeAll f recs d = .ok (kvs.foldl (fun d p => setKey d p.1 p.2) d) := by
  induction recs generalizing kvs with
  | nil =>
    intro d
    have : kvs = [] := List.length_eq_zero_iff.1 (by simpa using hl.symm)
    subst this
    rfl
  | cons r recs ih =>
    intro d
    cases kvs with
    | nil => simp at hl
    | cons p kvs =>
      unfold storeAll
      rw [h 0 r p rfl rfl, ok_bind, List.foldl_cons]
      exact ih kvs (by simpa using hl) (fun i r' p' h1 h2 => h (i + 1) r' p' (by simpa using h1) (by simpa using h2)) _

theorem chunks_flatten (recs : List (List Str)) (h : ∀ r ∈ recs, r.length = 10) : chunks10 recs.flatten = recs := by
  have hlen : recs.flatten.length = 10 * recs.length := by
    induction recs with
    | nil => rfl
    | cons r recs ih =>
      rw [List.flatten_cons, List.length_append, h r List.mem_cons_self, ih (fun x hx => h x (List.mem_cons_of_mem _ hx)), List.length_cons]
      omega
  have hdrop : ∀ (recs : List (List Str)), (∀ r ∈ recs, r.length = 10) → ∀ (j : Nat) (r : List Str), recs[j]? = some r →
      (recs.flatten.drop (10 * j)).take 10 = r := by
    intro recs
    induction recs with
    | nil => intro _ j r hj; simp at hj
    | cons a recs ih =>
      intro h j r hj
      have ha := h a List.mem_cons_self
      cases j with
      | zero =>
        simp at hj
        subst hj
        simp only [Nat.mul_zero, List.drop_zero, List.flatten_cons]
        rw [List.take_left' ha]
      | succ j =>
        rw [List.flatten_cons, show 10 * (j + 1) = a.length + 10 * j by omega, List.drop_append]
        simp only [Nat.add_sub_cancel_left, List.drop_of_length_le (by omega : a.length ≤ a.length + 10 * j), List.nil_append]
        exact ih (fun x hx => h x (List.mem_cons_of_mem _ hx)) j r (by simpa using hj)
  unfold chunks10
  rw [hlen, show (10 * recs.length + 9) / 10 = recs.length by omega]
  apply List.ext_getElem?
  intro i
  rw [List.getElem?_map]
  by_cases hi : i < recs.length
  · rw [List.getElem?_range hi, List.getElem?_eq_getElem hi]
    simp only [Option.map_some, Option.some.injEq]
    exact hdrop recs h i _ (List.getElem?_eq_getElem hi)
  · rw [List.getElem?_eq_none (by simpa using hi), List.getElem?_eq_none (by simpa using hi)]
    rfl

end Verif.Readers
