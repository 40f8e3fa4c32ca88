import Verif.Lemmas.Envi
import Verif.Props.TextUtils

/-! Lemmas about whole ENVI headers. -/

namespace Verif.Envi
open Verif TextUtils

/-- Specification: the pieces of a header: a line that is no entry, a line `key = value`, a block `key = { ... }`. -/
inductive Item where
  | comment (c : Str)
  | entry (k v : Str)
  | block (k pre body : Str)

/-- Specification: the text of a piece. -/
def Item.text : Item → Str
  | .comment c => c ++ ['\n']
  | .entry k v => k ++ '=' :: v ++ ['\n']
  | .block k pre body => k ++ '=' :: pre ++ '{' :: body ++ '}' :: ['\n']

/-- Specification: a line that is no entry has no `=` and no `{`; a line `key = value` has no other `=` and no `{`;
a block has its key and its opening brace on one line and no `}` before the closing one. -/
def Item.Ok : Item → Prop
  | .comment c => NoNl c ∧ '=' ∉ c ∧ '{' ∉ c
  | .entry k v => NoNl k ∧ NoNl v ∧ '=' ∉ k ∧ '=' ∉ v ∧ '{' ∉ k ∧ '{' ∉ v
  | .block k pre body => NoNl k ∧ NoNl pre ∧ '\r' ∉ body ∧ '=' ∉ k ∧ '}' ∉ k ∧ '}' ∉ pre ∧ '}' ∉ body

/-- Specification: key and value of a piece; the value of a block starts with its brace and lacks the closing
one; its line ends are the platform's. -/
def Item.keyVal (ls : Str) : Item → Option (Str × Str)
  | .comment _ => none
  | .entry k v => some (strip k, strip v)
  | .block k pre body => some (strip k, strip (pre ++ '{' :: encodeText ls body))

/-- Specification: the value of the last piece with a key. -/
def lastValue (ls : Str) (items : List Item) (k : Str) : Option Str :=
  (((items.filterMap (Item.keyVal ls)).filter (fun p => p.1 = k)).getLast?).map Prod.snd

/-! ### Newlines -/

theorem encode_append (ls a b : Str) : encodeText ls (a ++ b) = encodeText ls a ++ encodeText ls b := by
  unfold encodeText; rw [replaceStr_single, replaceStr_single, replaceStr_single, List.flatMap_append]

theorem encode_id (ls s : Str) (h : '\n' ∉ s) : encodeText ls s = s := by
  unfold encodeText
  rw [replaceStr_single]
  induction s with
  | nil => rfl
  | cons c s ih =>
    simp only [List.mem_cons, not_or] at h
    rw [List.flatMap_cons, ih h.2, if_neg (Ne.symm h.1)]
    rfl

theorem encode_nl (ls : Str) : encodeText ls ['\n'] = ls := by
  unfold encodeText; rw [replaceStr_single]; simp

theorem encode_nil (ls : Str) : encodeText ls [] = [] := by
  unfold encodeText; rw [replaceStr_single]; rfl

theorem encode_cons (ls : Str) (c : Char) (s : Str) (h : c ≠ '\n') : encodeText ls (c :: s) = c :: encodeText ls s := by
  unfold encodeText; rw [replaceStr_single, replaceStr_single, List.flatMap_cons, if_neg h]; rfl

theorem mem_encode (ls s : Str) (hls : Sep ls) (c : Char) (hr : c ≠ '\r') (hn : c ≠ '\n') : c ∈ encodeText ls s ↔ c ∈ s := by
  unfold encodeText
  rw [replaceStr_single, List.mem_flatMap]
  constructor
  · rintro ⟨a, ha, h⟩
    split at h
    · rcases hls with rfl | rfl
      · simp [posixSep] at h; exact absurd h hn
      · simp [windowsSep] at h; rcases h with h | h
        · exact absurd h hr
        · exact absurd h hn
    · simp at h; rw [h]; exact ha
  · intro h
    exact ⟨c, h, by simp [hn]⟩

/-- The text the loop works on. -/
theorem header_text (ls file : Str) (hls : Sep ls) : cleanupNewlines ls (decodeText file) = encodeText ls (decodeText file) := by
  have hnr := decode_no_cr file
  rcases hls with rfl | rfl
  · rw [cleanup_posix, decode_id _ hnr]
    unfold encodeText posixSep
    rw [replaceStr_single]
    generalize decodeText file = t
    induction t with
    | nil => rfl
    | cons c t ih =>
      rw [List.flatMap_cons, ← ih]
      by_cases h : c = '\n' <;> simp [h]
  · rw [cleanup_windows]
    unfold encodeText windowsSep
    rw [replaceStr_single]
    apply List.flatMap_congr
    intro c hc
    have : c ≠ '\r' := fun e => hnr (e ▸ hc)
    simp [this]

/-! ### Dictionaries -/

theorem setKey_nodup {V : Type} (d : Dict V) (k : Str) (v : V) (h : (d.map Prod.fst).Nodup) : ((setKey d k v).map Prod.fst).Nodup := by
  unfold setKey
  split
  · have : (d.map (fun p => if p.1 = k then (k, v) else p)).map Prod.fst = d.map Prod.fst := by
      rw [List.map_map]
      apply List.map_congr_left
      intro p _
      simp only [Function.comp]
      split
      · rename_i h; exact h.symm
      · rfl
    rw [this]; exact h
  · rename_i hn
    rw [List.map_append]
    apply List.Nodup.append h (by simp)
    intro x hx hx2
    simp at hx2
    subst hx2
    rw [List.mem_map] at hx
    obtain ⟨p, hp, e⟩ := hx
    apply hn
    rw [List.any_eq_true]
    exact ⟨p, hp, by simp [e]⟩

theorem lookup_some_mem {V : Type} (d : Dict V) (k : Str) (v : V) (h : lookup d k = some v) : (k, v) ∈ d := by
  unfold lookup at h
  rw [Option.map_eq_some_iff] at h
  obtain ⟨p, hp, e⟩ := h
  have h1 := List.mem_of_find?_eq_some hp
  have h2 := List.find?_some hp
  simp at h2
  have : p = (k, v) := by ext <;> simp [h2, e]
  rw [this] at h1
  exact h1

theorem mem_lookup {V : Type} (d : Dict V) (h : (d.map Prod.fst).Nodup) (p : Str × V) (hp : p ∈ d) : lookup d p.1 = some p.2 := by
  induction d with
  | nil => simp at hp
  | cons q d ih =>
    rw [List.map_cons, List.nodup_cons] at h
    unfold lookup
    rw [List.find?_cons]
    rw [List.mem_cons] at hp
    rcases hp with rfl | hp
    · simp
    · have : q.1 ≠ p.1 := by
        intro e
        apply h.1
        rw [e]
        exact List.mem_map_of_mem hp
      simp only [this, decide_false]
      exact ih h.2 hp

theorem lookup_filter {V : Type} (d : Dict V) (k : Str) (hk : k ≠ []) : lookup (d.filter (fun p => p.1 ≠ [])) k = lookup d k := by
  unfold lookup
  rw [List.find?_filter]
  congr 2
  funext p
  by_cases h : p.1 = k
  · simp [h, hk]
  · simp [h]

/-! ### Pieces -/

/-- What the loop's dictionary knows after some pieces. -/
def After (ls : Str) (items : List Item) (d d' : Dict Str) : Prop :=
  ((d.map Prod.fst).Nodup → (d'.map Prod.fst).Nodup) ∧
  ∀ k, k ≠ [] → lookup d' k = (lastValue ls items k).or (lookup d k)

theorem lastValue_nil (ls k : Str) : lastValue ls [] k = none := rfl

theorem lastValue_cons (ls k : Str) (it : Item) (items : List Item) :
    lastValue ls (it :: items) k = (lastValue ls items k).or (match it.keyVal ls with
      | none => none
      | some p => if p.1 = k then some p.2 else none) := by
  unfold lastValue
  rw [List.filterMap_cons]
  cases hkv : it.keyVal ls with
  | none => simp
  | some p =>
    simp only [List.filter_cons]
    by_cases h : p.1 = k
    · simp only [h, decide_true, if_true]
      cases hL : (List.filter (fun p => decide (p.1 = k)) (List.filterMap (Item.keyVal ls) items)) with
      | nil => simp
      | cons a l =>
        rw [List.getLast?_cons_cons]
        cases hg : (a :: l).getLast? with
        | none => simp at hg
        | some b => simp
    · simp [h]

theorem parse_item {ls lead : Str} (hls : Sep ls) (hl : Lead ls lead) (it : Item) (ho : it.Ok) (tail : Str) (d : Dict Str) :
    ∃ lead' d', Lead ls lead' ∧
      parseLoop ls (lead ++ encodeText ls (it.text ++ tail)) d = parseLoop ls (lead' ++ encodeText ls tail) d' ∧
      After ls [it] d d' := by
  have hls0 : 0 < ls.length := by rcases hls with rfl | rfl <;> simp [posixSep, windowsSep]
  have hskip : ∀ (lead c r : Str) (d : Dict Str), Lead ls lead → NoNl c → '=' ∉ c → '{' ∉ c →
      parseLoop ls (lead ++ c ++ ls ++ r) d = parseLoop ls (ls.drop 1 ++ r) (setKey d [] []) := by
    intro lead c r d hl h1 h2 h3
    refine parseLoop_step ?_ (step_comment hls hl h1 h2 h3) ?_
    · intro e
      have := congrArg List.length e
      simp only [List.length_append, List.length_nil] at this
      omega
    · simp; omega
  have hA : ∀ d : Dict Str, ∀ k, k ≠ [] → lookup (setKey d [] []) k = lookup d k := by
    intro d k hk
    rw [lookup_setKey, if_neg hk]
  cases it with
  | comment c =>
    obtain ⟨h1, h2, h3⟩ := ho
    refine ⟨ls.drop 1, setKey d [] [], .inr rfl, ?_, setKey_nodup d [] [], ?_⟩
    · rw [← hskip lead c (encodeText ls tail) d hl h1 h2 h3]
      simp only [Item.text]
      rw [encode_append, encode_append, encode_id ls c h1.2, encode_nl]
      simp
    · intro k hk
      rw [hA d k hk, lastValue_cons, lastValue_nil]
      simp [Item.keyVal]
  | entry k v =>
    obtain ⟨h1, h2, h3, h4, h5, h6⟩ := ho
    refine ⟨ls.drop 1, setKey d (strip k) (strip v), .inr rfl, ?_, setKey_nodup d _ _, ?_⟩
    · have hs := step_entry (r := encodeText ls tail) hls hl h1 h2 h3 h4 h5 h6
      rw [← parseLoop_step (d := d) ?_ hs ?_]
      · simp only [Item.text]
        rw [encode_append, encode_append, encode_id ls (k ++ '=' :: v) (by
          simp only [List.mem_append, List.mem_cons, not_or]
          exact ⟨h1.2, by decide, h2.2⟩), encode_nl]
        simp
      · simp
      · simp; omega
    · intro k' hk'
      rw [lookup_setKey, lastValue_cons, lastValue_nil]
      simp only [Item.keyVal, Option.none_or]
      by_cases e : k' = strip k
      · simp [e]
      · simp [e, Ne.symm e]
  | block k pre body =>
    obtain ⟨h1, h2, h3, h4, h5, h6, h7⟩ := ho
    have hbb : '}' ∉ encodeText ls body := by
      rw [mem_encode ls body hls '}' (by decide) (by decide)]; exact h7
    have hr : findStr ls (encodeText ls body ++ '}' :: (ls ++ encodeText ls tail)) ≠ -1 := by
      have hg : ∀ (sub p r : Str), sub ≠ [] → findStr sub (p ++ (sub ++ r)) ≠ -1 := by
        intro sub p r hne
        induction p with
        | nil =>
          match sub, hne with
          | a :: as, _ => rw [List.nil_append, findStr_here]; decide
        | cons c p ih =>
          rw [List.cons_append, findStr]
          have := findStr_ge sub (p ++ (sub ++ r))
          split
          · decide
          · omega
      have := hg ls (encodeText ls body ++ ['}']) (encodeText ls tail) (by intro e; simp [e] at hls0)
      simpa using this
    have hs := step_block (r := ls ++ encodeText ls tail) hls hl h1 h2 h4 h5 h6 hbb hr
    refine ⟨ls.drop 1, setKey (setKey d (strip k) (strip (pre ++ '{' :: encodeText ls body))) [] [], .inr rfl, ?_, ?_, ?_⟩
    · have e2 := hskip [] [] (encodeText ls tail) (setKey d (strip k) (strip (pre ++ '{' :: encodeText ls body))) (.inl rfl)
        ⟨by simp, by simp⟩ (by simp) (by simp)
      simp only [List.nil_append] at e2
      rw [← e2, ← parseLoop_step (d := d) ?_ hs ?_]
      · congr 2
        simp only [Item.text]
        rw [show k ++ '=' :: pre ++ '{' :: body ++ '}' :: ['\n'] ++ tail = (k ++ '=' :: (pre ++ ['{'])) ++ (body ++ ('}' :: (['\n'] ++ tail))) by simp]
        rw [encode_append, encode_id ls (k ++ '=' :: (pre ++ ['{'])) (by
          simp only [List.mem_append, List.mem_cons, not_or]
          exact ⟨h1.2, by decide, h2.2, by decide, by simp⟩), encode_append ls body, encode_cons ls '}' _ (by decide), encode_append ls ['\n'], encode_nl]
        simp
      · simp
      · simp; omega
    · intro hd
      exact setKey_nodup _ _ _ (setKey_nodup _ _ _ hd)
    · intro k' hk'
      rw [hA _ k' hk', lookup_setKey, lastValue_cons, lastValue_nil]
      simp only [Item.keyVal, Option.none_or]
      by_cases e : k' = strip k
      · simp [e]
      · simp [e, Ne.symm e]

theorem parse_items {ls lead : Str} (hls : Sep ls) (hl : Lead ls lead) (items : List Item) (ho : ∀ it ∈ items, it.Ok) (tail : Str)
    (d : Dict Str) :
    ∃ lead' d', Lead ls lead' ∧
      parseLoop ls (lead ++ encodeText ls (items.flatMap Item.text ++ tail)) d = parseLoop ls (lead' ++ encodeText ls tail) d' ∧
      After ls items d d' := by
  induction items generalizing lead d with
  | nil => exact ⟨lead, d, hl, by simp, fun h => h, fun k _ => by simp [lastValue_nil]⟩
  | cons it items ih =>
    obtain ⟨l1, d1, hl1, e1, a1, b1⟩ := parse_item hls hl it (ho it (by simp)) (items.flatMap Item.text ++ tail) d
    obtain ⟨l2, d2, hl2, e2, a2, b2⟩ := ih hl1 (fun x hx => ho x (by simp [hx])) d1
    refine ⟨l2, d2, hl2, ?_, fun h => a2 (a1 h), ?_⟩
    · rw [List.flatMap_cons, List.append_assoc, e1, e2]
    · intro k hk
      rw [b2 k hk, b1 k hk, lastValue_cons, lastValue_cons, lastValue_nil]
      simp [Option.or_assoc]

theorem parse_rest {ls t : Str} (hls : Sep ls) (hr : '\r' ∉ t) (hn : ls = posixSep → '\n' ∉ t) (hb : '{' ∉ t) (d : Dict Str) :
    ∃ d', parseLoop ls t d = .ok d' ∧ After ls [] d d' := by
  induction t generalizing d with
  | nil => exact ⟨d, parseLoop_nil ls d, fun h => h, fun k _ => by simp [lastValue_nil]⟩
  | cons c t ih =>
    have hs := step_rest hls hr hn hb
    rw [parseLoop_step (d := d) (by simp) hs (by simp)]
    simp only [List.mem_cons, not_or] at hr hb
    obtain ⟨d', h1, h2, h3⟩ := ih hr.2 (fun e => by have := hn e; simp at this; exact this.2) hb.2 (setKey d [] [])
    refine ⟨d', by simpa using h1, fun h => h2 (setKey_nodup _ _ _ h), ?_⟩
    intro k hk
    rw [h3 k hk, lookup_setKey, if_neg hk]

/-- The loop on pieces followed by an unfinished line. -/
theorem parse_all {ls : Str} (hls : Sep ls) (items : List Item) (ho : ∀ it ∈ items, it.Ok) (tail : Str) (ht : NoNl tail) (hb : '{' ∉ tail) :
    ∃ d, parseLoop ls (encodeText ls (items.flatMap Item.text ++ tail)) [] = .ok d ∧ (d.map Prod.fst).Nodup ∧
      ∀ k, k ≠ [] → lookup d k = lastValue ls items k := by
  obtain ⟨l1, d1, hl1, e1, a1, b1⟩ := parse_items hls (.inl rfl) items ho tail ([] : Dict Str)
  rw [encode_id ls tail ht.2] at e1
  obtain ⟨d2, e2, a2, b2⟩ := parse_rest (t := l1 ++ tail) hls (by
    rw [List.mem_append, not_or]
    refine ⟨lead_not ls l1 '\r' hls hl1 (by decide), ht.1⟩) (by
    rintro rfl
    rw [List.mem_append, not_or]
    refine ⟨?_, ht.2⟩
    rcases hl1 with rfl | rfl <;> simp [posixSep]) (by
    rw [List.mem_append, not_or]
    exact ⟨lead_not ls l1 '{' hls hl1 (by decide), hb⟩) d1
  refine ⟨d2, ?_, a2 (a1 (by simp)), ?_⟩
  · have e1' := e1
    rw [List.nil_append] at e1'
    rw [e1', e2]
  · intro k hk
    rw [b2 k hk, b1 k hk, lastValue_nil]
    simp [lookup]

/-! ### Conversion -/

variable {F : Type}

theorem convert_err (pf : Str → Option F) (ls : Str) (p : Str × Str) (e : Err) (h : convert pf ls p = .error e) : e = .valueError := by
  have k : ∀ (l : List Str) e, (l.mapM (fun x => match pf x with
    | some v => Except.ok v
    | none => .error Err.valueError) : Py (List F)) = .error e → e = .valueError := by
    intro l
    induction l with
    | nil => intro e h; simp [List.mapM_nil, pure, Except.pure] at h
    | cons a l ih =>
      intro e h
      rw [List.mapM_cons] at h
      cases hpf : pf a with
      | none => simp [hpf, bind, Except.bind] at h; exact h.symm
      | some v =>
        simp only [hpf, bind, Except.bind] at h
        split at h
        · rename_i e' he; simp at h; subst h; exact ih _ he
        · simp [pure, Except.pure] at h
  unfold convert at h
  split at h
  · split at h
    · rename_i e' he
      simp at h; subst h
      unfold bracketToArray at he
      exact k _ _ he
    · simp at h
  · split at h
    · split at h
      · simp at h; exact h.symm
      · simp at h
    · simp at h

theorem convert_key (pf : Str → Option F) (ls : Str) (p : Str × Str) (q : Str × HVal F) (h : convert pf ls p = .ok q) : q.1 = p.1 := by
  unfold convert at h
  split at h
  · split at h
    · simp at h
    · simp at h; rw [← h]
  · split at h
    · split at h
      · simp at h
      · simp at h; rw [← h]
    · simp at h; rw [← h]

theorem mapM_convert_ok (pf : Str → Option F) (ls : Str) (d : Dict Str) (h : ∀ p ∈ d, ∃ q, convert pf ls p = .ok q) :
    ∃ r, d.mapM (convert pf ls) = .ok r ∧
      ∀ k, (lookup d k = none → lookup r k = none) ∧
        ∀ v, lookup d k = some v → ∃ w, convert pf ls (k, v) = .ok (k, w) ∧ lookup r k = some w := by
  induction d with
  | nil => exact ⟨[], by simp [List.mapM_nil, pure, Except.pure], fun k => ⟨fun _ => rfl, fun v hv => by simp [lookup] at hv⟩⟩
  | cons p d ih =>
    obtain ⟨q, hq⟩ := h p (by simp)
    obtain ⟨r, hr, hk⟩ := ih (fun x hx => h x (by simp [hx]))
    refine ⟨q :: r, by rw [List.mapM_cons, hq, ok_bind', hr]; rfl, ?_⟩
    have hqk := convert_key pf ls p q hq
    intro k
    unfold lookup
    rw [List.find?_cons, List.find?_cons]
    by_cases e : p.1 = k
    · simp only [e, hqk, decide_true, Option.map_some]
      refine ⟨by simp, ?_⟩
      intro v hv
      simp only [Option.some.injEq] at hv
      refine ⟨q.2, ?_, rfl⟩
      rw [← hv, ← e, show (p.1, p.2) = p from rfl, hq, ← hqk]
    · simp only [e, hqk, decide_false]
      exact hk k
where ok_bind' {α β : Type} {a : α} {f : α → Py β} : (Except.ok a >>= f) = f a := rfl

theorem mapM_convert_err (pf : Str → Option F) (ls : Str) (d : Dict Str) (p : Str × Str) (hp : p ∈ d) (e : Err)
    (h : convert pf ls p = .error e) : d.mapM (convert pf ls) = .error .valueError := by
  induction d with
  | nil => simp at hp
  | cons q d ih =>
    rw [List.mapM_cons]
    cases hq : convert pf ls q with
    | error e' =>
      rw [convert_err pf ls q e' hq]
      rfl
    | ok q' =>
      rw [List.mem_cons] at hp
      rcases hp with rfl | hp
      · rw [h] at hq; simp at hq
      · show (d.mapM (convert pf ls) >>= fun a => pure (q' :: a)) = _
        rw [ih hp]
        rfl

end Verif.Envi
