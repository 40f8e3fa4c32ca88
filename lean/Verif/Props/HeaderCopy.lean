import Verif.Model.EnviWrite
import Verif.Props.HeaderTypes

/-! C187: writing a header and reading it back. -/

namespace Verif.Envi
open Verif TextUtils

variable {F : Type}

/-- Specification: a text that fits in one entry: one line, no `=`, no brace, no whitespace around it. -/
def OneEntry (s : Str) : Prop := NoNl s ∧ '=' ∉ s ∧ '{' ∉ s ∧ strip s = s

/-- Specification: entries the writer and the reader agree on: a text for an ordinary name, a whole number for one of the names of whole numbers. -/
def Agrees (p : Str × HVal F) : Prop :=
  OneEntry p.1 ∧ p.1 ≠ [] ∧ ¬ Named listNames p.1 ∧
    ((Named wholeNames p.1 ∧ ∃ n, p.2 = .int n) ∨ (¬ Named wholeNames p.1 ∧ ∃ s, OneEntry s ∧ p.2 = .str s))

/-- The lines written for a dictionary. -/
def writtenItems (sa : List F → Str) (d : Dict (HVal F)) : List Item := d.map (fun p => .entry (p.1 ++ [' ']) (' ' :: strVal sa p.2))

theorem written_items (sa : List F → Str) (ls : Str) (d : Dict (HVal F)) :
    writeHeader sa ls d = encodeText ls ((Item.comment "ENVI".toList :: writtenItems sa d).flatMap Item.text) := by
  unfold writeHeader headerText writtenItems
  congr 1
  rw [List.flatMap_cons, List.flatMap_map, List.flatMap_map]
  show "ENVI".toList ++ ['\n'] ++ _ = "ENVI".toList ++ ['\n'] ++ _
  congr 1
  congr 1
  funext p
  simp [Item.text]

theorem whole_intStr (n : Int) : Whole (intStr n) n := by
  obtain ⟨hd, hne⟩ := natStr_dig n.natAbs
  refine ⟨natStr n.natAbs, hne, hd, ?_⟩
  unfold intStr
  rw [digitsVal_natStr]
  by_cases h : n < 0
  · rw [if_pos h]
    exact .inr (.inr ⟨rfl, by omega⟩)
  · rw [if_neg h]
    exact .inl ⟨rfl, by omega⟩

theorem oneEntry_intStr (n : Int) : OneEntry (intStr n) ∧ ' ' ∉ intStr n ∧ '}' ∉ intStr n := by
  have hw := whole_intStr n
  have hws := whole_not_ws hw
  obtain ⟨ds, _, hd, h⟩ := hw
  have key : ∀ c ∈ intStr n, isDig c = true ∨ c = '+' ∨ c = '-' := by
    intro c hc
    rcases h with ⟨e, _⟩ | ⟨e, _⟩ | ⟨e, _⟩ <;> rw [e] at hc
    · exact .inl (hd c hc)
    · rcases List.mem_cons.mp hc with rfl | hc
      · exact .inr (.inl rfl)
      · exact .inl (hd c hc)
    · rcases List.mem_cons.mp hc with rfl | hc
      · exact .inr (.inr rfl)
      · exact .inl (hd c hc)
  have no : ∀ a : Char, ¬ isDig a = true → a ≠ '+' → a ≠ '-' → a ∉ intStr n := by
    intro a h1 h2 h3 hm
    rcases key a hm with h | h | h
    · exact h1 h
    · exact h2 h
    · exact h3 h
  exact ⟨⟨⟨no _ (by decide) (by decide) (by decide), no _ (by decide) (by decide) (by decide)⟩, no _ (by decide) (by decide) (by decide),
    no _ (by decide) (by decide) (by decide), strip_id _ hws⟩, no _ (by decide) (by decide) (by decide), no _ (by decide) (by decide) (by decide)⟩

theorem written_ok (k v : Str) (hk : OneEntry k) (hv : OneEntry v) : (Item.entry (k ++ [' ']) (' ' :: v)).Ok ∧ (Item.entry (k ++ [' ']) (' ' :: v)).keyText = some (k, v) := by
  obtain ⟨h1, h2, h3, h4⟩ := hk
  obtain ⟨g1, g2, g3, g4⟩ := hv
  have app : ∀ c : Char, c ≠ ' ' → c ∉ k → c ∉ k ++ [' '] := by
    intro c h h' hm
    simp only [List.mem_append, List.mem_singleton] at hm
    rcases hm with hm | hm
    · exact h' hm
    · exact h hm
  have con : ∀ c : Char, c ≠ ' ' → c ∉ v → c ∉ ' ' :: v := by
    intro c h h' hm
    rcases List.mem_cons.mp hm with hm | hm
    · exact h hm
    · exact h' hm
  refine ⟨⟨⟨app _ (by decide) h1.1, app _ (by decide) h1.2⟩, ⟨con _ (by decide) g1.1, con _ (by decide) g1.2⟩, app _ (by decide) h2, con _ (by decide) g2, app _ (by decide) h3,
    con _ (by decide) g3⟩, ?_⟩
  show some (strip (k ++ [' ']), strip (' ' :: v)) = _
  rw [strip_append_ws ' ' k (by decide), strip_cons ' ' v (by decide), h4, g4]

theorem comment_ok : (Item.comment "ENVI".toList).Ok := ⟨⟨by decide, by decide⟩, by decide, by decide⟩

/-- The keys and texts of the lines written. -/
theorem written_texts (sa : List F → Str) (d : Dict (HVal F)) (h : ∀ p ∈ d, OneEntry p.1 ∧ OneEntry (strVal sa p.2)) :
    (∀ it ∈ Item.comment "ENVI".toList :: writtenItems sa d, it.Ok) ∧
      (Item.comment "ENVI".toList :: writtenItems sa d).filterMap Item.keyText = d.map (fun p => (p.1, strVal sa p.2)) := by
  constructor
  · intro it hit
    rcases List.mem_cons.mp hit with rfl | hit
    · exact comment_ok
    · unfold writtenItems at hit
      rw [List.mem_map] at hit
      obtain ⟨p, hp, rfl⟩ := hit
      exact (written_ok _ _ (h p hp).1 (h p hp).2).1
  · rw [List.filterMap_cons]
    show (writtenItems sa d).filterMap Item.keyText = _
    unfold writtenItems
    rw [List.filterMap_map]
    induction d with
    | nil => rfl
    | cons p d ih =>
      have hp := h p (by simp)
      have e : (Item.keyText ∘ fun p : Str × HVal F => Item.entry (p.1 ++ [' ']) (' ' :: strVal sa p.2)) p = some (p.1, strVal sa p.2) := (written_ok _ _ hp.1 hp.2).2
      rw [List.filterMap_cons_some e, ih (fun q hq => h q (by simp [hq]))]
      rfl

theorem lookup_map (sa : List F → Str) (d : Dict (HVal F)) (k : Str) : lookup (d.map (fun p => (p.1, strVal sa p.2))) k = (lookup d k).map (strVal sa) := by
  unfold lookup
  rw [List.find?_map, Option.map_map, Option.map_map]
  rfl

/-- With distinct keys the last entry with a key is the entry with that key. -/
theorem last_lookup (d : Dict Str) (hn : (d.map Prod.fst).Nodup) (k : Str) : ((d.filter (fun p => p.1 = k)).getLast?).map Prod.snd = lookup d k := by
  unfold lookup
  induction d with
  | nil => rfl
  | cons p d ih =>
    rw [List.map_cons, List.nodup_cons] at hn
    by_cases e : p.1 = k
    · have : d.filter (fun p => p.1 = k) = [] := by
        rw [List.filter_eq_nil_iff]
        intro q hq
        simp only [decide_eq_true_eq]
        intro hq'
        exact hn.1 (by rw [e, ← hq']; exact List.mem_map_of_mem hq)
      rw [List.filter_cons_of_pos (by simpa using e), this, List.find?_cons_of_pos (by simpa using e)]
      rfl
    · rw [List.filter_cons_of_neg (by simpa using e), List.find?_cons_of_neg (by simpa using e)]
      exact ih hn.2

theorem lastText_written (sa : List F → Str) (d : Dict (HVal F)) (h : ∀ p ∈ d, OneEntry p.1 ∧ OneEntry (strVal sa p.2)) (hn : (d.map Prod.fst).Nodup) (k : Str) :
    lastText (Item.comment "ENVI".toList :: writtenItems sa d) k = (lookup d k).map (strVal sa) := by
  unfold lastText
  rw [(written_texts sa d h).2, last_lookup _ (by simpa [List.map_map, Function.comp_def] using hn), lookup_map]

theorem agrees_value (pf : Str → Option F) (sa : List F → Str) (ls : Str) (p : Str × HVal F) (h : Agrees p) :
    OneEntry (strVal sa p.2) ∧ HeaderValue pf ls p.1 (strVal sa p.2) p.2 := by
  obtain ⟨h1, h2, h3, h4⟩ := h
  rcases h4 with ⟨hw, n, hn⟩ | ⟨hw, s, hs, hp⟩
  · rw [hn]
    obtain ⟨a, b, _⟩ := oneEntry_intStr n
    refine ⟨a, .inr (.inl ⟨h3, hw, n, ?_, rfl⟩)⟩
    have : (intStr n).filter (fun c => c ≠ ' ') = intStr n := by
      rw [List.filter_eq_self]
      intro c hc
      simp only [ne_eq, decide_not, Bool.not_eq_eq_eq_not, Bool.not_true, decide_eq_false_iff_not]
      rintro rfl
      exact b hc
    show Whole ((intStr n).filter (fun c => c ≠ ' ')) n
    rw [this]
    exact whole_intStr n
  · rw [hp]
    refine ⟨hs, .inr (.inr ⟨h3, hw, ?_⟩)⟩
    show HVal.str s = HVal.str (encodeText ls s)
    rw [encode_id ls s hs.1.2]

/-- C187: a dictionary of ordinary texts and whole numbers is read back as it was written.  Missing: lists of numbers and texts in braces, see the `_false` theorems. -/
theorem C187_partial (pf : Str → Option F) (sa : List F → Str) (ls : Str) (hls : Sep ls) (d : Dict (HVal F)) (hn : (d.map Prod.fst).Nodup) (h : ∀ p ∈ d, Agrees p) :
    ∃ d', readHeaderText pf ls (writeHeader sa ls d) = .ok d' ∧ ∀ k, k ≠ [] → lookup d' k = lookup d k := by
  have h' : ∀ p ∈ d, OneEntry p.1 ∧ OneEntry (strVal sa p.2) := fun p hp => ⟨(h p hp).1, (agrees_value pf sa ls p (h p hp)).1⟩
  have hv : ∀ k y, lastText (Item.comment "ENVI".toList :: writtenItems sa d) k = some y → ∃ w, lookup d k = some w ∧ HeaderValue pf ls k y w := by
    intro k y hy
    rw [lastText_written sa d h' hn, Option.map_eq_some_iff] at hy
    obtain ⟨w, hw, rfl⟩ := hy
    exact ⟨w, hw, (agrees_value pf sa ls (k, w) (h _ (lookup_some_mem d k w hw))).2⟩
  obtain ⟨d', hd, hl⟩ := (C186_entries pf ls hls _ (written_texts sa d h').1).1 (fun k y _ hy => by
    obtain ⟨w, _, hw⟩ := hv k y hy
    exact ⟨w, hw⟩)
  refine ⟨d', by rw [written_items]; exact hd, fun k hk => ?_⟩
  cases ht : lastText (Item.comment "ENVI".toList :: writtenItems sa d) k with
  | none =>
    rw [(hl k hk).1 ht]
    rw [lastText_written sa d h' hn, Option.map_eq_none_iff] at ht
    exact ht.symm
  | some y =>
    obtain ⟨w, hw, hv'⟩ := hv k y ht
    rw [((hl k hk).2 y ht w).1 hv', hw]

example : ∀ p ∈ ([("Samples".toList, .int 12), ("y start".toList, .int (-3)), ("sensor type".toList, .str "AVIRIS NG".toList)] : Dict (HVal Nat)), Agrees p := by
  intro p hp
  simp only [List.mem_cons, List.not_mem_nil, or_false] at hp
  rcases hp with rfl | rfl | rfl
  · exact ⟨⟨⟨by decide, by decide⟩, by decide, by decide, by decide⟩, by decide, by rw [named_list]; decide, .inl ⟨by rw [named_whole]; decide, _, rfl⟩⟩
  · exact ⟨⟨⟨by decide, by decide⟩, by decide, by decide, by decide⟩, by decide, by rw [named_list]; decide, .inl ⟨by rw [named_whole]; decide, _, rfl⟩⟩
  · exact ⟨⟨⟨by decide, by decide⟩, by decide, by decide, by decide⟩, by decide, by rw [named_list]; decide,
      .inr ⟨by rw [named_whole]; decide, _, ⟨⟨by decide, by decide⟩, by decide, by decide, by decide⟩, rfl⟩⟩

/-- FALSE: a dictionary with a list of wavelengths is read back.  An array is written in square brackets (`str` of a numpy array); the reader raises ValueError. -/
theorem C187_list_false (pf : Str → Option F) (sa : List F → Str) (ls : Str) (hls : Sep ls) (d : Dict (HVal F)) (hn : (d.map Prod.fst).Nodup)
    (h : ∀ p ∈ d, OneEntry p.1 ∧ OneEntry (strVal sa p.2)) (k : Str) (l : List F) (hk : (k, .arr l) ∈ d) (hk0 : k ≠ []) (hkn : Named listNames k)
    (hsa : ∃ s, sa l = '[' :: s) (hpf : ∀ s, '[' ∈ s → pf s = none) : readHeaderText pf ls (writeHeader sa ls d) = .error .valueError := by
  rw [written_items]
  refine (C186_entries pf ls hls _ (written_texts sa d h).1).2 ⟨k, sa l, hk0, ?_, ?_⟩
  · rw [lastText_written sa d h hn, mem_lookup d hn _ hk]
    rfl
  · rintro ⟨w, hw⟩
    rcases hw with ⟨_, ps, xs, hc, hf, he⟩ | ⟨hno, _⟩ | ⟨hno, _⟩
    · clear he
      obtain ⟨s, hs⟩ := hsa
      have hm : '[' ∈ (sa l).filter (fun c => c ∉ [' ', '\n', '{', '}']) := by
        rw [List.mem_filter, hs]
        exact ⟨by simp, by decide⟩
      have : ∃ p ∈ ps, '[' ∈ p := by
        rw [hc.2.2] at hm
        have key : ∀ qs : List Str, '[' ∈ List.intercalate [','] qs → ∃ p ∈ qs, '[' ∈ p := by
          intro qs
          induction qs with
          | nil => simp
          | cons q qs ih =>
            cases qs with
            | nil =>
              intro hq
              exact ⟨q, by simp, by simpa using hq⟩
            | cons q' qs =>
              intro hq
              rw [List.intercalate_cons_cons, List.mem_append, List.mem_append] at hq
              rcases hq with (hq | hq) | hq
              · exact ⟨q, by simp, hq⟩
              · simp at hq
              · obtain ⟨p, hp, hm⟩ := ih hq
                exact ⟨p, by simp [hp], hm⟩
        exact key ps hm
      obtain ⟨p, hp, hm⟩ := this
      have hnone := hpf p hm
      clear hc
      induction hf with
      | nil => simp at hp
      | cons a _ ih =>
        rcases List.mem_cons.mp hp with rfl | hp
        · rw [hnone] at a
          cases a
        · exact ih hp
    · exact hno hkn
    · exact hno hkn

/-- FALSE: a dictionary with a text in braces is read back.  The texts the reader returns for blocks lack the closing brace; what is written for them is a header the reader never
ends on.  Here the entries before it fit in one line each, and no later text has a closing brace. -/
theorem C187_brace_false (sa : List F → Str) (ls : Str) (hls : Sep ls) (d1 d2 : Dict (HVal F)) (k pre body : Str) (h1 : ∀ p ∈ d1, OneEntry p.1 ∧ OneEntry (strVal sa p.2))
    (hk : NoNl k ∧ '}' ∉ k) (hp : NoNl pre ∧ '}' ∉ pre) (hb : '\r' ∉ body ∧ '}' ∉ body)
    (h2 : ∀ p ∈ d2, '\r' ∉ p.1 ∧ '}' ∉ p.1 ∧ '\r' ∉ strVal sa p.2 ∧ '}' ∉ strVal sa p.2) :
    ¬ Terminates ls (writeHeader sa ls (d1 ++ (k, .str (pre ++ '{' :: body)) :: d2)) := by
  rw [written_items]
  have e : (Item.comment "ENVI".toList :: writtenItems sa (d1 ++ (k, .str (pre ++ '{' :: body)) :: d2)).flatMap Item.text =
      (Item.comment "ENVI".toList :: writtenItems sa d1).flatMap Item.text ++ ((k ++ [' ']) ++ '=' :: (' ' :: pre) ++ '{' :: (body ++ '\n' :: (writtenItems sa d2).flatMap Item.text)) := by
    unfold writtenItems
    rw [List.map_append, List.map_cons, List.flatMap_cons, List.flatMap_cons, List.flatMap_append, List.flatMap_cons]
    simp [Item.text, strVal]
  rw [e]
  have hd2 : ∀ c : Char, c ≠ ' ' → c ≠ '=' → c ≠ '\n' → (∀ p ∈ d2, c ∉ p.1 ∧ c ∉ strVal sa p.2) → c ∉ (writtenItems sa d2).flatMap Item.text := by
    intro c c1 c2 c3 hc hm
    unfold writtenItems at hm
    rw [List.mem_flatMap] at hm
    obtain ⟨it, hit, hm⟩ := hm
    rw [List.mem_map] at hit
    obtain ⟨p, hp, rfl⟩ := hit
    simp only [Item.text, List.mem_append, List.mem_cons, List.not_mem_nil, or_false] at hm
    have := hc p hp
    tauto
  refine C60_unclosed_brace_false ls hls _ (written_texts sa d1 h1).1 (k ++ [' ']) (' ' :: pre) _ ?_ ?_ ?_ ?_ ?_ ?_ (by simp)
  · refine ⟨?_, ?_⟩ <;> simp only [List.mem_append, List.mem_singleton, not_or]
    · exact ⟨hk.1.1, by decide⟩
    · exact ⟨hk.1.2, by decide⟩
  · refine ⟨?_, ?_⟩ <;> simp only [List.mem_cons, not_or]
    · exact ⟨by decide, hp.1.1⟩
    · exact ⟨by decide, hp.1.2⟩
  · simp only [List.mem_append, List.mem_cons, not_or]
    exact ⟨hb.1, by decide, hd2 '\r' (by decide) (by decide) (by decide) (fun p hp => ⟨(h2 p hp).1, (h2 p hp).2.2.1⟩)⟩
  · simp only [List.mem_append, List.mem_singleton, not_or]
    exact ⟨hk.2, by decide⟩
  · simp only [List.mem_cons, not_or]
    exact ⟨by decide, hp.2⟩
  · simp only [List.mem_append, List.mem_cons, not_or]
    exact ⟨hb.2, by decide, hd2 '}' (by decide) (by decide) (by decide) (fun p hp => ⟨(h2 p hp).2.1, (h2 p hp).2.2.2⟩)⟩

/-! ### Copying a header -/

/-- The keys of a dictionary that was read are distinct and not empty. -/
theorem read_keys (pf : Str → Option F) (ls : Str) (hls : Sep ls) (items : List Item) (ho : ∀ it ∈ items, it.Ok) (d : Dict (HVal F))
    (h : readHeaderText pf ls (encodeText ls (items.flatMap Item.text)) = .ok d) : (d.map Prod.fst).Nodup ∧ ∀ p ∈ d, p.1 ≠ [] := by
  obtain ⟨d0, hd, hnod, _⟩ := parse_all hls items ho [] ⟨by simp, by simp⟩ (by simp)
  rw [List.append_nil] at hd
  have hdec : decodeText (encodeText ls (items.flatMap Item.text)) = items.flatMap Item.text := by
    apply decode_encode ls _ hls
    rw [List.mem_flatMap]
    rintro ⟨it, hit, hm⟩
    have := ho it hit
    cases it with
    | comment c =>
      simp only [Item.text, List.mem_append, List.mem_singleton] at hm
      rcases hm with hm | hm
      · exact this.1.1 hm
      · exact absurd hm (by decide)
    | entry k v =>
      simp only [Item.text, List.mem_append, List.mem_cons, List.not_mem_nil, or_false] at hm
      rcases hm with (hm | hm | hm) | hm
      · exact this.1.1 hm
      · exact absurd hm (by decide)
      · exact this.2.1.1 hm
      · exact absurd hm (by decide)
    | block k pre body =>
      simp only [Item.text, List.mem_append, List.mem_cons, List.not_mem_nil, or_false] at hm
      rcases hm with ((hm | hm | hm) | hm | hm) | hm | hm
      · exact this.1.1 hm
      · exact absurd hm (by decide)
      · exact this.2.1.1 hm
      · exact absurd hm (by decide)
      · exact this.2.2.1 hm
      · exact absurd hm (by decide)
      · exact absurd hm (by decide)
  unfold readHeaderText at h
  rw [header_text ls _ hls, hdec, hd] at h
  have key : ∀ (a : Dict Str) (r : Dict (HVal F)), a.mapM (convert pf ls) = .ok r → r.map Prod.fst = a.map Prod.fst := by
    intro a
    induction a with
    | nil =>
      intro r hr
      cases hr
      rfl
    | cons p a ih =>
      intro r hr
      rw [List.mapM_cons] at hr
      cases hq : convert pf ls p with
      | error e => rw [hq] at hr; cases hr
      | ok q =>
        rw [hq] at hr
        cases hm : (a.mapM (convert pf ls) : Py _) with
        | error e => 
          have hr' : (a.mapM (convert pf ls) >>= fun x => pure (q :: x) : Py _) = .ok r := hr
          rw [hm] at hr'
          cases hr'
        | ok r' =>
          have hr' : (a.mapM (convert pf ls) >>= fun x => pure (q :: x) : Py _) = .ok r := hr
          rw [hm] at hr'
          cases hr'
          rw [List.map_cons, List.map_cons, ih r' hm, convert_key pf ls p q hq]
  have hk := key _ _ h
  refine ⟨?_, ?_⟩
  · rw [hk]
    exact hnod.sublist (List.filter_sublist.map _)
  · intro p hp hp0
    have : p.1 ∈ d.map Prod.fst := List.mem_map_of_mem hp
    rw [hk, List.mem_map] at this
    obtain ⟨q, hq, hqp⟩ := this
    rw [List.mem_filter] at hq
    have := hq.2
    rw [hqp, hp0] at this
    simp at this

/-- The first element with a property. -/
theorem exists_first {α : Type} (l : List α) (P : α → Prop) (h : ∃ x ∈ l, P x) : ∃ a x b, l = a ++ x :: b ∧ P x ∧ ∀ y ∈ a, ¬ P y := by
  induction l with
  | nil => simp at h
  | cons y l ih =>
    by_cases hy : P y
    · exact ⟨[], y, l, rfl, hy, by simp⟩
    · obtain ⟨a, x, b, e, hx, ha⟩ := ih (by
        obtain ⟨x, hx, hp⟩ := h
        rcases List.mem_cons.mp hx with rfl | hx
        · exact absurd hp hy
        · exact ⟨x, hx, hp⟩)
      refine ⟨y :: a, x, b, by rw [e]; rfl, hx, ?_⟩
      intro z hz
      rcases List.mem_cons.mp hz with rfl | hz
      · exact hy
      · exact ha z hz

theorem prefix_of_first {p q X Y : Str} (h : p ++ '{' :: X = q ++ '{' :: Y) (hp : '{' ∉ p) : ∃ r, q = p ++ r := by
  induction p generalizing q with
  | nil => exact ⟨q, rfl⟩
  | cons c p ih =>
    simp only [List.mem_cons, not_or] at hp
    cases q with
    | nil =>
      simp only [List.cons_append, List.nil_append, List.cons.injEq] at h
      exact absurd h.1.symm hp.1
    | cons c' q =>
      simp only [List.cons_append, List.cons.injEq] at h
      obtain ⟨r, hr⟩ := ih h.2 hp.2
      exact ⟨r, by rw [← h.1, hr]; rfl⟩

/-- FALSE: a header can be read and written back.  On POSIX, for every header with a block under a name of no special meaning (`map info = {...}`), and no other closing brace: the
dictionary is read, and the header written from it is one the reader never ends on. -/
theorem C187_copy_false (pf : Str → Option F) (sa : List F → Str) (items : List Item) (ho : ∀ it ∈ items, it.Ok)
    (hkeys : ∀ it ∈ items, ∀ k y, it.keyText = some (k, y) → '{' ∉ k ∧ '}' ∉ k ∧ '}' ∉ y) (hsa : ∀ l, OneEntry (sa l) ∧ '}' ∉ sa l)
    (k y : Str) (hk : k ≠ []) (hy : lastText items k = some y) (hyb : '{' ∈ y) (h1 : ¬ Named listNames k) (h2 : ¬ Named wholeNames k)
    (d : Dict (HVal F)) (hd : readHeaderText pf posixSep (encodeText posixSep (items.flatMap Item.text)) = .ok d) :
    ¬ Terminates posixSep (writeHeader sa posixSep d) := by
  have hls : Sep posixSep := .inl rfl
  obtain ⟨hnod, hne⟩ := read_keys pf posixSep hls items ho d hd
  have hall : ∀ k y, k ≠ [] → lastText items k = some y → ∃ w, HeaderValue pf posixSep k y w := by
    by_contra hc
    push Not at hc
    obtain ⟨k, y, hk, hy, hc⟩ := hc
    have := (C186_entries pf posixSep hls items ho).2 ⟨k, y, hk, hy, fun ⟨w, hw⟩ => hc w hw⟩
    rw [hd] at this
    cases this
  obtain ⟨d', hd', hl⟩ := (C186_entries pf posixSep hls items ho).1 hall
  rw [hd] at hd'
  cases hd'
  -- every entry of the dictionary comes from a piece
  have hent : ∀ p ∈ d, ∃ it ∈ items, ∃ t, it.keyText = some (p.1, t) ∧ HeaderValue pf posixSep p.1 t p.2 := by
    intro p hp
    have hlk := mem_lookup d hnod p hp
    cases ht : lastText items p.1 with
    | none =>
      rw [(hl p.1 (hne p hp)).1 ht] at hlk
      cases hlk
    | some t =>
      have hv := ((hl p.1 (hne p hp)).2 t ht p.2).2 hlk
      unfold lastText at ht
      rw [Option.map_eq_some_iff] at ht
      obtain ⟨q, hq, rfl⟩ := ht
      have hm := List.mem_of_getLast? hq
      rw [List.mem_filter, List.mem_filterMap] at hm
      obtain ⟨⟨it, hit, hkv⟩, hqk⟩ := hm
      simp only [decide_eq_true_eq] at hqk
      exact ⟨it, hit, q.2, by rw [← hqk]; exact hkv, hv⟩
  have henc : ∀ t : Str, encodeText posixSep t = t := by
    intro t
    unfold encodeText posixSep
    rw [replaceStr_single]
    induction t with
    | nil => rfl
    | cons c t ih => rw [List.flatMap_cons, ih]; by_cases h : c = '\n' <;> simp [h]
  -- what is written for an entry
  have hkey : ∀ it ∈ items, ∀ k t, it.keyText = some (k, t) → NoNl k ∧ '=' ∉ k ∧ strip k = k := by
    intro it hit k t ht
    have hok := ho it hit
    cases it with
    | comment c => simp [Item.keyText] at ht
    | entry k' v =>
      simp only [Item.keyText, Option.some.injEq, Prod.mk.injEq] at ht
      rw [← ht.1]
      exact ⟨⟨fun h => hok.1.1 (strip_mem h), fun h => hok.1.2 (strip_mem h)⟩, fun h => hok.2.2.1 (strip_mem h), strip_strip _⟩
    | block k' pre body =>
      simp only [Item.keyText, Option.some.injEq, Prod.mk.injEq] at ht
      rw [← ht.1]
      exact ⟨⟨fun h => hok.1.1 (strip_mem h), fun h => hok.1.2 (strip_mem h)⟩, fun h => hok.2.2.2.1 (strip_mem h), strip_strip _⟩
  have hval : ∀ p ∈ d, '\r' ∉ strVal sa p.2 ∧ '}' ∉ strVal sa p.2 ∧ ('{' ∉ strVal sa p.2 → OneEntry (strVal sa p.2)) ∧
      ('{' ∈ strVal sa p.2 → ∃ pre body, p.2 = .str (pre ++ '{' :: body) ∧ NoNl pre) := by
    intro p hp
    obtain ⟨it, hit, t, ht, hv⟩ := hent p hp
    have hok := ho it hit
    obtain ⟨_, _, hbr⟩ := hkeys it hit _ _ ht
    obtain ⟨hr, hst⟩ := keyText_ok it hok _ _ ht
    rcases hv with ⟨_, ps, l, _, _, e⟩ | ⟨_, _, n, _, e⟩ | ⟨_, _, e⟩
    · rw [e]
      obtain ⟨a, b⟩ := hsa l
      exact ⟨a.1.1, b, fun _ => a, fun hm => absurd hm a.2.2.1⟩
    · rw [e]
      obtain ⟨a, _, b⟩ := oneEntry_intStr n
      exact ⟨a.1.1, b, fun _ => a, fun hm => absurd hm a.2.2.1⟩
    · rw [henc] at e
      rw [e]
      refine ⟨hr, hbr, ?_, ?_⟩
      · intro hb
        cases it with
        | comment c => simp [Item.keyText] at ht
        | entry k' v =>
          simp only [Item.keyText, Option.some.injEq, Prod.mk.injEq] at ht
          rw [← ht.2]
          exact ⟨⟨fun h => hok.2.1.1 (strip_mem h), fun h => hok.2.1.2 (strip_mem h)⟩, fun h => hok.2.2.2.1 (strip_mem h), fun h => hok.2.2.2.2.2 (strip_mem h), strip_strip _⟩
        | block k' pre body =>
          simp only [Item.keyText, Option.some.injEq, Prod.mk.injEq] at ht
          exfalso
          apply hb
          show '{' ∈ t
          rw [← ht.2]
          obtain ⟨a, b, hs, ha, hb'⟩ := strip_split (pre ++ '{' :: body)
          have hm : '{' ∈ pre ++ '{' :: body := by simp
          rw [hs, List.mem_append, List.mem_append] at hm
          rcases hm with (hm | hm) | hm
          · exact absurd (ha _ hm) (by decide)
          · exact hm
          · exact absurd (hb' _ hm) (by decide)
      · intro hb
        have hb : '{' ∈ t := hb
        cases it with
        | comment c => simp [Item.keyText] at ht
        | entry k' v =>
          simp only [Item.keyText, Option.some.injEq, Prod.mk.injEq] at ht
          rw [← ht.2] at hb
          exact absurd (strip_mem hb) hok.2.2.2.2.2
        | block k' pre body =>
          simp only [Item.keyText, Option.some.injEq, Prod.mk.injEq] at ht
          obtain ⟨p', c, b', e', hc, hno⟩ := exists_first t (fun c => c = '{') ⟨'{', hb, rfl⟩
          subst hc
          refine ⟨p', b', by rw [e'], ?_⟩
          obtain ⟨a, b, hs, ha, _⟩ := strip_split (pre ++ '{' :: body)
          rw [ht.2, e'] at hs
          have hs' : (a ++ p') ++ '{' :: (b' ++ b) = pre ++ '{' :: body := by
            rw [hs]
            simp
          obtain ⟨r, hr'⟩ := prefix_of_first hs' (by
            rw [List.mem_append, not_or]
            exact ⟨fun h => absurd (ha _ h) (by decide), fun h => hno _ h rfl⟩)
          have := hok.2.1
          rw [hr'] at this
          exact ⟨fun h => this.1 (by simp [h]), fun h => this.2 (by simp [h])⟩
  -- the entry of the block
  have hk' : ∃ p ∈ d, '{' ∈ strVal sa p.2 := by
    have hv := ((hl k hk).2 y hy (.str (encodeText posixSep y))).1 (.inr (.inr ⟨h1, h2, rfl⟩))
    refine ⟨_, lookup_some_mem d k _ hv, ?_⟩
    rw [henc]
    exact hyb
  obtain ⟨d1, p, d2, e, hp, hd1⟩ := exists_first d _ hk'
  have hpd : p ∈ d := by rw [e]; simp
  obtain ⟨pre, body, hpe, hpre⟩ := (hval p hpd).2.2.2 hp
  obtain ⟨itp, hitp, tp, htp, _⟩ := hent p hpd
  have hvp := hval p hpd
  rw [hpe] at hvp
  have e2 : d = d1 ++ (p.1, .str (pre ++ '{' :: body)) :: d2 := by rw [e, ← hpe]
  rw [e2]
  refine C187_brace_false sa posixSep hls d1 d2 p.1 pre body ?_ ⟨(hkey itp hitp _ _ htp).1, (hkeys itp hitp _ _ htp).2.1⟩ ⟨hpre, ?_⟩ ⟨?_, ?_⟩ ?_
  · intro q hq
    have hqd : q ∈ d := by rw [e]; simp [hq]
    obtain ⟨itq, hitq, tq, htq, _⟩ := hent q hqd
    obtain ⟨a, b, c⟩ := hkey itq hitq _ _ htq
    exact ⟨⟨a, b, (hkeys itq hitq _ _ htq).1, c⟩, (hval q hqd).2.2.1 (hd1 q hq)⟩
  · exact fun h => hvp.2.1 (by simp [strVal, h])
  · exact fun h => hvp.1 (by simp [strVal, h])
  · exact fun h => hvp.2.1 (by simp [strVal, h])
  · intro q hq
    have hqd : q ∈ d := by rw [e]; simp [hq]
    obtain ⟨itq, hitq, tq, htq, _⟩ := hent q hqd
    exact ⟨(hkey itq hitq _ _ htq).1.1, (hkeys itq hitq _ _ htq).2.1, (hval q hqd).1, (hval q hqd).2.1⟩

/-- The hypotheses are met: `samples = 3` and `map info = {UTM, 1}`. -/
example : ∃ (items : List Item), (∀ it ∈ items, it.Ok) ∧ (∀ it ∈ items, ∀ k y, it.keyText = some (k, y) → '{' ∉ k ∧ '}' ∉ k ∧ '}' ∉ y) ∧
    lastText items "map info".toList = some "{UTM, 1".toList ∧ ¬ Named listNames "map info".toList ∧ ¬ Named wholeNames "map info".toList ∧
    ∃ d, readHeaderText (F := Nat) (fun _ => none) posixSep (encodeText posixSep (items.flatMap Item.text)) = .ok d := by
  refine ⟨[.comment "ENVI".toList, .entry "samples ".toList " 3".toList, .block "map info ".toList " ".toList "UTM, 1".toList], ?_, ?_, by decide, by rw [named_list]; decide,
    by rw [named_whole]; decide, ?_⟩
  · intro it hit
    simp only [List.mem_cons, List.not_mem_nil, or_false] at hit
    rcases hit with rfl | rfl | rfl
    · exact comment_ok
    · exact ⟨⟨by decide, by decide⟩, ⟨by decide, by decide⟩, by decide, by decide, by decide, by decide⟩
    · exact ⟨⟨by decide, by decide⟩, ⟨by decide, by decide⟩, by decide, by decide, by decide, by decide, by decide⟩
  · intro it hit k y h
    simp only [List.mem_cons, List.not_mem_nil, or_false] at hit
    rcases hit with rfl | rfl | rfl
    · cases h
    · cases h
      exact ⟨by decide, by decide, by decide⟩
    · cases h
      exact ⟨by decide, by decide, by decide⟩
  · have ho : ∀ it ∈ [Item.comment "ENVI".toList, .entry "samples ".toList " 3".toList, .block "map info ".toList " ".toList "UTM, 1".toList], it.Ok := by
      intro it hit
      simp only [List.mem_cons, List.not_mem_nil, or_false] at hit
      rcases hit with rfl | rfl | rfl
      · exact comment_ok
      · exact ⟨⟨by decide, by decide⟩, ⟨by decide, by decide⟩, by decide, by decide, by decide, by decide⟩
      · exact ⟨⟨by decide, by decide⟩, ⟨by decide, by decide⟩, by decide, by decide, by decide, by decide, by decide⟩
    obtain ⟨d, hd, _⟩ := (C186_entries (F := Nat) (fun _ => none) posixSep (.inl rfl) _ ho).1 (by
      intro k y _ hy
      unfold lastText at hy
      rw [Option.map_eq_some_iff] at hy
      obtain ⟨p, hp, rfl⟩ := hy
      have hm := List.mem_of_getLast? hp
      rw [List.mem_filter] at hm
      obtain ⟨hm, hk⟩ := hm
      have e : [Item.comment "ENVI".toList, .entry "samples ".toList " 3".toList, .block "map info ".toList " ".toList "UTM, 1".toList].filterMap Item.keyText =
        [("samples".toList, "3".toList), ("map info".toList, "{UTM, 1".toList)] := by decide
      rw [e] at hm
      simp only [decide_eq_true_eq] at hk
      subst hk
      simp only [List.mem_cons, List.not_mem_nil, or_false] at hm
      rcases hm with rfl | rfl
      · exact ⟨.int 3, .inr (.inl ⟨by rw [named_list]; decide, by rw [named_whole]; decide, 3, ⟨"3".toList, by decide, by decide, .inl ⟨by decide, by decide⟩⟩, rfl⟩)⟩
      · exact ⟨_, .inr (.inr ⟨by rw [named_list]; decide, by rw [named_whole]; decide, rfl⟩)⟩)
    exact ⟨d, hd⟩

end Verif.Envi
