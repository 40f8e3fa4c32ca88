import Verif.Lemmas.Readers

/-! The lines of a text file, and what the readers of `Model/Readers` see of them. -/

namespace Verif.Readers
open Verif Verif.TextUtils Verif.Envi

/-- A line without its ending. -/
def Plain (l : Str) : Prop := '\r' ∉ l ∧ '\n' ∉ l

/-- The text `s` consists of the given lines: each ends with a newline, a carriage return and a newline, or a lone carriage
return; only the last may have no ending, and then it is not empty. -/
inductive HasLines : Str → List Str → Prop
  | nil : HasLines [] []
  | last {l : Str} : l ≠ [] → Plain l → HasLines l [l]
  | lf {l rest : Str} {ls : List Str} : Plain l → HasLines rest ls → HasLines (l ++ '\n' :: rest) (l :: ls)
  | crlf {l rest : Str} {ls : List Str} : Plain l → HasLines rest ls → HasLines (l ++ '\r' :: '\n' :: rest) (l :: ls)
  | cr {l rest : Str} {ls : List Str} : Plain l → rest.head? ≠ some '\n' → HasLines rest ls → HasLines (l ++ '\r' :: rest) (l :: ls)

theorem hasLines_plain {s : Str} {ls : List Str} (h : HasLines s ls) : ∀ l ∈ ls, Plain l := by
  induction h with
  | nil => simp
  | last _ hp => intro l hl; simp at hl; exact hl ▸ hp
  | lf hp _ ih => intro l hl; rcases List.mem_cons.1 hl with rfl | hl; exact hp; exact ih l hl
  | crlf hp _ ih => intro l hl; rcases List.mem_cons.1 hl with rfl | hl; exact hp; exact ih l hl
  | cr hp _ _ ih => intro l hl; rcases List.mem_cons.1 hl with rfl | hl; exact hp; exact ih l hl

theorem hasLines_cons {s : Str} {l : Str} {ls : List Str} (c : Char) (hc : c ≠ '\r' ∧ c ≠ '\n') (h : HasLines s (l :: ls)) :
    HasLines (c :: s) ((c :: l) :: ls) := by
  have hp : ∀ {l : Str}, Plain l → Plain (c :: l) := by
    intro l h
    refine ⟨?_, ?_⟩
    · intro m
      rcases List.mem_cons.1 m with e | m
      · exact hc.1 e.symm
      · exact h.1 m
    · intro m
      rcases List.mem_cons.1 m with e | m
      · exact hc.2 e.symm
      · exact h.2 m
  cases h with
  | last h1 h2 => exact .last (by simp) (hp h2)
  | lf h1 h2 => exact .lf (hp h1) h2
  | crlf h1 h2 => exact .crlf (hp h1) h2
  | cr h1 h2 h3 => exact .cr (hp h1) h2 h3

/-- Every text has lines. -/
theorem hasLines_exists (s : Str) : ∃ ls, HasLines s ls := by
  induction s using newline_induction with
  | nil => exact ⟨[], .nil⟩
  | crlf s ih =>
    obtain ⟨ls, h⟩ := ih
    exact ⟨[] :: ls, HasLines.crlf (l := []) ⟨by simp, by simp⟩ h⟩
  | cr s hs ih =>
    obtain ⟨ls, h⟩ := ih
    exact ⟨[] :: ls, HasLines.cr (l := []) ⟨by simp, by simp⟩ hs h⟩
  | other c s hc ih =>
    obtain ⟨ls, h⟩ := ih
    by_cases hn : c = '\n'
    · exact ⟨[] :: ls, by rw [hn]; exact HasLines.lf (l := []) ⟨by simp, by simp⟩ h⟩
    · cases ls with
      | nil =>
        cases h
        exact ⟨[[c]], .last (by simp) ⟨by simp [Ne.symm hc], by simp [Ne.symm hn]⟩⟩
      | cons l ls => exact ⟨(c :: l) :: ls, hasLines_cons c ⟨hc, hn⟩ h⟩

/-- What `readlines` returns for a line. -/
def Raw (r l : Str) : Prop := r = l ∨ r = l ++ ['\n']

theorem decode_prefix (l s : Str) (h : '\r' ∉ l) : decodeText (l ++ s) = l ++ decodeText s := by
  induction l with
  | nil => rfl
  | cons c l ih =>
    rw [List.cons_append, decode_other _ _ (fun e => h (e ▸ List.mem_cons_self)), ih (fun m => h (List.mem_cons_of_mem _ m))]
    rfl

theorem hasLines_raw {s : Str} {ls : List Str} (h : HasLines s ls) : List.Forall₂ Raw (readlines (decodeText s)) ls := by
  induction h with
  | nil => exact .nil
  | last hl hp =>
    rename_i l
    rw [decode_id _ hp.1, readlines_last _ hp.2, if_neg hl]
    exact .cons (.inl rfl) .nil
  | lf hp _ ih =>
    rw [decode_prefix _ _ hp.1, decode_other _ _ (by decide), readlines_line _ _ hp.2]
    exact .cons (.inr rfl) ih
  | crlf hp _ ih =>
    rw [decode_prefix _ _ hp.1, decode_crlf, readlines_line _ _ hp.2]
    exact .cons (.inr rfl) ih
  | cr hp hr _ ih =>
    rw [decode_prefix _ _ hp.1, decode_cr _ hr, readlines_line _ _ hp.2]
    exact .cons (.inr rfl) ih

theorem forall2_map {α β γ : Type} {R : α → β → Prop} {f : α → γ} {g : β → γ} {as : List α} {bs : List β}
    (h : List.Forall₂ R as bs) (hf : ∀ a b, b ∈ bs → R a b → f a = g b) : as.map f = bs.map g := by
  induction h with
  | nil => rfl
  | cons h1 _ ih =>
    rw [List.map_cons, List.map_cons, hf _ _ List.mem_cons_self h1, ih (fun a b hb => hf a b (List.mem_cons_of_mem _ hb))]

theorem readTextList_lines (ls : Str) (hls : ls = posixSep ∨ ls = windowsSep) {s : Str} {lines : List Str} (h : HasLines s lines) :
    readTextList ls s = lines := by
  unfold readTextList
  rw [forall2_map (g := id) (hasLines_raw h)]
  · simp
  · intro r l hl hr
    have hp := hasLines_plain h l hl
    rcases hr with rfl | rfl
    · exact (C64_no_newline _ hp.1 hp.2 ls hls).2
    · exact remove_line ls l hls hp.1 hp.2

theorem fields_snoc_ws {s : Str} {ts : List Str} (c : Char) (hc : isWs c = true) (h : Fields s ts) : Fields (s ++ [c]) ts := by
  induction h with
  | none h =>
    refine .none ?_
    intro d hd
    rcases List.mem_append.1 hd with hd | hd
    · exact h d hd
    · simp at hd; exact hd ▸ hc
  | more hs ht hr _ ih =>
    rename_i w t rest ts hf
    rw [List.append_assoc]
    refine .more hs ht ?_ ih
    intro d hd
    cases rest with
    | nil => simp at hd; exact hd ▸ hc
    | cons a rest => exact hr d (by simpa using hd)

theorem words_raw {r l : Str} (h : Raw r l) : words r = words l := by
  rcases h with rfl | rfl
  · rfl
  · exact fields_words_eq (fields_snoc_ws '\n' (by decide) (fields_words l))

theorem strip_raw {r l : Str} (h : Raw r l) : strip r = strip l := by
  rcases h with rfl | rfl
  · rfl
  · unfold strip rstrip
    rw [List.reverse_append]
    congr 2

theorem filter_raw {r l : Str} (hp : Plain l) (h : Raw r l) : r.filter (fun c => c ≠ '\n') = l := by
  have e : l.filter (fun c => c ≠ '\n') = l := List.filter_eq_self.2 (by
    intro c hc
    simp only [ne_eq, decide_eq_true_eq]
    exact fun e => hp.2 (e ▸ hc))
  rcases h with rfl | rfl
  · exact e
  · rw [List.filter_append, e]; simp

theorem prefix_raw {r l : Str} (h : Raw r l) : "data".toList.isPrefixOf r = "data".toList.isPrefixOf l := by
  rcases h with rfl | rfl
  · rfl
  · have : ∀ (p l : Str), '\n' ∉ p → p.isPrefixOf (l ++ ['\n']) = p.isPrefixOf l := by
      intro p
      induction p with
      | nil => intro l _; simp
      | cons a p ih =>
        intro l h
        cases l with
        | nil =>
          have : a ≠ '\n' := fun e => h (e ▸ List.mem_cons_self)
          simp [List.isPrefixOf, this]
        | cons b l =>
          simp only [List.cons_append, List.isPrefixOf]
          rw [ih l (fun m => h (List.mem_cons_of_mem _ m))]
    exact this _ _ (by decide)

/-- A line with one field, when stripped, is that field. -/
theorem strip_field {l t : Str} (h : Fields l [t]) : strip l = t := by
  have hd : ∀ (w s : Str), (∀ c ∈ w, isWs c = true) → (w ++ s).dropWhile isWs = s.dropWhile isWs := by
    intro w s h
    induction w with
    | nil => rfl
    | cons c w ih => rw [List.cons_append, List.dropWhile_cons_of_pos (h c List.mem_cons_self), ih (fun d hd => h d (List.mem_cons_of_mem _ hd))]
  cases h with
  | more hs ht hr hf =>
    rename_i w rest
    cases hf with
    | none hrest =>
      have hall : ∀ c ∈ rest.reverse, isWs c = true := by simpa using hrest
      unfold strip rstrip lstrip
      rw [List.reverse_append, hd _ _ hall, List.reverse_append]
      have h1 : t.reverse ≠ [] := by simpa using ht.1
      obtain ⟨a, as, e⟩ := List.exists_cons_of_ne_nil h1
      have ha : isWs a = false := ht.2 a (by rw [← List.mem_reverse, e]; simp)
      rw [e, List.cons_append, List.dropWhile_cons_of_neg (by simp [ha]), ← List.cons_append, ← e, List.reverse_append,
        List.reverse_reverse, List.reverse_reverse, hd _ _ hs]
      obtain ⟨b, bs, e⟩ := List.exists_cons_of_ne_nil ht.1
      rw [e, List.dropWhile_cons_of_neg (by simp [ht.2 b (by rw [e]; simp)])]

section
variable {K : Type} [Field K]

theorem pairs_congr (f g : Str → Py (K × K)) {as bs : List Str} {R : Str → Str → Prop} (h : List.Forall₂ R as bs)
    (hf : ∀ a b, b ∈ bs → R a b → f a = g b) : pairs f as = pairs g bs := by
  induction h with
  | nil => rfl
  | cons h1 _ ih =>
    unfold pairs
    rw [hf _ _ List.mem_cons_self h1, ih (fun a b hb => hf a b (List.mem_cons_of_mem _ hb))]

theorem pairs_iff (f : Str → Py (K × K)) (rows : List Str) (ws rs : List K) :
    pairs f rows = .ok (ws, rs) ↔ ws.length = rows.length ∧ rs.length = rows.length ∧
      ∀ (i : Nat) (row : Str), rows[i]? = some row → ∃ w r : K, f row = .ok (w, r) ∧ ws[i]? = some w ∧ rs[i]? = some r := by
  induction rows generalizing ws rs with
  | nil =>
    unfold pairs
    constructor
    · intro h
      have := Except.ok.inj h
      simp only [Prod.mk.injEq] at this
      obtain ⟨rfl, rfl⟩ := this
      simp
    · rintro ⟨h1, h2, _⟩
      rw [List.length_eq_zero_iff.1 h1, List.length_eq_zero_iff.1 h2]
  | cons l rows ih =>
    unfold pairs
    constructor
    · intro h
      obtain ⟨⟨w, r⟩, h1, h⟩ := bind_ok h
      obtain ⟨⟨ws', rs'⟩, h2, h⟩ := bind_ok h
      have := Except.ok.inj h
      simp only [Prod.mk.injEq] at this
      obtain ⟨rfl, rfl⟩ := this
      obtain ⟨a, b, c⟩ := (ih ws' rs').1 h2
      refine ⟨by simp [a], by simp [b], ?_⟩
      intro i row hi
      cases i with
      | zero => simp at hi; subst hi; exact ⟨w, r, h1, rfl, rfl⟩
      | succ i => simpa using c i row (by simpa using hi)
    · rintro ⟨h1, h2, h3⟩
      cases ws with
      | nil => simp at h1
      | cons w ws =>
        cases rs with
        | nil => simp at h2
        | cons r rs =>
          obtain ⟨w', r', hf, e1, e2⟩ := h3 0 l rfl
          simp at e1 e2
          subst e1; subst e2
          rw [hf, ok_bind]
          simp only []
          rw [(ih ws rs).2 ⟨by simpa using h1, by simpa using h2, fun i row hi => by simpa using h3 (i + 1) row (by simpa using hi)⟩]
          rfl

theorem pairs_error (f : Str → Py (K × K)) (e : Err) (rows : List Str)
    (h : ∀ row ∈ rows, ∀ e', f row = .error e' → e' = e) (row : Str) (hm : row ∈ rows) (hr : f row = .error e) :
    pairs f rows = .error e := by
  induction rows with
  | nil => simp at hm
  | cons l rows ih =>
    unfold pairs
    cases hl : f l with
    | error e' =>
      rw [error_bind, h l List.mem_cons_self e' hl]
    | ok p =>
      rw [ok_bind]
      rcases List.mem_cons.1 hm with rfl | hm
      · rw [hl] at hr; cases hr
      · simp only []
        rw [ih (fun r hr => h r (List.mem_cons_of_mem _ hr)) hm, error_bind]

end

theorem dataIndex_eq {as bs : List Str} (h : List.Forall₂ Raw as bs) : dataIndex as = dataIndex bs := by
  induction h with
  | nil => rfl
  | cons h1 _ ih =>
    unfold dataIndex
    rw [prefix_raw h1, ih]

theorem dataIndex_at (header : List Str) (m : Str) (rows : List Str) (hh : ∀ l ∈ header, ¬ "data".toList <+: l)
    (hm : "data".toList <+: m) : dataIndex (header ++ m :: rows) = header.length + 1 := by
  induction header with
  | nil => unfold dataIndex; rw [List.nil_append, ]; simp only []; rw [if_pos (List.isPrefixOf_iff_prefix.2 hm)]; rfl
  | cons l header ih =>
    rw [List.cons_append]
    unfold dataIndex
    rw [if_neg (fun e => hh l List.mem_cons_self (List.isPrefixOf_iff_prefix.1 e)), ih (fun x hx => hh x (List.mem_cons_of_mem _ hx))]
    simp; omega

theorem dataIndex_none (header : List Str) (hh : ∀ l ∈ header, ¬ "data".toList <+: l) : dataIndex header = header.length := by
  induction header with
  | nil => rfl
  | cons l header ih =>
    unfold dataIndex
    rw [if_neg (fun e => hh l List.mem_cons_self (List.isPrefixOf_iff_prefix.1 e)), ih (fun x hx => hh x (List.mem_cons_of_mem _ hx))]
    simp; omega

end Verif.Readers
