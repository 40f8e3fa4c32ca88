import Verif.Lemmas.Chipper
import Verif.Lemmas.Str

/-! Property C07: chips written to disk (image_chipper.py:135-164). -/

namespace Verif.Chipper
open Verif

theorem chipPath_inj {d base fmt p : Str} {i j : Nat}
    (hi : chipPath d base none fmt i = .ok p) (hj : chipPath d base none fmt j = .ok p) : i = j := by
  unfold chipPath at hi hj
  simp only [ok_bind, Except.ok.injEq] at hi hj
  rw [← hj] at hi
  have h := pathJoin_inj (by cases base <;> simp) hi
  have h2 := List.append_cancel_right (List.append_cancel_right h)
  exact zfill_natStr_inj (List.append_cancel_left h2)

theorem writeLoop_spec {α : Type} (chips : Chips α) (nb : Nat) (resize : A3 α → A3 α) (ra : Bool)
    (d base fmt : Str) (todo i : Nat) (fs : Str → Option (A3 α)) :
    ∃ fs', writeLoop chips nb resize ra d base none fmt todo i fs = .ok fs' ∧
      (∀ k, i ≤ k → k < i + todo → ∀ p, chipPath d base none fmt k = .ok p →
        fs' p = some (chipForDisk chips nb resize ra k)) ∧
      (∀ q, (∀ k, i ≤ k → k < i + todo → chipPath d base none fmt k ≠ .ok q) → fs' q = fs q) := by
  induction todo generalizing i fs with
  | zero => exact ⟨fs, rfl, by intro k h1 h2; omega, by intro q _; rfl⟩
  | succ t ih =>
    obtain ⟨p, hp⟩ : ∃ p, chipPath d base none fmt i = .ok p := ⟨_, rfl⟩
    obtain ⟨fs', h1, h2, h3⟩ := ih (i + 1)
      (fun q => if q = p then some (chipForDisk chips nb resize ra i) else fs q)
    refine ⟨fs', by simp [writeLoop, hp, ok_bind, h1], ?_, ?_⟩
    · intro k hk1 hk2 q hq
      by_cases hki : k = i
      · subst hki
        rw [hp] at hq; cases hq
        rw [h3 p ?_]
        · simp
        · intro k' hk' _ hc
          have := chipPath_inj hc hp
          omega
      · exact h2 k (by omega) (by omega) q hq
    · intro q hq
      rw [h3 q (fun k a b => hq k (by omega) (by omega))]
      have : q ≠ p := by
        intro e; subst e; exact hq i (by omega) (by omega) hp
      simp [this]

/-- C07.  Writing `n` chips with generated names succeeds and leaves `n` files with pairwise
different names: file `k` holds chip `k`, every other file of the file system is untouched. -/
theorem C07_distinct_files {α : Type} (chips : Chips α) (nb : Nat) (hnb : chips.nb = some nb)
    (resize : A3 α → A3 α) (removeAlpha : Bool) (outputDir : Str) (base : Option Str) (fmt : Str)
    (fs : Str → Option (A3 α)) :
    ∃ (fs' : Str → Option (A3 α)) (name : Nat → Str), writeChips chips resize removeAlpha outputDir base none fmt fs = .ok fs' ∧
      (∀ i j : Nat, name i = name j → i = j) ∧
      (∀ k, k < chips.n → fs' (name k) = some (chipForDisk chips nb resize removeAlpha k)) ∧
      (∀ q, (∀ k, k < chips.n → name k ≠ q) → fs' q = fs q) := by
  let b := match base with
    | none => basename outputDir
    | some b => b
  obtain ⟨fs', h1, h2, h3⟩ := writeLoop_spec chips nb resize removeAlpha outputDir b fmt chips.n 0 fs
  have hpath : ∀ i, chipPath outputDir b none fmt i =
      .ok (pathJoin outputDir (b ++ ['_'] ++ zfill 8 (natStr i) ++ ['.'] ++ removeChar '.' fmt)) := fun i => rfl
  refine ⟨fs', fun i => pathJoin outputDir (b ++ ['_'] ++ zfill 8 (natStr i) ++ ['.'] ++ removeChar '.' fmt),
    ?_, ?_, ?_, ?_⟩
  · unfold writeChips; simp only [hnb]; exact h1
  · intro i j hij
    apply chipPath_inj (hpath i)
    exact (hpath j).trans (congrArg Except.ok hij.symm)
  · intro k hk
    exact h2 k (by omega) (by omega) _ (hpath k)
  · intro q hq
    apply h3 q
    intro k _ hk hc
    rw [hpath] at hc
    exact hq k (by omega) (by simpa using hc)

/-- What ends up in file `k` when no resize is requested: the chip, minus its alpha band when it
has four bands and `remove_alpha` is set. -/
theorem C07_file_content {α : Type} (chips : Chips α) (nb : Nat) (removeAlpha : Bool) (k : Nat) :
    let a := chipForDisk chips nb id removeAlpha k
    a.ny = chips.ny ∧ a.nx = chips.nx ∧
      a.nb = (if removeAlpha = true ∧ nb = 4 then 3 else nb) ∧
      ∀ y x b, a.px y x b = chips.px k y x b := by
  unfold chipForDisk
  simp only [id]
  split <;> simp_all

/-- Grayscale (three-dimensional) chips, which the chipping functions produce for grayscale images
and single bands, cannot be written: IndexError. -/
theorem C07_grayscale_chips_raise {α : Type} (chips : Chips α) (h : chips.nb = none) (hn : chips.n ≠ 0)
    (resize : A3 α → A3 α) (removeAlpha : Bool) (outputDir : Str) (base : Option Str)
    (fnames : Option (List Str)) (fmt : Str) (fs : Str → Option (A3 α)) :
    writeChips chips resize removeAlpha outputDir base fnames fmt fs = .error .indexError := by
  unfold writeChips; simp [h, hn]

example : chipPath "out".toList "chip".toList none ".png".toList 12 = .ok "out/chip_00000012.png".toList := by
  simp [chipPath, ok_bind, natStr, zfill, digitChar, pathJoin, removeChar]

example : ∃ c : Chips Nat, c.nb = some 4 ∧ c.n = 3 := ⟨⟨3, 2, 2, some 4, fun _ _ _ _ => 0⟩, rfl, rfl⟩

/-! ### C120: given names -/

theorem chipPath_given (d base ext : Str) (names : List Str) (k : Nat) (n : Str) (hn : names[k]? = some n) (hrel : n.head? ≠ some '/')
    (hd : d ≠ []) (hd' : d.getLast? ≠ some '/') (hext : '.' ∉ ext) (dot : Bool) :
    chipPath d base (some names) (if dot then '.' :: ext else ext) k = .ok (d ++ ['/'] ++ n ++ ['.'] ++ ext) := by
  have hr : removeChar '.' (if dot then '.' :: ext else ext) = ext := by
    have : ext.filter (fun c => decide (c ≠ '.')) = ext := by
      rw [List.filter_eq_self]
      intro c hc
      simp only [decide_eq_true_eq]
      rintro rfl; exact hext hc
    unfold removeChar
    cases dot
    · exact this
    · rw [if_pos rfl, List.filter_cons_of_neg (by simp)]; exact this
  unfold chipPath
  simp only [hn, ok_bind, hr]
  unfold pathJoin
  rw [if_neg, if_neg]
  · simp
  · rintro (h | h)
    · exact hd h
    · exact hd' h
  · cases n with
    | nil => simp
    | cons c n => simpa using hrel

/-- C120. Chips written under given names: when there are at least as many names as chips and the first ones are different relative names, the call
succeeds, chip `k` is in the file `<dir>/<name k>.<format>` (the format with or without its leading dot), and no other file changes. -/
theorem C120_given_names {α : Type} (chips : Chips α) (nb : Nat) (hnb : chips.nb = some nb)
    (resize : A3 α → A3 α) (removeAlpha : Bool) (d : Str) (base : Option Str) (names : List Str) (ext : Str) (dot : Bool)
    (fs : Str → Option (A3 α)) (hlen : chips.n ≤ names.length) (hrel : ∀ n ∈ names, n.head? ≠ some '/')
    (hdist : ∀ (i j : Nat) (n : Str), i < chips.n → j < chips.n → names[i]? = some n → names[j]? = some n → i = j)
    (hd : d ≠ []) (hd' : d.getLast? ≠ some '/') (hext : '.' ∉ ext) :
    ∃ fs' : Str → Option (A3 α),
      writeChips chips resize removeAlpha d base (some names) (if dot then '.' :: ext else ext) fs = .ok fs' ∧
      (∀ (k : Nat) (n : Str), k < chips.n → names[k]? = some n →
        fs' (d ++ ['/'] ++ n ++ ['.'] ++ ext) = some (chipForDisk chips nb resize removeAlpha k)) ∧
      (∀ q, (∀ (k : Nat) (n : Str), k < chips.n → names[k]? = some n → q ≠ d ++ ['/'] ++ n ++ ['.'] ++ ext) → fs' q = fs q) := by
  have key : ∀ (b : Str) (todo i : Nat) (fs : Str → Option (A3 α)), i + todo = chips.n → ∃ fs' : Str → Option (A3 α),
      writeLoop chips nb resize removeAlpha d b (some names) (if dot then '.' :: ext else ext) todo i fs = .ok fs' ∧
      (∀ (k : Nat) (n : Str), i ≤ k → k < chips.n → names[k]? = some n →
        fs' (d ++ ['/'] ++ n ++ ['.'] ++ ext) = some (chipForDisk chips nb resize removeAlpha k)) ∧
      (∀ q, (∀ (k : Nat) (n : Str), i ≤ k → k < chips.n → names[k]? = some n → q ≠ d ++ ['/'] ++ n ++ ['.'] ++ ext) → fs' q = fs q) := by
    intro b todo
    induction todo with
    | zero => intro i fs hi; exact ⟨fs, rfl, by intro k n h1 h2; omega, by intro q _; rfl⟩
    | succ t ih =>
      intro i fs hi
      obtain ⟨n, hn⟩ : ∃ n, names[i]? = some n := ⟨names[i]'(by omega), by simp⟩
      have hp := chipPath_given d b ext names i n hn (hrel n (List.mem_of_getElem? hn)) hd hd' hext dot
      obtain ⟨fs', h1, h2, h3⟩ := ih (i + 1)
        (fun q => if q = d ++ ['/'] ++ n ++ ['.'] ++ ext then some (chipForDisk chips nb resize removeAlpha i) else fs q) (by omega)
      refine ⟨fs', ?_, ?_, ?_⟩
      · rw [writeLoop, hp, ok_bind]; exact h1
      · intro k m hk1 hk2 hm
        by_cases hki : k = i
        · subst hki
          rw [hn] at hm; cases hm
          rw [h3]
          · simp
          · intro k' n' hk' hk2' hn' he
            have he' := List.append_cancel_left (List.append_cancel_right (List.append_cancel_right he))
            subst he'
            have := hdist k k' _ hk2 hk2' hn hn'
            omega
        · exact h2 k m (by omega) hk2 hm
      · intro q hq
        rw [h3 q (fun k n a b c => hq k n (by omega) b c)]
        have : q ≠ d ++ ['/'] ++ n ++ ['.'] ++ ext := hq i n (le_refl _) (by omega) hn
        simp only [if_neg this]
  obtain ⟨fs', h1, h2, h3⟩ := key (match base with
    | none => basename d
    | some b => b) chips.n 0 fs (by omega)
  refine ⟨fs', ?_, fun k n => h2 k n (by omega), fun q hq => h3 q (fun k n _ => hq k n)⟩
  unfold writeChips; simp only [hnb]; exact h1

/-- C120: a list with fewer names than chips is an IndexError. -/
theorem C120_too_few_names {α : Type} (chips : Chips α) (nb : Nat) (hnb : chips.nb = some nb)
    (resize : A3 α → A3 α) (removeAlpha : Bool) (d : Str) (base : Option Str) (names : List Str) (fmt : Str)
    (fs : Str → Option (A3 α)) (hlen : names.length < chips.n) :
    writeChips chips resize removeAlpha d base (some names) fmt fs = .error .indexError := by
  have key : ∀ (b : Str) (todo i : Nat) (fs : Str → Option (A3 α)), i ≤ names.length → names.length < i + todo →
      writeLoop chips nb resize removeAlpha d b (some names) fmt todo i fs = .error .indexError := by
    intro b todo
    induction todo with
    | zero => intro i fs h1 h2; omega
    | succ t ih =>
      intro i fs h1 h2
      rw [writeLoop]
      rcases Nat.lt_or_ge i names.length with h | h
      · have : ∃ p, chipPath d b (some names) fmt i = .ok p := by
          unfold chipPath
          simp only [List.getElem?_eq_getElem h, ok_bind]
          exact ⟨_, rfl⟩
        obtain ⟨p, hp⟩ := this
        rw [hp, ok_bind]
        exact ih (i + 1) _ (by omega) (by omega)
      · have : chipPath d b (some names) fmt i = .error .indexError := by
          unfold chipPath
          simp only [List.getElem?_eq_none h]
          rfl
        rw [this]; rfl
  unfold writeChips
  simp only [hnb]
  exact key _ _ _ _ (by omega) (by omega)

example : ∃ (c : Chips Nat) (names : List Str), c.n ≤ names.length ∧ c.n = 2 ∧ (∀ n ∈ names, n.head? ≠ some '/') ∧
    (∀ (i j : Nat) (n : Str), i < c.n → j < c.n → names[i]? = some n → names[j]? = some n → i = j) := by
  refine ⟨⟨2, 1, 1, some 3, fun _ _ _ _ => 0⟩, [['a'], ['b']], by decide, rfl, by decide, ?_⟩
  intro i j n hi hj h1 h2
  simp only at hi hj
  match i, j with
  | 0, 0 => rfl
  | 0, 1 => cases h1; cases h2
  | 1, 0 => cases h1; cases h2
  | 1, 1 => rfl
  | i + 2, _ => omega
  | _, j + 2 => omega

end Verif.Chipper
