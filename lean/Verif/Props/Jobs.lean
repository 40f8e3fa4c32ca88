import Verif.Model.Jobs
import Verif.Props.ChipFiles
import Mathlib.Data.List.Induction

/-! C138, C139: chip export that is interrupted, and several exports at the same time (image_chipper.py:135-164). -/

namespace Verif.Jobs
open Verif Chipper

/-! ### Effects -/

theorem run_other {α : Type} (d : Disk α) (a : Act α) (p : Str) (h : a.path ≠ p) : a.run d p = d p := by
  cases a <;> simp only [Act.path, ne_eq] at h <;> simp [Act.run, Ne.symm h]

theorem run_same {α : Type} (d d' : Disk α) (a : Act α) : a.run d a.path = a.run d' a.path := by
  cases a <;> simp [Act.path, Act.run]

theorem runActs_other {α : Type} (l : List (Act α)) (d : Disk α) (p : Str) (h : ∀ a ∈ l, a.path ≠ p) : runActs d l p = d p := by
  induction l generalizing d with
  | nil => rfl
  | cons a l ih =>
    show runActs (a.run d) l p = d p
    rw [ih _ (fun b hb => h b (by simp [hb])), run_other d a p (h a (by simp))]

theorem runActs_point {α : Type} (l : List (Act α)) (d d' : Disk α) (p : Str) (h : d p = d' p) : runActs d l p = runActs d' l p := by
  induction l generalizing d d' with
  | nil => exact h
  | cons a l ih =>
    show runActs (a.run d) l p = runActs (a.run d') l p
    apply ih
    by_cases ha : a.path = p
    · subst ha; exact run_same d d' a
    · rw [run_other d a p ha, run_other d' a p ha, h]

theorem runActs_written {α : Type} (l : List (Act α)) (d d' : Disk α) (p : Str) (h : ∃ a ∈ l, a.path = p) : runActs d l p = runActs d' l p := by
  induction l generalizing d d' with
  | nil => obtain ⟨a, ha, _⟩ := h; cases ha
  | cons a l ih =>
    show runActs (a.run d) l p = runActs (a.run d') l p
    by_cases ha : a.path = p
    · subst ha; exact runActs_point l _ _ _ (run_same d d' a)
    · obtain ⟨b, hb, hp⟩ := h
      rcases List.mem_cons.mp hb with rfl | hb
      · exact absurd hp ha
      · exact ih _ _ ⟨b, hb, hp⟩

theorem runActs_append {α : Type} (l l' : List (Act α)) (d : Disk α) : runActs d (l ++ l') = runActs (runActs d l) l' := by
  unfold runActs; rw [List.foldl_append]

theorem runActs_again {α : Type} (done l : List (Act α)) (h : done <+: l) (d : Disk α) : runActs (runActs d done) l = runActs d l := by
  funext p
  by_cases hp : ∃ a ∈ l, a.path = p
  · exact runActs_written l _ _ p hp
  · push Not at hp
    rw [runActs_other l _ p hp, runActs_other l _ p hp, runActs_other done _ p (fun a ha => hp a (h.subset ha))]

/-! ### One export -/

section
variable {α : Type} (chips : Chips α) (nb : Nat) (resize : A3 α → A3 α) (ra : Bool) (d base fmt : Str) (fnames : Option (List Str))

theorem acts_paths (name : Nat → Str) (todo i : Nat)
    (hname : ∀ k, i ≤ k → k < i + todo → chipPath d base fnames fmt k = .ok (name k))
    (a : Act (A3 α)) (ha : a ∈ exportActs chips nb resize ra d base fnames fmt todo i) :
    ∃ k, i ≤ k ∧ k < i + todo ∧ a.path = name k := by
  induction todo generalizing i with
  | zero => cases ha
  | succ t ih =>
    rw [exportActs, hname i (le_refl _) (by omega)] at ha
    simp only [List.mem_cons] at ha
    rcases ha with rfl | rfl | ha
    · exact ⟨i, le_refl _, by omega, rfl⟩
    · exact ⟨i, le_refl _, by omega, rfl⟩
    · obtain ⟨k, h1, h2, h3⟩ := ih (i + 1) (fun k a b => hname k (by omega) (by omega)) ha
      exact ⟨k, by omega, by omega, h3⟩

theorem crash_loop (name : Nat → Str) (todo i : Nat)
    (hname : ∀ k, i ≤ k → k < i + todo → chipPath d base fnames fmt k = .ok (name k))
    (hinj : ∀ j k, i ≤ j → j < i + todo → i ≤ k → k < i + todo → name j = name k → j = k)
    (disk : Disk (A3 α)) (l : List (Act (A3 α))) (hl : l <+: exportActs chips nb resize ra d base fnames fmt todo i) :
    ∃ k, i ≤ k ∧ k ≤ i + todo ∧
      (∀ j, i ≤ j → j < k → runActs disk l (name j) = some (.whole (chipForDisk chips nb resize ra j))) ∧
      (k < i + todo → runActs disk l (name k) = disk (name k) ∨ runActs disk l (name k) = some .torn) ∧
      (∀ j, k < j → j < i + todo → runActs disk l (name j) = disk (name j)) ∧
      (∀ q, (∀ j, i ≤ j → j < i + todo → q ≠ name j) → runActs disk l q = disk q) ∧
      (l = exportActs chips nb resize ra d base fnames fmt todo i → k = i + todo) := by
  induction todo generalizing i disk l with
  | zero =>
    rw [exportActs, List.prefix_nil] at hl
    subst hl
    exact ⟨i, le_refl _, by omega, by intro j a b; omega, by intro a; omega, by intro j a b; omega, fun q _ => rfl, fun _ => by omega⟩
  | succ t ih =>
    rw [exportActs, hname i (le_refl _) (by omega)] at hl ⊢
    simp only [] at hl ⊢
    have hne : ∀ j, i < j → j < i + (t + 1) → name j ≠ name i := fun j h1 h2 he => by
      have := hinj j i (by omega) h2 (le_refl _) (by omega) he; omega
    match l, hl with
    | [], _ =>
      exact ⟨i, le_refl _, by omega, by intro j a b; omega, fun _ => .inl rfl, fun j _ _ => rfl, fun q _ => rfl, by intro h; cases h⟩
    | [a], hl =>
      rw [List.cons_prefix_cons] at hl
      obtain ⟨rfl, -⟩ := hl
      refine ⟨i, le_refl _, by omega, by intro j a b; omega, fun _ => .inr (by simp [runActs, Act.run]), fun j h1 h2 => ?_, fun q hq => ?_, ?_⟩
      · simp [runActs, Act.run, hne j h1 h2]
      · simp [runActs, Act.run, hq i (le_refl _) (by omega)]
      · intro h; simp at h
    | a :: b :: l, hl =>
      rw [List.cons_prefix_cons, List.cons_prefix_cons] at hl
      obtain ⟨rfl, rfl, hl⟩ := hl
      obtain ⟨k, h1, h2, h3, h4, h5, h6, h7⟩ := ih (i + 1) (fun k a b => hname k (by omega) (by omega))
        (fun j k a b c d => hinj j k (by omega) (by omega) (by omega) (by omega))
        ((Act.finish (name i) (chipForDisk chips nb resize ra i)).run ((Act.start (name i)).run disk)) l hl
      have hrun : ∀ q, runActs disk (.start (name i) :: .finish (name i) (chipForDisk chips nb resize ra i) :: l) q =
        runActs ((Act.finish (name i) (chipForDisk chips nb resize ra i)).run ((Act.start (name i)).run disk)) l q := fun _ => rfl
      have hd : ∀ q, q ≠ name i →
          ((Act.finish (name i) (chipForDisk chips nb resize ra i)).run ((Act.start (name i)).run disk)) q = disk q := by
        intro q hq; simp [Act.run, hq]
      refine ⟨k, by omega, by omega, fun j a b => ?_, fun hk => ?_, fun j a b => ?_, fun q hq => ?_, fun he => ?_⟩
      · rw [hrun]
        by_cases hj : j = i
        · subst hj
          rw [h6 (name j) (fun m a b => (hne m (by omega) (by omega)).symm)]
          simp [Act.run]
        · exact h3 j (by omega) b
      · rw [hrun]
        have := h4 (by omega)
        rw [hd _ (hne k (by omega) (by omega))] at this
        exact this
      · rw [hrun, h5 j a (by omega), hd _ (hne j (by omega) b)]
      · rw [hrun, h6 q (fun j a b => hq j (by omega) (by omega)), hd _ (hq i (le_refl _) (by omega))]
      · have := h7 (by simpa using he); omega

end

/-! ### Names -/

/-- The file of chip `k`: `<dir>/<base>_<k, eight digits>.<ext>`. -/
def chipFile (d base ext : Str) (k : Nat) : Str := d ++ ['/'] ++ base ++ ['_'] ++ zfill 8 (natStr k) ++ ['.'] ++ ext

/-- An export with generated names: which directory, base name and format it was asked for; the base name is that of the directory when none was
given, and the format may be written with a leading dot. -/
def Export.Target {α : Type} (e : Export α) (base ext : Str) : Prop :=
  e.fnames = none ∧ (e.base = some base ∨ e.base = none ∧ base = basename e.outputDir) ∧ (e.fmt = ext ∨ e.fmt = '.' :: ext) ∧
  e.outputDir ≠ [] ∧ e.outputDir.getLast? ≠ some '/' ∧ '/' ∉ base ∧ '.' ∉ ext

theorem last_split {c : Char} {a a' s s' : Str} (hs : c ∉ s) (hs' : c ∉ s') (h : a ++ [c] ++ s = a' ++ [c] ++ s') : a = a' ∧ s = s' := by
  induction s using List.reverseRecOn generalizing s' with
  | nil =>
    cases s' using List.reverseRecOn with
    | nil =>
      simp only [List.append_nil] at h
      exact ⟨List.append_cancel_right h, rfl⟩
    | append_singleton t x =>
      exfalso
      rw [List.append_nil, ← List.append_assoc] at h
      have := (List.append_inj' h rfl).2
      simp only [List.cons.injEq, and_true] at this
      exact hs' (by simp [this])
  | append_singleton t x ih =>
    cases s' using List.reverseRecOn with
    | nil =>
      exfalso
      rw [List.append_nil, ← List.append_assoc] at h
      have := (List.append_inj' h rfl).2
      simp only [List.cons.injEq, and_true] at this
      exact hs (by simp [this])
    | append_singleton t' x' =>
      rw [← List.append_assoc, ← List.append_assoc] at h
      obtain ⟨h1, h2⟩ := List.append_inj' h rfl
      simp only [List.mem_append, not_or] at hs hs'
      obtain ⟨h3, h4⟩ := ih hs.1 hs'.1 h1
      exact ⟨h3, by rw [h4, h2]⟩

theorem digitChar_ne (d : Nat) (h : d < 10) (c : Char) (hc : c = '_' ∨ c = '.' ∨ c = '/') : digitChar d ≠ c := by
  have key : ∀ d : Fin 10, digitChar d ≠ '_' ∧ digitChar d ≠ '.' ∧ digitChar d ≠ '/' := by decide
  obtain ⟨h1, h2, h3⟩ := key ⟨d, h⟩
  rcases hc with rfl | rfl | rfl
  · exact h1
  · exact h2
  · exact h3

theorem mem_natStr (n : Nat) (c : Char) (hc : c = '_' ∨ c = '.' ∨ c = '/') : c ∉ natStr n := by
  induction n using Nat.strongRecOn with
  | ind n ih =>
    rw [natStr]
    split
    · rename_i h
      simp only [List.mem_singleton]
      exact fun e => digitChar_ne n h c hc e.symm
    · simp only [List.mem_append, List.mem_singleton, not_or]
      exact ⟨ih (n / 10) (by omega), fun e => digitChar_ne (n % 10) (by omega) c hc e.symm⟩

theorem mem_zfill (n : Nat) (c : Char) (hc : c = '_' ∨ c = '.' ∨ c = '/') : c ∉ zfill 8 (natStr n) := by
  unfold zfill
  simp only [List.mem_append, List.mem_replicate, not_or, not_and]
  refine ⟨fun _ => ?_, mem_natStr n c hc⟩
  rcases hc with rfl | rfl | rfl <;> decide

/-- A chip file tells its directory, base name, number and format. -/
theorem chipFile_inj {d base ext d' base' ext' : Str} {k k' : Nat} (hb : '/' ∉ base) (hb' : '/' ∉ base') (he : '.' ∉ ext) (he' : '.' ∉ ext')
    (h : chipFile d base ext k = chipFile d' base' ext' k') : d = d' ∧ base = base' ∧ ext = ext' ∧ k = k' := by
  unfold chipFile at h
  obtain ⟨h1, h2⟩ := last_split he he' h
  obtain ⟨h3, h4⟩ := last_split (mem_zfill k _ (.inl rfl)) (mem_zfill k' _ (.inl rfl)) h1
  obtain ⟨h5, h6⟩ := last_split hb hb' h3
  exact ⟨h5, h6, h2, zfill_natStr_inj h4⟩

theorem removeDot (ext fmt : Str) (he : '.' ∉ ext) (h : fmt = ext ∨ fmt = '.' :: ext) : removeChar '.' fmt = ext := by
  have : ext.filter (fun c => decide (c ≠ '.')) = ext := by
    rw [List.filter_eq_self]
    intro c hc
    simp only [decide_eq_true_eq]
    rintro rfl; exact he hc
  unfold removeChar
  rcases h with rfl | rfl
  · exact this
  · rw [List.filter_cons_of_neg (by simp)]; exact this

/-- The base name used (image_chipper.py:145-146). -/
theorem Export.target_acts {α : Type} (e : Export α) (base ext : Str) (ht : e.Target base ext) (nb : Nat) (hnb : e.chips.nb = some nb) :
    e.acts = exportActs e.chips nb e.resize e.removeAlpha e.outputDir base none e.fmt e.chips.n 0 ∧
    ∀ k, chipPath e.outputDir base none e.fmt k = .ok (chipFile e.outputDir base ext k) := by
  obtain ⟨h1, h2, h3, h4, h5, h6, h7⟩ := ht
  refine ⟨?_, fun k => ?_⟩
  · unfold Export.acts
    rw [hnb, h1]
    rcases h2 with h2 | ⟨h2, rfl⟩ <;> rw [h2]
  · unfold chipPath
    simp only [ok_bind, removeDot ext e.fmt h7 h3]
    unfold pathJoin chipFile
    rw [if_neg, if_neg]
    · simp
    · rintro (h | h)
      · exact h4 h
      · exact h5 h
    · cases base with
      | nil => simp
      | cons c l =>
        simp only [List.cons_append, List.head?_cons, Option.some.injEq]
        rintro rfl; exact h6 (by simp)

/-! ### C138 -/

/-- C138: stopped at any moment, `write_chips_to_disk` has written the first chips completely, at most one more chip is opened and incomplete, and
every other file is as it was. -/
theorem C138_crash {α : Type} (e : Export α) (base ext : Str) (ht : e.Target base ext) (nb : Nat) (hnb : e.chips.nb = some nb)
    (disk : Disk (A3 α)) (done : List (Act (A3 α))) (hdone : done <+: e.acts) :
    ∃ k, k ≤ e.chips.n ∧
      (∀ j, j < k → runActs disk done (chipFile e.outputDir base ext j) = some (.whole (chipForDisk e.chips nb e.resize e.removeAlpha j))) ∧
      (runActs disk done (chipFile e.outputDir base ext k) = disk (chipFile e.outputDir base ext k) ∨
        runActs disk done (chipFile e.outputDir base ext k) = some .torn) ∧
      (∀ j, k < j → runActs disk done (chipFile e.outputDir base ext j) = disk (chipFile e.outputDir base ext j)) ∧
      (∀ q, (∀ j, j < e.chips.n → q ≠ chipFile e.outputDir base ext j) → runActs disk done q = disk q) := by
  obtain ⟨h1, h2⟩ := e.target_acts base ext ht nb hnb
  obtain ⟨-, -, -, -, -, h6, h7⟩ := ht
  have hinj : ∀ j k, chipFile e.outputDir base ext j = chipFile e.outputDir base ext k → j = k :=
    fun j k h => (chipFile_inj h6 h6 h7 h7 h).2.2.2
  obtain ⟨k, a1, a2, a3, a4, a5, a6, -⟩ := crash_loop e.chips nb e.resize e.removeAlpha e.outputDir base e.fmt none
    (chipFile e.outputDir base ext) e.chips.n 0 (fun k _ _ => h2 k) (fun j k _ _ _ _ h => hinj j k h) disk done (h1 ▸ hdone)
  have hout : ∀ q, (∀ j, j < e.chips.n → q ≠ chipFile e.outputDir base ext j) → runActs disk done q = disk q :=
    fun q hq => a6 q (fun j _ hj => hq j (by omega))
  refine ⟨k, by omega, fun j hj => a3 j (by omega) hj, ?_, fun j hj => ?_, hout⟩
  · rcases Nat.lt_or_ge k e.chips.n with h | h
    · exact a4 (by omega)
    · exact .inl (hout _ (fun j hj he => by have := hinj _ _ he; omega))
  · rcases Nat.lt_or_ge j e.chips.n with h | h
    · exact a5 j hj (by omega)
    · exact hout _ (fun m hm he => by have := hinj _ _ he; omega)

/-- C138: repeating the interrupted call gives the disk the uninterrupted call would have given (with generated or given names). -/
theorem C138_repeat {α : Type} (e : Export α) (disk : Disk (A3 α)) (done : List (Act (A3 α))) (hdone : done <+: e.acts) :
    runActs (runActs disk done) e.acts = runActs disk e.acts := runActs_again done e.acts hdone disk

theorem acts_writeLoop {α : Type} (chips : Chips α) (nb : Nat) (resize : A3 α → A3 α) (ra : Bool) (d base fmt : Str) (fnames : Option (List Str))
    (todo i : Nat) (fs fs' : Str → Option (A3 α)) (disk : Disk (A3 α)) (hd : ∀ q, disk q = (fs q).map .whole)
    (h : writeLoop chips nb resize ra d base fnames fmt todo i fs = .ok fs') (q : Str) :
    runActs disk (exportActs chips nb resize ra d base fnames fmt todo i) q = (fs' q).map .whole := by
  induction todo generalizing i fs disk with
  | zero => rw [writeLoop] at h; cases h; exact hd q
  | succ t ih =>
    rw [writeLoop] at h
    obtain ⟨p, hp, h⟩ := bind_ok h
    rw [exportActs, hp]
    refine ih (i + 1) _ _ ?_ h
    intro q
    simp only [Act.run]
    split <;> simp [hd, *]

/-- C138: a call that ends without exception leaves every file complete, and what it leaves is what `write_chips_to_disk` returns for the files
before. -/
theorem C138_complete {α : Type} (e : Export α) (fs fs' : Str → Option (A3 α))
    (h : writeChips e.chips e.resize e.removeAlpha e.outputDir e.base e.fnames e.fmt fs = .ok fs') :
    runActs (fun q => (fs q).map .whole) e.acts = fun q => (fs' q).map .whole := by
  funext q
  unfold writeChips at h
  unfold Export.acts
  cases hb : e.chips.nb with
  | none =>
    simp only [hb] at h
    split at h
    · cases h; rfl
    · cases h
  | some nb =>
    simp only [hb] at h
    exact acts_writeLoop _ _ _ _ _ _ _ _ _ _ _ _ _ (fun _ => rfl) h q

/-- Two chips of two bands, written to `out` as png. -/
def sample (base : String) : Export Nat := ⟨⟨2, 1, 1, some 2, fun k _ _ b => 10 * k + b⟩, id, true, "out".toList, some base.toList, none, ".png".toList⟩

theorem sample_target (base : String) (h : '/' ∉ base.toList) : (sample base).Target base.toList "png".toList :=
  ⟨rfl, .inl rfl, .inr rfl, by show "out".toList ≠ []; decide, by show "out".toList.getLast? ≠ some '/'; decide, h, by decide⟩

/-- The hypotheses are met by an export stopped inside its second chip: the first is complete, the second is not. -/
example : ∃ done, done <+: (sample "chip").acts ∧
    runActs (fun _ => none) done (chipFile "out".toList "chip".toList "png".toList 1) = some .torn ∧
    runActs (fun _ => none) done (chipFile "out".toList "chip".toList "png".toList 0) =
      some (.whole (chipForDisk (sample "chip").chips 2 id true 0)) := by
  obtain ⟨h1, h2⟩ := (sample "chip").target_acts _ _ (sample_target "chip" (by decide)) 2 rfl
  have hne : chipFile "out".toList "chip".toList "png".toList 0 ≠ chipFile "out".toList "chip".toList "png".toList 1 := fun h => by
    have := (chipFile_inj (by decide) (by decide) (by decide) (by decide) h).2.2.2
    omega
  refine ⟨((sample "chip").acts).take 3, List.take_prefix _ _, ?_, ?_⟩ <;> rw [h1] <;>
    show runActs _ (List.take 3 (exportActs _ _ _ _ _ _ _ _ 2 0)) _ = _ <;>
    rw [exportActs, h2, exportActs, h2]
  · simp [runActs, Act.run, sample]
  · simp only [runActs, Act.run, List.take, List.foldl, sample, if_neg hne, if_true]

/-! ### Several exports -/

theorem parallel {α : Type} (jobs : List (List (Act α)))
    (hdis : ∀ (i j : Nat) (l l' : List (Act α)), i ≠ j → jobs[i]? = some l → jobs[j]? = some l' → ∀ a ∈ l, ∀ b ∈ l', a.path ≠ b.path)
    (disk : Disk α) (schedule : List Nat) :
    ∃ m : Nat → Nat, (∀ (i : Nat) (l : List (Act α)), jobs[i]? = some l →
        (Work.run ⟨jobs, disk⟩ schedule).todo[i]? = some (l.drop (m i)) ∧
        ∀ p, (∃ a ∈ l, a.path = p) → (Work.run ⟨jobs, disk⟩ schedule).disk p = runActs disk (l.take (m i)) p) ∧
      (Work.run ⟨jobs, disk⟩ schedule).todo.length = jobs.length ∧
      (∀ p, (∀ (i : Nat) (l : List (Act α)), jobs[i]? = some l → ∀ a ∈ l, a.path ≠ p) → (Work.run ⟨jobs, disk⟩ schedule).disk p = disk p) := by
  induction schedule using List.reverseRecOn with
  | nil =>
    refine ⟨fun _ => 0, fun i l h => ⟨by simpa [Work.run] using h, fun p _ => rfl⟩, rfl, fun p _ => rfl⟩
  | append_singleton s x ih =>
    obtain ⟨m, h1, h2, h3⟩ := ih
    have hr : Work.run ⟨jobs, disk⟩ (s ++ [x]) = (Work.run ⟨jobs, disk⟩ s).step x := by
      unfold Work.run; rw [List.foldl_append]; rfl
    rw [hr]
    generalize hw : Work.run ⟨jobs, disk⟩ s = w at h1 h2 h3
    unfold Work.step
    cases hx : jobs[x]? with
    | none =>
      have : w.todo[x]? = none := by
        rw [List.getElem?_eq_none_iff] at hx ⊢; omega
      rw [this]
      exact ⟨m, h1, h2, h3⟩
    | some lx =>
      have hxt := (h1 x lx hx).1
      rw [hxt]
      have hlen : m x < lx.length ∨ lx.length ≤ m x := Nat.lt_or_ge _ _
      rcases hlen with hlt | hge
      · rw [List.drop_eq_getElem_cons hlt]
        simp only []
        have hmem : lx[m x] ∈ lx := List.getElem_mem hlt
        refine ⟨fun i => if i = x then m i + 1 else m i, fun i l hi => ⟨?_, fun p hp => ?_⟩, ?_, fun p hp => ?_⟩
        · by_cases hix : i = x
          · subst hix
            rw [hx] at hi; cases hi
            have : i < w.todo.length := by
              rw [h2]; exact (List.getElem?_eq_some_iff.mp hx).1
            rw [List.getElem?_set_self this]; simp only [if_true]
          · rw [List.getElem?_set_ne (Ne.symm hix)]; simp only [if_neg hix]
            exact (h1 i l hi).1
        · by_cases hix : i = x
          · subst hix
            rw [hx] at hi; cases hi
            simp only [if_pos]
            rw [List.take_succ_eq_append_getElem hlt, runActs_append]
            show Act.run _ _ p = Act.run _ _ p
            by_cases hpp : lx[m i].path = p
            · subst hpp; exact run_same _ _ _
            · rw [run_other _ _ _ hpp, run_other _ _ _ hpp, (h1 i lx hx).2 p hp]
          · simp only [if_neg hix]
            rw [run_other, (h1 i l hi).2 p hp]
            obtain ⟨a, ha, rfl⟩ := hp
            exact hdis x i lx l (Ne.symm hix) hx hi _ hmem a ha
        · rw [List.length_set, h2]
        · rw [run_other _ _ _ (hp x lx hx _ hmem)]
          exact h3 p hp
      · rw [List.drop_eq_nil_of_le hge]
        exact ⟨m, h1, h2, h3⟩

/-- C139: several calls of `write_chips_to_disk` at the same time, no two with the same directory, base name and format.  At any moment of any
schedule the files of each call are what a call running alone and stopped somewhere would have left; a call that has come to its end has written all
its chips; no other file has changed. -/
theorem C139_parallel {α : Type} (es : List (Export α)) (base ext : Nat → Str)
    (ht : ∀ (i : Nat) (e : Export α), es[i]? = some e → e.Target (base i) (ext i))
    (hdiff : ∀ (i j : Nat) (e e' : Export α), es[i]? = some e → es[j]? = some e' → i ≠ j → ¬(e.outputDir = e'.outputDir ∧ base i = base j ∧ ext i = ext j))
    (disk : Disk (A3 α)) (schedule : List Nat) :
    (∀ (i : Nat) (e : Export α) (nb : Nat), es[i]? = some e → e.chips.nb = some nb →
      (∃ done, done <+: e.acts ∧ ∀ k, (Work.run ⟨es.map Export.acts, disk⟩ schedule).disk (chipFile e.outputDir (base i) (ext i) k) =
        runActs disk done (chipFile e.outputDir (base i) (ext i) k)) ∧
      ((Work.run ⟨es.map Export.acts, disk⟩ schedule).todo[i]? = some [] → ∀ k, k < e.chips.n →
        (Work.run ⟨es.map Export.acts, disk⟩ schedule).disk (chipFile e.outputDir (base i) (ext i) k) =
          some (.whole (chipForDisk e.chips nb e.resize e.removeAlpha k)))) ∧
    (∀ q, (∀ (i : Nat) (e : Export α) (k : Nat), es[i]? = some e → k < e.chips.n → q ≠ chipFile e.outputDir (base i) (ext i) k) →
      (Work.run ⟨es.map Export.acts, disk⟩ schedule).disk q = disk q) := by
  have hacts : ∀ (i : Nat) (e : Export α), es[i]? = some e → ∀ a ∈ e.acts, ∃ k, k < e.chips.n ∧ a.path = chipFile e.outputDir (base i) (ext i) k := by
    intro i e he a ha
    cases hnb : e.chips.nb with
    | none => unfold Export.acts at ha; rw [hnb] at ha; cases ha
    | some nb =>
      obtain ⟨h1, h2⟩ := e.target_acts _ _ (ht i e he) nb hnb
      rw [h1] at ha
      obtain ⟨k, -, hk, hp⟩ := acts_paths e.chips nb e.resize e.removeAlpha e.outputDir (base i) e.fmt none _ e.chips.n 0 (fun k _ _ => h2 k) a ha
      exact ⟨k, by omega, hp⟩
  have hinj : ∀ (i j : Nat) (e e' : Export α) (k k' : Nat), es[i]? = some e → es[j]? = some e' →
      chipFile e.outputDir (base i) (ext i) k = chipFile e'.outputDir (base j) (ext j) k' → i = j ∧ k = k' := by
    intro i j e e' k k' hi hj h
    obtain ⟨-, -, -, -, -, a1, a2⟩ := ht i e hi
    obtain ⟨-, -, -, -, -, b1, b2⟩ := ht j e' hj
    obtain ⟨c1, c2, c3, c4⟩ := chipFile_inj a1 b1 a2 b2 h
    refine ⟨?_, c4⟩
    by_contra hne
    exact hdiff i j e e' hi hj hne ⟨c1, c2, c3⟩
  have hget : ∀ (i : Nat) (l : List (Act (A3 α))), (es.map Export.acts)[i]? = some l → ∃ e, es[i]? = some e ∧ e.acts = l := by
    intro i l h
    rw [List.getElem?_map, Option.map_eq_some_iff] at h
    exact h
  obtain ⟨m, h1, -, h3⟩ := parallel (es.map Export.acts) (by
    intro i j l l' hij hi hj a ha b hb hab
    obtain ⟨e, he, rfl⟩ := hget i l hi
    obtain ⟨e', he', rfl⟩ := hget j l' hj
    obtain ⟨k, -, hk⟩ := hacts i e he a ha
    obtain ⟨k', -, hk'⟩ := hacts j e' he' b hb
    exact hij (hinj i j e e' k k' he he' (by rw [← hk, ← hk', hab])).1) disk schedule
  generalize Work.run ⟨es.map Export.acts, disk⟩ schedule = w at h1 h3
  have hlone : ∀ (i : Nat) (e : Export α), es[i]? = some e → ∀ k, w.disk (chipFile e.outputDir (base i) (ext i) k) =
      runActs disk (e.acts.take (m i)) (chipFile e.outputDir (base i) (ext i) k) := by
    intro i e he k
    by_cases hw : ∃ a ∈ e.acts, a.path = chipFile e.outputDir (base i) (ext i) k
    · exact (h1 i e.acts (by rw [List.getElem?_map, he]; rfl)).2 _ hw
    · push Not at hw
      rw [runActs_other _ _ _ (fun a ha => hw a (List.mem_of_mem_take ha)), h3]
      intro j l hj a ha hp
      obtain ⟨e', he', rfl⟩ := hget j l hj
      obtain ⟨k', -, hk'⟩ := hacts j e' he' a ha
      obtain ⟨rfl, -⟩ := hinj j i e' e k' k he' he (by rw [← hk', hp])
      rw [he'] at he; cases he
      exact hw a ha hp
  refine ⟨fun i e nb he hnb => ⟨⟨e.acts.take (m i), List.take_prefix _ _, hlone i e he⟩, fun hfin k hk => ?_⟩, fun q hq => ?_⟩
  · rw [hlone i e he k]
    have hd := (h1 i e.acts (by rw [List.getElem?_map, he]; rfl)).1
    rw [hfin, Option.some.injEq, eq_comm, List.drop_eq_nil_iff] at hd
    rw [List.take_of_length_le hd]
    obtain ⟨g1, g2⟩ := e.target_acts _ _ (ht i e he) nb hnb
    obtain ⟨-, -, -, -, -, h6, h7⟩ := ht i e he
    obtain ⟨k', b1, b2, b3, b4, b5, b6, b7⟩ := crash_loop e.chips nb e.resize e.removeAlpha e.outputDir (base i) e.fmt none
      (chipFile e.outputDir (base i) (ext i)) e.chips.n 0 (fun k _ _ => g2 k) (fun j k _ _ _ _ h => (chipFile_inj h6 h6 h7 h7 h).2.2.2)
      disk e.acts (g1 ▸ List.prefix_refl _)
    have := b7 g1
    exact b3 k (by omega) (by omega)
  · apply h3
    intro j l hj a ha hp
    obtain ⟨e', he', rfl⟩ := hget j l hj
    obtain ⟨k', hk, hk'⟩ := hacts j e' he' a ha
    exact hq j e' k' he' hk (by rw [← hp, hk'])

/-- The hypotheses are met by two exports into one directory under the base names `a` and `a_00000000`. -/
example : ∀ schedule : List Nat, (Work.run ⟨[sample "a", sample "a_00000000"].map Export.acts, fun _ => none⟩ schedule).todo[0]? = some [] →
    (Work.run ⟨[sample "a", sample "a_00000000"].map Export.acts, fun _ => none⟩ schedule).disk (chipFile "out".toList "a".toList "png".toList 1) =
      some (.whole (chipForDisk (sample "a").chips 2 id true 1)) := by
  intro schedule h
  have ht : ∀ (i : Nat) (e : Export Nat), [sample "a", sample "a_00000000"][i]? = some e →
      e.Target ((fun i => if i = 0 then "a".toList else "a_00000000".toList) i) ((fun _ => "png".toList) i) := by
    intro i e hi
    match i, hi with
    | 0, hi => simp at hi; subst hi; exact sample_target "a" (by decide)
    | 1, hi => simp at hi; subst hi; exact sample_target "a_00000000" (by decide)
  exact ((C139_parallel _ _ _ ht (by
    intro i j e e' hi hj hij ⟨_, hb, _⟩
    match i, j, hi, hj with
    | 0, 0, _, _ => exact hij rfl
    | 0, 1, _, _ => revert hb; decide
    | 1, 0, _, _ => revert hb; decide
    | 1, 1, _, _ => exact hij rfl) (fun _ => none) schedule).1 0 _ 2 rfl rfl).2 h 1 (by decide)

end Verif.Jobs
