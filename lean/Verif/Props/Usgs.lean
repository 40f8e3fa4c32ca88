import Verif.Props.SpectrumFiles
import Verif.Props.TextUtils

/-! C101: the wavelength and resolution files of a USGS spectrum.  C102: folders and paths. -/

set_option linter.unusedSectionVars false

namespace Verif.Readers
open Verif Envi TextUtils

theorem findStr_infix (sub s : Str) : findStr sub s ≠ -1 ↔ sub <:+: s := by
  induction s with
  | nil =>
    unfold findStr
    split
    · rename_i h; subst h; simp
    · rename_i h; simp [h]
  | cons c s ih =>
    unfold findStr
    rw [List.infix_cons_iff, ← List.isPrefixOf_iff_prefix, ← ih]
    split
    · rename_i h; simp [h]
    · rename_i h
      have := findStr_ge sub s
      by_cases h2 : findStr sub s = -1
      · simp [h, h2]
      · rw [if_neg h2]
        constructor
        · intro _; exact Or.inr h2
        · intro _; omega

theorem contains_iff (sub s : Str) : contains sub s = true ↔ sub <:+: s := by
  unfold contains
  rw [decide_eq_true_iff, findStr_infix]

/-- Specification: the name, in lower case, contains one of the two texts. -/
def Named (a b : String) (n : Str) : Prop := a.toList <:+: lower n ∨ b.toList <:+: lower n

section
variable {K : Type}

theorem findTxt_unique (dir : List (Str × Str)) (a b : String) (e : Str × Str) (he : e ∈ dir) (hn : Named a b e.1)
    (hu : ∀ e' ∈ dir, Named a b e'.1 → e' = e) : openTxt dir (findTxt (dir.map Prod.fst) a.toList b.toList) = .ok e.2 := by
  have hp : ∀ n, (contains a.toList (lower n) || contains b.toList (lower n)) = true ↔ Named a b n := by
    intro n
    rw [Bool.or_eq_true, contains_iff, contains_iff]
    rfl
  have hf : findTxt (dir.map Prod.fst) a.toList b.toList = some e.1 := by
    unfold findTxt
    cases hq : (dir.map Prod.fst).find? (fun n => contains a.toList (lower n) || contains b.toList (lower n)) with
    | none =>
      rw [List.find?_eq_none] at hq
      exact absurd ((hp e.1).2 hn) (hq e.1 (List.mem_map.2 ⟨e, he, rfl⟩))
    | some n =>
      have h1 := List.mem_of_find?_eq_some hq
      have h2 := (hp n).1 (List.find?_some (p := fun n => contains a.toList (lower n) || contains b.toList (lower n)) hq)
      obtain ⟨e', he', rfl⟩ := List.mem_map.1 h1
      rw [hu e' he' h2]
  rw [hf]
  show (match dir.find? (fun e' => e'.1 = e.1) with
    | some e => Except.ok e.2
    | none => Except.error Err.fileNotFound) = Except.ok e.2
  cases hq : dir.find? (fun e' => e'.1 = e.1) with
  | none =>
    rw [List.find?_eq_none] at hq
    exact absurd (by simp) (hq e he)
  | some e' =>
    have h1 := List.mem_of_find?_eq_some hq
    have h2 : e'.1 = e.1 := by simpa using List.find?_some hq
    have : e' = e := hu e' h1 (by rw [h2]; exact hn)
    subst this
    rfl

/-- C101: when exactly one text file of the library's folder has a name with "wavelength" or "waves" in it, and exactly one a name with
"resolution" or "bandpass" (in any case), the spectrum is read with these two files. -/
theorem C101_files_partial (pf : Str → Option K) (dir : List (Str × Str)) (file : Str) (w f : Str × Str) (hw : w ∈ dir) (hf : f ∈ dir)
    (hwn : Named "wavelength" "waves" w.1) (hfn : Named "resolution" "bandpass" f.1)
    (hwu : ∀ e ∈ dir, Named "wavelength" "waves" e.1 → e = w) (hfu : ∀ e ∈ dir, Named "resolution" "bandpass" e.1 → e = f) :
    usgsFromDir pf dir file = usgs pf w.2 f.2 file := by
  unfold usgsFromDir usgs
  rw [findTxt_unique dir _ _ w hw hwn hwu, findTxt_unique dir _ _ f hf hfn hfu]
  rfl

/-- C101: without a wavelength file, or with one that can be read but without a resolution file, the call is a TypeError. -/
theorem C101_missing (pf : Str → Option K) (dir : List (Str × Str)) (file : Str) :
    ((∀ e ∈ dir, ¬ Named "wavelength" "waves" e.1) → usgsFromDir pf dir file = .error .typeError) ∧
    (∀ w ∈ dir, Named "wavelength" "waves" w.1 → (∀ e ∈ dir, Named "wavelength" "waves" e.1 → e = w) → (∃ l, usgsColumn pf w.2 = .ok l) →
      (∀ e ∈ dir, ¬ Named "resolution" "bandpass" e.1) → usgsFromDir pf dir file = .error .typeError) := by
  have hp : ∀ (a b : String) n, (contains a.toList (lower n) || contains b.toList (lower n)) = true ↔ Named a b n := by
    intro a b n
    rw [Bool.or_eq_true, contains_iff, contains_iff]
    rfl
  have none' : ∀ a b : String, (∀ e ∈ dir, ¬ Named a b e.1) → findTxt (dir.map Prod.fst) a.toList b.toList = none := by
    intro a b h
    unfold findTxt
    rw [List.find?_eq_none]
    intro n hn
    obtain ⟨e, he, rfl⟩ := List.mem_map.1 hn
    rw [hp]
    exact h e he
  constructor
  · intro h
    unfold usgsFromDir
    rw [none' _ _ h]
    rfl
  · rintro w hw hwn hwu ⟨l, hl⟩ h
    unfold usgsFromDir
    rw [findTxt_unique dir _ _ w hw hwn hwu, none' _ _ h]
    simp only [ok_bind, hl]
    rfl

/-- FALSE: "the files used are determined by the folder's content": with two candidates the one listed first is used, and the order in
which `glob` lists a folder is arbitrary. -/
theorem C101_order_false : ∃ (dir dir' : List (Str × Str)) (pf : Str → Option Nat) (r r' : List Nat × List Nat × List Nat),
    dir.Perm dir' ∧ usgsFromDir pf dir "h\n1\n".toList = .ok r ∧ usgsFromDir pf dir' "h\n1\n".toList = .ok r' ∧ r ≠ r' := by
  refine ⟨[("ASD_Wavelengths.txt".toList, "h\n1\n".toList), ("BECK_Wavelengths.txt".toList, "h\n2\n".toList), ("x_Bandpass.txt".toList, "h\n3\n".toList)],
    [("BECK_Wavelengths.txt".toList, "h\n2\n".toList), ("ASD_Wavelengths.txt".toList, "h\n1\n".toList), ("x_Bandpass.txt".toList, "h\n3\n".toList)],
    fun s => if s = "1".toList then some 1 else if s = "2".toList then some 2 else some 3,
    ([1], [3], [1]), ([2], [3], [1]), List.Perm.swap _ _ _, by decide +kernel, by decide +kernel, by decide⟩

/-- A library's folder meets the hypotheses of `C101_files_partial`. -/
example : ∃ (dir : List (Str × Str)) (w f : Str × Str), w ∈ dir ∧ f ∈ dir ∧ Named "wavelength" "waves" w.1 ∧ Named "resolution" "bandpass" f.1 ∧
    (∀ e ∈ dir, Named "wavelength" "waves" e.1 → e = w) ∧ ∀ e ∈ dir, Named "resolution" "bandpass" e.1 → e = f := by
  refine ⟨[("readme.txt".toList, []), ("ASD_Wavelengths.txt".toList, "h".toList), ("ASD_Bandpass.txt".toList, "h".toList)],
    ("ASD_Wavelengths.txt".toList, "h".toList), ("ASD_Bandpass.txt".toList, "h".toList), by simp, by simp, ?_, ?_, ?_, ?_⟩
  · unfold Named; decide +kernel
  · unfold Named; decide +kernel
  · unfold Named; decide +kernel
  · unfold Named; decide +kernel

end

end Verif.Readers

namespace Verif.TextUtils
open Verif

/-- C102: exactly the sub-folders are listed, in the order of the directory. -/
theorem C102_folders (dir : List Entry) (n : Str) : (n ∈ allFolders dir ↔ ∃ e ∈ dir, e.isDir = true ∧ e.name = n) ∧
    List.Sublist (allFolders dir) (dir.map Entry.name) := by
  unfold allFolders
  refine ⟨by simp [and_assoc], ?_⟩
  exact List.Sublist.map _ List.filter_sublist

theorem foldl_join (base : Str) (subdirs : List Str) (hb : base ≠ []) (hb2 : base.getLast? ≠ some '/')
    (hs : ∀ s ∈ subdirs, s ≠ [] ∧ s.head? ≠ some '/' ∧ s.getLast? ≠ some '/') :
    subdirs.foldl pathJoin base = List.intercalate ['/'] (base :: subdirs) := by
  induction subdirs generalizing base with
  | nil => simp [List.intercalate]
  | cons s ss ih =>
    obtain ⟨h1, h2, h3⟩ := hs s (by simp)
    have e : pathJoin base s = base ++ '/' :: s := by
      unfold pathJoin
      rw [if_neg h2, if_neg (by simp [hb, hb2])]
      simp
    rw [List.foldl_cons, e, ih (base ++ '/' :: s) (by simp) ?_ (fun t ht => hs t (by simp [ht]))]
    · cases ss with
      | nil => simp [List.intercalate]
      | cons t ts => simp [List.intercalate]
    · cases s with
      | nil => exact absurd rfl h1
      | cons c s =>
        rw [List.getLast?_append, List.getLast?_cons]
        simp only [Option.some_or]
        intro h
        apply h3
        rw [← h, List.getLast?_cons]
        simp

/-- C102: the parts of a path are joined with single slashes; an absolute part discards everything before it. -/
theorem C102_path (base : Str) (subdirs : List Str) (hb : base ≠ []) (hb2 : base.getLast? ≠ some '/')
    (hs : ∀ s ∈ subdirs, s ≠ [] ∧ s.head? ≠ some '/' ∧ s.getLast? ≠ some '/') :
    pathFromSubdirs base subdirs = List.intercalate ['/'] (base :: subdirs) ∧
    ∀ (pre : List Str) (absolute : Str), absolute.head? = some '/' → absolute.getLast? ≠ some '/' →
      pathFromSubdirs base (pre ++ absolute :: subdirs) = List.intercalate ['/'] (absolute :: subdirs) := by
  refine ⟨foldl_join base subdirs hb hb2 hs, ?_⟩
  intro pre a h1 h2
  unfold pathFromSubdirs
  rw [List.foldl_append, List.foldl_cons]
  have : ∀ d, pathJoin d a = a := fun d => by unfold pathJoin; rw [if_pos h1]
  rw [this]
  exact foldl_join a subdirs (by intro h; rw [h] at h1; simp at h1) h2 hs

/-- A relative and an absolute path meet the hypotheses. -/
example : pathFromSubdirs "/data".toList ["a".toList, "b".toList] = "/data/a/b".toList ∧
    pathFromSubdirs "/data".toList ["a".toList, "/x".toList, "b".toList] = "/x/b".toList := by decide

end Verif.TextUtils
