import Verif.Model.Micasense
import Verif.Lemmas.Readers
import Verif.Lemmas.Envi
import Verif.Lemmas.Base
import Mathlib.Data.List.TakeWhile

/-! C89 (a MicaSense image pairs every band with its own file and its own calculator), C90 (a MicaSense image made from an array
reads back as that array). -/

set_option linter.unusedVariables false

namespace Verif.Micasense
open Verif Envi TextUtils Readers ImageUtils

/-! ### C89 -/

variable {P Pr Q : Type}

/-- Band `k` (counted from zero) is given in the dictionary under its own name, and its calculator is `c`. -/
structure BandGiven (d : Dict Str) (create : Str → Py P) (key : Str) (f : Str) (c : P) : Prop where
  file : lookup d key = some f
  made : create f = .ok c

theorem fileOf_some (d : Dict Str) (k f : Str) (h : lookup d k = some f) : fileOf d k = .ok f := by
  unfold fileOf; rw [h]

theorem fileOf_none (d : Dict Str) (k : Str) (h : lookup d k = none) : fileOf d k = .error .keyError := by
  unfold fileOf; rw [h]

theorem bandKeys_eq : bandKeys = ["band1".toList, "band2".toList, "band3".toList, "band4".toList, "band5".toList] := rfl

/-- With the five band files in the dictionary and a calculator for each, the image has the five files in band order, the five calculators in
band order, each moved to the first calculator's projection, no-data value zero, and is marked as not coregistered. -/
theorem C89_bands (create : Str → Py P) (proj : P → Pr) (setProj : Pr → P → P) (d : Dict Str)
    (f1 f2 f3 f4 f5 : Str) (c1 c2 c3 c4 c5 : P)
    (h1 : BandGiven d create "band1".toList f1 c1) (h2 : BandGiven d create "band2".toList f2 c2)
    (h3 : BandGiven d create "band3".toList f3 c3) (h4 : BandGiven d create "band4".toList f4 c4)
    (h5 : BandGiven d create "band5".toList f5 c5) :
    ∃ m, fromNames create proj setProj d = .ok m ∧ m.files = [f1, f2, f3, f4, f5] ∧
      m.calcs = [setProj (proj c1) c1, setProj (proj c1) c2, setProj (proj c1) c3, setProj (proj c1) c4, setProj (proj c1) c5] ∧
      m.projection = proj c1 ∧ m.nodata = 0 ∧ m.coregistered = false ∧ m.name = imageName f1 := by
  have e1 := fileOf_some _ _ _ h1.file
  have e2 := fileOf_some _ _ _ h2.file
  have e3 := fileOf_some _ _ _ h3.file
  have e4 := fileOf_some _ _ _ h4.file
  have e5 := fileOf_some _ _ _ h5.file
  refine ⟨⟨[f1, f2, f3, f4, f5], imageName f1, 0, _, proj c1, false⟩, ?_, rfl, rfl, rfl, rfl, rfl, rfl⟩
  unfold fromNames
  rw [bandKeys_eq]
  simp only [List.mapM_cons, List.mapM_nil, e1, e2, e3, e4, e5, ok_bind, h1.made, h2.made, h3.made, h4.made, h5.made, pure_bind,
    fromCalcs, bandKeys_eq]
  rfl

/-- The keys under which the five bands are looked up. -/
def FiveKeys (k : Str) : Prop :=
  k = "band1".toList ∨ k = "band2".toList ∨ k = "band3".toList ∨ k = "band4".toList ∨ k = "band5".toList

/-- A missing band, or a band whose calculator cannot be made, is never passed over: no image is made. -/
theorem C89_missing (create : Str → Py P) (proj : P → Pr) (setProj : Pr → P → P) (d : Dict Str) (k : Str) (hk : FiveKeys k)
    (h : ∀ f c, ¬ BandGiven d create k f c) : ∀ m, fromNames create proj setProj d ≠ .ok m := by
  intro m hm
  unfold fromNames at hm
  obtain ⟨calcs, hc, _⟩ := bind_ok hm
  rw [mapM_ok_iff] at hc
  obtain ⟨i, hi⟩ : ∃ i : Nat, bandKeys[i]? = some k := by
    rcases hk with rfl | rfl | rfl | rfl | rfl
    · exact ⟨0, rfl⟩
    · exact ⟨1, rfl⟩
    · exact ⟨2, rfl⟩
    · exact ⟨3, rfl⟩
    · exact ⟨4, rfl⟩
  obtain ⟨b, hb, _⟩ := hc.2 i k hi
  obtain ⟨f, hf, hcr⟩ := bind_ok hb
  unfold fileOf at hf
  cases hl : lookup d k with
  | none => rw [hl] at hf; cases hf
  | some f' =>
    rw [hl] at hf
    cases hf
    exact h _ b ⟨hl, hcr⟩

/-- A missing first band is a KeyError. -/
theorem C89_missing_keyerror (create : Str → Py P) (proj : P → Pr) (setProj : Pr → P → P) (d : Dict Str)
    (h : lookup d "band1".toList = none) : fromNames create proj setProj d = .error .keyError := by
  unfold fromNames
  rw [bandKeys_eq, List.mapM_cons, fileOf_none _ _ h]
  rfl

theorem takeWhile_append_stop {c : Char} (a b : Str) (ha : c ∉ a) :
    (a ++ c :: b).takeWhile (fun x => decide (x ≠ c)) = a := by
  induction a with
  | nil => simp
  | cons x a ih =>
    have hx : x ≠ c := fun h => ha (by simp [h])
    rw [List.cons_append, List.takeWhile_cons, if_pos (by simpa using hx), ih (fun h => ha (List.mem_cons_of_mem _ h))]

theorem dropWhile_append_stop {c : Char} (a b : Str) (ha : c ∉ a) :
    (a ++ c :: b).dropWhile (fun x => decide (x ≠ c)) = c :: b := by
  induction a with
  | nil => simp
  | cons x a ih =>
    have hx : x ≠ c := fun h => ha (by simp [h])
    rw [List.cons_append, List.dropWhile_cons, if_pos (by simpa using hx), ih (fun h => ha (List.mem_cons_of_mem _ h))]

theorem findIdx_append_stop {c : Char} (a b : Str) (ha : c ∉ a) :
    (a ++ c :: b).findIdx? (fun x => decide (x = c)) = some a.length := by
  induction a with
  | nil => simp [List.findIdx?_cons]
  | cons x a ih =>
    have hx : x ≠ c := fun h => ha (by simp [h])
    rw [List.cons_append, List.findIdx?_cons, if_neg (by simpa using hx), ih (fun h => ha (List.mem_cons_of_mem _ h))]
    simp

theorem bandNumber_eq (stem ext : Str) (ch : Char) (hext : '.' ∉ ext) :
    bandNumber (stem ++ ch :: '.' :: ext) = if '0' ≤ ch ∧ ch ≤ '9' then .ok (ch.toNat - 48) else .error .valueError := by
  have hr : (stem ++ ch :: '.' :: ext).reverse = ext.reverse ++ '.' :: (ch :: stem.reverse) := by simp
  have hdot : rfindDot (stem ++ ch :: '.' :: ext) = (stem.length : Int) + 1 := by
    unfold rfindDot
    rw [hr, findIdx_append_stop _ _ (by simpa using hext)]
    simp only [List.length_append, List.length_cons, List.length_reverse]
    omega
  unfold bandNumber
  have hi : pyIdx (stem ++ ch :: '.' :: ext).length (rfindDot (stem ++ ch :: '.' :: ext) - 1) = .ok stem.length := by
    rw [hdot]
    unfold pyIdx
    rw [if_pos]
    · congr 1; omega
    · simp only [List.length_append, List.length_cons]; omega
  rw [hi, ok_bind]
  simp

/-- OpenCV variant: the band number is the character before the last full stop of the file name, and the first parameter set with that number
is used. -/
theorem C89_opencv_number (params : List (Nat × Q)) (make : Q → Py P) (stem ext : Str) (n : Nat) (hn : n < 10) (hext : '.' ∉ ext)
    (pre post : List (Nat × Q)) (q : Q) (hp : params = pre ++ (n, q) :: post) (hfirst : ∀ p ∈ pre, p.1 ≠ n) :
    openCvCreate params make (stem ++ Char.ofNat (48 + n) :: '.' :: ext) = make q := by
  unfold openCvCreate
  rw [bandNumber_eq _ _ _ hext]
  have : ('0' ≤ Char.ofNat (48 + n) ∧ Char.ofNat (48 + n) ≤ '9') ∧ (Char.ofNat (48 + n)).toNat - 48 = n := by
    have : ∀ m : Fin 10, ('0' ≤ Char.ofNat (48 + m) ∧ Char.ofNat (48 + m) ≤ '9') ∧ (Char.ofNat (48 + m)).toNat - 48 = m := by
      decide +kernel
    exact this ⟨n, hn⟩
  rw [if_pos this.1, ok_bind, this.2]
  have hf : params.find? (fun p => decide (p.1 = n)) = some (n, q) := by
    rw [hp, List.find?_append]
    have : pre.find? (fun p => decide (p.1 = n)) = none := by
      rw [List.find?_eq_none]
      intro p hpp
      simpa using hfirst p hpp
    rw [this]
    simp
  rw [hf]

/-- FALSE: "the OpenCV variant uses the parameters of the file's band number": of a name without a full stop the last character but one counts, not
the last. -/
theorem C89_no_extension_false (params : List (Nat × Q)) (make : Q → Py P) (stem : Str) (n : Nat) (hn : n < 10) (last : Char) (hdot : '.' ∉ stem)
    (hlast : last ≠ '.') (pre post : List (Nat × Q)) (q : Q) (hp : params = pre ++ (n, q) :: post) (hfirst : ∀ p ∈ pre, p.1 ≠ n) :
    openCvCreate params make (stem ++ [Char.ofNat (48 + n), last]) = make q := by
  have hd : ('0' ≤ Char.ofNat (48 + n) ∧ Char.ofNat (48 + n) ≤ '9') ∧ (Char.ofNat (48 + n)).toNat - 48 = n ∧ Char.ofNat (48 + n) ≠ '.' := by
    have : ∀ m : Fin 10, ('0' ≤ Char.ofNat (48 + m) ∧ Char.ofNat (48 + m) ≤ '9') ∧ (Char.ofNat (48 + m)).toNat - 48 = m ∧ Char.ofNat (48 + m) ≠ '.' := by
      decide +kernel
    exact this ⟨n, hn⟩
  have hr : rfindDot (stem ++ [Char.ofNat (48 + n), last]) = -1 := by
    unfold rfindDot
    have : (stem ++ [Char.ofNat (48 + n), last]).reverse.findIdx? (fun c => decide (c = '.')) = none := by
      rw [List.findIdx?_eq_none_iff]
      intro c hc
      simp only [List.mem_reverse, List.mem_append, List.mem_cons, List.not_mem_nil, or_false] at hc
      rcases hc with hc | rfl | rfl
      · have : c ≠ '.' := fun h => hdot (h ▸ hc)
        simp [this]
      · simp [hd.2.2]
      · simp [hlast]
    rw [this]
  have hb : bandNumber (stem ++ [Char.ofNat (48 + n), last]) = .ok n := by
    unfold bandNumber
    have hi : pyIdx (stem ++ [Char.ofNat (48 + n), last]).length (rfindDot (stem ++ [Char.ofNat (48 + n), last]) - 1) = .ok stem.length := by
      rw [hr, pyIdx_ok_iff]
      simp [PyAt]
    rw [hi, ok_bind]
    have : (stem ++ [Char.ofNat (48 + n), last])[stem.length]? = some (Char.ofNat (48 + n)) := by simp
    rw [this]
    simp only []
    rw [if_pos hd.1, hd.2.1]
  unfold openCvCreate
  rw [hb, ok_bind]
  have hf : params.find? (fun p => decide (p.1 = n)) = some (n, q) := by
    rw [hp, List.find?_append]
    have : pre.find? (fun p => decide (p.1 = n)) = none := by
      rw [List.find?_eq_none]
      intro p hpp
      simpa using hfirst p hpp
    rw [this]
    simp
  rw [hf]

/-- No parameter set with the number: an IndexError; a character that is not a digit: a ValueError. -/
theorem C89_opencv_reject (params : List (Nat × Q)) (make : Q → Py P) (stem ext : Str) (hext : '.' ∉ ext) :
    (∀ n, n < 10 → (∀ p ∈ params, p.1 ≠ n) →
      openCvCreate params make (stem ++ Char.ofNat (48 + n) :: '.' :: ext) = .error .indexError) ∧
    (∀ ch : Char, (∀ n, n < 10 → ch ≠ Char.ofNat (48 + n)) →
      openCvCreate params make (stem ++ ch :: '.' :: ext) = .error .valueError) := by
  constructor
  · intro n hn hp
    unfold openCvCreate
    rw [bandNumber_eq _ _ _ hext]
    have : ('0' ≤ Char.ofNat (48 + n) ∧ Char.ofNat (48 + n) ≤ '9') ∧ (Char.ofNat (48 + n)).toNat - 48 = n := by
      have : ∀ m : Fin 10, ('0' ≤ Char.ofNat (48 + m) ∧ Char.ofNat (48 + m) ≤ '9') ∧ (Char.ofNat (48 + m)).toNat - 48 = m := by
        decide +kernel
      exact this ⟨n, hn⟩
    rw [if_pos this.1, ok_bind, this.2]
    have : params.find? (fun p => decide (p.1 = n)) = none := by
      rw [List.find?_eq_none]
      intro p hpp
      simpa using hp p hpp
    rw [this]
  · intro ch hch
    unfold openCvCreate
    rw [bandNumber_eq _ _ _ hext, if_neg]
    · rfl
    · rintro ⟨h1, h2⟩
      have h1' : 48 ≤ ch.toNat := h1
      have h2' : ch.toNat ≤ 57 := h2
      refine hch (ch.toNat - 48) (by omega) ?_
      have : 48 + (ch.toNat - 48) = ch.toNat := by omega
      rw [this, Char.ofNat_toNat]

theorem splitextPath_eq (dir base ext : Str) (hb : '/' ∉ base) (he : '/' ∉ ext) (hd : dir = [] ∨ dir.getLast? = some '/')
    (hdot : '.' ∉ ext) (hbase : ∃ c ∈ base, c ≠ '.') : splitextPath (dir ++ base ++ '.' :: ext) = dir ++ base := by
  have hsp : dirPart (dir ++ base ++ '.' :: ext) = dir ∧ basePart (dir ++ base ++ '.' :: ext) = base ++ '.' :: ext := by
    have hmem : '/' ∉ (base ++ '.' :: ext).reverse := by
      simp only [List.mem_reverse, List.mem_append, List.mem_cons, not_or]
      exact ⟨hb, by decide, he⟩
    unfold dirPart basePart
    have : (dir ++ base ++ '.' :: ext).reverse = (base ++ '.' :: ext).reverse ++ dir.reverse := by simp
    rw [this]
    rcases hd with rfl | hd
    · rw [List.reverse_nil, List.append_nil]
      have hall : ∀ x ∈ (base ++ '.' :: ext).reverse, decide (x ≠ '/') = true := by
        intro x hx
        simp only [decide_eq_true_eq]
        rintro rfl
        exact hmem hx
      rw [List.dropWhile_eq_nil_iff.2 hall, List.takeWhile_eq_self_iff.2 hall, List.reverse_reverse]
      exact ⟨rfl, rfl⟩
    · obtain ⟨pre, rfl⟩ : ∃ pre, dir = pre ++ ['/'] := by
        rw [List.getLast?_eq_some_iff] at hd
        exact hd
      rw [show (pre ++ ['/']).reverse = '/' :: pre.reverse by simp, dropWhile_append_stop _ _ hmem,
        takeWhile_append_stop _ _ hmem]
      simp
  unfold splitextPath
  rw [hsp.1, hsp.2]
  congr 1
  unfold splitextRoot
  have : (base ++ '.' :: ext).reverse = ext.reverse ++ '.' :: base.reverse := by simp
  rw [this]
  simp only []
  rw [dropWhile_append_stop _ _ (by simpa using hdot)]
  simp only []
  rw [if_neg]
  · simp
  · obtain ⟨c, hc, hne⟩ := hbase
    rw [List.all_eq_true]
    intro h
    exact hne (by simpa using h c (by simpa using hc))

/-- The image's name is the first band's path up to its last underscore: folder and stem without band number and extension. -/
theorem C89_name (dir pre last ext : Str) (hd : dir = [] ∨ dir.getLast? = some '/') (hp : '/' ∉ pre) (hl : '/' ∉ last) (hlu : '_' ∉ last)
    (he : '/' ∉ ext) (hdot : '.' ∉ ext) : imageName (dir ++ pre ++ '_' :: last ++ '.' :: ext) = dir ++ pre := by
  unfold imageName
  have e : dir ++ pre ++ '_' :: last ++ '.' :: ext = dir ++ (pre ++ '_' :: last) ++ '.' :: ext := by simp
  rw [e, splitextPath_eq dir (pre ++ '_' :: last) ext ?_ he hd hdot ⟨'_', by simp, by decide⟩]
  · obtain ⟨hne, hj, hno⟩ := (splitOn_iff '_' (dir ++ pre) _).1 rfl
    have : splitOn '_' (dir ++ (pre ++ '_' :: last)) = splitOn '_' (dir ++ pre) ++ [last] := by
      rw [splitOn_iff]
      refine ⟨by simp, ?_, ?_⟩
      · have hi : ∀ (l : List Str), l ≠ [] → List.intercalate ['_'] (l ++ [last]) = List.intercalate ['_'] l ++ '_' :: last := by
          intro l
          induction l with
          | nil => intro h; exact absurd rfl h
          | cons a l ih =>
            intro _
            cases l with
            | nil => simp [List.intercalate]
            | cons b l =>
              have := ih (by simp)
              simp only [List.intercalate, List.cons_append, List.intersperse_cons₂, List.flatten_cons] at this ⊢
              rw [this]
              simp
        rw [hi _ hne, ← hj]
        simp
      · intro t ht
        rcases List.mem_append.1 ht with h | h
        · exact hno t h
        · rw [List.mem_singleton.1 h]; exact hlu
    rw [this, List.dropLast_concat, ← hj]
  · simp only [List.mem_append, List.mem_cons, not_or]
    exact ⟨hp, by decide, hl⟩

/-- FALSE: "every band of the dictionary is in the image".  A sixth band is left out without a word. -/
theorem C89_sixth_band_false : ∃ (d : Dict Str) (create : Str → Py Str) (m : Mica Str Unit),
    fromNames create (fun _ => ()) (fun _ c => c) d = .ok m ∧ lookup d "band6".toList = some "x_6.tif".toList ∧
      "x_6.tif".toList ∉ m.files ∧ d.length = 6 :=
  ⟨[("band1".toList, "x_1.tif".toList), ("band2".toList, "x_2.tif".toList), ("band3".toList, "x_3.tif".toList),
    ("band4".toList, "x_4.tif".toList), ("band5".toList, "x_5.tif".toList), ("band6".toList, "x_6.tif".toList)],
    fun f => .ok f, _, rfl, rfl, by decide, rfl⟩

/-- FALSE: "the OpenCV variant uses the parameters of the file's band number": from ten on only the last digit counts. -/
theorem C89_two_digits_false : ∃ (params : List (Nat × Nat)), (10, 110) ∈ params ∧
    openCvCreate params (fun q => .ok q) "IMG_10.tif".toList = .ok 100 :=
  ⟨[(10, 110), (0, 100)], by decide, by decide +kernel⟩

example : ∃ m, fromNames (fun f => (.ok f : Py Str)) (fun _ => ()) (fun _ c => c)
    [("band1".toList, "d/x_1.tif".toList), ("band2".toList, "d/x_2.tif".toList), ("band3".toList, "d/x_3.tif".toList),
    ("band4".toList, "d/x_4.tif".toList), ("band5".toList, "d/x_5.tif".toList)] = .ok m ∧ m.name = "d/x".toList :=
  ⟨_, rfl, by decide +kernel⟩

example : openCvCreate [(1, 11), (2, 12)] (fun q => (.ok q : Py Nat)) "a.b/IMG_2.tif".toList = .ok 12 := by decide +kernel

/-! ### C90 -/

variable {K : Type}

/-- Where band `b` goes: folder, given name or else the fresh one. -/
def target (dir : Str) (names : Option (List Str)) (fresh : Nat → Str) (b : Nat) : Option Str :=
  match names with
  | some l => l[b]?.map (pathJoin dir)
  | none => some (pathJoin dir (fresh b))

theorem bandFile_ok (dir : Str) (names : Option (List Str)) (fresh : Nat → Str) (b : Nat) (f : Str) :
    bandFile dir names fresh b = .ok f ↔ target dir names fresh b = some f := by
  unfold bandFile target
  cases names with
  | none => simp
  | some l => cases hl : l[b]? <;> simp [hl]

theorem bandFile_err (dir : Str) (names : Option (List Str)) (fresh : Nat → Str) (b : Nat)
    (h : target dir names fresh b = none) : bandFile dir names fresh b = .error .indexError := by
  unfold bandFile
  unfold target at h
  cases names with
  | none => simp at h
  | some l => cases hl : l[b]? with
    | none => simp [hl]
    | some n => simp [hl] at h

/-- Band `b` of a cube. -/
def bandOf (img : A3 K) (b : Nat) : A2 K := ⟨img.ny, img.nx, fun y x => img.px y x b⟩

theorem writeBands_ok (dir : Str) (names : Option (List Str)) (fresh : Nat → Str) (img : A3 K) (f : Nat → Str)
    (hbig : 2 ≤ img.ny) :
    ∀ (todo b : Nat) (fs : Dict (A2 K)) (out : List Str),
      (∀ k, b ≤ k → k < b + todo → target dir names fresh k = some (f k)) →
      (∀ j k, b ≤ j → j < k → k < b + todo → f j ≠ f k) →
      ∃ fs', writeBands dir names fresh img todo b fs out = .ok (fs', out ++ (List.range todo).map (fun k => f (b + k))) ∧
        (∀ k, b ≤ k → k < b + todo → lookup fs' (f k) = some (bandOf img k)) ∧
        (∀ g, (∀ k, b ≤ k → k < b + todo → g ≠ f k) → lookup fs' g = lookup fs g) := by
  intro todo
  induction todo with
  | zero =>
    intro b fs out _ _
    exact ⟨fs, by simp [writeBands], by intro k h1 h2; omega, fun g _ => rfl⟩
  | succ n ih =>
    intro b fs out ht hd
    obtain ⟨fs', h1, h2, h3⟩ := ih (b + 1) (setKey fs (f b) (bandOf img b)) (out ++ [f b])
      (fun k hk1 hk2 => ht k (by omega) (by omega)) (fun j k hj hjk hk => hd j k (by omega) hjk (by omega))
    refine ⟨fs', ?_, ?_, ?_⟩
    · unfold writeBands
      rw [(bandFile_ok dir names fresh b (f b)).2 (ht b le_rfl (by omega)), ok_bind]
      have : savedBand (⟨img.ny, img.nx, fun y x => img.px y x b⟩ : A2 K) = .ok (bandOf img b) := by
        unfold savedBand
        rw [if_neg (by simp only []; omega), if_neg (by simp only []; omega)]
        rfl
      rw [this, ok_bind, h1, List.range_succ_eq_map, List.map_cons, List.append_assoc, List.map_map]
      congr 3
      rw [List.singleton_append, Nat.add_zero]
      congr 1
      apply List.map_congr_left
      intro a _
      simp only [Function.comp]
      congr 1
      omega
    · intro k hk1 hk2
      rcases Nat.eq_or_lt_of_le hk1 with rfl | hlt
      · rw [h3 (f b) (fun k hk1 hk2 => hd b k le_rfl (by omega) (by omega)), lookup_setKey, if_pos rfl]
      · exact h2 k hlt (by omega)
    · intro g hg
      rw [h3 g (fun k hk1 hk2 => hg k (by omega) (by omega)), lookup_setKey, if_neg (hg b le_rfl (by omega))]

/-- PARTIAL (at least two rows; distinct files): every band is in its own file and is read back as it was, by position or counted from the end;
the image has one file per band, named as asked; no other file changes. -/
theorem C90_roundtrip_partial (dir : Str) (names : Option (List Str)) (fresh : Nat → Str) (img : A3 K) (fs : Dict (A2 K)) (f : Nat → Str)
    (hbig : 2 ≤ img.ny) (ht : ∀ b, b < img.nb → target dir names fresh b = some (f b))
    (hdist : ∀ j k, j < k → k < img.nb → f j ≠ f k) :
    ∃ fs' files, fromNumpy dir names fresh img fs = .ok (fs', files) ∧ files.length = img.nb ∧
      (∀ b, b < img.nb → files[b]? = some (f b)) ∧
      (∀ (i : Int) b, PyAt img.nb i b → ∃ a, readBand fs' files i = .ok a ∧
        a.Same ⟨img.ny, img.nx, fun y x => img.px y x b⟩) ∧
      (∀ g, (∀ b, b < img.nb → g ≠ f b) → lookup fs' g = lookup fs g) := by
  obtain ⟨fs', h1, h2, h3⟩ := writeBands_ok dir names fresh img f hbig img.nb 0 fs [] (fun k _ hk => ht k (by omega))
    (fun j k _ hjk hk => hdist j k hjk (by omega))
  have hget : ∀ b, b < img.nb → ((List.range img.nb).map (fun k => f (0 + k)))[b]? = some (f b) := by
    intro b hb
    simp [hb]
  refine ⟨fs', (List.range img.nb).map (fun k => f (0 + k)), h1, by simp, hget, ?_, ?_⟩
  · intro i b hib
    refine ⟨bandOf img b, ?_, rfl, rfl, fun _ _ _ _ => rfl⟩
    unfold readBand
    rw [show ((List.range img.nb).map (fun k => f (0 + k))).length = img.nb by simp, (pyIdx_ok_iff _ _ _).2 hib, ok_bind,
      hget b hib.1]
    simp only []
    rw [h2 b (Nat.zero_le _) (by have := hib.1; omega)]
  · intro g hg
    exact h3 g (fun k _ hk => hg k (by omega))

theorem writeBands_short (dir : Str) (names : List Str) (fresh : Nat → Str) (img : A3 K) :
    ∀ (todo b : Nat) (fs : Dict (A2 K)) (out : List Str), names.length < b + todo → b ≤ names.length →
      writeBands dir (some names) fresh img todo b fs out = .error .indexError ∨ (img.ny = 1 ∧ img.nx = 1) := by
  intro todo
  induction todo with
  | zero => intro b fs out h h2; omega
  | succ n ih =>
    intro b fs out h h2
    unfold writeBands
    rcases Nat.eq_or_lt_of_le h2 with he | hlt
    · left
      rw [bandFile_err dir (some names) fresh b (by unfold target; simp [he])]
      rfl
    · have : bandFile dir (some names) fresh b = .ok (pathJoin dir names[b]) := by
        unfold bandFile; simp [hlt]
      rw [this, ok_bind]
      unfold savedBand
      by_cases hone : img.ny = 1 ∧ img.nx = 1
      · exact Or.inr hone
      · simp only []
        rw [if_neg hone]
        by_cases h1 : img.ny = 1
        · rw [if_pos h1, ok_bind]
          exact ih _ _ _ (by omega) (by omega)
        · rw [if_neg h1, ok_bind]
          exact ih _ _ _ (by omega) (by omega)

/-- Fewer names than bands: an IndexError. -/
theorem C90_too_few_names (dir : Str) (names : List Str) (fresh : Nat → Str) (img : A3 K) (fs : Dict (A2 K))
    (h : names.length < img.nb) (hone : ¬ (img.ny = 1 ∧ img.nx = 1)) :
    fromNumpy dir (some names) fresh img fs = .error .indexError := by
  rcases writeBands_short dir names fresh img img.nb 0 fs [] (by omega) (Nat.zero_le _) with h | h
  · exact h
  · exact absurd h hone

/-- Different relative names in one folder are different files. -/
theorem C90_distinct (dir a b : Str) (ha : ['/'].isPrefixOf a = false) (hb : ['/'].isPrefixOf b = false) (h : a ≠ b) :
    pathJoin dir a ≠ pathJoin dir b := by
  unfold pathJoin
  rw [ha, hb]
  simp only [Bool.false_eq_true, if_false]
  split
  · intro he; exact h (List.append_cancel_left he)
  · intro he
    have := List.append_cancel_left he
    exact h (List.cons.inj this).2

/-- FALSE: "a band comes back as it was": a single row is stored as a column. -/
theorem C90_one_row_false : ∃ (img : A3 Int) (fs : Dict (A2 Int)) (files : List Str) (a : A2 Int),
    fromNumpy "/tmp".toList (some ["a.tif".toList]) (fun _ => []) img [] = .ok (fs, files) ∧ readBand fs files 0 = .ok a ∧
      img.ny = 1 ∧ img.nx = 3 ∧ a.ny = 3 ∧ a.nx = 1 ∧ ∀ x, a.px x 0 = img.px 0 x 0 :=
  ⟨⟨1, 3, 1, fun y x _ => 10 * y + x⟩, _, _, _, rfl, rfl, rfl, rfl, rfl, rfl, fun _ => rfl⟩

/-- FALSE: "a band comes back as it was": a name used twice leaves both bands with the later data. -/
theorem C90_repeated_false : ∃ (img : A3 Int) (fs : Dict (A2 Int)) (files : List Str) (a : A2 Int),
    fromNumpy "/tmp".toList (some ["a.tif".toList, "a.tif".toList]) (fun _ => []) img [] = .ok (fs, files) ∧
      readBand fs files 0 = .ok a ∧ a.px 0 0 ≠ img.px 0 0 0 :=
  ⟨⟨2, 2, 2, fun _ _ b => b⟩, _, _, _, rfl, rfl, by decide⟩

/-- FALSE: "any array can be made into an image": a one-pixel array is an IndexError. -/
theorem C90_one_pixel_false (dir : Str) (fresh : Nat → Str) (v : K) (fs : Dict (A2 K)) :
    fromNumpy dir none fresh ⟨1, 1, 1, fun _ _ _ => v⟩ fs = .error .indexError := rfl

example : ∀ b, b < 2 → target "/tmp".toList (some ["a.tif".toList, "b.tif".toList]) (fun _ => []) b =
    some (if b = 0 then "/tmp/a.tif".toList else "/tmp/b.tif".toList) := by decide +kernel

end Verif.Micasense
