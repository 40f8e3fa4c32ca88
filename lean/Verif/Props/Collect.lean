import Verif.Model.Collect
import Verif.Props.Pix4d
import Verif.Props.Camera

/-! C124: from the directory of a pix4d collect to the pixels of one image. -/

set_option linter.unusedSectionVars false

namespace Verif.Collect
open Verif Verif.TextUtils Verif.Envi Verif.Readers Verif.Camera Verif.Rotation Matrix

/-- Specification: `n` is the one file of the directory with the ending. -/
def OnlyFile (listing : List Str) (ending n : Str) : Prop := n ∈ listing ∧ ending <:+ n ∧ ∀ m ∈ listing, ending <:+ m → m = n

theorem chooseFile_only {listing : List Str} {ending n : Str} (h : OnlyFile listing ending n) : chooseFile listing none ending = .ok n := by
  obtain ⟨h1, h2, h3⟩ := h
  unfold chooseFile
  simp only []
  have hmem : n ∈ listing.filter (fun n => ending.isSuffixOf n) := by
    rw [List.mem_filter]
    exact ⟨h1, List.isSuffixOf_iff_suffix.2 h2⟩
  have hall : ∀ m ∈ listing.filter (fun n => ending.isSuffixOf n), m = n := by
    intro m hm
    rw [List.mem_filter] at hm
    exact h3 m hm.1 (List.isSuffixOf_iff_suffix.1 hm.2)
  cases hf : listing.filter (fun n => ending.isSuffixOf n) with
  | nil => rw [hf] at hmem; simp at hmem
  | cons a l =>
    simp only []
    rw [hall a (by rw [hf]; exact List.mem_cons_self)]

/-- C124: a directory with one file of each kind needs no file names: the files with the standard endings are read. -/
theorem C124_standard_files {F : Type} (pf : Str → Option F) (ls search : Str) (listing : List Str) (content : Str → Option Str) (base e i c w : Str)
    (he : OnlyFile listing extEnding e) (hi : OnlyFile listing intEnding i) (hc : OnlyFile listing calEnding c) (hw : OnlyFile listing wktEnding w)
    (et it ct wt : Str) (ge : content (Micasense.pathJoin base e) = some et) (gi : content (Micasense.pathJoin base i) = some it)
    (gc : content (Micasense.pathJoin base c) = some ct) (gw : content (Micasense.pathJoin base w) = some wt) :
    makeMasterDir pf ls search listing content base none none none none = makeMaster pf ls search et it ct ∧
    makeMasterDir pf ls search listing content base (some e) (some i) (some c) (some w) = makeMaster pf ls search et it ct := by
  have key : ∀ oe oi oc ow : Option Str, chooseFile listing oe extEnding = .ok e → chooseFile listing oi intEnding = .ok i →
      chooseFile listing oc calEnding = .ok c → chooseFile listing ow wktEnding = .ok w →
      makeMasterDir pf ls search listing content base oe oi oc ow = makeMaster pf ls search et it ct := by
    intro oe oi oc ow h1 h2 h3 h4
    unfold makeMasterDir makeMaster
    simp only [h1, h2, h3, h4, ok_bind, readFile, ge, gi, gc, gw]
  exact ⟨key _ _ _ _ (chooseFile_only he) (chooseFile_only hi) (chooseFile_only hc) (chooseFile_only hw), key _ _ _ _ rfl rfl rfl rfl⟩

/-- C124: a file is of one kind only: no name has two of the endings. -/
theorem C124_endings_differ (n : Str) :
    ([extEnding, intEnding, calEnding, wktEnding].filter (fun e => e.isSuffixOf n)).length ≤ 1 := by
  have pair : ∀ a b : Str, a ∈ [extEnding, intEnding, calEnding, wktEnding] → b ∈ [extEnding, intEnding, calEnding, wktEnding] →
      a.isSuffixOf n = true → b.isSuffixOf n = true → a = b := by
    intro a b ha hb h1 h2
    have h1' := List.isSuffixOf_iff_suffix.1 h1
    have h2' := List.isSuffixOf_iff_suffix.1 h2
    have hall : ∀ a ∈ [extEnding, intEnding, calEnding, wktEnding], ∀ b ∈ [extEnding, intEnding, calEnding, wktEnding],
        a.isSuffixOf b = true → a = b := by decide +kernel
    rcases Nat.le_total a.length b.length with h | h
    · exact hall a ha b hb (List.isSuffixOf_iff_suffix.2 (List.suffix_of_suffix_length_le h1' h2' h))
    · exact (hall b hb a ha (List.isSuffixOf_iff_suffix.2 (List.suffix_of_suffix_length_le h2' h1' h))).symm
  have hnd : [extEnding, intEnding, calEnding, wktEnding].Nodup := by decide +kernel
  have hnd' := hnd.filter (fun e => e.isSuffixOf n)
  cases hf : [extEnding, intEnding, calEnding, wktEnding].filter (fun e => e.isSuffixOf n) with
  | nil => simp
  | cons a l =>
    cases l with
    | nil => simp
    | cons b l =>
      exfalso
      have ha : a ∈ [extEnding, intEnding, calEnding, wktEnding].filter (fun e => e.isSuffixOf n) := by rw [hf]; simp
      have hb : b ∈ [extEnding, intEnding, calEnding, wktEnding].filter (fun e => e.isSuffixOf n) := by rw [hf]; simp
      rw [List.mem_filter] at ha hb
      have := pair a b ha.1 hb.1 ha.2 hb.2
      rw [hf, this] at hnd'
      simp at hnd'

theorem chooseFile_cases (listing : List Str) (given : Option Str) (ending : Str) :
    (∃ n, chooseFile listing given ending = .ok n) ∨ chooseFile listing given ending = .error .indexError := by
  unfold chooseFile
  cases given with
  | some n => exact Or.inl ⟨n, rfl⟩
  | none =>
    simp only []
    split
    · exact Or.inr rfl
    · exact Or.inl ⟨_, rfl⟩

theorem chooseFile_none (listing : List Str) (ending : Str) (h : ∀ n ∈ listing, ¬ ending <:+ n) :
    chooseFile listing none ending = .error .indexError := by
  have : listing.filter (fun n => ending.isSuffixOf n) = [] := by
    rw [List.filter_eq_nil_iff]
    intro n hn hs
    exact h n hn (List.isSuffixOf_iff_suffix.1 hs)
  unfold chooseFile
  simp only [this]

/-- C124: when of one of the four kinds neither a name is given nor a file exists, the call is an IndexError (nothing is read). -/
theorem C124_no_file {F : Type} (pf : Str → Option F) (ls search : Str) (listing : List Str) (content : Str → Option Str) (base : Str)
    (ext int cal wkt : Option Str) (h : ∃ k ∈ [(ext, extEnding), (int, intEnding), (cal, calEnding), (wkt, wktEnding)],
      k.1 = none ∧ ∀ n ∈ listing, ¬ k.2 <:+ n) :
    makeMasterDir pf ls search listing content base ext int cal wkt = .error .indexError := by
  obtain ⟨⟨g, ending⟩, hk, hg, hno⟩ := h
  simp only [] at hg hno
  subst hg
  have hbad := chooseFile_none listing ending hno
  simp only [List.mem_cons, Prod.mk.injEq, List.not_mem_nil, or_false] at hk
  unfold makeMasterDir
  rcases chooseFile_cases listing ext extEnding with ⟨e, he⟩ | he
  · rcases chooseFile_cases listing int intEnding with ⟨i, hi⟩ | hi
    · rcases chooseFile_cases listing cal calEnding with ⟨c, hc⟩ | hc
      · have hw : chooseFile listing wkt wktEnding = .error .indexError := by
          rcases hk with ⟨rfl, rfl⟩ | ⟨rfl, rfl⟩ | ⟨rfl, rfl⟩ | ⟨rfl, rfl⟩
          · rw [hbad] at he; simp at he
          · rw [hbad] at hi; simp at hi
          · rw [hbad] at hc; simp at hc
          · exact hbad
        rw [he, ok_bind, hi, ok_bind, hc, ok_bind, hw, error_bind]
      · rw [he, ok_bind, hi, ok_bind, hc, error_bind]
    · rw [he, ok_bind, hi, error_bind]
  · rw [he, error_bind]

/-- C124: an image that is not in the parameters, or whose camera has no focal length, principal point or sensor width, is a KeyError; an image
without a 3 by 3 rotation a ValueError. -/
theorem C124_refused (imageKey : Str) (all : Dict (Master ℝ)) (model : Option String) :
    (lookup all (basename imageKey) = none → initFromMaster imageKey all model = .error .keyError) ∧
    (∀ m, lookup all (basename imageKey) = some m →
      ((∀ a b c d e f g h i, m.calibrated.r ≠ [[a, b, c], [d, e, f], [g, h, i]]) → initFromMaster imageKey all model = .error .valueError) ∧
      (∀ a b c d e f g h i, m.calibrated.r = [[a, b, c], [d, e, f], [g, h, i]] →
        (∃ k ∈ ["fpa_width_mm".toList, "F".toList, "Px".toList, "Py".toList], lookup m.internal k = none) →
          initFromMaster imageKey all model = .error .keyError)) := by
  refine ⟨fun h => by unfold initFromMaster; rw [h], ?_⟩
  intro m hm
  refine ⟨?_, ?_⟩
  · intro h
    have : rot3 m.calibrated.r = .error .valueError := by
      unfold rot3
      split
      · rename_i a b c d e f g h' i hr
        exact absurd hr (h a b c d e f g h' i)
      · rfl
    unfold initFromMaster
    rw [hm]
    simp only []
    rw [this, error_bind]
  · rintro a b c d e f g h i hr ⟨k, hk, hnone⟩
    have hget : ∀ key : Str, (∃ v, getKey m.internal key = .ok v) ∨ getKey m.internal key = .error .keyError := by
      intro key
      unfold getKey
      split
      · exact Or.inl ⟨_, rfl⟩
      · exact Or.inr rfl
    have hkbad : getKey m.internal k = .error .keyError := by unfold getKey; rw [hnone]
    simp only [List.mem_cons, List.not_mem_nil, or_false] at hk
    unfold initFromMaster
    rw [hm]
    simp only [hr, rot3]
    rw [ok_bind]
    rcases hget "fpa_width_mm".toList with ⟨v1, h1⟩ | h1
    · rcases hget "F".toList with ⟨v2, h2⟩ | h2
      · rcases hget "Px".toList with ⟨v3, h3⟩ | h3
        · have h4 : getKey m.internal "Py".toList = .error .keyError := by
            rcases hk with rfl | rfl | rfl | rfl
            · rw [hkbad] at h1; simp at h1
            · rw [hkbad] at h2; simp at h2
            · rw [hkbad] at h3; simp at h3
            · exact hkbad
          rw [h1, ok_bind, h2, ok_bind, h3, ok_bind, h4, error_bind]
        · rw [h1, ok_bind, h2, ok_bind, h3, error_bind]
      · rw [h1, ok_bind, h2, error_bind]
    · rw [h1, error_bind]

theorem basename_plain {name : Str} (hn : '/' ∉ name) : basename name = name := by
  unfold basename
  have : ∀ l : Str, '/' ∉ l → l.takeWhile (· ≠ '/') = l := by
    intro l hl
    have := List.takeWhile_append_of_pos (p := fun c => decide (c ≠ '/')) (l₁ := l) (l₂ := []) (by
      intro c hc
      simp only [decide_eq_true_eq, ne_eq]
      rintro rfl
      exact hl hc)
    simpa using this
  rw [this name.reverse (by simpa using hn), List.reverse_reverse]

theorem basename_dir (dir : Str) {name : Str} (hn : '/' ∉ name) : basename (dir ++ ['/'] ++ name) = name := by
  unfold basename
  rw [List.reverse_append, List.reverse_append]
  have : (name.reverse ++ (['/'].reverse ++ dir.reverse)).takeWhile (· ≠ '/') = name.reverse := by
    rw [List.takeWhile_append_of_pos (by
      intro c hc
      simp only [decide_eq_true_eq, ne_eq]
      rintro rfl
      exact hn (by simpa using hc))]
    simp
  rw [this, List.reverse_reverse]

/-- C124. The calculator made from the three parameter files for one image: with distortion disabled a ground point is at the principal point plus the
focal length times its direction in the camera, where the camera stands at the image's position in the external file, is turned by the image's matrix
in the calibrated file, and has the focal length, principal point and sensor width of the camera the image's name ends with; with the distortion
model the points of the optical axis are at the principal point.  The image may be named with its directory. -/
theorem C124_calculator (pf : Str → Option ℝ) (ls search extFile intFile calFile : Str)
    (ext : List (Str × List ℝ)) (cal : List (Str × Readers.Calibrated ℝ)) (E : Dict (List ℝ)) (I : List (Dict ℝ)) (C : Dict (Readers.Calibrated ℝ))
    (hE : readExternal pf ls extFile = .ok E) (hI : readInternal pf ls search intFile = .ok I) (hC : readCalibrated pf ls calFile = .ok C)
    (hE' : FromEntries ext E) (hC' : FromEntries cal C)
    (himg : ∀ p ∈ cal, (∃ e, (p.1, e) ∈ ext) ∧ ∃ n, ForCamera p.1 n ∧ 1 ≤ n ∧ n ≤ I.length)
    (j : Nat) (name : Str) (hname : '/' ∉ name) (nx ny : Int) (k t : List (List ℝ)) (k1 k2 k3 t1 t2 a b c d e f g h i : ℝ)
    (hj : cal[j]? = some (name, ⟨nx, ny, k, [[k1, k2, k3]], [[t1, t2]], t, [[a, b, c], [d, e, f], [g, h, i]]⟩))
    (hlast : ∀ (j' : Nat) (c' : Readers.Calibrated ℝ), j < j' → cal[j']? ≠ some (name, c'))
    (x y z o p q : ℝ) (hext : ∀ v, (name, v) ∈ ext → v = [x, y, z, o, p, q])
    (w F Px Py : ℝ) (hw : w ≠ 0) (hcam : ∀ n cam, ForCamera name n → I[n - 1]? = some cam → lookup cam "fpa_width_mm".toList = some w ∧
      lookup cam "F".toList = some F ∧ lookup cam "Px".toList = some Px ∧ lookup cam "Py".toList = some Py) :
    ∃ m, makeMaster pf ls search extFile intFile calFile = .ok m ∧
      ∀ key, (key = name ∨ ∃ dir, key = dir ++ ['/'] ++ name) →
        ∃ plain distorted, initFromMaster key m none = .ok plain ∧ initFromMaster key m (some "regular") = .ok distorted ∧
          ∀ P q : V3, q = !![a, b, c; d, e, f; g, h, i] *ᵥ (P - ![x, y, z]) → q 2 ≠ 0 →
            plain.pixel P = .ok (some (Px * (nx / w) + F * (nx / w) * (q 0 / q 2), Py * (nx / w) + F * (nx / w) * (q 1 / q 2))) ∧
            (q 0 = 0 → q 1 = 0 → distorted.pixel P = .ok (some (Px * (nx / w), Py * (nx / w)))) := by
  obtain ⟨m, hm, hall⟩ := C82_files_partial pf ls search extFile intFile calFile ext cal E I C hE hI hC hE' hC' himg
  refine ⟨m, hm, ?_⟩
  obtain ⟨n, ev, cam, hn, hmem, hcamn, hl⟩ := hall j name _ hj hlast
  obtain ⟨l1, l2, l3, l4⟩ := hcam n cam hn hcamn
  rw [hext ev hmem] at hl
  intro key hkey
  have hb : basename key = name := by
    rcases hkey with rfl | ⟨dir, rfl⟩
    · exact basename_plain hname
    · exact basename_dir dir hname
  set D : PixParams := ⟨!![a, b, c; d, e, f; g, h, i], [x, y, z, o, p, q], nx, ny, w, F, Px, Py, [t1, t2], [k1, k2, k3]⟩ with hD
  have hrun : ∀ model, initFromMaster key m model = initPix4d key [(basename key, D)] model := by
    intro model
    unfold initFromMaster
    rw [hb, hl]
    simp only [rot3, getKey, l1, l2, l3, l4, ok_bind, oneRow]
    rw [hD]
  have hlook : [(basename key, D)].lookup (basename key) = some D := by simp [List.lookup]
  have hcal : Camera.Calibrated D x y z k1 k2 k3 t1 t2 := ⟨rfl, rfl, rfl, hw⟩
  refine ⟨_, _, by rw [hrun]; exact init_ok key _ none D hlook x y z k1 k2 k3 t1 t2 hcal,
    by rw [hrun]; exact init_ok key _ (some "regular") D hlook x y z k1 k2 k3 t1 t2 hcal, ?_⟩
  intro P q hq hz
  have hz' : (D.r *ᵥ (P - ![x, y, z])) 2 ≠ 0 := by rw [← hq]; exact hz
  constructor
  · obtain ⟨c0, h0, p0⟩ := C31_no_distortion key _ D hlook x y z k1 k2 k3 t1 t2 hcal P hz'
    rw [init_ok key _ none D hlook x y z k1 k2 k3 t1 t2 hcal] at h0
    rw [Except.ok.inj h0, p0]
    have : D.r *ᵥ (P - ![x, y, z]) = q := hq.symm
    rw [this]
    simp [calibratedPixel, hD]
  · intro q0 q1
    obtain ⟨c0, h0, p0⟩ := C31_exact_partial key _ D hlook x y z k1 k2 k3 t1 t2 hcal P hz'
    rw [init_ok key _ (some "regular") D hlook x y z k1 k2 k3 t1 t2 hcal] at h0
    rw [Except.ok.inj h0, p0]
    have : D.r *ᵥ (P - ![x, y, z]) = q := hq.symm
    rw [this]
    simp [calibratedPixel, hD, q0, q1]

/-- A directory with one file of each kind. -/
example : ∃ listing e i c w, OnlyFile listing extEnding e ∧ OnlyFile listing intEnding i ∧ OnlyFile listing calEnding c ∧ OnlyFile listing wktEnding w := by
  refine ⟨["a_calibrated_external_camera_parameters.txt".toList, "a_pix4d_calibrated_internal_camera_parameters.cam".toList,
    "a_calibrated_camera_parameters.txt".toList, "a_wkt.prj".toList, "notes.txt".toList], _, _, _, _,
    ⟨List.mem_cons_self, ⟨"a_".toList, rfl⟩, ?_⟩, ⟨List.mem_cons_of_mem _ List.mem_cons_self, ⟨"a_".toList, rfl⟩, ?_⟩,
    ⟨List.mem_cons_of_mem _ (List.mem_cons_of_mem _ List.mem_cons_self), ⟨"a_".toList, rfl⟩, ?_⟩,
    ⟨List.mem_cons_of_mem _ (List.mem_cons_of_mem _ (List.mem_cons_of_mem _ List.mem_cons_self)), ⟨"a_".toList, rfl⟩, ?_⟩⟩ <;>
  · intro m hm hs
    have hs' := List.isSuffixOf_iff_suffix.2 hs
    revert m
    decide +kernel

/-! ### Files to which `C124_calculator` applies -/

/-- Reads the numbers 0 and 1. -/
noncomputable def pf01 (s : Str) : Option ℝ := if s = ['0'] then some 0 else if s = ['1'] then some 1 else none

theorem exLinesCal : HasLines "h\nh\nh\nh\nh\nh\nh\nh\nA_1.x 1 1\n0\n0\n0\n0 0 0\n0 0\n0\n1 0 0\n0 1 0\n0 0 1\n".toList ["h".toList, "h".toList, "h".toList, "h".toList, "h".toList, "h".toList, "h".toList, "h".toList, "A_1.x 1 1".toList, "0".toList, "0".toList, "0".toList, "0 0 0".toList, "0 0".toList, "0".toList, "1 0 0".toList, "0 1 0".toList, "0 0 1".toList] :=
  (HasLines.lf (l := "h".toList) ⟨by decide, by decide⟩ (HasLines.lf (l := "h".toList) ⟨by decide, by decide⟩ (HasLines.lf (l := "h".toList) ⟨by decide, by decide⟩ (HasLines.lf (l := "h".toList) ⟨by decide, by decide⟩ (HasLines.lf (l := "h".toList) ⟨by decide, by decide⟩ (HasLines.lf (l := "h".toList) ⟨by decide, by decide⟩ (HasLines.lf (l := "h".toList) ⟨by decide, by decide⟩ (HasLines.lf (l := "h".toList) ⟨by decide, by decide⟩ (HasLines.lf (l := "A_1.x 1 1".toList) ⟨by decide, by decide⟩ (HasLines.lf (l := "0".toList) ⟨by decide, by decide⟩ (HasLines.lf (l := "0".toList) ⟨by decide, by decide⟩ (HasLines.lf (l := "0".toList) ⟨by decide, by decide⟩ (HasLines.lf (l := "0 0 0".toList) ⟨by decide, by decide⟩ (HasLines.lf (l := "0 0".toList) ⟨by decide, by decide⟩ (HasLines.lf (l := "0".toList) ⟨by decide, by decide⟩ (HasLines.lf (l := "1 0 0".toList) ⟨by decide, by decide⟩ (HasLines.lf (l := "0 1 0".toList) ⟨by decide, by decide⟩ (HasLines.lf (l := "0 0 1".toList) ⟨by decide, by decide⟩ .nil))))))))))))))))))

theorem exLinesInt : HasLines "Pix4D\nfpa_width_mm 1\nF 1\nPx 0\nPy 0\n# end\n".toList ["Pix4D".toList, "fpa_width_mm 1".toList, "F 1".toList, "Px 0".toList, "Py 0".toList, "# end".toList] :=
  (HasLines.lf (l := "Pix4D".toList) ⟨by decide, by decide⟩ (HasLines.lf (l := "fpa_width_mm 1".toList) ⟨by decide, by decide⟩ (HasLines.lf (l := "F 1".toList) ⟨by decide, by decide⟩ (HasLines.lf (l := "Px 0".toList) ⟨by decide, by decide⟩ (HasLines.lf (l := "Py 0".toList) ⟨by decide, by decide⟩ (HasLines.lf (l := "# end".toList) ⟨by decide, by decide⟩ .nil))))))

theorem exLinesExt : HasLines "n\nA_1.x 0 0 0 0 0 0\n".toList ["n".toList, "A_1.x 0 0 0 0 0 0".toList] :=
  (HasLines.lf (l := "n".toList) ⟨by decide, by decide⟩ (HasLines.lf (l := "A_1.x 0 0 0 0 0 0".toList) ⟨by decide, by decide⟩ .nil))

example : readExternal pf01 posixSep "n\nA_1.x 0 0 0 0 0 0\n".toList = .ok [("A_1.x".toList, [0, 0, 0, 0, 0, 0])] := by
  unfold readExternal
  rw [readTextList_lines posixSep (.inl rfl) exLinesExt]
  rfl

example : readInternal pf01 posixSep "Pix4D".toList "Pix4D\nfpa_width_mm 1\nF 1\nPx 0\nPy 0\n# end\n".toList =
    .ok [[("fpa_width_mm".toList, 1), ("F".toList, 1), ("Px".toList, 0), ("Py".toList, 0)]] := by
  unfold readInternal
  rw [readTextList_lines posixSep (.inl rfl) exLinesInt]
  rfl

example : readCalibrated pf01 posixSep "h\nh\nh\nh\nh\nh\nh\nh\nA_1.x 1 1\n0\n0\n0\n0 0 0\n0 0\n0\n1 0 0\n0 1 0\n0 0 1\n".toList =
    .ok [("A_1.x".toList, ⟨1, 1, [[0], [0], [0]], [[0, 0, 0]], [[0, 0]], [[0]], [[1, 0, 0], [0, 1, 0], [0, 0, 1]]⟩)] := by
  unfold readCalibrated
  rw [readTextList_lines posixSep (.inl rfl) exLinesCal]
  rfl

end Verif.Collect
