import Verif.Props.Collect
import Verif.Lemmas.EnviHeader

/-! C128: the other entries of the dictionary made from the directory of a pix4d collect. -/

set_option linter.unusedSectionVars false

namespace Verif.Collect
open Verif Verif.TextUtils Verif.Envi Verif.Readers Verif.Camera Verif.Rotation Matrix

variable {P : Type}

theorem masterEntry_name {external : Dict (List ℝ)} {internal : List (Dict ℝ)} {p : Str × Readers.Calibrated ℝ} {e : Str × Master ℝ}
    (h : masterEntry external internal p = .ok e) : e.1 = p.1 ∧ lookup external p.1 = some e.2.external ∧ (cameraText p.1).length = 1 := by
  unfold masterEntry at h
  cases hx : lookup external p.1 with
  | none => rw [hx] at h; cases h
  | some x =>
    rw [hx] at h
    obtain ⟨a, ha, h⟩ := bind_ok h
    cases ha
    obtain ⟨i, hi, h⟩ := bind_ok h
    cases h
    refine ⟨rfl, rfl, ?_⟩
    unfold cameraOf at hi
    by_contra hne
    rw [if_pos hne] at hi
    cases hi

theorem special_text : (cameraText projKey).length ≠ 1 ∧ (cameraText rotKey).length ≠ 1 := by decide +kernel

theorem storeAll_nodup {V : Type} (f : List Str → Py (Str × V)) (recs : List (List Str)) : ∀ (d d' : Dict V), (d.map Prod.fst).Nodup →
    storeAll f recs d = .ok d' → (d'.map Prod.fst).Nodup := by
  induction recs with
  | nil => intro d d' h e; cases e; exact h
  | cons r rs ih =>
    intro d d' h e
    obtain ⟨a, -, e⟩ := bind_ok e
    exact ih _ _ (setKey_nodup d a.1 a.2 h) e

/-- Every value stored is one a line gave. -/
theorem storeAll_values {V : Type} (f : List Str → Py (Str × V)) (Q : V → Prop) (hf : ∀ r k v, f r = .ok (k, v) → Q v) (recs : List (List Str)) :
    ∀ (d d' : Dict V), (∀ k v, lookup d k = some v → Q v) → storeAll f recs d = .ok d' → ∀ k v, lookup d' k = some v → Q v := by
  induction recs with
  | nil => intro d d' h e; cases e; exact h
  | cons r rs ih =>
    intro d d' h e
    obtain ⟨a, ha, e⟩ := bind_ok e
    refine ih _ _ ?_ e
    intro k v hk
    rw [lookup_setKey] at hk
    split at hk
    · cases hk
      exact hf r a.1 a.2 ha
    · exact h k v hk

/-- The external parameters of an image are six numbers. -/
theorem external_six {pf : Str → Option ℝ} {ls file : Str} {E : Dict (List ℝ)} (h : readExternal pf ls file = .ok E) {k : Str} {v : List ℝ}
    (hk : lookup E k = some v) : v.length = 6 := by
  refine storeAll_values _ (fun v => v.length = 6) ?_ _ [] E (by intro k v h; cases h) h k v hk
  intro r k v hr
  split at hr
  · unfold readExternalLine at hr
    split at hr
    · obtain ⟨vs, hvs, hr⟩ := bind_ok hr
      cases hr
      exact ((mapM_ok_iff _ _ _).1 hvs).1
    · cases hr
  · cases hr

theorem createR_ok {v : List ℝ} (h : v.length = 6) : ∃ r, createR v = .ok r := by
  match v, h with
  | [a, b, c, d, e, f], _ => exact ⟨_, rfl⟩

theorem full_fold (E : Dict (List ℝ)) (I : List (Dict ℝ)) : ∀ (cal : List (Str × Readers.Calibrated ℝ)) (m : Dict (Master ℝ)) (d : Dict (MasterVal P)),
    cal.mapM (masterEntry E I) = .ok m → (m.map Prod.fst).Nodup → (∀ p ∈ m, ∃ r, createR p.2.external = .ok r) →
    ∃ d', cal.foldlM (fullTurn E I) d = .ok d' ∧
      (∀ k, k ≠ rotKey → lookup d' k = ((lookup m k).map MasterVal.image).or (lookup d k)) ∧
      (m = [] → d' = d) ∧ ∀ p r, m.getLast? = some p → createR p.2.external = .ok r → lookup d' rotKey = some (.rotation r) := by
  intro cal
  induction cal with
  | nil =>
    intro m d hm _ _
    cases hm
    exact ⟨d, rfl, fun k _ => by simp [lookup], fun _ => rfl, by simp⟩
  | cons p cal ih =>
    intro m d hm hnd hr
    rw [List.mapM_cons] at hm
    obtain ⟨e, he, hm⟩ := bind_ok hm
    obtain ⟨m', hm', hm⟩ := bind_ok hm
    cases hm
    rw [List.map_cons, List.nodup_cons] at hnd
    obtain ⟨r, hre⟩ := hr e (by simp)
    obtain ⟨d', h1, h2, h3, h4⟩ := ih m' (setKey (setKey d e.1 (.image e.2)) rotKey (.rotation r)) hm' hnd.2 (fun q hq => hr q (by simp [hq]))
    refine ⟨d', ?_, ?_, by simp, ?_⟩
    · rw [List.foldlM_cons]
      have : fullTurn E I d p = .ok (setKey (setKey d e.1 (.image e.2)) rotKey (.rotation r)) := by
        unfold fullTurn
        rw [he, ok_bind, hre, ok_bind]
      rw [this, ok_bind, h1]
    · intro k hk
      rw [h2 k hk, lookup_setKey, if_neg hk, lookup_setKey]
      by_cases hke : k = e.1
      · subst hke
        have hnone : lookup m' e.1 = none := by
          cases hl : lookup m' e.1 with
          | none => rfl
          | some v => exact absurd (List.mem_map_of_mem (f := Prod.fst) (lookup_some_mem _ _ _ hl)) hnd.1
        rw [hnone, if_pos rfl]
        simp [lookup]
      · rw [if_neg hke]
        congr 2
        simp [lookup, List.find?_cons, Ne.symm hke]
    · intro q s hq hs
      cases hm2 : m' with
      | nil =>
        subst hm2
        simp only [List.getLast?_singleton, Option.some.injEq] at hq
        subst hq
        rw [hre] at hs
        cases hs
        rw [h3 rfl, lookup_setKey, if_pos rfl]
      | cons a t =>
        refine h4 q s ?_ hs
        rw [hm2] at hq ⊢
        simpa [List.getLast?_cons_cons] using hq

/-- Specification: the last image of the collect, in the order of the calibrated parameters. -/
def LastImage (m : Dict (Master ℝ)) (p : Str × Master ℝ) : Prop := ∃ l, m = l ++ [p]

theorem master_all (mkProj : Str → Py P) (pf : Str → Option ℝ) (ls search : Str) (listing : List Str) (content : Str → Option Str) (base : Str)
    (ext int cal wkt : Option Str) (m : Dict (Master ℝ)) (h : makeMasterDir pf ls search listing content base ext int cal wkt = .ok m) :
    (m.map Prod.fst).Nodup ∧ (∀ p ∈ m, p.1 ≠ projKey ∧ p.1 ≠ rotKey ∧ p.2.external.length = 6) ∧
    ∃ w text, chooseFile listing wkt wktEnding = .ok w ∧ content (Micasense.pathJoin base w) = some text ∧
      (∀ e, mkProj text = .error e → makeMasterAll mkProj pf ls search listing content base ext int cal wkt = .error e) ∧
      ∀ proj, mkProj text = .ok proj → ∃ all, makeMasterAll mkProj pf ls search listing content base ext int cal wkt = .ok all ∧
        lookup all projKey = some (.projection proj) ∧
        (∀ k, k ≠ projKey → k ≠ rotKey → lookup all k = (lookup m k).map MasterVal.image) ∧
        (m = [] → lookup all rotKey = none) ∧
        ∀ p r, LastImage m p → createR p.2.external = .ok r → lookup all rotKey = some (.rotation r) := by
  unfold makeMasterDir at h
  obtain ⟨e, he, h⟩ := bind_ok h
  obtain ⟨i, hi, h⟩ := bind_ok h
  obtain ⟨c, hc, h⟩ := bind_ok h
  obtain ⟨w, hw, h⟩ := bind_ok h
  obtain ⟨et, het, h⟩ := bind_ok h
  obtain ⟨E, hE, h⟩ := bind_ok h
  obtain ⟨it, hit, h⟩ := bind_ok h
  obtain ⟨I, hI, h⟩ := bind_ok h
  obtain ⟨ct, hct, h⟩ := bind_ok h
  obtain ⟨C, hC, h⟩ := bind_ok h
  obtain ⟨wt, hwt, h⟩ := bind_ok h
  unfold masterDict at h
  have hcn : (C.map Prod.fst).Nodup := storeAll_nodup _ _ [] C (by simp) hC
  obtain ⟨hlen, hall⟩ := (mapM_ok_iff _ _ _).1 h
  have hsame : m.map Prod.fst = C.map Prod.fst := by
    apply List.ext_getElem?
    intro j
    rw [List.getElem?_map, List.getElem?_map]
    cases hj : C[j]? with
    | none =>
      rw [List.getElem?_eq_none_iff] at hj
      rw [List.getElem?_eq_none (by omega)]
      rfl
    | some p =>
      obtain ⟨b, hb, hmj⟩ := hall j p hj
      rw [hmj]
      simp [(masterEntry_name hb).1]
  have hmn : (m.map Prod.fst).Nodup := hsame ▸ hcn
  have hprops : ∀ p ∈ m, p.1 ≠ projKey ∧ p.1 ≠ rotKey ∧ p.2.external.length = 6 := by
    intro p hp
    obtain ⟨j, hj⟩ := List.getElem?_of_mem hp
    have hjC : j < C.length := by
      have := (List.getElem?_eq_some_iff.1 hj).1
      omega
    obtain ⟨b, hb, hmj⟩ := hall j _ (List.getElem?_eq_getElem hjC)
    rw [hj] at hmj
    cases hmj
    obtain ⟨n1, n2, n3⟩ := masterEntry_name hb
    rw [← n1] at n3
    refine ⟨?_, ?_, external_six hE n2⟩
    · intro hk; rw [hk] at n3; exact special_text.1 n3
    · intro hk; rw [hk] at n3; exact special_text.2 n3
  have hread : content (Micasense.pathJoin base w) = some wt := by
    unfold readFile at hwt
    split at hwt
    · cases hwt; assumption
    · cases hwt
  refine ⟨hmn, hprops, w, wt, hw, hread, ?_, ?_⟩
  · intro err herr
    unfold makeMasterAll
    rw [he, ok_bind, hi, ok_bind, hc, ok_bind, hw, ok_bind, het, ok_bind, hE, ok_bind, hit, ok_bind, hI, ok_bind, hct, ok_bind, hC, ok_bind, hwt,
      ok_bind, herr, error_bind]
  · intro proj hproj
    obtain ⟨all, h1, h2, h3, h4⟩ := full_fold E I C m [(projKey, MasterVal.projection proj)] h hmn (fun p hp => createR_ok (hprops p hp).2.2)
    refine ⟨all, ?_, ?_, ?_, ?_, ?_⟩
    · unfold makeMasterAll
      rw [he, ok_bind, hi, ok_bind, hc, ok_bind, hw, ok_bind, het, ok_bind, hE, ok_bind, hit, ok_bind, hI, ok_bind, hct, ok_bind, hC, ok_bind, hwt,
        ok_bind, hproj, ok_bind, h1]
    · rw [h2 projKey (by decide)]
      have : lookup m projKey = none := by
        cases hl : lookup m projKey with
        | none => rfl
        | some v => exact absurd rfl (hprops _ (lookup_some_mem _ _ _ hl)).1
      rw [this]
      simp [lookup]
    · intro k k1 k2
      rw [h2 k k2]
      have : lookup [(projKey, MasterVal.projection proj)] k = none := by
        simp [lookup, List.find?_cons, Ne.symm k1]
      rw [this, Option.or_none]
    · intro hm0
      rw [h3 hm0]
      simp only [lookup, List.find?_cons, List.find?_nil]
      rw [show decide (projKey = rotKey) = false by decide]
      rfl
    · rintro p r ⟨l, rfl⟩ hr
      exact h4 p r (by simp) hr

/-- C128, the part that holds: wherever `make_master_dict` finds and reads its files, the dictionary holds under 'projection' what osr and pyproj make of
the projection file (their exception is passed on), and under every other name except 'r_matrix_computed' exactly the image entries of C82 and C124: no
image can be called by one of the two special names.  Missing from the full statement: the rotation matrices, see `C128_rotation_false`. -/
theorem C128_contents_partial (mkProj : Str → Py P) (pf : Str → Option ℝ) (ls search : Str) (listing : List Str) (content : Str → Option Str) (base : Str)
    (ext int cal wkt : Option Str) (m : Dict (Master ℝ)) (h : makeMasterDir pf ls search listing content base ext int cal wkt = .ok m) :
    (∀ p ∈ m, p.1 ≠ "projection".toList ∧ p.1 ≠ "r_matrix_computed".toList) ∧
    ∃ w text, chooseFile listing wkt wktEnding = .ok w ∧ content (Micasense.pathJoin base w) = some text ∧
      (∀ e, mkProj text = .error e → makeMasterAll mkProj pf ls search listing content base ext int cal wkt = .error e) ∧
      ∀ proj, mkProj text = .ok proj → ∃ all, makeMasterAll mkProj pf ls search listing content base ext int cal wkt = .ok all ∧
        lookup all "projection".toList = some (.projection proj) ∧
        ∀ k, k ≠ "projection".toList → k ≠ "r_matrix_computed".toList → lookup all k = (lookup m k).map MasterVal.image := by
  obtain ⟨-, h2, w, text, h3, h4, h5, h6⟩ := master_all mkProj pf ls search listing content base ext int cal wkt m h
  refine ⟨fun p hp => ⟨(h2 p hp).1, (h2 p hp).2.1⟩, w, text, h3, h4, h5, ?_⟩
  intro proj hp
  obtain ⟨all, a1, a2, a3, -, -⟩ := h6 proj hp
  exact ⟨all, a1, a2, a3⟩

/-- C128 fails for the rotation matrices: the dictionary has one entry 'r_matrix_computed', the matrix of the last image's angles (none when there is no
image).  The matrix computed for any image whose matrix differs from the last one's is nowhere in the dictionary. -/
theorem C128_rotation_false (mkProj : Str → Py P) (pf : Str → Option ℝ) (ls search : Str) (listing : List Str) (content : Str → Option Str) (base : Str)
    (ext int cal wkt : Option Str) (m : Dict (Master ℝ)) (h : makeMasterDir pf ls search listing content base ext int cal wkt = .ok m)
    (all : Dict (MasterVal P)) (ha : makeMasterAll mkProj pf ls search listing content base ext int cal wkt = .ok all) :
    (∀ k r, lookup all k = some (.rotation r) ↔ k = "r_matrix_computed".toList ∧ ∃ p, LastImage m p ∧ createR p.2.external = .ok r) ∧
    ∀ p r last s, p ∈ m → createR p.2.external = .ok r → LastImage m last → createR last.2.external = .ok s → r ≠ s →
      ∀ k, lookup all k ≠ some (.rotation r) := by
  obtain ⟨-, h2, w, text, h3, h4, h5, h6⟩ := master_all mkProj pf ls search listing content base ext int cal wkt m h
  have key : ∀ k r, lookup all k = some (.rotation r) ↔ k = "r_matrix_computed".toList ∧ ∃ p, LastImage m p ∧ createR p.2.external = .ok r := by
    cases hp : mkProj text with
    | error e => rw [h5 e hp] at ha; cases ha
    | ok proj =>
      obtain ⟨all', a1, a2, a3, a4, a5⟩ := h6 proj hp
      rw [ha] at a1
      cases a1
      intro k r
      constructor
      · intro hk
        by_cases k1 : k = projKey
        · rw [k1, a2] at hk; cases hk
        by_cases k2 : k = rotKey
        · refine ⟨k2, ?_⟩
          rw [k2] at hk
          rcases List.eq_nil_or_concat m with hm | ⟨l, p, hm⟩
          · rw [a4 hm] at hk; cases hk
          · rw [List.concat_eq_append] at hm
            obtain ⟨s, hs⟩ := createR_ok (h2 p (by rw [hm]; simp)).2.2
            rw [a5 p s ⟨l, hm⟩ hs] at hk
            cases hk
            exact ⟨p, ⟨l, hm⟩, hs⟩
        · rw [a3 k k1 k2] at hk
          cases hl : lookup m k with
          | none => rw [hl] at hk; cases hk
          | some v => rw [hl] at hk; cases hk
      · rintro ⟨rfl, p, hp, hr⟩
        exact a5 p r hp hr
  refine ⟨key, ?_⟩
  intro p r last s _ hr hl hs hne k hk
  obtain ⟨-, q, ⟨l', hq⟩, hqr⟩ := (key k r).1 hk
  obtain ⟨l, hm⟩ := hl
  rw [hm] at hq
  have : last = q := by
    have := congrArg List.getLast? hq
    simpa using this
  subst this
  rw [hs] at hqr
  cases hqr
  exact hne rfl

/-! ### A collect of two images to which both theorems apply -/

theorem exLinesCal2 : HasLines "h\nh\nh\nh\nh\nh\nh\nh\nA_1.x 1 1\n0\n0\n0\n0 0 0\n0 0\n0\n1 0 0\n0 1 0\n0 0 1\nB_1.x 1 1\n0\n0\n0\n0 0 0\n0 0\n0\n1 0 0\n0 1 0\n0 0 1\n".toList ["h".toList, "h".toList, "h".toList, "h".toList, "h".toList, "h".toList, "h".toList, "h".toList, "A_1.x 1 1".toList, "0".toList, "0".toList, "0".toList, "0 0 0".toList, "0 0".toList, "0".toList, "1 0 0".toList, "0 1 0".toList, "0 0 1".toList, "B_1.x 1 1".toList, "0".toList, "0".toList, "0".toList, "0 0 0".toList, "0 0".toList, "0".toList, "1 0 0".toList, "0 1 0".toList, "0 0 1".toList] :=
  (HasLines.lf (l := "h".toList) ⟨by decide, by decide⟩ (HasLines.lf (l := "h".toList) ⟨by decide, by decide⟩ (HasLines.lf (l := "h".toList) ⟨by decide, by decide⟩ (HasLines.lf (l := "h".toList) ⟨by decide, by decide⟩ (HasLines.lf (l := "h".toList) ⟨by decide, by decide⟩ (HasLines.lf (l := "h".toList) ⟨by decide, by decide⟩ (HasLines.lf (l := "h".toList) ⟨by decide, by decide⟩ (HasLines.lf (l := "h".toList) ⟨by decide, by decide⟩ (HasLines.lf (l := "A_1.x 1 1".toList) ⟨by decide, by decide⟩ (HasLines.lf (l := "0".toList) ⟨by decide, by decide⟩ (HasLines.lf (l := "0".toList) ⟨by decide, by decide⟩ (HasLines.lf (l := "0".toList) ⟨by decide, by decide⟩ (HasLines.lf (l := "0 0 0".toList) ⟨by decide, by decide⟩ (HasLines.lf (l := "0 0".toList) ⟨by decide, by decide⟩ (HasLines.lf (l := "0".toList) ⟨by decide, by decide⟩ (HasLines.lf (l := "1 0 0".toList) ⟨by decide, by decide⟩ (HasLines.lf (l := "0 1 0".toList) ⟨by decide, by decide⟩ (HasLines.lf (l := "0 0 1".toList) ⟨by decide, by decide⟩ (HasLines.lf (l := "B_1.x 1 1".toList) ⟨by decide, by decide⟩ (HasLines.lf (l := "0".toList) ⟨by decide, by decide⟩ (HasLines.lf (l := "0".toList) ⟨by decide, by decide⟩ (HasLines.lf (l := "0".toList) ⟨by decide, by decide⟩ (HasLines.lf (l := "0 0 0".toList) ⟨by decide, by decide⟩ (HasLines.lf (l := "0 0".toList) ⟨by decide, by decide⟩ (HasLines.lf (l := "0".toList) ⟨by decide, by decide⟩ (HasLines.lf (l := "1 0 0".toList) ⟨by decide, by decide⟩ (HasLines.lf (l := "0 1 0".toList) ⟨by decide, by decide⟩ (HasLines.lf (l := "0 0 1".toList) ⟨by decide, by decide⟩ .nil))))))))))))))))))))))))))))

theorem exLinesExt2 : HasLines "n\nA_1.x 0 0 0 0 0 0\nB_1.x 0 0 0 0 0 1\n".toList ["n".toList, "A_1.x 0 0 0 0 0 0".toList, "B_1.x 0 0 0 0 0 1".toList] :=
  (HasLines.lf (l := "n".toList) ⟨by decide, by decide⟩ (HasLines.lf (l := "A_1.x 0 0 0 0 0 0".toList) ⟨by decide, by decide⟩ (HasLines.lf (l := "B_1.x 0 0 0 0 0 1".toList) ⟨by decide, by decide⟩ .nil)))

/-- The files of a directory `d`. -/
def exContent (p : Str) : Option Str :=
  if p = "d/a_calibrated_external_camera_parameters.txt".toList then some "n\nA_1.x 0 0 0 0 0 0\nB_1.x 0 0 0 0 0 1\n".toList
  else if p = "d/a_pix4d_calibrated_internal_camera_parameters.cam".toList then some "Pix4D\nfpa_width_mm 1\nF 1\nPx 0\nPy 0\n# end\n".toList
  else if p = "d/a_calibrated_camera_parameters.txt".toList then some "h\nh\nh\nh\nh\nh\nh\nh\nA_1.x 1 1\n0\n0\n0\n0 0 0\n0 0\n0\n1 0 0\n0 1 0\n0 0 1\nB_1.x 1 1\n0\n0\n0\n0 0 0\n0 0\n0\n1 0 0\n0 1 0\n0 0 1\n".toList
  else if p = "d/a_wkt.prj".toList then some "utm".toList
  else none

/-- Its listing. -/
def exListing : List Str := ["a_calibrated_external_camera_parameters.txt".toList, "a_pix4d_calibrated_internal_camera_parameters.cam".toList,
  "a_calibrated_camera_parameters.txt".toList, "a_wkt.prj".toList]

/-- What is read for both images. -/
noncomputable def exCal : Readers.Calibrated ℝ := ⟨1, 1, [[0], [0], [0]], [[0, 0, 0]], [[0, 0]], [[0]], [[1, 0, 0], [0, 1, 0], [0, 0, 1]]⟩

/-- The internal parameters of the one camera. -/
noncomputable def exInt : Dict ℝ := [("fpa_width_mm".toList, 1), ("F".toList, 1), ("Px".toList, 0), ("Py".toList, 0)]

example : makeMasterDir pf01 posixSep "Pix4D".toList exListing exContent "d".toList none none none none =
    .ok [("A_1.x".toList, ⟨exCal, [0, 0, 0, 0, 0, 0], exInt⟩), ("B_1.x".toList, ⟨exCal, [0, 0, 0, 0, 0, 1], exInt⟩)] := by
  have h1 : readExternal pf01 posixSep "n\nA_1.x 0 0 0 0 0 0\nB_1.x 0 0 0 0 0 1\n".toList = .ok [("A_1.x".toList, [0, 0, 0, 0, 0, 0]), ("B_1.x".toList, [0, 0, 0, 0, 0, 1])] := by
    unfold readExternal
    rw [readTextList_lines posixSep (.inl rfl) exLinesExt2]
    rfl
  have h2 : readInternal pf01 posixSep "Pix4D".toList "Pix4D\nfpa_width_mm 1\nF 1\nPx 0\nPy 0\n# end\n".toList = .ok [exInt] := by
    unfold readInternal
    rw [readTextList_lines posixSep (.inl rfl) exLinesInt]
    rfl
  have h3 : readCalibrated pf01 posixSep "h\nh\nh\nh\nh\nh\nh\nh\nA_1.x 1 1\n0\n0\n0\n0 0 0\n0 0\n0\n1 0 0\n0 1 0\n0 0 1\nB_1.x 1 1\n0\n0\n0\n0 0 0\n0 0\n0\n1 0 0\n0 1 0\n0 0 1\n".toList = .ok [("A_1.x".toList, exCal), ("B_1.x".toList, exCal)] := by
    unfold readCalibrated
    rw [readTextList_lines posixSep (.inl rfl) exLinesCal2]
    rfl
  have c1 : chooseFile exListing none extEnding = .ok "a_calibrated_external_camera_parameters.txt".toList := by decide +kernel
  have c2 : chooseFile exListing none intEnding = .ok "a_pix4d_calibrated_internal_camera_parameters.cam".toList := by decide +kernel
  have c3 : chooseFile exListing none calEnding = .ok "a_calibrated_camera_parameters.txt".toList := by decide +kernel
  have c4 : chooseFile exListing none wktEnding = .ok "a_wkt.prj".toList := by decide +kernel
  have r1 : readFile exContent (Micasense.pathJoin "d".toList "a_calibrated_external_camera_parameters.txt".toList) = .ok "n\nA_1.x 0 0 0 0 0 0\nB_1.x 0 0 0 0 0 1\n".toList := by decide +kernel
  have r2 : readFile exContent (Micasense.pathJoin "d".toList "a_pix4d_calibrated_internal_camera_parameters.cam".toList) = .ok "Pix4D\nfpa_width_mm 1\nF 1\nPx 0\nPy 0\n# end\n".toList := by decide +kernel
  have r3 : readFile exContent (Micasense.pathJoin "d".toList "a_calibrated_camera_parameters.txt".toList) = .ok "h\nh\nh\nh\nh\nh\nh\nh\nA_1.x 1 1\n0\n0\n0\n0 0 0\n0 0\n0\n1 0 0\n0 1 0\n0 0 1\nB_1.x 1 1\n0\n0\n0\n0 0 0\n0 0\n0\n1 0 0\n0 1 0\n0 0 1\n".toList := by decide +kernel
  have r4 : readFile exContent (Micasense.pathJoin "d".toList "a_wkt.prj".toList) = .ok "utm".toList := by decide +kernel
  unfold makeMasterDir
  rw [c1, ok_bind, c2, ok_bind, c3, ok_bind, c4, ok_bind, r1, ok_bind, h1, ok_bind, r2, ok_bind, h2, ok_bind, r3, ok_bind, h3, ok_bind, r4, ok_bind]
  rfl

/-- The matrices of the two images differ. -/
example : createR [0, 0, 0, 0, 0, 0] ≠ createR [0, 0, 0, 0, 0, 1] := by
  intro h
  simp only [createR, List.getElem?_cons_succ, List.getElem?_cons_zero, Except.ok.injEq] at h
  have := congrFun (congrFun h 0) 1
  simp [deg2rad] at this
  have hp := Real.sin_pos_of_pos_of_lt_pi (x := Real.pi / 180) (by positivity) (by linarith [Real.pi_pos])
  linarith

end Verif.Collect
