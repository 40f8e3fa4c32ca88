import Verif.Model.NavHistory
import Verif.Lemmas.Base

/-! C154: a navigation object holds the records and the projection of one load. -/

namespace Verif.Nav
open Verif Envi

set_option linter.unusedSectionVars false

section
variable {K P : Type} [Field K] [LinearOrder K] [IsStrictOrderedRing K]

/-! ### Specification -/

/-- A call of either loader: what it reads, once the file is open (`.error` when it cannot be read), and the projection it asks for. -/
structure NavLoad (K P : Type) where
  records : Py (NavObj K)
  projection : Py P

/-- The object holds the records `o`. -/
def NavState.Holds (s : NavState K P) (o : NavObj K) : Prop := s.data = some o.data ∧ s.numRecords = o.numRecords ∧ s.recordLength = o.recordLength

/-! ### Lemmas -/

/-- A load described by what it reads and the projection it makes. -/
def loadWith (l : NavLoad K P) (s : NavState K P) : NavState K P × Py Unit :=
  match l.records with
  | .error e => (s, .error e)
  | .ok o =>
    match l.projection with
    | .error e => ({ s with data := some o.data, numRecords := o.numRecords, recordLength := o.recordLength }, .error e)
    | .ok p => (⟨some o.data, o.numRecords, o.recordLength, some p⟩, .ok ())

theorem loadEo_eq (openFile : Str → Py (List (List Str))) (parse : Str → Option K) (mkProj : List (Str × Str) → Py P) (s : NavState K P) (fname : Str) (a : ProjArgs) :
    loadEo openFile parse mkProj s fname a = loadWith ⟨(openFile fname).map (eoObject parse), mkProj a.keywords⟩ s := by
  unfold loadEo loadWith setNavProjection
  cases openFile fname with
  | error e => rfl
  | ok lines => cases mkProj a.keywords <;> rfl

theorem loadSbet_eq (pdal : Str → Py (Nat × Option (List (Str × List K)))) (mkProj : List (Str × Str) → Py P) (s : NavState K P) (fname : Str) (a : ProjArgs)
    (n : Nat) (fields : List (Str × List K)) (h : pdal fname = .ok (n, some fields)) :
    loadSbet pdal mkProj s fname a = loadWith ⟨.ok (sbetLoad fields n), mkProj a.keywords⟩ s := by
  unfold loadSbet loadWith setNavProjection
  rw [h]
  cases hm : mkProj a.keywords <;> simp only [hm]

/-! ### C154 -/

/-- C154.  An object from a factory (exterior-orientation file): it holds the file's records, and the projection of the arguments, whatever they are; the factory
raises exactly when the file cannot be read or pyproj refuses the arguments. -/
theorem C154_factory_eo (openFile : Str → Py (List (List Str))) (parse : Str → Option K) (mkProj : List (Str × Str) → Py P) (fname : Str) (a : ProjArgs) :
    (∀ lines p, openFile fname = .ok lines → mkProj a.keywords = .ok p →
      ∃ s, navFactory (fun s => loadEo openFile parse mkProj s fname a) = .ok s ∧ s.Holds (eoObject parse lines) ∧ s.projection = some p) ∧
    (∀ e, openFile fname = .error e → navFactory (fun s => loadEo openFile parse mkProj s fname a) = .error e) ∧
    (∀ lines e, openFile fname = .ok lines → mkProj a.keywords = .error e → navFactory (fun s => loadEo openFile parse mkProj s fname a) = .error e) := by
  refine ⟨?_, ?_, ?_⟩
  · intro lines p h1 h2
    refine ⟨⟨some (eoObject parse lines).data, (eoObject parse lines).numRecords, (eoObject parse lines).recordLength, some p⟩, ?_, ⟨rfl, rfl, rfl⟩, rfl⟩
    unfold navFactory loadEo setNavProjection
    simp only [h1, h2]
  · intro e h
    unfold navFactory loadEo
    simp only [h]
  · intro lines e h1 h2
    unfold navFactory loadEo setNavProjection
    simp only [h1, h2]

/-- C154, the same for a trajectory file (SBET); a pipeline without an array is an IndexError. -/
theorem C154_factory_sbet (pdal : Str → Py (Nat × Option (List (Str × List K)))) (mkProj : List (Str × Str) → Py P) (fname : Str) (a : ProjArgs) :
    (∀ n fields p, pdal fname = .ok (n, some fields) → mkProj a.keywords = .ok p →
      ∃ s, navFactory (fun s => loadSbet pdal mkProj s fname a) = .ok s ∧ s.Holds (sbetLoad fields n) ∧ s.projection = some p) ∧
    (∀ e, pdal fname = .error e → navFactory (fun s => loadSbet pdal mkProj s fname a) = .error e) ∧
    (∀ n, pdal fname = .ok (n, none) → navFactory (fun s => loadSbet pdal mkProj s fname a) = .error .indexError) ∧
    (∀ n fields e, pdal fname = .ok (n, some fields) → mkProj a.keywords = .error e → navFactory (fun s => loadSbet pdal mkProj s fname a) = .error e) := by
  refine ⟨?_, ?_, ?_, ?_⟩
  · intro n fields p h1 h2
    refine ⟨⟨some (sbetLoad fields n).data, (sbetLoad fields n).numRecords, (sbetLoad fields n).recordLength, some p⟩, ?_, ⟨rfl, rfl, rfl⟩, rfl⟩
    unfold navFactory loadSbet setNavProjection
    simp only [h1, h2]
  · intro e h
    unfold navFactory loadSbet
    simp only [h]
  · intro n h
    unfold navFactory loadSbet
    simp only [h]
  · intro n fields e h1 h2
    unfold navFactory loadSbet setNavProjection
    simp only [h1, h2]

/-- C154: the zone is passed on exactly when there is one; the other arguments always are, each under its own name. -/
theorem C154_keywords (a : ProjArgs) : lookup a.keywords "proj".toList = some a.proj ∧ lookup a.keywords "ellps".toList = some a.ellps ∧
    lookup a.keywords "datum".toList = some a.datum ∧ (∀ z, a.zone = some z → z ≠ [] → lookup a.keywords "zone".toList = some z) ∧
    ((a.zone = none ∨ a.zone = some []) → lookup a.keywords "zone".toList = none) ∧
    ∀ k, lookup a.keywords k ≠ none → k ∈ ["proj".toList, "zone".toList, "ellps".toList, "datum".toList] := by
  obtain ⟨proj, zone, ellps, datum⟩ := a
  cases zone with
  | none =>
    simp +decide [ProjArgs.keywords, lookup]
    intro k h
    by_contra hc
    push Not at hc
    exact hc.2.2.2 (h (Ne.symm hc.1) (Ne.symm hc.2.2.1)).symm
  | some z =>
    by_cases hz : z = []
    · subst hz
      simp +decide [ProjArgs.keywords, lookup]
      intro k h
      by_contra hc
      push Not at hc
      exact hc.2.2.2 (h (Ne.symm hc.1) (Ne.symm hc.2.2.1)).symm
    · simp +decide [ProjArgs.keywords, lookup, hz]
      intro k h
      by_contra hc
      push Not at hc
      exact hc.2.2.2 (h (Ne.symm hc.1) (Ne.symm hc.2.1) (Ne.symm hc.2.2.1)).symm

/-- C154, exactly, after any history of loads of exterior-orientation files into one object (calls that raise included): the records are those of the last
call that could read its file, the projection is that of the last call that did not raise. -/
theorem C154_history_exact_partial (openFile : Str → Py (List (List Str))) (parse : Str → Option K) (mkProj : List (Str × Str) → Py P) (s0 : NavState K P)
    (calls : List (Str × ProjArgs)) :
    let s := calls.foldl (fun s c => (loadEo openFile parse mkProj s c.1 c.2).1) s0
    (∀ before c after lines, calls = before ++ c :: after → openFile c.1 = .ok lines → (∀ c' ∈ after, ∃ e, openFile c'.1 = .error e) →
      s.Holds (eoObject parse lines)) ∧
    ((∀ c ∈ calls, ∃ e, openFile c.1 = .error e) → s = s0) ∧
    (∀ before c after p, calls = before ++ c :: after → (∃ lines, openFile c.1 = .ok lines) → mkProj c.2.keywords = .ok p →
      (∀ c' ∈ after, (∃ e, openFile c'.1 = .error e) ∨ ∃ e, mkProj c'.2.keywords = .error e) → s.projection = some p) ∧
    ((∀ c ∈ calls, (∃ e, openFile c.1 = .error e) ∨ ∃ e, mkProj c.2.keywords = .error e) → s.projection = s0.projection) := by
  have unread : ∀ (l : List (Str × ProjArgs)) (s : NavState K P), (∀ c ∈ l, ∃ e, openFile c.1 = .error e) →
      l.foldl (fun s c => (loadEo openFile parse mkProj s c.1 c.2).1) s = s := by
    intro l
    induction l with
    | nil => intro s _; rfl
    | cons c l ih =>
      intro s h
      obtain ⟨e, he⟩ := h c List.mem_cons_self
      rw [List.foldl_cons, loadEo_eq, he]
      exact ih s (fun c' hc' => h c' (List.mem_cons_of_mem _ hc'))
  have noproj : ∀ (l : List (Str × ProjArgs)) (s : NavState K P), (∀ c ∈ l, (∃ e, openFile c.1 = .error e) ∨ ∃ e, mkProj c.2.keywords = .error e) →
      (l.foldl (fun s c => (loadEo openFile parse mkProj s c.1 c.2).1) s).projection = s.projection := by
    intro l
    induction l with
    | nil => intro s _; rfl
    | cons c l ih =>
      intro s h
      rw [List.foldl_cons, ih _ (fun c' hc' => h c' (List.mem_cons_of_mem _ hc')), loadEo_eq]
      unfold loadWith
      cases ho : openFile c.1 with
      | error e => rfl
      | ok lines =>
        rcases h c List.mem_cons_self with ⟨e, he⟩ | ⟨e, he⟩
        · rw [ho] at he; cases he
        · rw [he]; rfl
  intro s
  refine ⟨?_, unread calls s0, ?_, noproj calls s0⟩
  · intro before c after lines hc ho ha
    show NavState.Holds (calls.foldl _ s0) _
    rw [hc, List.foldl_append, List.foldl_cons, unread after _ ha, loadEo_eq, ho]
    unfold loadWith
    cases hm : mkProj c.2.keywords with
    | error e => exact ⟨rfl, rfl, rfl⟩
    | ok p => exact ⟨rfl, rfl, rfl⟩
  · rintro before c after p hc ⟨lines, ho⟩ hm ha
    show (calls.foldl _ s0).projection = _
    rw [hc, List.foldl_append, List.foldl_cons, noproj after _ ha, loadEo_eq, ho, hm]
    rfl

/-- C154: an object whose first load cannot read its file reports the error and is still empty: no records, no projection. -/
theorem C154_new (openFile : Str → Py (List (List Str))) (parse : Str → Option K) (mkProj : List (Str × Str) → Py P) (fname : Str) (a : ProjArgs) (e : Err)
    (h : openFile fname = .error e) :
    loadEo openFile parse mkProj (navInit : NavState K P) fname a = ({ data := none, numRecords := 0, recordLength := 0, projection := none }, .error e) := by
  unfold loadEo
  rw [h]
  rfl

/-- C154 is false of a load that raises: given a file that can be read and projection arguments pyproj refuses, the call raises, and the object now has the new
file's records with the old projection. -/
theorem C154_reload_false (openFile : Str → Py (List (List Str))) (parse : Str → Option K) (mkProj : List (Str × Str) → Py P) (s : NavState K P) (fname : Str)
    (a : ProjArgs) (lines : List (List Str)) (e : Err) (h1 : openFile fname = .ok lines) (h2 : mkProj a.keywords = .error e) :
    (loadEo openFile parse mkProj s fname a).2 = .error e ∧ (loadEo openFile parse mkProj s fname a).1.Holds (eoObject parse lines) ∧
    (loadEo openFile parse mkProj s fname a).1.projection = s.projection := by
  rw [loadEo_eq, h1, h2]
  exact ⟨rfl, ⟨rfl, rfl, rfl⟩, rfl⟩

/-- C154, trajectory files: a call that raises leaves the object as it was when pdal could not read the file; without an array only the number of records is new;
when pyproj refused the arguments the records are new and the projection old; a call that does not raise replaces both. -/
theorem C154_sbet_partial (pdal : Str → Py (Nat × Option (List (Str × List K)))) (mkProj : List (Str × Str) → Py P) (s : NavState K P) (fname : Str) (a : ProjArgs) :
    (∀ e, pdal fname = .error e → loadSbet pdal mkProj s fname a = (s, .error e)) ∧
    (∀ n, pdal fname = .ok (n, none) → loadSbet pdal mkProj s fname a = ({ s with numRecords := n }, .error .indexError)) ∧
    (∀ n fields e, pdal fname = .ok (n, some fields) → mkProj a.keywords = .error e →
      (loadSbet pdal mkProj s fname a).2 = .error e ∧ (loadSbet pdal mkProj s fname a).1.Holds (sbetLoad fields n) ∧
        (loadSbet pdal mkProj s fname a).1.projection = s.projection) ∧
    (∀ n fields p, pdal fname = .ok (n, some fields) → mkProj a.keywords = .ok p →
      (loadSbet pdal mkProj s fname a).2 = .ok () ∧ (loadSbet pdal mkProj s fname a).1.Holds (sbetLoad fields n) ∧
        (loadSbet pdal mkProj s fname a).1.projection = some p) := by
  refine ⟨?_, ?_, ?_, ?_⟩
  · intro e h; unfold loadSbet; simp only [h]
  · intro n h; unfold loadSbet; simp only [h]
  · intro n fields e h1 h2
    rw [loadSbet_eq _ _ _ _ _ _ _ h1, h2]
    exact ⟨rfl, ⟨rfl, rfl, rfl⟩, rfl⟩
  · intro n fields p h1 h2
    rw [loadSbet_eq _ _ _ _ _ _ _ h1, h2]
    exact ⟨rfl, ⟨rfl, rfl, rfl⟩, rfl⟩

end

/-! ### A concrete case -/

/-- A file of one record. -/
def exampleEo (f : Str) : Py (List (List Str)) :=
  if f = "a.txt".toList then .ok [["1".toList, "2".toList, "3".toList, "4".toList, "5".toList, "6".toList, "7".toList, "8".toList, "9".toList, "10".toList]]
  else .error .fileNotFound

/-- A pyproj that knows two projections. -/
def exampleProj (kw : List (Str × Str)) : Py Nat :=
  if lookup kw "proj".toList = some "utm".toList then .ok 18 else if lookup kw "proj".toList = some "longlat".toList then .ok 4326 else .error .valueError

example : (∃ lines, exampleEo "a.txt".toList = .ok lines ∧ lines.length = 1) ∧
    exampleProj (ProjArgs.keywords ⟨"longlat".toList, none, "WGS84".toList, "WGS84".toList⟩) = .ok 4326 ∧
    exampleProj (ProjArgs.keywords ⟨"utmm".toList, some "18".toList, "WGS84".toList, "WGS84".toList⟩) = .error .valueError :=
  ⟨⟨_, rfl, rfl⟩, by decide, by decide⟩

end Verif.Nav
