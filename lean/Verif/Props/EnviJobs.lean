import Verif.Model.EnviJobs
import Verif.Props.EnviImage

/-! C150: ENVI images written at the same time under different names. -/

namespace Verif.Envi
open Verif TextUtils

variable {F : Type}

/-! ### Specification -/

/-- The files of a call. -/
def EnviJob.Touches (j : EnviJob) (p : Str) : Prop := p = j.fname ∨ p = headerName j.fname j.hdr

/-- The call number `i` has returned. -/
def EnviWork.Finished (w : EnviWork) (i : Nat) : Prop := w.todo[i]? = some []

/-! ### Lemmas -/

/-- Effects one after the other. -/
def applyAll (fs : FS) (l : List (Str × List Nat)) : FS := l.foldl (fun fs e => fs.put e.1 e.2) fs

theorem applyAll_append (fs : FS) (l l' : List (Str × List Nat)) : applyAll fs (l ++ l') = applyAll (applyAll fs l) l' := by
  unfold applyAll; rw [List.foldl_append]

theorem applyAll_one (fs : FS) (e : Str × List Nat) : applyAll fs [e] = fs.put e.1 e.2 := rfl

theorem applyAll_other (l : List (Str × List Nat)) (p : Str) (h : ∀ e ∈ l, e.1 ≠ p) : ∀ fs : FS, applyAll fs l p = fs p := by
  induction l with
  | nil => intro fs; rfl
  | cons e l ih =>
    intro fs
    show applyAll (fs.put e.1 e.2) l p = _
    rw [ih (fun e' he => h e' (List.mem_cons_of_mem _ he)), put_other _ _ _ _ (Ne.symm (h e List.mem_cons_self))]

theorem growing_paths (p : Str) (b : List Nat) : ∀ e ∈ growing p b, e.1 = p := by
  intro e he
  unfold growing at he
  obtain ⟨k, -, rfl⟩ := List.mem_map.mp he
  rfl

theorem applyAll_growing (fs : FS) (p : Str) (b : List Nat) : applyAll fs (growing p b) = fs.put p b := by
  funext q
  by_cases h : q = p
  · subst h
    unfold growing
    rw [List.range_succ, List.map_append, applyAll_append]
    show applyAll _ [(q, b.take b.length)] q = _
    rw [applyAll_one, List.take_length, put_same, put_same]
  · rw [applyAll_other _ _ (fun e he => by rw [growing_paths p b e he]; exact Ne.symm h), put_other _ _ _ _ h]

theorem effects_touch (ls : Str) (j : EnviJob) : ∀ e ∈ j.effects ls, j.Touches e.1 := by
  intro e he
  unfold EnviJob.effects at he
  rcases List.mem_append.mp he with he | he
  · exact Or.inl (growing_paths _ _ e he)
  · split at he
    · cases he
    · exact Or.inr (growing_paths _ _ e he)

/-- A call that is left alone does what `write_envi_image` does. -/
theorem applyAll_effects (ls : Str) (j : EnviJob) (fs : FS) : applyAll fs (j.effects ls) = (writeImage ls fs j.cube j.fname j.hdr j.interleave).1 := by
  unfold EnviJob.effects writeImage
  rw [applyAll_append, applyAll_growing]
  cases toEnvi j.cube.dtype with
  | none => rfl
  | some code => simp only []; rw [applyAll_growing]

/-- On the files no other process touches, the disk shows what the process has done so far. -/
theorem run_private (priv : Str → Prop) (schedule : List Nat) : ∀ (w : EnviWork) (i : Nat) (rest done : List (Str × List Nat)) (fs : FS),
    w.todo[i]? = some rest → (∀ p, priv p → w.disk p = applyAll fs done p) →
    (∀ (j : Nat) l, j ≠ i → w.todo[j]? = some l → ∀ e ∈ l, ¬ priv e.1) →
    ∃ rest' d, (w.run schedule).todo[i]? = some rest' ∧ d ++ rest' = rest ∧ ∀ p, priv p → (w.run schedule).disk p = applyAll fs (done ++ d) p := by
  induction schedule with
  | nil => intro w i rest done fs h1 h2 _; exact ⟨rest, [], h1, rfl, fun p hp => by rw [List.append_nil]; exact h2 p hp⟩
  | cons s schedule ih =>
    intro w i rest done fs h1 h2 h3
    show ∃ rest' d, ((w.step s).run schedule).todo[i]? = some rest' ∧ d ++ rest' = rest ∧ ∀ p, priv p → ((w.step s).run schedule).disk p = applyAll fs (done ++ d) p
    cases hs : w.todo[s]? with
    | none =>
      have : w.step s = w := by unfold EnviWork.step; rw [hs]
      rw [this]; exact ih w i rest done fs h1 h2 h3
    | some l =>
      cases l with
      | nil =>
        have : w.step s = w := by unfold EnviWork.step; rw [hs]
        rw [this]; exact ih w i rest done fs h1 h2 h3
      | cons e l =>
        have hst : w.step s = ⟨w.todo.set s l, w.disk.put e.1 e.2⟩ := by unfold EnviWork.step; rw [hs]
        have hlt : s < w.todo.length := (List.getElem?_eq_some_iff.mp hs).1
        have hothers : ∀ (j : Nat) l', j ≠ i → (w.step s).todo[j]? = some l' → ∀ e ∈ l', ¬ priv e.1 := by
          intro j l' hj hl' e' he'
          rw [hst] at hl'
          simp only [] at hl'
          by_cases hsj : s = j
          · subst hsj
            rw [List.getElem?_set_self hlt] at hl'
            cases hl'
            exact h3 s (e :: l) hj hs e' (List.mem_cons_of_mem _ he')
          · rw [List.getElem?_set_ne hsj] at hl'
            exact h3 j l' hj hl' e' he'
        by_cases hsi : s = i
        · subst hsi
          rw [hs] at h1
          cases h1
          obtain ⟨rest', d, q1, q2, q3⟩ := ih (w.step s) s l (done ++ [e]) fs (by rw [hst]; simp only []; rw [List.getElem?_set_self hlt])
            (fun p hp => by
              rw [hst, applyAll_append, applyAll_one]
              simp only []
              by_cases hpe : p = e.1
              · subst hpe; rw [put_same, put_same]
              · rw [put_other _ _ _ _ hpe, put_other _ _ _ _ hpe]; exact h2 p hp) hothers
          exact ⟨rest', e :: d, q1, by rw [List.cons_append, q2], fun p hp => by rw [q3 p hp, List.append_assoc]; rfl⟩
        · exact ih (w.step s) i rest done fs (by rw [hst]; simp only []; rw [List.getElem?_set_ne hsi]; exact h1)
            (fun p hp => by
              rw [hst]
              simp only []
              rw [put_other _ _ _ _ (fun hpe => h3 s (e :: l) hsi hs e List.mem_cons_self (by rw [← hpe]; exact hp))]
              exact h2 p hp) hothers

/-- Reading looks at the data file and the header only, once the header is there. -/
theorem read_after (pf : Str → Option F) (ls : Str) (hls : Sep ls) (fs : FS) (c : Cube) (hv : c.Valid) (hs : Supported c.dtype) (fname : Str) (hdr : Option Str)
    (h1 : fs fname = some (dataBytes c "bil".toList)) (code : Nat) (h2 : toEnvi c.dtype = some (code : Int))
    (h3 : fs (headerName fname hdr) = some (headerBytes ls c code "bil".toList)) :
    ∃ c', readImage pf ls fs fname hdr = .ok c' ∧ c'.Same c := by
  obtain ⟨code', q1, q2, q3⟩ := supported_code hs
  rw [h2] at q1
  have : code = code' := by have := Option.some.inj q1; exact_mod_cast this
  subst this
  have hch : headerChoice fs fname hdr = some (headerName fname hdr) := by
    cases hdr with
    | some h => rfl
    | none =>
      unfold headerChoice
      apply guess_default
      show (fs (headerName fname none)).isSome
      rw [h3]; rfl
  rw [read_with_header pf ls hls fs fname hdr _ c code _ plain_bil hch h3 q2, fromFile_data hv q3 "bil".toList fs fname h1]
  obtain ⟨c', e1, e2, e3, e4, e5, e6⟩ := construct_bil c.dtype (rawData c "bil".toList) c.arr.nx c.arr.ny c.arr.nb (by rw [rawData_length])
  refine ⟨c', e1, e2, e3, e4, e5, ?_⟩
  intro y x z hy hx hz
  rw [e3] at hy; rw [e4] at hx; rw [e5] at hz
  have a := e6 y x z hy hx hz
  rw [rawData_get c y x z hy hx hz] at a
  simpa using a.symm

/-! ### C150 -/

/-- C150.  Images written at the same time by any number of processes, in any order of their effects: at every moment, a 'bil' image of a supported type whose call has
returned is read back identical, when no other call writes to its data or header file, whatever files existed before, whatever the other calls are doing, and whether
or not they succeed. -/
theorem C150_parallel (pf : Str → Option F) (ls : Str) (hls : Sep ls) (fs : FS) (jobs : List EnviJob) (schedule : List Nat) (i : Nat) (j : EnviJob)
    (hj : jobs[i]? = some j) (hv : j.cube.Valid) (hs : Supported j.cube.dtype) (hil : j.interleave = "bil".toList) (hn : j.hdr ≠ some j.fname)
    (hsep : ∀ (k : Nat) j', k ≠ i → jobs[k]? = some j' → ∀ p, j.Touches p → ¬ j'.Touches p)
    (hdone : ((startJobs ls fs jobs).run schedule).Finished i) :
    ∃ c', readImage pf ls ((startJobs ls fs jobs).run schedule).disk j.fname j.hdr = .ok c' ∧ c'.Same j.cube := by
  obtain ⟨code, h1, h2, h3⟩ := supported_code hs
  obtain ⟨rest', d, q1, q2, q3⟩ := run_private j.Touches schedule (startJobs ls fs jobs) i (j.effects ls) [] fs
    (by unfold startJobs; simp only []; rw [List.getElem?_map, hj]; rfl) (fun p _ => rfl)
    (by
      intro k l hk hl e he hp
      unfold startJobs at hl
      simp only [] at hl
      rw [List.getElem?_map, Option.map_eq_some_iff] at hl
      obtain ⟨j', hj', rfl⟩ := hl
      exact hsep k j' hk hj' e.1 hp (effects_touch ls j' e he))
  unfold EnviWork.Finished at hdone
  rw [hdone] at q1
  cases q1
  rw [List.append_nil] at q2
  subst q2
  have hw : ∀ p, j.Touches p → ((startJobs ls fs jobs).run schedule).disk p =
      ((fs.put j.fname (dataBytes j.cube "bil".toList)).put (headerName j.fname j.hdr) (headerBytes ls j.cube code "bil".toList)) p := by
    intro p hp
    rw [q3 p hp, List.nil_append, applyAll_effects]
    unfold writeImage
    rw [h1, hil]
  have hne : j.fname ≠ headerName j.fname j.hdr := by
    cases hh : j.hdr with
    | none => exact (name_ne j.fname).symm
    | some h => intro e; exact hn (by rw [hh, e]; rfl)
  exact read_after pf ls hls _ j.cube hv hs j.fname j.hdr (by rw [hw _ (Or.inl rfl), put_other _ _ _ _ hne, put_same]) code h1
    (by rw [hw _ (Or.inr rfl), put_same])

/-- C150: as long as a call has not begun, the image stored under its name is the one stored there before: at every moment its files are as some beginning of its
own effects leaves them. -/
theorem C150_own_progress (ls : Str) (fs : FS) (jobs : List EnviJob) (schedule : List Nat) (i : Nat) (j : EnviJob) (hj : jobs[i]? = some j)
    (hsep : ∀ (k : Nat) j', k ≠ i → jobs[k]? = some j' → ∀ p, j.Touches p → ¬ j'.Touches p) :
    ∃ d rest, d ++ rest = j.effects ls ∧ ((startJobs ls fs jobs).run schedule).todo[i]? = some rest ∧
      ∀ p, j.Touches p → ((startJobs ls fs jobs).run schedule).disk p = applyAll fs d p := by
  obtain ⟨rest', d, q1, q2, q3⟩ := run_private j.Touches schedule (startJobs ls fs jobs) i (j.effects ls) [] fs
    (by unfold startJobs; simp only []; rw [List.getElem?_map, hj]; rfl) (fun p _ => rfl)
    (by
      intro k l hk hl e he hp
      unfold startJobs at hl
      simp only [] at hl
      rw [List.getElem?_map, Option.map_eq_some_iff] at hl
      obtain ⟨j', hj', rfl⟩ := hl
      exact hsep k j' hk hj' e.1 hp (effects_touch ls j' e he))
  exact ⟨d, rest', q2, q1, fun p hp => by rw [q3 p hp, List.nil_append]⟩

/-- C150: files none of the calls writes to are never touched. -/
theorem C150_other_files (ls : Str) (fs : FS) (jobs : List EnviJob) (p : Str) (h : ∀ j ∈ jobs, ¬ j.Touches p) (schedule : List Nat) :
    ((startJobs ls fs jobs).run schedule).disk p = fs p := by
  have key : ∀ (schedule : List Nat) (w : EnviWork), (∀ l ∈ w.todo, ∀ e ∈ l, e.1 ≠ p) → (w.run schedule).disk p = w.disk p := by
    intro schedule
    induction schedule with
    | nil => intro w _; rfl
    | cons s schedule ih =>
      intro w hw
      show ((w.step s).run schedule).disk p = _
      cases hs : w.todo[s]? with
      | none =>
        have : w.step s = w := by unfold EnviWork.step; rw [hs]
        rw [this]; exact ih w hw
      | some l =>
        cases l with
        | nil =>
          have : w.step s = w := by unfold EnviWork.step; rw [hs]
          rw [this]; exact ih w hw
        | cons e l =>
          have hst : w.step s = ⟨w.todo.set s l, w.disk.put e.1 e.2⟩ := by unfold EnviWork.step; rw [hs]
          have hm := List.mem_of_getElem? hs
          rw [ih (w.step s) (by
            rw [hst]
            intro l' hl' e' he'
            rcases List.mem_or_eq_of_mem_set hl' with hl' | rfl
            · exact hw l' hl' e' he'
            · exact hw _ hm e' (List.mem_cons_of_mem _ he')), hst]
          exact put_other _ _ _ _ (Ne.symm (hw _ hm e List.mem_cons_self))
  refine key schedule _ ?_
  intro l hl e he
  unfold startJobs at hl
  simp only [] at hl
  obtain ⟨j, hj, rfl⟩ := List.mem_map.mp hl
  intro hp
  exact h j hj (hp ▸ effects_touch ls j e he)

/-! ### One after another -/

/-- C150: a process that writes one image after another: the image written last under a name is read back, as long as no later call, successful or not, writes to
its two files. -/
theorem C150_history (pf : Str → Option F) (ls : Str) (hls : Sep ls) (before after : List EnviJob) (j : EnviJob) (hv : j.cube.Valid)
    (hs : Supported j.cube.dtype) (hil : j.interleave = "bil".toList) (hn : j.hdr ≠ some j.fname)
    (hsep : ∀ j' ∈ after, ∀ p, j.Touches p → ¬ j'.Touches p) (fs : FS) :
    ∃ c', readImage pf ls ((before ++ j :: after).foldl (fun fs j => (writeImage ls fs j.cube j.fname j.hdr j.interleave).1) fs) j.fname j.hdr = .ok c' ∧
      c'.Same j.cube := by
  obtain ⟨code, h1, h2, h3⟩ := supported_code hs
  rw [List.foldl_append, List.foldl_cons]
  generalize before.foldl (fun fs j => (writeImage ls fs j.cube j.fname j.hdr j.interleave).1) fs = fs0
  have hframe : ∀ (after : List EnviJob), (∀ j' ∈ after, ∀ p, j.Touches p → ¬ j'.Touches p) → ∀ (fs : FS) p, j.Touches p →
      (after.foldl (fun fs j => (writeImage ls fs j.cube j.fname j.hdr j.interleave).1) fs) p = fs p := by
    intro after
    induction after with
    | nil => intro _ fs p _; rfl
    | cons j' after ih =>
      intro hsep fs p hp
      rw [List.foldl_cons, ih (fun k hk => hsep k (List.mem_cons_of_mem _ hk)) _ p hp, ← applyAll_effects]
      refine applyAll_other _ _ (fun e he hep => ?_) fs
      exact hsep j' List.mem_cons_self p hp (hep ▸ effects_touch ls j' e he)
  have hne : j.fname ≠ headerName j.fname j.hdr := by
    cases hh : j.hdr with
    | none => exact (name_ne j.fname).symm
    | some h => intro e; exact hn (by rw [hh, e]; rfl)
  have hw : (writeImage ls fs0 j.cube j.fname j.hdr j.interleave).1 =
      (fs0.put j.fname (dataBytes j.cube "bil".toList)).put (headerName j.fname j.hdr) (headerBytes ls j.cube code "bil".toList) := by
    unfold writeImage
    rw [h1, hil]
  exact read_after pf ls hls _ j.cube hv hs j.fname j.hdr
    (by rw [hframe after hsep _ _ (Or.inl rfl), hw, put_other _ _ _ _ hne, put_same]) code h1
    (by rw [hframe after hsep _ _ (Or.inr rfl), hw, put_same])

example : ∃ (a b : EnviJob), a.cube.Valid ∧ Supported a.cube.dtype ∧ a.interleave = "bil".toList ∧ a.hdr ≠ some a.fname ∧
    ∀ p, a.Touches p → ¬ b.Touches p :=
  ⟨⟨exampleCube, "x.img".toList, none, "bil".toList⟩, ⟨exampleCube, "y.img".toList, none, "bil".toList⟩, fun _ _ _ _ _ _ => rfl,
    by intro t n h; simp [exampleCube] at h, rfl, by simp,
    by
      intro p hp hq
      rcases hp with rfl | rfl <;> rcases hq with hq | hq <;> revert hq <;> simp only [] <;> decide⟩

end Verif.Envi
