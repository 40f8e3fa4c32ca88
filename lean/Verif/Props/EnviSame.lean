import Verif.Props.EnviJobs

/-! C151: ENVI images written by several processes at the same time under the same name. -/

namespace Verif.Envi
open Verif TextUtils

variable {F : Type}

/-! ### Specification -/

/-- Every call has returned. -/
def OpWork.AllDone (w : OpWork) : Prop := ∀ l ∈ w.todo, l = []

/-! ### Lemmas -/

/-- The effects on one file. -/
def onFile (p : Str) (l : List FileOp) : List FileOp := l.filter (fun e => decide (e.path = p))

theorem onFile_cons_same {p : Str} {e : FileOp} (h : e.path = p) (l : List FileOp) : onFile p (e :: l) = e :: onFile p l := by
  unfold onFile; rw [List.filter_cons_of_pos (by simpa using h)]

theorem onFile_cons_other {p : Str} {e : FileOp} (h : e.path ≠ p) (l : List FileOp) : onFile p (e :: l) = onFile p l := by
  unfold onFile; rw [List.filter_cons_of_neg (by simpa using h)]

theorem apply_other (fs : FS) (e : FileOp) (p : Str) (h : e.path ≠ p) : e.apply fs p = fs p := by
  cases e with
  | empty q => exact put_other _ _ _ _ (Ne.symm h)
  | byte q k v =>
    unfold FileOp.apply
    simp only []
    cases fs q with
    | none => rfl
    | some l => exact put_other _ _ _ _ (Ne.symm h)

theorem writeOps_path (p : Str) (b : List Nat) : ∀ e ∈ writeOps p b, e.path = p := by
  intro e he
  unfold writeOps at he
  rcases List.mem_cons.mp he with rfl | he
  · rfl
  · obtain ⟨k, -, rfl⟩ := List.mem_map.mp he; rfl

theorem onFile_all {p : Str} {l : List FileOp} (h : ∀ e ∈ l, e.path = p) : onFile p l = l := by
  unfold onFile
  rw [List.filter_eq_self]
  intro e he; simpa using h e he

theorem onFile_none {p : Str} {l : List FileOp} (h : ∀ e ∈ l, e.path ≠ p) : onFile p l = [] := by
  unfold onFile
  rw [List.filter_eq_nil_iff]
  intro e he; simpa using h e he

theorem onFile_append (p : Str) (l l' : List FileOp) : onFile p (l ++ l') = onFile p l ++ onFile p l' := by
  unfold onFile; rw [List.filter_append]

theorem writeOps_length (p : Str) (b : List Nat) : (writeOps p b).length = b.length + 1 := by
  unfold writeOps; rw [List.length_cons, List.length_map, List.length_range]

theorem writeOps_get (p : Str) (b : List Nat) (k : Nat) (h : k < b.length) : (writeOps p b)[k + 1]? = some (.byte p k (b.getD k 0)) := by
  unfold writeOps
  rw [List.getElem?_cons_succ, List.getElem?_map, List.getElem?_range h]; rfl

theorem putAt_get (l : List Nat) (k v : Nat) : (putAt l k v)[k]? = some v := by
  unfold putAt
  split
  · rename_i h; rw [List.getElem?_set_self h]
  · rename_i h
    have : (l ++ List.replicate (k - l.length) 0).length = k := by rw [List.length_append, List.length_replicate]; omega
    rw [List.getElem?_append_right (by omega), this, Nat.sub_self]; rfl

theorem putAt_other (l : List Nat) (k v i : Nat) (hi : i < l.length) (h : i ≠ k) : (putAt l k v)[i]? = l[i]? := by
  unfold putAt
  split
  · rw [List.getElem?_set_ne (Ne.symm h)]
  · rw [List.append_assoc, List.getElem?_append_left hi]

theorem putAt_length (l : List Nat) (k v n : Nat) (hl : l.length ≤ n) (hk : k < n) : (putAt l k v).length ≤ n := by
  unfold putAt
  split
  · rw [List.length_set]; exact hl
  · rw [List.length_append, List.length_append, List.length_replicate, List.length_singleton]; omega

theorem writeOps_drop (p : Str) (b : List Nat) (m : Nat) (e : FileOp) (r : List FileOp) (h : e :: r = (writeOps p b).drop m) :
    r = (writeOps p b).drop (m + 1) ∧ ((m = 0 ∧ e = .empty p) ∨ ∃ k, m = k + 1 ∧ k < b.length ∧ e = .byte p k (b.getD k 0)) := by
  have h0 : (writeOps p b)[m]? = some e := by
    have := List.getElem?_drop (xs := writeOps p b) (i := m) (j := 0)
    rw [← h] at this
    simpa using this.symm
  refine ⟨?_, ?_⟩
  · rw [← List.drop_drop, ← h]; rfl
  · cases m with
    | zero => exact Or.inl ⟨rfl, by cases h0; rfl⟩
    | succ k =>
      have hk : k < b.length := by
        have := (List.getElem?_eq_some_iff.mp h0).1
        rw [writeOps_length] at this; omega
      rw [writeOps_get p b k hk] at h0
      exact Or.inr ⟨k, rfl, hk, (Option.some.inj h0).symm⟩

/-- The state of a file all processes that write to it write the same content to: nobody has opened it, or somebody (`t`) emptied it last and
everything he has written since is there. -/
def Shared (p : Str) (b : List Nat) (w : OpWork) : Prop :=
  (∀ l ∈ w.todo, ∃ m, onFile p l = (writeOps p b).drop m) ∧
  (((∀ l ∈ w.todo, onFile p l = [] ∨ onFile p l = writeOps p b) ∧ ∃ l ∈ w.todo, onFile p l = writeOps p b) ∨
   ∃ (t k : Nat) (l : List FileOp) (c : List Nat), w.todo[t]? = some l ∧ onFile p l = (writeOps p b).drop (k + 1) ∧ k ≤ b.length ∧ w.disk p = some c ∧
    c.length ≤ b.length ∧ ∀ i < k, c[i]? = b[i]?)

theorem shared_step (p : Str) (b : List Nat) (w : OpWork) (h : Shared p b w) (s : Nat) : Shared p b (w.step s) := by
  cases hs : w.todo[s]? with
  | none =>
    have : w.step s = w := by unfold OpWork.step; rw [hs]
    rw [this]; exact h
  | some l0 =>
    cases l0 with
    | nil =>
      have : w.step s = w := by unfold OpWork.step; rw [hs]
      rw [this]; exact h
    | cons e l =>
      have hst : w.step s = ⟨w.todo.set s l, e.apply w.disk⟩ := by unfold OpWork.step; rw [hs]
      have hlt : s < w.todo.length := (List.getElem?_eq_some_iff.mp hs).1
      have hm := List.mem_of_getElem? hs
      obtain ⟨h1, h2⟩ := h
      obtain ⟨m, hme⟩ := h1 _ hm
      rw [hst]
      by_cases hp : e.path = p
      · rw [onFile_cons_same hp] at hme
        obtain ⟨hr, hcase⟩ := writeOps_drop p b m e _ hme
        refine ⟨?_, ?_⟩
        · intro l' hl'
          rcases List.mem_or_eq_of_mem_set hl' with hl' | rfl
          · exact h1 l' hl'
          · exact ⟨m + 1, hr⟩
        · right
          rcases hcase with ⟨rfl, rfl⟩ | ⟨k, rfl, hk, rfl⟩
          · exact ⟨s, 0, l, [], by rw [List.getElem?_set_self hlt], hr, Nat.zero_le _, put_same _ _ _, Nat.zero_le _, fun i hi => absurd hi (Nat.not_lt_zero i)⟩
          · have hbk : b[k]? = some (b.getD k 0) := by rw [List.getD_eq_getElem?_getD, List.getElem?_eq_getElem hk]; rfl
            rcases h2 with ⟨h2, -⟩ | ⟨t, kt, lt, c, q1, q2, q3, q4, q5, q6⟩
            · exfalso
              have hlen := congrArg List.length hme
              rcases h2 _ hm with h3 | h3
              · rw [onFile_cons_same hp] at h3; cases h3
              · rw [onFile_cons_same hp, hme] at h3
                have := congrArg List.length h3
                rw [List.length_drop, writeOps_length] at this
                omega
            · have hd : (FileOp.byte p k (b.getD k 0)).apply w.disk p = some (putAt c k (b.getD k 0)) := by
                unfold FileOp.apply; simp only []; rw [q4]; exact put_same _ _ _
              have hkeep : ∀ i < kt, (putAt c k (b.getD k 0))[i]? = b[i]? := by
                intro i hi
                by_cases hik : i = k
                · subst hik; rw [putAt_get, hbk]
                · have hic : i < c.length := by
                    have := q6 i hi
                    rw [List.getElem?_eq_getElem (show i < b.length by omega)] at this
                    exact (List.getElem?_eq_some_iff.mp this).1
                  rw [putAt_other _ _ _ _ hic hik]; exact q6 i hi
              by_cases hts : t = s
              · subst hts
                have hkk : k = kt := by
                  rw [hs] at q1
                  cases q1
                  rw [onFile_cons_same hp, hme] at q2
                  have := congrArg List.length q2
                  rw [List.length_drop, List.length_drop, writeOps_length] at this
                  omega
                subst hkk
                refine ⟨t, k + 1, l, _, by rw [List.getElem?_set_self hlt], hr, hk, hd, putAt_length _ _ _ _ q5 hk, ?_⟩
                intro i hi
                by_cases hik : i = k
                · subst hik; rw [putAt_get, hbk]
                · exact hkeep i (by omega)
              · exact ⟨t, kt, lt, _, by rw [List.getElem?_set_ne (Ne.symm hts)]; exact q1, q2, q3, hd, putAt_length _ _ _ _ q5 hk, hkeep⟩
      · have hsame : onFile p (e :: l) = onFile p l := onFile_cons_other hp l
        have hdisk : e.apply w.disk p = w.disk p := apply_other _ _ _ hp
        refine ⟨?_, ?_⟩
        · intro l' hl'
          rcases List.mem_or_eq_of_mem_set hl' with hl' | rfl
          · exact h1 l' hl'
          · exact ⟨m, by rw [← hsame]; exact hme⟩
        · rcases h2 with ⟨h2, l2, hl2, he2⟩ | ⟨t, kt, lt, c, q1, q2, q3, q4, q5, q6⟩
          · left
            refine ⟨?_, ?_⟩
            · intro l' hl'
              rcases List.mem_or_eq_of_mem_set hl' with hl' | rfl
              · exact h2 l' hl'
              · rw [← hsame]; exact h2 _ hm
            · obtain ⟨i, hi⟩ := List.getElem?_of_mem hl2
              by_cases his : i = s
              · subst his
                rw [hs] at hi
                cases hi
                exact ⟨l, List.mem_of_getElem? (List.getElem?_set_self hlt), by rw [← hsame]; exact he2⟩
              · exact ⟨l2, List.mem_of_getElem? (by rw [List.getElem?_set_ne (Ne.symm his)]; exact hi), he2⟩
          · right
            by_cases hts : t = s
            · subst hts
              rw [hs] at q1
              cases q1
              exact ⟨t, kt, l, c, by rw [List.getElem?_set_self hlt], by rw [← hsame]; exact q2, q3, hdisk.trans q4, q5, q6⟩
            · exact ⟨t, kt, lt, c, by rw [List.getElem?_set_ne (Ne.symm hts)]; exact q1, q2, q3, hdisk.trans q4, q5, q6⟩

theorem shared_run (p : Str) (b : List Nat) (schedule : List Nat) : ∀ w : OpWork, Shared p b w → Shared p b (w.run schedule) := by
  induction schedule with
  | nil => intro w h; exact h
  | cons s schedule ih => intro w h; exact ih _ (shared_step p b w h s)

/-- When all have returned, a file everybody wrote the same content to holds that content. -/
theorem shared_done (p : Str) (b : List Nat) (w : OpWork) (h : Shared p b w) (hd : w.AllDone) : w.disk p = some b := by
  obtain ⟨-, ⟨-, l, hl, he⟩ | ⟨t, k, l, c, q1, q2, q3, q4, q5, q6⟩⟩ := h
  · rw [hd l hl] at he
    cases he
  · rw [hd l (List.mem_of_getElem? q1)] at q2
    have := congrArg List.length q2
    rw [List.length_drop, writeOps_length] at this
    have hk : k = b.length := by
      have : (onFile p []).length = 0 := rfl
      omega
    subst hk
    rw [q4]
    congr 1
    apply List.ext_getElem?
    intro i
    by_cases hi : i < b.length
    · exact q6 i hi
    · rw [List.getElem?_eq_none (by omega), List.getElem?_eq_none (by omega)]

theorem ops_path (ls : Str) (j : EnviJob) : ∀ e ∈ j.ops ls, j.Touches e.path := by
  intro e he
  unfold EnviJob.ops at he
  rcases List.mem_append.mp he with he | he
  · exact Or.inl (writeOps_path _ _ e he)
  · split at he
    · cases he
    · exact Or.inr (writeOps_path _ _ e he)

theorem onFile_data (ls : Str) (j : EnviJob) (hn : j.fname ≠ headerName j.fname j.hdr) : onFile j.fname (j.ops ls) = writeOps j.fname (dataBytes j.cube j.interleave) := by
  unfold EnviJob.ops
  rw [onFile_append, onFile_all (writeOps_path _ _)]
  rw [onFile_none, List.append_nil]
  intro e he
  split at he
  · cases he
  · rw [writeOps_path _ _ e he]; exact Ne.symm hn

theorem onFile_header (ls : Str) (j : EnviJob) (hn : j.fname ≠ headerName j.fname j.hdr) (code : Int) (hc : toEnvi j.cube.dtype = some code) :
    onFile (headerName j.fname j.hdr) (j.ops ls) = writeOps (headerName j.fname j.hdr) (headerBytes ls j.cube code j.interleave) := by
  unfold EnviJob.ops
  rw [hc, onFile_append, onFile_none, List.nil_append]
  · exact onFile_all (writeOps_path _ _)
  · intro e he; rw [writeOps_path _ _ e he]; exact hn

theorem name_sep (j : EnviJob) (hn : j.hdr ≠ some j.fname) : j.fname ≠ headerName j.fname j.hdr := by
  cases hh : j.hdr with
  | none => exact (name_ne j.fname).symm
  | some h => intro e; exact hn (by rw [hh, e]; rfl)

/-! ### C151 -/

/-- C151, partial.  Any number of processes write the *same* image under the same name (the same call made twice, say), while others write elsewhere, byte by byte and in
any order: when all have returned, the image is read back.  Missing: different images under one name (`C151_false`); and while somebody is still writing. -/
theorem C151_same_image_partial (pf : Str → Option F) (ls : Str) (hls : Sep ls) (fs : FS) (jobs : List EnviJob) (schedule : List Nat) (j : EnviJob)
    (hj : j ∈ jobs) (hv : j.cube.Valid) (hs : Supported j.cube.dtype) (hil : j.interleave = "bil".toList) (hn : j.hdr ≠ some j.fname)
    (hsep : ∀ j' ∈ jobs, j' = j ∨ ∀ p, j.Touches p → ¬ j'.Touches p) (hdone : ((startOps ls fs jobs).run schedule).AllDone) :
    ∃ c', readImage pf ls ((startOps ls fs jobs).run schedule).disk j.fname j.hdr = .ok c' ∧ c'.Same j.cube := by
  obtain ⟨code, h1, h2, h3⟩ := supported_code hs
  have hne := name_sep j hn
  have hshared : ∀ (p : Str) (b : List Nat), j.Touches p → onFile p (j.ops ls) = writeOps p b → Shared p b (startOps ls fs jobs) := by
    intro p b hp ho
    have hcase : ∀ l ∈ (startOps ls fs jobs).todo, onFile p l = [] ∨ onFile p l = writeOps p b := by
      intro l hl
      obtain ⟨j', hj', rfl⟩ := List.mem_map.mp hl
      rcases hsep j' hj' with rfl | hno
      · exact Or.inr ho
      · left
        apply onFile_none
        intro e he hep
        exact hno p hp (hep ▸ ops_path ls j' e he)
    refine ⟨?_, Or.inl ⟨hcase, j.ops ls, List.mem_map.mpr ⟨j, hj, rfl⟩, ho⟩⟩
    intro l hl
    rcases hcase l hl with e | e
    · exact ⟨(writeOps p b).length, by rw [e, List.drop_length]⟩
    · exact ⟨0, by rw [e]; rfl⟩
  exact read_after pf ls hls _ j.cube hv hs j.fname j.hdr
    (by rw [shared_done _ _ _ (shared_run _ _ schedule _ (hshared j.fname _ (Or.inl rfl) (onFile_data ls j hne))) hdone, hil]) code h1
    (by rw [shared_done _ _ _ (shared_run _ _ schedule _ (hshared _ _ (Or.inr rfl) (onFile_header ls j hne _ h1))) hdone, hil])

/-! ### Different images under one name -/

theorem run_append (w : OpWork) (s s' : List Nat) : w.run (s ++ s') = (w.run s).run s' := by
  unfold OpWork.run; rw [List.foldl_append]

/-- A file nobody is going to write to stays as it is. -/
theorem run_other (p : Str) (schedule : List Nat) : ∀ w : OpWork, (∀ l ∈ w.todo, ∀ e ∈ l, e.path ≠ p) → (w.run schedule).disk p = w.disk p := by
  induction schedule with
  | nil => intro w _; rfl
  | cons s schedule ih =>
    intro w hw
    show ((w.step s).run schedule).disk p = _
    cases hs : w.todo[s]? with
    | none =>
      have : w.step s = w := by unfold OpWork.step; rw [hs]
      rw [this]; exact ih w hw
    | some l =>
      cases l with
      | nil =>
        have : w.step s = w := by unfold OpWork.step; rw [hs]
        rw [this]; exact ih w hw
      | cons e l =>
        have hst : w.step s = ⟨w.todo.set s l, e.apply w.disk⟩ := by unfold OpWork.step; rw [hs]
        have hm := List.mem_of_getElem? hs
        rw [ih (w.step s) (by
          rw [hst]
          intro l' hl' e' he'
          rcases List.mem_or_eq_of_mem_set hl' with hl' | rfl
          · exact hw l' hl' e' he'
          · exact hw _ hm e' (List.mem_cons_of_mem _ he')), hst]
        exact apply_other _ _ _ (hw _ hm e List.mem_cons_self)

/-- A process given enough turns finishes. -/
theorem run_one (s : Nat) (l : List FileOp) : ∀ w : OpWork, w.todo[s]? = some l →
    (w.run (List.replicate l.length s)).todo = w.todo.set s [] := by
  induction l with
  | nil =>
    intro w hw
    show w.todo = _
    apply List.ext_getElem?
    intro i
    by_cases hi : s = i
    · subst hi; rw [List.getElem?_set_self (List.getElem?_eq_some_iff.mp hw).1, hw]
    · rw [List.getElem?_set_ne hi]
  | cons e l ih =>
    intro w hw
    have hst : w.step s = ⟨w.todo.set s l, e.apply w.disk⟩ := by unfold OpWork.step; rw [hw]
    show ((w.step s).run (List.replicate l.length s)).todo = _
    rw [ih _ (by rw [hst]; exact List.getElem?_set_self (List.getElem?_eq_some_iff.mp hw).1), hst]
    exact List.set_set _

/-- C151: two processes that write different images, of the same shape and type, under the same name at the same time can leave an image that is neither, and reading it
back reports nothing. -/
theorem C151_false (pf : Str → Option F) (ls : Str) (hls : Sep ls) (fs : FS) (fname : Str) : ∃ a b : EnviJob, a.fname = fname ∧ b.fname = fname ∧ a.hdr = none ∧ b.hdr = none ∧
    a.interleave = "bil".toList ∧ b.interleave = "bil".toList ∧ a.cube.Valid ∧ b.cube.Valid ∧ Supported a.cube.dtype ∧ Supported b.cube.dtype ∧
    ∃ schedule, ((startOps ls fs [a, b]).run schedule).AllDone ∧
      ∃ c', readImage pf ls ((startOps ls fs [a, b]).run schedule).disk fname none = .ok c' ∧ ¬ c'.Same a.cube ∧ ¬ c'.Same b.cube := by
  let ca : Cube := ⟨.u8, 1, 2, 1, fun _ _ _ => [0]⟩
  let cb : Cube := ⟨.u8, 1, 2, 1, fun _ _ _ => [1]⟩
  let cm : Cube := ⟨.u8, 1, 2, 1, fun _ x _ => if x = 0 then [1] else [0]⟩
  let h := writeOps (headerName fname none) (headerBytes ls ca 1 "bil".toList)
  have hsup : Supported DType.u8 := by intro t n h; cases h
  refine ⟨⟨ca, fname, none, "bil".toList⟩, ⟨cb, fname, none, "bil".toList⟩, rfl, rfl, rfl, rfl, rfl, rfl, fun _ _ _ _ _ _ => rfl, fun _ _ _ _ _ _ => rfl,
    hsup, hsup, [0, 0, 1, 1, 1, 0] ++ (List.replicate h.length 0 ++ List.replicate h.length 1), ?_⟩
  rw [run_append]
  have hstart : startOps ls fs [⟨ca, fname, none, "bil".toList⟩, ⟨cb, fname, none, "bil".toList⟩] =
      ⟨[.empty fname :: .byte fname 0 0 :: .byte fname 1 0 :: h, .empty fname :: .byte fname 0 1 :: .byte fname 1 1 :: h], fs⟩ := rfl
  generalize hw : (startOps ls fs [⟨ca, fname, none, "bil".toList⟩, ⟨cb, fname, none, "bil".toList⟩]).run [0, 0, 1, 1, 1, 0] = w
  have htodo : w.todo = [h, h] := by rw [← hw, hstart]; rfl
  have hdata : w.disk fname = some [1, 0] := by
    rw [← hw, hstart]
    simp [OpWork.run, OpWork.step, FileOp.apply, FS.put, putAt]
  have hdone : (w.run (List.replicate h.length 0 ++ List.replicate h.length 1)).todo = [[], []] := by
    have h1 := run_one 0 h w (by rw [htodo]; rfl)
    rw [htodo] at h1
    rw [run_append, run_one 1 h _ (by rw [h1]; rfl), h1]
    rfl
  have hall : (w.run (List.replicate h.length 0 ++ List.replicate h.length 1)).AllDone := by
    intro l hl
    rw [hdone] at hl
    simpa using hl
  refine ⟨hall, ?_⟩
  have hne : headerName fname none ≠ fname := name_ne fname
  have hpath : onFile (headerName fname none) h = h := onFile_all (writeOps_path _ _)
  have hsh : Shared (headerName fname none) (headerBytes ls ca 1 "bil".toList) w := by
    refine ⟨?_, Or.inl ⟨?_, h, by rw [htodo]; exact List.mem_cons_self, hpath⟩⟩
    · intro l hl
      rw [htodo] at hl
      have : l = h := by simpa using hl
      subst this
      exact ⟨0, hpath⟩
    · intro l hl
      rw [htodo] at hl
      have : l = h := by simpa using hl
      subst this
      exact Or.inr hpath
  have hhead := shared_done _ _ _ (shared_run _ _ (List.replicate h.length 0 ++ List.replicate h.length 1) w hsh) hall
  have hfile : (w.run (List.replicate h.length 0 ++ List.replicate h.length 1)).disk fname = some (dataBytes cm "bil".toList) := by
    rw [run_other fname _ w, hdata]
    · rfl
    · intro l hl e he
      rw [htodo] at hl
      have : l = h := by simpa using hl
      subst this
      rw [writeOps_path _ _ e he]; exact hne
  obtain ⟨c', e1, e2⟩ := read_after pf ls hls _ cm (by intro y x z _ _ _; show (if x = 0 then [1] else [0]).length = 1; split <;> rfl) hsup fname none hfile 1 rfl hhead
  refine ⟨c', e1, ?_, ?_⟩
  · rintro ⟨-, s1, s2, s3, s4⟩
    obtain ⟨-, t1, t2, t3, t4⟩ := e2
    have a1 := s4 0 0 0 (by rw [t1]; exact Nat.one_pos) (by rw [t2]; exact Nat.two_pos) (by rw [t3]; exact Nat.one_pos)
    have a2 := t4 0 0 0 (by rw [t1]; exact Nat.one_pos) (by rw [t2]; exact Nat.two_pos) (by rw [t3]; exact Nat.one_pos)
    rw [a1] at a2
    have : ([0] : List Nat) = [1] := a2
    cases this
  · rintro ⟨-, s1, s2, s3, s4⟩
    obtain ⟨-, t1, t2, t3, t4⟩ := e2
    have a1 := s4 0 1 0 (by rw [t1]; exact Nat.one_pos) (by rw [t2]; exact Nat.one_lt_two) (by rw [t3]; exact Nat.one_pos)
    have a2 := t4 0 1 0 (by rw [t1]; exact Nat.one_pos) (by rw [t2]; exact Nat.one_lt_two) (by rw [t3]; exact Nat.one_pos)
    rw [a1] at a2
    have : ([1] : List Nat) = [0] := a2
    cases this

example : ∃ (j k : EnviJob), j ∈ [j, k, j] ∧ j.cube.Valid ∧ Supported j.cube.dtype ∧ j.interleave = "bil".toList ∧ j.hdr ≠ some j.fname ∧
    (∀ j' ∈ [j, k, j], j' = j ∨ ∀ p, j.Touches p → ¬ j'.Touches p) :=
  ⟨⟨exampleCube, "x.img".toList, none, "bil".toList⟩, ⟨exampleCube, "y.img".toList, none, "bil".toList⟩, by simp, fun _ _ _ _ _ _ => rfl,
    by intro t n h; simp [exampleCube] at h, rfl, by simp,
    by
      intro j' hj'
      simp only [List.mem_cons, List.not_mem_nil, or_false] at hj'
      rcases hj' with rfl | rfl | rfl
      · exact Or.inl rfl
      · right
        intro p hp hq
        rcases hp with rfl | rfl <;> rcases hq with hq | hq <;> revert hq <;> simp only [] <;> decide
      · exact Or.inl rfl⟩

end Verif.Envi
