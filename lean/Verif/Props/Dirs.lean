import Verif.Model.Jobs
import Mathlib.Data.List.Induction
import Mathlib.Tactic.SplitIfs

/-! C140: several processes make the same output directory (file_utils.py:8-11, micasense_image_factory.py:108). -/

namespace Verif.Jobs
open Verif

/-- The directory and those it is in are there. -/
def HasDir (t : Tree) (p : Path) : Prop := ∀ q, q <:+ p → t.node q = some .dir

/-- Neither the path nor one it is below is a file. -/
def NoFile (t : Tree) (p : Path) : Prop := ∀ q, q <:+ p → t.node q ≠ some .file

/-- The tree where a directory is never without the one it is in. -/
def Rooted (t : Tree) : Prop := ∀ n p, (t.node (n :: p)).isSome → t.node p = some .dir

/-- What other processes can do to the tree: make directories. -/
structure Grows (t t' : Tree) : Prop where
  keeps : ∀ p x, t.node p = some x → t'.node p = some x
  dirs : ∀ p, t'.node p = some .file → t.node p = some .file
  rooted : Rooted t → Rooted t'

theorem Grows.refl (t : Tree) : Grows t t := ⟨fun _ _ h => h, fun _ h => h, fun h => h⟩

theorem Grows.trans {a b c : Tree} (h : Grows a b) (h' : Grows b c) : Grows a c :=
  ⟨fun p x e => h'.keeps p x (h.keeps p x e), fun p e => h.dirs p (h'.dirs p e), fun r => h'.rooted (h.rooted r)⟩

theorem Grows.hasDir {t t' : Tree} (h : Grows t t') {p : Path} (hp : HasDir t p) : HasDir t' p := fun q hq => h.keeps q _ (hp q hq)

theorem Grows.noFile {t t' : Tree} (h : Grows t t') {p : Path} (hp : NoFile t p) : NoFile t' p := fun q hq e => hp q hq (h.dirs q e)

theorem NoFile.tail {t : Tree} {n : Str} {p : Path} (h : NoFile t (n :: p)) : NoFile t p :=
  fun q hq => h q (hq.trans (List.suffix_cons n p))

theorem hasDir_of {t : Tree} (hr : Rooted t) {p : Path} (h : t.node p = some .dir) : HasDir t p := by
  induction p with
  | nil => intro q hq; rw [List.suffix_nil] at hq; subst hq; rfl
  | cons n p ih =>
    intro q hq
    rw [List.suffix_cons_iff] at hq
    rcases hq with rfl | hq
    · exact h
    · exact ih (hr n p (by rw [h]; rfl)) q hq

theorem node_add (t : Tree) (n : Str) (p q : Path) : (t.add (n :: p)).node q = if q = n :: p then some .dir else t.node q := by
  cases q with
  | nil => simp [Tree.node]
  | cons m q => rfl

theorem mkdir_cons (t : Tree) (n : Str) (p : Path) : t.mkdir (n :: p) =
    if (t.node (n :: p)).isSome then (t, some .fileExists)
    else match t.node p with
      | none => (t, some .fileNotFound)
      | some .file => (t, some .notADirectory)
      | some .dir => (t.add (n :: p), none) := rfl

theorem mkdir_grows (t : Tree) (p : Path) : Grows t (t.mkdir p).1 := by
  cases p with
  | nil => exact Grows.refl t
  | cons n p =>
    rw [mkdir_cons]
    split
    · exact Grows.refl t
    · rename_i hn
      split
      · exact Grows.refl t
      · exact Grows.refl t
      · rename_i hp
        refine ⟨fun q x h => ?_, fun q h => ?_, fun hr m q h => ?_⟩
        · rw [node_add]
          split
          · rename_i hq; subst hq; rw [h] at hn; exact absurd rfl hn
          · exact h
        · rw [node_add] at h
          split at h
          · cases h
          · exact h
        · rw [node_add] at h ⊢
          split
          · rfl
          · split at h
            · rename_i e
              cases e; exact hp
            · exact hr m q h

theorem step_grows (t : Tree) (P : Prog) : Grows t (P.step t).1 := by
  cases P with
  | done r => exact Grows.refl t
  | pathExists p k => exact Grows.refl t
  | isDir p k => exact Grows.refl t
  | mkdir p k => exact mkdir_grows t p

/-! ### Programs among others -/

/-- Whatever others do to the tree meanwhile (`R`), the program ends with a result and a tree satisfying `Q`. -/
def Sure (R : Tree → Tree → Prop) (Q : Except OsErr Unit → Tree → Prop) : Prog → Tree → Prop
  | .done r, t => ∀ t', R t t' → Q r t'
  | .pathExists p k, t => ∀ t', R t t' → Sure R Q (k (t'.node p).isSome) t'
  | .isDir p k, t => ∀ t', R t t' → Sure R Q (k (decide (t'.node p = some .dir))) t'
  | .mkdir p k, t => ∀ t', R t t' → Sure R Q (k (t'.mkdir p).2) (t'.mkdir p).1

/-- A kind of change that leaves directories, which may be repeated. -/
structure Change (R : Tree → Tree → Prop) : Prop where
  refl : ∀ t, R t t
  trans : ∀ {a b c}, R a b → R b c → R a c
  grows : ∀ {a b}, R a b → Grows a b

theorem change_grows : Change Grows := ⟨Grows.refl, Grows.trans, id⟩

/-- Changes that do not make the directory `p` itself. -/
def Spares (p : Path) (t t' : Tree) : Prop := Grows t t' ∧ (t.node p = none → t'.node p = none)

theorem change_spares (p : Path) : Change (Spares p) :=
  ⟨fun t => ⟨Grows.refl t, id⟩, fun h h' => ⟨h.1.trans h'.1, fun e => h'.2 (h.2 e)⟩, fun h => h.1⟩

theorem Sure.change {R : Tree → Tree → Prop} (hR : Change R) {Q : Except OsErr Unit → Tree → Prop} {P : Prog} {t t' : Tree} (h : Sure R Q P t)
    (g : R t t') : Sure R Q P t' := by
  cases P <;> exact fun t'' g' => h t'' (hR.trans g g')

theorem Sure.step {R : Tree → Tree → Prop} (hR : Change R) {Q : Except OsErr Unit → Tree → Prop} {P : Prog} {t : Tree} (h : Sure R Q P t) :
    Sure R Q (P.step t).2 (P.step t).1 := by
  cases P with
  | done r => exact h
  | pathExists p k => exact h t (hR.refl t)
  | isDir p k => exact h t (hR.refl t)
  | mkdir p k => exact h t (hR.refl t)

/-- The program ends after at most so many system calls. -/
def Within : Nat → Prog → Prop
  | _, .done _ => True
  | 0, _ => False
  | n + 1, .pathExists _ k => ∀ b, Within n (k b)
  | n + 1, .isDir _ k => ∀ b, Within n (k b)
  | n + 1, .mkdir _ k => ∀ b, Within n (k b)

theorem Within.mono {n m : Nat} {P : Prog} (h : Within n P) (hnm : n ≤ m) : Within m P := by
  induction n generalizing m P with
  | zero => cases P <;> simp_all [Within]
  | succ n ih =>
    cases m with
    | zero => omega
    | succ m =>
      cases P with
      | done r => trivial
      | pathExists p k => exact fun b => ih (h b) (by omega)
      | isDir p k => exact fun b => ih (h b) (by omega)
      | mkdir p k => exact fun b => ih (h b) (by omega)

theorem Within.step {n : Nat} {P : Prog} (h : Within n P) (t : Tree) : Within (n - 1) (P.step t).2 := by
  cases n with
  | zero => cases P <;> first | exact h | exact absurd h (by simp [Within])
  | succ n =>
    cases P with
    | done r => cases n <;> trivial
    | pathExists p k => exact h _
    | isDir p k => exact h _
    | mkdir p k => exact h _

/-- Among processes of kind `G`, whose steps are changes `R`: after any schedule the program is still on its way to `Q` and has used its turns. -/
theorem among {R : Tree → Tree → Prop} (hR : Change R) {G : Prog → Prop} (hG : ∀ P t, G P → R t (P.step t).1 ∧ G (P.step t).2)
    {Q : Except OsErr Unit → Tree → Prop} (w : World) (i : Nat) (P : Prog) (hP : w.procs[i]? = some P)
    (hO : ∀ (j : Nat) (P : Prog), j ≠ i → w.procs[j]? = some P → G P) (hs : Sure R Q P w.tree) (n : Nat)
    (hn : Within n P) (schedule : List Nat) :
    (∀ (j : Nat) (P : Prog), j ≠ i → (w.run schedule).procs[j]? = some P → G P) ∧
    ∃ P', (w.run schedule).procs[i]? = some P' ∧ Sure R Q P' (w.run schedule).tree ∧ Within (n - schedule.count i) P' := by
  induction schedule using List.reverseRecOn with
  | nil => exact ⟨hO, P, hP, hs, by simpa using hn⟩
  | append_singleton s x ih =>
    obtain ⟨ho, P', h1, h2, h3⟩ := ih
    have hr : w.run (s ++ [x]) = (w.run s).step x := by unfold World.run; rw [List.foldl_append]; rfl
    rw [hr]
    generalize w.run s = v at ho h1 h2
    unfold World.step
    by_cases hx : x = i
    · subst hx
      rw [h1]
      refine ⟨fun j P hj h => ?_, (P'.step v.tree).2, ?_, h2.step hR, ?_⟩
      · simp only [List.getElem?_set_ne (Ne.symm hj)] at h
        exact ho j P hj h
      · simp only [List.getElem?_set_self (List.getElem?_eq_some_iff.mp h1).1]
      · have := h3.step v.tree
        rw [List.count_append, List.count_singleton_self]
        exact this.mono (by omega)
    · have hc : List.count i (s ++ [x]) = List.count i s := by
        rw [List.count_append, List.count_singleton]; simp [hx]
      rw [hc]
      cases hv : v.procs[x]? with
      | none => exact ⟨ho, P', h1, h2, h3⟩
      | some S =>
        have hg := hG S v.tree (ho x S hx hv)
        refine ⟨fun j P hj h => ?_, P', ?_, h2.change hR hg.1, h3⟩
        · by_cases hjx : j = x
          · subst hjx
            simp only [List.getElem?_set_self (List.getElem?_eq_some_iff.mp hv).1, Option.some.injEq] at h
            subst h; exact hg.2
          · simp only [List.getElem?_set_ne (Ne.symm hjx)] at h
            exact ho j P hj h
        · simp only [List.getElem?_set_ne hx]; exact h1

theorem within_zero {P : Prog} (h : Within 0 P) : ∃ r, P = .done r := by
  cases P with
  | done r => exact ⟨r, rfl⟩
  | pathExists p k => exact absurd h (by simp [Within])
  | isDir p k => exact absurd h (by simp [Within])
  | mkdir p k => exact absurd h (by simp [Within])

/-! ### os.makedirs -/

theorem mkdir_answer (t : Tree) (n : Str) (p : Path) (hr : Rooted t) (hf : NoFile t (n :: p)) (hp : HasDir t p) :
    ((t.mkdir (n :: p)).2 = none ∨ (t.mkdir (n :: p)).2 = some .fileExists) ∧ HasDir (t.mkdir (n :: p)).1 (n :: p) := by
  have hd := hp p (List.suffix_refl p)
  have hr' : Rooted (t.mkdir (n :: p)).1 := (mkdir_grows t _).rooted hr
  have : ((t.mkdir (n :: p)).2 = none ∨ (t.mkdir (n :: p)).2 = some .fileExists) ∧ (t.mkdir (n :: p)).1.node (n :: p) = some .dir := by
    rw [mkdir_cons]
    split
    · rename_i h
      refine ⟨.inr rfl, ?_⟩
      cases hn : t.node (n :: p) with
      | none => rw [hn] at h; cases h
      | some x =>
        cases x with
        | dir => simp only [hn]
        | file => exact absurd hn (hf _ (List.suffix_refl _))
    · rw [hd]
      exact ⟨.inl rfl, by simp only []; rw [node_add, if_pos rfl]⟩
  exact ⟨this.1, hasDir_of hr' this.2⟩

/-- What `os.makedirs` can end with: no error, or, unless existing directories are allowed, a FileExistsError; the directory is there. -/
def Made (existOk : Bool) (p : Path) (r : Except OsErr Unit) (t : Tree) : Prop :=
  (r = .ok () ∨ existOk = false ∧ r = .error .fileExists) ∧ HasDir t p

theorem lastMkdir_sure {R : Tree → Tree → Prop} (hR : Change R) (existOk : Bool) (Q : Except OsErr Unit → Tree → Prop) (p : Path)
    (k : Except OsErr Unit → Prog) (t : Tree) (hr : Rooted t) (hf : NoFile t p) (hp : ∀ n q, p = n :: q → HasDir t q)
    (hm : ∀ t, R t (t.mkdir p).1)
    (hk : ∀ r t', R t t' → Made existOk p r t' → Sure R Q (k r) t') : Sure R Q (lastMkdir existOk p k) t := by
  intro t' g
  have hans : ((t'.mkdir p).2 = none ∨ (t'.mkdir p).2 = some .fileExists) ∧ HasDir (t'.mkdir p).1 p := by
    cases p with
    | nil => exact ⟨.inr rfl, fun q hq => by rw [List.suffix_nil] at hq; subst hq; rfl⟩
    | cons n q => exact mkdir_answer t' n q ((hR.grows g).rooted hr) ((hR.grows g).noFile hf) ((hR.grows g).hasDir (hp n q rfl))
  have g2 := hR.trans g (hm t')
  rcases hans.1 with h | h
  · rw [h]; exact hk _ _ g2 ⟨.inl rfl, hans.2⟩
  · rw [h]
    cases existOk with
    | false => exact hk _ _ g2 ⟨.inr ⟨rfl, rfl⟩, hans.2⟩
    | true =>
      intro t'' g3
      have hd := (hR.grows g3).hasDir hans.2
      have : decide (t''.node p = some .dir) = true := by rw [decide_eq_true_eq]; exact hd p (List.suffix_refl p)
      rw [this]
      exact hk _ _ (hR.trans g2 g3) ⟨.inl rfl, hd⟩

theorem dir_of_noFile {t : Tree} {p : Path} (hf : NoFile t p) {x : Node} (h : t.node p = some x) : t.node p = some .dir := by
  cases x with
  | dir => exact h
  | file => exact absurd h (hf p (List.suffix_refl p))

theorem makedirs_sure {R : Tree → Tree → Prop} (hR : Change R) (existOk : Bool) (Q : Except OsErr Unit → Tree → Prop) (p : Path)
    (k : Except OsErr Unit → Prog) (t : Tree) (hr : Rooted t) (hf : NoFile t p) (hm : ∀ q t, q <:+ p → R t (t.mkdir q).1)
    (hk : ∀ r t', R t t' → Made existOk p r t' → Sure R Q (k r) t') : Sure R Q (makedirs existOk p k) t := by
  induction p generalizing k t with
  | nil => exact lastMkdir_sure hR existOk Q [] k t hr hf (by intro n q h; cases h) (fun t => hm [] t (List.suffix_refl _)) hk
  | cons n p ih =>
    intro t' g
    have hm' : ∀ t, R t (t.mkdir (n :: p)).1 := fun t => hm (n :: p) t (List.suffix_refl _)
    cases hn : t'.node p with
    | none =>
      refine ih _ t' ((hR.grows g).rooted hr) ((hR.grows g).noFile hf).tail (fun q t hq => hm q t (hq.trans (List.suffix_cons n p))) ?_
      intro r t'' g' hmd
      have hlast : Sure R Q (lastMkdir existOk (n :: p) k) t'' :=
        lastMkdir_sure hR existOk Q _ k t'' ((hR.grows g').rooted ((hR.grows g).rooted hr)) ((hR.grows g').noFile ((hR.grows g).noFile hf))
          (by rintro m q h; cases h; exact hmd.2) hm' (fun r t3 g3 => hk r t3 (hR.trans (hR.trans g g') g3))
      rcases hmd.1 with rfl | ⟨-, rfl⟩ <;> exact hlast
    | some x =>
      have hn' := dir_of_noFile ((hR.grows g).noFile hf).tail hn
      exact lastMkdir_sure hR existOk Q _ k t' ((hR.grows g).rooted hr) ((hR.grows g).noFile hf)
        (by rintro m q h; cases h; exact hasDir_of ((hR.grows g).rooted hr) hn') hm' (fun r t3 g3 => hk r t3 (hR.trans g g3))

theorem lastMkdir_within (existOk : Bool) (p : Path) (k : Except OsErr Unit → Prog) (n : Nat) (hk : ∀ r, Within n (k r)) :
    Within (n + 2) (lastMkdir existOk p k) := by
  intro b
  cases b with
  | none => exact (hk _).mono (by omega)
  | some e =>
    cases existOk with
    | false => exact (hk _).mono (by omega)
    | true =>
      intro d
      cases d <;> exact hk _

theorem makedirs_within (existOk : Bool) (p : Path) (k : Except OsErr Unit → Prog) (n : Nat) (hk : ∀ r, Within n (k r)) :
    Within (n + 3 * p.length + 2) (makedirs existOk p k) := by
  induction p generalizing k n with
  | nil => exact (lastMkdir_within existOk [] k n hk).mono (by simp)
  | cons m p ih =>
    have hl := lastMkdir_within existOk (m :: p) k n hk
    rw [show n + 3 * (m :: p).length + 2 = (n + 3 * p.length + 4) + 1 by rw [List.length_cons]; omega]
    intro e
    cases e with
    | true => exact hl.mono (by omega)
    | false =>
      refine (ih _ (n + 2) ?_).mono (by omega)
      intro r
      match r with
      | .ok _ => exact hl
      | .error .fileExists => exact hl
      | .error .fileNotFound => exact (hk _).mono (by omega)
      | .error .notADirectory => exact (hk _).mono (by omega)

/-! ### C140 -/

/-- C140: the directory for temporary MicaSense bands is made with `exist_ok=True`.  Among any other processes that make directories, whatever the
schedule, such a process has finished without error, and the directory is there, as soon as it got three turns for every component of the path
and two more. -/
theorem C140_working_dir (w : World) (i : Nat) (p : Path) (hP : w.procs[i]? = some (makeWorkingDir p)) (hr : Rooted w.tree) (hf : NoFile w.tree p)
    (schedule : List Nat) (hturns : 3 * p.length + 2 ≤ schedule.count i) :
    (w.run schedule).procs[i]? = some (.done (.ok ())) ∧ HasDir (w.run schedule).tree p := by
  obtain ⟨-, P', h1, h2, h3⟩ := among change_grows (G := fun _ => True) (fun P t _ => ⟨step_grows t P, trivial⟩) w i _ hP (fun _ _ _ _ => trivial)
    (makedirs_sure change_grows true (Made true p) p .done w.tree hr hf (fun q t _ => mkdir_grows t q) (fun r t _ hm t' g => ⟨hm.1, g.hasDir hm.2⟩))
    (0 + 3 * p.length + 2) (makedirs_within true p .done 0 (fun r => trivial)) schedule
  rw [show 0 + 3 * p.length + 2 - schedule.count i = 0 by omega] at h3
  obtain ⟨r, rfl⟩ := within_zero h3
  have := h2 _ (Grows.refl _)
  rcases this.1 with rfl | ⟨h, -⟩
  · exact ⟨h1, this.2⟩
  · cases h

theorem makeDir_within (p : Path) : Within ((0 + 3 * p.length + 2) + 1) (makeDirIfNotExists p) := by
  intro e
  cases e with
  | true => trivial
  | false => exact makedirs_within false p .done 0 (fun r => trivial)

/-- C140 (partial): `make_dir_if_not_exists` among any other processes that make directories, whatever the schedule: it finishes, the directory is
there, and the only error it can end with is FileExistsError.  Missing: that there is no error (`C140_race_false`). -/
theorem C140_make_dir_partial (w : World) (i : Nat) (p : Path) (hP : w.procs[i]? = some (makeDirIfNotExists p)) (hr : Rooted w.tree)
    (hf : NoFile w.tree p) (schedule : List Nat) (hturns : 3 * p.length + 3 ≤ schedule.count i) :
    ((w.run schedule).procs[i]? = some (.done (.ok ())) ∨ (w.run schedule).procs[i]? = some (.done (.error .fileExists))) ∧
    HasDir (w.run schedule).tree p := by
  have hsure : Sure Grows (Made false p) (makeDirIfNotExists p) w.tree := by
    intro t g
    cases hn : t.node p with
    | none =>
      exact makedirs_sure change_grows false (Made false p) p .done t (g.rooted hr) (g.noFile hf) (fun q t _ => mkdir_grows t q)
        (fun r t _ hm t' g => ⟨hm.1, g.hasDir hm.2⟩)
    | some x =>
      exact fun t' g' => ⟨.inl rfl, g'.hasDir (hasDir_of (g.rooted hr) (dir_of_noFile (g.noFile hf) hn))⟩
  obtain ⟨-, P', h1, h2, h3⟩ := among change_grows (G := fun _ => True) (fun P t _ => ⟨step_grows t P, trivial⟩) w i _ hP (fun _ _ _ _ => trivial)
    hsure _ (makeDir_within p) schedule
  rw [show 0 + 3 * p.length + 2 + 1 - schedule.count i = 0 by omega] at h3
  obtain ⟨r, rfl⟩ := within_zero h3
  have := h2 _ (Grows.refl _)
  rcases this.1 with rfl | ⟨-, rfl⟩
  · exact ⟨.inl h1, this.2⟩
  · exact ⟨.inr h1, this.2⟩

/-- C140 is false of `make_dir_if_not_exists`: of two processes making a missing directory in an existing one, both may find it missing; the
second then ends with FileExistsError. -/
theorem C140_race_false (t : Tree) (n : Str) (p : Path) (hp : t.node p = some .dir) (hn : t.node (n :: p) = none) :
    ∃ schedule : List Nat, (World.run ⟨[makeDirIfNotExists (n :: p), makeDirIfNotExists (n :: p)], t⟩ schedule).procs =
      [.done (.ok ()), .done (.error .fileExists)] := by
  refine ⟨[0, 1, 0, 0, 1, 1], ?_⟩
  have h1 : t.mkdir (n :: p) = (t.add (n :: p), none) := by
    rw [mkdir_cons, hn, hp]; rfl
  have h2 : ((t.add (n :: p)).mkdir (n :: p)).2 = some .fileExists := by
    rw [mkdir_cons, node_add, if_pos rfl]; rfl
  have h3 : (t.add (n :: p)).node p = some .dir := by
    rw [node_add, if_neg]
    · exact hp
    · intro h; have := congrArg List.length h; simp at this
  simp [World.run, World.step, Prog.step, makeDirIfNotExists, makedirs, lastMkdir, hn, hp, h1, h2, h3]

/-- A process that never makes the directory `p` itself. -/
def Avoids (p : Path) : Prog → Prop
  | .done _ => True
  | .pathExists _ k => ∀ b, Avoids p (k b)
  | .isDir _ k => ∀ b, Avoids p (k b)
  | .mkdir q k => q ≠ p ∧ ∀ b, Avoids p (k b)

theorem mkdir_spares (t : Tree) (p q : Path) (h : q ≠ p) : Spares p t (t.mkdir q).1 := by
  refine ⟨mkdir_grows t q, fun hn => ?_⟩
  cases q with
  | nil => exact hn
  | cons n q =>
    rw [mkdir_cons]
    split
    · exact hn
    · split
      · exact hn
      · exact hn
      · rw [node_add, if_neg (Ne.symm h)]; exact hn

theorem avoids_step (p : Path) (P : Prog) (t : Tree) (h : Avoids p P) : Spares p t (P.step t).1 ∧ Avoids p (P.step t).2 := by
  cases P with
  | done r => exact ⟨(change_spares p).refl t, trivial⟩
  | pathExists q k => exact ⟨(change_spares p).refl t, h _⟩
  | isDir q k => exact ⟨(change_spares p).refl t, h _⟩
  | mkdir q k => exact ⟨mkdir_spares t p q h.1, h.2 _⟩

/-- C140 (partial): when no other process makes the directory itself - they may make the directories it is in, or others next to it -
`make_dir_if_not_exists` finishes without error whatever the schedule, and the directory is there. -/
theorem C140_own_dir_partial (w : World) (i : Nat) (p : Path) (hP : w.procs[i]? = some (makeDirIfNotExists p)) (hr : Rooted w.tree)
    (hf : NoFile w.tree p) (hO : ∀ (j : Nat) (P : Prog), j ≠ i → w.procs[j]? = some P → Avoids p P)
    (schedule : List Nat) (hturns : 3 * p.length + 3 ≤ schedule.count i) :
    (w.run schedule).procs[i]? = some (.done (.ok ())) ∧ HasDir (w.run schedule).tree p := by
  have hR := change_spares p
  have hsure : Sure (Spares p) (Made true p) (makeDirIfNotExists p) w.tree := by
    intro t g
    have hr' := g.1.rooted hr
    have hf' := g.1.noFile hf
    cases hn : t.node p with
    | some x => exact fun t' g' => ⟨.inl rfl, g'.1.hasDir (hasDir_of hr' (dir_of_noFile hf' hn))⟩
    | none =>
      cases p with
      | nil => cases hn
      | cons n q =>
        have hlast : ∀ t', Spares (n :: q) t t' → HasDir t' q → Sure (Spares (n :: q)) (Made true (n :: q)) (lastMkdir false (n :: q) .done) t' := by
          intro t' g' hd t'' g''
          have hno : t''.node (n :: q) = none := g''.2 (g'.2 hn)
          have hd'' := g''.1.hasDir hd
          have hm : t''.mkdir (n :: q) = (t''.add (n :: q), none) := by
            rw [mkdir_cons, hno, hd'' q (List.suffix_refl q)]; rfl
          have hdir := (mkdir_answer t'' n q (g''.1.rooted (g'.1.rooted hr')) (g''.1.noFile (g'.1.noFile hf')) hd'').2
          rw [hm] at hdir ⊢
          exact fun t3 g3 => ⟨.inl rfl, g3.1.hasDir hdir⟩
        intro t' g'
        cases hq : t'.node q with
        | some x => exact hlast t' g' (hasDir_of (g'.1.rooted hr') (dir_of_noFile (g'.1.noFile hf').tail hq))
        | none =>
          refine makedirs_sure hR false _ q _ t' (g'.1.rooted hr') (g'.1.noFile hf').tail (fun q' t hq' => mkdir_spares t _ q' ?_) ?_
          · intro e
            have := hq'.length_le
            rw [e, List.length_cons] at this; omega
          · intro r t'' g'' hm
            rcases hm.1 with rfl | ⟨-, rfl⟩ <;> exact hlast t'' (hR.trans g' g'') hm.2
  obtain ⟨-, P', h1, h2, h3⟩ := among hR (G := Avoids p) (fun P t h => avoids_step p P t h) w i _ hP hO hsure _ (makeDir_within p) schedule
  rw [show 0 + 3 * p.length + 2 + 1 - schedule.count i = 0 by omega] at h3
  obtain ⟨r, rfl⟩ := within_zero h3
  have := h2 _ (hR.refl _)
  rcases this.1 with rfl | ⟨h, -⟩
  · exact ⟨h1, this.2⟩
  · cases h

/-- Jobs that make other directories avoid this one: a job making a directory which is not below it, nor it. -/
theorem avoids_makedirs (existOk : Bool) (p q : Path) (h : ¬p <:+ q) (k : Except OsErr Unit → Prog) (hk : ∀ r, Avoids p (k r)) :
    Avoids p (makedirs existOk q k) := by
  have hl : ∀ (q : Path) (k : Except OsErr Unit → Prog), q ≠ p → (∀ r, Avoids p (k r)) → Avoids p (lastMkdir existOk q k) := by
    intro q k hne hk
    refine ⟨hne, fun b => ?_⟩
    cases b with
    | none => exact hk _
    | some e =>
      cases existOk with
      | false => exact hk _
      | true => intro d; cases d <;> exact hk _
  have hne : ∀ q : Path, ¬p <:+ q → q ≠ p := fun q h e => h (e ▸ List.suffix_refl _)
  induction q generalizing k with
  | nil => exact hl [] k (hne _ h) hk
  | cons n q ih =>
    intro e
    have h2 := hl (n :: q) k (hne _ h) hk
    cases e with
    | true => exact h2
    | false =>
      refine ih (fun hs => h (hs.trans (List.suffix_cons n q))) _ (fun r => ?_)
      match r with
      | .ok _ => exact h2
      | .error .fileExists => exact h2
      | .error .fileNotFound => exact hk _
      | .error .notADirectory => exact hk _

/-- The hypotheses are met by two jobs that make `/logs/a` and `/logs/b` on an empty disk: both end well in every schedule in which they get enough
turns. -/
example (schedule : List Nat) (h : 9 ≤ schedule.count 0) :
    (World.run ⟨[makeDirIfNotExists ["a".toList, "logs".toList], makeDirIfNotExists ["b".toList, "logs".toList]], fun _ => none⟩ schedule).procs[0]? =
      some (.done (.ok ())) := by
  refine (C140_own_dir_partial _ 0 ["a".toList, "logs".toList] rfl ?_ ?_ ?_ schedule h).1
  · intro n p h; cases h
  · intro q _ h; cases q <;> cases h
  · intro j P hj hP
    match j, hP with
    | 0, _ => exact absurd rfl hj
    | 1, hP =>
      simp only [List.getElem?_cons_succ, List.getElem?_cons_zero, Option.some.injEq] at hP
      subst hP
      intro e
      cases e with
      | true => trivial
      | false => exact avoids_makedirs false _ _ (by decide) _ (fun _ => trivial)
    | j + 2, hP => simp at hP

/-- The hypotheses of `C140_race_false` are met by an empty disk. -/
example : ∃ schedule : List Nat, (World.run ⟨[makeDirIfNotExists ["out".toList], makeDirIfNotExists ["out".toList]], fun _ => none⟩ schedule).procs =
    [.done (.ok ()), .done (.error .fileExists)] := C140_race_false _ _ [] rfl rfl

end Verif.Jobs
