import Verif.Model.TrainFiles
import Verif.Props.Training
import Verif.Props.Jobs

/-! C142 (an interrupted training), C143 (training again in the same directory), C144 (label file and model belong together). -/

namespace Verif.TrainFiles
open Verif Jobs Training

/-! ### Helpers -/

theorem saves_append {K : Type} [LT K] [DecidableLT K] (l : List (Option K)) (x : Option K) (s : Option K × Option Nat) (e : Nat) :
    saves s.1 e (l ++ [x]) = saves s.1 e l ++ saves (checkpoints s e l).1 (e + l.length) [x] := by
  induction l generalizing s e with
  | nil => rfl
  | cons a l ih =>
    have hlen : e + (a :: l).length = e + 1 + l.length := by rw [List.length_cons]; omega
    rw [hlen]
    obtain ⟨b, o⟩ := s
    cases a with
    | none => exact ih (b, o) (e + 1)
    | some v =>
      cases b with
      | none =>
        have := ih (some v, some e) (e + 1)
        simp only [List.cons_append, saves] at this ⊢
        rw [this]; rfl
      | some b =>
        by_cases hv : v < b
        · have := ih (some v, some e) (e + 1)
          simp only [List.cons_append, saves, if_pos hv] at this ⊢
          rw [this]
          simp only [checkpoints, checkpoint, if_pos hv]
        · have := ih (some b, o) (e + 1)
          simp only [List.cons_append, saves, if_neg hv] at this ⊢
          rw [this]
          simp only [checkpoints, checkpoint, if_neg hv]

/-- The model saved last is the one the checkpoint tells. -/
theorem saves_last {K : Type} [LinearOrder K] (losses : Nat → Option K) (n : Nat) :
    (saves none 0 ((List.range n).map losses)).getLast? =
      match checkpoints (none, none) 0 ((List.range n).map losses) with
      | (some v, some e) => some (e, v)
      | _ => none := by
  induction n with
  | zero => rfl
  | succ n ih =>
    rw [List.range_succ, List.map_append, List.map_cons, List.map_nil]
    have h := saves_append ((List.range n).map losses) (losses n) (none, none) 0
    simp only [] at h
    rw [h, checkpoints_append, List.length_map, List.length_range, Nat.zero_add]
    obtain ⟨i1, i2, i3⟩ := checkpoints_inv losses n
    rw [List.getLast?_append, ih]
    generalize checkpoints (none, none) 0 ((List.range n).map losses) = s at *
    obtain ⟨b, o⟩ := s
    cases hl : losses n with
    | none => cases b <;> cases o <;> simp [saves, checkpoint]
    | some v =>
      cases b with
      | none => simp [saves, checkpoint]
      | some b =>
        by_cases hv : v < b
        · simp [saves, checkpoint, hv]
        · simp only [saves, checkpoint, if_neg hv]
          cases o <;> simp

theorem best_unique {K : Type} [LinearOrder K] {losses : Nat → Option K} {n e e' : Nat} (h : BestEpoch losses n e) (h' : BestEpoch losses n e') : e = e' := by
  obtain ⟨h1, v, hv, h2, h3⟩ := h
  obtain ⟨h1', v', hv', h2', h3'⟩ := h'
  rcases Nat.lt_trichotomy e e' with hlt | he | hlt
  · have a := h2' e v hlt hv; have b := h3 e' v' h1' hv'; exact absurd (lt_of_lt_of_le a b) (lt_irrefl _)
  · exact he
  · have a := h2 e' v' hlt hv'; have b := h3' e v h1 hv; exact absurd (lt_of_lt_of_le a b) (lt_irrefl _)

/-- The last model saved is that of the best epoch; none is saved when no epoch has a loss. -/
theorem saves_best {K : Type} [LinearOrder K] (losses : Nat → Option K) (n : Nat) :
    (∀ e v, BestEpoch losses n e → losses e = some v → (saves none 0 ((List.range n).map losses)).getLast? = some (e, v)) ∧
    ((∀ e, e < n → losses e = none) → saves none 0 ((List.range n).map losses) = []) := by
  rw [saves_last]
  obtain ⟨i1, i2, i3⟩ := checkpoints_inv losses n
  constructor
  · intro e v hb hv
    have h2 := (i1 e).2 hb
    cases h1 : (checkpoints (none, none) 0 ((List.range n).map losses)).1 with
    | none =>
      have := (i3 h1).2 e hb.1
      rw [hv] at this; cases this
    | some b =>
      obtain ⟨e', h3, h4⟩ := i2 b h1
      rw [h2] at h3; cases h3
      rw [hv] at h4; cases h4
      have : checkpoints (none, none) 0 ((List.range n).map losses) = (some v, some e) := Prod.ext h1 h2
      rw [this]
  · intro h
    have : ∀ (l : List (Option K)) (e : Nat), (∀ x ∈ l, x = none) → saves none e l = [] := by
      intro l
      induction l with
      | nil => intro e _; rfl
      | cons a l ih =>
        intro e ha
        rw [ha a (by simp)]
        exact ih (e + 1) (fun x hx => ha x (by simp [hx]))
    apply this
    intro x hx
    rw [List.mem_map] at hx
    obtain ⟨e, he, rfl⟩ := hx
    exact h e (List.mem_range.mp he)

theorem trainActs_mono {K : Type} [LT K] [DecidableLT K] (dir name labels : Str) (losses : Nat → Option K) {m n : Nat} (h : m ≤ n) :
    trainActs dir name labels losses m <+: trainActs dir name labels losses n := by
  induction n with
  | zero => rw [Nat.le_zero.mp h]
  | succ n ih =>
    rcases Nat.lt_or_ge m (n + 1) with hlt | hge
    · refine (ih (by omega)).trans ?_
      unfold trainActs
      rw [List.range_succ, List.map_append, List.map_cons, List.map_nil]
      have hs := saves_append ((List.range n).map losses) (losses n) (none, none) 0
      simp only [] at hs
      rw [hs, List.flatMap_append, ← List.append_assoc]
      exact List.prefix_append _ _
    · rw [show m = n + 1 by omega]

theorem runActs_file {α β : Type} (d : Disk α) (p : Str) (f : β → α) (l : List β) :
    runActs d (l.flatMap (fun s => writeFile p (f s))) p = match l.getLast? with
      | some s => some (.whole (f s))
      | none => d p := by
  induction l using List.reverseRecOn with
  | nil => rfl
  | append_singleton l x ih =>
    rw [List.flatMap_append, runActs_append, List.getLast?_append]
    simp [writeFile, runActs, Act.run]

theorem file_paths {α β : Type} (p : Str) (f : β → α) (l : List β) : ∀ a ∈ l.flatMap (fun s => writeFile p (f s)), a.path = p := by
  intro a ha
  rw [List.mem_flatMap] at ha
  obtain ⟨s, -, ha⟩ := ha
  simp only [writeFile, List.mem_cons, List.not_mem_nil, or_false] at ha
  rcases ha with rfl | rfl <;> rfl

theorem prefix_append_cases {α : Type} {l a b : List α} (h : l <+: a ++ b) : l <+: a ∨ ∃ r, l = a ++ r ∧ r <+: b := by
  rcases Nat.le_total l.length a.length with hl | hl
  · exact .inl (List.prefix_of_prefix_length_le h (List.prefix_append a b) hl)
  · obtain ⟨r, hr⟩ := List.prefix_of_prefix_length_le (List.prefix_append a b) h hl
    subst hr
    exact .inr ⟨r, rfl, (List.prefix_append_right_inj a).mp h⟩

theorem prefix_writes {α β : Type} (p : Str) (f : β → α) (l : List β) (done : List (Act α)) (h : done <+: l.flatMap (fun s => writeFile p (f s))) :
    ∃ l', l' <+: l ∧ (done = l'.flatMap (fun s => writeFile p (f s)) ∨ done = l'.flatMap (fun s => writeFile p (f s)) ++ [.start p] ∧ l' ≠ l) := by
  induction l generalizing done with
  | nil =>
    rw [List.flatMap_nil, List.prefix_nil] at h
    subst h; exact ⟨[], List.prefix_refl _, .inl rfl⟩
  | cons s l ih =>
    rw [List.flatMap_cons] at h
    match done, h with
    | [], _ => exact ⟨[], List.nil_prefix, .inl rfl⟩
    | [a], h =>
      simp only [writeFile, List.cons_append, List.cons_prefix_cons] at h
      obtain ⟨rfl, -⟩ := h
      exact ⟨[], List.nil_prefix, .inr ⟨rfl, by simp⟩⟩
    | a :: b :: done, h =>
      simp only [writeFile, List.cons_append, List.nil_append, List.cons_prefix_cons] at h
      obtain ⟨rfl, rfl, h⟩ := h
      obtain ⟨l', h1, h2⟩ := ih done h
      refine ⟨s :: l', by rw [List.cons_prefix_cons]; exact ⟨rfl, h1⟩, ?_⟩
      rcases h2 with rfl | ⟨rfl, hne⟩
      · exact .inl rfl
      · exact .inr ⟨rfl, by simpa using hne⟩

/-! ### C142 -/

section
variable {K : Type} [LinearOrder K] (dir name labels : Str) (losses : Nat → Option K)

/-- C142 (partial): stopped between two epochs, after `m` of them, the model file holds the model of the best epoch so far - or what it held before,
when no epoch had a loss that is a number - and the label file is complete; every other file is as before. -/
theorem C142_between_epochs_partial (hname : pathJoin dir name ≠ labelPath dir) (disk : Disk (Saved K)) (m : Nat) :
    (∀ e v, BestEpoch losses m e → losses e = some v →
      runActs disk (trainActs dir name labels losses m) (pathJoin dir name) = some (.whole (.model labels v e))) ∧
    ((∀ e, e < m → losses e = none) → runActs disk (trainActs dir name labels losses m) (pathJoin dir name) = disk (pathJoin dir name)) ∧
    runActs disk (trainActs dir name labels losses m) (labelPath dir) = some (.whole (.labels labels)) ∧
    (∀ q, q ≠ pathJoin dir name → q ≠ labelPath dir → runActs disk (trainActs dir name labels losses m) q = disk q) := by
  unfold trainActs
  rw [runActs_append]
  obtain ⟨s1, s2⟩ := saves_best losses m
  have hl : ∀ q, q ≠ labelPath dir → runActs disk (writeFile (labelPath dir) (Saved.labels labels)) q = disk q := by
    intro q hq
    simp [writeFile, runActs, Act.run, hq]
  refine ⟨fun e v hb hv => ?_, fun hn => ?_, ?_, fun q h1 h2 => ?_⟩
  · rw [runActs_file _ _ (fun s : Nat × K => Saved.model labels s.2 s.1), s1 e v hb hv]
  · rw [runActs_file _ _ (fun s : Nat × K => Saved.model labels s.2 s.1), s2 hn]
    exact hl _ hname
  · rw [runActs_other _ _ _ (fun a ha => by rw [file_paths _ (fun s : Nat × K => Saved.model labels s.2 s.1) _ a ha]; exact hname)]
    simp [writeFile, runActs, Act.run]
  · rw [runActs_other _ _ _ (fun a ha => by rw [file_paths _ (fun s : Nat × K => Saved.model labels s.2 s.1) _ a ha]; exact Ne.symm h1)]
    exact hl q h2

/-- C142: the two files of a training are the model file and `labels.txt` in the output directory; no other file is touched. -/
theorem C142_label_file (hname : pathJoin dir name ≠ pathJoin dir "labels.txt".toList) (disk : Disk (Saved K)) (m : Nat) :
    runActs disk (trainActs dir name labels losses m) (pathJoin dir "labels.txt".toList) = some (.whole (.labels labels)) ∧
    ∀ q, q ≠ pathJoin dir name → q ≠ pathJoin dir "labels.txt".toList → runActs disk (trainActs dir name labels losses m) q = disk q :=
  (C142_between_epochs_partial dir name labels losses hname disk m).2.2

example : pathJoin "out".toList "model.pt".toList ≠ pathJoin "out".toList "labels.txt".toList := by decide

/-- The state between epochs is a point the training passes: the effects of the first `m` epochs come first. -/
theorem C142_passes {m n : Nat} (h : m ≤ n) : trainActs dir name labels losses m <+: trainActs dir name labels losses n :=
  trainActs_mono dir name labels losses h

/-- C142 (partial): stopped anywhere, the model file is as before, or incomplete, or holds the model of an epoch whose loss is lower than those of all
epochs before it.  Missing: that it is complete (`C142_torn_false`). -/
theorem C142_anywhere_partial (hname : pathJoin dir name ≠ labelPath dir) (disk : Disk (Saved K)) (n : Nat) (done : List (Act (Saved K)))
    (hdone : done <+: trainActs dir name labels losses n) :
    runActs disk done (pathJoin dir name) = disk (pathJoin dir name) ∨ runActs disk done (pathJoin dir name) = some .torn ∨
    ∃ e v, e < n ∧ BestEpoch losses (e + 1) e ∧ losses e = some v ∧ runActs disk done (pathJoin dir name) = some (.whole (.model labels v e)) := by
  rcases prefix_append_cases hdone with h | ⟨r, rfl, hr⟩
  · refine .inl (runActs_other _ _ _ (fun a ha => ?_))
    have := h.subset ha
    simp only [writeFile, List.mem_cons, List.not_mem_nil, or_false] at this
    rcases this with rfl | rfl <;> exact Ne.symm hname
  · obtain ⟨l', h1, h2⟩ := prefix_writes (pathJoin dir name) (fun s : Nat × K => Saved.model labels s.2 s.1) _ r hr
    rcases h2 with rfl | ⟨rfl, -⟩
    · rw [runActs_append, runActs_file _ _ (fun s : Nat × K => Saved.model labels s.2 s.1)]
      cases hg : l'.getLast? with
      | none =>
        left
        simp [writeFile, runActs, Act.run, hname]
      | some s =>
        refine .inr (.inr ⟨s.1, s.2, ?_⟩)
        have hmem : s ∈ saves none 0 ((List.range n).map losses) := h1.subset (List.mem_of_getLast? hg)
        -- every saved epoch was the best when it ended
        have key : ∀ (n : Nat), s ∈ saves none 0 ((List.range n).map losses) → s.1 < n ∧ BestEpoch losses (s.1 + 1) s.1 ∧ losses s.1 = some s.2 := by
          intro n
          induction n with
          | zero => intro h; cases h
          | succ n ih =>
            intro h
            rw [List.range_succ, List.map_append, List.map_cons, List.map_nil] at h
            have hs := saves_append ((List.range n).map losses) (losses n) (none, none) 0
            simp only [] at hs
            rw [hs, List.mem_append] at h
            rcases h with h | h
            · have := ih h; exact ⟨by omega, this.2⟩
            · have hlast : (saves none 0 ((List.range (n + 1)).map losses)).getLast? = some s := by
                rw [List.range_succ, List.map_append, List.map_cons, List.map_nil, hs, List.getLast?_append]
                have : ∀ b e, s ∈ saves b e [losses n] → saves b e [losses n] = [s] := by
                  intro b e h
                  cases hl : losses n with
                  | none => rw [hl] at h; cases b <;> cases h
                  | some v =>
                    rw [hl] at h
                    cases b with
                    | none => simp only [saves, List.mem_singleton] at h ⊢; rw [h]
                    | some b =>
                      simp only [saves] at h ⊢
                      split at h
                      · rename_i hv; rw [if_pos hv]; simp only [List.mem_singleton] at h; rw [h]
                      · cases h
                rw [this _ _ h]; rfl
              have hfst : s.1 = n := by
                rw [List.length_map, List.length_range, Nat.zero_add] at h
                cases hl : losses n with
                | none => rw [hl] at h; cases hb : (checkpoints (none, none) 0 ((List.range n).map losses)).1 <;> rw [hb] at h <;> cases h
                | some v =>
                  rw [hl] at h
                  cases hb : (checkpoints (none, none) 0 ((List.range n).map losses)).1 with
                  | none => rw [hb] at h; simp only [saves, List.mem_singleton] at h; rw [h]
                  | some b =>
                    rw [hb] at h
                    simp only [saves] at h
                    split at h
                    · simp only [List.mem_singleton] at h; rw [h]
                    · cases h
              rw [saves_last] at hlast
              obtain ⟨i1, i2, i3⟩ := checkpoints_inv losses (n + 1)
              generalize checkpoints (none, none) 0 ((List.range (n + 1)).map losses) = c at *
              obtain ⟨b, o⟩ := c
              cases b with
              | none => cases hlast
              | some b =>
                cases o with
                | none => cases hlast
                | some e =>
                  simp only [Option.some.injEq] at hlast
                  subst hlast
                  simp only [] at hfst
                  subst hfst
                  obtain ⟨e', h3, h4⟩ := i2 b rfl
                  simp only [Option.some.injEq] at h3
                  subst h3
                  exact ⟨by simp, (i1 _).1 rfl, h4⟩
        obtain ⟨k1, k2, k3⟩ := key n hmem
        exact ⟨k1, k2, k3, rfl⟩
    · refine .inr (.inl ?_)
      rw [← List.append_assoc, runActs_append]
      simp [runActs, Act.run]

/-- C142 is false: while the model of a better epoch is written, the best model so far, already complete, is gone. -/
theorem C142_torn_false (hname : pathJoin dir name ≠ labelPath dir) (v w : K) (hvw : w < v) (h0 : losses 0 = some v) (h1 : losses 1 = some w)
    (disk : Disk (Saved K)) :
    ∃ done₁ done₂, done₁ <+: done₂ ∧ done₂ <+: trainActs dir name labels losses 2 ∧
      runActs disk done₁ (pathJoin dir name) = some (.whole (.model labels v 0)) ∧
      runActs disk done₂ (pathJoin dir name) = some .torn := by
  have hs : saves none 0 ((List.range 2).map losses) = [(0, v), (1, w)] := by
    rw [show List.range 2 = [0, 1] from rfl]
    simp [h0, h1, saves, hvw]
  have ht : trainActs dir name labels losses 2 = writeFile (labelPath dir) (.labels labels) ++ (writeFile (pathJoin dir name) (.model labels v 0) ++
      writeFile (pathJoin dir name) (.model labels w 1)) := by
    unfold trainActs
    rw [hs]; rfl
  refine ⟨(trainActs dir name labels losses 2).take 4, (trainActs dir name labels losses 2).take 5, ?_, List.take_prefix _ _, ?_, ?_⟩
  · exact List.take_prefix_take_left (by omega)
  · rw [ht]; simp [writeFile, runActs, Act.run]
  · rw [ht]; simp [writeFile, runActs, Act.run]

/-! ### C143 -/

/-- C143 (partial): a complete training leaves in its directory the best model of its own epochs, whatever was there before.  Missing: that a model
already there with a lower loss is kept (`C143_resume_false`). -/
theorem C143_last_training_partial (hname : pathJoin dir name ≠ labelPath dir) (disk disk' : Disk (Saved K)) (n : Nat) (e : Nat) (v : K)
    (hb : BestEpoch losses n e) (hv : losses e = some v) :
    runActs disk (trainActs dir name labels losses n) (pathJoin dir name) = some (.whole (.model labels v e)) ∧
    runActs disk (trainActs dir name labels losses n) (pathJoin dir name) = runActs disk' (trainActs dir name labels losses n) (pathJoin dir name) := by
  have h := (C142_between_epochs_partial dir name labels losses hname disk n).1 e v hb hv
  have h' := (C142_between_epochs_partial dir name labels losses hname disk' n).1 e v hb hv
  exact ⟨h, by rw [h, h']⟩

/-- C143 is false: training goes on in the same directory (from the saved weights, say), and the first epoch that has a loss replaces the better
model that was there. -/
theorem C143_resume_false (hname : pathJoin dir name ≠ labelPath dir) (v w : K) (hvw : v < w) (h0 : losses 0 = some w)
    (disk : Disk (Saved K)) (e : Nat) (_hold : disk (pathJoin dir name) = some (.whole (.model labels v e))) :
    runActs disk (trainActs dir name labels losses 1) (pathJoin dir name) = some (.whole (.model labels w 0)) := by
  refine (C142_between_epochs_partial dir name labels losses hname disk 1).1 0 w ⟨by omega, w, h0, by intro e' w' h; omega, ?_⟩ h0
  intro e' w' he hw
  have : e' = 0 := by omega
  subst this
  rw [h0] at hw; cases hw; exact le_refl _

/-- C143: repeating an interrupted training (the same losses) leaves what the uninterrupted one would have left. -/
theorem C143_repeat (disk : Disk (Saved K)) (n : Nat) (done : List (Act (Saved K))) (hdone : done <+: trainActs dir name labels losses n) :
    runActs (runActs disk done) (trainActs dir name labels losses n) = runActs disk (trainActs dir name labels losses n) :=
  runActs_again done _ hdone disk

/-! ### C144 -/

/-- The two files, when both are complete, are of one training: the model's outputs are named by the label file. -/
def Belong (dir name : Str) (disk : Disk (Saved K)) : Prop :=
  ∀ l l' v e, disk (labelPath dir) = some (.whole (.labels l)) → disk (pathJoin dir name) = some (.whole (.model l' v e)) → l = l'

/-- C144 (partial): in a directory without a model, or with one of the same labels, label file and model belong together wherever the training is
stopped.  Missing: directories with a model of other classes (`C144_other_classes_false`). -/
theorem C144_same_classes_partial (hname : pathJoin dir name ≠ labelPath dir) (disk : Disk (Saved K)) (n : Nat)
    (hold : ∀ l' v e, disk (pathJoin dir name) = some (.whole (.model l' v e)) → l' = labels) (hb : Belong dir name disk)
    (done : List (Act (Saved K))) (hdone : done <+: trainActs dir name labels losses n) : Belong dir name (runActs disk done) := by
  intro l l' v e h1 h2
  have hmodel : l' = labels := by
    rcases C142_anywhere_partial dir name labels losses hname disk n done hdone with h | h | ⟨e', v', -, -, -, h⟩
    · rw [h] at h2; exact hold l' v e h2
    · rw [h] at h2; cases h2
    · rw [h] at h2; cases h2; rfl
  subst hmodel
  cases done with
  | nil => exact hb l l' v e h1 h2
  | cons a done =>
    unfold trainActs writeFile at hdone
    simp only [List.cons_append, List.nil_append, List.cons_prefix_cons] at hdone
    obtain ⟨rfl, hdone⟩ := hdone
    cases done with
    | nil => simp [runActs, Act.run] at h1
    | cons b done =>
      rw [List.cons_prefix_cons] at hdone
      obtain ⟨rfl, hdone⟩ := hdone
      have : runActs disk (.start (labelPath dir) :: .finish (labelPath dir) (.labels l') :: done) (labelPath dir) =
          some (.whole (.labels l')) := by
        show runActs (Act.run (Act.run disk (.start (labelPath dir))) (.finish (labelPath dir) (.labels l'))) done (labelPath dir) = _
        rw [runActs_other _ _ _ (fun a ha => by
          rw [file_paths (pathJoin dir name) (fun s : Nat × K => Saved.model l' s.2 s.1) _ a (hdone.subset ha)]; exact hname)]
        simp [Act.run]
      rw [this] at h1
      cases h1; rfl

/-- C144 is false: training with other classes in the directory of an earlier model overwrites the label file at once; until the first epoch is saved -
and for good when no epoch has a loss that is a number - the old model stands next to the new labels. -/
theorem C144_other_classes_false (hname : pathJoin dir name ≠ labelPath dir) (old : Str) (hne : labels ≠ old) (disk : Disk (Saved K)) (v : K) (e : Nat)
    (hold : disk (pathJoin dir name) = some (.whole (.model old v e))) (n : Nat) :
    (∃ done, done <+: trainActs dir name labels losses n ∧ ¬Belong dir name (runActs disk done)) ∧
    ((∀ e, e < n → losses e = none) → ¬Belong dir name (runActs disk (trainActs dir name labels losses n))) := by
  obtain ⟨-, h2, h3, -⟩ := C142_between_epochs_partial dir name labels losses hname disk 0
  refine ⟨⟨trainActs dir name labels losses 0, trainActs_mono dir name labels losses (by omega), fun hb => ?_⟩, fun hn hb => ?_⟩
  · exact hne (hb labels old v e h3 (by rw [h2 (by intro e h; omega)]; exact hold))
  · obtain ⟨-, k2, k3, -⟩ := C142_between_epochs_partial dir name labels losses hname disk n
    exact hne (hb labels old v e k3 (by rw [k2 hn]; exact hold))

/-- A complete training of which some epoch has a loss that is a number leaves files that belong together, whatever was there. -/
theorem C144_complete (hname : pathJoin dir name ≠ labelPath dir) (disk : Disk (Saved K)) (n e : Nat) (v : K) (hb : BestEpoch losses n e)
    (hv : losses e = some v) : Belong dir name (runActs disk (trainActs dir name labels losses n)) := by
  obtain ⟨k1, -, k3, -⟩ := C142_between_epochs_partial dir name labels losses hname disk n
  intro l l' v' e' h1 h2
  rw [k3] at h1; cases h1
  rw [k1 e v hb hv] at h2; cases h2
  rfl

end

/-- The hypotheses are met: the default names differ, and an epoch of loss 3 followed by one of loss 2. -/
example : ∃ done₁ done₂, done₁ <+: done₂ ∧ done₂ <+: trainActs "out".toList "trained_model.h5".toList "cat\ndog".toList (fun e => some (3 - e)) 2 ∧
    runActs (fun _ => none) done₁ "out/trained_model.h5".toList = some (.whole (.model "cat\ndog".toList 3 0)) ∧
    runActs (fun _ => none) done₂ "out/trained_model.h5".toList = some .torn :=
  C142_torn_false "out".toList "trained_model.h5".toList "cat\ndog".toList (fun e => some (3 - e)) (by decide) 3 2 (by decide) rfl rfl _

/-- Of the losses 3, not a number, 1, 2 the best is that of epoch 2. -/
example : BestEpoch (fun e => if e = 0 then some 3 else if e = 1 then none else some (e - 1)) 4 2 := by
  refine ⟨by omega, 1, rfl, ?_, ?_⟩
  · intro e w he hw
    match e, he with
    | 0, _ => simp at hw; omega
    | 1, _ => simp at hw
  · intro e w he hw
    match e, he with
    | 0, _ => simp at hw; omega
    | 1, _ => simp at hw
    | 2, _ => simp at hw; omega
    | 3, _ => simp at hw; omega

end Verif.TrainFiles
