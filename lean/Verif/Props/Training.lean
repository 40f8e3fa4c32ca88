import Verif.Model.Training
import Verif.Props.Scoring
import Verif.Lemmas.Base
import Mathlib.Tactic.Ring
import Mathlib.Tactic.Linarith

/-! C112 (every epoch uses every image once, with the label of its folder), C115 (freezing layers), C116 (which model is
kept), C117 (labels of validation images), C118 (new final layers), C119 (independence of earlier calls). -/

set_option linter.unusedVariables false

namespace Verif.Training
open Verif

/-! ### Helpers -/

theorem lt_steps (n b k : Nat) (hb : 0 < b) : (k : Rat) < (n : Rat) / b ↔ k < (n + b - 1) / b := by
  have hb' : (0 : Rat) < b := by exact_mod_cast hb
  rw [lt_div_iff₀ hb']
  have : ((k : Rat) * b < n) ↔ k * b < n := by exact_mod_cast Iff.rfl
  rw [this, ← Nat.succ_le_iff (m := k), Nat.le_div_iff_mul_le hb, Nat.succ_mul]
  omega

theorem takeSteps_eq (next : Nat → List (Str × Nat)) (n b : Nat) (hb : 0 < b) : ∀ (fuel done pos : Nat), (n + b - 1) / b ≤ done + fuel →
    takeSteps next ((n : Rat) / b) fuel done pos = (List.range' pos ((n + b - 1) / b - done)).map next := by
  intro fuel
  induction fuel with
  | zero =>
    intro done pos h
    rw [show (n + b - 1) / b - done = 0 by omega]
    rfl
  | succ fuel ih =>
    intro done pos h
    unfold takeSteps
    by_cases hd : done < (n + b - 1) / b
    · rw [if_pos ((lt_steps n b done hb).2 hd), ih (done + 1) (pos + 1) (by omega)]
      obtain ⟨m, hm⟩ : ∃ m, (n + b - 1) / b - done = m + 1 := ⟨(n + b - 1) / b - done - 1, by omega⟩
      rw [hm, show (n + b - 1) / b - (done + 1) = m by omega, List.range'_succ]
      rfl
    · rw [if_neg (fun h' => hd ((lt_steps n b done hb).1 h')), show (n + b - 1) / b - done = 0 by omega]
      rfl

theorem passLength_le (n b : Nat) (hb : 0 < b) : (n + b - 1) / b ≤ n := by
  rw [Nat.div_le_iff_le_mul_add_pred hb]
  have : n ≤ b * n := Nat.le_mul_of_pos_left n hb
  omega

theorem runEpochs_eq (next : Nat → List (Str × Nat)) (n b : Nat) (hb : 0 < b) : ∀ (e pos : Nat),
    runEpochs next ((n : Rat) / b) (n + 1) e pos =
      (List.range e).map (fun i => (List.range' (pos + i * ((n + b - 1) / b)) ((n + b - 1) / b)).map next) := by
  intro e
  induction e with
  | zero => intro pos; rfl
  | succ e ih =>
    intro pos
    have hl := passLength_le n b hb
    unfold runEpochs
    simp only []
    rw [takeSteps_eq next n b hb (n + 1) 0 pos (by omega), ih, List.range_succ_eq_map, List.map_cons, List.map_map]
    congr 1
    · simp
    · apply List.map_congr_left
      intro i hi
      simp only [Function.comp, List.length_map, List.length_range', Nat.sub_zero]
      rw [show pos + (n + b - 1) / b + i * ((n + b - 1) / b) = pos + (i + 1) * ((n + b - 1) / b) by ring]

theorem chunks_flatten {α : Type} (b : Nat) : ∀ (m : Nat) (l : List α), l.length ≤ m * b →
    ((List.range m).map (fun i => (l.drop (b * i)).take b)).flatten = l := by
  intro m
  induction m with
  | zero => intro l h; simp at h; subst h; rfl
  | succ m ih =>
    intro l h
    rw [List.range_succ_eq_map, List.map_cons, List.map_map, List.flatten_cons]
    have := ih (l.drop b) (by rw [List.length_drop, Nat.succ_mul] at *; omega)
    have e : (List.map ((fun i => List.take b (List.drop (b * i) l)) ∘ Nat.succ) (List.range m)) =
        (List.range m).map (fun i => ((l.drop b).drop (b * i)).take b) := by
      apply List.map_congr_left
      intro i _
      simp only [Function.comp, List.drop_drop, Nat.succ_eq_add_one]
      rw [show b * (i + 1) = b + b * i by ring]
    rw [e, this]
    simp

theorem range_files {α : Type} (l : List α) : (List.range l.length).filterMap (fun k => l[k]?) = l := by
  have : (List.range l.length).map (fun k => l[k]?) = l.map some := by
    apply List.ext_getElem
    · simp
    · intro i h1 h2
      simp at h1
      simp [h1]
  calc (List.range l.length).filterMap (fun k => l[k]?) = ((List.range l.length).map (fun k => l[k]?)).filterMap id := by
        rw [List.filterMap_map]; rfl
    _ = l := by rw [this, List.filterMap_map]; simp

theorem batch_length (g : Gen) (perm : List Nat) (hp : perm.Perm (List.range g.files.length)) (i : Nat) :
    (batchAt g perm i).length = min g.batch (g.files.length - g.batch * i) := by
  unfold batchAt
  have hlt : ∀ k ∈ (perm.drop (g.batch * i)).take g.batch, k < g.files.length := by
    intro k hk
    have := hp.mem_iff.1 (List.mem_of_mem_drop (List.mem_of_mem_take hk))
    simpa using this
  have : ∀ l : List Nat, (∀ k ∈ l, k < g.files.length) → (l.filterMap (fun k => g.files[k]?)).length = l.length := by
    intro l
    induction l with
    | nil => intro _; rfl
    | cons a l ih =>
      intro h
      have ha := h a List.mem_cons_self
      rw [List.filterMap_cons, List.getElem?_eq_getElem ha]
      simp only [List.length_cons]
      rw [ih (fun k hk => h k (List.mem_cons_of_mem _ hk))]
  rw [this _ hlt, List.length_take, List.length_drop, hp.length_eq, List.length_range]

theorem pass_perm (g : Gen) (hb : 0 < g.batch) (perm : List Nat) (hp : perm.Perm (List.range g.files.length)) :
    ((List.range (passLength g)).map (batchAt g perm)).flatten.Perm g.files := by
  have hlen : perm.length ≤ passLength g * g.batch := by
    rw [hp.length_eq, List.length_range]
    unfold passLength
    have := Nat.div_add_mod (g.files.length + g.batch - 1) g.batch
    have h2 := Nat.mod_lt (g.files.length + g.batch - 1) hb
    rw [Nat.mul_comm]
    omega
  have h := chunks_flatten g.batch (passLength g) perm hlen
  have e : ((List.range (passLength g)).map (batchAt g perm)).flatten = perm.filterMap (fun k => g.files[k]?) := by
    conv_rhs => rw [← h]
    rw [List.filterMap_flatten, List.map_map]
    rfl
  rw [e]
  have := hp.filterMap (fun k => g.files[k]?)
  rwa [range_files] at this

theorem epochs_eq (g : Gen) (hb : 0 < g.batch) (perm : Nat → List Nat) (n : Nat) (e : Nat) (he : e < n) :
    (runEpochs (stream g perm) ((g.files.length : Rat) / g.batch) (g.files.length + 1) n 0)[e]? =
      some ((List.range (passLength g)).map (batchAt g (perm e))) := by
  rw [runEpochs_eq _ _ _ hb]
  rw [List.getElem?_map, List.getElem?_range he]
  simp only [Option.map_some, Nat.zero_add]
  congr 1
  change (List.range' (e * passLength g) (passLength g)).map (stream g perm) = _
  apply List.ext_getElem
  · simp
  · intro i h1 h2
    simp only [List.length_map, List.length_range'] at h1
    simp only [List.getElem_map, List.getElem_range', List.getElem_range, Nat.one_mul, stream]
    have hpos : 0 < passLength g := by omega
    rw [show e * passLength g + i = i + e * passLength g by omega, Nat.add_mul_div_right _ _ hpos, Nat.add_mul_mod_self_right,
      Nat.div_eq_of_lt h1, Nat.mod_eq_of_lt h1, Nat.zero_add]

/-! ### C112 -/

/-- `perm` gives an order of `n` images for every pass. -/
def Orders (n : Nat) (perm : Nat → List Nat) : Prop := ∀ e, (perm e).Perm (List.range n)

/-- C112: every epoch of every training uses every training image exactly once and every validation image exactly once, each with its own label, in
batches of the requested size (the last one may be smaller, none is empty). -/
theorem C112_epochs {K : Type} [LT K] [DecidableLT K] (sep : Str) (h : Layers) (m : Net) (outputs : Nat) (g v : Gen) (nEpochs : Nat)
    (permT permV : Nat → List Nat) (hT : Orders g.files.length permT) (hV : Orders v.files.length permV) (losses : Nat → Option K)
    (iter : Nat) (r : Run) (hr : train sep h m outputs g v nEpochs permT permV losses iter = .ok r) :
    r.epochs.length = nEpochs ∧ r.validation.length = nEpochs ∧
    (∀ e ∈ r.epochs, e.flatten.Perm g.files ∧ (∀ b ∈ e, b ≠ [] ∧ b.length ≤ g.batch) ∧ ∀ b ∈ e.dropLast, b.length = g.batch) ∧
    (∀ e ∈ r.validation, e.flatten.Perm v.files ∧ (∀ b ∈ e, b ≠ [] ∧ b.length ≤ v.batch) ∧ ∀ b ∈ e.dropLast, b.length = v.batch) := by
  have key : ∀ (g : Gen) (hb : 0 < g.batch) (perm : Nat → List Nat), Orders g.files.length perm →
      (runEpochs (stream g perm) ((g.files.length : Rat) / g.batch) (g.files.length + 1) nEpochs 0).length = nEpochs ∧
      ∀ e ∈ runEpochs (stream g perm) ((g.files.length : Rat) / g.batch) (g.files.length + 1) nEpochs 0,
        e.flatten.Perm g.files ∧ (∀ b ∈ e, b ≠ [] ∧ b.length ≤ g.batch) ∧ ∀ b ∈ e.dropLast, b.length = g.batch := by
    intro g hb perm hp
    have hlen : (runEpochs (stream g perm) ((g.files.length : Rat) / g.batch) (g.files.length + 1) nEpochs 0).length = nEpochs := by
      rw [runEpochs_eq _ _ _ hb]; simp
    have hL : ∀ i, i < passLength g → g.batch * i < g.files.length := by
      intro i hi
      unfold passLength at hi
      rw [← Nat.succ_le_iff, Nat.le_div_iff_mul_le hb, Nat.succ_mul] at hi
      rw [Nat.mul_comm]; omega
    refine ⟨hlen, ?_⟩
    intro e he
    obtain ⟨i, hi, rfl⟩ := List.mem_iff_getElem.1 he
    have h1 := epochs_eq g hb perm nEpochs i (by omega)
    rw [List.getElem?_eq_getElem hi] at h1
    rw [Option.some.inj h1]
    refine ⟨pass_perm g hb (perm i) (hp i), ?_, ?_⟩
    · intro b hbm
      obtain ⟨k, hk, rfl⟩ := List.mem_map.1 hbm
      have hk' : k < passLength g := by simpa using hk
      have hl := batch_length g (perm i) (hp i) k
      have := hL k hk'
      refine ⟨?_, by omega⟩
      intro h0
      rw [h0] at hl
      simp at hl
      omega
    · intro b hbm
      obtain ⟨k, hk, rfl⟩ := List.mem_iff_getElem.1 hbm
      simp only [List.length_dropLast, List.length_map, List.length_range] at hk
      rw [List.getElem_dropLast, List.getElem_map, List.getElem_range, batch_length g (perm i) (hp i) k]
      have := hL (k + 1) (by omega)
      rw [Nat.mul_succ] at this
      omega
  unfold train at hr
  obtain ⟨labels, hl, hr⟩ := bind_ok hr
  split at hr
  · cases hr
  · rename_i hb
    split at hr
    · cases hr
    · simp only [Except.ok.injEq] at hr
      subst hr
      obtain ⟨a1, a2⟩ := key g (by omega) permT hT
      obtain ⟨b1, b2⟩ := key v (by omega) permV hV
      exact ⟨a1, b1, a2, b2⟩

/-- The number of a folder among the folders of a directory: how many have a smaller name. -/
def folderNumber (d : Folders) (c : Str) : Nat := (d.filter (fun e => decide (e.1 < c))).length

theorem indices_mem (d : Folders) (hd : (d.map Prod.fst).Nodup) (c : Str) (i : Nat) :
    (c, i) ∈ indices d ↔ c ∈ d.map Prod.fst ∧ i = folderNumber d c := by
  have hs := Scoring.labels_sorted (d.map Prod.fst) hd
  have hp : ((d.map Prod.fst).mergeSort (fun a b => decide (a ≤ b))).Perm (d.map Prod.fst) := List.mergeSort_perm _ _
  have hcnt : ((d.map Prod.fst).mergeSort (fun a b => decide (a ≤ b))).countP (fun m => decide (m < c)) = folderNumber d c := by
    rw [hp.countP_eq, List.countP_map, List.countP_eq_length_filter]
    rfl
  unfold indices
  constructor
  · intro h
    have hk := List.mem_zipIdx_iff_getElem?.1 h
    have := Scoring.sorted_position _ hs i c hk
    refine ⟨hp.mem_iff.1 (List.mem_of_getElem? hk), ?_⟩
    rw [← hcnt, this]
  · rintro ⟨hc, hi⟩
    obtain ⟨k, hk, hkc⟩ := List.mem_iff_getElem.1 (hp.mem_iff.2 hc)
    have hk' : ((d.map Prod.fst).mergeSort (fun a b => decide (a ≤ b)))[k]? = some c := by rw [List.getElem?_eq_getElem hk, hkc]
    have := Scoring.sorted_position _ hs k c hk'
    rw [List.mem_zipIdx_iff_getElem?, hi, ← hcnt, this]
    exact hk'

theorem indices_length (d : Folders) : (indices d).length = d.length := by
  unfold indices
  rw [List.length_zipIdx, List.length_mergeSort, List.length_map]

theorem indices_names (d : Folders) : ((indices d).map Prod.fst).Perm (d.map Prod.fst) := by
  unfold indices
  have := List.zipIdx_map_fst 0 ((d.map Prod.fst).mergeSort (fun a b => decide (a ≤ b)))
  rw [this]
  exact List.mergeSort_perm _ _

/-- C112: the images of a directory are exactly those in its sub-folders, each labelled with the number of its folder in the order of names. -/
theorem C112_labels (d : Folders) (hd : (d.map Prod.fst).Nodup) (batch : Nat) (p : Str) (i : Nat) :
    (p, i) ∈ (flow d batch).files ↔ ∃ c fs f, (c, fs) ∈ d ∧ f ∈ fs ∧ p = c ++ '/' :: f ∧ i = folderNumber d c := by
  unfold flow
  simp only [List.mem_flatMap, List.mem_map, Prod.exists, imagesOf, List.mem_filter, decide_eq_true_eq, Prod.mk.injEq]
  constructor
  · rintro ⟨c, k, hc, f, ⟨c', fs, ⟨hm, rfl⟩, hf⟩, rfl, rfl⟩
    exact ⟨c', fs, f, hm, hf, rfl, ((indices_mem d hd c' k).1 hc).2⟩
  · rintro ⟨c, fs, f, hm, hf, rfl, rfl⟩
    exact ⟨c, folderNumber d c, (indices_mem d hd c _).2 ⟨List.mem_map.2 ⟨(c, fs), hm, rfl⟩, rfl⟩, f, ⟨c, fs, ⟨hm, rfl⟩, hf⟩, rfl, rfl⟩

/-- C112: the label file written beside the model, read back, names for every class the label its training images had. -/
theorem C112_label_file {K : Type} [LT K] [DecidableLT K] (sep : Str) (hsep : sep = TextUtils.posixSep ∨ sep = TextUtils.windowsSep)
    (h : Layers) (m : Net) (outputs : Nat) (d v : Folders) (batch : Nat) (hd : (d.map Prod.fst).Nodup)
    (hname : ∀ e ∈ d, e.1 ≠ [] ∧ '\r' ∉ e.1 ∧ '\n' ∉ e.1) (hne : d ≠ []) (nEpochs : Nat)
    (permT permV : Nat → List Nat) (losses : Nat → Option K) (iter : Nat) (r : Run)
    (hr : train sep h m outputs (setupGenerators d v batch).1 (setupGenerators d v batch).2 nEpochs permT permV losses iter = .ok r) :
    (TextUtils.readTextList sep r.labelFile).length = d.length ∧ outputs = d.length ∧
    ∀ e ∈ d, Scoring.labelIndex (TextUtils.readTextList sep r.labelFile) e.1 = .ok (folderNumber d e.1) := by
  have hnames := indices_names d
  have hlen := indices_length d
  have hfilter : ∀ c, ((indices d).filter (fun f => decide (f.1 < c))).length = folderNumber d c := by
    intro c
    have h1 : ((indices d).filter (fun f => decide (f.1 < c))).length = ((indices d).map Prod.fst).countP (fun n => decide (n < c)) := by
      rw [List.countP_map, List.countP_eq_length_filter]; rfl
    rw [h1, hnames.countP_eq, List.countP_map, List.countP_eq_length_filter]
    rfl
  obtain ⟨file, f1, f2, f3⟩ := Scoring.C86_label_file sep hsep (indices d) (by
      intro h0; rw [h0] at hlen; simp at hlen; exact hne (List.length_eq_zero_iff.1 hlen.symm))
    (hnames.nodup_iff.2 hd)
    (by
      rintro ⟨c, i⟩ hc
      obtain ⟨⟨c', fs⟩, hm, rfl⟩ := List.mem_map.1 ((indices_mem d hd c i).1 hc).1
      exact hname _ hm)
    (by
      rintro ⟨c, i⟩ hc
      rw [hfilter]
      exact ((indices_mem d hd c i).1 hc).2)
  unfold train at hr
  rw [show (setupGenerators d v batch).1.classIndices = indices d from rfl, f1, ok_bind] at hr
  split at hr
  · cases hr
  · split at hr
    · cases hr
    · rename_i hc
      simp only [Except.ok.injEq] at hr
      subst hr
      refine ⟨by rw [f2, hlen], ?_, ?_⟩
      · by_contra hx
        exact hc (Or.inl (by rw [hlen]; exact fun h => hx h.symm))
      · intro e he
        exact f3 (e.1, folderNumber d e.1) ((indices_mem d hd _ _).2 ⟨List.mem_map_of_mem he, rfl⟩)

/-- C117: validation and training images of one class have the same label if both directories have folders of the same names, and with equally many
folders only then. -/
theorem C117_validation_labels_partial (d v : Folders) (hd : (d.map Prod.fst).Nodup) (hv : (v.map Prod.fst).Nodup) (hlen : d.length = v.length) (batch : Nat) :
    ((∀ c i, (c, i) ∈ (setupGenerators d v batch).2.classIndices → (c, i) ∈ (setupGenerators d v batch).1.classIndices) ↔
      ∀ c, c ∈ d.map Prod.fst ↔ c ∈ v.map Prod.fst) := by
  show (∀ c i, (c, i) ∈ indices v → (c, i) ∈ indices d) ↔ _
  constructor
  · intro h
    have hsub : v.map Prod.fst ⊆ d.map Prod.fst := by
      intro c hc
      exact ((indices_mem d hd c _).1 (h c (folderNumber v c) ((indices_mem v hv c _).2 ⟨hc, rfl⟩))).1
    have hp : (v.map Prod.fst).Perm (d.map Prod.fst) := (List.subperm_of_subset hv hsub).perm_of_length_le (by simp [hlen])
    intro c
    exact hp.mem_iff.symm
  · intro h c i hc
    have hp : (d.map Prod.fst).Perm (v.map Prod.fst) := (List.perm_ext_iff_of_nodup hd hv).2 h
    obtain ⟨h1, h2⟩ := (indices_mem v hv c i).1 hc
    refine (indices_mem d hd c i).2 ⟨(h c).2 h1, ?_⟩
    rw [h2]
    unfold folderNumber
    have h3 : ∀ d : Folders, (d.filter (fun e => decide (e.1 < c))).length = (d.map Prod.fst).countP (fun n => decide (n < c)) := by
      intro d; rw [List.countP_map, List.countP_eq_length_filter]; rfl
    rw [h3, h3, hp.countP_eq]

/-- C117 fails when the validation directory has as many folders under other names: nothing is raised, and validation images of a class known from
training count as another class. -/
theorem C117_validation_false (sep : Str) (a b c : Str) (hab : a < b) (hbc : b < c) (f : Str) :
    ∃ (d v : Folders), (b ++ '/' :: f, 0) ∈ (setupGenerators d v 1).2.files ∧ (b ++ '/' :: f, 1) ∈ (setupGenerators d v 1).1.files ∧
      ∀ (h : Layers) (m : Net) (nEpochs iter : Nat) (permT permV : Nat → List Nat) (losses : Nat → Option Nat),
        ∃ r, train sep h m 2 (setupGenerators d v 1).1 (setupGenerators d v 1).2 nEpochs permT permV losses iter = .ok r := by
  have hd : (List.map Prod.fst ([(a, [f]), (b, [f])] : Folders)).Nodup := by
    simp only [List.map_cons, List.map_nil]
    exact List.nodup_cons.2 ⟨by simp [ne_of_lt hab], by simp⟩
  have hv : (List.map Prod.fst ([(b, [f]), (c, [f])] : Folders)).Nodup := by
    simp only [List.map_cons, List.map_nil]
    exact List.nodup_cons.2 ⟨by simp [ne_of_lt hbc], by simp⟩
  refine ⟨[(a, [f]), (b, [f])], [(b, [f]), (c, [f])], ?_, ?_, ?_⟩
  · refine (C112_labels _ hv 1 _ 0).2 ⟨b, [f], f, by simp, by simp, rfl, ?_⟩
    simp [folderNumber, not_lt_of_gt hbc]
  · refine (C112_labels _ hd 1 _ 1).2 ⟨b, [f], f, by simp, by simp, rfl, ?_⟩
    simp [folderNumber, hab]
  · intro h m nEpochs iter permT permV losses
    have l1 : (indices ([(a, [f]), (b, [f])] : Folders)).length = 2 := by rw [indices_length]; rfl
    have l2 : (indices ([(b, [f]), (c, [f])] : Folders)).length = 2 := by rw [indices_length]; rfl
    have hw : ∃ s, Scoring.writeLabels sep (indices ([(a, [f]), (b, [f])] : Folders)) = .ok s := by
      unfold Scoring.writeLabels TextUtils.writeTextList
      cases hq : (((indices ([(a, [f]), (b, [f])] : Folders)).map Prod.fst).mergeSort (fun a b => decide (a ≤ b))).getLast? with
      | none =>
        rw [List.getLast?_eq_none_iff] at hq
        have := congrArg List.length hq
        rw [List.length_mergeSort, List.length_map, l1] at this
        simp at this
      | some e => exact ⟨_, rfl⟩
    obtain ⟨s, hs⟩ := hw
    unfold train
    rw [show (setupGenerators ([(a, [f]), (b, [f])] : Folders) [(b, [f]), (c, [f])] 1).1.classIndices = indices ([(a, [f]), (b, [f])] : Folders) from rfl, hs, ok_bind,
      if_neg (by simp [setupGenerators, flow]), if_neg (by simp [setupGenerators, flow, l1, l2])]
    exact ⟨_, rfl⟩

/-- C112: the failures: no class: IndexError; batches of size 0: ZeroDivisionError; a number of folders that is not the number of the network's
outputs: ValueError. -/
theorem C112_failures {K : Type} [LT K] [DecidableLT K] (sep : Str) (h : Layers) (m : Net) (outputs : Nat) (d v : Folders) (batch : Nat) (nEpochs : Nat)
    (permT permV : Nat → List Nat) (losses : Nat → Option K) (iter : Nat) :
    (d = [] → train sep h m outputs (setupGenerators d v batch).1 (setupGenerators d v batch).2 nEpochs permT permV losses iter = .error .indexError) ∧
    (d ≠ [] → batch = 0 →
      train sep h m outputs (setupGenerators d v batch).1 (setupGenerators d v batch).2 nEpochs permT permV losses iter = .error .zeroDivision) ∧
    (d ≠ [] → batch ≠ 0 → (d.length ≠ outputs ∨ v.length ≠ outputs) →
      train sep h m outputs (setupGenerators d v batch).1 (setupGenerators d v batch).2 nEpochs permT permV losses iter = .error .valueError) := by
  have hw : d ≠ [] → ∃ s, Scoring.writeLabels sep (indices d) = .ok s := by
    intro hd
    unfold Scoring.writeLabels TextUtils.writeTextList
    cases hq : (((indices d).map Prod.fst).mergeSort (fun a b => decide (a ≤ b))).getLast? with
    | none =>
      rw [List.getLast?_eq_none_iff] at hq
      have := congrArg List.length hq
      rw [List.length_mergeSort, List.length_map, indices_length] at this
      exact absurd (List.length_eq_zero_iff.1 this) hd
    | some e => exact ⟨_, rfl⟩
  refine ⟨?_, ?_, ?_⟩
  · rintro rfl
    have : Scoring.writeLabels sep (setupGenerators [] v batch).1.classIndices = .error .indexError := by
      have e : (setupGenerators [] v batch).1.classIndices = [] := by
        show indices [] = []
        exact List.length_eq_zero_iff.1 (indices_length [])
      rw [e]
      unfold Scoring.writeLabels
      rw [List.map_nil, List.mergeSort_nil]
      rfl
    unfold train
    rw [this]
    rfl
  · intro hd hb
    obtain ⟨s, hs⟩ := hw hd
    unfold train
    rw [show (setupGenerators d v batch).1.classIndices = indices d from rfl, hs, ok_bind]
    exact if_pos (Or.inl hb)
  · intro hd hb hl
    obtain ⟨s, hs⟩ := hw hd
    unfold train
    rw [show (setupGenerators d v batch).1.classIndices = indices d from rfl, hs, ok_bind, if_neg (by
      intro h; rcases h with h | h
      · exact hb h
      · exact hb h), if_pos (by
      rw [show (setupGenerators d v batch).2.classIndices = indices v from rfl, indices_length, indices_length]; exact hl)]

theorem sort_dog_cat : ["dog".toList, "cat".toList].mergeSort (fun a b => decide (a ≤ b)) = ["cat".toList, "dog".toList] := by
  simp [List.mergeSort, List.MergeSort.Internal.splitInTwo, List.merge]
  decide +kernel

theorem sort_cat_dog : ["cat".toList, "dog".toList].mergeSort (fun a b => decide (a ≤ b)) = ["cat".toList, "dog".toList] := by
  simp [List.mergeSort, List.MergeSort.Internal.splitInTwo, List.merge]
  decide +kernel

/-- A directory with two dogs and a cat, listed in that order. -/
def dogsAndCat : Folders := [("dog".toList, [['1'], ['2']]), ("cat".toList, [['3']])]

/-- A directory with one cat and no dog. -/
def oneCat : Folders := [("cat".toList, [['4']]), ("dog".toList, [])]

theorem flow_dogsAndCat : flow dogsAndCat 2 =
    ⟨[("cat".toList, 0), ("dog".toList, 1)], [("cat/3".toList, 0), ("dog/1".toList, 1), ("dog/2".toList, 1)], 2⟩ := by
  have : indices dogsAndCat = [("cat".toList, 0), ("dog".toList, 1)] := by
    unfold indices dogsAndCat
    simp only [List.map_cons, List.map_nil]
    rw [sort_dog_cat]
    rfl
  unfold flow
  rw [this]
  congr 1

theorem flow_oneCat : flow oneCat 2 = ⟨[("cat".toList, 0), ("dog".toList, 1)], [("cat/4".toList, 0)], 2⟩ := by
  have : indices oneCat = [("cat".toList, 0), ("dog".toList, 1)] := by
    unfold indices oneCat
    simp only [List.map_cons, List.map_nil]
    rw [sort_cat_dog]
    rfl
  unfold flow
  rw [this]
  congr 1

theorem labels_dogsAndCat : ∃ s, Scoring.writeLabels TextUtils.posixSep [("cat".toList, 0), ("dog".toList, 1)] = .ok s := by
  unfold Scoring.writeLabels
  simp only [List.map_cons, List.map_nil]
  rw [sort_cat_dog]
  exact ⟨_, rfl⟩

example : ∃ r, train TextUtils.posixSep ⟨fun _ => true, 0⟩ ⟨[], 2⟩ 2 (setupGenerators dogsAndCat oneCat 2).1 (setupGenerators dogsAndCat oneCat 2).2
      2 (fun _ => [2, 0, 1]) (fun _ => [0]) (fun e => some e) 0 = .ok r ∧
    r.epochs = [[[("dog/2".toList, 1), ("cat/3".toList, 0)], [("dog/1".toList, 1)]], [[("dog/2".toList, 1), ("cat/3".toList, 0)], [("dog/1".toList, 1)]]] ∧
    r.saved = some 0 ∧ r.iterations = 4 := by
  obtain ⟨s, hs⟩ := labels_dogsAndCat
  unfold setupGenerators train
  simp only [flow_dogsAndCat, flow_oneCat, hs, ok_bind]
  rw [if_neg (by decide), if_neg (by decide)]
  refine ⟨_, rfl, ?_⟩
  simp only []
  decide +kernel

/-! ### C115 -/

theorem foldl_set (b : Bool) (ls : List Nat) : ∀ (h : Layers) (k : Nat),
    (ls.foldl (fun h l => h.set l b) h).trainable k = (if k ∈ ls then b else h.trainable k) ∧ (ls.foldl (fun h l => h.set l b) h).count = h.count := by
  induction ls with
  | nil => intro h k; simp
  | cons l ls ih =>
    intro h k
    rw [List.foldl_cons]
    refine ⟨?_, by rw [(ih _ k).2]; rfl⟩
    rw [(ih _ k).1]
    by_cases h1 : k ∈ ls
    · simp [h1]
    · by_cases h2 : k = l <;> simp [h1, h2, Layers.set]

/-- C115: freezing (unfreezing) a model makes all of its layers untrainable (trainable) and leaves every layer that is not in it alone. -/
theorem C115_freeze (h : Layers) (m : Net) (k : Nat) :
    (k ∈ m.layers → (freeze h m).trainable k = false ∧ (unfreeze h m).trainable k = true) ∧
    (k ∉ m.layers → (freeze h m).trainable k = h.trainable k ∧ (unfreeze h m).trainable k = h.trainable k) ∧
    (freeze h m).count = h.count ∧ (unfreeze h m).count = h.count := by
  unfold freeze unfreeze
  refine ⟨fun hk => ?_, fun hk => ?_, (foldl_set false m.layers h k).2, (foldl_set true m.layers h k).2⟩
  · rw [(foldl_set false m.layers h k).1, (foldl_set true m.layers h k).1, if_pos hk, if_pos hk]; exact ⟨rfl, rfl⟩
  · rw [(foldl_set false m.layers h k).1, (foldl_set true m.layers h k).1, if_neg hk, if_neg hk]; exact ⟨rfl, rfl⟩

/-- C115: unfreezing what was frozen makes the whole model trainable again, whatever it was before. -/
theorem C115_unfreeze (h : Layers) (m : Net) : trainedLayers (unfreeze (freeze h m) m) m = m.layers ∧ trainedLayers (freeze h m) m = [] := by
  unfold trainedLayers
  constructor
  · rw [List.filter_eq_self]
    intro k hk
    exact ((C115_freeze (freeze h m) m k).1 hk).2
  · rw [List.filter_eq_nil_iff]
    intro k hk
    rw [((C115_freeze h m k).1 hk).1]
    simp

/-- C115: a network loaded without its classification layers, frozen, and trained with new final layers: the training changes exactly the four new
layers; without freezing it changes all; frozen and trained without new layers it changes nothing. -/
theorem C115_transfer {K : Type} [LT K] [DecidableLT K] (h : Layers) (n : Nat) (sep : Str) (outputs : Nat) (g v : Gen) (nEpochs : Nat)
    (permT permV : Nat → List Nat) (losses : Nat → Option K) (iter : Nat) :
    ∃ h1 m1 h2 m2 h3 m3 new, loadModel h n false = (h1, m1) ∧ addHead (freeze h1 m1) m1 = .ok (h2, m2) ∧ addHead h1 m1 = .ok (h3, m3) ∧
      m1.layers.length = n ∧ m2.layers = m1.layers ++ new ∧ m3.layers = m1.layers ++ new ∧ new.length = 4 ∧ (∀ k ∈ new, k ∉ m1.layers) ∧
      (∀ r, train sep h2 m2 outputs g v nEpochs permT permV losses iter = .ok r → r.trained = new) ∧
      (∀ r, train sep h3 m3 outputs g v nEpochs permT permV losses iter = .ok r → r.trained = m3.layers) ∧
      (∀ r, train sep (freeze h1 m1) m1 outputs g v nEpochs permT permV losses iter = .ok r → r.trained = []) := by
  have ht : ∀ (h : Layers) (m : Net) r, train sep h m outputs g v nEpochs permT permV losses iter = .ok r → r.trained = trainedLayers h m := by
    intro h m r hr
    unfold train at hr
    obtain ⟨labels, hl, hr⟩ := bind_ok hr
    split at hr
    · cases hr
    · split at hr
      · cases hr
      · simp only [Except.ok.injEq] at hr
        subst hr
        rfl
  have hcount : (freeze (loadModel h n false).1 (loadModel h n false).2).count = h.count + n :=
    (C115_freeze (loadModel h n false).1 (loadModel h n false).2 0).2.2.1
  have hmem : ∀ k, k ∈ (loadModel h n false).2.layers ↔ h.count ≤ k ∧ k < h.count + n := by
    intro k; simp [loadModel, List.mem_range'_1]
  have hnew : ∀ k, k ∈ List.range' (h.count + n) 4 → ¬ (h.count ≤ k ∧ k < h.count + n) := by
    intro k hk; simp only [List.mem_range'_1] at hk; omega
  refine ⟨(loadModel h n false).1, (loadModel h n false).2, _, _, _, _, List.range' (h.count + n) 4, rfl, rfl, rfl, by simp [loadModel], ?_, rfl, by simp,
    ?_, ?_, ?_, ?_⟩
  · show (loadModel h n false).2.layers ++ List.range' (freeze (loadModel h n false).1 (loadModel h n false).2).count 4 = _
    rw [hcount]
  · intro k hk
    rw [hmem]; exact hnew k hk
  · intro r hr
    rw [ht _ _ r hr]
    unfold trainedLayers
    show ((loadModel h n false).2.layers ++ List.range' (freeze (loadModel h n false).1 (loadModel h n false).2).count 4).filter
      (fun k => if (freeze (loadModel h n false).1 (loadModel h n false).2).count ≤ k then true else
        (freeze (loadModel h n false).1 (loadModel h n false).2).trainable k) = _
    rw [hcount, List.filter_append]
    have e1 : (loadModel h n false).2.layers.filter (fun k => if h.count + n ≤ k then true else
        (freeze (loadModel h n false).1 (loadModel h n false).2).trainable k) = [] := by
      rw [List.filter_eq_nil_iff]
      intro k hk
      have := (hmem k).1 hk
      rw [if_neg (by omega), ((C115_freeze _ _ k).1 hk).1]
      simp
    have e2 : (List.range' (h.count + n) 4).filter (fun k => if h.count + n ≤ k then true else
        (freeze (loadModel h n false).1 (loadModel h n false).2).trainable k) = List.range' (h.count + n) 4 := by
      rw [List.filter_eq_self]
      intro k hk
      simp only [List.mem_range'_1] at hk
      rw [if_pos hk.1]
    rw [e1, e2]
    rfl
  · intro r hr
    rw [ht _ _ r hr]
    unfold trainedLayers
    rw [List.filter_eq_self]
    intro k hk
    show (if h.count + n ≤ k then true else if h.count ≤ k then true else h.trainable k) = true
    have hk' : k ∈ (loadModel h n false).2.layers ++ List.range' (h.count + n) 4 := hk
    rcases List.mem_append.1 hk' with hk | hk
    · have := (hmem k).1 hk
      rw [if_neg (by omega), if_pos (by omega)]
    · simp only [List.mem_range'_1] at hk
      rw [if_pos hk.1]
  · intro r hr
    rw [ht _ _ r hr]
    exact (C115_unfreeze _ _).2

/-- A call on networks, for C115: `load n top` loads a network, `head i` puts final layers on network `i`, `freeze i` and `unfreeze i` act on it. -/
inductive NetCall where
  | load (n : Nat) (top : Bool)
  | head (i : Nat)
  | freeze (i : Nat)
  | unfreeze (i : Nat)

/-- The networks made so far, each with the number of the load it comes from; a call on a network that does not exist, or that raises, changes
nothing. -/
def netStep (s : Layers × List (Nat × Net)) : NetCall → Layers × List (Nat × Net)
  | .load n top => ((loadModel s.1 n top).1, s.2 ++ [(s.2.length, (loadModel s.1 n top).2)])
  | .head i => match s.2[i]? with
    | none => s
    | some m => match addHead s.1 m.2 with
      | .error _ => s
      | .ok r => (r.1, s.2 ++ [(m.1, r.2)])
  | .freeze i => match s.2[i]? with
    | none => s
    | some m => (freeze s.1 m.2, s.2)
  | .unfreeze i => match s.2[i]? with
    | none => s
    | some m => (unfreeze s.1 m.2, s.2)

/-- All layers exist, and networks from different loads have no layer in common. -/
def NetInv (s : Layers × List (Nat × Net)) : Prop :=
  (∀ m ∈ s.2, m.1 < s.2.length ∧ ∀ k ∈ m.2.layers, k < s.1.count) ∧
  ∀ a ∈ s.2, ∀ b ∈ s.2, a.1 ≠ b.1 → ∀ k ∈ a.2.layers, k ∉ b.2.layers

theorem netInv_step (s : Layers × List (Nat × Net)) (c : NetCall) (hs : NetInv s) : NetInv (netStep s c) := by
  obtain ⟨h, ms⟩ := s
  obtain ⟨h1, h2⟩ := hs
  cases c with
  | load n top =>
    refine ⟨?_, ?_⟩
    · intro m hm
      simp only [netStep, List.mem_append, List.mem_singleton, List.length_append, List.length_singleton] at hm ⊢
      rcases hm with hm | rfl
      · refine ⟨by have := (h1 m hm).1; simp only [] at this; omega, fun k hk => ?_⟩
        have := (h1 m hm).2 k hk
        simp only [loadModel] at this ⊢; omega
      · refine ⟨by simp, fun k hk => ?_⟩
        simp only [loadModel, List.mem_range'_1] at hk ⊢; omega
    · intro a ha b hb hab k hk hk'
      simp only [netStep, List.mem_append, List.mem_singleton] at ha hb
      rcases ha with ha | rfl <;> rcases hb with hb | rfl
      · exact h2 a ha b hb hab k hk hk'
      · have := (h1 a ha).2 k hk
        simp only [loadModel, List.mem_range'_1] at hk' this; omega
      · have := (h1 b hb).2 k hk'
        simp only [loadModel, List.mem_range'_1] at hk this; omega
      · exact hab rfl
  | head i =>
    unfold netStep
    simp only []
    cases hi : ms[i]? with
    | none => exact ⟨h1, h2⟩
    | some m =>
      simp only []
      unfold addHead
      split
      · exact ⟨h1, h2⟩
      · rename_i r hr
        split at hr
        · simp only [Except.ok.injEq] at hr
          subst hr
          have hm : m ∈ ms := List.mem_of_getElem? hi
          refine ⟨?_, ?_⟩
          · intro a ha
            simp only [List.mem_append, List.mem_singleton, List.length_append, List.length_singleton] at ha ⊢
            rcases ha with ha | rfl
            · refine ⟨by have := (h1 a ha).1; simp only [] at this; omega, fun k hk => ?_⟩
              have := (h1 a ha).2 k hk
              simp only [] at this; omega
            · refine ⟨by have := (h1 m hm).1; simp only [] at this ⊢; omega, fun k hk => ?_⟩
              simp only [List.mem_append, List.mem_range'_1] at hk
              rcases hk with hk | hk
              · have := (h1 m hm).2 k hk; simp only [] at this; omega
              · omega
          · intro a ha b hb hab k hk hk'
            simp only [List.mem_append, List.mem_singleton] at ha hb
            rcases ha with ha | rfl <;> rcases hb with hb | rfl
            · exact h2 a ha b hb hab k hk hk'
            · simp only [List.mem_append, List.mem_range'_1] at hk'
              rcases hk' with hk' | hk'
              · exact h2 a ha m hm hab k hk hk'
              · have := (h1 a ha).2 k hk
                simp only [] at this; omega
            · simp only [List.mem_append, List.mem_range'_1] at hk
              rcases hk with hk | hk
              · exact h2 m hm b hb hab k hk hk'
              · have := (h1 b hb).2 k hk'
                simp only [] at this; omega
            · exact hab rfl
        · cases hr
  | freeze i =>
    unfold netStep
    simp only []
    cases hi : ms[i]? with
    | none => exact ⟨h1, h2⟩
    | some m =>
      refine ⟨fun a ha => ⟨(h1 a ha).1, fun k hk => ?_⟩, h2⟩
      rw [(C115_freeze h m.2 k).2.2.1]
      exact (h1 a ha).2 k hk
  | unfreeze i =>
    unfold netStep
    simp only []
    cases hi : ms[i]? with
    | none => exact ⟨h1, h2⟩
    | some m =>
      refine ⟨fun a ha => ⟨(h1 a ha).1, fun k hk => ?_⟩, h2⟩
      rw [(C115_freeze h m.2 k).2.2.2]
      exact (h1 a ha).2 k hk

/-- C115, any history of loading networks, putting final layers on them, freezing and unfreezing: freezing (unfreezing) one network never changes
which layers of a network from another load are trained. -/
theorem C115_separate_networks (t : Nat → Bool) (calls : List NetCall) (a b : Nat × Net)
    (ha : a ∈ (calls.foldl netStep (⟨t, 0⟩, [])).2) (hb : b ∈ (calls.foldl netStep (⟨t, 0⟩, [])).2) (hab : a.1 ≠ b.1) :
    trainedLayers (freeze (calls.foldl netStep (⟨t, 0⟩, [])).1 a.2) b.2 = trainedLayers (calls.foldl netStep (⟨t, 0⟩, [])).1 b.2 ∧
    trainedLayers (unfreeze (calls.foldl netStep (⟨t, 0⟩, [])).1 a.2) b.2 = trainedLayers (calls.foldl netStep (⟨t, 0⟩, [])).1 b.2 := by
  have inv : ∀ s, NetInv s → NetInv (calls.foldl netStep s) := by
    clear ha hb
    induction calls with
    | nil => exact fun s hs => hs
    | cons c cs ih => exact fun s hs => ih _ (netInv_step s c hs)
  have := inv (⟨t, 0⟩, []) ⟨by simp, by simp⟩
  unfold trainedLayers
  constructor <;>
  · apply List.filter_congr
    intro k hk
    have hn : k ∉ a.2.layers := fun hk' => this.2 a ha b hb hab k hk' hk
    first
    | rw [((C115_freeze _ a.2 k).2.1 hn).1]
    | rw [((C115_freeze _ a.2 k).2.1 hn).2]

example : ([.load 2 false, .head 0, .load 3 false, .freeze 1] : List NetCall).foldl netStep (⟨fun _ => false, 0⟩, []) |>.2.map (fun m => (m.1, m.2.layers))
    = [(0, [0, 1]), (0, [0, 1, 2, 3, 4, 5]), (2, [6, 7, 8])] := by rfl

/-- C118: on every network loaded without its classification layers the final layers can be put, after freezing or not: the result has the
network's layers, four more, and a score per class. -/
theorem C118_final_layers_partial (h : Layers) (n : Nat) : ∀ b : Bool, ∃ h1 m1 h2 m2, loadModel h n false = (h1, m1) ∧
    addHead (if b then freeze h1 m1 else h1) m1 = .ok (h2, m2) ∧ m2.layers.length = n + 4 ∧ m2.rank = 2 ∧ m2.layers.Nodup := by
  intro b
  have hc : (if b then freeze (loadModel h n false).1 (loadModel h n false).2 else (loadModel h n false).1).count = h.count + n := by
    cases b
    · rfl
    · exact (C115_freeze (loadModel h n false).1 (loadModel h n false).2 0).2.2.1
  refine ⟨_, _, _, _, rfl, rfl, ?_, rfl, ?_⟩
  · simp [loadModel]
  · show ((loadModel h n false).2.layers ++ List.range' (if b then freeze (loadModel h n false).1 (loadModel h n false).2 else (loadModel h n false).1).count 4).Nodup
    rw [hc, List.nodup_append]
    refine ⟨List.nodup_range', List.nodup_range', ?_⟩
    intro a ha c hc'
    simp only [loadModel, List.mem_range'_1] at ha hc'
    omega

/-- C118 fails for a network loaded the default way, with its own classification layers: the final layers cannot be put on it (ValueError). -/
theorem C118_include_top_false (h : Layers) (n : Nat) : ∃ h1 m1, loadModel h n true = (h1, m1) ∧ addHead (freeze h1 m1) m1 = .error .valueError :=
  ⟨_, _, rfl, rfl⟩

example : ∃ h2 m2, addHead (freeze (loadModel ⟨fun _ => true, 0⟩ 3 false).1 (loadModel ⟨fun _ => true, 0⟩ 3 false).2) (loadModel ⟨fun _ => true, 0⟩ 3 false).2 =
    .ok (h2, m2) ∧ trainedLayers h2 m2 = [3, 4, 5, 6] := ⟨_, _, rfl, by decide⟩

/-! ### C116 -/

/-- Epoch `e` is the first with the lowest validation loss; losses that are not numbers do not count. -/
def BestEpoch {K : Type} [LT K] [LE K] (losses : Nat → Option K) (n e : Nat) : Prop :=
  e < n ∧ ∃ v, losses e = some v ∧ (∀ e' w, e' < e → losses e' = some w → v < w) ∧ ∀ e' w, e' < n → losses e' = some w → v ≤ w

theorem checkpoints_append {K : Type} [LT K] [DecidableLT K] (l : List (Option K)) (x : Option K) : ∀ s e,
    checkpoints s e (l ++ [x]) = checkpoint (checkpoints s e l) (e + l.length) x := by
  induction l with
  | nil => intro s e; rfl
  | cons a l ih =>
    intro s e
    show checkpoints (checkpoint s e a) (e + 1) (l ++ [x]) = _
    rw [ih]
    show checkpoint _ (e + 1 + l.length) x = checkpoint _ (e + (l.length + 1)) x
    rw [show e + 1 + l.length = e + (l.length + 1) by omega]
    rfl

theorem checkpoints_inv {K : Type} [LinearOrder K] (losses : Nat → Option K) (n : Nat) :
    (∀ e, (checkpoints (none, none) 0 ((List.range n).map losses)).2 = some e ↔ BestEpoch losses n e) ∧
    (∀ v, (checkpoints (none, none) 0 ((List.range n).map losses)).1 = some v →
      ∃ e, (checkpoints (none, none) 0 ((List.range n).map losses)).2 = some e ∧ losses e = some v) ∧
    ((checkpoints (none, none) 0 ((List.range n).map losses)).1 = none →
      (checkpoints (none, none) 0 ((List.range n).map losses)).2 = none ∧ ∀ e, e < n → losses e = none) := by
  induction n with
  | zero =>
    refine ⟨fun e => ?_, fun v hv => ?_, fun _ => ⟨rfl, fun e he => by omega⟩⟩
    · constructor
      · intro h; cases h
      · rintro ⟨h, -⟩; omega
    · cases hv
  | succ n ih =>
    obtain ⟨i1, i2, i3⟩ := ih
    have hs : checkpoints (none, none) 0 ((List.range (n + 1)).map losses) =
        checkpoint (checkpoints (none, none) 0 ((List.range n).map losses)) n (losses n) := by
      rw [List.range_succ, List.map_append, List.map_singleton, checkpoints_append]
      simp
    rw [hs]
    generalize hst : checkpoints (none, none) 0 ((List.range n).map losses) = st at i1 i2 i3
    obtain ⟨b, s⟩ := st
    simp only [] at i1 i2 i3
    cases hln : losses n with
    | none =>
      simp only [checkpoint]
      refine ⟨fun e => ?_, i2, fun hb => ⟨(i3 hb).1, ?_⟩⟩
      · rw [i1 e]
        constructor
        · rintro ⟨h1, v, h2, h3, h4⟩
          refine ⟨by omega, v, h2, h3, ?_⟩
          intro e' w he' hw
          by_cases he : e' = n
          · subst he; rw [hln] at hw; cases hw
          · exact h4 e' w (by omega) hw
        · rintro ⟨h1, v, h2, h3, h4⟩
          have : e ≠ n := by rintro rfl; rw [hln] at h2; cases h2
          exact ⟨by omega, v, h2, h3, fun e' w he' hw => h4 e' w (by omega) hw⟩
      · intro e he
        by_cases h : e = n
        · subst h; exact hln
        · exact (i3 hb).2 e (by omega)
    | some v =>
      have hnew : (∀ e' w, e' < n → losses e' = some w → v < w) → ∀ e, (some n = some e ↔ BestEpoch losses (n + 1) e) := by
        intro hlt e
        constructor
        · intro h
          cases h
          refine ⟨by omega, v, hln, hlt, ?_⟩
          intro e' w he' hw
          by_cases he : e' = n
          · subst he; rw [hln] at hw; cases hw; exact le_refl _
          · exact le_of_lt (hlt e' w (by omega) hw)
        · rintro ⟨h1, u, h2, h3, h4⟩
          by_cases he : e = n
          · rw [he]
          · exact absurd (h4 n v (by omega) hln) (not_le_of_gt (hlt e u (by omega) h2))
      cases b with
      | none =>
        simp only [checkpoint]
        have hnone := (i3 rfl).2
        refine ⟨hnew (fun e' w he' hw => ?_), fun u hu => ⟨n, rfl, ?_⟩, fun h => by cases h⟩
        · rw [hnone e' he'] at hw; cases hw
        · cases hu; exact hln
      | some b =>
        obtain ⟨eb, hb1, hb2⟩ := i2 b rfl
        have hbest := (i1 eb).1 hb1
        obtain ⟨q1, vb, q2, q3, q4⟩ := hbest
        rw [hb2] at q2
        cases q2
        simp only [checkpoint]
        by_cases hlt : v < b
        · rw [if_pos hlt]
          refine ⟨hnew (fun e' w he' hw => lt_of_lt_of_le hlt (q4 e' w he' hw)), fun u hu => ⟨n, rfl, ?_⟩, fun h => by cases h⟩
          cases hu; exact hln
        · rw [if_neg hlt]
          refine ⟨fun e => ?_, i2, fun h => by cases h⟩
          rw [i1 e]
          constructor
          · rintro ⟨h1, u, h2, h3, h4⟩
            refine ⟨by omega, u, h2, h3, ?_⟩
            intro e' w he' hw
            by_cases he : e' = n
            · subst he
              rw [hln] at hw
              cases hw
              exact le_trans (h4 eb b q1 hb2) (not_lt.1 hlt)
            · exact h4 e' w (by omega) hw
          · rintro ⟨h1, u, h2, h3, h4⟩
            have hne : e ≠ n := by
              rintro rfl
              rw [hln] at h2
              cases h2
              exact hlt (h3 eb b q1 hb2)
            exact ⟨by omega, u, h2, h3, fun e' w he' hw => h4 e' w (by omega) hw⟩

theorem train_parts {K : Type} [LT K] [DecidableLT K] {sep : Str} {h : Layers} {m : Net} {outputs : Nat} {g v : Gen} {nEpochs : Nat}
    {permT permV : Nat → List Nat} {losses : Nat → Option K} {iter : Nat} {r : Run}
    (hr : train sep h m outputs g v nEpochs permT permV losses iter = .ok r) :
    r.saved = (checkpoints (none, none) 0 ((List.range nEpochs).map losses)).2 ∧ r.iterations = iter + nEpochs * passLength g := by
  unfold train at hr
  obtain ⟨labels, hl, hr⟩ := bind_ok hr
  split at hr
  · cases hr
  · rename_i hb
    split at hr
    · cases hr
    · simp only [Except.ok.injEq] at hr
      subst hr
      refine ⟨rfl, ?_⟩
      simp only []
      rw [runEpochs_eq _ _ _ (by omega)]
      congr 1
      rw [List.map_map]
      have : (List.length ∘ fun i => List.map (stream g permT) (List.range' (0 + i * ((g.files.length + g.batch - 1) / g.batch)) ((g.files.length + g.batch - 1) / g.batch))) =
          fun _ => passLength g := by
        funext i
        simp [passLength]
      rw [this, List.map_const', List.sum_replicate, List.length_range]
      rfl

/-- C116: the model file holds the model after the first epoch of lowest validation loss; it is not written exactly when no epoch had a loss that is
a number. -/
theorem C116_best_model {K : Type} [LinearOrder K] (sep : Str) (h : Layers) (m : Net) (outputs : Nat) (g v : Gen) (nEpochs : Nat)
    (permT permV : Nat → List Nat) (losses : Nat → Option K) (iter : Nat) (r : Run)
    (hr : train sep h m outputs g v nEpochs permT permV losses iter = .ok r) :
    (∀ e, r.saved = some e ↔ BestEpoch losses nEpochs e) ∧ (r.saved = none ↔ ∀ e, e < nEpochs → losses e = none) := by
  obtain ⟨h1, -⟩ := train_parts hr
  obtain ⟨i1, i2, i3⟩ := checkpoints_inv losses nEpochs
  rw [h1]
  refine ⟨i1, ?_⟩
  constructor
  · intro hn e he
    cases hb : (checkpoints (none, none) 0 ((List.range nEpochs).map losses)).1 with
    | none => exact (i3 hb).2 e he
    | some b =>
      obtain ⟨e', h', -⟩ := i2 b hb
      rw [hn] at h'
      cases h'
  · intro hn
    cases hs : (checkpoints (none, none) 0 ((List.range nEpochs).map losses)).2 with
    | none => rfl
    | some e =>
      obtain ⟨h2, u, h3, -⟩ := (i1 e).1 hs
      rw [hn e h2] at h3
      cases h3

/-- C119: with an optimizer of its own a training counts its own steps, one per batch: epochs times batches per epoch. -/
theorem C119_own_optimizer_partial {K : Type} [LinearOrder K] (sep : Str) (h : Layers) (m : Net) (outputs : Nat) (g v : Gen) (nEpochs : Nat)
    (permT permV : Nat → List Nat) (losses : Nat → Option K) (r : Run)
    (hr : train sep h m outputs g v nEpochs permT permV losses 0 = .ok r) :
    r.iterations = nEpochs * ((g.files.length + g.batch - 1) / g.batch) := by
  have := (train_parts hr).2
  rw [this, Nat.zero_add]
  rfl

/-- C119 fails with the default optimizer: of any sequence of trainings every one but the first starts with an optimizer that has already counted
the steps of all before it. -/
theorem C119_default_optimizer_false {K : Type} [LinearOrder K] (sep : Str) (h : Layers) (m : Net) (outputs : Nat) (g v : Gen) (nEpochs : Nat)
    (permT permV : Nat → List Nat) (losses : Nat → Option K) (run : Nat → Run)
    (hr : ∀ iter, train sep h m outputs g v nEpochs permT permV losses iter = .ok (run iter)) (he : 0 < nEpochs) (hf : 0 < g.files.length) (calls : Nat) :
    (∀ k, k < calls → (defaultOptimizer 0 (List.replicate calls run))[k]? = some (k * (nEpochs * passLength g))) ∧ 0 < nEpochs * passLength g := by
  have hgen : ∀ n iter k, k < n → (defaultOptimizer iter (List.replicate n run))[k]? = some (iter + k * (nEpochs * passLength g)) := by
    intro n
    induction n with
    | zero => intro iter k hk; omega
    | succ n ih =>
      intro iter k hk
      rw [List.replicate_succ]
      unfold defaultOptimizer
      cases k with
      | zero => simp
      | succ k =>
        rw [List.getElem?_cons_succ, ih _ k (by omega), (train_parts (hr iter)).2, Nat.succ_mul]
        congr 1
        omega
  refine ⟨fun k hk => ?_, ?_⟩
  · have := hgen calls 0 k hk
    rwa [Nat.zero_add] at this
  · have hb : g.batch ≠ 0 := by
      intro hb
      have := hr 0
      unfold train at this
      obtain ⟨labels, hl, this⟩ := bind_ok this
      rw [if_pos (Or.inl hb)] at this
      cases this
    have : 0 < passLength g := Nat.div_pos (by omega) (by omega)
    exact Nat.mul_pos he this

example : ∃ run : Nat → Run, (∀ iter, train TextUtils.posixSep ⟨fun _ => true, 0⟩ ⟨[], 2⟩ 2 (flow dogsAndCat 2) (flow oneCat 2)
      2 (fun _ => [2, 0, 1]) (fun _ => [0]) (fun e => some (5 - e)) iter = .ok (run iter)) ∧ (run 0).saved = some 1 ∧
      defaultOptimizer 0 [run, run, run] = [0, 4, 8] := by
  obtain ⟨s, hs⟩ := labels_dogsAndCat
  have hx : ∀ iter, ∃ r, train TextUtils.posixSep ⟨fun _ => true, 0⟩ ⟨[], 2⟩ 2 (flow dogsAndCat 2) (flow oneCat 2)
      2 (fun _ => [2, 0, 1]) (fun _ => [0]) (fun e => some (5 - e)) iter = .ok r := by
    intro iter
    unfold train
    simp only [flow_dogsAndCat, flow_oneCat, hs, ok_bind]
    rw [if_neg (by decide), if_neg (by decide)]
    exact ⟨_, rfl⟩
  choose run hr using hx
  have hi : ∀ iter, (run iter).iterations = iter + 4 := by
    intro iter
    rw [(train_parts (hr iter)).2, flow_dogsAndCat]
    rfl
  refine ⟨run, hr, ?_, ?_⟩
  · rw [(train_parts (hr 0)).1]
    decide
  · simp only [defaultOptimizer, hi]

end Verif.Training
