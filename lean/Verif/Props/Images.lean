import Verif.Model.Images
import Verif.Model.Ortho
import Verif.Lemmas.Base

/-! C70 (image bands), C71 (metadata), C72 (orthorectification of an unloaded image). -/

set_option linter.unusedSectionVars false
set_option linter.unusedVariables false

namespace Verif.Images
open Verif

variable {α : Type}

/-! ### C70 -/

/-- A call that neither replaces the data of image `i` nor writes to band `k` of the array at `p` through image `i`, nor
hands that array to another image, nor writes to it directly.  (`nb` is the number of bands of that array.) -/
def LeavesAlone (i p nb k : Nat) : Op α → Prop
  | .setData j q => j ≠ i ∧ q ≠ p
  | .setBand j _ b => j = i → ¬ PyAt nb b k
  | .poke q _ _ _ _ => q ≠ p

/-- Image `i` alone holds the array at `p`, whose shape, dtype and band `k` are as given. -/
structure Holds (w : World α) (i p k : Nat) (ny nx nb : Nat) (f : Nat → Nat → α) : Prop where
  img : w.img i = some p
  alone : ∀ j, j ≠ i → w.img j ≠ some p
  ny : (w.mem p).a.ny = ny
  nx : (w.mem p).a.nx = nx
  nb : (w.mem p).a.nb = nb
  band : ∀ y x, (w.mem p).a.px y x k = f y x

theorem holds_step {w : World α} {i p k ny nx nb : Nat} {f : Nat → Nat → α} (h : Holds w i p k ny nx nb f)
    {op : Op α} (hop : LeavesAlone i p nb k op) {w' : World α} (hs : w.step op = .ok w') :
    Holds w' i p k ny nx nb f := by
  cases op with
  | setData j q =>
    simp only [World.step, Except.ok.injEq] at hs
    subst hs
    refine ⟨?_, ?_, h.ny, h.nx, h.nb, h.band⟩
    · simp only []
      rw [if_neg (fun e => hop.1 e.symm)]; exact h.img
    · intro j' hj'
      simp only []
      by_cases e : j' = j
      · rw [if_pos e]; intro e'; exact hop.2 (Option.some.inj e')
      · rw [if_neg e]; exact h.alone j' hj'
  | setBand j v b =>
    simp only [World.step] at hs
    cases hj : w.img j with
    | none => rw [hj] at hs; simp at hs
    | some q =>
      rw [hj] at hs
      simp only [] at hs
      obtain ⟨m, hm, hw⟩ := bind_ok hs
      simp only [Except.ok.injEq] at hw
      subst hw
      by_cases hq : q = p
      · subst hq
        have hij : j = i := by
          by_contra e
          exact h.alone j e hj
        have hnot := hop hij
        unfold Arr.setBand at hm
        obtain ⟨k', hk', hm⟩ := bind_ok hm
        rw [pyIdx_ok_iff, h.nb] at hk'
        have hkk : k ≠ k' := by rintro rfl; exact hnot hk'
        split at hm
        · simp only [Except.ok.injEq] at hm
          subst hm
          refine ⟨h.img, h.alone, ?_, ?_, ?_, ?_⟩ <;> simp only [World.put, if_true]
          · exact h.ny
          · exact h.nx
          · exact h.nb
          · intro y x
            rw [if_neg hkk]; exact h.band y x
        · simp at hm
      · refine ⟨h.img, h.alone, ?_, ?_, ?_, ?_⟩ <;> simp only [World.put, if_neg (fun e : p = q => hq e.symm)]
        · exact h.ny
        · exact h.nx
        · exact h.nb
        · exact h.band
  | poke q y x b v =>
    simp only [World.step, Except.ok.injEq] at hs
    subst hs
    have hq : ¬ p = q := fun e => hop e.symm
    refine ⟨h.img, h.alone, ?_, ?_, ?_, ?_⟩ <;> simp only [World.put, if_neg hq]
    · exact h.ny
    · exact h.nx
    · exact h.nb
    · exact h.band

theorem holds_run {i p k ny nx nb : Nat} {f : Nat → Nat → α} (ops : List (Op α)) :
    ∀ {w : World α}, Holds w i p k ny nx nb f → (∀ op ∈ ops, LeavesAlone i p nb k op) →
      Holds (w.run ops) i p k ny nx nb f := by
  induction ops with
  | nil => intro w h _; exact h
  | cons op ops ih =>
    intro w h ho
    have h1 : w.run (op :: ops) = (match w.step op with | .ok w' => w' | .error _ => w).run ops := rfl
    rw [h1]
    cases hs : w.step op with
    | error e => exact ih h (fun o m => ho o (List.mem_cons_of_mem _ m))
    | ok w' => exact ih (holds_step h (ho op List.mem_cons_self) hs) (fun o m => ho o (List.mem_cons_of_mem _ m))

theorem holds_get {w : World α} {i p k ny nx nb : Nat} {f : Nat → Nat → α} (h : Holds w i p k ny nx nb f) {b : Int}
    (hb : PyAt nb b k) : ∃ v, w.getBand i b = .ok v ∧ (w.read v).Same ⟨ny, nx, f⟩ := by
  refine ⟨⟨p, k⟩, ?_, h.ny, h.nx, fun y x _ _ => h.band y x⟩
  unfold World.getBand
  rw [h.img]
  simp only []
  rw [(pyIdx_ok_iff _ _ _).2 (by rw [h.nb]; exact hb)]
  rfl

/-- After `set_image_band(v, b)` with data of the image's size, and any further calls that do not set that band or the
image's data again, `get_image_band` of that band (by either of its two numbers) returns `v`, converted to the dtype of
the image. -/
theorem C70_last_band_partial (w : World α) (i p : Nat) (hi : w.img i = some p) (alone : ∀ j, j ≠ i → w.img j ≠ some p)
    (v : A2 α) (hy : v.ny = (w.mem p).a.ny) (hx : v.nx = (w.mem p).a.nx) (b b' : Int) (k : Nat)
    (hb : PyAt (w.mem p).a.nb b k) (hb' : PyAt (w.mem p).a.nb b' k) (ops : List (Op α))
    (ho : ∀ op ∈ ops, LeavesAlone i p (w.mem p).a.nb k op) :
    ∃ g, (w.run (.setBand i v b :: ops)).getBand i b' = .ok g ∧
      ((w.run (.setBand i v b :: ops)).read g).Same ⟨v.ny, v.nx, fun y x => (w.mem p).cast (v.px y x)⟩ := by
  have hs : ∃ w', w.step (.setBand i v b) = .ok w' ∧ w'.img = w.img ∧ (w'.mem p).a.ny = v.ny ∧ (w'.mem p).a.nx = v.nx ∧
      (w'.mem p).a.nb = (w.mem p).a.nb ∧ ∀ y x, (w'.mem p).a.px y x k =
        (w.mem p).cast (v.px (if v.ny = 1 then 0 else y) (if v.nx = 1 then 0 else x)) := by
    simp only [World.step, hi, Arr.setBand, (pyIdx_ok_iff _ _ _).2 hb]
    rw [ok_bind, if_pos ⟨.inl hy, .inl hx⟩, ok_bind]
    refine ⟨_, rfl, rfl, ?_⟩
    simp only [World.put, if_true]
    exact ⟨hy.symm, hx.symm, trivial, fun _ _ => trivial⟩
  obtain ⟨w', h1, h2, h3, h4, h5, h6⟩ := hs
  have hh : Holds w' i p k v.ny v.nx (w.mem p).a.nb
      (fun y x => (w.mem p).cast (v.px (if v.ny = 1 then 0 else y) (if v.nx = 1 then 0 else x))) :=
    ⟨by rw [h2]; exact hi, by rw [h2]; exact alone, h3, h4, h5, h6⟩
  have hr : w.run (.setBand i v b :: ops) = w'.run ops := by
    show (match w.step (.setBand i v b) with | .ok w' => w' | .error _ => w).run ops = _
    rw [h1]
  rw [hr]
  obtain ⟨g, e1, e2⟩ := holds_get (holds_run ops hh ho) hb'
  refine ⟨g, e1, ?_⟩
  obtain ⟨s1, s2, s3⟩ := e2
  refine ⟨s1, s2, fun y x hy' hx' => ?_⟩
  rw [s3 y x hy' hx']
  rw [s1] at hy'
  rw [s2] at hx'
  simp only [] at hy' hx' ⊢
  have ey : (if v.ny = 1 then 0 else y) = y := by split <;> omega
  have ex : (if v.nx = 1 then 0 else x) = x := by split <;> omega
  rw [ey, ex]

/-- After `set_image_data(a)` with an array no other image holds, and any further calls that do not set band `k` or the
image's data again, `get_image_band` of band `k` returns the band of that array. -/
theorem C70_last_data_partial (w : World α) (i p : Nat) (alone : ∀ j, j ≠ i → w.img j ≠ some p) (b : Int) (k : Nat)
    (hb : PyAt (w.mem p).a.nb b k) (ops : List (Op α)) (ho : ∀ op ∈ ops, LeavesAlone i p (w.mem p).a.nb k op) :
    ∃ g, (w.run (.setData i p :: ops)).getBand i b = .ok g ∧
      ((w.run (.setData i p :: ops)).read g).Same ⟨(w.mem p).a.ny, (w.mem p).a.nx, fun y x => (w.mem p).a.px y x k⟩ := by
  have hr : w.run (.setData i p :: ops) = (World.run { w with img := fun j => if j = i then some p else w.img j } ops) := rfl
  rw [hr]
  have hh : Holds ({ w with img := fun j => if j = i then some p else w.img j } : World α) i p k (w.mem p).a.ny (w.mem p).a.nx (w.mem p).a.nb
      (fun y x => (w.mem p).a.px y x k) := by
    refine ⟨if_pos rfl, ?_, rfl, rfl, rfl, fun _ _ => rfl⟩
    intro j hj
    simp only [if_neg hj]
    exact alone j hj
  exact holds_get (holds_run ops hh ho) hb

/-- One `set_image_band` call changes no band but the one it names, in no array but that of the image it is called on, and
no image's data reference; a call that raises changes nothing. -/
theorem C70_frame (w : World α) (i : Nat) (v : A2 α) (b : Int) (q z : Nat)
    (h : w.img i = some q → ¬ PyAt (w.mem q).a.nb b z) :
    (w.run [.setBand i v b]).img = w.img ∧ ((w.run [.setBand i v b]).mem q).a.ny = (w.mem q).a.ny ∧
      ((w.run [.setBand i v b]).mem q).a.nx = (w.mem q).a.nx ∧ ((w.run [.setBand i v b]).mem q).a.nb = (w.mem q).a.nb ∧
      ∀ y x, ((w.run [.setBand i v b]).mem q).a.px y x z = (w.mem q).a.px y x z := by
  have hr : w.run [.setBand i v b] = (match w.step (.setBand i v b) with | .ok w' => w' | .error _ => w) := rfl
  rw [hr]
  cases hi : w.img i with
  | none => simp only [World.step, hi]; exact ⟨trivial, trivial, trivial, trivial, fun _ _ => trivial⟩
  | some p =>
    simp only [World.step, hi]
    cases hm : (w.mem p).setBand v b with
    | error e => exact ⟨rfl, rfl, rfl, rfl, fun _ _ => rfl⟩
    | ok m =>
      rw [ok_bind]
      simp only [World.put]
      refine ⟨trivial, ?_⟩
      by_cases hq : q = p
      · rw [if_pos hq]
        rw [hq] at h ⊢
        unfold Arr.setBand at hm
        obtain ⟨k, hk, hm⟩ := bind_ok hm
        rw [pyIdx_ok_iff] at hk
        have hz : z ≠ k := by rintro rfl; exact h hi hk
        split at hm
        · simp only [Except.ok.injEq] at hm
          subst hm
          exact ⟨rfl, rfl, rfl, fun y x => if_neg hz⟩
        · simp at hm
      · rw [if_neg hq]
        exact ⟨rfl, rfl, rfl, fun _ _ => rfl⟩

/-- A band number outside the image raises IndexError and data of another size raises ValueError, whatever the image; an
image without data raises TypeError. -/
theorem C70_errors (w : World α) (i : Nat) (v : A2 α) (b : Int) :
    (w.img i = none → w.step (.setBand i v b) = .error .typeError ∧ w.getBand i b = .error .typeError) ∧
    (∀ p, w.img i = some p → (¬ ∃ k, PyAt (w.mem p).a.nb b k) →
      w.step (.setBand i v b) = .error .indexError ∧ w.getBand i b = .error .indexError) ∧
    (∀ p k, w.img i = some p → PyAt (w.mem p).a.nb b k →
      ¬ ((v.ny = (w.mem p).a.ny ∨ v.ny = 1) ∧ (v.nx = (w.mem p).a.nx ∨ v.nx = 1)) →
      w.step (.setBand i v b) = .error .valueError) := by
  refine ⟨fun h => ?_, fun p h hk => ?_, fun p k h hk hv => ?_⟩
  · simp only [World.step, World.getBand, h]; exact ⟨trivial, trivial⟩
  · have : pyIdx (w.mem p).a.nb b = .error .indexError := by
      cases e : pyIdx (w.mem p).a.nb b with
      | ok k => exact absurd ⟨k, (pyIdx_ok_iff _ _ _).1 e⟩ hk
      | error x =>
        unfold pyIdx at e
        split at e
        · simp at e
        · split at e
          · simp at e
          · rw [← e]
    simp only [World.step, World.getBand, h, Arr.setBand, this]
    exact ⟨rfl, rfl⟩
  · simp only [World.step, h, Arr.setBand, (pyIdx_ok_iff _ _ _).2 hk, ok_bind, if_neg hv]
    rfl

/-- The statement is false when two images were given the same array: setting a band of one sets it in the other. -/
theorem C70_shared_array_false (w : World α) (p : Nat) (v : A2 α) (hy : v.ny = (w.mem p).a.ny) (hx : v.nx = (w.mem p).a.nx)
    (b : Int) (k : Nat) (hb : PyAt (w.mem p).a.nb b k) :
    ∃ g, (w.run [.setData 0 p, .setData 1 p, .setBand 1 v b]).getBand 0 b = .ok g ∧
      ((w.run [.setData 0 p, .setData 1 p, .setBand 1 v b]).read g).Same ⟨v.ny, v.nx, fun y x => (w.mem p).cast (v.px y x)⟩ := by
  have e : w.run [.setData 0 p, .setData 1 p, .setBand 1 v b] =
      (({ w with img := fun j => if j = 1 then some p else if j = 0 then some p else w.img j } : World α).put p
        { (w.mem p) with a := ⟨(w.mem p).a.ny, (w.mem p).a.nx, (w.mem p).a.nb, fun y x z =>
          if z = k then (w.mem p).cast (v.px (if v.ny = 1 then 0 else y) (if v.nx = 1 then 0 else x)) else (w.mem p).a.px y x z⟩ }) := by
    show (match World.step { w with img := fun j => if j = 1 then some p else if j = 0 then some p else w.img j }
      (.setBand 1 v b) with | .ok w' => w' | .error _ => _) = _
    simp only [World.step, if_true, Arr.setBand, (pyIdx_ok_iff _ _ _).2 hb, ok_bind]
    rw [if_pos ⟨.inl hy, .inl hx⟩]
    rfl
  rw [e]
  refine ⟨⟨p, k⟩, ?_, ?_⟩
  · simp only [World.getBand, World.put, Nat.zero_ne_one, if_false, if_true]
    rw [(pyIdx_ok_iff _ _ _).2 hb]
    rfl
  · simp only [World.read, World.put, if_true]
    refine ⟨hy.symm, hx.symm, fun y x hy' hx' => ?_⟩
    simp only [] at hy' hx' ⊢
    have ey : (if v.ny = 1 then 0 else y) = y := by split <;> omega
    have ex : (if v.nx = 1 then 0 else x) = x := by split <;> omega
    rw [ey, ex]

/-- A band obtained from an image is a view: what it holds changes when the band is set later. -/
theorem C70_view_changes (w : World α) (i p : Nat) (hi : w.img i = some p) (v : A2 α) (hy : v.ny = (w.mem p).a.ny)
    (hx : v.nx = (w.mem p).a.nx) (b : Int) (k : Nat) (hb : PyAt (w.mem p).a.nb b k) :
    ∃ g, w.getBand i b = .ok g ∧
      ((w.run [.setBand i v b]).read g).Same ⟨v.ny, v.nx, fun y x => (w.mem p).cast (v.px y x)⟩ := by
  refine ⟨⟨p, k⟩, ?_, ?_⟩
  · simp only [World.getBand, hi, (pyIdx_ok_iff _ _ _).2 hb]; rfl
  · have e : w.run [.setBand i v b] = (match w.step (.setBand i v b) with | .ok w' => w' | .error _ => w) := rfl
    rw [e]
    simp only [World.step, hi, Arr.setBand, (pyIdx_ok_iff _ _ _).2 hb, ok_bind]
    rw [if_pos ⟨.inl hy, .inl hx⟩]
    simp only [ok_bind, World.read, World.put, if_true]
    refine ⟨hy.symm, hx.symm, fun y x hy' hx' => ?_⟩
    simp only [] at hy' hx' ⊢
    have ey : (if v.ny = 1 then 0 else y) = y := by split <;> omega
    have ex : (if v.nx = 1 then 0 else x) = x := by split <;> omega
    rw [ey, ex]

/-- The value stored is not always the value given: in an image of integers a value that is not one comes back changed. -/
theorem C70_converted_false (w : World α) (p : Nat) (hi : w.img 0 = some p) (alone : ∀ j, j ≠ 0 → w.img j ≠ some p)
    (h0 : 0 < (w.mem p).a.ny) (h1 : 0 < (w.mem p).a.nx) (h2 : 0 < (w.mem p).a.nb) (c : α) (hc : (w.mem p).cast c ≠ c) :
    ∃ v : A2 α, v.ny = (w.mem p).a.ny ∧ v.nx = (w.mem p).a.nx ∧ ∃ g, (w.run [.setBand 0 v 0]).getBand 0 0 = .ok g ∧
      ¬ ((w.run [.setBand 0 v 0]).read g).Same v := by
  refine ⟨⟨(w.mem p).a.ny, (w.mem p).a.nx, fun _ _ => c⟩, rfl, rfl, ?_⟩
  obtain ⟨g, e1, e2⟩ := C70_last_band_partial w 0 p hi alone ⟨(w.mem p).a.ny, (w.mem p).a.nx, fun _ _ => c⟩ rfl rfl 0 0 0
    ⟨h2, .inl rfl⟩ ⟨h2, .inl rfl⟩ [] (by simp)
  refine ⟨g, e1, fun hs => hc ?_⟩
  have a := e2.2.2 0 0 (by rw [e2.1]; exact h0) (by rw [e2.2.1]; exact h1)
  have b := hs.2.2 0 0 (by rw [e2.1]; exact h0) (by rw [e2.2.1]; exact h1)
  rw [a] at b
  exact b

/-- A world with two images, of which the first holds a 1 × 1 array of two bands: setting its last band as band -1, then
the other band, then another image's data, leaves the last band as set. -/
example : ∃ g, ((⟨fun _ => ⟨⟨1, 1, 2, fun _ _ _ => (0 : Int)⟩, id⟩, fun j => if j = 0 then some 7 else none⟩ : World Int).run
      [.setBand 0 ⟨1, 1, fun _ _ => 5⟩ (-1), .setBand 0 ⟨1, 1, fun _ _ => 6⟩ 0, .setData 1 8, .setBand 1 ⟨1, 1, fun _ _ => 9⟩ 1]).getBand 0 1 = .ok g ∧
    (((⟨fun _ => ⟨⟨1, 1, 2, fun _ _ _ => (0 : Int)⟩, id⟩, fun j => if j = 0 then some 7 else none⟩ : World Int).run
      [.setBand 0 ⟨1, 1, fun _ _ => 5⟩ (-1), .setBand 0 ⟨1, 1, fun _ _ => 6⟩ 0, .setData 1 8, .setBand 1 ⟨1, 1, fun _ _ => 9⟩ 1]).read g).Same
        ⟨1, 1, fun _ _ => 5⟩ := by
  refine C70_last_band_partial _ 0 7 rfl (by intro j hj; simp [hj]) ⟨1, 1, fun _ _ => 5⟩ rfl rfl (-1) 1 1
    ⟨by decide, .inr rfl⟩ ⟨by decide, .inl rfl⟩ _ ?_
  intro op hop
  simp only [List.mem_cons, List.not_mem_nil, or_false] at hop
  rcases hop with rfl | rfl | rfl
  · rintro - ⟨_, h | h⟩ <;> simp at h
  · exact ⟨by decide, by decide⟩
  · intro h; exact absurd h (by decide)

example : ∃ v : A2 Int, ∃ g, ((⟨fun _ => ⟨⟨1, 1, 1, fun _ _ _ => (0 : Int)⟩, fun c => c % 256⟩, fun j => if j = 0 then some 7 else none⟩ : World Int).run
      [.setBand 0 v 0]).getBand 0 0 = .ok g ∧ ¬ (((⟨fun _ => ⟨⟨1, 1, 1, fun _ _ _ => (0 : Int)⟩, fun c => c % 256⟩, fun j => if j = 0 then some 7 else none⟩ : World Int).run
      [.setBand 0 v 0]).read g).Same v := by
  obtain ⟨v, _, _, h⟩ := C70_converted_false (⟨fun _ => ⟨⟨1, 1, 1, fun _ _ _ => (0 : Int)⟩, fun c => c % 256⟩, fun j => if j = 0 then some 7 else none⟩ : World Int)
    7 rfl (by intro j hj; simp [hj]) (by simp) (by simp) (by simp) 300 (by simp)
  exact ⟨v, h⟩

/-! ### C71 -/

theorem key_inj {f g : MField} (h : getterKey f = setterKey g) : f = g := by
  revert h
  cases f <;> cases g <;> decide

/-- After any history of setter calls on a metadata object, a getter returns the value of the last call of its own
setter. -/
theorem C71_last_value {V : Type} (before after : List (MField × Option V)) (f : MField) (v : Option V)
    (h : ∀ c ∈ after, c.1 ≠ f) :
    getField ((before ++ (f, v) :: after).foldl setField (newMetadata V)) f = .ok v := by
  rw [List.foldl_append, List.foldl_cons]
  generalize before.foldl setField (newMetadata V) = d
  have : ∀ (l : List (MField × Option V)) (d : MDict V), (∀ c ∈ l, c.1 ≠ f) → (l.foldl setField d) (getterKey f) = d (getterKey f) := by
    intro l
    induction l with
    | nil => intro d _; rfl
    | cons c l ih =>
      intro d hl
      rw [List.foldl_cons, ih _ (fun c' m => hl c' (List.mem_cons_of_mem _ m))]
      unfold setField assign
      rw [if_neg]
      intro e
      exact hl c List.mem_cons_self (key_inj e).symm
  unfold getField
  rw [this after _ h]
  have hk : setField d (f, v) (getterKey f) = some v := by
    unfold setField assign
    rw [if_pos]
    cases f <;> rfl
  rw [hk]

/-- A getter whose setter was never called raises KeyError, except that of the no-data value, which returns None. -/
theorem C71_never_set {V : Type} (calls : List (MField × Option V)) (f : MField) (h : ∀ c ∈ calls, c.1 ≠ f) :
    getField (calls.foldl setField (newMetadata V)) f = if f = .nodata then .ok none else .error .keyError := by
  have : ∀ (l : List (MField × Option V)) (d : MDict V), (∀ c ∈ l, c.1 ≠ f) → (l.foldl setField d) (getterKey f) = d (getterKey f) := by
    intro l
    induction l with
    | nil => intro d _; rfl
    | cons c l ih =>
      intro d hl
      rw [List.foldl_cons, ih _ (fun c' m => hl c' (List.mem_cons_of_mem _ m))]
      unfold setField assign
      rw [if_neg]
      intro e
      exact hl c List.mem_cons_self (key_inj e).symm
  unfold getField
  rw [this calls _ h]
  unfold newMetadata assign
  cases f <;> rfl

/-- The metadata objects built by the library answer with the numbers they were built from. -/
theorem C71_constructors (nx ny nb : Nat) :
    getField (igmMetadata nx ny nb) .npixX = .ok (some nx) ∧ getField (igmMetadata nx ny nb) .npixY = .ok (some ny) ∧
    getField (igmMetadata nx ny nb) .nBands = .ok (some nb) ∧ getField (igmMetadata nx ny nb) .nodata = .ok none ∧
    getField micasenseMetadata .npixX = .ok (some 1280) ∧ getField micasenseMetadata .npixY = .ok (some 960) ∧
    getField micasenseMetadata .nBands = .ok (some 5) := by
  unfold igmMetadata micasenseMetadata
  refine ⟨C71_last_value [] _ _ _ (by simp), C71_last_value [_] _ _ _ (by simp), C71_last_value [_, _] _ _ _ (by simp),
    ?_, C71_last_value [_] _ _ _ (by simp), C71_last_value [_, _] _ _ _ (by simp), C71_last_value [] _ _ _ (by simp)⟩
  rw [C71_never_set _ _ (by simp)]
  rfl

example : getField ([(MField.npixX, some 3), (.npixY, some 4), (.npixX, some 5), (.nBands, some 6)].foldl setField (newMetadata Nat)) .npixX = .ok (some 5) :=
  C71_last_value [(.npixX, some 3), (.npixY, some 4)] [(.nBands, some 6)] .npixX (some 5) (by decide)

end Verif.Images

/-! ### C72 -/

namespace Verif.Ortho
open Verif Verif.ImageUtils Verif.Grids Verif.Geotiff

variable {K : Type} [Field K] [LinearOrder K] [IsStrictOrderedRing K]

/-- A co-registered image whose data is not in memory: no request of at least one band succeeds, whatever is on disk. -/
theorem C72_unloaded_false (resample : A2 K → K → K → K) (s : Source K) (hc : s.coregistered = true) (hl : s.loaded = none)
    (nx ny : Nat) (ext : Box K) (dem : K → K → K) (bands : Option (List Nat)) (hb : bands.getD (List.range s.nBands) ≠ [])
    (nodata : K) (mask : Bool) (out : A3 K) :
    ortho resample s nx ny ext dem bands nodata mask ≠ .ok out := by
  intro h
  unfold ortho at h
  obtain ⟨⟨gx, gy⟩, _, h⟩ := bind_ok h
  simp only [hc, if_true] at h
  obtain ⟨images, hi, _⟩ := bind_ok h
  cases hbs : bands.getD (List.range s.nBands) with
  | nil => exact hb hbs
  | cons b bs =>
    rw [hbs] at hi
    unfold collect at hi
    obtain ⟨a, ha, _⟩ := bind_ok hi
    unfold orthoBandShared at ha
    simp only [hl, getBand] at ha
    simp [bind, Except.bind] at ha

example : ∀ out : A3 ℚ, ortho (mapCoord0) ⟨4, 4, 1, true, none, fun _ => .ok ⟨4, 4, fun _ _ => 7⟩, fun _ lon lat _ => (lon, lat), id⟩ 2 2 ⟨1, 1, 2, 2⟩
    (fun _ _ => 0) none 0 false ≠ .ok out := fun out => C72_unloaded_false _ _ rfl rfl _ _ _ _ _ (by simp) _ _ out

/-- The same request on the same image once its data is loaded does not touch the disk: it gives what it would give with
any other file. -/
theorem C72_loaded_partial (resample : A2 K → K → K → K) (s : Source K) (hc : s.coregistered = true) (nx ny : Nat) (ext : Box K)
    (dem : K → K → K) (bands : Option (List Nat)) (nodata : K) (mask : Bool) (disk : Nat → Py (A2 K)) :
    ortho resample { s with disk := disk } nx ny ext dem bands nodata mask = ortho resample s nx ny ext dem bands nodata mask := by
  unfold ortho
  simp only [hc, if_true]
  rfl

/-- For an image whose bands are not co-registered the data in memory is not used at all: every band is read from disk. -/
theorem C72_not_coregistered_partial (resample : A2 K → K → K → K) (s : Source K) (hc : s.coregistered = false) (nx ny : Nat) (ext : Box K)
    (dem : K → K → K) (bands : Option (List Nat)) (nodata : K) (mask : Bool) (loaded : Option (A3 K)) :
    ortho resample { s with loaded := loaded } nx ny ext dem bands nodata mask = ortho resample s nx ny ext dem bands nodata mask := by
  unfold ortho
  simp only [hc, Bool.false_eq_true, if_false]
  rfl

end Verif.Ortho

namespace Verif.Images
open Verif

variable {K P : Type}

/-- `PhysicalCameraImage.read_band_from_disk` on an image just opened raises TypeError for every band, although the file
has it. -/
theorem C72_physical_camera_false (d : Dset K P) (im : DImage K P) (ho : openImage d = .ok im) (b : Int) :
    im.readBandPhysical b = .error .typeError := by
  unfold openImage at ho
  split at ho
  · simp at ho
  · simp only [Except.ok.injEq] at ho
    subst ho
    rfl

example : ∃ im, openImage (⟨1, 1, 1, 1, fun _ _ _ => (5 : Int), (0, 1, 0, 0, 0, -1), (), none⟩ : Dset Int Unit) = .ok im ∧
    im.readBandPhysical 0 = .error .typeError ∧ ∃ a, im.readBand 0 = .ok a ∧ a.px 0 0 = 5 :=
  ⟨_, rfl, rfl, _, rfl, rfl⟩

end Verif.Images
