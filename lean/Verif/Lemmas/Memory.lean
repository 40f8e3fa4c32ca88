import Verif.Model.Memory
import Verif.Lemmas.Base

/-! Helper lemmas for `Verif/Props/Memory.lean`. -/

set_option linter.unusedSectionVars false

namespace Verif.Memory
open Verif ImageUtils Chipper

variable {α : Type}

theorem alloc_old (h : Heap α) (f : Int → α) {b : Nat} (hb : b < h.next) (i : Int) : (h.alloc f).cell b i = h.cell b i := by
  simp [Heap.alloc, hb.ne]

theorem alloc_new (h : Heap α) (f : Int → α) (i : Int) : (h.alloc f).cell h.next i = f i := by simp [Heap.alloc]

theorem assignWhere_next (cond : Int → Bool) (v : Int) (a : V1) (n : Nat) (h : Heap Int) : (assignWhere cond v a n h).next = h.next := by
  induction n with
  | zero => rfl
  | succ n ih =>
    simp only [assignWhere]
    split
    · exact ih
    · exact ih

theorem assignWhere_other (cond : Int → Bool) (v : Int) (a : V1) (n : Nat) (h : Heap Int) {b : Nat} (hb : b ≠ a.buf) (i : Int) :
    (assignWhere cond v a n h).cell b i = h.cell b i := by
  induction n with
  | zero => rfl
  | succ n ih =>
    simp only [assignWhere]
    split
    · simp only [Heap.put, hb, false_and, if_false]; exact ih
    · exact ih

theorem assignWhere_cell (cond : Int → Bool) (v : Int) (b n : Nat) (h : Heap Int) (len : Nat) (k : Nat) :
    (assignWhere cond v ⟨b, 0, len, 1⟩ n h).cell b (k : Int) = if k < n ∧ cond (h.cell b (k : Int)) = true then v else h.cell b (k : Int) := by
  induction n with
  | zero => simp [assignWhere]
  | succ n ih =>
    have ha : (V1.addr ⟨b, 0, len, 1⟩ n : Int) = (n : Int) := by simp [V1.addr]
    have self : (assignWhere cond v ⟨b, 0, len, 1⟩ n h).cell b (n : Int) = h.cell b (n : Int) := by
      have : ∀ m : Nat, m ≤ n → (assignWhere cond v ⟨b, 0, len, 1⟩ m h).cell b (n : Int) = h.cell b (n : Int) := by
        intro m
        induction m with
        | zero => intro _; rfl
        | succ m ihm =>
          intro hm
          have ha' : (V1.addr ⟨b, 0, len, 1⟩ m : Int) = (m : Int) := by simp [V1.addr]
          have hne : ((n : Int) = (m : Int)) = False := by simp; omega
          simp only [assignWhere, ha']
          split
          · simp only [Heap.put, hne, and_false, if_false]; exact ihm (by omega)
          · exact ihm (by omega)
      exact this n le_rfl
    simp only [assignWhere, ha]
    by_cases hk : k = n
    · subst hk
      rw [self]
      by_cases hc : cond (h.cell b (k : Int)) = true
      · simp [hc, Heap.put]
      · simp only [hc, and_false, if_false, Bool.false_eq_true]
        exact self
    · have hne : ((k : Int) = (n : Int)) = False := by simp; omega
      have key : (if cond ((assignWhere cond v ⟨b, 0, len, 1⟩ n h).cell b (n : Int)) = true then (assignWhere cond v ⟨b, 0, len, 1⟩ n h).put b (n : Int) v
          else assignWhere cond v ⟨b, 0, len, 1⟩ n h).cell b (k : Int) = (assignWhere cond v ⟨b, 0, len, 1⟩ n h).cell b (k : Int) := by
        split
        · simp only [Heap.put, hne, and_false, if_false]
        · rfl
      rw [key, ih]
      have hlt : (k < n + 1) = (k < n) := propext (by omega)
      simp only [hlt]

theorem read_assign (cond : Int → Bool) (v : Int) (b len : Nat) (h : Heap Int) :
    (Locs.array ⟨b, 0, len, 1⟩).read (assignWhere cond v ⟨b, 0, len, 1⟩ len h) = ((Locs.array ⟨b, 0, len, 1⟩).read h).map (fun u => if cond u = true then v else u) := by
  simp only [Locs.read, List.map_map]
  refine List.map_congr_left ?_
  intro k hk
  have hk' := List.mem_range.mp hk
  have ha : (V1.addr ⟨b, 0, len, 1⟩ k : Int) = (k : Int) := by simp [V1.addr]
  simp only [ha, Function.comp, assignWhere_cell, hk', true_and]

theorem read_other (cond : Int → Bool) (v : Int) (a : V1) (n : Nat) (h : Heap Int) (c : V1) (hc : c.buf ≠ a.buf) :
    (Locs.array c).read (assignWhere cond v a n h) = (Locs.array c).read h := by
  simp only [Locs.read, assignWhere_other cond v a n h hc]

theorem read_new (h : Heap Int) (l : List Int) : (Locs.array ⟨h.next, 0, l.length, 1⟩).read (h.alloc (fun i => l.getD i.toNat 0)) = l := by
  simp only [Locs.read, alloc_new]
  refine List.ext_getElem (by simp) ?_
  intro i h1 h2
  simp [V1.addr, h2]

theorem read_npArray (h : Heap Int) (l : Locs) : (Locs.array (npArray h l).2).read (npArray h l).1 = l.read h := read_new h (l.read h)

theorem chipLoopM_frame (img : V3) (cy cx : Nat) (bs : List Int) (b : Nat) : ∀ (l : List (Int × Int)) (k : Nat) (uls : List (Int × Int)) (h : Heap α) (b' : Nat), b' ≠ b →
    ∀ i, (chipLoopM img cy cx bs b l k uls h).1.cell b' i = h.cell b' i := by
  intro l
  induction l with
  | nil => intro k uls h b' hb i; rfl
  | cons p rest ih =>
    intro k uls h b' hb i
    obtain ⟨y, x⟩ := p
    simp only [chipLoopM]
    split
    · rfl
    · rw [ih _ _ _ _ hb]
      simp [putChip, hb]

theorem chipLoopM_next (img : V3) (cy cx : Nat) (bs : List Int) (b : Nat) : ∀ (l : List (Int × Int)) (k : Nat) (uls : List (Int × Int)) (h : Heap α),
    (chipLoopM img cy cx bs b l k uls h).1.next = h.next := by
  intro l
  induction l with
  | nil => intro k uls h; rfl
  | cons p rest ih =>
    intro k uls h
    obtain ⟨y, x⟩ := p
    simp only [chipLoopM]
    split
    · rfl
    · rw [ih]; rfl

/-- Row-major position of an element of the array of chips. -/
def chipPos (cy cx nb k i j b : Nat) : Nat := ((k * cy + i) * cx + j) * nb + b

theorem chipPos_parts {cy cx nb k i j b : Nat} (hi : i < cy) (hj : j < cx) (hb : b < nb) :
    chipPos cy cx nb k i j b / (cy * cx * nb) = k ∧ chipPos cy cx nb k i j b % (cy * cx * nb) / (cx * nb) = i ∧ chipPos cy cx nb k i j b % (cx * nb) / nb = j ∧
      chipPos cy cx nb k i j b % nb = b := by
  have h1 : j * nb + b < cx * nb := by
    have : (j + 1) * nb ≤ cx * nb := Nat.mul_le_mul_right _ hj
    rw [Nat.succ_mul] at this
    omega
  have h2 : i * (cx * nb) + (j * nb + b) < cy * (cx * nb) := by
    have : (i + 1) * (cx * nb) ≤ cy * (cx * nb) := Nat.mul_le_mul_right _ hi
    rw [Nat.succ_mul] at this
    omega
  have e : chipPos cy cx nb k i j b = (i * (cx * nb) + (j * nb + b)) + cy * (cx * nb) * k := by unfold chipPos; ring
  have e' : chipPos cy cx nb k i j b = (j * nb + b) + cx * nb * (k * cy + i) := by unfold chipPos; ring
  have e'' : chipPos cy cx nb k i j b = b + nb * ((k * cy + i) * cx + j) := by unfold chipPos; ring
  refine ⟨?_, ?_, ?_, ?_⟩
  · rw [e, mul_assoc cy cx nb, Nat.add_mul_div_left _ _ (by omega), Nat.div_eq_of_lt h2, zero_add]
  · rw [e, mul_assoc cy cx nb, Nat.add_mul_mod_self_left, Nat.mod_eq_of_lt h2, show i * (cx * nb) + (j * nb + b) = (j * nb + b) + cx * nb * i by ring,
      Nat.add_mul_div_left _ _ (by omega), Nat.div_eq_of_lt h1, zero_add]
  · rw [e', Nat.add_mul_mod_self_left, Nat.mod_eq_of_lt h1, show j * nb + b = b + nb * j by ring, Nat.add_mul_div_left _ _ (by omega), Nat.div_eq_of_lt hb, zero_add]
  · rw [e'', Nat.add_mul_mod_self_left, Nat.mod_eq_of_lt hb]

theorem putChip_cell (h : Heap α) (b k cy cx nb : Nat) (c : Nat → Nat → Nat → α) {k' i j z : Nat} (hi : i < cy) (hj : j < cx) (hz : z < nb) :
    (putChip h b k cy cx nb c).cell b (chipPos cy cx nb k' i j z : Nat) = if k' = k then c i j z else h.cell b (chipPos cy cx nb k' i j z : Nat) := by
  obtain ⟨e1, e2, e3, e4⟩ := chipPos_parts (k := k') hi hj hz
  simp only [putChip, Int.toNat_natCast, e1, e2, e3, e4, Int.natCast_nonneg, true_and]

/-- The loop in memory does what the loop on values does. -/
theorem chipLoopM_spec (img : V3) (cy cx : Nat) (bs : List Int) (b : Nat) (hb : img.buf ≠ b) : ∀ (l : List (Int × Int)) (k : Nat) (uls : List (Int × Int)) (h : Heap α)
    (px : Nat → Nat → Nat → Nat → α), (∀ k' i j z, i < cy → j < cx → z < bs.length → h.cell b (chipPos cy cx bs.length k' i j z : Nat) = px k' i j z) →
    match chipLoop (h.get3 img) cy cx bs l k px uls with
    | .error e => (chipLoopM img cy cx bs b l k uls h).2 = .error e
    | .ok (px', uls') => (chipLoopM img cy cx bs b l k uls h).2 = .ok uls' ∧
        ∀ k' i j z, i < cy → j < cx → z < bs.length → (chipLoopM img cy cx bs b l k uls h).1.cell b (chipPos cy cx bs.length k' i j z : Nat) = px' k' i j z := by
  intro l
  induction l with
  | nil => intro k uls h px hpx; exact ⟨rfl, hpx⟩
  | cons p rest ih =>
    intro k uls h px hpx
    obtain ⟨y, x⟩ := p
    simp only [chipLoop, chipLoopM]
    cases hc : copyChip (h.get3 img) cy cx bs y x with
    | error e => rfl
    | ok c =>
      rw [ok_bind]
      have hg : h.get3 img = (putChip h b k cy cx bs.length c).get3 img := by
        simp [Heap.get3, putChip, hb]
      rw [hg]
      refine ih (k + 1) (uls ++ [(y, x)]) (putChip h b k cy cx bs.length c) (fun k' => if k' = k then c else px k') ?_
      intro k' i j z hi hj hz
      rw [putChip_cell h b k cy cx bs.length c hi hj hz]
      split
      · rfl
      · exact hpx k' i j z hi hj hz

theorem split_addr (off sx : Int) (nx k : Nat) : off + ((k / nx : Nat) : Int) * (nx * sx) + ((k % nx : Nat) : Int) * sx = off + k * sx := by
  have e : (k : Int) = nx * ((k / nx : Nat) : Int) + ((k % nx : Nat) : Int) := by
    have := Nat.div_add_mod k nx
    exact_mod_cast this.symm
  conv_rhs => rw [e]
  ring

/-- Specification: the rows of the image follow one another at equal distances. -/
def Rows (ny nx : Nat) (sy sx : Int) : Prop := ny = 1 ∨ nx = 1 ∨ sy = nx * sx

/-- Where an element of the flattened array is, when it is a view. -/
theorem flatten_addr {ny nx : Nat} {sy sx off : Int} (hr : Rows ny nx sy sx) {k : Nat} (hk : k < ny * nx) :
    off + ((k / nx : Nat) : Int) * sy + ((k % nx : Nat) : Int) * sx = off + k * (if ny = 1 then sx else if nx = 1 then sy else sx) := by
  by_cases h1 : ny = 1
  · subst h1
    rw [one_mul] at hk
    simp [Nat.div_eq_of_lt hk, Nat.mod_eq_of_lt hk]
  · by_cases h2 : nx = 1
    · subst h2
      simp [h1, Nat.mod_one]
    · have h3 : sy = nx * sx := by rcases hr with h | h | h <;> first | exact absurd h h1 | exact absurd h h2 | exact h
      simp only [h1, h2, if_false]
      rw [h3]
      exact split_addr off sx nx k

theorem flattenBandM_view (h : Heap α) (a : V2) (hr : Rows a.ny a.nx a.sy a.sx) :
    flattenBandM h a = (h, ⟨a.buf, a.off, a.ny * a.nx, if a.ny = 1 then a.sx else if a.nx = 1 then a.sy else a.sx⟩) := by
  unfold flattenBandM
  by_cases h1 : a.ny = 1
  · simp [h1]
  · by_cases h2 : a.nx = 1
    · simp [h1, h2]
    · have h3 : a.sy = a.nx * a.sx := by rcases hr with h | h | h <;> first | exact absurd h h1 | exact absurd h h2 | exact h
      simp only [h1, h2, if_false]
      rw [if_pos h3]

theorem flattenBandM_copy (h : Heap α) (a : V2) (hr : ¬ Rows a.ny a.nx a.sy a.sx) :
    flattenBandM h a = (h.alloc (fun i => (flattenBand (h.get2 a)).px i.toNat), ⟨h.next, 0, a.ny * a.nx, 1⟩) := by
  unfold Rows at hr
  push Not at hr
  unfold flattenBandM
  rw [if_neg hr.1, if_neg hr.2.1, if_neg hr.2.2]

theorem flattenCubeM_view (h : Heap α) (a : V3) (hr : Rows a.ny a.nx a.sy a.sx) :
    flattenCubeM h a = (h, ⟨a.buf, a.off, a.ny * a.nx, if a.ny = 1 then a.sx else if a.nx = 1 then a.sy else a.sx, a.nb, a.sb⟩) := by
  unfold flattenCubeM
  by_cases h1 : a.ny = 1
  · simp [h1]
  · by_cases h2 : a.nx = 1
    · simp [h1, h2]
    · have h3 : a.sy = a.nx * a.sx := by rcases hr with h | h | h <;> first | exact absurd h h1 | exact absurd h h2 | exact h
      simp only [h1, h2, if_false]
      rw [if_pos h3]

theorem flattenCubeM_copy (h : Heap α) (a : V3) (hr : ¬ Rows a.ny a.nx a.sy a.sx) :
    flattenCubeM h a = (h.alloc (fun i => (flattenCube (h.get3 a)).px (i.toNat / a.nb) (i.toNat % a.nb)), ⟨h.next, 0, a.ny * a.nx, a.nb, a.nb, 1⟩) := by
  unfold Rows at hr
  push Not at hr
  unfold flattenCubeM
  rw [if_neg hr.1, if_neg hr.2.1, if_neg hr.2.2]

theorem flat_index {k b nb : Nat} (hb : b < nb) : ((k : Int) * nb + b).toNat / nb = k ∧ ((k : Int) * nb + b).toNat % nb = b := by
  have e : ((k : Int) * nb + b).toNat = b + nb * k := by
    have : (k : Int) * nb + b = ((b + nb * k : Nat) : Int) := by push_cast; ring
    rw [this, Int.toNat_natCast]
  rw [e, Nat.add_mul_div_left _ _ (by omega), Nat.div_eq_of_lt hb, zero_add, Nat.add_mul_mod_self_left, Nat.mod_eq_of_lt hb]
  exact ⟨rfl, rfl⟩

end Verif.Memory
