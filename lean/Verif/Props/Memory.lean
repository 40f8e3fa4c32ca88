import Verif.Lemmas.Memory

/-! C193: chipping works on copies.  C194: detectors on images leave the image alone.  C195: flattened images and the images they were made from. -/

set_option linter.unusedSectionVars false

namespace Verif.Memory
open Verif ImageUtils Chipper

variable {α : Type}

/-- Specification: every array that existed before still has its contents. -/
def Untouched (h h' : Heap α) : Prop := h.next ≤ h'.next ∧ ∀ b, b < h.next → ∀ i, h'.cell b i = h.cell b i

/-- Specification: assignments made to elements of arrays, one after the other. -/
def Heap.writes (h : Heap α) (ws : List (Nat × Int × α)) : Heap α := ws.foldl (fun h w => h.put w.1 w.2.1 w.2.2) h

/-- Specification: two arrays of chips of the same shape with the same elements. -/
def SameChips (c d : Chips α) : Prop :=
  c.n = d.n ∧ c.ny = d.ny ∧ c.nx = d.nx ∧ c.nb = d.nb ∧ ∀ k i j z, k < c.n → i < c.ny → j < c.nx → z < c.nb.getD 1 → c.px k i j z = d.px k i j z

/-- The buffer of an image. -/
def Picture.buf : Picture → Nat
  | .gray a => a.buf
  | .cube a => a.buf

theorem writes_other (ws : List (Nat × Int × α)) (h : Heap α) (b : Nat) (hb : ∀ w ∈ ws, w.1 ≠ b) (i : Int) : (h.writes ws).cell b i = h.cell b i := by
  induction ws generalizing h with
  | nil => rfl
  | cons w ws ih =>
    simp only [Heap.writes, List.foldl_cons] at *
    rw [ih (h.put w.1 w.2.1 w.2.2) (fun w' hw' => hb w' (List.mem_cons_of_mem _ hw'))]
    have := hb w (List.mem_cons_self ..)
    simp [Heap.put, this.symm]

theorem toCube_get (h : Heap α) (p : Picture) : toCube (h.picture p) = h.get3 p.toCube := by
  cases p with
  | gray a => simp [Heap.picture, Chipper.toCube, Picture.toCube, Heap.get2, Heap.get3, V2.addr, V3.addr]
  | cube a => rfl

theorem toCube_buf (p : Picture) : p.toCube.buf = p.buf := by cases p <;> rfl

theorem clamp_eq (n c : Nat) (l : List Int) : (l.map (fun u => if decide (u > (n : Int) - c) = true then (n : Int) - c else u)).map (fun u => if decide (u < 0) = true then 0 else u) =
    l.map (clampUl n c) := by
  rw [List.map_map]
  refine List.map_congr_left ?_
  intro u _
  simp only [Function.comp, clampUl, decide_eq_true_eq]

section chips
variable [Zero α]

/-- The locations after the clamping in memory. -/
theorem clamped (hi : Heap Int) (ys xs : Locs) (ny nx cy cx : Nat) (keep : Bool) :
    let hi1 := (npArray hi xs).1
    let ax := (npArray hi xs).2
    let hi2 := (npArray hi1 ys).1
    let ay := (npArray hi1 ys).2
    let hi3 := if keep then
        let g1 := assignWhere (fun u => decide (u > (nx : Int) - cx)) ((nx : Int) - cx) ax ax.n hi2
        let g2 := assignWhere (fun u => decide (u > (ny : Int) - cy)) ((ny : Int) - cy) ay ay.n g1
        let g3 := assignWhere (fun u => decide (u < 0)) 0 ax ax.n g2
        assignWhere (fun u => decide (u < 0)) 0 ay ay.n g3
      else hi2
    (∀ a : V1, ys = .array a → a.buf < hi.next) →
    (Locs.array ax).read hi3 = (if keep then (xs.read hi).map (clampUl nx cx) else xs.read hi) ∧
    (Locs.array ay).read hi3 = (if keep then (ys.read hi).map (clampUl ny cy) else ys.read hi) ∧ ay.n = (ys.read hi).length ∧ Untouched hi hi3 := by
  intro hi1 ax hi2 ay hi3 hys
  have n1 : hi1.next = hi.next + 1 := rfl
  have n2 : hi2.next = hi.next + 2 := rfl
  have bx : ax.buf = hi.next := rfl
  have by' : ay.buf = hi.next + 1 := rfl
  have ry : ys.read hi1 = ys.read hi := by
    cases ys with
    | list l => rfl
    | array a =>
      simp only [Locs.read]
      refine List.map_congr_left ?_
      intro k _
      exact alloc_old _ _ (hys a rfl) _
  have eax : ax = ⟨hi.next, 0, (xs.read hi).length, 1⟩ := rfl
  have eay : ay = ⟨hi.next + 1, 0, (ys.read hi).length, 1⟩ := by
    change (⟨hi1.next, 0, (ys.read hi1).length, 1⟩ : V1) = _
    rw [ry]
    rfl
  have x2 : (Locs.array ax).read hi2 = xs.read hi := by
    have : (Locs.array ax).read hi2 = (Locs.array ax).read hi1 := by
      simp only [Locs.read]
      refine List.map_congr_left ?_
      intro k _
      exact alloc_old _ _ (by rw [bx, n1]; omega) _
    rw [this]
    exact read_npArray hi xs
  have y2 : (Locs.array ay).read hi2 = ys.read hi := by
    rw [← ry]
    exact read_npArray hi1 ys
  have old2 : Untouched hi hi2 := by
    refine ⟨by omega, fun b hb i => ?_⟩
    change (hi1.alloc _).cell b i = _
    rw [alloc_old _ _ (by omega)]
    exact alloc_old _ _ hb _
  have hne : ax.buf ≠ ay.buf := by rw [bx, by']; omega
  refine ⟨?_, ?_, by rw [eay], ?_⟩
  · cases keep with
    | false => simpa [hi3] using x2
    | true =>
      simp only [hi3, if_true]
      rw [read_other _ _ ay _ _ ax hne]
      have e := read_assign (fun u => decide (u < 0)) 0 hi.next (xs.read hi).length
      rw [← eax] at e
      have e' := read_assign (fun u => decide (u > (nx : Int) - cx)) ((nx : Int) - cx) hi.next (xs.read hi).length
      rw [← eax] at e'
      rw [show ax.n = (xs.read hi).length from rfl, e, read_other _ _ ay _ _ ax hne, e', x2, clamp_eq]
  · cases keep with
    | false => simpa [hi3] using y2
    | true =>
      simp only [hi3, if_true]
      have e := read_assign (fun u => decide (u < 0)) 0 (hi.next + 1) (ys.read hi).length
      rw [← eay] at e
      have e' := read_assign (fun u => decide (u > (ny : Int) - cy)) ((ny : Int) - cy) (hi.next + 1) (ys.read hi).length
      rw [← eay] at e'
      have hn : ay.n = (ys.read hi).length := by rw [eay]
      rw [hn, e, read_other _ _ ax _ _ ay hne.symm, e', read_other _ _ ax _ _ ay hne.symm, y2, clamp_eq]
  · cases keep with
    | false => simpa [hi3] using old2
    | true =>
      simp only [hi3, if_true]
      refine ⟨by simp only [assignWhere_next]; exact old2.1, fun b hb i => ?_⟩
      have nx' : b ≠ ax.buf := by rw [bx]; omega
      have ny' : b ≠ ay.buf := by rw [by']; omega
      rw [assignWhere_other _ _ ay _ _ ny', assignWhere_other _ _ ax _ _ nx', assignWhere_other _ _ ay _ _ ny', assignWhere_other _ _ ax _ _ nx']
      exact old2.2 b hb i

/-- C193: whatever `chip_images_by_pixel_upper_lefts` returns or raises, no array that existed before the call is changed: neither the image nor the locations. -/
theorem C193_arguments (h : Heap α) (hi : Heap Int) (image : Picture) (ys xs : Locs) (hys : ∀ a : V1, ys = .array a → a.buf < hi.next) (cy cx : Nat) (bands : Bands) (keep : Bool) :
    Untouched h (byUpperLeftsM h hi image ys xs cy cx bands keep).1.1 ∧ Untouched hi (byUpperLeftsM h hi image ys xs cy cx bands keep).1.2 := by
  have hc := (clamped hi ys xs image.toCube.ny image.toCube.nx cy cx keep hys).2.2.2
  have hl : ∀ (l : List (Int × Int)) (bs : List Int), Untouched h (chipLoopM image.toCube cy cx bs h.next l 0 [] (h.alloc (fun _ => 0))).1 := by
    intro l bs
    refine ⟨by rw [chipLoopM_next]; exact Nat.le_succ _, fun b hb i => ?_⟩
    rw [chipLoopM_frame _ _ _ _ _ _ _ _ _ _ hb.ne]
    exact alloc_old _ _ hb _
  unfold byUpperLeftsM
  simp only []
  split
  · rename_i h2 e he
    refine ⟨?_, hc⟩
    have hh := congrArg Prod.fst he
    simp only [] at hh
    rw [← hh]
    exact hl _ _
  · rename_i h2 uls he
    have hh := congrArg Prod.fst he
    simp only [] at hh
    have this : Untouched h h2 := by
      rw [← hh]
      exact hl _ _
    generalize hX : (if keep = true then _ else _ : Heap Int) = X at hc ⊢
    split_ifs <;> exact ⟨this, hc⟩

/-- C193: the chips are those of the pure function (C02) on the contents the image and the locations had, and they are a new array. -/
theorem C193_chips (h : Heap α) (hi : Heap Int) (image : Picture) (hin : image.buf < h.next) (ys xs : Locs) (hys : ∀ a : V1, ys = .array a → a.buf < hi.next) (cy cx : Nat)
    (bands : Bands) (keep : Bool) :
    match byUpperLefts (h.picture image) (ys.read hi) (xs.read hi) cy cx bands keep with
    | .error e => (byUpperLeftsM h hi image ys xs cy cx bands keep).2 = .error e
    | .ok out => ∃ c, (byUpperLeftsM h hi image ys xs cy cx bands keep).2 = .ok (c, out.uls) ∧ h.next ≤ c.buf ∧
        SameChips ((byUpperLeftsM h hi image ys xs cy cx bands keep).1.1.chips c) out.chips := by
  obtain ⟨c1, c2, c3, -⟩ := clamped hi ys xs image.toCube.ny image.toCube.nx cy cx keep hys
  have hg : (h.alloc (fun _ => (0 : α))).get3 image.toCube = h.get3 image.toCube := by
    have hb : image.toCube.buf < h.next := by rw [toCube_buf]; exact hin
    simp only [Heap.get3]
    congr 1
    funext y x b
    exact alloc_old _ _ hb _
  have hgray : image.isGray = isGray (h.picture image) := by cases image <;> rfl
  have hlen : (if keep = true then (ys.read hi).map (clampUl (h.get3 image.toCube).ny cy) else ys.read hi).length = (ys.read hi).length := by cases keep <;> simp
  unfold byUpperLeftsM byUpperLefts
  simp only [toCube_get, hgray, hlen]
  have hnb : (h.get3 image.toCube).nb = image.toCube.nb := rfl
  have hny : (h.get3 image.toCube).ny = image.toCube.ny := rfl
  have hnx : (h.get3 image.toCube).nx = image.toCube.nx := rfl
  simp only [hnb, hny, hnx, ← c1, ← c2]
  set hi3 := (if keep = true then _ else _ : Heap Int) with hhi3
  set bs := bandList image.toCube.nb bands with hbs
  set l := ((Locs.array (npArray (npArray hi xs).1 ys).2).read hi3).zip ((Locs.array (npArray hi xs).2).read hi3) with hlist
  have hsp := chipLoopM_spec image.toCube cy cx bs h.next (by rw [toCube_buf]; exact hin.ne) l 0 [] (h.alloc (fun _ => 0)) (fun _ _ _ _ => 0)
    (fun k' i j z _ _ _ => by rw [alloc_new])
  rw [hg] at hsp
  cases hcl : chipLoop (h.get3 image.toCube) cy cx bs l 0 (fun _ _ _ _ => 0) [] with
  | error e =>
    rw [hcl] at hsp
    simp only [error_bind]
    cases hM : chipLoopM image.toCube cy cx bs h.next l 0 [] (h.alloc (fun _ => 0)) with
    | mk h2 r =>
      rw [hM] at hsp
      simp only [] at hsp
      subst hsp
      rfl
  | ok p =>
    obtain ⟨px, uls⟩ := p
    rw [hcl] at hsp
    simp only [ok_bind]
    cases hM : chipLoopM image.toCube cy cx bs h.next l 0 [] (h.alloc (fun _ => 0)) with
    | mk h2 r =>
      rw [hM] at hsp
      simp only [] at hsp
      obtain ⟨hsp1, hsp2⟩ := hsp
      subst hsp1
      simp only [c3]
      by_cases hgo : (isGray (h.picture image) || bs.length == 1) = true
      · simp only [hgo, if_true]
        by_cases hsz : (ys.read hi).length * cy * cx * bs.length = (ys.read hi).length * cy * cx
        · simp only [hsz, if_true]
          refine ⟨_, rfl, le_rfl, rfl, rfl, rfl, rfl, ?_⟩
          intro k i j z hk hi' hj hz
          have hk' : k < (ys.read hi).length := hk
          have hi'' : i < cy := hi'
          have hj' : j < cx := hj
          have hone : bs.length = 1 := by
            have hpos : 0 < (ys.read hi).length * cy * cx := Nat.mul_pos (Nat.mul_pos (by omega) (by omega)) (by omega)
            exact Nat.eq_of_mul_eq_mul_left hpos (by rw [hsz, mul_one])
          have := hsp2 k i j 0 hi'' hj' (by omega)
          rw [hone] at this
          simpa [Heap.chips, chipPos] using this
        · simp only [hsz, if_false]
      · simp only [hgo, if_false]
        refine ⟨_, rfl, le_rfl, rfl, rfl, rfl, rfl, ?_⟩
        intro k i j z hk hi' hj hz
        have := hsp2 k i j z hi' hj hz
        simpa [Heap.chips, chipPos] using this

/-- C193: later changes of the image, or of anything else that existed before the call, do not reach the chips, and changes of the chips do not reach the image. -/
theorem C193_independent (h : Heap α) (hi : Heap Int) (image : Picture) (hin : image.buf < h.next) (ys xs : Locs) (hys : ∀ a : V1, ys = .array a → a.buf < hi.next) (cy cx : Nat)
    (bands : Bands) (keep : Bool) (c : ChipArr) (uls : List (Int × Int)) (hok : (byUpperLeftsM h hi image ys xs cy cx bands keep).2 = .ok (c, uls)) (ws : List (Nat × Int × α)) :
    ((∀ w ∈ ws, w.1 < h.next) → ((byUpperLeftsM h hi image ys xs cy cx bands keep).1.1.writes ws).chips c = (byUpperLeftsM h hi image ys xs cy cx bands keep).1.1.chips c) ∧
    ((∀ w ∈ ws, w.1 = c.buf) → ((byUpperLeftsM h hi image ys xs cy cx bands keep).1.1.writes ws).picture image = h.picture image) := by
  have hcb : h.next ≤ c.buf := by
    have := C193_chips h hi image hin ys xs hys cy cx bands keep
    rw [hok] at this
    revert this
    cases byUpperLefts (h.picture image) (ys.read hi) (xs.read hi) cy cx bands keep with
    | error e => intro h; simp at h
    | ok out =>
      rintro ⟨c', e, hb, -⟩
      simp only [Except.ok.injEq, Prod.mk.injEq] at e
      rw [e.1]; exact hb
  have hu := (C193_arguments h hi image ys xs hys cy cx bands keep).1
  constructor
  · intro hw
    simp only [Heap.chips]
    congr 1
    funext k i j b
    exact writes_other ws _ c.buf (fun w hm => by have := hw w hm; omega) _
  · intro hw
    have key : ∀ i, ((byUpperLeftsM h hi image ys xs cy cx bands keep).1.1.writes ws).cell image.buf i = h.cell image.buf i := by
      intro i
      rw [writes_other ws _ image.buf (fun w hm => by rw [hw w hm]; omega), hu.2 _ hin]
    cases image with
    | gray a => simp only [Heap.picture, Heap.get2]; congr 2; funext y x; exact key _
    | cube a => simp only [Heap.picture, Heap.get3]; congr 2; funext y x b; exact key _

/-- Beside C193: the 3 x 3 image 0..8, reversed in y (a view), chips of 2 x 2; the locations are an array with an entry outside the image. -/
example : let h : Heap ℤ := ⟨1, fun _ i => i⟩
    let hi : Heap Int := ⟨1, fun _ i => if i = 0 then 2 else 0⟩
    let r := byUpperLeftsM h hi (.gray ⟨0, 6, 3, -3, 3, 1⟩) (.array ⟨0, 0, 2, 1⟩) (.list [1, 5]) 2 2 .none true
    ∃ c, r.2 = .ok (c, [(1, 1), (0, 1)]) ∧ (r.1.1.chips c).px 0 0 0 0 = 4 ∧ (r.1.1.chips c).px 1 1 1 0 = 5 ∧ r.1.2.cell 0 0 = 2 ∧ c.buf = 1 := by
  refine ⟨⟨1, 2, 2, 2, none⟩, rfl, rfl, rfl, rfl, rfl⟩

end chips

/-! ### Flattening -/

/-- Specification: `a`'s elements lie at different places. -/
def V2.Distinct (a : V2) : Prop := ∀ y x y' x', y < a.ny → x < a.nx → y' < a.ny → x' < a.nx → a.addr y x = a.addr y' x' → y = y' ∧ x = x'

/-- Specification: `a`'s elements lie at different places. -/
def V3.Distinct (a : V3) : Prop := ∀ y x b y' x' b', y < a.ny → x < a.nx → b < a.nb → y' < a.ny → x' < a.nx → b' < a.nb → a.addr y x b = a.addr y' x' b' → y = y' ∧ x = x' ∧ b = b'

theorem alloc_untouched (h : Heap α) (f : Int → α) : Untouched h (h.alloc f) := ⟨Nat.le_succ _, fun _ hb i => alloc_old h f hb i⟩

/-- C195: flattening changes no array, and the flattened band has the pixels of the band in row-major order, whatever the band's layout in memory. -/
theorem C195_band_values (h : Heap α) (a : V2) :
    Untouched h (flattenBandM h a).1 ∧ ((flattenBandM h a).1.get1 (flattenBandM h a).2).n = a.ny * a.nx ∧
    ∀ y x, y < a.ny → x < a.nx → ((flattenBandM h a).1.get1 (flattenBandM h a).2).px (y * a.nx + x) = (h.get2 a).px y x := by
  have idx : ∀ y x, y < a.ny → x < a.nx → y * a.nx + x < a.ny * a.nx ∧ (y * a.nx + x) / a.nx = y ∧ (y * a.nx + x) % a.nx = x := by
    intro y x hy hx
    refine ⟨?_, ?_, ?_⟩
    · have := Nat.mul_le_mul_right a.nx hy
      rw [Nat.succ_mul] at this
      omega
    · rw [mul_comm, add_comm, Nat.add_mul_div_left _ _ (by omega), Nat.div_eq_of_lt hx, zero_add]
    · rw [mul_comm, add_comm, Nat.add_mul_mod_self_left, Nat.mod_eq_of_lt hx]
  by_cases hr : Rows a.ny a.nx a.sy a.sx
  · rw [flattenBandM_view h a hr]
    refine ⟨⟨le_rfl, fun _ _ _ => rfl⟩, rfl, fun y x hy hx => ?_⟩
    obtain ⟨h1, h2, h3⟩ := idx y x hy hx
    have e := flatten_addr (off := a.off) hr h1
    rw [h2, h3] at e
    simp only [Heap.get1, Heap.get2, V1.addr, V2.addr]
    rw [e]
  · rw [flattenBandM_copy h a hr]
    refine ⟨alloc_untouched _ _, rfl, fun y x hy hx => ?_⟩
    obtain ⟨h1, h2, h3⟩ := idx y x hy hx
    simp only [Heap.get1, alloc_new, V1.addr, zero_add, mul_one, Int.toNat_natCast, flattenBand]
    change (h.get2 a).px ((y * a.nx + x) / a.nx) ((y * a.nx + x) % a.nx) = _
    rw [h2, h3]

theorem cube_values (h : Heap α) (a : V3) :
    Untouched h (flattenCubeM h a).1 ∧ ((flattenCubeM h a).1.get2 (flattenCubeM h a).2).Same (flattenCube (h.get3 a)) := by
  by_cases hr : Rows a.ny a.nx a.sy a.sx
  · rw [flattenCubeM_view h a hr]
    refine ⟨⟨le_rfl, fun _ _ _ => rfl⟩, rfl, rfl, fun k b hk hb => ?_⟩
    have e := flatten_addr (off := a.off) hr (show k < a.ny * a.nx from hk)
    simp only [Heap.get2, Heap.get3, flattenCube, V2.addr, V3.addr]
    rw [e]
  · rw [flattenCubeM_copy h a hr]
    refine ⟨alloc_untouched _ _, rfl, rfl, fun k b hk hb => ?_⟩
    have hb' : b < a.nb := hb
    obtain ⟨e1, e2⟩ := flat_index (k := k) hb'
    simp only [Heap.get2, alloc_new, V2.addr, zero_add, mul_one, e1, e2]

/-- C195: the same for cubes: row `y * nx + x` of the flattened cube is the spectrum of pixel `(y, x)`. -/
theorem C195_cube_values (h : Heap α) (a : V3) :
    Untouched h (flattenCubeM h a).1 ∧ ((flattenCubeM h a).1.get2 (flattenCubeM h a).2).ny = a.ny * a.nx ∧ ((flattenCubeM h a).1.get2 (flattenCubeM h a).2).nx = a.nb ∧
    ∀ y x b, y < a.ny → x < a.nx → b < a.nb → ((flattenCubeM h a).1.get2 (flattenCubeM h a).2).px (y * a.nx + x) b = (h.get3 a).px y x b := by
  obtain ⟨h1, h2, h3, h4⟩ := cube_values h a
  refine ⟨h1, h2, h3, fun y x b hy hx hb => ?_⟩
  have hk : y * a.nx + x < a.ny * a.nx := by
    have := Nat.mul_le_mul_right a.nx hy
    rw [Nat.succ_mul] at this
    omega
  rw [h4 _ _ (by rw [h2]; exact hk) (by rw [h3]; exact hb)]
  simp only [flattenCube]
  change (h.get3 a).px ((y * a.nx + x) / a.nx) ((y * a.nx + x) % a.nx) b = _
  rw [show (y * a.nx + x) / a.nx = y by rw [mul_comm, add_comm, Nat.add_mul_div_left _ _ (by omega), Nat.div_eq_of_lt hx, zero_add],
    show (y * a.nx + x) % a.nx = x by rw [mul_comm, add_comm, Nat.add_mul_mod_self_left, Nat.mod_eq_of_lt hx]]

/-- C195 is false as stated: writing to the flattened band changes the image, for any band stored row after row. -/
theorem C195_false : ∃ (h : Heap ℤ) (a : V2), a.buf < h.next ∧ a.Distinct ∧
    let r := flattenBandM h a
    ((r.1.put r.2.buf (r.2.addr 3) 70).get2 a).px 1 1 ≠ (h.get2 a).px 1 1 := by
  refine ⟨⟨1, fun _ i => i⟩, ⟨0, 0, 2, 2, 2, 1⟩, by decide, ?_, ?_⟩
  · intro y x y' x' hy hx hy' hx' e
    simp only [V2.addr] at *
    omega
  · decide

/-- C195, proved part: when the rows do not follow one another at equal distances, the flattened band is a copy: whatever is written to one does not reach the other.
Missing: images in one piece, for which `C195_band_shared_partial` says exactly what happens. -/
theorem C195_band_copy_partial (h : Heap α) (a : V2) (hin : a.buf < h.next) (hr : ¬ Rows a.ny a.nx a.sy a.sx) (ws : List (Nat × Int × α)) :
    let r := flattenBandM h a
    ((∀ w ∈ ws, w.1 = a.buf) → (r.1.writes ws).get1 r.2 = r.1.get1 r.2) ∧ ((∀ w ∈ ws, w.1 = r.2.buf) → (r.1.writes ws).get2 a = h.get2 a) := by
  rw [flattenBandM_copy h a hr]
  constructor
  · intro hw
    simp only [Heap.get1]
    congr 1
    funext k
    exact writes_other ws _ h.next (fun w hm => by rw [hw w hm]; omega) _
  · intro hw
    simp only [Heap.get2]
    congr 1
    funext y x
    rw [writes_other ws _ a.buf (fun w hm => by rw [hw w hm]; exact hin.ne'), alloc_old _ _ hin]

/-- C195, the rest: for an image in one piece, writing `v` to element `k` of the flattened band writes `v` to pixel `(k / nx, k % nx)` of the image, and to no other pixel. -/
theorem C195_band_shared_partial (h : Heap α) (a : V2) (hd : a.Distinct) (hr : Rows a.ny a.nx a.sy a.sx) (k : Nat) (hk : k < a.ny * a.nx) (v : α) :
    let r := flattenBandM h a
    ∀ y x, y < a.ny → x < a.nx → ((r.1.put r.2.buf (r.2.addr k) v).get2 a).px y x = if y = k / a.nx ∧ x = k % a.nx then v else (h.get2 a).px y x := by
  rw [flattenBandM_view h a hr]
  intro r y x hy hx
  have e := flatten_addr (off := a.off) hr hk
  have hnx : 0 < a.nx := Nat.pos_of_ne_zero (fun h0 => by simp [h0] at hk)
  have hky : k / a.nx < a.ny := Nat.div_lt_of_lt_mul (by rw [mul_comm]; exact hk)
  have hkx : k % a.nx < a.nx := Nat.mod_lt _ hnx
  have hadr : r.2.addr k = a.addr (k / a.nx) (k % a.nx) := e.symm
  simp only [Heap.get2, Heap.put]
  rw [hadr]
  have hb : r.2.buf = a.buf := rfl
  simp only [hb, true_and]
  by_cases hyx : y = k / a.nx ∧ x = k % a.nx
  · rw [if_pos hyx, hyx.1, hyx.2, if_pos rfl]
  · rw [if_neg hyx, if_neg (fun he => hyx (hd _ _ _ _ hy hx hky hkx he))]

/-- C195, proved part for cubes. -/
theorem C195_cube_copy_partial (h : Heap α) (a : V3) (hin : a.buf < h.next) (hr : ¬ Rows a.ny a.nx a.sy a.sx) (ws : List (Nat × Int × α)) :
    let r := flattenCubeM h a
    ((∀ w ∈ ws, w.1 = a.buf) → (r.1.writes ws).get2 r.2 = r.1.get2 r.2) ∧ ((∀ w ∈ ws, w.1 = r.2.buf) → (r.1.writes ws).get3 a = h.get3 a) := by
  rw [flattenCubeM_copy h a hr]
  constructor
  · intro hw
    simp only [Heap.get2]
    congr 1
    funext k b
    exact writes_other ws _ h.next (fun w hm => by rw [hw w hm]; omega) _
  · intro hw
    simp only [Heap.get3]
    congr 1
    funext y x b
    rw [writes_other ws _ a.buf (fun w hm => by rw [hw w hm]; exact hin.ne'), alloc_old _ _ hin]

/-- C195, the rest for cubes. -/
theorem C195_cube_shared_partial (h : Heap α) (a : V3) (hd : a.Distinct) (hr : Rows a.ny a.nx a.sy a.sx) (k c : Nat) (hk : k < a.ny * a.nx) (hc : c < a.nb) (v : α) :
    let r := flattenCubeM h a
    ∀ y x b, y < a.ny → x < a.nx → b < a.nb →
      ((r.1.put r.2.buf (r.2.addr k c) v).get3 a).px y x b = if y = k / a.nx ∧ x = k % a.nx ∧ b = c then v else (h.get3 a).px y x b := by
  rw [flattenCubeM_view h a hr]
  intro r y x b hy hx hb'
  have e := flatten_addr (off := a.off) hr hk
  have hnx : 0 < a.nx := Nat.pos_of_ne_zero (fun h0 => by simp [h0] at hk)
  have hky : k / a.nx < a.ny := Nat.div_lt_of_lt_mul (by rw [mul_comm]; exact hk)
  have hkx : k % a.nx < a.nx := Nat.mod_lt _ hnx
  have hadr : r.2.addr k c = a.addr (k / a.nx) (k % a.nx) c := by
    simp only [V2.addr, V3.addr, r]
    rw [e]
  simp only [Heap.get3, Heap.put]
  rw [hadr]
  have hb : r.2.buf = a.buf := rfl
  simp only [hb, true_and]
  by_cases hyx : y = k / a.nx ∧ x = k % a.nx ∧ b = c
  · rw [if_pos hyx, hyx.1, hyx.2.1, hyx.2.2, if_pos rfl]
  · rw [if_neg hyx, if_neg (fun he => hyx (hd _ _ _ _ _ _ hy hx hb' hky hkx hc he))]

/-- C195: unflattening never copies: pixel `(y, x)` of the image it returns is element `y * nx + x` of the vector, for reading and for writing. -/
theorem C195_unflatten (v : V1) (nx ny : Nat) (a : V2) (hok : unflattenBandM v nx ny = .ok a) :
    v.n = ny * nx ∧ a.ny = ny ∧ a.nx = nx ∧ a.buf = v.buf ∧ ∀ y x, a.addr y x = v.addr (y * nx + x) := by
  unfold unflattenBandM at hok
  split_ifs at hok with hn
  injection hok with hok
  subst hok
  refine ⟨hn, rfl, rfl, rfl, fun y x => ?_⟩
  simp only [V2.addr, V1.addr]
  push_cast
  ring

/-- Beside C195: a band cut out of a larger one (columns 1 and 2 of 4) is copied; the whole band is not. -/
example : let h : Heap ℤ := ⟨1, fun _ i => i⟩
    ¬ Rows 3 2 4 1 ∧ Rows 3 4 4 1 ∧ (V2.mk 0 1 3 4 2 1).Distinct ∧ ((flattenBandM h ⟨0, 1, 3, 4, 2, 1⟩).1.get1 (flattenBandM h ⟨0, 1, 3, 4, 2, 1⟩).2).px 3 = 6 ∧
    unflattenBandM ⟨0, 0, 6, 1⟩ 3 2 = .ok ⟨0, 0, 2, 3, 3, 1⟩ := by
  refine ⟨by unfold Rows; decide, by unfold Rows; decide, ?_, by decide, rfl⟩
  intro y x y' x' hy hx hy' hx' e
  simp only [V2.addr] at *
  omega

/-! ### Detectors on images -/

/-- Specification: two answers are the same: the same exception or arrays with the same elements. -/
def Agree {β : Type} (same : β → β → Prop) : Py β → Py β → Prop
  | .ok u, .ok v => same u v
  | .error e, .error e' => e = e'
  | _, _ => False

/-- Specification: the answer depends on the elements of the array only. -/
def Respects {β : Type} (same : β → β → Prop) (f : A2 α → Py β) : Prop := ∀ A B : A2 α, A.Same B → Agree same (f A) (f B)

/-- C194: an image detector changes no array that existed before, its map is a new array, and the map has the scores the one-dimensional detector gives the pixels, whatever the
layout of the image in memory. -/
theorem C194_detectors (f : A2 α → Py (A1 α)) (hf : Respects A1.Same f) (h : Heap α) (a : V3) :
    Untouched h (detect2d f h a).1 ∧
    match f (flattenCube (h.get3 a)) >>= fun s => unflattenBand s a.nx a.ny with
    | .error e => (detect2d f h a).2 = .error e
    | .ok m => ∃ v, (detect2d f h a).2 = .ok v ∧ h.next ≤ v.buf ∧ v.buf < (detect2d f h a).1.next ∧ ((detect2d f h a).1.get2 v).Same m := by
  obtain ⟨hu, hs⟩ := cube_values h a
  have hag := hf _ _ hs
  unfold detect2d
  simp only []
  cases e1 : f ((flattenCubeM h a).1.get2 (flattenCubeM h a).2) with
  | error e =>
    cases e2 : f (flattenCube (h.get3 a)) with
    | error e' =>
      rw [e1, e2] at hag
      have : e = e' := hag
      subst this
      exact ⟨hu, rfl⟩
    | ok s' => rw [e1, e2] at hag; exact absurd hag id
  | ok s =>
    cases e2 : f (flattenCube (h.get3 a)) with
    | error e' => rw [e1, e2] at hag; exact absurd hag id
    | ok s' =>
      rw [e1, e2] at hag
      have hss : s.Same s' := hag
      have hu2 : Untouched h ((flattenCubeM h a).1.alloc (fun i => s.px i.toNat)) := by
        refine ⟨le_trans hu.1 (Nat.le_succ _), fun b hb i => ?_⟩
        rw [alloc_old _ _ (lt_of_lt_of_le hb hu.1)]
        exact hu.2 b hb i
      refine ⟨hu2, ?_⟩
      rw [ok_bind]
      unfold unflattenBand unflattenBandM
      simp only [hss.1]
      by_cases hn : s'.n = a.ny * a.nx
      · simp only [hn, if_true]
        refine ⟨_, rfl, hu.1, Nat.lt_succ_self _, rfl, rfl, fun y x hy hx => ?_⟩
        have hy' : y < a.ny := hy
        have hx' : x < a.nx := hx
        simp only [Heap.get2, alloc_new, V2.addr]
        have e : (0 + (y : Int) * ((a.nx : Int) * 1) + (x : Int) * 1).toNat = y * a.nx + x := by
          have : (0 + (y : Int) * ((a.nx : Int) * 1) + (x : Int) * 1) = ((y * a.nx + x : Nat) : Int) := by push_cast; ring
          rw [this, Int.toNat_natCast]
        rw [e]
        refine hss.2 _ ?_
        rw [hss.1, hn]
        have := Nat.mul_le_mul_right a.nx hy'
        rw [Nat.succ_mul] at this
        omega
      · simp only [hn, if_false]

/-- C194: demeaning an image changes no array that existed before; the result is a new array. -/
theorem C194_demean (f : A2 α → Py (A2 α)) (hf : Respects A2.Same f) (h : Heap α) (a : V3) :
    Untouched h (demean2d f h a).1 ∧
    match f (flattenCube (h.get3 a)) >>= fun s => unflattenCube s a.nx a.ny with
    | .error e => (demean2d f h a).2 = .error e
    | .ok m => ∃ v, (demean2d f h a).2 = .ok v ∧ h.next ≤ v.buf ∧ v.buf < (demean2d f h a).1.next ∧ ((demean2d f h a).1.get3 v).Same m := by
  obtain ⟨hu, hs⟩ := cube_values h a
  have hag := hf _ _ hs
  unfold demean2d
  simp only []
  cases e1 : f ((flattenCubeM h a).1.get2 (flattenCubeM h a).2) with
  | error e =>
    cases e2 : f (flattenCube (h.get3 a)) with
    | error e' =>
      rw [e1, e2] at hag
      have : e = e' := hag
      subst this
      exact ⟨hu, rfl⟩
    | ok s' => rw [e1, e2] at hag; exact absurd hag id
  | ok s =>
    cases e2 : f (flattenCube (h.get3 a)) with
    | error e' => rw [e1, e2] at hag; exact absurd hag id
    | ok s' =>
      rw [e1, e2] at hag
      have hss : s.Same s' := hag
      have hu2 : Untouched h ((flattenCubeM h a).1.alloc (fun i => s.px (i.toNat / s.nx) (i.toNat % s.nx))) := by
        refine ⟨le_trans hu.1 (Nat.le_succ _), fun b hb i => ?_⟩
        rw [alloc_old _ _ (lt_of_lt_of_le hb hu.1)]
        exact hu.2 b hb i
      refine ⟨hu2, ?_⟩
      rw [ok_bind]
      unfold unflattenCube unflattenCubeM
      simp only [hss.1, hss.2.1]
      by_cases hn : s'.ny * s'.nx = a.ny * a.nx * s'.nx
      · simp only [hn, if_true]
        refine ⟨_, rfl, hu.1, Nat.lt_succ_self _, rfl, rfl, rfl, fun y x b hy hx hb => ?_⟩
        have hy' : y < a.ny := hy
        have hx' : x < a.nx := hx
        have hb' : b < s'.nx := hb
        simp only [Heap.get3, alloc_new, V3.addr]
        obtain ⟨i1, i2⟩ := flat_index (k := y * a.nx + x) hb'
        have e : (0 + (y : Int) * ((a.nx : Int) * (s'.nx : Int)) + (x : Int) * (s'.nx : Int) + (b : Int) * 1) = ((y * a.nx + x : Nat) : Int) * s'.nx + b := by
          push_cast; ring
        rw [e, i1, i2]
        refine hss.2.2 _ _ ?_ (by rw [hss.2.1]; exact hb')
        have hny : s'.ny = a.ny * a.nx := Nat.eq_of_mul_eq_mul_right (by omega) hn
        rw [hss.1, hny]
        have := Nat.mul_le_mul_right a.nx hy'
        rw [Nat.succ_mul] at this
        omega
      · simp only [hn, if_false]

/-- Beside C194: the sum over the bands, on a 2 x 2 cube of 2 bands stored bands first (a transposed view). -/
example : let f : A2 ℤ → Py (A1 ℤ) := fun A => .ok ⟨A.ny, fun k => ((List.range A.nx).map (A.px k)).sum⟩
    let h : Heap ℤ := ⟨1, fun _ i => i⟩
    Respects A1.Same f ∧ ∃ v, (detect2d f h ⟨0, 0, 2, 1, 2, 2, 2, 4⟩).2 = .ok v ∧ v.buf = 2 ∧ ((detect2d f h ⟨0, 0, 2, 1, 2, 2, 2, 4⟩).1.get2 v).px 1 0 = 1 + 5 := by
  refine ⟨?_, ⟨2, 0, 2, 2, 2, 1⟩, rfl, rfl, by decide⟩
  intro A B hAB
  refine ⟨hAB.1, fun k hk => ?_⟩
  simp only []
  rw [hAB.2.1]
  congr 1
  refine List.map_congr_left fun b hb => ?_
  exact hAB.2.2 _ _ hk (by rw [hAB.2.1]; exact List.mem_range.mp hb)

end Verif.Memory
