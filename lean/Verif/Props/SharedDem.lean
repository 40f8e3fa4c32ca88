import Verif.Model.SharedDem
import Verif.Props.Warp

/-! C147: DEMs and callers that share an image object.  C148: a DEM whose `set_geotiff_image` or height conversion raises. -/

set_option linter.unusedSectionVars false

namespace Verif.Warp
open Verif ImageUtils Ortho Images

section
variable {K P : Type} [Field K] [LinearOrder K] [IsStrictOrderedRing K] [FloorRing K] [Inhabited K]

/-! ### Specification -/

/-- The operation is on the DEM number `k`. -/
def SceneOp.On (k : Nat) : SceneOp → Prop
  | .setImage j _ => j = k
  | .convert j _ _ _ => j = k
  | _ => False

/-- The operation names the image number `a`. -/
def SceneOp.Names (a : Nat) : SceneOp → Prop
  | .setImage _ b => b = a
  | .close b => b = a
  | _ => False

/-- What a later image object has in common with the earlier one: everything but that it may have been closed, or its data loaded from its file. -/
def Later (im im' : DImage K P) : Prop :=
  im'.nx = im.nx ∧ im'.ny = im.ny ∧ im'.nb = im.nb ∧ im'.dtype = im.dtype ∧ im'.nodata = im.nodata ∧ im'.geot = im.geot ∧ im'.proj = im.proj ∧
    (im'.dset = im.dset ∨ im'.dset = none) ∧ (im'.data = im.data ∨ ∃ c, im.readAll = .ok c ∧ im'.data = some c)

/-! ### Lemmas -/

theorem readBands_dset (im im' : DImage K P) (h : im'.dset = im.dset) : ∀ n start, im'.readBands start n = im.readBands start n := by
  intro n
  induction n with
  | zero => intro start; rfl
  | succ n ih =>
    intro start
    unfold DImage.readBands
    have : im'.readBand start = im.readBand start := by unfold DImage.readBand; rw [h]
    rw [this, ih]

theorem readAll_dset (im im' : DImage K P) (h : im'.dset = im.dset) (hb : im'.nb = im.nb) : im'.readAll = im.readAll := by
  unfold DImage.readAll
  rw [hb, readBands_dset im im' h]

theorem readAll_closed (im : DImage K P) (h : im.dset = none) (hb : 0 < im.nb) : im.readAll = .error .attributeError := by
  obtain ⟨n, hn⟩ : ∃ n, im.nb = n + 1 := ⟨im.nb - 1, by omega⟩
  unfold DImage.readAll
  rw [hn]
  unfold DImage.readBands DImage.readBand
  rw [h]
  rfl

theorem readAll_zero (im : DImage K P) (h : im.nb = 0) : im.readAll = .error .valueError := by
  unfold DImage.readAll
  rw [h]
  rfl

theorem later_refl (im : DImage K P) : Later im im := ⟨rfl, rfl, rfl, rfl, rfl, rfl, rfl, Or.inl rfl, Or.inl rfl⟩

theorem later_trans {a b c : DImage K P} (h1 : Later a b) (h2 : Later b c) : Later a c := by
  obtain ⟨p1, p2, p3, p4, p5, p6, p7, p8, p9⟩ := h1
  obtain ⟨q1, q2, q3, q4, q5, q6, q7, q8, q9⟩ := h2
  refine ⟨q1.trans p1, q2.trans p2, q3.trans p3, q4.trans p4, q5.trans p5, q6.trans p6, q7.trans p7, ?_, ?_⟩
  · rcases q8 with h | h
    · rcases p8 with h' | h'
      · exact Or.inl (h.trans h')
      · exact Or.inr (h.trans h')
    · exact Or.inr h
  · rcases q9 with h | ⟨d, hd, h⟩
    · rcases p9 with h' | ⟨d, hd, h'⟩
      · exact Or.inl (h.trans h')
      · exact Or.inr ⟨d, hd, h.trans h'⟩
    · refine Or.inr ⟨d, ?_, h⟩
      rcases p8 with h' | h'
      · rwa [readAll_dset a b h' p3] at hd
      · exfalso
        by_cases hb : 0 < b.nb
        · rw [readAll_closed b h' hb] at hd; cases hd
        · rw [readAll_zero b (by omega)] at hd; cases hd

theorem later_closed (im : DImage K P) : Later im { im with dset := none } :=
  ⟨rfl, rfl, rfl, rfl, rfl, rfl, rfl, Or.inr rfl, Or.inl rfl⟩

variable (W : SrsPair → Dset K P → Option (Dset K P)) (cast : K → K) (floating : Nat → Bool) (srs : P → Str)

theorem setImage_images (s : Scene K P) (k a : Nat) : (s.setImage floating k a).1.images = s.images := by
  unfold Scene.setImage
  split <;> rfl

theorem setImage_other (s : Scene K P) (k a j : Nat) (h : k ≠ j) : (s.setImage floating k a).1.dems[j]? = s.dems[j]? := by
  unfold Scene.setImage
  split
  · simp only []
    rw [List.getElem?_set_ne h]
  · rfl

/-- The possible ends of a conversion. -/
theorem convert_cases (s : Scene K P) (k : Nat) (dst grid : Str) (g : Bool) :
    (∃ e, (s.convert W cast floating srs k dst grid g).2 = .error e ∧ (s.convert W cast floating srs k dst grid g).1.images = s.images ∧
      (s.convert W cast floating srs k dst grid g).1.dems = s.dems) ∨
    ∃ a im new files', s.imageOf k = .ok (a, im) ∧ s.convert W cast floating srs k dst grid g =
      Scene.setImage floating { s with images := s.images.set a { im with dset := none } ++ [new], files := files' } k s.images.length := by
  unfold Scene.convert
  cases h1 : s.imageOf k with
  | error e => exact Or.inl ⟨e, rfl, rfl, rfl⟩
  | ok p =>
    obtain ⟨a, im⟩ := p
    simp only []
    cases h2 : warpSource cast im with
    | error e => exact Or.inl ⟨e, rfl, rfl, rfl⟩
    | ok src =>
      simp only []
      cases h3 : openName (warped s.files dst (W (if g = true then geoidOps (srs im.proj) grid else ellipsoidOps (srs im.proj) grid) src)) dst with
      | error e => exact Or.inl ⟨e, rfl, rfl, rfl⟩
      | ok new => exact Or.inr ⟨a, im, new, _, rfl, rfl⟩

theorem imageOf_ok (s : Scene K P) (k a : Nat) (im : DImage K P) :
    s.imageOf k = .ok (a, im) ↔ ∃ d, s.dems[k]? = some d ∧ d.image = some a ∧ s.images[a]? = some im := by
  unfold Scene.imageOf
  constructor
  · intro h
    split at h
    · cases h
    · rename_i d hd
      split at h
      · cases h
      · rename_i b hb
        split at h
        · cases h
        · rename_i im' hi
          cases h
          exact ⟨d, hd, hb, hi⟩
  · rintro ⟨d, h1, h2, h3⟩
    simp only [h1, h2, h3]

theorem set_later (l : List (DImage K P)) (a b : Nat) (im im' jm : DImage K P) (ha : l[a]? = some im) (hl : Later im im') (hb : l[b]? = some jm) :
    ∃ jm', (l.set a im')[b]? = some jm' ∧ Later jm jm' := by
  by_cases h : a = b
  · subst h
    have : a < l.length := (List.getElem?_eq_some_iff.mp ha).1
    refine ⟨im', ?_, ?_⟩
    · rw [List.getElem?_set_self this]
    · rw [ha] at hb; cases hb; exact hl
  · exact ⟨jm, by rw [List.getElem?_set_ne h]; exact hb, later_refl jm⟩

theorem step_later (s : Scene K P) (op : SceneOp) (b : Nat) (jm : DImage K P) (hb : s.images[b]? = some jm) :
    ∃ jm', (s.step W cast floating srs op).1.images[b]? = some jm' ∧ Later jm jm' := by
  cases op with
  | setImage k a => exact ⟨jm, by show (s.setImage floating k a).1.images[b]? = _; rw [setImage_images]; exact hb, later_refl jm⟩
  | convert k dst grid g =>
    show ∃ jm', (s.convert W cast floating srs k dst grid g).1.images[b]? = some jm' ∧ Later jm jm'
    rcases convert_cases W cast floating srs s k dst grid g with ⟨e, h1, h2, h3⟩ | ⟨a, im, new, files', h1, h2⟩
    · rw [h2]; exact ⟨jm, hb, later_refl jm⟩
    · rw [h2, setImage_images]
      obtain ⟨d, -, -, hi⟩ := (imageOf_ok s k a im).1 h1
      obtain ⟨jm', q1, q2⟩ := set_later s.images a b im { im with dset := none } jm hi (later_closed im) hb
      refine ⟨jm', ?_, q2⟩
      simp only []
      rw [List.getElem?_append_left (List.getElem?_eq_some_iff.mp q1).1]
      exact q1
  | load a =>
    unfold Scene.step
    simp only []
    split
    · exact ⟨jm, hb, later_refl jm⟩
    · rename_i im hi
      split
      · exact ⟨jm, hb, later_refl jm⟩
      · rename_i all hall
        exact set_later s.images a b im { im with data := some all } jm hi
          ⟨rfl, rfl, rfl, rfl, rfl, rfl, rfl, Or.inl rfl, Or.inr ⟨all, hall, rfl⟩⟩ hb
  | close a =>
    unfold Scene.step
    simp only []
    split
    · exact ⟨jm, hb, later_refl jm⟩
    · rename_i im hi
      exact set_later s.images a b im { im with dset := none } jm hi (later_closed im) hb

theorem step_dem (s : Scene K P) (op : SceneOp) (j : Nat) (h : ¬ op.On j) : (s.step W cast floating srs op).1.dems[j]? = s.dems[j]? := by
  cases op with
  | setImage k a => exact setImage_other floating s k a j (fun e => h e)
  | convert k dst grid g =>
    have hk : k ≠ j := fun e => h e
    show (s.convert W cast floating srs k dst grid g).1.dems[j]? = _
    rcases convert_cases W cast floating srs s k dst grid g with ⟨e, h1, h2, h3⟩ | ⟨a, im, new, files', h1, h2⟩
    · rw [h3]
    · rw [h2, setImage_other floating _ k _ j hk]
  | load a =>
    unfold Scene.step
    simp only []
    split
    · rfl
    · split <;> rfl
  | close a =>
    unfold Scene.step
    simp only []
    split <;> rfl

/-! ### C147 -/

/-- C147.  Whatever is done with other DEMs and with the images, a DEM keeps its elevations, its no-data value, its interpolation and its image object, and the
image object keeps the size and the georeferencing by which elevations are looked up. -/
theorem C147_other_dems (ops : List SceneOp) : ∀ (s : Scene K P) (j a : Nat) (d : DemRef K) (im : DImage K P), (∀ op ∈ ops, ¬ op.On j) →
    s.dems[j]? = some d → d.image = some a → s.images[a]? = some im →
    (s.run W cast floating srs ops).dems[j]? = some d ∧
    ∃ im', (s.run W cast floating srs ops).images[a]? = some im' ∧ Later im im' := by
  induction ops with
  | nil => intro s j a d im _ h1 _ h3; exact ⟨h1, im, h3, later_refl im⟩
  | cons op ops ih =>
    intro s j a d im hops h1 h2 h3
    have e1 := step_dem W cast floating srs s op j (hops op List.mem_cons_self)
    obtain ⟨im1, e2, e3⟩ := step_later W cast floating srs s op a im h3
    obtain ⟨q1, im', q2, q3⟩ := ih (s.step W cast floating srs op).1 j a d im1 (fun o ho => hops o (List.mem_cons_of_mem _ ho)) (e1.trans h1) h2 e2
    exact ⟨q1, im', q2, later_trans e3 q3⟩

/-- No DEM has the image number `a`. -/
def Scene.Free (s : Scene K P) (a : Nat) : Prop := ∀ (k : Nat) d, s.dems[k]? = some d → d.image ≠ some a

theorem setImage_free (s : Scene K P) (k b a : Nat) (h : s.Free a) (hb : b ≠ a) : (s.setImage floating k b).1.Free a := by
  unfold Scene.setImage
  split
  · rename_i d im hd hi
    intro j d' hj
    simp only [] at hj
    by_cases hk : k = j
    · subst hk
      have : k < s.dems.length := (List.getElem?_eq_some_iff.mp hd).1
      rw [List.getElem?_set_self this] at hj
      cases hj
      have he : ((setImageIO floating d b im).1).image = some b := by
        unfold setImageIO
        split
        · rfl
        · split <;> rfl
      rw [he]
      intro e; cases e; exact hb rfl
    · rw [List.getElem?_set_ne hk] at hj
      exact h j d' hj
  · exact h

/-- PARTIAL (an image no DEM has): it stays open with its data, whatever is done with the DEMs and with other images, as long as it is not closed or set in a
DEM. -/
theorem C147_own_image_partial (ops : List SceneOp) : ∀ (s : Scene K P) (a : Nat) (im : DImage K P), s.Free a → s.images[a]? = some im →
    (∀ op ∈ ops, ¬ op.Names a) → ∃ im', (s.run W cast floating srs ops).images[a]? = some im' ∧ Later im im' ∧ im'.dset = im.dset := by
  induction ops with
  | nil => intro s a im _ h _; exact ⟨im, h, later_refl im, rfl⟩
  | cons op ops ih =>
    intro s a im hfree him hops
    have hlt : a < s.images.length := (List.getElem?_eq_some_iff.mp him).1
    have hop := hops op List.mem_cons_self
    obtain ⟨im1, e1, e2⟩ := step_later W cast floating srs s op a im him
    have key : (s.step W cast floating srs op).1.Free a ∧ im1.dset = im.dset := by
      cases op with
      | setImage k b =>
        refine ⟨setImage_free floating s k b a hfree (fun e => hop e), ?_⟩
        change (s.setImage floating k b).1.images[a]? = some im1 at e1
        rw [setImage_images, him] at e1
        cases e1; rfl
      | convert k dst grid g =>
        change (s.convert W cast floating srs k dst grid g).1.images[a]? = some im1 at e1
        show (s.convert W cast floating srs k dst grid g).1.Free a ∧ _
        rcases convert_cases W cast floating srs s k dst grid g with ⟨e, h1, h2, h3⟩ | ⟨b, jm, new, files', h1, h2⟩
        · refine ⟨?_, ?_⟩
          · intro j d hd; rw [h3] at hd; exact hfree j d hd
          · rw [h2, him] at e1; cases e1; rfl
        · obtain ⟨d, hd, hda, hi⟩ := (imageOf_ok s k b jm).1 h1
          have hba : b ≠ a := by rintro rfl; exact hfree k d hd hda
          refine ⟨?_, ?_⟩
          · rw [h2]
            exact setImage_free floating _ k _ a hfree (by omega)
          · rw [h2, setImage_images] at e1
            simp only [] at e1
            rw [List.getElem?_append_left (by simpa using hlt), List.getElem?_set_ne hba, him] at e1
            cases e1; rfl
      | load b =>
        unfold Scene.step at e1 ⊢
        simp only [] at e1 ⊢
        split at e1
        · rw [him] at e1; cases e1; exact ⟨hfree, rfl⟩
        · rename_i jm h
          split at e1
          · rw [him] at e1; cases e1; exact ⟨hfree, rfl⟩
          · rename_i all h2
            refine ⟨hfree, ?_⟩
            simp only [] at e1
            by_cases hba : b = a
            · subst hba
              rw [List.getElem?_set_self hlt] at e1
              rw [h] at him; cases him; cases e1; rfl
            · rw [List.getElem?_set_ne hba, him] at e1; cases e1; rfl
      | close b =>
        have hba : b ≠ a := fun e => hop e
        unfold Scene.step at e1 ⊢
        simp only [] at e1 ⊢
        split at e1
        · rw [him] at e1; cases e1; exact ⟨hfree, rfl⟩
        · rename_i jm h
          refine ⟨hfree, ?_⟩
          simp only [] at e1
          rw [List.getElem?_set_ne hba, him] at e1; cases e1; rfl
    obtain ⟨im', q1, q2, q3⟩ := ih (s.step W cast floating srs op).1 a im1 key.1 e1 (fun o ho => hops o (List.mem_cons_of_mem _ ho))
    exact ⟨im', q1, later_trans e2 q2, q3.trans key.2⟩

/-- A conversion that gets as far as the new image. -/
theorem convert_ok (s : Scene K P) (k a : Nat) (d : DemRef K) (im : DImage K P) (src r : Dset K P) (dst grid : Str) (g : Bool) (hd : s.dems[k]? = some d)
    (ha : d.image = some a) (hi : s.images[a]? = some im) (hs : im.dset = some src)
    (hW : W (if g = true then ⟨srs im.proj, srs im.proj ++ " +geoidgrids=".toList ++ grid⟩ else ⟨srs im.proj ++ " +geoidgrids=".toList ++ grid, srs im.proj⟩)
      src = some r) (hr : r.nb ≠ 0) :
    ∃ new, Opened r new ∧ s.convert W cast floating srs k dst grid g = Scene.setImage floating
      { s with images := s.images.set a { im with dset := none } ++ [new], files := fun n => if n = dst then some r else s.files n } k s.images.length := by
  obtain ⟨new, h1, h2⟩ := openName_ok (fun n => if n = dst then some r else s.files n) dst r (by simp) hr
  have hW' : W (if g = true then geoidOps (srs im.proj) grid else ellipsoidOps (srs im.proj) grid) src = some r := by
    rw [← hW]; cases g <;> rfl
  refine ⟨new, h2, ?_⟩
  unfold Scene.convert
  rw [(imageOf_ok s k a im).2 ⟨d, hd, ha, hi⟩]
  simp only []
  rw [warpSource_file cast im src hs]
  simp only []
  rw [hW']
  unfold warped
  simp only []
  rw [h1]

/-- FALSE: "converting a DEM's heights leaves the image it was made from usable, and other DEMs of that image".  After the conversion of any DEM the image it had
can no longer be read; another DEM that had the same image can no longer be converted (unless the image's data had been loaded), and no DEM can be made from it. -/
theorem C147_shared_image_false (s : Scene K P) (k j a : Nat) (d e : DemRef K) (im : DImage K P) (src r : Dset K P) (dst grid : Str) (g : Bool)
    (hkj : k ≠ j) (hd : s.dems[k]? = some d) (he : s.dems[j]? = some e) (ha : d.image = some a) (he' : e.image = some a) (hi : s.images[a]? = some im)
    (hs : im.dset = some src) (hdata : im.data = none) (hb : 0 < im.nb)
    (hW : W (if g = true then ⟨srs im.proj, srs im.proj ++ " +geoidgrids=".toList ++ grid⟩ else ⟨srs im.proj ++ " +geoidgrids=".toList ++ grid, srs im.proj⟩)
      src = some r) (hr : r.nb ≠ 0) :
    let s' := (s.convert W cast floating srs k dst grid g).1
    (∃ im', s'.images[a]? = some im' ∧ im'.readAll = .error .attributeError) ∧
    (∀ dst' grid' g', (s'.convert W cast floating srs j dst' grid' g').2 = .error .attributeError) ∧
    ∀ l f, s'.dems[l]? = some f → (s'.setImage floating l a).2 = .error .attributeError := by
  intro s'
  obtain ⟨new, h1, h2⟩ := convert_ok W cast floating srs s k a d im src r dst grid g hd ha hi hs hW hr
  have hlt : a < s.images.length := (List.getElem?_eq_some_iff.mp hi).1
  have himg : s'.images[a]? = some { im with dset := none } := by
    show (s.convert W cast floating srs k dst grid g).1.images[a]? = _
    rw [h2, setImage_images]
    simp only []
    rw [List.getElem?_append_left (by simpa using hlt), List.getElem?_set_self hlt]
  have hread : ({ im with dset := none } : DImage K P).readAll = .error .attributeError := readAll_closed _ rfl hb
  have hj : s'.dems[j]? = some e := by
    show (s.convert W cast floating srs k dst grid g).1.dems[j]? = _
    rw [h2, setImage_other floating _ k _ j hkj]
    exact he
  refine ⟨⟨_, himg, hread⟩, ?_, ?_⟩
  · intro dst' grid' g'
    have hw : warpSource cast ({ im with dset := none } : DImage K P) = .error .attributeError := by
      unfold warpSource
      simp only []
      unfold DImage.write
      have hread := hread
      simp only [hdata] at hread ⊢
      rw [hread]
      rfl
    unfold Scene.convert
    rw [(imageOf_ok s' j a _).2 ⟨e, hj, he', himg⟩]
    simp only []
    rw [hw]
  · intro l f hl
    unfold Scene.setImage
    simp only [hl, himg]
    unfold setImageIO
    rw [hread]

/-! ### C148 -/

/-- C148: a height conversion that raises before the new raster is opened leaves every DEM and every image as it was. -/
theorem C148_conversion_partial (s : Scene K P) (k a : Nat) (d : DemRef K) (im : DImage K P) (dst grid : Str) (g : Bool) (hd : s.dems[k]? = some d)
    (ha : d.image = some a) (hi : s.images[a]? = some im) (hW : ∀ ops src, W ops src = none) (hf : s.files dst = none) :
    ∃ e, (s.convert W cast floating srs k dst grid g).2 = .error e ∧ (s.convert W cast floating srs k dst grid g).1.images = s.images ∧
      (s.convert W cast floating srs k dst grid g).1.dems = s.dems ∧ (s.convert W cast floating srs k dst grid g).1.files = s.files := by
  unfold Scene.convert
  rw [(imageOf_ok s k a im).2 ⟨d, hd, ha, hi⟩]
  simp only []
  cases h2 : warpSource cast im with
  | error e => exact ⟨e, rfl, rfl, rfl, rfl⟩
  | ok src =>
    simp only [hW]
    have ho : openName (warped s.files dst none) dst = .error .attributeError := by
      unfold warped openName
      simp only [hf]
    rw [ho]
    exact ⟨_, rfl, rfl, rfl, rfl⟩

/-- FALSE: "a `set_geotiff_image` that raises leaves the DEM as it was".  Given an image that cannot be read from disk (closed, or made from an array) it raises
AttributeError, and the DEM is left with the old elevations and the new image, by whose georeferencing they are looked up from then on. -/
theorem C148_unreadable_image_false (s : Scene K P) (k a : Nat) (d : DemRef K) (im : DImage K P) (hd : s.dems[k]? = some d) (hi : s.images[a]? = some im)
    (hs : im.dset = none) (hb : 0 < im.nb) :
    (s.setImage floating k a).2 = .error .attributeError ∧ (s.setImage floating k a).1.dems[k]? = some ⟨d.state, some a⟩ := by
  have hlt : k < s.dems.length := (List.getElem?_eq_some_iff.mp hd).1
  have hio : setImageIO floating d a im = (⟨d.state, some a⟩, .error .attributeError) := by
    unfold setImageIO
    rw [readAll_closed im hs hb]
  unfold Scene.setImage
  simp only [hd, hi, hio]
  exact ⟨trivial, by rw [List.getElem?_set_self hlt]⟩

/-- C148: a DEM that never got an image cannot be converted: TypeError, and nothing has changed. -/
theorem C148_no_image (s : Scene K P) (k : Nat) (d : DemRef K) (dst grid : Str) (g : Bool) (hd : s.dems[k]? = some d) (ha : d.image = none) :
    s.convert W cast floating srs k dst grid g = (s, .error .typeError) := by
  unfold Scene.convert Scene.imageOf
  simp only [hd, ha]

/-- FALSE: "a DEM never reports its no-data value as an elevation" after an error.  A DEM with a no-data value in force that is given a raster of integers raises
ValueError, and is left with that raster, its no-data cells unmasked. -/
theorem C148_integer_image_false (s : Scene K P) (k a : Nat) (d : DemRef K) (im : DImage K P) (c : A3 K) (v : K) (hd : s.dems[k]? = some d)
    (hi : s.images[a]? = some im) (hr : im.readAll = .ok c) (hc : c.nb = 1 ∧ 2 ≤ c.ny ∧ 2 ≤ c.nx) (hn : d.state.nodata = some v)
    (hf : floating im.dtype = false) :
    (s.setImage floating k a).2 = .error .valueError ∧
    ∃ d' data, (s.setImage floating k a).1.dems[k]? = some d' ∧ d'.image = some a ∧ d'.state.nodata = some v ∧ d'.state.data = some data ∧
      ∀ y x, data.px y x = some (c.px y x 0) := by
  have hlt : k < s.dems.length := (List.getElem?_eq_some_iff.mp hd).1
  have hio : setImageIO floating d a im =
      (⟨{ d.state with data := some ⟨c.ny, c.nx, fun y x => some (c.px y x 0)⟩, floating := floating im.dtype, nodata := some v }, some a⟩, .error .valueError) := by
    unfold setImageIO
    rw [hr]
    simp only []
    rw [if_pos ⟨hc.1, by omega, by omega⟩]
    unfold removeNodataIO removeNodata
    simp only [hn, hf]
    rfl
  unfold Scene.setImage
  simp only [hd, hi, hio]
  refine ⟨trivial, _, _, by rw [List.getElem?_set_self hlt], rfl, rfl, rfl, fun _ _ => rfl⟩

/-- C148: a `set_geotiff_image` that does not raise has its effect: the DEM has the image and its elevations, with NaN in exactly the cells holding the no-data
value in force, which is kept, as is the interpolation. -/
theorem C148_set (s : Scene K P) (k a : Nat) (d : DemRef K) (im : DImage K P) (c : A3 K) (hd : s.dems[k]? = some d)
    (hi : s.images[a]? = some im) (hr : im.readAll = .ok c) (hc : c.nb = 1 ∧ 2 ≤ c.ny ∧ 2 ≤ c.nx) (hf : floating im.dtype = true ∨ d.state.nodata = none) :
    (s.setImage floating k a).2 = .ok () ∧
    ∃ d' data, (s.setImage floating k a).1.dems[k]? = some d' ∧ d'.image = some a ∧ d'.state.nodata = d.state.nodata ∧ d'.state.method = d.state.method ∧
      d'.state.data = some data ∧ IsMasked ⟨c.ny, c.nx, fun y x => c.px y x 0⟩ (fun v => d.state.nodata = some v) data := by
  have hlt : k < s.dems.length := (List.getElem?_eq_some_iff.mp hd).1
  have hio : ∃ st data, setImageIO floating d a im = (⟨st, some a⟩, .ok ()) ∧ st.nodata = d.state.nodata ∧ st.method = d.state.method ∧ st.data = some data ∧
      IsMasked ⟨c.ny, c.nx, fun y x => c.px y x 0⟩ (fun v => d.state.nodata = some v) data := by
    unfold setImageIO
    rw [hr]
    simp only []
    rw [if_pos ⟨hc.1, by omega, by omega⟩]
    unfold removeNodataIO removeNodata
    cases hn : d.state.nodata with
    | none =>
      refine ⟨_, _, rfl, rfl, rfl, rfl, ⟨rfl, rfl, fun y x _ _ => ⟨fun h => ?_, fun _ => rfl⟩⟩⟩
      cases h
    | some v =>
      have hf : floating im.dtype = true := by rcases hf with h | h; exact h; rw [hn] at h; cases h
      simp only [hf, if_true]
      refine ⟨_, _, rfl, rfl, rfl, rfl, ⟨rfl, rfl, fun y x _ _ => ⟨fun h => ?_, fun h => ?_⟩⟩⟩
      · simp only [Option.some.injEq] at h ⊢
        rw [if_pos h.symm]
      · simp only [Option.some.injEq] at h ⊢
        rw [if_neg (fun e => h e.symm)]
  obtain ⟨st, data, e1, e2, e3, e4, e5⟩ := hio
  unfold Scene.setImage
  simp only [hd, hi, e1]
  exact ⟨trivial, _, _, by rw [List.getElem?_set_self hlt], rfl, e2, e3, e4, e5⟩

end

/-- Two DEMs on one image of a float raster: the hypotheses of C147 are met. -/
example : ∃ (s : Scene ℚ Unit) (im : DImage ℚ Unit) (src : Dset ℚ Unit), s.images[0]? = some im ∧ im.dset = some src ∧ im.data = none ∧ 0 < im.nb ∧
    s.dems.length = 2 ∧ (∀ d ∈ s.dems, d.image = some 0) ∧ (s.convert (fun _ d => some d) id (fun _ => true) (fun _ => []) 0 [] [] true).2 = .ok () :=
  ⟨⟨[⟨none, 2, 2, 1, 6, none, (0, 1, 0, 0, 0, -1), (), some ⟨2, 2, 1, 6, fun _ _ _ => 5, (0, 1, 0, 0, 0, -1), (), none⟩⟩],
    [⟨demInit, some 0⟩, ⟨demInit, some 0⟩], fun _ => none⟩, _, _, rfl, rfl, rfl, by decide, rfl, by simp, rfl⟩

end Verif.Warp
