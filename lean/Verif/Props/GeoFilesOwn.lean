import Verif.Props.GeoFiles

/-! C176 end to end, C177 (an image and its own file) and C178 (a write that fails). -/

set_option linter.unusedSectionVars false

namespace Verif.GeoFiles
open Verif Verif.Images

variable {K P : Type} [Field K] [LinearOrder K] [IsStrictOrderedRing K] [FloorRing K] [Inhabited K]

theorem Copies.run_append (cast : K → K) (a : List (Op K P)) : ∀ (t : Copies K P) (b : List (Op K P)),
    Copies.run cast t (a ++ b) = ((Copies.run cast (Copies.run cast t a).1 b).1, (Copies.run cast t a).2 ++ (Copies.run cast (Copies.run cast t a).1 b).2) := by
  induction a with
  | nil => intro t b; rfl
  | cons op ops ih =>
    intro t b
    rw [List.cons_append]
    show ((Copies.run cast (t.step cast op).1 (ops ++ b)).1, (t.step cast op).2 :: (Copies.run cast (t.step cast op).1 (ops ++ b)).2) = _
    rw [ih]
    rfl

/-- The calls that give a number another image object, other data or no dataset. -/
def Rebinds (i : Nat) : Op K P → Prop
  | .opens k _ => k = i
  | .make k _ _ => k = i
  | .setData k _ => k = i
  | .close k => k = i
  | _ => False

theorem readAll_data (im : DImage K P) (a : Option (A3 K)) : ({ im with data := a } : DImage K P).readAll = im.readAll := by
  have hb : ∀ n s, ({ im with data := a } : DImage K P).readBands s n = im.readBands s n := by
    intro n
    induction n with
    | zero => intro s; rfl
    | succ n ih =>
      intro s
      unfold DImage.readBands
      rw [ih]
      rfl
  unfold DImage.readAll
  rw [hb]

/-- Image `i` is `im0`, not loaded or loaded with its own pixels `c0`. -/
def Holds (t : Copies K P) (i : Nat) (im0 : DImage K P) (c0 : A3 K) : Prop :=
  t.imgs i = some (im0, none) ∨ t.imgs i = some ({ im0 with data := some c0 }, none)

theorem Holds.other {t t' : Copies K P} {i : Nat} {im0 : DImage K P} {c0 : A3 K} (h : Holds t i im0 c0) (e : t'.imgs i = t.imgs i) : Holds t' i im0 c0 := by
  rcases h with h | h
  · exact .inl (e.trans h)
  · exact .inr (e.trans h)

theorem holds_step (cast : K → K) {t : Copies K P} {i : Nat} {im0 : DImage K P} {c0 : A3 K} (h0 : im0.data = none) (hr : im0.readAll = .ok c0)
    (hpos : ¬ (im0.nx = 0 ∨ im0.ny = 0 ∨ im0.nb = 0)) (h : Holds t i im0 c0) (op : Op K P) (hop : ¬ Rebinds i op) : Holds (t.step cast op).1 i im0 c0 := by
  have other : ∀ k g, i ≠ k → (t.bind k g).imgs i = t.imgs i := by
    intro k g hk
    simp [Copies.bind, hk]
  have here : ∀ k g, i = k → (t.bind k g).imgs i = some g := by
    intro k g hk
    simp [Copies.bind, hk]
  cases op with
  | opens k p =>
    have hk : i ≠ k := fun e => hop e.symm
    simp only [Copies.step]
    cases t.files p with
    | none => exact h
    | some f =>
      simp only []
      cases openImage f.d with
      | error e => exact h
      | ok im => exact h.other (other k _ hk)
  | make k im sp => exact h.other (other k _ (fun e => hop e.symm))
  | setData k a =>
    simp only [Copies.step]
    cases t.imgs k with
    | none => exact h
    | some g => exact h.other (other k _ (fun e => hop e.symm))
  | load k =>
    simp only [Copies.step]
    by_cases hk : i = k
    · subst hk
      rcases h with h | h
      · simp only [h, hr]
        exact .inr (here i _ rfl)
      · simp only [h, readAll_data, hr]
        exact .inr (here i _ rfl)
    · cases t.imgs k with
      | none => exact h
      | some g =>
        simp only []
        cases g.1.readAll with
        | error e => exact h
        | ok c => exact h.other (other k _ hk)
  | readBand k b => simp only [Copies.step]; cases t.imgs k <;> exact h
  | readAll k => simp only [Copies.step]; cases t.imgs k <;> exact h
  | getBand k b => simp only [Copies.step]; cases t.imgs k <;> exact h
  | close k =>
    simp only [Copies.step]
    cases t.imgs k with
    | none => exact h
    | some g => exact h.other (other k _ (fun e => hop e.symm))
  | write k p =>
    simp only [Copies.step]
    by_cases hk : i = k
    · subst hk
      rcases h with h | h
      · simp only [h, if_neg hpos, h0, hr]
        refine .inr ?_
        simp [Copies.bind]
      · simp only [h, if_neg hpos]
        refine .inr ?_
        simp [Copies.bind]
    · cases t.imgs k with
      | none => exact h
      | some g =>
        simp only []
        split
        · exact h
        · split
          · exact h
          · refine h.other ?_
            simp [Copies.bind, Copies.put, hk]

theorem holds_run (cast : K → K) {i : Nat} {im0 : DImage K P} {c0 : A3 K} (h0 : im0.data = none) (hr : im0.readAll = .ok c0)
    (hpos : ¬ (im0.nx = 0 ∨ im0.ny = 0 ∨ im0.nb = 0)) (ops : List (Op K P)) : ∀ {t : Copies K P}, Holds t i im0 c0 → (∀ op ∈ ops, ¬ Rebinds i op) →
    Holds (Copies.run cast t ops).1 i im0 c0 := by
  induction ops with
  | nil => intro t h _; exact h
  | cons op ops ih =>
    intro t h hm
    exact ih (holds_step cast h0 hr hpos h op (hm op List.mem_cons_self)) (fun o ho => hm o (List.mem_cons_of_mem _ ho))

theorem file_step (cast : K → K) (t : Copies K P) (q : Str) (op : Op K P) (hop : ∀ k, op ≠ .write k q) : (t.step cast op).1.files q = t.files q := by
  cases op with
  | opens k p =>
    simp only [Copies.step]
    cases t.files p with
    | none => rfl
    | some f =>
      simp only []
      cases openImage f.d <;> rfl
  | make k im sp => rfl
  | setData k a => simp only [Copies.step]; cases t.imgs k <;> rfl
  | load k =>
    simp only [Copies.step]
    cases t.imgs k with
    | none => rfl
    | some g =>
      simp only []
      cases g.1.readAll <;> rfl
  | readBand k b => simp only [Copies.step]; cases t.imgs k <;> rfl
  | readAll k => simp only [Copies.step]; cases t.imgs k <;> rfl
  | getBand k b => simp only [Copies.step]; cases t.imgs k <;> rfl
  | close k => simp only [Copies.step]; cases t.imgs k <;> rfl
  | write k p =>
    have hq : q ≠ p := by rintro rfl; exact hop k rfl
    simp only [Copies.step]
    cases t.imgs k with
    | none => rfl
    | some g =>
      simp only []
      split
      · rfl
      · split
        · simp [Copies.put, hq]
        · simp [Copies.put, Copies.bind, hq]

theorem file_run (cast : K → K) (q : Str) (ops : List (Op K P)) : ∀ (t : Copies K P), (∀ k, Op.write k q ∉ ops) → (Copies.run cast t ops).1.files q = t.files q := by
  induction ops with
  | nil => intro t _; rfl
  | cons op ops ih =>
    intro t hm
    show (Copies.run cast (t.step cast op).1 ops).1.files q = _
    rw [ih _ (fun k hk => hm k (List.mem_cons_of_mem _ hk)), file_step cast t q op]
    rintro k rfl
    exact hm k List.mem_cons_self

theorem writeLoop_ok (cast : K → K) (im : DImage K P) (n : Nat) : ∀ s (d d' : Dset K P), im.writeBands cast s n d = .ok d' → writeLoop cast im none s n d = (d', .ok ()) := by
  induction n with
  | zero =>
    intro s d d' h
    simp only [DImage.writeBands, Except.ok.injEq] at h
    rw [← h]; rfl
  | succ n ih =>
    intro s d d' h
    unfold DImage.writeBands at h
    obtain ⟨a, h1, h2⟩ := bind_ok h
    obtain ⟨d1, h3, h4⟩ := bind_ok h2
    unfold writeLoop
    rw [h1]
    simp only [h3]
    exact ih _ _ _ h4

/-- What is written of an image loaded with pixels that fit: a file that opens as an image with those pixels. -/
theorem written (cast : K → K) (im : DImage K P) (c : A3 K) (hc : im.data = some c) (h1 : c.ny = im.ny) (h2 : c.nx = im.nx) (h3 : c.nb = im.nb) (hnb : 0 < im.nb)
    (hv : ∀ y x z, y < c.ny → x < c.nx → z < c.nb → cast (c.px y x z) = c.px y x z) :
    ∃ d im2 c2, writeLoop cast im none 0 im.nb (blank im) = (d, .ok ()) ∧ openImage d = .ok im2 ∧ im2.readAll = .ok c2 ∧ c2.Same c := by
  obtain ⟨d, im2, c2, e1, e2, e3, e4, _⟩ := C79_roundtrip_partial cast im c hc h1 h2 h3 hnb hv
  refine ⟨d, im2, c2, ?_, e2, e3, e4⟩
  unfold DImage.write at e1
  simp only [hc, ok_bind] at e1
  obtain ⟨d', h4, h5⟩ := bind_ok e1
  cases h5
  exact writeLoop_ok cast im _ _ _ _ h4

/-- C176 end to end: a program opens a file, does anything that keeps the image object, writes the image under some name, does anything that leaves that file alone, opens
it and reads it.  If all its disk reads are safe, it reads the pixels the first file had when it was opened (in values of its data type). -/
theorem C176_copy (cast : K → K) (stale : Stale K P) (files : Str → Option (GFile K P)) (p q : Str) (f : GFile K P) (hf : files p = some f)
    (hpos : 0 < f.d.nx ∧ 0 < f.d.ny ∧ 0 < f.d.nb) (hsp : f.special = none)
    (hv : ∀ y x z, y < f.d.ny → x < f.d.nx → z < f.d.nb → cast (f.d.px y x z) = f.d.px y x z) (i j : Nat) (mid later : List (Op K P))
    (hmid : ∀ op ∈ mid, ¬ Rebinds i op) (hlater : ∀ k, Op.write k q ∉ later)
    (hsafe : SafeRun cast stale (St.start files) ([.opens i p] ++ mid ++ [.write i q] ++ later ++ [.opens j q, .readAll j])) :
    ∃ c, (run cast stale (St.start files) ([.opens i p] ++ mid ++ [.write i q] ++ later ++ [.opens j q, .readAll j])).2.getLast? = some (.ok (.cube c)) ∧
      c.Same ⟨f.d.ny, f.d.nx, f.d.nb, f.d.px⟩ := by
  rw [(C176_copies cast stale _ _ _ (agree_start files) hsafe).1]
  have ho : openImage f.d = .ok ⟨none, f.d.nx, f.d.ny, f.d.nb, f.d.dtype, f.d.nodata, f.d.geot, f.d.proj, some f.d⟩ := by
    unfold openImage; rw [if_neg (by omega)]
  generalize him : (⟨none, f.d.nx, f.d.ny, f.d.nb, f.d.dtype, f.d.nodata, f.d.geot, f.d.proj, some f.d⟩ : DImage K P) = im0 at ho
  have d0 : im0.data = none := by rw [← him]
  have d1 : im0.nx = f.d.nx := by rw [← him]
  have d2 : im0.ny = f.d.ny := by rw [← him]
  have d3 : im0.nb = f.d.nb := by rw [← him]
  obtain ⟨c0, r1, r2⟩ := readAll_ok im0 f.d (by rw [← him]) d3 hpos.2.2
  have hz : ¬ (im0.nx = 0 ∨ im0.ny = 0 ∨ im0.nb = 0) := by omega
  -- after opening
  have e1 : Holds (Copies.run cast (Copies.start files) [.opens i p]).1 i im0 c0 := by
    refine .inl ?_
    simp only [Copies.run, Copies.step, Copies.start, hf, ho, hsp]
    simp [Copies.bind]
  -- before writing
  have e2 := holds_run cast d0 r1 hz mid e1 hmid
  generalize ht : (Copies.run cast (Copies.run cast (Copies.start files) [.opens i p]).1 mid).1 = t at e2
  -- the file written
  obtain ⟨s1, s2, s3, s4⟩ := r2
  simp only [] at s1 s2 s3 s4
  obtain ⟨d, im2, c2, w1, w2, w3, w4⟩ := written cast { im0 with data := some c0 } c0 rfl (s1.trans d2.symm) (s2.trans d1.symm) (s3.trans d3.symm) (by show 0 < im0.nb; omega)
    (fun y x z hy hx hz => by
      rw [s4 y x z hy hx hz]
      exact hv y x z (by omega) (by omega) (by omega))
  have e3 : (Copies.run cast t [.write i q]).1.files q = some ⟨d, none⟩ := by
    simp only [Copies.run, Copies.step]
    have wb : writeLoop cast { im0 with data := some c0 } none 0 im0.nb (blank im0) = (d, .ok ()) := w1
    rcases e2 with e2 | e2
    · simp only [e2, if_neg hz, d0, r1, wb]
      simp [Copies.bind, Copies.put]
    · simp only [e2, if_neg hz, wb]
      have : blank ({ im0 with data := some c0 } : DImage K P) = blank im0 := rfl
      rw [this, wb]
      simp [Copies.bind, Copies.put]
  have e4 := (file_run cast q later (Copies.run cast t [.write i q]).1 hlater).trans e3
  rw [Copies.run_append, Copies.run_append, Copies.run_append, Copies.run_append]
  simp only []
  rw [ht]
  generalize (Copies.run cast (Copies.run cast t [.write i q]).1 later).1 = t2 at e4
  refine ⟨c2, ?_, ?_⟩
  · have : (Copies.run cast t2 [.opens j q, .readAll j]).2 = [.ok .unit, .ok (.cube c2)] := by
      simp only [Copies.run, Copies.step, e4, w2]
      simp [Copies.bind, w3, Except.map]
    rw [this]
    simp
  · obtain ⟨u1, u2, u3, u4⟩ := w4
    refine ⟨u1.trans s1, u2.trans s2, u3.trans s3, fun y x z hy hx hz => ?_⟩
    rw [u4 y x z hy hx hz]
    exact s4 y x z (by omega) (by omega) (by omega)

/-! ### C177: an image and its own file -/

/-- C177 for an image that was loaded: it can be written to its own file, which then has the same pixels. -/
theorem C177_loaded_partial (cast : K → K) (stale : Stale K P) (files : Str → Option (GFile K P)) (p : Str) (f : GFile K P) (hf : files p = some f)
    (hpos : 0 < f.d.nx ∧ 0 < f.d.ny ∧ 0 < f.d.nb) (hsp : f.special = none)
    (hv : ∀ y x z, y < f.d.ny → x < f.d.nx → z < f.d.nb → cast (f.d.px y x z) = f.d.px y x z) (i j : Nat) :
    ∃ c, (run cast stale (St.start files) [.opens i p, .load i, .write i p, .opens j p, .readAll j]).2.getLast? = some (.ok (.cube c)) ∧
      c.Same ⟨f.d.ny, f.d.nx, f.d.nb, f.d.px⟩ := by
  refine C176_copy cast stale files p p f hf hpos hsp hv i j [.load i] [] ?_ ?_ ?_
  · intro op hop
    rw [List.mem_singleton] at hop
    subst hop
    exact id
  · intro k hk
    cases hk
  · -- the image opened
    have hs0 : (St.start files).fs.files p = some (0, f) := by simp [St.start, hf]
    let g0 : GImage K P := ⟨⟨none, f.d.nx, f.d.ny, f.d.nb, f.d.dtype, f.d.nodata, f.d.geot, f.d.proj, none⟩, f.special, some ⟨p, 0⟩⟩
    let im0 : DImage K P := ⟨none, f.d.nx, f.d.ny, f.d.nb, f.d.dtype, f.d.nodata, f.d.geot, f.d.proj, some f.d⟩
    have o1 : (step cast stale (St.start files) (.opens i p)).1 = (St.start files).bind i g0 := by
      simp only [step, openFile, hs0]
      rw [if_neg (by omega)]
    have hsame : SameImage ((St.start files).bind i g0).fs g0 (im0, f.special) := by
      refine ⟨rfl, rfl, (fun e => by cases e), fun k hk => ?_⟩
      cases hk
      refine ⟨Nat.one_pos, f.d, rfl, fun f' e => ?_⟩
      have : some (0, f) = some (0, f') := hs0.symm.trans e
      cases this
      rfl
    have hu : ∀ k, g0.handle = some k → ∃ f, ((St.start files).bind i g0).fs.files k.path = some (k.gen, f) := by
      intro k hk
      cases hk
      exact ⟨f, hs0⟩
    obtain ⟨c0, r1, r2⟩ := readAll_ok im0 f.d rfl rfl hpos.2.2
    have r3 : readAll stale ((St.start files).bind i g0).fs g0 = .ok c0 := (readAll_same hsame hu).trans r1
    -- loaded
    let g1 : GImage K P := { g0 with im := { g0.im with data := some c0 } }
    have b0 : ((St.start files).bind i g0).imgs i = some g0 := by simp [St.bind]
    have o2 : (step cast stale ((St.start files).bind i g0) (.load i)).1 = ((St.start files).bind i g0).bind i g1 := by
      simp only [step, b0, r3]
      rfl
    have b1 : (((St.start files).bind i g0).bind i g1).imgs i = some g1 := by simp [St.bind]
    -- written
    obtain ⟨s1, s2, s3, s4⟩ := r2
    simp only [] at s1 s2 s3 s4
    obtain ⟨d, im2, c2, w1, w2, w3, w4⟩ := written cast g1.im c0 rfl s1 s2 s3 hpos.2.2
      (fun y x z hy hx hz => by
        rw [s4 y x z hy hx hz]
        exact hv y x z (by omega) (by omega) (by omega))
    have hd : d.nb ≠ 0 := by
      intro e
      unfold openImage at w2
      rw [if_pos e] at w2
      cases w2
    have hz : ¬ (g1.im.nx = 0 ∨ g1.im.ny = 0 ∨ g1.im.nb = 0) := by
      show ¬ (f.d.nx = 0 ∨ f.d.ny = 0 ∨ f.d.nb = 0)
      omega
    have hsp1 : g1.special = none := hsp
    have o3 : (step cast stale (((St.start files).bind i g0).bind i g1) (.write i p)).1.fs.files p = some (1, ⟨d, none⟩) := by
      simp only [step, b1]
      unfold write
      rw [if_neg hz, hsp1]
      have : g1.im.data = some c0 := rfl
      simp only [this, w1]
      simp [FS.fill, St.bind, St.start]
    refine ⟨trivial, ?_, ?_, trivial, ?_, trivial⟩
    · rw [o1]
      intro g k hg hk
      rw [b0] at hg
      cases hg
      exact hu k hk
    · rw [o1, o2]
      intro g hg hdata
      rw [b1] at hg
      cases hg
      cases hdata
    · rw [o1, o2]
      generalize (step cast stale (((St.start files).bind i g0).bind i g1) (.write i p)).1 = s3' at o3
      intro g k hg hk
      simp only [step, openFile, o3] at hg ⊢
      rw [if_neg hd] at hg ⊢
      simp only [St.bind] at hg ⊢
      rw [if_pos trivial] at hg
      cases hg
      cases hk
      exact ⟨_, o3⟩

/-- C177 is false: for every behaviour of GDAL on a file that was emptied under an open dataset, writing an image that was not loaded to its own file gives a result that does
not depend on the pixels the file had. -/
theorem C177_pixels_lost_false (cast : K → K) (stale : Stale K P) (fs fs' : FS K P) (p : Str) (gen : Nat) (f f' : GFile K P) (hf : fs.files p = some (gen, f))
    (hf' : fs'.files p = some (gen, f')) (hn : fs'.next = fs.next) (hpos : 0 < f.d.nx ∧ 0 < f.d.ny ∧ 0 < f.d.nb) (hsame : f' = { f with d := { f.d with px := f'.d.px } }) :
    ∃ g, openFile fs p = .ok g ∧ openFile fs' p = .ok g ∧ (write cast stale fs' g p).1.files p = (write cast stale fs g p).1.files p ∧
      (write cast stale fs' g p).2 = (write cast stale fs g p).2 := by
  refine ⟨⟨⟨none, f.d.nx, f.d.ny, f.d.nb, f.d.dtype, f.d.nodata, f.d.geot, f.d.proj, none⟩, f.special, some ⟨p, gen⟩⟩, ?_, ?_, ?_⟩
  · unfold openFile
    simp only [hf]
    rw [if_neg (by omega)]
  · unfold openFile
    simp only [hf']
    rw [hsame]
    simp only []
    rw [if_neg (by omega)]
  · generalize hg : (⟨⟨none, f.d.nx, f.d.ny, f.d.nb, f.d.dtype, f.d.nodata, f.d.geot, f.d.proj, none⟩, f.special, some ⟨p, gen⟩⟩ : GImage K P) = g
    have hh : g.handle = some ⟨p, gen⟩ := by rw [← hg]
    have hd : g.im.data = none := by rw [← hg]
    have hb : ∀ n s, readBands stale (fs'.create p (blank g.im)) g s n = readBands stale (fs.create p (blank g.im)) g s n := by
      intro n
      induction n with
      | zero => intro s; rfl
      | succ n ih =>
        intro s
        unfold readBands
        rw [ih]
        have : readBand stale (fs'.create p (blank g.im)) g s = readBand stale (fs.create p (blank g.im)) g s := by
          unfold readBand
          simp only [hh, FS.create, if_true, hn]
        rw [this]
    have hr : readAll stale (fs'.create p (blank g.im)) g = readAll stale (fs.create p (blank g.im)) g := by
      unfold readAll
      rw [hb]
    unfold write
    split
    · rename_i hz
      rw [← hg] at hz
      simp only [] at hz
      omega
    · simp only [hd, hr, hn]
      cases readAll stale (fs.create p (blank g.im)) g with
      | error e => exact ⟨by simp [FS.create, hn], rfl⟩
      | ok c => exact ⟨by simp [FS.fill], rfl⟩

/-- C177 is false, in terms of programs: whatever GDAL does, there is a file which opening and writing back (without loading) does not preserve. -/
theorem C177_false (stale : Stale K Unit) (p : Str) : ∃ (files : Str → Option (GFile K Unit)) (f : GFile K Unit), files p = some f ∧ f.special = none ∧
    0 < f.d.nx ∧ 0 < f.d.ny ∧ 0 < f.d.nb ∧ ¬ ∃ c, (run id stale (St.start files) [.opens 0 p, .write 0 p, .opens 1 p, .readAll 1]).2.getLast? = some (.ok (.cube c)) ∧
      c.Same ⟨f.d.ny, f.d.nx, f.d.nb, f.d.px⟩ := by
  let f : K → GFile K Unit := fun v => ⟨⟨1, 1, 1, 0, fun _ _ _ => v, (0, 0, 0, 0, 0, 0), (), none⟩, none⟩
  let files : K → Str → Option (GFile K Unit) := fun v q => if q = p then some (f v) else none
  let ops : List (Op K Unit) := [.opens 0 p, .write 0 p, .opens 1 p, .readAll 1]
  have same : (run id stale (St.start (files 0)) ops).2 = (run id stale (St.start (files 1)) ops).2 := by
    have hf : ∀ v, (St.start (files v)).fs.files p = some (0, f v) := by intro v; simp [St.start, files]
    obtain ⟨g, o1, o2, o3, o4⟩ := C177_pixels_lost_false id stale (St.start (files 0)).fs (St.start (files 1)).fs p 0 (f 0) (f 1) (hf 0) (hf 1) rfl ⟨Nat.one_pos, Nat.one_pos, Nat.one_pos⟩ rfl
    have st : ∀ v, openFile (St.start (files v)).fs p = .ok g → (step id stale (St.start (files v)) (.opens 0 p)).1 = (St.start (files v)).bind 0 g ∧
        (step id stale (St.start (files v)) (.opens 0 p)).2 = .ok .unit := by
      intro v hv
      simp only [step, hv]
      exact ⟨trivial, trivial⟩
    have sw : ∀ v, (step id stale ((St.start (files v)).bind 0 g) (.write 0 p)).1 = (({ (St.start (files v)).bind 0 g with fs := (write id stale (St.start (files v)).fs g p).1 } : St K Unit).bind 0
        (write id stale (St.start (files v)).fs g p).2.1) ∧ (step id stale ((St.start (files v)).bind 0 g) (.write 0 p)).2 = (write id stale (St.start (files v)).fs g p).2.2.map (fun _ => Out.unit) := by
      intro v
      simp only [step, St.bind, if_true]
      exact ⟨trivial, trivial⟩
    have hfs : (write id stale (St.start (files 1)).fs g p).1 = (write id stale (St.start (files 0)).fs g p).1 := by
      have hfiles : (write id stale (St.start (files 1)).fs g p).1.files = (write id stale (St.start (files 0)).fs g p).1.files := by
        funext q
        by_cases hq : q = p
        · rw [hq, o3]
        · rw [(write_files id stale _ g p q hq).1, (write_files id stale _ g p q hq).1]
          simp [St.start, files, hq]
      have hnext : ∀ v, (write id stale (St.start (files v)).fs g p).1.next = (write id stale (St.start (files 0)).fs g p).1.next := by
        intro v
        have hz : ∀ w, openFile (St.start (files w)).fs p = .ok g → ¬ (g.im.nx = 0 ∨ g.im.ny = 0 ∨ g.im.nb = 0) := by
          intro w e
          simp only [openFile, hf w] at e
          rw [if_neg (by simp [f])] at e
          cases e
          simp [f]
        have n1 : ∀ w, (write id stale (St.start (files w)).fs g p).1.next = 2 := by
          intro w
          unfold write
          rw [if_neg (hz 0 o1)]
          simp only []
          split
          · rfl
          · split <;> rfl
        rw [n1, n1]
      have h1 := hnext 1
      revert hfiles h1
      generalize (write id stale (St.start (files 1)).fs g p).1 = a
      generalize (write id stale (St.start (files 0)).fs g p).1 = b
      intro h1 h2
      cases a; cases b
      simp only at h1 h2
      rw [h1, h2]
    have hst : (step id stale ((St.start (files 1)).bind 0 g) (.write 0 p)).1 = (step id stale ((St.start (files 0)).bind 0 g) (.write 0 p)).1 := by
      rw [(sw 1).1, (sw 0).1, hfs, o4]
      rfl
    simp only [ops, run, (st 0 o1).1, (st 0 o1).2, (st 1 o2).1, (st 1 o2).2]
    rw [hst, (sw 1).2, (sw 0).2, o4]
  by_contra hall
  push Not at hall
  have get := fun v => hall (files v) (f v) (by simp [files]) rfl Nat.one_pos Nat.one_pos Nat.one_pos
  obtain ⟨c0, h0, h1⟩ := get 0
  obtain ⟨c1, h2, h3⟩ := get 1
  have e : (some (.ok (.cube c0)) : Option (Py (Out K))) = some (.ok (.cube c1)) := by
    rw [← h0, ← h2]
    exact congrArg List.getLast? same
  cases e
  have a0 := h1.2.2.2 0 0 0 (by rw [h1.1]; exact Nat.one_pos) (by rw [h1.2.1]; exact Nat.one_pos) (by rw [h1.2.2.1]; exact Nat.one_pos)
  have a1 := h3.2.2.2 0 0 0 (by rw [h1.1]; exact Nat.one_pos) (by rw [h1.2.1]; exact Nat.one_pos) (by rw [h1.2.2.1]; exact Nat.one_pos)
  rw [a0] at a1
  exact zero_ne_one a1

/-! ### C178: a write that fails -/

/-- C178 as far as it holds: a write touches no other file, and of the image object at most the data, which it loads. -/
theorem C178_others_partial (cast : K → K) (stale : Stale K P) (fs : FS K P) (g : GImage K P) (p : Str) :
    (∀ q, q ≠ p → (write cast stale fs g p).1.files q = fs.files q) ∧
    ((write cast stale fs g p).2.1 = g ∨ ∃ c, g.im.data = none ∧ (write cast stale fs g p).2.1 = { g with im := { g.im with data := some c } }) := by
  refine ⟨fun q hq => (write_files cast stale fs g p q hq).1, ?_⟩
  unfold write
  split
  · exact .inl rfl
  · simp only []
    split
    · exact .inl rfl
    · rename_i hd
      split
      · exact .inl rfl
      · exact .inr ⟨_, hd, rfl⟩

/-- C178: a raster without pixels or bands is refused before anything is touched. -/
theorem C178_empty_refused (cast : K → K) (stale : Stale K P) (fs : FS K P) (g : GImage K P) (p : Str) (h : g.im.nx = 0 ∨ g.im.ny = 0 ∨ g.im.nb = 0) :
    write cast stale fs g p = (fs, g, .error .attributeError) := by
  unfold write
  rw [if_pos h]

/-- C178 is false for an image closed before it was loaded: the write raises AttributeError, and the file, whatever it held, is an image of zeros. -/
theorem C178_closed_false (cast : K → K) (stale : Stale K P) (fs : FS K P) (g : GImage K P) (p : Str) (hc : g.handle = none) (hd : g.im.data = none)
    (hpos : 0 < g.im.nx ∧ 0 < g.im.ny ∧ 0 < g.im.nb) :
    (write cast stale fs g p).2.2 = .error .attributeError ∧ ∃ gen f, (write cast stale fs g p).1.files p = some (gen, f) ∧ f.d.nx = g.im.nx ∧ f.d.ny = g.im.ny ∧ f.d.nb = g.im.nb ∧
      ∀ y x z, f.d.px y x z = 0 := by
  have hr : readAll stale (fs.create p (blank g.im)) g = .error .attributeError := by
    unfold readAll
    obtain ⟨n, hn⟩ : ∃ n, g.im.nb = n + 1 := ⟨g.im.nb - 1, by omega⟩
    rw [hn]
    unfold readBands readBand
    rw [hc]
    rfl
  unfold write
  rw [if_neg (by omega)]
  simp only [hd, hr]
  refine ⟨trivial, fs.next, ⟨blank g.im, none⟩, by simp [FS.create], rfl, rfl, rfl, fun _ _ _ => rfl⟩

/-- C178 is false for an image whose no-data value is NaN or infinite: the write raises, the file that was there is replaced by one that opens as an image of the right size, with the
first band of the data and zeros in all others. -/
theorem C178_nan_false (cast : K → K) (stale : Stale K P) (fs : FS K P) (g : GImage K P) (p : Str) (v : Special) (hv : g.special = some v) (c : A3 K) (hd : g.im.data = some c)
    (hpos : 0 < g.im.nx ∧ 0 < g.im.ny ∧ 0 < g.im.nb) (h1 : c.ny = g.im.ny) (h2 : c.nx = g.im.nx) (h3 : c.nb = g.im.nb) :
    (write cast stale fs g p).2.2 = .error v.intErr ∧ ∃ g2 gen f, openFile (write cast stale fs g p).1 p = .ok g2 ∧ g2.im.nx = g.im.nx ∧ g2.im.ny = g.im.ny ∧ g2.im.nb = g.im.nb ∧
      (write cast stale fs g p).1.files p = some (gen, f) ∧ g2.handle = some ⟨p, gen⟩ ∧
      ∀ y x z, y < g.im.ny → x < g.im.nx → f.d.px y x z = if z = 0 then cast (c.px y x 0) else 0 := by
  have hb : g.im.getBand (0 : Nat) = .ok ⟨c.ny, c.nx, fun y x => c.px y x 0⟩ := by
    simp only [DImage.getBand, hd]
    rw [pyIdx_nat (n := c.nb) (k := 0) (by omega), ok_bind]
  obtain ⟨n, hn⟩ : ∃ n, g.im.nb = n + 1 := ⟨g.im.nb - 1, by omega⟩
  have hw : writeLoop cast g.im g.special 0 g.im.nb (blank g.im) = ({ blank g.im with px := fun y x z => if z = 0 ∧ y < c.ny ∧ x < c.nx then cast (c.px y x 0) else 0 }, .error v.intErr) := by
    rw [hn]
    unfold writeLoop
    rw [hb]
    simp only [Dset.writeBand]
    rw [if_pos (show c.nx ≤ (blank g.im).nx ∧ c.ny ≤ (blank g.im).ny from ⟨h2.le, h1.le⟩)]
    simp only [hv]
    rfl
  unfold write
  rw [if_neg (by omega)]
  simp only [hd, hw]
  refine ⟨trivial, ⟨⟨none, g.im.nx, g.im.ny, g.im.nb, g.im.dtype, none, g.im.geot, g.im.proj, none⟩, none, some ⟨p, fs.next⟩⟩, fs.next,
    ⟨{ blank g.im with px := fun y x z => if z = 0 ∧ y < c.ny ∧ x < c.nx then cast (c.px y x 0) else 0 }, none⟩, ?_, rfl, rfl, rfl, ?_, rfl, ?_⟩
  · simp only [openFile, FS.fill, if_true]
    rw [if_neg (show ¬ (blank g.im).nb = 0 from by show ¬ g.im.nb = 0; omega)]
    rfl
  · simp [FS.fill]
  · intro y x z hy hx
    by_cases hz : z = 0
    · simp only []
      rw [if_pos ⟨hz, by omega, by omega⟩, if_pos hz]
    · simp only []
      rw [if_neg (fun h => hz h.1), if_neg hz]

/-! ### Cases that meet the hypotheses -/

/-- A 2x2 image with two bands. -/
def sample : GFile ℚ Unit := ⟨⟨2, 2, 2, 1, fun y x z => y + 2 * x + 4 * z, (0, 1, 0, 0, 0, -1), (), none⟩, none⟩

/-- Beside `C176_separate_files`: a program that opens one file, writes another and reads in between. -/
example : ∀ i j p q, Op.opens i p ∈ ([.opens 0 ['a'], .readBand 0 1, .write 0 ['b'], .readAll 0] : List (Op ℚ Unit)) → Op.write j q ∈ ([.opens 0 ['a'], .readBand 0 1, .write 0 ['b'], .readAll 0] : List (Op ℚ Unit)) → p ≠ q := by
  intro i j p q h1 h2
  simp at h1 h2
  obtain ⟨rfl, rfl⟩ := h1
  obtain ⟨rfl, rfl⟩ := h2
  decide

/-- Beside `C176_copy`: opening, loading, writing elsewhere and back to the same file is a safe program, for every GDAL. -/
example (stale : Stale ℚ Unit) : ∃ c, (run id stale (St.start (fun p => if p = ['a'] then some sample else none)) [.opens 0 ['a'], .load 0, .write 0 ['a'], .opens 1 ['a'], .readAll 1]).2.getLast? = some (.ok (.cube c)) ∧
    c.px 1 0 1 = 5 := by
  obtain ⟨c, h1, h2⟩ := C177_loaded_partial id stale (fun p => if p = ['a'] then some sample else none) ['a'] sample rfl (by decide) rfl (fun _ _ _ _ _ _ => rfl) 0 1
  refine ⟨c, h1, ?_⟩
  rw [h2.2.2.2 1 0 1 (by rw [h2.1]; decide) (by rw [h2.2.1]; decide) (by rw [h2.2.2.1]; decide)]
  norm_num [sample]

/-- Beside `C178_nan_false`: an image with a NaN no-data value. -/
example : ∃ (g : GImage ℚ Unit) (c : A3 ℚ), g.special = some .nan ∧ g.im.data = some c ∧ 0 < g.im.nx ∧ 0 < g.im.ny ∧ 1 < g.im.nb ∧ c.ny = g.im.ny ∧ c.nx = g.im.nx ∧ c.nb = g.im.nb :=
  ⟨⟨⟨some ⟨2, 2, 2, fun y x z => y + 2 * x + 4 * z⟩, 2, 2, 2, 1, none, (0, 1, 0, 0, 0, -1), (), none⟩, some .nan, none⟩, ⟨2, 2, 2, fun y x z => y + 2 * x + 4 * z⟩, rfl, rfl, by decide, by decide,
    by decide, rfl, rfl, rfl⟩

/-- Beside `C178_closed_false`: a file opened and closed. -/
example : ∃ g : GImage ℚ Unit, openFile (St.start (fun p => if p = ['a'] then some sample else none)).fs ['a'] = .ok g ∧ ({ g with handle := none } : GImage ℚ Unit).handle = none ∧
    g.im.data = none ∧ 0 < g.im.nx ∧ 0 < g.im.ny ∧ 0 < g.im.nb := ⟨_, rfl, rfl, rfl, by decide, by decide, by decide⟩

end Verif.GeoFiles
