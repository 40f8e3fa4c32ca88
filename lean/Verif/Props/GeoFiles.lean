import Verif.Model.GeoFiles
import Verif.Props.ImageFiles

/-! C176-C178: GeoTIFF image objects over files that change. -/

set_option linter.unusedSectionVars false

namespace Verif.GeoFiles
open Verif Verif.Images

variable {K P : Type} [Field K] [LinearOrder K] [IsStrictOrderedRing K] [FloorRing K] [Inhabited K]

/-! ### Specification: every image is a copy of its file as it was when opened -/

/-- Files by name, and image objects whose dataset is a copy of the whole raster (`Images.DImage`). -/
structure Copies (K P : Type) where
  files : Str → Option (GFile K P)
  imgs : Nat → Option (DImage K P × Option Special)

/-- One more image object. -/
def Copies.bind (t : Copies K P) (i : Nat) (g : DImage K P × Option Special) : Copies K P :=
  { t with imgs := fun j => if j = i then some g else t.imgs j }

/-- A file replaced. -/
def Copies.put (t : Copies K P) (p : Str) (d : Dset K P) : Copies K P :=
  { t with files := fun q => if q = p then some ⟨d, none⟩ else t.files q }

/-- One call when opening a file copies it: disk reads are `Images.DImage.readBand` and `Images.DImage.readAll` on the copy. -/
def Copies.step (cast : K → K) (t : Copies K P) : Op K P → Copies K P × Py (Out K)
  | .opens i p =>
    match t.files p with
    | none => (t, .error .attributeError)
    | some f =>
      match openImage f.d with
      | .error e => (t, .error e)
      | .ok im => (t.bind i (im, f.special), .ok .unit)
  | .make i im special => (t.bind i ({ im with dset := none }, special), .ok .unit)
  | .setData i a =>
    match t.imgs i with
    | none => (t, .error .nameError)
    | some g => (t.bind i ({ g.1 with data := some a }, g.2), .ok .unit)
  | .load i =>
    match t.imgs i with
    | none => (t, .error .nameError)
    | some g =>
      match g.1.readAll with
      | .error e => (t, .error e)
      | .ok c => (t.bind i ({ g.1 with data := some c }, g.2), .ok .unit)
  | .readBand i b =>
    match t.imgs i with
    | none => (t, .error .nameError)
    | some g => (t, (g.1.readBand b).map .band)
  | .readAll i =>
    match t.imgs i with
    | none => (t, .error .nameError)
    | some g => (t, g.1.readAll.map .cube)
  | .getBand i b =>
    match t.imgs i with
    | none => (t, .error .nameError)
    | some g => (t, (g.1.getBand b).map .band)
  | .close i =>
    match t.imgs i with
    | none => (t, .error .nameError)
    | some g => (t.bind i ({ g.1 with dset := none }, g.2), .ok .unit)
  | .write i p =>
    match t.imgs i with
    | none => (t, .error .nameError)
    | some g =>
      if g.1.nx = 0 ∨ g.1.ny = 0 ∨ g.1.nb = 0 then (t, .error .attributeError)
      else
        match (match g.1.data with
          | some c => .ok c
          | none => g.1.readAll : Py (A3 K)) with
        | .error e => (t.put p (blank g.1), .error e)
        | .ok c =>
          let w := writeLoop cast { g.1 with data := some c } g.2 0 g.1.nb (blank g.1)
          ((t.put p w.1).bind i ({ g.1 with data := some c }, g.2), w.2.map (fun _ => .unit))

/-- The calls of a program one after another. -/
def Copies.run (cast : K → K) : Copies K P → List (Op K P) → Copies K P × List (Py (Out K))
  | t, [] => (t, [])
  | t, op :: ops =>
    let r := t.step cast op
    let rest := Copies.run cast r.1 ops
    (rest.1, r.2 :: rest.2)

/-- The file an image was opened from has not been created anew since (an image made from an array, or closed, has no file). -/
def Untouched (s : St K P) (i : Nat) : Prop :=
  ∀ g h, s.imgs i = some g → g.handle = some h → ∃ f, s.fs.files h.path = some (h.gen, f)

/-- The disk reads of a call happen while the file is the one that was opened: reading and loading need an untouched file; writing an image that was not loaded needs an untouched
file that is not the target. -/
def Safe (s : St K P) : Op K P → Prop
  | .load i => Untouched s i
  | .readBand i _ => Untouched s i
  | .readAll i => Untouched s i
  | .write i p => ∀ g, s.imgs i = some g → g.im.data = none → Untouched s i ∧ ∀ h, g.handle = some h → h.path ≠ p
  | _ => True

/-- Every call of a program is safe when it is made. -/
def SafeRun (cast : K → K) (stale : Stale K P) : St K P → List (Op K P) → Prop
  | _, [] => True
  | s, op :: ops => Safe s op ∧ SafeRun cast stale (step cast stale s op).1 ops

/-- An image object and its copy agree. -/
structure SameImage (fs : FS K P) (g : GImage K P) (c : DImage K P × Option Special) : Prop where
  special : g.special = c.2
  im : g.im = { c.1 with dset := none }
  closed : g.handle = none → c.1.dset = none
  opened : ∀ h, g.handle = some h → h.gen < fs.next ∧ ∃ d, c.1.dset = some d ∧ ∀ f, fs.files h.path = some (h.gen, f) → f.d = d

/-- The two programs agree: same files, same image objects. -/
structure Agree (s : St K P) (t : Copies K P) : Prop where
  files : ∀ p, t.files p = (s.fs.files p).map Prod.snd
  fresh : ∀ p gen f, s.fs.files p = some (gen, f) → gen < s.fs.next
  imgs : ∀ i, (s.imgs i = none ∧ t.imgs i = none) ∨ ∃ g c, s.imgs i = some g ∧ t.imgs i = some c ∧ SameImage s.fs g c

/-! ### Proofs -/

theorem readBand_same {stale : Stale K P} {fs : FS K P} {g : GImage K P} {c : DImage K P × Option Special} (h : SameImage fs g c)
    (hu : ∀ h, g.handle = some h → ∃ f, fs.files h.path = some (h.gen, f)) (b : Int) : readBand stale fs g b = c.1.readBand b := by
  unfold readBand DImage.readBand
  cases hh : g.handle with
  | none => rw [h.closed hh]
  | some k =>
    obtain ⟨_, d, hd, hf⟩ := h.opened k hh
    obtain ⟨f, hk⟩ := hu k hh
    simp only [hk, hd, if_true]
    rw [hf f hk]

theorem readAll_same {stale : Stale K P} {fs : FS K P} {g : GImage K P} {c : DImage K P × Option Special} (h : SameImage fs g c)
    (hu : ∀ h, g.handle = some h → ∃ f, fs.files h.path = some (h.gen, f)) : readAll stale fs g = c.1.readAll := by
  have hb : ∀ n s, readBands stale fs g s n = c.1.readBands s n := by
    intro n
    induction n with
    | zero => intro s; rfl
    | succ n ih =>
      intro s
      unfold readBands DImage.readBands
      rw [readBand_same h hu, ih]
  unfold readAll DImage.readAll
  rw [hb, h.im]

theorem SameImage.withData {fs : FS K P} {g : GImage K P} {c : DImage K P × Option Special} (h : SameImage fs g c) (a : A3 K) :
    SameImage fs { g with im := { g.im with data := some a } } ({ c.1 with data := some a }, c.2) :=
  ⟨h.special, by rw [h.im], h.closed, h.opened⟩

theorem SameImage.later {fs fs' : FS K P} {g : GImage K P} {c : DImage K P × Option Special} (h : SameImage fs g c) (hn : fs.next ≤ fs'.next)
    (hf : ∀ (k : Handle) f, k.gen < fs.next → fs'.files k.path = some (k.gen, f) → fs.files k.path = some (k.gen, f)) : SameImage fs' g c := by
  refine ⟨h.special, h.im, h.closed, fun k hk => ?_⟩
  obtain ⟨h1, d, h2, h3⟩ := h.opened k hk
  exact ⟨by omega, d, h2, fun f e => h3 f (hf k f h1 e)⟩

theorem Agree.bind {s : St K P} {t : Copies K P} (h : Agree s t) (i : Nat) {g : GImage K P} {c : DImage K P × Option Special} (hg : SameImage s.fs g c) :
    Agree (s.bind i g) (t.bind i c) := by
  refine ⟨h.files, h.fresh, fun j => ?_⟩
  by_cases hj : j = i
  · refine .inr ⟨g, c, ?_, ?_, hg⟩
    · simp [St.bind, hj]
    · simp [Copies.bind, hj]
  · simp only [St.bind, Copies.bind, if_neg hj]
    exact h.imgs j

/-- A file created and filled, in both programs. -/
theorem Agree.put {s : St K P} {t : Copies K P} (h : Agree s t) (p : Str) (d d' : Dset K P) :
    Agree { s with fs := (s.fs.create p d).fill p s.fs.next d' } (t.put p d') := by
  have hlater : ∀ (k : Handle) f, k.gen < s.fs.next → ((s.fs.create p d).fill p s.fs.next d').files k.path = some (k.gen, f) → s.fs.files k.path = some (k.gen, f) := by
    intro k f hk e
    simp only [FS.fill, FS.create] at e
    by_cases hp : k.path = p
    · rw [if_pos hp] at e
      have := (Prod.mk.inj (Option.some.inj e)).1
      omega
    · rwa [if_neg hp, if_neg hp] at e
  refine ⟨fun q => ?_, ?_, fun i => ?_⟩
  · simp only [Copies.put, FS.fill, FS.create]
    by_cases hq : q = p
    · rw [if_pos hq, if_pos hq]; rfl
    · rw [if_neg hq, if_neg hq, if_neg hq]; exact h.files q
  · intro q gen f e
    simp only [FS.fill, FS.create] at e ⊢
    by_cases hq : q = p
    · rw [if_pos hq] at e
      have := (Prod.mk.inj (Option.some.inj e)).1
      omega
    · rw [if_neg hq, if_neg hq] at e
      have := h.fresh q gen f e
      omega
  · rcases h.imgs i with hi | ⟨g, c, h1, h2, h3⟩
    · exact .inl hi
    · exact .inr ⟨g, c, h1, h2, h3.later (by simp [FS.fill, FS.create]) hlater⟩

theorem create_fill (fs : FS K P) (p : Str) (d : Dset K P) : (fs.create p d).fill p fs.next d = fs.create p d := by
  unfold FS.fill FS.create
  congr 1
  funext q
  by_cases h : q = p
  · simp [h]
  · simp [h]

theorem writeLoop_dset (cast : K → K) (im im' : DImage K P) (special : Option Special) (h1 : im.data = im'.data) (h2 : im.nodata = im'.nodata) (n : Nat) :
    ∀ s (d : Dset K P), writeLoop cast im special s n d = writeLoop cast im' special s n d := by
  induction n with
  | zero => intro s d; rfl
  | succ n ih =>
    intro s d
    have hg : im.getBand s = im'.getBand s := by unfold DImage.getBand; rw [h1]
    unfold writeLoop
    rw [hg, h2]
    cases im'.getBand s with
    | error e => rfl
    | ok a =>
      simp only []
      cases d.writeBand cast s a with
      | error e => rfl
      | ok d' =>
        simp only []
        cases special with
        | some v => rfl
        | none => exact ih _ _

/-- One safe call does the same in both programs. -/
theorem step_agree (cast : K → K) (stale : Stale K P) {s : St K P} {t : Copies K P} (h : Agree s t) (op : Op K P) (hs : Safe s op) :
    (step cast stale s op).2 = (t.step cast op).2 ∧ Agree (step cast stale s op).1 (t.step cast op).1 := by
  cases op with
  | opens i p =>
    simp only [step, Copies.step, openFile, h.files p]
    cases hf : s.fs.files p with
    | none => exact ⟨by trivial, h⟩
    | some x =>
      obtain ⟨gen, f⟩ := x
      simp only [Option.map_some, openImage]
      by_cases hn : f.d.nb = 0
      · simp only [if_pos hn]; exact ⟨by trivial, h⟩
      · simp only [if_neg hn]
        refine ⟨by trivial, h.bind i ⟨rfl, rfl, (fun e => by cases e), fun k hk => ?_⟩⟩
        cases hk
        refine ⟨h.fresh p gen f hf, f.d, rfl, fun f' e => ?_⟩
        have e' : some (gen, f) = some (gen, f') := hf.symm.trans e
        cases e'
        rfl
  | make i im special =>
    exact ⟨by trivial, h.bind i ⟨rfl, rfl, fun _ => rfl, fun k hk => by cases hk⟩⟩
  | setData i a =>
    rcases h.imgs i with ⟨h1, h2⟩ | ⟨g, c, h1, h2, h3⟩
    · simp only [step, Copies.step, h1, h2]; exact ⟨by trivial, h⟩
    · simp only [step, Copies.step, h1, h2]
      exact ⟨by trivial, h.bind i (h3.withData a)⟩
  | load i =>
    rcases h.imgs i with ⟨h1, h2⟩ | ⟨g, c, h1, h2, h3⟩
    · simp only [step, Copies.step, h1, h2]; exact ⟨by trivial, h⟩
    · simp only [step, Copies.step, h1, h2]
      rw [readAll_same h3 (fun k hk => hs g k h1 hk)]
      cases c.1.readAll with
      | error e => exact ⟨by trivial, h⟩
      | ok a => exact ⟨by trivial, h.bind i (h3.withData a)⟩
  | readBand i b =>
    rcases h.imgs i with ⟨h1, h2⟩ | ⟨g, c, h1, h2, h3⟩
    · simp only [step, Copies.step, h1, h2]; exact ⟨by trivial, h⟩
    · simp only [step, Copies.step, h1, h2]
      rw [readBand_same h3 (fun k hk => hs g k h1 hk)]
      exact ⟨by trivial, h⟩
  | readAll i =>
    rcases h.imgs i with ⟨h1, h2⟩ | ⟨g, c, h1, h2, h3⟩
    · simp only [step, Copies.step, h1, h2]; exact ⟨by trivial, h⟩
    · simp only [step, Copies.step, h1, h2]
      rw [readAll_same h3 (fun k hk => hs g k h1 hk)]
      exact ⟨by trivial, h⟩
  | getBand i b =>
    rcases h.imgs i with ⟨h1, h2⟩ | ⟨g, c, h1, h2, h3⟩
    · simp only [step, Copies.step, h1, h2]; exact ⟨by trivial, h⟩
    · simp only [step, Copies.step, h1, h2]
      rw [h3.im]
      exact ⟨by trivial, h⟩
  | close i =>
    rcases h.imgs i with ⟨h1, h2⟩ | ⟨g, c, h1, h2, h3⟩
    · simp only [step, Copies.step, h1, h2]; exact ⟨by trivial, h⟩
    · simp only [step, Copies.step, h1, h2]
      exact ⟨by trivial, h.bind i ⟨h3.special, h3.im, fun _ => rfl, fun k hk => by cases hk⟩⟩
  | write i p =>
    rcases h.imgs i with ⟨h1, h2⟩ | ⟨g, c, h1, h2, h3⟩
    · simp only [step, Copies.step, h1, h2]; exact ⟨by trivial, h⟩
    · simp only [step, Copies.step, h1, h2, write]
      have e1 : g.im.nx = c.1.nx := by rw [h3.im]
      have e2 : g.im.ny = c.1.ny := by rw [h3.im]
      have e3 : g.im.nb = c.1.nb := by rw [h3.im]
      have e4 : g.im.data = c.1.data := by rw [h3.im]
      have e5 : blank g.im = blank c.1 := by rw [h3.im]; rfl
      have e6 : g.im.nodata = c.1.nodata := by rw [h3.im]
      rw [e1, e2, e3]
      by_cases hz : c.1.nx = 0 ∨ c.1.ny = 0 ∨ c.1.nb = 0
      · simp only [if_pos hz]
        refine ⟨by trivial, ?_⟩
        have := h.bind i h3
        refine ⟨h.files, h.fresh, fun j => ?_⟩
        rcases this.imgs j with hj | ⟨g', c', q1, q2, q3⟩
        · by_cases hji : j = i
          · rw [hji, St.bind] at hj; simp at hj
          · simp only [St.bind, Copies.bind, if_neg hji] at hj ⊢
            exact .inl hj
        · by_cases hji : j = i
          · subst hji
            refine .inr ⟨g, c, by simp [St.bind], h2, h3⟩
          · simp only [St.bind, Copies.bind, if_neg hji] at q1 q2 ⊢
            exact .inr ⟨g', c', q1, q2, q3⟩
      · simp only [if_neg hz]
        have put := fun d' => h.put p (blank c.1) d'
        have same := fun (d' : Dset K P) => h3.later (fs' := (s.fs.create p (blank c.1)).fill p s.fs.next d') (by simp [FS.fill, FS.create]) (fun k f hk e => by
          simp only [FS.fill, FS.create] at e
          by_cases hp : k.path = p
          · rw [if_pos hp] at e
            have := (Prod.mk.inj (Option.some.inj e)).1
            omega
          · rwa [if_neg hp, if_neg hp] at e)
        cases hd : c.1.data with
        | some a =>
          rw [e4, hd]
          simp only []
          have ew := writeLoop_dset cast g.im { c.1 with data := some a } c.2 (e4.trans hd) e6 c.1.nb 0 (blank c.1)
          rw [h3.special, e5, ew]
          have ec : ({ c.1 with data := some a } : DImage K P) = c.1 := by rw [← hd]
          refine ⟨by trivial, (put _).bind i ?_⟩
          rw [ec]
          exact same _
        | none =>
          rw [e4, hd]
          simp only []
          obtain ⟨hu, hne⟩ := hs g h1 (e4.trans hd)
          have hr : readAll stale (s.fs.create p (blank g.im)) g = c.1.readAll := by
            rw [e5]
            have hq := same (blank c.1)
            rw [create_fill] at hq
            refine readAll_same hq (fun k hk => ?_)
            obtain ⟨f, hf⟩ := hu g k h1 hk
            refine ⟨f, ?_⟩
            simp only [FS.create, if_neg (hne k hk)]
            exact hf
          rw [hr]
          cases c.1.readAll with
          | error e =>
            simp only []
            refine ⟨by trivial, ?_⟩
            have hp := put (blank c.1)
            rw [create_fill] at hp
            rw [e5]
            refine ⟨hp.files, hp.fresh, fun j => ?_⟩
            by_cases hji : j = i
            · subst hji
              rcases hp.imgs j with hj | ⟨g', c', q1, q2, q3⟩
              · simp only [Copies.put] at hj; rw [h2] at hj; cases hj.2
              · simp only [Copies.put] at q1 q2
                rw [h1] at q1; rw [h2] at q2
                cases q1; cases q2
                exact .inr ⟨g, c, by simp [St.bind], by simpa [Copies.put] using h2, q3⟩
            · simp only [St.bind, if_neg hji]
              exact hp.imgs j
          | ok a =>
            simp only []
            obtain ⟨gim, gs, gh⟩ := g
            obtain rfl : gim = { c.1 with dset := none } := h3.im
            obtain rfl : gs = c.2 := h3.special
            have ew := writeLoop_dset cast { c.1 with data := some a, dset := none } { c.1 with data := some a } c.2 rfl rfl c.1.nb 0 (blank c.1)
            have key := (put (writeLoop cast { c.1 with data := some a } c.2 0 c.1.nb (blank c.1)).1).bind i ((same _).withData a)
            rw [← ew] at key ⊢
            exact ⟨by trivial, key⟩

/-- C176: over every program whose disk reads are safe, opening an image is as good as copying its file: every call returns the same, and the files are the same at the end. -/
theorem C176_copies (cast : K → K) (stale : Stale K P) (ops : List (Op K P)) : ∀ (s : St K P) (t : Copies K P), Agree s t → SafeRun cast stale s ops →
    (run cast stale s ops).2 = (Copies.run cast t ops).2 ∧ Agree (run cast stale s ops).1 (Copies.run cast t ops).1 := by
  induction ops with
  | nil => intro s t h _; exact ⟨rfl, h⟩
  | cons op ops ih =>
    intro s t h hs
    obtain ⟨h1, h2⟩ := step_agree cast stale h op hs.1
    obtain ⟨h3, h4⟩ := ih _ _ h2 hs.2
    refine ⟨?_, h4⟩
    show _ :: _ = _ :: _
    rw [h1, h3]

/-! ### Programs that start with files only -/

/-- The state before the first call: files, no image objects. -/
def St.start (files : Str → Option (GFile K P)) : St K P := ⟨⟨fun p => (files p).map (fun f => (0, f)), 1⟩, fun _ => none⟩

/-- The same for the specification. -/
def Copies.start (files : Str → Option (GFile K P)) : Copies K P := ⟨files, fun _ => none⟩

theorem agree_start (files : Str → Option (GFile K P)) : Agree (St.start files) (Copies.start files) := by
  refine ⟨fun p => ?_, ?_, fun i => .inl ⟨rfl, rfl⟩⟩
  · show files p = ((files p).map _).map _
    cases files p <;> rfl
  · intro p gen f e
    simp only [St.start] at e
    cases h : files p with
    | none => rw [h] at e; cases e
    | some x => rw [h] at e; cases e; exact Nat.one_pos

/-- Every image is open on one of the files `O`, which are as they were when opened. -/
def OpenOn (O : Str → Prop) (s : St K P) : Prop :=
  ∀ i g h, s.imgs i = some g → g.handle = some h → O h.path ∧ ∃ f, s.fs.files h.path = some (h.gen, f)

theorem OpenOn.bind {O : Str → Prop} {s : St K P} (h : OpenOn O s) (i : Nat) (g : GImage K P)
    (hg : ∀ k, g.handle = some k → O k.path ∧ ∃ f, s.fs.files k.path = some (k.gen, f)) : OpenOn O (s.bind i g) := by
  intro j g' k hj hk
  by_cases hji : j = i
  · simp only [St.bind, if_pos hji] at hj
    cases hj
    exact hg k hk
  · simp only [St.bind, if_neg hji] at hj
    exact h j g' k hj hk

theorem write_files (cast : K → K) (stale : Stale K P) (fs : FS K P) (g : GImage K P) (p q : Str) (hq : q ≠ p) :
    (write cast stale fs g p).1.files q = fs.files q ∧ (write cast stale fs g p).2.1.handle = g.handle := by
  unfold write
  split
  · exact ⟨rfl, rfl⟩
  · simp only []
    split
    · exact ⟨by simp [FS.fill, FS.create, hq], rfl⟩
    · split
      · exact ⟨by simp [FS.create, hq], rfl⟩
      · exact ⟨by simp [FS.fill, FS.create, hq], rfl⟩

theorem write_handle (cast : K → K) (stale : Stale K P) (fs : FS K P) (g : GImage K P) (p : Str) : (write cast stale fs g p).2.1.handle = g.handle := by
  unfold write
  split
  · rfl
  · simp only []
    split
    · rfl
    · split <;> rfl

theorem step_openOn (cast : K → K) (stale : Stale K P) {O : Str → Prop} {s : St K P} (h : OpenOn O s) (op : Op K P) (ho : ∀ i p, op = .opens i p → O p)
    (hw : ∀ i p, op = .write i p → ¬ O p) : OpenOn O (step cast stale s op).1 := by
  cases op with
  | opens i p =>
    simp only [step, openFile]
    cases hf : s.fs.files p with
    | none => exact h
    | some x =>
      obtain ⟨gen, f⟩ := x
      simp only []
      by_cases hn : f.d.nb = 0
      · simp only [if_pos hn]; exact h
      · simp only [if_neg hn]
        refine h.bind i _ (fun k hk => ?_)
        cases hk
        exact ⟨ho i p rfl, f, hf⟩
  | make i im special => exact h.bind i _ (fun k hk => by cases hk)
  | setData i a =>
    simp only [step]
    cases hi : s.imgs i with
    | none => exact h
    | some g => exact h.bind i _ (fun k hk => h i g k hi hk)
  | load i =>
    simp only [step]
    cases hi : s.imgs i with
    | none => exact h
    | some g =>
      simp only []
      cases readAll stale s.fs g with
      | error e => exact h
      | ok c => exact h.bind i _ (fun k hk => h i g k hi hk)
  | readBand i b => simp only [step]; cases s.imgs i <;> exact h
  | readAll i => simp only [step]; cases s.imgs i <;> exact h
  | getBand i b => simp only [step]; cases s.imgs i <;> exact h
  | close i =>
    simp only [step]
    cases hi : s.imgs i with
    | none => exact h
    | some g => exact h.bind i _ (fun k hk => by cases hk)
  | write i p =>
    simp only [step]
    cases hi : s.imgs i with
    | none => exact h
    | some g =>
      simp only []
      have hp : ¬ O p := hw i p rfl
      have hfs : ∀ q, O q → (write cast stale s.fs g p).1.files q = s.fs.files q := by
        intro q hq
        have : q ≠ p := by rintro rfl; exact hp hq
        exact (write_files cast stale s.fs g p q this).1
      have base : OpenOn O ({ s with fs := (write cast stale s.fs g p).1 } : St K P) := by
        intro j g' k hj hk
        obtain ⟨h1, f, h2⟩ := h j g' k hj hk
        exact ⟨h1, f, (hfs k.path h1).trans h2⟩
      refine base.bind i _ (fun k hk => ?_)
      rw [write_handle] at hk
      obtain ⟨h1, f, h2⟩ := h i g k hi hk
      exact ⟨h1, f, (hfs k.path h1).trans h2⟩

theorem safe_of_openOn {O : Str → Prop} {s : St K P} (h : OpenOn O s) (op : Op K P) (hw : ∀ i p, op = .write i p → ¬ O p) : Safe s op := by
  have hu : ∀ i, Untouched s i := fun i g k hi hk => (h i g k hi hk).2
  cases op with
  | load i => exact hu i
  | readBand i b => exact hu i
  | readAll i => exact hu i
  | write i p =>
    intro g hi _
    refine ⟨hu i, fun k hk => ?_⟩
    rintro rfl
    exact hw i k.path rfl (h i g k hi hk).1
  | _ => trivial

theorem safeRun_of_openOn (cast : K → K) (stale : Stale K P) {O : Str → Prop} (ops : List (Op K P)) : ∀ {s : St K P}, OpenOn O s → (∀ i p, Op.opens i p ∈ ops → O p) →
    (∀ i p, Op.write i p ∈ ops → ¬ O p) → SafeRun cast stale s ops := by
  induction ops with
  | nil => intro s _ _ _; trivial
  | cons op ops ih =>
    intro s h ho hw
    have hw1 : ∀ i p, op = .write i p → ¬ O p := by
      rintro i p rfl
      exact hw i p List.mem_cons_self
    have ho1 : ∀ i p, op = .opens i p → O p := by
      rintro i p rfl
      exact ho i p List.mem_cons_self
    exact ⟨safe_of_openOn h op hw1, ih (step_openOn cast stale h op ho1 hw1) (fun i p hm => ho i p (List.mem_cons_of_mem _ hm)) (fun i p hm => hw i p (List.mem_cons_of_mem _ hm))⟩

/-- C176 for programs that never write a file they open: nothing they see depends on when the pixels are read. -/
theorem C176_separate_files (cast : K → K) (stale : Stale K P) (files : Str → Option (GFile K P)) (ops : List (Op K P))
    (hsep : ∀ i j p q, Op.opens i p ∈ ops → Op.write j q ∈ ops → p ≠ q) :
    (run cast stale (St.start files) ops).2 = (Copies.run cast (Copies.start files) ops).2 ∧
    ∀ p, ((run cast stale (St.start files) ops).1.fs.files p).map Prod.snd = (Copies.run cast (Copies.start files) ops).1.files p := by
  have hs : SafeRun cast stale (St.start files) ops := by
    refine safeRun_of_openOn cast stale (O := fun p => ∃ i, Op.opens i p ∈ ops) ops ?_ (fun i p h => ⟨i, h⟩) ?_
    · intro i g h hi
      cases hi
    · rintro j q hw ⟨i, hi⟩
      exact hsep i j q q hi hw rfl
  obtain ⟨h1, h2⟩ := C176_copies cast stale ops _ _ (agree_start files) hs
  exact ⟨h1, fun p => (h2.files p).symm⟩

end Verif.GeoFiles
