import Verif.Lemmas.Base
import Verif.Lemmas.EnviImage

/-! C59, C62, C77: ENVI images on disk. -/

namespace Verif.Envi
open Verif TextUtils

variable {F : Type}

/-- Specification: how many bytes a value has. -/
def itemBytes : DType → Nat
  | .u8 => 1
  | .i16 | .u16 => 2
  | .i32 | .u32 | .f32 => 4
  | .i64 | .u64 | .f64 | .c64 => 8
  | .other _ n => n

theorem size_eq (d : DType) : d.size = itemBytes d := by cases d <;> rfl

/-- Specification: a numpy cube: every value has the bytes its data type needs. -/
def Cube.Valid (c : Cube) : Prop :=
  ∀ y x z, y < c.arr.ny → x < c.arr.nx → z < c.arr.nb → (c.arr.px y x z).length = itemBytes c.dtype

/-- Specification: same data type, same shape, same values. -/
def Cube.Same (a b : Cube) : Prop := a.dtype = b.dtype ∧ a.arr.Same b.arr

/-- Specification: the data types the writer supports. -/
def Supported (d : DType) : Prop := ∀ tag n, d ≠ .other tag n

theorem supported_code {d : DType} (h : Supported d) : ∃ code : Nat, toEnvi d = some (code : Int) ∧ toNumpy (code : Int) = .ok (some d) ∧ 0 < d.size := by
  cases d with
  | u8 => exact ⟨1, rfl, rfl, by decide⟩
  | i16 => exact ⟨2, rfl, rfl, by decide⟩
  | i32 => exact ⟨3, rfl, rfl, by decide⟩
  | f32 => exact ⟨4, rfl, rfl, by decide⟩
  | f64 => exact ⟨5, rfl, rfl, by decide⟩
  | c64 => exact ⟨9, rfl, rfl, by decide⟩
  | u16 => exact ⟨12, rfl, rfl, by decide⟩
  | u32 => exact ⟨13, rfl, rfl, by decide⟩
  | i64 => exact ⟨14, rfl, rfl, by decide⟩
  | u64 => exact ⟨15, rfl, rfl, by decide⟩
  | other t n => exact absurd rfl (h t n)

theorem raw_sizes {c : Cube} (hv : c.Valid) (interleave : Str) : ∀ e ∈ rawData c interleave, e.length = c.dtype.size := by
  intro e he
  by_cases hi : interleave = "bil".toList
  · subst hi
    rw [rawData_bil, List.mem_flatMap] at he
    obtain ⟨p, hp, h⟩ := he
    rw [bilPairs_mem] at hp
    unfold lineOf at h
    rw [List.mem_map] at h
    obtain ⟨x, hx, rfl⟩ := h
    rw [size_eq]
    exact hv p.1 x p.2 hp.1 (List.mem_range.1 hx) hp.2
  · unfold rawData at he
    simp only [hi, if_false] at he
    rw [List.eq_of_mem_replicate he]
    simp

theorem fromFile_data {c : Cube} (hv : c.Valid) (hs : 0 < c.dtype.size) (interleave : Str) (fs : FS) (path : Str)
    (h : fs path = some (dataBytes c interleave)) : fromFile fs path (some c.dtype) = .ok (c.dtype, rawData c interleave) := by
  unfold fromFile
  rw [h]
  simp only [Option.getD_some]
  have := itemsOf_flatten c.dtype.size hs (rawData c interleave) (raw_sizes hv interleave) [] hs
  rw [List.append_nil] at this
  unfold itemsOf at this
  unfold dataBytes
  rw [this]

theorem hdr_ne (fname : Str) : fname ≠ headerName fname none := (name_ne fname).symm

/-- The header the reader chooses after the writer has written. -/
theorem choice_written (fs : FS) (fname : Str) (hdr : Option Str) (h1 h2 : List Nat) :
    headerChoice ((fs.put fname h1).put (headerName fname hdr) h2) fname hdr = some (headerName fname hdr) := by
  cases hdr with
  | some h => rfl
  | none =>
    unfold headerChoice headerName
    simp only [Option.getD_none]
    apply guess_default
    rw [put_same]
    rfl

/-- Reading a data file with the header written for a cube of any shape. -/
theorem read_with_header (pf : Str → Option F) (ls : Str) (hls : Sep ls) (fs : FS) (fname : Str) (hdr : Option Str) (name : Str) (c : Cube) (code : Nat)
    (interleave : Str) (hp : Plain interleave) (hname : headerChoice fs fname hdr = some name)
    (hh : fs name = some (headerBytes ls c code interleave)) (hcode : toNumpy (code : Int) = .ok (some c.dtype)) :
    readImage pf ls fs fname hdr = (do
      let raw ← fromFile fs fname (some c.dtype)
      construct raw.1 raw.2 c.arr.nx c.arr.ny c.arr.nb interleave) := by
  obtain ⟨d, hd, e1, e2, e3, e4, e5⟩ := header_full pf ls hls c code interleave hp
  rw [readImage_of pf ls fs fname hdr name _ d hname hh (by unfold headerBytes; rw [toText_toBytes]; exact hd)]
  rw [e1, e2, e3, e4, e5]
  show (toNumpy (code : Int) >>= _) = _
  rw [hcode]
  rfl

/-! ### C59 -/

/-- The layout of the data file of a 'bil' image: lines, then bands, then samples. -/
theorem C59_layout (c : Cube) (l x b : Nat) (hl : l < c.arr.ny) (hx : x < c.arr.nx) (hb : b < c.arr.nb) :
    (rawData c "bil".toList).length = c.arr.ny * c.arr.nx * c.arr.nb ∧
    (rawData c "bil".toList)[l * (c.arr.nb * c.arr.nx) + b * c.arr.nx + x]? = some (c.arr.px l x b) := by
  refine ⟨by rw [rawData_length]; ring, ?_⟩
  rw [← rawData_get c l x b hl hx hb]
  congr 1
  ring

theorem flatten_length_const {n : Nat} : ∀ l : List (List Nat), (∀ e ∈ l, e.length = n) → l.flatten.length = l.length * n
  | [], _ => by simp
  | e :: l, h => by
    rw [List.flatten_cons, List.length_append, h e (List.mem_cons_self ..), flatten_length_const l (fun x hx => h x (List.mem_cons_of_mem _ hx)), List.length_cons]
    ring

/-- C59: the data file of a written image holds lines × samples × bands values, each with the bytes of its type, and value `b` of pixel `(l, x)` starts where ENVI's
band-interleaved-by-line layout puts it. -/
theorem C59_file_size (ls : Str) (fs : FS) (c : Cube) (hv : c.Valid) (hs : Supported c.dtype) (fname : Str) (hdr : Option Str) (hn : hdr ≠ some fname) :
    ∃ fs' bytes, writeImage ls fs c fname hdr "bil".toList = (fs', .ok ()) ∧ fs' fname = some bytes ∧
      bytes.length = c.arr.ny * c.arr.nx * c.arr.nb * itemBytes c.dtype ∧
      ∀ l x b, l < c.arr.ny → x < c.arr.nx → b < c.arr.nb →
        (bytes.drop ((l * (c.arr.nb * c.arr.nx) + b * c.arr.nx + x) * itemBytes c.dtype)).take (itemBytes c.dtype) = c.arr.px l x b := by
  obtain ⟨code, h1, h2, h3⟩ := supported_code hs
  have hne : fname ≠ headerName fname hdr := by
    cases hdr with
    | none => exact (name_ne fname).symm
    | some h => intro e; exact hn (by rw [e]; rfl)
  have hsz := raw_sizes hv "bil".toList
  rw [size_eq] at hsz
  refine ⟨(fs.put fname (dataBytes c "bil".toList)).put (headerName fname hdr) (headerBytes ls c code "bil".toList), dataBytes c "bil".toList, ?_, ?_, ?_, ?_⟩
  · unfold writeImage
    rw [h1]
  · rw [put_other _ _ _ _ hne, put_same]
  · unfold dataBytes
    rw [flatten_length_const _ hsz, rawData_length]
    ring
  · intro l x b hl hx hb
    obtain ⟨e1, e2⟩ := C59_layout c l x b hl hx hb
    have key : ∀ (n : Nat) (L : List (List Nat)) (i : Nat) (v : List Nat), (∀ e ∈ L, e.length = n) → L[i]? = some v → (L.flatten.drop (i * n)).take n = v := by
      intro n L
      induction L with
      | nil => intro i v _ h; simp at h
      | cons e L ih =>
        intro i v h hi
        have he := h e (List.mem_cons_self ..)
        cases i with
        | zero =>
          simp at hi
          subst hi
          simp [← he]
        | succ i =>
          rw [List.flatten_cons, show (i + 1) * n = e.length + i * n by rw [he]; ring, ← List.drop_drop, List.drop_left]
          exact ih i v (fun x hx => h x (List.mem_cons_of_mem _ hx)) (by simpa using hi)
    exact key _ _ _ _ hsz e2

/-- Beside `C59_file_size`: two lines of three samples with one band of 16-bit values. -/
example : (⟨.i16, 2, 3, 1, fun y x _ => [y, x]⟩ : Cube).Valid ∧ Supported (⟨.i16, 2, 3, 1, fun y x _ => [y, x]⟩ : Cube).dtype :=
  ⟨fun _ _ _ _ _ _ => rfl, fun _ _ h => by cases h⟩

/-- A 'bil' image of a supported type reads back identical, whatever files existed before.  Missing from the
full statement: other interleaves. -/
theorem C59_roundtrip_partial (pf : Str → Option F) (ls : Str) (hls : Sep ls) (fs : FS) (c : Cube) (hv : c.Valid) (hs : Supported c.dtype)
    (fname : Str) (hdr : Option Str) (hn : hdr ≠ some fname) :
    ∃ fs', writeImage ls fs c fname hdr "bil".toList = (fs', .ok ()) ∧
      ∃ c', readImage pf ls fs' fname hdr = .ok c' ∧ c'.Same c := by
  obtain ⟨code, h1, h2, h3⟩ := supported_code hs
  have hne : fname ≠ headerName fname hdr := by
    cases hdr with
    | none => exact (name_ne fname).symm
    | some h => intro e; exact hn (by rw [e]; rfl)
  refine ⟨(fs.put fname (dataBytes c "bil".toList)).put (headerName fname hdr) (headerBytes ls c code "bil".toList), ?_, ?_⟩
  · unfold writeImage
    rw [h1]
  · rw [read_with_header pf ls hls _ fname hdr _ c code _ plain_bil (choice_written fs fname hdr _ _) (put_same _ _ _) h2]
    rw [fromFile_data hv h3 "bil".toList _ fname (by rw [put_other _ _ _ _ hne, put_same])]
    obtain ⟨c', e1, e2, e3, e4, e5, e6⟩ := construct_bil c.dtype (rawData c "bil".toList) c.arr.nx c.arr.ny c.arr.nb (by rw [rawData_length])
    refine ⟨c', e1, e2, e3, e4, e5, ?_⟩
    intro y x z hy hx hz
    rw [e3] at hy; rw [e4] at hx; rw [e5] at hz
    have a := e6 y x z hy hx hz
    rw [rawData_get c y x z hy hx hz] at a
    simpa using a.symm

/-- Concrete cube used in examples: one line, two samples, two bands, uint8. -/
def exampleCube : Cube := ⟨.u8, 1, 2, 2, fun y x z => [100 * y + 10 * x + z + 1]⟩

example : exampleCube.Valid ∧ Supported exampleCube.dtype ∧ exampleCube.arr.ny * exampleCube.arr.nx * exampleCube.arr.nb = 4 :=
  ⟨fun _ _ _ _ _ _ => rfl, fun _ _ h => by simp [exampleCube] at h, rfl⟩

/-- With any other interleave the writer writes zeros: the image read back has the right shape and is all zeros, so an
image with any value that is not zero is lost. -/
theorem C59_interleave_false (pf : Str → Option F) (ls : Str) (hls : Sep ls) (fs : FS) (c : Cube) (hv : c.Valid) (hs : Supported c.dtype)
    (fname interleave : Str) (hi : interleave ≠ "bil".toList) (hp : Plain interleave) :
    ∃ fs', writeImage ls fs c fname none interleave = (fs', .ok ()) ∧
      ∃ c', readImage pf ls fs' fname none = .ok c' ∧ c'.arr.ny = c.arr.ny ∧ c'.arr.nx = c.arr.nx ∧ c'.arr.nb = c.arr.nb ∧
        (∀ y x z, c'.arr.px y x z = List.replicate c.dtype.size 0) ∧
        ((∃ y x z, y < c.arr.ny ∧ x < c.arr.nx ∧ z < c.arr.nb ∧ c.arr.px y x z ≠ List.replicate c.dtype.size 0) → ¬ c'.Same c) := by
  obtain ⟨code, h1, h2, h3⟩ := supported_code hs
  refine ⟨(fs.put fname (dataBytes c interleave)).put (headerName fname none) (headerBytes ls c code interleave), ?_, ?_⟩
  · unfold writeImage
    rw [h1]
  · rw [read_with_header pf ls hls _ fname none _ c code _ hp (choice_written fs fname none _ _) (put_same _ _ _) h2]
    rw [fromFile_data hv h3 interleave _ fname (by rw [put_other _ _ _ _ (hdr_ne fname), put_same])]
    refine ⟨⟨c.dtype, c.arr.ny, c.arr.nx, c.arr.nb, fun _ _ _ => List.replicate c.dtype.size 0⟩, ?_, rfl, rfl, rfl, fun _ _ _ => rfl, ?_⟩
    · show construct c.dtype (rawData c interleave) c.arr.nx c.arr.ny c.arr.nb interleave = _
      unfold construct
      rw [if_neg (by omega)]
      simp only [hi, if_false, Int.toNat_natCast]
    · rintro ⟨y, x, z, hy, hx, hz, hne⟩ ⟨_, _, _, _, h⟩
      exact hne (h y x z hy hx hz).symm

example : Plain "bsq".toList ∧ Plain "bip".toList ∧ "bsq".toList ≠ "bil".toList :=
  ⟨⟨⟨by decide, by decide⟩, by decide, by decide, by decide⟩, ⟨⟨by decide, by decide⟩, by decide, by decide, by decide⟩, by decide⟩

/-- An unsupported data type is refused only after the data file has been overwritten. -/
theorem C59_unsupported (ls : Str) (fs : FS) (c : Cube) (fname : Str) (hdr : Option Str) (interleave : Str) (hs : ¬ Supported c.dtype) :
    ∃ fs', writeImage ls fs c fname hdr interleave = (fs', .error .typeError) ∧ fs' fname = some (dataBytes c interleave) ∧
      ∀ p, p ≠ fname → fs' p = fs p := by
  have : toEnvi c.dtype = none := by
    unfold Supported at hs
    push Not at hs
    obtain ⟨t, n, h⟩ := hs
    rw [h]
    rfl
  refine ⟨fs.put fname (dataBytes c interleave), ?_, put_same _ _ _, fun p hp => put_other _ _ _ _ hp⟩
  unfold writeImage
  rw [this]

/-! ### C62 -/

/-- Specification: the files after a call of `write_envi_image` that stopped: before it opened a file, while it wrote the
data file (which then holds a part of the new data), or while it wrote the header. -/
inductive Stopped (ls : Str) (fs : FS) (c : Cube) (fname : Str) (interleave : Str) : FS → Prop
  | before : Stopped ls fs c fname interleave fs
  | data (b : List Nat) (h : b <+: dataBytes c interleave) : Stopped ls fs c fname interleave (fs.put fname b)
  | header (code : Int) (hc : toEnvi c.dtype = some code) (b : List Nat) (h : b <+: headerBytes ls c code interleave) :
      Stopped ls fs c fname interleave ((fs.put fname (dataBytes c interleave)).put (headerName fname none) b)

theorem decode_prefix (ls T h : Str) (hls : Sep ls) (hr : '\r' ∉ T) (hp : h <+: encodeText ls T) : decodeText h <+: T := by
  induction T generalizing h with
  | nil => rw [encode_nil] at hp; simp at hp; subst hp; simp [decodeText]
  | cons c T ih =>
    simp only [List.mem_cons, not_or] at hr
    by_cases hc : c = '\n'
    · subst hc
      rw [show '\n' :: T = ['\n'] ++ T from rfl, encode_append, encode_nl] at hp
      rcases hls with rfl | rfl
      · match h, hp with
        | [], _ => simp [decodeText]
        | a :: h, hp =>
          rw [posixSep, List.cons_append, List.nil_append, List.cons_prefix_cons] at hp
          rw [hp.1, decode_other _ _ (by decide), List.cons_prefix_cons]
          exact ⟨rfl, ih h hr.2 hp.2⟩
      · match h, hp with
        | [], _ => simp [decodeText]
        | [a], hp =>
          rw [windowsSep, List.cons_append, List.cons_prefix_cons] at hp
          rw [hp.1, decode_cr _ (by simp)]
          simp [decodeText]
        | a :: b :: h, hp =>
          rw [windowsSep, List.cons_append, List.cons_append, List.nil_append, List.cons_prefix_cons, List.cons_prefix_cons] at hp
          rw [hp.1, hp.2.1, decode_crlf, List.cons_prefix_cons]
          exact ⟨rfl, ih h hr.2 hp.2.2⟩
    · rw [encode_cons ls c T hc] at hp
      match h, hp with
      | [], _ => simp [decodeText]
      | a :: h, hp =>
        rw [List.cons_prefix_cons] at hp
        rw [hp.1, decode_other _ _ (Ne.symm hr.1), List.cons_prefix_cons]
        exact ⟨rfl, ih h hr.2 hp.2⟩

theorem readHeaderText_decode (pf : Str → Option F) (ls h : Str) (hls : Sep ls) :
    readHeaderText pf ls h = readHeaderText pf ls (encodeText ls (decodeText h)) := by
  unfold readHeaderText
  rw [decode_encode ls _ hls (decode_no_cr h)]

/-- A call that stopped while writing the header is followed by a failing read, or its header is complete. -/
theorem C62_header_partial (pf : Str → Option F) (ls : Str) (hls : Sep ls) (fs : FS) (c : Cube) (fname interleave : Str) (hp : Plain interleave)
    (code : Int) (hc : toEnvi c.dtype = some code) (b : List Nat) (h : b <+: headerBytes ls c code interleave) :
    readImage pf ls ((fs.put fname (dataBytes c interleave)).put (headerName fname none) b) fname none = .error .keyError ∨
    readImage pf ls ((fs.put fname (dataBytes c interleave)).put (headerName fname none) b) fname none =
      readImage pf ls ((fs.put fname (dataBytes c interleave)).put (headerName fname none) (headerBytes ls c code interleave)) fname none := by
  have hs : Supported c.dtype := by
    intro t n e
    rw [e] at hc
    simp [toEnvi, table] at hc
  obtain ⟨n, h1, h2, h3⟩ := supported_code hs
  rw [h1] at hc
  simp only [Option.some.injEq] at hc
  subst hc
  have hnr : '\r' ∉ headerText (headerDict c n interleave) := by
    rw [headerText_items]
    simp only [List.mem_flatMap, not_exists, not_and]
    intro it hit
    have o := headerItems_ok c n interleave hp it hit
    simp only [headerItems, List.mem_cons, List.not_mem_nil, or_false] at hit
    have key : ∀ k v, (Item.entry k v).Ok → '\r' ∉ (Item.entry k v).text := by
      intro k v o
      simp only [Item.text, List.mem_append, List.mem_cons, List.not_mem_nil, or_false, not_or]
      exact ⟨⟨o.1.1, by decide, o.2.1.1⟩, by decide⟩
    rcases hit with rfl | rfl | rfl | rfl | rfl | rfl
    · decide
    all_goals exact key _ _ o
  have hpre : decodeText (toText b) <+: headerText (headerDict c n interleave) := by
    apply decode_prefix ls _ _ hls hnr
    have : toText b <+: toText (headerBytes ls c n interleave) := List.IsPrefix.map _ h
    unfold headerBytes at this
    rwa [toText_toBytes] at this
  by_cases he : decodeText (toText b) = headerText (headerDict c n interleave)
  · right
    have hfull := header_full pf ls hls c n interleave hp
    obtain ⟨d, hd, e⟩ := hfull
    rw [readImage_of pf ls _ fname none _ b d (choice_written fs fname none _ _) (put_same _ _ _) (by
        rw [readHeaderText_decode pf ls _ hls, he]; exact hd),
      readImage_of pf ls _ fname none _ (headerBytes ls c n interleave) d (choice_written fs fname none _ _) (put_same _ _ _) (by
        unfold headerBytes; rw [toText_toBytes]; exact hd)]
    have hf : ∀ dt, fromFile ((fs.put fname (dataBytes c interleave)).put (headerName fname none) b) fname dt =
        fromFile ((fs.put fname (dataBytes c interleave)).put (headerName fname none) (headerBytes ls c n interleave)) fname dt := by
      intro dt
      unfold fromFile
      rw [put_other _ _ _ _ (hdr_ne fname), put_other _ _ _ _ (hdr_ne fname)]
    simp only [hf]
  · left
    obtain ⟨d, hd, hk, hi⟩ := header_prefix pf ls hls c n interleave hp _ hpre he
    rw [readImage_of pf ls _ fname none _ b d (choice_written fs fname none _ _) (put_same _ _ _) (by
        rw [readHeaderText_decode pf ls _ hls]; exact hd)]
    have k1 := hk "samples".toList (by simp)
    have k2 := hk "lines".toList (by simp)
    have k3 := hk "bands".toList (by simp)
    have k4 := hk "data type".toList (by simp)
    rcases k1 with k1 | ⟨n1, k1⟩
    · rw [k1]; rfl
    rcases k2 with k2 | ⟨n2, k2⟩
    · rw [k1, k2]; rfl
    rcases k3 with k3 | ⟨n3, k3⟩
    · rw [k1, k2, k3]; rfl
    rcases k4 with k4 | ⟨n4, k4⟩
    · rw [k1, k2, k3, k4]; rfl
    rw [k1, k2, k3, k4, hi]
    rfl

/-- Writing under a name without a header so far: whenever the call stops, a later read fails or returns the new image. -/
theorem C62_new_name_partial (pf : Str → Option F) (ls : Str) (hls : Sep ls) (fs : FS) (c : Cube) (hv : c.Valid) (hs : Supported c.dtype) (fname : Str)
    (h1 : fs (fname ++ ".hdr".toList) = none) (h2 : fs (fname.take (fname.length - 4) ++ ".hdr".toList) = none)
    (h3 : fname.take (fname.length - 4) ++ ".hdr".toList ≠ fname) (fs' : FS) (hst : Stopped ls fs c fname "bil".toList fs') :
    (∃ e, readImage pf ls fs' fname none = .error e) ∨ ∃ c', readImage pf ls fs' fname none = .ok c' ∧ c'.Same c := by
  have hno : ∀ fs2 : FS, fs2 (fname ++ ".hdr".toList) = none → fs2 (fname.take (fname.length - 4) ++ ".hdr".toList) = none →
      readImage pf ls fs2 fname none = .error .typeError := by
    intro fs2 e1 e2
    have : guessHeader fs2 fname = none := by
      unfold guessHeader
      simp only [List.foldl_cons, List.foldl_nil, e1, e2, Option.isSome_none, Bool.false_eq_true, if_false]
    unfold readImage
    simp only [headerChoice, this, readHeader]
    rfl
  cases hst with
  | before => exact .inl ⟨_, hno fs h1 h2⟩
  | data b hb => exact .inl ⟨_, hno _ (by rw [put_other _ _ _ _ (name_ne fname)]; exact h1) (by rw [put_other _ _ _ _ h3]; exact h2)⟩
  | header code hc b hb =>
    rcases C62_header_partial pf ls hls fs c fname _ plain_bil code hc b hb with e | e
    · exact .inl ⟨_, e⟩
    · right
      rw [e]
      obtain ⟨fs2, w1, c', w2, w3⟩ := C59_roundtrip_partial pf ls hls fs c hv hs fname none (by simp)
      unfold writeImage at w1
      rw [hc] at w1
      simp only [Prod.mk.injEq, and_true] at w1
      rw [← w1] at w2
      exact ⟨c', w2, w3⟩

example : ((fun _ => none : FS) ("a.dat".toList ++ ".hdr".toList) = none) ∧
    "a.dat".toList.take ("a.dat".toList.length - 4) ++ ".hdr".toList ≠ "a.dat".toList := ⟨rfl, by decide⟩

/-- Overwriting an image by one of another shape with as many values: a call that stops after the data file and before
the header leaves a readable image that has the old shape and the new values in file order: neither the new image nor,
unless the values in file order agree, the old one. -/
theorem C62_reshaped_false (pf : Str → Option F) (ls : Str) (hls : Sep ls) (fs : FS) (old new : Cube) (hn : new.Valid)
    (hs : Supported new.dtype) (hdt : old.dtype = new.dtype) (fname : Str)
    (hcount : old.arr.ny * old.arr.nb * old.arr.nx = new.arr.ny * new.arr.nb * new.arr.nx)
    (hshape : ¬ (old.arr.ny = new.arr.ny ∧ old.arr.nx = new.arr.nx ∧ old.arr.nb = new.arr.nb))
    (hvals : ∃ l x b, l < old.arr.ny ∧ x < old.arr.nx ∧ b < old.arr.nb ∧
      (rawData new "bil".toList)[(l * old.arr.nb + b) * old.arr.nx + x]? ≠ some (old.arr.px l x b)) :
    ∃ fs', Stopped ls (writeImage ls fs old fname none "bil".toList).1 new fname "bil".toList fs' ∧
      ∃ c', readImage pf ls fs' fname none = .ok c' ∧ ¬ c'.Same new ∧ ¬ c'.Same old := by
  obtain ⟨code, h1, h2, h3⟩ := supported_code hs
  have hw : (writeImage ls fs old fname none "bil".toList).1 =
      (fs.put fname (dataBytes old "bil".toList)).put (headerName fname none) (headerBytes ls old code "bil".toList) := by
    unfold writeImage
    rw [hdt, h1]
  rw [hw]
  refine ⟨_, .data (dataBytes new "bil".toList) (List.prefix_refl _), ?_⟩
  have hname : headerChoice ((((fs.put fname (dataBytes old "bil".toList)).put (headerName fname none) (headerBytes ls old code "bil".toList))).put fname (dataBytes new "bil".toList))
      fname none = some (headerName fname none) := by
    unfold headerChoice
    apply guess_default
    rw [put_other _ _ _ _ (name_ne fname)]
    show (((fs.put fname (dataBytes old "bil".toList)).put (headerName fname none) _) (headerName fname none)).isSome
    rw [put_same]; rfl
  rw [read_with_header pf ls hls _ fname none _ old code _ plain_bil hname (by
    rw [put_other _ _ _ _ (hdr_ne fname).symm]
    exact put_same _ _ _) (by rw [h2, hdt])]
  rw [hdt, fromFile_data hn h3 "bil".toList _ fname (put_same _ _ _)]
  obtain ⟨c', e1, e2, e3, e4, e5, e6⟩ := construct_bil new.dtype (rawData new "bil".toList) old.arr.nx old.arr.ny old.arr.nb (by
    rw [rawData_length, hcount])
  refine ⟨c', e1, ?_, ?_⟩
  · rintro ⟨_, s1, s2, s3, _⟩
    exact hshape ⟨by rw [← e3, s1], by rw [← e4, s2], by rw [← e5, s3]⟩
  · rintro ⟨_, _, _, _, s⟩
    obtain ⟨l, x, b, hl, hx, hb, hne⟩ := hvals
    apply hne
    rw [e6 l x b hl hx hb, s l x b (by rw [e3]; exact hl) (by rw [e4]; exact hx) (by rw [e5]; exact hb)]

example : ∃ fs', Stopped posixSep (writeImage posixSep (fun _ => none) ⟨.u8, 2, 1, 1, fun _ _ _ => [7]⟩ "a".toList none "bil".toList).1
      ⟨.u8, 1, 2, 1, fun _ _ _ => [9]⟩ "a".toList "bil".toList fs' ∧
      ∃ c', readImage (F := Unit) (fun _ => none) posixSep fs' "a".toList none = .ok c' ∧ ¬ c'.Same ⟨.u8, 1, 2, 1, fun _ _ _ => [9]⟩ ∧
        ¬ c'.Same ⟨.u8, 2, 1, 1, fun _ _ _ => [7]⟩ := by
  refine C62_reshaped_false _ posixSep (.inl rfl) _ ⟨.u8, 2, 1, 1, fun _ _ _ => [7]⟩ ⟨.u8, 1, 2, 1, fun _ _ _ => [9]⟩ (fun _ _ _ _ _ _ => rfl)
    (by intro t n h; simp at h) rfl _ rfl (by simp) ⟨0, 0, 0, by simp, by simp, by simp, ?_⟩
  have := rawData_get ⟨.u8, 1, 2, 1, fun _ _ _ => [9]⟩ 0 0 0 (by simp) (by simp) (by simp)
  simp only [] at this
  rw [show ((0 * 1 + 0) * 1 + 0) = (0 * 1 + 0) * 2 + 0 from rfl, this]
  simp

theorem read_short (nx : Nat) (hx : 0 < nx) (raw : List (List Nat)) (ps : List (Nat × Nat)) (px0 : Nat → Nat → Nat → List Nat) (c0 : Nat)
    (hc : c0 ≤ raw.length) (h1 : raw.length < c0 + ps.length * nx) (h2 : raw.length + nx ≠ c0 + ps.length * nx + 1) :
    ps.foldlM (readTurn nx raw) (px0, c0) = .error .valueError := by
  induction ps generalizing px0 c0 with
  | nil => simp at h1; omega
  | cons p ps ih =>
    simp only [List.length_cons, Nat.succ_mul] at h1 h2
    have hchunk : ((raw.drop c0).take nx).length = min nx (raw.length - c0) := by rw [List.length_take, List.length_drop]
    rw [List.foldlM_cons]
    by_cases ha : c0 + nx ≤ raw.length
    · have : readTurn nx raw (px0, c0) p = .ok (fun y x z => if y = p.1 ∧ z = p.2 then ((raw.drop c0).take nx).getD x [] else px0 y x z, c0 + nx) := by
        unfold readTurn setLine
        simp only [hchunk]
        rw [if_pos (by omega)]
      rw [this, Verif.ok_bind]
      exact ih _ _ ha (by omega) (by omega)
    · by_cases hb : raw.length = c0 + 1
      · cases ps with
        | nil => simp at h1 h2; omega
        | cons q ps =>
          have hlen1 : min nx (raw.length - c0) = 1 := by omega
          have : readTurn nx raw (px0, c0) p = .ok (fun y x z => if y = p.1 ∧ z = p.2 then ((raw.drop c0).take nx).getD 0 [] else px0 y x z, c0 + nx) := by
            unfold readTurn setLine
            simp only [hchunk, hlen1]
            rw [if_neg (by omega), if_pos trivial]
          rw [this, Verif.ok_bind, List.foldlM_cons]
          have h0 : ((raw.drop (c0 + nx)).take nx).length = 0 := by rw [List.length_take, List.length_drop]; omega
          have : ∀ px, readTurn nx raw (px, c0 + nx) q = .error .valueError := by
            intro px
            unfold readTurn setLine
            simp only [h0]
            rw [if_neg (by omega), if_neg (by omega)]
          rw [this]
          rfl
      · have : readTurn nx raw (px0, c0) p = .error .valueError := by
          unfold readTurn setLine
          simp only [hchunk]
          rw [if_neg (by omega), if_neg (by omega)]
        rw [this]
        rfl

/-- C59: a file with fewer values than its header announces is a ValueError, except when exactly the last `samples - 1` values are missing
(`C62_truncated_false`). -/
theorem C59_short_file (dt : DType) (raw : List (List Nat)) (nx ny nb : Nat) (hx : 0 < nx) (h1 : raw.length < ny * nb * nx)
    (h2 : raw.length + (nx - 1) ≠ ny * nb * nx) : construct dt raw nx ny nb "bil".toList = .error .valueError := by
  unfold construct
  rw [if_neg (by omega)]
  simp only [if_true, Int.toNat_natCast]
  rw [read_short nx hx raw _ _ 0 (by omega) (by rw [bilPairs_length]; omega) (by rw [bilPairs_length]; omega)]

example : (0 : Nat) < 3 ∧ (List.replicate 10 [0, 0]).length < 2 * 2 * 3 ∧ (List.replicate 9 [0, 0]).length + (3 - 1) ≠ 2 * 2 * 3 := by decide

theorem foldlM_append' {α β : Type} (f : β → α → Py β) (l l' : List α) (b : β) :
    (l ++ l').foldlM f b = (l.foldlM f b >>= fun b' => l'.foldlM f b') := by
  rw [List.foldlM_append]

/-- Overwriting an image by one of the same shape and type with at least two samples: a call that stops when all but the last
`samples - 1` values are written leaves a readable image whose last line, in the last band, repeats one value. -/
theorem C62_truncated_false (pf : Str → Option F) (ls : Str) (hls : Sep ls) (fs : FS) (old new : Cube) (hn : new.Valid)
    (hs : Supported new.dtype) (hdt : old.dtype = new.dtype) (fname : Str)
    (s1 : old.arr.ny = new.arr.ny) (s2 : old.arr.nx = new.arr.nx) (s3 : old.arr.nb = new.arr.nb) (hy : 0 < new.arr.ny) (hb : 0 < new.arr.nb)
    (hx : 1 < new.arr.nx) :
    ∃ fs', Stopped ls (writeImage ls fs old fname none "bil".toList).1 new fname "bil".toList fs' ∧
      ∃ c', readImage pf ls fs' fname none = .ok c' ∧
        (∀ x, x < new.arr.nx → c'.arr.px (new.arr.ny - 1) x (new.arr.nb - 1) = new.arr.px (new.arr.ny - 1) 0 (new.arr.nb - 1)) ∧
        (∀ l x b, l < new.arr.ny → x < new.arr.nx → b < new.arr.nb → (l, b) ≠ (new.arr.ny - 1, new.arr.nb - 1) →
          c'.arr.px l x b = new.arr.px l x b) := by
  obtain ⟨code, h1, h2, h3⟩ := supported_code hs
  have hw : (writeImage ls fs old fname none "bil".toList).1 =
      (fs.put fname (dataBytes old "bil".toList)).put (headerName fname none) (headerBytes ls old code "bil".toList) := by
    unfold writeImage
    rw [hdt, h1]
  rw [hw]
  -- the values of the truncated file
  have hN : new.arr.ny * new.arr.nb * new.arr.nx - new.arr.nx + 1 ≤ (rawData new "bil".toList).length := by
    rw [rawData_length]
    have : new.arr.nx ≤ new.arr.ny * new.arr.nb * new.arr.nx := Nat.le_mul_of_pos_left _ (Nat.mul_pos hy hb)
    omega
  obtain ⟨raw, hraw⟩ : ∃ raw, raw = (rawData new "bil".toList).take (new.arr.ny * new.arr.nb * new.arr.nx - new.arr.nx + 1) := ⟨_, rfl⟩
  have hrl : raw.length = new.arr.ny * new.arr.nb * new.arr.nx - new.arr.nx + 1 := by
    rw [hraw, List.length_take, Nat.min_eq_left hN]
  have hrg : ∀ i, i < new.arr.ny * new.arr.nb * new.arr.nx - new.arr.nx + 1 → raw[i]? = (rawData new "bil".toList)[i]? := by
    intro i hi
    rw [hraw, List.getElem?_take_of_lt hi]
  have hpre : raw.flatten <+: dataBytes new "bil".toList := by
    unfold dataBytes
    conv_rhs => rw [← List.take_append_drop (new.arr.ny * new.arr.nb * new.arr.nx - new.arr.nx + 1) (rawData new "bil".toList), List.flatten_append]
    rw [hraw]
    exact List.prefix_append _ _
  refine ⟨_, .data raw.flatten hpre, ?_⟩
  have hname : headerChoice ((((fs.put fname (dataBytes old "bil".toList)).put (headerName fname none) (headerBytes ls old code "bil".toList))).put fname raw.flatten)
      fname none = some (headerName fname none) := by
    unfold headerChoice
    apply guess_default
    rw [put_other _ _ _ _ (name_ne fname)]
    show (((fs.put fname (dataBytes old "bil".toList)).put (headerName fname none) _) (headerName fname none)).isSome
    rw [put_same]; rfl
  rw [read_with_header pf ls hls _ fname none _ old code _ plain_bil hname (by
    rw [put_other _ _ _ _ (hdr_ne fname).symm]
    exact put_same _ _ _) (by rw [h2, hdt])]
  have hff : ∀ fs2 : FS, fs2 fname = some raw.flatten → fromFile fs2 fname (some new.dtype) = .ok (new.dtype, raw) := by
    intro fs2 e
    unfold fromFile
    rw [e]
    simp only [Option.getD_some]
    have := itemsOf_flatten new.dtype.size h3 raw (by
      intro e he
      rw [hraw] at he
      exact raw_sizes hn _ e (List.mem_of_mem_take he)) [] h3
    rw [List.append_nil] at this
    unfold itemsOf at this
    rw [this]
  rw [hdt, hff _ (put_same _ _ _), s1, s2, s3]
  -- all turns but the last one have their whole line
  have hsplit : bilPairs new.arr.ny new.arr.nb = (bilPairs new.arr.ny new.arr.nb).dropLast ++ [(new.arr.ny - 1, new.arr.nb - 1)] := by
    have hpos : 0 < new.arr.ny * new.arr.nb := Nat.mul_pos hy hb
    have hne : bilPairs new.arr.ny new.arr.nb ≠ [] := by
      intro e
      have := bilPairs_length new.arr.ny new.arr.nb
      rw [e] at this
      simp at this
      omega
    have hlast : (bilPairs new.arr.ny new.arr.nb).getLast hne = (new.arr.ny - 1, new.arr.nb - 1) := by
      have := bilPairs_get new.arr.ny new.arr.nb (new.arr.ny - 1) (new.arr.nb - 1) (by omega) (by omega)
      have hidx : (new.arr.ny - 1) * new.arr.nb + (new.arr.nb - 1) = (bilPairs new.arr.ny new.arr.nb).length - 1 := by
        rw [bilPairs_length]
        have : new.arr.ny * new.arr.nb = (new.arr.ny - 1) * new.arr.nb + new.arr.nb := by
          conv_lhs => rw [show new.arr.ny = (new.arr.ny - 1) + 1 by omega, Nat.succ_mul]
        omega
      rw [hidx, ← List.getLast?_eq_getElem?, List.getLast?_eq_some_getLast hne] at this
      simpa using this
    conv_lhs => rw [← List.dropLast_append_getLast hne, hlast]
  have hdl : (bilPairs new.arr.ny new.arr.nb).dropLast.length * new.arr.nx = new.arr.ny * new.arr.nb * new.arr.nx - new.arr.nx := by
    rw [List.length_dropLast, bilPairs_length, Nat.sub_mul, Nat.one_mul]
  have hnod := bilPairs_nodup new.arr.ny new.arr.nb
  rw [hsplit] at hnod
  have hnod2 := List.nodup_append.1 hnod
  obtain ⟨px, f1, f2, f3⟩ := read_fold new.arr.nx raw (bilPairs new.arr.ny new.arr.nb).dropLast hnod2.1 (fun _ _ _ => List.replicate new.dtype.size 0) 0 (by
    rw [hrl, hdl]; omega)
  have hv0 : raw[new.arr.ny * new.arr.nb * new.arr.nx - new.arr.nx]? = some (new.arr.px (new.arr.ny - 1) 0 (new.arr.nb - 1)) := by
    rw [hrg _ (by omega)]
    rw [← rawData_get new (new.arr.ny - 1) 0 (new.arr.nb - 1) (by omega) (by omega) (by omega)]
    congr 1
    have e : new.arr.ny * new.arr.nb = (new.arr.ny - 1) * new.arr.nb + (new.arr.nb - 1) + 1 := by
      conv_lhs => rw [show new.arr.ny = (new.arr.ny - 1) + 1 by omega, Nat.succ_mul]
      omega
    rw [e, Nat.succ_mul]
    omega
  have hchunk : (raw.drop (0 + (bilPairs new.arr.ny new.arr.nb).dropLast.length * new.arr.nx)).take new.arr.nx = [new.arr.px (new.arr.ny - 1) 0 (new.arr.nb - 1)] := by
    rw [Nat.zero_add, hdl]
    have hl1 : (raw.drop (new.arr.ny * new.arr.nb * new.arr.nx - new.arr.nx)).length = 1 := by rw [List.length_drop, hrl]; omega
    obtain ⟨a, ha⟩ := List.length_eq_one_iff.1 hl1
    have : (raw.drop (new.arr.ny * new.arr.nb * new.arr.nx - new.arr.nx))[0]? = some (new.arr.px (new.arr.ny - 1) 0 (new.arr.nb - 1)) := by
      rw [List.getElem?_drop, Nat.add_zero]; exact hv0
    rw [ha] at this ⊢
    simp at this
    rw [this]
    rw [List.take_of_length_le (by simp; omega)]
  refine ⟨⟨new.dtype, new.arr.ny, new.arr.nx, new.arr.nb, fun y x z => if y = new.arr.ny - 1 ∧ z = new.arr.nb - 1 then
    new.arr.px (new.arr.ny - 1) 0 (new.arr.nb - 1) else px y x z⟩, ?_, ?_, ?_⟩
  · show construct new.dtype raw new.arr.nx new.arr.ny new.arr.nb "bil".toList = _
    unfold construct
    rw [if_neg (by omega)]
    simp only [if_true, Int.toNat_natCast]
    have hturn : readTurn new.arr.nx raw (px, 0 + (bilPairs new.arr.ny new.arr.nb).dropLast.length * new.arr.nx) (new.arr.ny - 1, new.arr.nb - 1) =
        .ok (fun y x z => if y = new.arr.ny - 1 ∧ z = new.arr.nb - 1 then new.arr.px (new.arr.ny - 1) 0 (new.arr.nb - 1) else px y x z,
          0 + (bilPairs new.arr.ny new.arr.nb).dropLast.length * new.arr.nx + new.arr.nx) := by
      unfold readTurn setLine
      simp only [hchunk]
      rw [if_neg (by simp; omega), if_pos (by simp)]
      simp
    have hfold : (bilPairs new.arr.ny new.arr.nb).foldlM (readTurn new.arr.nx raw) (fun _ _ _ => List.replicate new.dtype.size 0, 0) =
        .ok (fun y x z => if y = new.arr.ny - 1 ∧ z = new.arr.nb - 1 then new.arr.px (new.arr.ny - 1) 0 (new.arr.nb - 1) else px y x z,
          0 + (bilPairs new.arr.ny new.arr.nb).dropLast.length * new.arr.nx + new.arr.nx) := by
      rw [hsplit, foldlM_append', f1]
      show (List.foldlM (readTurn new.arr.nx raw) _ [_]) = _
      rw [List.foldlM_cons, hturn, List.dropLast_concat]
      rfl
    rw [hfold]
  · intro x hx'
    simp
  · intro l x b hl hx' hb' hne
    simp only []
    rw [if_neg (by rintro ⟨rfl, rfl⟩; exact hne rfl)]
    have hget := bilPairs_get new.arr.ny new.arr.nb l b hl hb'
    have hidx : l * new.arr.nb + b < new.arr.ny * new.arr.nb - 1 := by
      have hle : l * new.arr.nb + b < new.arr.ny * new.arr.nb := by
        have : (l + 1) * new.arr.nb ≤ new.arr.ny * new.arr.nb := Nat.mul_le_mul_right _ hl
        rw [Nat.succ_mul] at this
        omega
      by_contra hc
      have he : l * new.arr.nb + b = new.arr.ny * new.arr.nb - 1 := by omega
      have hlast := bilPairs_get new.arr.ny new.arr.nb (new.arr.ny - 1) (new.arr.nb - 1) (by omega) (by omega)
      have e2 : (new.arr.ny - 1) * new.arr.nb + (new.arr.nb - 1) = new.arr.ny * new.arr.nb - 1 := by
        have : new.arr.ny * new.arr.nb = (new.arr.ny - 1) * new.arr.nb + new.arr.nb := by
          conv_lhs => rw [show new.arr.ny = (new.arr.ny - 1) + 1 by omega, Nat.succ_mul]
        omega
      rw [e2, ← he, hget] at hlast
      exact hne (by simpa using hlast)
    have hget2 : (bilPairs new.arr.ny new.arr.nb).dropLast[l * new.arr.nb + b]? = some (l, b) := by
      rw [List.getElem?_dropLast, if_pos (by rw [bilPairs_length]; exact hidx)]
      exact hget
    have := f2 _ _ hget2 x hx'
    rw [Nat.zero_add, hrg _ (by
      have h4 : (l * new.arr.nb + b + 1) * new.arr.nx ≤ (new.arr.ny * new.arr.nb - 1) * new.arr.nx := Nat.mul_le_mul_right _ hidx
      rw [Nat.succ_mul, Nat.sub_mul, Nat.one_mul] at h4
      omega), rawData_get new l x b hl hx' hb'] at this
    simpa using this.symm

theorem prefix_items (n : Nat) (hn : 0 < n) (raw : List (List Nat)) (h : ∀ e ∈ raw, e.length = n) (b : List Nat) (hb : b <+: raw.flatten) :
    itemsOf n b = raw.take (b.length / n) := by
  have key : ∀ (raw : List (List Nat)) (b : List Nat), (∀ e ∈ raw, e.length = n) → b <+: raw.flatten →
      ∃ rest : List Nat, rest.length < n ∧ b = (raw.take (b.length / n)).flatten ++ rest := by
    intro raw
    induction raw with
    | nil =>
      intro b _ hb
      simp only [List.flatten_nil, List.prefix_nil] at hb
      subst hb
      exact ⟨[], by simpa using hn, by simp⟩
    | cons a l ih =>
      intro b hs hb
      have ha := hs a (by simp)
      rw [List.flatten_cons] at hb
      by_cases hlt : b.length < n
      · refine ⟨b, hlt, ?_⟩
        rw [Nat.div_eq_of_lt hlt]
        simp
      · have hab : a <+: b := List.prefix_of_prefix_length_le (List.prefix_append a _) hb (by omega)
        obtain ⟨b', rfl⟩ := hab
        rw [List.prefix_append_right_inj] at hb
        obtain ⟨rest, hr, e⟩ := ih b' (fun e he => hs e (by simp [he])) hb
        refine ⟨rest, hr, ?_⟩
        have hdiv : (a ++ b').length / n = b'.length / n + 1 := by
          rw [List.length_append, ha, Nat.add_comm, Nat.add_div_right _ hn]
        rw [hdiv, List.take_succ_cons, List.flatten_cons, List.append_assoc, ← e]
  obtain ⟨rest, hr, e⟩ := key raw b h hb
  conv_lhs => rw [e]
  exact itemsOf_flatten n hn _ (fun x hx => h x (List.mem_of_mem_take hx)) rest hr

/-- C62 (partial): overwriting an image by one of the same shape and type, whenever the call stops, a later read fails, returns the old image or
returns the new image, except when exactly all but the last `samples - 1` values were written (`C62_truncated_false` tells what is read then); images
with one sample per line have no such point.  Missing: overwriting by another shape (`C62_reshaped_false`). -/
theorem C62_same_shape_partial (pf : Str → Option F) (ls : Str) (hls : Sep ls) (fs : FS) (old new : Cube) (ho : old.Valid) (hn : new.Valid)
    (hs : Supported new.dtype) (hdt : old.dtype = new.dtype) (fname : Str)
    (s1 : old.arr.ny = new.arr.ny) (s2 : old.arr.nx = new.arr.nx) (s3 : old.arr.nb = new.arr.nb) (hx : 0 < new.arr.nx) (fs' : FS)
    (hst : Stopped ls (writeImage ls fs old fname none "bil".toList).1 new fname "bil".toList fs') :
    (∃ e, readImage pf ls fs' fname none = .error e) ∨ (∃ c', readImage pf ls fs' fname none = .ok c' ∧ c'.Same old) ∨
    (∃ c', readImage pf ls fs' fname none = .ok c' ∧ c'.Same new) ∨
    (1 < new.arr.nx ∧ ∃ b, fs' fname = some b ∧ b.length / new.dtype.size + (new.arr.nx - 1) = new.arr.ny * new.arr.nb * new.arr.nx) := by
  obtain ⟨code, h1, h2, h3⟩ := supported_code hs
  have hw : (writeImage ls fs old fname none "bil".toList).1 =
      (fs.put fname (dataBytes old "bil".toList)).put (headerName fname none) (headerBytes ls old code "bil".toList) := by
    unfold writeImage
    rw [hdt, h1]
  cases hst with
  | before =>
    obtain ⟨fs2, w1, c', w2, w3⟩ := C59_roundtrip_partial pf ls hls fs old ho (by rw [hdt]; exact hs) fname none (by simp)
    rw [w1]
    exact .inr (.inl ⟨c', w2, w3⟩)
  | header code' hc b hb =>
    rcases C62_header_partial pf ls hls (writeImage ls fs old fname none "bil".toList).1 new fname _ plain_bil code' hc b hb with e | e
    · exact .inl ⟨_, e⟩
    · refine .inr (.inr (.inl ?_))
      rw [e]
      obtain ⟨fs2, w1, c', w2, w3⟩ := C59_roundtrip_partial pf ls hls (writeImage ls fs old fname none "bil".toList).1 new hn hs fname none (by simp)
      generalize (writeImage ls fs old fname none "bil".toList).1 = f0 at w1 ⊢
      unfold writeImage at w1
      rw [hc] at w1
      simp only [Prod.mk.injEq, and_true] at w1
      rw [← w1] at w2
      exact ⟨c', w2, w3⟩
  | data b hb =>
    rw [hw]
    have hname : headerChoice ((((fs.put fname (dataBytes old "bil".toList)).put (headerName fname none) (headerBytes ls old code "bil".toList))).put fname b)
        fname none = some (headerName fname none) := by
      unfold headerChoice
      apply guess_default
      rw [put_other _ _ _ _ (name_ne fname)]
      show (((fs.put fname (dataBytes old "bil".toList)).put (headerName fname none) _) (headerName fname none)).isSome
      rw [put_same]; rfl
    have hread := read_with_header pf ls hls _ fname none _ old code _ plain_bil hname (by
      rw [put_other _ _ _ _ (hdr_ne fname).symm]
      exact put_same _ _ _) (by rw [h2, hdt])
    have hit := prefix_items new.dtype.size h3 (rawData new "bil".toList) (raw_sizes hn _) b hb
    have hff : ∀ fs2 : FS, fs2 fname = some b → fromFile fs2 fname (some new.dtype) = .ok (new.dtype, (rawData new "bil".toList).take (b.length / new.dtype.size)) := by
      intro fs2 e
      unfold fromFile
      rw [e]
      simp only [Option.getD_some]
      unfold itemsOf at hit
      rw [hit]
    rw [hdt, hff _ (put_same _ _ _), s1, s2, s3] at hread
    change _ = construct new.dtype ((rawData new "bil".toList).take (b.length / new.dtype.size)) new.arr.nx new.arr.ny new.arr.nb "bil".toList at hread
    rw [hread]
    have hlen : ((rawData new "bil".toList).take (b.length / new.dtype.size)).length = min (b.length / new.dtype.size) (new.arr.ny * new.arr.nb * new.arr.nx) := by
      rw [List.length_take, rawData_length]
    by_cases hfull : new.arr.ny * new.arr.nb * new.arr.nx ≤ b.length / new.dtype.size
    · refine .inr (.inr (.inl ?_))
      rw [List.take_of_length_le (by rw [rawData_length]; exact hfull)]
      obtain ⟨c', e1, e2, e3, e4, e5, e6⟩ := construct_bil new.dtype (rawData new "bil".toList) new.arr.nx new.arr.ny new.arr.nb (by rw [rawData_length])
      refine ⟨c', e1, e2, e3, e4, e5, ?_⟩
      intro y x z hy hx hz
      rw [e3] at hy; rw [e4] at hx; rw [e5] at hz
      have a := e6 y x z hy hx hz
      rw [rawData_get new y x z hy hx hz] at a
      simpa using a.symm
    · rw [not_le] at hfull
      by_cases hgap : b.length / new.dtype.size + (new.arr.nx - 1) = new.arr.ny * new.arr.nb * new.arr.nx
      · exact .inr (.inr (.inr ⟨by omega, b, put_same _ _ _, hgap⟩))
      · exact .inl ⟨_, C59_short_file new.dtype _ new.arr.nx new.arr.ny new.arr.nb hx (by rw [hlen]; omega) (by rw [hlen, Nat.min_eq_left hfull.le]; exact hgap)⟩

/-- One sample per line: no crash point of an overwrite of the same shape can be mistaken for another image. -/
example : (0 : Nat) < (⟨.u8, 3, 1, 2, fun _ _ _ => [7]⟩ : Cube).arr.nx ∧ (⟨.u8, 3, 1, 2, fun _ _ _ => [7]⟩ : Cube).Valid ∧
    ¬ 1 < (⟨.u8, 3, 1, 2, fun _ _ _ => [7]⟩ : Cube).arr.nx := ⟨by decide, fun _ _ _ _ _ _ => rfl, by decide⟩

example : ∃ fs', Stopped posixSep (writeImage posixSep (fun _ => none) ⟨.u8, 1, 2, 1, fun _ _ _ => [7]⟩ "a".toList none "bil".toList).1
      ⟨.u8, 1, 2, 1, fun _ x _ => [x]⟩ "a".toList "bil".toList fs' ∧
      ∃ c', readImage (F := Unit) (fun _ => none) posixSep fs' "a".toList none = .ok c' ∧ c'.arr.px 0 1 0 = [0] := by
  obtain ⟨fs', h1, c', h2, h3, _⟩ := C62_truncated_false (F := Unit) (fun _ => none) posixSep (.inl rfl) (fun _ => none)
    ⟨.u8, 1, 2, 1, fun _ _ _ => [7]⟩ ⟨.u8, 1, 2, 1, fun _ x _ => [x]⟩ (fun _ _ _ _ _ _ => rfl) (by intro t n h; simp at h) rfl "a".toList
    rfl rfl rfl (by simp) (by simp) (by simp)
  exact ⟨fs', h1, c', h2, h3 1 (by simp)⟩

/-! ### C77 -/

/-- When no header of the shorter name exists, the metadata of an `EnviImage` opened after the write is the written one. -/
theorem C77_metadata_partial (pf : Str → Option F) (ls : Str) (hls : Sep ls) (fs : FS) (c : Cube) (hs : Supported c.dtype)
    (fname : Str) (h : fs (fname.take (fname.length - 4) ++ ".hdr".toList) = none)
    (h3 : fname.take (fname.length - 4) ++ ".hdr".toList ≠ fname) :
    imageMetadata pf ls (writeImage ls fs c fname none "bil".toList).1 fname none = .ok (c.arr.nx, c.arr.ny, c.arr.nb) := by
  obtain ⟨code, h1, h2, _⟩ := supported_code hs
  unfold writeImage
  rw [h1]
  have hname : guessHeaderImage ((fs.put fname (dataBytes c "bil".toList)).put (headerName fname none) (headerBytes ls c code "bil".toList)) fname =
      some (headerName fname none) := by
    unfold guessHeaderImage
    simp only [List.foldl_cons, List.foldl_nil]
    have e1 : ((fs.put fname (dataBytes c "bil".toList)).put (headerName fname none) (headerBytes ls c code "bil".toList)) (fname ++ ".hdr".toList) =
        some (headerBytes ls c code "bil".toList) := put_same _ _ _
    rw [e1]
    simp only [Option.isSome_some, if_true]
    by_cases he : fname.take (fname.length - 4) ++ ".hdr".toList = fname ++ ".hdr".toList
    · rw [he, e1]; rfl
    · have e2 : ((fs.put fname (dataBytes c "bil".toList)).put (headerName fname none) (headerBytes ls c code "bil".toList))
          (fname.take (fname.length - 4) ++ ".hdr".toList) = none := by
        rw [put_other _ _ _ _ (show _ ≠ headerName fname none from he), put_other _ _ _ _ h3]; exact h
      rw [e2]
      rfl
  obtain ⟨d, hd, e1, e2, e3, _⟩ := header_full pf ls hls c code "bil".toList plain_bil
  have : readHeader pf ls ((fs.put fname (dataBytes c "bil".toList)).put (headerName fname none) (headerBytes ls c code "bil".toList))
      (some (headerName fname none)) = .ok d := by
    simp only [readHeader, put_same]
    unfold headerBytes
    rw [toText_toBytes]
    exact hd
  unfold imageMetadata
  simp only [hname, this]
  show (getInt d "samples".toList >>= _) = _
  rw [e1, e2, e3]
  rfl

/-- When a header of the shorter name exists, say of another image `old` stored as `name.img` + `name.hdr`, an `EnviImage` opened on
the file just written reports the dimensions of that other image, although `read_envi_image` reads the new one. -/
theorem C77_stale_header_false (pf : Str → Option F) (ls : Str) (hls : Sep ls) (fs : FS) (old new : Cube) (hv : new.Valid) (hs : Supported new.dtype)
    (hso : Supported old.dtype) (fname : Str) (hl : 0 < fname.length) (h3 : fname.take (fname.length - 4) ++ ".hdr".toList ≠ fname)
    (hshape : ¬ (old.arr.ny = new.arr.ny ∧ old.arr.nx = new.arr.nx ∧ old.arr.nb = new.arr.nb)) :
    ∃ fs0 : FS, imageMetadata pf ls (writeImage ls fs0 new fname none "bil".toList).1 fname none ≠ .ok (new.arr.nx, new.arr.ny, new.arr.nb) ∧
      ∃ c', readImage pf ls (writeImage ls fs0 new fname none "bil".toList).1 fname none = .ok c' ∧ c'.Same new := by
  obtain ⟨code, h1, h2, _⟩ := supported_code hs
  obtain ⟨codeO, o1, o2, _⟩ := supported_code hso
  refine ⟨fs.put (fname.take (fname.length - 4) ++ ".hdr".toList) (headerBytes ls old codeO "bil".toList), ?_, ?_⟩
  · unfold writeImage
    rw [h1]
    have hne : fname.take (fname.length - 4) ++ ".hdr".toList ≠ fname ++ ".hdr".toList := by
      intro e
      have := congrArg List.length e
      simp at this
      omega
    have e2 : (((fs.put (fname.take (fname.length - 4) ++ ".hdr".toList) (headerBytes ls old codeO "bil".toList)).put fname (dataBytes new "bil".toList)).put (headerName fname none)
        (headerBytes ls new code "bil".toList)) (fname.take (fname.length - 4) ++ ".hdr".toList) = some (headerBytes ls old codeO "bil".toList) := by
      rw [put_other _ _ _ _ (show _ ≠ headerName fname none from hne), put_other _ _ _ _ h3, put_same]
    have hname : guessHeaderImage (((fs.put (fname.take (fname.length - 4) ++ ".hdr".toList) (headerBytes ls old codeO "bil".toList)).put fname (dataBytes new "bil".toList)).put (headerName fname none)
        (headerBytes ls new code "bil".toList)) fname = some (fname.take (fname.length - 4) ++ ".hdr".toList) := by
      unfold guessHeaderImage
      simp only [List.foldl_cons, List.foldl_nil, e2, Option.isSome_some, if_true]
    obtain ⟨d, hd, e3, e4, e5, _⟩ := header_full pf ls hls old codeO "bil".toList plain_bil
    have : readHeader pf ls (((fs.put (fname.take (fname.length - 4) ++ ".hdr".toList) (headerBytes ls old codeO "bil".toList)).put fname (dataBytes new "bil".toList)).put (headerName fname none)
        (headerBytes ls new code "bil".toList)) (some (fname.take (fname.length - 4) ++ ".hdr".toList)) = .ok d := by
      simp only [readHeader, e2]
      unfold headerBytes
      rw [toText_toBytes]
      exact hd
    unfold imageMetadata
    simp only [hname, this]
    show (getInt d "samples".toList >>= _) ≠ _
    rw [e3, e4, e5]
    intro e
    have e' : (Except.ok ((old.arr.nx : Int), (old.arr.ny : Int), (old.arr.nb : Int)) : Py (Int × Int × Int)) = .ok (new.arr.nx, new.arr.ny, new.arr.nb) := e
    simp only [Except.ok.injEq, Prod.mk.injEq, Int.natCast_inj] at e'
    exact hshape ⟨e'.2.1, e'.1, e'.2.2⟩
  · obtain ⟨fs2, w1, c', w2, w3⟩ := C59_roundtrip_partial pf ls hls (fs.put (fname.take (fname.length - 4) ++ ".hdr".toList) (headerBytes ls old codeO "bil".toList)) new hv hs fname none (by simp)
    rw [w1]
    exact ⟨c', w2, w3⟩

example : imageMetadata (F := Unit) (fun _ => none) posixSep
      (writeImage posixSep (fun _ => none) ⟨.u8, 1, 2, 3, fun _ x _ => [x]⟩ "img.dat".toList none "bil".toList).1 "img.dat".toList none = .ok (2, 1, 3) :=
  C77_metadata_partial _ posixSep (.inl rfl) _ ⟨.u8, 1, 2, 3, fun _ x _ => [x]⟩ (by intro t n h; simp at h) _ rfl (by decide)

example : ∃ fs0 : FS, imageMetadata (F := Unit) (fun _ => none) posixSep
      (writeImage posixSep fs0 ⟨.u8, 1, 2, 3, fun _ x _ => [x]⟩ "img.dat".toList none "bil".toList).1 "img.dat".toList none ≠ .ok (2, 1, 3) := by
  obtain ⟨fs0, h, _⟩ := C77_stale_header_false (F := Unit) (fun _ => none) posixSep (.inl rfl) (fun _ => none) ⟨.u8, 5, 5, 5, fun _ _ _ => [0]⟩
    ⟨.u8, 1, 2, 3, fun _ x _ => [x]⟩ (fun _ _ _ _ _ _ => rfl) (by intro t n h; simp at h) (by intro t n h; simp at h) "img.dat".toList (by decide) (by decide) (by simp)
  exact ⟨fs0, h⟩
