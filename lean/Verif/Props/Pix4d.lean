import Verif.Lemmas.Pix4d

/-! C69, C82: the pix4d parameter files and the dictionary made of them. -/

set_option linter.unusedVariables false

namespace Verif.Readers
open Verif Verif.TextUtils Verif.Envi

variable {F : Type}

/-- A line of numbers separated by white space. -/
def NumRow (pf : Str → Option F) (l : Str) (vs : List F) : Prop := ∃ ts, Fields l ts ∧ ts.map pf = vs.map some

theorem floatRow_ok (pf : Str → Option F) (l : Str) (vs : List F) (h : NumRow pf l vs) : floatRow pf l = .ok vs := by
  obtain ⟨ts, hf, he⟩ := h
  unfold floatRow
  rw [fields_words_eq hf]
  rw [mapM_ok_iff]
  have hl : vs.length = ts.length := by simpa using (congrArg List.length he).symm
  refine ⟨hl, ?_⟩
  intro i a hi
  have := congrArg (fun l => l[i]?) he
  simp only [List.getElem?_map, hi, Option.map_some] at this
  cases hv : vs[i]? with
  | none => rw [hv] at this; cases this
  | some v =>
    rw [hv] at this
    simp at this
    exact ⟨v, toFloat_ok.2 this, rfl⟩

/-- The ten lines describing one image: name and size separated by single blanks, three lines of the camera matrix, one of
radial and one of tangential distortion, one of position and three of the rotation matrix. -/
def IsRecord (pf : Str → Option F) (rec : List Str) (name : Str) (v : Calibrated F) : Prop :=
  ∃ (w h k1 k2 k3 rad tan t r1 r2 r3 : Str) (vk1 vk2 vk3 vrad vtan vt vr1 vr2 vr3 : List F),
    rec = [name ++ ' ' :: (w ++ ' ' :: h), k1, k2, k3, rad, tan, t, r1, r2, r3] ∧
    ' ' ∉ name ∧ ' ' ∉ w ∧ ' ' ∉ h ∧ parseInt w = some v.nx ∧ parseInt h = some v.ny ∧
    NumRow pf k1 vk1 ∧ NumRow pf k2 vk2 ∧ NumRow pf k3 vk3 ∧ NumRow pf rad vrad ∧ NumRow pf tan vtan ∧ NumRow pf t vt ∧
    NumRow pf r1 vr1 ∧ NumRow pf r2 vr2 ∧ NumRow pf r3 vr3 ∧
    v.k = [vk1, vk2, vk3] ∧ v.radial = [vrad] ∧ v.tangential = [vtan] ∧ v.t = [vt] ∧ v.r = [vr1, vr2, vr3]

theorem split3 (a b c : Str) (ha : ' ' ∉ a) (hb : ' ' ∉ b) (hc : ' ' ∉ c) : splitOn ' ' (a ++ ' ' :: (b ++ ' ' :: c)) = [a, b, c] := by
  rw [splitOn_append _ _ _ ha, splitOn_append _ _ _ hb, splitOn_single _ _ hc]

theorem toIntPy_ok {s : Str} {n : Int} : toIntPy s = .ok n ↔ parseInt s = some n := by
  unfold toIntPy
  cases h : parseInt s <;> simp

/-- A prefix of a record (at least its first line) is read, with the lines it has. -/
theorem readRecord_take (pf : Str → Option F) (rec : List Str) (name : Str) (v : Calibrated F) (h : IsRecord pf rec name v) (n : Nat) (hn : 0 < n) :
    readRecord pf (rec.take n) = .ok (name, ⟨v.nx, v.ny, v.k.take (n - 1), v.radial.take (n - 4), v.tangential.take (n - 5),
      v.t.take (n - 6), v.r.take (n - 7)⟩) := by
  obtain ⟨w, h, k1, k2, k3, rad, tan, t, r1, r2, r3, vk1, vk2, vk3, vrad, vtan, vt, vr1, vr2, vr3, rfl, a1, a2, a3, a4, a5,
    b1, b2, b3, b4, b5, b6, b7, b8, b9, c1, c2, c3, c4, c5⟩ := h
  rw [c1, c2, c3, c4, c5]
  have g1 := floatRow_ok pf _ _ b1
  have g2 := floatRow_ok pf _ _ b2
  have g3 := floatRow_ok pf _ _ b3
  have g4 := floatRow_ok pf _ _ b4
  have g5 := floatRow_ok pf _ _ b5
  have g6 := floatRow_ok pf _ _ b6
  have g7 := floatRow_ok pf _ _ b7
  have g8 := floatRow_ok pf _ _ b8
  have g9 := floatRow_ok pf _ _ b9
  unfold readRecord
  have big : ∀ (α : Type) (l : List α) (m : Nat), l.length ≤ m → l.take m = l := fun α l m hm => List.take_of_length_le hm
  rcases n with _ | _ | _ | _ | _ | _ | _ | _ | _ | _ | n
  · omega
  all_goals
    simp only [List.take_succ_cons, List.take_zero, List.take_nil, ok_bind, split3 _ _ _ a1 a2 a3, List.drop_succ_cons, List.drop_zero, List.drop_nil,
      List.mapM_cons, List.mapM_nil, g1, g2, g3, g4, g5, g6, g7, g8, g9, toIntPy_ok.2 a4, toIntPy_ok.2 a5, Nat.add_sub_cancel, Nat.reduceAdd,
      Nat.reduceSub, Nat.add_eq, pure, Except.pure]
  all_goals first
    | rfl
    | (simp only [ok_bind, show n + 10 - 1 = n + 9 by omega, show n + 10 - 4 = n + 6 by omega, show n + 10 - 5 = n + 5 by omega,
        show n + 10 - 6 = n + 4 by omega, show n + 10 - 7 = n + 3 by omega, List.take_succ_cons, List.take_nil])

theorem readRecord_ok (pf : Str → Option F) (rec : List Str) (name : Str) (v : Calibrated F) (h : IsRecord pf rec name v) :
    readRecord pf rec = .ok (name, v) := by
  have := readRecord_take pf rec name v h 10 (by omega)
  obtain ⟨w, h, k1, k2, k3, rad, tan, t, r1, r2, r3, vk1, vk2, vk3, vrad, vtan, vt, vr1, vr2, vr3, rfl, a1, a2, a3, a4, a5,
    b1, b2, b3, b4, b5, b6, b7, b8, b9, c1, c2, c3, c4, c5⟩ := h
  rw [c1, c2, c3, c4, c5] at this
  obtain ⟨nx, ny, vk, vr, vt, vtt, vrr⟩ := v
  simp only at c1 c2 c3 c4 c5
  subst c1; subst c2; subst c3; subst c4; subst c5
  exact this

theorem isRecord_length {pf : Str → Option F} {rec : List Str} {name : Str} {v : Calibrated F} (h : IsRecord pf rec name v) : rec.length = 10 := by
  obtain ⟨w, h, k1, k2, k3, rad, tan, t, r1, r2, r3, vk1, vk2, vk3, vrad, vtan, vt, vr1, vr2, vr3, rfl, _⟩ := h
  rfl

/-- The dictionary `d` made of the entries in order: a name maps to its last entry, other names to nothing. -/
def FromEntries {V : Type} (entries : List (Str × V)) (d : Dict V) : Prop :=
  (∀ (i : Nat) (name : Str) (v : V), entries[i]? = some (name, v) → (∀ (j : Nat) (v' : V), i < j → entries[j]? ≠ some (name, v')) →
    lookup d name = some v) ∧
  ∀ name, (∀ v, (name, v) ∉ entries) → lookup d name = none

theorem fromEntries_foldl {V : Type} (entries : List (Str × V)) : FromEntries entries (entries.foldl (fun d p => setKey d p.1 p.2) []) := by
  constructor
  · intro i name v hi hlast
    rw [lookup_foldl]
    have : lastOf entries name = some v := by
      unfold lastOf
      obtain ⟨hlt, e⟩ := List.getElem?_eq_some_iff.1 hi
      have h1 : entries = entries.take i ++ (name, v) :: entries.drop (i + 1) := by
        rw [← e, List.getElem_cons_drop, List.take_append_drop]
      have h2 : (entries.drop (i + 1)).filter (fun p => p.1 = name) = [] := by
        rw [List.filter_eq_nil_iff]
        intro p hp
        obtain ⟨k, hk⟩ := List.getElem?_of_mem hp
        rw [List.getElem?_drop] at hk
        simp only [decide_eq_true_eq]
        intro e'
        exact hlast (i + 1 + k) p.2 (by omega) (by rw [hk]; rw [← e'])
      rw [h1, List.filter_append, List.filter_cons]
      simp only [decide_true, if_true, h2]
      simp
    rw [this]
  · intro name h
    rw [lookup_foldl]
    have : lastOf entries name = none := by
      unfold lastOf
      rw [List.filter_eq_nil_iff.2]
      · rfl
      · intro p hp
        simp only [decide_eq_true_eq]
        intro e
        exact h p.2 (by rw [← e]; exact hp)
    rw [this]
    rfl

/-- The calibrated parameters: with eight header lines and ten-line records, the dictionary holds each image's record. -/
theorem C69_calibrated (pf : Str → Option F) (ls : Str) (hls : ls = posixSep ∨ ls = windowsSep) (file : Str) (header : List Str)
    (recs : List (List Str)) (entries : List (Str × Calibrated F)) (hl : HasLines file (header ++ recs.flatten)) (hh : header.length = 8)
    (hlen : recs.length = entries.length)
    (hr : ∀ (i : Nat) (rec : List Str) (p : Str × Calibrated F), recs[i]? = some rec → entries[i]? = some p → IsRecord pf rec p.1 p.2) :
    ∃ d, readCalibrated pf ls file = .ok d ∧ FromEntries entries d := by
  refine ⟨_, ?_, fromEntries_foldl entries⟩
  unfold readCalibrated
  rw [readTextList_lines ls hls hl, List.drop_left' hh, chunks_flatten]
  · exact storeAll_ok _ _ _ hlen (fun i r p h1 h2 => readRecord_ok pf r p.1 p.2 (hr i r p h1 h2)) []
  · intro r hr'
    obtain ⟨i, hi⟩ := List.getElem?_of_mem hr'
    have hlt : i < entries.length := by
      rw [← hlen]
      exact (List.getElem?_eq_some_iff.1 hi).1
    exact isRecord_length (hr i r _ hi (List.getElem?_eq_getElem hlt))

theorem chunks_more (recs : List (List Str)) (rest : List Str) (h : ∀ r ∈ recs, r.length = 10) (h1 : rest ≠ []) (h2 : rest.length < 10) :
    chunks10 (recs.flatten ++ rest) = recs ++ [rest] := by
  have hpos : 0 < rest.length := List.length_pos_of_ne_nil h1
  have hlen : recs.flatten.length = 10 * recs.length := by
    clear h1 h2
    induction recs with
    | nil => rfl
    | cons r recs ih =>
      rw [List.flatten_cons, List.length_append, h r List.mem_cons_self, ih (fun x hx => h x (List.mem_cons_of_mem _ hx)), List.length_cons]
      omega
  have hc := chunks_flatten recs h
  unfold chunks10 at hc ⊢
  rw [hlen, show (10 * recs.length + 9) / 10 = recs.length by omega] at hc
  rw [List.length_append, hlen, show (10 * recs.length + rest.length + 9) / 10 = recs.length + 1 by omega, List.range_succ, List.map_append]
  congr 1
  · refine Eq.trans ?_ hc
    refine List.map_congr_left ?_
    intro j hj
    have hj' := List.mem_range.1 hj
    rw [List.drop_append_of_le_length (by omega), List.take_append_of_le_length (by rw [List.length_drop]; omega)]
  · simp only [List.map_cons, List.map_nil]
    rw [← hlen, List.drop_left, List.take_of_length_le (by omega)]

theorem storeAll_append {V : Type} (f : List Str → Py (Str × V)) (a b : List (List Str)) (d : Dict V) :
    storeAll f (a ++ b) d = (storeAll f a d >>= fun d' => storeAll f b d') := by
  induction a generalizing d with
  | nil => rfl
  | cons r a ih =>
    have step : ∀ (l : List (List Str)), storeAll f (r :: l) d = (f r >>= fun p => storeAll f l (setKey d p.1 p.2)) := fun l => rfl
    rw [List.cons_append, step, step]
    cases f r with
    | error e => rfl
    | ok p =>
      rw [ok_bind, ok_bind]
      exact ih _

/-- An empty line after the records is refused. -/
theorem C69_calibrated_blank (pf : Str → Option F) (ls : Str) (hls : ls = posixSep ∨ ls = windowsSep) (file : Str) (header : List Str)
    (recs : List (List Str)) (entries : List (Str × Calibrated F)) (hl : HasLines file (header ++ (recs.flatten ++ [[]]))) (hh : header.length = 8)
    (hlen : recs.length = entries.length)
    (hr : ∀ (i : Nat) (rec : List Str) (p : Str × Calibrated F), recs[i]? = some rec → entries[i]? = some p → IsRecord pf rec p.1 p.2) :
    readCalibrated pf ls file = .error .valueError := by
  have h10 : ∀ r ∈ recs, r.length = 10 := by
    intro r hr'
    obtain ⟨i, hi⟩ := List.getElem?_of_mem hr'
    have hlt : i < entries.length := by
      rw [← hlen]
      exact (List.getElem?_eq_some_iff.1 hi).1
    exact isRecord_length (hr i r _ hi (List.getElem?_eq_getElem hlt))
  unfold readCalibrated
  rw [readTextList_lines ls hls hl, List.drop_left' hh, chunks_more recs [[]] h10 (by simp) (by simp), storeAll_append,
    storeAll_ok _ _ _ hlen (fun i r p h1 h2 => readRecord_ok pf r p.1 p.2 (hr i r p h1 h2)) [], ok_bind]
  rfl

/-- But a file cut inside its last record is accepted: the rows that are missing are missing from the result. -/
theorem C69_truncated_false (pf : Str → Option F) (ls : Str) (hls : ls = posixSep ∨ ls = windowsSep) (file : Str) (header : List Str)
    (rec : List Str) (name : Str) (v : Calibrated F) (hrec : IsRecord pf rec name v) (n : Nat) (h0 : 0 < n) (h10 : n < 10)
    (hl : HasLines file (header ++ rec.take n)) (hh : header.length = 8) :
    ∃ d v', readCalibrated pf ls file = .ok d ∧ lookup d name = some v' ∧ v'.nx = v.nx ∧ v'.ny = v.ny ∧ v'.r = v.r.take (n - 7) ∧ v'.r.length < 3 := by
  have hlen := isRecord_length hrec
  unfold readCalibrated
  rw [readTextList_lines ls hls hl, List.drop_left' hh]
  have hc := chunks_more [] (rec.take n) (by simp) (by
    intro e
    have := congrArg List.length e
    rw [List.length_take, hlen] at this
    simp at this
    omega) (by rw [List.length_take]; omega)
  simp only [List.flatten_nil, List.nil_append] at hc
  rw [hc]
  unfold storeAll
  rw [readRecord_take pf rec name v hrec n h0, ok_bind]
  refine ⟨_, ⟨v.nx, v.ny, v.k.take (n - 1), v.radial.take (n - 4), v.tangential.take (n - 5),
      v.t.take (n - 6), v.r.take (n - 7)⟩, rfl, ?_, rfl, rfl, rfl, ?_⟩
  · exact (lookup_setKey _ _ _ _).trans (if_pos rfl)
  · show (v.r.take (n - 7)).length < 3
    rw [List.length_take]; omega

/-- The external parameters: one header line, then name, position and angles separated by single blanks. -/
theorem C69_external (pf : Str → Option F) (ls : Str) (hls : ls = posixSep ∨ ls = windowsSep) (file : Str) (header : Str) (rows : List Str)
    (entries : List (Str × List F)) (hl : HasLines file (header :: rows)) (hlen : rows.length = entries.length)
    (hr : ∀ (i : Nat) (row : Str) (name : Str) (vs : List F), rows[i]? = some row → entries[i]? = some (name, vs) →
      ∃ ts : List Str, ts.length = 6 ∧ row = List.intercalate [' '] (name :: ts) ∧ (∀ t ∈ name :: ts, ' ' ∉ t) ∧ ts.map pf = vs.map some) :
    ∃ d, readExternal pf ls file = .ok d ∧ FromEntries entries d := by
  refine ⟨_, ?_, fromEntries_foldl entries⟩
  unfold readExternal
  rw [readTextList_lines ls hls hl, List.drop_succ_cons, List.drop_zero]
  refine storeAll_ok _ _ _ (by simpa using hlen) ?_ []
  intro i r p h1 h2
  rw [List.getElem?_map] at h1
  obtain ⟨row, hrow, rfl⟩ := Option.map_eq_some_iff.1 h1
  obtain ⟨ts, h6, rfl, hsp, hv⟩ := hr i row p.1 p.2 hrow h2
  simp only []
  unfold readExternalLine
  rw [splitOn_join ' ' (p.1 :: ts) (by simp) hsp]
  match ts, h6 with
  | [a, b, c, d, e, f], _ =>
    simp only []
    have hm : [a, b, c, d, e, f].mapM (toFloat pf) = .ok p.2 := by
      rw [mapM_ok_iff]
      have hl : p.2.length = 6 := by simpa using (congrArg List.length hv).symm
      refine ⟨hl, ?_⟩
      intro i s hi
      have := congrArg (fun l => l[i]?) hv
      simp only [List.getElem?_map, hi, Option.map_some] at this
      cases hq : p.2[i]? with
      | none => rw [hq] at this; cases this
      | some q => rw [hq] at this; simp at this; exact ⟨q, toFloat_ok.2 this, rfl⟩
    rw [hm, ok_bind]

/-- The error branches: a line of the external parameters that has not exactly seven fields, or a field after the name that is not a number, is
a ValueError; so is a calibrated record whose first line has not exactly three fields or whose image size is not a pair of integers. -/
theorem C69_malformed (pf : Str → Option F) :
    (∀ ts : List Str, ts ≠ [] → ts.length ≠ 7 → (∀ t ∈ ts, ' ' ∉ t) → readExternalLine pf (List.intercalate [' '] ts) = .error .valueError) ∧
    (∀ (name : Str) (ts : List Str), ts.length = 6 → (∀ t ∈ name :: ts, ' ' ∉ t) → (∃ t ∈ ts, pf t = none) →
      readExternalLine pf (List.intercalate [' '] (name :: ts)) = .error .valueError) ∧
    (∀ (ts : List Str) (rest : List Str), ts ≠ [] → ts.length ≠ 3 → (∀ t ∈ ts, ' ' ∉ t) →
      readRecord pf (List.intercalate [' '] ts :: rest) = .error .valueError) ∧
    (∀ name w h : Str, (∀ t ∈ [name, w, h], ' ' ∉ t) → (parseInt w = none ∨ parseInt h = none) →
      readRecord pf [List.intercalate [' '] [name, w, h]] = .error .valueError) := by
  refine ⟨?_, ?_, ?_, ?_⟩
  · intro ts h0 h7 hs
    unfold readExternalLine
    rw [splitOn_join ' ' ts h0 hs]
    match ts, h7 with
    | [], _ => rfl
    | [_], _ => rfl
    | [_, _], _ => rfl
    | [_, _, _], _ => rfl
    | [_, _, _, _], _ => rfl
    | [_, _, _, _, _], _ => rfl
    | [_, _, _, _, _, _], _ => rfl
    | [_, _, _, _, _, _, _], h => exact absurd rfl h
    | _ :: _ :: _ :: _ :: _ :: _ :: _ :: _ :: _, _ => rfl
  · intro name ts h6 hs hbad
    unfold readExternalLine
    rw [splitOn_join ' ' (name :: ts) (by simp) hs]
    match ts, h6 with
    | [a, b, c, d, e, f], _ =>
      simp only []
      have key : ∀ l : List Str, (∃ t ∈ l, pf t = none) → l.mapM (toFloat pf) = .error .valueError := by
        intro l
        induction l with
        | nil => rintro ⟨t, ht, _⟩; simp at ht
        | cons x l ih =>
          intro h
          rw [List.mapM_cons]
          cases hx : pf x with
          | none => simp only [toFloat, hx, error_bind]
          | some v =>
            have : ∃ t ∈ l, pf t = none := by
              obtain ⟨t, ht, hn⟩ := h
              rcases List.mem_cons.1 ht with rfl | ht
              · rw [hx] at hn; cases hn
              · exact ⟨t, ht, hn⟩
            have e1 : toFloat pf x = .ok v := by simp only [toFloat, hx]
            rw [e1, ok_bind, ih this]
            rfl
      rw [key _ hbad]
      rfl
  · intro ts rest h0 h3 hs
    have e : readRecord pf (List.intercalate [' '] ts :: rest) = (match splitOn ' ' (List.intercalate [' '] ts) with
      | [fname, w, h] => do
        let k ← (((List.intercalate [' '] ts :: rest).drop 1).take 3).mapM (floatRow pf)
        let radial ← (((List.intercalate [' '] ts :: rest).drop 4).take 1).mapM (floatRow pf)
        let tangential ← (((List.intercalate [' '] ts :: rest).drop 5).take 1).mapM (floatRow pf)
        let t ← (((List.intercalate [' '] ts :: rest).drop 6).take 1).mapM (floatRow pf)
        let r ← (((List.intercalate [' '] ts :: rest).drop 7).take 3).mapM (floatRow pf)
        let nx ← toIntPy w
        let ny ← toIntPy h
        .ok (fname, ⟨nx, ny, k, radial, tangential, t, r⟩)
      | _ => .error .valueError) := rfl
    rw [e, splitOn_join ' ' ts h0 hs]
    match ts, h3 with
    | [], _ => rfl
    | [_], _ => rfl
    | [_, _], _ => rfl
    | [_, _, _], h => exact absurd rfl h
    | _ :: _ :: _ :: _ :: _, _ => rfl
  · intro name w h hs hbad
    unfold readRecord
    simp only [ok_bind]
    rw [splitOn_join ' ' [name, w, h] (by simp) hs]
    simp only [List.drop_succ_cons, List.drop_nil, List.take_nil, List.mapM_nil]
    show (do
      let nx ← toIntPy w
      let ny ← toIntPy h
      Except.ok (name, (⟨nx, ny, [], [], [], [], []⟩ : Calibrated F))) = (Except.error .valueError : Py (Str × Calibrated F))
    unfold toIntPy
    rcases hbad with hb | hb
    · rw [hb]; rfl
    · rw [hb]
      cases parseInt w <;> rfl

/-- What a line of a camera block assigns: an empty line and a comment nothing; the comment about the focal length the
sensor's width and height, which its last word holds as `<w>x<h>mm`; any other line `<key> <value>`. -/
inductive IsItem (pf : Str → Option F) : Str → List (Str × F) → Prop
  | blank : IsItem pf [] []
  | comment {l : Str} : ['#'] <+: l → ¬ "Focal Length mm".toList <:+: l → IsItem pf l []
  | focal {s wt ht : Str} {w h : F} : ['#'] <+: s → "Focal Length mm".toList <:+: s ++ ' ' :: (wt ++ 'x' :: (ht ++ "mm".toList)) →
      (' ' ∉ wt ∧ 'x' ∉ wt ∧ 'm' ∉ wt) → (' ' ∉ ht ∧ 'x' ∉ ht ∧ 'm' ∉ ht) → pf wt = some w → pf ht = some h →
      IsItem pf (s ++ ' ' :: (wt ++ 'x' :: (ht ++ "mm".toList))) [("fpa_width_mm".toList, w), ("fpa_height_mm".toList, h)]
  | param {key val : Str} {v : F} : ' ' ∉ key → ' ' ∉ val → ¬ ['#'] <+: key ++ ' ' :: val → pf val = some v →
      IsItem pf (key ++ ' ' :: val) [(key, v)]

theorem item_step (pf : Str → Option F) (l : Str) (kvs : List (Str × F)) (h : IsItem pf l kvs) (hne : l ≠ []) (d : Dict F) :
    internalLine pf d l = .ok (kvs.foldl (fun d p => setKey d p.1 p.2) d) := by
  cases h with
  | blank => exact absurd rfl hne
  | comment h1 h2 => exact internalLine_comment pf d l h1 h2
  | focal h1 h2 h3 h4 h5 h6 => exact internalLine_focal pf d _ _ _ _ _ h1 h2 h3 h4 h5 h6
  | param h1 h2 h3 h4 => exact internalLine_param pf d _ _ _ h1 h2 h3 h4

theorem item_blank (pf : Str → Option F) (kvs : List (Str × F)) (h : IsItem pf [] kvs) : kvs = [] := by
  generalize hl : ([] : Str) = l at h
  cases h with
  | blank => rfl
  | comment h1 h2 => rfl
  | focal h1 h2 h3 h4 h5 h6 => simp at hl
  | param h1 h2 h3 h4 => simp at hl

/-- A block whose lines assign `items`, line by line. -/
theorem internalBlock_ok (pf : Str → Option F) (body : List Str) (items : List (List (Str × F)))
    (h : List.Forall₂ (IsItem pf) body items) :
    internalBlock pf body = .ok (items.flatten.foldl (fun d p => setKey d p.1 p.2) []) := by
  unfold internalBlock
  generalize ([] : Dict F) = d
  induction h generalizing d with
  | nil => rfl
  | @cons l kvs as xs h1 _ ih =>
    rw [List.filter_cons, List.flatten_cons, List.foldl_append]
    by_cases hne : l = []
    · subst hne
      rw [item_blank pf kvs h1]
      simp only [ne_eq, not_true, decide_false, Bool.false_eq_true, if_false, List.foldl_nil]
      exact ih d
    · simp only [ne_eq, hne, not_false_eq_true, decide_true, if_true, List.foldlM_cons]
      rw [item_step pf l kvs h1 hne, ok_bind]
      exact ih _

/-- The blocks of the file with what their lines assign: `read` says which lines are taken into account. -/
theorem readBodies_get (bs : List Block) (i : Nat) (b : Block) (h : bs[i]? = some b) :
    (readBodies bs)[i]? = some (if i + 1 = bs.length then b.body.dropLast else b.body) := by
  induction bs generalizing i with
  | nil => simp at h
  | cons a bs ih =>
    cases bs with
    | nil =>
      cases i with
      | zero => simp at h; subst h; rfl
      | succ i => simp at h
    | cons a2 bs =>
      rw [readBodies]
      · cases i with
        | zero => simp at h; subst h; simp
        | succ i =>
          have := ih i (by simpa using h)
          simpa using this
      · simp

theorem readBodies_length (bs : List Block) : (readBodies bs).length = bs.length := by
  induction bs with
  | nil => rfl
  | cons a bs ih =>
    cases bs with
    | nil => rfl
    | cons a2 bs =>
      rw [readBodies]
      · simp [ih]
      · simp

/-- The general statement: one dictionary per block, made of what its lines assign, the last line of the file excepted. -/
theorem internal_general (pf : Str → Option F) (ls : Str) (hls : ls = posixSep ∨ ls = windowsSep) (search file : Str) (pre : List Str)
    (bs : List Block) (items : Block → List (List (Str × F)))
    (hl : HasLines file (pre ++ Block.lines bs)) (hne : pre ++ Block.lines bs ≠ [])
    (hp : ∀ x ∈ pre, ¬ search <:+: x) (hb : ∀ b ∈ bs, search <:+: b.head ∧ ∀ x ∈ b.body, ¬ search <:+: x)
    (hi : ∀ b ∈ bs, List.Forall₂ (IsItem pf) b.body (items b)) :
    ∃ ds, readInternal pf ls search file = .ok ds ∧ ds.length = bs.length ∧
      ∀ (i : Nat) (b : Block), bs[i]? = some b → ∃ d, ds[i]? = some d ∧
        FromEntries (if i + 1 = bs.length then (items b).dropLast.flatten else (items b).flatten) d := by
  unfold readInternal
  rw [readTextList_lines ls hls hl, readInternalLines_eq pf search pre bs hp hb hne]
  have hdrop : ∀ {as : List Str} {xs : List (List (Str × F))}, List.Forall₂ (IsItem pf) as xs → List.Forall₂ (IsItem pf) as.dropLast xs.dropLast := by
    intro as xs h
    rw [List.dropLast_eq_take, List.dropLast_eq_take, h.length_eq]
    exact List.forall₂_take _ h
  let out : List (Dict F) := (List.range bs.length).map (fun i => match bs[i]? with
    | some b => (if i + 1 = bs.length then (items b).dropLast.flatten else (items b).flatten).foldl (fun d p => setKey d p.1 p.2) []
    | none => [])
  have hout : ∀ (i : Nat) (b : Block), bs[i]? = some b → out[i]? = some
      ((if i + 1 = bs.length then (items b).dropLast.flatten else (items b).flatten).foldl (fun d p => setKey d p.1 p.2) []) := by
    intro i b h
    have hlt := (List.getElem?_eq_some_iff.1 h).1
    show ((List.range bs.length).map _)[i]? = _
    rw [List.getElem?_map, List.getElem?_range hlt]
    simp only [Option.map_some, h]
  refine ⟨out, ?_, by simp [out], ?_⟩
  · rw [mapM_ok_iff]
    refine ⟨by simp [out, readBodies_length], ?_⟩
    intro i body hbody
    have hlt : i < bs.length := by
      rw [← readBodies_length bs]
      exact (List.getElem?_eq_some_iff.1 hbody).1
    have hbi : bs[i]? = some bs[i] := List.getElem?_eq_getElem hlt
    have hmem : bs[i] ∈ bs := List.getElem_mem hlt
    rw [readBodies_get bs i _ hbi] at hbody
    have e := (Option.some.inj hbody).symm
    refine ⟨_, ?_, hout i _ hbi⟩
    rw [e]
    by_cases hlast : i + 1 = bs.length
    · rw [if_pos hlast, if_pos hlast]
      exact internalBlock_ok pf _ _ (hdrop (hi _ hmem))
    · rw [if_neg hlast, if_neg hlast]
      exact internalBlock_ok pf _ _ (hi _ hmem)
  · intro i b h
    exact ⟨_, hout i b h, fromEntries_foldl _⟩

/-- Every parameter of every block is read when the last line of the file is empty or a plain comment (it assigns
nothing).  Missing from the full statement: files whose last line is a parameter. -/
theorem C69_internal_partial (pf : Str → Option F) (ls : Str) (hls : ls = posixSep ∨ ls = windowsSep) (search file : Str) (pre : List Str)
    (bs : List Block) (items : Block → List (List (Str × F)))
    (hl : HasLines file (pre ++ Block.lines bs)) (hne : pre ++ Block.lines bs ≠ [])
    (hp : ∀ x ∈ pre, ¬ search <:+: x) (hb : ∀ b ∈ bs, search <:+: b.head ∧ ∀ x ∈ b.body, ¬ search <:+: x)
    (hi : ∀ b ∈ bs, List.Forall₂ (IsItem pf) b.body (items b))
    (hlast : ∀ b, bs.getLast? = some b → ∀ x, (items b).getLast? = some x → x = []) :
    ∃ ds, readInternal pf ls search file = .ok ds ∧ ds.length = bs.length ∧
      ∀ (i : Nat) (b : Block), bs[i]? = some b → ∃ d, ds[i]? = some d ∧ FromEntries (items b).flatten d := by
  obtain ⟨ds, h1, h2, h3⟩ := internal_general pf ls hls search file pre bs items hl hne hp hb hi
  refine ⟨ds, h1, h2, ?_⟩
  intro i b hbi
  obtain ⟨d, e, hd⟩ := h3 i b hbi
  refine ⟨d, e, ?_⟩
  by_cases hq : i + 1 = bs.length
  · rw [if_pos hq] at hd
    have hg : bs.getLast? = some b := by
      rw [List.getLast?_eq_getElem?, ← hq, Nat.add_sub_cancel, hbi]
    have : (items b).flatten = (items b).dropLast.flatten := by
      rcases List.eq_nil_or_concat (items b) with h0 | ⟨init, x, h0⟩
      · rw [h0]; rfl
      · have hx := hlast b hg x (by rw [h0]; simp)
        rw [h0, hx]
        simp
    rw [this]
    exact hd
  · rw [if_neg hq] at hd
    exact hd

/-- When the last line of the file is a parameter, its name is missing from the last camera's dictionary, unless another
line of that block assigns it. -/
theorem C69_last_line_false (pf : Str → Option F) (ls : Str) (hls : ls = posixSep ∨ ls = windowsSep) (search file : Str) (pre : List Str)
    (bs : List Block) (head : Str) (body : List Str) (key val : Str) (v : F) (items : Block → List (List (Str × F)))
    (hl : HasLines file (pre ++ Block.lines (bs ++ [⟨head, body ++ [key ++ ' ' :: val]⟩])))
    (hp : ∀ x ∈ pre, ¬ search <:+: x)
    (hb : ∀ b ∈ bs ++ [⟨head, body ++ [key ++ ' ' :: val]⟩], search <:+: b.head ∧ ∀ x ∈ b.body, ¬ search <:+: x)
    (hi : ∀ b ∈ bs, List.Forall₂ (IsItem pf) b.body (items b)) (its : List (List (Str × F)))
    (hit : List.Forall₂ (IsItem pf) body its) (hpar : IsItem pf (key ++ ' ' :: val) [(key, v)]) (hno : ∀ w, (key, w) ∉ its.flatten) :
    ∃ ds d, readInternal pf ls search file = .ok ds ∧ ds.length = bs.length + 1 ∧ ds[bs.length]? = some d ∧ lookup d key = none := by
  classical
  let last : Block := ⟨head, body ++ [key ++ ' ' :: val]⟩
  -- the items of the last block are those of `body` and then the parameter, whatever other block equals it
  have hfun : ∃ items' : Block → List (List (Str × F)), (∀ b ∈ bs ++ [last], List.Forall₂ (IsItem pf) b.body (items' b)) ∧
      items' last = its ++ [[(key, v)]] := by
    refine ⟨Function.update items last (its ++ [[(key, v)]]), ?_, by simp⟩
    have hthis : List.Forall₂ (IsItem pf) last.body (its ++ [[(key, v)]]) := by
      show List.Forall₂ (IsItem pf) (body ++ [key ++ ' ' :: val]) (its ++ [[(key, v)]])
      exact List.rel_append hit (.cons hpar .nil)
    intro b hb'
    by_cases e : b = last
    · rw [e, Function.update_self]; exact hthis
    · rw [Function.update_of_ne e]
      rcases List.mem_append.1 hb' with h | h
      · exact hi b h
      · simp at h; exact absurd h e
  obtain ⟨items', h1, h2⟩ := hfun
  obtain ⟨ds, g1, g2, g3⟩ := internal_general pf ls hls search file pre (bs ++ [last]) items' hl (by simp [Block.lines]) hp hb h1
  obtain ⟨d, e, hd⟩ := g3 bs.length last (by simp)
  refine ⟨ds, d, g1, by simpa using g2, e, ?_⟩
  rw [if_pos (by simp), h2] at hd
  simp only [List.dropLast_concat] at hd
  exact hd.2 key hno

/-- An empty file is an UnboundLocalError. -/
theorem C69_internal_empty (pf : Str → Option F) (ls search : Str) : readInternal pf ls search [] = .error .unboundLocal := by
  unfold readInternal readInternalLines readTextList
  rfl

theorem toFloat_error {pf : Str → Option F} {s : Str} {e : Err} (h : toFloat pf s = .error e) : e = .valueError := by
  unfold toFloat at h
  split at h
  · cases h
  · exact (Except.error.inj h).symm

theorem internalLine_error (pf : Str → Option F) (d : Dict F) (l : Str) (e : Err) (h : internalLine pf d l = .error e) : e = .valueError := by
  unfold internalLine at h
  split at h
  · split at h
    · split at h
      · rename_i w ht _
        cases hw : toFloat pf w with
        | error e' => rw [hw] at h; cases h; exact toFloat_error hw
        | ok x =>
          rw [hw, ok_bind] at h
          cases hh : toFloat pf ht with
          | error e' => rw [hh] at h; cases h; exact toFloat_error hh
          | ok y => rw [hh] at h; cases h
      · exact (Except.error.inj h).symm
    · cases h
  · split at h
    · rename_i key val _
      cases hw : toFloat pf val with
      | error e' => rw [hw] at h; cases h; exact toFloat_error hw
      | ok x => rw [hw] at h; cases h
    · exact (Except.error.inj h).symm

theorem foldlM_error (pf : Str → Option F) (l : List Str) : ∀ (d : Dict F) (e : Err), l.foldlM (internalLine pf) d = .error e → e = .valueError := by
  induction l with
  | nil => intro d e h; cases h
  | cons a l ih =>
    intro d e h
    rw [List.foldlM_cons] at h
    cases ha : internalLine pf d a with
    | error e' => rw [ha] at h; cases h; exact internalLine_error pf d a _ ha
    | ok d' => rw [ha, ok_bind] at h; exact ih d' e h

theorem foldlM_ok_mem (pf : Str → Option F) (l : List Str) : ∀ (d r : Dict F), l.foldlM (internalLine pf) d = .ok r →
    ∀ a ∈ l, ∃ d1 d2, internalLine pf d1 a = .ok d2 := by
  induction l with
  | nil => intro d r h a ha; cases ha
  | cons x l ih =>
    intro d r h a ha
    rw [List.foldlM_cons] at h
    obtain ⟨d', hx, h⟩ := bind_ok h
    rcases List.mem_cons.1 ha with rfl | ha
    · exact ⟨d, d', hx⟩
    · exact ih d' r h a ha

theorem mapM_error_of {α β : Type} (f : α → Py β) (P : Err → Prop) (hf : ∀ a e, f a = .error e → P e) (l : List α) (e : Err) (h : l.mapM f = .error e) : P e := by
  induction l with
  | nil => cases h
  | cons a l ih =>
    rw [List.mapM_cons] at h
    cases ha : f a with
    | error e' => rw [ha] at h; cases h; exact hf a _ ha
    | ok b =>
      rw [ha, ok_bind] at h
      cases hl : l.mapM f with
      | error e' => rw [hl] at h; cases h; exact ih hl
      | ok bs => rw [hl] at h; cases h

/-- A parameter line with other than two fields, or whose second field is not a number, is never passed over: reading fails with ValueError
(unless it is the last line of the file). -/
theorem C69_internal_malformed (pf : Str → Option F) (ls : Str) (hls : ls = posixSep ∨ ls = windowsSep) (search file : Str) (pre : List Str)
    (bs : List Block) (hl : HasLines file (pre ++ Block.lines bs))
    (hp : ∀ x ∈ pre, ¬ search <:+: x) (hb : ∀ b ∈ bs, search <:+: b.head ∧ ∀ x ∈ b.body, ¬ search <:+: x)
    (i : Nat) (b : Block) (hi : bs[i]? = some b) (l : Str) (hmem : l ∈ if i + 1 = bs.length then b.body.dropLast else b.body)
    (hne : l ≠ []) (hc : ¬ ['#'] <+: l)
    (hbad : ∀ key val v, l = key ++ ' ' :: val → ' ' ∉ key → ' ' ∉ val → pf val ≠ some v) :
    readInternal pf ls search file = .error .valueError := by
  have hlne : pre ++ Block.lines bs ≠ [] := by
    intro h0
    have := List.append_eq_nil_iff.1 h0
    have h1 := List.flatMap_eq_nil_iff.1 this.2 b (List.mem_of_getElem? hi)
    cases h1
  unfold readInternal
  rw [readTextList_lines ls hls hl, readInternalLines_eq pf search pre bs hp hb hlne]
  cases hr : (readBodies bs).mapM (internalBlock pf) with
  | error e =>
    rw [mapM_error_of (internalBlock pf) (· = .valueError) (fun a e h => foldlM_error pf _ _ e h) _ e hr]
  | ok out =>
    exfalso
    obtain ⟨d, hd, -⟩ := ((mapM_ok_iff _ _ _).1 hr).2 i _ (readBodies_get bs i b hi)
    obtain ⟨d1, d2, h12⟩ := foldlM_ok_mem pf _ _ _ hd l (List.mem_filter.2 ⟨hmem, by simpa using hne⟩)
    unfold internalLine at h12
    rw [if_neg (by rw [List.isPrefixOf_iff_prefix]; exact hc)] at h12
    split at h12
    · rename_i key val hs
      obtain ⟨v, hv, -⟩ := bind_ok h12
      have := (splitOn_iff ' ' l [key, val]).1 hs
      refine hbad key val v ?_ (this.2.2 key (by simp)) (this.2.2 val (by simp)) (toFloat_ok.1 hv)
      rw [this.2.1]
      simp [List.intercalate]
    · cases h12

/-! ### The master dictionary -/

/-- An image name `<stem>_<d>.<extension>`. -/
def NamedFor (name d : Str) : Prop := ∃ stem ext : Str, name = stem ++ '_' :: (d ++ '.' :: ext) ∧ '_' ∉ d ∧ '.' ∉ ext

theorem namedFor_text {name d : Str} (h : NamedFor name d) : cameraText name = d := by
  obtain ⟨stem, ext, rfl, h1, h2⟩ := h
  exact cameraText_eq stem d ext h1 h2 ⟨'_', by simp, by decide⟩

/-- Image names ending in camera number `n`, `1 ≤ n ≤ 9`. -/
def ForCamera (name : Str) (n : Nat) : Prop := ∃ c : Char, NamedFor name [c] ∧ isDig c = true ∧ c.toNat = 48 + n

theorem cameraOf_ok (internal : List (Dict F)) (name : Str) (n : Nat) (h : ForCamera name n) (h1 : 1 ≤ n) (d : Dict F)
    (hd : internal[n - 1]? = some d) : cameraOf internal name = .ok d := by
  obtain ⟨c, hc, hdig, hn⟩ := h
  have hlt := (List.getElem?_eq_some_iff.1 hd).1
  unfold cameraOf
  rw [namedFor_text hc, if_neg (by simp), toIntPy_ok.2 (parseInt_digit c hdig), ok_bind]
  have : pyIdx internal.length (((c.toNat - 48 : Nat) : Int) - 1) = .ok (n - 1) := by
    rw [show (((c.toNat - 48 : Nat) : Int) - 1) = ((n - 1 : Nat) : Int) by omega]
    exact pyIdx_nat hlt
  rw [this, ok_bind, hd]

/-- Every image gets its calibrated parameters, its external parameters and those of the camera whose number ends its
name, in the order of the calibrated parameters. -/
theorem C82_master_partial (external : Dict (List F)) (internal : List (Dict F)) (calibrated : Dict (Calibrated F)) (m : Dict (Master F))
    (hext : ∀ p ∈ calibrated, (lookup external p.1).isSome)
    (hcam : ∀ p ∈ calibrated, ∃ n, ForCamera p.1 n ∧ 1 ≤ n ∧ n ≤ internal.length) :
    masterDict external internal calibrated = .ok m ↔ m.length = calibrated.length ∧
      ∀ (i : Nat) (name : Str) (c : Calibrated F), calibrated[i]? = some (name, c) → ∃ (n : Nat) (e : List F) (d : Dict F),
        ForCamera name n ∧ lookup external name = some e ∧ internal[n - 1]? = some d ∧ m[i]? = some (name, ⟨c, e, d⟩) := by
  have entry : ∀ p ∈ calibrated, ∃ (n : Nat) (e : List F) (d : Dict F), ForCamera p.1 n ∧ lookup external p.1 = some e ∧
      internal[n - 1]? = some d ∧ masterEntry external internal p = .ok (p.1, ⟨p.2, e, d⟩) := by
    intro p hp
    obtain ⟨n, hn, h1, h2⟩ := hcam p hp
    obtain ⟨e, he⟩ := Option.isSome_iff_exists.1 (hext p hp)
    have hd : internal[n - 1]? = some internal[n - 1] := List.getElem?_eq_getElem (by omega)
    refine ⟨n, e, _, hn, he, hd, ?_⟩
    unfold masterEntry
    rw [he]
    simp only [ok_bind]
    rw [cameraOf_ok internal p.1 n hn h1 _ hd, ok_bind]
  have uniq : ∀ (name : Str) (n n' : Nat), ForCamera name n → ForCamera name n' → n = n' := by
    rintro name n n' ⟨c, hc, _, e⟩ ⟨c', hc', _, e'⟩
    have := (namedFor_text hc).symm.trans (namedFor_text hc')
    simp at this
    rw [this] at e
    omega
  unfold masterDict
  rw [mapM_ok_iff]
  constructor
  · rintro ⟨h1, h2⟩
    refine ⟨h1, ?_⟩
    intro i name c hi
    obtain ⟨n, e, d, g1, g2, g3, g4⟩ := entry (name, c) (List.mem_of_getElem? hi)
    obtain ⟨b, hb, hm⟩ := h2 i (name, c) hi
    rw [g4] at hb
    exact ⟨n, e, d, g1, g2, g3, by rw [hm, ← Except.ok.inj hb]⟩
  · rintro ⟨h1, h2⟩
    refine ⟨h1, ?_⟩
    intro i p hi
    obtain ⟨n, e, d, g1, g2, g3, g4⟩ := entry p (List.mem_of_getElem? hi)
    obtain ⟨n', e', d', k1, k2, k3, k4⟩ := h2 i p.1 p.2 hi
    refine ⟨_, g4, ?_⟩
    have en := uniq p.1 n n' g1 k1
    subst en
    rw [g2] at k2
    rw [g3] at k3
    rw [k4, Option.some.inj k2, Option.some.inj k3]

theorem makeMaster_iff (pf : Str → Option F) (ls search extFile intFile calFile : Str) (m : Dict (Master F)) :
    makeMaster pf ls search extFile intFile calFile = .ok m ↔ ∃ external internal calibrated,
      readExternal pf ls extFile = .ok external ∧ readInternal pf ls search intFile = .ok internal ∧
      readCalibrated pf ls calFile = .ok calibrated ∧ masterDict external internal calibrated = .ok m := by
  unfold makeMaster
  constructor
  · intro h
    obtain ⟨a, ha, h⟩ := bind_ok h
    obtain ⟨b, hb, h⟩ := bind_ok h
    obtain ⟨c, hc, h⟩ := bind_ok h
    exact ⟨a, b, c, ha, hb, hc, h⟩
  · rintro ⟨a, b, c, ha, hb, hc, h⟩
    rw [ha, ok_bind, hb, ok_bind, hc, ok_bind, h]

theorem mem_lookup {V : Type} (d : Dict V) (p : Str × V) (h : p ∈ d) : lookup d p.1 ≠ none := by
  unfold lookup
  intro e
  rw [Option.map_eq_none_iff, List.find?_eq_none] at e
  exact e p h (by simp)

theorem fromEntries_mem {V : Type} {entries : List (Str × V)} {d : Dict V} (h : FromEntries entries d) (p : Str × V) (hp : p ∈ d) :
    ∃ v, (p.1, v) ∈ entries := by
  by_contra hn
  exact mem_lookup d p hp (h.2 p.1 (fun v hv => hn ⟨v, hv⟩))

/-- A key with an entry is found, with the value of one of its entries. -/
theorem fromEntries_find {V : Type} {entries : List (Str × V)} {d : Dict V} (h : FromEntries entries d) (name : Str) (v : V)
    (hm : (name, v) ∈ entries) : ∃ v', (name, v') ∈ entries ∧ lookup d name = some v' := by
  classical
  obtain ⟨i, hi⟩ := List.getElem?_of_mem hm
  have hex : ∃ k, ∃ i v', entries[i]? = some (name, v') ∧ k = entries.length - i := ⟨_, i, v, hi, rfl⟩
  obtain ⟨j, v', hj, e⟩ := Nat.find_spec hex
  refine ⟨v', List.mem_of_getElem? hj, h.1 j name v' hj ?_⟩
  intro l w hl hw
  have hlt := (List.getElem?_eq_some_iff.1 hw).1
  have := Nat.find_min' hex ⟨l, w, hw, rfl⟩
  omega

theorem mapM_lookup (external : Dict (List F)) (internal : List (Dict F)) (cal : Dict (Calibrated F)) (m : Dict (Master F))
    (h : masterDict external internal cal = .ok m) (name : Str) (c : Calibrated F) (hc : lookup cal name = some c) :
    ∃ mv, masterEntry external internal (name, c) = .ok (name, mv) ∧ lookup m name = some mv := by
  unfold masterDict at h
  induction cal generalizing m with
  | nil => cases hc
  | cons p cal ih =>
    rw [List.mapM_cons] at h
    obtain ⟨q, hq, h⟩ := bind_ok h
    obtain ⟨ms, hms, h⟩ := bind_ok h
    have e : m = q :: ms := (Except.ok.inj h).symm
    subst e
    have hkey : q.1 = p.1 := by
      unfold masterEntry at hq
      cases hx : lookup external p.1 with
      | none => rw [hx] at hq; cases hq
      | some x =>
        rw [hx] at hq
        simp only [ok_bind] at hq
        obtain ⟨y, _, hq⟩ := bind_ok hq
        rw [← Except.ok.inj hq]
    by_cases hp : p.1 = name
    · have hc' : p.2 = c := by
        unfold lookup at hc
        rw [List.find?_cons_of_pos (by simpa using hp)] at hc
        simpa using hc
      refine ⟨q.2, ?_, ?_⟩
      · have : p = (name, c) := by rw [← hp, ← hc']
        rw [← this, hq, ← hp, ← hkey]
      · unfold lookup
        rw [List.find?_cons_of_pos (by simpa [hkey] using hp)]
        rfl
    · have hc' : lookup cal name = some c := by
        unfold lookup at hc ⊢
        rw [List.find?_cons_of_neg (by simpa using hp)] at hc
        exact hc
      obtain ⟨mv, g1, g2⟩ := ih ms hms hc'
      refine ⟨mv, g1, ?_⟩
      unfold lookup at g2 ⊢
      rw [List.find?_cons_of_neg (by simpa [hkey] using hp)]
      exact g2

/-- From the files: when the three files are read (see C69) and every image has external parameters and the number of a
camera, `make_master_dict` succeeds and each image's entry holds its own (last) calibrated parameters, the external parameters
listed under its name, and those of the camera whose number ends its name. -/
theorem C82_files_partial (pf : Str → Option F) (ls search extFile intFile calFile : Str)
    (ext : List (Str × List F)) (cal : List (Str × Calibrated F)) (E : Dict (List F)) (I : List (Dict F)) (C : Dict (Calibrated F))
    (hE : readExternal pf ls extFile = .ok E) (hI : readInternal pf ls search intFile = .ok I) (hC : readCalibrated pf ls calFile = .ok C)
    (hE' : FromEntries ext E) (hC' : FromEntries cal C)
    (himg : ∀ p ∈ cal, (∃ e, (p.1, e) ∈ ext) ∧ ∃ n, ForCamera p.1 n ∧ 1 ≤ n ∧ n ≤ I.length) :
    ∃ m, makeMaster pf ls search extFile intFile calFile = .ok m ∧
      ∀ (i : Nat) (name : Str) (c : Calibrated F), cal[i]? = some (name, c) → (∀ (j : Nat) (c' : Calibrated F), i < j → cal[j]? ≠ some (name, c')) →
        ∃ (n : Nat) (e : List F) (d : Dict F), ForCamera name n ∧ (name, e) ∈ ext ∧ I[n - 1]? = some d ∧ lookup m name = some ⟨c, e, d⟩ := by
  have hkeys : ∀ p ∈ C, ∃ e n d, (p.1, e) ∈ ext ∧ lookup E p.1 = some e ∧ ForCamera p.1 n ∧ I[n - 1]? = some d ∧
      masterEntry E I p = .ok (p.1, ⟨p.2, e, d⟩) := by
    intro p hp
    obtain ⟨v, hv⟩ := fromEntries_mem hC' p hp
    obtain ⟨⟨e, he⟩, n, hn, h1, h2⟩ := himg (p.1, v) hv
    obtain ⟨e', he1, he2⟩ := fromEntries_find hE' p.1 e he
    have hd : I[n - 1]? = some I[n - 1] := List.getElem?_eq_getElem (by omega)
    refine ⟨e', n, _, he1, he2, hn, hd, ?_⟩
    unfold masterEntry
    rw [he2]
    simp only [ok_bind]
    rw [cameraOf_ok I p.1 n hn h1 _ hd, ok_bind]
  have hok : ∃ m, masterDict E I C = .ok m := by
    clear hC hC'
    unfold masterDict
    induction C with
    | nil => exact ⟨[], rfl⟩
    | cons p C ih =>
      obtain ⟨e, n, d, _, _, _, _, hq⟩ := hkeys p List.mem_cons_self
      obtain ⟨ms, hms⟩ := ih (fun q hq => hkeys q (List.mem_cons_of_mem _ hq))
      refine ⟨(p.1, ⟨p.2, e, d⟩) :: ms, ?_⟩
      rw [List.mapM_cons, hq, ok_bind, hms, ok_bind]
      rfl
  obtain ⟨m, hm⟩ := hok
  refine ⟨m, (makeMaster_iff _ _ _ _ _ _ _).2 ⟨E, I, C, hE, hI, hC, hm⟩, ?_⟩
  intro i name c hi hlast
  have hl := hC'.1 i name c hi hlast
  have hmem : (name, c) ∈ C := by
    unfold lookup at hl
    obtain ⟨p, hp, e⟩ := Option.map_eq_some_iff.1 hl
    have h1 := List.find?_some hp
    simp only [decide_eq_true_eq] at h1
    have : p = (name, c) := by rw [← h1, ← e]
    exact this ▸ List.mem_of_find?_eq_some hp
  obtain ⟨e, n, d, k1, _, k3, k4, k5⟩ := hkeys (name, c) hmem
  obtain ⟨mv, g1, g2⟩ := mapM_lookup E I C m hm name c hl
  rw [k5] at g1
  have := Except.ok.inj g1
  simp only [Prod.mk.injEq, true_and] at this
  exact ⟨n, e, d, k3, k1, k4, by rw [g2, ← this]⟩

/-- An image whose number names no camera is refused. -/
theorem C82_no_camera (internal : List (Dict F)) (name : Str) (n : Nat) (h : ForCamera name n) (hn : internal.length < n) :
    cameraOf internal name = .error .indexError := by
  obtain ⟨c, hc, hdig, hcn⟩ := h
  unfold cameraOf
  rw [namedFor_text hc, if_neg (by simp), toIntPy_ok.2 (parseInt_digit c hdig), ok_bind]
  have : pyIdx internal.length (((c.toNat - 48 : Nat) : Int) - 1) = .error .indexError := by
    unfold pyIdx
    rw [if_neg (by omega), if_neg (by omega)]
  rw [this, error_bind]

/-- But number 0 is taken for the last camera. -/
theorem C82_zero_false (internal : List (Dict F)) (name : Str) (h : ForCamera name 0) (d : Dict F) (hd : internal.getLast? = some d) :
    cameraOf internal name = .ok d := by
  obtain ⟨c, hc, hdig, hcn⟩ := h
  have hpos : 0 < internal.length := by
    cases internal with
    | nil => simp at hd
    | cons a l => simp
  unfold cameraOf
  rw [namedFor_text hc, if_neg (by simp), toIntPy_ok.2 (parseInt_digit c hdig), ok_bind]
  have : pyIdx internal.length (((c.toNat - 48 : Nat) : Int) - 1) = .ok (internal.length - 1) := by
    unfold pyIdx
    rw [if_neg (by omega), if_pos (by omega)]
    congr 1
    omega
  rw [this, ok_bind, ← List.getLast?_eq_getElem?, hd]

/-- And cameras numbered 10 or more cannot be named: two digits are refused even when there are so many cameras. -/
theorem C82_two_digits_false (internal : List (Dict F)) (name d : Str) (h : NamedFor name d) (hd : d.length ≠ 1) :
    cameraOf internal name = .error .valueError := by
  unfold cameraOf
  rw [namedFor_text h, if_pos hd]

/-- Missing external parameters are a KeyError. -/
theorem C82_no_external (external : Dict (List F)) (internal : List (Dict F)) (p : Str × Calibrated F) (h : lookup external p.1 = none) :
    masterEntry external internal p = .error .keyError := by
  unfold masterEntry
  rw [h]
  rfl

/-! Concrete cases. -/

private def pfc : Str → Option ℚ
  | ['1'] => some 1
  | ['2'] => some 2
  | ['5'] => some 5
  | _ => none

private theorem row1 : NumRow pfc "1 2".toList [1, 2] := ⟨["1".toList, "2".toList], (fields_iff _ _).2 (by decide), rfl⟩

example : IsRecord pfc ["IMG_1.tif 5 2".toList, "1 2".toList, "1 2".toList, "1 2".toList, "1 2".toList, "1 2".toList, "1 2".toList,
    "1 2".toList, "1 2".toList, "1 2".toList] "IMG_1.tif".toList
    ⟨5, 2, [[1, 2], [1, 2], [1, 2]], [[1, 2]], [[1, 2]], [[1, 2]], [[1, 2], [1, 2], [1, 2]]⟩ :=
  ⟨"5".toList, "2".toList, _, _, _, _, _, _, _, _, _, [1, 2], [1, 2], [1, 2], [1, 2], [1, 2], [1, 2], [1, 2], [1, 2], [1, 2], rfl, by decide, by decide,
    by decide, by decide, by decide, row1, row1, row1, row1, row1, row1, row1, row1, row1, rfl, rfl, rfl, rfl, rfl⟩

example : IsItem pfc "K1 5".toList [("K1".toList, 5)] := IsItem.param (key := "K1".toList) (val := "5".toList) (by decide) (by decide) (by decide) rfl

example : IsItem pfc "# Focal Length mm of 5x2mm".toList [("fpa_width_mm".toList, 5), ("fpa_height_mm".toList, 2)] :=
  IsItem.focal (s := "# Focal Length mm of".toList) (wt := "5".toList) (ht := "2".toList) (by decide)
    ⟨"# ".toList, " of 5x2mm".toList, by decide⟩ (by decide) (by decide) rfl rfl

example : IsItem pfc "# symmetrical".toList [] := IsItem.comment (by decide) (by
  rw [← contains_iff]; decide)

/-- A file with two cameras; the second loses `K1`. -/
example : (readInternal pfc posixSep "Pix4D".toList "Pix4D a\nK1 5\n\nPix4D b\nF 2\nK1 1\n".toList).toOption.map
    (fun ds => ds.map (fun d => (lookup d "K1".toList, lookup d "F".toList))) = some [(some 5, none), (none, some 2)] := by
  have h : HasLines "Pix4D a\nK1 5\n\nPix4D b\nF 2\nK1 1\n".toList
      ["Pix4D a".toList, "K1 5".toList, [], "Pix4D b".toList, "F 2".toList, "K1 1".toList] :=
    HasLines.lf (l := "Pix4D a".toList) ⟨by decide, by decide⟩ (HasLines.lf (l := "K1 5".toList) ⟨by decide, by decide⟩
      (HasLines.lf (l := []) ⟨by decide, by decide⟩ (HasLines.lf (l := "Pix4D b".toList) ⟨by decide, by decide⟩
        (HasLines.lf (l := "F 2".toList) ⟨by decide, by decide⟩ (HasLines.lf (l := "K1 1".toList) ⟨by decide, by decide⟩ .nil)))))
  unfold readInternal
  rw [readTextList_lines posixSep (.inl rfl) h]
  rfl

example : ForCamera "DJI_0012_3.JPG".toList 3 := ⟨'3', ⟨"DJI_0012".toList, "JPG".toList, rfl, by decide, by decide⟩, by decide, by decide⟩

example : NamedFor "DJI_0012_10.JPG".toList "10".toList := ⟨"DJI_0012".toList, "JPG".toList, rfl, by decide, by decide⟩

end Verif.Readers
