import Verif.Lemmas.ReadersLines

/-! C74: the readers of spectra.  Row `i` of the data gives entry `i` of the wavelengths and of the values. -/

set_option linter.unusedSectionVars false

namespace Verif.Readers
open Verif Verif.TextUtils Verif.Envi

variable {K : Type} [Field K]

theorem svcLine_ok (pf : Str → Option K) (l : Str) (w r : K) :
    svcLine pf l = .ok (w, r) ↔ ∃ (a b c d : Str) (v : K), Fields l [a, b, c, d] ∧ pf a = some w ∧ pf d = some v ∧ r = v / 100 := by
  constructor
  · intro h
    unfold svcLine at h
    split at h
    · rename_i a b c d e
      obtain ⟨x, hx, h⟩ := bind_ok h
      obtain ⟨y, hy, h⟩ := bind_ok h
      have := Except.ok.inj h
      simp only [Prod.mk.injEq] at this
      exact ⟨a, b, c, d, y, (fields_iff _ _).2 e, this.1 ▸ toFloat_ok.1 hx, toFloat_ok.1 hy, this.2.symm⟩
    · cases h
  · rintro ⟨a, b, c, d, v, hf, h1, h2, rfl⟩
    unfold svcLine
    rw [(fields_iff _ _).1 hf]
    simp only []
    rw [toFloat_ok.2 h1, ok_bind, toFloat_ok.2 h2, ok_bind]

theorem toFloat_err {F : Type} {pf : Str → Option F} {s : Str} {e : Err} (h : toFloat pf s = .error e) : e = .valueError := by
  unfold toFloat at h
  cases hp : pf s <;> rw [hp] at h
  · exact (Except.error.inj h).symm
  · cases h

theorem svcLine_err (pf : Str → Option K) (l : Str) (e : Err) (h : svcLine pf l = .error e) : e = .valueError := by
  unfold svcLine at h
  split at h
  · rename_i a b c d _
    cases ha : toFloat pf a with
    | error x => rw [ha, error_bind] at h; rw [← Except.error.inj h]; exact toFloat_err ha
    | ok x =>
      rw [ha, ok_bind] at h
      cases hd : toFloat pf d with
      | error x => rw [hd, error_bind] at h; rw [← Except.error.inj h]; exact toFloat_err hd
      | ok x => rw [hd, ok_bind] at h; cases h
  · exact (Except.error.inj h).symm

theorem svc_lines (pf : Str → Option K) (file : Str) (lines : List Str) (hl : HasLines file lines) :
    svc pf file = pairs (svcLine pf) (lines.drop (dataIndex lines)) := by
  unfold svc
  simp only []
  rw [dataIndex_eq (hasLines_raw hl)]
  refine pairs_congr _ _ (List.forall₂_drop _ (hasLines_raw hl)) ?_
  intro a b _ h
  unfold svcLine
  rw [words_raw h]

/-- An SVC file: a spectrum is returned exactly when every line after the first one starting with `data` has four fields of
which the first and the last are numbers; those are the wavelength and, divided by 100, the value. -/
theorem C74_svc (pf : Str → Option K) (file : Str) (header : List Str) (marker : Str) (rows : List Str)
    (hl : HasLines file (header ++ marker :: rows)) (hh : ∀ l ∈ header, ¬ "data".toList <+: l) (hm : "data".toList <+: marker)
    (ws rs : List K) :
    svc pf file = .ok (ws, rs) ↔ ws.length = rows.length ∧ rs.length = rows.length ∧
      ∀ (i : Nat) (row : Str), rows[i]? = some row → ∃ (a b c d : Str) (w v : K), Fields row [a, b, c, d] ∧
        pf a = some w ∧ pf d = some v ∧ ws[i]? = some w ∧ rs[i]? = some (v / 100) := by
  rw [svc_lines pf file _ hl, dataIndex_at header marker rows hh hm]
  have e : (header ++ marker :: rows).drop (header.length + 1) = rows := by
    rw [List.drop_append, List.drop_of_length_le (by omega)]
    simp
  rw [e, pairs_iff]
  constructor
  · rintro ⟨h1, h2, h3⟩
    refine ⟨h1, h2, fun i row hi => ?_⟩
    obtain ⟨w, r, hf, e1, e2⟩ := h3 i row hi
    obtain ⟨a, b, c, d, v, g1, g2, g3, rfl⟩ := (svcLine_ok pf row w r).1 hf
    exact ⟨a, b, c, d, w, v, g1, g2, g3, e1, e2⟩
  · rintro ⟨h1, h2, h3⟩
    refine ⟨h1, h2, fun i row hi => ?_⟩
    obtain ⟨a, b, c, d, w, v, g1, g2, g3, e1, e2⟩ := h3 i row hi
    exact ⟨w, v / 100, (svcLine_ok pf row w _).2 ⟨a, b, c, d, v, g1, g2, g3, rfl⟩, e1, e2⟩

/-- A data line with another number of fields, such as a blank line at the end, is refused. -/
theorem C74_svc_refused (pf : Str → Option K) (file : Str) (header : List Str) (marker : Str) (rows : List Str)
    (hl : HasLines file (header ++ marker :: rows)) (hh : ∀ l ∈ header, ¬ "data".toList <+: l) (hm : "data".toList <+: marker)
    (row : Str) (hr : row ∈ rows) (ts : List Str) (hf : Fields row ts) (h4 : ts.length ≠ 4) :
    svc pf file = .error .valueError := by
  rw [svc_lines pf file _ hl, dataIndex_at header marker rows hh hm]
  have e : (header ++ marker :: rows).drop (header.length + 1) = rows := by
    rw [List.drop_append, List.drop_of_length_le (by omega)]
    simp
  rw [e]
  refine pairs_error _ _ _ (fun r _ e' => svcLine_err pf r e') row hr ?_
  cases h : svcLine pf row with
  | error e' => rw [svcLine_err pf row e' h]
  | ok p =>
    obtain ⟨a, b, c, d, v, g, _⟩ := (svcLine_ok pf row p.1 p.2).1 h
    have := fields_words_eq g
    rw [fields_words_eq hf] at this
    rw [this] at h4
    exact absurd rfl h4

/-- Without a line starting with `data` the spectrum is empty. -/
theorem C74_svc_no_data (pf : Str → Option K) (file : Str) (header : List Str) (hl : HasLines file header)
    (hh : ∀ l ∈ header, ¬ "data".toList <+: l) : svc pf file = .ok ([], []) := by
  rw [svc_lines pf file _ hl, dataIndex_none header hh, List.drop_of_length_le (by omega)]
  rfl

theorem enviLine_ok (pf : Str → Option K) (ls : Str) (hls : ls = posixSep ∨ ls = windowsSep) (raw l : Str) (hp : Plain l) (hr : Raw raw l)
    (w r : K) : enviLine pf ls raw = .ok (w, r) ↔ ∃ (a b : Str), Fields l [a, b] ∧ pf a = some w ∧ pf b = some r := by
  have e : removeNewlines ls raw = l := by
    rcases hr with rfl | rfl
    · exact (C64_no_newline _ hp.1 hp.2 ls hls).2
    · exact remove_line ls l hls hp.1 hp.2
  unfold enviLine
  rw [e, words_join_words]
  constructor
  · intro h
    split at h
    · rename_i a b e
      obtain ⟨x, hx, h⟩ := bind_ok h
      obtain ⟨y, hy, h⟩ := bind_ok h
      have := Except.ok.inj h
      simp only [Prod.mk.injEq] at this
      exact ⟨a, b, (fields_iff _ _).2 e, this.1 ▸ toFloat_ok.1 hx, this.2 ▸ toFloat_ok.1 hy⟩
    · cases h
  · rintro ⟨a, b, hf, h1, h2⟩
    rw [(fields_iff _ _).1 hf]
    simp only []
    rw [toFloat_ok.2 h1, ok_bind, toFloat_ok.2 h2, ok_bind]

theorem forall2_get {α β : Type} {R : α → β → Prop} {as : List α} {bs : List β} (h : List.Forall₂ R as bs) (i : Nat) :
    (as[i]? = none ∧ bs[i]? = none) ∨ ∃ a b, as[i]? = some a ∧ bs[i]? = some b ∧ R a b := by
  induction h generalizing i with
  | nil => left; simp
  | cons h _ ih =>
    cases i with
    | zero => right; exact ⟨_, _, rfl, rfl, h⟩
    | succ i => simpa using ih i

/-- Row by row, for a reader of raw lines whose rows are described by a property of the lines. -/
theorem pairs_lines (f : Str → Py (K × K)) (P : Str → K → K → Prop) (file : Str) (lines : List Str) (hl : HasLines file lines) (n : Nat)
    (hf : ∀ (raw l : Str), Plain l → Raw raw l → ∀ w r, f raw = .ok (w, r) ↔ P l w r) (ws rs : List K) :
    pairs f ((readlines (decodeText file)).drop n) = .ok (ws, rs) ↔
      ws.length = lines.length - n ∧ rs.length = lines.length - n ∧
      ∀ (i : Nat) (row : Str), lines[n + i]? = some row → ∃ w r, P row w r ∧ ws[i]? = some w ∧ rs[i]? = some r := by
  have hraw := hasLines_raw hl
  rw [pairs_iff, List.length_drop, hraw.length_eq]
  have key : ∀ i, (∀ row : Str, (readlines (decodeText file))[n + i]? = some row → ∃ w r, f row = .ok (w, r) ∧ ws[i]? = some w ∧ rs[i]? = some r) ↔
      ∀ row : Str, lines[n + i]? = some row → ∃ w r, P row w r ∧ ws[i]? = some w ∧ rs[i]? = some r := by
    intro i
    rcases forall2_get hraw (n + i) with ⟨h1, h2⟩ | ⟨a, b, h1, h2, h3⟩
    · rw [h1, h2]; simp
    · rw [h1, h2]
      have hp := hasLines_plain hl b (List.mem_of_getElem? h2)
      constructor
      · intro h row e
        obtain rfl := Option.some.inj e
        obtain ⟨w, r, g, e1, e2⟩ := h a rfl
        exact ⟨w, r, (hf a _ hp h3 w r).1 g, e1, e2⟩
      · intro h row e
        obtain rfl := Option.some.inj e
        obtain ⟨w, r, g, e1, e2⟩ := h b rfl
        exact ⟨w, r, (hf _ b hp h3 w r).2 g, e1, e2⟩
  simp only [List.getElem?_drop]
  constructor
  · rintro ⟨h1, h2, h3⟩
    exact ⟨h1, h2, fun i => (key i).1 (h3 i)⟩
  · rintro ⟨h1, h2, h3⟩
    exact ⟨h1, h2, fun i => (key i).2 (h3 i)⟩

/-- An ENVI plot file: a spectrum is returned exactly when every line after the third has two fields, both numbers: the
wavelength and the value. -/
theorem C74_envi (pf : Str → Option K) (ls : Str) (hls : ls = posixSep ∨ ls = windowsSep) (file : Str) (lines : List Str)
    (hl : HasLines file lines) (ws rs : List K) :
    enviPlot pf ls file = .ok (ws, rs) ↔ ws.length = lines.length - 3 ∧ rs.length = lines.length - 3 ∧
      ∀ (i : Nat) (row : Str), lines[3 + i]? = some row → ∃ w r : K,
        (∃ a b : Str, Fields row [a, b] ∧ pf a = some w ∧ pf b = some r) ∧ ws[i]? = some w ∧ rs[i]? = some r := by
  unfold enviPlot
  exact pairs_lines _ (fun row w r => ∃ a b : Str, Fields row [a, b] ∧ pf a = some w ∧ pf b = some r) file lines hl 3
    (fun raw l hp hr w r => enviLine_ok pf ls hls raw l hp hr w r) ws rs

/-- An ENVI plot file that is not accepted is refused with ValueError, whatever is wrong with it. -/
theorem C74_envi_error (pf : Str → Option K) (ls file : Str) (e : Err) (h : enviPlot pf ls file = .error e) : e = .valueError := by
  unfold enviPlot at h
  have hline : ∀ l e, enviLine pf ls l = .error e → e = .valueError := by
    intro l e h
    unfold enviLine at h
    split at h
    · rename_i a b _
      unfold toFloat at h
      cases ha : pf a with
      | none => rw [ha] at h; exact (Except.error.inj h).symm
      | some x =>
        rw [ha] at h
        cases hb : pf b with
        | none => rw [hb] at h; exact (Except.error.inj h).symm
        | some y => rw [hb] at h; cases h
    · exact (Except.error.inj h).symm
  generalize (readlines (decodeText file)).drop 3 = rows at h
  induction rows with
  | nil => cases h
  | cons l rows ih =>
    unfold pairs at h
    cases hl : enviLine pf ls l with
    | error e' => rw [hl] at h; cases h; exact hline l _ hl
    | ok p =>
      rw [hl, ok_bind] at h
      cases hr : pairs (enviLine pf ls) rows with
      | error e' => rw [hr] at h; cases h; exact ih hr
      | ok q => rw [hr] at h; cases h

theorem field_ok (row : List Str) (i : Int) (s : Str) : field row i = .ok s ↔ ∃ k, PyAt row.length i k ∧ row[k]? = some s := by
  unfold field
  constructor
  · intro h
    obtain ⟨k, hk, h⟩ := bind_ok h
    refine ⟨k, (pyIdx_ok_iff _ _ _).1 hk, ?_⟩
    cases hr : row[k]? with
    | none => rw [hr] at h; cases h
    | some x => rw [hr] at h; rw [Except.ok.inj h]
  · rintro ⟨k, hk, hs⟩
    rw [(pyIdx_ok_iff _ _ _).2 hk, ok_bind, hs]

/-- The fields of a line of a delimited file without quotes: none for an empty line, otherwise the pieces between
the delimiters. -/
def Cells (delim : Char) (l : Str) (ts : List Str) : Prop :=
  (l = [] ∧ ts = []) ∨ (l ≠ [] ∧ ts ≠ [] ∧ l = List.intercalate [delim] ts ∧ ∀ t ∈ ts, delim ∉ t)

theorem cells_iff (delim : Char) (raw l : Str) (hp : Plain l) (hr : Raw raw l) (ts : List Str) : Cells delim l ts ↔ csvRow delim raw = ts := by
  unfold csvRow Cells
  simp only []
  rw [filter_raw hp hr]
  by_cases h : l = []
  · rw [if_pos h]
    exact ⟨fun g => g.elim (fun g => g.2.symm) (fun g => absurd h g.1), fun g => .inl ⟨h, g.symm⟩⟩
  · rw [if_neg h, splitOn_iff]
    exact ⟨fun g => g.elim (fun g => absurd g.1 h) (fun g => g.2), fun g => .inr ⟨h, g⟩⟩

theorem csvLine_ok (pf : Str → Option K) (delim : Char) (wi ri : Int) (raw l : Str) (hp : Plain l) (hr : Raw raw l) (w r : K) :
    csvLine pf delim wi ri raw = .ok (w, r) ↔ ∃ (ts : List Str) (j k : Nat) (a b : Str), Cells delim l ts ∧
      PyAt ts.length wi j ∧ ts[j]? = some a ∧ pf a = some w ∧ PyAt ts.length ri k ∧ ts[k]? = some b ∧ pf b = some r := by
  unfold csvLine
  constructor
  · intro h
    obtain ⟨a, ha, h⟩ := bind_ok h
    obtain ⟨b, hb, h⟩ := bind_ok h
    obtain ⟨x, hx, h⟩ := bind_ok h
    obtain ⟨y, hy, h⟩ := bind_ok h
    have := Except.ok.inj h
    simp only [Prod.mk.injEq] at this
    obtain ⟨j, hj, ha⟩ := (field_ok _ _ _).1 ha
    obtain ⟨k, hk, hb⟩ := (field_ok _ _ _).1 hb
    exact ⟨_, j, k, a, b, (cells_iff delim raw l hp hr _).2 rfl, hj, ha, this.1 ▸ toFloat_ok.1 hx, hk, hb, this.2 ▸ toFloat_ok.1 hy⟩
  · rintro ⟨ts, j, k, a, b, hc, h1, h2, h3, h4, h5, h6⟩
    rw [(cells_iff delim raw l hp hr ts).1 hc, (field_ok _ _ _).2 ⟨j, h1, h2⟩, ok_bind, (field_ok _ _ _).2 ⟨k, h4, h5⟩, ok_bind,
      toFloat_ok.2 h3, ok_bind, toFloat_ok.2 h6, ok_bind]

/-- A delimited file without quotes: a spectrum is returned exactly when there are at least `nheader` lines and every later
one has numbers in the two columns asked for. -/
theorem C74_csv (pf : Str → Option K) (delim : Char) (nheader : Nat) (wi ri : Int) (file : Str) (lines : List Str)
    (hl : HasLines file lines) (ws rs : List K) :
    csvSpectrum pf delim nheader wi ri file = .ok (ws, rs) ↔ nheader ≤ lines.length ∧
      ws.length = lines.length - nheader ∧ rs.length = lines.length - nheader ∧
      ∀ (i : Nat) (row : Str), lines[nheader + i]? = some row → ∃ w r : K,
        (∃ (ts : List Str) (j k : Nat) (a b : Str), Cells delim row ts ∧
          PyAt ts.length wi j ∧ ts[j]? = some a ∧ pf a = some w ∧ PyAt ts.length ri k ∧ ts[k]? = some b ∧ pf b = some r) ∧
        ws[i]? = some w ∧ rs[i]? = some r := by
  unfold csvSpectrum
  simp only []
  have hlen : (readlines (decodeText file)).length = lines.length := (hasLines_raw hl).length_eq
  rw [hlen]
  by_cases h : lines.length < nheader
  · rw [if_pos h]
    constructor
    · intro h; cases h
    · rintro ⟨h', _⟩; omega
  · rw [if_neg h]
    have := pairs_lines (csvLine pf delim wi ri) (fun row w r => ∃ (ts : List Str) (j k : Nat) (a b : Str), Cells delim row ts ∧
          PyAt ts.length wi j ∧ ts[j]? = some a ∧ pf a = some w ∧ PyAt ts.length ri k ∧ ts[k]? = some b ∧ pf b = some r)
      file lines hl nheader (fun raw l hp hr w r => csvLine_ok pf delim wi ri raw l hp hr w r) ws rs
    rw [this]
    constructor
    · exact fun g => ⟨by omega, g⟩
    · exact fun g => g.2

/-- Fewer lines than header lines are refused. -/
theorem C74_csv_short (pf : Str → Option K) (delim : Char) (nheader : Nat) (wi ri : Int) (file : Str) (lines : List Str)
    (hl : HasLines file lines) (h : lines.length < nheader) : csvSpectrum pf delim nheader wi ri file = .error .stopIteration := by
  unfold csvSpectrum
  simp only []
  rw [(hasLines_raw hl).length_eq, if_pos h]

/-- A USGS column: one number per line after the first, in order. -/
theorem C74_usgs_column (pf : Str → Option K) (file : Str) (lines : List Str) (hl : HasLines file lines) (vs : List K) :
    usgsColumn pf file = .ok vs ↔ vs.length = lines.length - 1 ∧
      ∀ (i : Nat) (row : Str), lines[1 + i]? = some row → ∃ v : K, pf (strip row) = some v ∧ vs[i]? = some v := by
  unfold usgsColumn
  rw [forall2_map (g := strip) (hasLines_raw hl) (fun a b _ h => strip_raw h), ← List.map_drop, mapM_ok_iff]
  simp only [List.length_map, List.length_drop]
  constructor
  · rintro ⟨h1, h2⟩
    refine ⟨h1, fun i row hi => ?_⟩
    obtain ⟨b, hb, e⟩ := h2 i (strip row) (by rw [List.getElem?_map, List.getElem?_drop, hi]; rfl)
    exact ⟨b, toFloat_ok.1 hb, e⟩
  · rintro ⟨h1, h2⟩
    refine ⟨h1, fun i a hi => ?_⟩
    rw [List.getElem?_map, List.getElem?_drop] at hi
    obtain ⟨row, hr, rfl⟩ := Option.map_eq_some_iff.1 hi
    obtain ⟨v, hv, e⟩ := h2 i row hr
    exact ⟨v, toFloat_ok.2 hv, e⟩

/-- A USGS spectrum: when the three files have the same number of lines, wavelength, resolution and value `i` come
from line `i + 1` of their files. -/
theorem C74_usgs_partial (pf : Str → Option K) (wf ff file : Str) (wl fl lines : List Str)
    (hw : HasLines wf wl) (hf : HasLines ff fl) (hl : HasLines file lines) (h1 : wl.length = lines.length) (h2 : fl.length = lines.length)
    (ws fs rs : List K) (h : usgs pf wf ff file = .ok (ws, fs, rs)) :
    ws.length = lines.length - 1 ∧ fs.length = lines.length - 1 ∧ rs.length = lines.length - 1 ∧
    ∀ (i : Nat) (a b c : Str), wl[1 + i]? = some a → fl[1 + i]? = some b → lines[1 + i]? = some c →
      ∃ w f r : K, pf (strip a) = some w ∧ pf (strip b) = some f ∧ pf (strip c) = some r ∧
        ws[i]? = some w ∧ fs[i]? = some f ∧ rs[i]? = some r := by
  unfold usgs at h
  obtain ⟨w, hw', h⟩ := bind_ok h
  obtain ⟨f, hf', h⟩ := bind_ok h
  obtain ⟨r, hr', h⟩ := bind_ok h
  have := Except.ok.inj h
  simp only [Prod.mk.injEq] at this
  obtain ⟨rfl, rfl, rfl⟩ := this
  obtain ⟨a1, a2⟩ := (C74_usgs_column pf wf wl hw w).1 hw'
  obtain ⟨b1, b2⟩ := (C74_usgs_column pf ff fl hf f).1 hf'
  obtain ⟨c1, c2⟩ := (C74_usgs_column pf file lines hl r).1 hr'
  refine ⟨by omega, by omega, by omega, ?_⟩
  intro i a b c ha hb hc
  obtain ⟨x, hx, ex⟩ := a2 i a ha
  obtain ⟨y, hy, ey⟩ := b2 i b hb
  obtain ⟨z, hz, ez⟩ := c2 i c hc
  exact ⟨x, y, z, hx, hy, hz, ex, ey, ez⟩

/-- But the lengths are not compared: with one more value than wavelengths the spectrum is still returned, whatever numbers
the files hold. -/
theorem C74_usgs_lengths_false (pf : Str → Option K) (t : Str) (v : K) (ht : Token t) (hv : pf t = some v) (n m : Nat) :
    let column := fun (n : Nat) => ("title".toList :: List.replicate n t).flatMap (fun l => l ++ ['\n'])
    ∃ ws fs rs : List K, usgs pf (column n) (column n) (column m) = .ok (ws, fs, rs) ∧ ws.length = n ∧ rs.length = m := by
  intro column
  have htp : Plain t := ⟨fun h => by have := ht.2 _ h; revert this; decide, fun h => by have := ht.2 _ h; revert this; decide⟩
  have hrep : ∀ n, HasLines ((List.replicate n t).flatMap (fun l => l ++ ['\n'])) (List.replicate n t) := by
    intro n
    induction n with
    | zero => exact .nil
    | succ n ih =>
      rw [List.replicate_succ, List.flatMap_cons, List.append_assoc, List.singleton_append]
      exact .lf htp ih
  have hcol : ∀ n, HasLines (column n) ("title".toList :: List.replicate n t) := by
    intro n
    show HasLines (("title".toList :: List.replicate n t).flatMap (fun l => l ++ ['\n'])) _
    rw [List.flatMap_cons, List.append_assoc, List.singleton_append]
    exact .lf ⟨by decide, by decide⟩ (hrep n)
  have hst : strip t = t := strip_field (fields_iff _ _ |>.2 (by
    have := words_token t [] ht (by simp)
    simpa [words, splitBy] using this))
  have hread : ∀ n, usgsColumn pf (column n) = .ok (List.replicate n v) := by
    intro n
    rw [C74_usgs_column pf _ _ (hcol n)]
    refine ⟨by simp, ?_⟩
    intro i row hi
    rw [show 1 + i = i + 1 by omega, List.getElem?_cons_succ] at hi
    obtain ⟨hi1, e⟩ := List.getElem?_eq_some_iff.1 hi
    simp at hi1 e
    subst e
    exact ⟨v, by rw [hst, hv], by rw [List.getElem?_replicate, if_pos hi1]⟩
  refine ⟨List.replicate n v, List.replicate n v, List.replicate m v, ?_, List.length_replicate, List.length_replicate⟩
  unfold usgs
  rw [hread, ok_bind, ok_bind, hread, ok_bind]

/-! Concrete files. -/

section
/-- A parser of a few numbers, standing in for `float`. -/
private def pf1 : Str → Option ℚ
  | ['1'] => some 1
  | ['2'] => some 2
  | ['5'] => some 5
  | ['7'] => some 7
  | _ => none

private theorem lf' (l : Str) (rest : Str) (ls : List Str) (h : Plain l) (h' : HasLines rest ls) : HasLines (l ++ '\n' :: rest) (l :: ls) := .lf h h'

example : HasLines "name= x\ndata=\n1 0 0 7\r\n2 3 4 5".toList ["name= x".toList, "data=".toList, "1 0 0 7".toList, "2 3 4 5".toList] :=
  lf' "name= x".toList _ _ ⟨by decide, by decide⟩ (lf' "data=".toList _ _ ⟨by decide, by decide⟩
    (HasLines.crlf (l := "1 0 0 7".toList) ⟨by decide, by decide⟩ (.last (by decide) ⟨by decide, by decide⟩)))

example : "data".toList <+: "data=".toList ∧ ¬ "data".toList <+: "name= x".toList := by decide

example : Fields "1 0 0 7".toList ["1".toList, "0".toList, "0".toList, "7".toList] := (fields_iff _ _).2 (by decide)

example : svc pf1 "name= x\ndata=\n1 0 0 7\r\n2 3 4 5".toList = .ok ([1, 2], [7 / 100, 5 / 100]) := by
  have e : svc pf1 "name= x\ndata=\n1 0 0 7\r\n2 3 4 5".toList =
      pairs (svcLine pf1) ["1 0 0 7\n".toList, "2 3 4 5".toList] := by
    unfold svc
    simp only []
    rw [show readlines (decodeText "name= x\ndata=\n1 0 0 7\r\n2 3 4 5".toList) =
      ["name= x\n".toList, "data=\n".toList, "1 0 0 7\n".toList, "2 3 4 5".toList] by decide]
    rfl
  rw [e, pairs_iff]
  refine ⟨rfl, rfl, ?_⟩
  intro i row hi
  rcases i with _ | _ | i
  · simp at hi; subst hi
    exact ⟨1, 7 / 100, (svcLine_ok _ _ _ _).2 ⟨['1'], ['0'], ['0'], ['7'], 7, (fields_iff _ _).2 (by decide), rfl, rfl, rfl⟩, rfl, rfl⟩
  · simp at hi; subst hi
    exact ⟨2, 5 / 100, (svcLine_ok _ _ _ _).2 ⟨['2'], ['3'], ['4'], ['5'], 5, (fields_iff _ _).2 (by decide), rfl, rfl, rfl⟩, rfl, rfl⟩
  · simp at hi

example : Cells ',' "400,5".toList ["400".toList, "5".toList] := .inr ⟨by decide, by decide, rfl, by decide⟩

example : Token "5".toList := ⟨by decide, by decide⟩

end

end Verif.Readers
