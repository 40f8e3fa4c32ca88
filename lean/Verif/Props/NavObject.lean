import Verif.Model.NavObject
import Verif.Props.Nav
import Verif.Lemmas.Envi

/-! Property C87: the named getters of a navigation object read their own column, and the record getter agrees with
them. -/

namespace Verif.Nav
open Verif ImageUtils Envi

set_option linter.unusedSectionVars false

section
variable {K : Type} [Field K] [LinearOrder K] [IsStrictOrderedRing K]

/-! ### Specification -/

/-- The field of an SBET record (named as in the SBET format by pdal) that a getter is about. -/
def sbetField : Quantity → Str
  | .worldY => "Y".toList
  | .worldX => "X".toList
  | .alt => "Z".toList
  | .roll => "Roll".toList
  | .pitch => "Pitch".toList
  | .heading => "Azimuth".toList

/-- The position, in a line of an exterior-orientation file (name, time, easting, northing, height, omega, phi, kappa,
latitude, longitude), of the field that a getter is about. -/
def eoField : Quantity → Nat
  | .worldX => 2
  | .worldY => 3
  | .alt => 4
  | .roll => 5
  | .pitch => 6
  | .heading => 7

/-- The fields of a line of an exterior-orientation file after the image name, in order, as the records name them. -/
def eoNames : List Str :=
  ["gps_time", "easting", "northing", "height", "omega", "phi", "kappa", "lat", "lon"].map String.toList

/-- The readable time fields of an exterior-orientation file, in the order of its lines. -/
def timesOf (parse : Str → Option K) (lines : List (List Str)) : List K := lines.filterMap (fun l => (l[1]?).bind parse)

/-- A record describes the object at time `t`: it has exactly the object's columns, its time is `t`, and every entry is what
the getter of that column answers for `t`. -/
def Describes (o : NavObj K) (t : K) (rec : Record K) : Prop :=
  rec.map Prod.fst = o.data.map Prod.fst ∧ lookup rec "gps_time".toList = some (some t) ∧
  ∀ (key : Str) (col : List K), lookup o.data key = some col →
    ∃ v, lookup rec key = some (some v) ∧ getter o key (.num t) = .ok (.num (some v))

/-- The fields of an SBET file as pdal names them. -/
def sbetNames : List Str :=
  ["GpsTime", "Y", "X", "Z", "XVelocity", "YVelocity", "ZVelocity", "Roll", "Pitch", "Azimuth", "WanderAngle",
   "XBodyAccel", "YBodyAccel", "ZBodyAccel", "XBodyAngRate", "YBodyAngRate", "ZBodyAngRate"].map String.toList

/-! ### Lemmas -/

theorem getter_eq (o : NavObj K) (key : Str) (times col : List K) (h1 : lookup o.data "gps_time".toList = some times)
    (h2 : lookup o.data key = some col) (q : NavQ K) : getter o key q = get times col q := by
  have hnat : ∀ l : List K, (∃ e, inRange times l = .error e ∧ native times col l = .error e) ∨
      (inRange times l = .ok false ∧ native times col l = .ok none) ∨ inRange times l = .ok true := by
    intro l
    unfold native
    cases h : inRange times l with
    | error e => exact Or.inl ⟨e, rfl, rfl⟩
    | ok b =>
      cases b
      · exact Or.inr (Or.inl ⟨rfl, rfl⟩)
      · exact Or.inr (Or.inr rfl)
  unfold getter colOf
  rw [h1, h2]
  simp only [ok_bind]
  rcases hnat (flatQuery q) with ⟨e, h, h'⟩ | ⟨h, h'⟩ | h
  · rw [h, error_bind]
    cases q <;> simp only [flatQuery] at h' <;> simp only [get, h', error_bind]
  · rw [h, ok_bind]
    cases q <;> simp only [flatQuery] at h' <;> simp only [get, h', ok_bind] <;> rfl
  · rw [h, ok_bind]
    rfl

theorem lookup_load (fields : List (Str × List K)) (d : Dict (List K)) (name : Str) (col : List K)
    (hnd : (fields.map (fun f => TextUtils.snake f.1)).Nodup) (h : (name, col) ∈ fields) :
    lookup (fields.foldl (fun d f => setKey d (TextUtils.snake f.1) f.2) d) (TextUtils.snake name) = some col := by
  have keep : ∀ (fs : List (Str × List K)) (d : Dict (List K)) (k : Str), k ∉ fs.map (fun f => TextUtils.snake f.1) →
      lookup (fs.foldl (fun d f => setKey d (TextUtils.snake f.1) f.2) d) k = lookup d k := by
    intro fs
    induction fs with
    | nil => intro d k _; rfl
    | cons f fs ih =>
      intro d k hk
      simp only [List.map_cons, List.mem_cons, not_or] at hk
      rw [List.foldl_cons, ih _ _ hk.2, lookup_setKey, if_neg hk.1]
  induction fields generalizing d with
  | nil => simp at h
  | cons f fs ih =>
    rw [List.map_cons, List.nodup_cons] at hnd
    rw [List.foldl_cons]
    rcases List.mem_cons.mp h with e | h
    · subst e
      rw [keep _ _ _ hnd.1, lookup_setKey, if_pos rfl]
    · exact ih _ hnd.2 h

theorem eoLine_zero (parse : Str → Option K) (c : Cols K) (l : List Str) :
    eoLine parse c l 0 = c 0 ++ ((l[1]?).bind parse).toList := by
  unfold eoLine appendFields
  cases h : (l[0 + 1]?).bind parse with
  | none => simp only [Nat.zero_add] at h; simp [h]
  | some v =>
    simp only []
    rw [appendFields_before _ _ _ _ _ _ (by omega), if_pos rfl]
    simp only [Nat.zero_add] at h
    simp [h]

theorem eoLoad_times (parse : Str → Option K) (lines : List (List Str)) : eoLoad parse lines 0 = timesOf parse lines := by
  have : ∀ (ls : List (List Str)) (c : Cols K), ls.foldl (eoLine parse) c 0 = c 0 ++ timesOf parse ls := by
    intro ls
    induction ls with
    | nil => intro c; simp [timesOf]
    | cons l ls ih =>
      intro c
      rw [List.foldl_cons, ih, eoLine_zero]
      unfold timesOf
      rw [List.filterMap_cons]
      cases h : (l[1]?).bind parse <;> simp
  have := this lines (fun _ => [])
  simpa [eoLoad] using this

theorem eo_lookup (parse : Str → Option K) (lines : List (List Str)) (w : Quantity) :
    lookup (eoObject parse lines).data (eoKey w) = some (eoLoad parse lines (eoField w - 1)) := by
  cases w <;> rfl

/-! ### Properties -/

/-- C87, SBET.  Each getter of an object loaded from an SBET file interpolates its own field of the file against the
file's times, provided no two field names coincide in snake case. -/
theorem C87_sbet (fields : List (Str × List K)) (n : Nat) (hnd : (fields.map (fun f => TextUtils.snake f.1)).Nodup)
    (times col : List K) (w : Quantity) (ht : ("GpsTime".toList, times) ∈ fields) (hc : (sbetField w, col) ∈ fields)
    (q : NavQ K) : getter (sbetLoad fields n) (sbetKey w) q = get times col q := by
  apply getter_eq
  · have := lookup_load fields [] _ _ hnd ht
    rw [show TextUtils.snake "GpsTime".toList = "gps_time".toList by decide +kernel] at this
    exact this
  · have := lookup_load fields [] _ _ hnd hc
    rw [show TextUtils.snake (sbetField w) = sbetKey w by cases w <;> decide +kernel] at this
    exact this

/-- C87: the names pdal gives the fields do not coincide in snake case. -/
theorem C87_sbet_names : (sbetNames.map TextUtils.snake).Nodup ∧ "GpsTime".toList ∈ sbetNames ∧
    ∀ w, sbetField w ∈ sbetNames := by
  refine ⟨by decide +kernel, by decide +kernel, ?_⟩
  intro w
  cases w <;> decide +kernel

theorem eo_at (parse : Str → Option K) (lines : List (List Str))
    (h : ∀ l ∈ lines, (∃ v, recordOf parse l v) ∨ notRecord parse l)
    (hs : (timesOf parse lines).Pairwise (· < ·)) (h2 : 2 ≤ (timesOf parse lines).length)
    (l : List Str) (hl : l ∈ lines) (v : Nat → K) (hv : recordOf parse l v) (k : Nat) (hk : k < 9) (key : Str)
    (hkey : lookup (eoObject parse lines).data key = some (eoLoad parse lines k)) :
    ∃ s x, l[k + 1]? = some s ∧ parse s = some x ∧
      getter (eoObject parse lines) key (.num (v 0)) = .ok (.num (some x)) ∧ InRecord (eoLoad parse lines 0) (v 0) := by
  obtain ⟨recs, -, -, r3, r4⟩ := C47_aligned_partial parse lines h
  obtain ⟨i, hi⟩ := List.getElem?_of_mem (r3 l hl ⟨v, hv⟩)
  obtain ⟨l0, f0⟩ := r4 0 (by omega)
  obtain ⟨l1, f1⟩ := r4 k hk
  obtain ⟨s0, t, a1, a2, a3⟩ := f0 i l hi
  obtain ⟨s, x, b1, b2, b3⟩ := f1 i l hi
  refine ⟨s, x, b1, b2, ?_⟩
  have hv0 : v 0 = t := by
    obtain ⟨s', e1, e2⟩ := hv 0 (by omega)
    rw [a1] at e1
    obtain rfl := Option.some.inj e1
    rw [a2] at e2
    exact (Option.some.inj e2).symm
  rw [getter_eq _ _ (eoLoad parse lines 0) (eoLoad parse lines k) rfl hkey]
  rw [← eoLoad_times] at hs h2
  have hin : InRecord (eoLoad parse lines 0) t := by
    set ts := eoLoad parse lines 0
    obtain ⟨hlt, hget⟩ := List.getElem?_eq_some_iff.mp a3
    have hp := List.pairwise_iff_getElem.mp hs
    refine ⟨ts[0]'(by omega), ts[ts.length - 1]'(by omega), ?_, ?_, ?_, ?_⟩
    · rw [List.head?_eq_getElem?, List.getElem?_eq_getElem (by omega)]
    · rw [List.getLast?_eq_getElem?, List.getElem?_eq_getElem (by omega)]
    · rcases Nat.eq_zero_or_pos i with rfl | hpos
      · exact le_of_eq hget
      · exact le_trans (hp 0 i (by omega) (by omega) hpos).le (le_of_eq hget)
    · by_cases hl : i = ts.length - 1
      · subst hl; exact le_of_eq hget.symm
      · exact le_trans (le_of_eq hget.symm) (hp i (ts.length - 1) (by omega) (by omega) (by omega)).le
  obtain ⟨out, o1, o2, o3⟩ := C44_interpolates (eoLoad parse lines 0) (eoLoad parse lines k) hs h2
    (by rw [l0, l1]) [t] (by simpa using hin)
  obtain ⟨y, y1, -, -, y4⟩ := o3 0 t rfl
  have hy := y4 i t a3 rfl
  rw [b3] at hy
  obtain rfl := Option.some.inj hy
  have hlen : out = [some x] := by
    match out, o2 with
    | [a], _ => simpa using y1
  rw [hlen] at o1
  rw [hv0]
  have hg := C45_shape (eoLoad parse lines 0) (eoLoad parse lines k) hs h2 (by rw [l0, l1]) (.d1 [t])
    (by simpa [NavQ.times] using hin)
  obtain ⟨out', e1, -, e3⟩ := hg
  rw [o1] at e1
  have : out' = [some x] := by
    injection e1 with e1
    injection e1 with e1
    exact e1.symm
  obtain ⟨v', f1, f2⟩ := e3 0 t rfl
  rw [this] at f1
  obtain rfl : v' = some x := by simpa using f1.symm
  exact ⟨f2, hin⟩

theorem eo_names (parse : Str → Option K) (lines : List (List Str)) (k : Nat) (name : Str) (hk : eoNames[k]? = some name) :
    k < 9 ∧ lookup (eoObject parse lines).data name = some (eoLoad parse lines k) := by
  have h9 : k < 9 := by
    by_contra h
    rw [List.getElem?_eq_none (by simp [eoNames]; omega)] at hk
    simp at hk
  refine ⟨h9, ?_⟩
  interval_cases k <;> (simp only [eoNames, List.map_cons, List.map_nil, List.getElem?_cons_zero, List.getElem?_cons_succ, Option.some.injEq] at hk; subst hk; rfl)

/-- C87, exterior orientation.  In a file whose lines are records or have no readable time, with at least two records at
increasing times, every getter returns at the time of a record the field of that very line it is about. -/
theorem C87_eo (parse : Str → Option K) (lines : List (List Str))
    (h : ∀ l ∈ lines, (∃ v, recordOf parse l v) ∨ notRecord parse l)
    (hs : (timesOf parse lines).Pairwise (· < ·)) (h2 : 2 ≤ (timesOf parse lines).length)
    (l : List Str) (hl : l ∈ lines) (v : Nat → K) (hv : recordOf parse l v) (w : Quantity) :
    ∃ s x, l[eoField w]? = some s ∧ parse s = some x ∧
      getter (eoObject parse lines) (eoKey w) (.num (v 0)) = .ok (.num (some x)) := by
  obtain ⟨s, x, h1, h2', h3, -⟩ := eo_at parse lines h hs h2 l hl v hv (eoField w - 1) (by cases w <;> decide) (eoKey w)
    (eo_lookup parse lines w)
  refine ⟨s, x, ?_, h2', h3⟩
  rw [← h1]
  cases w <;> rfl

theorem num_answer (times col : List K) (hs : times.Pairwise (· < ·)) (h2 : 2 ≤ times.length)
    (hl : col.length = times.length) (t : K) (ht : InRecord times t) :
    ∃ v, interpAt times col t = .ok (some v) ∧ get times col (.num t) = .ok (.num (some v)) := by
  obtain ⟨v, hv, -, -⟩ := interpAt_spec times col hs h2 hl t ht
  refine ⟨v, hv, ?_⟩
  have hn : times ≠ [] := by rintro rfl; simp at h2
  simp only [get, native, (inRange_iff times hn [t]).1 (by simpa using ht), ok_bind, if_true, interpAll, hv]

theorem interp_self (times : List K) (hs : times.Pairwise (· < ·)) (h2 : 2 ≤ times.length) (t : K)
    (ht : InRecord times t) : interpAt times times t = .ok (some t) := by
  obtain ⟨v, hv, ⟨k, hk⟩, hb⟩ := interpAt_spec times times hs h2 rfl t ht
  obtain ⟨x0, x1, y0, y1, e1, e2, e3, e4, e5⟩ := hb k hk
  rw [e1] at e3; rw [e2] at e4
  obtain rfl := Option.some.inj e3
  obtain rfl := Option.some.inj e4
  have hlt : x0 < x1 := (sorted_lt times hs k (k + 1) x0 x1 e1 e2).mp (by omega)
  have : x1 - x0 ≠ 0 := by intro h; linarith
  rw [div_mul_cancel₀ _ this] at e5
  rw [hv, e5]
  congr 2
  ring

theorem allColumns_ok (times : List K) (q : List K) (f : List K → K → K) (d : Dict (List K))
    (h : ∀ kc ∈ d, ∀ t ∈ q, interpAt times kc.2 t = .ok (some (f kc.2 t))) :
    allColumns times q d = .ok (d.map (fun kc => (kc.1, q.map (fun t => some (f kc.2 t))))) := by
  induction d with
  | nil => rfl
  | cons kc d ih =>
    obtain ⟨k, c⟩ := kc
    unfold allColumns
    rw [interpAll_spec times c (fun t => some (f c t)) q (h (k, c) (by simp)), ok_bind,
      ih (fun kc hkc => h kc (by simp [hkc])), ok_bind]
    rfl

theorem lookup_map {V W : Type} (d : Dict V) (g : V → W) (key : Str) :
    lookup (d.map (fun kc => (kc.1, g kc.2))) key = (lookup d key).map g := by
  unfold lookup
  induction d with
  | nil => rfl
  | cons kc d ih =>
    rw [List.map_cons, List.find?_cons, List.find?_cons]
    by_cases h : kc.1 = key
    · simp [h]
    · simp only [h, decide_false]
      exact ih

/-- C87, records.  For times in range, `get_nav_records` answers in the shape of the query with records that describe the
object at the times asked for: every column, the time itself, and the values the getters give. -/
theorem C87_records (o : NavObj K) (times : List K) (hg : lookup o.data "gps_time".toList = some times)
    (hs : times.Pairwise (· < ·)) (h2 : 2 ≤ times.length) (hcols : ∀ kc ∈ o.data, kc.2.length = times.length)
    (q : NavQ K) (hq : ∀ t ∈ q.times, InRecord times t) :
    match q with
    | .num t => ∃ rec, getRecords o (.num t) = .ok (.num rec) ∧ Describes o t rec
    | .d1 l => ∃ out : List (Record K), getRecords o (.d1 l) = .ok (.d1 out) ∧ out.length = l.length ∧
        ∀ (i : Nat) (t : K), l[i]? = some t → ∃ rec, out[i]? = some rec ∧ Describes o t rec
    | .d2 a => ∃ out : A2 (Record K), getRecords o (.d2 a) = .ok (.d2 out) ∧ out.ny = a.ny ∧ out.nx = a.nx ∧
        ∀ y x, y < a.ny → x < a.nx → Describes o (a.px y x) (out.px y x) := by
  classical
  have hn : times ≠ [] := by rintro rfl; simp at h2
  have hex : ∀ c : List K, ∀ t : K, c.length = times.length ∧ InRecord times t → ∃ v, interpAt times c t = .ok (some v) ∧
      get times c (.num t) = .ok (.num (some v)) := fun c t h => num_answer times c hs h2 h.1 t h.2
  choose! f hf1 hf2 using hex
  let rec1 : K → Record K := fun t => o.data.map (fun kc => (kc.1, some (f kc.2 t)))
  have hdesc : ∀ t, InRecord times t → Describes o t (rec1 t) := by
    intro t ht
    have hmem : ∀ (key : Str) (col : List K), lookup o.data key = some col → col.length = times.length := by
      intro key col h
      unfold lookup at h
      rw [Option.map_eq_some_iff] at h
      obtain ⟨p, hp, e⟩ := h
      rw [← e]
      exact hcols p (List.mem_of_find?_eq_some hp)
    refine ⟨by simp [rec1], ?_, ?_⟩
    · rw [show lookup (rec1 t) _ = _ from lookup_map o.data (fun c => some (f c t)) _, hg]
      have h1 := hf1 times t ⟨rfl, ht⟩
      rw [interp_self times hs h2 t ht] at h1
      injection h1 with h1
      rw [Option.map_some, ← h1]
    · intro key col h
      refine ⟨f col t, ?_, ?_⟩
      · rw [show lookup (rec1 t) _ = _ from lookup_map o.data (fun c => some (f c t)) _, h]
        rfl
      · rw [getter_eq o key times col hg h]
        exact hf2 col t ⟨hmem key col h, ht⟩
  have hnat : ∀ l : List K, (∀ t ∈ l, InRecord times t) → recordsNative o l = .ok (some (l.map rec1)) := by
    intro l hl
    unfold recordsNative colOf
    rw [hg]
    simp only [ok_bind]
    rw [(inRange_iff times hn l).1 hl, ok_bind, if_pos rfl,
      allColumns_ok times l f o.data (fun kc hkc t ht => hf1 kc.2 t ⟨hcols kc hkc, hl t ht⟩), ok_bind]
    congr 2
    apply List.ext_getElem?
    intro i
    rw [List.getElem?_map, List.getElem?_map]
    by_cases hi : i < l.length
    · rw [List.getElem?_range hi, List.getElem?_eq_getElem hi]
      simp [rec1, List.getElem?_eq_getElem hi]
    · rw [List.getElem?_eq_none (by simp; omega), List.getElem?_eq_none (by omega)]
      rfl
  cases q with
  | num t =>
    refine ⟨rec1 t, ?_, hdesc t (hq t (by simp [NavQ.times]))⟩
    simp only [getRecords, flatQuery, hnat [t] hq, ok_bind, List.map_cons]
  | d1 l =>
    refine ⟨l.map rec1, ?_, by simp, ?_⟩
    · simp only [getRecords, flatQuery, hnat l hq, ok_bind]
    · intro i t hi
      exact ⟨rec1 t, by simp [hi], hdesc t (hq t (List.mem_of_getElem? hi))⟩
  | d2 a =>
    refine ⟨⟨a.ny, a.nx, fun j i => ((pixels a).map rec1).getD (j * a.nx + i) []⟩, ?_, rfl, rfl, ?_⟩
    · simp only [getRecords, flatQuery, hnat (pixels a) hq, ok_bind]
      rw [if_pos (by simp [pixels_length])]
    · intro y x hy hx
      have hm : a.px y x ∈ pixels a := mem_pixels.mpr ⟨y, x, hy, hx, rfl⟩
      have := hdesc _ (hq _ hm)
      simpa [pixels_getD a y x hy hx] using this

/-- C87, exterior orientation: the record at the time of a line has the nine fields of that very line under their names. -/
theorem C87_eo_record (parse : Str → Option K) (lines : List (List Str))
    (h : ∀ l ∈ lines, (∃ v, recordOf parse l v) ∨ notRecord parse l)
    (hs : (timesOf parse lines).Pairwise (· < ·)) (h2 : 2 ≤ (timesOf parse lines).length)
    (l : List Str) (hl : l ∈ lines) (v : Nat → K) (hv : recordOf parse l v) :
    ∃ rec, getRecords (eoObject parse lines) (.num (v 0)) = .ok (.num rec) ∧ rec.map Prod.fst = eoNames ∧
      ∀ (k : Nat) (name : Str), eoNames[k]? = some name →
        ∃ s x, l[k + 1]? = some s ∧ parse s = some x ∧ lookup rec name = some (some x) := by
  obtain ⟨_, _, -, -, -, hin⟩ := eo_at parse lines h hs h2 l hl v hv 0 (by omega) "gps_time".toList rfl
  have hs' := hs
  have h2' := h2
  rw [← eoLoad_times] at hs' h2'
  obtain ⟨recs, -, -, -, r4⟩ := C47_aligned_partial parse lines h
  have hcols : ∀ kc ∈ (eoObject parse lines).data, kc.2.length = (eoLoad parse lines 0).length := by
    intro kc hkc
    have : ∀ k, k < 9 → (eoLoad parse lines k).length = (eoLoad parse lines 0).length := fun k hk => by
      rw [(r4 k hk).1, (r4 0 (by omega)).1]
    simp only [eoObject, List.mem_cons, List.not_mem_nil, or_false] at hkc
    rcases hkc with rfl | rfl | rfl | rfl | rfl | rfl | rfl | rfl | rfl <;> exact this _ (by omega)
  have hq : ∀ t ∈ (NavQ.num (v 0)).times, InRecord (eoLoad parse lines 0) t := by
    intro t ht
    have : t = v 0 := by simpa [NavQ.times] using ht
    subst this
    exact hin
  obtain ⟨rec, e1, e2⟩ := C87_records (eoObject parse lines) (eoLoad parse lines 0) rfl hs' h2' hcols (.num (v 0)) hq
  refine ⟨rec, e1, e2.1, ?_⟩
  intro k name hk
  obtain ⟨h9, hlook⟩ := eo_names parse lines k name hk
  obtain ⟨s, x, g1, g2, g3, -⟩ := eo_at parse lines h hs h2 l hl v hv k h9 name hlook
  obtain ⟨x', f1, f2⟩ := e2.2.2 name _ hlook
  rw [g3] at f2
  injection f2 with f2
  injection f2 with f2
  exact ⟨s, x, g1, g2, by rw [f1, ← f2]⟩

/-- C87, out of range: no records and no values, even for a column that does not exist. -/
theorem C87_out_of_range (o : NavObj K) (times : List K) (hg : lookup o.data "gps_time".toList = some times)
    (hn : times ≠ []) (q : NavQ K) (t : K) (ht : t ∈ q.times) (hout : ¬ InRecord times t) (key : Str) :
    getRecords o q = .ok .none ∧ getter o key q = .ok .none := by
  have hr : inRange times (flatQuery q) = .ok false := (inRange_iff times hn _).2 (by
    intro h
    refine hout (h t ?_)
    cases q <;> exact ht)
  constructor
  · unfold getRecords recordsNative colOf
    rw [hg]
    simp only [ok_bind, hr]
    rfl
  · unfold getter colOf
    rw [hg]
    simp only [ok_bind, hr]
    rfl

/-- C87, number of records: the number of lines with a readable time. -/
theorem C87_num_records (parse : Str → Option K) (lines : List (List Str)) :
    (eoObject parse lines).numRecords = (timesOf parse lines).length := by
  rw [← eoLoad_times]; rfl

/-- C87, record length: an SBET object reports the number of entries of its records. -/
theorem C87_record_length_sbet (fields : List (Str × List K)) (n : Nat)
    (hnd : (fields.map (fun f => TextUtils.snake f.1)).Nodup) (t : K) (rec : Record K)
    (h : Describes (sbetLoad fields n) t rec) : rec.length = (sbetLoad fields n).recordLength := by
  have hlen : ∀ (fs : List (Str × List K)) (d : Dict (List K)), (∀ f ∈ fs, ∀ p ∈ d, p.1 ≠ TextUtils.snake f.1) →
      (fs.map (fun f => TextUtils.snake f.1)).Nodup →
      (fs.foldl (fun d f => setKey d (TextUtils.snake f.1) f.2) d).length = d.length + fs.length := by
    intro fs
    induction fs with
    | nil => intro d _ _; simp
    | cons f fs ih =>
      intro d hd hn
      rw [List.map_cons, List.nodup_cons] at hn
      have hs : setKey d (TextUtils.snake f.1) f.2 = d ++ [(TextUtils.snake f.1, f.2)] := by
        unfold setKey
        rw [if_neg]
        simp only [List.any_eq_true, not_exists, not_and, decide_eq_true_eq]
        intro p hp
        exact hd f (by simp) p hp
      rw [List.foldl_cons, hs, ih _ _ hn.2]
      · simp only [List.length_append, List.length_cons, List.length_nil]
        omega
      · intro g hgm p hp
        rcases List.mem_append.mp hp with hp | hp
        · exact hd g (by simp [hgm]) p hp
        · simp only [List.mem_singleton] at hp
          subst hp
          intro e
          exact hn.1 (List.mem_map.mpr ⟨g, hgm, e.symm⟩)
  have := congrArg List.length h.1
  simp only [List.length_map] at this
  rw [this]
  show ((fields.foldl _ [])).length = fields.length
  rw [hlen fields [] (by simp) hnd]
  simp

/-- C87 fails for the record length of exterior-orientation objects: it is always reported as 7, but every record has nine
entries. -/
theorem C87_record_length_eo_false (parse : Str → Option K) (lines : List (List Str)) (t : K) (rec : Record K)
    (h : Describes (eoObject parse lines) t rec) : rec.length = 9 ∧ (eoObject parse lines).recordLength = 7 := by
  have := congrArg List.length h.1
  simp only [List.length_map] at this
  exact ⟨this, rfl⟩

/-- Two records of an exterior-orientation file meet the hypotheses. -/
example :
    let parse : Str → Option ℚ := fun s => if s = ['1'] then some 1 else if s = ['2'] then some 2 else some 7
    let l1 : List Str := [['x'], ['1'], ['2'], ['7'], ['7'], ['7'], ['7'], ['7'], ['7'], ['7']]
    let l2 : List Str := [['x'], ['2'], ['2'], ['7'], ['7'], ['7'], ['7'], ['7'], ['7'], ['7']]
    (timesOf parse [l1, l2]).Pairwise (· < ·) ∧ 2 ≤ (timesOf parse [l1, l2]).length ∧
    recordOf parse l1 (fun j => if j = 0 then 1 else if j = 1 then 2 else 7) := by
  refine ⟨by simp [timesOf], by simp [timesOf], ?_⟩
  intro j hj
  interval_cases j <;> exact ⟨_, rfl, by simp⟩

/-- An object with two columns meets the hypotheses of the record theorem. -/
example : let o : NavObj ℚ := ⟨[("gps_time".toList, [1, 3]), ("z".toList, [10, 20])], 2, 2⟩
    lookup o.data "gps_time".toList = some [1, 3] ∧ (∀ kc ∈ o.data, kc.2.length = 2) ∧ InRecord ([1, 3] : List ℚ) 2 := by
  refine ⟨rfl, ?_, ⟨1, 3, rfl, rfl, by norm_num, by norm_num⟩⟩
  intro kc h
  simp at h
  rcases h with rfl | rfl <;> rfl

end
end Verif.Nav
