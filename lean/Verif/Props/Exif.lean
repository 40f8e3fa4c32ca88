import Verif.Model.Exif
import Verif.Lemmas.EnviImage
import Verif.Props.ImageFiles
import Verif.Props.Time

/-! C125: time and position of a MicaSense image from its tags. -/

set_option linter.unusedSectionVars false

namespace Verif.Exif
open Verif Verif.Images Verif.TextUtils Verif.Envi Verif.Nav

/-! ### Specification: the calendar -/

/-- Specification: thirty days have April, June, September and November; February has 28, in leap years 29. -/
def monthLength (y mo : Nat) : Nat :=
  match mo with
  | 2 => if y % 400 = 0 ∨ (y % 4 = 0 ∧ y % 100 ≠ 0) then 29 else 28
  | 4 | 6 | 9 | 11 => 30
  | _ => 31

/-- Specification: `c'` is the date and time one second after `c` (no leap seconds, as in Unix time). -/
inductive NextSecond : Civil → Civil → Prop
  | second (y mo d h mi s : Nat) : s < 59 → NextSecond ⟨y, mo, d, h, mi, s⟩ ⟨y, mo, d, h, mi, s + 1⟩
  | minute (y mo d h mi : Nat) : mi < 59 → NextSecond ⟨y, mo, d, h, mi, 59⟩ ⟨y, mo, d, h, mi + 1, 0⟩
  | hour (y mo d h : Nat) : h < 23 → NextSecond ⟨y, mo, d, h, 59, 59⟩ ⟨y, mo, d, h + 1, 0, 0⟩
  | day (y mo d : Nat) : d < monthLength y mo → NextSecond ⟨y, mo, d, 23, 59, 59⟩ ⟨y, mo, d + 1, 0, 0, 0⟩
  | month (y mo : Nat) : mo < 12 → NextSecond ⟨y, mo, monthLength y mo, 23, 59, 59⟩ ⟨y, mo + 1, 1, 0, 0, 0⟩
  | year (y : Nat) : NextSecond ⟨y, 12, 31, 23, 59, 59⟩ ⟨y + 1, 1, 1, 0, 0, 0⟩

theorem monthDays_eq (y mo : Nat) : monthDays y mo = monthLength y mo := by
  unfold monthDays monthLength isLeap
  split
  · rename_i h
    subst h
    simp only [decide_eq_true_eq]
    split <;> split <;> first | rfl | (exfalso; omega)
  · split
    · rename_i h
      rcases h with rfl | rfl | rfl | rfl <;> rfl
    · rename_i h1 h2
      split <;> first | rfl | (exfalso; omega)

theorem twelve (y : Nat) : daysBeforeMonth y 12 = monthLength y 1 + monthLength y 2 + monthLength y 3 + monthLength y 4 + monthLength y 5 +
    monthLength y 6 + monthLength y 7 + monthLength y 8 + monthLength y 9 + monthLength y 10 + monthLength y 11 := by
  have h : ∀ m, daysBeforeMonth y (m + 2) = daysBeforeMonth y (m + 1) + monthLength y (m + 1) := fun m => by rw [← monthDays_eq]; rfl
  have h1 : daysBeforeMonth y 1 = 0 := rfl
  rw [h 10, h 9, h 8, h 7, h 6, h 5, h 4, h 3, h 2, h 1, h 0, h1, Nat.zero_add]

theorem year_next (y : Nat) (hy : 1 ≤ y) : daysBeforeYear (y + 1) + 1 = daysBeforeYear y + daysBeforeMonth y 12 + 32 := by
  have hm : daysBeforeMonth y 12 = 306 + monthLength y 2 := by
    rw [twelve]
    have a1 : monthLength y 1 = 31 := rfl
    have a3 : monthLength y 3 = 31 := rfl
    have a4 : monthLength y 4 = 30 := rfl
    have a5 : monthLength y 5 = 31 := rfl
    have a6 : monthLength y 6 = 30 := rfl
    have a7 : monthLength y 7 = 31 := rfl
    have a8 : monthLength y 8 = 31 := rfl
    have a9 : monthLength y 9 = 30 := rfl
    have a10 : monthLength y 10 = 31 := rfl
    have a11 : monthLength y 11 = 30 := rfl
    omega
  have hf : monthLength y 2 = if y % 400 = 0 ∨ (y % 4 = 0 ∧ y % 100 ≠ 0) then 29 else 28 := rfl
  rw [hm]
  generalize monthLength y 2 = f at *
  clear hm
  have e1 : daysBeforeYear (y + 1) = y * 365 + y / 4 - y / 100 + y / 400 := rfl
  have e2 : daysBeforeYear y = (y - 1) * 365 + (y - 1) / 4 - (y - 1) / 100 + (y - 1) / 400 := rfl
  generalize daysBeforeYear (y + 1) = A at *
  generalize daysBeforeYear y = B at *
  split at hf <;> omega

/-- C125: Unix time is the count of civil seconds from 1970-01-01 00:00:00 on: this second is 0 and each next second of the calendar is one more
(which determines it), and exactly the dates of the calendar are accepted. -/
theorem C125_calendar (c c' : Civil) (hv : c.valid = true) (h : NextSecond c c') :
    c'.seconds = c.seconds + 1 ∧ (c'.year ≤ 9999 → c'.valid = true) ∧ (⟨1970, 1, 1, 0, 0, 0⟩ : Civil).seconds = 0 := by
  have hve : ∀ c : Civil, c.valid = true ↔ (1 ≤ c.year ∧ c.year ≤ 9999 ∧ 1 ≤ c.month ∧ c.month ≤ 12 ∧ 1 ≤ c.day ∧
      c.day ≤ monthLength c.year c.month ∧ c.hour ≤ 23 ∧ c.minute ≤ 59 ∧ c.second ≤ 59) := by
    intro c
    unfold Civil.valid
    rw [decide_eq_true_eq, monthDays_eq]
  have ml : ∀ y m : Nat, 1 ≤ monthLength y m := by
    intro y m
    unfold monthLength
    split
    · split <;> omega
    all_goals omega
  rw [hve] at hv ⊢
  refine ⟨?_, ?_, by decide⟩
  · cases h with
    | second y mo d h mi s hs => simp only [Civil.seconds]; push_cast; ring
    | minute y mo d h mi hs => simp only [Civil.seconds]; push_cast; ring
    | hour y mo d h hs => simp only [Civil.seconds]; push_cast; ring
    | day y mo d hs => simp only [Civil.seconds]; push_cast; ring
    | month y mo hs =>
      have h1 : 1 ≤ mo := hv.2.2.1
      obtain ⟨k, rfl⟩ := Nat.exists_eq_add_of_le' h1
      have : daysBeforeMonth y (k + 1 + 1) = daysBeforeMonth y (k + 1) + monthLength y (k + 1) := by
        rw [← monthDays_eq]; rfl
      simp only [Civil.seconds, this]
      push_cast
      ring
    | year y =>
      have h1 : 1 ≤ y := hv.1
      have := year_next y h1
      have e : daysBeforeMonth (y + 1) 1 = 0 := rfl
      simp only [Civil.seconds, e]
      have : ((daysBeforeYear (y + 1) : Nat) : Int) + 1 = (daysBeforeYear y : Nat) + (daysBeforeMonth y 12 : Nat) + 32 := by exact_mod_cast this
      push_cast
      omega
  · intro hy
    cases h with
    | second y mo d h mi s hs => simp only [] at hv ⊢; omega
    | minute y mo d h mi hs => simp only [] at hv ⊢; omega
    | hour y mo d h hs => simp only [] at hv ⊢; omega
    | day y mo d hs => simp only [] at hv ⊢; omega
    | month y mo hs =>
      simp only [] at hv ⊢
      have := ml y (mo + 1)
      omega
    | year y =>
      simp only [] at hv hy ⊢
      have := ml (y + 1) 1
      omega

/-- C125: the dates of the leap seconds known to the conversion are the civil dates listed in the source, in Unix time. -/
theorem C125_leap_dates : leapDates (K := ℚ) = ([(1981, 7), (1982, 7), (1983, 7), (1985, 7), (1988, 1), (1990, 1), (1991, 1), (1992, 7), (1993, 7), (1994, 7),
    (1996, 1), (1997, 7), (1999, 1), (2006, 1), (2009, 1), (2012, 7), (2015, 7), (2017, 1)] : List (Nat × Nat)).map
      (fun d => (((⟨d.1, d.2, 1, 0, 0, 0⟩ : Civil).seconds : Int) : ℚ)) ∧
    tableStart (K := ℚ) = (((⟨1980, 1, 1, 0, 0, 0⟩ : Civil).seconds : Int) : ℚ) ∧ epoch1980 (K := ℚ) = (((⟨1980, 1, 6, 0, 0, 0⟩ : Civil).seconds : Int) : ℚ) := by
  have h : ([(1981, 7), (1982, 7), (1983, 7), (1985, 7), (1988, 1), (1990, 1), (1991, 1), (1992, 7), (1993, 7), (1994, 7),
    (1996, 1), (1997, 7), (1999, 1), (2006, 1), (2009, 1), (2012, 7), (2015, 7), (2017, 1)] : List (Nat × Nat)).map
      (fun d => (⟨d.1, d.2, 1, 0, 0, 0⟩ : Civil).seconds) = [362793600, 394329600, 425865600, 489024000, 567993600, 631152000, 662688000, 709948800, 741484800,
   773020800, 820454400, 867715200, 915148800, 1136073600, 1230768000, 1341100800, 1435708800, 1483228800] := by decide +kernel
  have h1 : (⟨1980, 1, 1, 0, 0, 0⟩ : Civil).seconds = 315532800 := by decide +kernel
  have h2 : (⟨1980, 1, 6, 0, 0, 0⟩ : Civil).seconds = 315964800 := by decide +kernel
  refine ⟨?_, by rw [h1]; norm_num [tableStart], by rw [h2]; norm_num [epoch1980]⟩
  rw [← Function.comp_def (fun n : Int => (n : ℚ)), ← List.map_map, h]
  simp [leapDates]

/-! ### The tags -/

/-- Specification: `n` written in decimal digits. -/
def Digits (t : Str) (n : Nat) : Prop := t ≠ [] ∧ (∀ ch ∈ t, isDig ch = true) ∧ n = digitsVal t

theorem parseInt_digits {t : Str} {n : Nat} (h : Digits t n) : parseInt t = some (n : Int) := by
  obtain ⟨hne, hd, rfl⟩ := h
  have h2 : strip t = t := strip_id _ (fun c hc => (isDig_not c (hd c hc)).1)
  unfold parseInt
  rw [h2]
  simp only []
  have hall : t.all isDig = true := by rw [List.all_eq_true]; exact hd
  match t, hne with
  | c :: r, _ =>
    have hc := isDig_not c (hd c (by simp))
    split
    · rename_i e; simp at e; exact absurd e.1 hc.2.2.2.2.2.2.1
    · rename_i e; simp at e; exact absurd e.1 hc.2.2.2.2.2.2.2
    · rw [if_pos ⟨by simp, hall⟩]
      rfl

theorem slice_digits {s pre t post : Str} {n a b : Nat} (hs : s = pre ++ t ++ post) (ha : pre.length = a) (hb : a + t.length = b) (h : Digits t n) :
    slice s a b = .ok n := by
  unfold slice
  have : (s.drop a).take (b - a) = t := by
    rw [hs, List.append_assoc, List.drop_left' ha, List.take_left']
    omega
  rw [this]
  unfold Readers.toIntPy
  rw [parseInt_digits h]
  simp only [ok_bind]
  rw [if_neg (by omega), Int.toNat_natCast]

/-- C125: the tag `YYYY:MM:DD hh:mm:ss` (whatever the separators) is the Unix time of that date; a date that does not exist is a ValueError. -/
theorem C125_exif_time (tY tM tD th tm ts : Str) (s1 s2 s3 s4 s5 : Char) (c : Civil) (hY : Digits tY c.year) (hM : Digits tM c.month)
    (hD : Digits tD c.day) (hh : Digits th c.hour) (hm : Digits tm c.minute) (hs : Digits ts c.second) (l0 : tY.length = 4) (l1 : tM.length = 2)
    (l2 : tD.length = 2) (l3 : th.length = 2) (l4 : tm.length = 2) (l5 : ts.length = 2) (rest : Str) :
    exifTime (tY ++ s1 :: (tM ++ s2 :: (tD ++ s3 :: (th ++ s4 :: (tm ++ s5 :: (ts ++ rest)))))) =
      if c.valid then .ok c.seconds else .error .valueError := by
  set s := tY ++ s1 :: (tM ++ s2 :: (tD ++ s3 :: (th ++ s4 :: (tm ++ s5 :: (ts ++ rest))))) with hdef
  have e1 : slice s 0 4 = .ok c.year := slice_digits (pre := []) (t := tY) (by rw [hdef]; rfl) rfl (by omega) hY
  have e2 : slice s 5 7 = .ok c.month := slice_digits (pre := tY ++ [s1]) (t := tM) (by rw [hdef]; simp; rfl) (by simp [l0]) (by omega) hM
  have e3 : slice s 8 10 = .ok c.day := slice_digits (pre := tY ++ [s1] ++ tM ++ [s2]) (t := tD) (by rw [hdef]; simp; rfl) (by simp [l0, l1]) (by omega) hD
  have e4 : slice s 11 13 = .ok c.hour := slice_digits (pre := tY ++ [s1] ++ tM ++ [s2] ++ tD ++ [s3]) (t := th) (by rw [hdef]; simp; rfl)
    (by simp [l0, l1, l2]) (by omega) hh
  have e5 : slice s 14 16 = .ok c.minute := slice_digits (pre := tY ++ [s1] ++ tM ++ [s2] ++ tD ++ [s3] ++ th ++ [s4]) (t := tm) (by rw [hdef]; simp; rfl)
    (by simp [l0, l1, l2, l3]) (by omega) hm
  have e6 : slice s 17 19 = .ok c.second := slice_digits (pre := tY ++ [s1] ++ tM ++ [s2] ++ tD ++ [s3] ++ th ++ [s4] ++ tm ++ [s5]) (t := ts)
    (by rw [hdef]; simp; rfl) (by simp [l0, l1, l2, l3, l4]) (by omega) hs
  unfold exifTime
  simp only [e1, e2, e3, e4, e5, e6, ok_bind]
  rfl

/-- C125: whatever the tag contains, it is the Unix time of a date of the calendar or a ValueError. -/
theorem C125_exif_outcomes (s : Str) : (∃ c : Civil, c.valid = true ∧ exifTime s = .ok c.seconds) ∨ exifTime s = .error .valueError := by
  have hsl : ∀ a b, (∃ n, slice s a b = .ok n) ∨ slice s a b = .error .valueError := by
    intro a b
    unfold slice Readers.toIntPy
    cases parseInt ((s.drop a).take (b - a)) with
    | none => exact Or.inr rfl
    | some n =>
      simp only [ok_bind]
      split
      · exact Or.inr rfl
      · exact Or.inl ⟨_, rfl⟩
  unfold exifTime
  rcases hsl 0 4 with ⟨y, h⟩ | h
  swap; · rw [h, error_bind]; exact Or.inr rfl
  rw [h, ok_bind]
  rcases hsl 5 7 with ⟨mo, h⟩ | h
  swap; · rw [h, error_bind]; exact Or.inr rfl
  rw [h, ok_bind]
  rcases hsl 8 10 with ⟨d, h⟩ | h
  swap; · rw [h, error_bind]; exact Or.inr rfl
  rw [h, ok_bind]
  rcases hsl 11 13 with ⟨ho, h⟩ | h
  swap; · rw [h, error_bind]; exact Or.inr rfl
  rw [h, ok_bind]
  rcases hsl 14 16 with ⟨mi, h⟩ | h
  swap; · rw [h, error_bind]; exact Or.inr rfl
  rw [h, ok_bind]
  rcases hsl 17 19 with ⟨se, h⟩ | h
  swap; · rw [h, error_bind]; exact Or.inr rfl
  rw [h, ok_bind]
  unfold timestampOf
  by_cases hv : (⟨y, mo, d, ho, mi, se⟩ : Civil).valid = true
  · rw [if_pos hv]; exact Or.inl ⟨_, hv, rfl⟩
  · rw [if_neg hv]; exact Or.inr rfl

theorem digitsVal_lt (t : Str) (h : ∀ ch ∈ t, isDig ch = true) : digitsVal t < 10 ^ t.length := by
  induction t using List.reverseRecOn with
  | nil => simp [digitsVal]
  | append_singleton l a ih =>
    rw [digitsVal_append_single]
    have h1 := ih (fun ch hc => h ch (by simp [hc]))
    have h2 : a.toNat - 48 < 10 := by
      have := h a (by simp)
      unfold isDig at this
      simp only [decide_eq_true_eq] at this
      have : a.toNat ≤ 57 := this.2
      omega
    rw [List.length_append, List.length_singleton, pow_succ]
    omega

section
variable {K : Type} [Field K] [LinearOrder K] [IsStrictOrderedRing K] [FloorRing K]

theorem fraction_range (tag : Str) (f : K) (h : fraction tag = .ok f) : 0 ≤ f ∧ f < 1 := by
  unfold fraction at h
  split at h
  · obtain rfl := Except.ok.inj h
    unfold subSeconds zeroPoint
    have hd := natStr_dig (digitsInt tag)
    have h1 := digitsVal_lt _ hd.1
    have h1' : ((digitsInt (natStr (digitsInt tag)) : Nat) : K) < 10 ^ (natStr (digitsInt tag)).length := by
      rw [digitsInt_eq]
      exact_mod_cast h1
    have hp : (0 : K) < 10 ^ (natStr (digitsInt tag)).length := by positivity
    constructor
    · positivity
    · rw [div_lt_one hp]; exact h1'
  · simp at h

/-- C125: in a time zone with distances of whole seconds the timestamp is the GPS second of the week of the EXIF time, a whole number, plus a fraction of a second, so it stays within the
week; the centre is the converted position. -/
theorem C125_timestamp (z : K → K) (hz : IsZone z) (hw : ∃ n : Int, zoneMove z = n) (t : Tags) (g lon lat : K) (h : gpsTimestampAndCenter z t = .ok (g, lon, lat)) :
    ∃ (utc w : Int) (sec : Nat) (f : K), exifTime t.dateTime = .ok utc ∧ gpsWeek z (utc : K) = .ok (w, (sec : K)) ∧ fraction t.subSec = .ok f ∧
      g = sec + f ∧ 0 ≤ f ∧ f < 1 ∧ 0 ≤ g ∧ g < 604800 ∧
      dmsToDd t.lon.1 t.lon.2.1 t.lon.2.2 t.lonRef = .ok lon ∧ dmsToDd t.lat.1 t.lat.2.1 t.lat.2.2 t.latRef = .ok lat := by
  unfold gpsTimestampAndCenter at h
  obtain ⟨utc, h1, h⟩ := bind_ok h
  obtain ⟨ws, h2, h⟩ := bind_ok h
  obtain ⟨f, h3, h⟩ := bind_ok h
  obtain ⟨lo, h4, h⟩ := bind_ok h
  obtain ⟨la, h5, h⟩ := bind_ok h
  obtain ⟨rfl, rfl, rfl⟩ : ws.2 + f = g ∧ lo = lon ∧ la = lat := by simpa using h
  obtain ⟨f0, f1⟩ := fraction_range _ f h3
  obtain ⟨g', w, s, e1, e2, e3, e4, e5⟩ := C49_week_seconds z hz (utc : K)
  obtain ⟨mv, hmv⟩ := hw
  rw [e2] at h2
  obtain rfl := Except.ok.inj h2
  obtain ⟨n, hn⟩ : ∃ n : Int, g' = n := by
    rw [utcToGps_eq z hz, hmv] at e1
    obtain rfl := Except.ok.inj e1
    unfold epoch1980
    split
    · exact ⟨utc - 315964800 - mv + (leapsUpTo z (utc : K) : Int), by push_cast; ring⟩
    · exact ⟨utc - 315964800 - mv + 18, by push_cast; ring⟩
  have hs : s = ((n - w * 604800 : Int) : K) := by push_cast; rw [← hn]; linarith
  have hs0 : 0 ≤ n - w * 604800 := by rw [hs] at e4; exact_mod_cast e4
  have hs1 : n - w * 604800 < 604800 := by rw [hs] at e5; exact_mod_cast e5
  obtain ⟨sec, hsec⟩ := Int.eq_ofNat_of_zero_le hs0
  have hs' : s = (sec : K) := by rw [hs, hsec]; simp
  have hlt : sec ≤ 604799 := by omega
  have hlt' : (sec : K) ≤ 604799 := by exact_mod_cast hlt
  have hnn : (0 : K) ≤ sec := Nat.cast_nonneg _
  refine ⟨utc, w, sec, f, h1, by rw [e2, hs'], h3, by simp only [hs'], f0, f1, ?_, ?_, h4, h5⟩
  · simp only [hs']; linarith
  · simp only [hs']; linarith

/-- C125: of two images of the same GPS week (from 1980 on) the one with the later EXIF second has the larger timestamp, whatever the fractions. -/
theorem C125_order (z : K → K) (hzone : IsZone z) (hm : ∃ n : Int, zoneMove z = n) (t t' : Tags) (g lon lat g' lon' lat' : K) (utc utc' w : Int) (s s' : K)
    (h : gpsTimestampAndCenter z t = .ok (g, lon, lat)) (h' : gpsTimestampAndCenter z t' = .ok (g', lon', lat'))
    (hu : exifTime t.dateTime = .ok utc) (hu' : exifTime t'.dateTime = .ok utc') (hlt : utc < utc')
    (hw : gpsWeek z (utc : K) = .ok (w, s)) (hw' : gpsWeek z (utc' : K) = .ok (w, s')) (hz : Since1980 z (utc : K)) : g < g' := by
  obtain ⟨u, w1, sec, f, a1, a2, a3, rfl, a5, a6, -⟩ := C125_timestamp z hzone hm t g lon lat h
  obtain ⟨u', w2, sec', f', b1, b2, b3, rfl, b5, b6, -⟩ := C125_timestamp z hzone hm t' g' lon' lat' h'
  rw [hu] at a1; rw [hu'] at b1
  obtain rfl := Except.ok.inj a1
  obtain rfl := Except.ok.inj b1
  obtain ⟨q, k, r, e1, e2, e3, -⟩ := C49_week_seconds z hzone (utc : K)
  obtain ⟨q', k', r', c1, c2, c3, -⟩ := C49_week_seconds z hzone (utc' : K)
  rw [e2] at a2 hw
  rw [c2] at b2 hw'
  obtain ⟨rfl, rfl⟩ := Prod.mk.inj (Except.ok.inj hw)
  obtain ⟨rfl, rfl⟩ := Prod.mk.inj (Except.ok.inj hw')
  obtain ⟨-, rfl⟩ := Prod.mk.inj (Except.ok.inj a2)
  obtain ⟨-, rfl⟩ := Prod.mk.inj (Except.ok.inj b2)
  have hltK : (utc : K) + 1 ≤ utc' := by exact_mod_cast hlt
  rw [utcToGps_eq z hzone, if_pos hz] at e1
  rw [utcToGps_eq z hzone, if_pos (since_mono hz (by linarith))] at c1
  have e1' := Except.ok.inj e1
  have c1' := Except.ok.inj c1
  have hm : (leapsUpTo z (utc : K) : K) ≤ leapsUpTo z (utc' : K) := by exact_mod_cast leapsUpTo_mono z _ _ (by linarith)
  linarith

end

/-- An image of 2019-07-15 12:30:45.5, at 77.5 W, 43.25 N. -/
example : ∃ r : ℚ × ℚ × ℚ, gpsTimestampAndCenter (fun _ => (0 : ℚ)) ⟨"2019:07:15 12:30:45".toList, "5".toList, (⟨77, 1⟩, ⟨30, 1⟩, ⟨0, 1⟩), ['W'],
    (⟨43, 1⟩, ⟨15, 1⟩, ⟨0, 1⟩), ['N']⟩ = .ok r ∧ r.2.1 = -(155 / 2) := by
  have h1 : exifTime "2019:07:15 12:30:45".toList = .ok 1563193845 := by decide +kernel
  obtain ⟨g, w, s, -, e2, -⟩ := C49_week_seconds (fun _ => (0 : ℚ)) utc_zone ((1563193845 : Int) : ℚ)
  have h3 : (fraction "5".toList : Py ℚ) = .ok (subSeconds "5".toList) := by
    unfold fraction
    rw [if_pos ⟨by decide, by decide⟩]
  refine ⟨(s + subSeconds "5".toList, -(155 / 2), 173 / 4), ?_, rfl⟩
  unfold gpsTimestampAndCenter
  simp only [h1, ok_bind, e2, h3, dmsToDd]
  norm_num
  rw [if_neg (show ¬ (('N' : Char) = 'S' ∨ ('N' : Char) = 'W') by decide)]
  rfl

example : NextSecond ⟨2020, 2, 29, 23, 59, 59⟩ ⟨2020, 3, 1, 0, 0, 0⟩ ∧ (⟨2020, 2, 29, 23, 59, 59⟩ : Civil).valid = true ∧
    (⟨2019, 2, 29, 0, 0, 0⟩ : Civil).valid = false := ⟨NextSecond.month 2020 2 (by decide), by decide, by decide⟩

end Verif.Exif
