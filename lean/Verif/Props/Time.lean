import Verif.Lemmas.ImageUtils
import Verif.Model.Nav
import Mathlib.Tactic.NormNum
import Mathlib.Tactic.IntervalCases
import Mathlib.Tactic.FieldSimp

/-! C48, C49, C76: conversions between UTC and GPS time. -/

set_option linter.unusedSectionVars false

namespace Verif.Nav
open Verif ImageUtils

section
variable {K : Type} [Field K] [LinearOrder K] [IsStrictOrderedRing K]

/-- Specification: the eighteen leap seconds inserted since the GPS epoch, as Unix timestamps of the first
second after each (1981-07-01, 1982-07-01, 1983-07-01, 1985-07-01, 1988-01-01, 1990-01-01, 1991-01-01,
1992-07-01, 1993-07-01, 1994-07-01, 1996-01-01, 1997-07-01, 1999-01-01, 2006-01-01, 2009-01-01,
2012-07-01, 2015-07-01, 2017-01-01). -/
def leapDates : List K :=
  [362793600, 394329600, 425865600, 489024000, 567993600, 631152000, 662688000, 709948800, 741484800,
   773020800, 820454400, 867715200, 915148800, 1136073600, 1230768000, 1341100800, 1435708800, 1483228800]

/-- Specification: a time zone adds less than a day to any date (Python refuses others). -/
def IsZone (z : K → K) : Prop := ∀ d, |z d| < 86400

/-- Specification: the number of leap seconds a machine in the time zone `z` believes inserted up to the time `t` (`z = 0` gives the true number). -/
def leapsUpTo (z : K → K) (t : K) : Nat := (leapDates (K := K)).countP (fun d => decide (d + z d ≤ t))

/-- 1980-01-01, the first entry of the table. -/
def tableStart : K := 315532800

/-- 1980-01-06, the GPS epoch. -/
def epoch1980 : K := 315964800

/-- Specification: the time `t` is not before 1980-01-01 in the machine's time zone. -/
def Since1980 (z : K → K) (t : K) : Prop := tableStart + z tableStart ≤ t

instance (z : K → K) (t : K) : Decidable (Since1980 z t) := inferInstanceAs (Decidable (_ ≤ _))

/-- Specification: how far the rules of the zone moved between 1970-01-01 and 1980-01-06. -/
def zoneMove (z : K → K) : K := z epoch1980 - z 0

/-! ### bisect_right -/

theorem bisectLoop_spec (a : List K) (x : K) (hs : a.Pairwise (· ≤ ·)) (lo hi : Nat) (h : lo ≤ hi) (hl : hi ≤ a.length)
    (hlo : ∀ (i : Nat) (v : K), a[i]? = some v → i < lo → v ≤ x) (hhi : ∀ (i : Nat) (v : K), a[i]? = some v → hi ≤ i → x < v) :
    ∃ r, bisectLoop a x lo hi = .ok r ∧ r ≤ a.length ∧ (∀ (i : Nat) (v : K), a[i]? = some v → (v ≤ x ↔ i < r)) := by
  induction lo, hi using bisectLoop.induct a x with
  | case1 lo hi hlt he =>
    have : (lo + hi) / 2 < a.length := by omega
    rw [List.getElem?_eq_none_iff] at he
    omega
  | case2 lo hi hlt m he hx ih =>
    rw [bisectLoop, dif_pos hlt, he]
    simp only []
    rw [if_pos hx]
    refine ih (by omega) (by omega) hlo ?_
    intro i v hv hi'
    obtain ⟨p, rfl⟩ := List.getElem?_eq_some_iff.1 hv
    obtain ⟨q, rfl⟩ := List.getElem?_eq_some_iff.1 he
    rcases Nat.eq_or_lt_of_le hi' with e | e
    · subst e; exact hx
    · exact lt_of_lt_of_le hx (List.pairwise_iff_getElem.1 hs _ _ q p e)
  | case3 lo hi hlt m he hx ih =>
    rw [bisectLoop, dif_pos hlt, he]
    simp only []
    rw [if_neg hx]
    refine ih (by omega) (by omega) ?_ hhi
    intro i v hv hi'
    obtain ⟨p, rfl⟩ := List.getElem?_eq_some_iff.1 hv
    obtain ⟨q, rfl⟩ := List.getElem?_eq_some_iff.1 he
    rcases Nat.eq_or_lt_of_le (Nat.le_of_lt_succ hi') with e | e
    · subst e; exact not_lt.1 hx
    · exact le_trans (List.pairwise_iff_getElem.1 hs _ _ p q e) (not_lt.1 hx)
  | case4 lo hi hlt =>
    rw [bisectLoop, dif_neg hlt]
    refine ⟨lo, rfl, by omega, ?_⟩
    intro i v hv
    constructor
    · intro hvx
      by_contra hn
      exact absurd (hhi i v hv (by omega)) (not_lt.2 hvx)
    · intro hi'; exact hlo i v hv hi'

theorem countP_prefix (a : List K) (x : K) (r : Nat) (hr : r ≤ a.length) (h : ∀ (i : Nat) (v : K), a[i]? = some v → (v ≤ x ↔ i < r)) :
    a.countP (fun v => decide (v ≤ x)) = r := by
  induction a generalizing r with
  | nil => simp at hr; simp [hr]
  | cons b l ih =>
    rw [List.countP_cons]
    cases r with
    | zero =>
      have hb : ¬ b ≤ x := by
        intro hb
        have := (h 0 b rfl).1 hb
        omega
      rw [ih 0 (by omega) (fun i v hv => by
        have := h (i + 1) v (by simpa using hv)
        rw [this]; omega)]
      simp [hb]
    | succ r =>
      have hb : b ≤ x := (h 0 b rfl).2 (by omega)
      rw [ih r (by simpa using hr) (fun i v hv => by
        have := h (i + 1) v (by simpa using hv)
        rw [this]; omega)]
      simp [hb]

/-- On a sorted list `bisect_right` counts the entries not after `x`. -/
theorem bisectRight_count (a : List K) (x : K) (hs : a.Pairwise (· ≤ ·)) : bisectRight a x = .ok (a.countP (fun v => decide (v ≤ x))) := by
  obtain ⟨r, h1, h2, h3⟩ := bisectLoop_spec a x hs 0 a.length (by omega) le_rfl (fun i v _ h => by omega)
    (fun i v hv h => by have := (List.getElem?_eq_some_iff.1 hv).1; omega)
  unfold bisectRight
  rw [h1, countP_prefix a x r h2 h3]

/-! ### The table -/

theorem tableDates_nat : ∃ l : List Nat, tableStart :: leapDates (K := K) = l.map (fun n : Nat => (n : K)) ∧ l.Pairwise (fun a b => a + 15000000 ≤ b) := by
  refine ⟨[315532800, 362793600, 394329600, 425865600, 489024000, 567993600, 631152000, 662688000, 709948800, 741484800,
   773020800, 820454400, 867715200, 915148800, 1136073600, 1230768000, 1341100800, 1435708800, 1483228800], ?_, by decide⟩
  simp [leapDates, tableStart]

theorem tableDates_spacing : (tableStart :: leapDates (K := K)).Pairwise (fun a b => a + 15000000 ≤ b) := by
  obtain ⟨l, hl, h⟩ := tableDates_nat (K := K)
  rw [hl, List.pairwise_map]
  refine h.imp ?_
  intro a b hab
  exact_mod_cast hab

theorem leapTable_dates (z : K → K) : (leapTable z).map (fun e => e.1) = (tableStart :: leapDates (K := K)).map (fun d => d + z d) := rfl

theorem leapTable_sorted (z : K → K) (hz : IsZone z) : ((leapTable z).map (fun e => e.1)).Pairwise (· ≤ ·) := by
  rw [leapTable_dates, List.pairwise_map]
  refine (tableDates_spacing (K := K)).imp ?_
  intro a b hab
  have h1 := (abs_lt.1 (hz a)).2
  have h2 := (abs_lt.1 (hz b)).1
  linarith

theorem leapTable_count (z : K → K) (t : K) : ((leapTable z).map (fun e => e.1)).countP (fun v => decide (v ≤ t)) =
    (if Since1980 z t then 1 else 0) + leapsUpTo z t := by
  unfold leapsUpTo Since1980
  rw [leapTable_dates, List.countP_map, List.countP_cons]
  simp only [decide_eq_true_eq, Function.comp_apply]
  rw [Nat.add_comm]; rfl

theorem leapTable_entry (z : K → K) (i : Nat) (hi : i < 19) : ∃ d, (leapTable z)[i]? = some (d, 19 + (i : K)) := by
  unfold leapTable
  interval_cases i
  all_goals (simp only [List.getElem?_cons_succ, List.getElem?_cons_zero, Option.some.injEq, Prod.mk.injEq, exists_eq_left'])
  all_goals norm_num

theorem leapsUpTo_le (z : K → K) (t : K) : leapsUpTo z t ≤ 18 := by
  have := List.countP_le_length (p := fun d => decide (d + z d ≤ t)) (l := leapDates (K := K))
  exact this

theorem leap_after (d : K) (hd : d ∈ leapDates (K := K)) : tableStart + 15000000 ≤ d := by
  have := tableDates_spacing (K := K)
  rw [List.pairwise_cons] at this
  exact this.1 d hd

theorem leaps_none (z : K → K) (hz : IsZone z) (t : K) (h : t < tableStart + 10000000) : leapsUpTo z t = 0 := by
  unfold leapsUpTo
  rw [List.countP_eq_zero]
  intro d hd
  simp only [decide_eq_true_eq, not_le]
  have h1 := leap_after d hd
  have h2 := (abs_lt.1 (hz d)).1
  linarith

theorem leapSeconds_eq (z : K → K) (hz : IsZone z) (t : K) : leapSeconds z t =
    .ok (if Since1980 z t then 19 + (leapsUpTo z t : K) else 37) := by
  have hl := leapsUpTo_le z t
  unfold leapSeconds
  rw [bisectRight_count _ _ (leapTable_sorted z hz), leapTable_count, ok_bind]
  have hlen : (leapTable z).length = 19 := rfl
  rw [hlen]
  by_cases h : Since1980 z t
  · simp only [if_pos h]
    have e : (((1 + leapsUpTo z t : Nat) : Int) - 1) = ((leapsUpTo z t : Nat) : Int) := by push_cast; ring
    rw [e, pyIdx_nat (by omega)]
    obtain ⟨d, hd⟩ := leapTable_entry z (leapsUpTo z t) (by omega)
    simp only [ok_bind, hd]
  · simp only [if_neg h]
    rw [leaps_none z hz t (by
      unfold Since1980 at h
      have := (abs_lt.1 (hz tableStart)).2
      linarith [not_le.1 h])]
    have : pyIdx 19 (((0 + 0 : Nat) : Int) - 1) = .ok 18 := rfl
    rw [this]
    obtain ⟨d, hd⟩ := leapTable_entry z 18 (by omega)
    simp only [ok_bind, hd]
    norm_num

theorem leapSeconds_epoch (z : K → K) (hz : IsZone z) : leapSeconds z (gpsEpoch z) = .ok 19 := by
  have h1 := abs_lt.1 (hz tableStart)
  have h2 := abs_lt.1 (hz 315964800)
  rw [leapSeconds_eq z hz, if_pos (by unfold Since1980 gpsEpoch naiveStamp; have : (tableStart : K) = 315532800 := rfl; linarith),
    leaps_none z hz _ (by unfold gpsEpoch naiveStamp; have : (tableStart : K) = 315532800 := rfl; linarith)]
  norm_num

theorem gpsOffset_eq (z : K → K) (hz : IsZone z) (t : K) : gpsOffset z t =
    .ok (if Since1980 z t then (leapsUpTo z t : K) else 18) := by
  unfold gpsOffset
  rw [leapSeconds_eq z hz, leapSeconds_epoch z hz]
  simp only [ok_bind]
  congr 1
  split <;> ring

theorem epochs (z : K → K) : gpsEpoch z - unixEpoch z = epoch1980 + zoneMove z := by
  unfold gpsEpoch unixEpoch naiveStamp zoneMove epoch1980
  ring

theorem utcToGps_eq (z : K → K) (hz : IsZone z) (t : K) : utcToGps z t =
    .ok (t - epoch1980 - zoneMove z + (if Since1980 z t then (leapsUpTo z t : K) else 18)) := by
  unfold utcToGps
  rw [gpsOffset_eq z hz, epochs]
  simp only [ok_bind]
  congr 1
  ring

theorem gpsToUtc_eq (z : K → K) (hz : IsZone z) (g : K) : gpsToUtc z g =
    .ok (g + epoch1980 + zoneMove z - (if Since1980 z (g + epoch1980 + zoneMove z) then (leapsUpTo z (g + epoch1980 + zoneMove z) : K) else 18)) := by
  unfold gpsToUtc
  have e : g + (gpsEpoch z - unixEpoch z) = g + epoch1980 + zoneMove z := by rw [epochs]; ring
  simp only [e, gpsOffset_eq z hz]
  rfl

theorem leapsUpTo_mono (z : K → K) (t t' : K) (h : t ≤ t') : leapsUpTo z t ≤ leapsUpTo z t' := by
  unfold leapsUpTo
  apply List.countP_mono_left
  intro d _ hd
  simp only [decide_eq_true_eq] at hd ⊢
  linarith

theorem since_mono {z : K → K} {t t' : K} (h : Since1980 z t) (ht : t ≤ t') : Since1980 z t' := le_trans h ht

/-! ### C48 -/

/-- C48: the conversion to GPS time is strictly increasing from 1980 on, in every time zone. -/
theorem C48_increasing (z : K → K) (hz : IsZone z) (t t' : K) (hs : Since1980 z t) (h : t < t') :
    ∃ g g', utcToGps z t = .ok g ∧ utcToGps z t' = .ok g' ∧ g < g' := by
  rw [utcToGps_eq z hz, utcToGps_eq z hz, if_pos hs, if_pos (since_mono hs h.le)]
  refine ⟨_, _, rfl, rfl, ?_⟩
  have : (leapsUpTo z t : K) ≤ leapsUpTo z t' := by exact_mod_cast leapsUpTo_mono z t t' h.le
  linarith

/-- Specification: no leap second is inserted (as the machine sees it) in the `w` seconds after `t`. -/
def QuietAfter (z : K → K) (t w : K) : Prop := ∀ d ∈ leapDates (K := K), ¬ (t < d + z d ∧ d + z d ≤ t + w)

theorem leapsUpTo_quiet (z : K → K) (t w : K) (hw : 0 ≤ w) (hq : QuietAfter z t w) : leapsUpTo z (t + w) = leapsUpTo z t := by
  unfold leapsUpTo
  apply List.countP_congr
  intro d hd
  simp only [decide_eq_true_eq]
  have := hq d hd
  constructor
  · intro h; by_contra hn; exact this ⟨not_le.mp hn, h⟩
  · intro h; linarith

/-- C48 (partial): UTC to GPS and back is the identity at every time since 1980 that is not followed by a
leap second within as many seconds as leap seconds were inserted before (at most 18 seconds before each
leap second are excluded).  Missing: those windows (`C48_roundtrip_false`). -/
theorem C48_roundtrip_partial (z : K → K) (hz : IsZone z) (t : K) (hs : Since1980 z t) (hq : QuietAfter z t (leapsUpTo z t : K)) :
    ∃ g, utcToGps z t = .ok g ∧ gpsToUtc z g = .ok t := by
  rw [utcToGps_eq z hz, if_pos hs]
  refine ⟨_, rfl, ?_⟩
  have e : t - epoch1980 - zoneMove z + (leapsUpTo z t : K) + epoch1980 + zoneMove z = t + leapsUpTo z t := by ring
  have h0 : (0 : K) ≤ leapsUpTo z t := Nat.cast_nonneg _
  rw [gpsToUtc_eq z hz, e, if_pos (since_mono hs (by linarith)), leapsUpTo_quiet z t _ h0 hq]
  congr 1
  ring

theorem leapDates_spacing (a b : K) (ha : a ∈ leapDates (K := K)) (hb : b ∈ leapDates (K := K)) (hab : a < b) : a + 15000000 ≤ b := by
  have h := (List.pairwise_cons.1 (tableDates_spacing (K := K))).2
  obtain ⟨i, hi, rfl⟩ := List.getElem_of_mem ha
  obtain ⟨j, hj, rfl⟩ := List.getElem_of_mem hb
  rcases lt_trichotomy i j with hlt | heq | hgt
  · exact List.pairwise_iff_getElem.1 h i j hi hj hlt
  · subst heq; exact absurd hab (lt_irrefl _)
  · have := List.pairwise_iff_getElem.1 h j i hj hi hgt
    linarith

theorem leapDates_nodup : (leapDates (K := K)).Nodup := by
  have h := (List.pairwise_cons.1 (tableDates_spacing (K := K))).2
  refine h.imp ?_
  intro a b hab e
  subst e
  linarith

theorem countP_extra {α : Type} [DecidableEq α] (l : List α) (p q : α → Bool) (d : α)
    (h : ∀ x ∈ l, p x = (q x || decide (x = d))) (hd : q d = false) : l.countP p = l.countP q + l.count d := by
  induction l with
  | nil => rfl
  | cons a l ih =>
    have ha := h a (by simp)
    have ih' := ih (fun x hx => h x (by simp [hx]))
    rw [List.countP_cons, List.countP_cons, List.count_cons, ih', ha]
    by_cases e : a = d
    · subst e; simp [hd]; omega
    · simp [e]; omega

/-- Two counts of the leap seconds that judge exactly one date differently. -/
theorem countP_one_more (z z' : K → K) (hz : IsZone z) (hz' : IsZone z') (t t' d : K) (hd : d ∈ leapDates (K := K)) (h1 : t < d + z d)
    (h2 : d + z' d ≤ t') (hle : t ≤ t' + 86400) (hge : t' ≤ t + 86400) : leapsUpTo z' t' = leapsUpTo z t + 1 := by
  unfold leapsUpTo
  have hd1 := abs_lt.1 (hz d)
  have hd2 := abs_lt.1 (hz' d)
  rw [countP_extra _ _ (fun x => decide (x + z x ≤ t)) d, List.count_eq_one_of_mem leapDates_nodup hd]
  · intro x hx
    have hx1 := abs_lt.1 (hz x)
    have hx2 := abs_lt.1 (hz' x)
    rw [← Bool.decide_or]
    rw [decide_eq_decide]
    rcases lt_trichotomy x d with hlt | heq | hgt
    · have hsp := leapDates_spacing x d hx hd hlt
      have l1 : x + z' x ≤ t' := by linarith
      have l2 : x + z x ≤ t := by linarith
      exact ⟨fun _ => Or.inl l2, fun _ => l1⟩
    · subst heq
      exact ⟨fun _ => Or.inr rfl, fun _ => h2⟩
    · have hsp := leapDates_spacing d x hd hx hgt
      have l1 : ¬ x + z' x ≤ t' := by intro h; linarith
      have l2 : ¬ x + z x ≤ t := by intro h; linarith
      exact ⟨fun h => absurd h l1, fun h => by rcases h with h | h; exact absurd h l2; exact absurd h (ne_of_gt hgt)⟩
  · simpa using h1

/-- C48 fails: at every time followed by a leap second within as many seconds as leap seconds were
inserted before, UTC to GPS and back gives a time one second too early. -/
theorem C48_roundtrip_false (z : K → K) (hz : IsZone z) (t d : K) (hs : Since1980 z t) (hd : d ∈ leapDates (K := K)) (h1 : t < d + z d)
    (h2 : d + z d ≤ t + (leapsUpTo z t : K)) : ∃ g, utcToGps z t = .ok g ∧ gpsToUtc z g = .ok (t - 1) := by
  rw [utcToGps_eq z hz, if_pos hs]
  refine ⟨_, rfl, ?_⟩
  have e : t - epoch1980 - zoneMove z + (leapsUpTo z t : K) + epoch1980 + zoneMove z = t + leapsUpTo z t := by ring
  have h0 : (0 : K) ≤ leapsUpTo z t := Nat.cast_nonneg _
  have h18 : (leapsUpTo z t : K) ≤ 18 := by exact_mod_cast leapsUpTo_le z t
  rw [gpsToUtc_eq z hz, e, if_pos (since_mono hs (by linarith)),
    countP_one_more z z hz hz t (t + leapsUpTo z t) d hd h1 h2 (by linarith) (by linarith)]
  congr 1
  push_cast
  ring

/-- C48, exactly: since 1980 the round trip is the identity if and only if no leap second follows within as many seconds as were inserted before. -/
theorem C48_roundtrip_iff (z : K → K) (hz : IsZone z) (t : K) (hs : Since1980 z t) :
    (∃ g, utcToGps z t = .ok g ∧ gpsToUtc z g = .ok t) ↔ QuietAfter z t (leapsUpTo z t : K) := by
  constructor
  · rintro ⟨g, h1, h2⟩ d hd ⟨h3, h4⟩
    obtain ⟨g', e1, e2⟩ := C48_roundtrip_false z hz t d hs hd h3 h4
    rw [h1] at e1
    obtain rfl := Except.ok.inj e1
    rw [h2] at e2
    have := Except.ok.inj e2
    linarith
  · exact C48_roundtrip_partial z hz t hs

/-- C48 fails before 1980: the offset of 2017 is used there, so the conversion is not even increasing
across 1980-01-01. -/
theorem C48_before_1980_false (z : K → K) (hz : IsZone z) : ∃ t t' g g', t < t' ∧ utcToGps z t = .ok g ∧ utcToGps z t' = .ok g' ∧ g' < g := by
  refine ⟨tableStart + z tableStart - 1, tableStart + z tableStart, _, _, by linarith, utcToGps_eq z hz _, utcToGps_eq z hz _, ?_⟩
  rw [if_pos (show Since1980 z (tableStart + z tableStart) from le_refl _), if_neg (by unfold Since1980; linarith), leaps_none z hz _ (by
    have := (abs_lt.1 (hz tableStart)).2
    linarith)]
  push_cast
  linarith

theorem utc_zone : IsZone (fun _ : K => (0 : K)) := by
  intro d
  simp

theorem leapsUpTo_2016 : leapsUpTo (fun _ => (0 : ℚ)) 1483228799 = 17 := by
  norm_num [leapsUpTo, leapDates, List.countP_cons]

/-- 2017-06-01 is quiet for 18 seconds; 2016-12-31 23:59:59 UTC comes back as 23:59:58. -/
example : QuietAfter (fun _ => (0 : ℚ)) 1496275200 18 ∧ ((1483228800 : ℚ) ∈ leapDates (K := ℚ) ∧ (1483228799 : ℚ) < 1483228800 + 0 ∧
    (1483228800 : ℚ) + 0 ≤ 1483228799 + (leapsUpTo (fun _ => (0 : ℚ)) 1483228799 : ℚ)) := by
  refine ⟨?_, by simp [leapDates], by norm_num, by rw [leapsUpTo_2016]; norm_num⟩
  intro d hd
  simp only [leapDates, List.mem_cons, List.not_mem_nil, or_false] at hd
  rcases hd with rfl | rfl | rfl | rfl | rfl | rfl | rfl | rfl | rfl | rfl | rfl | rfl | rfl | rfl | rfl | rfl | rfl | rfl <;> norm_num

/-! ### C76 -/

/-- Specification: GPS time at the UTC time `t`: seconds since 1980-01-06 plus the leap seconds inserted
since. -/
def trueGps (t : K) : K := t - epoch1980 + ((leapDates (K := K)).filter (fun d => decide (d ≤ t))).length

theorem trueGps_eq (t : K) : trueGps t = t - epoch1980 + (leapsUpTo (fun _ => 0) t : K) := by
  unfold trueGps leapsUpTo
  simp only [add_zero, List.countP_eq_length_filter]

/-- C76 (partial): on a machine set to UTC the conversion gives GPS time.  Missing: other time zones
(`C76_time_zone_false`, `C76_moved_zone_false`). -/
theorem C76_utc_machine_partial (t : K) (h : epoch1980 ≤ t) : utcToGps (fun _ => 0) t = .ok (trueGps t) := by
  rw [utcToGps_eq _ utc_zone, if_pos (by unfold Since1980 tableStart; unfold epoch1980 at h; linarith), trueGps_eq]
  unfold zoneMove
  simp

/-- C76, exactly, in any time zone: the conversion gives GPS time at a time since 1980 if the zone had the same distance from UTC on 1970-01-01 and
1980-01-06 and no leap second falls between the time and its local reading; if only the latter fails it is one second wrong. -/
theorem C76_exact_partial (z : K → K) (hz : IsZone z) (hm : zoneMove z = 0) (t : K) (hs : Since1980 z t) :
    ((∀ d ∈ leapDates (K := K), (d ≤ t ↔ d + z d ≤ t)) → utcToGps z t = .ok (trueGps t)) ∧
    ((∃ d ∈ leapDates (K := K), d ≤ t ∧ t < d + z d) → utcToGps z t = .ok (trueGps t - 1)) ∧
    ((∃ d ∈ leapDates (K := K), t < d ∧ d + z d ≤ t) → utcToGps z t = .ok (trueGps t + 1)) := by
  rw [utcToGps_eq z hz, if_pos hs, hm, trueGps_eq]
  refine ⟨?_, ?_, ?_⟩
  · intro h
    have : leapsUpTo z t = leapsUpTo (fun _ => 0) t := by
      unfold leapsUpTo
      apply List.countP_congr
      intro d hd
      simp only [decide_eq_true_eq, add_zero]
      exact (h d hd).symm
    rw [this, sub_zero]
  · rintro ⟨d, hd, h1, h2⟩
    rw [countP_one_more z (fun _ => 0) hz utc_zone t t d hd h2 (by simpa using h1) (by linarith) (by linarith)]
    congr 1
    push_cast
    ring
  · rintro ⟨d, hd, h1, h2⟩
    rw [countP_one_more (fun _ => 0) z utc_zone hz t t d hd (by simpa using h1) h2 (by linarith) (by linarith)]
    congr 1
    push_cast
    ring

/-- C76: in any time zone that did not move between 1970 and 1980 the conversion gives GPS time at every time at least a day away from the leap
seconds and from the epoch. -/
theorem C76_away_from_leaps_partial (z : K → K) (hz : IsZone z) (hm : zoneMove z = 0) (t : K) (h : epoch1980 ≤ t)
    (haway : ∀ d ∈ leapDates (K := K), t + 86400 ≤ d ∨ d + 86400 ≤ t) : utcToGps z t = .ok (trueGps t) := by
  have hs : Since1980 z t := by
    have := abs_lt.1 (hz tableStart)
    unfold Since1980
    unfold epoch1980 at h
    have e : (tableStart : K) = 315532800 := rfl
    linarith
  refine (C76_exact_partial z hz hm t hs).1 ?_
  intro d hd
  have hd' := abs_lt.1 (hz d)
  rcases haway d hd with h' | h'
  · constructor <;> intro h'' <;> exfalso <;> linarith
  · constructor <;> intro h'' <;> linarith

/-- C76 fails elsewhere: on a machine west of Greenwich (`0 < z d`) the conversion is one second slow for `z d`
seconds after every leap second (for instance five hours in New York's standard time). -/
theorem C76_time_zone_false (z : K → K) (hz : IsZone z) (hm : zoneMove z = 0) (t d : K) (hd : d ∈ leapDates (K := K)) (h1 : d ≤ t)
    (h2 : t < d + z d) : utcToGps z t = .ok (trueGps t - 1) := by
  have hs : Since1980 z t := by
    have := abs_lt.1 (hz tableStart)
    have := leap_after d hd
    unfold Since1980
    linarith
  exact (C76_exact_partial z hz hm t hs).2.1 ⟨d, hd, h1, h2⟩

/-- C76 fails at every time in a zone that moved between 1970 and 1980: the conversion is wrong by the move, up to a second (in London, which kept
summer time through the winter of 1970, by an hour). -/
theorem C76_moved_zone_false (z : K → K) (hz : IsZone z) (t : K) (hs : Since1980 z t) :
    ∃ g e, utcToGps z t = .ok g ∧ g = trueGps t - zoneMove z + e ∧ |e| ≤ 1 ∧ (1 < |zoneMove z| → g ≠ trueGps t) := by
  have key : ∃ e : K, (leapsUpTo z t : K) = leapsUpTo (fun _ => 0) t + e ∧ |e| ≤ 1 := by
    by_cases h1 : ∃ d ∈ leapDates (K := K), d ≤ t ∧ t < d + z d
    · obtain ⟨d, hd, h1, h2⟩ := h1
      refine ⟨-1, ?_, by simp⟩
      rw [countP_one_more z (fun _ => 0) hz utc_zone t t d hd h2 (by simpa using h1) (by linarith) (by linarith)]
      push_cast
      ring
    · by_cases h2 : ∃ d ∈ leapDates (K := K), t < d ∧ d + z d ≤ t
      · obtain ⟨d, hd, h1, h2⟩ := h2
        refine ⟨1, ?_, by simp⟩
        rw [countP_one_more (fun _ => 0) z utc_zone hz t t d hd (by simpa using h1) h2 (by linarith) (by linarith)]
        push_cast
        ring
      · refine ⟨0, ?_, by simp⟩
        have : leapsUpTo z t = leapsUpTo (fun _ => 0) t := by
          unfold leapsUpTo
          apply List.countP_congr
          intro d hd
          simp only [decide_eq_true_eq, add_zero]
          push Not at h1 h2
          constructor
          · intro h; by_contra hn; exact absurd h (not_le.2 (h2 d hd (not_le.1 hn)))
          · intro h; exact h1 d hd h
        rw [this, add_zero]
  obtain ⟨e, he, hb⟩ := key
  refine ⟨_, e, utcToGps_eq z hz t, ?_, hb, ?_⟩
  · rw [if_pos hs, trueGps_eq, he]; ring
  · intro hmv heq
    rw [if_pos hs, trueGps_eq, he] at heq
    have : zoneMove z = e := by linarith
    rw [this] at hmv
    linarith

/-- A zone like London's: an hour ahead of UTC until 1971-10-31, then on UTC (without summer time). -/
example : IsZone (fun d : ℚ => if d < 57715200 then -3600 else 0) ∧ zoneMove (fun d : ℚ => if d < 57715200 then -3600 else 0) = 3600 := by
  constructor
  · intro d
    beta_reduce
    split <;> norm_num
  · norm_num [zoneMove, epoch1980]

/-- New York without daylight saving: 2016-12-31 19:30 there is after the leap second but counted before. -/
example : IsZone (fun _ : ℚ => 18000) ∧ zoneMove (fun _ : ℚ => 18000) = 0 ∧ (1483228800 : ℚ) ∈ leapDates (K := ℚ) := by
  refine ⟨fun d => by norm_num, by norm_num [zoneMove], by simp [leapDates]⟩

/-! ### C49 -/

variable [FloorRing K]

/-- C49: the week and the seconds in it decompose the GPS timestamp. -/
theorem C49_week_seconds (z : K → K) (hz : IsZone z) (t : K) : ∃ g w s, utcToGps z t = .ok g ∧ gpsWeek z t = .ok (w, s) ∧
    (w : K) * 604800 + s = g ∧ 0 ≤ s ∧ s < 604800 := by
  unfold gpsWeek
  rw [utcToGps_eq z hz]
  generalize t - epoch1980 - zoneMove z + (if Since1980 z t then (leapsUpTo z t : K) else 18) = g
  refine ⟨_, _, _, rfl, rfl, ?_, ?_, ?_⟩
  · ring
  · have := Int.floor_le (g / 604800)
    linarith
  · have := Int.lt_floor_add_one (g / 604800)
    linarith

/-- C49: the decomposition is unique, so these are the week number and the time of week. -/
theorem C49_unique (z : K → K) (hz : IsZone z) (t : K) (w w' : Int) (s s' g : K) (h : gpsWeek z t = .ok (w, s)) (hg : utcToGps z t = .ok g)
    (h' : (w' : K) * 604800 + s' = g) (h0 : 0 ≤ s') (h1 : s' < 604800) : w' = w ∧ s' = s := by
  obtain ⟨g2, w2, s2, e1, e2, e3, e4, e5⟩ := C49_week_seconds z hz t
  rw [hg] at e1; rw [h] at e2
  obtain rfl : g = g2 := by simpa using e1
  obtain ⟨rfl, rfl⟩ : w = w2 ∧ s = s2 := by simpa using e2
  have a : (w' : K) < w + 1 := by
    have : (w' : K) * 604800 < (w + 1) * 604800 := by linarith
    exact lt_of_mul_lt_mul_right this (by norm_num)
  have b : (w : K) < w' + 1 := by
    have : (w : K) * 604800 < (w' + 1) * 604800 := by linarith
    exact lt_of_mul_lt_mul_right this (by norm_num)
  have hw : w' = w := by
    have a' : w' < w + 1 := by exact_mod_cast a
    have b' : w < w' + 1 := by exact_mod_cast b
    omega
  subst hw
  exact ⟨rfl, by linarith⟩

end
end Verif.Nav
