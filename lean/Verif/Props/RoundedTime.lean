import Verif.Lemmas.Base
import Verif.Lemmas.Rounding
import Verif.Model.Rounded
import Verif.Props.Time

/-! C134: time conversions in float arithmetic are exact.  C135: GPS week and seconds in float arithmetic. -/

set_option linter.unusedSectionVars false

namespace Verif.Rounded
open Verif ImageUtils Rounding Nav

section
variable {K : Type} [Field K] [LinearOrder K] [IsStrictOrderedRing K] [FloorRing K]

/-- The float model is the model of C48 and C49 when nothing is rounded. -/
theorem utcToGpsR_id (z : K → K) (t : K) : utcToGpsR id z t = utcToGps z t := rfl

theorem gpsToUtcR_id (z : K → K) (g : K) : gpsToUtcR id z g = gpsToUtc z g := rfl

theorem gpsWeekR_id (z : K → K) (t : K) : gpsWeekR id z t = gpsWeek z t := rfl

/-! ### C134 -/

/-- Specification: the timestamp `t` is written with `p` significant bits down to `2^e` seconds (a fraction of a
second), is not before the GPS epoch of a machine in the zone `z`, and there is room for 18 more seconds.  The
zone moved by whole seconds. For float64 and `e = -22` (a quarter of a microsecond) this is every timestamp up
to the year 2038. -/
structure Stamp (p : ℕ) (e : ℤ) (z : K → K) (t : K) : Prop where
  frac : e ≤ 0
  zone : IsZone z
  whole : ∃ n : ℤ, zoneMove z = (n : K)
  mult : ∃ k : ℤ, t = (k : K) * 2 ^ e
  since : epoch1980 + zoneMove z ≤ t
  room : t + 18 ≤ 2 ^ p * 2 ^ e

theorem zoneMove_lt (z : K → K) (hz : IsZone z) : |zoneMove z| < 172800 := by
  have h1 := abs_lt.mp (hz epoch1980)
  have h2 := abs_lt.mp (hz 0)
  unfold zoneMove
  rw [abs_lt]
  constructor <;> linarith

theorem gpsOffset_nat (z : K → K) (hz : IsZone z) (t : K) : ∃ n : ℕ, n ≤ 18 ∧ gpsOffset z t = .ok (n : K) := by
  rw [gpsOffset_eq z hz]
  split
  · exact ⟨_, leapsUpTo_le z t, rfl⟩
  · exact ⟨18, le_rfl, by norm_num⟩

/-- What is computed without rounding error. -/
theorem stamp_exact {p : ℕ} (hp : 1 ≤ p) {e : ℤ} {z : K → K} {t : K} (h : Stamp p e z t) :
    ∃ (n : ℕ) (g : K), n ≤ 18 ∧ g = t - (gpsEpoch z - unixEpoch z) + n ∧ 0 ≤ g ∧ utcToGps z t = .ok g ∧
      utcToGpsR (fl p) z t = .ok g ∧ gpsToUtcR (fl p) z g = gpsToUtc z g ∧ IsFloat p g ∧ g ≤ t ∧ Mult e g := by
  obtain ⟨he, hz, ⟨m, hm⟩, hk, hs, hr⟩ := h
  have hzm := abs_lt.mp (zoneMove_lt z hz)
  obtain ⟨n, hn, ho⟩ := gpsOffset_nat z hz t
  have hE : gpsEpoch z - unixEpoch z = ((315964800 + m : ℤ) : K) := by
    rw [epochs, hm]
    push_cast
    rfl
  have hepoch : (epoch1980 : K) = 315964800 := rfl
  have hE0 : (315000000 : K) ≤ ((315964800 + m : ℤ) : K) := by
    push_cast; rw [← hm]; linarith
  have hEt : ((315964800 + m : ℤ) : K) ≤ t := by
    push_cast; rw [← hm, ← hepoch]; exact hs
  have hn' : (n : K) ≤ 18 := by exact_mod_cast hn
  have hn0 : (0 : K) ≤ (n : K) := Nat.cast_nonneg n
  have mt : Mult e t := hk
  have mE : Mult e (((315964800 + m : ℤ) : K)) := Mult.int he _
  have mn : ∀ a : ℕ, Mult e (a : K) := fun a => by have := Mult.int (K := K) he (a : ℤ); simpa using this
  have fE : fl p ((315964800 + m : ℤ) : K) = ((315964800 + m : ℤ) : K) :=
    fl_of_isFloat hp (isFloat_of_mult mE (by rw [abs_of_nonneg (by linarith)]; linarith))
  have f1 : fl p (t - ((315964800 + m : ℤ) : K)) = t - ((315964800 + m : ℤ) : K) :=
    fl_of_isFloat hp (isFloat_of_mult (mt.sub mE) (by rw [abs_of_nonneg (by linarith)]; linarith))
  have mg : Mult e (t - ((315964800 + m : ℤ) : K) + n) := (mt.sub mE).add (mn n)
  have ig : IsFloat p (t - ((315964800 + m : ℤ) : K) + n) :=
    isFloat_of_mult mg (by rw [abs_of_nonneg (by linarith)]; linarith)
  refine ⟨n, t - ((315964800 + m : ℤ) : K) + n, hn, by rw [hE], by linarith, ?_, ?_, ?_, ig, by linarith, mg⟩
  · unfold utcToGps
    rw [ho, ok_bind, hE]
  · unfold utcToGpsR
    rw [ho, ok_bind, hE, fE, f1, fl_of_isFloat hp ig]
  · have eu : t - ((315964800 + m : ℤ) : K) + n + ((315964800 + m : ℤ) : K) = t + n := by ring
    have iu : fl p (t + n) = t + n :=
      fl_of_isFloat hp (isFloat_of_mult (mt.add (mn n)) (by rw [abs_of_nonneg (by linarith)]; linarith))
    obtain ⟨n', hn2, ho2⟩ := gpsOffset_nat z hz (t + n)
    have hn2' : (n' : K) ≤ 18 := by exact_mod_cast hn2
    have hn20 : (0 : K) ≤ (n' : K) := Nat.cast_nonneg n'
    have ir : fl p (t + n - n') = t + n - n' :=
      fl_of_isFloat hp (isFloat_of_mult ((mt.add (mn n)).sub (mn n')) (by rw [abs_of_nonneg (by linarith)]; linarith))
    unfold gpsToUtcR gpsToUtc
    simp only [hE, fE, eu, iu, ho2, ok_bind, ir]

/-- C134: converting a float timestamp to GPS time, and the result back to UTC, involves no rounding: the answers
are those of exact arithmetic. -/
theorem C134_exact {p : ℕ} (hp : 1 ≤ p) {e : ℤ} {z : K → K} {t : K} (h : Stamp p e z t) :
    utcToGpsR (fl p) z t = utcToGps z t ∧
      ∀ g, utcToGpsR (fl p) z t = .ok g → IsFloat p g ∧ gpsToUtcR (fl p) z g = gpsToUtc z g := by
  obtain ⟨n, g, -, -, -, h1, h2, h3, h4, -, -⟩ := stamp_exact hp h
  refine ⟨by rw [h1, h2], ?_⟩
  intro g' hg
  rw [h2] at hg
  obtain rfl : g = g' := by simpa using hg
  exact ⟨h4, h3⟩

/-- C134: hence the order of float timestamps is kept, strictly: two timestamps that differ by a quarter of a
microsecond stay different. -/
theorem C134_increasing {p : ℕ} (hp : 1 ≤ p) {e e' : ℤ} {z : K → K} {t t' : K} (h : Stamp p e z t)
    (h' : Stamp p e' z t') (hs : Since1980 z t) (hlt : t < t') :
    ∃ g g', utcToGpsR (fl p) z t = .ok g ∧ utcToGpsR (fl p) z t' = .ok g' ∧ g < g' := by
  rw [(C134_exact hp h).1, (C134_exact hp h').1]
  exact C48_increasing z h.zone t t' hs hlt

/-- C134: hence UTC to GPS and back gives the same float, whenever no leap second follows within as many seconds
as were inserted before. -/
theorem C134_roundtrip {p : ℕ} (hp : 1 ≤ p) {e : ℤ} {z : K → K} {t : K} (h : Stamp p e z t) (hs : Since1980 z t)
    (hq : QuietAfter z t (leapsUpTo z t : K)) :
    ∃ g, utcToGpsR (fl p) z t = .ok g ∧ gpsToUtcR (fl p) z g = .ok t := by
  obtain ⟨g, h1, h2⟩ := C48_roundtrip_partial z h.zone t hs hq
  have e1 := (C134_exact hp h).1
  rw [h1] at e1
  exact ⟨g, e1, by rw [((C134_exact hp h).2 g e1).2, h2]⟩

/-- A timestamp of the year 2017, half a second past the hour, on a machine set to UTC. -/
example : Stamp 53 (-22) (fun _ : ℚ => (0 : ℚ)) (1500000000 + 1 / 2) := by
  refine ⟨by norm_num, utc_zone, ⟨0, by norm_num [zoneMove]⟩, ⟨(1500000000 * 2 + 1) * 2 ^ 21, by norm_num⟩, ?_, by norm_num⟩
  norm_num [epoch1980, zoneMove]

/-! ### C135 -/

/-- Week number and seconds from a GPS time without rounding error. -/
theorem week_error {p : ℕ} (hp : 20 ≤ p) {g : K} (hg : 0 ≤ g) :
    let w := ⌊fl p (g / 604800)⌋
    let s := fl p (fl p (fl p (fl p (g / 604800) - w) * 7) * 86400)
    0 ≤ s ∧ s ≤ 604800 ∧ |(w : K) * 604800 + s - g| ≤ unit p * g + (2 * unit p + unit p ^ 2) * 604800 ∧
      (w : K) * 604800 ≤ g * (1 + unit p) ∧ g * (1 - unit p) < ((w : K) + 1) * 604800 := by
  have hp1 : 1 ≤ p := by omega
  have hu := unit_pos (K := K) p
  intro w s
  have hq0 : 0 ≤ g / 604800 := by positivity
  have hw0 : 0 ≤ fl p (g / 604800) := fl_nonneg hp1 hq0
  have hfl := Int.floor_le (fl p (g / 604800))
  have hfl2 := Int.lt_floor_add_one (fl p (g / 604800))
  have ifr := isFloat_frac (isFloat_fl hp1 (g / 604800)) hw0
  have hs : s = fl p (fl p ((fl p (g / 604800) - w) * 7) * 86400) := by
    show fl p (fl p (fl p (fl p (g / 604800) - w) * 7) * 86400) = _
    rw [fl_of_isFloat hp1 ifr]
  set f := fl p (g / 604800) - w with hf
  have hf0 : 0 ≤ f := by rw [hf]; linarith
  have hf1 : f < 1 := by rw [hf]; linarith
  have h2p : 2 ^ 20 ≤ 2 ^ p := Nat.pow_le_pow_right (by norm_num) hp
  have e7 : fl p (7 : K) = 7 := by
    have := fl_nat (K := K) hp1 7 (by omega)
    simpa using this
  have e604 : fl p (604800 : K) = 604800 := by
    have := fl_nat (K := K) hp1 604800 (by omega)
    simpa using this
  have s0 : 0 ≤ s := by
    rw [hs]
    exact fl_nonneg hp1 (mul_nonneg (fl_nonneg hp1 (by positivity)) (by norm_num))
  have s1 : s ≤ 604800 := by
    rw [hs, ← e604]
    apply fl_mono hp1
    have : fl p (f * 7) ≤ 7 := by
      have := fl_mono (K := K) hp1 (show f * 7 ≤ 7 by linarith)
      rwa [e7] at this
    linarith
  obtain ⟨d1, k1, f1⟩ := fl_rel p (g / 604800)
  have hd1 := abs_le.mp k1
  obtain ⟨d2, k2, f2⟩ := fl_rel p (f * 7)
  obtain ⟨d3, k3, f3⟩ := fl_rel p (f * 7 * (1 + d2) * 86400)
  have es : s = f * 604800 * ((1 + d2) * (1 + d3)) := by rw [hs, f2, f3]; ring
  have hwf : (w : K) = g / 604800 * (1 + d1) - f := by rw [hf, f1]; ring
  refine ⟨s0, s1, ?_, ?_, ?_⟩
  · have e : (w : K) * 604800 + s - g = g * d1 + f * 604800 * ((1 + d2) * (1 + d3) - 1) := by
      rw [es, hwf]; ring
    rw [e]
    refine (abs_add_le _ _).trans (add_le_add ?_ ?_)
    · rw [abs_mul, abs_of_nonneg hg, mul_comm]
      exact mul_le_mul_of_nonneg_right k1 hg
    · rw [abs_mul, abs_of_nonneg (by positivity : (0 : K) ≤ f * 604800)]
      have := rel_mul (rel_one k2) (rel_one k3)
      calc f * 604800 * |(1 + d2) * (1 + d3) - 1| ≤ 604800 * ((1 + unit p) * (1 + unit p) - 1) := by
            refine mul_le_mul (by linarith) this (abs_nonneg _) (by norm_num)
        _ = _ := by ring
  · have : g * d1 ≤ g * unit p := mul_le_mul_of_nonneg_left hd1.2 hg
    rw [hwf]
    nlinarith
  · have : g * (-unit p) ≤ g * d1 := mul_le_mul_of_nonneg_left hd1.1 hg
    rw [hwf]
    nlinarith

/-- C135: the computed week and seconds decompose the GPS time up to `u g + (2u + u²) 604800` (for float64 and
today's dates a fifth of a microsecond); the seconds are between 0 and 604800; the week is the right one unless
the time is within `u g` of the turn of a week. `C135_not_exact`
shows that the error is not always zero. -/
theorem C135_decomposes {p : ℕ} (hp : 20 ≤ p) {e : ℤ} {z : K → K} {t : K} (h : Stamp p e z t) :
    ∃ (g : K) (w : Int) (s : K), utcToGps z t = .ok g ∧ gpsWeekR (fl p) z t = .ok (w, s) ∧ 0 ≤ s ∧ s ≤ 604800 ∧
      |(w : K) * 604800 + s - g| ≤ unit p * g + (2 * unit p + unit p ^ 2) * 604800 ∧
      (w : K) * 604800 ≤ g * (1 + unit p) ∧ g * (1 - unit p) < ((w : K) + 1) * 604800 := by
  obtain ⟨n, g, -, -, h0, h1, h2, -, -, -, -⟩ := stamp_exact (by omega) h
  obtain ⟨a1, a2, a3, a4, a5⟩ := week_error (K := K) hp h0
  refine ⟨g, _, _, h1, ?_, a1, a2, a3, a4, a5⟩
  unfold gpsWeekR
  rw [h2, ok_bind]

/-- C135 in float64, for timestamps before 2038: week and seconds decompose the GPS time within a microsecond. -/
theorem C135_microsecond {e : ℤ} {z : K → K} {t : K} (h : Stamp 53 e z t) (ht : t ≤ 2 ^ 31) :
    ∃ (g : K) (w : Int) (s : K), utcToGps z t = .ok g ∧ gpsWeekR (fl 53) z t = .ok (w, s) ∧ 0 ≤ s ∧ s ≤ 604800 ∧
      |(w : K) * 604800 + s - g| ≤ 1 / 10 ^ 6 := by
  obtain ⟨n, g, -, -, h0, h1, h2, -, -, hgt, -⟩ := stamp_exact (p := 53) (by norm_num) h
  obtain ⟨a1, a2, a3, a4, a5⟩ := week_error (K := K) (p := 53) (by norm_num) h0
  refine ⟨g, ⌊fl 53 (g / 604800)⌋, fl 53 (fl 53 (fl 53 (fl 53 (g / 604800) - ⌊fl 53 (g / 604800)⌋) * 7) * 86400), h1, ?_,
    a1, a2, a3.trans ?_⟩
  · unfold gpsWeekR
    rw [h2, ok_bind]
  · have e1 : (unit 53 : K) = 1 / 2 ^ 53 := rfl
    rw [e1]
    have : g ≤ 2 ^ 31 := hgt.trans ht
    norm_num at this ⊢
    linarith

/-- C135 for whole seconds: the week number is exact and the seconds are off by at most
`u g + (2u + u²) 604800`. -/
theorem C135_whole_seconds {p : ℕ} (hp : 20 ≤ p) {z : K → K} {t : K} (h : Stamp p 0 z t) :
    ∃ (g : K) (w : Int) (s s' : K), utcToGps z t = .ok g ∧ gpsWeekR (fl p) z t = .ok (w, s) ∧ gpsWeek z t = .ok (w, s') ∧
      |s - s'| ≤ unit p * g + (2 * unit p + unit p ^ 2) * 604800 := by
  have hp1 : 1 ≤ p := by omega
  have hu := unit_pos (K := K) p
  obtain ⟨n, g, -, -, h0, h1, h2, -, -, hgt, hmg⟩ := stamp_exact hp1 h
  obtain ⟨a1, a2, a3, a4, a5⟩ := week_error (K := K) hp h0
  obtain ⟨k, hk⟩ := hmg
  rw [zpow_zero, mul_one] at hk
  have hroom := h.room
  rw [zpow_zero, mul_one] at hroom
  have hsmall : g * unit p < 1 := by
    have hum := unit_mul (K := K) p
    have : g < 2 ^ p := by linarith
    calc g * unit p < 2 ^ p * unit p := mul_lt_mul_of_pos_right this hu
      _ = 1 := by rw [mul_comm]; exact hum
  have hw : ⌊fl p (g / 604800)⌋ = ⌊g / 604800⌋ := by
    have b1 := Int.floor_le (g / 604800)
    have b2 := Int.lt_floor_add_one (g / 604800)
    have hn0 : 0 ≤ ⌊g / 604800⌋ := Int.floor_nonneg.mpr (by positivity)
    rw [Int.floor_eq_iff]
    constructor
    · have hb : ⌊g / 604800⌋ ≤ 2 ^ p := by
        have : ((⌊g / 604800⌋ : ℤ) : K) ≤ (((2 : ℤ) ^ p : ℤ) : K) := by
          push_cast
          have : g / 604800 ≤ g := div_le_self h0 (by norm_num)
          linarith
        exact Int.cast_le.mp this
      have := fl_mono (K := K) hp1 b1
      rwa [fl_int hp1 _ (by rw [abs_of_nonneg hn0]; exact hb)] at this
    · -- a whole number of seconds is at least one second before the turn of the week
      have hgk : (k : K) + 1 ≤ ((⌊g / 604800⌋ : K) + 1) * 604800 := by
        have : (k : K) < ((⌊g / 604800⌋ + 1) * 604800 : ℤ) := by
          push_cast
          rw [← hk]
          rw [div_lt_iff₀ (by norm_num)] at b2
          exact b2
        have h3 := Int.cast_lt.mp this
        have h4 : ((k + 1 : ℤ) : K) ≤ ((⌊g / 604800⌋ + 1) * 604800 : ℤ) := Int.cast_le.mpr (by omega)
        push_cast at h4
        exact h4
      have hle := fl_le (p := p) (show 0 ≤ g / 604800 by positivity)
      have : g / 604800 * (1 + unit p) < (⌊g / 604800⌋ : K) + 1 := by
        rw [div_mul_eq_mul_div, div_lt_iff₀ (by norm_num)]
        rw [← hk] at hgk
        linarith
      linarith
  rw [hw] at a1 a2 a3
  refine ⟨g, ⌊g / 604800⌋, fl p (fl p (fl p (fl p (g / 604800) - ⌊g / 604800⌋) * 7) * 86400),
    (g / 604800 - ⌊g / 604800⌋) * 7 * 86400, h1, ?_, ?_, ?_⟩
  · unfold gpsWeekR
    rw [h2, ok_bind]
    simp only [hw]
  · unfold gpsWeek
    rw [h1, ok_bind]
  · refine le_of_eq_of_le ?_ a3
    congr 1
    ring

end

/-! ### Float64 values: the largest fraction of a week, and the seconds of the timestamp 1500000000. -/

theorem w135_top : fl 53 (63050394783186937 / 9007199254740992 : ℚ) = 7881299347898367 / 1125899906842624 := by
  rw [fl_eq (2) 7881299347898367 (by norm_num) (by norm_num) (by norm_num [abs_lt])]
  norm_num

theorem w135_top2 : fl 53 (7881299347898367 / 1125899906842624 * 86400 : ℚ) = 5195192441241599 / 8589934592 := by
  rw [fl_eq (19) 5195192441241599 (by norm_num) (by norm_num) (by norm_num [abs_lt])]
  norm_num

theorem w135_q : fl 53 (1184035218 / 604800 : ℚ) = 538136776573781 / 274877906944 := by
  rw [fl_eq (10) 8610188425180496 (by norm_num) (by norm_num) (by norm_num [abs_lt])]
  norm_num

theorem w135_f : fl 53 (200712684373 / 274877906944 : ℚ) = 200712684373 / 274877906944 := by
  rw [fl_eq (-1) 6576953241534464 (by norm_num) (by norm_num) (by norm_num [abs_lt])]
  norm_num

theorem w135_7 : fl 53 (200712684373 / 274877906944 * 7 : ℚ) = 1404988790611 / 274877906944 := by
  rw [fl_eq (2) 5754834086342656 (by norm_num) (by norm_num) (by norm_num [abs_lt])]
  norm_num

theorem w135_s : fl 53 (1404988790611 / 274877906944 * 86400 : ℚ) = 948367433662425 / 2147483648 := by
  rw [fl_eq (18) 7586939469299400 (by norm_num) (by norm_num) (by norm_num [abs_lt])]
  norm_num

/-- The seconds are below 604800 in float64. -/
theorem C135_seconds_below_week {e : ℤ} {z : ℚ → ℚ} {t : ℚ} (h : Stamp 53 e z t) (w : Int) (s : ℚ)
    (hw : gpsWeekR (fl 53) z t = .ok (w, s)) : s < 604800 := by
  obtain ⟨n, g, -, -, h0, h1, h2, -, -, -, -⟩ := stamp_exact (p := 53) (by norm_num) h
  unfold gpsWeekR at hw
  rw [h2, ok_bind] at hw
  have hs : s = fl 53 (fl 53 (fl 53 (fl 53 (g / 604800) - ⌊fl 53 (g / 604800)⌋) * 7) * 86400) := by
    have := congrArg Prod.snd (Except.ok.inj hw)
    exact this.symm
  have hq := fl_nonneg (p := 53) (by norm_num) (show 0 ≤ g / 604800 by positivity)
  have ifr := isFloat_frac (isFloat_fl (p := 53) (by norm_num) (g / 604800)) hq
  rw [fl_of_isFloat (by norm_num) ifr] at hs
  have hlt := isFloat_lt_one (by norm_num) ifr (by have := Int.lt_floor_add_one (fl 53 (g / 604800)); linarith)
  have m1 := fl_mono (K := ℚ) (p := 53) (by norm_num) (show (fl 53 (g / 604800) - ⌊fl 53 (g / 604800)⌋) * 7 ≤
    (1 - unit 53) * 7 by linarith)
  have e1 : fl 53 ((1 - unit 53) * 7 : ℚ) = 7881299347898367 / 1125899906842624 := by
    rw [show ((1 - unit 53) * 7 : ℚ) = 63050394783186937 / 9007199254740992 by norm_num [unit]]
    exact w135_top
  rw [e1] at m1
  have m2 := fl_mono (K := ℚ) (p := 53) (by norm_num) (mul_le_mul_of_nonneg_right m1 (by norm_num : (0 : ℚ) ≤ 86400))
  rw [w135_top2] at m2
  rw [hs]
  refine lt_of_le_of_lt m2 (by norm_num)

/-- C135, the error is real: the whole second 1500000000 (in 2017) gets week 1957 and 441617.99999998184 seconds
instead of 441618. -/
theorem C135_not_exact : ∃ s : ℚ, gpsWeekR (fl 53) (fun _ => 0) 1500000000 = .ok (1957, s) ∧
    gpsWeek (fun _ => (0 : ℚ)) 1500000000 = .ok (1957, 441618) ∧ s < 441618 ∧ 1 / 10 ^ 8 < 441618 - s := by
  have hl : leapsUpTo (fun _ => (0 : ℚ)) 1500000000 = 18 := by
    norm_num [leapsUpTo, leapDates, List.countP_cons]
  have hst : Stamp 53 0 (fun _ : ℚ => (0 : ℚ)) 1500000000 := by
    refine ⟨le_rfl, utc_zone, ⟨0, by norm_num [zoneMove]⟩, ⟨1500000000, by norm_num⟩, ?_, by norm_num⟩
    norm_num [epoch1980, zoneMove]
  have hg : utcToGps (fun _ => (0 : ℚ)) 1500000000 = .ok 1184035218 := by
    rw [utcToGps_eq _ utc_zone, if_pos (by norm_num [Since1980, tableStart]), hl]
    norm_num [epoch1980, zoneMove]
  have hgR : utcToGpsR (fl 53) (fun _ => (0 : ℚ)) 1500000000 = .ok 1184035218 := by
    rw [(C134_exact (by norm_num) hst).1, hg]
  have hfl : ⌊(538136776573781 / 274877906944 : ℚ)⌋ = 1957 := by norm_num [Int.floor_eq_iff]
  refine ⟨948367433662425 / 2147483648, ?_, ?_, by norm_num, by norm_num⟩
  · unfold gpsWeekR
    rw [hgR, ok_bind, w135_q]
    simp only []
    rw [hfl, show (538136776573781 / 274877906944 : ℚ) - ((1957 : ℤ) : ℚ) = 200712684373 / 274877906944 by norm_num, w135_f, w135_7, w135_s]
  · unfold gpsWeek
    rw [hg, ok_bind]
    have : ⌊(1184035218 : ℚ) / 604800⌋ = 1957 := by norm_num [Int.floor_eq_iff]
    simp only [this]
    norm_num

end Verif.Rounded
