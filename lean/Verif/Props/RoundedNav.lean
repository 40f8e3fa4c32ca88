import Verif.Lemmas.Base
import Verif.Lemmas.Rounding
import Verif.Model.Rounded
import Verif.Props.Nav
import Verif.Props.Grids

/-! C132: navigation records interpolated in float arithmetic.  C133: pixel counts of an extent in float
arithmetic. -/

set_option linter.unusedSectionVars false

namespace Verif.Rounded
open Verif ImageUtils Rounding Nav

section
variable {K : Type} [Field K] [LinearOrder K] [IsStrictOrderedRing K] [FloorRing K]

/-! ### C132 -/

theorem linearInterpR_id (x x0 x1 y0 y1 : K) : linearInterpR id x x0 x1 y0 y1 = linearInterp x x0 x1 y0 y1 := by
  simp [linearInterpR, linearInterp]

theorem interpAtR_id (times col : List K) (t : K) : interpAtR id times col t = interpAt times col t := by
  simp only [interpAtR, interpAt, linearInterpR_id]

theorem interpAllR_id (times col q : List K) : interpAllR id times col q = interpAll times col q := by
  induction q with
  | nil => rfl
  | cons t ts ih => rw [interpAllR, interpAll, interpAtR_id, ih]

/-- The float model is the model of C44 when nothing is rounded. -/
theorem nativeR_id (times col q : List K) : nativeR id times col q = native times col q := by
  simp only [nativeR, native, interpAllR_id]

/-- The error of one interpolation, for any two records. -/
theorem lerp_error {p : ℕ} (hp : 1 ≤ p) (t x0 x1 y0 y1 : K) (h : x1 ≠ x0) :
    ∃ v e, linearInterpR (fl p) t x0 x1 y0 y1 = some v ∧ linearInterp t x0 x1 y0 y1 = some e ∧
      |v - e| ≤ ((1 + unit p) ^ 4 / (1 - unit p) - 1) * ((|y0| * |x1 - t| + |y1| * |t - x0|) / |x1 - x0|) := by
  have hu := unit_pos (K := K) p
  have hu2 := unit_le_half (K := K) hp
  have hd : x1 - x0 ≠ 0 := sub_ne_zero.mpr h
  have hfd := fl_ne_zero hp hd
  obtain ⟨d1, k1, f1⟩ := fl_rel p (x1 - t)
  obtain ⟨d2, k2, f2⟩ := fl_rel p (t - x0)
  obtain ⟨d3, k3, f3⟩ := fl_rel p (x1 - x0)
  obtain ⟨d4, k4, f4⟩ := fl_rel p (y0 * ((x1 - t) * (1 + d1)))
  obtain ⟨d5, k5, f5⟩ := fl_rel p (y1 * ((t - x0) * (1 + d2)))
  obtain ⟨d6, k6, f6⟩ := fl_rel p (y0 * ((x1 - t) * (1 + d1)) * (1 + d4) + y1 * ((t - x0) * (1 + d2)) * (1 + d5))
  obtain ⟨d7, k7, f7⟩ := fl_rel p ((y0 * ((x1 - t) * (1 + d1)) * (1 + d4) + y1 * ((t - x0) * (1 + d2)) * (1 + d5)) *
    (1 + d6) / ((x1 - x0) * (1 + d3)))
  have hd3 : (1 : K) + d3 ≠ 0 := by have := abs_le.mp k3; linarith
  refine ⟨(y0 * ((x1 - t) * (1 + d1)) * (1 + d4) + y1 * ((t - x0) * (1 + d2)) * (1 + d5)) *
    (1 + d6) / ((x1 - x0) * (1 + d3)) * (1 + d7), (y0 * (x1 - t) + y1 * (t - x0)) / (x1 - x0), ?_, ?_, ?_⟩
  · unfold linearInterpR fdiv
    rw [if_neg hfd, Option.map_some, f1, f2, f3, f4, f5, f6, f7]
  · unfold linearInterp fdiv
    rw [if_neg hd]
  · have ra : |(1 + d1) / (1 + d3) * (1 + d4) * (1 + d6) * (1 + d7) - 1| ≤ (1 + unit p) ^ 4 / (1 - unit p) - 1 :=
      (rel_mul (rel_mul (rel_mul (rel_div (rel_one k1) k3 (by linarith)) (rel_one k4)) (rel_one k6))
        (rel_one k7)).trans (le_of_eq (by ring))
    have rb : |(1 + d2) / (1 + d3) * (1 + d5) * (1 + d6) * (1 + d7) - 1| ≤ (1 + unit p) ^ 4 / (1 - unit p) - 1 :=
      (rel_mul (rel_mul (rel_mul (rel_div (rel_one k2) k3 (by linarith)) (rel_one k5)) (rel_one k6))
        (rel_one k7)).trans (le_of_eq (by ring))
    have e : (y0 * ((x1 - t) * (1 + d1)) * (1 + d4) + y1 * ((t - x0) * (1 + d2)) * (1 + d5)) *
        (1 + d6) / ((x1 - x0) * (1 + d3)) * (1 + d7) - (y0 * (x1 - t) + y1 * (t - x0)) / (x1 - x0) =
        y0 * (x1 - t) / (x1 - x0) * ((1 + d1) / (1 + d3) * (1 + d4) * (1 + d6) * (1 + d7) - 1) +
        y1 * (t - x0) / (x1 - x0) * ((1 + d2) / (1 + d3) * (1 + d5) * (1 + d6) * (1 + d7) - 1) := by
      field_simp
      ring
    rw [e]
    refine (abs_add_le _ _).trans ?_
    rw [abs_mul, abs_mul, abs_div, abs_div, abs_mul, abs_mul]
    have a1 := mul_le_mul_of_nonneg_left ra (show (0 : K) ≤ |y0| * |x1 - t| / |x1 - x0| by positivity)
    have a2 := mul_le_mul_of_nonneg_left rb (show (0 : K) ≤ |y1| * |t - x0| / |x1 - x0| by positivity)
    refine (add_le_add a1 a2).trans (le_of_eq (by ring))

/-- The two records used for a time in range. -/
theorem interpAtR_pair (times : List K) (hs : times.Pairwise (· < ·)) (h2 : 2 ≤ times.length) (t : K)
    (ht : InRecord times t) :
    ∃ (i j : Nat) (x0 x1 : K), times[i]? = some x0 ∧ times[j]? = some x1 ∧ x1 ≠ x0 ∧ (x0 < t ∧ t ≤ x1 ∨ t = x1) ∧
      ∀ (col : List K) (y0 y1 : K), col.length = times.length → col[i]? = some y0 → col[j]? = some y1 →
        interpAt times col t = .ok (linearInterp t x0 x1 y0 y1) ∧
        ∀ r : K → K, interpAtR r times col t = .ok (linearInterpR r t x0 x1 y0 y1) := by
  obtain ⟨a, b, ha, hb, hat, htb⟩ := ht
  have hget : ∀ (l : List K) (k : Nat), k < l.length → ∃ x, l[k]? = some x := fun l k hk => ⟨_, List.getElem?_eq_getElem hk⟩
  rw [List.head?_eq_getElem?] at ha
  rw [List.getLast?_eq_getElem?] at hb
  have hsl := searchLeft_lt times hs t
  set r := searchLeft times t with hr
  have hrn : r < times.length := by
    by_contra hn
    have := (hsl (times.length - 1) b hb).mpr (by omega)
    linarith
  obtain ⟨x1, hx1⟩ := hget times r hrn
  have ht1 : t ≤ x1 := not_lt.mp (fun h => lt_irrefl r ((hsl r x1 hx1).mp h))
  by_cases h0 : r = 0
  · rw [h0] at hx1
    rw [ha] at hx1
    obtain rfl : a = x1 := by simpa using hx1
    have hab : a < b := (sorted_lt times hs 0 (times.length - 1) a b ha hb).mp (by omega)
    refine ⟨times.length - 1, 0, b, a, hb, ha, hab.ne, Or.inr (le_antisymm ht1 hat), ?_⟩
    intro col y0 y1 hl hy0 hy1
    have hy0' : col[col.length - 1]? = some y0 := by rw [hl]; exact hy0
    constructor
    · unfold interpAt
      rw [← hr, h0]
      simp only [Nat.cast_zero, zero_sub]
      rw [gather_last times b hb, show (0 : Int) = ((0 : Nat) : Int) from rfl, gather_nat times 0 a ha,
        gather_last col y0 hy0', gather_nat col 0 y1 hy1]
      rfl
    · intro f
      unfold interpAtR
      rw [← hr, h0]
      simp only [Nat.cast_zero, zero_sub]
      rw [gather_last times b hb, show (0 : Int) = ((0 : Nat) : Int) from rfl, gather_nat times 0 a ha,
        gather_last col y0 hy0', gather_nat col 0 y1 hy1]
      rfl
  · obtain ⟨x0, hx0⟩ := hget times (r - 1) (by omega)
    have ht0 : x0 < t := (hsl (r - 1) x0 hx0).mpr (by omega)
    refine ⟨r - 1, r, x0, x1, hx0, hx1, (lt_of_lt_of_le ht0 ht1).ne', Or.inl ⟨ht0, ht1⟩, ?_⟩
    intro col y0 y1 hl hy0 hy1
    have e : (r : Int) - 1 = ((r - 1 : Nat) : Int) := by omega
    constructor
    · unfold interpAt
      rw [← hr]
      simp only [e, gather_nat times _ _ hx0, gather_nat times _ _ hx1, gather_nat col _ _ hy0, gather_nat col _ _ hy1,
        ok_bind]
    · intro f
      unfold interpAtR
      rw [← hr]
      simp only [e, gather_nat times _ _ hx0, gather_nat times _ _ hx1, gather_nat col _ _ hy0, gather_nat col _ _ hy1,
        ok_bind]

theorem interpAllR_spec (r : K → K) (times col : List K) (f : K → Option K) (q : List K)
    (h : ∀ t ∈ q, interpAtR r times col t = .ok (f t)) : interpAllR r times col q = .ok (q.map f) := by
  induction q with
  | nil => rfl
  | cons t ts ih =>
    rw [interpAllR, h t (by simp)]
    simp only [ok_bind]
    rw [ih (fun s hs => h s (by simp [hs]))]
    rfl

/-- One time in range: the computed value, the exact one, and their distance. -/
theorem interpAtR_error {p : ℕ} (hp : 1 ≤ p) (times col : List K) (hs : times.Pairwise (· < ·))
    (h2 : 2 ≤ times.length) (hl : col.length = times.length) (t : K) (ht : InRecord times t) :
    ∃ v e, interpAtR (fl p) times col t = .ok (some v) ∧ interpAt times col t = .ok (some e) ∧
      ∀ (k : Nat) (ya yb : K), Brackets times k t → col[k]? = some ya → col[k + 1]? = some yb →
        |v - e| ≤ ((1 + unit p) ^ 4 / (1 - unit p) - 1) * max |ya| |yb| := by
  have hu := unit_pos (K := K) p
  have hu2 := unit_le_half (K := K) hp
  obtain ⟨i, j, x0, x1, hi, hj, hne, hbet, hall⟩ := interpAtR_pair times hs h2 t ht
  have hi' : i < times.length := (List.getElem?_eq_some_iff.mp hi).1
  have hj' : j < times.length := (List.getElem?_eq_some_iff.mp hj).1
  obtain ⟨y0, hy0⟩ : ∃ y, col[i]? = some y := ⟨_, List.getElem?_eq_getElem (by omega)⟩
  obtain ⟨y1, hy1⟩ : ∃ y, col[j]? = some y := ⟨_, List.getElem?_eq_getElem (by omega)⟩
  obtain ⟨v, e, ev, ee, herr⟩ := lerp_error hp t x0 x1 y0 y1 hne
  obtain ⟨g1, g2⟩ := hall col y0 y1 hl hy0 hy1
  refine ⟨v, e, by rw [g2, ev], by rw [g1, ee], ?_⟩
  intro k ya yb hb ha' hb'
  -- the interpolated magnitude, by C44 on the column of magnitudes
  obtain ⟨m, hm, -, hm2⟩ := interpAt_spec times (col.map abs) hs h2 (by simpa using hl) t ht
  obtain ⟨y0', y1', q0, q1, q2, q3⟩ := C44_between times (col.map abs) k t m hb (hm2 k hb) hs
  have e0 : y0' = |ya| := by
    rw [List.getElem?_map, ha'] at q0; simpa using q0.symm
  have e1 : y1' = |yb| := by
    rw [List.getElem?_map, hb'] at q1; simpa using q1.symm
  rw [e0, e1] at q3
  have gm := (hall (col.map abs) |y0| |y1| (by simpa using hl) (by rw [List.getElem?_map, hy0]; rfl)
    (by rw [List.getElem?_map, hy1]; rfl)).1
  rw [hm] at gm
  have hd : x1 - x0 ≠ 0 := sub_ne_zero.mpr hne
  have em : m = (|y0| * (x1 - t) + |y1| * (t - x0)) / (x1 - x0) := by
    unfold linearInterp fdiv at gm
    rw [if_neg hd] at gm
    simpa using gm
  have eabs : (|y0| * |x1 - t| + |y1| * |t - x0|) / |x1 - x0| = m := by
    rw [em]
    rcases hbet with ⟨b1, b2⟩ | b
    · rw [abs_of_nonneg (by linarith : 0 ≤ x1 - t), abs_of_pos (by linarith : 0 < t - x0),
        abs_of_pos (by linarith : 0 < x1 - x0)]
    · rw [b, sub_self, abs_zero, mul_zero, zero_add, zero_add, mul_div_cancel_right₀ _ (abs_pos.mpr hd).ne',
        mul_div_cancel_right₀ _ hd]
  rw [eabs] at herr
  refine herr.trans (mul_le_mul_of_nonneg_left q3 ?_)
  have h1 : (1 : K) ≤ (1 + unit p) ^ 4 := one_le_pow₀ (by linarith)
  have h3 : (1 : K) ≤ (1 + unit p) ^ 4 / (1 - unit p) := by
    rw [le_div_iff₀ (by linarith)]; linarith
  linarith

/-- C132: for records at increasing times every queried time in range gets a finite value within
`((1+u)⁴/(1-u) - 1) max(|y_k|, |y_k+1|)` of the exact interpolation between the records around it, however large
the times are and however close the records.
Missing: the recorded value itself at the time of a record, and values between those of the records around
(`C132_false`). -/
theorem C132_error_partial {p : ℕ} (hp : 1 ≤ p) (times col : List K) (hs : times.Pairwise (· < ·))
    (h2 : 2 ≤ times.length) (hl : col.length = times.length) (q : List K) (hq : ∀ t ∈ q, InRecord times t) :
    ∃ out : List (Option K), nativeR (fl p) times col q = .ok (some out) ∧ out.length = q.length ∧
      ∀ (i : Nat) (t : K), q[i]? = some t → ∃ v e, out[i]? = some (some v) ∧
        (∃ k, Brackets times k t) ∧ (∀ k, Brackets times k t → LerpBetween times col k t e) ∧
        ∀ (k : Nat) (ya yb : K), Brackets times k t → col[k]? = some ya → col[k + 1]? = some yb →
          |v - e| ≤ ((1 + unit p) ^ 4 / (1 - unit p) - 1) * max |ya| |yb| := by
  classical
  have hex : ∀ t ∈ q, ∃ v e, interpAtR (fl p) times col t = .ok (some v) ∧ interpAt times col t = .ok (some e) ∧
      ∀ (k : Nat) (ya yb : K), Brackets times k t → col[k]? = some ya → col[k + 1]? = some yb →
        |v - e| ≤ ((1 + unit p) ^ 4 / (1 - unit p) - 1) * max |ya| |yb| :=
    fun t ht => interpAtR_error hp times col hs h2 hl t (hq t ht)
  choose! f g hf1 hf2 hf3 using hex
  refine ⟨q.map (fun t => some (f t)), ?_, by simp, ?_⟩
  · unfold nativeR
    rw [(inRange_iff times (by rintro rfl; simp at h2) q).1 hq]
    simp only [ok_bind, if_true]
    rw [interpAllR_spec (fl p) times col (fun t => some (f t)) q hf1]
    rfl
  · intro i t hi
    have ht := List.mem_of_getElem? hi
    obtain ⟨w, hw1, hw2, hw3⟩ := interpAt_spec times col hs h2 hl t (hq t ht)
    have : g t = w := by
      have := hf2 t ht
      rw [hw1] at this
      simpa using this.symm
    exact ⟨f t, g t, by simp [hi], hw2, by rw [this]; exact hw3, hf3 t ht⟩

/-- C132, zero columns stay zero: between two records of value 0 the answer is exactly 0. -/
theorem C132_zero {p : ℕ} (hp : 1 ≤ p) (t x0 x1 : K) (h : x1 ≠ x0) :
    linearInterpR (fl p) t x0 x1 0 0 = some 0 := by
  unfold linearInterpR fdiv
  rw [if_neg (fl_ne_zero hp (sub_ne_zero.mpr h))]
  simp [fl_zero]

/-- C132, out of range: a query with a time outside the record still gives None. -/
theorem C132_out_of_range (r : K → K) (times col : List K) (hn : times ≠ []) (q : List K)
    (h : ¬ ∀ t ∈ q, InRecord times t) : nativeR r times col q = .ok none := by
  unfold nativeR
  rw [(inRange_iff times hn q).2 h]
  rfl

/-! ### C133 -/

theorem pyInt_id (x : K) : Grids.pyInt (id x) = Grids.pyInt x := rfl

/-- The float model is the model of C75 when nothing is rounded. -/
theorem pixelsInExtentR_id (pts : List (K × K)) (gx gy : K) :
    pixelsInExtentR id pts gx gy = Grids.pixelsInExtent pts gx gy := by
  cases pts <;> rfl

/-- The computed quotient of an extent and a pixel size, against the exact one. -/
theorem count_error {p : ℕ} (hp : 1 ≤ p) (w g : K) (hw : 0 ≤ w) (hg : 0 < g)
    (hb : w / g * (2 * unit p + unit p ^ 2) ≤ 1) :
    |Grids.pyInt (fl p (fl p w / g)) - ⌊w / g⌋| ≤ 1 := by
  have h0 : 0 ≤ fl p w / g := div_nonneg (fl_nonneg hp hw) hg.le
  unfold Grids.pyInt
  rw [if_pos (fl_nonneg hp h0)]
  apply floor_near
  obtain ⟨d1, k1, f1⟩ := fl_rel p w
  obtain ⟨d2, k2, f2⟩ := fl_rel p (w * (1 + d1) / g)
  rw [f1, f2]
  have e : w * (1 + d1) / g * (1 + d2) - w / g = w / g * ((1 + d1) * (1 + d2) - 1) := by ring
  rw [e, abs_mul, abs_of_nonneg (div_nonneg hw hg.le)]
  refine le_trans (mul_le_mul_of_nonneg_left (rel_mul (rel_one k1) (rel_one k2)) (div_nonneg hw hg.le)) ?_
  refine le_trans (le_of_eq ?_) hb
  ring

theorem lmin_le_lmax (a : K) (l : List K) : Grids.lmin a l ≤ Grids.lmax a l := by
  have h1 : ∀ (l : List K) (a : K), Grids.lmin a l ≤ a := by
    intro l
    induction l with
    | nil => intro a; exact le_rfl
    | cons b l ih => intro a; exact (ih (min a b)).trans (min_le_left _ _)
  have h2 : ∀ (l : List K) (a : K), a ≤ Grids.lmax a l := by
    intro l
    induction l with
    | nil => intro a; exact le_rfl
    | cons b l ih => intro a; exact (le_max_left _ _).trans (ih (max a b))
  exact (h1 l a).trans (h2 l a)

/-- C133: for positive pixel sizes both computed counts are those of the exact division or off by one, as long
as the exact quotients stay below `1 / (2u + u²)` (about 2^52 pixels).
Missing: the exact counts (`C133_false`). -/
theorem C133_partial {p : ℕ} (hp : 1 ≤ p) (a : K × K) (pts : List (K × K)) (gx gy : K) (hgx : 0 < gx) (hgy : 0 < gy)
    (hx : (Grids.lmax a.1 (pts.map Prod.fst) - Grids.lmin a.1 (pts.map Prod.fst)) / gx * (2 * unit p + unit p ^ 2) ≤ 1)
    (hy : (Grids.lmax a.2 (pts.map Prod.snd) - Grids.lmin a.2 (pts.map Prod.snd)) / gy * (2 * unit p + unit p ^ 2) ≤ 1) :
    ∃ nx ny mx my : Int, pixelsInExtentR (fl p) (a :: pts) gx gy = .ok (nx, ny) ∧
      Grids.pixelsInExtent (a :: pts) gx gy = .ok (mx, my) ∧ |nx - mx| ≤ 1 ∧ |ny - my| ≤ 1 := by
  have wx := sub_nonneg.mpr (lmin_le_lmax a.1 (pts.map Prod.fst))
  have wy := sub_nonneg.mpr (lmin_le_lmax a.2 (pts.map Prod.snd))
  have hpi : ∀ q : K, 0 ≤ q → Grids.pyInt q = ⌊q⌋ := fun q h => if_pos h
  set X := Grids.lmax a.1 (pts.map Prod.fst) - Grids.lmin a.1 (pts.map Prod.fst) with hX
  set Y := Grids.lmax a.2 (pts.map Prod.snd) - Grids.lmin a.2 (pts.map Prod.snd) with hY
  refine ⟨Grids.pyInt (fl p (fl p X / gx)), Grids.pyInt (fl p (fl p Y / gy)), Grids.pyInt (X / gx),
    Grids.pyInt (Y / gy), ?_, ?_, ?_, ?_⟩
  · unfold pixelsInExtentR
    simp only []
    rw [if_neg (by rintro (h | h) <;> linarith)]
  · unfold Grids.pixelsInExtent
    simp only []
    rw [if_neg (by rintro (h | h) <;> linarith)]
  · rw [hpi _ (div_nonneg wx hgx.le)]
    exact count_error hp _ _ wx hgx hx
  · rw [hpi _ (div_nonneg wy hgy.le)]
    exact count_error hp _ _ wy hgy hy

/-- C133, exact quotients: when extent and quotient are floats (an integer number of pixels of a size such as 0.5
or 3) the counts are exact. -/
theorem C133_exact {p : ℕ} (hp : 1 ≤ p) (a : K × K) (pts : List (K × K)) (gx gy : K)
    (wx : IsFloat p (Grids.lmax a.1 (pts.map Prod.fst) - Grids.lmin a.1 (pts.map Prod.fst)))
    (wy : IsFloat p (Grids.lmax a.2 (pts.map Prod.snd) - Grids.lmin a.2 (pts.map Prod.snd)))
    (qx : IsFloat p ((Grids.lmax a.1 (pts.map Prod.fst) - Grids.lmin a.1 (pts.map Prod.fst)) / gx))
    (qy : IsFloat p ((Grids.lmax a.2 (pts.map Prod.snd) - Grids.lmin a.2 (pts.map Prod.snd)) / gy)) :
    pixelsInExtentR (fl p) (a :: pts) gx gy = Grids.pixelsInExtent (a :: pts) gx gy := by
  unfold pixelsInExtentR Grids.pixelsInExtent
  simp only []
  rw [fl_of_isFloat hp wx, fl_of_isFloat hp wy, fl_of_isFloat hp qx, fl_of_isFloat hp qy]

end

example : ([1, 3, 4] : List ℚ).Pairwise (· < ·) ∧ InRecord ([1, 3, 4] : List ℚ) 2 ∧ Brackets ([1, 3, 4] : List ℚ) 0 2 := by
  refine ⟨by simp; norm_num, ⟨1, 4, rfl, rfl, by norm_num, by norm_num⟩, ⟨1, 3, rfl, rfl, by norm_num, by norm_num⟩⟩
example : ((100 : ℚ) - 0) / (3 / 10) * (2 * unit 53 + unit 53 ^ 2) ≤ 1 := by norm_num [unit]

/-! ### Witnesses

The float64 values of `0.1`, `0.1 * 0.1`, `0.1 * 0.1 / 0.1`, and of `0.5 / 0.1`. -/

theorem w132_y : fl 53 (1 / 10 : ℚ) = 3602879701896397 / 36028797018963968 := by
  rw [fl_eq (-4) 7205759403792794 (by norm_num) (by norm_num) (by norm_num [abs_lt])]
  norm_num

theorem w132_sq : fl 53 (3602879701896397 / 36028797018963968 * (3602879701896397 / 36028797018963968) : ℚ) = 1441151880758559 / 144115188075855872 := by
  rw [fl_eq (-7) 5764607523034236 (by norm_num) (by norm_num) (by norm_num [abs_lt])]
  norm_num

theorem w132_q : fl 53 (1441151880758559 / 144115188075855872 / (3602879701896397 / 36028797018963968) : ℚ) = 7205759403792795 / 72057594037927936 := by
  rw [fl_eq (-4) 7205759403792795 (by norm_num) (by norm_num) (by norm_num [abs_lt])]
  norm_num

theorem w133_q : fl 53 (1 / 2 / (3602879701896397 / 36028797018963968) : ℚ) = 5 := by
  rw [fl_eq (2) 5629499534213120 (by norm_num) (by norm_num) (by norm_num [abs_lt])]
  norm_num

/-- C132 fails of the code: with records 0 at time 0 and 0.1 at time 0.1, the time 0.1 of the second record gives
0.10000000000000002, not the recorded 0.1, and more than both records. -/
theorem C132_false : ∃ y v : ℚ, fl 53 (1 / 10) = y ∧ nativeR (fl 53) [0, y] [0, y] [y] = .ok (some [some v]) ∧ y < v := by
  have hy : (0 : ℚ) < 3602879701896397 / 36028797018963968 := by norm_num
  have hs : searchLeft [0, (3602879701896397 / 36028797018963968 : ℚ)] (3602879701896397 / 36028797018963968) = 1 := by
    simp [searchLeft]
  refine ⟨3602879701896397 / 36028797018963968, 7205759403792795 / 72057594037927936, w132_y, ?_, by norm_num⟩
  have hr : inRange [0, (3602879701896397 / 36028797018963968 : ℚ)] [3602879701896397 / 36028797018963968] = .ok true := by
    simp [inRange]
    exact hy.le
  have hl : linearInterpR (fl 53) (3602879701896397 / 36028797018963968 : ℚ) 0 (3602879701896397 / 36028797018963968) 0 (3602879701896397 / 36028797018963968) = some (7205759403792795 / 72057594037927936) := by
    unfold linearInterpR fdiv
    have hyf : fl 53 (3602879701896397 / 36028797018963968 : ℚ) = 3602879701896397 / 36028797018963968 := by rw [← w132_y]; exact fl_idem (by norm_num) _
    rw [sub_self, sub_zero, zero_mul, fl_zero, zero_add, hyf, if_neg hy.ne', w132_sq, Option.map_some]
    rw [show fl 53 (1441151880758559 / 144115188075855872 : ℚ) = 1441151880758559 / 144115188075855872 by rw [← w132_sq]; exact fl_idem (by norm_num) _]
    rw [w132_q]
  have ha : interpAtR (fl 53) [0, (3602879701896397 / 36028797018963968 : ℚ)] [0, 3602879701896397 / 36028797018963968] (3602879701896397 / 36028797018963968) = .ok (some (7205759403792795 / 72057594037927936)) := by
    unfold interpAtR
    rw [hs]
    have g0 : ∀ a b : ℚ, gather [a, b] (((1 : ℕ) : Int) - 1) = .ok a := fun a b => rfl
    have g1 : ∀ a b : ℚ, gather [a, b] ((1 : ℕ) : Int) = .ok b := fun a b => rfl
    simp only [g0, g1, ok_bind, hl]
  unfold nativeR
  rw [hr, ok_bind, if_pos rfl, interpAllR, ha, ok_bind, interpAllR, ok_bind, ok_bind]

/-- C133 fails of the code: an extent 0.5 wide holds four whole pixels of size 0.1 (the float 0.1 is a little more
than a tenth), but the computed count is 5. -/
theorem C133_false : ∃ g : ℚ, fl 53 (1 / 10) = g ∧
    pixelsInExtentR (fl 53) [(0, 0), (1 / 2, 0), (1 / 2, 1), (0, 1)] g 1 = .ok (5, 1) ∧
    Grids.pixelsInExtent [(0, 0), (1 / 2, 0), (1 / 2, 1), (0, 1)] g 1 = .ok (4, 1) ∧ 1 / 2 < 5 * g := by
  have h1 : fl 53 (1 : ℚ) = 1 := fl_one (by norm_num)
  have h2 : fl 53 (1 / 2 : ℚ) = 1 / 2 := fl_of_isFloat (by norm_num) ⟨1, -1, by norm_num, by norm_num⟩
  have ex : Grids.lmax (0 : ℚ) [1 / 2, 1 / 2, 0] - Grids.lmin 0 [1 / 2, 1 / 2, 0] = 1 / 2 := by
    norm_num [Grids.lmax, Grids.lmin]
  have ey : Grids.lmax (0 : ℚ) [0, 1, 1] - Grids.lmin 0 [0, 1, 1] = 1 := by
    norm_num [Grids.lmax, Grids.lmin]
  refine ⟨3602879701896397 / 36028797018963968, w132_y, ?_, ?_, by norm_num⟩
  · unfold pixelsInExtentR
    simp only [List.map_cons, List.map_nil]
    rw [ex, ey, if_neg (by norm_num), h1, h2, div_one, h1, w133_q]
    norm_num [Grids.pyInt]
  · unfold Grids.pixelsInExtent
    simp only [List.map_cons, List.map_nil]
    rw [ex, ey, if_neg (by norm_num), div_one]
    norm_num [Grids.pyInt]

end Verif.Rounded
