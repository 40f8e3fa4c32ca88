import Verif.Lemmas.ImageUtils
import Verif.Model.Nav
import Mathlib.Tactic.FieldSimp
import Mathlib.Tactic.NormNum
import Mathlib.Tactic.IntervalCases

/-! C44-C47: navigation data. -/

set_option linter.unusedSectionVars false

namespace Verif.Nav
open Verif ImageUtils

section
variable {K : Type} [Field K] [LinearOrder K] [IsStrictOrderedRing K]

/-! ### C44 -/

/-- Specification: `v` is the linear interpolation at `t` between records `k` and `k + 1`. -/
def LerpBetween (times col : List K) (k : Nat) (t v : K) : Prop :=
  ∃ x0 x1 y0 y1, times[k]? = some x0 ∧ times[k + 1]? = some x1 ∧ col[k]? = some y0 ∧ col[k + 1]? = some y1 ∧
    v = y0 + (t - x0) / (x1 - x0) * (y1 - y0)

/-- Specification: records `k` and `k + 1` bracket the time `t`. -/
def Brackets (times : List K) (k : Nat) (t : K) : Prop :=
  ∃ x0 x1, times[k]? = some x0 ∧ times[k + 1]? = some x1 ∧ x0 ≤ t ∧ t ≤ x1

/-- Specification: `t` is between the first and the last recorded times. -/
def InRecord (times : List K) (t : K) : Prop :=
  ∃ a b, times.head? = some a ∧ times.getLast? = some b ∧ a ≤ t ∧ t ≤ b

theorem searchLeft_lt (times : List K) (hs : times.Pairwise (· < ·)) (t : K) (i : Nat) (x : K)
    (hi : times[i]? = some x) : x < t ↔ i < searchLeft times t := by
  unfold searchLeft
  induction times generalizing i with
  | nil => simp at hi
  | cons a l ih =>
    rw [List.pairwise_cons] at hs
    by_cases ha : a < t
    · rw [List.countP_cons_of_pos (by simpa using ha)]
      cases i with
      | zero =>
        simp only [List.getElem?_cons_zero, Option.some.injEq] at hi
        subst hi
        simp [ha]
      | succ i =>
        rw [List.getElem?_cons_succ] at hi
        rw [ih hs.2 i hi]
        omega
    · rw [List.countP_cons_of_neg (by simpa using ha)]
      have hz : l.countP (fun s => decide (s < t)) = 0 := by
        rw [List.countP_eq_zero]
        intro b hb
        simp only [decide_eq_true_eq, not_lt]
        exact le_trans (not_lt.mp ha) (hs.1 b hb).le
      rw [hz]
      cases i with
      | zero =>
        simp only [List.getElem?_cons_zero, Option.some.injEq] at hi
        subst hi
        simp [not_lt.mp ha]
      | succ i =>
        rw [List.getElem?_cons_succ] at hi
        have := hs.1 x (List.mem_of_getElem? hi)
        simp only [Nat.not_lt_zero, iff_false, not_lt]
        exact le_trans (not_lt.mp ha) this.le

theorem sorted_lt (times : List K) (hs : times.Pairwise (· < ·)) (i j : Nat) (x y : K)
    (hi : times[i]? = some x) (hj : times[j]? = some y) : i < j ↔ x < y := by
  obtain ⟨hi', rfl⟩ := List.getElem?_eq_some_iff.mp hi
  obtain ⟨hj', rfl⟩ := List.getElem?_eq_some_iff.mp hj
  have key := fun i j hi hj h => List.pairwise_iff_getElem.mp hs i j hi hj h
  constructor
  · intro h; exact key i j hi' hj' h
  · intro h
    by_contra hn
    rcases Nat.lt_or_ge j i with h' | h'
    · exact lt_asymm h (key j i hj' hi' h')
    · have : i = j := by omega
      subst this
      exact lt_irrefl _ h

theorem gather_nat (col : List K) (k : Nat) (v : K) (h : col[k]? = some v) : gather col (k : Int) = .ok v := by
  have hk : k < col.length := (List.getElem?_eq_some_iff.mp h).1
  unfold gather
  rw [pyIdx_nat hk]
  simp only [ok_bind, h]

theorem gather_last (col : List K) (v : K) (h : col[col.length - 1]? = some v) : gather col (-1) = .ok v := by
  have hk : col.length - 1 < col.length := (List.getElem?_eq_some_iff.mp h).1
  unfold gather pyIdx
  rw [if_neg (by omega), if_pos (by omega)]
  have : (-1 + (col.length : Int)).toNat = col.length - 1 := by omega
  simp only [ok_bind, this, h]

theorem interpAt_spec (times col : List K) (hs : times.Pairwise (· < ·)) (h2 : 2 ≤ times.length)
    (hl : col.length = times.length) (t : K) (ht : InRecord times t) :
    ∃ v, interpAt times col t = .ok (some v) ∧ (∃ k, Brackets times k t) ∧
      ∀ k, Brackets times k t → LerpBetween times col k t v := by
  obtain ⟨a, b, ha, hb, hat, htb⟩ := ht
  have hget : ∀ (l : List K) (k : Nat), k < l.length → ∃ x, l[k]? = some x := fun l k hk => ⟨_, List.getElem?_eq_getElem hk⟩
  rw [List.head?_eq_getElem?] at ha
  rw [List.getLast?_eq_getElem?] at hb
  have hsl := searchLeft_lt times hs t
  set r := searchLeft times t with hr
  have hrn : r < times.length := by
    by_contra hn
    have := (hsl (times.length - 1) b hb).mpr (by omega)
    linarith
  obtain ⟨x1, hx1⟩ := hget times r hrn
  obtain ⟨y1, hy1⟩ := hget col r (by omega)
  have ht1 : t ≤ x1 := not_lt.mp (fun h => lt_irrefl r ((hsl r x1 hx1).mp h))
  by_cases h0 : r = 0
  · -- the first record's time
    rw [h0] at hx1 hy1
    rw [ha] at hx1
    obtain rfl : a = x1 := by simpa using hx1
    have hta : t = a := le_antisymm ht1 hat
    obtain ⟨yl, hyl⟩ := hget col (col.length - 1) (by omega)
    have hab : a < b := (sorted_lt times hs 0 (times.length - 1) a b ha hb).mp (by omega)
    refine ⟨y1, ?_, ⟨0, ?_⟩, ?_⟩
    · unfold interpAt
      rw [← hr, h0]
      simp only [Nat.cast_zero, zero_sub]
      rw [gather_last times b hb, show (0 : Int) = ((0 : Nat) : Int) from rfl, gather_nat times 0 a ha,
        gather_last col yl hyl, gather_nat col 0 y1 hy1]
      simp only [ok_bind, linearInterp, fdiv]
      rw [if_neg (by intro hc; linarith), hta]
      have : a - b ≠ 0 := by intro hc; linarith
      congr 2
      rw [sub_self, mul_zero, zero_add, mul_div_assoc, div_self this, mul_one]
    · obtain ⟨x, hx⟩ := hget times 1 (by omega)
      exact ⟨a, x, ha, hx, hat, by rw [hta]; exact ((sorted_lt times hs 0 1 a x ha hx).mp (by omega)).le⟩
    · rintro k ⟨p, q, hp, hq, h1, h2'⟩
      have hk : k = 0 := by
        by_contra hk
        have := (sorted_lt times hs 0 k a p ha hp).mp (by omega)
        linarith
      subst hk
      have hk1 : 0 + 1 < times.length := (List.getElem?_eq_some_iff.mp hq).1
      obtain ⟨y', hy'⟩ := hget col (0 + 1) (by omega)
      have : p = a := by rw [ha] at hp; simpa using hp.symm
      subst this
      exact ⟨p, q, y1, y', hp, hq, hy1, hy', by rw [hta, sub_self, zero_div, zero_mul, add_zero]⟩
  · obtain ⟨x0, hx0⟩ := hget times (r - 1) (by omega)
    obtain ⟨y0, hy0⟩ := hget col (r - 1) (by omega)
    have ht0 : x0 < t := (hsl (r - 1) x0 hx0).mpr (by omega)
    have hne : x1 - x0 ≠ 0 := by intro hc; linarith
    refine ⟨(y0 * (x1 - t) + y1 * (t - x0)) / (x1 - x0), ?_, ⟨r - 1, ?_⟩, ?_⟩
    · unfold interpAt
      rw [← hr]
      have e : (r : Int) - 1 = ((r - 1 : Nat) : Int) := by omega
      simp only [e, gather_nat times _ _ hx0, gather_nat times _ _ hx1, gather_nat col _ _ hy0, gather_nat col _ _ hy1,
        ok_bind, linearInterp, fdiv]
      rw [if_neg hne]
    · exact ⟨x0, x1, hx0, by rw [show r - 1 + 1 = r by omega]; exact hx1, ht0.le, ht1⟩
    · rintro k ⟨p, q, hp, hq, h1, h2'⟩
      have hk1 : k + 1 < times.length := (List.getElem?_eq_some_iff.mp hq).1
      have hkr : r - 1 ≤ k := by
        have := (sorted_lt times hs (r - 1) (k + 1) x0 q hx0 hq).mpr (by linarith)
        omega
      have hkr' : k ≤ r := by
        by_contra hn
        have := (sorted_lt times hs r k x1 p hx1 hp).mp (by omega)
        linarith
      rcases Nat.lt_or_ge k r with hlt | hge
      · have hk : k = r - 1 := by omega
        subst hk
        rw [show r - 1 + 1 = r by omega] at hq
        have e1 : p = x0 := by rw [hx0] at hp; simpa using hp.symm
        have e2 : q = x1 := by rw [hx1] at hq; simpa using hq.symm
        subst e1; subst e2
        exact ⟨p, q, y0, y1, hp, by rw [show r - 1 + 1 = r by omega]; exact hq, hy0,
          by rw [show r - 1 + 1 = r by omega]; exact hy1, by field_simp; ring⟩
      · have hk : k = r := by omega
        subst hk
        have e1 : p = x1 := by rw [hx1] at hp; simpa using hp.symm
        subst e1
        have hta : t = p := le_antisymm ht1 h1
        obtain ⟨y', hy'⟩ := hget col (r + 1) (by omega)
        refine ⟨p, q, y1, y', hx1, hq, hy1, hy', ?_⟩
        rw [hta, sub_self, mul_zero, zero_add, mul_div_assoc, div_self hne, zero_div, zero_mul, add_zero, mul_one]

theorem interpAll_spec (times col : List K) (f : K → Option K) (q : List K)
    (h : ∀ t ∈ q, interpAt times col t = .ok (f t)) : interpAll times col q = .ok (q.map f) := by
  induction q with
  | nil => rfl
  | cons t ts ih =>
    rw [interpAll, h t (by simp)]
    simp only [ok_bind]
    rw [ih (fun s hs => h s (by simp [hs]))]
    rfl

theorem inRange_iff (times : List K) (hn : times ≠ []) (q : List K) :
    ((∀ t ∈ q, InRecord times t) → inRange times q = .ok true) ∧
    ((¬ ∀ t ∈ q, InRecord times t) → inRange times q = .ok false) := by
  obtain ⟨a, ha⟩ : ∃ a, times.head? = some a := by
    cases times with
    | nil => exact absurd rfl hn
    | cons a l => exact ⟨a, rfl⟩
  obtain ⟨b, hb⟩ : ∃ b, times.getLast? = some b := ⟨_, List.getLast?_eq_some_getLast hn⟩
  have e : (∀ t ∈ q, InRecord times t) ↔
      (q.all (fun t => decide (a ≤ t)) && q.all (fun t => decide (t ≤ b))) = true := by
    simp only [Bool.and_eq_true, List.all_eq_true, decide_eq_true_eq, InRecord, ha, hb, Option.some.injEq]
    constructor
    · intro h
      constructor
      · intro t ht; obtain ⟨_, _, rfl, rfl, h1, -⟩ := h t ht; exact h1
      · intro t ht; obtain ⟨_, _, rfl, rfl, -, h1⟩ := h t ht; exact h1
    · rintro ⟨h1, h2⟩ t ht
      exact ⟨a, b, rfl, rfl, h1 t ht, h2 t ht⟩
  unfold inRange
  simp only [ha, hb, e]
  constructor
  · intro h; rw [h]
  · intro h; rw [Bool.not_eq_true] at h; rw [h]

/-- C44: for a nav file with at least two records at increasing times, every getter returns for each
queried time in range the linear interpolation between every pair of records bracketing it (there is
one), the recorded value at the time of a record. -/
theorem C44_interpolates (times col : List K) (hs : times.Pairwise (· < ·)) (h2 : 2 ≤ times.length)
    (hl : col.length = times.length) (q : List K) (hq : ∀ t ∈ q, InRecord times t) :
    ∃ out : List (Option K), get times col (.d1 q) = .ok (.d1 out) ∧ out.length = q.length ∧
      ∀ (i : Nat) (t : K), q[i]? = some t → ∃ v, out[i]? = some (some v) ∧ (∃ k, Brackets times k t) ∧
        (∀ k, Brackets times k t → LerpBetween times col k t v) ∧
        (∀ (k : Nat) (x : K), times[k]? = some x → t = x → col[k]? = some v) := by
  classical
  have hex : ∀ t ∈ q, ∃ v, interpAt times col t = .ok (some v) ∧ (∃ k, Brackets times k t) ∧
      ∀ k, Brackets times k t → LerpBetween times col k t v := fun t ht => interpAt_spec times col hs h2 hl t (hq t ht)
  choose! f hf1 hf2 hf3 using hex
  refine ⟨q.map (fun t => some (f t)), ?_, by simp, ?_⟩
  · have hn : native times col q = .ok (some (q.map (fun t => some (f t)))) := by
      unfold native
      rw [(inRange_iff times (by rintro rfl; simp at h2) q).1 hq]
      simp only [ok_bind, if_true]
      rw [interpAll_spec times col (fun t => some (f t)) q hf1]
      rfl
    simp only [get, hn]
    rfl
  · intro i t hi
    have ht := List.mem_of_getElem? hi
    refine ⟨f t, by simp [hi], hf2 t ht, hf3 t ht, ?_⟩
    rintro k x hk rfl
    have hk' : k < times.length := (List.getElem?_eq_some_iff.mp hk).1
    by_cases hlast : k + 1 < times.length
    · obtain ⟨x1, hx1⟩ : ∃ x, times[k + 1]? = some x := ⟨_, List.getElem?_eq_getElem hlast⟩
      have := (sorted_lt times hs k (k + 1) t x1 hk hx1).mp (by omega)
      obtain ⟨p, q', y0, y1, e1, e2, e3, e4, e5⟩ := hf3 t ht k ⟨t, x1, hk, hx1, le_rfl, this.le⟩
      rw [hk] at e1
      obtain rfl : t = p := by simpa using e1
      rw [sub_self, zero_div, zero_mul, add_zero] at e5
      rw [e5]; exact e3
    · obtain ⟨x0, hx0⟩ : ∃ x, times[k - 1]? = some x := ⟨_, List.getElem?_eq_getElem (by omega)⟩
      have hlt := (sorted_lt times hs (k - 1) k x0 t hx0 hk).mp (by omega)
      have hk1 : k - 1 + 1 = k := by omega
      obtain ⟨p, q', y0, y1, e1, e2, e3, e4, e5⟩ := hf3 t ht (k - 1) ⟨x0, t, hx0, by rw [hk1]; exact hk, hlt.le, le_rfl⟩
      rw [hk1] at e2 e4
      rw [hx0] at e1
      obtain rfl : x0 = p := by simpa using e1
      rw [hk] at e2
      obtain rfl : t = q' := by simpa using e2
      have : t - x0 ≠ 0 := by intro hc; linarith
      rw [div_self this, one_mul, add_sub_cancel] at e5
      rw [e5]; exact e4

/-- C44: hence the value is between the two records' values. -/
theorem C44_between (times col : List K) (k : Nat) (t v : K) (hb : Brackets times k t)
    (hv : LerpBetween times col k t v) (hs : times.Pairwise (· < ·)) :
    ∃ y0 y1, col[k]? = some y0 ∧ col[k + 1]? = some y1 ∧ min y0 y1 ≤ v ∧ v ≤ max y0 y1 := by
  obtain ⟨x0, x1, y0, y1, h1, h2, h3, h4, rfl⟩ := hv
  obtain ⟨p, q, hp, hq, hpt, htq⟩ := hb
  rw [h1] at hp; rw [h2] at hq
  obtain rfl : x0 = p := by simpa using hp
  obtain rfl : x1 = q := by simpa using hq
  have hlt := (sorted_lt times hs k (k + 1) x0 x1 h1 h2).mp (by omega)
  refine ⟨y0, y1, h3, h4, ?_⟩
  set s := (t - x0) / (x1 - x0)
  have s0 : 0 ≤ s := div_nonneg (by linarith) (by linarith)
  have s1 : s ≤ 1 := by rw [div_le_one (by linarith)]; linarith
  have e : y0 + s * (y1 - y0) = (1 - s) * y0 + s * y1 := by ring
  rw [e]
  constructor
  · have a := mul_le_mul_of_nonneg_left (min_le_left y0 y1) (by linarith : 0 ≤ 1 - s)
    have b := mul_le_mul_of_nonneg_left (min_le_right y0 y1) s0
    have c : (1 - s) * min y0 y1 + s * min y0 y1 = min y0 y1 := by ring
    linarith
  · have a := mul_le_mul_of_nonneg_left (le_max_left y0 y1) (by linarith : 0 ≤ 1 - s)
    have b := mul_le_mul_of_nonneg_left (le_max_right y0 y1) s0
    have c : (1 - s) * max y0 y1 + s * max y0 y1 = max y0 y1 := by ring
    linarith

/-- C44, boundary of the claim: with a single record its own time gives NaN, not the recorded value. -/
theorem C44_single_record (t y : K) : get [t] [y] (.num t) = .ok (.num none) := by
  simp [get, native, inRange, interpAll, interpAt, searchLeft, gather, pyIdx, linearInterp, fdiv, bind, Except.bind]

example : ([1, 3, 4] : List ℚ).Pairwise (· < ·) ∧ InRecord ([1, 3, 4] : List ℚ) 1 ∧ Brackets ([1, 3, 4] : List ℚ) 0 2 := by
  refine ⟨by simp; norm_num, ⟨1, 4, rfl, rfl, by norm_num, by norm_num⟩, ⟨1, 3, rfl, rfl, by norm_num, by norm_num⟩⟩

/-! ### C45 -/

/-- All times of a query. -/
def NavQ.times : NavQ K → List K
  | .num t => [t]
  | .d1 l => l
  | .d2 a => pixels a

/-- C45: a query containing a time outside the recorded range gives None, whatever its shape. -/
theorem C45_out_of_range (times col : List K) (hn : times ≠ []) (q : NavQ K) (t : K) (ht : t ∈ q.times)
    (hout : ¬ InRecord times t) : get times col q = .ok .none := by
  have hnat : ∀ l : List K, t ∈ l → native times col l = .ok none := by
    intro l hl
    unfold native
    rw [(inRange_iff times hn l).2 (by intro h; exact hout (h t hl))]
    rfl
  cases q with
  | num s =>
    have h := hnat [s] ht
    simp only [get, h]; rfl
  | d1 l =>
    have h := hnat l ht
    simp only [get, h]; rfl
  | d2 a =>
    have h := hnat (pixels a) ht
    simp only [get, h]; rfl

theorem pixels_getD {α : Type} (a : A2 α) (y x : Nat) (hy : y < a.ny) (hx : x < a.nx) :
    (pixels a)[y * a.nx + x]? = some (a.px y x) := by
  obtain ⟨ny, nx, px⟩ := a
  simp only at hy hx ⊢
  have key : ∀ (n s y : Nat), y < n → ((List.range' s n).flatMap (fun y => (List.range nx).map (fun x => px y x)))[y * nx + x]? =
      some (px (s + y) x) := by
    intro n
    induction n with
    | zero => intro s y h; omega
    | succ n ih =>
      intro s y h
      rw [List.range'_succ, List.flatMap_cons]
      cases y with
      | zero =>
        rw [List.getElem?_append_left (by simp; omega)]
        simp [hx]
      | succ y =>
        rw [List.getElem?_append_right (by simp; nlinarith)]
        have e : (y + 1) * nx + x - (List.map (fun x => px s x) (List.range nx)).length = y * nx + x := by
          simp only [List.length_map, List.length_range]
          have : (y + 1) * nx = y * nx + nx := by ring
          omega
        rw [e, ih (s + 1) y (by omega)]
        congr 2
        omega
  have := key ny 0 y hy
  rw [← List.range_eq_range'] at this
  simpa [pixels] using this

theorem pixels_length {α : Type} (a : A2 α) : (pixels a).length = a.ny * a.nx := by
  simp [pixels, List.length_flatMap, List.map_const']

/-- C45: otherwise the answer has the shape of the query, and each entry is the answer to the scalar query
for its own time (so it depends on no other time). -/
theorem C45_shape (times col : List K) (hs : times.Pairwise (· < ·)) (h2 : 2 ≤ times.length)
    (hl : col.length = times.length) (q : NavQ K) (hq : ∀ t ∈ q.times, InRecord times t) :
    match q with
    | .num t => ∃ v, get times col (.num t) = .ok (.num (some v))
    | .d1 l => ∃ out : List (Option K), get times col (.d1 l) = .ok (.d1 out) ∧ out.length = l.length ∧
        ∀ (i : Nat) (t : K), l[i]? = some t → ∃ v, out[i]? = some v ∧ get times col (.num t) = .ok (.num v)
    | .d2 a => ∃ out : A2 (Option K), get times col (.d2 a) = .ok (.d2 out) ∧ out.ny = a.ny ∧ out.nx = a.nx ∧
        ∀ y x, y < a.ny → x < a.nx → get times col (.num (a.px y x)) = .ok (.num (out.px y x)) := by
  classical
  have hex : ∀ t, InRecord times t → ∃ v, interpAt times col t = .ok (some v) :=
    fun t ht => (interpAt_spec times col hs h2 hl t ht).imp (fun v h => h.1)
  choose! f hf using hex
  have hn : times ≠ [] := by rintro rfl; simp at h2
  have hnat : ∀ l : List K, (∀ t ∈ l, InRecord times t) → native times col l = .ok (some (l.map (fun t => some (f t)))) := by
    intro l hl
    unfold native
    rw [(inRange_iff times hn l).1 hl]
    simp only [ok_bind, if_true]
    rw [interpAll_spec times col (fun t => some (f t)) l (fun t ht => hf t (hl t ht))]
    rfl
  have hnum : ∀ t, InRecord times t → get times col (.num t) = .ok (.num (some (f t))) := by
    intro t ht
    simp only [get, hnat [t] (by simpa using ht)]
    rfl
  cases q with
  | num t => exact ⟨f t, hnum t (hq t (by simp [NavQ.times]))⟩
  | d1 l =>
    refine ⟨l.map (fun t => some (f t)), ?_, by simp, ?_⟩
    · simp only [get, hnat l hq]; rfl
    · intro i t hi
      exact ⟨some (f t), by simp [hi], hnum t (hq t (List.mem_of_getElem? hi))⟩
  | d2 a =>
    refine ⟨⟨a.ny, a.nx, fun j i => ((pixels a).map (fun t => some (f t))).getD (j * a.nx + i) none⟩, ?_, rfl, rfl, ?_⟩
    · simp only [get, hnat (pixels a) hq, ok_bind]
      rw [if_pos (by simp [pixels_length])]
    · intro y x hy hx
      have hm : a.px y x ∈ pixels a := mem_pixels.mpr ⟨y, x, hy, hx, rfl⟩
      rw [hnum _ (hq _ hm)]
      simp [pixels_getD a y x hy hx]

/-- C45: an empty nav file is an error. -/
theorem C45_no_records (col : List K) (l : List K) : get [] col (.d1 l) = .error .indexError := rfl

/-! ### C46 -/

/-- Specification: heading `h` lies on the shorter arc from `a` to `b` (full turn `T`): some way of going
from `a` to `b` by at most half a turn passes it. -/
def OnShorterArc (T a b h : K) : Prop :=
  ∃ (d s : K) (m n : Int), b = a + d + m * T ∧ |d| ≤ T / 2 ∧ 0 ≤ s ∧ s ≤ 1 ∧ h = a + s * d + n * T

/-- The value returned between two consecutive records of any navigation file. -/
theorem get_between (times col : List K) (hs : times.Pairwise (· < ·)) (hl : col.length = times.length) (k : Nat) (t0 t1 a b : K)
    (hk0 : times[k]? = some t0) (hk1 : times[k + 1]? = some t1) (hc0 : col[k]? = some a) (hc1 : col[k + 1]? = some b) (t : K)
    (ht : t0 ≤ t ∧ t ≤ t1) : get times col (.num t) = .ok (.num (some (a + (t - t0) / (t1 - t0) * (b - a)))) := by
  have hlen : k + 1 < times.length := (List.getElem?_eq_some_iff.1 hk1).1
  have hmono : ∀ (i j : Nat) (x y : K), i ≤ j → times[i]? = some x → times[j]? = some y → x ≤ y := by
    intro i j x y hij hx hy
    obtain ⟨hi, rfl⟩ := List.getElem?_eq_some_iff.1 hx
    obtain ⟨hj, rfl⟩ := List.getElem?_eq_some_iff.1 hy
    rcases Nat.eq_or_lt_of_le hij with rfl | h
    · exact le_rfl
    · exact (List.pairwise_iff_getElem.1 hs i j hi hj h).le
  have hin : InRecord times t := by
    refine ⟨times[0]'(by omega), times[times.length - 1]'(by omega), ?_, ?_, ?_, ?_⟩
    · rw [List.head?_eq_getElem?]; exact List.getElem?_eq_getElem _
    · rw [List.getLast?_eq_getElem?]; exact List.getElem?_eq_getElem _
    · exact le_trans (hmono 0 k _ _ (by omega) (List.getElem?_eq_getElem _) hk0) ht.1
    · exact le_trans ht.2 (hmono (k + 1) (times.length - 1) _ _ (by omega) hk1 (List.getElem?_eq_getElem _))
  have hne : times ≠ [] := by rintro rfl; simp at hk0
  obtain ⟨v, hv, -, hb⟩ := interpAt_spec times col hs (by omega) hl t hin
  obtain ⟨x0, x1, y0, y1, e1, e2, e3, e4, e5⟩ := hb k ⟨t0, t1, hk0, hk1, ht.1, ht.2⟩
  obtain rfl := Option.some.inj (hk0.symm.trans e1)
  obtain rfl := Option.some.inj (hk1.symm.trans e2)
  obtain rfl := Option.some.inj (hc0.symm.trans e3)
  obtain rfl := Option.some.inj (hc1.symm.trans e4)
  subst e5
  simp only [get, native, (inRange_iff times hne [t]).1 (by simpa using hin)]
  simp only [ok_bind, if_true, interpAll, hv]

/-- C46 (partial): between two consecutive records whose headings are at most half a turn apart, the heading is interpolated along the shorter
arc, in every navigation file. -/
theorem C46_no_wrap_partial (T : K) (times col : List K) (hs : times.Pairwise (· < ·)) (hl : col.length = times.length) (k : Nat) (t0 t1 a b : K)
    (hk0 : times[k]? = some t0) (hk1 : times[k + 1]? = some t1) (hc0 : col[k]? = some a) (hc1 : col[k + 1]? = some b) (t : K)
    (ht : t0 ≤ t ∧ t ≤ t1) (hab : |b - a| ≤ T / 2) :
    ∃ h, get times col (.num t) = .ok (.num (some h)) ∧ OnShorterArc T a b h := by
  refine ⟨_, get_between times col hs hl k t0 t1 a b hk0 hk1 hc0 hc1 t ht, b - a, (t - t0) / (t1 - t0), 0, 0, by push_cast; ring, hab,
    div_nonneg (by linarith [ht.1]) (by linarith [ht.1, ht.2]), ?_, by push_cast; ring⟩
  exact div_le_one_of_le₀ (by linarith [ht.2]) (by linarith [ht.1, ht.2])

/-- C46 fails between every two consecutive records whose headings are more than half a turn apart (both in `[0, T)`, such
as 359 and 1 degrees): every heading strictly between the two records is off the shorter arc. -/
theorem C46_wrap_false (T : K) (times col : List K) (hs : times.Pairwise (· < ·)) (hl : col.length = times.length) (k : Nat) (t0 t1 a b : K)
    (hk0 : times[k]? = some t0) (hk1 : times[k + 1]? = some t1) (hc0 : col[k]? = some a) (hc1 : col[k + 1]? = some b) (t : K)
    (ha : 0 ≤ a ∧ a < T) (hb : 0 ≤ b ∧ b < T) (ht : t0 < t ∧ t < t1) (hab : T / 2 < |b - a|) :
    ∃ h, get times col (.num t) = .ok (.num (some h)) ∧ ¬ OnShorterArc T a b h := by
  refine ⟨_, get_between times col hs hl k t0 t1 a b hk0 hk1 hc0 hc1 t ⟨ht.1.le, ht.2.le⟩, ?_⟩
  rintro ⟨d, s, m, n, hd, habs, s0, s1, hvv⟩
  set u := (t - t0) / (t1 - t0) with hu
  have u0 : 0 < u := div_pos (by linarith [ht.1]) (by linarith [ht.1, ht.2])
  have u1 : u < 1 := by rw [hu, div_lt_one (by linarith [ht.1, ht.2])]; linarith [ht.2]
  have hT : 0 < T := by linarith
  obtain ⟨d1, d2⟩ := abs_le.mp habs
  have hcast : ∀ (i : Int) (lo hi : Int), (lo : K) * T < i * T → (i : K) * T < hi * T → lo < i ∧ i < hi := by
    intro i lo hi h1 h2
    exact ⟨by exact_mod_cast lt_of_mul_lt_mul_right h1 hT.le, by exact_mod_cast lt_of_mul_lt_mul_right h2 hT.le⟩
  rcases lt_or_ge 0 (b - a) with hpos | hneg
  · rw [abs_of_pos hpos] at hab
    -- d = b - a - T
    have hm := hcast m 0 2 (by push_cast; linarith) (by push_cast; linarith)
    have hm1 : m = 1 := by omega
    subst hm1
    push_cast at hd
    have hdd : d = b - a - T := by linarith
    have p1 : 0 < u * (b - a) := mul_pos u0 hpos
    have p2 : u * (b - a) < b - a := by nlinarith
    have p3 : s * d ≤ 0 := by nlinarith
    have p4 : d ≤ s * d := by nlinarith
    have hn := hcast n 0 1 (by push_cast; linarith) (by push_cast; linarith)
    omega
  · rw [abs_of_nonpos hneg] at hab
    have hm := hcast m (-2) 0 (by push_cast; linarith) (by push_cast; linarith)
    have hm1 : m = -1 := by omega
    subst hm1
    push_cast at hd
    have hdd : d = b - a + T := by linarith
    have hneg' : b - a < 0 := by linarith
    have p1 : u * (b - a) < 0 := mul_neg_of_pos_of_neg u0 hneg'
    have p2 : b - a < u * (b - a) := by nlinarith
    have hd0 : 0 ≤ d := by linarith
    have p3 : 0 ≤ s * d := mul_nonneg s0 hd0
    have p4 : s * d ≤ d := by nlinarith
    have hn := hcast n (-1) 0 (by push_cast; linarith) (by push_cast; linarith)
    omega

/-- C46, exactly: strictly between two records the heading is on the shorter arc if and only if the two headings are at most half a turn apart. -/
theorem C46_iff_partial (T : K) (times col : List K) (hs : times.Pairwise (· < ·)) (hl : col.length = times.length) (k : Nat) (t0 t1 a b : K)
    (hk0 : times[k]? = some t0) (hk1 : times[k + 1]? = some t1) (hc0 : col[k]? = some a) (hc1 : col[k + 1]? = some b) (t : K)
    (ha : 0 ≤ a ∧ a < T) (hb : 0 ≤ b ∧ b < T) (ht : t0 < t ∧ t < t1) :
    ∃ h, get times col (.num t) = .ok (.num (some h)) ∧ (OnShorterArc T a b h ↔ |b - a| ≤ T / 2) := by
  by_cases hab : |b - a| ≤ T / 2
  · obtain ⟨h, h1, h2⟩ := C46_no_wrap_partial T times col hs hl k t0 t1 a b hk0 hk1 hc0 hc1 t ⟨ht.1.le, ht.2.le⟩ hab
    exact ⟨h, h1, fun _ => hab, fun _ => h2⟩
  · obtain ⟨h, h1, h2⟩ := C46_wrap_false T times col hs hl k t0 t1 a b hk0 hk1 hc0 hc1 t ha hb ht (not_le.1 hab)
    exact ⟨h, h1, fun h3 => absurd h3 h2, fun h3 => absurd h3 hab⟩

/-- 359 and 1 degrees in the middle of a file meet the hypotheses. -/
example : ([0, 1, 2] : List ℚ).Pairwise (· < ·) ∧ ([300, 359, 1] : List ℚ)[1]? = some 359 ∧ ([300, 359, 1] : List ℚ)[2]? = some 1 :=
  ⟨by norm_num, rfl, rfl⟩

/-- 359 and 1 degrees meet the hypotheses. -/
example : (360 : ℚ) / 2 < |1 - 359| ∧ ((0 : ℚ) ≤ 359 ∧ (359 : ℚ) < 360) := by norm_num

/-! ### C47 -/

/-- Specification: the nine values of a record line (fields 2 to 10), if it is one. -/
def recordOf (parse : Str → Option K) (parts : List Str) (vals : Nat → K) : Prop :=
  ∀ j, j < 9 → ∃ s, parts[j + 1]? = some s ∧ parse s = some (vals j)

/-- Specification: a line whose time field is missing or not a number. -/
def notRecord (parse : Str → Option K) (parts : List Str) : Prop :=
  parts[1]? = none ∨ ∃ s, parts[1]? = some s ∧ parse s = none

theorem appendFields_record (parse : Str → Option K) (parts : List Str) (vals : Nat → K)
    (h : recordOf parse parts vals) : ∀ (todo j : Nat) (c : Cols K), j + todo = 9 →
      ∀ k, appendFields parse parts todo j c k = if j ≤ k ∧ k < 9 then c k ++ [vals k] else c k := by
  intro todo
  induction todo with
  | zero => intro j c hj k; rw [appendFields, if_neg (by omega)]
  | succ todo ih =>
    intro j c hj k
    obtain ⟨s, hs1, hs2⟩ := h j (by omega)
    unfold appendFields
    simp only [hs1, Option.bind_some, hs2]
    rw [ih (j + 1) _ (by omega)]
    by_cases hk : k = j
    · subst hk
      rw [if_neg (by omega), if_pos rfl, if_pos (by omega)]
    · simp only [if_neg hk]
      by_cases hk2 : j + 1 ≤ k ∧ k < 9
      · rw [if_pos hk2, if_pos (by omega)]
      · rw [if_neg hk2, if_neg (by omega)]

theorem appendFields_not (parse : Str → Option K) (parts : List Str) (h : notRecord parse parts) (c : Cols K) :
    eoLine parse c parts = c := by
  unfold eoLine appendFields
  rcases h with h | ⟨s, h, h'⟩ <;> simp [*]

/-- C47 (partial): for files in which every line is either a record or fails at its time field, the
columns are exactly the records' values, in the order of the lines, so they all have the same length
and entry `i` of every column comes from the same line.  Missing: lines with a readable time but a
broken later field (`C47_broken_line_false`). -/
theorem C47_aligned_partial (parse : Str → Option K) (lines : List (List Str))
    (h : ∀ l ∈ lines, (∃ v, recordOf parse l v) ∨ notRecord parse l) :
    ∃ recs : List (List Str), recs.Sublist lines ∧ (∀ l ∈ recs, ∃ v, recordOf parse l v) ∧
      (∀ l ∈ lines, (∃ v, recordOf parse l v) → l ∈ recs) ∧
      ∀ j, j < 9 → (eoLoad parse lines j).length = recs.length ∧
        ∀ (i : Nat) (l : List Str), recs[i]? = some l → ∃ s v, l[j + 1]? = some s ∧ parse s = some v ∧ (eoLoad parse lines j)[i]? = some v := by
  classical
  have key : ∀ (lines : List (List Str)) (c : Cols K), (∀ l ∈ lines, (∃ v, recordOf parse l v) ∨ notRecord parse l) →
      ∃ recs : List (List Str), recs.Sublist lines ∧ (∀ l ∈ recs, ∃ v, recordOf parse l v) ∧
      (∀ l ∈ lines, (∃ v, recordOf parse l v) → l ∈ recs) ∧
      ∀ j, j < 9 → ∃ out : List K, lines.foldl (eoLine parse) c j = c j ++ out ∧ out.length = recs.length ∧
        ∀ (i : Nat) (l : List Str), recs[i]? = some l → ∃ s v, l[j + 1]? = some s ∧ parse s = some v ∧ out[i]? = some v := by
    intro lines
    induction lines with
    | nil => intro c _; exact ⟨[], by simp, by simp, by simp, fun j _ => ⟨[], by simp⟩⟩
    | cons l ls ih =>
      intro c h
      rcases h l (by simp) with ⟨v, hv⟩ | hnot
      · obtain ⟨recs, r1, r2, r3, r4⟩ := ih (eoLine parse c l) (fun l' hl' => h l' (by simp [hl']))
        refine ⟨l :: recs, r1.cons_cons l, ?_, ?_, ?_⟩
        · intro l' hl'
          rcases List.mem_cons.mp hl' with rfl | hl'
          · exact ⟨v, hv⟩
          · exact r2 l' hl'
        · intro l' hl' hr
          rcases List.mem_cons.mp hl' with rfl | hl'
          · simp
          · exact List.mem_cons_of_mem _ (r3 l' hl' hr)
        · intro j hj
          obtain ⟨out, o1, o2, o3⟩ := r4 j hj
          refine ⟨v j :: out, ?_, by simp [o2], ?_⟩
          · rw [List.foldl_cons, o1]
            have : eoLine parse c l j = c j ++ [v j] := by
              unfold eoLine
              rw [appendFields_record parse l v hv 9 0 c rfl j, if_pos (by omega)]
            rw [this, List.append_assoc]; rfl
          · intro i l' hi
            cases i with
            | zero =>
              simp only [List.getElem?_cons_zero, Option.some.injEq] at hi
              subst hi
              obtain ⟨s, hs1, hs2⟩ := hv j hj
              exact ⟨s, v j, hs1, hs2, by simp⟩
            | succ i =>
              rw [List.getElem?_cons_succ] at hi ⊢
              exact o3 i l' hi
      · obtain ⟨recs, r1, r2, r3, r4⟩ := ih c (fun l' hl' => h l' (by simp [hl']))
        refine ⟨recs, r1.cons l, r2, ?_, ?_⟩
        · intro l' hl' hr
          rcases List.mem_cons.mp hl' with rfl | hl'
          · exfalso
            obtain ⟨v, hv⟩ := hr
            obtain ⟨s, hs1, hs2⟩ := hv 0 (by omega)
            rcases hnot with hn | ⟨s', hn, hn'⟩
            · rw [hs1] at hn; simp at hn
            · rw [hs1] at hn
              simp only [Option.some.injEq] at hn
              subst hn
              rw [hs2] at hn'; simp at hn'
          · exact r3 l' hl' hr
        · intro j hj
          obtain ⟨out, o1, o2, o3⟩ := r4 j hj
          exact ⟨out, by rw [List.foldl_cons, appendFields_not parse l hnot c, o1], o2, o3⟩
  obtain ⟨recs, r1, r2, r3, r4⟩ := key lines (fun _ => []) h
  refine ⟨recs, r1, r2, r3, ?_⟩
  intro j hj
  obtain ⟨out, o1, o2, o3⟩ := r4 j hj
  have : eoLoad parse lines j = out := by unfold eoLoad; rw [o1]; rfl
  rw [this]
  exact ⟨o2, o3⟩

theorem appendFields_before (parse : Str → Option K) (parts : List Str) : ∀ (todo j : Nat) (c : Cols K) (k : Nat),
    k < j → appendFields parse parts todo j c k = c k := by
  intro todo
  induction todo with
  | zero => intro j c k _; rfl
  | succ todo ih =>
    intro j c k hk
    unfold appendFields
    cases hv : (parts[j + 1]?).bind parse with
    | none => rfl
    | some v =>
      simp only []
      rw [ih (j + 1) _ k (by omega), if_neg (by omega)]

theorem appendFields_last (parse : Str → Option K) (parts : List Str) : ∀ (todo j : Nat) (c : Cols K),
    j + todo = 9 → 0 < todo →
    (∃ v, appendFields parse parts todo j c 8 = c 8 ++ [v] ∧ ∀ k, j ≤ k → k < 9 → ∃ v, (parts[k + 1]?).bind parse = some v) ∨
    (appendFields parse parts todo j c 8 = c 8) := by
  intro todo
  induction todo with
  | zero => intro j c _ h; omega
  | succ todo ih =>
    intro j c hj _
    unfold appendFields
    cases hv : (parts[j + 1]?).bind parse with
    | none => exact Or.inr rfl
    | some v =>
      simp only []
      by_cases h0 : todo = 0
      · subst h0
        left
        have hj8 : j = 8 := by omega
        subst hj8
        refine ⟨v, by simp [appendFields], ?_⟩
        intro k h1 h2
        obtain rfl : k = 8 := by omega
        exact ⟨v, hv⟩
      · rcases ih (j + 1) (fun k => if k = j then c k ++ [v] else c k) (by omega) (by omega) with ⟨w, hw, hall⟩ | hw
        · left
          refine ⟨w, ?_, ?_⟩
          · rw [hw, if_neg (by omega)]
          · intro k h1 h2
            by_cases hk : k = j
            · exact ⟨v, by rw [hk]; exact hv⟩
            · exact hall k (by omega) h2
        · right
          rw [hw, if_neg (by omega)]

/-- Specification: the value of field `j` of a line if that field and all fields before it are readable. -/
def readThrough (parse : Str → Option K) (parts : List Str) : Nat → Option K
  | 0 => (parts[1]?).bind parse
  | j + 1 => (readThrough parse parts j).bind (fun _ => (parts[j + 2]?).bind parse)

theorem readThrough_none (parse : Str → Option K) (parts : List Str) (j : Nat) (h : (parts[j + 1]?).bind parse = none) :
    ∀ k, j ≤ k → readThrough parse parts k = none := by
  intro k hk
  induction hk with
  | refl => cases j with
    | zero => exact h
    | succ j => rw [readThrough, h]; cases readThrough parse parts j <;> rfl
  | step _ ih => rw [readThrough, ih]; rfl

theorem appendFields_exact (parse : Str → Option K) (parts : List Str) : ∀ (todo j : Nat) (c : Cols K),
    (j = 0 ∨ ∃ v, readThrough parse parts (j - 1) = some v) →
    ∀ k, appendFields parse parts todo j c k = if j ≤ k ∧ k < j + todo then c k ++ (readThrough parse parts k).toList else c k := by
  intro todo
  induction todo with
  | zero => intro j c _ k; rw [appendFields, if_neg (by omega)]
  | succ todo ih =>
    intro j c hj k
    unfold appendFields
    cases hp : (parts[j + 1]?).bind parse with
    | none =>
      simp only []
      by_cases hk : j ≤ k
      · rw [readThrough_none parse parts j hp k hk]; simp
      · rw [if_neg (by omega)]
    | some v =>
      simp only []
      have hr : readThrough parse parts j = some v := by
        cases j with
        | zero => exact hp
        | succ j =>
          obtain ⟨w, hw⟩ := hj.resolve_left (by omega)
          simp only [Nat.add_sub_cancel] at hw
          rw [readThrough, hw]
          exact hp
      rw [ih (j + 1) _ (Or.inr ⟨v, by simpa using hr⟩)]
      by_cases hk : k = j
      · subst hk
        rw [if_neg (by omega), if_pos rfl, if_pos (by omega), hr]; rfl
      · simp only [if_neg hk]
        by_cases hk2 : j + 1 ≤ k ∧ k < j + 1 + todo
        · rw [if_pos hk2, if_pos (by omega)]
        · rw [if_neg hk2, if_neg (by omega)]

/-- C47, exactly, for every text file: column `j` holds, in the order of the lines, field `j` of those lines in which that field and all fields
before it are readable. So the columns are aligned exactly when no line has a readable time and an unreadable later field. -/
theorem C47_exact_partial (parse : Str → Option K) (lines : List (List Str)) (j : Nat) (hj : j < 9) :
    eoLoad parse lines j = lines.filterMap (fun l => readThrough parse l j) := by
  have key : ∀ (lines : List (List Str)) (c : Cols K), lines.foldl (eoLine parse) c j = c j ++ lines.filterMap (fun l => readThrough parse l j) := by
    intro lines
    induction lines with
    | nil => intro c; simp
    | cons l ls ih =>
      intro c
      rw [List.foldl_cons, ih]
      unfold eoLine
      rw [appendFields_exact parse l 9 0 c (Or.inl rfl) j, if_pos (by omega)]
      cases hr : readThrough parse l j with
      | none => simp [List.filterMap_cons, hr]
      | some v => simp [List.filterMap_cons, hr]
  unfold eoLoad
  rw [key]; simp

example : readThrough (fun s => if s = ['1'] then some (1 : ℚ) else none) [['a'], ['1'], ['x'], ['1']] 0 = some 1 ∧
    readThrough (fun s => if s = ['1'] then some (1 : ℚ) else none) [['a'], ['1'], ['x'], ['1']] 2 = none := by
  constructor <;> rfl

/-- C47 fails: whenever a file has a line with a readable time field but a missing or unreadable later
field, the time column ends up longer than the longitude column: entries of different lines are
paired, and `get_num_records` counts the broken line. -/
theorem C47_broken_line_false (parse : Str → Option K) (lines : List (List Str)) (l : List Str) (hl : l ∈ lines)
    (htime : ∃ s v, l[1]? = some s ∧ parse s = some v) (hbroken : ¬ ∃ v, recordOf parse l v) :
    (eoLoad parse lines 8).length < (eoLoad parse lines 0).length := by
  have step : ∀ (c : Cols K) (l : List Str), (eoLine parse c l 8).length + (c 0).length ≤ (eoLine parse c l 0).length + (c 8).length ∧
      ((∃ s v, l[1]? = some s ∧ parse s = some v) → (¬ ∃ v, recordOf parse l v) →
        (eoLine parse c l 8).length + (c 0).length < (eoLine parse c l 0).length + (c 8).length) := by
    intro c l
    have h0 : ((∃ s v, l[1]? = some s ∧ parse s = some v) → (eoLine parse c l 0).length = (c 0).length + 1) ∧
        ((¬ ∃ s v, l[1]? = some s ∧ parse s = some v) → eoLine parse c l = c) := by
      constructor
      · rintro ⟨s, v, h1, h2⟩
        unfold eoLine appendFields
        simp only [h1, Option.bind_some, h2, Nat.zero_add]
        rw [appendFields_before _ _ _ _ _ _ (by omega)]
        simp
      · intro hn
        apply appendFields_not
        cases h1 : l[1]? with
        | none => exact Or.inl h1
        | some s =>
          right
          refine ⟨s, h1, ?_⟩
          cases h2 : parse s with
          | none => rfl
          | some v => exact absurd ⟨s, v, h1, h2⟩ hn
    by_cases ht : ∃ s v, l[1]? = some s ∧ parse s = some v
    · have hc0 := h0.1 ht
      rcases appendFields_last parse l 9 0 c rfl (by omega) with ⟨v, hv, hall⟩ | hv
      · have e : (eoLine parse c l 8).length = (c 8).length + 1 := by unfold eoLine; rw [hv]; simp
        refine ⟨by omega, ?_⟩
        intro _ hb
        exfalso
        apply hb
        choose! w hw using hall
        refine ⟨w, ?_⟩
        intro j hj
        have := hw j (by omega) hj
        rw [Option.bind_eq_some_iff] at this
        obtain ⟨s, hs1, hs2⟩ := this
        exact ⟨s, hs1, hs2⟩
      · have e : (eoLine parse c l 8).length = (c 8).length := by unfold eoLine; rw [hv]
        exact ⟨by omega, fun _ _ => by omega⟩
    · rw [h0.2 ht]
      exact ⟨by omega, fun h => absurd h ht⟩
  have mono : ∀ (ls : List (List Str)) (c : Cols K), (ls.foldl (eoLine parse) c 8).length + (c 0).length ≤
      (ls.foldl (eoLine parse) c 0).length + (c 8).length := by
    intro ls
    induction ls with
    | nil => intro c; simp; omega
    | cons a ls ih =>
      intro c
      have h1 := ih (eoLine parse c a)
      have h2 := (step c a).1
      simp only [List.foldl_cons]
      omega
  obtain ⟨as, bs, rfl⟩ := List.append_of_mem hl
  unfold eoLoad
  rw [List.foldl_append, List.foldl_cons]
  have h1 := mono as (fun _ => [])
  have h2 := (step (as.foldl (eoLine parse) (fun _ => [])) l).2 htime hbroken
  have h3 := mono bs (eoLine parse (as.foldl (eoLine parse) (fun _ => [])) l)
  simp only [List.length_nil] at h1
  omega

/-- A three-line file (header, record, broken record) for the hypotheses, with `parse` reading one-digit
numbers. -/
example :
    let parse : Str → Option ℚ := fun s => if s = ['7'] then some 7 else none
    let rec1 : List Str := [['a'], ['7'], ['7'], ['7'], ['7'], ['7'], ['7'], ['7'], ['7'], ['7']]
    recordOf parse rec1 (fun _ => 7) ∧ notRecord parse [['x']] ∧
      (∃ s v, ([['b'], ['7'], ['z']] : List Str)[1]? = some s ∧ parse s = some v) ∧
      ¬ ∃ v, recordOf parse [['b'], ['7'], ['z']] v := by
  refine ⟨?_, Or.inl rfl, ⟨['7'], 7, rfl, by simp⟩, ?_⟩
  · intro j hj
    interval_cases j <;> exact ⟨['7'], rfl, by simp⟩
  · rintro ⟨v, hv⟩
    obtain ⟨s, h1, h2⟩ := hv 1 (by omega)
    simp at h1
    subst h1
    simp at h2

end
end Verif.Nav
