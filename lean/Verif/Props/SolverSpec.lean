import Verif.Props.SolverIeee
import Verif.Model.FloatSolver
import Mathlib.Order.WithBot

/-! C203, C204: what the pixel-to-ground conversion does in IEEE arithmetic, for every calculator: which shifts it measures slopes with, and when it stops. -/

set_option linter.unusedSectionVars false

namespace Verif.SolverIeee
open Verif Ieee PointCalc

section
variable {K : Type} [Field K] [LinearOrder K] [IsStrictOrderedRing K]

/-- Specification: the place of a float on the number line with both infinities; NaN has none. -/
def place : Num K → Option (WithBot (WithTop K))
  | .nan => none
  | .inf true => some ⊥
  | .inf false => some ((⊤ : WithTop K) : WithBot (WithTop K))
  | .zero _ => some (((0 : K) : WithTop K) : WithBot (WithTop K))
  | .fin x => some ((x : WithTop K) : WithBot (WithTop K))

/-- Specification: `a < b` as places; false with NaN. -/
def Below (a b : Num K) : Prop := ∃ x y, place a = some x ∧ place b = some y ∧ x < y

/-- Specification: `a ≤ b` as places; false with NaN. -/
def AtMost (a b : Num K) : Prop := ∃ x y, place a = some x ∧ place b = some y ∧ x ≤ y

theorem ltN_iff (a b : Num K) : ltN a b = true ↔ Below a b := by
  unfold Below
  cases a with
  | nan => cases b <;> simp [ltN, place]
  | inf s => cases b with
    | nan => simp [ltN, place]
    | inf t => cases s <;> cases t <;> simp [ltN, place]
    | zero t => cases s <;> simp [ltN, place]
    | fin y => cases s <;> simp [ltN, place]
  | zero s => cases b with
    | nan => simp [ltN, place]
    | inf t =>
      cases t
      · simp only [ltN, place, Bool.not_false, true_iff]
        exact ⟨_, _, rfl, rfl, WithBot.coe_lt_coe.mpr (WithTop.coe_lt_top _)⟩
      · simp [ltN, place]
    | zero t => simp [ltN, place]
    | fin y => simp [ltN, place]
  | fin x => cases b with
    | nan => simp [ltN, place]
    | inf t =>
      cases t
      · simp only [ltN, place, Bool.not_false, true_iff]
        exact ⟨_, _, rfl, rfl, WithBot.coe_lt_coe.mpr (WithTop.coe_lt_top _)⟩
      · simp [ltN, place]
    | zero t => simp [ltN, place]
    | fin y => simp [ltN, place]

theorem isNan_iff (a : Num K) : isNan a = true ↔ place a = none := by
  cases a with
  | inf s => cases s <;> simp [isNan, place]
  | _ => simp [isNan, place]

theorem leN_iff (a b : Num K) : leN a b = true ↔ AtMost a b := by
  unfold leN AtMost
  rw [Bool.and_eq_true, Bool.and_eq_true, Bool.not_eq_true', Bool.not_eq_true', Bool.not_eq_true']
  have ha := isNan_iff a
  have hb := isNan_iff b
  have hl := ltN_iff b a
  unfold Below at hl
  cases ea : place a with
  | none => simp [ha.mpr ea]
  | some x =>
    cases eb : place b with
    | none => simp [hb.mpr eb]
    | some y =>
      have h1 : isNan a = false := by rw [Bool.eq_false_iff]; intro h; rw [ha, ea] at h; cases h
      have h2 : isNan b = false := by rw [Bool.eq_false_iff]; intro h; rw [hb, eb] at h; cases h
      have h3 : ltN b a = false ↔ ¬ ∃ u v, some y = some u ∧ some x = some v ∧ u < v := by rw [Bool.eq_false_iff, ne_eq, hl, ea, eb]
      rw [h3]
      simp only [h1, h2, true_and]
      constructor
      · intro h
        refine ⟨x, y, rfl, rfl, ?_⟩
        by_contra hn
        exact h ⟨y, x, rfl, rfl, not_le.mp hn⟩
      · rintro ⟨x', y', e1, e2, h⟩ ⟨y'', x'', e3, e4, h'⟩
        cases e1; cases e2; cases e3; cases e4
        exact absurd h (not_le.mpr h')

variable [FloorRing K]

/-- Specification: the difference of the pixels `p`, `q` of two positions is more than one pixel, in float arithmetic. -/
def MovedFar (F : Format) (q p : Num K × Num K) : Prop :=
  Below (.fin 1) (add F (mul F (sub F p.1 q.1) (sub F p.1 q.1)) (mul F (sub F p.2 q.2) (sub F p.2 q.2)))

/-- Specification: the doubling trial shifts, from the spacing of the numbers at 1. -/
def trial (F : Format) (k : Nat) : Num K := .fin (2 ^ ((k : Int) + 1 - F.p))

theorem firstMove_spec (F : Format) (base : Num K × Num K) (c : Num K) (l : List (Num K × Num K × Num K)) :
    (∀ a, firstMove F base c l = .ok a ↔ ∃ (j : Nat) (hj : j < l.length), a = sub F l[j].1 c ∧ MovedFar F base l[j].2 ∧ ∀ (i : Nat) (hi : i < j), ¬ MovedFar F base (l[i]'(by omega)).2) ∧
    (∀ e, firstMove F base c l = .error e ↔ e = .indexError ∧ ∀ q ∈ l, ¬ MovedFar F base q.2) := by
  induction l with
  | nil => refine ⟨fun a => ?_, fun e => ?_⟩ <;> simp [firstMove, eq_comm]
  | cons q l ih =>
    obtain ⟨pos, px, py⟩ := q
    by_cases h : MovedFar F base (px, py)
    · have h' := (ltN_iff _ _).mpr h
      simp only at h'
      refine ⟨fun a => ?_, fun e => ?_⟩
      · simp only [firstMove, h', if_true]
        constructor
        · intro e
          cases e
          exact ⟨0, by simp, rfl, h, fun i hi => absurd hi (by omega)⟩
        · rintro ⟨j, hj, rfl, hm, hlt⟩
          cases j with
          | zero => rfl
          | succ j => exact absurd h (hlt 0 (by omega))
      · simp only [firstMove, h', if_true]
        constructor
        · intro e; cases e
        · rintro ⟨-, hn⟩
          exact absurd h (hn _ (List.mem_cons_self ..))
    · have h' : ltN (.fin 1) (add F (mul F (sub F px base.1) (sub F px base.1)) (mul F (sub F py base.2) (sub F py base.2))) = false := by
        rw [Bool.eq_false_iff]; intro hh; exact h ((ltN_iff _ _).mp hh)
      refine ⟨fun a => ?_, fun e => ?_⟩
      · simp only [firstMove, h', Bool.false_eq_true, if_false]
        rw [ih.1 a]
        constructor
        · rintro ⟨j, hj, ha, hm, hlt⟩
          refine ⟨j + 1, by simpa using hj, ha, hm, ?_⟩
          intro i hi
          cases i with
          | zero => exact h
          | succ i => exact hlt i (by omega)
        · rintro ⟨j, hj, ha, hm, hlt⟩
          cases j with
          | zero => exact absurd hm h
          | succ j => exact ⟨j, by simpa using hj, ha, hm, fun i hi => hlt (i + 1) (by omega)⟩
      · simp only [firstMove, h', Bool.false_eq_true, if_false]
        rw [ih.2 e]
        constructor
        · rintro ⟨he, hn⟩
          refine ⟨he, ?_⟩
          intro q hq
          rcases List.mem_cons.mp hq with rfl | hq
          · exact h
          · exact hn q hq
        · rintro ⟨he, hn⟩
          exact ⟨he, fun q hq => hn q (List.mem_cons_of_mem _ hq)⟩

/-- Specification: the number of trial shifts. -/
def trialCount (F : Format) : Nat := (F.emax - 2 + F.p).toNat

/-- Specification: the pixel of the centre moved east by trial shift `k`. -/
def eastOf (F : Format) (f : Num K → Num K → Num K → Num K × Num K) (centre : Num K × Num K) (alt : Num K) (k : Nat) : Num K × Num K :=
  f (add F (add F (.zero false) centre.1) (trial F k)) (add F (.zero false) centre.2) alt

/-- Specification: the pixel of the centre moved north by trial shift `k`. -/
def northOf (F : Format) (f : Num K → Num K → Num K → Num K × Num K) (centre : Num K × Num K) (alt : Num K) (k : Nat) : Num K × Num K :=
  f (add F (.zero false) centre.1) (add F (add F (.zero false) centre.2) (trial F k)) alt

/-- Specification: `k` is the first trial whose pixel is more than one pixel from `base`. -/
def FirstFar (F : Format) (base : Num K × Num K) (g : Nat → Num K × Num K) (k : Nat) : Prop :=
  k < trialCount F ∧ MovedFar F base (g k) ∧ ∀ i < k, ¬ MovedFar F base (g i)

theorem firstMove_trials (F : Format) (base : Num K × Num K) (c lon0 : Num K) (g : Num K → Num K × Num K) :
    (∀ a, firstMove F base c ((trialSteps F).map (fun d => (add F lon0 d, g (add F lon0 d)))) = .ok a ↔
      ∃ k, FirstFar F base (fun k => g (add F lon0 (trial F k))) k ∧ a = sub F (add F lon0 (trial F k)) c) ∧
    (∀ e, firstMove F base c ((trialSteps F).map (fun d => (add F lon0 d, g (add F lon0 d)))) = .error e ↔
      e = .indexError ∧ ∀ k < trialCount F, ¬ MovedFar F base (g (add F lon0 (trial F k)))) := by
  obtain ⟨h1, h2⟩ := firstMove_spec F base c ((trialSteps F).map (fun d => (add F lon0 d, g (add F lon0 d))))
  refine ⟨fun a => ?_, fun e => ?_⟩
  · rw [h1 a]
    constructor
    · rintro ⟨j, hj, ha, hm, hlt⟩
      have hj' : j < trialCount F := by simpa [trialSteps, trialCount] using hj
      refine ⟨j, ⟨hj', ?_, ?_⟩, ?_⟩
      · simpa [trialSteps, trial] using hm
      · intro i hi
        simpa [trialSteps, trial] using hlt i hi
      · simpa [trialSteps, trial] using ha
    · rintro ⟨j, ⟨hj, hm, hlt⟩, ha⟩
      refine ⟨j, by simpa [trialSteps, trialCount] using hj, ?_, ?_, ?_⟩
      · simpa [trialSteps, trial] using ha
      · simpa [trialSteps, trial] using hm
      · intro i hi
        simpa [trialSteps, trial] using hlt i hi
  · rw [h2 e]
    refine and_congr_right (fun _ => ?_)
    constructor
    · intro h k hk
      refine h (add F lon0 (trial F k), g (add F lon0 (trial F k))) ?_
      exact List.mem_map.mpr ⟨trial F k, List.mem_map.mpr ⟨k, List.mem_range.mpr hk, rfl⟩, rfl⟩
    · intro h q hq
      obtain ⟨d, hd, rfl⟩ := List.mem_map.mp hq
      obtain ⟨k, hk, rfl⟩ := List.mem_map.mp hd
      exact h k (List.mem_range.mp hk)

theorem lonTrials_nan (F : Format) (f : Num K → Num K → Num K → Num K × Num K) (centre : Num K × Num K) (alt : Num K) :
    ((trialSteps F).map (fun d => (add F (add F (.zero false) centre.1) d, f (add F (add F (.zero false) centre.1) d) (add F (.zero false) centre.2) alt))).any
      (fun q => isNan (sub F q.2.1 (f centre.1 centre.2 alt).1)) = true ↔
    ∃ k < trialCount F, sub F (eastOf F f centre alt k).1 (f centre.1 centre.2 alt).1 = .nan := by
  have hn : ∀ a : Num K, isNan a = true ↔ a = .nan := by intro a; cases a <;> simp [isNan]
  rw [List.any_eq_true]
  constructor
  · rintro ⟨q, hq, h⟩
    obtain ⟨d, hd, rfl⟩ := List.mem_map.mp hq
    obtain ⟨k, hk, rfl⟩ := List.mem_map.mp hd
    exact ⟨k, List.mem_range.mp hk, (hn _).mp h⟩
  · rintro ⟨k, hk, h⟩
    exact ⟨_, List.mem_map.mpr ⟨trial F k, List.mem_map.mpr ⟨k, List.mem_range.mpr hk, rfl⟩, rfl⟩, (hn _).mpr h⟩

/-- C203: when the horizontal pixel coordinate of some trial position east of the centre cannot be compared with the centre's, both shifts are 2, whatever the trials to the north. -/
theorem C203_nan (F : Format) (f : Num K → Num K → Num K → Num K × Num K) (centre : Num K × Num K) (alt : Num K) (k : Nat) (hk : k < trialCount F)
    (h : sub F (eastOf F f centre alt k).1 (f centre.1 centre.2 alt).1 = .nan) : shifts F f centre alt = .ok (.fin 2, .fin 2) := by
  unfold shifts
  simp only []
  rw [if_pos ((lonTrials_nan F f centre alt).mpr ⟨k, hk, h⟩)]

/-- C203: otherwise each shift is the first of the doubling trial shifts that moves the pixel of the centre by more than one pixel, measured as the difference of the moved centre
from the centre. -/
theorem C203_first (F : Format) (f : Num K → Num K → Num K → Num K × Num K) (centre : Num K × Num K) (alt : Num K)
    (h : ∀ k < trialCount F, sub F (eastOf F f centre alt k).1 (f centre.1 centre.2 alt).1 ≠ .nan) (a b : Num K) :
    shifts F f centre alt = .ok (a, b) ↔
      (∃ k, FirstFar F (f centre.1 centre.2 alt) (eastOf F f centre alt) k ∧ a = sub F (add F (add F (.zero false) centre.1) (trial F k)) centre.1) ∧
      (∃ k, FirstFar F (f centre.1 centre.2 alt) (northOf F f centre alt) k ∧ b = sub F (add F (add F (.zero false) centre.2) (trial F k)) centre.2) := by
  have e := (firstMove_trials F (f centre.1 centre.2 alt) centre.1 (add F (.zero false) centre.1) (fun x => f x (add F (.zero false) centre.2) alt)).1
  have n := (firstMove_trials F (f centre.1 centre.2 alt) centre.2 (add F (.zero false) centre.2) (fun y => f (add F (.zero false) centre.1) y alt)).1
  unfold shifts
  simp only []
  rw [if_neg (fun hh => by obtain ⟨k, hk, h'⟩ := (lonTrials_nan F f centre alt).mp hh; exact h k hk h')]
  constructor
  · intro hh
    obtain ⟨a', ha, hh⟩ := bind_ok hh
    obtain ⟨b', hb, hh⟩ := bind_ok hh
    cases hh
    exact ⟨(e _).mp ha, (n _).mp hb⟩
  · rintro ⟨ha, hb⟩
    rw [(e a).mpr ha, ok_bind, (n b).mpr hb, ok_bind]

/-- C203: the search fails, with an IndexError, exactly when no trial shift in one of the two directions moves the pixel of the centre by more than one pixel. -/
theorem C203_fails (F : Format) (f : Num K → Num K → Num K → Num K × Num K) (centre : Num K × Num K) (alt : Num K)
    (h : ∀ k < trialCount F, sub F (eastOf F f centre alt k).1 (f centre.1 centre.2 alt).1 ≠ .nan) (e : Err) :
    shifts F f centre alt = .error e ↔ e = .indexError ∧ ((∀ k < trialCount F, ¬ MovedFar F (f centre.1 centre.2 alt) (eastOf F f centre alt k)) ∨
      ∀ k < trialCount F, ¬ MovedFar F (f centre.1 centre.2 alt) (northOf F f centre alt k)) := by
  have ee := firstMove_trials F (f centre.1 centre.2 alt) centre.1 (add F (.zero false) centre.1) (fun x => f x (add F (.zero false) centre.2) alt)
  have nn := firstMove_trials F (f centre.1 centre.2 alt) centre.2 (add F (.zero false) centre.2) (fun y => f (add F (.zero false) centre.1) y alt)
  unfold shifts
  simp only []
  rw [if_neg (fun hh => by obtain ⟨k, hk, h'⟩ := (lonTrials_nan F f centre alt).mp hh; exact h k hk h')]
  cases e1 : firstMove F (f centre.1 centre.2 alt) centre.1 ((trialSteps F).map (fun d => (add F (add F (.zero false) centre.1) d,
    f (add F (add F (.zero false) centre.1) d) (add F (.zero false) centre.2) alt))) with
  | error e' =>
    have := (ee.2 e').mp e1
    rw [error_bind]
    constructor
    · intro hh; cases hh; exact ⟨this.1, Or.inl this.2⟩
    · rintro ⟨rfl, -⟩; rw [this.1]
  | ok a =>
    rw [ok_bind]
    obtain ⟨k, ⟨hk, hm, -⟩, -⟩ := (ee.1 a).mp e1
    cases e2 : firstMove F (f centre.1 centre.2 alt) centre.2 ((trialSteps F).map (fun d => (add F (add F (.zero false) centre.2) d,
      f (add F (.zero false) centre.1) (add F (add F (.zero false) centre.2) d) alt))) with
    | error e' =>
      have := (nn.2 e').mp e2
      rw [error_bind]
      constructor
      · intro hh; cases hh; exact ⟨this.1, Or.inr this.2⟩
      · rintro ⟨rfl, -⟩; rw [this.1]
    | ok b =>
      rw [ok_bind]
      obtain ⟨k', ⟨hk', hm', -⟩, -⟩ := (nn.1 b).mp e2
      constructor
      · intro hh; cases hh
      · rintro ⟨-, h1 | h1⟩
        · exact absurd hm (h1 k hk)
        · exact absurd hm' (h1 k' hk')

/-! ### When the iteration stops -/

/-- Specification: the estimates after `n` updates. -/
def estimates (F : Format) (f : Num K → Num K → Num K → Num K × Num K) (dLon dLat : Num K) (ts : List (Target (Num K))) (es : List (Num K × Num K)) (n : Nat) :
    List (Num K × Num K) := (fun l => List.zipWith (newtonStepI F f dLon dLat) ts l)^[n] es

/-- Specification: the estimate `e` of the position of target `t` projects within `thr` of it in both coordinates; NaN never does. -/
def Near (F : Format) (f : Num K → Num K → Num K → Num K × Num K) (thr : Num K) (t : Target (Num K)) (e : Num K × Num K) : Prop :=
  (AtMost (sub F t.x (f e.1 e.2 t.alt).1) thr ∧ AtMost (sub F t.x (f e.1 e.2 t.alt).1).neg thr) ∧
  (AtMost (sub F t.y (f e.1 e.2 t.alt).2) thr ∧ AtMost (sub F t.y (f e.1 e.2 t.alt).2).neg thr)

/-- Specification: all of them do. -/
def AllNear (F : Format) (f : Num K → Num K → Num K → Num K × Num K) (thr : Num K) (ts : List (Target (Num K))) (es : List (Num K × Num K)) : Prop :=
  ∀ (i : Nat) (t : Target (Num K)) (e : Num K × Num K), ts[i]? = some t → es[i]? = some e → Near F f thr t e

theorem absN_atMost (d thr : Num K) : AtMost (absN d) thr ↔ AtMost d thr ∧ AtMost d.neg thr := by
  unfold AtMost
  cases et : place thr with
  | none => simp
  | some y =>
    cases d with
    | nan => simp [absN, place]
    | inf s => cases s <;> simp [absN, place, Num.neg] <;> intro h <;> rw [← h] <;> exact bot_le
    | zero s => simp [absN, place, Num.neg]
    | fin x =>
      simp only [absN, place, Num.neg, Option.some.injEq, exists_eq_left', exists_and_left, ↓existsAndEq, true_and]
      induction y using WithBot.recBotCoe with
      | bot => simp
      | coe y =>
        induction y using WithTop.recTopCoe with
        | top => simp
        | coe y =>
          simp only [WithBot.coe_le_coe, WithTop.coe_le_coe]
          exact abs_le'

theorem within_iff (F : Format) (f : Num K → Num K → Num K → Num K × Num K) (thr : Num K) (t : Target (Num K)) (e : Num K × Num K) :
    withinI F f thr t e = true ↔ Near F f thr t e := by
  unfold withinI Near
  simp only []
  rw [Bool.and_eq_true, leN_iff, leN_iff, absN_atMost, absN_atMost]

theorem allNear_iff (F : Format) (f : Num K → Num K → Num K → Num K × Num K) (thr : Num K) (ts : List (Target (Num K))) (es : List (Num K × Num K)) :
    (List.zipWith (withinI F f thr) ts es).all id = true ↔ AllNear F f thr ts es := by
  rw [List.all_eq_true]
  constructor
  · intro h i t e ht he
    refine (within_iff F f thr t e).mp ?_
    have hm : (List.zipWith (withinI F f thr) ts es)[i]? = some (withinI F f thr t e) := by rw [List.getElem?_zipWith, ht, he]
    exact h _ (List.mem_of_getElem? hm)
  · intro h b hb
    obtain ⟨i, hi⟩ := List.mem_iff_getElem?.mp hb
    rw [List.getElem?_zipWith] at hi
    cases ht : ts[i]? with
    | none => rw [ht] at hi; simp at hi
    | some t =>
      cases he : es[i]? with
      | none => rw [ht, he] at hi; simp at hi
      | some e =>
        rw [ht, he] at hi
        cases hi
        exact (within_iff F f thr t e).mpr (h i t e ht he)

/-- C204: the iteration returns the estimates after the first update that brings every pixel within the threshold, or after the last update allowed. -/
theorem C204_stops (F : Format) (f : Num K → Num K → Num K → Num K × Num K) (dLon dLat thr : Num K) (maxIter : Nat) (ts : List (Target (Num K))) (es : List (Num K × Num K)) :
    ∃ n ≤ maxIter, newtonLoopI F f dLon dLat thr maxIter ts es = estimates F f dLon dLat ts es n ∧
      (n < maxIter → 0 < n ∧ AllNear F f thr ts (estimates F f dLon dLat ts es n)) ∧
      ∀ k, 0 < k → k < n → ¬ AllNear F f thr ts (estimates F f dLon dLat ts es k) := by
  induction maxIter generalizing es with
  | zero => exact ⟨0, le_rfl, rfl, fun h => absurd h (by omega), fun k _ h => absurd h (by omega)⟩
  | succ m ih =>
    unfold newtonLoopI
    simp only []
    split_ifs with h
    · refine ⟨1, by omega, rfl, fun _ => ⟨by omega, (allNear_iff F f thr ts _).mp h⟩, fun k h0 h1 => absurd h1 (by omega)⟩
    · obtain ⟨n, hn, e, h1, h2⟩ := ih (List.zipWith (newtonStepI F f dLon dLat) ts es)
      refine ⟨n + 1, by omega, e, fun hh => ⟨by omega, (h1 (by omega)).2⟩, ?_⟩
      intro k h0 hk
      obtain ⟨k, rfl⟩ : ∃ j, k = j + 1 := ⟨k - 1, by omega⟩
      by_cases hk0 : k = 0
      · subst hk0
        intro hall
        exact h ((allNear_iff F f thr ts _).mpr hall)
      · exact h2 k (by omega) (by omega)

/-- C204 for the whole conversion of at least one pixel: the shifts are those of C203, the first estimate of every pixel is the centre. -/
theorem C204_answers (F : Format) (f : Num K → Num K → Num K → Num K × Num K) (centre : Num K × Num K) (meanAlt thr : Num K) (maxIter : Nat) (ts : List (Target (Num K)))
    (hts : ts ≠ []) (dLon dLat : Num K) (hd : shifts F f centre meanAlt = .ok (dLon, dLat)) :
    ∃ n ≤ maxIter, solverI F f centre meanAlt thr maxIter ts =
        .ok (estimates F f dLon dLat ts (ts.map (fun _ => (add F (.zero false) centre.1, add F (.zero false) centre.2))) n) ∧
      (n < maxIter → 0 < n ∧ AllNear F f thr ts (estimates F f dLon dLat ts (ts.map (fun _ => (add F (.zero false) centre.1, add F (.zero false) centre.2))) n)) ∧
      ∀ k, 0 < k → k < n → ¬ AllNear F f thr ts (estimates F f dLon dLat ts (ts.map (fun _ => (add F (.zero false) centre.1, add F (.zero false) centre.2))) k) := by
  obtain ⟨n, hn, e, h1, h2⟩ := C204_stops F f dLon dLat thr maxIter ts (ts.map (fun _ => (add F (.zero false) centre.1, add F (.zero false) centre.2)))
  refine ⟨n, hn, ?_, h1, h2⟩
  unfold solverI
  rw [hd, ok_bind, if_neg (by simp [hts]), e]

/-- C204 for no pixels: once the shifts are found, the first update raises ValueError (the largest error of no pixels); with no update allowed the answer is empty. -/
theorem C204_empty (F : Format) (f : Num K → Num K → Num K → Num K × Num K) (centre : Num K × Num K) (meanAlt thr : Num K) (dLon dLat : Num K)
    (hd : shifts F f centre meanAlt = .ok (dLon, dLat)) : (∀ maxIter, solverI F f centre meanAlt thr (maxIter + 1) [] = .error .valueError) ∧
      solverI F f centre meanAlt thr 0 [] = .ok [] := by
  constructor
  · intro n
    unfold solverI
    rw [hd, ok_bind, if_pos ⟨rfl, Nat.succ_pos n⟩]
  · unfold solverI
    rw [hd, ok_bind, if_neg (fun h => absurd h.2 (lt_irrefl 0))]
    rfl

/-- C204: a position of an early answer is not NaN in either coordinate, for calculators that give a NaN pixel to a NaN position. -/
theorem C204_numbers (F : Format) (f : Num K → Num K → Num K → Num K × Num K) (thr : Num K) (ts : List (Target (Num K))) (es : List (Num K × Num K))
    (hf : ∀ lon lat alt, lon = .nan ∨ lat = .nan → (f lon lat alt).1 = .nan) (h : AllNear F f thr ts es) (i : Nat) (t : Target (Num K)) (e : Num K × Num K)
    (ht : ts[i]? = some t) (he : es[i]? = some e) : e.1 ≠ .nan ∧ e.2 ≠ .nan := by
  have hn := (h i t e ht he).1.1
  have : ¬ (e.1 = .nan ∨ e.2 = .nan) := by
    intro hh
    rw [hf _ _ _ hh] at hn
    have e0 : sub F t.x .nan = .nan := by cases t.x <;> rfl
    rw [e0] at hn
    obtain ⟨x, y, h1, -⟩ := hn
    cases h1
  exact not_or.mp this

/-! ### One update -/

theorem top (F : Format) (hp : 1 ≤ F.p) {e e' : ℤ} {x : K} (he : F.emin ≤ e) (h : |x| ≤ 2 ^ e) (hee : e ≤ e') : |roundNum F x| ≤ 2 ^ e' :=
  (round_top F hp he h).trans (zpow_le_zpow_right₀ (by norm_num) hee)

theorem add_two {x y : K} {e : ℤ} (hx : |x| ≤ 2 ^ e) (hy : |y| ≤ 2 ^ e) : |x + y| ≤ 2 ^ (e + 1) := by
  rw [zpow_add_one₀ (by norm_num)]
  have := abs_add_le x y
  linarith

theorem sub_two {x y : K} {e : ℤ} (hx : |x| ≤ 2 ^ e) (hy : |y| ≤ 2 ^ e) : |x - y| ≤ 2 ^ (e + 1) := by
  rw [sub_eq_add_neg]
  exact add_two hx (by rwa [abs_neg])

theorem mul_two {x y : K} {e e' : ℤ} (hx : |x| ≤ 2 ^ e) (hy : |y| ≤ 2 ^ e') : |x * y| ≤ 2 ^ (e + e') := by
  rw [abs_mul, zpow_add₀ (by norm_num)]
  exact mul_le_mul hx hy (abs_nonneg _) (by positivity)

theorem div_two {x y : K} {e e' : ℤ} (hx : |x| ≤ 2 ^ e) (hy : 2 ^ e' ≤ |y|) : |x / y| ≤ 2 ^ (e - e') := by
  rw [abs_div, zpow_sub₀ (by norm_num)]
  exact div_le_div₀ (by positivity) hx (by positivity) hy

theorem sub_value {a b : Num K} {x y : K} {e : ℤ} (ha : a.val = some x) (hb : b.val = some y) (hx : |x| ≤ 2 ^ e) (hy : |y| ≤ 2 ^ e) (h1 : -1022 ≤ e) (h2 : e ≤ 1000) :
    (sub binary64 a b).val = some (roundNum binary64 (x - y)) ∧ |roundNum binary64 (x - y)| ≤ 2 ^ (e + 1) := by
  have hs := sub_two hx hy
  refine ⟨?_, top binary64 (by decide) (show (-1022 : ℤ) ≤ e + 1 by omega) hs le_rfl⟩
  have := exactAdd_val ha (neg_val hb)
  rw [← sub_eq_add_neg] at this
  exact round_roundNum binary64 ⟨by decide, by decide⟩ this (hs.trans (zpow_le_zpow_right₀ (by norm_num) (show e + 1 ≤ 1023 by omega)))

theorem add_value {a b : Num K} {x y : K} {e : ℤ} (ha : a.val = some x) (hb : b.val = some y) (hx : |x| ≤ 2 ^ e) (hy : |y| ≤ 2 ^ e) (h1 : -1022 ≤ e) (h2 : e ≤ 1000) :
    (add binary64 a b).val = some (roundNum binary64 (x + y)) ∧ |roundNum binary64 (x + y)| ≤ 2 ^ (e + 1) := by
  have hs := add_two hx hy
  refine ⟨?_, top binary64 (by decide) (show (-1022 : ℤ) ≤ e + 1 by omega) hs le_rfl⟩
  exact round_roundNum binary64 ⟨by decide, by decide⟩ (exactAdd_val ha hb) (hs.trans (zpow_le_zpow_right₀ (by norm_num) (show e + 1 ≤ 1023 by omega)))

theorem mul_value {a b : Num K} {x y : K} {e e' : ℤ} (ha : a.val = some x) (hb : b.val = some y) (hx : |x| ≤ 2 ^ e) (hy : |y| ≤ 2 ^ e') (h1 : -1022 ≤ e + e') (h2 : e + e' ≤ 1000) :
    (mul binary64 a b).val = some (roundNum binary64 (x * y)) ∧ |roundNum binary64 (x * y)| ≤ 2 ^ (e + e') := by
  have hs := mul_two hx hy
  refine ⟨?_, top binary64 (by decide) h1 hs le_rfl⟩
  exact round_roundNum binary64 ⟨by decide, by decide⟩ (exactMul_val ha hb) (hs.trans (zpow_le_zpow_right₀ (by norm_num) (show e + e' ≤ 1023 by omega)))

theorem div_value {a b : Num K} {x y : K} {e e' : ℤ} (ha : a.val = some x) (hb : b.val = some y) (hx : |x| ≤ 2 ^ e) (hy : 2 ^ e' ≤ |y|) (h1 : -1022 ≤ e - e') (h2 : e - e' ≤ 1000) :
    (div binary64 a b).val = some (roundNum binary64 (x / y)) ∧ |roundNum binary64 (x / y)| ≤ 2 ^ (e - e') := by
  have hs := div_two hx hy
  have hy0 : y ≠ 0 := by
    rintro rfl
    rw [abs_zero] at hy
    exact absurd hy (not_le.mpr (by positivity))
  refine ⟨?_, top binary64 (by decide) h1 hs le_rfl⟩
  exact round_roundNum binary64 ⟨by decide, by decide⟩ (exactDiv_val ha hb hy0) (hs.trans (zpow_le_zpow_right₀ (by norm_num) (show e - e' ≤ 1023 by omega)))

/-- C204: an update of doubles is the rounded Newton update (`newtonStepR`, on the values of the doubles, subnormal numbers included) as long as positions and pixels are at most
2^100, shifts at least 2^-60, and the computed slope and determinant at least 2^-110: none of its operations overflows or divides by zero. -/
theorem C204_update (f : Num K → Num K → Num K → Num K × Num K) (g : K → K → K → Option (K × K)) (dLon dLat lon lat : Num K) (t : Target (Num K))
    (dlo dla lo la al tx ty x0 y0 xa ya xb yb : K) (h1 : dLon.val = some dlo) (h2 : dLat.val = some dla) (h3 : lon.val = some lo) (h4 : lat.val = some la)
    (h6 : t.x.val = some tx) (h7 : t.y.val = some ty)
    (f0 : (f lon lat t.alt).1.val = some x0 ∧ (f lon lat t.alt).2.val = some y0) (g0 : g lo la al = some (x0, y0))
    (fa : (f (add binary64 lon dLon) lat t.alt).1.val = some xa ∧ (f (add binary64 lon dLon) lat t.alt).2.val = some ya)
    (ga : g (roundNum binary64 (lo + dlo)) la al = some (xa, ya))
    (fb : (f lon (add binary64 lat dLat) t.alt).1.val = some xb ∧ (f lon (add binary64 lat dLat) t.alt).2.val = some yb)
    (gb : g lo (roundNum binary64 (la + dla)) al = some (xb, yb))
    (blo : |lo| ≤ 2 ^ (100 : ℤ)) (bla : |la| ≤ 2 ^ (100 : ℤ)) (bd1 : 2 ^ (-60 : ℤ) ≤ |dlo|) (bd2 : 2 ^ (-60 : ℤ) ≤ |dla|)
    (b0 : |x0| ≤ 2 ^ (100 : ℤ) ∧ |y0| ≤ 2 ^ (100 : ℤ)) (ba : |xa| ≤ 2 ^ (100 : ℤ) ∧ |ya| ≤ 2 ^ (100 : ℤ)) (bb : |xb| ≤ 2 ^ (100 : ℤ) ∧ |yb| ≤ 2 ^ (100 : ℤ))
    (bt : |tx| ≤ 2 ^ (100 : ℤ) ∧ |ty| ≤ 2 ^ (100 : ℤ)) (pxx pxy pyx pyy : K) (e1 : pxx = roundNum binary64 (roundNum binary64 (xa - x0) / dlo))
    (e2 : pxy = roundNum binary64 (roundNum binary64 (xb - x0) / dla)) (e3 : pyx = roundNum binary64 (roundNum binary64 (ya - y0) / dlo))
    (e4 : pyy = roundNum binary64 (roundNum binary64 (yb - y0) / dla)) (bs : 2 ^ (-110 : ℤ) ≤ |pxx|)
    (bdet : 2 ^ (-110 : ℤ) ≤ |roundNum binary64 (roundNum binary64 (pyy * pxx) - roundNum binary64 (pxy * pyx))|) :
    ∃ p q : K, newtonStepR (roundNum binary64) g dlo dla al tx ty (some (lo, la)) = some (p, q) ∧
      (newtonStepI binary64 f dLon dLat t (lon, lat)).1.val = some p ∧ (newtonStepI binary64 f dLon dLat t (lon, lat)).2.val = some q := by
  have nz : ∀ {y : K} {e : ℤ}, (2 : K) ^ e ≤ |y| → y ≠ 0 := by
    rintro y e hy rfl
    rw [abs_zero] at hy
    exact absurd hy (not_le.mpr (by positivity))
  obtain ⟨v1, c1⟩ := sub_value fa.1 f0.1 ba.1 b0.1 (by norm_num) (by norm_num)
  obtain ⟨v2, c2⟩ := sub_value fb.1 f0.1 bb.1 b0.1 (by norm_num) (by norm_num)
  obtain ⟨v3, c3⟩ := sub_value fa.2 f0.2 ba.2 b0.2 (by norm_num) (by norm_num)
  obtain ⟨v4, c4⟩ := sub_value fb.2 f0.2 bb.2 b0.2 (by norm_num) (by norm_num)
  obtain ⟨w1, d1⟩ := div_value v1 h1 c1 bd1 (by norm_num) (by norm_num)
  obtain ⟨w2, d2⟩ := div_value v2 h2 c2 bd2 (by norm_num) (by norm_num)
  obtain ⟨w3, d3⟩ := div_value v3 h1 c3 bd1 (by norm_num) (by norm_num)
  obtain ⟨w4, d4⟩ := div_value v4 h2 c4 bd2 (by norm_num) (by norm_num)
  rw [← e1] at w1 d1
  rw [← e2] at w2 d2
  rw [← e3] at w3 d3
  rw [← e4] at w4 d4
  obtain ⟨v5, c5⟩ := sub_value h6 f0.1 bt.1 b0.1 (by norm_num) (by norm_num)
  obtain ⟨v6, c6⟩ := sub_value h7 f0.2 bt.2 b0.2 (by norm_num) (by norm_num)
  obtain ⟨m1, k1⟩ := mul_value v6 w1 c6 d1 (by norm_num) (by norm_num)
  obtain ⟨m2, k2⟩ := mul_value w3 v5 d3 c5 (by norm_num) (by norm_num)
  obtain ⟨m3, k3⟩ := mul_value w4 w1 d4 d1 (by norm_num) (by norm_num)
  obtain ⟨m4, k4⟩ := mul_value w2 w3 d2 d3 (by norm_num) (by norm_num)
  obtain ⟨n1, l1⟩ := sub_value (e := 262) m1 m2 (k1.trans (zpow_le_zpow_right₀ (by norm_num) (by norm_num))) (k2.trans (zpow_le_zpow_right₀ (by norm_num) (by norm_num)))
    (by norm_num) (by norm_num)
  obtain ⟨n2, l2⟩ := sub_value (e := 322) m3 m4 (k3.trans (zpow_le_zpow_right₀ (by norm_num) (by norm_num))) (k4.trans (zpow_le_zpow_right₀ (by norm_num) (by norm_num)))
    (by norm_num) (by norm_num)
  obtain ⟨o1, q1⟩ := div_value n1 n2 l1 bdet (by norm_num) (by norm_num)
  obtain ⟨o2, q2⟩ := mul_value o1 w2 q1 d2 (by norm_num) (by norm_num)
  obtain ⟨o3, q3⟩ := sub_value (e := 534) v5 o2 (c5.trans (zpow_le_zpow_right₀ (by norm_num) (by norm_num))) (q2.trans (zpow_le_zpow_right₀ (by norm_num) (by norm_num)))
    (by norm_num) (by norm_num)
  obtain ⟨o4, q4⟩ := div_value o3 w1 q3 bs (by norm_num) (by norm_num)
  obtain ⟨r1, -⟩ := add_value (e := 645) h3 o4 (blo.trans (zpow_le_zpow_right₀ (by norm_num) (by norm_num))) (q4.trans (zpow_le_zpow_right₀ (by norm_num) (by norm_num)))
    (by norm_num) (by norm_num)
  obtain ⟨r2, -⟩ := add_value (e := 645) h4 o1 (bla.trans (zpow_le_zpow_right₀ (by norm_num) (by norm_num))) (q1.trans (zpow_le_zpow_right₀ (by norm_num) (by norm_num)))
    (by norm_num) (by norm_num)
  refine ⟨_, _, ?_, r1, r2⟩
  simp only [newtonStepR, Option.bind_eq_bind, Option.bind_some, g0, ga, gb, FloatGeom.divR, ImageUtils.fdiv, nz bd1, nz bd2, if_false, Option.map_some, ← e1, ← e2, ← e3, ← e4,
    nz bdet, nz bs]

end

/-! ### Non-vacuity -/

/-- Half precision: few trial shifts, so that the kernel evaluates them quickly. -/
def half : Format := ⟨11, -14, 15⟩

/-- A calculator with four pixels per unit to the east and two to the north. -/
def scaledD (lon lat _alt : Num ℚ) : Num ℚ × Num ℚ := (mul half (.fin 4) lon, mul half (.fin 2) lat)

theorem scaled_shifts : shifts half scaledD (.fin 3, .fin 5) (.fin 100) = .ok (.fin (1 / 2), .fin 1) := by decide +kernel

example : solverI half scaledD (.fin 3, .fin 5) (.fin 100) (.fin 1) 1000 [] = .error .valueError := (C204_empty half scaledD _ _ _ _ _ scaled_shifts).1 999

/-- C203 is not vacuous: this calculator's trials are all numbers, so `C203_first` applies: the shift to the east is half a unit, two pixels (a quarter is exactly one pixel). -/
example : ∀ k < trialCount half, sub half (eastOf half scaledD (.fin 3, .fin 5) (.fin 100) k).1 (scaledD (.fin 3) (.fin 5) (.fin 100)).1 ≠ .nan := by decide +kernel

/-- A calculator that does not depend on the latitude has no shift to the north. -/
example : shifts half (fun lon _ _ => (mul half (.fin 4) lon, .fin 7)) (.fin 3, .fin 5) (.fin 100) = (.error .indexError : Py (Num ℚ × Num ℚ)) := by decide +kernel

/-- C204 is not vacuous: two pixels of this calculator are converted in one update. -/
example : solverI half scaledD (.fin 3, .fin 5) (.fin 100) (.fin (1 / 128)) 1000 [⟨.fin 100, .fin 14, .fin 9⟩, ⟨.fin 100, .zero false, .fin 1⟩] =
    .ok [(.fin (7 / 2), .fin (9 / 2)), (.zero false, .fin (1 / 2))] := by decide +kernel

/-- `C204_update` is not vacuous: the first update of a pixel of a calculator with four pixels per unit. -/
example : ∃ p q : ℚ, newtonStepR (roundNum binary64) (fun lon lat _ => some (roundNum binary64 (4 * lon), lat)) (1 / 2) 1 100 14 9 (some (3, 5)) = some (p, q) ∧
    (newtonStepI binary64 (fun lon lat _ => (mul binary64 (.fin 4) lon, lat)) (.fin (1 / 2)) (.fin 1) ⟨.fin 100, .fin 14, .fin 9⟩ (.fin 3, .fin 5)).1.val = some p ∧
    (newtonStepI binary64 (fun lon lat _ => (mul binary64 (.fin 4) lon, lat)) (.fin (1 / 2)) (.fin 1) ⟨.fin 100, .fin 14, .fin 9⟩ (.fin 3, .fin 5)).2.val = some q :=
  C204_update _ _ _ _ _ _ _ _ _ _ _ 100 _ _ 12 5 14 5 12 6 rfl rfl rfl rfl rfl rfl (by decide +kernel) (by decide +kernel) (by decide +kernel) (by decide +kernel)
    (by decide +kernel) (by decide +kernel) (by decide +kernel) (by decide +kernel) (by decide +kernel) (by decide +kernel) (by decide +kernel) (by decide +kernel)
    (by decide +kernel) (by decide +kernel) 4 0 0 1 (by decide +kernel) (by decide +kernel) (by decide +kernel) (by decide +kernel) (by decide +kernel) (by decide +kernel)

end Verif.SolverIeee
