import Verif.Props.RpcWide
import Verif.Props.SolverSpec

/-! C206: the conversion of pixels to ground positions of an RPC image, in IEEE doubles. -/

set_option linter.unusedSectionVars false

namespace Verif.SolverIeee
open Verif Ieee FloatGeom Rounding PointCalc FloatSpectral

section
variable {K : Type} [Field K] [LinearOrder K] [IsStrictOrderedRing K] [FloorRing K]

theorem mult_mulK {q r : ℤ} {x y : K} (hx : Mult q x) (hy : Mult r y) : Mult (q + r) (x * y) := by
  obtain ⟨j, rfl⟩ := hx
  obtain ⟨k, rfl⟩ := hy
  refine ⟨j * k, ?_⟩
  rw [zpow_add₀ (by norm_num)]
  push_cast
  ring

theorem mult_half {q : ℤ} {x : K} (hx : Mult q x) : Mult (q - 1) (x / 2) := by
  obtain ⟨j, rfl⟩ := hx
  refine ⟨j, ?_⟩
  rw [zpow_sub_one₀ (by norm_num)]
  ring

theorem plain_of_mult {q : ℤ} {x : K} (hq : -1074 ≤ q) (h : Mult q x) : roundNum binary64 x = Rounding.fl 53 x :=
  roundNum_plain binary64 (by decide) (.inr (mult_weaken (show binary64.quantum ≤ q from hq) h))

theorem round_mult {q : ℤ} {x : K} (hq : -1074 ≤ q) (h : Mult q x) : Mult q (roundNum binary64 x) := by
  rw [plain_of_mult hq h]
  exact Mult.fl (by norm_num) h

theorem round0 : roundNum binary64 (0 : K) = 0 := by
  rw [plain_of_mult (q := 0) (by norm_num) ⟨0, by simp⟩, Rounding.fl_zero]

/-- A quotient of a multiple of `2^q` by a number of at most `2^e` is not subnormal. -/
theorem quot_plain {q e : ℤ} {n d : K} (hn : Mult q n) (hd : |d| ≤ 2 ^ e) (h0 : d ≠ 0) (hqe : -1022 ≤ q - e) :
    roundNum binary64 (n / d) = Rounding.fl 53 (n / d) ∧ Mult (q - e - 52) (roundNum binary64 (n / d)) := by
  by_cases hz : n = 0
  · subst hz
    rw [zero_div, round0, Rounding.fl_zero]
    exact ⟨rfl, 0, by simp⟩
  · have h1 : (2 : K) ^ (q - e) ≤ |n / d| := by
      rw [abs_div, le_div_iff₀ (abs_pos.mpr h0), zpow_sub₀ (by norm_num), div_mul_eq_mul_div, div_le_iff₀ (by positivity)]
      exact mul_le_mul (mult_ge hn hz) hd (abs_nonneg _) (abs_nonneg _)
    refine ⟨roundNum_plain binary64 (by decide) (.inl (le_trans (zpow_le_zpow_right₀ (by norm_num) hqe) h1)), ?_⟩
    have h2 := roundNum_ge binary64 (by decide) (show binary64.emin ≤ q - e from hqe) h1
    have h3 := fl_spacing (p := 53) (by norm_num) (roundNum_isFloat binary64 ⟨by decide, by decide⟩ _) h2
    exact mult_weaken (by push_cast; omega) h3

/-- The slopes measured with shifts of two degrees. -/
theorem slope_plain {a b : K} (ha : Mult (-54) a) (hb : Mult (-54) b) (ba : |a| ≤ 2 ^ (26 : ℤ)) (bb : |b| ≤ 2 ^ (26 : ℤ)) :
    roundNum binary64 (roundNum binary64 (a - b) / 2) = Rounding.fl 53 (Rounding.fl 53 (a - b) / 2) ∧ Mult (-55) (roundNum binary64 (roundNum binary64 (a - b) / 2)) ∧
      |roundNum binary64 (roundNum binary64 (a - b) / 2)| ≤ 2 ^ (26 : ℤ) := by
  have m1 := Mult.sub ha hb
  have m2 := mult_half (round_mult (by norm_num) m1)
  refine ⟨?_, round_mult (by norm_num) m2, ?_⟩
  · rw [plain_of_mult (by norm_num) m2, plain_of_mult (by norm_num) m1]
  · have h1 : |roundNum binary64 (a - b)| ≤ 2 ^ (27 : ℤ) := top binary64 (by decide) (show (-1022 : ℤ) ≤ 27 by norm_num) (sub_two ba bb) le_rfl
    refine top binary64 (by decide) (show (-1022 : ℤ) ≤ 26 by norm_num) ?_ le_rfl
    rw [abs_div, abs_of_pos (by norm_num : (0 : K) < 2), div_le_iff₀ (by norm_num)]
    refine h1.trans (le_of_eq ?_)
    norm_num

/-- Specification: a pixel coordinate: a multiple of 2^-54 of at most 2^26. -/
def Pix (x : K) : Prop := Mult (-54) x ∧ |x| ≤ 2 ^ (26 : ℤ)

/-- An update with shifts of two degrees meets no subnormal number that is not exact. -/
theorem step_plain (g : K → K → K → Option (K × K)) {al tx ty lo la x0 y0 xa ya xb yb : K} (hlo : Mult (-1074) lo) (hla : Mult (-1074) la) (htx : Mult (-100) tx) (hty : Mult (-100) ty)
    (g0 : g lo la al = some (x0, y0)) (ga : g (roundNum binary64 (lo + 2)) la al = some (xa, ya)) (gb : g lo (roundNum binary64 (la + 2)) al = some (xb, yb))
    (p0 : Pix x0 ∧ Pix y0) (pa : Pix xa ∧ Pix ya) (pb : Pix xb ∧ Pix yb) :
    newtonStepR (roundNum binary64) g 2 2 al tx ty (some (lo, la)) = newtonStepR (Rounding.fl 53) g 2 2 al tx ty (some (lo, la)) := by
  have m2 : Mult (-1074) (2 : K) := mult_weaken (show (-1074 : ℤ) ≤ 1 by norm_num) ⟨1, by norm_num⟩
  have ga' := ga
  have gb' := gb
  rw [plain_of_mult (by norm_num) (Mult.add hlo m2)] at ga'
  rw [plain_of_mult (by norm_num) (Mult.add hla m2)] at gb'
  obtain ⟨s1, w1, b1⟩ := slope_plain pa.1.1 p0.1.1 pa.1.2 p0.1.2
  obtain ⟨s2, w2, b2⟩ := slope_plain pb.1.1 p0.1.1 pb.1.2 p0.1.2
  obtain ⟨s3, w3, b3⟩ := slope_plain pa.2.1 p0.2.1 pa.2.2 p0.2.2
  obtain ⟨s4, w4, b4⟩ := slope_plain pb.2.1 p0.2.1 pb.2.2 p0.2.2
  have d1 := Mult.sub htx (mult_weaken (show (-100 : ℤ) ≤ -54 by norm_num) p0.1.1)
  have d2 := Mult.sub hty (mult_weaken (show (-100 : ℤ) ≤ -54 by norm_num) p0.2.1)
  have c1 := plain_of_mult (by norm_num) d1
  have c2 := plain_of_mult (by norm_num) d2
  have r1 := round_mult (by norm_num) d1
  have r2 := round_mult (by norm_num) d2
  simp only [newtonStepR, Option.bind_eq_bind, Option.bind_some, g0, ga, gb, ga', gb', divR, ImageUtils.fdiv, if_neg (two_ne_zero : (2 : K) ≠ 0), Option.map_some]
  rw [← s1, ← s2, ← s3, ← s4, ← c1, ← c2]
  generalize roundNum binary64 (roundNum binary64 (xa - x0) / 2) = pxx at *
  generalize roundNum binary64 (roundNum binary64 (xb - x0) / 2) = pxy at *
  generalize roundNum binary64 (roundNum binary64 (ya - y0) / 2) = pyx at *
  generalize roundNum binary64 (roundNum binary64 (yb - y0) / 2) = pyy at *
  generalize roundNum binary64 (tx - x0) = dpx at *
  generalize roundNum binary64 (ty - y0) = dpy at *
  have e1 := mult_mulK r2 w1
  have e2 := mult_mulK w3 r1
  have e3 := mult_mulK w4 w1
  have e4 := mult_mulK w2 w3
  rw [show (-100 : ℤ) + -55 = -155 by norm_num] at e1
  rw [show (-55 : ℤ) + -100 = -155 by norm_num] at e2
  rw [show (-55 : ℤ) + -55 = -110 by norm_num] at e3 e4
  have n0 := Mult.sub (round_mult (by norm_num) e1) (round_mult (by norm_num) e2)
  have n1 := round_mult (by norm_num) n0
  have k0 := Mult.sub (round_mult (by norm_num) e3) (round_mult (by norm_num) e4)
  have k1 := round_mult (by norm_num) k0
  have kb : |roundNum binary64 (roundNum binary64 (pyy * pxx) - roundNum binary64 (pxy * pyx))| ≤ 2 ^ (53 : ℤ) := by
    have h1 : |roundNum binary64 (pyy * pxx)| ≤ 2 ^ (52 : ℤ) := top binary64 (by decide) (show (-1022 : ℤ) ≤ 26 + 26 by norm_num) (mul_two b4 b1) (by norm_num)
    have h2 : |roundNum binary64 (pxy * pyx)| ≤ 2 ^ (52 : ℤ) := top binary64 (by decide) (show (-1022 : ℤ) ≤ 26 + 26 by norm_num) (mul_two b2 b3) (by norm_num)
    exact top binary64 (by decide) (show (-1022 : ℤ) ≤ 52 + 1 by norm_num) (sub_two h1 h2) (by norm_num)
  rw [← plain_of_mult (by norm_num) e1, ← plain_of_mult (by norm_num) e2, ← plain_of_mult (by norm_num) e3, ← plain_of_mult (by norm_num) e4, ← plain_of_mult (by norm_num) n0,
    ← plain_of_mult (by norm_num) k0]
  generalize roundNum binary64 (roundNum binary64 (dpy * pxx) - roundNum binary64 (pyx * dpx)) = num at *
  generalize roundNum binary64 (roundNum binary64 (pyy * pxx) - roundNum binary64 (pxy * pyx)) = den at *
  by_cases hd : den = 0
  · simp [hd]
  · obtain ⟨q1, q2⟩ := quot_plain n1 kb hd (by norm_num)
    rw [show (-155 : ℤ) - 53 - 52 = -260 by norm_num] at q2
    have t1 := mult_mulK q2 w2
    rw [show (-260 : ℤ) + -55 = -315 by norm_num] at t1
    have t0 := Mult.sub (mult_weaken (show (-315 : ℤ) ≤ -100 by norm_num) r1) (round_mult (by norm_num) t1)
    have t2 := round_mult (by norm_num) t0
    have u1 := Mult.add hla (roundNum_mult binary64 (num / den))
    simp only [if_neg hd, Option.map_some, Option.bind_some, ← q1, ← plain_of_mult (by norm_num) t1, ← plain_of_mult (by norm_num) t0, ← plain_of_mult (show (-1074 : ℤ) ≤ -1074 from le_rfl) u1]
    by_cases hp : pxx = 0
    · simp [hp]
    · obtain ⟨v1, -⟩ := quot_plain t2 b1 hp (by norm_num)
      have u2 := Mult.add hlo (roundNum_mult binary64 (roundNum binary64 (dpx - roundNum binary64 (roundNum binary64 (num / den) * pxy)) / pxx))
      simp only [if_neg hp, Option.map_some, Option.bind_some, ← v1, ← plain_of_mult (show (-1074 : ℤ) ≤ -1074 from le_rfl) u2]

theorem pix100 {x : K} (h : Pix x) : |x| ≤ 2 ^ (100 : ℤ) := h.2.trans (zpow_le_zpow_right₀ (by norm_num) (by norm_num))

/-- An update of doubles with shifts of two degrees has the values of the rounded update. -/
theorem step_ieee (f : Num K → Num K → Num K → Num K × Num K) (g : K → K → K → Option (K × K)) {lon lat : Num K} {t : Target (Num K)} {al tx ty lo la x0 y0 xa ya xb yb p q : K}
    (vlo : lon.val = some lo) (vla : lat.val = some la) (vx : t.x.val = some tx) (vy : t.y.val = some ty) (hlo : Mult (-1074) lo) (hla : Mult (-1074) la) (htx : Mult (-100) tx)
    (hty : Mult (-100) ty) (blo : |lo| ≤ 2 ^ (100 : ℤ)) (bla : |la| ≤ 2 ^ (100 : ℤ)) (btx : |tx| ≤ 2 ^ (100 : ℤ)) (bty : |ty| ≤ 2 ^ (100 : ℤ))
    (f0 : (f lon lat t.alt).1.val = some x0 ∧ (f lon lat t.alt).2.val = some y0) (g0 : g lo la al = some (x0, y0))
    (fa : (f (add binary64 lon (.fin 2)) lat t.alt).1.val = some xa ∧ (f (add binary64 lon (.fin 2)) lat t.alt).2.val = some ya)
    (ga : g (roundNum binary64 (lo + 2)) la al = some (xa, ya))
    (fb : (f lon (add binary64 lat (.fin 2)) t.alt).1.val = some xb ∧ (f lon (add binary64 lat (.fin 2)) t.alt).2.val = some yb)
    (gb : g lo (roundNum binary64 (la + 2)) al = some (xb, yb)) (p0 : Pix x0 ∧ Pix y0) (pa : Pix xa ∧ Pix ya) (pb : Pix xb ∧ Pix yb)
    (hs : newtonStepR (Rounding.fl 53) g 2 2 al tx ty (some (lo, la)) = some (p, q)) :
    (newtonStepI binary64 f (.fin 2) (.fin 2) t (lon, lat)).1.val = some p ∧ (newtonStepI binary64 f (.fin 2) (.fin 2) t (lon, lat)).2.val = some q ∧ Mult (-1074) p ∧ Mult (-1074) q := by
  rw [← step_plain g hlo hla htx hty g0 ga gb p0 pa pb] at hs
  obtain ⟨-, w1, -⟩ := slope_plain pa.1.1 p0.1.1 pa.1.2 p0.1.2
  obtain ⟨-, w2, -⟩ := slope_plain pb.1.1 p0.1.1 pb.1.2 p0.1.2
  obtain ⟨-, w3, -⟩ := slope_plain pa.2.1 p0.2.1 pa.2.2 p0.2.2
  obtain ⟨-, w4, -⟩ := slope_plain pb.2.1 p0.2.1 pb.2.2 p0.2.2
  obtain ⟨pxx, e1⟩ : ∃ v : K, v = roundNum binary64 (roundNum binary64 (xa - x0) / 2) := ⟨_, rfl⟩
  obtain ⟨pxy, e2⟩ : ∃ v : K, v = roundNum binary64 (roundNum binary64 (xb - x0) / 2) := ⟨_, rfl⟩
  obtain ⟨pyx, e3⟩ : ∃ v : K, v = roundNum binary64 (roundNum binary64 (ya - y0) / 2) := ⟨_, rfl⟩
  obtain ⟨pyy, e4⟩ : ∃ v : K, v = roundNum binary64 (roundNum binary64 (yb - y0) / 2) := ⟨_, rfl⟩
  rw [← e1] at w1
  rw [← e2] at w2
  rw [← e3] at w3
  rw [← e4] at w4
  have k3 := mult_mulK w4 w1
  have k4 := mult_mulK w2 w3
  rw [show (-55 : ℤ) + -55 = -110 by norm_num] at k3 k4
  have k1 := round_mult (by norm_num) (Mult.sub (round_mult (by norm_num) k3) (round_mult (by norm_num) k4))
  have hne : pxx ≠ 0 ∧ roundNum binary64 (roundNum binary64 (pyy * pxx) - roundNum binary64 (pxy * pyx)) ≠ 0 := by
    have hs' := hs
    simp only [newtonStepR, Option.bind_eq_bind, Option.bind_some, g0, ga, gb, divR, ImageUtils.fdiv, if_neg (two_ne_zero : (2 : K) ≠ 0), Option.map_some, ← e1, ← e2, ← e3, ← e4] at hs'
    constructor
    · intro h
      simp only [if_pos h, Option.map_none, Option.bind_none] at hs'
      simp at hs'
    · intro h
      simp only [if_pos h, Option.map_none, Option.bind_none] at hs'
      simp at hs'
  have two : (2 : K) ^ (-60 : ℤ) ≤ |2| := by
    rw [abs_of_pos (by norm_num)]
    exact (zpow_le_one_of_nonpos₀ (by norm_num) (by norm_num)).trans (by norm_num)
  obtain ⟨p', q', h1, h2, h3⟩ := C204_update f g (.fin 2) (.fin 2) lon lat t 2 2 lo la al tx ty x0 y0 xa ya xb yb rfl rfl vlo vla vx vy f0 g0 fa ga fb gb blo bla two two
    ⟨pix100 p0.1, pix100 p0.2⟩ ⟨pix100 pa.1, pix100 pa.2⟩ ⟨pix100 pb.1, pix100 pb.2⟩ ⟨btx, bty⟩ pxx pxy pyx pyy e1 e2 e3 e4
    ((zpow_le_zpow_right₀ (by norm_num) (by norm_num)).trans (mult_ge w1 hne.1)) (mult_ge k1 hne.2)
  rw [h1] at hs
  cases hs
  refine ⟨h2, h3, ?_⟩
  simp only [newtonStepR, Option.bind_eq_bind, Option.bind_some, g0, ga, gb, divR, ImageUtils.fdiv, if_neg (two_ne_zero : (2 : K) ≠ 0), Option.map_some, ← e1, ← e2, ← e3, ← e4,
    if_neg hne.1, if_neg hne.2, Option.some.injEq, Prod.mk.injEq] at h1
  obtain ⟨rfl, rfl⟩ := h1
  exact ⟨roundNum_mult binary64 _, roundNum_mult binary64 _⟩

/-! ### The iteration -/

/-- Specification: the doubles `e` have the values `o`. -/
def Holds (e : Num K × Num K) (o : Option (K × K)) : Prop := ∃ lo la, e.1.val = some lo ∧ e.2.val = some la ∧ o = some (lo, la) ∧ Mult (-1074) lo ∧ Mult (-1074) la

/-- Specification: the target `tI` in doubles has the values of `t`: pixel coordinates that are multiples of 2^-100, of size at most 2^100. -/
structure Request64 (tI : Target (Num K)) (t : Target K) : Prop where
  alt : tI.alt.val = some t.alt
  x : tI.x.val = some t.x
  y : tI.y.val = some t.y
  multX : Mult (-100) t.x
  multY : Mult (-100) t.y
  sizeX : |t.x| ≤ 2 ^ (100 : ℤ)
  sizeY : |t.y| ≤ 2 ^ (100 : ℤ)
  sizeAlt : |t.alt| ≤ 2 ^ (100 : ℤ)

/-- Three lists, element by element. -/
inductive All3 {α β γ : Type} (Q : α → β → γ → Prop) : List α → List β → List γ → Prop
  | nil : All3 Q [] [] []
  | cons {a b c as bs cs} : Q a b c → All3 Q as bs cs → All3 Q (a :: as) (b :: bs) (c :: cs)

theorem All3.right {α β γ : Type} {Q : α → β → γ → Prop} {R : β → γ → Prop} (h : ∀ a b c, Q a b c → R b c) {as bs cs} (hq : All3 Q as bs cs) : List.Forall₂ R bs cs := by
  induction hq with
  | nil => exact .nil
  | cons h1 _ ih => exact .cons (h _ _ _ h1) ih

theorem le_val {a b : Num K} {x y : K} (ha : a.val = some x) (hb : b.val = some y) : leN (absN a) b = decide (|x| ≤ y) := by
  cases a <;> cases b <;> simp [Num.val] at ha hb <;> subst ha <;> subst hb <;> simp [leN, absN, isNan, ltN] <;> simp only [← not_le, decide_not]

theorem within_same (f : Num K → Num K → Num K → Num K × Num K) (g : K → K → K → Option (K × K)) {thr : Num K} {θ : K} (hθ : thr.val = some θ) {tI : Target (Num K)} {t : Target K}
    (ht : Request64 tI t) {lon lat : Num K} {lo la x0 y0 : K}
    (f0 : (f lon lat tI.alt).1.val = some x0 ∧ (f lon lat tI.alt).2.val = some y0) (g0 : g lo la t.alt = some (x0, y0)) (p0 : Pix x0 ∧ Pix y0) :
    withinI binary64 f thr tI (lon, lat) = withinR (Rounding.fl 53) g θ t.alt t.x t.y (some (lo, la)) := by
  obtain ⟨v1, -⟩ := sub_value ht.x f0.1 ht.sizeX (pix100 p0.1) (by norm_num) (by norm_num)
  obtain ⟨v2, -⟩ := sub_value ht.y f0.2 ht.sizeY (pix100 p0.2) (by norm_num) (by norm_num)
  have d1 := Mult.sub ht.multX (mult_weaken (show (-100 : ℤ) ≤ -54 by norm_num) p0.1.1)
  have d2 := Mult.sub ht.multY (mult_weaken (show (-100 : ℤ) ≤ -54 by norm_num) p0.2.1)
  unfold withinI withinR
  simp only [g0]
  rw [le_val v1 hθ, le_val v2 hθ, plain_of_mult (by norm_num) d1, plain_of_mult (by norm_num) d2, Bool.decide_and]

/-- The iteration on doubles has the values of the rounded iteration, when every update and test does. -/
theorem loop_ieee (f : Num K → Num K → Num K → Num K × Num K) (g : K → K → K → Option (K × K)) {thr : Num K} {θ ρ : K} (Q : Target (Num K) → Target K → K × K → Prop)
    (hstep : ∀ tI t p e o o', Q tI t p → Holds e o → Found ρ p o → newtonStepR (Rounding.fl 53) g 2 2 t.alt t.x t.y o = some o' →
      Holds (newtonStepI binary64 f (.fin 2) (.fin 2) tI e) (some o'))
    (htest : ∀ tI t p e o, Q tI t p → Holds e o → Found ρ p o → withinI binary64 f thr tI e = withinR (Rounding.fl 53) g θ t.alt t.x t.y o)
    (tsI : List (Target (Num K))) (ts : List (Target K)) (gs : List (K × K)) (hQ : All3 Q tsI ts gs) (err : Nat → K) (herr : ∀ j, err j ≤ ρ)
    (hgo : ∀ j es, List.Forall₂ (Found (err j)) gs es →
      List.Forall₂ (Found (err (j + 1))) gs (List.zipWith (fun t e => newtonStepR (Rounding.fl 53) g 2 2 t.alt t.x t.y e) ts es)) :
    ∀ (n j : Nat) (esI : List (Num K × Num K)) (es : List (Option (K × K))), List.Forall₂ Holds esI es → List.Forall₂ (Found (err j)) gs es →
      List.Forall₂ Holds (newtonLoopI binary64 f (.fin 2) (.fin 2) thr n tsI esI) (newtonLoopR (Rounding.fl 53) g 2 2 θ n ts es) := by
  have steps : ∀ (d : K) (esI : List (Num K × Num K)) (es : List (Option (K × K))), List.Forall₂ Holds esI es → List.Forall₂ (Found ρ) gs es →
      List.Forall₂ (Found d) gs (List.zipWith (fun t e => newtonStepR (Rounding.fl 53) g 2 2 t.alt t.x t.y e) ts es) →
      List.Forall₂ Holds (List.zipWith (newtonStepI binary64 f (.fin 2) (.fin 2)) tsI esI) (List.zipWith (fun t e => newtonStepR (Rounding.fl 53) g 2 2 t.alt t.x t.y e) ts es) := by
    intro d
    clear hgo
    induction hQ with
    | nil => intro esI es _ _ _; simp
    | @cons a b c as bs cs h1 _ ih =>
      intro esI es hH hF hF'
      cases hH with
      | nil => simp
      | cons k1 k2 =>
        cases hF with
        | cons l1 l2 =>
          simp only [List.zipWith_cons_cons] at hF' ⊢
          cases hF' with
          | cons m1 m2 =>
            refine .cons ?_ (ih _ _ k2 l2 m2)
            obtain ⟨o', ho, -⟩ := m1
            have := hstep _ _ _ _ _ o' h1 k1 l1 ho
            rwa [← ho] at this
  have tests : ∀ (esI : List (Num K × Num K)) (es : List (Option (K × K))), List.Forall₂ Holds esI es → List.Forall₂ (Found ρ) gs es →
      List.zipWith (withinI binary64 f thr) tsI esI = List.zipWith (fun t e => withinR (Rounding.fl 53) g θ t.alt t.x t.y e) ts es := by
    clear hgo steps
    induction hQ with
    | nil => intro esI es _ _; simp
    | @cons a b c as bs cs h1 _ ih =>
      intro esI es hH hF
      cases hH with
      | nil => simp
      | cons k1 k2 =>
        cases hF with
        | cons l1 l2 => simp only [List.zipWith_cons_cons, htest _ _ _ _ _ h1 k1 l1, ih _ _ k2 l2]
  intro n
  induction n with
  | zero => intro j esI es hH _; exact hH
  | succ n ih =>
    intro j esI es hH hF
    have hF' := hgo j es hF
    have hH' := steps _ esI es hH (hF.imp (fun _ _ h => h.mono (herr j))) hF'
    unfold newtonLoopI newtonLoopR
    simp only []
    rw [tests _ _ hH' (hF'.imp (fun _ _ h => h.mono (herr (j + 1))))]
    split_ifs with ht
    · exact hH'
    · exact ih (j + 1) _ _ hH' hF'

/-! ### RPC images -/

/-- Specification: the position `e` (doubles) is a pair of finite numbers whose exact pixel is within 0.0102 pixel of the target. -/
def Lands (v : Geotiff.Rpc K) (tI : Target (Num K)) (e : Num K × Num K) : Prop := ∃ al x y lo la X Y, tI.alt.val = some al ∧ tI.x.val = some x ∧ tI.y.val = some y ∧
  e.1.val = some lo ∧ e.2.val = some la ∧ v.project lo la al = some (X, Y) ∧ |X - x| ≤ 102 / 10 ^ 4 ∧ |Y - y| ≤ 102 / 10 ^ 4

/-- Specification: the position `e` (doubles) is a pair of finite numbers within `r` of `g`. -/
def FoundI (r : K) (g : K × K) (e : Num K × Num K) : Prop := ∃ lo la, e.1.val = some lo ∧ e.2.val = some la ∧ apart (lo, la) g ≤ r

/-- The IEEE projection and the rounded one at a regular position. -/
theorem point_ieee {c : Geotiff.Rpc (Num K)} {v : Geotiff.Rpc K} (hc : Stores c v) {N : K} (hv : OrdinaryUpTo v N) {lon lat alt : Num K} {lo la al : K} (hlo : lon.val = some lo)
    (hla : lat.val = some la) (hal : alt.val = some al) (b1 : |lo| ≤ 2 ^ (100 : ℤ)) (b2 : |la| ≤ 2 ^ (100 : ℤ)) (b3 : |al| ≤ 2 ^ (100 : ℤ)) (h : Regular v N lo la al) :
    ∃ X Y : K, rpcR (roundNum binary64) v lo la al = some (X, Y) ∧ ((rpcI binary64 c lon lat alt).1.val = some X ∧ (rpcI binary64 c lon lat alt).2.val = some Y) ∧ Pix X ∧ Pix Y := by
  obtain ⟨X, Y, X', Y', -, e2, -, -, s1, s2, m1, m2⟩ := rpcN v hv lo la al h
  exact ⟨X', Y', e2, rpcN_value c v hc hv lon lat alt lo la al hlo hla hal b1 b2 b3 h X' Y' e2, ⟨m1, s1.trans (le_of_eq (by norm_num))⟩, ⟨m2, s2.trans (le_of_eq (by norm_num))⟩⟩

theorem number_round {x : K} (h : binary64.Number x) : roundNum binary64 x = x ∧ Mult (-1074) x := by
  obtain ⟨k, e, hk, he, hx, -⟩ := h
  have hm : Mult (-1074) x := mult_weaken (q := e) he ⟨k, hx⟩
  refine ⟨?_, hm⟩
  rw [plain_of_mult le_rfl hm]
  exact fl_of_isFloat (by norm_num) ⟨k, e, hk, hx⟩

/-- C206: pixels of an RPC image to ground positions, the whole conversion in IEEE doubles with the default iteration limit and the threshold 0.01 as stored.  `S` is the linear
approximation of the image, `m` and `M` its smallest and largest scale in pixels per degree, `L` the deviation of the slopes from it, `ρ` the radius of the footprint around the offset
of the model. -/
theorem C206_double (c : Geotiff.Rpc (Num K)) (v : Geotiff.Rpc K) (hc : Stores c v) {N : K} (hv : OrdinaryUpTo v N) (hn1 : binary64.Number v.lonOff) (hn2 : binary64.Number v.latOff)
    (hscale : |v.lonScale| ≤ 2 ^ (500 : ℤ)) (S : Affine K) {ρ m M L : K} (hρ : 0 ≤ ρ) (hρ2 : ρ ≤ 10) (hL0 : 0 ≤ L) (hm : 7 * L ≤ m) (hM : M + L ≤ 4 * m) (hm1 : 1 ≤ m)
    (hM6 : M + L ≤ 10 ^ 6) (hfar : (M + L) * ρ ≤ 10 ^ 6) (hφ : 1 / 10 ^ 4 ≤ m * ρ) (alts : K → Prop)
    (hO : ∀ alt, alts alt → ∀ p, apart p (v.lonOff, v.latOff) ≤ 2 * ρ + 3 → Regular v N p.1 p.2 alt)
    (hB : ∀ alt, alts alt → CloseTo v.project S alt (fun p => apart p (v.lonOff, v.latOff) ≤ 2 * ρ + 3) L 0) (hS : ∀ alt, alts alt → Resolves S alt m M ∧ m ≤ 5 * |S.a alt|)
    (meanAlt thr : Num K) (θ : K) (hθ : thr.val = some θ) (hθ1 : 1 / 100 ≤ θ) (hθ2 : θ ≤ 1001 / 10 ^ 5) (tsI : List (Target (Num K))) (hts : tsI ≠ []) (gs : List (K × K))
    (hsee : List.Forall₂ (fun tI g => ∃ t, Request64 tI t ∧ alts t.alt ∧ apart (v.lonOff, v.latOff) g ≤ ρ ∧ v.project g.1 g.2 t.alt = some (t.x, t.y)) tsI gs) :
    ∃ es, rpcPixelToLonLat binary64 c meanAlt thr 1000 tsI = .ok es ∧ List.Forall₂ (Lands v) tsI es ∧ List.Forall₂ (FoundI (1 / 50 / m)) gs es := by
  refine ⟨_, C201_answers c v.lonOff v.lonScale hc.lonOff (hv.lonOff.trans ?_) hc.lonScale (nz100 hv.lonScale) hscale meanAlt thr 1000 tsI hts, ?_⟩
  · refine le_trans (by norm_num : (360 : K) ≤ 2 ^ (9 : ℤ)) (zpow_le_zpow_right₀ (by norm_num) (by norm_num))
  -- the targets on the values
  obtain ⟨ts, hQ⟩ : ∃ ts, All3 (fun tI t g => Request64 tI t ∧ alts t.alt ∧ apart (v.lonOff, v.latOff) g ≤ ρ ∧ v.project g.1 g.2 t.alt = some (t.x, t.y)) tsI ts gs := by
    clear hts
    induction hsee with
    | nil => exact ⟨[], .nil⟩
    | cons h _ ih =>
      obtain ⟨t, ht⟩ := h
      obtain ⟨ts, hts⟩ := ih
      exact ⟨t :: ts, .cons ht hts⟩
  have hsee' : List.Forall₂ (fun (t : Target K) (g : K × K) => alts t.alt ∧ apart (v.lonOff, v.latOff) g ≤ ρ ∧ v.project g.1 g.2 t.alt = some (t.x, t.y)) ts gs :=
    hQ.right (fun _ _ _ h => h.2)
  obtain ⟨alt0, halt0⟩ : ∃ alt, alts alt := by
    cases hsee with
    | nil => exact absurd rfl hts
    | cons h _ => obtain ⟨t, -, h, -⟩ := h; exact ⟨_, h⟩
  have hr : Rounds (Rounding.fl 53 : K → K) (1 / 2 ^ 52) := by
    intro x
    refine (Rounding.fl_err' (K := K) 53 x).trans (mul_le_mul_of_nonneg_right ?_ (abs_nonneg x))
    unfold Rounding.unit; norm_num
  set centre : K × K := (v.lonOff, v.latOff) with hcentre
  set f : K → K → K → Option (K × K) := rpcR (roundNum binary64) v with hfdef
  obtain ⟨H, hH⟩ : ∃ H : K, H = 400 := ⟨_, rfl⟩
  have res := (hS alt0 halt0).1
  have hm0 : 0 < m := by linarith
  have hM0 : 0 ≤ M := le_trans (by positivity) res.most1
  have hmM : m ≤ M := by
    have h1 := res.least 1 0
    simp only [abs_one, abs_zero, mul_one, mul_zero, add_zero] at h1
    rw [max_eq_left zero_le_one, mul_one] at h1
    refine h1.trans (max_le ?_ ?_)
    · have := res.most1; have := abs_nonneg (S.b alt0); linarith
    · have := res.most2; have := abs_nonneg (S.e alt0); linarith
  have hu : (0 : K) ≤ 1 / 2 ^ 52 := by positivity
  have huH : 0 ≤ 1 / 2 ^ 52 * H := mul_nonneg hu (by rw [hH]; norm_num)
  have huH1 : 1 / 2 ^ 52 * H ≤ 1 / 40 := by rw [hH]; norm_num
  have hML : 0 < M + L := by linarith
  have hnoise : (M + L) * (1 / 2 ^ 52 * H) ≤ 23 / 10 ^ 8 := by
    have e : (1 / 2 ^ 52 * H : K) ≤ 1 / 10 ^ 13 := by rw [hH]; norm_num
    have := mul_le_mul hM6 e huH (by norm_num)
    refine this.trans (by norm_num)
  have hmnoise : m * (1 / 2 ^ 52 * H) ≤ 23 / 10 ^ 8 := (mul_le_mul_of_nonneg_right (by linarith) huH).trans hnoise
  have hε10 : (1 / 10 ^ 6 : K) ≤ 1 / 10 ^ 6 := le_rfl
  have hε : (0 : K) ≤ 1 / 10 ^ 6 := by positivity
  obtain ⟨L', L'', η'', hLL', hL6', hm5, hbud, hsl, hsl2, hφ', key⟩ := double_budget hε hε10 hL0 hm0 hm hmM hM (by linarith) hfar hφ huH hnoise hmnoise
  have hL''0 : 0 ≤ L'' := (hL0.trans hLL').trans hbud.le
  have hf : ∀ alt, alts alt → Computes f v.project (1 / 10 ^ 6) (fun p => apart p centre ≤ 2 * ρ + 3) alt := by
    intro alt h p hp
    obtain ⟨X, Y, X', Y', e1, e2, e3, e4, -⟩ := rpcN v hv p.1 p.2 alt (hO alt h p hp)
    exact ⟨(X, Y), (X', Y'), e1, e2, e3, e4⟩
  have close : ∀ alt, alts alt → CloseTo f S alt (fun p => apart p centre ≤ 2 * ρ + 3) L (2 * (1 / 10 ^ 6)) := by
    intro alt h
    have := (hB alt h).noise (hf alt h)
    rw [zero_add] at this
    exact this
  have hpiv : ∀ a : K, m ≤ 5 * |a| → L' < |a| ∧ M + L' ≤ 130 * (|a| - L') := by
    intro a ha
    constructor <;> linarith
  have hreq : List.Forall₂ (RequestR f S (1 / 2 ^ 52) L L' (2 * (1 / 10 ^ 6)) m M 130 H ρ 2) ts gs := by
    refine hsee'.imp ?_
    rintro t g ⟨h1, h2, h3⟩
    have hx : ∀ x y : K, |x - y| ≤ ρ → |x| ≤ 360 → |y| + ρ + 2 ≤ H := by
      intro x y hxy hx
      have := abs_sub x (x - y)
      rw [sub_sub_cancel] at this
      rw [hH]
      linarith
    refine ⟨⟨(close t.alt h1).subset ?_, (hS _ h1).1, (hpiv _ (hS _ h1).2).1, ?_⟩, (hpiv _ (hS _ h1).2).2, hx _ _ ((le_max_left _ _).trans h2) hv.lonOff,
      hx _ _ ((le_max_right _ _).trans h2) hv.latOff⟩
    · intro p hp
      have := apart_tri p g centre
      rw [apart_symm g] at this
      generalize 1 / 2 ^ 52 * H = w at hp huH1
      linarith
    · obtain ⟨A, A', e, e', x, y⟩ := hf t.alt h1 g (show apart g centre ≤ 2 * ρ + 3 by rw [apart_symm]; linarith)
      rw [h3] at e
      cases e
      refine ⟨A', e', ?_, ?_⟩
      · rw [abs_sub_comm]; linarith
      · rw [abs_sub_comm]; linarith
  have hcen : ∀ g ∈ gs, apart centre g ≤ ρ := by
    clear hreq hQ hsee hts
    induction hsee' with
    | nil => intro g h; cases h
    | cons h _ ih =>
      intro g hg
      rcases List.mem_cons.mp hg with rfl | hg
      · exact h.2.1
      · exact ih g hg
  have e2 : |(2 : K)| = 2 := abs_of_pos (by norm_num)
  obtain ⟨g1, g2⟩ := C180_given_deltas (f := f) (S := S) (L := L) (L' := L') (L'' := L'') (η := 2 * (1 / 10 ^ 6)) (η'' := η'') (m := m) (M := M) (ρ := ρ)
    (Δ := 2) (κ := 130) (H := H) (dLon := 2) (dLat := 2) hr hu (by norm_num) (by norm_num) hL0 hLL' hm5 hbud (by norm_num) (by norm_num) e2.le e2.le (by rw [e2]; exact hsl2)
    (by rw [e2]; exact hsl2) hρ hφ' ts gs hreq centre hcen θ 70 1000 (by omega) (key.trans hθ1)
  -- positions near the footprint
  have big : ∀ (p : K × K), apart p centre ≤ 2 * ρ + 3 → |p.1| ≤ 400 ∧ |p.2| ≤ 400 := by
    intro p hp
    have h1 := (le_max_left _ _).trans hp
    have h2 := (le_max_right _ _).trans hp
    have a1 := abs_add_le (p.1 - centre.1) centre.1
    have a2 := abs_add_le (p.2 - centre.2) centre.2
    rw [sub_add_cancel] at a1 a2
    have o1 : |centre.1| ≤ 360 := hv.lonOff
    have o2 : |centre.2| ≤ 360 := hv.latOff
    constructor <;> linarith
  have w400 : ∀ {x : K}, |x| ≤ 400 → |x| ≤ 2 ^ (100 : ℤ) := fun h => h.trans (le_trans (by norm_num : (400 : K) ≤ 2 ^ (9 : ℤ)) (zpow_le_zpow_right₀ (by norm_num) (by norm_num)))
  have shift : ∀ (x : K), Mult (-1074) x → |x| ≤ 400 → |roundNum binary64 (x + 2) - (x + 2)| ≤ 1 := by
    intro x hx h
    have m2 : Mult (-1074) (2 : K) := mult_weaken (show (-1074 : ℤ) ≤ 1 by norm_num) ⟨1, by norm_num⟩
    rw [plain_of_mult le_rfl (Mult.add hx m2)]
    refine (hr _).trans ?_
    have a1 := abs_add_le x 2
    rw [e2] at a1
    refine (mul_le_mul_of_nonneg_left (a1.trans (add_le_add_left h 2)) hu).trans ?_
    norm_num
  -- what is computed at an estimate near the footprint
  have hstep : ∀ (tI : Target (Num K)) (t : Target K) (g : K × K) (e : Num K × Num K) (o : Option (K × K)) (o' : K × K),
      (Request64 tI t ∧ alts t.alt ∧ apart centre g ≤ ρ ∧ v.project g.1 g.2 t.alt = some (t.x, t.y)) → Holds e o → Found ρ g o →
      newtonStepR (Rounding.fl 53) f 2 2 t.alt t.x t.y o = some o' → Holds (newtonStepI binary64 (rpcI binary64 c) (.fin 2) (.fin 2) tI e) (some o') := by
    rintro tI t g ⟨lon, lat⟩ o ⟨p, q⟩ ⟨ht, ha, hg, -⟩ ⟨lo, la, vlo, vla, rfl, mlo, mla⟩ ⟨p', hp', hap⟩ hs
    cases hp'
    have d0 : apart (lo, la) centre ≤ 2 * ρ := by
      have := apart_tri (lo, la) g centre
      rw [apart_symm g] at this
      linarith
    have d1 : |lo - centre.1| ≤ 2 * ρ := (le_max_left _ _).trans d0
    have d2 : |la - centre.2| ≤ 2 * ρ := (le_max_right _ _).trans d0
    obtain ⟨blo, bla⟩ := big (lo, la) (by linarith)
    have s1 := shift lo mlo blo
    have s2 := shift la mla bla
    have da : apart (roundNum binary64 (lo + 2), la) centre ≤ 2 * ρ + 3 := by
      refine max_le ?_ (by show |la - centre.2| ≤ _; linarith)
      show |roundNum binary64 (lo + 2) - centre.1| ≤ _
      have e : roundNum binary64 (lo + 2) - centre.1 = (roundNum binary64 (lo + 2) - (lo + 2)) + ((lo - centre.1) + 2) := by ring
      rw [e]
      have a1 := abs_add_le (roundNum binary64 (lo + 2) - (lo + 2)) ((lo - centre.1) + 2)
      have a2 := abs_add_le (lo - centre.1) 2
      rw [e2] at a2
      linarith
    have db : apart (lo, roundNum binary64 (la + 2)) centre ≤ 2 * ρ + 3 := by
      refine max_le (by show |lo - centre.1| ≤ _; linarith) ?_
      show |roundNum binary64 (la + 2) - centre.2| ≤ _
      have e : roundNum binary64 (la + 2) - centre.2 = (roundNum binary64 (la + 2) - (la + 2)) + ((la - centre.2) + 2) := by ring
      rw [e]
      have a1 := abs_add_le (roundNum binary64 (la + 2) - (la + 2)) ((la - centre.2) + 2)
      have a2 := abs_add_le (la - centre.2) 2
      rw [e2] at a2
      linarith
    have two : |(2 : K)| ≤ 2 ^ (100 : ℤ) := w400 (by rw [e2]; norm_num)
    obtain ⟨va, -⟩ := add_value (b := .fin 2) vlo rfl (w400 blo) two (by norm_num) (by norm_num)
    obtain ⟨vb, -⟩ := add_value (b := .fin 2) vla rfl (w400 bla) two (by norm_num) (by norm_num)
    obtain ⟨x0, y0, h0, f0, p0⟩ := point_ieee hc hv vlo vla ht.alt (w400 blo) (w400 bla) ht.sizeAlt (hO _ ha (lo, la) (by linarith))
    obtain ⟨xa, ya, hxa, fa, pa⟩ := point_ieee hc hv va vla ht.alt (w400 (big _ da).1) (w400 bla) ht.sizeAlt (hO _ ha _ da)
    obtain ⟨xb, yb, hxb, fb, pb⟩ := point_ieee hc hv vlo vb ht.alt (w400 blo) (w400 (big _ db).2) ht.sizeAlt (hO _ ha _ db)
    obtain ⟨r1, r2, r3, r4⟩ := step_ieee (rpcI binary64 c) f vlo vla ht.x ht.y mlo mla ht.multX ht.multY (w400 blo) (w400 bla) ht.sizeX ht.sizeY f0 h0 fa hxa fb hxb p0 pa pb hs
    exact ⟨p, q, r1, r2, rfl, r3, r4⟩
  have htest : ∀ (tI : Target (Num K)) (t : Target K) (g : K × K) (e : Num K × Num K) (o : Option (K × K)),
      (Request64 tI t ∧ alts t.alt ∧ apart centre g ≤ ρ ∧ v.project g.1 g.2 t.alt = some (t.x, t.y)) → Holds e o → Found ρ g o →
      withinI binary64 (rpcI binary64 c) thr tI e = withinR (Rounding.fl 53) f θ t.alt t.x t.y o := by
    rintro tI t g ⟨lon, lat⟩ o ⟨ht, ha, hg, -⟩ ⟨lo, la, vlo, vla, rfl, mlo, mla⟩ ⟨p', hp', hap⟩
    cases hp'
    have d0 : apart (lo, la) centre ≤ 2 * ρ := by
      have := apart_tri (lo, la) g centre
      rw [apart_symm g] at this
      linarith
    obtain ⟨blo, bla⟩ := big (lo, la) (by linarith)
    obtain ⟨x0, y0, h0, f0, p0⟩ := point_ieee hc hv vlo vla ht.alt (w400 blo) (w400 bla) ht.sizeAlt (hO _ ha (lo, la) (by linarith))
    exact within_same (rpcI binary64 c) f hθ ht f0 h0 p0
  -- the first estimates
  have first : Holds (add binary64 (.zero false) c.lonOff, add binary64 (.zero false) c.latOff) (some centre) := by
    obtain ⟨o1, k1⟩ := number_round hn1
    obtain ⟨o2, k2⟩ := number_round hn2
    have z : |(0 : K)| ≤ 2 ^ (100 : ℤ) := by rw [abs_zero]; positivity
    obtain ⟨v1, -⟩ := add_value (a := (.zero false : Num K)) rfl hc.lonOff z (w400 (hv.lonOff.trans (by norm_num))) (by norm_num) (by norm_num)
    obtain ⟨v2, -⟩ := add_value (a := (.zero false : Num K)) rfl hc.latOff z (w400 (hv.latOff.trans (by norm_num))) (by norm_num) (by norm_num)
    rw [zero_add, o1] at v1
    rw [zero_add, o2] at v2
    exact ⟨_, _, v1, v2, rfl, k1, k2⟩
  have startH : List.Forall₂ Holds (tsI.map (fun _ => (add binary64 (.zero false) c.lonOff, add binary64 (.zero false) c.latOff))) (ts.map (fun _ => some centre)) := by
    clear hsee' hreq g1 g2 hcen hsee hts
    induction hQ with
    | nil => exact .nil
    | cons _ _ ih => exact .cons first ih
  have startF : List.Forall₂ (Found (errAfter η'' m L'' ρ 0)) gs (ts.map (fun _ => some centre)) := by
    have e : errAfter η'' m L'' ρ 0 = ρ := by simp [errAfter]
    rw [e]
    clear hreq g1 g2 hcen hsee hts hQ startH
    induction hsee' with
    | nil => exact .nil
    | cons h _ ih => exact .cons ⟨centre, rfl, h.2.1⟩ ih
  have hold := loop_ieee (rpcI binary64 c) f (thr := thr) (θ := θ) (ρ := ρ) _ hstep htest tsI ts gs hQ (errAfter η'' m L'' ρ) (errAfter_le hL''0 hm5 hφ') (by
    intro j es hF
    have := step_allR hr hu (by norm_num) (by norm_num) hL0 hLL' hm5 hbud (by norm_num) (by norm_num) e2.le e2.le (by rw [e2]; exact hsl2) (by rw [e2]; exact hsl2)
      (errAfter η'' m L'' ρ j) (errAfter_le hL''0 hm5 hφ' j) hρ ts gs es hreq hF
    rwa [errAfter_succ _ _ _ _ hL''0 hm5] at this) 1000 0 _ _ startH startF
  have hthr : θ / (1 - 1 / 2 ^ 52) ≤ 101 / 10000 := by
    rw [div_le_iff₀ (by norm_num)]
    refine hθ2.trans (by norm_num)
  have g2' : List.Forall₂ (Found (1 / 50 / m)) gs (newtonLoopR (Rounding.fl 53) f 2 2 θ 1000 ts (ts.map (fun _ => some centre))) := by
    refine g2.imp ?_
    intro g e h
    refine h.mono ?_
    rw [div_le_div_iff₀ (by linarith) hm0]
    have := mul_le_mul_of_nonneg_right (show θ / (1 - 1 / 2 ^ 52) + 2 * (2 * (1 / 10 ^ 6)) ≤ 102 / 10000 by linarith) hm0.le
    linarith
  have h50 : 1 / 50 / m ≤ 1 := by
    rw [div_le_one hm0]; linarith
  generalize newtonLoopR (Rounding.fl 53) f 2 2 θ 1000 ts (ts.map (fun _ => some centre)) = es at hold g1 g2'
  generalize newtonLoopI binary64 (rpcI binary64 c) (.fin 2) (.fin 2) thr 1000 tsI (tsI.map (fun _ => (add binary64 (.zero false) c.lonOff, add binary64 (.zero false) c.latOff))) = esI at hold
  clear startH startF g2 hreq hsee' hcen hsee hts
  induction hQ generalizing es esI with
  | nil =>
    cases g2'
    cases hold
    exact ⟨.nil, .nil⟩
  | @cons tI t g _ _ _ hq _ ih =>
    cases g1 with
    | cons r1 r2 =>
      cases g2' with
      | cons s1 s2 =>
        cases hold with
        | cons k1 k2 =>
          obtain ⟨i1, i2⟩ := ih _ r2 s2 _ k2
          obtain ⟨ht, ha, hg, -⟩ := hq
          obtain ⟨lo, la, vlo, vla, rfl, -, -⟩ := k1
          obtain ⟨p', hp', hap⟩ := s1
          cases hp'
          obtain ⟨lo', la', x, y, hl, hxy, t1, t2⟩ := r1
          cases hl
          refine ⟨.cons ?_ i1, .cons ⟨lo, la, vlo, vla, hap⟩ i2⟩
          have d0 := apart_tri (lo, la) _ centre |>.trans (add_le_add hap (le_of_eq (apart_symm _ _)))
          obtain ⟨A, A', q1, q2, q3, q4⟩ := hf _ ha (lo, la) (by linarith)
          rw [hxy] at q2
          cases q2
          refine ⟨t.alt, t.x, t.y, lo, la, A.1, A.2, ht.alt, ht.x, ht.y, vlo, vla, q1, ?_, ?_⟩
          · have a := abs_sub_le A.1 x t.x
            rw [abs_sub_comm A.1 x, abs_sub_comm x t.x] at a
            refine a.trans ((add_le_add q3 (t1.trans hthr)).trans ?_)
            norm_num
          · have a := abs_sub_le A.2 y t.y
            rw [abs_sub_comm A.2 y, abs_sub_comm y t.y] at a
            refine a.trans ((add_le_add q4 (t2.trans hthr)).trans ?_)
            norm_num

end

/-! ### Non-vacuity -/

/-- The coefficients of `gentleQ` as doubles. -/
def gentleD : Geotiff.Rpc (Num ℚ) := curved (.zero false) (.fin 1) (.fin (-1 / 4096)) (.fin 1024) (.fin (1 / 16))

theorem gentle_stores : Stores gentleD gentleQ := by
  refine ⟨?_, ?_, ?_, ?_, rfl, rfl, rfl, rfl, rfl, rfl, rfl, rfl, rfl, rfl⟩ <;> intro i _ <;> simp only [gentleD, gentleQ, curved, sparse] <;> split_ifs <;> rfl

theorem gentle_ordinary : OrdinaryUpTo gentleQ 100 := by
  have p : (2 : ℚ) ^ (-100 : ℤ) ≤ 1 / 16 := by norm_num
  constructor
  all_goals first | (norm_num [gentleQ, curved]; done) | (simp [Bounded, gentleQ, curved, sparse, Geotiff.computeP]; norm_num; done) | (simp [Bounded, gentleQ, curved, sparse, Geotiff.computeP]; done)

theorem gentle_regular (p : ℚ × ℚ) (hp : apart p (gentleQ.lonOff, gentleQ.latOff) ≤ 2 * (1 / 8) + 3) : Regular gentleQ 100 p.1 p.2 100 := by
  have h1 : |p.1| ≤ 13 / 4 := by
    have := (le_max_left _ _).trans hp
    simp only [gentleQ, curved, sub_zero] at this
    refine this.trans (by norm_num)
  have h2 : |p.2| ≤ 13 / 4 := by
    have := (le_max_right _ _).trans hp
    simp only [gentleQ, curved, sub_zero] at this
    refine this.trans (by norm_num)
  have e5 : ∀ x y z, Geotiff.computeP gentleQ.sampDen x y z = 1 := fun x y z => by simp [gentleQ, curved, sparse, Geotiff.computeP]
  have e6 : ∀ x y z, Geotiff.computeP gentleQ.lineDen x y z = 1 := fun x y z => by simp [gentleQ, curved, sparse, Geotiff.computeP]
  refine ⟨?_, ?_, ?_, ?_, ?_⟩
  · simp only [gentleQ, curved, sub_zero]
    rw [abs_div, abs_of_pos (by norm_num : (0 : ℚ) < 1 / 16), div_le_iff₀ (by norm_num)]
    linarith
  · simp only [gentleQ, curved, sub_zero]
    rw [abs_div, abs_of_pos (by norm_num : (0 : ℚ) < 1 / 16), div_le_iff₀ (by norm_num)]
    linarith
  · norm_num [gentleQ, curved]
  · rw [e5]; norm_num
  · rw [e6]; norm_num

example : ∃ es, rpcPixelToLonLat binary64 gentleD (.fin 100) (.fin (5764607523034235 / 576460752303423488)) 1000 [⟨.fin 100, .fin (24583 / 16), .fin (1025 / 2)⟩] = .ok es ∧
    List.Forall₂ (Lands gentleQ) [⟨.fin 100, .fin (24583 / 16), .fin (1025 / 2)⟩] es ∧ List.Forall₂ (FoundI (1 / 50 / 16384)) [(1 / 32, -1 / 32)] es := by
  refine C206_double gentleD gentleQ gentle_stores gentle_ordinary ⟨0, 0, by norm_num, by decide, by norm_num [gentleQ, curved], ?_⟩ ⟨0, 0, by norm_num, by decide, by norm_num [gentleQ, curved], ?_⟩
    ?_ ⟨fun _ => 16384, fun _ => 0, fun _ => 0, fun _ => 0, fun _ => 16384, fun _ => 0⟩ (L := 416) (m := 16384) (M := 16384) (ρ := 1 / 8)
    (by norm_num) (by norm_num) (by norm_num) (by norm_num) (by norm_num) (by norm_num) (by norm_num) (by norm_num) (by norm_num) (fun a => a = 100) ?_ ?_ ?_ _ _
    (5764607523034235 / 576460752303423488) rfl (by norm_num) (by norm_num) _ (by simp) _
    (.cons ⟨⟨100, 24583 / 16, 1025 / 2⟩, ⟨rfl, rfl, rfl, ?_, ?_, ?_, ?_, ?_⟩, rfl, ?_, ?_⟩ .nil)
  · simp only [gentleQ, curved, abs_zero]; positivity
  · simp only [gentleQ, curved, abs_zero]; positivity
  · simp only [gentleQ, curved]
    rw [abs_of_pos (by norm_num)]
    exact le_trans (by norm_num : (1 / 16 : ℚ) ≤ 2 ^ (0 : ℤ)) (zpow_le_zpow_right₀ (by norm_num) (by norm_num))
  · rintro alt rfl p hp
    exact gentle_regular p hp
  · rintro alt - p q hp hq
    refine ⟨_, _, gentleQ_project _ _ _, gentleQ_project _ _ _, ?_, ?_⟩
    · have h1 : |p.1| ≤ 13 / 4 := by
        have := (le_max_left _ _).trans hp
        simp only [gentleQ, curved, sub_zero] at this
        refine this.trans (by norm_num)
      have h2 : |q.1| ≤ 13 / 4 := by
        have := (le_max_left _ _).trans hq
        simp only [gentleQ, curved, sub_zero] at this
        refine this.trans (by norm_num)
      have h3 : |p.1 + q.1| ≤ 13 / 2 := (abs_add_le _ _).trans (by linarith)
      have e : ((1024 * (16 * p.1 - (16 * p.1) ^ 2 / 4096) + 1024 + 1 / 2 - (1024 * (16 * q.1 - (16 * q.1) ^ 2 / 4096) + 1024 + 1 / 2)) - (16384 * (p.1 - q.1) + 0 * (p.2 - q.2))) =
          -(64 * ((p.1 + q.1) * (p.1 - q.1))) := by ring
      simp only [e, abs_neg, abs_mul]
      have h4 : |p.1 - q.1| ≤ apart p q := le_max_left _ _
      have h5 : |p.1 + q.1| * |p.1 - q.1| ≤ 13 / 2 * apart p q := mul_le_mul h3 h4 (abs_nonneg _) (by norm_num)
      rw [abs_of_pos (by norm_num : (0 : ℚ) < 64)]
      linarith
    · have e : (1024 * (16 * p.2) + 1024 + 1 / 2 - (1024 * (16 * q.2) + 1024 + 1 / 2)) - (0 * (p.1 - q.1) + 16384 * (p.2 - q.2)) = 0 := by ring
      simp only [e, abs_zero]
      have : 0 ≤ apart p q := (abs_nonneg _).trans (le_max_left _ _)
      linarith
  · rintro alt -
    refine ⟨⟨?_, ?_, ?_⟩, ?_⟩
    · intro u v
      simp only [zero_mul, add_zero, zero_add, abs_mul]
      rw [abs_of_pos (by norm_num : (0 : ℚ) < 16384), ← mul_max_of_nonneg _ _ (by norm_num : (0 : ℚ) ≤ 16384)]
    · norm_num
    · norm_num
    · norm_num
  · exact mult_weaken (show (-100 : ℤ) ≤ -4 by norm_num) ⟨24583, by norm_num⟩
  · exact mult_weaken (show (-100 : ℤ) ≤ -1 by norm_num) ⟨1025, by norm_num⟩
  · norm_num
  · norm_num
  · norm_num
  · norm_num [apart, gentleQ, curved]
  · rw [gentleQ_project]; norm_num

end Verif.SolverIeee
