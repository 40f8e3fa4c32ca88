import Verif.Props.Ieee
import Verif.Props.Convergence
import Verif.Model.SolverIeee
import Mathlib.Tactic.IntervalCases

/-! C201, C202: the pixel-to-ground conversion of RPC images in IEEE arithmetic. -/

set_option linter.unusedSectionVars false

namespace Verif.SolverIeee
open Verif Ieee PointCalc Rounding

section
variable {K : Type} [Field K] [LinearOrder K] [IsStrictOrderedRing K]

/-- The trial shifts are the powers of two from the spacing at 1 on that are below a quarter of the largest number. -/
theorem trialSteps_spec (F : Format) (hp : 2 ≤ F.p) (a : Num K) : a ∈ (trialSteps F : List (Num K)) ↔
    ∃ e : ℤ, a = .fin (2 ^ e) ∧ 1 - F.p ≤ e ∧ (2 : K) ^ e < (2 - 2 ^ (1 - (F.p : ℤ))) * 2 ^ F.emax / 4 := by
  have hq : (2 : K) ^ (1 - (F.p : ℤ)) < 1 := by
    apply zpow_lt_one_of_neg₀ (by norm_num) (by omega)
  have hq0 : (0 : K) < 2 ^ (1 - (F.p : ℤ)) := by positivity
  have e4 : (2 : K) ^ F.emax / 4 = 2 ^ (F.emax - 2) := by
    rw [zpow_sub₀ (by norm_num)]; norm_num
  have key : ∀ e : ℤ, (2 : K) ^ e < (2 - 2 ^ (1 - (F.p : ℤ))) * 2 ^ F.emax / 4 ↔ e ≤ F.emax - 2 := by
    intro e
    rw [mul_div_assoc, e4]
    have h0 : (0 : K) < 2 ^ (F.emax - 2) := by positivity
    constructor
    · intro h
      by_contra hn
      have h1 : (2 : K) ^ (F.emax - 2 + 1) ≤ 2 ^ e := zpow_le_zpow_right₀ (by norm_num) (by omega)
      rw [zpow_add_one₀ (by norm_num)] at h1
      nlinarith
    · intro h
      have h1 : (2 : K) ^ e ≤ 2 ^ (F.emax - 2) := zpow_le_zpow_right₀ (by norm_num) h
      nlinarith
  simp only [key]
  unfold trialSteps
  rw [List.mem_map]
  constructor
  · rintro ⟨k, hk, rfl⟩
    rw [List.mem_range] at hk
    exact ⟨_, rfl, by omega, by omega⟩
  · rintro ⟨e, rfl, h1, h2⟩
    refine ⟨(e - 1 + F.p).toNat, ?_, ?_⟩
    · rw [List.mem_range]; omega
    · congr 2
      omega

/-- Infinite, or of magnitude at least `2^e`. -/
def Big (e : ℤ) : Num K → Prop
  | .inf _ => True
  | .fin x => 2 ^ e ≤ |x|
  | _ => False

/-- NaN or infinite. -/
def Lost (a : Num K) : Prop := a = .nan ∨ ∃ s, a = .inf s

theorem big_of_val {a : Num K} {x : K} {e : ℤ} (ha : a.val = some x) (h : 2 ^ e ≤ |x|) : Big e a := by
  have h0 : (0 : K) < 2 ^ e := by positivity
  cases a with
  | nan => simp [Num.val] at ha
  | inf s => trivial
  | zero s =>
    simp only [Num.val, Option.some.injEq] at ha
    subst ha
    rw [abs_zero] at h
    exact absurd h (not_le.mpr h0)
  | fin y =>
    simp only [Num.val, Option.some.injEq] at ha
    subst ha
    exact h

theorem exactMul_big {a b : Num K} {e f : ℤ} (ha : Big e a) (hb : Big f b) : Big (e + f) (exactMul a b) := by
  cases a with
  | nan => exact ha.elim
  | zero s => exact ha.elim
  | inf s => cases b with
    | nan => exact hb.elim
    | zero s => exact hb.elim
    | inf t => trivial
    | fin y => trivial
  | fin x => cases b with
    | nan => exact hb.elim
    | zero s => exact hb.elim
    | inf t => trivial
    | fin y =>
      show (2 : K) ^ (e + f) ≤ |x * y|
      rw [zpow_add₀ (by norm_num), abs_mul]
      exact mul_le_mul ha hb (by positivity) (abs_nonneg _)

/-- A large number plus a much smaller one. -/
theorem exactAdd_big {a b : Num K} {e : ℤ} {y : K} (ha : Big (e + 1) a) (hb : b.val = some y) (hy : |y| ≤ 2 ^ e) : Big e (exactAdd a b) := by
  cases a with
  | nan => exact ha.elim
  | zero s => exact ha.elim
  | inf s => cases b with
    | nan => simp [Num.val] at hb
    | inf t => simp [Num.val] at hb
    | zero s => trivial
    | fin y => trivial
  | fin x =>
    have hx : (2 : K) ^ (e + 1) ≤ |x| := ha
    have hv := exactAdd_val (a := Num.fin x) rfl hb
    apply big_of_val hv
    rw [zpow_add_one₀ (by norm_num)] at hx
    have := abs_sub_abs_le_abs_sub x (-y)
    rw [abs_neg, sub_neg_eq_add] at this
    linarith

theorem exactDiv_big {a b : Num K} {e k : ℤ} {y : K} (ha : Big (e + k) a) (hb : b.val = some y) (h0 : y ≠ 0) (hy : |y| ≤ 2 ^ k) : Big e (exactDiv a b) := by
  have hyp : 0 < |y| := abs_pos.mpr h0
  cases b with
  | nan => simp [Num.val] at hb
  | inf t => simp [Num.val] at hb
  | zero s => simp [Num.val] at hb; exact absurd hb.symm h0
  | fin z =>
    simp only [Num.val, Option.some.injEq] at hb
    subst hb
    cases a with
    | nan => exact ha.elim
    | zero s => exact ha.elim
    | inf s => trivial
    | fin x =>
      show (2 : K) ^ e ≤ |x / z|
      have hx : (2 : K) ^ (e + k) ≤ |x| := ha
      rw [zpow_add₀ (by norm_num)] at hx
      rw [abs_div, le_div_iff₀ hyp]
      have : (2 : K) ^ e * |z| ≤ 2 ^ e * 2 ^ k := mul_le_mul_of_nonneg_left hy (by positivity)
      linarith

variable [FloorRing K]

theorem roundNum_ge (F : Format) (hp : 1 ≤ F.p) {e : ℤ} (he : F.emin ≤ e) {x : K} (h : 2 ^ e ≤ |x|) : 2 ^ e ≤ |roundNum F x| := by
  have h1 : (2 : K) ^ F.emin ≤ |x| := (zpow_le_zpow_right₀ (by norm_num) he).trans h
  unfold roundNum
  rw [if_neg (not_lt.mpr h1)]
  have hfl : fl F.p ((2 : K) ^ e) = 2 ^ e := by
    have := fl_exact (K := K) hp 1 e (by simpa using one_le_pow₀ (by norm_num : (1 : ℤ) ≤ 2))
    simpa using this
  rcases le_total 0 x with hx | hx
  · rw [abs_of_nonneg hx] at h
    have := fl_mono (K := K) hp h
    rw [hfl] at this
    exact this.trans (le_abs_self _)
  · rw [abs_of_nonpos hx] at h
    have := fl_mono (K := K) hp h
    rw [hfl, fl_neg] at this
    exact this.trans (neg_le_abs _)

theorem round_big (F : Format) (hp : 1 ≤ F.p) {e : ℤ} (he : F.emin ≤ e) {a : Num K} (h : Big e a) : Big e (Ieee.round F a) := by
  cases a with
  | nan => exact h.elim
  | zero s => exact h.elim
  | inf s => trivial
  | fin x =>
    have hx := roundNum_ge F hp he (x := x) h
    have h0 : (0 : K) < 2 ^ e := by positivity
    unfold Ieee.round
    simp only []
    split_ifs with h1 h2
    · trivial
    · rw [h2, abs_zero] at hx; exact absurd hx (not_le.mpr h0)
    · exact hx

theorem round_inf (F : Format) (hp : 1 ≤ F.p) (hF : F.emin ≤ F.emax) {e : ℤ} (he : F.emax + 1 ≤ e) {a : Num K} (h : Big e a) : ∃ s, Ieee.round F a = .inf s := by
  cases a with
  | nan => exact h.elim
  | zero s => exact h.elim
  | inf s => exact ⟨s, rfl⟩
  | fin x =>
    have hx := roundNum_ge F hp (by omega : F.emin ≤ e) (x := x) h
    refine ⟨decide (x < 0), ?_⟩
    unfold Ieee.round
    simp only []
    rw [if_pos ((zpow_le_zpow_right₀ (by norm_num) he).trans hx)]

theorem mul_big (F : Format) (hp : 1 ≤ F.p) {a b : Num K} {e f : ℤ} (he : F.emin ≤ e + f) (ha : Big e a) (hb : Big f b) : Big (e + f) (mul F a b) :=
  round_big F hp he (exactMul_big ha hb)

theorem mul_inf_lost (F : Format) (a : Num K) {b : Num K} (hb : ∃ s, b = .inf s) : Lost (mul F a b) := by
  obtain ⟨s, rfl⟩ := hb
  cases a with
  | nan => exact Or.inl rfl
  | inf t => exact Or.inr ⟨_, rfl⟩
  | zero t => exact Or.inl rfl
  | fin x => exact Or.inr ⟨_, rfl⟩

theorem add_lost_right (F : Format) (a : Num K) {b : Num K} (hb : Lost b) : Lost (add F a b) := by
  rcases hb with rfl | ⟨s, rfl⟩
  · cases a <;> exact Or.inl rfl
  · cases a with
    | nan => exact Or.inl rfl
    | inf t =>
      by_cases h : t = s
      · subst h; exact Or.inr ⟨t, by simp [add, exactAdd, Ieee.round]⟩
      · exact Or.inl (by simp [add, exactAdd, h, Ieee.round])
    | zero t => exact Or.inr ⟨s, rfl⟩
    | fin x => exact Or.inr ⟨s, rfl⟩

theorem add_lost_left (F : Format) {a : Num K} (b : Num K) (ha : Lost a) : Lost (add F a b) := by
  rcases ha with rfl | ⟨s, rfl⟩
  · exact Or.inl rfl
  · cases b with
    | nan => exact Or.inl rfl
    | inf t =>
      by_cases h : s = t
      · subst h; exact Or.inr ⟨s, by simp [add, exactAdd, Ieee.round]⟩
      · exact Or.inl (by simp [add, exactAdd, h, Ieee.round])
    | zero t => exact Or.inr ⟨s, rfl⟩
    | fin x => exact Or.inr ⟨s, rfl⟩

theorem div_lost (F : Format) {a b : Num K} (ha : Lost a) (hb : Lost b) : div F a b = .nan := by
  rcases ha with rfl | ⟨s, rfl⟩
  · rfl
  · rcases hb with rfl | ⟨t, rfl⟩ <;> rfl

/-- Whatever the coefficients, the polynomial is lost when the cube of the normalised longitude overflows. -/
theorem computePI_lost (F : Format) (a : Nat → Num K) (x y z : Num K) (hy : ∃ s, mul F (mul F y y) y = .inf s) : Lost (computePI F a x y z) := by
  unfold computePI
  simp only []
  iterate 8 apply add_lost_left
  exact add_lost_right F _ (mul_inf_lost F _ hy)

theorem rpcI_nan (F : Format) (c : Geotiff.Rpc (Num K)) (lon lat alt : Num K)
    (hy : ∃ s, mul F (mul F (div F (sub F lon c.lonOff) c.lonScale) (div F (sub F lon c.lonOff) c.lonScale)) (div F (sub F lon c.lonOff) c.lonScale) = .inf s) :
    rpcI F c lon lat alt = (.nan, .nan) := by
  unfold rpcI
  simp only [div_lost F (computePI_lost F c.sampNum _ _ _ hy) (computePI_lost F c.sampDen _ _ _ hy),
    div_lost F (computePI_lost F c.lineNum _ _ _ hy) (computePI_lost F c.lineDen _ _ _ hy)]
  rfl

/-- C201: whatever the coefficients of an RPC model (its longitude offset and scale being numbers of any size met on Earth and far beyond), and whatever the altitude, the
conversion of its pixels to ground positions in double precision measures slopes with shifts of exactly two degrees: among the trial shifts are some that overflow. -/
theorem C201_two_degrees (c : Geotiff.Rpc (Num K)) (v s : K) (hoff : c.lonOff.val = some v) (hv : |v| ≤ 2 ^ (1000 : ℤ)) (hscale : c.lonScale.val = some s) (h0 : s ≠ 0)
    (hs : |s| ≤ 2 ^ (500 : ℤ)) (meanAlt : Num K) : shifts binary64 (rpcI binary64 c) (c.lonOff, c.latOff) meanAlt = .ok (.fin 2, .fin 2) := by
  have hp : 1 ≤ binary64.p := by decide
  have hgood : binary64.Good := by refine ⟨by decide, by decide⟩
  unfold shifts
  simp only []
  rw [if_pos]
  rw [List.any_eq_true]
  refine ⟨_, List.mem_map.mpr ⟨.fin (2 ^ (1021 : ℤ)), ?_, rfl⟩, ?_⟩
  · unfold trialSteps
    refine List.mem_map.mpr ⟨1073, by rw [List.mem_range]; decide, ?_⟩
    congr 2
  · simp only []
    have hlon0 : ∃ v0 : K, (add binary64 (Num.zero false) c.lonOff).val = some v0 ∧ |v0| ≤ 2 ^ (1000 : ℤ) := by
      refine ⟨roundNum binary64 v, ?_, round_top binary64 hp (by decide) hv⟩
      have := exactAdd_val (a := (Num.zero false : Num K)) rfl hoff
      rw [zero_add] at this
      exact round_roundNum binary64 hgood this (hv.trans (zpow_le_zpow_right₀ (by norm_num) (by decide)))
    obtain ⟨v0, e0, b0⟩ := hlon0
    have hbig1 : Big 1020 (add binary64 (add binary64 (Num.zero false) c.lonOff) (.fin (2 ^ (1021 : ℤ)))) := by
      refine round_big binary64 hp (by decide) (big_of_val (exactAdd_val e0 rfl) ?_)
      have h1 : (2 : K) ^ (1021 : ℤ) = 2 * 2 ^ (1020 : ℤ) := by rw [show (1021 : ℤ) = 1020 + 1 by norm_num, zpow_add_one₀ (by norm_num)]; ring
      have h2 : (2 : K) ^ (1000 : ℤ) ≤ 2 ^ (1020 : ℤ) := zpow_le_zpow_right₀ (by norm_num) (by norm_num)
      rw [h1]
      have h3 := (_root_.abs_le.mp b0).1
      refine le_trans ?_ (le_abs_self _)
      revert h2 h3
      generalize (2 : K) ^ (1000 : ℤ) = A
      generalize (2 : K) ^ (1020 : ℤ) = B
      intro h2 h3
      linarith
    have hneg : c.lonOff.neg.val = some (-v) := by
      cases hc : c.lonOff with
      | nan => rw [hc] at hoff; simp [Num.val] at hoff
      | inf t => rw [hc] at hoff; simp [Num.val] at hoff
      | zero t => rw [hc] at hoff; simp [Num.val] at hoff; simp [Num.neg, Num.val, ← hoff]
      | fin x => rw [hc] at hoff; simp [Num.val] at hoff; simp [Num.neg, Num.val, ← hoff]
    have hbig2 : Big 1019 (sub binary64 (add binary64 (add binary64 (Num.zero false) c.lonOff) (.fin (2 ^ (1021 : ℤ)))) c.lonOff) :=
      round_big binary64 hp (by decide) (exactAdd_big hbig1 hneg (by rw [abs_neg]; exact hv.trans (zpow_le_zpow_right₀ (by norm_num) (by norm_num))))
    have hbig3 : Big 519 (div binary64 (sub binary64 (add binary64 (add binary64 (Num.zero false) c.lonOff) (.fin (2 ^ (1021 : ℤ)))) c.lonOff) c.lonScale) :=
      round_big binary64 hp (by decide) (exactDiv_big (k := 500) hbig2 hscale h0 hs)
    have hbig4 := mul_big binary64 hp (by decide) hbig3 hbig3
    have hcube := round_inf binary64 hp (by decide) (e := 519 + 519 + 519) (by decide) (exactMul_big hbig4 hbig3)
    rw [rpcI_nan binary64 c _ _ _ hcube]
    rfl

/-- C201: so the answers are those of the iteration with shifts of two degrees. -/
theorem C201_answers (c : Geotiff.Rpc (Num K)) (v s : K) (hoff : c.lonOff.val = some v) (hv : |v| ≤ 2 ^ (1000 : ℤ)) (hscale : c.lonScale.val = some s) (h0 : s ≠ 0)
    (hs : |s| ≤ 2 ^ (500 : ℤ)) (meanAlt thr : Num K) (maxIter : Nat) (ts : List (Target (Num K))) (hts : ts ≠ []) :
    rpcPixelToLonLat binary64 c meanAlt thr maxIter ts = .ok (newtonLoopI binary64 (rpcI binary64 c) (.fin 2) (.fin 2) thr maxIter ts
      (ts.map (fun _ => (add binary64 (.zero false) c.lonOff, add binary64 (.zero false) c.latOff)))) := by
  unfold rpcPixelToLonLat solverI
  rw [C201_two_degrees c v s hoff hv hscale h0 hs meanAlt]
  simp only [ok_bind]
  rw [if_neg (by simp [hts])]

/-- C202 holds where the image is close to linear over two degrees beyond the footprint: with the shifts of C201, and apart from rounding (see `C202_double_partial` in `Props/RpcInverse.lean`), the conversion reaches every pixel
within a hundredth of a pixel, within the distance `1 / (100 (m - L))` of the ground position seen there.  `S` is the linear approximation, `m` and `M` its smallest and largest
scale in pixels per degree, `L` the deviation of the slopes, `ρ` the radius of the footprint. -/
theorem C202_reaches_partial (r : Geotiff.Rpc K) (S : Affine K) {L m M ρ : K} (hL : 0 ≤ L) (hm0 : 0 < m) (hm : 6 * L ≤ m) (hρ : 0 ≤ ρ) (hM : (M + L) * ρ ≤ 10 ^ 6)
    (ts : List (Target K)) (gs : List (K × K))
    (hclose : List.Forall₂ (fun t g => CloseTo r.project S t.alt (fun p => apart p g ≤ ρ + 2) L 0 ∧ Resolves S t.alt m M ∧ L < |S.a t.alt| ∧ apart (r.lonOff, r.latOff) g ≤ ρ ∧
      r.project g.1 g.2 t.alt = some (t.x, t.y)) ts gs) :
    List.Forall₂ (Reprojects r.project (1 / 100)) ts (newtonLoop r.project 2 2 (1 / 100) 1000 ts (ts.map (fun _ => some (r.lonOff, r.latOff)))) ∧
    List.Forall₂ (Found (1 / 100 / (m - L))) gs (newtonLoop r.project 2 2 (1 / 100) 1000 ts (ts.map (fun _ => some (r.lonOff, r.latOff)))) := by
  have h5 : 5 * L < m := by
    rcases hL.eq_or_lt with h | h
    · rw [← h]; simpa using hm0
    · linarith
  have hfl : floorErr 0 m L = 0 := by simp [floorErr]
  have hpow : errAfter 0 m L ρ 100 ≤ (3 / 4) ^ 100 * ρ := by
    unfold errAfter
    rw [hfl, zero_add, sub_zero]
    refine mul_le_mul_of_nonneg_right (pow_le_pow_left₀ (div_nonneg (by linarith) (by linarith)) ?_ _) hρ
    rw [div_le_div_iff₀ (by linarith) (by norm_num)]
    linarith
  have hthr : (M + L) * errAfter 0 m L ρ 100 + 2 * 0 ≤ (1 / 100 : K) := by
    rcases le_total 0 (M + L) with h | h
    · have h1 := mul_le_mul_of_nonneg_left hpow h
      have h2 : (M + L) * ((3 / 4) ^ 100 * ρ) = (3 / 4) ^ 100 * ((M + L) * ρ) := by ring
      have h3 : (3 / 4 : K) ^ 100 * ((M + L) * ρ) ≤ (3 / 4) ^ 100 * 10 ^ 6 := mul_le_mul_of_nonneg_left hM (by positivity)
      have h4 : (3 / 4 : K) ^ 100 * 10 ^ 6 ≤ 1 / 100 := by norm_num
      linarith
    · have : 0 ≤ errAfter 0 m L ρ 100 := by
        unfold errAfter
        rw [hfl, zero_add, sub_zero]
        exact mul_nonneg (pow_nonneg (div_nonneg (by linarith) (by linarith)) _) hρ
      have := mul_nonpos_of_nonpos_of_nonneg h this
      linarith
  have e : |(2 : K)| = 2 := abs_of_pos (by norm_num)
  have hreq : List.Forall₂ (Request r.project S L L 0 m M (ρ + 2)) ts gs := by
    refine hclose.imp ?_
    rintro t g ⟨a, b, c, _, d⟩
    exact ⟨a, b, c, _, d, by simp, by simp⟩
  have hc : ∀ g ∈ gs, apart (r.lonOff, r.latOff) g ≤ ρ := by
    clear hreq
    induction hclose with
    | nil => simp
    | cons h _ ih =>
      intro g hg
      rcases List.mem_cons.mp hg with rfl | hg
      · exact h.2.2.2.1
      · exact ih g hg
  have := C173_given_deltas (f := r.project) (S := S) (η := 0) (L := L) (L' := L) (m := m) (M := M) (ρ := ρ) (Δ := 2) (dLon := 2) (dLat := 2) le_rfl hL le_rfl h5 (by norm_num)
    (by norm_num) e.le e.le (by simp) (by simp) hρ (by rw [hfl]; exact hρ) ts gs hreq (r.lonOff, r.latOff) hc (1 / 100) 100 1000 (by norm_num) hthr
  simpa using this

end

/-! ### An image that cannot be converted -/

/-- A coefficient list with the given entries at two places. -/
def sparse {α : Type} (z a b : α) (i j : Nat) : Nat → α := fun k => if k = i then a else if k = j then b else z

/-- An RPC model of 1/8 by 1/8 degree, 2048 by 2048 pixels: the line is linear in the latitude, the sample is `1024 (y - y^2 / 32) + 1024.5` in the normalised longitude. -/
def curved {α : Type} (z one c k s : α) : Geotiff.Rpc α :=
  { sampNum := sparse z one c 1 7, sampDen := sparse z one one 0 0, sampScale := k, sampOff := k, lineNum := sparse z one one 2 2, lineDen := sparse z one one 0 0, lineScale := k,
    lineOff := k, latScale := s, latOff := z, lonScale := s, lonOff := z, hScale := one, hOff := z }

/-- Its coefficients as exact numbers. -/
def curvedQ : Geotiff.Rpc ℚ := curved 0 1 (-1 / 32) 1024 (1 / 16)

/-- Its coefficients as doubles. -/
def curvedD : Geotiff.Rpc (Num ℚ) := curved (.zero false) (.fin 1) (.fin (-1 / 32)) (.fin 1024) (.fin (1 / 16))

theorem curvedQ_project (lon lat alt : ℚ) : curvedQ.project lon lat alt = some (1024 * (16 * lon - (16 * lon) ^ 2 / 32) + 1024 + 1 / 2, 1024 * (16 * lat) + 1024 + 1 / 2) := by
  simp [curvedQ, curved, sparse, Geotiff.Rpc.project, Geotiff.computeP, ImageUtils.fdiv]
  constructor <;> ring

/-- The coefficients of the doubles are the exact ones. -/
theorem curved_same (k : Nat) : (curvedD.sampNum k).val = some (curvedQ.sampNum k) ∧ (curvedD.sampDen k).val = some (curvedQ.sampDen k) ∧
    (curvedD.lineNum k).val = some (curvedQ.lineNum k) ∧ (curvedD.lineDen k).val = some (curvedQ.lineDen k) ∧ curvedD.sampScale.val = some curvedQ.sampScale ∧
    curvedD.sampOff.val = some curvedQ.sampOff ∧ curvedD.lineScale.val = some curvedQ.lineScale ∧ curvedD.lineOff.val = some curvedQ.lineOff ∧
    curvedD.latScale.val = some curvedQ.latScale ∧ curvedD.latOff.val = some curvedQ.latOff ∧ curvedD.lonScale.val = some curvedQ.lonScale ∧
    curvedD.lonOff.val = some curvedQ.lonOff ∧ curvedD.hScale.val = some curvedQ.hScale ∧ curvedD.hOff.val = some curvedQ.hOff := by
  refine ⟨?_, ?_, ?_, ?_, rfl, rfl, rfl, rfl, rfl, rfl, rfl, rfl, rfl, rfl⟩ <;> simp only [curvedD, curvedQ, curved, sparse] <;> split_ifs <;> rfl

deriving instance DecidableEq for Num

theorem curvedD_centre : rpcI binary64 curvedD (.zero false) (.zero false) (.zero false) = (.fin (2049 / 2), .fin (2049 / 2)) := by decide +kernel

theorem curvedD_east : rpcI binary64 curvedD (.fin 2) (.zero false) (.zero false) = (.fin (2049 / 2), .fin (2049 / 2)) := by decide +kernel

theorem curvedD_north : rpcI binary64 curvedD (.zero false) (.fin 2) (.zero false) = (.fin (2049 / 2), .fin (67585 / 2)) := by decide +kernel

theorem zero_mul_kind (s : Bool) (a : Num ℚ) : mul binary64 (.zero s) a = .nan ∨ ∃ t, mul binary64 (.zero s) a = .zero t := by
  cases a with
  | nan => exact Or.inl rfl
  | inf t => exact Or.inl rfl
  | zero t => exact Or.inr ⟨_, rfl⟩
  | fin x => exact Or.inr ⟨_, rfl⟩

theorem mul_zero_kind (s : Bool) (a : Num ℚ) : mul binary64 a (.zero s) = .nan ∨ ∃ t, mul binary64 a (.zero s) = .zero t := by
  cases a with
  | nan => exact Or.inl rfl
  | inf t => exact Or.inl rfl
  | zero t => exact Or.inr ⟨_, rfl⟩
  | fin x => exact Or.inr ⟨_, rfl⟩

theorem add_nan (a : Num ℚ) : add binary64 a .nan = .nan := by cases a <;> rfl
theorem mul_nan (a : Num ℚ) : mul binary64 a .nan = .nan := by cases a <;> rfl
theorem nan_mul (a : Num ℚ) : mul binary64 .nan a = .nan := rfl
theorem nan_div (a : Num ℚ) : div binary64 .nan a = .nan := rfl
theorem sub_nan (a : Num ℚ) : sub binary64 a .nan = .nan := by cases a <;> rfl
theorem nan_sub (a : Num ℚ) : sub binary64 .nan a = .nan := rfl

/-- The first update is lost, whatever pixel is asked for. -/
theorem curved_first (t : Target (Num ℚ)) (ht : t.alt = .zero false) : newtonStepI binary64 (rpcI binary64 curvedD) (.fin 2) (.fin 2) t (.zero false, .zero false) = (.nan, .nan) := by
  have e1 : add binary64 (.zero false) (.fin 2) = (.fin 2 : Num ℚ) := by decide +kernel
  have e2 : div binary64 (sub binary64 (.fin (2049 / 2)) (.fin (2049 / 2))) (.fin 2) = (.zero false : Num ℚ) := by decide +kernel
  unfold newtonStepI
  rw [ht]
  simp only [e1, curvedD_centre, curvedD_east, curvedD_north, e2]
  have e3 : sub binary64 (mul binary64 (div binary64 (sub binary64 (.fin (67585 / 2)) (.fin (2049 / 2))) (.fin 2)) (.zero false)) (mul binary64 (.zero false) (.zero false)) =
      (.zero false : Num ℚ) := by decide +kernel
  rw [e3]
  have e4 : ∀ a b : Num ℚ, div binary64 (sub binary64 (mul binary64 a (.zero false)) (mul binary64 (.zero false) b)) (.zero false) = .nan := by
    intro a b
    rcases mul_zero_kind false a with h | ⟨t, h⟩ <;> rcases zero_mul_kind false b with h' | ⟨t', h'⟩ <;> rw [h, h']
    · rfl
    · rfl
    · rfl
    · cases t <;> cases t' <;> rfl
  rw [e4]
  simp only [nan_mul, sub_nan, nan_div, add_nan]

theorem nan_stays (f : Num ℚ → Num ℚ → Num ℚ → Num ℚ × Num ℚ) (d d' : Num ℚ) (t : Target (Num ℚ)) : newtonStepI binary64 f d d' t (.nan, .nan) = (.nan, .nan) := rfl

theorem nan_loop (f : Num ℚ → Num ℚ → Num ℚ → Num ℚ × Num ℚ) (d d' thr : Num ℚ) (ts : List (Target (Num ℚ))) (n : Nat) :
    newtonLoopI binary64 f d d' thr n ts (ts.map (fun _ => (.nan, .nan))) = ts.map (fun _ => (.nan, .nan)) := by
  have e : List.zipWith (newtonStepI binary64 f d d') ts (ts.map (fun _ => (.nan, .nan))) = ts.map (fun _ => (.nan, .nan)) := by
    induction ts with
    | nil => rfl
    | cons t ts ih => simp only [List.map_cons, List.zipWith_cons_cons, nan_stays, ih]
  induction n with
  | zero => rfl
  | succ n ih =>
    unfold newtonLoopI
    simp only [e]
    split
    · rfl
    · exact ih

/-- C202 fails: over the footprint of this image the slopes vary by a sixteenth at most, and not a single pixel can be converted: every request at ground level, whatever the
pixels, the threshold and the number of iterations, is answered with NaN. -/
theorem C202_false : (∀ alt : ℚ, CloseTo curvedQ.project ⟨fun _ => 16384, fun _ => 0, fun _ => 0, fun _ => 0, fun _ => 16384, fun _ => 0⟩ alt
      (fun p => apart p (curvedQ.lonOff, curvedQ.latOff) ≤ curvedQ.lonScale) 1024 0) ∧
    ∀ (meanAlt thr : Num ℚ) (maxIter : Nat) (ts : List (Target (Num ℚ))), 1 ≤ maxIter → ts ≠ [] → (∀ t ∈ ts, t.alt = .zero false) →
      rpcPixelToLonLat binary64 curvedD meanAlt thr maxIter ts = .ok (ts.map (fun _ => (.nan, .nan))) := by
  constructor
  · intro alt p q hp hq
    refine ⟨_, _, curvedQ_project _ _ _, curvedQ_project _ _ _, ?_, ?_⟩
    · have h1 : |p.1| ≤ 1 / 16 := by
        have := (le_max_left _ _).trans hp
        simpa [curvedQ, curved] using this
      have h2 : |q.1| ≤ 1 / 16 := by
        have := (le_max_left _ _).trans hq
        simpa [curvedQ, curved] using this
      have h3 : |p.1 + q.1| ≤ 1 / 8 := (abs_add_le _ _).trans (by linarith)
      have e : ((1024 * (16 * p.1 - (16 * p.1) ^ 2 / 32) + 1024 + 1 / 2 - (1024 * (16 * q.1 - (16 * q.1) ^ 2 / 32) + 1024 + 1 / 2)) - (16384 * (p.1 - q.1) + 0 * (p.2 - q.2))) =
          -(8192 * ((p.1 + q.1) * (p.1 - q.1))) := by ring
      simp only [e, abs_neg, abs_mul]
      have h4 : |p.1 - q.1| ≤ apart p q := le_max_left _ _
      have h5 : |p.1 + q.1| * |p.1 - q.1| ≤ 1 / 8 * apart p q := mul_le_mul h3 h4 (abs_nonneg _) (by norm_num)
      rw [abs_of_pos (by norm_num : (0 : ℚ) < 8192)]
      linarith
    · have e : (1024 * (16 * p.2) + 1024 + 1 / 2 - (1024 * (16 * q.2) + 1024 + 1 / 2)) - (0 * (p.1 - q.1) + 16384 * (p.2 - q.2)) = 0 := by ring
      simp only [e, abs_zero]
      have : 0 ≤ apart p q := (abs_nonneg _).trans (le_max_left _ _)
      linarith
  · intro meanAlt thr maxIter ts hn hts halt
    rw [C201_answers curvedD 0 (1 / 16) rfl (by rw [abs_zero]; positivity) rfl (by norm_num)
      (by rw [abs_of_pos (by norm_num)]; exact le_trans (by norm_num) (one_le_zpow₀ (by norm_num) (by norm_num))) meanAlt thr maxIter ts hts]
    obtain ⟨n, rfl⟩ : ∃ n, maxIter = n + 1 := ⟨maxIter - 1, by omega⟩
    congr 1
    have e0 : (add binary64 (.zero false) curvedD.lonOff, add binary64 (.zero false) curvedD.latOff) = ((.zero false, .zero false) : Num ℚ × Num ℚ) := rfl
    rw [e0]
    have e : List.zipWith (newtonStepI binary64 (rpcI binary64 curvedD) (.fin 2) (.fin 2)) ts (ts.map (fun _ => (.zero false, .zero false))) = ts.map (fun _ => (.nan, .nan)) := by
      clear hts
      induction ts with
      | nil => rfl
      | cons t ts ih =>
        simp only [List.map_cons, List.zipWith_cons_cons]
        rw [curved_first t (halt t (by simp)), ih (fun t' ht' => halt t' (by simp [ht']))]
    unfold newtonLoopI
    simp only [e]
    split
    · rfl
    · exact nan_loop _ _ _ _ _ _

/-- The hypotheses of C201 are met by this image. -/
example : shifts binary64 (rpcI binary64 curvedD) (curvedD.lonOff, curvedD.latOff) (.fin 100) = .ok (.fin 2, .fin 2) :=
  C201_two_degrees curvedD 0 (1 / 16) rfl (by rw [abs_zero]; positivity) rfl (by norm_num)
    (by rw [abs_of_pos (by norm_num)]; exact le_trans (by norm_num) (one_le_zpow₀ (by norm_num) (by norm_num))) _

/-- C202 is not vacuous: an image with an exactly linear model, and a pixel off its centre. -/
def linearQ : Geotiff.Rpc ℚ := curved 0 1 0 1024 (1 / 16)

theorem linearQ_project (lon lat alt : ℚ) : linearQ.project lon lat alt = some (16384 * lon + 1024 + 1 / 2, 16384 * lat + 1024 + 1 / 2) := by
  simp [linearQ, curved, sparse, Geotiff.Rpc.project, Geotiff.computeP, ImageUtils.fdiv]
  constructor <;> ring

example : List.Forall₂ (Reprojects linearQ.project (1 / 100)) [⟨100, 3073 / 2, 1025 / 2⟩]
    (newtonLoop linearQ.project 2 2 (1 / 100) 1000 [⟨100, 3073 / 2, 1025 / 2⟩] [some (0, 0)]) := by
  refine (C202_reaches_partial linearQ ⟨fun _ => 16384, fun _ => 0, fun _ => 0, fun _ => 0, fun _ => 16384, fun _ => 0⟩ (L := 0) (m := 16384) (M := 16384) (ρ := 1) le_rfl
    (by norm_num) (by norm_num) (by norm_num) (by norm_num) [⟨100, 3073 / 2, 1025 / 2⟩] [(1 / 32, -1 / 32)] (.cons ⟨?_, ⟨?_, ?_, ?_⟩, ?_, ?_, ?_⟩ .nil)).1
  · intro p q _ _
    refine ⟨_, _, linearQ_project _ _ _, linearQ_project _ _ _, ?_, ?_⟩
    · have e : (16384 * p.1 + 1024 + 1 / 2 - (16384 * q.1 + 1024 + 1 / 2)) - (16384 * (p.1 - q.1) + 0 * (p.2 - q.2)) = 0 := by ring
      simp only [e, abs_zero]; simp
    · have e : (16384 * p.2 + 1024 + 1 / 2 - (16384 * q.2 + 1024 + 1 / 2)) - (0 * (p.1 - q.1) + 16384 * (p.2 - q.2)) = 0 := by ring
      simp only [e, abs_zero]; simp
  · intro u v
    simp only [zero_mul, add_zero, zero_add, abs_mul]
    rw [abs_of_pos (by norm_num : (0 : ℚ) < 16384), ← mul_max_of_nonneg _ _ (by norm_num : (0 : ℚ) ≤ 16384)]
  · norm_num
  · norm_num
  · norm_num
  · norm_num [apart, linearQ, curved]
  · rw [linearQ_project]; norm_num

end Verif.SolverIeee
