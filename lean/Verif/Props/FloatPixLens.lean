import Verif.Props.FloatPix

/-! C207 with the lens distortion. -/

set_option linter.unusedSectionVars false

namespace Verif.FloatGeom
open Verif ImageUtils FloatSpectral PointCalc

/-- Specification of the library: every operation, the square root and the powers have relative error at most `u`. -/
structure PowLib.Good (L : PowLib) (u : ℝ) : Prop where
  arith : Rounds L.r u
  sqrt : ∀ x, 0 ≤ x → |L.sq x - Real.sqrt x| ≤ u * Real.sqrt x
  power : ∀ x n, |L.pw x n - x ^ n| ≤ u * |x ^ n|

/-- A value off by a relative error `u` from a computed one. -/
theorem Approx.rel {u : ℝ} (hu : 0 ≤ u) {k : ℕ} {x' x s y : ℝ} (h : Approx u k x' x s) (hy : |y - x'| ≤ u * |x'|) : Approx u (k + 1) y x s := by
  have hr : Rounds (fun z => if z = x' then y else z) u := by
    intro z
    simp only []
    split_ifs with hz
    · rw [hz]; exact hy
    · rw [sub_self, abs_zero]; positivity
  have := h.round hr hu
  simpa using this

/-- The lens of a Pix4d calculator, as that of an OpenCV calculator. -/
def pixCV (c : Camera.Pix4d) : Camera.OpenCV := ⟨0, 0, 0, 0, c.k1, c.k2, c.k3, c.t1, c.t2⟩

/-- The square root of a computed sum of squares. -/
theorem sqrtSum_approx {u : ℝ} (hu : 0 ≤ u) (hu1 : u ≤ 1 / 4) {R' R : ℝ} (hR : 0 ≤ R) (h : Approx u 2 R' R R) : 0 ≤ R' ∧ Approx u 2 (Real.sqrt R') (Real.sqrt R) (Real.sqrt R) := by
  have e := h.err
  have g : (1 + u) ^ 2 - 1 ≤ 1 := by nlinarith
  have g0 : 0 ≤ (1 + u) ^ 2 - 1 := by nlinarith
  have hR' : 0 ≤ R' := by
    have h1 := mul_le_mul_of_nonneg_right g hR
    have h2 := neg_abs_le (R' - R)
    linarith
  refine ⟨hR', ?_, by rw [abs_of_nonneg (Real.sqrt_nonneg R)]⟩
  rcases hR.eq_or_lt with h0 | hpos
  · subst h0
    rw [mul_zero] at e
    have : R' = 0 := by have := abs_nonpos_iff.mp e; linarith
    rw [this]
    simp
  · have s0 := Real.sqrt_pos.mpr hpos
    have s1 := Real.sqrt_nonneg R'
    have m : (Real.sqrt R' - Real.sqrt R) * (Real.sqrt R' + Real.sqrt R) = R' - R := by
      have a := Real.mul_self_sqrt hR'
      have b := Real.mul_self_sqrt hR
      linear_combination a - b
    have b := Real.mul_self_sqrt hR
    rw [← m, abs_mul, abs_of_pos (show 0 < Real.sqrt R' + Real.sqrt R by linarith)] at e
    have l := mul_le_mul_of_nonneg_left (show Real.sqrt R ≤ Real.sqrt R' + Real.sqrt R by linarith) (abs_nonneg (Real.sqrt R' - Real.sqrt R))
    have : |Real.sqrt R' - Real.sqrt R| * Real.sqrt R ≤ ((1 + u) ^ 2 - 1) * Real.sqrt R * Real.sqrt R := by
      rw [mul_assoc, b]
      exact l.trans e
    exact le_of_mul_le_mul_right this s0

theorem bendPixR_approx {L : PowLib} {u : ℝ} (h : L.Good u) (hu : 0 ≤ u) (hu1 : u ≤ 1 / 4) (c : Camera.Pix4d) (x y : ℝ) :
    Approx u 24 (bendPixR L c x y).1 ((opencvLens (pixCV c)).bend x y).1 (bendSize (pixCV c) x y) ∧
    Approx u 24 (bendPixR L c x y).2 ((opencvLens (pixCV c)).bend x y).2 (bendSize { pixCV c with p1 := c.t2, p2 := c.t1 } y x) := by
  have hr := h.arith
  have X := Approx.exact u x
  have Y := Approx.exact u y
  have sq : ∀ z, Approx u 1 (L.pw z 2) (z * z) (|z| * |z|) := by
    intro z
    have e : Approx u 0 (z * z) (z * z) (|z| * |z|) := by
      have := Approx.exact u (z * z)
      rwa [abs_mul] at this
    refine e.rel hu ?_
    have := h.power z 2
    rwa [pow_two] at this
  have R2 := (sq x).add hr hu (sq y)
  have R0 : 0 ≤ x * x + y * y := by nlinarith
  have eR : |x| * |x| + |y| * |y| = x * x + y * y := by rw [abs_mul_abs_self, abs_mul_abs_self]
  have R2' : Approx u 2 (L.r (L.pw x 2 + L.pw y 2)) (x * x + y * y) (x * x + y * y) := by rw [← eR]; rw [← eR] at R2; simpa [eR] using R2
  obtain ⟨p0, S⟩ := sqrtSum_approx hu hu1 R0 R2'
  have ρ : Approx u 3 (L.sq (L.r (L.pw x 2 + L.pw y 2))) (Real.sqrt (x * x + y * y)) (Real.sqrt (x * x + y * y)) := by
    refine S.rel hu ?_
    rw [abs_of_nonneg (Real.sqrt_nonneg _)]
    exact h.sqrt _ p0
  have b := Real.mul_self_sqrt R0
  have ρ2 := ρ.mul' hu ρ
  rw [b] at ρ2
  have ρ4 := ρ2.mul' hu ρ2
  have ρ6 := ρ4.mul' hu ρ2
  have T2 := ρ2.rel hu (y := L.pw (L.sq (L.r (L.pw x 2 + L.pw y 2))) 2) (by have := h.power (L.sq (L.r (L.pw x 2 + L.pw y 2))) 2; rwa [pow_two] at this)
  have T4 := ρ4.rel hu (y := L.pw (L.sq (L.r (L.pw x 2 + L.pw y 2))) 4) (by
    have := h.power (L.sq (L.r (L.pw x 2 + L.pw y 2))) 4
    rwa [show ∀ z : ℝ, z ^ 4 = z * z * (z * z) by intro z; ring] at this)
  have T6 := ρ6.rel hu (y := L.pw (L.sq (L.r (L.pw x 2 + L.pw y 2))) 6) (by
    have := h.power (L.sq (L.r (L.pw x 2 + L.pw y 2))) 6
    rwa [show ∀ z : ℝ, z ^ 6 = z * z * (z * z) * (z * z) by intro z; ring] at this)
  have one : Approx u 0 (1 : ℝ) 1 1 := by simpa using Approx.exact u (1 : ℝ)
  have two : Approx u 0 (2 : ℝ) 2 2 := by simpa using Approx.exact u (2 : ℝ)
  have K1 := (Approx.exact u c.k1).mul hr hu R2'
  have K2 := (Approx.exact u c.k2).mul hr hu T4
  have K3 := (Approx.exact u c.k3).mul hr hu T6
  have radial := ((one.add hr hu K1).add hr hu K2).add hr hu K3
  have P1 := Approx.exact u c.t1
  have P2 := Approx.exact u c.t2
  constructor
  · have A := (radial.mul hr hu X).add hr hu (((two.mul hr hu P1).mul hr hu X).mul hr hu Y)
    have B := P2.mul hr hu (T2.add hr hu (two.mul hr hu (sq x)))
    have C := (A.add hr hu B).weaken (l := 24) hu (by decide)
    refine ⟨?_, ?_⟩
    · convert C.err using 1
      · simp only [Lens.bend, opencvLens, pixCV, bendPixR]
        congr 1
        ring
      · simp only [bendSize, pixCV, eR]
        ring
    · convert C.size using 1
      · simp only [Lens.bend, opencvLens, pixCV]
        congr 1
        ring
      · simp only [bendSize, pixCV, eR]
        ring
  · have A := (radial.mul hr hu Y).add hr hu (((two.mul hr hu P2).mul hr hu X).mul hr hu Y)
    have B := P1.mul hr hu (T2.add hr hu (two.mul hr hu (sq y)))
    have C := (A.add hr hu B).weaken (l := 24) hu (by decide)
    have eR' : |y| * |y| + |x| * |x| = x * x + y * y := by rw [add_comm, eR]
    refine ⟨?_, ?_⟩
    · convert C.err using 1
      · simp only [Lens.bend, opencvLens, pixCV, bendPixR]
        congr 1
        ring
      · simp only [bendSize, pixCV, eR']
        ring
    · convert C.size using 1
      · simp only [Lens.bend, opencvLens, pixCV]
        congr 1
        ring
      · simp only [bendSize, pixCV, eR']
        ring

/-- The principal point and the reversal of an axis. -/
theorem reverse_double {r : ℝ → ℝ} (hr : Rounds r (1 / 2 ^ 52)) (rev : Bool) {v w E V N P : ℝ} (he : |v - w| ≤ E) (hv : |v| ≤ V) :
    |(if rev then r (N - r (v + (if rev then r (N - P) else P))) else r (v + (if rev then r (N - P) else P))) -
      (if rev then N - (w + (if rev then N - P else P)) else w + (if rev then N - P else P))| ≤ E + 3 / 2 ^ 52 * V + 5 / 2 ^ 52 * (|N| + |P|) := by
  have n0 := abs_nonneg N
  have p0 := abs_nonneg P
  have v0 := abs_nonneg v
  cases rev
  · simp only [Bool.false_eq_true, if_false]
    have h1 := hr (v + P)
    have h2 := abs_add_le v P
    have h3 := abs_add_le (r (v + P) - (v + P)) (v - w)
    have e : r (v + P) - (w + P) = r (v + P) - (v + P) + (v - w) := by ring
    rw [e]
    generalize |N| = N1 at *
    generalize |P| = P1 at *
    generalize |v - w| = b at *
    generalize |v| = b2 at *
    clear hr
    norm_num at *
    linarith
  · simp only [if_true]
    have a1 := hr (N - P)
    have a2 := abs_sub N P
    generalize r (N - P) = pp at *
    have b1 := hr (v + pp)
    have b2 := abs_add_le v pp
    have b3 : |pp| ≤ |pp - (N - P)| + |N - P| := by have := abs_add_le (pp - (N - P)) (N - P); rwa [sub_add_cancel] at this
    generalize r (v + pp) = x at *
    have c1 := hr (N - x)
    have c2 : |N - x| ≤ |P| + |x - (v + pp)| + |v| + |pp - (N - P)| := by
      have h1 := abs_add_le (P - (x - (v + pp)) - v) (-(pp - (N - P)))
      have h2 := abs_sub (P - (x - (v + pp))) v
      have h3 := abs_sub P (x - (v + pp))
      rw [abs_neg] at h1
      rw [show N - x = P - (x - (v + pp)) - v + -(pp - (N - P)) by ring]
      linarith
    generalize r (N - x) = y at *
    have t1 := abs_sub (y - (N - x) - (x - (v + pp)) - (v - w)) (pp - (N - P))
    have t2 := abs_sub (y - (N - x) - (x - (v + pp))) (v - w)
    have t3 := abs_sub (y - (N - x)) (x - (v + pp))
    rw [show y - (N - (w + (N - P))) = y - (N - x) - (x - (v + pp)) - (v - w) - (pp - (N - P)) by ring]
    generalize |N| = N1 at *
    generalize |P| = P1 at *
    generalize |v - w| = b at *
    generalize |v| = b9 at *
    generalize |N - x| = b7 at *
    generalize |pp - (N - P)| = b5 at *
    generalize |x - (v + pp)| = b6 at *
    clear hr
    norm_num at *
    linarith

/-- C207 with the lens distortion: as `C207_double`, with a slightly larger bound.  `S` is the strength of the lens at 1.1 (about 48 degrees off the optical axis along each axis of the
image); the pixel is finite and within `|f| (1 + S) (2.2 θ + 36 u) + 5 u (|n| + |p|)` of the exact one. -/
theorem C207_lens {L : PowLib} (h : L.Good (1 / 2 ^ 52)) (t : Fin 3 → DotTree) (ht : ∀ i, (t i).Covers 3) (c : Camera.Pix4d) (hm : c.model = some "regular") (hR : Rotation.IsRotation c.r)
    {θ S : ℝ} (hS : (⟨c.k1, c.k2, c.k3, c.t1, c.t2⟩ : Lens ℝ).strength (11 / 10) ≤ S) (p : Fin 3 → ℝ) (hZ : c.camCoords p 2 ≠ 0)
    (hd : 50 / 2 ^ 52 * dist1 c.trans p ≤ θ * |c.camCoords p 2|) (hθ : θ ≤ 1 / 10 ^ 6) (hx : |c.camCoords p 0 / c.camCoords p 2| ≤ 1) (hy : |c.camCoords p 1 / c.camCoords p 2| ≤ 1) :
    ∃ q q', c.pixel p = .ok (some q) ∧ pixDistortedR L t c p = some q' ∧
      |q'.1 - q.1| ≤ |c.f| * (1 + S) * (22 / 10 * θ + 36 / 2 ^ 52) + 5 / 2 ^ 52 * (|c.nX| + |c.ppx|) ∧
      |q'.2 - q.2| ≤ |c.f| * (1 + S) * (22 / 10 * θ + 36 / 2 ^ 52) + 5 / 2 ^ 52 * (|c.nY| + |c.ppy|) := by
  have hr := h.arith
  have hu : (0 : ℝ) ≤ 1 / 2 ^ 52 := by positivity
  have row : ∀ i, |(t i).eval L.r (fun n => c.r i (Fin.ofNat 3 n)) (fun n => L.r (p (Fin.ofNat 3 n) - c.trans (Fin.ofNat 3 n))) - c.camCoords p i| ≤ θ * |c.camCoords p 2| := by
    intro i
    have h := frame_double hr (ht i) (m' := c.r i) (m := c.r i) (xyz' := c.trans) (xyz := c.trans) (p := p) (e := 0)
      (fun j => (Approx.exact (1 / 2 ^ 52) (c.r i j)).mono (by positivity) (by norm_num) (hR.entry_le i j)) (fun j => by simp)
    have e : c.camCoords p i = c.r i 0 * (p 0 - c.trans 0) + c.r i 1 * (p 1 - c.trans 1) + c.r i 2 * (p 2 - c.trans 2) := by
      simp [Camera.Pix4d.camCoords, Matrix.mulVec, dotProduct, Fin.sum_univ_three]
    rw [e]
    refine h.trans ?_
    rw [mul_zero, add_zero]
    exact hd
  have θ0 : 0 ≤ θ := nonneg_of_mul_nonneg_left ((abs_nonneg _).trans (row 0)) (abs_pos.mpr hZ)
  obtain ⟨x', hx', bx⟩ := ratio_double hr (row 0) (row 2) hZ hθ hx
  obtain ⟨y', hy', by'⟩ := ratio_double hr (row 1) (row 2) hZ hθ hy
  generalize hxx : c.camCoords p 0 / c.camCoords p 2 = x at *
  generalize hyy : c.camCoords p 1 / c.camCoords p 2 = y at *
  have x1 : |x'| ≤ 11 / 10 := by
    have := abs_add_le (x' - x) x
    rw [sub_add_cancel] at this
    clear row hd
    norm_num at *
    linarith
  have y1 : |y'| ≤ 11 / 10 := by
    have := abs_add_le (y' - y) y
    rw [sub_add_cancel] at this
    clear row hd
    norm_num at *
    linarith
  -- the lens
  set l := opencvLens (pixCV c) with hl
  have hS' : l.strength (11 / 10) ≤ S := hS
  obtain ⟨A, B⟩ := bendPixR_approx h hu (by norm_num) c x' y'
  have sA := bendSize_le l (pixCV c) ⟨rfl, rfl, rfl⟩ rfl x1 y1
  have sB := bendSize_le l { pixCV c with p1 := c.t2, p2 := c.t1 } ⟨rfl, rfl, rfl⟩ (add_comm _ _) y1 x1
  have sX := bendSize_le l (pixCV c) ⟨rfl, rfl, rfl⟩ rfl (hx.trans (show (1 : ℝ) ≤ 11 / 10 by norm_num)) (hy.trans (by norm_num))
  have sY := bendSize_le l { pixCV c with p1 := c.t2, p2 := c.t1 } ⟨rfl, rfl, rfl⟩ (add_comm _ _) (hy.trans (show (1 : ℝ) ≤ 11 / 10 by norm_num)) (hx.trans (by norm_num))
  obtain ⟨A0, B0⟩ := bendR_approx (r := id) (u := 0) (fun x => by simp) le_rfl (pixCV c) x y
  obtain ⟨l1, l2⟩ := l.bend_close (q := 11 / 10) (P := (x', y')) (Q := (x, y)) x1 y1 (hx.trans (by norm_num)) (hy.trans (by norm_num))
  have ap : apart (x', y') (x, y) ≤ 21 / 10 * θ + 2 / 2 ^ 52 := max_le bx by'
  have st0 : 0 ≤ l.strength (11 / 10) := by unfold Lens.strength; positivity
  have S0 := st0.trans hS'
  have sl := mul_le_mul hS' ap (apart_nonneg _ _) S0
  have g24 : ((1 + 1 / 2 ^ 52 : ℝ) ^ 24 - 1) ≤ 25 / 2 ^ 52 := by norm_num
  have lens : ∀ (b' m e δ s : ℝ), |b' - m| ≤ ((1 + 1 / 2 ^ 52 : ℝ) ^ 24 - 1) * s → s ≤ 11 / 10 * (1 + l.strength (11 / 10)) → 0 ≤ s →
      |m - e - δ| ≤ l.strength (11 / 10) * apart (x', y') (x, y) →
      |δ| ≤ 21 / 10 * θ + 2 / 2 ^ 52 → |b' - e| ≤ (1 + S) * (21 / 10 * θ + 30 / 2 ^ 52) := by
    intro b' m e δ s ha hs hs0 hl' hδ
    have h1 := mul_le_mul g24 (hs.trans (show _ ≤ 11 / 10 * (1 + S) by linarith)) hs0 (by norm_num)
    have h2 := abs_add_le (b' - m) (m - e - δ + δ)
    have h3 := abs_add_le (m - e - δ) δ
    rw [sub_add_cancel, sub_add_sub_cancel] at h2
    rw [sub_add_cancel] at h3
    have e1 : (1 + S) * (21 / 10 * θ + 30 / 2 ^ 52) = 21 / 10 * θ + 30 / 2 ^ 52 + 21 / 10 * (S * θ) + 30 / 2 ^ 52 * S := by ring
    have e2 : S * (21 / 10 * θ + 2 / 2 ^ 52) = 21 / 10 * (S * θ) + 2 / 2 ^ 52 * S := by ring
    rw [e1]
    rw [e2] at sl
    generalize ((1 + 1 / 2 ^ 52 : ℝ) ^ 24 - 1) * s = z at *
    generalize l.strength (11 / 10) * apart (x', y') (x, y) = z' at *
    generalize S * θ = z'' at *
    generalize |b' - e| = w1 at *
    generalize |b' - m| = w2 at *
    generalize |m - e - δ| = w3 at *
    generalize |m - e| = w4 at *
    generalize |δ| = w5 at *
    clear g24 sA sB sX sY A B A0 B0 ap l1 l2 hx' hy' hxx hyy bx by' x1 y1 row hd hS hS' h hr
    norm_num at *
    linarith
  have lx := lens _ _ _ _ _ A.err sA A.nonneg l1 bx
  have ly := lens _ _ _ _ _ B.err sB B.nonneg l2 by'
  have bx50 : |(l.bend x y).1| ≤ 11 / 10 * (1 + S) := A0.size.trans (sX.trans (by linarith))
  have by50 : |(l.bend x y).2| ≤ 11 / 10 * (1 + S) := B0.size.trans (sY.trans (by linarith))
  -- pixels
  have axis : ∀ (rev : Bool) (v' v N P : ℝ), |v' - v| ≤ (1 + S) * (21 / 10 * θ + 30 / 2 ^ 52) → |v| ≤ 11 / 10 * (1 + S) →
      |(if rev then L.r (N - L.r (L.r (-c.f * v') + (if rev then L.r (N - P) else P))) else L.r (L.r (-c.f * v') + (if rev then L.r (N - P) else P))) -
        (if rev then N - (-c.f * v + (if rev then N - P else P)) else -c.f * v + (if rev then N - P else P))| ≤
        |c.f| * (1 + S) * (22 / 10 * θ + 36 / 2 ^ 52) + 5 / 2 ^ 52 * (|N| + |P|) := by
    intro rev v' v N P hv hb
    have k0 : 0 ≤ |c.f| * (1 + S) := mul_nonneg (abs_nonneg _) (by linarith)
    have kθ := mul_le_mul_of_nonneg_left hθ k0
    have kθ0 := mul_nonneg k0 θ0
    have b1 : |-c.f * v' - -c.f * v| ≤ 21 / 10 * (|c.f| * (1 + S) * θ) + 30 / 2 ^ 52 * (|c.f| * (1 + S)) := by
      rw [← mul_sub, abs_mul, abs_neg]
      refine (mul_le_mul_of_nonneg_left hv (abs_nonneg _)).trans (le_of_eq (by ring))
    have b2 : |-c.f * v| ≤ 11 / 10 * (|c.f| * (1 + S)) := by
      rw [abs_mul, abs_neg]
      exact (mul_le_mul_of_nonneg_left hb (abs_nonneg _)).trans (le_of_eq (by ring))
    have b3 := hr (-c.f * v')
    have b4 : |-c.f * v'| ≤ |-c.f * v' - -c.f * v| + |-c.f * v| := by have := abs_add_le (-c.f * v' - -c.f * v) (-c.f * v); rwa [sub_add_cancel] at this
    have b5 : |L.r (-c.f * v') - -c.f * v| ≤ |L.r (-c.f * v') - -c.f * v'| + |-c.f * v' - -c.f * v| := abs_sub_le _ _ _
    have b6 : |L.r (-c.f * v')| ≤ |L.r (-c.f * v') - -c.f * v'| + |-c.f * v'| := by have := abs_add_le (L.r (-c.f * v') - -c.f * v') (-c.f * v'); rwa [sub_add_cancel] at this
    have e1 : |c.f| * (1 + S) * (22 / 10 * θ + 36 / 2 ^ 52) = 22 / 10 * (|c.f| * (1 + S) * θ) + 36 / 2 ^ 52 * (|c.f| * (1 + S)) := by ring
    refine (reverse_double hr rev b5 b6).trans ?_
    rw [e1]
    generalize |L.r (-c.f * v') - -c.f * v'| = w1 at *
    generalize |-c.f * v' - -c.f * v| = w2 at *
    generalize |-c.f * v'| = w3 at *
    generalize |-c.f * v| = w4 at *
    generalize |c.f| * (1 + S) * θ = w5 at *
    generalize |c.f| * (1 + S) = w6 at *
    generalize 5 / 2 ^ 52 * (|N| + |P|) = w7 at *
    clear b5 b6 hv hb e1 lens g24 sA sB sX sY A B A0 B0 ap l1 l2 hx' hy' hxx hyy bx by' x1 y1 row hd hS hS' h hr lx ly bx50 by50 sl
    norm_num at *
    linarith
  refine ⟨(if c.revX then c.nX - (-c.f * (l.bend x y).1 + c.pp.1) else -c.f * (l.bend x y).1 + c.pp.1,
    if c.revY then c.nY - (-c.f * (l.bend x y).2 + c.pp.2) else -c.f * (l.bend x y).2 + c.pp.2),
    (if c.revX then L.r (c.nX - L.r (L.r (-c.f * (bendPixR L c x' y').1) + if c.revX then L.r (c.nX - c.ppx) else c.ppx))
      else L.r (L.r (-c.f * (bendPixR L c x' y').1) + if c.revX then L.r (c.nX - c.ppx) else c.ppx),
      if c.revY then L.r (c.nY - L.r (L.r (-c.f * (bendPixR L c x' y').2) + if c.revY then L.r (c.nY - c.ppy) else c.ppy))
      else L.r (L.r (-c.f * (bendPixR L c x' y').2) + if c.revY then L.r (c.nY - c.ppy) else c.ppy)), ?_, ?_, axis c.revX _ _ c.nX c.ppx lx bx50, axis c.revY _ _ c.nY c.ppy ly by50⟩
  · have R0 : 0 ≤ x ^ 2 + y ^ 2 := by positivity
    have e2 := Real.sq_sqrt R0
    have e4 : Real.sqrt (x ^ 2 + y ^ 2) ^ 4 = (x ^ 2 + y ^ 2) ^ 2 := by rw [show ∀ z : ℝ, z ^ 4 = (z ^ 2) ^ 2 by intro z; ring, e2]
    have e6 : Real.sqrt (x ^ 2 + y ^ 2) ^ 6 = (x ^ 2 + y ^ 2) ^ 3 := by rw [show ∀ z : ℝ, z ^ 6 = (z ^ 2) ^ 3 by intro z; ring, e2]
    have hdist : c.distorted (c.camCoords p) = some (-c.f * (l.bend x y).1 + c.pp.1, -c.f * (l.bend x y).2 + c.pp.2) := by
      unfold Camera.Pix4d.distorted
      simp only [fdiv, if_neg hZ, hxx, hyy, e2, e4, e6, Option.bind_eq_bind, Option.bind_some, Option.some.injEq, Prod.mk.injEq]
      constructor
      · simp only [hl, Lens.bend, opencvLens, pixCV]
      · simp only [hl, Lens.bend, opencvLens, pixCV]; ring
    unfold Camera.Pix4d.pixel
    simp only [hm, if_true, hdist]
    rfl
  · unfold pixDistortedR
    simp only []
    rw [hx', hy']
    rfl

/-- Beside `C207_lens`: a camera 100 m above the ground with radial distortion 1/100, focal length 4000 pixels; a point 30 m off the axis, in double precision, within a millionth of a pixel. -/
example : ∃ (L : PowLib) (c : Camera.Pix4d) (p : Fin 3 → ℝ) (t : DotTree) (q q' : ℝ × ℝ), L.r = lib64.r ∧
    c = ⟨1, ![500000, 4500000, 100], 4000, 3000, 4000, 2000, 1500, 0, 0, 1 / 100, 0, 0, some "regular", true, true⟩ ∧ p = ![500030, 4500000, 0] ∧
    c.pixel p = .ok (some q) ∧ pixDistortedR L (fun _ => t) c p = some q' ∧ |q'.1 - q.1| ≤ 1 / 10 ^ 6 ∧ |q'.2 - q.2| ≤ 1 / 10 ^ 6 := by
  have g : Rounds lib64.r (1 / 2 ^ 52 : ℝ) := fun x => (lib64_good.arith x).trans (mul_le_mul_of_nonneg_right (by norm_num) (abs_nonneg x))
  let L : PowLib := ⟨lib64.r, fun x => lib64.r (Real.sqrt x), fun x n => lib64.r (x ^ n)⟩
  have hL : L.Good (1 / 2 ^ 52) := ⟨g, fun x _ => by
    have := g (Real.sqrt x)
    rwa [abs_of_nonneg (Real.sqrt_nonneg x)] at this, fun x n => g (x ^ n)⟩
  let t : DotTree := .add (.add (.mul 0) (.mul 1)) (.mul 2)
  have ht : t.Covers 3 := by show List.Perm [0, 1, 2] [0, 1, 2]; exact List.Perm.refl _
  let c : Camera.Pix4d := ⟨1, ![500000, 4500000, 100], 4000, 3000, 4000, 2000, 1500, 0, 0, 1 / 100, 0, 0, some "regular", true, true⟩
  let p : Fin 3 → ℝ := ![500030, 4500000, 0]
  have hc : c.camCoords p = ![30, 0, -100] := by
    show (1 : Rotation.M3).mulVec (p - ![500000, 4500000, 100]) = _
    rw [Matrix.one_mulVec]
    ext i
    fin_cases i <;> norm_num [p]
  have c0 : c.camCoords p 0 = 30 := by rw [hc]; rfl
  have c1 : c.camCoords p 1 = 0 := by rw [hc]; rfl
  have c2 : c.camCoords p 2 = -100 := by rw [hc]; rfl
  have hp : dist1 c.trans p = 130 := by
    have q0 : p 0 - c.trans 0 = 30 := by show (500030 : ℝ) - 500000 = 30; norm_num
    have q1 : p 1 - c.trans 1 = 0 := by show (4500000 : ℝ) - 4500000 = 0; norm_num
    have q2 : p 2 - c.trans 2 = -100 := by show (0 : ℝ) - 100 = -100; norm_num
    unfold dist1
    rw [q0, q1, q2]
    norm_num
  have hR : Rotation.IsRotation c.r := by
    show Rotation.IsRotation 1
    constructor <;> simp
  obtain ⟨q, q', h1, h2, h3, h4⟩ := C207_lens hL (fun _ => t) (fun _ => ht) c rfl hR (θ := 1 / 10 ^ 12) (S := 1 / 10) (by simp only [Lens.strength, c]; norm_num) p (by rw [c2]; norm_num)
    (by rw [hp, c2]; norm_num) (by norm_num) (by rw [c0, c2]; norm_num) (by rw [c1, c2]; norm_num)
  refine ⟨L, c, p, t, q, q', rfl, rfl, rfl, h1, h2, h3.trans ?_, h4.trans ?_⟩ <;> norm_num [c]

end Verif.FloatGeom
