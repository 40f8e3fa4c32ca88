import Verif.Model.FloatPix
import Verif.Props.FloatLens

/-! C207: pixels of the Pix4d camera in double precision. -/

set_option linter.unusedSectionVars false

namespace Verif.FloatGeom
open Verif ImageUtils FloatSpectral PointCalc

theorem divR_some (r : ℝ → ℝ) (n : ℝ) {d : ℝ} (h : d ≠ 0) : divR r n d = some (r (n / d)) := by
  unfold divR fdiv
  rw [if_neg h]
  rfl

/-- One coordinate of the pixel, from the camera frame on. -/
theorem pixAxis_double {r : ℝ → ℝ} (hr : Rounds r (1 / 2 ^ 52)) {n' n d' d θ f N P : ℝ} (rev : Bool) (hn : |n' - n| ≤ θ * |d|) (hd : |d' - d| ≤ θ * |d|) (hd0 : d ≠ 0)
    (hθ : θ ≤ 1 / (2 * 10 ^ 6)) (hx : |n / d| ≤ 1) :
    ∃ v, divR r (r (-f * n')) d' = some v ∧
      |(if rev then r (N - r (v + (if rev then r (N - P) else P))) else r (v + (if rev then r (N - P) else P))) -
        (if rev then N - (-f * n / d + (if rev then N - P else P)) else -f * n / d + (if rev then N - P else P))| ≤
        |f| * (22 / 10 * θ + 10 / 2 ^ 52) + 5 / 2 ^ 52 * (|N| + |P|) := by
  have z0 : 0 < |d| := abs_pos.mpr hd0
  have θ0 : 0 ≤ θ := nonneg_of_mul_nonneg_left ((abs_nonneg _).trans hn) z0
  have hd' : d' ≠ 0 := by
    intro h
    rw [h, zero_sub, abs_neg] at hd
    have := mul_le_mul_of_nonneg_right hθ z0.le
    generalize θ * |d| = w at *
    norm_num at this
    linarith
  -- the quotient, before it is scaled
  have core : ∃ v, divR r (r (-f * n')) d' = some v ∧ |v - -f * n / d| ≤ |f| * (22 / 10 * θ + 7 / 2 ^ 52) := by
    by_cases hf : f = 0
    · subst hf
      have r0 : r 0 = 0 := by have := hr 0; simpa using this
      refine ⟨0, ?_, ?_⟩
      · rw [divR_some r _ hd', neg_zero, zero_mul, r0, zero_div, r0]
      · simp
    · have hg : -f ≠ 0 := neg_ne_zero.mpr hf
      have gp : 0 < |-f| := abs_pos.mpr hg
      -- rounding in units of the focal length
      have hs : Rounds (fun x => r (-f * x) / -f) (1 / 2 ^ 52) := by
        intro x
        have h := hr (-f * x)
        have e : r (-f * x) / -f - x = (r (-f * x) - -f * x) / -f := by rw [sub_div, mul_div_cancel_left₀ _ hg]
        show |r (-f * x) / -f - x| ≤ _
        rw [e, abs_div, div_le_iff₀ gp]
        rw [abs_mul] at h
        linarith [h]
      have hn2 : |r (-f * n') / -f - n| ≤ (θ + 2 / 2 ^ 52) * |d| := by
        have h1 := hs n'
        have h2 := abs_add_le (r (-f * n') / -f - n') (n' - n)
        have h3 := abs_add_le (n' - n) n
        have h4 : |n| ≤ |d| := by rw [abs_div, div_le_one z0] at hx; exact hx
        have h5 := mul_le_mul_of_nonneg_right hθ z0.le
        rw [sub_add_sub_cancel] at h2
        rw [sub_add_cancel] at h3
        simp only [] at h1
        generalize |r (-f * n') / -f - n| = w at *
        generalize |r (-f * n') / -f - n'| = w' at *
        rw [add_mul]
        generalize |d| = D at *
        generalize θ * D = k at *
        clear hs hg gp hr hx hd hd0 hd' hf
        norm_num at *
        linarith
      have hd2 : |d' - d| ≤ (θ + 2 / 2 ^ 52) * |d| := hd.trans (mul_le_mul_of_nonneg_right (by norm_num) z0.le)
      obtain ⟨v, hv, he⟩ := ratio_double hs hn2 hd2 hd0 (show θ + 2 / 2 ^ 52 ≤ 1 / 10 ^ 6 by norm_num at *; linarith) hx
      rw [divR_some _ _ hd', Option.some.injEq] at hv
      refine ⟨r (r (-f * n') / d'), divR_some r _ hd', ?_⟩
      have e1 : -f * (r (-f * n') / -f / d') = r (-f * n') / d' := by rw [← mul_div_assoc, mul_div_cancel₀ _ hg]
      simp only [e1] at hv
      have e2 : r (r (-f * n') / d') - -f * n / d = -f * (v - n / d) := by rw [← hv, mul_sub, mul_div_cancel₀ _ hg, mul_div_assoc]
      rw [e2, abs_mul, abs_neg]
      refine mul_le_mul_of_nonneg_left (he.trans ?_) (abs_nonneg _)
      norm_num
      linarith
  obtain ⟨v, hv, he⟩ := core
  refine ⟨v, hv, ?_⟩
  have hw : |-f * n / d| ≤ |f| := by
    rw [mul_div_assoc, abs_mul, abs_neg]
    exact mul_le_of_le_one_right (abs_nonneg _) hx
  generalize -f * n / d = w at *
  have hfθ : |f| * θ ≤ |f| * (1 / (2 * 10 ^ 6)) := mul_le_mul_of_nonneg_left hθ (abs_nonneg _)
  have f0 := abs_nonneg f
  have n0 := abs_nonneg N
  have p0 := abs_nonneg P
  have fθ0 : 0 ≤ |f| * θ := mul_nonneg f0 θ0
  have he' : |v - w| ≤ 22 / 10 * (|f| * θ) + 7 / 2 ^ 52 * |f| := by
    refine he.trans (le_of_eq ?_); ring
  have goal' : ∀ x, x ≤ 22 / 10 * (|f| * θ) + 10 / 2 ^ 52 * |f| + 5 / 2 ^ 52 * (|N| + |P|) → x ≤ |f| * (22 / 10 * θ + 10 / 2 ^ 52) + 5 / 2 ^ 52 * (|N| + |P|) := by
    intro x h; refine h.trans (le_of_eq ?_); ring
  apply goal'
  generalize |f| * θ = k at *
  have hv1 : |v| ≤ |v - w| + |w| := by have := abs_add_le (v - w) w; rwa [sub_add_cancel] at this
  clear hn hd hd0 hx hv goal' he z0 θ0 hθ
  cases rev
  · simp only [Bool.false_eq_true, if_false]
    have h1 := hr (v + P)
    have h2 := abs_add_le v P
    have h3 := abs_add_le (r (v + P) - (v + P)) (v - w)
    have e : r (v + P) - (w + P) = r (v + P) - (v + P) + (v - w) := by ring
    rw [e]
    generalize |f| = f1 at *
    generalize |N| = N1 at *
    generalize |P| = P1 at *
    generalize |v - w| = b at *
    clear hr
    norm_num at *
    linarith
  · simp only [if_true]
    have a1 := hr (N - P)
    have a2 := abs_sub N P
    generalize r (N - P) = pp at *
    have b1 := hr (v + pp)
    have b2 := abs_add_le v pp
    have b3 : |pp| ≤ |pp - (N - P)| + |N - P| := by have := abs_add_le (pp - (N - P)) (N - P); rwa [sub_add_cancel] at this
    generalize r (v + pp) = x at *
    have c1 := hr (N - x)
    have c2 : |N - x| ≤ |P| + |x - (v + pp)| + |v| + |pp - (N - P)| := by
      have h1 := abs_add_le (P - (x - (v + pp)) - v) (-(pp - (N - P)))
      have h2 := abs_sub (P - (x - (v + pp))) v
      have h3 := abs_sub P (x - (v + pp))
      rw [abs_neg] at h1
      rw [show N - x = P - (x - (v + pp)) - v + -(pp - (N - P)) by ring]
      linarith
    generalize r (N - x) = y at *
    have t1 := abs_sub (y - (N - x) - (x - (v + pp)) - (v - w)) (pp - (N - P))
    have t2 := abs_sub (y - (N - x) - (x - (v + pp))) (v - w)
    have t3 := abs_sub (y - (N - x)) (x - (v + pp))
    rw [show y - (N - (w + (N - P))) = y - (N - x) - (x - (v + pp)) - (v - w) - (pp - (N - P)) by ring]
    generalize |f| = f1 at *
    generalize |N| = N1 at *
    generalize |P| = P1 at *
    generalize |v - w| = b at *
    generalize |N - x| = b7 at *
    generalize |pp - (N - P)| = b5 at *
    generalize |x - (v + pp)| = b6 at *
    clear hr
    norm_num at *
    linarith

/-- C207.  A Pix4d calculator without distortion model, in double precision: for a point within 45 degrees of the optical axis along each axis of the image, seen from a depth `Z`
with `θ` at least `50 u` times its distance (along the axes) relative to the depth, the pixel is finite and within `|f| (2.2 θ + 10 u) + 5 u (|n| + |p|)` of the exact one, `f` the focal
length, `n` the size of the image and `p` the principal point, in pixels. -/
theorem C207_double {r : ℝ → ℝ} (hr : Rounds r (1 / 2 ^ 52)) (t : Fin 3 → DotTree) (ht : ∀ i, (t i).Covers 3) (c : Camera.Pix4d) (hm : c.model = none) (hR : Rotation.IsRotation c.r)
    {θ : ℝ} (p : Fin 3 → ℝ) (hZ : c.camCoords p 2 ≠ 0) (hd : 50 / 2 ^ 52 * dist1 c.trans p ≤ θ * |c.camCoords p 2|) (hθ : θ ≤ 1 / (2 * 10 ^ 6))
    (hx : |c.camCoords p 0 / c.camCoords p 2| ≤ 1) (hy : |c.camCoords p 1 / c.camCoords p 2| ≤ 1) :
    ∃ q q', c.pixel p = .ok (some q) ∧ pixUndistortedR r t c p = some q' ∧
      |q'.1 - q.1| ≤ |c.f| * (22 / 10 * θ + 10 / 2 ^ 52) + 5 / 2 ^ 52 * (|c.nX| + |c.ppx|) ∧
      |q'.2 - q.2| ≤ |c.f| * (22 / 10 * θ + 10 / 2 ^ 52) + 5 / 2 ^ 52 * (|c.nY| + |c.ppy|) := by
  have row : ∀ i, |(t i).eval r (fun n => c.r i (Fin.ofNat 3 n)) (fun n => r (p (Fin.ofNat 3 n) - c.trans (Fin.ofNat 3 n))) - c.camCoords p i| ≤ θ * |c.camCoords p 2| := by
    intro i
    have h := frame_double hr (ht i) (m' := c.r i) (m := c.r i) (xyz' := c.trans) (xyz := c.trans) (p := p) (e := 0)
      (fun j => (Approx.exact (1 / 2 ^ 52) (c.r i j)).mono (by positivity) (by norm_num) (hR.entry_le i j)) (fun j => by simp)
    have e : c.camCoords p i = c.r i 0 * (p 0 - c.trans 0) + c.r i 1 * (p 1 - c.trans 1) + c.r i 2 * (p 2 - c.trans 2) := by
      simp [Camera.Pix4d.camCoords, Matrix.mulVec, dotProduct, Fin.sum_univ_three]
    rw [e]
    refine h.trans ?_
    rw [mul_zero, add_zero]
    exact hd
  obtain ⟨a, ha, ea⟩ := pixAxis_double (f := c.f) (N := c.nX) (P := c.ppx) hr c.revX (row 0) (row 2) hZ hθ hx
  obtain ⟨b, hb, eb⟩ := pixAxis_double (f := c.f) (N := c.nY) (P := c.ppy) hr c.revY (row 1) (row 2) hZ hθ hy
  refine ⟨(if c.revX then c.nX - (-c.f * c.camCoords p 0 / c.camCoords p 2 + c.pp.1) else -c.f * c.camCoords p 0 / c.camCoords p 2 + c.pp.1,
    if c.revY then c.nY - (-c.f * c.camCoords p 1 / c.camCoords p 2 + c.pp.2) else -c.f * c.camCoords p 1 / c.camCoords p 2 + c.pp.2),
    (if c.revX then r (c.nX - r (a + if c.revX then r (c.nX - c.ppx) else c.ppx)) else r (a + if c.revX then r (c.nX - c.ppx) else c.ppx),
      if c.revY then r (c.nY - r (b + if c.revY then r (c.nY - c.ppy) else c.ppy)) else r (b + if c.revY then r (c.nY - c.ppy) else c.ppy)), ?_, ?_, ea, eb⟩
  · unfold Camera.Pix4d.pixel Camera.Pix4d.undistorted
    simp only [hm, fdiv, if_neg hZ]
    rfl
  · unfold pixUndistortedR
    simp only []
    rw [ha, hb]
    rfl

/-- Beside `C207_double`: a camera 100 m above the ground, focal length 4000 pixels, principal point (2000, 1500) in an image of 4000 by 3000, both axes reversed.  A point 30 m and 20 m
off the axis is seen at the pixel (800, 2300), in double precision within a millionth. -/
example : ∃ (c : Camera.Pix4d) (p : Fin 3 → ℝ) (t : DotTree) (q' : ℝ × ℝ), c = ⟨1, ![500000, 4500000, 100], 4000, 3000, 4000, 2000, 1500, 0, 0, 0, 0, 0, none, true, true⟩ ∧
    p = ![500030, 4499980, 0] ∧ pixUndistortedR lib64.r (fun _ => t) c p = some q' ∧ |q'.1 - 800| ≤ 1 / 10 ^ 6 ∧ |q'.2 - 2300| ≤ 1 / 10 ^ 6 := by
  have g : Rounds lib64.r (1 / 2 ^ 52 : ℝ) := fun x => (lib64_good.arith x).trans (mul_le_mul_of_nonneg_right (by norm_num) (abs_nonneg x))
  let t : DotTree := .add (.add (.mul 0) (.mul 1)) (.mul 2)
  have ht : t.Covers 3 := by show List.Perm [0, 1, 2] [0, 1, 2]; exact List.Perm.refl _
  let c : Camera.Pix4d := ⟨1, ![500000, 4500000, 100], 4000, 3000, 4000, 2000, 1500, 0, 0, 0, 0, 0, none, true, true⟩
  let p : Fin 3 → ℝ := ![500030, 4499980, 0]
  have hc : c.camCoords p = ![30, -20, -100] := by
    show (1 : Rotation.M3).mulVec (p - ![500000, 4500000, 100]) = _
    rw [Matrix.one_mulVec]
    ext i
    fin_cases i <;> norm_num [p]
  have c0 : c.camCoords p 0 = 30 := by rw [hc]; rfl
  have c1 : c.camCoords p 1 = -20 := by rw [hc]; rfl
  have c2 : c.camCoords p 2 = -100 := by rw [hc]; rfl
  have hp : dist1 c.trans p = 150 := by
    have q0 : p 0 - c.trans 0 = 30 := by show (500030 : ℝ) - 500000 = 30; norm_num
    have q1 : p 1 - c.trans 1 = -20 := by show (4499980 : ℝ) - 4500000 = -20; norm_num
    have q2 : p 2 - c.trans 2 = -100 := by show (0 : ℝ) - 100 = -100; norm_num
    unfold dist1
    rw [q0, q1, q2]
    norm_num
  have hR : Rotation.IsRotation c.r := by
    show Rotation.IsRotation 1
    constructor <;> simp
  obtain ⟨q, q', h1, h2, h3, h4⟩ := C207_double g (fun _ => t) (fun _ => ht) c rfl hR (θ := 1 / 10 ^ 12) p (by rw [c2]; norm_num) (by rw [hp, c2]; norm_num) (by norm_num)
    (by rw [c0, c2]; norm_num) (by rw [c1, c2]; norm_num)
  have hq : q = (800, 2300) := by
    have : c.pixel p = .ok (some (800, 2300)) := by
      unfold Camera.Pix4d.pixel Camera.Pix4d.undistorted Camera.Pix4d.pp
      simp only [c0, c1, c2]
      norm_num [c, fdiv, bind, Option.bind, Except.bind]
    rw [this] at h1
    exact (Option.some.inj (Except.ok.inj h1)).symm
  subst hq
  refine ⟨c, p, t, q', rfl, rfl, h2, h3.trans ?_, h4.trans ?_⟩ <;> norm_num [c]

end Verif.FloatGeom
