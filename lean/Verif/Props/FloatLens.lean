import Verif.Model.FloatLens
import Verif.Props.LensCamera

/-! C183: pixels of the OpenCV camera in double precision. -/

set_option linter.unusedSectionVars false

namespace Verif.FloatGeom
open Verif ImageUtils FloatSpectral PointCalc

/-- The distortion with every term replaced by its absolute value. -/
noncomputable def bendSize (c : Camera.OpenCV) (x y : ℝ) : ℝ :=
  |x| * (1 + |c.k1| * (|x| * |x| + |y| * |y|) + |c.k2| * ((|x| * |x| + |y| * |y|) * (|x| * |x| + |y| * |y|)) +
    |c.k3| * ((|x| * |x| + |y| * |y|) * (|x| * |x| + |y| * |y|) * (|x| * |x| + |y| * |y|))) + 2 * |c.p1| * |x| * |y| + |c.p2| * (|x| * |x| + |y| * |y| + 2 * |x| * |x|)

/-- The lens of an OpenCV calculator. -/
def opencvLens (c : Camera.OpenCV) : Lens ℝ := ⟨c.k1, c.k2, c.k3, c.p1, c.p2⟩

theorem bendR_approx {r : ℝ → ℝ} {u : ℝ} (hr : Rounds r u) (hu : 0 ≤ u) (c : Camera.OpenCV) (x y : ℝ) :
    Approx u 13 (bendR r c x y).1 ((opencvLens c).bend x y).1 (bendSize c x y) ∧
    Approx u 13 (bendR r c x y).2 ((opencvLens c).bend x y).2 (bendSize { c with p1 := c.p2, p2 := c.p1 } y x) := by
  have X := Approx.exact u x
  have Y := Approx.exact u y
  have R2 := (X.mul hr hu X).add hr hu (Y.mul hr hu Y)
  have R4 := R2.mul hr hu R2
  have R6 := R4.mul hr hu R2
  have one : Approx u 0 (1 : ℝ) 1 1 := by simpa using Approx.exact u (1 : ℝ)
  have two : Approx u 0 (2 : ℝ) 2 2 := by simpa using Approx.exact u (2 : ℝ)
  have K1 := (Approx.exact u c.k1).mul hr hu R2
  have K2 := (Approx.exact u c.k2).mul hr hu R4
  have K3 := (Approx.exact u c.k3).mul hr hu R6
  have radial := ((one.add hr hu K1).add hr hu K2).add hr hu K3
  have P1 := Approx.exact u c.p1
  have P2 := Approx.exact u c.p2
  constructor
  · have A := (X.mul hr hu radial).add hr hu (((two.mul hr hu P1).mul hr hu X).mul hr hu Y)
    have B := P2.mul hr hu (R2.add hr hu ((two.mul hr hu X).mul hr hu X))
    have C := (A.add hr hu B).weaken (l := 13) hu (by decide)
    refine ⟨?_, ?_⟩
    · convert C.err using 1
      · simp only [Lens.bend, opencvLens, bendR]
        congr 1
        ring
      · simp only [bendSize]
    · convert C.size using 1
      · simp only [Lens.bend, opencvLens]
        congr 1
        ring
      · simp only [bendSize]
  · have A := (Y.mul hr hu radial).add hr hu (P1.mul hr hu (R2.add hr hu ((two.mul hr hu Y).mul hr hu Y)))
    have B := ((two.mul hr hu P2).mul hr hu X).mul hr hu Y
    have C := (A.add hr hu B).weaken (l := 13) hu (by decide)
    refine ⟨?_, ?_⟩
    · convert C.err using 1
      · simp only [Lens.bend, opencvLens, bendR]
        congr 1
        ring
      · simp only [bendSize]
        ring
    · convert C.size using 1
      · simp only [Lens.bend, opencvLens]
        congr 1
        ring
      · simp only [bendSize]
        ring

/-- The distorted position is bounded by the lens's strength. -/
theorem bendSize_le (l : Lens ℝ) (c : Camera.OpenCV) (hl : l.k1 = c.k1 ∧ l.k2 = c.k2 ∧ l.k3 = c.k3) (hp : |l.p1| + |l.p2| = |c.p1| + |c.p2|) {x y q : ℝ} (hx : |x| ≤ q) (hy : |y| ≤ q) :
    bendSize c x y ≤ q * (1 + l.strength q) := by
  unfold bendSize Lens.strength
  rw [hl.1, hl.2.1, hl.2.2, hp]
  have x0 := abs_nonneg x
  have y0 := abs_nonneg y
  have k10 := abs_nonneg c.k1
  have k20 := abs_nonneg c.k2
  have k30 := abs_nonneg c.k3
  have p10 := abs_nonneg c.p1
  have p20 := abs_nonneg c.p2
  have q0 : 0 ≤ q := x0.trans hx
  generalize |x| = a at *
  generalize |y| = b at *
  generalize |c.k1| = k1 at *
  generalize |c.k2| = k2 at *
  generalize |c.k3| = k3 at *
  generalize |c.p1| = p1 at *
  generalize |c.p2| = p2 at *
  have aa : a * a ≤ q ^ 2 := by nlinarith
  have bb : b * b ≤ q ^ 2 := by nlinarith
  have ab : a * b ≤ q ^ 2 := by nlinarith
  have ρ0 : 0 ≤ a * a + b * b := by positivity
  have ρ1 : a * a + b * b ≤ 2 * q ^ 2 := by linarith
  have ρ2 : (a * a + b * b) * (a * a + b * b) ≤ 4 * q ^ 4 := (mul_le_mul ρ1 ρ1 ρ0 (by positivity)).trans (le_of_eq (by ring))
  have ρ3 : (a * a + b * b) * (a * a + b * b) * (a * a + b * b) ≤ 8 * q ^ 6 := (mul_le_mul ρ2 ρ1 ρ0 (by positivity)).trans (le_of_eq (by ring))
  have s1 := mul_le_mul_of_nonneg_left ρ1 k10
  have s2 := mul_le_mul_of_nonneg_left ρ2 k20
  have s3 := mul_le_mul_of_nonneg_left ρ3 k30
  have s4 := mul_le_mul hx (show 1 + k1 * (a * a + b * b) + k2 * ((a * a + b * b) * (a * a + b * b)) + k3 * ((a * a + b * b) * (a * a + b * b) * (a * a + b * b)) ≤
    1 + k1 * (2 * q ^ 2) + k2 * (4 * q ^ 4) + k3 * (8 * q ^ 6) by linarith) (by positivity) q0
  have s5 := mul_le_mul_of_nonneg_left ab p10
  have s6 := mul_le_mul_of_nonneg_left (show a * a + b * b + 2 * a * a ≤ 4 * q ^ 2 by linarith) p20
  have e : 2 * p1 * a * b = 2 * (p1 * (a * b)) := by ring
  rw [e]
  have t1 : 0 ≤ q * (k1 * q ^ 2) := by positivity
  have t2 : 0 ≤ q * (k2 * q ^ 4) := by positivity
  have t3 : 0 ≤ q * (k3 * q ^ 6) := by positivity
  have t4 : 0 ≤ p1 * q ^ 2 := by positivity
  have t5 : 0 ≤ p2 * q ^ 2 := by positivity
  have e2 : q * (1 + (6 * k1 * q ^ 2 + 20 * k2 * q ^ 4 + 56 * k3 * q ^ 6 + 8 * (p1 + p2) * q)) =
    q + 6 * (q * (k1 * q ^ 2)) + 20 * (q * (k2 * q ^ 4)) + 56 * (q * (k3 * q ^ 6)) + 8 * (p1 * q ^ 2) + 8 * (p2 * q ^ 2) := by ring
  have e3 : q * (1 + k1 * (2 * q ^ 2) + k2 * (4 * q ^ 4) + k3 * (8 * q ^ 6)) = q + 2 * (q * (k1 * q ^ 2)) + 4 * (q * (k2 * q ^ 4)) + 8 * (q * (k3 * q ^ 6)) := by ring
  rw [e2]
  rw [e3] at s4
  have e4 : p2 * (4 * q ^ 2) = 4 * (p2 * q ^ 2) := by ring
  rw [e4] at s6
  linarith

/-- One coordinate of the perspective: the relative precision `θ` of the camera frame is that of the quotient up to a factor of about two. -/
theorem ratio_double {r : ℝ → ℝ} (hr : Rounds r (1 / 2 ^ 52)) {n' n d' d θ : ℝ} (hn : |n' - n| ≤ θ * |d|) (hd : |d' - d| ≤ θ * |d|) (hd0 : d ≠ 0) (hθ : θ ≤ 1 / 10 ^ 6)
    (hx : |n / d| ≤ 1) : ∃ v, divR r n' d' = some v ∧ |v - n / d| ≤ 21 / 10 * θ + 2 / 2 ^ 52 := by
  have z0 : 0 < |d| := abs_pos.mpr hd0
  have θ0 : 0 ≤ θ := nonneg_of_mul_nonneg_left ((abs_nonneg _).trans hn) z0
  have sm := mul_le_mul_of_nonneg_right hθ z0.le
  have lt : θ * |d| < |d| := by
    generalize θ * |d| = z at *
    generalize |d| = z' at *
    norm_num at *
    linarith
  obtain ⟨h0, hq⟩ := quotient_err hn hd lt
  have hq' : |n' / d' - n / d| ≤ 205 / 100 * θ := by
    refine hq.trans ?_
    rw [div_le_iff₀ (by linarith)]
    have h1 : |n / d| * (θ * |d|) ≤ 1 * (θ * |d|) := mul_le_mul_of_nonneg_right hx (by positivity)
    have h2 : θ * (θ * |d|) ≤ 1 / 10 ^ 6 * (θ * |d|) := mul_le_mul_of_nonneg_right hθ (by positivity)
    have h3 : 0 ≤ θ * |d| := by positivity
    have e : 205 / 100 * θ * (|d| - θ * |d|) = 205 / 100 * (θ * |d|) - 205 / 100 * (θ * (θ * |d|)) := by ring
    rw [e]
    generalize |n / d| * (θ * |d|) = z at *
    generalize θ * (θ * |d|) = z' at *
    generalize θ * |d| = z'' at *
    norm_num at *
    linarith
  refine ⟨r (n' / d'), by simp [divR, fdiv, h0], ?_⟩
  have a1 := hr (n' / d')
  have a2 := abs_add_le (n' / d' - n / d) (n / d)
  rw [sub_add_cancel] at a2
  have a3 := abs_add_le (r (n' / d') - n' / d') (n' / d' - n / d)
  rw [sub_add_sub_cancel] at a3
  generalize |n' / d'| = z at *
  generalize |n' / d' - n / d| = z1 at *
  generalize |n / d| = z2 at *
  norm_num at *
  linarith

/-- The last operations: scale to pixels and add the principal point. -/
theorem scale_double {r : ℝ → ℝ} (hr : Rounds r (1 / 2 ^ 52)) {s o v' v F G θ : ℝ} (hs : |s| ≤ F) (hθ0 : 0 ≤ θ) (hθ : θ ≤ 1 / 10 ^ 6) (hv : |v' - v| ≤ G * (21 / 10 * θ + 20 / 2 ^ 52)) (hb : |v| ≤ 11 / 10 * G) :
    |r (r (s * v') + o) - (s * v + o)| ≤ F * G * (3 * θ + 25 / 2 ^ 52) + 2 / 2 ^ 52 * |o| := by
  have F0 : 0 ≤ F := (abs_nonneg _).trans hs
  have G0 : 0 ≤ G := by linarith [abs_nonneg v]
  have b1 : |s * v' - s * v| ≤ F * (G * (21 / 10 * θ + 20 / 2 ^ 52)) := by
    rw [← mul_sub, abs_mul]
    exact mul_le_mul hs hv (abs_nonneg _) F0
  have b2 : |s * v| ≤ F * (11 / 10 * G) := by
    rw [abs_mul]
    exact mul_le_mul hs hb (abs_nonneg _) F0
  have b3 := abs_add_le (s * v' - s * v) (s * v)
  rw [sub_add_cancel] at b3
  have b4 := hr (s * v')
  have b5 := hr (r (s * v') + o)
  have b6 : |r (s * v') + o - (s * v + o)| ≤ |r (s * v') - s * v'| + |s * v' - s * v| := by
    have e : r (s * v') + o - (s * v + o) = (r (s * v') - s * v') + (s * v' - s * v) := by ring
    rw [e]
    exact abs_add_le _ _
  have b7 := abs_add_le (r (s * v') + o - (s * v + o)) (s * v + o)
  rw [sub_add_cancel] at b7
  have b8 := abs_add_le (s * v) o
  have b9 := abs_add_le (r (r (s * v') + o) - (r (s * v') + o)) (r (s * v') + o - (s * v + o))
  rw [sub_add_sub_cancel] at b9
  have FG : 0 ≤ F * G := by positivity
  have FGθ : 0 ≤ F * G * θ := by positivity
  have FGθ' := mul_le_mul_of_nonneg_left hθ FG
  have e1 : F * (G * (21 / 10 * θ + 20 / 2 ^ 52)) = 21 / 10 * (F * G * θ) + 20 / 2 ^ 52 * (F * G) := by ring
  have e2 : F * (11 / 10 * G) = 11 / 10 * (F * G) := by ring
  have e3 : F * G * (3 * θ + 25 / 2 ^ 52) = 3 * (F * G * θ) + 25 / 2 ^ 52 * (F * G) := by ring
  rw [e1] at b1
  rw [e2] at b2
  rw [e3]
  generalize F * G * θ = g at *
  generalize F * G = h at *
  generalize |r (r (s * v') + o) - (s * v + o)| = t1 at *
  generalize |r (r (s * v') + o) - (r (s * v') + o)| = t2 at *
  generalize |r (s * v') + o - (s * v + o)| = t3 at *
  generalize |r (s * v') + o| = t4 at *
  generalize |r (s * v') - s * v'| = t5 at *
  generalize |s * v' - s * v| = t6 at *
  generalize |s * v'| = t7 at *
  generalize |s * v + o| = t8 at *
  generalize |s * v| = t9 at *
  have o0 := abs_nonneg o
  generalize |o| = o' at *
  norm_num at *
  linarith

/-- A point in the camera's frame, computed from a computed orientation and a computed position. -/
theorem frame_double {r : ℝ → ℝ} (hr : Rounds r (1 / 2 ^ 52)) {t : DotTree} (ht : t.Covers 3) {m' m xyz' xyz p : Fin 3 → ℝ} (hm : ∀ j, Approx (1 / 2 ^ 52) 45 (m' j) (m j) 1) {e : ℝ}
    (he : ∀ j, |xyz' j - xyz j| ≤ e) :
    |t.eval r (fun n => m' (Fin.ofNat 3 n)) (fun n => r (p (Fin.ofNat 3 n) - xyz' (Fin.ofNat 3 n))) - (m 0 * (p 0 - xyz 0) + m 1 * (p 1 - xyz 1) + m 2 * (p 2 - xyz 2))| ≤
      50 / 2 ^ 52 * dist1 xyz p + 4 * e := by
  have hu : (0 : ℝ) ≤ 1 / 2 ^ 52 := by positivity
  have := dot_approx hr hu (fun n => hm (Fin.ofNat 3 n)) (fun n => Approx.diff hr hu (p (Fin.ofNat 3 n)) (xyz' (Fin.ofNat 3 n))) t
  rw [perm_sum ht (fun n => m (Fin.ofNat 3 n) * (p (Fin.ofNat 3 n) - xyz' (Fin.ofNat 3 n))),
    perm_sum ht (fun n => 1 * |p (Fin.ofNat 3 n) - xyz' (Fin.ofNat 3 n)|), ht.length_eq, List.length_range] at this
  simp only [Finset.sum_range_succ, Finset.sum_range_zero, zero_add, one_mul] at this
  have e1 : |t.eval r (fun n => m' (Fin.ofNat 3 n)) (fun n => r (p (Fin.ofNat 3 n) - xyz' (Fin.ofNat 3 n))) - (m 0 * (p 0 - xyz' 0) + m 1 * (p 1 - xyz' 1) + m 2 * (p 2 - xyz' 2))| ≤
      ((1 + 1 / 2 ^ 52) ^ (45 + 1 + 3) - 1) * dist1 xyz' p := this.err
  have d0 : 0 ≤ dist1 xyz' p := by unfold dist1; positivity
  have e2 := e1.trans (mul_le_mul_of_nonneg_right (show ((1 + 1 / 2 ^ 52 : ℝ) ^ (45 + 1 + 3) - 1) ≤ 50 / 2 ^ 52 by norm_num) d0)
  have hd : dist1 xyz' p ≤ dist1 xyz p + 3 * e := by
    have tri : ∀ j, |p j - xyz' j| ≤ |p j - xyz j| + e := fun j => by
      have h1 := abs_add_le (p j - xyz j) (xyz j - xyz' j)
      rw [sub_add_sub_cancel] at h1
      have h2 := he j
      rw [abs_sub_comm] at h2
      linarith
    unfold dist1
    linarith [tri 0, tri 1, tri 2]
  have sh : |(m 0 * (p 0 - xyz' 0) + m 1 * (p 1 - xyz' 1) + m 2 * (p 2 - xyz' 2)) - (m 0 * (p 0 - xyz 0) + m 1 * (p 1 - xyz 1) + m 2 * (p 2 - xyz 2))| ≤ 3 * e := by
    have eq : (m 0 * (p 0 - xyz' 0) + m 1 * (p 1 - xyz' 1) + m 2 * (p 2 - xyz' 2)) - (m 0 * (p 0 - xyz 0) + m 1 * (p 1 - xyz 1) + m 2 * (p 2 - xyz 2)) =
      m 0 * (xyz 0 - xyz' 0) + m 1 * (xyz 1 - xyz' 1) + m 2 * (xyz 2 - xyz' 2) := by ring
    have q : ∀ j, |m j * (xyz j - xyz' j)| ≤ e := fun j => by
      rw [abs_mul, abs_sub_comm]
      exact (mul_le_mul (hm j).size (he j) (abs_nonneg _) (by norm_num)).trans (by rw [one_mul])
    rw [eq]
    have h1 := abs_add_le (m 0 * (xyz 0 - xyz' 0) + m 1 * (xyz 1 - xyz' 1)) (m 2 * (xyz 2 - xyz' 2))
    have h2 := abs_add_le (m 0 * (xyz 0 - xyz' 0)) (m 1 * (xyz 1 - xyz' 1))
    linarith [q 0, q 1, q 2]
  have f := abs_add_le (t.eval r (fun n => m' (Fin.ofNat 3 n)) (fun n => r (p (Fin.ofNat 3 n) - xyz' (Fin.ofNat 3 n))) - (m 0 * (p 0 - xyz' 0) + m 1 * (p 1 - xyz' 1) + m 2 * (p 2 - xyz' 2)))
    ((m 0 * (p 0 - xyz' 0) + m 1 * (p 1 - xyz' 1) + m 2 * (p 2 - xyz' 2)) - (m 0 * (p 0 - xyz 0) + m 1 * (p 1 - xyz 1) + m 2 * (p 2 - xyz 2)))
  rw [sub_add_sub_cancel] at f
  have he0 : 0 ≤ e := (abs_nonneg _).trans (he 0)
  have e3 := e2.trans (mul_le_mul_of_nonneg_left hd (show (0 : ℝ) ≤ 50 / 2 ^ 52 by norm_num))
  refine f.trans ((add_le_add e3 sh).trans ?_)
  generalize dist1 xyz p = z
  norm_num
  linarith

/-- C183 in double precision, for a computed pose: an orientation `rot'` off by at most 45 roundings per entry and a position `xyz'` off by at most `e` along each axis.  `S` is the
strength of the lens at 1.1 (about 48 degrees off the optical axis, along each axis of the image), `θ` the precision of the pose relative to the depth of the point, which lies within
45 degrees of the optical axis.  The float pixel is within about `F (1 + S) (3 θ + 25 u)` of the exact one, `F` the focal length in pixels. -/
theorem C183_double {r : ℝ → ℝ} (hr : Rounds r (1 / 2 ^ 52)) (t : Fin 3 → DotTree) (ht : ∀ i, (t i).Covers 3) (c : Camera.OpenCV) (rot' : Fin 3 → Fin 3 → ℝ) (rot : Rotation.M3)
    (hrot : ∀ i j, Approx (1 / 2 ^ 52) 45 (rot' i j) (rot i j) 1) (xyz' xyz : Fin 3 → ℝ) {e F S θ : ℝ} (he : ∀ j, |xyz' j - xyz j| ≤ e) (hfx : |c.fx| ≤ F) (hfy : |c.fy| ≤ F)
    (hS : (opencvLens c).strength (11 / 10) ≤ S) (lon lat alt X Y Z : ℝ)
    (hX : Camera.camFrame rot xyz ![lon, lat, alt] = ![X, Y, Z]) (hZ : Z ≠ 0) (hd : 50 / 2 ^ 52 * dist1 xyz ![lon, lat, alt] + 4 * e ≤ θ * |Z|) (hθ : θ ≤ 1 / 10 ^ 6)
    (hx : |X / Z| ≤ 1) (hy : |Y / Z| ≤ 1) :
    ∃ q q', (opencvCamera c rot xyz).map lon lat alt = some q ∧ opencvPixelR r t c rot' xyz' ![lon, lat, alt] = some q' ∧
      |q'.1 - q.1| ≤ F * (1 + S) * (3 * θ + 25 / 2 ^ 52) + 2 / 2 ^ 52 * |c.cx| ∧ |q'.2 - q.2| ≤ F * (1 + S) * (3 * θ + 25 / 2 ^ 52) + 2 / 2 ^ 52 * |c.cy| := by
  have hu : (0 : ℝ) ≤ 1 / 2 ^ 52 := by positivity
  -- the camera frame
  have row : ∀ i, |(t i).eval r (fun n => rot' i (Fin.ofNat 3 n)) (fun n => r ((![lon, lat, alt] : Fin 3 → ℝ) (Fin.ofNat 3 n) - xyz' (Fin.ofNat 3 n))) -
      Camera.camFrame rot xyz ![lon, lat, alt] i| ≤ θ * |Z| := by
    intro i
    rw [Camera.camFrame_apply]
    exact (frame_double hr (ht i) (hrot i) he).trans hd
  have eX : Camera.camFrame rot xyz ![lon, lat, alt] 0 = X := by rw [hX]; rfl
  have eY : Camera.camFrame rot xyz ![lon, lat, alt] 1 = Y := by rw [hX]; rfl
  have eZ : Camera.camFrame rot xyz ![lon, lat, alt] 2 = Z := by rw [hX]; rfl
  have r0 := row 0
  have r1 := row 1
  have r2 := row 2
  have θ0 : 0 ≤ θ := nonneg_of_mul_nonneg_left ((abs_nonneg _).trans r0) (abs_pos.mpr hZ)
  rw [eX] at r0
  rw [eY] at r1
  rw [eZ] at r2
  obtain ⟨x', hx', bx⟩ := ratio_double hr r0 r2 hZ hθ hx
  obtain ⟨y', hy', by'⟩ := ratio_double hr r1 r2 hZ hθ hy
  clear r0 r1 r2 row
  generalize hxx : X / Z = x at *
  generalize hyy : Y / Z = y at *
  have x1 : |x'| ≤ 11 / 10 := by
    have := abs_add_le (x' - x) x
    rw [sub_add_cancel] at this
    norm_num at *
    linarith
  have y1 : |y'| ≤ 11 / 10 := by
    have := abs_add_le (y' - y) y
    rw [sub_add_cancel] at this
    norm_num at *
    linarith
  -- the lens
  obtain ⟨A, B⟩ := bendR_approx hr hu c x' y'
  have sA := bendSize_le (opencvLens c) c ⟨rfl, rfl, rfl⟩ rfl x1 y1
  have sB := bendSize_le (opencvLens c) { c with p1 := c.p2, p2 := c.p1 } ⟨rfl, rfl, rfl⟩ (add_comm _ _) y1 x1
  have sX := bendSize_le (opencvLens c) c ⟨rfl, rfl, rfl⟩ rfl (hx.trans (show (1 : ℝ) ≤ 11 / 10 by norm_num)) (hy.trans (by norm_num))
  have sY := bendSize_le (opencvLens c) { c with p1 := c.p2, p2 := c.p1 } ⟨rfl, rfl, rfl⟩ (add_comm _ _) (hy.trans (show (1 : ℝ) ≤ 11 / 10 by norm_num)) (hx.trans (by norm_num))
  obtain ⟨A0, B0⟩ := bendR_approx (r := id) (u := 0) (fun x => by simp) le_rfl c x y
  obtain ⟨l1, l2⟩ := (opencvLens c).bend_close (q := 11 / 10) (P := (x', y')) (Q := (x, y)) x1 y1 (hx.trans (by norm_num)) (hy.trans (by norm_num))
  have ap : apart (x', y') (x, y) ≤ 21 / 10 * θ + 2 / 2 ^ 52 := max_le bx by'
  have st0 : 0 ≤ (opencvLens c).strength (11 / 10) := by unfold Lens.strength; positivity
  have sl := mul_le_mul hS ap (apart_nonneg _ _) (st0.trans hS)
  have g13 : ((1 + 1 / 2 ^ 52 : ℝ) ^ 13 - 1) ≤ 14 / 2 ^ 52 := by norm_num
  have g0 : 0 ≤ ((1 + 1 / 2 ^ 52 : ℝ) ^ 13 - 1) := by norm_num
  have lens : ∀ (b' m e δ s : ℝ), |b' - m| ≤ ((1 + 1 / 2 ^ 52 : ℝ) ^ 13 - 1) * s → s ≤ 11 / 10 * (1 + (opencvLens c).strength (11 / 10)) → 0 ≤ s →
      |m - e - δ| ≤ (opencvLens c).strength (11 / 10) * apart (x', y') (x, y) →
      |δ| ≤ 21 / 10 * θ + 2 / 2 ^ 52 → |b' - e| ≤ (1 + S) * (21 / 10 * θ + 20 / 2 ^ 52) := by
    intro b' m e δ s ha hs hs0 hl hδ
    have h1 := mul_le_mul g13 (hs.trans (show _ ≤ 11 / 10 * (1 + S) by linarith)) hs0 (by norm_num)
    have h2 := abs_add_le (b' - m) (m - e - δ + δ)
    have h3 := abs_add_le (m - e - δ) δ
    rw [sub_add_cancel, sub_add_sub_cancel] at h2
    rw [sub_add_cancel] at h3
    have S0 := st0.trans hS
    have e1 : (1 + S) * (21 / 10 * θ + 20 / 2 ^ 52) = 21 / 10 * θ + 20 / 2 ^ 52 + 21 / 10 * (S * θ) + 20 / 2 ^ 52 * S := by ring
    have e2 : S * (21 / 10 * θ + 2 / 2 ^ 52) = 21 / 10 * (S * θ) + 2 / 2 ^ 52 * S := by ring
    rw [e1]
    rw [e2] at sl
    generalize ((1 + 1 / 2 ^ 52 : ℝ) ^ 13 - 1) * s = z at *
    generalize (opencvLens c).strength (11 / 10) * apart (x', y') (x, y) = z' at *
    generalize S * θ = z'' at *
    clear g13 g0 sA sB sX sY A B A0 B0 ap l1 l2 hx' hy' hxx hyy bx by' x1 y1
    norm_num at *
    linarith
  have lx := lens _ _ _ _ _ A.err sA A.nonneg l1 bx
  have ly := lens _ _ _ _ _ B.err sB B.nonneg l2 by'
  have bx50 : |((opencvLens c).bend x y).1| ≤ 11 / 10 * (1 + S) := A0.size.trans (sX.trans (by linarith))
  have by50 : |((opencvLens c).bend x y).2| ≤ 11 / 10 * (1 + S) := B0.size.trans (sY.trans (by linarith))
  refine ⟨(-c.fx * ((opencvLens c).bend x y).1 + c.cx, c.fy * ((opencvLens c).bend x y).2 + c.cy),
    (r (r (-c.fx * (bendR r c x' y').1) + c.cx), r (r (c.fy * (bendR r c x' y').2) + c.cy)), ?_, ?_, scale_double hr (by rw [abs_neg]; exact hfx) θ0 hθ lx bx50,
    scale_double hr hfy θ0 hθ ly by50⟩
  · unfold LensCamera.map
    simp only [opencvCamera, rows_map, eX, eY, eZ]
    rw [if_neg hZ, hxx, hyy]
    rfl
  · unfold opencvPixelR
    simp only []
    rw [hx', hy']
    rfl

/-! ### The pose -/

/-- An entry of a rotation is at most 1. -/
theorem _root_.Verif.Rotation.IsRotation.entry_le {m : Rotation.M3} (h : Rotation.IsRotation m) (i j : Fin 3) : |m i j| ≤ 1 := by
  have e := congrFun (congrFun h.1 i) i
  rw [Matrix.mul_apply, Fin.sum_univ_three, Matrix.one_apply_eq] at e
  simp only [Matrix.transpose_apply] at e
  rw [_root_.abs_le]
  have q0 := mul_self_nonneg (m i 0)
  have q1 := mul_self_nonneg (m i 1)
  have q2 := mul_self_nonneg (m i 2)
  have hj : m i j * m i j ≤ 1 := by fin_cases j <;> simp only [Fin.zero_eta, Fin.mk_one, Fin.reduceFinMk] <;> linarith
  constructor <;> nlinarith

/-- Three times `k` roundings of a value of size at most 1, instead of `k` roundings of size 3. -/
theorem three_roundings {u : ℝ} (hu : 0 ≤ u) {k : ℕ} {x' x : ℝ} (h : Approx u k x' x 3) (hx : |x| ≤ 1) : Approx u (k * 3) x' x 1 := by
  refine ⟨h.err.trans ?_, hx⟩
  have g := one_le_growth hu k
  rw [pow_mul]
  generalize (1 + u) ^ k = z at *
  nlinarith [mul_nonneg (sub_nonneg.mpr g) (sub_nonneg.mpr g), mul_nonneg (mul_nonneg (sub_nonneg.mpr g) (sub_nonneg.mpr g)) (show 0 ≤ z by linarith)]

/-- The orientation of the camera: boresight times platform, both computed from angles. -/
theorem pose_M {L : Lib} {u : ℝ} (h : L.Good u) (hu : 0 ≤ u) (t1 t2 : Fin 3 → Fin 3 → DotTree) (tb : Fin 3 → Fin 3 → DotTree) (hb : ∀ i j, (tb i j).Covers 3) (w p k w' p' k' : ℝ) (i j : Fin 3) :
    Approx u 45 (absMR L.r tb (createMR L t1 t2 w' p' k' "rpy") (createMR L t1 t2 w p k "rpy") i j) ((Rotation.createM w' p' k' "rpy" * Rotation.createM w p k "rpy") i j) 1 := by
  have eM : ∀ w p k, Rotation.createM w p k "rpy" = Rotation.mRpy w p k := fun _ _ _ => by simp [Rotation.createM]
  have eM' : ∀ w p k, createMR L t1 t2 w p k "rpy" = mRpyR L w p k := fun _ _ _ => by simp [createMR]
  have hc := matmulR_close h hu (a' := createMR L t1 t2 w' p' k' "rpy") (b' := createMR L t1 t2 w p k "rpy") (a := Rotation.createM w' p' k' "rpy") (b := Rotation.createM w p k "rpy")
    (k := 6) (l := 6) (s := fun _ _ => 1) (t := fun _ _ => 1) (by intro i j; rw [eM, eM']; exact mRpyR_approx h hu _ _ _ i j) (by intro i j; rw [eM, eM']; exact mRpyR_approx h hu _ _ _ i j) tb hb i j
  have hR : Rotation.IsRotation (Rotation.createM w' p' k' "rpy" * Rotation.createM w p k "rpy") :=
    (Rotation.C24_rotation _ _ _ _ (by decide)).mul (Rotation.C24_rotation _ _ _ _ (by decide))
  have hc' : Approx u (6 + 6 + 3) (absMR L.r tb (createMR L t1 t2 w' p' k' "rpy") (createMR L t1 t2 w p k "rpy") i j) ((Rotation.createM w' p' k' "rpy" * Rotation.createM w p k "rpy") i j) 3 := by
    have e3 : (1 * 1 + 1 * 1 + 1 * 1 : ℝ) = 3 := by norm_num
    rw [← e3]
    exact hc
  exact three_roundings hu hc' (hR.entry_le i j)

/-- The position of the camera: the offset, turned by the platform's orientation, added to the platform's position. -/
theorem pose_xyz {L : Lib} {u : ℝ} (h : L.Good u) (hu : 0 ≤ u) (t1 t2 : Fin 3 → Fin 3 → DotTree) (tx : Fin 3 → DotTree) (hx : ∀ j, (tx j).Covers 3) (f rel : Fin 3 → ℝ) (w p k : ℝ) (j : Fin 3) :
    Approx u 10 (absXyzR L.r tx f rel (createMR L t1 t2 w p k "rpy") j) ((f + Matrix.vecMul rel (Rotation.createM w p k "rpy")) j) (|f j| + (|rel 0| + |rel 1| + |rel 2|)) := by
  have eM : Rotation.createM w p k "rpy" = Rotation.mRpy w p k := by simp [Rotation.createM]
  have eM' : createMR L t1 t2 w p k "rpy" = mRpyR L w p k := by simp [createMR]
  rw [eM, eM']
  have := dot_approx h.arith hu (fun n => Approx.exact u (rel (Fin.ofNat 3 n))) (fun n => mRpyR_approx h hu w p k (Fin.ofNat 3 n) j) (tx j)
  rw [perm_sum (hx j) (fun n => rel (Fin.ofNat 3 n) * Rotation.mRpy w p k (Fin.ofNat 3 n) j), perm_sum (hx j) (fun n => |rel (Fin.ofNat 3 n)| * 1), (hx j).length_eq, List.length_range] at this
  simp only [Finset.sum_range_succ, Finset.sum_range_zero, zero_add, mul_one] at this
  have a := ((Approx.exact u (f j)).add h.arith hu this).weaken (l := 10) hu (by decide)
  have e : (f + Matrix.vecMul rel (Rotation.mRpy w p k)) j = f j + (rel 0 * Rotation.mRpy w p k 0 j + rel 1 * Rotation.mRpy w p k 1 j + rel 2 * Rotation.mRpy w p k 2 j) := by
    simp only [Pi.add_apply, Matrix.vecMul, dotProduct, Fin.sum_univ_three]
  rw [e]
  exact a

/-- The fixture of a calculator after `init_extrinsic` and `init_offsets` (radians and metres). -/
noncomputable def fixtureOf (f rel : Fin 3 → ℝ) (w p k w' p' k' : ℝ) : Camera.Fixture :=
  ⟨some f, some (Rotation.createM w p k "rpy"), some rel, some (Rotation.createM w' p' k' "rpy")⟩

/-- The precision of the camera's position: eleven roundings of the largest coordinate plus the offset. -/
noncomputable def posErr (f rel : Fin 3 → ℝ) : ℝ := 11 / 2 ^ 52 * (max |f 0| (max |f 1| |f 2|) + (|rel 0| + |rel 1| + |rel 2|))

theorem posErr_spec {L : Lib} (h : L.Good (1 / 2 ^ 52)) (t1 t2 : Fin 3 → Fin 3 → DotTree) (tx : Fin 3 → DotTree) (hx : ∀ j, (tx j).Covers 3) (f rel : Fin 3 → ℝ) (w p k : ℝ) (j : Fin 3) :
    |absXyzR L.r tx f rel (createMR L t1 t2 w p k "rpy") j - (f + Matrix.vecMul rel (Rotation.createM w p k "rpy")) j| ≤ posErr f rel := by
  refine (pose_xyz h (by positivity) t1 t2 tx hx f rel w p k j).err.trans ?_
  unfold posErr
  have hm : |f j| ≤ max |f 0| (max |f 1| |f 2|) := by
    fin_cases j
    · exact le_max_left _ _
    · exact (le_max_left _ _).trans (le_max_right _ _)
    · exact (le_max_right _ _).trans (le_max_right _ _)
  refine mul_le_mul (by norm_num) (by linarith) (by positivity) (by norm_num)

/-- The pixel of the calculator in float arithmetic: the pose of the fixture from its angles and offsets, then the projection. -/
noncomputable def opencvR (L : Lib) (t1 t2 tb : Fin 3 → Fin 3 → DotTree) (tx t : Fin 3 → DotTree) (c : Camera.OpenCV) (f rel : Fin 3 → ℝ) (w p k w' p' k' : ℝ) : ℝ → ℝ → ℝ → Option (ℝ × ℝ) :=
  fun lon lat alt => opencvPixelR L.r t c (absMR L.r tb (createMR L t1 t2 w' p' k' "rpy") (createMR L t1 t2 w p k "rpy")) (absXyzR L.r tx f rel (createMR L t1 t2 w p k "rpy")) ![lon, lat, alt]

/-- C183 for the calculator: the fixture at `f` with angles `w, p, k`, the camera offset by `rel` with angles `w', p', k'`. -/
theorem C183_calculator {L : Lib} (h : L.Good (1 / 2 ^ 52)) (t1 t2 tb : Fin 3 → Fin 3 → DotTree) (tx t : Fin 3 → DotTree) (hb : ∀ i j, (tb i j).Covers 3) (hx : ∀ j, (tx j).Covers 3)
    (ht : ∀ i, (t i).Covers 3) (c : Camera.OpenCV) (f rel : Fin 3 → ℝ) (w p k w' p' k' : ℝ) {F S θ : ℝ} (hfx : |c.fx| ≤ F) (hfy : |c.fy| ≤ F) (hS : (opencvLens c).strength (11 / 10) ≤ S)
    (rot : Rotation.M3) (hrot : rot = Rotation.createM w' p' k' "rpy" * Rotation.createM w p k "rpy") (xyz : Fin 3 → ℝ) (hxyz : xyz = f + Matrix.vecMul rel (Rotation.createM w p k "rpy"))
    (lon lat alt X Y Z : ℝ) (hX : Camera.camFrame rot xyz ![lon, lat, alt] = ![X, Y, Z]) (hZ : Z ≠ 0) (hd : 50 / 2 ^ 52 * dist1 xyz ![lon, lat, alt] + 4 * posErr f rel ≤ θ * |Z|)
    (hθ : θ ≤ 1 / 10 ^ 6) (h45x : |X / Z| ≤ 1) (h45y : |Y / Z| ≤ 1) :
    ∃ q q', c.pixel (fixtureOf f rel w p k w' p' k') ![lon, lat, alt] = .ok (some q) ∧ opencvR L t1 t2 tb tx t c f rel w p k w' p' k' lon lat alt = some q' ∧
      |q'.1 - q.1| ≤ F * (1 + S) * (3 * θ + 25 / 2 ^ 52) + 2 / 2 ^ 52 * |c.cx| ∧ |q'.2 - q.2| ≤ F * (1 + S) * (3 * θ + 25 / 2 ^ 52) + 2 / 2 ^ 52 * |c.cy| := by
  obtain ⟨q, q', h1, h2, h3, h4⟩ := C183_double h.arith t ht c (absMR L.r tb (createMR L t1 t2 w' p' k' "rpy") (createMR L t1 t2 w p k "rpy")) rot
    (by intro i j; rw [hrot]; exact pose_M h (by positivity) t1 t2 tb hb w p k w' p' k' i j)
    (absXyzR L.r tx f rel (createMR L t1 t2 w p k "rpy")) xyz (by intro j; rw [hxyz]; exact posErr_spec h t1 t2 tx hx f rel w p k j) hfx hfy hS lon lat alt X Y Z hX hZ hd hθ h45x h45y
  refine ⟨q, q', ?_, h2, h3, h4⟩
  rw [C182_opencv c (fixtureOf f rel w p k w' p' k') rot xyz (by rw [hrot]; rfl) (by rw [hxyz]; rfl), h1]

/-- C183, pixels to positions: the iterative conversion with its default settings, all in double precision, on the OpenCV calculator in double precision.  The hypotheses on the camera
are those of `C182_double`; `hd`, `h45` and `hε` bound the precision of a pixel by a millionth. -/
theorem C183_solver {L : Lib} (h : L.Good (1 / 2 ^ 52)) (t1 t2 tb : Fin 3 → Fin 3 → DotTree) (tx t : Fin 3 → DotTree) (hb : ∀ i j, (tb i j).Covers 3) (hx : ∀ j, (tx j).Covers 3)
    (ht : ∀ i, (t i).Covers 3) (c : Camera.OpenCV) (f rel : Fin 3 → ℝ) (w p k w' p' k' : ℝ) {G S θ : ℝ} (hfx : |c.fx| ≤ G) (hfy : |c.fy| ≤ G) (hS : (opencvLens c).strength (11 / 10) ≤ S)
    (rot : Rotation.M3) (hrot : rot = Rotation.createM w' p' k' "rpy" * Rotation.createM w p k "rpy") (xyz : Fin 3 → ℝ) (hxyz : xyz = f + Matrix.vecMul rel (Rotation.createM w p k "rpy"))
    (hε : G * (1 + S) * (3 * θ + 25 / 2 ^ 52) + 2 / 2 ^ 52 * max |c.cx| |c.cy| ≤ 1 / 10 ^ 6) (hθ : θ ≤ 1 / 10 ^ 6)
    {ρ Δ R N ν d Q L₀ M₀ F m M C H : ℝ} (centre : ℝ × ℝ) (hρ : 0 ≤ ρ) (hR : R = 2 * ρ + Δ + 1) (hLd : C = lensChange (opencvCamera c rot xyz).lens Q R L₀ M₀ F) (hm0 : 0 < m) (hm : 7 * C ≤ m)
    (hM : M + C ≤ 4 * m) (hM6 : 1 / 6 ≤ M + C) (hfar : (M + C) * ρ ≤ 10 ^ 6) (hbig : (M + C) * H ≤ 10 ^ 9) (hH : H ≤ 10 ^ 14)
    (hφ : 1 / 10 ^ 4 ≤ m * ρ) (hΔ2 : 2 ≤ Δ) (hΔ : 3 ≤ (m - C) * Δ) (hc1 : |centre.1| + 2 * ρ + Δ ≤ H) (hc2 : |centre.2| + 2 * ρ + Δ ≤ H) (alts : ℝ → Prop)
    (hB : ∀ alt, alts alt → (opencvCamera c rot xyz).Bounded centre R N ν d Q L₀ M₀ F alt)
    (hT : ∀ alt, alts alt → Resolves ((opencvCamera c rot xyz).tangent centre) alt m M ∧ m ≤ 5 * |((opencvCamera c rot xyz).tangent centre).a alt|)
    (hd : ∀ alt q, alts alt → apart q centre ≤ R →
      50 / 2 ^ 52 * dist1 xyz ![q.1, q.2, alt] + 4 * posErr f rel ≤ θ * |Camera.camFrame rot xyz ![q.1, q.2, alt] 2|)
    (h45 : ∀ alt q, alts alt → apart q centre ≤ R → ∀ i, |Camera.camFrame rot xyz ![q.1, q.2, alt] i| ≤ |Camera.camFrame rot xyz ![q.1, q.2, alt] 2|)
    (hz : ∀ alt q, alts alt → apart q centre ≤ R → Camera.camFrame rot xyz ![q.1, q.2, alt] 2 ≠ 0)
    (ts : List (Target ℝ)) (hts : ts ≠ []) (gs : List (ℝ × ℝ))
    (hsee : List.Forall₂ (fun t g => alts t.alt ∧ apart centre g ≤ ρ ∧ c.pixel (fixtureOf f rel w p k w' p' k') ![g.1, g.2, t.alt] = .ok (some (t.x, t.y))) ts gs) (meanAlt : ℝ)
    (hmean : alts meanAlt) (eps : ℝ) (n : Nat) (he : 0 < eps ∧ eps ≤ 1 ∧ Δ ≤ eps * 2 ^ n) :
    ∃ es, solverR L.r (opencvR L t1 t2 tb tx t c f rel w p k w' p' k') centre eps n meanAlt (1 / 100) 1000 ts = .ok es ∧
      List.Forall₂ (Reprojects (opencvR L t1 t2 tb tx t c f rel w p k w' p' k') (101 / 10000)) ts es ∧ List.Forall₂ (Found (1 / 50 / m)) gs es := by
  have hmap : ∀ lon lat alt, c.pixel (fixtureOf f rel w p k w' p' k') ![lon, lat, alt] = .ok ((opencvCamera c rot xyz).map lon lat alt) :=
    C182_opencv c (fixtureOf f rel w p k w' p' k') rot xyz (by rw [hrot]; rfl) (by rw [hxyz]; rfl)
  refine C182_double h.arith (opencvCamera c rot xyz) (opencvR L t1 t2 tb tx t c f rel w p k w' p' k') (ε := 1 / 10 ^ 6) centre (by norm_num) le_rfl hρ hR hLd hm0 hm hM hM6 hfar hbig hH hφ hΔ2 hΔ
    hc1 hc2 alts hB hT ?_ ts hts gs ?_ meanAlt hmean eps n he
  · intro alt ha q hq
    have z := hz alt q ha hq
    have z0 : 0 < |Camera.camFrame rot xyz ![q.1, q.2, alt] 2| := abs_pos.mpr z
    have q45 : ∀ i, |Camera.camFrame rot xyz ![q.1, q.2, alt] i / Camera.camFrame rot xyz ![q.1, q.2, alt] 2| ≤ 1 := by
      intro i
      rw [abs_div, div_le_one z0]
      exact h45 alt q ha hq i
    obtain ⟨P, P', h1, h2, h3, h4⟩ := C183_calculator h t1 t2 tb tx t hb hx ht c f rel w p k w' p' k' hfx hfy hS rot hrot xyz hxyz q.1 q.2 alt _ _ _
      (by ext i; fin_cases i <;> rfl) z (hd alt q ha hq) hθ (q45 0) (q45 1)
    refine ⟨P, P', ?_, h2, h3.trans ?_, h4.trans ?_⟩
    · rw [hmap] at h1
      exact Except.ok.inj h1
    · have := mul_le_mul_of_nonneg_left (le_max_left |c.cx| |c.cy|) (show (0 : ℝ) ≤ 2 / 2 ^ 52 by norm_num)
      linarith
    · have := mul_le_mul_of_nonneg_left (le_max_right |c.cx| |c.cy|) (show (0 : ℝ) ≤ 2 / 2 ^ 52 by norm_num)
      linarith
  · refine hsee.imp ?_
    rintro t g ⟨h1, h2, h3⟩
    rw [hmap] at h3
    exact ⟨h1, h2, Except.ok.inj h3⟩

/-- Beside `C183_solver`: an OpenCV camera with radial distortion 1000 m above the ground looking down at UTM coordinates (500000, 4500000), focal length 5000 pixels; two pixels, all in
double precision, the default settings of the iterative conversion. -/
example : ∃ (c : Camera.OpenCV) (f rel : Fin 3 → ℝ) (t : DotTree) (es : List (Option (ℝ × ℝ))), c = ⟨-5000, -5000, 500, 500, 1 / 100, 0, 0, 0, 0⟩ ∧ f = ![500000, 4500000, 1000] ∧
    solverR lib64.r (opencvR lib64 (fun _ _ => t) (fun _ _ => t) (fun _ _ => t) (fun _ => t) (fun _ => t) c f rel 0 0 0 0 0 0) (500000, 4500000) (1 / 2 ^ 52) 1074 0 (1 / 100) 1000
      [⟨0, 500 - 150 * (1 + 45 / 10 ^ 6), 500 - 300 * (1 + 45 / 10 ^ 6)⟩, ⟨0, 500, 500⟩] = .ok es ∧
    List.Forall₂ (Found (1 / 250)) [(500030, 4499940), (500000, 4500000)] es := by
  have g : lib64.Good (1 / 2 ^ 52) := by
    have g := lib64_good
    have w : ∀ x : ℝ, (1 / 2 ^ 53 : ℝ) * |x| ≤ 1 / 2 ^ 52 * |x| := fun x => mul_le_mul_of_nonneg_right (by norm_num) (abs_nonneg x)
    exact ⟨fun x => (g.arith x).trans (w _), fun x => (g.sin x).trans (w _), fun x => (g.cos x).trans (w _), fun x a b => (g.arcsin x a b).trans (w _),
      fun x a b => (g.arccos x a b).trans (w _)⟩
  let c : Camera.OpenCV := ⟨-5000, -5000, 500, 500, 1 / 100, 0, 0, 0, 0⟩
  let f : Fin 3 → ℝ := ![500000, 4500000, 1000]
  let t : DotTree := .add (.add (.mul 0) (.mul 1)) (.mul 2)
  have ht : t.Covers 3 := by show List.Perm [0, 1, 2] [0, 1, 2]; exact List.Perm.refl _
  have e1 : Rotation.createM 0 0 0 "rpy" = 1 := by
    simp only [Rotation.createM, if_true]
    ext i j
    fin_cases i <;> fin_cases j <;> simp [Rotation.mRpy]
  have z : ∀ i j : Fin 3, i ≠ j → (1 : Rotation.M3) i j = 0 := fun i j h => Matrix.one_apply_ne h
  have o : ∀ i : Fin 3, (1 : Rotation.M3) i i = 1 := fun i => Matrix.one_apply_eq i
  have f0 : f 0 = 500000 := rfl
  have f1 : f 1 = 4500000 := rfl
  have f2 : f 2 = 1000 := rfl
  have cam : ∀ x y alt, Camera.camFrame 1 f ![x, y, alt] = ![x - 500000, y - 4500000, alt - 1000] := by
    intro x y alt
    ext i
    rw [Camera.camFrame_apply, f0, f1, f2]
    have c0 : (![x, y, alt] : Fin 3 → ℝ) 0 = x := rfl
    have c1 : (![x, y, alt] : Fin 3 → ℝ) 1 = y := rfl
    have c2 : (![x, y, alt] : Fin 3 → ℝ) 2 = alt := rfl
    rw [c0, c1, c2]
    fin_cases i
    · show (1 : Rotation.M3) 0 0 * (x - 500000) + (1 : Rotation.M3) 0 1 * (y - 4500000) + (1 : Rotation.M3) 0 2 * (alt - 1000) = x - 500000
      rw [o, z 0 1 (by decide), z 0 2 (by decide)]; ring
    · show (1 : Rotation.M3) 1 0 * (x - 500000) + (1 : Rotation.M3) 1 1 * (y - 4500000) + (1 : Rotation.M3) 1 2 * (alt - 1000) = y - 4500000
      rw [o, z 1 0 (by decide), z 1 2 (by decide)]; ring
    · show (1 : Rotation.M3) 2 0 * (x - 500000) + (1 : Rotation.M3) 2 1 * (y - 4500000) + (1 : Rotation.M3) 2 2 * (alt - 1000) = alt - 1000
      rw [o, z 2 0 (by decide), z 2 1 (by decide)]; ring
  have hw : ∀ alt, (rowsProjective 1 f).n alt = (1, 0, -500000) ∧ (rowsProjective 1 f).k alt = (0, 1, -4500000) ∧ (rowsProjective 1 f).w alt = (0, 0, alt - 1000) := by
    intro alt
    simp only [rowsProjective, z 0 1 (by decide), z 0 2 (by decide), z 1 0 (by decide), z 1 2 (by decide), z 2 0 (by decide), z 2 1 (by decide), o, f0, f1, f2]
    refine ⟨?_, ?_, ?_⟩ <;> norm_num
  have hT : ((opencvCamera c 1 f).persp.tangent (500000, 4500000)).a 0 = -(1 / 1000) ∧ ((opencvCamera c 1 f).persp.tangent (500000, 4500000)).b 0 = 0 ∧
      ((opencvCamera c 1 f).persp.tangent (500000, 4500000)).d 0 = 0 ∧ ((opencvCamera c 1 f).persp.tangent (500000, 4500000)).e 0 = -(1 / 1000) := by
    obtain ⟨h1, h2, h3⟩ := hw 0
    simp only [opencvCamera, Projective.tangent, h1, h2, h3, slopes]
    refine ⟨?_, ?_, ?_, ?_⟩ <;> norm_num [affineAt]
  obtain ⟨ta, tb, td, te⟩ := hT
  have sx : (opencvCamera c 1 f).sx = 5000 := by show -(-5000 : ℝ) = 5000; norm_num
  have sy : (opencvCamera c 1 f).sy = -5000 := rfl
  have hB : ∀ alt, alt = 0 → (opencvCamera c 1 f).Bounded (500000, 4500000) 204 1 0 1000 0 0 (1 / 1000) 5000 alt := by
    rintro alt rfl
    obtain ⟨h1, h2, h3⟩ := hw 0
    refine ⟨⟨rfl, rfl⟩, ⟨by norm_num, ?_, ?_, ?_, ?_, ?_, ?_⟩, by norm_num, ?_, ?_, ?_, ?_⟩
    · intro p _
      simp only [opencvCamera]
      rw [h3]
      norm_num [affineAt]
    · simp only [opencvCamera]; rw [h3]; norm_num
    · simp only [opencvCamera]; rw [h1]; norm_num
    · simp only [opencvCamera]; rw [h2]; norm_num
    · simp only [opencvCamera]; rw [h1]; norm_num [affineAt]
    · simp only [opencvCamera]; rw [h2]; norm_num [affineAt]
    · rw [ta, tb]; norm_num
    · rw [td, te]; norm_num
    · rw [sx]; norm_num
    · rw [sy]; norm_num
  have hmap : ∀ x y : ℝ, (opencvCamera c 1 f).map x y 0 = some (500 - 5 * (x - 500000) * (1 + 1 / 100 * ((x - 500000) ^ 2 + (y - 4500000) ^ 2) / 10 ^ 6),
      500 + 5 * (y - 4500000) * (1 + 1 / 100 * ((x - 500000) ^ 2 + (y - 4500000) ^ 2) / 10 ^ 6)) := by
    intro x y
    obtain ⟨h1, h2, h3⟩ := hw 0
    unfold LensCamera.map Projective.map
    simp only [opencvCamera, h1, h2, h3]
    rw [if_neg (by norm_num [affineAt])]
    simp only [affineAt, rowsProjective, Lens.bend, c, Option.map_some, Option.some.injEq, Prod.mk.injEq]
    constructor <;> ring
  have hbig : (3 : ℝ) ≤ 1 / 2 ^ 52 * 2 ^ 1074 := by
    have h : (1 : ℝ) ≤ 2 ^ 1020 := one_le_pow₀ (by norm_num)
    rw [show 1074 = 54 + 1020 by norm_num, pow_add, ← mul_assoc]
    generalize (2 : ℝ) ^ 1020 = z at h
    norm_num
    linarith
  have hL : lensChange (opencvCamera c 1 f).lens 0 204 0 (1 / 1000) 5000 = 7803 / 625000 := by
    simp only [lensChange, opencvCamera, Lens.strength, c]
    norm_num
  have hrot : (1 : Rotation.M3) = Rotation.createM 0 0 0 "rpy" * Rotation.createM 0 0 0 "rpy" := by rw [e1, one_mul]
  have hxyz : f = f + Matrix.vecMul 0 (Rotation.createM 0 0 0 "rpy") := by rw [Matrix.zero_vecMul, add_zero]
  have hpos : posErr f 0 = 11 / 2 ^ 52 * 4500000 := by
    unfold posErr
    rw [f0, f1, f2]
    norm_num
  have hM : (fixtureOf f 0 0 0 0 0 0 0).absM = .ok 1 := by rw [hrot]; rfl
  have hX : (fixtureOf f 0 0 0 0 0 0 0).absXyz = .ok f := by
    show Except.ok (f + Matrix.vecMul 0 (Rotation.createM 0 0 0 "rpy")) = _
    rw [← hxyz]
  have hpix : ∀ x y : ℝ, c.pixel (fixtureOf f 0 0 0 0 0 0 0) ![x, y, 0] = .ok ((opencvCamera c 1 f).map x y 0) := fun x y => C182_opencv c _ 1 f hM hX x y 0
  obtain ⟨es, h1, -, h3⟩ := C183_solver g (fun _ _ => t) (fun _ _ => t) (fun _ _ => t) (fun _ => t) (fun _ => t) (fun _ _ => ht) (fun _ => ht) (fun _ => ht) c f 0 0 0 0 0 0 0 (G := 5000)
    (S := 3 / 40) (θ := 9 / 2 * (1 / 10 ^ 11)) (by norm_num [c]) (by norm_num [c]) (by simp only [opencvLens, Lens.strength, c]; norm_num) 1 hrot f hxyz (by norm_num [c]) (by norm_num)
    (ρ := 100) (Δ := 3) (R := 204) (N := 1) (ν := 0) (d := 1000) (Q := 0) (L₀ := 0) (M₀ := 1 / 1000) (F := 5000) (m := 5) (M := 5) (C := 7803 / 625000) (H := 4600000)
    (500000, 4500000) (by norm_num) (by norm_num) hL.symm (by norm_num) (by norm_num) (by norm_num) (by norm_num) (by norm_num) (by norm_num) (by norm_num) (by norm_num) (by norm_num)
    (by norm_num) (by norm_num) (by norm_num) (fun alt => alt = 0) hB (by
      rintro alt rfl
      have a1 : ((opencvCamera c 1 f).tangent (500000, 4500000)).a 0 = -5 := by simp only [LensCamera.tangent, sx, ta]; norm_num
      have a2 : ((opencvCamera c 1 f).tangent (500000, 4500000)).b 0 = 0 := by simp only [LensCamera.tangent, tb]; norm_num
      have a3 : ((opencvCamera c 1 f).tangent (500000, 4500000)).d 0 = 0 := by simp only [LensCamera.tangent, td]; norm_num
      have a4 : ((opencvCamera c 1 f).tangent (500000, 4500000)).e 0 = 5 := by simp only [LensCamera.tangent, sy, te]; norm_num
      refine ⟨⟨?_, ?_, ?_⟩, ?_⟩
      · intro u v
        rw [a1, a2, a3, a4]
        simp only [zero_mul, add_zero, zero_add, abs_mul, abs_neg]
        rw [abs_of_pos (show (0 : ℝ) < 5 by norm_num), mul_max_of_nonneg _ _ (by norm_num)]
      · rw [a1, a2]; norm_num
      · rw [a3, a4]; norm_num
      · rw [a1]; norm_num)
    (by
      rintro alt q rfl hq
      have q1 := (le_max_left _ _).trans hq
      have q2 := (le_max_right _ _).trans hq
      rw [hpos, cam]
      unfold dist1
      simp only [f0, f1, f2, Matrix.cons_val_zero, Matrix.cons_val_one, Matrix.cons_val]
      generalize |q.1 - 500000| = a at *
      generalize |q.2 - 4500000| = b at *
      norm_num
      linarith)
    (by
      rintro alt q rfl hq i
      have q1 := (le_max_left _ _).trans hq
      have q2 := (le_max_right _ _).trans hq
      rw [cam]
      fin_cases i
      · simp only [Matrix.cons_val_zero, Matrix.cons_val, Fin.zero_eta]; refine q1.trans ?_; norm_num
      · simp only [Matrix.cons_val_one, Matrix.cons_val, Fin.mk_one]; refine q2.trans ?_; norm_num
      · exact le_rfl)
    (by
      rintro alt q rfl hq
      rw [cam]
      show (0 : ℝ) - 1000 ≠ 0
      norm_num)
    [⟨0, 500 - 150 * (1 + 45 / 10 ^ 6), 500 - 300 * (1 + 45 / 10 ^ 6)⟩, ⟨0, 500, 500⟩] (by simp) [(500030, 4499940), (500000, 4500000)]
    (.cons ⟨rfl, by norm_num [apart], by rw [hpix, hmap]; norm_num⟩ (.cons ⟨rfl, by norm_num [apart], by rw [hpix, hmap]; norm_num⟩ .nil)) 0 rfl
    (1 / 2 ^ 52) 1074 ⟨by norm_num, by norm_num, hbig⟩
  refine ⟨c, f, 0, t, es, rfl, rfl, h1, h3.imp ?_⟩
  intro g e h
  exact h.mono (by norm_num)

end Verif.FloatGeom
