import Verif.Props.FloatCamera

/-! C182: the iterative conversion with cameras that have lens distortion (OpenCV and Pix4d calculators). -/

set_option linter.unusedSectionVars false

namespace Verif.PointCalc
open Verif ImageUtils FloatGeom FloatSpectral Camera

section lens
variable {K : Type} [Field K] [LinearOrder K] [IsStrictOrderedRing K]

/-! ### Specification -/

/-- The lens distortion of the cameras: radial coefficients `k1 k2 k3`, tangential `p1 p2`; the position `(x, y)` is relative to the principal point, in focal lengths. -/
structure Lens (K : Type) where
  k1 : K
  k2 : K
  k3 : K
  p1 : K
  p2 : K

/-- Where the lens moves the position `(x, y)`. -/
def Lens.bend (l : Lens K) (x y : K) : K × K :=
  let r2 := x ^ 2 + y ^ 2
  let radial := 1 + l.k1 * r2 + l.k2 * r2 ^ 2 + l.k3 * r2 ^ 3
  (radial * x + 2 * l.p1 * x * y + l.p2 * (r2 + 2 * x ^ 2), radial * y + l.p1 * (r2 + 2 * y ^ 2) + 2 * l.p2 * x * y)

/-- How much the lens changes distances between positions up to `q` focal lengths from the principal point. -/
def Lens.strength (l : Lens K) (q : K) : K := 6 * |l.k1| * q ^ 2 + 20 * |l.k2| * q ^ 4 + 56 * |l.k3| * q ^ 6 + 8 * (|l.p1| + |l.p2|) * q

/-- A camera: perspective, lens, scale to pixels. -/
structure LensCamera (K : Type) where
  persp : Projective K
  lens : Lens K
  sx : K
  sy : K
  ox : K
  oy : K

def LensCamera.map (c : LensCamera K) (lon lat alt : K) : Option (K × K) :=
  (c.persp.map lon lat alt).map fun q => (c.sx * (c.lens.bend q.1 q.2).1 + c.ox, c.sy * (c.lens.bend q.1 q.2).2 + c.oy)

/-- The affine sensor touching the perspective part, in pixels. -/
def LensCamera.tangent (c : LensCamera K) (p : K × K) : Affine K where
  a alt := c.sx * (c.persp.tangent p).a alt
  b alt := c.sx * (c.persp.tangent p).b alt
  c _ := 0
  d alt := c.sy * (c.persp.tangent p).d alt
  e alt := c.sy * (c.persp.tangent p).e alt
  g _ := 0

/-! ### The lens -/

/-- The part of the distortion added to `x`, in the form of both coordinates. -/
theorem bend_lipschitz (k1 k2 k3 p p' : K) {x y x' y' q a : K} (hx : |x| ≤ q) (hy : |y| ≤ q) (hx' : |x'| ≤ q) (hy' : |y'| ≤ q) (ax : |x - x'| ≤ a) (ay : |y - y'| ≤ a) :
    |((k1 * (x ^ 2 + y ^ 2) + k2 * (x ^ 2 + y ^ 2) ^ 2 + k3 * (x ^ 2 + y ^ 2) ^ 3) * x + 2 * p * (x * y) + p' * (x ^ 2 + y ^ 2 + 2 * x ^ 2)) -
      ((k1 * (x' ^ 2 + y' ^ 2) + k2 * (x' ^ 2 + y' ^ 2) ^ 2 + k3 * (x' ^ 2 + y' ^ 2) ^ 3) * x' + 2 * p * (x' * y') + p' * (x' ^ 2 + y' ^ 2 + 2 * x' ^ 2))| ≤
      (6 * |k1| * q ^ 2 + 20 * |k2| * q ^ 4 + 56 * |k3| * q ^ 6 + 8 * (|p| + |p'|) * q) * a := by
  have q0 : 0 ≤ q := (abs_nonneg _).trans hx
  have a0 : 0 ≤ a := (abs_nonneg _).trans ax
  -- squares and products
  have sq : ∀ u v : K, |u| ≤ q → |v| ≤ q → |u - v| ≤ a → |u ^ 2 - v ^ 2| ≤ 2 * q * a := by
    intro u v hu hv huv
    have e : u ^ 2 - v ^ 2 = (u + v) * (u - v) := by ring
    rw [e, abs_mul]
    exact mul_le_mul ((abs_add_le _ _).trans (by linarith)) huv (abs_nonneg _) (by linarith)
  have sx := sq x x' hx hx' ax
  have sy := sq y y' hy hy' ay
  have pr : |x * y - x' * y'| ≤ 2 * q * a := by
    have e : x * y - x' * y' = (x - x') * y + x' * (y - y') := by ring
    rw [e]
    have h1 : |(x - x') * y| ≤ a * q := by rw [abs_mul]; exact mul_le_mul ax hy (abs_nonneg _) a0
    have h2 : |x' * (y - y')| ≤ q * a := by rw [abs_mul]; exact mul_le_mul hx' ay (abs_nonneg _) q0
    have := abs_add_le ((x - x') * y) (x' * (y - y'))
    linarith
  have rad : ∀ u v : K, |u| ≤ q → |v| ≤ q → 0 ≤ u ^ 2 + v ^ 2 ∧ u ^ 2 + v ^ 2 ≤ 2 * q ^ 2 := by
    intro u v hu hv
    have h1 := sq_le_sq' (_root_.abs_le.mp hu).1 (_root_.abs_le.mp hu).2
    have h2 := sq_le_sq' (_root_.abs_le.mp hv).1 (_root_.abs_le.mp hv).2
    exact ⟨by positivity, by linarith⟩
  obtain ⟨r0, r1⟩ := rad x y hx hy
  obtain ⟨s0, s1⟩ := rad x' y' hx' hy'
  have rs : |x ^ 2 + y ^ 2 - (x' ^ 2 + y' ^ 2)| ≤ 4 * q * a := by
    have e : x ^ 2 + y ^ 2 - (x' ^ 2 + y' ^ 2) = (x ^ 2 - x' ^ 2) + (y ^ 2 - y' ^ 2) := by ring
    rw [e]
    have := abs_add_le (x ^ 2 - x' ^ 2) (y ^ 2 - y' ^ 2)
    linarith
  have xx : |x ^ 2 + y ^ 2 + 2 * x ^ 2 - (x' ^ 2 + y' ^ 2 + 2 * x' ^ 2)| ≤ 8 * q * a := by
    have e : x ^ 2 + y ^ 2 + 2 * x ^ 2 - (x' ^ 2 + y' ^ 2 + 2 * x' ^ 2) = (x ^ 2 + y ^ 2 - (x' ^ 2 + y' ^ 2)) + 2 * (x ^ 2 - x' ^ 2) := by ring
    rw [e]
    have := abs_add_le (x ^ 2 + y ^ 2 - (x' ^ 2 + y' ^ 2)) (2 * (x ^ 2 - x' ^ 2))
    rw [abs_mul 2, abs_two] at this
    linarith
  generalize hr : x ^ 2 + y ^ 2 = r at *
  generalize hs : x' ^ 2 + y' ^ 2 = s at *
  have e : (k1 * r + k2 * r ^ 2 + k3 * r ^ 3) * x + 2 * p * (x * y) + p' * (r + 2 * x ^ 2) - ((k1 * s + k2 * s ^ 2 + k3 * s ^ 3) * x' + 2 * p * (x' * y') + p' * (s + 2 * x' ^ 2)) =
      k1 * (r * x - s * x') + k2 * (r ^ 2 * x - s ^ 2 * x') + k3 * (r ^ 3 * x - s ^ 3 * x') + 2 * p * (x * y - x' * y') + p' * (r + 2 * x ^ 2 - (s + 2 * x' ^ 2)) := by ring
  -- a power of the radius times the coordinate
  have term : ∀ (R S B D : K), 0 ≤ B → |R - S| ≤ D * (4 * q * a) → |R| ≤ B → 0 ≤ D → |R * x - S * x'| ≤ (B + 4 * D * q ^ 2) * a := by
    intro R S B D hB hRS hR hD
    have e : R * x - S * x' = R * (x - x') + (R - S) * x' := by ring
    rw [e]
    have h1 : |R * (x - x')| ≤ B * a := by rw [abs_mul]; exact mul_le_mul hR ax (abs_nonneg _) hB
    have h2 : |(R - S) * x'| ≤ D * (4 * q * a) * q := by
      rw [abs_mul]
      exact mul_le_mul hRS hx' (abs_nonneg _) (mul_nonneg hD (by positivity))
    have := abs_add_le (R * (x - x')) ((R - S) * x')
    have e2 : (B + 4 * D * q ^ 2) * a = B * a + D * (4 * q * a) * q := by ring
    linarith
  have rr : r ^ 2 ≤ 4 * q ^ 4 := by
    have := pow_le_pow_left₀ r0 r1 2
    have e : (2 * q ^ 2) ^ 2 = 4 * q ^ 4 := by ring
    linarith
  have ss : s ^ 2 ≤ 4 * q ^ 4 := by
    have := pow_le_pow_left₀ s0 s1 2
    have e : (2 * q ^ 2) ^ 2 = 4 * q ^ 4 := by ring
    linarith
  have rrr : r ^ 3 ≤ 8 * q ^ 6 := by
    have := pow_le_pow_left₀ r0 r1 3
    have e : (2 * q ^ 2) ^ 3 = 8 * q ^ 6 := by ring
    linarith
  have t1 := term r s (2 * q ^ 2) 1 (by positivity) (by linarith) (by rw [abs_of_nonneg r0]; exact r1) zero_le_one
  have t2 := term (r ^ 2) (s ^ 2) (4 * q ^ 4) (4 * q ^ 2) (by positivity)
    (by
      have e : r ^ 2 - s ^ 2 = (r + s) * (r - s) := by ring
      rw [e, abs_mul]
      refine mul_le_mul ?_ rs (abs_nonneg _) (by positivity)
      rw [abs_of_nonneg (by linarith)]
      linarith)
    (by rw [abs_of_nonneg (by positivity)]; exact rr) (by positivity)
  have t3 := term (r ^ 3) (s ^ 3) (8 * q ^ 6) (12 * q ^ 4) (by positivity)
    (by
      have e : r ^ 3 - s ^ 3 = (r ^ 2 + r * s + s ^ 2) * (r - s) := by ring
      have h : r * s ≤ 4 * q ^ 4 := by
        have := mul_le_mul r1 s1 s0 (by positivity)
        have e : 2 * q ^ 2 * (2 * q ^ 2) = 4 * q ^ 4 := by ring
        linarith
      have h' := mul_nonneg r0 s0
      rw [e, abs_mul]
      refine mul_le_mul ?_ rs (abs_nonneg _) (by positivity)
      rw [abs_of_nonneg (by positivity)]
      linarith)
    (by rw [abs_of_nonneg (by positivity)]; exact rrr) (by positivity)
  rw [e]
  have b1 : |k1 * (r * x - s * x')| ≤ |k1| * ((2 * q ^ 2 + 4 * 1 * q ^ 2) * a) := by rw [abs_mul]; exact mul_le_mul_of_nonneg_left t1 (abs_nonneg _)
  have b2 : |k2 * (r ^ 2 * x - s ^ 2 * x')| ≤ |k2| * ((4 * q ^ 4 + 4 * (4 * q ^ 2) * q ^ 2) * a) := by rw [abs_mul]; exact mul_le_mul_of_nonneg_left t2 (abs_nonneg _)
  have b3 : |k3 * (r ^ 3 * x - s ^ 3 * x')| ≤ |k3| * ((8 * q ^ 6 + 4 * (12 * q ^ 4) * q ^ 2) * a) := by rw [abs_mul]; exact mul_le_mul_of_nonneg_left t3 (abs_nonneg _)
  have b4 : |2 * p * (x * y - x' * y')| ≤ |p| * (4 * q * a) := by
    rw [abs_mul, abs_mul, abs_two]
    have := mul_le_mul_of_nonneg_left pr (abs_nonneg p)
    linarith
  have b5 : |p' * (r + 2 * x ^ 2 - (s + 2 * x' ^ 2))| ≤ |p'| * (8 * q * a) := by rw [abs_mul]; exact mul_le_mul_of_nonneg_left xx (abs_nonneg _)
  have c1 := abs_add_le (k1 * (r * x - s * x')) (k2 * (r ^ 2 * x - s ^ 2 * x'))
  have c2 := abs_add_le (k1 * (r * x - s * x') + k2 * (r ^ 2 * x - s ^ 2 * x')) (k3 * (r ^ 3 * x - s ^ 3 * x'))
  have c3 := abs_add_le (k1 * (r * x - s * x') + k2 * (r ^ 2 * x - s ^ 2 * x') + k3 * (r ^ 3 * x - s ^ 3 * x')) (2 * p * (x * y - x' * y'))
  have c4 := abs_add_le (k1 * (r * x - s * x') + k2 * (r ^ 2 * x - s ^ 2 * x') + k3 * (r ^ 3 * x - s ^ 3 * x') + 2 * p * (x * y - x' * y')) (p' * (r + 2 * x ^ 2 - (s + 2 * x' ^ 2)))
  have nn : 0 ≤ |p| * (4 * q * a) := by positivity
  have fin : (6 * |k1| * q ^ 2 + 20 * |k2| * q ^ 4 + 56 * |k3| * q ^ 6 + 8 * (|p| + |p'|) * q) * a = |k1| * ((2 * q ^ 2 + 4 * 1 * q ^ 2) * a) +
      |k2| * ((4 * q ^ 4 + 4 * (4 * q ^ 2) * q ^ 2) * a) + |k3| * ((8 * q ^ 6 + 4 * (12 * q ^ 4) * q ^ 2) * a) + |p| * (4 * q * a) + |p'| * (8 * q * a) + |p| * (4 * q * a) := by ring
  linarith

/-- The lens moves two positions nearly alike. -/
theorem Lens.bend_close (l : Lens K) {q : K} {P Q : K × K} (hP1 : |P.1| ≤ q) (hP2 : |P.2| ≤ q) (hQ1 : |Q.1| ≤ q) (hQ2 : |Q.2| ≤ q) :
    |((l.bend P.1 P.2).1 - (l.bend Q.1 Q.2).1) - (P.1 - Q.1)| ≤ l.strength q * apart P Q ∧
    |((l.bend P.1 P.2).2 - (l.bend Q.1 Q.2).2) - (P.2 - Q.2)| ≤ l.strength q * apart P Q := by
  have a1 : |P.1 - Q.1| ≤ apart P Q := le_max_left _ _
  have a2 : |P.2 - Q.2| ≤ apart P Q := le_max_right _ _
  constructor
  · have := bend_lipschitz l.k1 l.k2 l.k3 l.p1 l.p2 hP1 hP2 hQ1 hQ2 a1 a2
    refine le_trans (le_of_eq ?_) this
    congr 1
    simp only [Lens.bend]
    ring
  · have := bend_lipschitz l.k1 l.k2 l.k3 l.p2 l.p1 hP2 hP1 hQ2 hQ1 a2 a1
    refine le_trans (le_of_eq ?_) (this.trans (le_of_eq ?_))
    · congr 1
      simp only [Lens.bend]
      ring
    · simp only [Lens.strength]
      ring

/-- C182: over a region in which the perspective stays close to the affine sensor and the image within `q` focal lengths of the principal point, so does the camera with its lens. -/
theorem C182_close (c : LensCamera K) (centre : K × K) {alt L₀ M₀ F q : K} {D : K × K → Prop} (hc : CloseTo c.persp.map (c.persp.tangent centre) alt D L₀ 0)
    (h1 : |(c.persp.tangent centre).a alt| + |(c.persp.tangent centre).b alt| ≤ M₀) (h2 : |(c.persp.tangent centre).d alt| + |(c.persp.tangent centre).e alt| ≤ M₀)
    (hx : |c.sx| ≤ F) (hy : |c.sy| ≤ F) (hq : ∀ p P, D p → c.persp.map p.1 p.2 alt = some P → |P.1| ≤ q ∧ |P.2| ≤ q) :
    CloseTo c.map (c.tangent centre) alt D (F * (c.lens.strength q * (M₀ + L₀) + L₀)) 0 := by
  intro p p' hp hp'
  obtain ⟨P, Q, e1, e2, b1, b2⟩ := hc p p' hp hp'
  obtain ⟨P1, P2⟩ := hq p P hp e1
  obtain ⟨Q1, Q2⟩ := hq p' Q hp' e2
  obtain ⟨l1, l2⟩ := c.lens.bend_close P1 P2 Q1 Q2
  refine ⟨_, _, by unfold LensCamera.map; rw [e1]; rfl, by unfold LensCamera.map; rw [e2]; rfl, ?_⟩
  rw [add_zero] at b1 b2 ⊢
  have q0 : 0 ≤ q := (abs_nonneg _).trans P1
  have s0 : 0 ≤ c.lens.strength q := by unfold Lens.strength; positivity
  have u1 : |p.1 - p'.1| ≤ apart p p' := le_max_left _ _
  have u2 : |p.2 - p'.2| ≤ apart p p' := le_max_right _ _
  have A0 := apart_nonneg p p'
  have m1 := lin_le h1 u1 u2
  have m2 := lin_le h2 u1 u2
  have hap : apart P Q ≤ (M₀ + L₀) * apart p p' := by
    refine max_le ?_ ?_
    · have := abs_add_le ((P.1 - Q.1) - ((c.persp.tangent centre).a alt * (p.1 - p'.1) + (c.persp.tangent centre).b alt * (p.2 - p'.2)))
        ((c.persp.tangent centre).a alt * (p.1 - p'.1) + (c.persp.tangent centre).b alt * (p.2 - p'.2))
      rw [sub_add_cancel] at this
      linarith
    · have := abs_add_le ((P.2 - Q.2) - ((c.persp.tangent centre).d alt * (p.1 - p'.1) + (c.persp.tangent centre).e alt * (p.2 - p'.2)))
        ((c.persp.tangent centre).d alt * (p.1 - p'.1) + (c.persp.tangent centre).e alt * (p.2 - p'.2))
      rw [sub_add_cancel] at this
      linarith
  have hs := mul_le_mul_of_nonneg_left hap s0
  have fin : ∀ s B B' U V T o : K, |s| ≤ F → |B - B' - (U - V)| ≤ c.lens.strength q * apart P Q → |U - V - T| ≤ L₀ * apart p p' →
      |s * B + o - (s * B' + o) - s * T| ≤ F * (c.lens.strength q * (M₀ + L₀) + L₀) * apart p p' := by
    intro s B B' U V T o hs' hB hT
    have e : s * B + o - (s * B' + o) - s * T = s * ((B - B' - (U - V)) + (U - V - T)) := by ring
    rw [e, abs_mul, mul_assoc]
    refine mul_le_mul hs' ?_ (abs_nonneg _) ((abs_nonneg _).trans hs')
    have := abs_add_le (B - B' - (U - V)) (U - V - T)
    have e2 : (c.lens.strength q * (M₀ + L₀) + L₀) * apart p p' = c.lens.strength q * ((M₀ + L₀) * apart p p') + L₀ * apart p p' := by ring
    linarith
  constructor
  · have := fin c.sx _ _ _ _ _ c.ox hx l1 b1
    simp only [LensCamera.tangent]
    refine le_trans (le_of_eq ?_) this
    congr 1
    ring
  · have := fin c.sy _ _ _ _ _ c.oy hy l2 b2
    simp only [LensCamera.tangent]
    refine le_trans (le_of_eq ?_) this
    congr 1
    ring

/-- The images of the region are within `Q + (M₀ + L₀) R` focal lengths of the principal point. -/
theorem image_bound (P : Projective K) (centre : K × K) {alt L₀ M₀ Q R N ν d : K} (hL : 0 ≤ L₀) (ho : P.ox alt = 0 ∧ P.oy alt = 0) (hR : 0 ≤ R) (hB : P.Bounded centre R N ν d Q alt)
    (hc : CloseTo P.map (P.tangent centre) alt (fun p => apart p centre ≤ R) L₀ 0)
    (h1 : |(P.tangent centre).a alt| + |(P.tangent centre).b alt| ≤ M₀) (h2 : |(P.tangent centre).d alt| + |(P.tangent centre).e alt| ≤ M₀) (p A : K × K) (hp : apart p centre ≤ R)
    (hA : P.map p.1 p.2 alt = some A) : |A.1| ≤ Q + (M₀ + L₀) * R ∧ |A.2| ≤ Q + (M₀ + L₀) * R := by
  have c0 : apart centre centre ≤ R := by simp [apart]; exact hR
  obtain ⟨A', C, e1, e2, b1, b2⟩ := hc p centre hp c0
  rw [hA] at e1
  cases e1
  have w : affineAt (P.w alt) centre ≠ 0 := by intro e; have := hB.depth centre c0; rw [e, abs_zero] at this; linarith [hB.pos]
  have eC : C = (affineAt (P.n alt) centre / affineAt (P.w alt) centre, affineAt (P.k alt) centre / affineAt (P.w alt) centre) := by
    unfold Projective.map at e2
    rw [if_neg w, ho.1, ho.2, zero_add, zero_add] at e2
    exact (Option.some.inj e2).symm
  have u1 : |p.1 - centre.1| ≤ R := (le_max_left _ _).trans hp
  have u2 : |p.2 - centre.2| ≤ R := (le_max_right _ _).trans hp
  have m1 := lin_le h1 u1 u2
  have m2 := lin_le h2 u1 u2
  have hL' := mul_le_mul_of_nonneg_left hp hL
  have o1 := hB.offX
  have o2 := hB.offY
  rw [add_zero] at b1 b2
  have key : ∀ a c T : K, |a - c - T| ≤ L₀ * apart p centre → |T| ≤ M₀ * R → |c| ≤ Q → |a| ≤ Q + (M₀ + L₀) * R := by
    intro a c T h h' h''
    have := abs_add_le (a - c - T + T) c
    have := abs_add_le (a - c - T) T
    rw [show a - c - T + T + c = a by ring] at *
    linarith
  rw [eC] at b1 b2
  exact ⟨key _ _ _ b1 m1 o1, key _ _ _ b2 m2 o2⟩

/-- C182: what is needed of a camera with a lens at an altitude: the bounds of the perspective over the region (`R` around the centre) as in C173, at most `M₀` focal lengths per
ground unit, at most `F` pixels per focal length. -/
structure LensCamera.Bounded (c : LensCamera K) (centre : K × K) (R N ν d Q L₀ M₀ F alt : K) : Prop where
  principal : c.persp.ox alt = 0 ∧ c.persp.oy alt = 0
  persp : c.persp.Bounded centre R N ν d Q alt
  change : L₀ = 2 * ν * R * (N + Q * ν) / d ^ 2
  most1 : |(c.persp.tangent centre).a alt| + |(c.persp.tangent centre).b alt| ≤ M₀
  most2 : |(c.persp.tangent centre).d alt| + |(c.persp.tangent centre).e alt| ≤ M₀
  focal1 : |c.sx| ≤ F
  focal2 : |c.sy| ≤ F

/-- The change of the slopes (in pixels) over the region. -/
def lensChange (l : Lens K) (Q R L₀ M₀ F : K) : K := F * (l.strength (Q + (M₀ + L₀) * R) * (M₀ + L₀) + L₀)

theorem LensCamera.Bounded.signs {c : LensCamera K} {centre : K × K} {R N ν d Q L₀ M₀ F alt : K} (hR : 0 ≤ R) (h : c.Bounded centre R N ν d Q L₀ M₀ F alt) :
    0 ≤ L₀ ∧ 0 ≤ lensChange c.lens Q R L₀ M₀ F := by
  have hν0 : 0 ≤ ν := le_trans (by positivity) h.persp.flat
  have hN0 : 0 ≤ N := le_trans (by positivity) h.persp.numX
  have hQ0 : 0 ≤ Q := (abs_nonneg _).trans h.persp.offX
  have hL0 : 0 ≤ L₀ := by rw [h.change]; positivity
  have hM0 : 0 ≤ M₀ := le_trans (by positivity) h.most1
  have hF : 0 ≤ F := (abs_nonneg _).trans h.focal1
  refine ⟨hL0, ?_⟩
  unfold lensChange Lens.strength
  positivity

theorem LensCamera.Bounded.close {c : LensCamera K} {centre : K × K} {R N ν d Q L₀ M₀ F alt : K} (hR : 0 ≤ R) (h : c.Bounded centre R N ν d Q L₀ M₀ F alt) :
    CloseTo c.map (c.tangent centre) alt (fun p => apart p centre ≤ R) (lensChange c.lens Q R L₀ M₀ F) 0 := by
  have hp := projective_close c.persp centre hR h.persp
  rw [← h.change] at hp
  exact C182_close c centre hp h.most1 h.most2 h.focal1 h.focal2 (fun p P h1 h2 => image_bound c.persp centre (h.signs hR).1 h.principal hR h.persp hp h.most1 h.most2 p P h1 h2)

/-- C182 in exact arithmetic, for a sensor `f'` that computes the camera to `ε` pixels. -/
theorem C182_converges (c : LensCamera K) (f' : K → K → K → Option (K × K)) {ε ρ Δ R N ν d Q L₀ M₀ F m M L L' thr : K} (centre : K × K) (hε : 0 ≤ ε) (hε10 : ε ≤ 1 / 10)
    (hρ : 0 ≤ ρ) (hR : R = 2 * ρ + Δ) (hLd : L = lensChange c.lens Q R L₀ M₀ F) (hL1 : L + 4 * (M + L) * ε ≤ L') (hL2 : L + ε ≤ L') (hm : 5 * L' < m)
    (hφ : 4 * ε ≤ (m - 5 * L') * ρ) (hΔ2 : 2 ≤ Δ) (hΔ : 2 * (1 + 2 * ε) ≤ (m - L) * Δ) (alts : K → Prop)
    (hB : ∀ alt, alts alt → c.Bounded centre R N ν d Q L₀ M₀ F alt) (hS : ∀ alt, alts alt → Resolves (c.tangent centre) alt m M ∧ L' < |(c.tangent centre).a alt|)
    (hf : ∀ alt, alts alt → Computes f' c.map ε (fun p => apart p centre ≤ R) alt) (ts : List (Target K)) (hts : ts ≠ []) (gs : List (K × K))
    (hsee : List.Forall₂ (fun t g => alts t.alt ∧ apart centre g ≤ ρ ∧ c.map g.1 g.2 t.alt = some (t.x, t.y)) ts gs) (meanAlt : K) (hmean : alts meanAlt)
    (eps : K) (n : Nat) (he : 0 < eps ∧ eps ≤ Δ ∧ Δ < eps * 2 ^ n) (k maxIter : Nat) (hk : 1 ≤ k ∧ k ≤ maxIter)
    (hthr : (M + L) * errAfter (2 * ε) m L' ρ k + 4 * ε ≤ thr) :
    ∃ es, solver f' centre eps n meanAlt thr maxIter ts = .ok es ∧ List.Forall₂ (Reprojects f' thr) ts es ∧
      List.Forall₂ (Found ((thr + 4 * ε) / (m - L))) gs es := by
  have hR0 : 0 ≤ R := by rw [hR]; linarith
  have hL0 : 0 ≤ L := by rw [hLd]; exact ((hB meanAlt hmean).signs hR0).2
  have close : ∀ alt, alts alt → CloseTo f' (c.tangent centre) alt (fun p => apart p centre ≤ R) L (2 * ε) := by
    intro alt h
    have := ((hB alt h).close hR0).noise (hf alt h)
    rw [zero_add, ← hLd] at this
    exact this
  have hreq : List.Forall₂ (Request f' (c.tangent centre) L L' (2 * ε) m M (ρ + Δ)) ts gs := by
    refine hsee.imp ?_
    rintro t g ⟨h1, h2, h3⟩
    refine ⟨(close t.alt h1).subset ?_, (hS _ h1).1, (hS _ h1).2, ?_⟩
    · intro p hp
      have := apart_tri p g centre
      rw [apart_symm g] at this
      rw [hR]
      linarith
    · obtain ⟨A, A', e, e', x, y⟩ := hf t.alt h1 g (show apart g centre ≤ R by rw [apart_symm, hR]; linarith)
      rw [h3] at e
      cases e
      refine ⟨A', e', ?_, ?_⟩
      · rw [abs_sub_comm]; linarith
      · rw [abs_sub_comm]; linarith
  have hc : ∀ g ∈ gs, apart centre g ≤ ρ := by
    clear hreq hts
    induction hsee with
    | nil => intro g h; cases h
    | cons h _ ih =>
      intro g hg
      rcases List.mem_cons.mp hg with rfl | hg
      · exact h.2.1
      · exact ih g hg
  have hφ' : floorErr (2 * ε) m L' ≤ ρ := by
    unfold floorErr
    rw [div_le_iff₀ (by linarith)]
    linarith
  have := C173_converges (f := f') (S := c.tangent centre) (L := L) (L' := L') (η := 2 * ε) (m := m) (M := M) (ρ := ρ) (Δ := Δ) (by linarith) (by linarith) hL0 hm (by linarith)
    (by linarith) hρ hφ' hΔ2 hΔ ts hts gs hreq centre hc meanAlt ((close meanAlt hmean).subset (fun p hp => by rw [hR]; linarith)) (hS _ hmean).1 eps n he thr k maxIter hk (by linarith)
  have e : thr + 2 * (2 * ε) = thr + 4 * ε := by ring
  rw [e] at this
  exact this

/-- C182 in double precision with the default settings, for a sensor `f'` that computes the camera to a millionth of a pixel. -/
theorem C182_double {r : K → K} (hr : Rounds r (1 / 2 ^ 52)) (c : LensCamera K) (f' : K → K → K → Option (K × K)) {ε ρ Δ R N ν d Q L₀ M₀ F m M L H : K} (centre : K × K) (hε : 0 ≤ ε)
    (hε10 : ε ≤ 1 / 10 ^ 6) (hρ : 0 ≤ ρ) (hR : R = 2 * ρ + Δ + 1) (hLd : L = lensChange c.lens Q R L₀ M₀ F) (hm0 : 0 < m) (hm : 7 * L ≤ m)
    (hM : M + L ≤ 4 * m) (hM6 : 1 / 6 ≤ M + L) (hfar : (M + L) * ρ ≤ 10 ^ 6) (hbig : (M + L) * H ≤ 10 ^ 9) (hH : H ≤ 10 ^ 14)
    (hφ : 1 / 10 ^ 4 ≤ m * ρ) (hΔ2 : 2 ≤ Δ) (hΔ : 3 ≤ (m - L) * Δ) (hc1 : |centre.1| + 2 * ρ + Δ ≤ H) (hc2 : |centre.2| + 2 * ρ + Δ ≤ H) (alts : K → Prop)
    (hB : ∀ alt, alts alt → c.Bounded centre R N ν d Q L₀ M₀ F alt) (hS : ∀ alt, alts alt → Resolves (c.tangent centre) alt m M ∧ m ≤ 5 * |(c.tangent centre).a alt|)
    (hf : ∀ alt, alts alt → Computes f' c.map ε (fun p => apart p centre ≤ R) alt) (ts : List (Target K)) (hts : ts ≠ []) (gs : List (K × K))
    (hsee : List.Forall₂ (fun t g => alts t.alt ∧ apart centre g ≤ ρ ∧ c.map g.1 g.2 t.alt = some (t.x, t.y)) ts gs) (meanAlt : K) (hmean : alts meanAlt)
    (eps : K) (n : Nat) (he : 0 < eps ∧ eps ≤ 1 ∧ Δ ≤ eps * 2 ^ n) :
    ∃ es, solverR r f' centre eps n meanAlt (1 / 100) 1000 ts = .ok es ∧ List.Forall₂ (Reprojects f' (101 / 10000)) ts es ∧
      List.Forall₂ (Found (1 / 50 / m)) gs es := by
  have hR0 : 0 ≤ R := by rw [hR]; linarith
  have hL0 : 0 ≤ L := by rw [hLd]; exact ((hB meanAlt hmean).signs hR0).2
  refine C180_default_close hr c.map f' (c.tangent centre) centre hε hε10 hρ hR hL0 hm0 hm hM hM6 hfar hbig hH hφ hΔ2 hΔ hc1 hc2 alts ?_ hS hf ts hts gs hsee meanAlt hmean eps n he
  intro alt h
  have := (hB alt h).close hR0
  rw [← hLd] at this
  exact this

end lens

/-! ### The cameras -/

/-- The rows of an orientation matrix at an altitude, as affine functions of the ground position. -/
noncomputable def rowsProjective (rot : Rotation.M3) (xyz : Fin 3 → ℝ) : Projective ℝ :=
  let row : Fin 3 → ℝ → ℝ × ℝ × ℝ := fun i alt => (rot i 0, rot i 1, rot i 2 * (alt - xyz 2) - rot i 0 * xyz 0 - rot i 1 * xyz 1)
  { n := row 0, k := row 1, w := row 2, ox := fun _ => 0, oy := fun _ => 0 }

theorem rows_map (rot : Rotation.M3) (xyz : Fin 3 → ℝ) (lon lat alt : ℝ) : (rowsProjective rot xyz).map lon lat alt =
    if camFrame rot xyz ![lon, lat, alt] 2 = 0 then none else
      some (camFrame rot xyz ![lon, lat, alt] 0 / camFrame rot xyz ![lon, lat, alt] 2, camFrame rot xyz ![lon, lat, alt] 1 / camFrame rot xyz ![lon, lat, alt] 2) := by
  have e : ∀ i : Fin 3, affineAt (rot i 0, rot i 1, rot i 2 * (alt - xyz 2) - rot i 0 * xyz 0 - rot i 1 * xyz 1) (lon, lat) = camFrame rot xyz ![lon, lat, alt] i := by
    intro i
    rw [camFrame_apply]
    simp only [affineAt, Matrix.cons_val_zero, Matrix.cons_val_one, Matrix.cons_val]
    ring
  unfold Projective.map rowsProjective
  simp only [e, zero_add]

/-- The OpenCV calculator with a given pose as a camera with a lens. -/
noncomputable def opencvCamera (c : OpenCV) (rot : Rotation.M3) (xyz : Fin 3 → ℝ) : LensCamera ℝ :=
  ⟨rowsProjective rot xyz, ⟨c.k1, c.k2, c.k3, c.p1, c.p2⟩, -c.fx, c.fy, c.cx, c.cy⟩

/-- C182: the OpenCV calculator is such a camera. -/
theorem C182_opencv (c : OpenCV) (s : Fixture) (rot : Rotation.M3) (xyz : Fin 3 → ℝ) (h1 : s.absM = .ok rot) (h2 : s.absXyz = .ok xyz) (lon lat alt : ℝ) :
    c.pixel s ![lon, lat, alt] = .ok ((opencvCamera c rot xyz).map lon lat alt) := by
  unfold OpenCV.pixel LensCamera.map
  rw [h1, ok_bind, h2, ok_bind]
  simp only [opencvCamera, rows_map]
  have e : ∀ i, Matrix.mulVec rot (![lon, lat, alt] - xyz) i = camFrame rot xyz ![lon, lat, alt] i := fun _ => rfl
  simp only [e]
  by_cases h : camFrame rot xyz ![lon, lat, alt] 2 = 0
  · simp [fdiv, h]
  · simp only [fdiv, if_neg h, Option.bind_eq_bind, Option.bind_some, Option.map_some, Lens.bend, Except.ok.injEq, Option.some.injEq, Prod.mk.injEq]
    constructor <;> ring

/-- The Pix4d calculator as a camera with a lens (without the distortion model: with a lens that does nothing). -/
noncomputable def pix4dCamera (c : Pix4d) : LensCamera ℝ :=
  ⟨rowsProjective c.r c.trans, if c.model = none then ⟨0, 0, 0, 0, 0⟩ else ⟨c.k1, c.k2, c.k3, c.t1, c.t2⟩, if c.revX then c.f else -c.f, if c.revY then c.f else -c.f,
    if c.revX then c.nX - c.pp.1 else c.pp.1, if c.revY then c.nY - c.pp.2 else c.pp.2⟩

/-- C182: so is the Pix4d calculator, with and without the distortion model. -/
theorem C182_pix4d (c : Pix4d) (h : c.model = none ∨ c.model = some "regular") (lon lat alt : ℝ) :
    c.pixel ![lon, lat, alt] = .ok ((pix4dCamera c).map lon lat alt) := by
  have e : c.camCoords ![lon, lat, alt] = camFrame c.r c.trans ![lon, lat, alt] := rfl
  unfold Pix4d.pixel LensCamera.map
  rw [e]
  simp only [pix4dCamera, rows_map]
  rcases h with h | h
  · rw [h]
    simp only [ok_bind, Pix4d.undistorted]
    by_cases hz : camFrame c.r c.trans ![lon, lat, alt] 2 = 0
    · simp [fdiv, hz]
    · simp only [fdiv, if_neg hz, Option.bind_eq_bind, Option.bind_some, Option.map_some, Lens.bend, if_true, Except.ok.injEq, Option.some.injEq, Prod.mk.injEq]
      constructor
      · cases c.revX <;> simp only [if_true, if_false, Bool.false_eq_true] <;> ring
      · cases c.revY <;> simp only [if_true, if_false, Bool.false_eq_true] <;> ring
  · rw [h]
    simp only [ok_bind, Pix4d.distorted, if_true]
    by_cases hz : camFrame c.r c.trans ![lon, lat, alt] 2 = 0
    · simp [fdiv, hz]
    · simp only [fdiv, if_neg hz, Option.bind_eq_bind, Option.bind_some, Option.map_some, Lens.bend, Except.ok.injEq, Option.some.injEq, Prod.mk.injEq, reduceCtorEq, if_false]
      generalize camFrame c.r c.trans ![lon, lat, alt] 0 / camFrame c.r c.trans ![lon, lat, alt] 2 = x
      generalize camFrame c.r c.trans ![lon, lat, alt] 1 / camFrame c.r c.trans ![lon, lat, alt] 2 = y
      have hr : 0 ≤ x ^ 2 + y ^ 2 := by positivity
      have s2 : Real.sqrt (x ^ 2 + y ^ 2) ^ 2 = x ^ 2 + y ^ 2 := Real.sq_sqrt hr
      have s4 : Real.sqrt (x ^ 2 + y ^ 2) ^ 4 = (x ^ 2 + y ^ 2) ^ 2 := by rw [show (4 : ℕ) = 2 * 2 by norm_num, pow_mul, s2]
      have s6 : Real.sqrt (x ^ 2 + y ^ 2) ^ 6 = (x ^ 2 + y ^ 2) ^ 3 := by rw [show (6 : ℕ) = 2 * 3 by norm_num, pow_mul, s2]
      rw [s2, s4, s6]
      constructor
      · cases c.revX <;> simp only [if_true, if_false, Bool.false_eq_true] <;> ring
      · cases c.revY <;> simp only [if_true, if_false, Bool.false_eq_true] <;> ring

/-- Beside `C182_converges`: an OpenCV camera with radial distortion 1000 m above the ground looking down, focal length 10000 pixels; two pixels, 0.01 pixel, 1000 iterations. -/
example : ∃ (c : OpenCV) (es : List (Option (ℝ × ℝ))), c = ⟨-10000, -10000, 500, 500, 1 / 100, 0, 0, 0, 0⟩ ∧
    solver (opencvCamera c 1 ![0, 0, 1000]).map (0, 0) (1 / 2 ^ 52) 1074 0 (1 / 100) 1000 [⟨0, 500 - 300 * (1 + 45 / 10 ^ 6), 500 - 600 * (1 + 45 / 10 ^ 6)⟩, ⟨0, 500, 500⟩] = .ok es ∧
    List.Forall₂ (Found (1 / 900)) [(30, -60), (0, 0)] es := by
  let c : OpenCV := ⟨-10000, -10000, 500, 500, 1 / 100, 0, 0, 0, 0⟩
  have hw : ∀ alt, (rowsProjective 1 ![0, 0, 1000]).n alt = (1, 0, 0) ∧ (rowsProjective 1 ![0, 0, 1000]).k alt = (0, 1, 0) ∧ (rowsProjective 1 ![0, 0, 1000]).w alt = (0, 0, alt - 1000) := by
    intro alt
    have z : ∀ i j : Fin 3, i ≠ j → (1 : Rotation.M3) i j = 0 := fun i j h => Matrix.one_apply_ne h
    have o : ∀ i : Fin 3, (1 : Rotation.M3) i i = 1 := fun i => Matrix.one_apply_eq i
    have e2 : (![0, 0, 1000] : Fin 3 → ℝ) 2 = 1000 := rfl
    simp only [rowsProjective, z 0 1 (by decide), z 0 2 (by decide), z 1 0 (by decide), z 1 2 (by decide), z 2 0 (by decide), z 2 1 (by decide), o, e2]
    refine ⟨?_, ?_, ?_⟩ <;> norm_num
  have hT : ((opencvCamera c 1 ![0, 0, 1000]).persp.tangent (0, 0)).a 0 = -(1 / 1000) ∧ ((opencvCamera c 1 ![0, 0, 1000]).persp.tangent (0, 0)).b 0 = 0 ∧
      ((opencvCamera c 1 ![0, 0, 1000]).persp.tangent (0, 0)).d 0 = 0 ∧ ((opencvCamera c 1 ![0, 0, 1000]).persp.tangent (0, 0)).e 0 = -(1 / 1000) := by
    obtain ⟨h1, h2, h3⟩ := hw 0
    simp only [opencvCamera, Projective.tangent, h1, h2, h3, slopes]
    refine ⟨?_, ?_, ?_, ?_⟩ <;> norm_num [affineAt]
  obtain ⟨ta, tb, td, te⟩ := hT
  have sx : (opencvCamera c 1 ![0, 0, 1000]).sx = 10000 := by show -(-10000 : ℝ) = 10000; norm_num
  have sy : (opencvCamera c 1 ![0, 0, 1000]).sy = -10000 := rfl
  have hB : ∀ alt, alt = 0 → (opencvCamera c 1 ![0, 0, 1000]).Bounded (0, 0) 203 1 0 1000 0 0 (1 / 1000) 10000 alt := by
    rintro alt rfl
    obtain ⟨h1, h2, h3⟩ := hw 0
    refine ⟨⟨rfl, rfl⟩, ⟨by norm_num, ?_, ?_, ?_, ?_, ?_, ?_⟩, by norm_num, ?_, ?_, ?_, ?_⟩
    · intro p _
      simp only [opencvCamera]
      rw [h3]
      norm_num [affineAt]
    · simp only [opencvCamera]; rw [h3]; norm_num
    · simp only [opencvCamera]; rw [h1]; norm_num
    · simp only [opencvCamera]; rw [h2]; norm_num
    · simp only [opencvCamera]; rw [h1]; norm_num [affineAt]
    · simp only [opencvCamera]; rw [h2]; norm_num [affineAt]
    · rw [ta, tb]; norm_num
    · rw [td, te]; norm_num
    · rw [sx]; norm_num
    · rw [sy]; norm_num
  have hmap : ∀ x y : ℝ, (opencvCamera c 1 ![0, 0, 1000]).map x y 0 = some (500 - 10 * x * (1 + 1 / 100 * (x ^ 2 + y ^ 2) / 10 ^ 6), 500 + 10 * y * (1 + 1 / 100 * (x ^ 2 + y ^ 2) / 10 ^ 6)) := by
    intro x y
    obtain ⟨h1, h2, h3⟩ := hw 0
    unfold LensCamera.map Projective.map
    simp only [opencvCamera, h1, h2, h3]
    rw [if_neg (by norm_num [affineAt])]
    simp only [affineAt, rowsProjective, Lens.bend, c, Option.map_some, Option.some.injEq, Prod.mk.injEq]
    constructor <;> ring
  have hbig : (3 : ℝ) < 1 / 2 ^ 52 * 2 ^ 1074 := by
    have h : (1 : ℝ) ≤ 2 ^ 1020 := one_le_pow₀ (by norm_num)
    rw [show 1074 = 54 + 1020 by norm_num, pow_add, ← mul_assoc]
    generalize (2 : ℝ) ^ 1020 = z at h
    norm_num
    linarith
  have hL : lensChange (opencvCamera c 1 ![0, 0, 1000]).lens 0 203 0 (1 / 1000) 10000 = 123627 / 5000000 := by
    simp only [lensChange, opencvCamera, Lens.strength, c]
    norm_num
  obtain ⟨es, h1, -, h3⟩ := C182_converges (opencvCamera c 1 ![0, 0, 1000]) (opencvCamera c 1 ![0, 0, 1000]).map (ε := 0) (ρ := 100) (Δ := 3) (R := 203) (N := 1) (ν := 0) (d := 1000)
    (Q := 0) (L₀ := 0) (M₀ := 1 / 1000) (F := 10000) (m := 10) (M := 10) (L := 123627 / 5000000) (L' := 123627 / 5000000) (thr := 1 / 100) (0, 0) le_rfl (by norm_num) (by norm_num) (by norm_num)
    hL.symm (by norm_num) (by norm_num) (by norm_num) (by norm_num) (by norm_num) (by norm_num) (fun alt => alt = 0) hB (by
      rintro alt rfl
      have a1 : ((opencvCamera c 1 ![0, 0, 1000]).tangent (0, 0)).a 0 = -10 := by simp only [LensCamera.tangent, sx, ta]; norm_num
      have a2 : ((opencvCamera c 1 ![0, 0, 1000]).tangent (0, 0)).b 0 = 0 := by simp only [LensCamera.tangent, tb]; norm_num
      have a3 : ((opencvCamera c 1 ![0, 0, 1000]).tangent (0, 0)).d 0 = 0 := by simp only [LensCamera.tangent, td]; norm_num
      have a4 : ((opencvCamera c 1 ![0, 0, 1000]).tangent (0, 0)).e 0 = 10 := by simp only [LensCamera.tangent, sy, te]; norm_num
      refine ⟨⟨?_, ?_, ?_⟩, ?_⟩
      · intro u v
        rw [a1, a2, a3, a4]
        simp only [zero_mul, add_zero, zero_add, abs_mul, abs_neg]
        rw [abs_of_pos (show (0 : ℝ) < 10 by norm_num), mul_max_of_nonneg _ _ (by norm_num)]
      · rw [a1, a2]; norm_num
      · rw [a3, a4]; norm_num
      · rw [a1]; norm_num)
    (by
      rintro alt rfl p -
      exact ⟨_, _, hmap _ _, hmap _ _, by simp, by simp⟩)
    [⟨0, 500 - 300 * (1 + 45 / 10 ^ 6), 500 - 600 * (1 + 45 / 10 ^ 6)⟩, ⟨0, 500, 500⟩] (by simp) [(30, -60), (0, 0)]
    (.cons ⟨rfl, by norm_num [apart], by rw [hmap]; norm_num⟩ (.cons ⟨rfl, by norm_num [apart], by rw [hmap]; norm_num⟩ .nil)) 0 rfl
    (1 / 2 ^ 52) 1074 ⟨by norm_num, by norm_num, hbig⟩ 4 1000 (by omega) (by norm_num [errAfter, floorErr])
  refine ⟨c, es, rfl, h1, h3.imp ?_⟩
  intro g e h
  exact h.mono (by norm_num)

end Verif.PointCalc
