import Verif.Lemmas.FloatGeom
import Verif.Props.Rotation
import Verif.Props.Camera

/-! The projection formulas in float arithmetic (C169: RPC, C170: orientation matrices, C171: pinhole cameras). -/

set_option linter.unusedSectionVars false

namespace Verif.FloatGeom
open Verif ImageUtils FloatSpectral

section
variable {K : Type} [Field K] [LinearOrder K] [IsStrictOrderedRing K]

/-! ### C169 -/

/-- The polynomial with every term replaced by its absolute value: the size of what is added up. -/
def termSize (a : Nat → K) (x y z : K) : K := Geotiff.computeP (fun i => |a i|) |x| |y| |z|

/-- The computed polynomial, for coordinates that were rounded twice. -/
theorem computePR_approx {r : K → K} {u : K} (hr : Rounds r u) (hu : 0 ≤ u) (a : Nat → K) {x' x y' y z' z : K}
    (hx : Approx u 2 x' x |x|) (hy : Approx u 2 y' y |y|) (hz : Approx u 2 z' z |z|) :
    Approx u 22 (computePR r a x' y' z') (Geotiff.computeP a x y z) (termSize a x y z) := by
  have A := fun i => Approx.exact u (a i)
  have xx := hx.mul hr hu hx
  have yy := hy.mul hr hu hy
  have zz := hz.mul hr hu hz
  have xxx := xx.mul hr hu hx
  have yyy := yy.mul hr hu hy
  have zzz := zz.mul hr hu hz
  have xy := hx.mul hr hu hy
  have xz := hx.mul hr hu hz
  have yz := hy.mul hr hu hz
  have s := (A 0).add hr hu ((A 1).mul hr hu hy)
  have s := s.add hr hu ((A 2).mul hr hu hx)
  have s := s.add hr hu ((A 3).mul hr hu hz)
  have s := s.add hr hu ((A 4).mul hr hu xy)
  have s := s.add hr hu ((A 5).mul hr hu yz)
  have s := s.add hr hu ((A 6).mul hr hu xz)
  have s := s.add hr hu ((A 7).mul hr hu yy)
  have s := s.add hr hu ((A 8).mul hr hu xx)
  have s := s.add hr hu ((A 9).mul hr hu zz)
  have s := s.add hr hu ((((A 10).mul hr hu hx).mul hr hu hy).mul hr hu hz)
  have s := s.add hr hu ((A 11).mul hr hu yyy)
  have s := s.add hr hu (((A 12).mul hr hu hy).mul hr hu xx)
  have s := s.add hr hu (((A 13).mul hr hu hy).mul hr hu zz)
  have s := s.add hr hu (((A 14).mul hr hu yy).mul hr hu hx)
  have s := s.add hr hu ((A 15).mul hr hu xxx)
  have s := s.add hr hu (((A 16).mul hr hu hx).mul hr hu zz)
  have s := s.add hr hu (((A 17).mul hr hu yy).mul hr hu hz)
  have s := s.add hr hu (((A 18).mul hr hu xx).mul hr hu hy)
  have s := s.add hr hu ((A 19).mul hr hu zzz)
  exact s.weaken hu (by decide)

/-- How far the computed quotient of two polynomials of term sizes `sn`, `sd` with exact quotient `q` and exact denominator `d` may be off. -/
def ratioBound (u E q d sn sd : K) : K := u * |q| + (1 + u) * ((E * sn + |q| * (E * sd)) / (|d| - E * sd))

/-- A rounded quotient. -/
theorem ratio_err {r : K → K} {u : K} (hr : Rounds r u) (hu : 0 ≤ u) {k : ℕ} {n' n d' d sn sd : K} (hn : Approx u k n' n sn) (hd : Approx u k d' d sd)
    (h : ((1 + u) ^ k - 1) * sd < |d|) :
    d ≠ 0 ∧ d' ≠ 0 ∧ |r (n' / d') - n / d| ≤ ratioBound u ((1 + u) ^ k - 1) (n / d) d sn sd := by
  obtain ⟨h1, h2⟩ := quotient_err hn.err hd.err h
  refine ⟨?_, h1, ?_⟩
  · intro h0
    rw [h0, abs_zero] at h
    exact absurd ((abs_nonneg _).trans hd.err) (not_le.mpr h)
  · have h3 : |n' / d'| ≤ |n / d| + (((1 + u) ^ k - 1) * sn + |n / d| * (((1 + u) ^ k - 1) * sd)) / (|d| - ((1 + u) ^ k - 1) * sd) := by
      have : |n' / d'| ≤ |n' / d' - n / d| + |n / d| := by simpa using abs_add_le (n' / d' - n / d) (n / d)
      linarith
    have := hr.step hu h2 h3
    unfold ratioBound
    refine this.trans (le_of_eq (by ring))

/-- Scaling, offset and half a pixel: `S * q + O + 1/2` from a quotient that is off by `e`. -/
theorem scale_err {r : K → K} {u : K} (hr : Rounds r u) (hu : 0 ≤ u) {q' q e S O : K} (h : |q' - q| ≤ e) :
    |r (r (r (q' * S) + O) + 1 / 2) - (q * S + O + 1 / 2)| ≤ (1 + u) ^ 3 * (|S| * e) + ((1 + u) ^ 3 - 1) * (|q * S| + |O| + 1 / 2) := by
  have a := ((((Approx.exact u (q' * S)).round hr hu).add hr hu (Approx.exact u O)).add hr hu (Approx.exact u (1 / 2))).weaken (l := 3) hu (by decide)
  have h1 := a.err
  have h2 : |q' * S - q * S| ≤ |S| * e := by
    rw [← sub_mul, abs_mul, mul_comm]
    exact mul_le_mul_of_nonneg_left h (abs_nonneg _)
  have h3 : |q' * S| ≤ |S| * e + |q * S| := by
    have : |q' * S| ≤ |q' * S - q * S| + |q * S| := by simpa using abs_add_le (q' * S - q * S) (q * S)
    linarith
  have h4 : |r (r (r (q' * S) + O) + 1 / 2) - (q * S + O + 1 / 2)| ≤
      |r (r (r (q' * S) + O) + 1 / 2) - (q' * S + O + 1 / 2)| + |q' * S - q * S| := by
    have e : r (r (r (q' * S) + O) + 1 / 2) - (q * S + O + 1 / 2) = (r (r (r (q' * S) + O) + 1 / 2) - (q' * S + O + 1 / 2)) + (q' * S - q * S) := by ring
    rw [e]
    exact abs_add_le _ _
  have h5 := one_le_growth hu 3
  have h6 : |(1 / 2 : K)| = 1 / 2 := abs_of_pos (by norm_num)
  rw [h6] at h1
  have h7 := mul_le_mul_of_nonneg_left h3 (show (0 : K) ≤ (1 + u) ^ 3 - 1 by linarith)
  nlinarith [h1, h2, h4, h7]

/-- The exact normalised coordinates of a ground point (`RPC00B`: offset removed, divided by the scale). -/
def normalised (c : Geotiff.Rpc K) (lon lat alt : K) : K × K × K := ((lat - c.latOff) / c.latScale, (lon - c.lonOff) / c.lonScale, (alt - c.hOff) / c.hScale)

/-- A normalised coordinate is rounded twice. -/
theorem normalised_approx {r : K → K} {u : K} (hr : Rounds r u) (hu : 0 ≤ u) (v o s : K) : Approx u 2 (r (r (v - o) / s)) ((v - o) / s) |(v - o) / s| := by
  have := ((Approx.diff hr hu v o).div' s).round hr hu
  rw [← abs_div] at this
  exact this

/-- C169: the float RPC projection.  When the denominators are not lost in rounding, the float result exists exactly where the exact one does, and its pixel
coordinates are off by at most the bounds shown, whose size comes from the terms actually added up. -/
theorem C169_rpc_error {r : K → K} {u : K} (hr : Rounds r u) (hu : 0 ≤ u) (c : Geotiff.Rpc K) (lon lat alt : K)
    (h1 : c.latScale ≠ 0) (h2 : c.lonScale ≠ 0) (h3 : c.hScale ≠ 0) (x y z E : K) (hn : normalised c lon lat alt = (x, y, z)) (hE : E = (1 + u) ^ 22 - 1)
    (hs : E * termSize c.sampDen x y z < |Geotiff.computeP c.sampDen x y z|) (hl : E * termSize c.lineDen x y z < |Geotiff.computeP c.lineDen x y z|) :
    ∃ X Y X' Y' qs ql, c.project lon lat alt = some (X, Y) ∧ rpcR r c lon lat alt = some (X', Y') ∧
      qs * Geotiff.computeP c.sampDen x y z = Geotiff.computeP c.sampNum x y z ∧ ql * Geotiff.computeP c.lineDen x y z = Geotiff.computeP c.lineNum x y z ∧
      |X' - X| ≤ (1 + u) ^ 3 * (|c.sampScale| * ratioBound u E qs (Geotiff.computeP c.sampDen x y z) (termSize c.sampNum x y z) (termSize c.sampDen x y z)) +
        ((1 + u) ^ 3 - 1) * (|qs * c.sampScale| + |c.sampOff| + 1 / 2) ∧
      |Y' - Y| ≤ (1 + u) ^ 3 * (|c.lineScale| * ratioBound u E ql (Geotiff.computeP c.lineDen x y z) (termSize c.lineNum x y z) (termSize c.lineDen x y z)) +
        ((1 + u) ^ 3 - 1) * (|ql * c.lineScale| + |c.lineOff| + 1 / 2) := by
  subst hE
  obtain ⟨rfl, e⟩ := Prod.mk.inj hn
  obtain ⟨rfl, rfl⟩ := Prod.mk.inj e
  have ax := normalised_approx hr hu lat c.latOff c.latScale
  have ay := normalised_approx hr hu lon c.lonOff c.lonScale
  have az := normalised_approx hr hu alt c.hOff c.hScale
  obtain ⟨d1, d1', e1⟩ := ratio_err hr hu (computePR_approx hr hu c.sampNum ax ay az) (computePR_approx hr hu c.sampDen ax ay az) hs
  obtain ⟨d2, d2', e2⟩ := ratio_err hr hu (computePR_approx hr hu c.lineNum ax ay az) (computePR_approx hr hu c.lineDen ax ay az) hl
  refine ⟨_, _, _, _, _, _, ?_, ?_, div_mul_cancel₀ _ d1, div_mul_cancel₀ _ d2, scale_err hr hu e1, scale_err hr hu e2⟩
  · simp only [Geotiff.Rpc.project, fdiv, if_neg h1, if_neg h2, if_neg h3, if_neg d1, if_neg d2, Option.bind_eq_bind, Option.bind_some]
  · simp only [rpcR, divR, fdiv, if_neg h1, if_neg h2, if_neg h3, if_neg d1', if_neg d2', Option.map_some, Option.bind_eq_bind, Option.bind_some]

/-- Monotonicity of `ratioBound`. -/
theorem ratioBound_le {u E q d sn sd : K} (hu : 0 ≤ u) (hE : 0 ≤ E) (hsn0 : 0 ≤ sn) (hsd0 : 0 ≤ sd) {Q D N M : K} (hq : |q| ≤ Q) (hd : D ≤ |d|) (hsn : sn ≤ N) (hsd : sd ≤ M)
    (hpos : 0 < D - E * M) : ratioBound u E q d sn sd ≤ u * Q + (1 + u) * ((E * N + Q * (E * M)) / (D - E * M)) := by
  unfold ratioBound
  have h0 : 0 ≤ |q| := abs_nonneg _
  have h1 : E * sn ≤ E * N := mul_le_mul_of_nonneg_left hsn hE
  have h2 : E * sd ≤ E * M := mul_le_mul_of_nonneg_left hsd hE
  have h3 : |q| * (E * sd) ≤ Q * (E * M) := mul_le_mul hq h2 (mul_nonneg hE hsd0) (h0.trans hq)
  have h4 : (E * sn + |q| * (E * sd)) / (|d| - E * sd) ≤ (E * N + Q * (E * M)) / (D - E * M) := by
    exact div_le_div₀ (by have := mul_nonneg hE hsn0; have := mul_nonneg h0 (mul_nonneg hE hsd0); linarith) (by linarith) hpos (by linarith)
  have h5 := mul_le_mul_of_nonneg_left h4 (show (0 : K) ≤ 1 + u by linarith)
  have h6 := mul_le_mul_of_nonneg_left hq hu
  linarith

theorem termSize_nonneg (a : Nat → K) (x y z : K) : 0 ≤ termSize a x y z := by
  unfold termSize Geotiff.computeP
  positivity

/-- The polynomial is at most as large as its terms together. -/
theorem computeP_le (a : Nat → K) (x y z : K) : |Geotiff.computeP a x y z| ≤ termSize a x y z := by
  have := computePR_approx (r := id) (u := 0) (fun x => by simp) le_rfl a (Approx.exact (0 : K) x |>.weaken le_rfl (by decide : 0 ≤ 2))
    (Approx.exact (0 : K) y |>.weaken le_rfl (by decide)) (Approx.exact (0 : K) z |>.weaken le_rfl (by decide))
  exact this.size

/-- C169 in double precision: with terms of ordinary size (numerator and denominator terms together at most 2, denominator at least 1/2 in size), and images of up
to a few hundred thousand pixels, the computed pixel is within a hundred-millionth of a pixel of the exact one. -/
theorem C169_rpc_double [FloorRing K] (c : Geotiff.Rpc K) (lon lat alt : K) (h1 : c.latScale ≠ 0) (h2 : c.lonScale ≠ 0) (h3 : c.hScale ≠ 0)
    (x y z : K) (hn : normalised c lon lat alt = (x, y, z)) (hsn : termSize c.sampNum x y z ≤ 2) (hsd : termSize c.sampDen x y z ≤ 2)
    (hln : termSize c.lineNum x y z ≤ 2) (hld : termSize c.lineDen x y z ≤ 2) (hs : 1 / 2 ≤ |Geotiff.computeP c.sampDen x y z|)
    (hl : 1 / 2 ≤ |Geotiff.computeP c.lineDen x y z|) (hss : |c.sampScale| ≤ 2 ^ 17) (hso : |c.sampOff| ≤ 2 ^ 17) (hls : |c.lineScale| ≤ 2 ^ 17)
    (hlo : |c.lineOff| ≤ 2 ^ 17) :
    ∃ X Y X' Y', c.project lon lat alt = some (X, Y) ∧ rpcR (Rounding.fl 53) c lon lat alt = some (X', Y') ∧ |X' - X| ≤ 1 / 10 ^ 8 ∧ |Y' - Y| ≤ 1 / 10 ^ 8 := by
  have hr : Rounds (Rounding.fl 53 : K → K) (Rounding.unit 53) := Rounding.fl_err' 53
  have hu : (0 : K) ≤ Rounding.unit 53 := by unfold Rounding.unit; positivity
  have hE1 : ((1 + Rounding.unit 53 : K)) ^ 22 - 1 ≤ 23 / 2 ^ 53 := by unfold Rounding.unit; norm_num
  have hE0 : (0 : K) ≤ (1 + Rounding.unit 53 : K) ^ 22 - 1 := by have := one_le_growth hu 22; linarith
  generalize hE : ((1 + Rounding.unit 53 : K)) ^ 22 - 1 = E at *
  have hE2 : E ≤ 1 / 2 ^ 10 := hE1.trans (by norm_num)
  have key : ∀ (num den : Nat → K), termSize num x y z ≤ 2 → termSize den x y z ≤ 2 → 1 / 2 ≤ |Geotiff.computeP den x y z| →
      E * termSize den x y z < |Geotiff.computeP den x y z| ∧ ∀ q S O : K, q * Geotiff.computeP den x y z = Geotiff.computeP num x y z → |S| ≤ 2 ^ 17 → |O| ≤ 2 ^ 17 →
        (1 + Rounding.unit 53 : K) ^ 3 * (|S| * ratioBound (Rounding.unit 53) E q (Geotiff.computeP den x y z) (termSize num x y z) (termSize den x y z)) +
          ((1 + Rounding.unit 53 : K) ^ 3 - 1) * (|q * S| + |O| + 1 / 2) ≤ 1 / 10 ^ 8 := by
    intro num den g1 g2 g3
    have t0 := termSize_nonneg den x y z
    refine ⟨?_, ?_⟩
    · have : E * termSize den x y z ≤ (1 / 2 ^ 10) * 2 := mul_le_mul hE2 g2 t0 (by positivity)
      have h' : ((1 : K) / 2 ^ 10) * 2 < 1 / 2 := by norm_num
      linarith
    · intro q S O hq hS hO
      have q4 : |q| ≤ 4 := by
        have e : |q| * |Geotiff.computeP den x y z| ≤ 2 := by rw [← abs_mul, hq]; exact (computeP_le _ _ _ _).trans g1
        have := mul_le_mul_of_nonneg_left g3 (abs_nonneg q)
        linarith
      have hp : (0 : K) < 1 / 2 - E * 2 := by
        have h' : ((1 : K) / 2 ^ 10) * 2 < 1 / 2 := by norm_num
        linarith
      have b := ratioBound_le hu hE0 (termSize_nonneg num x y z) t0 q4 g3 g1 g2 hp
      have b2 : (E * 2 + 4 * (E * 2)) / (1 / 2 - E * 2) ≤ (10 * (23 / 2 ^ 53)) / (1 / 2 - 1 / 2 ^ 9) := by
        refine div_le_div₀ (by positivity) (by linarith) (by norm_num) ?_
        have h' : ((1 : K) / 2 ^ 9) = 2 * (1 / 2 ^ 10) := by norm_num
        rw [h']; linarith
      have b3 : ratioBound (Rounding.unit 53) E q (Geotiff.computeP den x y z) (termSize num x y z) (termSize den x y z) ≤
          (1 / 2 ^ 53) * 4 + (1 + 1 / 2 ^ 53) * ((10 * (23 / 2 ^ 53)) / (1 / 2 - 1 / 2 ^ 9)) := by
        refine b.trans ?_
        have := mul_le_mul_of_nonneg_left b2 (show (0 : K) ≤ 1 + 1 / 2 ^ 53 by positivity)
        unfold Rounding.unit
        linarith
      have s0 : |S| * ratioBound (Rounding.unit 53) E q (Geotiff.computeP den x y z) (termSize num x y z) (termSize den x y z) ≤
          2 ^ 17 * ((1 / 2 ^ 53) * 4 + (1 + 1 / 2 ^ 53) * ((10 * (23 / 2 ^ 53)) / (1 / 2 - 1 / 2 ^ 9))) := by
        refine (mul_le_mul_of_nonneg_left b3 (abs_nonneg S)).trans (mul_le_mul_of_nonneg_right hS ?_)
        norm_num
      have s1 : |q * S| ≤ 4 * 2 ^ 17 := by rw [abs_mul]; exact mul_le_mul q4 hS (abs_nonneg _) (by norm_num)
      have s2 : |q * S| + |O| + 1 / 2 ≤ 4 * 2 ^ 17 + 2 ^ 17 + 1 / 2 := by linarith
      have c1 : (1 + Rounding.unit 53 : K) ^ 3 - 1 ≤ 4 / 2 ^ 53 := by unfold Rounding.unit; norm_num
      have c0 : (0 : K) ≤ (1 + Rounding.unit 53 : K) ^ 3 - 1 := by have := one_le_growth hu 3; linarith
      have f1 : (1 + Rounding.unit 53 : K) ^ 3 * (|S| * ratioBound (Rounding.unit 53) E q (Geotiff.computeP den x y z) (termSize num x y z) (termSize den x y z)) ≤
          (1 + 4 / 2 ^ 53) * (2 ^ 17 * ((1 / 2 ^ 53) * 4 + (1 + 1 / 2 ^ 53) * ((10 * (23 / 2 ^ 53)) / (1 / 2 - 1 / 2 ^ 9)))) := by
        refine (mul_le_mul_of_nonneg_left s0 (by linarith)).trans (mul_le_mul_of_nonneg_right (by linarith) (by norm_num))
      have f2 := mul_le_mul c1 s2 (by positivity) (by norm_num : (0 : K) ≤ 4 / 2 ^ 53)
      refine (add_le_add f1 f2).trans ?_
      norm_num
  obtain ⟨k1, k1'⟩ := key c.sampNum c.sampDen hsn hsd hs
  obtain ⟨k2, k2'⟩ := key c.lineNum c.lineDen hln hld hl
  obtain ⟨X, Y, X', Y', qs, ql, p1, p2, e1, e2, b1, b2⟩ := C169_rpc_error hr hu c lon lat alt h1 h2 h3 x y z E hn hE.symm k1 k2
  exact ⟨X, Y, X', Y', p1, p2, b1.trans (k1' qs c.sampScale c.sampOff e1 hss hso), b2.trans (k2' ql c.lineScale c.lineOff e2 hls hlo)⟩

/-- Non-vacuity: an RPC with the sample in the normalised longitude, the line in the normalised latitude and a denominator that varies with height. -/
example : ∃ c : Geotiff.Rpc ℚ, c.latScale ≠ 0 ∧ c.lonScale ≠ 0 ∧ c.hScale ≠ 0 ∧ normalised c (-77) 43 100 = (1 / 2, 1 / 4, 1 / 10) ∧
    termSize c.sampNum (1 / 2) (1 / 4) (1 / 10) ≤ 2 ∧ termSize c.sampDen (1 / 2) (1 / 4) (1 / 10) ≤ 2 ∧ termSize c.lineNum (1 / 2) (1 / 4) (1 / 10) ≤ 2 ∧
    termSize c.lineDen (1 / 2) (1 / 4) (1 / 10) ≤ 2 ∧ 1 / 2 ≤ |Geotiff.computeP c.sampDen (1 / 2) (1 / 4) (1 / 10)| ∧
    1 / 2 ≤ |Geotiff.computeP c.lineDen (1 / 2) (1 / 4) (1 / 10)| ∧ |c.sampScale| ≤ 2 ^ 17 ∧ |c.sampOff| ≤ 2 ^ 17 := by
  refine ⟨⟨fun i => if i = 1 then 1 else 0, fun i => if i = 0 then 1 else if i = 3 then 1 / 100 else 0, 17000, 17000, fun i => if i = 2 then -1 else 0,
    fun i => if i = 0 then 1 else if i = 3 then 1 / 100 else 0, 12000, 12000, 1 / 10, 43 - 1 / 20, 1 / 10, -77 - 1 / 40, 500, 50⟩, ?_⟩
  refine ⟨by norm_num, by norm_num, by norm_num, by norm_num [normalised], ?_⟩
  norm_num [termSize, Geotiff.computeP]

end

/-! ### C170 -/

/-- The numeric library is good to a relative error `u`: arithmetic, sine, cosine, and, where they are defined, inverse sine and inverse cosine. -/
structure Lib.Good (L : Lib) (u : ℝ) : Prop where
  arith : Rounds L.r u
  sin : ∀ x, |L.sn x - Real.sin x| ≤ u * |Real.sin x|
  cos : ∀ x, |L.cs x - Real.cos x| ≤ u * |Real.cos x|
  arcsin : ∀ x, -1 ≤ x → x ≤ 1 → |L.asn x - Real.arcsin x| ≤ u * |Real.arcsin x|
  arccos : ∀ x, -1 ≤ x → x ≤ 1 → |L.acs x - Real.arccos x| ≤ u * |Real.arccos x|

section
variable {L : Lib} {u : ℝ}

theorem sn_approx (h : L.Good u) (x : ℝ) : Approx u 1 (L.sn x) (Real.sin x) |Real.sin x| := ⟨by simpa using h.sin x, le_rfl⟩
theorem cs_approx (h : L.Good u) (x : ℝ) : Approx u 1 (L.cs x) (Real.cos x) |Real.cos x| := ⟨by simpa using h.cos x, le_rfl⟩

/-- The terms of an entry of a rotation matrix together are at most one in size. -/
theorem two_terms {a b c d e : ℝ} (h1 : a ^ 2 + c ^ 2 = 1) (h2 : b ^ 2 + e ^ 2 = 1) (h3 : |d| ≤ 1) : |a| * |b| + |c| * |d| * |e| ≤ 1 := by
  have g1 : |c| * |d| * |e| ≤ |c| * |e| := by
    have := mul_le_mul_of_nonneg_left h3 (abs_nonneg c)
    have := mul_le_mul_of_nonneg_right this (abs_nonneg e)
    linarith
  have := sq_nonneg (|a| - |b|)
  have := sq_nonneg (|c| - |e|)
  have := sq_abs a; have := sq_abs b; have := sq_abs c; have := sq_abs e
  nlinarith

theorem abs_mul_one {a b : ℝ} (ha : |a| ≤ 1) (hb : |b| ≤ 1) : |a| * |b| ≤ 1 := by
  have := mul_le_mul ha hb (abs_nonneg b) zero_le_one
  linarith

theorem mRpyR_approx (h : L.Good u) (hu : 0 ≤ u) (w p k : ℝ) (i j : Fin 3) : Approx u 6 (mRpyR L w p k i j) (Rotation.mRpy w p k i j) 1 := by
  have S := sn_approx h
  have C := cs_approx h
  have hr := h.arith
  have N1 : Approx u 0 (-1 : ℝ) (-1) |(-1 : ℝ)| := Approx.exact u _
  have n1 : |(-1 : ℝ)| = 1 := by norm_num
  have sw := Real.abs_sin_le_one w
  have cw := Real.abs_cos_le_one w
  have sp := Real.abs_sin_le_one p
  have cp := Real.abs_cos_le_one p
  have sk := Real.abs_sin_le_one k
  have ck := Real.abs_cos_le_one k
  have W := Real.sin_sq_add_cos_sq w
  have Kq := Real.sin_sq_add_cos_sq k
  have W' := Real.cos_sq_add_sin_sq w
  have Kq' := Real.cos_sq_add_sin_sq k
  fin_cases i <;> fin_cases j
  · exact ((C p).mul hr hu (C k)).mono hu (by decide) (abs_mul_one cp ck)
  · exact (((C w).mul hr hu (S k)).add hr hu (((S w).mul hr hu (S p)).mul hr hu (C k))).mono hu (by decide) (two_terms W' Kq sp)
  · exact (((S w).mul hr hu (S k)).sub hr hu (((C w).mul hr hu (S p)).mul hr hu (C k))).mono hu (by decide) (two_terms W Kq sp)
  · exact ((N1.mul hr hu (C p)).mul hr hu (S k)).mono hu (by decide) (by rw [n1, one_mul]; exact abs_mul_one cp sk)
  · exact (((C w).mul hr hu (C k)).sub hr hu (((S w).mul hr hu (S p)).mul hr hu (S k))).mono hu (by decide) (two_terms W' Kq' sp)
  · exact (((S w).mul hr hu (C k)).add hr hu (((C w).mul hr hu (S p)).mul hr hu (S k))).mono hu (by decide) (two_terms W Kq' sp)
  · exact (S p).mono hu (by decide) sp
  · exact ((N1.mul hr hu (S w)).mul hr hu (C p)).mono hu (by decide) (by rw [n1, one_mul]; exact abs_mul_one sw cp)
  · exact ((C w).mul hr hu (C p)).mono hu (by decide) (abs_mul_one cw cp)

/-- A computed matrix: every entry is off by at most `k` roundings of its own size. -/
def Close (u : ℝ) (k : ℕ) (m' : Fin 3 → Fin 3 → ℝ) (m : Rotation.M3) (s : Fin 3 → Fin 3 → ℝ) : Prop := ∀ i j, Approx u k (m' i j) (m i j) (s i j)

theorem neg_sn (h : L.Good u) (hu : 0 ≤ u) (x : ℝ) : Approx u 2 (L.r (-1 * L.sn x)) (-1 * Real.sin x) |(-1 * Real.sin x)| := by
  have := (Approx.exact u (-1 : ℝ)).mul h.arith hu (sn_approx h x)
  rw [← abs_mul] at this
  exact this

theorem mOmegaR_close (h : L.Good u) (hu : 0 ≤ u) (w : ℝ) : Close u 2 (mOmegaR L w) (Rotation.mOmega w) (fun i j => |Rotation.mOmega w i j|) := by
  have S := (sn_approx h w).weaken hu (by decide : 1 ≤ 2)
  have C := (cs_approx h w).weaken hu (by decide : 1 ≤ 2)
  have N := neg_sn h hu w
  have Z := (Approx.exact u (0 : ℝ)).weaken hu (by decide : 0 ≤ 2)
  have O := (Approx.exact u (1 : ℝ)).weaken hu (by decide : 0 ≤ 2)
  intro i j
  fin_cases i <;> fin_cases j <;> first | exact O | exact Z | exact S | exact C | exact N

theorem mPhiR_close (h : L.Good u) (hu : 0 ≤ u) (w : ℝ) : Close u 2 (mPhiR L w) (Rotation.mPhi w) (fun i j => |Rotation.mPhi w i j|) := by
  have S := (sn_approx h w).weaken hu (by decide : 1 ≤ 2)
  have C := (cs_approx h w).weaken hu (by decide : 1 ≤ 2)
  have N := neg_sn h hu w
  have Z := (Approx.exact u (0 : ℝ)).weaken hu (by decide : 0 ≤ 2)
  have O := (Approx.exact u (1 : ℝ)).weaken hu (by decide : 0 ≤ 2)
  intro i j
  fin_cases i <;> fin_cases j <;> first | exact O | exact Z | exact S | exact C | exact N

theorem mKappaR_close (h : L.Good u) (hu : 0 ≤ u) (w : ℝ) : Close u 2 (mKappaR L w) (Rotation.mKappa w) (fun i j => |Rotation.mKappa w i j|) := by
  have S := (sn_approx h w).weaken hu (by decide : 1 ≤ 2)
  have C := (cs_approx h w).weaken hu (by decide : 1 ≤ 2)
  have N := neg_sn h hu w
  have Z := (Approx.exact u (0 : ℝ)).weaken hu (by decide : 0 ≤ 2)
  have O := (Approx.exact u (1 : ℝ)).weaken hu (by decide : 0 ≤ 2)
  intro i j
  fin_cases i <;> fin_cases j <;> first | exact O | exact Z | exact S | exact C | exact N

/-- A matrix product in any order of summation. -/
theorem matmulR_close (h : L.Good u) (hu : 0 ≤ u) {k l : ℕ} {a' b' : Fin 3 → Fin 3 → ℝ} {a b : Rotation.M3} {s t : Fin 3 → Fin 3 → ℝ} (ha : Close u k a' a s)
    (hb : Close u l b' b t) (T : Fin 3 → Fin 3 → DotTree) (hT : ∀ i j, (T i j).Covers 3) :
    Close u (k + l + 3) (matmulR L T a' b') (a * b) (fun i j => s i 0 * t 0 j + s i 1 * t 1 j + s i 2 * t 2 j) := by
  intro i j
  have := dot_approx h.arith hu (fun n => ha i (Fin.ofNat 3 n)) (fun n => hb (Fin.ofNat 3 n) j) (T i j)
  rw [perm_sum (hT i j) (fun n => a i (Fin.ofNat 3 n) * b (Fin.ofNat 3 n) j), perm_sum (hT i j) (fun n => s i (Fin.ofNat 3 n) * t (Fin.ofNat 3 n) j),
    (hT i j).length_eq, List.length_range] at this
  simp only [Finset.sum_range_succ, Finset.sum_range_zero, zero_add] at this
  rw [Matrix.mul_apply, Fin.sum_univ_three]
  exact this

/-- The terms of an entry of a product of three matrices, in absolute value. -/
def tripleSize (a b c : Rotation.M3) (i j : Fin 3) : ℝ :=
  (|a i 0| * |b 0 0| + |a i 1| * |b 1 0| + |a i 2| * |b 2 0|) * |c 0 j| + (|a i 0| * |b 0 1| + |a i 1| * |b 1 1| + |a i 2| * |b 2 1|) * |c 1 j| +
    (|a i 0| * |b 0 2| + |a i 1| * |b 1 2| + |a i 2| * |b 2 2|) * |c 2 j|

theorem triple_close (h : L.Good u) (hu : 0 ≤ u) {a' b' c' : Fin 3 → Fin 3 → ℝ} {a b c : Rotation.M3} (ha : Close u 2 a' a (fun i j => |a i j|))
    (hb : Close u 2 b' b (fun i j => |b i j|)) (hc : Close u 2 c' c (fun i j => |c i j|)) (t1 t2 : Fin 3 → Fin 3 → DotTree) (h1 : ∀ i j, (t1 i j).Covers 3)
    (h2 : ∀ i j, (t2 i j).Covers 3) (hs : ∀ i j, tripleSize a b c i j ≤ 1) (i j : Fin 3) :
    Approx u 12 (matmulR L t2 (matmulR L t1 a' b') c' i j) ((a * b * c) i j) 1 :=
  (matmulR_close h hu (matmulR_close h hu ha hb t1 h1) hc t2 h2 i j).mono hu (by decide) (hs i j)

/-- Two unit vectors. -/
theorem unit_pair {a b c e : ℝ} (h1 : a ^ 2 + c ^ 2 = 1) (h2 : b ^ 2 + e ^ 2 = 1) : |a| * |b| + |c| * |e| ≤ 1 := by
  have := two_terms (d := 1) h1 h2 (by simp)
  simpa using this

/-- All the terms of one entry, with one of the three angles in every term. -/
theorem three_factors {a b c : ℝ} (ha : |a| ≤ 1) (hb : |b| ≤ 1) (hc : |c| ≤ 1) : |a| * |b| * |c| ≤ 1 := by
  have h1 := abs_mul_one ha hb
  have h2 := mul_le_mul h1 hc (abs_nonneg c) zero_le_one
  linarith

section
variable (w p k : ℝ)

/-- The exact product of three elementary rotations, whatever their order, has entries of at most two terms. -/
theorem tripleSize_le (a b c : Rotation.M3)
    (h : (a = Rotation.mPhi p ∧ b = Rotation.mKappa k ∧ c = Rotation.mOmega w) ∨ (a = Rotation.mKappa k ∧ b = Rotation.mOmega w ∧ c = Rotation.mPhi p) ∨
      (a = Rotation.mOmega w ∧ b = Rotation.mKappa k ∧ c = Rotation.mPhi p) ∨ (a = Rotation.mPhi p ∧ b = Rotation.mOmega w ∧ c = Rotation.mKappa k) ∨
      (a = Rotation.mOmega w ∧ b = Rotation.mPhi p ∧ c = Rotation.mKappa k)) (i j : Fin 3) : tripleSize a b c i j ≤ 1 := by
  have sw := Real.abs_sin_le_one w
  have cw := Real.abs_cos_le_one w
  have sp := Real.abs_sin_le_one p
  have cp := Real.abs_cos_le_one p
  have sk := Real.abs_sin_le_one k
  have ck := Real.abs_cos_le_one k
  have W := Real.sin_sq_add_cos_sq w
  have W' := Real.cos_sq_add_sin_sq w
  have P := Real.sin_sq_add_cos_sq p
  have P' := Real.cos_sq_add_sin_sq p
  have Q := Real.sin_sq_add_cos_sq k
  have Q' := Real.cos_sq_add_sin_sq k
  have two : ∀ {a b c d e X : ℝ}, a ^ 2 + c ^ 2 = 1 → b ^ 2 + e ^ 2 = 1 → |d| ≤ 1 → X = |a| * |b| + |c| * |d| * |e| → X ≤ 1 :=
    fun h1 h2 h3 h4 => h4.le.trans (two_terms h1 h2 h3)
  rcases h with ⟨rfl, rfl, rfl⟩ | ⟨rfl, rfl, rfl⟩ | ⟨rfl, rfl, rfl⟩ | ⟨rfl, rfl, rfl⟩ | ⟨rfl, rfl, rfl⟩ <;> fin_cases i <;> fin_cases j <;>
    simp [tripleSize, Rotation.mPhi, Rotation.mKappa, Rotation.mOmega] <;>
    first
    | assumption
    | exact abs_mul_one ‹_› ‹_›
    | (refine two P W ck ?_; ring1) | (refine two P W' ck ?_; ring1) | (refine two P' W ck ?_; ring1) | (refine two P' W' ck ?_; ring1)
    | (refine two P W sk ?_; ring1) | (refine two P W' sk ?_; ring1) | (refine two P' W sk ?_; ring1) | (refine two P' W' sk ?_; ring1)
    | (refine two P Q cw ?_; ring1) | (refine two P Q' cw ?_; ring1) | (refine two P' Q cw ?_; ring1) | (refine two P' Q' cw ?_; ring1)
    | (refine two P Q sw ?_; ring1) | (refine two P Q' sw ?_; ring1) | (refine two P' Q sw ?_; ring1) | (refine two P' Q' sw ?_; ring1)
    | (refine two W Q cp ?_; ring1) | (refine two W Q' cp ?_; ring1) | (refine two W' Q cp ?_; ring1) | (refine two W' Q' cp ?_; ring1)
    | (refine two W Q sp ?_; ring1) | (refine two W Q' sp ?_; ring1) | (refine two W' Q sp ?_; ring1) | (refine two W' Q' sp ?_; ring1)

end

/-- Every computed entry, for every order of rotations and every way to compute matrix products. -/
theorem createMR_approx (h : L.Good u) (hu : 0 ≤ u) (t1 t2 : Fin 3 → Fin 3 → DotTree) (h1 : ∀ i j, (t1 i j).Covers 3) (h2 : ∀ i j, (t2 i j).Covers 3)
    (w p k : ℝ) (order : String) (i j : Fin 3) : Approx u 12 (createMR L t1 t2 w p k order i j) (Rotation.createM w p k order i j) 1 := by
  have A := mOmegaR_close h hu w
  have B := mPhiR_close h hu p
  have C := mKappaR_close h hu k
  unfold createMR Rotation.createM
  split
  · exact (mRpyR_approx h hu w p k i j).weaken hu (by decide)
  split
  · exact triple_close h hu B C A t1 t2 h1 h2 (tripleSize_le w p k _ _ _ (by simp)) i j
  split
  · exact triple_close h hu C A B t1 t2 h1 h2 (tripleSize_le w p k _ _ _ (by simp)) i j
  split
  · exact triple_close h hu A C B t1 t2 h1 h2 (tripleSize_le w p k _ _ _ (by simp)) i j
  split
  · exact triple_close h hu B A C t1 t2 h1 h2 (tripleSize_le w p k _ _ _ (by simp)) i j
  split
  · exact triple_close h hu A B C t1 t2 h1 h2 (tripleSize_le w p k _ _ _ (by simp)) i j
  · exact ((Approx.exact u (0 : ℝ)).mono hu (by decide) (by simp))

/-- C170: every entry of the float orientation matrix is within `(1+u)^12 - 1` of the exact one, in every rotation order, however matrix products are added up. -/
theorem C170_entries (h : L.Good u) (hu : 0 ≤ u) (t1 t2 : Fin 3 → Fin 3 → DotTree) (h1 : ∀ i j, (t1 i j).Covers 3) (h2 : ∀ i j, (t2 i j).Covers 3)
    (w p k : ℝ) (order : String) (i j : Fin 3) : |createMR L t1 t2 w p k order i j - Rotation.createM w p k order i j| ≤ (1 + u) ^ 12 - 1 := by
  simpa using (createMR_approx h hu t1 t2 h1 h2 w p k order i j).err

/-- C170: the rows of the float matrix are orthonormal up to `3 * ((1+u)^24 - 1)`. -/
theorem C170_orthonormal (h : L.Good u) (hu : 0 ≤ u) (t1 t2 : Fin 3 → Fin 3 → DotTree) (h1 : ∀ i j, (t1 i j).Covers 3) (h2 : ∀ i j, (t2 i j).Covers 3)
    (w p k : ℝ) (order : String) (ho : order ∈ Rotation.orders) (M' : Fin 3 → Fin 3 → ℝ) (hM : M' = createMR L t1 t2 w p k order) (i j : Fin 3) :
    |M' i 0 * M' j 0 + M' i 1 * M' j 1 + M' i 2 * M' j 2 - (if i = j then 1 else 0)| ≤ 3 * ((1 + u) ^ 24 - 1) := by
  subst hM
  have A := fun n => (createMR_approx h hu t1 t2 h1 h2 w p k order i n).mul' hu (createMR_approx h hu t1 t2 h1 h2 w p k order j n)
  have B := (((A 0).add' (A 1)).add' (A 2)).err
  have e : (Rotation.createM w p k order * (Rotation.createM w p k order).transpose) i j = (1 : Rotation.M3) i j := by
    rw [(Rotation.C24_rotation w p k order ho).1]
  rw [Matrix.mul_apply, Fin.sum_univ_three, Matrix.one_apply] at e
  simp only [Matrix.transpose_apply] at e
  rw [e] at B
  refine B.trans (le_of_eq ?_)
  ring

/-- C170 in double precision, with a library that is good to the last bit (relative error `2^-52`). -/
theorem C170_double (h : L.Good (1 / 2 ^ 52)) (t1 t2 : Fin 3 → Fin 3 → DotTree) (h1 : ∀ i j, (t1 i j).Covers 3) (h2 : ∀ i j, (t2 i j).Covers 3)
    (w p k : ℝ) (order : String) (ho : order ∈ Rotation.orders) (M' : Fin 3 → Fin 3 → ℝ) (hM : M' = createMR L t1 t2 w p k order) (i j : Fin 3) :
    |M' i j - Rotation.createM w p k order i j| ≤ 3 / 10 ^ 15 ∧
    |M' i 0 * M' j 0 + M' i 1 * M' j 1 + M' i 2 * M' j 2 - (if i = j then 1 else 0)| ≤ 2 / 10 ^ 14 := by
  refine ⟨?_, (C170_orthonormal h (by positivity) t1 t2 h1 h2 w p k order ho M' hM i j).trans (by norm_num)⟩
  rw [hM]
  exact (C170_entries h (by positivity) t1 t2 h1 h2 w p k order i j).trans (by norm_num)

/-! ### C171 -/

/-- Distance from the camera to the point, summed along the axes. -/
def dist1 (pos p : Fin 3 → ℝ) : ℝ := |p 0 - pos 0| + |p 1 - pos 1| + |p 2 - pos 2|

theorem rowR_approx {r : ℝ → ℝ} (hr : Rounds r u) (hu : 0 ≤ u) {m' m : Fin 3 → ℝ} (hm : ∀ i, Approx u 6 (m' i) (m i) 1) (pos p : Fin 3 → ℝ) :
    Approx u 10 (rowR r m' (fun i => r (p i - pos i))) (m 0 * (p 0 - pos 0) + m 1 * (p 1 - pos 1) + m 2 * (p 2 - pos 2)) (dist1 pos p) := by
  have T := fun i => (hm i).mul hr hu (Approx.diff hr hu (p i) (pos i))
  have := (((T 0).add hr hu (T 1)).add hr hu (T 2)).weaken (l := 10) hu (by decide)
  simp only [one_mul] at this
  exact this

/-- The last product: minus the focal length times a quotient that is off by `e`. -/
theorem focal_err {r : ℝ → ℝ} (hr : Rounds r u) (hu : 0 ≤ u) {q' q e f : ℝ} (h : |q' - q| ≤ e) :
    |r (r (-1 * f) * q') - -1 * f * q| ≤ (1 + u) ^ 2 * (|f| * e) + ((1 + u) ^ 2 - 1) * (|f| * |q|) := by
  have a := (((Approx.exact u (-1 * f)).round hr hu).mul hr hu (Approx.exact u q')).err
  have e1 : |(-1 * f)| = |f| := by rw [abs_mul]; norm_num
  rw [e1] at a
  have h2 : |-1 * f * q' - -1 * f * q| ≤ |f| * e := by
    rw [← mul_sub, abs_mul, e1]
    exact mul_le_mul_of_nonneg_left h (abs_nonneg _)
  have h3 : |q'| ≤ e + |q| := by
    have : |q'| ≤ |q' - q| + |q| := by simpa using abs_add_le (q' - q) q
    linarith
  have h4 := abs_sub_le (r (r (-1 * f) * q')) (-1 * f * q') (-1 * f * q)
  have h5 := one_le_growth hu 2
  have h6 := mul_le_mul_of_nonneg_left h3 (abs_nonneg f)
  have h7 := mul_le_mul_of_nonneg_left h6 (show (0 : ℝ) ≤ (1 + u) ^ 2 - 1 by linarith)
  have a' : |r (r (-1 * f) * q') - -1 * f * q'| ≤ ((1 + u) ^ 2 - 1) * (|f| * |q'|) := a
  nlinarith [a', h2, h4, h7]

/-- C171: a pinhole camera with float position and focal length and the float matrix of its angles.  `X`, `Y`, `Z` are the exact coordinates of the point in
the camera's frame.  Unless the depth `Z` is lost in rounding, the point has an image in floats and exactly, and the two are this close. -/
theorem C171_image_plane (h : L.Good u) (hu : 0 ≤ u) (t1 t2 : Fin 3 → Fin 3 → DotTree) (pos p : Fin 3 → ℝ) (f w ph k X Y Z E : ℝ)
    (hX : Camera.camFrame (Rotation.createM w ph k "rpy") pos p = ![X, Y, Z]) (hE : E = (1 + u) ^ 10 - 1) (hZ : E * dist1 pos p < |Z|) :
    ∃ x y x' y', (⟨pos, f, Rotation.createM w ph k "rpy"⟩ : Camera.Pinhole).imagePlane p = some (x, y) ∧
      imagePlaneR L.r pos f (createMR L t1 t2 w ph k "rpy") p = some (x', y') ∧
      |x' - x| ≤ (1 + u) ^ 2 * (|f| * ratioBound u E (X / Z) Z (dist1 pos p) (dist1 pos p)) + ((1 + u) ^ 2 - 1) * (|f| * |X / Z|) ∧
      |y' - y| ≤ (1 + u) ^ 2 * (|f| * ratioBound u E (Y / Z) Z (dist1 pos p) (dist1 pos p)) + ((1 + u) ^ 2 - 1) * (|f| * |Y / Z|) := by
  subst hE
  have eM : Rotation.createM w ph k "rpy" = Rotation.mRpy w ph k := by simp [Rotation.createM]
  have eM' : createMR L t1 t2 w ph k "rpy" = mRpyR L w ph k := by simp [createMR]
  rw [eM] at hX ⊢
  rw [eM']
  have R := fun i => rowR_approx h.arith hu (fun j => mRpyR_approx h hu w ph k i j) pos p
  have c : ∀ i, Camera.camFrame (Rotation.mRpy w ph k) pos p i =
      Rotation.mRpy w ph k i 0 * (p 0 - pos 0) + Rotation.mRpy w ph k i 1 * (p 1 - pos 1) + Rotation.mRpy w ph k i 2 * (p 2 - pos 2) := by
    intro i
    simp [Camera.camFrame, Matrix.mulVec, dotProduct, Fin.sum_univ_three]
  have cX : Rotation.mRpy w ph k 0 0 * (p 0 - pos 0) + Rotation.mRpy w ph k 0 1 * (p 1 - pos 1) + Rotation.mRpy w ph k 0 2 * (p 2 - pos 2) = X := by
    rw [← c 0, hX]; rfl
  have cY : Rotation.mRpy w ph k 1 0 * (p 0 - pos 0) + Rotation.mRpy w ph k 1 1 * (p 1 - pos 1) + Rotation.mRpy w ph k 1 2 * (p 2 - pos 2) = Y := by
    rw [← c 1, hX]; rfl
  have cZ : Rotation.mRpy w ph k 2 0 * (p 0 - pos 0) + Rotation.mRpy w ph k 2 1 * (p 1 - pos 1) + Rotation.mRpy w ph k 2 2 * (p 2 - pos 2) = Z := by
    rw [← c 2, hX]; rfl
  have r0 := R 0
  have r1 := R 1
  have r2 := R 2
  rw [cX] at r0
  rw [cY] at r1
  rw [cZ] at r2
  obtain ⟨d, d', e1⟩ := ratio_err h.arith hu r0 r2 hZ
  obtain ⟨_, _, e2⟩ := ratio_err h.arith hu r1 r2 hZ
  refine ⟨_, _, _, _, ?_, ?_, focal_err h.arith hu e1, focal_err h.arith hu e2⟩
  · simp only [Camera.Pinhole.imagePlane, cX, cY, cZ, fdiv, if_neg d, Option.bind_eq_bind, Option.bind_some]
  · simp only [imagePlaneR, divR, fdiv, if_neg d', Option.map_some, Option.bind_eq_bind, Option.bind_some]

/-- C171 in double precision with a library good to the last bit: for every point that is not more than ten times as far away (summed along the axes) as it is
deep, the float image position is within a millionth of a millionth of the focal length. -/
theorem C171_double (h : L.Good (1 / 2 ^ 52)) (t1 t2 : Fin 3 → Fin 3 → DotTree) (pos p : Fin 3 → ℝ) (f w ph k X Y Z : ℝ)
    (hX : Camera.camFrame (Rotation.createM w ph k "rpy") pos p = ![X, Y, Z]) (hZ : Z ≠ 0) (hd : dist1 pos p ≤ 10 * |Z|) :
    ∃ x y x' y', (⟨pos, f, Rotation.createM w ph k "rpy"⟩ : Camera.Pinhole).imagePlane p = some (x, y) ∧
      imagePlaneR L.r pos f (createMR L t1 t2 w ph k "rpy") p = some (x', y') ∧ |x' - x| ≤ |f| / 10 ^ 12 ∧ |y' - y| ≤ |f| / 10 ^ 12 := by
  have hu : (0 : ℝ) ≤ 1 / 2 ^ 52 := by positivity
  have z0 : 0 < |Z| := abs_pos.mpr hZ
  have hE1 : (1 + 1 / 2 ^ 52 : ℝ) ^ 10 - 1 ≤ 11 / 2 ^ 52 := by norm_num
  have hE0 : (0 : ℝ) ≤ (1 + 1 / 2 ^ 52 : ℝ) ^ 10 - 1 := by have := one_le_growth hu 10; linarith
  obtain ⟨E, hE⟩ : ∃ E : ℝ, E = (1 + 1 / 2 ^ 52 : ℝ) ^ 10 - 1 := ⟨_, rfl⟩
  rw [← hE] at hE1 hE0
  have d0 : 0 ≤ dist1 pos p := by unfold dist1; positivity
  have lt : E * dist1 pos p < |Z| := by
    have : E * dist1 pos p ≤ (11 / 2 ^ 52) * (10 * |Z|) := mul_le_mul hE1 hd d0 (by positivity)
    have h' : (11 / 2 ^ 52 : ℝ) * (10 * |Z|) < |Z| := by nlinarith
    linarith
  obtain ⟨x, y, x', y', a, b, e1, e2⟩ := C171_image_plane h hu t1 t2 pos p f w ph k X Y Z E hX hE lt
  have small : ∀ i, |Rotation.createM w ph k "rpy" i 0 * (p 0 - pos 0) + Rotation.createM w ph k "rpy" i 1 * (p 1 - pos 1) +
      Rotation.createM w ph k "rpy" i 2 * (p 2 - pos 2)| ≤ dist1 pos p := by
    intro i
    have eM : Rotation.createM w ph k "rpy" = Rotation.mRpy w ph k := by simp [Rotation.createM]
    rw [eM]
    exact (rowR_approx h.arith hu (fun j => mRpyR_approx h hu w ph k i j) pos p).size
  have c : ∀ i, Camera.camFrame (Rotation.createM w ph k "rpy") pos p i = Rotation.createM w ph k "rpy" i 0 * (p 0 - pos 0) +
      Rotation.createM w ph k "rpy" i 1 * (p 1 - pos 1) + Rotation.createM w ph k "rpy" i 2 * (p 2 - pos 2) := by
    intro i
    simp [Camera.camFrame, Matrix.mulVec, dotProduct, Fin.sum_univ_three]
  have key : ∀ V, |V| ≤ dist1 pos p → (1 + 1 / 2 ^ 52 : ℝ) ^ 2 * (|f| * ratioBound (1 / 2 ^ 52) E (V / Z) Z (dist1 pos p) (dist1 pos p)) +
      ((1 + 1 / 2 ^ 52 : ℝ) ^ 2 - 1) * (|f| * |V / Z|) ≤ |f| / 10 ^ 12 := by
    intro V hV
    have q10 : |V / Z| ≤ 10 := by
      rw [abs_div, div_le_iff₀ z0]
      linarith
    have hp : 0 < |Z| - E * (10 * |Z|) := by
      have : E * (10 * |Z|) ≤ (11 / 2 ^ 52) * (10 * |Z|) := mul_le_mul_of_nonneg_right hE1 (by positivity)
      have h' : (11 / 2 ^ 52 : ℝ) * (10 * |Z|) < |Z| := by nlinarith
      linarith
    have b1 := ratioBound_le hu hE0 d0 d0 q10 le_rfl hd hd hp
    have b2 : (E * (10 * |Z|) + 10 * (E * (10 * |Z|))) / (|Z| - E * (10 * |Z|)) ≤ 110 * (11 / 2 ^ 52) / (1 - 110 / 2 ^ 52) := by
      have e : (E * (10 * |Z|) + 10 * (E * (10 * |Z|))) / (|Z| - E * (10 * |Z|)) = (110 * E) / (1 - 10 * E) := by
        have : |Z| - E * (10 * |Z|) = |Z| * (1 - 10 * E) := by ring
        rw [this, show E * (10 * |Z|) + 10 * (E * (10 * |Z|)) = |Z| * (110 * E) by ring, mul_div_mul_left _ _ (ne_of_gt z0)]
      rw [e]
      refine div_le_div₀ (by positivity) (by linarith) (by norm_num) (by linarith)
    have b3 : ratioBound (1 / 2 ^ 52) E (V / Z) Z (dist1 pos p) (dist1 pos p) ≤ 1 / 2 ^ 52 * 10 + (1 + 1 / 2 ^ 52) * (110 * (11 / 2 ^ 52) / (1 - 110 / 2 ^ 52)) :=
      b1.trans (by have := mul_le_mul_of_nonneg_left b2 (show (0 : ℝ) ≤ 1 + 1 / 2 ^ 52 by positivity); linarith)
    have f0 := abs_nonneg f
    have b4 : ratioBound (1 / 2 ^ 52) E (V / Z) Z (dist1 pos p) (dist1 pos p) ≤ 9 / 10 ^ 13 := b3.trans (by norm_num)
    have b5 := mul_le_mul_of_nonneg_left b4 f0
    have b6 := mul_le_mul_of_nonneg_left q10 f0
    have c1 : (1 + 1 / 2 ^ 52 : ℝ) ^ 2 ≤ 1 + 1 / 2 ^ 50 := by norm_num
    have c2 : (0 : ℝ) ≤ (1 + 1 / 2 ^ 52 : ℝ) ^ 2 - 1 := by norm_num
    have g1 := mul_le_mul c1 b5 (mul_nonneg f0 (by
      unfold ratioBound
      have : 0 ≤ |Z| - E * dist1 pos p := by linarith
      positivity)) (by positivity)
    have g2 := mul_le_mul (show (1 + 1 / 2 ^ 52 : ℝ) ^ 2 - 1 ≤ 1 / 2 ^ 50 by linarith) b6 (by positivity) (by positivity)
    refine (add_le_add g1 g2).trans ?_
    have : (1 + 1 / 2 ^ 50 : ℝ) * (|f| * (9 / 10 ^ 13)) + 1 / 2 ^ 50 * (|f| * 10) = |f| * ((1 + 1 / 2 ^ 50) * (9 / 10 ^ 13) + 10 / 2 ^ 50) := by ring
    rw [this, div_eq_mul_inv]
    exact mul_le_mul_of_nonneg_left (by norm_num) f0
  refine ⟨x, y, x', y', a, b, e1.trans (key X ?_), e2.trans (key Y ?_)⟩
  · have := small 0
    rw [← c 0, hX] at this
    exact this
  · have := small 1
    rw [← c 1, hX] at this
    exact this

end
end Verif.FloatGeom
