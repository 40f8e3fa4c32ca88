import Verif.Props.Convergence
import Verif.Props.Camera

/-! C173 for the frame cameras of the library and the solver's default settings. -/

set_option linter.unusedSectionVars false

namespace Verif.PointCalc
open Verif ImageUtils

section default
variable {K : Type} [Field K] [LinearOrder K] [IsStrictOrderedRing K]

/-- C173 with the default settings (threshold 0.01 pixel, at most 1000 iterations): when the slopes change by less than a sixth of the resolution over the region,
the first guess is at most a million pixels off and the sensor is computed to 1/20000 pixel, the answers reproject within 0.01 pixel. -/
theorem C173_default (P : Projective K) (f' : K → K → K → Option (K × K)) {ε ρ Δ R N ν d Q m M L L' : K} (centre : K × K) (hε : 0 ≤ ε) (hε10 : ε ≤ 1 / 20000)
    (hρ : 0 ≤ ρ) (hR : R = 2 * ρ + Δ) (hLd : L = 2 * ν * R * (N + Q * ν) / d ^ 2) (hL1 : L + 4 * (M + L) * ε ≤ L') (hL2 : L + ε ≤ L') (hm0 : 0 < m) (hm : 6 * L' ≤ m)
    (hM : M + L ≤ 4 * m) (hfar : (M + L) * ρ ≤ 10 ^ 6)
    (hφ : 24 * ε ≤ m * ρ) (hΔ2 : 2 ≤ Δ) (hΔ : 2 * (1 + 2 * ε) ≤ (m - L) * Δ) (alts : K → Prop)
    (hB : ∀ alt, alts alt → P.Bounded centre R N ν d Q alt) (hS : ∀ alt, alts alt → Resolves (P.tangent centre) alt m M ∧ L' < |(P.tangent centre).a alt|)
    (hf : ∀ alt, alts alt → Computes f' P.map ε (fun p => apart p centre ≤ R) alt) (ts : List (Target K)) (hts : ts ≠ []) (gs : List (K × K))
    (hsee : List.Forall₂ (fun t g => alts t.alt ∧ apart centre g ≤ ρ ∧ P.map g.1 g.2 t.alt = some (t.x, t.y)) ts gs) (meanAlt : K) (hmean : alts meanAlt)
    (eps : K) (n : Nat) (he : 0 < eps ∧ eps ≤ Δ ∧ Δ < eps * 2 ^ n) :
    ∃ es, solver f' centre eps n meanAlt (1 / 100) 1000 ts = .ok es ∧ List.Forall₂ (Reprojects f' (1 / 100)) ts es ∧
      List.Forall₂ (Found (1 / 50 / m)) gs es := by
  have b := hB meanAlt hmean
  have hν0 : 0 ≤ ν := le_trans (by positivity) b.flat
  have hN0 : 0 ≤ N := le_trans (by positivity) b.numX
  have hQ0 : 0 ≤ Q := (abs_nonneg _).trans b.offX
  have hR0 : 0 ≤ R := by rw [hR]; linarith
  have hL0 : 0 ≤ L := by rw [hLd]; positivity
  have hM0 : 0 ≤ M := le_trans (by positivity) (hS meanAlt hmean).1.most1
  have hL'0 : 0 ≤ L' := by linarith
  have hm5 : 5 * L' < m := by linarith
  have hfloor : floorErr (2 * ε) m L' ≤ 24 * ε / m := by
    unfold floorErr
    rw [div_le_div_iff₀ (by linarith) hm0]
    nlinarith
  have hfloor0 : 0 ≤ floorErr (2 * ε) m L' := by
    unfold floorErr
    exact div_nonneg (by linarith) (by linarith)
  have hq : 3 * L' / (m - 2 * L') ≤ 3 / 4 := by
    rw [div_le_div_iff₀ (by linarith) (by norm_num)]
    linarith
  have hq0 : 0 ≤ 3 * L' / (m - 2 * L') := div_nonneg (by linarith) (by linarith)
  have hφ' : floorErr (2 * ε) m L' ≤ ρ := by
    refine hfloor.trans ?_
    rw [div_le_iff₀ hm0]
    linarith
  have key : (M + L) * errAfter (2 * ε) m L' ρ 70 + 4 * ε ≤ 1 / 100 := by
    unfold errAfter
    have h1 : (3 * L' / (m - 2 * L')) ^ 70 ≤ (3 / 4) ^ 70 := pow_le_pow_left₀ hq0 hq 70
    have h2 : (3 * L' / (m - 2 * L')) ^ 70 * (ρ - floorErr (2 * ε) m L') ≤ (3 / 4) ^ 70 * ρ :=
      mul_le_mul h1 (by linarith) (by linarith) (by positivity)
    have h3 : (M + L) * floorErr (2 * ε) m L' ≤ 96 * ε := by
      have a1 := mul_le_mul_of_nonneg_left hfloor (show 0 ≤ M + L by linarith)
      have a2 : (M + L) * (24 * ε / m) ≤ 4 * m * (24 * ε / m) := mul_le_mul_of_nonneg_right hM (div_nonneg (by linarith) hm0.le)
      have a3 : 4 * m * (24 * ε / m) = 96 * ε := by field_simp; ring
      linarith
    have h4 : (M + L) * ((3 * L' / (m - 2 * L')) ^ 70 * (ρ - floorErr (2 * ε) m L')) ≤ (3 / 4) ^ 70 * 10 ^ 6 := by
      have a1 := mul_le_mul_of_nonneg_left h2 (show 0 ≤ M + L by linarith)
      have a2 := mul_le_mul_of_nonneg_left hfar (show (0 : K) ≤ (3 / 4) ^ 70 by positivity)
      have e : (M + L) * ((3 / 4) ^ 70 * ρ) = (3 / 4) ^ 70 * ((M + L) * ρ) := by ring
      linarith
    have h5 : ((3 / 4 : K)) ^ 70 * 10 ^ 6 ≤ 1 / 200 := by norm_num
    rw [mul_add]
    linarith
  obtain ⟨es, h1, h2, h3⟩ := C173_frame_camera P f' centre hε (by linarith) hρ hR hLd hL1 hL2 hm5 (by nlinarith) hΔ2 hΔ alts hB hS hf ts hts gs hsee meanAlt hmean
    eps n he 70 1000 (by omega) key
  refine ⟨es, h1, h2, h3.imp ?_⟩
  intro g e h
  refine h.mono ?_
  rw [div_le_div_iff₀ (by linarith) hm0]
  nlinarith

end default

/-! ### The cameras -/

open Camera in
/-- An ideal pinhole camera with a focal plane array, as a sensor of the ground positions at an altitude. -/
noncomputable def fpaMap (c : Fpa) (lon lat alt : ℝ) : Option (ℝ × ℝ) := c.pixel ![lon, lat, alt]

open Camera in
/-- Its three affine functions: the rows of the orientation matrix, scaled by focal length over pixel pitch. -/
noncomputable def fpaProjective (c : Fpa) : Projective ℝ :=
  let sx := (if c.flipX then -1 else 1) * -c.cam.f / c.pitchX
  let sy := (if c.flipY then -1 else 1) * -c.cam.f / c.pitchY
  let row : Fin 3 → ℝ → ℝ → ℝ × ℝ × ℝ := fun i s alt => (s * c.cam.m i 0, s * c.cam.m i 1,
    s * (c.cam.m i 2 * (alt - c.cam.pos 2) - c.cam.m i 0 * c.cam.pos 0 - c.cam.m i 1 * c.cam.pos 1))
  { n := row 0 sx, k := row 1 sy, w := row 2 1, ox := fun _ => c.npixX / 2, oy := fun _ => c.npixY / 2 }

open Camera in
/-- C173: the pinhole camera with a focal plane array is such a sensor. -/
theorem C173_fpa (c : Fpa) (hx : c.pitchX ≠ 0) (hy : c.pitchY ≠ 0) (lon lat alt : ℝ) : fpaMap c lon lat alt = (fpaProjective c).map lon lat alt := by
  have e : ∀ (i : Fin 3) (s : ℝ), affineAt (s * c.cam.m i 0, s * c.cam.m i 1,
      s * (c.cam.m i 2 * (alt - c.cam.pos 2) - c.cam.m i 0 * c.cam.pos 0 - c.cam.m i 1 * c.cam.pos 1)) (lon, lat) = s * camFrame c.cam.m c.cam.pos ![lon, lat, alt] i := by
    intro i s
    rw [camFrame_apply]
    simp only [affineAt, Matrix.cons_val_zero, Matrix.cons_val_one, Matrix.cons_val]
    ring
  unfold fpaMap Projective.map fpaProjective
  rw [pixel_eq c _ hx hy, imagePlane_eq]
  simp only [e]
  rw [one_mul]
  by_cases h : camFrame c.cam.m c.cam.pos ![lon, lat, alt] 2 = 0
  · rw [if_pos h, if_pos h]
    rfl
  · rw [if_neg h, if_neg h]
    simp only [Option.map_some, Option.some.injEq, Prod.mk.injEq]
    constructor <;> ring

open Camera in
/-- C173: a camera looking straight down (its optical axis vertical) is affine at every altitude below it: the slopes do not change, so that the bound `L` is zero. -/
theorem C173_nadir (c : Fpa) (hx : c.pitchX ≠ 0) (hy : c.pitchY ≠ 0) (h0 : c.cam.m 2 0 = 0) (h1 : c.cam.m 2 1 = 0) (centre : ℝ × ℝ) (alt R : ℝ) (hR : 0 ≤ R)
    (hz : c.cam.m 2 2 * (alt - c.cam.pos 2) ≠ 0) :
    CloseTo (fpaMap c) ((fpaProjective c).tangent centre) alt (fun p => apart p centre ≤ R) 0 0 := by
  have hmap : fpaMap c = (fpaProjective c).map := by
    funext lon lat alt
    exact C173_fpa c hx hy lon lat alt
  rw [hmap]
  obtain ⟨N, hN1, hN2⟩ : ∃ N, |((fpaProjective c).n alt).1| + |((fpaProjective c).n alt).2.1| ≤ N ∧ |((fpaProjective c).k alt).1| + |((fpaProjective c).k alt).2.1| ≤ N :=
    ⟨_, le_max_left _ _, le_max_right _ _⟩
  obtain ⟨Q, hQ1, hQ2⟩ : ∃ Q, |affineAt ((fpaProjective c).n alt) centre / affineAt ((fpaProjective c).w alt) centre| ≤ Q ∧
      |affineAt ((fpaProjective c).k alt) centre / affineAt ((fpaProjective c).w alt) centre| ≤ Q := ⟨_, le_max_left _ _, le_max_right _ _⟩
  have hw : ∀ p, affineAt ((fpaProjective c).w alt) p = c.cam.m 2 2 * (alt - c.cam.pos 2) := by
    intro p
    simp [fpaProjective, affineAt, h0, h1]
  have := projective_close (fpaProjective c) centre hR (alt := alt) (N := N) (ν := 0) (d := |c.cam.m 2 2 * (alt - c.cam.pos 2)|) (Q := Q)
    ⟨abs_pos.mpr hz, fun p _ => by rw [hw], by simp [fpaProjective, h0, h1], hN1, hN2, hQ1, hQ2⟩
  simpa using this

/-- Beside `C173_default`: an oblique camera (the scale shrinks away from the camera) 1000 m above the ground, two pixels whose ground points are up to 60 m from the
centre; the default settings and machine numbers. -/
example : ∃ P : Projective ℚ, (∀ alt, P.Bounded (0, 0) 203 1000 (1 / 10) 979 0 alt) ∧
    (∀ alt, Resolves (P.tangent (0, 0)) alt 1 1 ∧ 2 * (1 / 10) * 203 * (1000 + 0 * (1 / 10)) / 979 ^ 2 < |(P.tangent (0, 0)).a alt|) ∧
    ∃ es, solver P.map ((0, 0) : ℚ × ℚ) (1 / 2 ^ 52) 1074 0 (1 / 100) 1000 [⟨0, 30 / (1 - 60 / 10000), -60 / (1 - 60 / 10000)⟩, ⟨0, 0, 25 / (1 + 25 / 10000)⟩] = .ok es ∧
      List.Forall₂ (Reprojects P.map (1 / 100)) [⟨0, 30 / (1 - 60 / 10000), -60 / (1 - 60 / 10000)⟩, ⟨0, 0, 25 / (1 + 25 / 10000)⟩] es ∧
      List.Forall₂ (Found (1 / 50)) [(30, -60), (0, 25)] es := by
  let P : Projective ℚ := ⟨fun _ => (1000, 0, 0), fun _ => (0, 1000, 0), fun _ => (0, 1 / 10, 1000), fun _ => 0, fun _ => 0⟩
  have hB : ∀ alt, P.Bounded (0, 0) 203 1000 (1 / 10) 979 0 alt := by
    intro alt
    refine ⟨by norm_num, ?_, by norm_num [P], by norm_num [P], by norm_num [P], by norm_num [P, affineAt], by norm_num [P, affineAt]⟩
    intro p hp
    have h2 : |p.2 - 0| ≤ 203 := (le_max_right |p.1 - 0| _).trans hp
    rw [sub_zero] at h2
    have := (abs_le.mp h2).1
    have e : affineAt (P.w alt) p = p.2 / 10 + 1000 := by simp [P, affineAt]; ring
    rw [e]
    refine le_trans ?_ (le_abs_self _)
    linarith
  have hT : ∀ alt, (P.tangent (0, 0)).a alt = 1 ∧ (P.tangent (0, 0)).b alt = 0 ∧ (P.tangent (0, 0)).d alt = 0 ∧ (P.tangent (0, 0)).e alt = 1 := by
    intro alt
    refine ⟨?_, ?_, ?_, ?_⟩ <;> norm_num [P, Projective.tangent, slopes, affineAt]
  have hS : ∀ alt, Resolves (P.tangent (0, 0)) alt 1 1 ∧ 2 * (1 / 10) * 203 * (1000 + 0 * (1 / 10)) / 979 ^ 2 < |(P.tangent (0, 0)).a alt| := by
    intro alt
    obtain ⟨h1, h2, h3, h4⟩ := hT alt
    refine ⟨⟨?_, ?_, ?_⟩, ?_⟩
    · intro u v
      rw [h1, h2, h3, h4]
      simp
    · rw [h1, h2]; norm_num
    · rw [h3, h4]; norm_num
    · rw [h1]; norm_num
  refine ⟨P, hB, hS, ?_⟩
  have hbig : (3 : ℚ) < 1 / 2 ^ 52 * 2 ^ 1074 := by
    have h : (1 : ℚ) ≤ 2 ^ 1020 := one_le_pow₀ (by norm_num)
    rw [show 1074 = 54 + 1020 by norm_num, pow_add, ← mul_assoc]
    generalize (2 : ℚ) ^ 1020 = z at h
    norm_num
    linarith
  have := C173_default P P.map (ε := 0) (ρ := 100) (Δ := 3) (R := 203) (N := 1000) (ν := 1 / 10) (d := 979) (Q := 0) (m := 1) (M := 1)
    (L := 2 * (1 / 10) * 203 * (1000 + 0 * (1 / 10)) / 979 ^ 2) (L' := 2 * (1 / 10) * 203 * (1000 + 0 * (1 / 10)) / 979 ^ 2) (0, 0) le_rfl (by norm_num) (by norm_num) (by norm_num)
    rfl (by norm_num) (by norm_num) (by norm_num) (by norm_num) (by norm_num) (by norm_num) (by norm_num) (by norm_num) (by norm_num) (fun _ => True) (fun alt _ => hB alt)
    (fun alt _ => hS alt) (fun alt _ p hp => by
      have w : affineAt (P.w alt) p ≠ 0 := by intro e; have := (hB alt).depth p hp; rw [e, abs_zero] at this; norm_num at this
      exact ⟨_, _, if_neg w, if_neg w, by simp, by simp⟩)
    [⟨0, 30 / (1 - 60 / 10000), -60 / (1 - 60 / 10000)⟩, ⟨0, 0, 25 / (1 + 25 / 10000)⟩] (by simp) [(30, -60), (0, 25)]
    (.cons ⟨trivial, by norm_num [apart], by norm_num [P, Projective.map, affineAt]⟩ (.cons ⟨trivial, by norm_num [apart], by norm_num [P, Projective.map, affineAt]⟩ .nil)) 0 trivial
    (1 / 2 ^ 52) 1074 ⟨by norm_num, by norm_num, hbig⟩
  rw [div_one] at this
  exact this

end Verif.PointCalc
