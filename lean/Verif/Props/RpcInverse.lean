import Verif.Props.SolverIeee
import Verif.Props.FloatCamera
import Verif.Props.FloatGeom

/-! C202 in double precision: the inversion of RPC images with shifts of two degrees (C201), every operation rounded (exponents unbounded). -/

set_option linter.unusedSectionVars false

namespace Verif.SolverIeee
open Verif FloatGeom PointCalc FloatSpectral

section
variable {K : Type} [Field K] [LinearOrder K] [IsStrictOrderedRing K] [FloorRing K]

/-- C169 far outside the image: with numerator terms up to 128 (positions up to about a hundred times the normalisation scale away), denominators of at least 1/2 with terms up to 4
and images up to 65536 pixels, the computed pixel is within a millionth of a pixel. -/
theorem rpc_wide (c : Geotiff.Rpc K) (lon lat alt : K) (h1 : c.latScale ≠ 0) (h2 : c.lonScale ≠ 0) (h3 : c.hScale ≠ 0)
    (x y z : K) (hn : normalised c lon lat alt = (x, y, z)) (hsn : termSize c.sampNum x y z ≤ 128) (hsd : termSize c.sampDen x y z ≤ 4)
    (hln : termSize c.lineNum x y z ≤ 128) (hld : termSize c.lineDen x y z ≤ 4) (hs : 1 / 2 ≤ |Geotiff.computeP c.sampDen x y z|)
    (hl : 1 / 2 ≤ |Geotiff.computeP c.lineDen x y z|) (hss : |c.sampScale| ≤ 2 ^ 16) (hso : |c.sampOff| ≤ 2 ^ 16) (hls : |c.lineScale| ≤ 2 ^ 16)
    (hlo : |c.lineOff| ≤ 2 ^ 16) :
    ∃ X Y X' Y', c.project lon lat alt = some (X, Y) ∧ rpcR (Rounding.fl 53) c lon lat alt = some (X', Y') ∧ |X' - X| ≤ 1 / 10 ^ 6 ∧ |Y' - Y| ≤ 1 / 10 ^ 6 := by
  have hr : Rounds (Rounding.fl 53 : K → K) (Rounding.unit 53) := Rounding.fl_err' 53
  have hu : (0 : K) ≤ Rounding.unit 53 := by unfold Rounding.unit; positivity
  have hE1 : ((1 + Rounding.unit 53 : K)) ^ 22 - 1 ≤ 23 / 2 ^ 53 := by unfold Rounding.unit; norm_num
  have hE0 : (0 : K) ≤ (1 + Rounding.unit 53 : K) ^ 22 - 1 := by have := one_le_growth hu 22; linarith
  generalize hE : ((1 + Rounding.unit 53 : K)) ^ 22 - 1 = E at *
  have hE2 : E ≤ 1 / 2 ^ 10 := hE1.trans (by norm_num)
  have key : ∀ (num den : Nat → K), termSize num x y z ≤ 128 → termSize den x y z ≤ 4 → 1 / 2 ≤ |Geotiff.computeP den x y z| →
      E * termSize den x y z < |Geotiff.computeP den x y z| ∧ ∀ q S O : K, q * Geotiff.computeP den x y z = Geotiff.computeP num x y z → |S| ≤ 2 ^ 16 → |O| ≤ 2 ^ 16 →
        (1 + Rounding.unit 53 : K) ^ 3 * (|S| * ratioBound (Rounding.unit 53) E q (Geotiff.computeP den x y z) (termSize num x y z) (termSize den x y z)) +
          ((1 + Rounding.unit 53 : K) ^ 3 - 1) * (|q * S| + |O| + 1 / 2) ≤ 1 / 10 ^ 6 := by
    intro num den g1 g2 g3
    have t0 := termSize_nonneg den x y z
    refine ⟨?_, ?_⟩
    · have : E * termSize den x y z ≤ (1 / 2 ^ 10) * 4 := mul_le_mul hE2 g2 t0 (by positivity)
      have h' : ((1 : K) / 2 ^ 10) * 4 < 1 / 2 := by norm_num
      linarith
    · intro q S O hq hS hO
      have q4 : |q| ≤ 256 := by
        have e : |q| * |Geotiff.computeP den x y z| ≤ 128 := by rw [← abs_mul, hq]; exact (computeP_le _ _ _ _).trans g1
        have := mul_le_mul_of_nonneg_left g3 (abs_nonneg q)
        linarith
      have hp : (0 : K) < 1 / 2 - E * 4 := by
        have h' : ((1 : K) / 2 ^ 10) * 4 < 1 / 2 := by norm_num
        linarith
      have b := ratioBound_le hu hE0 (termSize_nonneg num x y z) t0 q4 g3 g1 g2 hp
      have b2 : (E * 128 + 256 * (E * 4)) / (1 / 2 - E * 4) ≤ (1152 * (23 / 2 ^ 53)) / (1 / 2 - 1 / 2 ^ 8) := by
        refine div_le_div₀ (by positivity) (by linarith) (by norm_num) ?_
        have h' : ((1 : K) / 2 ^ 8) = 4 * (1 / 2 ^ 10) := by norm_num
        rw [h']; linarith
      have b3 : ratioBound (Rounding.unit 53) E q (Geotiff.computeP den x y z) (termSize num x y z) (termSize den x y z) ≤
          (1 / 2 ^ 53) * 256 + (1 + 1 / 2 ^ 53) * ((1152 * (23 / 2 ^ 53)) / (1 / 2 - 1 / 2 ^ 8)) := by
        refine b.trans ?_
        have := mul_le_mul_of_nonneg_left b2 (show (0 : K) ≤ 1 + 1 / 2 ^ 53 by positivity)
        unfold Rounding.unit
        linarith
      have s0 : |S| * ratioBound (Rounding.unit 53) E q (Geotiff.computeP den x y z) (termSize num x y z) (termSize den x y z) ≤
          2 ^ 16 * ((1 / 2 ^ 53) * 256 + (1 + 1 / 2 ^ 53) * ((1152 * (23 / 2 ^ 53)) / (1 / 2 - 1 / 2 ^ 8))) := by
        refine (mul_le_mul_of_nonneg_left b3 (abs_nonneg S)).trans (mul_le_mul_of_nonneg_right hS ?_)
        norm_num
      have s1 : |q * S| ≤ 256 * 2 ^ 16 := by rw [abs_mul]; exact mul_le_mul q4 hS (abs_nonneg _) (by norm_num)
      have s2 : |q * S| + |O| + 1 / 2 ≤ 256 * 2 ^ 16 + 2 ^ 16 + 1 / 2 := by linarith
      have c1 : (1 + Rounding.unit 53 : K) ^ 3 - 1 ≤ 4 / 2 ^ 53 := by unfold Rounding.unit; norm_num
      have c0 : (0 : K) ≤ (1 + Rounding.unit 53 : K) ^ 3 - 1 := by have := one_le_growth hu 3; linarith
      have f1 : (1 + Rounding.unit 53 : K) ^ 3 * (|S| * ratioBound (Rounding.unit 53) E q (Geotiff.computeP den x y z) (termSize num x y z) (termSize den x y z)) ≤
          (1 + 4 / 2 ^ 53) * (2 ^ 16 * ((1 / 2 ^ 53) * 256 + (1 + 1 / 2 ^ 53) * ((1152 * (23 / 2 ^ 53)) / (1 / 2 - 1 / 2 ^ 8)))) := by
        refine (mul_le_mul_of_nonneg_left s0 (by linarith)).trans (mul_le_mul_of_nonneg_right (by linarith) (by norm_num))
      have f2 := mul_le_mul c1 s2 (by positivity) (by norm_num : (0 : K) ≤ 4 / 2 ^ 53)
      refine (add_le_add f1 f2).trans ?_
      norm_num
  obtain ⟨k1, k1'⟩ := key c.sampNum c.sampDen hsn hsd hs
  obtain ⟨k2, k2'⟩ := key c.lineNum c.lineDen hln hld hl
  obtain ⟨X, Y, X', Y', qs, ql, p1, p2, e1, e2, b1, b2⟩ := C169_rpc_error hr hu c lon lat alt h1 h2 h3 x y z E hn hE.symm k1 k2
  exact ⟨X, Y, X', Y', p1, p2, b1.trans (k1' qs c.sampScale c.sampOff e1 hss hso), b2.trans (k2' ql c.lineScale c.lineOff e2 hls hlo)⟩

/-- Specification: the RPC model is of ordinary size at altitude `alt` on the positions `D`: numerator terms together at most 128, denominator terms at most 4, denominators at least
1/2 in size. -/
def Ordinary (c : Geotiff.Rpc K) (alt : K) (D : K × K → Prop) : Prop := ∀ p : K × K, D p → ∀ x y z, normalised c p.1 p.2 alt = (x, y, z) →
  (termSize c.sampNum x y z ≤ 128 ∧ termSize c.sampDen x y z ≤ 4 ∧ termSize c.lineNum x y z ≤ 128 ∧ termSize c.lineDen x y z ≤ 4) ∧
  1 / 2 ≤ |Geotiff.computeP c.sampDen x y z| ∧ 1 / 2 ≤ |Geotiff.computeP c.lineDen x y z|

/-- C202 in double precision, with the shifts of C201 and the default threshold and iteration limit: for an RPC image of at most 65536 pixels that is within a seventh of linear
over about two degrees beyond its footprint (radius `ρ` around the model's offset) and whose polynomials are of ordinary size there, every pixel of the footprint gets a position that
projects within 0.0101 pixel of it and lies within a fiftieth of a pixel of the ground position seen there. -/
theorem C202_double_partial (c : Geotiff.Rpc K) (S : Affine K) {ρ m M L : K} (h1 : c.latScale ≠ 0) (h2 : c.lonScale ≠ 0) (h3 : c.hScale ≠ 0) (hss : |c.sampScale| ≤ 2 ^ 16)
    (hso : |c.sampOff| ≤ 2 ^ 16) (hls : |c.lineScale| ≤ 2 ^ 16) (hlo : |c.lineOff| ≤ 2 ^ 16) (hearth1 : |c.lonOff| ≤ 360) (hearth2 : |c.latOff| ≤ 360)
    (hρ : 0 ≤ ρ) (hρ2 : ρ ≤ 10) (hL0 : 0 ≤ L) (hm : 7 * L ≤ m) (hM : M + L ≤ 4 * m) (hm1 : 1 ≤ m) (hM6 : M + L ≤ 10 ^ 6) (hfar : (M + L) * ρ ≤ 10 ^ 6) (hφ : 1 / 10 ^ 4 ≤ m * ρ)
    (alts : K → Prop) (hO : ∀ alt, alts alt → Ordinary c alt (fun p => apart p (c.lonOff, c.latOff) ≤ 2 * ρ + 3))
    (hB : ∀ alt, alts alt → CloseTo c.project S alt (fun p => apart p (c.lonOff, c.latOff) ≤ 2 * ρ + 3) L 0) (hS : ∀ alt, alts alt → Resolves S alt m M ∧ m ≤ 5 * |S.a alt|)
    (ts : List (Target K)) (gs : List (K × K))
    (hsee : List.Forall₂ (fun t g => alts t.alt ∧ apart (c.lonOff, c.latOff) g ≤ ρ ∧ c.project g.1 g.2 t.alt = some (t.x, t.y)) ts gs) :
    List.Forall₂ (Reprojects (rpcR (Rounding.fl 53) c) (101 / 10000)) ts
      (newtonLoopR (Rounding.fl 53) (rpcR (Rounding.fl 53) c) 2 2 (1 / 100) 1000 ts (ts.map (fun _ => some (c.lonOff, c.latOff)))) ∧
    List.Forall₂ (Found (1 / 50 / m)) gs
      (newtonLoopR (Rounding.fl 53) (rpcR (Rounding.fl 53) c) 2 2 (1 / 100) 1000 ts (ts.map (fun _ => some (c.lonOff, c.latOff)))) := by
  cases hsee with
  | nil => exact ⟨by simp [newtonLoopR], by simp [newtonLoopR]⟩
  | @cons t0 g0 ts gs hsee0 hseeT =>
  have hsee : List.Forall₂ (fun (t : Target K) (g : K × K) => alts t.alt ∧ apart (c.lonOff, c.latOff) g ≤ ρ ∧ c.project g.1 g.2 t.alt = some (t.x, t.y)) (t0 :: ts) (g0 :: gs) :=
    List.Forall₂.cons hsee0 hseeT
  generalize hts : t0 :: ts = ts' at hsee ⊢
  generalize hgs : g0 :: gs = gs' at hsee ⊢
  have hr : Rounds (Rounding.fl 53 : K → K) (1 / 2 ^ 52) := by
    intro x
    refine (Rounding.fl_err' (K := K) 53 x).trans (mul_le_mul_of_nonneg_right ?_ (abs_nonneg x))
    unfold Rounding.unit; norm_num
  set centre : K × K := (c.lonOff, c.latOff) with hcentre
  obtain ⟨H, hH⟩ : ∃ H : K, H = 400 := ⟨_, rfl⟩
  have res := (hS t0.alt hsee0.1).1
  have hm0 : 0 < m := by linarith
  have hM0 : 0 ≤ M := le_trans (by positivity) res.most1
  have hmM : m ≤ M := by
    have h1 := res.least 1 0
    simp only [abs_one, abs_zero, mul_one, mul_zero, add_zero] at h1
    rw [max_eq_left zero_le_one, mul_one] at h1
    refine h1.trans (max_le ?_ ?_)
    · have := res.most1; have := abs_nonneg (S.b t0.alt); linarith
    · have := res.most2; have := abs_nonneg (S.e t0.alt); linarith
  have hu : (0 : K) ≤ 1 / 2 ^ 52 := by positivity
  have huH : 0 ≤ 1 / 2 ^ 52 * H := mul_nonneg hu (by rw [hH]; norm_num)
  have huH1 : 1 / 2 ^ 52 * H ≤ 1 / 40 := by rw [hH]; norm_num
  have hML : 0 < M + L := by linarith
  have hnoise : (M + L) * (1 / 2 ^ 52 * H) ≤ 23 / 10 ^ 8 := by
    have e : (1 / 2 ^ 52 * H : K) ≤ 1 / 10 ^ 13 := by rw [hH]; norm_num
    have := mul_le_mul hM6 e huH (by norm_num)
    refine this.trans (by norm_num)
  have hmnoise : m * (1 / 2 ^ 52 * H) ≤ 23 / 10 ^ 8 := (mul_le_mul_of_nonneg_right (by linarith) huH).trans hnoise
  have hε10 : (1 / 10 ^ 6 : K) ≤ 1 / 10 ^ 6 := le_rfl
  have hε : (0 : K) ≤ 1 / 10 ^ 6 := by positivity
  obtain ⟨L', L'', η'', hLL', hL6', hm5, hbud, hsl, hsl2, hφ', key⟩ := double_budget hε hε10 hL0 hm0 hm hmM hM (by linarith) hfar hφ huH hnoise hmnoise
  have hf : ∀ alt, alts alt → Computes (rpcR (Rounding.fl 53) c) c.project (1 / 10 ^ 6) (fun p => apart p centre ≤ 2 * ρ + 3) alt := by
    intro alt h p hp
    obtain ⟨⟨a1, a2, a3, a4⟩, a5, a6⟩ := hO alt h p hp _ _ _ rfl
    obtain ⟨X, Y, X', Y', e1, e2, e3, e4⟩ := rpc_wide c p.1 p.2 alt h1 h2 h3 _ _ _ rfl a1 a2 a3 a4 a5 a6 hss hso hls hlo
    exact ⟨(X, Y), (X', Y'), e1, e2, e3, e4⟩
  have close : ∀ alt, alts alt → CloseTo (rpcR (Rounding.fl 53) c) S alt (fun p => apart p centre ≤ 2 * ρ + 3) L (2 * (1 / 10 ^ 6)) := by
    intro alt h
    have := (hB alt h).noise (hf alt h)
    rw [zero_add] at this
    exact this
  have hpiv : ∀ a : K, m ≤ 5 * |a| → L' < |a| ∧ M + L' ≤ 130 * (|a| - L') := by
    intro a ha
    constructor <;> linarith
  have hreq : List.Forall₂ (RequestR (rpcR (Rounding.fl 53) c) S (1 / 2 ^ 52) L L' (2 * (1 / 10 ^ 6)) m M 130 H ρ 2) ts' gs' := by
    refine hsee.imp ?_
    rintro t g ⟨h1, h2, h3⟩
    have hx : ∀ x y : K, |x - y| ≤ ρ → |x| ≤ 360 → |y| + ρ + 2 ≤ H := by
      intro x y hxy hx
      have := abs_sub x (x - y)
      rw [sub_sub_cancel] at this
      rw [hH]
      linarith
    refine ⟨⟨(close t.alt h1).subset ?_, (hS _ h1).1, (hpiv _ (hS _ h1).2).1, ?_⟩, (hpiv _ (hS _ h1).2).2, hx _ _ ((le_max_left _ _).trans h2) hearth1, hx _ _ ((le_max_right _ _).trans h2) hearth2⟩
    · intro p hp
      have := apart_tri p g centre
      rw [apart_symm g] at this
      generalize 1 / 2 ^ 52 * H = w at hp huH1
      linarith
    · obtain ⟨A, A', e, e', x, y⟩ := hf t.alt h1 g (show apart g centre ≤ 2 * ρ + 3 by rw [apart_symm]; linarith)
      rw [h3] at e
      cases e
      refine ⟨A', e', ?_, ?_⟩
      · rw [abs_sub_comm]; linarith
      · rw [abs_sub_comm]; linarith
  have hc : ∀ g ∈ gs', apart centre g ≤ ρ := by
    clear hreq hts hgs
    induction hsee with
    | nil => intro g h; cases h
    | cons h _ ih =>
      intro g hg
      rcases List.mem_cons.mp hg with rfl | hg
      · exact h.2.1
      · exact ih g hg
  have e2 : |(2 : K)| = 2 := abs_of_pos (by norm_num)
  obtain ⟨g1, g2⟩ := C180_given_deltas (f := rpcR (Rounding.fl 53) c) (S := S) (L := L) (L' := L') (L'' := L'') (η := 2 * (1 / 10 ^ 6)) (η'' := η'') (m := m) (M := M) (ρ := ρ)
    (Δ := 2) (κ := 130) (H := H) (dLon := 2) (dLat := 2) hr hu (by norm_num) (by norm_num) hL0 hLL' hm5 hbud (by norm_num) (by norm_num) e2.le e2.le (by rw [e2]; exact hsl2)
    (by rw [e2]; exact hsl2) hρ hφ' ts' gs' hreq centre hc (1 / 100) 70 1000 (by omega) key
  have hthr : (1 / 100 : K) / (1 - 1 / 2 ^ 52) ≤ 101 / 10000 := by norm_num
  refine ⟨g1.imp ?_, g2.imp ?_⟩
  · rintro t e ⟨lon, lat, x, y, h1, h2, h3, h4⟩
    exact ⟨lon, lat, x, y, h1, h2, h3.trans hthr, h4.trans hthr⟩
  · intro g e h
    refine h.mono ?_
    rw [div_le_div_iff₀ (by linarith) hm0]
    have := mul_le_mul_of_nonneg_right (show (1 : K) / 100 / (1 - 1 / 2 ^ 52) + 2 * (2 * (1 / 10 ^ 6)) ≤ 102 / 10000 by linarith) hm0.le
    linarith

end

/-- C202 in double precision is not vacuous: an image with a slightly curved sample coordinate, and a pixel off its centre. -/
def gentleQ : Geotiff.Rpc ℚ := curved 0 1 (-1 / 4096) 1024 (1 / 16)

theorem gentleQ_project (lon lat alt : ℚ) : gentleQ.project lon lat alt = some (1024 * (16 * lon - (16 * lon) ^ 2 / 4096) + 1024 + 1 / 2, 1024 * (16 * lat) + 1024 + 1 / 2) := by
  simp [gentleQ, curved, sparse, Geotiff.Rpc.project, Geotiff.computeP, ImageUtils.fdiv]
  constructor <;> ring

example : List.Forall₂ (Reprojects (rpcR (Rounding.fl 53) gentleQ) (101 / 10000)) [⟨100, 24583 / 16, 1025 / 2⟩]
    (newtonLoopR (Rounding.fl 53) (rpcR (Rounding.fl 53) gentleQ) 2 2 (1 / 100) 1000 [⟨100, 24583 / 16, 1025 / 2⟩] [some (0, 0)]) := by
  refine (C202_double_partial gentleQ ⟨fun _ => 16384, fun _ => 0, fun _ => 0, fun _ => 0, fun _ => 16384, fun _ => 0⟩ (L := 416) (m := 16384) (M := 16384) (ρ := 1 / 8)
    (by norm_num [gentleQ, curved]) (by norm_num [gentleQ, curved]) (by norm_num [gentleQ, curved]) (by norm_num [gentleQ, curved]) (by norm_num [gentleQ, curved])
    (by norm_num [gentleQ, curved]) (by norm_num [gentleQ, curved]) (by norm_num [gentleQ, curved]) (by norm_num [gentleQ, curved]) (by norm_num) (by norm_num) (by norm_num)
    (by norm_num) (by norm_num) (by norm_num) (by norm_num) (by norm_num) (by norm_num) (fun a => a = 100) ?_ ?_ ?_ [⟨100, 24583 / 16, 1025 / 2⟩] [(1 / 32, -1 / 32)]
    (.cons ⟨rfl, ?_, ?_⟩ .nil)).1
  · rintro alt - p hp x y z hn
    have h1 : |p.1| ≤ 13 / 4 := by
      have := (le_max_left _ _).trans hp
      simp only [gentleQ, curved, sub_zero] at this
      refine this.trans (by norm_num)
    have h2 : |p.2| ≤ 13 / 4 := by
      have := (le_max_right _ _).trans hp
      simp only [gentleQ, curved, sub_zero] at this
      refine this.trans (by norm_num)
    have hy : |y| ≤ 52 := by
      have e : y = p.1 * 16 := by
        have := congrArg (fun t => t.2.1) hn
        simp only [normalised, gentleQ, curved, sub_zero] at this
        rw [← this]; ring
      rw [e, abs_mul, abs_of_pos (by norm_num : (0 : ℚ) < 16)]; linarith
    have hx : |x| ≤ 52 := by
      have e : x = p.2 * 16 := by
        have := congrArg (fun t => t.1) hn
        simp only [normalised, gentleQ, curved, sub_zero] at this
        rw [← this]; ring
      rw [e, abs_mul, abs_of_pos (by norm_num : (0 : ℚ) < 16)]; linarith
    have e1 : termSize gentleQ.sampNum x y z = |y| + 1 / 4096 * (|y| * |y|) := by
      simp [termSize, gentleQ, curved, sparse, Geotiff.computeP]; norm_num
    have e2 : termSize gentleQ.lineNum x y z = |x| := by simp [termSize, gentleQ, curved, sparse, Geotiff.computeP]
    have e3 : termSize gentleQ.sampDen x y z = 1 := by simp [termSize, gentleQ, curved, sparse, Geotiff.computeP]
    have e4 : termSize gentleQ.lineDen x y z = 1 := by simp [termSize, gentleQ, curved, sparse, Geotiff.computeP]
    have e5 : Geotiff.computeP gentleQ.sampDen x y z = 1 := by simp [gentleQ, curved, sparse, Geotiff.computeP]
    have e6 : Geotiff.computeP gentleQ.lineDen x y z = 1 := by simp [gentleQ, curved, sparse, Geotiff.computeP]
    have hyy := mul_le_mul hy hy (abs_nonneg y) (by norm_num)
    rw [e1, e2, e3, e4, e5, e6]
    refine ⟨⟨?_, ?_, ?_, ?_⟩, ?_, ?_⟩
    · linarith
    · norm_num
    · linarith
    · norm_num
    · norm_num
    · norm_num
  · rintro alt - p q hp hq
    refine ⟨_, _, gentleQ_project _ _ _, gentleQ_project _ _ _, ?_, ?_⟩
    · have h1 : |p.1| ≤ 13 / 4 := by
        have := (le_max_left _ _).trans hp
        simp only [gentleQ, curved, sub_zero] at this
        refine this.trans (by norm_num)
      have h2 : |q.1| ≤ 13 / 4 := by
        have := (le_max_left _ _).trans hq
        simp only [gentleQ, curved, sub_zero] at this
        refine this.trans (by norm_num)
      have h3 : |p.1 + q.1| ≤ 13 / 2 := (abs_add_le _ _).trans (by linarith)
      have e : ((1024 * (16 * p.1 - (16 * p.1) ^ 2 / 4096) + 1024 + 1 / 2 - (1024 * (16 * q.1 - (16 * q.1) ^ 2 / 4096) + 1024 + 1 / 2)) - (16384 * (p.1 - q.1) + 0 * (p.2 - q.2))) =
          -(64 * ((p.1 + q.1) * (p.1 - q.1))) := by ring
      simp only [e, abs_neg, abs_mul]
      have h4 : |p.1 - q.1| ≤ apart p q := le_max_left _ _
      have h5 : |p.1 + q.1| * |p.1 - q.1| ≤ 13 / 2 * apart p q := mul_le_mul h3 h4 (abs_nonneg _) (by norm_num)
      rw [abs_of_pos (by norm_num : (0 : ℚ) < 64)]
      linarith
    · have e : (1024 * (16 * p.2) + 1024 + 1 / 2 - (1024 * (16 * q.2) + 1024 + 1 / 2)) - (0 * (p.1 - q.1) + 16384 * (p.2 - q.2)) = 0 := by ring
      simp only [e, abs_zero]
      have : 0 ≤ apart p q := (abs_nonneg _).trans (le_max_left _ _)
      linarith
  · rintro alt -
    refine ⟨⟨?_, ?_, ?_⟩, ?_⟩
    · intro u v
      simp only [zero_mul, add_zero, zero_add, abs_mul]
      rw [abs_of_pos (by norm_num : (0 : ℚ) < 16384), ← mul_max_of_nonneg _ _ (by norm_num : (0 : ℚ) ≤ 16384)]
    · norm_num
    · norm_num
    · norm_num
  · norm_num [apart, gentleQ, curved]
  · rw [gentleQ_project]; norm_num

end Verif.SolverIeee
