import Verif.Props.FloatRayDouble
import Verif.Lemmas.Rounding

/-! C197: does every pixel get an answer in float arithmetic?  Not when the terrain rises under the ray as fast as the ray drops: the two slopes are subtracted, and what is left
of the difference after rounding can be zero. -/

set_option linter.unusedSectionVars false

namespace Verif.PointCalc
open Verif ImageUtils FloatGeom FloatSpectral Rounding

/-- A DEM of four columns: 1 m, 0.5 m, 0.245 m (the float next above 0.245) and 0 m high. -/
def stepDem (u _v : ℚ) : ℚ := if u < -100 then 1 else if u < 12 then 1 / 2 else if u < 100 then 8827055269646173 / 36028797018963968 else 0

/-- The witness's line of sight: at the top of the search above the origin, 20 m further at the bottom. -/
def slantedRay (z : ℚ) (_k : Nat) : ℚ × ℚ := if 0 < z then (0, 0) else (20, 0)

/-- C197 is FALSE of the code: the line of sight passes from above the terrain to below it, exact arithmetic gives the position where, but in double precision the pixel's
position is not a number: the ray and the terrain have the same computed slope between the two samples, and the crossing is computed by dividing by their difference.
(`sq` is any square root function with `√400 = 20`.) -/
theorem C197_false (sq : ℚ → ℚ) (hsq : sq 400 = 20) :
    (∀ u v, 0 ≤ stepDem u v ∧ stepDem u v ≤ 1) ∧
    (∃ lon lat alt, pixelToLonLatAltR id sq stepDem 1 0 slantedRay 1 none none none = .ok [some (lon, lat, alt)] ∧ 10 ≤ lon ∧ lon ≤ 15 ∧ lat = 0) ∧
    pixelToLonLatAltR (fl 53) sq stepDem 1 0 slantedRay 1 none none none = .ok [none] := by
  refine ⟨?_, ?_, ?_⟩
  · intro u v
    unfold stepDem
    split_ifs <;> norm_num
  · have hl : rayStepsR id sq ((none : Option ℚ).getD 5) ((List.range 1).map (fun k => (slantedRay (searchTopR id 1 0) k, slantedRay (searchBottomR id 1 0) k))) = 5 := by
      have e : (List.range 1).map (fun k => (slantedRay (searchTopR id 1 0) k, slantedRay (searchBottomR id 1 0) k)) = [((0, 0), (20, 0))] := by decide +kernel
      have h : horizontalLenR id sq ((0, 0), (20, 0)) = 20 := by
        unfold horizontalLenR
        norm_num [hsq]
      rw [e]
      unfold rayStepsR maxLenR maxLenR
      rw [h]
      decide +kernel
    unfold pixelToLonLatAltR
    simp only [Option.getD_none] at hl ⊢
    rw [hl, if_neg (by norm_num)]
    exact ⟨_, _, _, (by decide +kernel : castRaysR id stepDem (searchTopR id 1 0) (searchBottomR id 1 0) 5
      ((List.range 1).map (fun k => (slantedRay (searchTopR id 1 0) k, slantedRay (searchBottomR id 1 0) k))) = .ok [some (10, 0, 1 / 2)]), by norm_num, by norm_num, rfl⟩
  · have hl : rayStepsR (fl 53) sq ((none : Option ℚ).getD 5) ((List.range 1).map (fun k => (slantedRay (searchTopR (fl 53) 1 0) k, slantedRay (searchBottomR (fl 53) 1 0) k))) = 5 := by
      have e : (List.range 1).map (fun k => (slantedRay (searchTopR (fl 53) 1 0) k, slantedRay (searchBottomR (fl 53) 1 0) k)) = [((0, 0), (20, 0))] := by decide +kernel
      have h : horizontalLenR (fl 53) sq ((0, 0), (20, 0)) = 20 := by
        unfold horizontalLenR
        simp only []
        rw [(by decide +kernel : fl 53 (fl 53 (fl 53 ((0 : ℚ) - 20) * fl 53 ((0 : ℚ) - 20)) + fl 53 (fl 53 ((0 : ℚ) - 0) * fl 53 ((0 : ℚ) - 0))) = 400), hsq]
        decide +kernel
      rw [e]
      unfold rayStepsR maxLenR maxLenR
      rw [h]
      decide +kernel
    unfold pixelToLonLatAltR
    simp only [Option.getD_none] at hl ⊢
    rw [hl, if_neg (by norm_num)]
    decide +kernel

example : ∃ sq : ℚ → ℚ, sq 400 = 20 := ⟨fun _ => 20, rfl⟩

/-- C197 (partial): every pixel gets an answer on terrain that is everywhere less steep than the lines of sight, by a margin `g` per sample that is at least 1000 times the
rounding error of the largest number.  Missing: steeper terrain, of which the claim is false (`C197_false`). -/
theorem C197_answered_partial {r : ℝ → ℝ} {u H : ℝ} (hr : Rounds r u) (hu : 0 ≤ u) (hu1 : u ≤ 1 / 1000) {E T : ℝ → ℝ → ℝ} {c δ : ℝ} (hc : 0 ≤ c) (hG : Gentle T c)
    (hE : ∀ p q, |E p q - T p q| ≤ δ) (demHi demLo : ℝ) (ground : ℝ → Nat → ℝ × ℝ) (n : Nat) (hn : 0 < n) (dist hi lo : Option ℝ) (hd : 0 < dist.getD 5)
    (hlt : lo.getD demLo < hi.getD demHi) (hrange : 2000 * (u * H) ≤ hi.getD demHi - lo.getD demLo) (hEr : ∀ p q, lo.getD demLo ≤ E p q ∧ E p q ≤ hi.getD demHi) (A B : ℝ)
    (hA : A = searchTopR r (hi.getD demHi) (lo.getD demLo)) (hB : B = searchBottomR r (hi.getD demHi) (lo.getD demLo)) (hAH : |A| ≤ H) (hBH : |B| ≤ H)
    (hgr : ∀ k, k < n → |(ground A k).1| ≤ H ∧ |(ground A k).2| ≤ H ∧ |(ground B k).1| ≤ H ∧ |(ground B k).2| ≤ H) (hslant : ∃ k, k < n ∧ ground A k ≠ ground B k) {L D V g : ℝ}
    (hL : ∀ k, k < n → horizontalLen (ground A k, ground B k) ≤ L) (hD : D = (1 + 5 * u) * dist.getD 5) (hV : V = c * D + 2 * (δ + c * (Real.sqrt 2 * (30 * (u * H)))))
    (hg0 : 0 < g) (hg : 1000 * (u * H) ≤ g) (hsteep : (V + g) * ((1 + 5 * u) * L + dist.getD 5) ≤ (A - B) * dist.getD 5) :
    ∃ hits, pixelToLonLatAltR r Real.sqrt E demHi demLo ground n dist hi lo = .ok hits ∧ ∀ k, k < n → ∃ q, hits[k]? = some (some q) := by
  obtain ⟨hits, h1, -, h3⟩ := C196_rays hr hu hu1 hc hG hE demHi demLo ground n hn dist hi lo hd hlt hrange hEr A B hA hB hAH hBH hgr hslant hL hD hV hg0 hg hsteep
  refine ⟨hits, h1, fun k hk => ?_⟩
  obtain ⟨lon, lat, alt, t, h, -⟩ := h3 k hk
  exact ⟨_, h⟩

end Verif.PointCalc
