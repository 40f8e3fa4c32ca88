import Verif.Props.FloatRay
import Verif.Props.EndToEnd

/-! C196 in double precision, and together with the iterative solver. -/

set_option linter.unusedSectionVars false

namespace Verif.PointCalc
open Verif ImageUtils FloatGeom FloatSpectral Camera

/-! With exact arithmetic the float ray caster is the ray caster of `Model/PointCalc.lean`. -/

section exact
variable {K : Type} [Field K] [LinearOrder K] [IsStrictOrderedRing K]

theorem linspaceR_id (lo hi : K) (n i : Nat) : linspaceR id lo hi n i = linspace lo hi n i := by
  unfold linspaceR linspace
  simp only [id]
  by_cases hn : n ≤ 1
  · rw [if_pos hn, if_pos hn]
  · rw [if_neg hn, if_neg hn]
    have h2 : (2 : K) ≤ n := by exact_mod_cast (by omega : 2 ≤ n)
    have h1 : (n : K) - 1 ≠ 0 := by
      have : (0 : K) < (n : K) - 1 := by linarith
      exact this.ne'
    rw [Nat.cast_sub (by omega), Nat.cast_one]
    split_ifs with e s
    · have : (i : K) = (n : K) - 1 := by rw [← e]; push_cast; ring
      rw [this, mul_div_cancel₀ _ h1]; ring
    · ring
    · ring

theorem castRayR_id (E : K → K → K) (A B : K) (s : Nat) (top bot : K × K) : castRayR id E A B s top bot = castRay E A B s top bot := by
  have h : ∀ lo hi : K, linspaceR id lo hi s = linspace lo hi s := fun lo hi => funext (linspaceR_id lo hi s)
  have d : ∀ a b : K, divR id a b = fdiv a b := fun a b => by unfold divR; simp
  unfold castRayR castRay
  simp only [h, d]
  rfl

theorem castRaysR_id (E : K → K → K) (A B : K) (s : Nat) (rs : List ((K × K) × (K × K))) : castRaysR id E A B s rs = castRays E A B s rs := by
  induction rs with
  | nil => rfl
  | cons p ps ih => simp only [castRaysR, castRays, castRayR_id, ih]

theorem pixelToLonLatAltR_id (E : ℝ → ℝ → ℝ) (demHi demLo : ℝ) (ground : ℝ → Nat → ℝ × ℝ) (n : Nat) (dist hi lo : Option ℝ) :
    pixelToLonLatAltR id Real.sqrt E demHi demLo ground n dist hi lo = pixelToLonLatAlt E demHi demLo ground n dist hi lo := by
  have hl : ∀ p, horizontalLenR id Real.sqrt p = horizontalLen p := by
    intro p
    unfold horizontalLenR horizontalLen
    simp only [id]
    congr 1
    ring
  have hm : ∀ rs, maxLenR id Real.sqrt rs = maxLen rs := by
    intro rs
    induction rs with
    | nil => rfl
    | cons p ps ih => simp only [maxLenR, maxLen, hl, ih]
  have hs : ∀ d rs, rayStepsR id Real.sqrt d rs = raySteps d rs := fun d rs => by unfold rayStepsR raySteps; rw [hm]; rfl
  unfold pixelToLonLatAltR pixelToLonLatAlt rayCaster
  simp only [castRaysR_id, hs]
  rfl

end exact

theorem len_triangle (a b c : ℝ × ℝ) : horizontalLen (a, c) ≤ horizontalLen (a, b) + horizontalLen (b, c) := by
  have e : ∀ p q : ℝ × ℝ, horizontalLen (p, q) = ‖(⟨p.1 - q.1, p.2 - q.2⟩ : ℂ)‖ := by
    intro p q
    rw [Complex.norm_def, Complex.normSq_apply]
    unfold horizontalLen
    congr 1
    ring
  rw [e, e, e]
  have : (⟨a.1 - c.1, a.2 - c.2⟩ : ℂ) = ⟨a.1 - b.1, a.2 - b.2⟩ + ⟨b.1 - c.1, b.2 - c.2⟩ := by
    apply Complex.ext <;> simp
  rw [this]
  exact norm_add_le _ _

/-- C196 in double precision (relative error `2^-52` per operation is allowed, twice the unit roundoff): coordinates and altitudes up to 10000 km, samples at most 10 m apart,
terrain of slope `c` at most 1 and a DEM within `δ` at most 10 m of it, rays that drop by at least `c * dist + 2 * δ` and 4 cm from sample to sample (`L`: the longest ray).
The ray caster is given positions within `ε` of the true lines of sight `trueA k` -- `trueB k`.  Rounding then costs at most a millimetre anywhere. -/
theorem C196_double {r : ℝ → ℝ} (hr : Rounds r (1 / 2 ^ 52)) {E T : ℝ → ℝ → ℝ} {c δ : ℝ} (hc : 0 ≤ c) (hc1 : c ≤ 1) (hG : Gentle T c) (hE : ∀ p q, |E p q - T p q| ≤ δ)
    (hδ : δ ≤ 10) (demHi demLo : ℝ) (ground : ℝ → Nat → ℝ × ℝ) (n : Nat) (hn : 0 < n) (dist hi lo : Option ℝ) (hd : 0 < dist.getD 5) (hd10 : dist.getD 5 ≤ 10)
    (hrange : 1 / 1000 ≤ hi.getD demHi - lo.getD demLo) (hEr : ∀ p q, lo.getD demLo ≤ E p q ∧ E p q ≤ hi.getD demHi) (A B : ℝ)
    (hA : A = searchTopR r (hi.getD demHi) (lo.getD demLo)) (hB : B = searchBottomR r (hi.getD demHi) (lo.getD demLo)) (hAH : |A| ≤ 10 ^ 7) (hBH : |B| ≤ 10 ^ 7) {ε : ℝ}
    (trueA trueB : Nat → ℝ × ℝ) (hεA : ∀ k, k < n → apart (ground A k) (trueA k) ≤ ε) (hεB : ∀ k, k < n → apart (ground B k) (trueB k) ≤ ε)
    (hgr : ∀ k, k < n → |(trueA k).1| + ε ≤ 10 ^ 7 ∧ |(trueA k).2| + ε ≤ 10 ^ 7 ∧ |(trueB k).1| + ε ≤ 10 ^ 7 ∧ |(trueB k).2| + ε ≤ 10 ^ 7)
    (hslant : ∃ k, k < n ∧ 2 * ε < apart (trueA k) (trueB k)) {L : ℝ} (hL : ∀ k, k < n → horizontalLen (trueA k, trueB k) + 3 * ε ≤ L)
    (hsteep : (c * dist.getD 5 + 2 * δ + 1 / 25) * (L + dist.getD 5) ≤ (A - B) * dist.getD 5) :
    ∃ hits, pixelToLonLatAltR r Real.sqrt E demHi demLo ground n dist hi lo = .ok hits ∧ hits.length = n ∧
      ∀ k, k < n → ∃ lon lat alt t, hits[k]? = some (some (lon, lat, alt)) ∧ 0 ≤ t ∧ t < 1 ∧
        apart (lon, lat) (segPoint (trueA k) (trueB k) t) ≤ ε + 1 / 1000 ∧ |alt - (A + t * (B - A))| ≤ 1 / 1000 ∧
        |T lon lat - alt| ≤ c * dist.getD 5 / 2 + δ + 1 / 1000 ∧
        ∀ t', 0 ≤ t' → t' ≤ t → T (segPoint (trueA k) (trueB k) t').1 (segPoint (trueA k) (trueB k) t').2 ≤
          A + t' * (B - A) + c * (dist.getD 5 / 2 + Real.sqrt 2 * ε) + δ + 1 / 1000 := by
  have sq2 : Real.sqrt 2 ≤ 15 / 10 := Real.sqrt_le_iff.mpr ⟨by norm_num, by norm_num⟩
  have sq20 : 0 ≤ Real.sqrt 2 := Real.sqrt_nonneg _
  have δ0 : 0 ≤ δ := (abs_nonneg _).trans (hE 0 0)
  have ε0 : 0 ≤ ε := (le_max_of_le_left (abs_nonneg _)).trans (hεA 0 hn)
  have near : ∀ {p q : ℝ × ℝ}, apart p q ≤ ε → |q.1| + ε ≤ 10 ^ 7 → |q.2| + ε ≤ 10 ^ 7 → |p.1| ≤ 10 ^ 7 ∧ |p.2| ≤ 10 ^ 7 := by
    intro p q h h1 h2
    have a1 := (le_max_left _ _).trans h
    have a2 := (le_max_right _ _).trans h
    have b1 := abs_sub_abs_le_abs_sub p.1 q.1
    have b2 := abs_sub_abs_le_abs_sub p.2 q.2
    constructor <;> linarith
  have hslant' : ∃ k, k < n ∧ ground A k ≠ ground B k := by
    obtain ⟨k, hk, h⟩ := hslant
    refine ⟨k, hk, fun e => ?_⟩
    have h1 := hεA k hk
    have h2 := hεB k hk
    rw [← e] at h2
    generalize ground A k = g at h1 h2
    unfold apart at *
    rw [lt_max_iff] at h
    rw [max_le_iff] at h1 h2
    have key : ∀ a b d : ℝ, |d - a| ≤ ε → |d - b| ≤ ε → |a - b| ≤ 2 * ε := by
      intro a b d x y
      rw [show a - b = (d - b) - (d - a) by ring]
      exact (abs_sub _ _).trans (by linarith)
    rcases h with h | h
    · exact absurd (key _ _ _ h1.1 h2.1) (not_le.mpr h)
    · exact absurd (key _ _ _ h1.2 h2.2) (not_le.mpr h)
  have hL' : ∀ k, k < n → horizontalLen (ground A k, ground B k) ≤ L := by
    intro k hk
    have t1 := len_triangle (ground A k) (trueA k) (ground B k)
    have t2 := len_triangle (trueA k) (trueB k) (ground B k)
    have t3 := (len_le_apart (ground A k) (trueA k)).trans (mul_le_mul_of_nonneg_left (hεA k hk) sq20)
    have t4 := (len_le_apart (ground B k) (trueB k)).trans (mul_le_mul_of_nonneg_left (hεB k hk) sq20)
    have t5 : horizontalLen (trueB k, ground B k) = horizontalLen (ground B k, trueB k) := by unfold horizontalLen; congr 1; ring
    have t6 : Real.sqrt 2 * ε ≤ 15 / 10 * ε := mul_le_mul_of_nonneg_right sq2 ε0
    have := hL k hk
    linarith
  set d := dist.getD 5 with hdd
  have L0 : 0 ≤ L := (Real.sqrt_nonneg _).trans (hL' 0 hn)
  have cd : c * d ≤ 10 := by nlinarith
  have cd0 : 0 ≤ c * d := by positivity
  have cs : c * Real.sqrt 2 ≤ 15 / 10 := by nlinarith
  have cs0 : 0 ≤ c * Real.sqrt 2 := by positivity
  obtain ⟨hits, h1, h2, h3⟩ := C196_rays (H := 10 ^ 7) hr (by norm_num) (by norm_num) hc hG hE demHi demLo ground n hn dist hi lo hd (by linarith)
    (by refine le_trans ?_ hrange; norm_num) hEr A B hA hB hAH hBH
    (fun k hk => by
      obtain ⟨x1, x2, x3, x4⟩ := hgr k hk
      exact ⟨(near (hεA k hk) x1 x2).1, (near (hεA k hk) x1 x2).2, (near (hεB k hk) x3 x4).1, (near (hεB k hk) x3 x4).2⟩)
    hslant' hL' rfl rfl (g := 1 / 50) (by norm_num) (by norm_num) (by
      refine le_trans ?_ hsteep
      rw [← hdd]
      have e1 : c * ((1 + 5 * (1 / 2 ^ 52)) * d) + 2 * (δ + c * (Real.sqrt 2 * (30 * (1 / 2 ^ 52 * 10 ^ 7)))) + 1 / 50 ≤ c * d + 2 * δ + 3 / 100 := by
        have : c * (Real.sqrt 2 * (30 * (1 / 2 ^ 52 * 10 ^ 7))) = c * Real.sqrt 2 * (30 * (1 / 2 ^ 52 * 10 ^ 7)) := by ring
        rw [this]
        norm_num
        linarith
      have e2 : (1 + 5 * (1 / 2 ^ 52)) * L + d ≤ (1 + 5 * (1 / 2 ^ 52)) * (L + d) := by norm_num; linarith
      have e3 : (c * d + 2 * δ + 3 / 100) * (1 + 5 * (1 / 2 ^ 52)) ≤ c * d + 2 * δ + 1 / 25 := by norm_num; linarith
      calc _ ≤ (c * d + 2 * δ + 3 / 100) * ((1 + 5 * (1 / 2 ^ 52)) * (L + d)) := mul_le_mul e1 e2 (by positivity) (by positivity)
        _ = (c * d + 2 * δ + 3 / 100) * (1 + 5 * (1 / 2 ^ 52)) * (L + d) := by ring
        _ ≤ _ := mul_le_mul_of_nonneg_right e3 (by positivity))
  refine ⟨hits, h1, h2, fun k hk => ?_⟩
  obtain ⟨lon, lat, alt, t, hit, t0, t1, hon, halt, hT, hbef⟩ := h3 k hk
  rw [← hdd] at hon halt hT hbef
  refine ⟨lon, lat, alt, t, hit, t0, t1, ?_, ?_, ?_, ?_⟩
  · have a1 := seg_apart (hεA k hk) (hεB k hk) t0 t1.le
    have a2 : apart (lon, lat) (segPoint (ground A k) (ground B k) t) ≤ 1 / 1000 := by
      refine hon.trans ?_
      norm_num
      linarith
    unfold apart at *
    rw [max_le_iff] at *
    have key : ∀ x y z : ℝ, |x - y| ≤ 1 / 1000 → |y - z| ≤ ε → |x - z| ≤ ε + 1 / 1000 := by
      intro x y z u v
      have := abs_add_le (x - y) (y - z)
      rw [sub_add_sub_cancel] at this
      linarith
    exact ⟨key _ _ _ a2.1 a1.1, key _ _ _ a2.2 a1.2⟩
  · refine halt.trans ?_
    rw [show c * (Real.sqrt 2 * (30 * (1 / 2 ^ 52 * 10 ^ 7))) = c * Real.sqrt 2 * (30 * (1 / 2 ^ 52 * 10 ^ 7)) by ring]
    norm_num
    linarith
  · refine hT.trans ?_
    have f : (112 * (1 / 2 ^ 52 * 10 ^ 7) + 200 * (1 / 2 ^ 52 * 10 ^ 7) / (1 / 50) * ((1 + 5 * (1 / 2 ^ 52)) * d)) ≤ 2224 / 10 ^ 7 := by norm_num; linarith
    have f2 : c * (Real.sqrt 2 * (112 * (1 / 2 ^ 52 * 10 ^ 7) + 200 * (1 / 2 ^ 52 * 10 ^ 7) / (1 / 50) * ((1 + 5 * (1 / 2 ^ 52)) * d))) ≤ 1415 / 1000 * (2224 / 10 ^ 7) := by
      have s : Real.sqrt 2 ≤ 1415 / 1000 := Real.sqrt_le_iff.mpr ⟨by norm_num, by norm_num⟩
      have s1 : c * Real.sqrt 2 ≤ 1415 / 1000 := by nlinarith
      rw [← mul_assoc]
      exact mul_le_mul s1 f (by positivity) (by norm_num)
    rw [show c * (Real.sqrt 2 * (30 * (1 / 2 ^ 52 * 10 ^ 7))) = c * Real.sqrt 2 * (30 * (1 / 2 ^ 52 * 10 ^ 7)) by ring]
    generalize c * (Real.sqrt 2 * (112 * (1 / 2 ^ 52 * 10 ^ 7) + 200 * (1 / 2 ^ 52 * 10 ^ 7) / (1 / 50) * ((1 + 5 * (1 / 2 ^ 52)) * d))) = X at f2 ⊢
    norm_num at f2 ⊢
    linarith
  · intro t' a0 a1
    have b1 := hbef t' a0 a1
    have b2 := (_root_.abs_le.mp (gentle_apart hc hG (seg_apart (hεA k hk) (hεB k hk) a0 (a1.trans t1.le)))).1
    rw [show c * (Real.sqrt 2 * (30 * (1 / 2 ^ 52 * 10 ^ 7))) = c * Real.sqrt 2 * (30 * (1 / 2 ^ 52 * 10 ^ 7)) by ring] at b1
    norm_num at b1 ⊢
    linarith

theorem forall2_found {ε : ℝ} {gs : List (ℝ × ℝ)} {es : List (Est ℝ)} {k : Nat} {g : ℝ × ℝ} (h : List.Forall₂ (Found ε) gs es) (e : gs[k]? = some g) :
    ∃ p, es[k]? = some (some p) ∧ apart p g ≤ ε := by
  induction h generalizing k with
  | nil => simp at e
  | cons h1 _ ih =>
    cases k with
    | zero =>
      simp at e
      obtain ⟨p, e1, e2⟩ := h1
      exact ⟨p, by simp [e1], by rw [← e]; exact e2⟩
    | succ k => simpa using ih (by simpa using e)

theorem forall2_get {α β : Type} {P : α → β → Prop} {as : List α} {bs : List β} {k : Nat} {a : α} {b : β} (h : List.Forall₂ P as bs) (e : as[k]? = some a) (e' : bs[k]? = some b) : P a b := by
  induction h generalizing k with
  | nil => simp at e
  | cons h1 _ ih =>
    cases k with
    | zero =>
      simp at e e'
      rw [← e, ← e']; exact h1
    | succ k => exact ih (by simpa using e) (by simpa using e')

/-- C196: a frame camera above the search range; the positions at the top and the bottom of the range are found up to `ε`, and the ray caster runs in double precision.  Each
answer is within `ε` and a millimetre of a position that has exactly the pixel asked for. -/
theorem C196_camera {r : ℝ → ℝ} (hr : Rounds r (1 / 2 ^ 52)) (cam : Fpa) (hx : cam.pitchX ≠ 0) (hy : cam.pitchY ≠ 0) (hf : cam.cam.f ≠ 0) (hm : Rotation.IsRotation cam.cam.m) {E T : ℝ → ℝ → ℝ} {c δ : ℝ}
    (hc : 0 ≤ c) (hc1 : c ≤ 1) (hG : Gentle T c) (hE : ∀ p q, |E p q - T p q| ≤ δ) (hδ : δ ≤ 10) (demHi demLo : ℝ) (dist hi lo : Option ℝ) (hd : 0 < dist.getD 5)
    (hd10 : dist.getD 5 ≤ 10) (hrange : 1 / 1000 ≤ hi.getD demHi - lo.getD demLo) (hEr : ∀ p q, lo.getD demLo ≤ E p q ∧ E p q ≤ hi.getD demHi) (A B : ℝ)
    (hA : A = searchTopR r (hi.getD demHi) (lo.getD demLo)) (hB : B = searchBottomR r (hi.getD demHi) (lo.getD demLo)) (hAH : |A| ≤ 10 ^ 7) (hBH : |B| ≤ 10 ^ 7)
    (habove : A < cam.cam.pos 2) {ε : ℝ} (pxs gA gB : List (ℝ × ℝ)) (esA esB : List (Est ℝ))
    (seeA : List.Forall₂ (fun px (g : ℝ × ℝ) => fpaMap cam g.1 g.2 A = some px) pxs gA) (seeB : List.Forall₂ (fun px (g : ℝ × ℝ) => fpaMap cam g.1 g.2 B = some px) pxs gB)
    (foundA : List.Forall₂ (Found ε) gA esA) (foundB : List.Forall₂ (Found ε) gB esB)
    (hgr : ∀ g : ℝ × ℝ, g ∈ gA ∨ g ∈ gB → |g.1| + ε ≤ 10 ^ 7 ∧ |g.2| + ε ≤ 10 ^ 7)
    (hslant : ∃ (k : Nat) (a b : ℝ × ℝ), gA[k]? = some a ∧ gB[k]? = some b ∧ 2 * ε < apart a b) {L : ℝ}
    (hL : ∀ (k : Nat) (a b : ℝ × ℝ), gA[k]? = some a → gB[k]? = some b → horizontalLen (a, b) + 3 * ε ≤ L)
    (hsteep : (c * dist.getD 5 + 2 * δ + 1 / 25) * (L + dist.getD 5) ≤ (A - B) * dist.getD 5)
    (ground : ℝ → Nat → ℝ × ℝ) (hgA : ∀ (k : Nat) (p : ℝ × ℝ), esA[k]? = some (some p) → ground A k = p) (hgB : ∀ (k : Nat) (p : ℝ × ℝ), esB[k]? = some (some p) → ground B k = p) :
    ∃ hits, pixelToLonLatAltR r Real.sqrt E demHi demLo ground pxs.length dist hi lo = .ok hits ∧ hits.length = pxs.length ∧
      ∀ (k : Nat) (px : ℝ × ℝ), pxs[k]? = some px → ∃ lon lat alt z, hits[k]? = some (some (lon, lat, alt)) ∧ B < z ∧ z ≤ A ∧ |alt - z| ≤ 1 / 1000 ∧
        (∃ g : ℝ × ℝ, fpaMap cam g.1 g.2 z = some px ∧ apart (lon, lat) g ≤ ε + 1 / 1000) ∧ |T lon lat - alt| ≤ c * dist.getD 5 / 2 + δ + 1 / 1000 ∧
        ∀ z', z ≤ z' → z' ≤ A → ∀ g : ℝ × ℝ, fpaMap cam g.1 g.2 z' = some px → T g.1 g.2 ≤ z' + c * (dist.getD 5 / 2 + Real.sqrt 2 * ε) + δ + 1 / 1000 := by
  have hBA : B < A := by
    obtain ⟨x1, x2⟩ := search_bounds hr (by norm_num) (by norm_num) hA hB hAH hBH (by linarith) (by refine le_trans ?_ hrange; norm_num)
    norm_num at x1
    linarith
  have la := seeA.length_eq
  have lb := seeB.length_eq
  have some_of : ∀ (l : List (ℝ × ℝ)) (k : Nat), k < l.length → l[k]? = some (l.getD k (0, 0)) := by
    intro l k hk
    rw [List.getD_eq_getElem?_getD, List.getElem?_eq_getElem hk]
    rfl
  have hεA : ∀ k, k < pxs.length → apart (ground A k) (gA.getD k (0, 0)) ≤ ε := by
    intro k hk
    obtain ⟨p, h1, h2⟩ := forall2_found foundA (some_of gA k (by omega))
    rw [hgA k p h1]; exact h2
  have hεB : ∀ k, k < pxs.length → apart (ground B k) (gB.getD k (0, 0)) ≤ ε := by
    intro k hk
    obtain ⟨p, h1, h2⟩ := forall2_found foundB (some_of gB k (by omega))
    rw [hgB k p h1]; exact h2
  obtain ⟨k0, a, b, ha, hb, hab⟩ := hslant
  have hk0 : k0 < pxs.length := by
    have := (List.getElem?_eq_some_iff.mp ha).1
    omega
  obtain ⟨hits, h1, h2, h3⟩ := C196_double hr hc hc1 hG hE hδ demHi demLo ground pxs.length (by omega) dist hi lo hd hd10 hrange hEr A B hA hB hAH hBH (fun k => gA.getD k (0, 0))
    (fun k => gB.getD k (0, 0)) hεA hεB (fun k hk => by
      have m1 := hgr _ (Or.inl (List.mem_of_getElem? (some_of gA k (by omega))))
      have m2 := hgr _ (Or.inr (List.mem_of_getElem? (some_of gB k (by omega))))
      exact ⟨m1.1, m1.2, m2.1, m2.2⟩)
    ⟨k0, hk0, by simp only [List.getD_eq_getElem?_getD, ha, hb, Option.getD_some]; exact hab⟩
    (fun k hk => hL k _ _ (some_of gA k (by omega)) (some_of gB k (by omega))) hsteep
  refine ⟨hits, h1, h2, fun k px hpx => ?_⟩
  have hk : k < pxs.length := (List.getElem?_eq_some_iff.mp hpx).1
  obtain ⟨lon, lat, alt, t, hit, t0, t1, hnear, halt, hT, hbef⟩ := h3 k hk
  have sA := forall2_get seeA hpx (some_of gA k (by omega))
  have sB := forall2_get seeB hpx (some_of gB k (by omega))
  refine ⟨lon, lat, alt, A + t * (B - A), hit, by nlinarith, by nlinarith, halt, ⟨_, ?_, hnear⟩, hT, ?_⟩
  · exact sight_straight cam hx hy hf hm sA sB habove (hBA.trans habove) t0 t1.le
  · intro z z0 z1 g hg
    have hd0 : 0 < A - B := by linarith
    have ez : A + (A - z) / (A - B) * (B - A) = z := by field_simp; ring
    have u0 : 0 ≤ (A - z) / (A - B) := div_nonneg (by linarith) hd0.le
    have u1 : (A - z) / (A - B) ≤ t := by
      rw [div_le_iff₀ hd0]
      linarith
    have hs := sight_straight cam hx hy hf hm sA sB habove (hBA.trans habove) u0 (u1.trans t1.le)
    rw [ez] at hs
    have hgg := sight_unique cam hx hy hf hm hg hs (lt_of_le_of_lt z1 habove)
    have := hbef _ u0 u1
    rw [ez] at this
    rw [hgg]
    exact this

/-- C196 with everything in double precision: the iterative solver at its default settings (as in `C181_solver`) at the top and the bottom of the search, then the ray caster. -/
theorem C196_all_double {Lb : Lib} (h : Lb.Good (1 / 2 ^ 52)) (t1 t2 : Fin 3 → Fin 3 → DotTree) (cam : Fpa) (w ph k : ℝ) (hcm : cam.cam.m = Rotation.createM w ph k "rpy")
    (hf : cam.cam.f ≠ 0) (hpx : 0 < cam.pitchX) (hpy : 0 < cam.pitchY) (hnx : 0 ≤ cam.npixX) (hny : 0 ≤ cam.npixY)
    (hsx : 2 * (|cam.cam.f| / cam.pitchX) + cam.npixX ≤ 10 ^ 6) (hsy : 2 * (|cam.cam.f| / cam.pitchY) + cam.npixY ≤ 10 ^ 6)
    {ρ Δ R N ν d Q m M S H : ℝ} (centre : ℝ × ℝ) (hρ : 0 ≤ ρ) (hR : R = 2 * ρ + Δ + 1) (hLd : S = 2 * ν * R * (N + Q * ν) / d ^ 2) (hm0 : 0 < m) (hm : 7 * S ≤ m)
    (hM : M + S ≤ 4 * m) (hM6 : 1 / 6 ≤ M + S) (hfar : (M + S) * ρ ≤ 10 ^ 6) (hbig : (M + S) * H ≤ 10 ^ 9) (hH : H ≤ 10 ^ 14)
    (hφ : 1 / 10 ^ 4 ≤ m * ρ) (hΔ2 : 2 ≤ Δ) (hΔ : 3 ≤ (m - S) * Δ) (hc1' : |centre.1| + 2 * ρ + Δ ≤ H) (hc2' : |centre.2| + 2 * ρ + Δ ≤ H)
    {E T : ℝ → ℝ → ℝ} {c δ : ℝ} (hc : 0 ≤ c) (hc1 : c ≤ 1) (hG : Gentle T c) (hE : ∀ p q, |E p q - T p q| ≤ δ) (hδ : δ ≤ 10) (demHi demLo : ℝ) (dist hi lo : Option ℝ)
    (hdist : 0 < dist.getD 5) (hd10 : dist.getD 5 ≤ 10) (hrange : 1 / 1000 ≤ hi.getD demHi - lo.getD demLo) (hEr : ∀ p q, lo.getD demLo ≤ E p q ∧ E p q ≤ hi.getD demHi) (A B : ℝ)
    (hA : A = searchTopR Lb.r (hi.getD demHi) (lo.getD demLo)) (hB : B = searchBottomR Lb.r (hi.getD demHi) (lo.getD demLo)) (hAH : |A| ≤ 10 ^ 7) (hBH : |B| ≤ 10 ^ 7)
    (habove : A < cam.cam.pos 2)
    (hbd : ∀ z, z = A ∨ z = B → (fpaProjective cam).Bounded centre R N ν d Q z)
    (hS : ∀ z, z = A ∨ z = B → Resolves ((fpaProjective cam).tangent centre) z m M ∧ m ≤ 5 * |((fpaProjective cam).tangent centre).a z|)
    (hd : ∀ z p, z = A ∨ z = B → apart p centre ≤ R → dist1 cam.cam.pos ![p.1, p.2, z] ≤ 10 * |camFrame cam.cam.m cam.cam.pos ![p.1, p.2, z] 2|)
    (pxs gA gB : List (ℝ × ℝ)) (seeA : List.Forall₂ (fun px (g : ℝ × ℝ) => apart centre g ≤ ρ ∧ fpaMap cam g.1 g.2 A = some px) pxs gA)
    (seeB : List.Forall₂ (fun px (g : ℝ × ℝ) => apart centre g ≤ ρ ∧ fpaMap cam g.1 g.2 B = some px) pxs gB)
    (hgr : ∀ g : ℝ × ℝ, g ∈ gA ∨ g ∈ gB → |g.1| + 1 / 50 / m ≤ 10 ^ 7 ∧ |g.2| + 1 / 50 / m ≤ 10 ^ 7)
    (hslant : ∃ (k : Nat) (a b : ℝ × ℝ), gA[k]? = some a ∧ gB[k]? = some b ∧ 2 * (1 / 50 / m) < apart a b) {L : ℝ}
    (hL : ∀ (k : Nat) (a b : ℝ × ℝ), gA[k]? = some a → gB[k]? = some b → horizontalLen (a, b) + 3 * (1 / 50 / m) ≤ L)
    (hsteep : (c * dist.getD 5 + 2 * δ + 1 / 25) * (L + dist.getD 5) ≤ (A - B) * dist.getD 5) (eps : ℝ) (n : Nat) (he : 0 < eps ∧ eps ≤ 1 ∧ Δ ≤ eps * 2 ^ n) :
    ∃ ground : ℝ → Nat → ℝ × ℝ,
      (∀ z, z = A ∨ z = B → solverR Lb.r (fpaMapR Lb t1 t2 cam w ph k) centre eps n z (1 / 100) 1000 (pxs.map (fun px => ⟨z, px.1, px.2⟩)) =
        .ok ((List.range pxs.length).map (fun k => some (ground z k)))) ∧
      ∃ hits, pixelToLonLatAltR Lb.r Real.sqrt E demHi demLo ground pxs.length dist hi lo = .ok hits ∧ hits.length = pxs.length ∧
        ∀ (k : Nat) (px : ℝ × ℝ), pxs[k]? = some px → ∃ lon lat alt z, hits[k]? = some (some (lon, lat, alt)) ∧ B < z ∧ z ≤ A ∧ |alt - z| ≤ 1 / 1000 ∧
          (∃ g : ℝ × ℝ, fpaMap cam g.1 g.2 z = some px ∧ apart (lon, lat) g ≤ 1 / 50 / m + 1 / 1000) ∧ |T lon lat - alt| ≤ c * dist.getD 5 / 2 + δ + 1 / 1000 ∧
          ∀ z', z ≤ z' → z' ≤ A → ∀ g : ℝ × ℝ, fpaMap cam g.1 g.2 z' = some px → T g.1 g.2 ≤ z' + c * (dist.getD 5 / 2 + Real.sqrt 2 * (1 / 50 / m)) + δ + 1 / 1000 := by
  have hne : pxs ≠ [] := by
    rintro rfl
    cases seeA
    obtain ⟨k, a, b, h1, -⟩ := hslant
    simp at h1
  have one : ∀ z gs, z = A ∨ z = B → List.Forall₂ (fun px (g : ℝ × ℝ) => apart centre g ≤ ρ ∧ fpaMap cam g.1 g.2 z = some px) pxs gs →
      ∃ es, solverR Lb.r (fpaMapR Lb t1 t2 cam w ph k) centre eps n z (1 / 100) 1000 (pxs.map (fun px => ⟨z, px.1, px.2⟩)) = .ok es ∧ List.Forall₂ (Found (1 / 50 / m)) gs es := by
    intro z gs hz hs
    obtain ⟨es, e1, -, e3⟩ := C181_solver h t1 t2 cam w ph k hcm hpx hpy hnx hny hsx hsy centre hρ hR hLd hm0 hm hM hM6 hfar hbig hH hφ hΔ2 hΔ hc1' hc2' (fun z => z = A ∨ z = B)
      hbd hS hd (pxs.map (fun px => ⟨z, px.1, px.2⟩)) (by simpa using hne) gs (by
        rw [List.forall₂_map_left_iff]
        exact hs.imp (fun px g hh => ⟨hz, hh.1, hh.2⟩)) z hz eps n he
    exact ⟨es, e1, e3⟩
  obtain ⟨esA, sA, fA⟩ := one A gA (Or.inl rfl) seeA
  obtain ⟨esB, sB, fB⟩ := one B gB (Or.inr rfl) seeB
  have hBA : B < A := by
    obtain ⟨x1, x2⟩ := search_bounds h.arith (by norm_num) (by norm_num) hA hB hAH hBH (by linarith) (by refine le_trans ?_ hrange; norm_num)
    norm_num at x1
    linarith
  have read : ∀ (gs : List (ℝ × ℝ)) (es : List (Est ℝ)), List.Forall₂ (Found (1 / 50 / m)) gs es → es = (List.range es.length).map (fun k => some ((es.getD k none).getD (0, 0))) := by
    intro gs es hfe
    refine List.ext_getElem (by simp) ?_
    intro i h1 h2
    have hi : i < gs.length := by rw [hfe.length_eq]; exact h1
    obtain ⟨p, hp, -⟩ := List.Forall₂.get hfe hi h1
    have hp' : es[i] = some p := hp
    simp [hp', h1]
  let ground : ℝ → Nat → ℝ × ℝ := fun z k => (((if z = A then esA else esB).getD k none).getD (0, 0))
  have gA' : ∀ k, ground A k = (esA.getD k none).getD (0, 0) := fun k => by simp only [ground, if_pos]
  have gB' : ∀ k, ground B k = (esB.getD k none).getD (0, 0) := fun k => by simp only [ground, if_neg hBA.ne]
  have lA : esA.length = pxs.length := by rw [← fA.length_eq, ← seeA.length_eq]
  have lB : esB.length = pxs.length := by rw [← fB.length_eq, ← seeB.length_eq]
  refine ⟨ground, ?_, ?_⟩
  · rintro z (hz | hz) <;> rw [hz]
    · rw [sA, read _ _ fA, lA]
      simp only [gA']
    · rw [sB, read _ _ fB, lB]
      simp only [gB']
  · exact C196_camera h.arith cam hpx.ne' hpy.ne' hf (by rw [hcm]; exact Rotation.C24_rotation _ _ _ "rpy" (by decide)) hc hc1 hG hE hδ demHi demLo dist hi lo hdist hd10 hrange hEr A B hA hB
      hAH hBH habove pxs gA gB esA esB (seeA.imp (fun _ _ hh => hh.2)) (seeB.imp (fun _ _ hh => hh.2)) fA fB hgr hslant hL hsteep ground
      (fun k p hp => by rw [gA', List.getD_eq_getElem?_getD, hp]; rfl) (fun k p hp => by rw [gB', List.getD_eq_getElem?_getD, hp]; rfl)

/-- Beside `C196_double`: exact lines of sight that drop from 101 m to -1 m over 20 m of ground, over a terrain that rises with slope 1/2. -/
example : ∃ (T : ℝ → ℝ → ℝ) (hits : List (Hit ℝ)) (lon lat alt : ℝ), T = (fun u _ => max (min (u / 2) 100) 0) ∧
    pixelToLonLatAltR (id : ℝ → ℝ) Real.sqrt T 100 0 (fun z k => ((k : ℝ) + (101 - z) * 20 / 102, 0)) 2 none none none = .ok hits ∧
    hits[1]? = some (some (lon, lat, alt)) ∧ |T lon lat - alt| ≤ 5 / 4 + 1 / 1000 := by
  have gentle : Gentle (fun u _ => max (min (u / 2) 100) 0) (1 / 2) := by
    intro p q
    simp only []
    have h1 : |p.1 - q.1| ≤ horizontalLen (p, q) := by
      unfold horizontalLen
      exact Real.abs_le_sqrt (by nlinarith [sq_nonneg (p.2 - q.2)])
    have h2 : |max (min (p.1 / 2) 100) 0 - max (min (q.1 / 2) 100) 0| ≤ |p.1 / 2 - q.1 / 2| :=
      (abs_max_sub_max_le_abs (min (p.1 / 2) 100) (min (q.1 / 2) 100) 0).trans (abs_inf_sub_inf_le_abs (p.1 / 2) (q.1 / 2) 100)
    have h3 : |p.1 / 2 - q.1 / 2| = 1 / 2 * |p.1 - q.1| := by rw [show p.1 / 2 - q.1 / 2 = 1 / 2 * (p.1 - q.1) by ring, abs_mul]; norm_num
    calc _ ≤ |p.1 / 2 - q.1 / 2| := h2
      _ = 1 / 2 * |p.1 - q.1| := h3
      _ ≤ _ := by linarith
  have bound : ∀ k : Nat, k < 2 → (k : ℝ) ≤ 1 := fun k hk => by exact_mod_cast (by omega : k ≤ 1)
  obtain ⟨hits, h1, -, h3⟩ := C196_double (r := id) (E := fun u _ => max (min (u / 2) 100) 0) (fun x => by simp) (by norm_num) (by norm_num) gentle (δ := 0) (by intro p q; simp) (by norm_num) 100 0
    (fun z k => ((k : ℝ) + (101 - z) * 20 / 102, 0)) 2 (by norm_num) none none none (by norm_num) (by norm_num) (by norm_num)
    (by intro u v; constructor
        · exact le_max_right _ _
        · exact max_le (min_le_right _ _) (by norm_num)) 101 (-1) (by norm_num [searchTopR]) (by norm_num [searchBottomR]) (by norm_num) (by norm_num) (ε := 0)
    (fun k => ((k : ℝ), 0)) (fun k => ((k : ℝ) + 20, 0)) (by intro k _; norm_num [apart]) (by intro k _; norm_num [apart])
    (by intro k hk
        have := bound k hk
        have h0 : (0 : ℝ) ≤ k := Nat.cast_nonneg k
        simp only [abs_of_nonneg h0, abs_of_nonneg (by linarith : 0 ≤ (k : ℝ) + 20)]
        norm_num
        constructor <;> linarith)
    ⟨0, by norm_num, by norm_num [apart]⟩ (L := 20) (by intro k _; norm_num [horizontalLen]; rw [show (400 : ℝ) = 20 ^ 2 by norm_num, Real.sqrt_sq (by norm_num)])
    (by norm_num)
  obtain ⟨lon, lat, alt, t, hh, -, -, -, -, hT, -⟩ := h3 1 (by norm_num)
  exact ⟨_, hits, lon, lat, alt, rfl, h1, hh, hT.trans (by norm_num)⟩

end Verif.PointCalc
