import Verif.Props.RaySlope
import Verif.Props.FloatCamera

/-! C192: pixels of a frame camera to positions on the terrain, the iterative solver and the ray caster together: the answer is on the pixel's true line of sight, and that
line does not go under the terrain before it. -/

set_option linter.unusedSectionVars false

namespace Verif.PointCalc
open Verif ImageUtils Rotation

theorem seg_apart {p q p' q' : ℝ × ℝ} {ε t : ℝ} (hp : apart p p' ≤ ε) (hq : apart q q' ≤ ε) (h0 : 0 ≤ t) (h1 : t ≤ 1) : apart (segPoint p q t) (segPoint p' q' t) ≤ ε := by
  unfold apart segPoint at *
  simp only [max_le_iff] at *
  have key : ∀ a b a' b' : ℝ, |a - a'| ≤ ε → |b - b'| ≤ ε → |a + t * (b - a) - (a' + t * (b' - a'))| ≤ ε := by
    intro a b a' b' ha hb
    rw [show a + t * (b - a) - (a' + t * (b' - a')) = (1 - t) * (a - a') + t * (b - b') by ring]
    refine (abs_add_le _ _).trans ?_
    rw [abs_mul, abs_mul, abs_of_nonneg h0, abs_of_nonneg (by linarith : (0 : ℝ) ≤ 1 - t)]
    have a1 := mul_le_mul_of_nonneg_left ha (by linarith : (0 : ℝ) ≤ 1 - t)
    have a2 := mul_le_mul_of_nonneg_left hb h0
    linarith
  exact ⟨key _ _ _ _ hp.1 hq.1, key _ _ _ _ hp.2 hq.2⟩

theorem len_le_apart (p q : ℝ × ℝ) : horizontalLen (p, q) ≤ Real.sqrt 2 * apart p q := by
  unfold horizontalLen apart
  have h0 : 0 ≤ max |p.1 - q.1| |p.2 - q.2| := (abs_nonneg _).trans (le_max_left _ _)
  have h1 : (p.1 - q.1) ^ 2 ≤ max |p.1 - q.1| |p.2 - q.2| ^ 2 := by rw [← sq_abs]; exact pow_le_pow_left₀ (abs_nonneg _) (le_max_left _ _) 2
  have h2 : (p.2 - q.2) ^ 2 ≤ max |p.1 - q.1| |p.2 - q.2| ^ 2 := by rw [← sq_abs (p.2 - q.2)]; exact pow_le_pow_left₀ (abs_nonneg _) (le_max_right _ _) 2
  refine Real.sqrt_le_iff.mpr ⟨by positivity, ?_⟩
  rw [mul_pow, Real.sq_sqrt (by norm_num)]
  simp only []
  linarith

theorem gentle_apart {T : ℝ → ℝ → ℝ} {c ε : ℝ} (hc : 0 ≤ c) (hG : Gentle T c) {p q : ℝ × ℝ} (h : apart p q ≤ ε) : |T p.1 p.2 - T q.1 q.2| ≤ c * (Real.sqrt 2 * ε) :=
  (hG p q).trans (mul_le_mul_of_nonneg_left ((len_le_apart p q).trans (mul_le_mul_of_nonneg_left h (Real.sqrt_nonneg _))) hc)

/-- C192: the positions found for the top and the bottom of the search are within `ε` (in each coordinate) of the true line of sight; the line of sight is straight. Then every
answer is within `ε` of the true line of sight at the answer's altitude, on the terrain up to `c * dist / 2 + δ`, and the true line of sight is nowhere before it below the
terrain by more than `c * (dist / 2 + √2 * ε) + δ`. -/
theorem C192_sight (E T : ℝ → ℝ → ℝ) (c δ : ℝ) (hc : 0 ≤ c) (hG : Gentle T c) (hδ : ∀ u v, |E u v - T u v| ≤ δ) (demHi demLo : ℝ) (ground : ℝ → Nat → ℝ × ℝ) (n : Nat)
    (hn : 0 < n) (dist hi lo : Option ℝ) (hd : 0 < dist.getD 5) (hrange : lo.getD demLo < hi.getD demHi) (hE : ∀ u v, lo.getD demLo ≤ E u v ∧ E u v ≤ hi.getD demHi) (A B : ℝ)
    (hA : A = searchTop (hi.getD demHi) (lo.getD demLo)) (hB : B = searchBottom (hi.getD demHi) (lo.getD demLo)) (ε : ℝ) (trueA trueB : Nat → ℝ × ℝ)
    (hεA : ∀ k, k < n → apart (ground A k) (trueA k) ≤ ε) (hεB : ∀ k, k < n → apart (ground B k) (trueB k) ≤ ε) (hslant : ∃ k, k < n ∧ 2 * ε < apart (trueA k) (trueB k)) :
    ∃ hits, pixelToLonLatAlt E demHi demLo ground n dist hi lo = .ok hits ∧ hits.length = n ∧
      ∀ k, k < n → ∃ lon lat alt t, hits[k]? = some (some (lon, lat, alt)) ∧ 0 ≤ t ∧ t < 1 ∧ alt = A + t * (B - A) ∧
        apart (lon, lat) (segPoint (trueA k) (trueB k) t) ≤ ε ∧ |T lon lat - alt| ≤ c * dist.getD 5 / 2 + δ ∧
        ∀ t', 0 ≤ t' → t' ≤ t →
          T (segPoint (trueA k) (trueB k) t').1 (segPoint (trueA k) (trueB k) t').2 ≤ A + t' * (B - A) + c * (dist.getD 5 / 2 + Real.sqrt 2 * ε) + δ := by
  have hslant' : ∃ k, k < n ∧ ground A k ≠ ground B k := by
    obtain ⟨k, hk, h⟩ := hslant
    refine ⟨k, hk, fun e => ?_⟩
    have h1 := hεA k hk
    have h2 := hεB k hk
    rw [← e] at h2
    generalize ground A k = g at h1 h2
    unfold apart at *
    rw [lt_max_iff] at h
    rw [max_le_iff] at h1 h2
    have key : ∀ a b d : ℝ, |d - a| ≤ ε → |d - b| ≤ ε → |a - b| ≤ 2 * ε := by
      intro a b d x y
      rw [show a - b = (d - b) - (d - a) by ring]
      exact (abs_sub _ _).trans (by linarith)
    rcases h with h | h
    · exact absurd (key _ _ _ h1.1 h2.1) (not_le.mpr h)
    · exact absurd (key _ _ _ h1.2 h2.2) (not_le.mpr h)
  obtain ⟨hits, h1, h2, h3⟩ := C174_terrain E T c δ hc hG demHi demLo ground n hn dist hi lo hd hrange hE A B hA hB hslant' (fun _ _ _ _ _ => hδ _ _)
  refine ⟨hits, h1, h2, fun k hk => ?_⟩
  obtain ⟨lon, lat, alt, t, hit, t0, t1, hon, halt, hT, hbef⟩ := h3 k hk
  refine ⟨lon, lat, alt, t, hit, t0, t1, halt, ?_, hT, ?_⟩
  · rw [hon]
    exact seg_apart (hεA k hk) (hεB k hk) t0 t1.le
  · intro t' a0 a1
    have b1 := hbef t' a0 a1
    have b2 := (_root_.abs_le.mp (gentle_apart hc hG (seg_apart (hεA k hk) (hεB k hk) a0 (a1.trans t1.le)))).1
    linarith

open Camera

/-- Two points with the same pixel lie on one line through the camera. -/
theorem same_pixel_line (c : Fpa) (hx : c.pitchX ≠ 0) (hy : c.pitchY ≠ 0) (hf : c.cam.f ≠ 0) (hm : IsRotation c.cam.m) {p q : Fin 3 → ℝ} {px : ℝ × ℝ}
    (hp : c.pixel p = some px) (hq : c.pixel q = some px) : ∃ l : ℝ, l ≠ 0 ∧ q = c.cam.pos + l • (p - c.cam.pos) := by
  rw [pixel_eq c _ hx hy, imagePlane_eq] at hp hq
  by_cases hp2 : camFrame c.cam.m c.cam.pos p 2 = 0
  · rw [if_pos hp2] at hp; simp at hp
  by_cases hq2 : camFrame c.cam.m c.cam.pos q 2 = 0
  · rw [if_pos hq2] at hq; simp at hq
  rw [if_neg hp2, Option.map_some, Option.some.injEq] at hp
  rw [if_neg hq2, Option.map_some, Option.some.injEq, ← hp, Prod.mk.injEq] at hq
  have sg : ∀ b : Bool, (if b then (-1 : ℝ) else 1) ≠ 0 := by intro b; cases b <;> norm_num
  have canc : ∀ (s a b d o : ℝ), s ≠ 0 → d ≠ 0 → s * (-c.cam.f * a) / d + o = s * (-c.cam.f * b) / d + o → a = b := by
    intro s a b d o hs hd h
    have h1 : s * (-c.cam.f * a) / d = s * (-c.cam.f * b) / d := by linarith
    rw [div_left_inj' hd] at h1
    have h2 := mul_left_cancel₀ hs h1
    exact mul_left_cancel₀ (neg_ne_zero.mpr hf) h2
  have e0 := canc _ _ _ _ _ (sg _) hx hq.1
  have e1 := canc _ _ _ _ _ (sg _) hy hq.2
  set l := camFrame c.cam.m c.cam.pos q 2 / camFrame c.cam.m c.cam.pos p 2 with hl
  have f0 : camFrame c.cam.m c.cam.pos q = l • camFrame c.cam.m c.cam.pos p := by
    funext i
    simp only [Pi.smul_apply, smul_eq_mul]
    fin_cases i
    · change camFrame c.cam.m c.cam.pos q 0 = l * camFrame c.cam.m c.cam.pos p 0
      rw [div_eq_iff hq2] at e0
      rw [e0, hl]; field_simp
    · change camFrame c.cam.m c.cam.pos q 1 = l * camFrame c.cam.m c.cam.pos p 1
      rw [div_eq_iff hq2] at e1
      rw [e1, hl]; field_simp
    · change camFrame c.cam.m c.cam.pos q 2 = l * camFrame c.cam.m c.cam.pos p 2
      rw [hl]; field_simp
  refine ⟨l, div_ne_zero hq2 hp2, ?_⟩
  have back : ∀ x : Fin 3 → ℝ, x - c.cam.pos = c.cam.m.transpose.mulVec (camFrame c.cam.m c.cam.pos x) := by
    intro x
    unfold camFrame
    rw [Matrix.mulVec_mulVec, mul_eq_one_comm.mp hm.1, Matrix.one_mulVec]
  have := back q
  rw [f0, Matrix.mulVec_smul, ← back p] at this
  rw [← this]
  abel

/-- The line of sight is straight: between two positions with the same pixel below the camera, all positions on the segment have that pixel. -/
theorem sight_straight (c : Fpa) (hx : c.pitchX ≠ 0) (hy : c.pitchY ≠ 0) (hf : c.cam.f ≠ 0) (hm : IsRotation c.cam.m) {g h : ℝ × ℝ} {A B : ℝ} {px : ℝ × ℝ}
    (hg : fpaMap c g.1 g.2 A = some px) (hh : fpaMap c h.1 h.2 B = some px) (hA : A < c.cam.pos 2) (hB : B < c.cam.pos 2) {t : ℝ} (h0 : 0 ≤ t) (h1 : t ≤ 1) :
    fpaMap c (segPoint g h t).1 (segPoint g h t).2 (A + t * (B - A)) = some px := by
  unfold fpaMap at *
  obtain ⟨l, l0, e⟩ := same_pixel_line c hx hy hf hm hg hh
  have e2 : B = c.cam.pos 2 + l * (A - c.cam.pos 2) := congrFun e 2
  have lpos : 0 < l := by
    by_contra hn
    push Not at hn
    have := mul_nonneg_of_nonpos_of_nonpos hn (by linarith : A - c.cam.pos 2 ≤ 0)
    linarith
  have hs : (![(segPoint g h t).1, (segPoint g h t).2, A + t * (B - A)] : Fin 3 → ℝ) = c.cam.pos + (1 + t * (l - 1)) • (![g.1, g.2, A] - c.cam.pos) := by
    have e0 : h.1 = c.cam.pos 0 + l * (g.1 - c.cam.pos 0) := congrFun e 0
    have e1 : h.2 = c.cam.pos 1 + l * (g.2 - c.cam.pos 1) := congrFun e 1
    funext i
    fin_cases i
    · change g.1 + t * (h.1 - g.1) = c.cam.pos 0 + (1 + t * (l - 1)) * (g.1 - c.cam.pos 0)
      rw [e0]; ring
    · change g.2 + t * (h.2 - g.2) = c.cam.pos 1 + (1 + t * (l - 1)) * (g.2 - c.cam.pos 1)
      rw [e1]; ring
    · change A + t * (B - A) = c.cam.pos 2 + (1 + t * (l - 1)) * (A - c.cam.pos 2)
      rw [e2]; ring
  have hne : 1 + t * (l - 1) ≠ 0 := by
    have : 0 < 1 + t * (l - 1) := by
      rcases eq_or_lt_of_le h1 with rfl | h1
      · linarith
      · nlinarith [mul_nonneg h0 lpos.le]
    exact this.ne'
  rw [hs, pixel_eq c _ hx hy, C27_same_line c.cam _ _ hne, ← pixel_eq c _ hx hy]
  exact hg

/-- One position per pixel and altitude. -/
theorem sight_unique (c : Fpa) (hx : c.pitchX ≠ 0) (hy : c.pitchY ≠ 0) (hf : c.cam.f ≠ 0) (hm : IsRotation c.cam.m) {g h : ℝ × ℝ} {z : ℝ} {px : ℝ × ℝ}
    (hg : fpaMap c g.1 g.2 z = some px) (hh : fpaMap c h.1 h.2 z = some px) (hz : z < c.cam.pos 2) : g = h := by
  unfold fpaMap at *
  obtain ⟨l, -, e⟩ := same_pixel_line c hx hy hf hm hg hh
  have e2 : z = c.cam.pos 2 + l * (z - c.cam.pos 2) := congrFun e 2
  have l1 : l = 1 := by
    have : (l - 1) * (z - c.cam.pos 2) = 0 := by linarith
    rcases mul_eq_zero.mp this with h | h
    · linarith
    · exact absurd h (by linarith)
  rw [l1] at e
  have e0 : h.1 = c.cam.pos 0 + 1 * (g.1 - c.cam.pos 0) := congrFun e 0
  have e1 : h.2 = c.cam.pos 1 + 1 * (g.2 - c.cam.pos 1) := congrFun e 1
  exact Prod.ext (by linarith) (by linarith)

/-- C192: a frame camera above the search range; the positions at the top and the bottom of the range are found up to `ε`. Each answer is within `ε` of a position that has
exactly the pixel asked for, it is on the terrain up to `c * dist / 2 + δ`, and no position with that pixel between the answer and the top of the search is below the terrain
by more than `c * (dist / 2 + √2 * ε) + δ`. -/
theorem C192_camera (cam : Fpa) (hx : cam.pitchX ≠ 0) (hy : cam.pitchY ≠ 0) (hf : cam.cam.f ≠ 0) (hm : IsRotation cam.cam.m) (E T : ℝ → ℝ → ℝ) (c δ : ℝ) (hc : 0 ≤ c)
    (hG : Gentle T c) (hδ : ∀ u v, |E u v - T u v| ≤ δ) (demHi demLo : ℝ) (dist hi lo : Option ℝ) (hd : 0 < dist.getD 5) (hrange : lo.getD demLo < hi.getD demHi)
    (hE : ∀ u v, lo.getD demLo ≤ E u v ∧ E u v ≤ hi.getD demHi) (A B : ℝ) (hA : A = searchTop (hi.getD demHi) (lo.getD demLo))
    (hB : B = searchBottom (hi.getD demHi) (lo.getD demLo)) (habove : A < cam.cam.pos 2) (ε : ℝ) (pxs gA gB : List (ℝ × ℝ)) (esA esB : List (Est ℝ))
    (seeA : List.Forall₂ (fun px (g : ℝ × ℝ) => fpaMap cam g.1 g.2 A = some px) pxs gA) (seeB : List.Forall₂ (fun px (g : ℝ × ℝ) => fpaMap cam g.1 g.2 B = some px) pxs gB)
    (foundA : List.Forall₂ (Found ε) gA esA) (foundB : List.Forall₂ (Found ε) gB esB) (hslant : ∃ (k : Nat) (a b : ℝ × ℝ), gA[k]? = some a ∧ gB[k]? = some b ∧ 2 * ε < apart a b)
    (ground : ℝ → Nat → ℝ × ℝ) (hgA : ∀ (k : Nat) (p : ℝ × ℝ), esA[k]? = some (some p) → ground A k = p) (hgB : ∀ (k : Nat) (p : ℝ × ℝ), esB[k]? = some (some p) → ground B k = p) :
    ∃ hits, pixelToLonLatAlt E demHi demLo ground pxs.length dist hi lo = .ok hits ∧ hits.length = pxs.length ∧
      ∀ (k : Nat) (px : ℝ × ℝ), pxs[k]? = some px → ∃ lon lat alt, hits[k]? = some (some (lon, lat, alt)) ∧ B < alt ∧ alt ≤ A ∧
        (∃ g : ℝ × ℝ, fpaMap cam g.1 g.2 alt = some px ∧ apart (lon, lat) g ≤ ε) ∧ |T lon lat - alt| ≤ c * dist.getD 5 / 2 + δ ∧
        ∀ z, alt ≤ z → z ≤ A → ∀ g : ℝ × ℝ, fpaMap cam g.1 g.2 z = some px → T g.1 g.2 ≤ z + c * (dist.getD 5 / 2 + Real.sqrt 2 * ε) + δ := by
  have hBA : B < A := by rw [hA, hB]; unfold searchTop searchBottom; linarith
  have la := seeA.length_eq
  have lb := seeB.length_eq
  have las := foundA.length_eq
  have lbs := foundB.length_eq
  have get : ∀ (gs : List (ℝ × ℝ)) (es : List (Est ℝ)) (k : Nat) (g : ℝ × ℝ), List.Forall₂ (Found ε) gs es → gs[k]? = some g → ∃ p, es[k]? = some (some p) ∧ apart p g ≤ ε := by
    intro gs es k g h
    induction h generalizing k with
    | nil => simp
    | cons h1 _ ih =>
      cases k with
      | zero =>
        intro e
        simp at e
        obtain ⟨p, e1, e2⟩ := h1
        exact ⟨p, by simp [e1], by rw [← e]; exact e2⟩
      | succ k => intro e; simpa using ih k (by simpa using e)
  have getS : ∀ (z : ℝ) (gs ps : List (ℝ × ℝ)) (k : Nat) (px g : ℝ × ℝ), List.Forall₂ (fun px (g : ℝ × ℝ) => fpaMap cam g.1 g.2 z = some px) ps gs → ps[k]? = some px → gs[k]? = some g →
      fpaMap cam g.1 g.2 z = some px := by
    intro z gs ps k px g h
    induction h generalizing k with
    | nil => simp
    | cons h1 _ ih =>
      cases k with
      | zero =>
        intro e e'
        simp at e e'
        rw [← e, ← e']; exact h1
      | succ k => intro e e'; exact ih k (by simpa using e) (by simpa using e')
  have some_of : ∀ (l : List (ℝ × ℝ)) (k : Nat), k < l.length → l[k]? = some (l.getD k (0, 0)) := by
    intro l k hk
    rw [List.getD_eq_getElem?_getD, List.getElem?_eq_getElem hk]
    rfl
  have hεA : ∀ k, k < pxs.length → apart (ground A k) (gA.getD k (0, 0)) ≤ ε := by
    intro k hk
    obtain ⟨p, h1, h2⟩ := get gA esA k _ foundA (some_of gA k (by omega))
    rw [hgA k p h1]; exact h2
  have hεB : ∀ k, k < pxs.length → apart (ground B k) (gB.getD k (0, 0)) ≤ ε := by
    intro k hk
    obtain ⟨p, h1, h2⟩ := get gB esB k _ foundB (some_of gB k (by omega))
    rw [hgB k p h1]; exact h2
  obtain ⟨k0, a, b, ha, hb, hab⟩ := hslant
  have hk0 : k0 < pxs.length := by
    have := (List.getElem?_eq_some_iff.mp ha).1
    omega
  obtain ⟨hits, h1, h2, h3⟩ := C192_sight E T c δ hc hG hδ demHi demLo ground pxs.length (by omega) dist hi lo hd hrange hE A B hA hB ε (fun k => gA.getD k (0, 0))
    (fun k => gB.getD k (0, 0)) hεA hεB ⟨k0, hk0, by simp only [List.getD_eq_getElem?_getD, ha, hb, Option.getD_some]; exact hab⟩
  refine ⟨hits, h1, h2, fun k px hpx => ?_⟩
  have hk : k < pxs.length := (List.getElem?_eq_some_iff.mp hpx).1
  obtain ⟨lon, lat, alt, t, hit, t0, t1, halt, hnear, hT, hbef⟩ := h3 k hk
  have sA := getS A gA pxs k px _ seeA hpx (some_of gA k (by omega))
  have sB := getS B gB pxs k px _ seeB hpx (some_of gB k (by omega))
  have altA : alt ≤ A := by rw [halt]; nlinarith
  refine ⟨lon, lat, alt, hit, by rw [halt]; nlinarith, altA, ⟨_, ?_, hnear⟩, hT, ?_⟩
  · rw [halt]
    exact sight_straight cam hx hy hf hm sA sB habove (hBA.trans habove) t0 t1.le
  · intro z z0 z1 g hg
    have hd0 : 0 < A - B := by linarith
    have ez : A + (A - z) / (A - B) * (B - A) = z := by field_simp; ring
    have u0 : 0 ≤ (A - z) / (A - B) := div_nonneg (by linarith) hd0.le
    have u1 : (A - z) / (A - B) ≤ t := by
      rw [div_le_iff₀ hd0]
      rw [halt] at z0
      linarith
    have hs := sight_straight cam hx hy hf hm sA sB habove (hBA.trans habove) u0 (u1.trans t1.le)
    rw [ez] at hs
    have hgg := sight_unique cam hx hy hf hm hg hs (lt_of_le_of_lt z1 habove)
    have := hbef _ u0 u1
    rw [ez] at this
    rw [hgg]
    exact this

open FloatGeom FloatSpectral in
/-- C192 with the solver in double precision at its default settings: the camera of `C181_solver` seen from the top and the bottom of the search. The positions at both altitudes
are found, and each answer is within a fiftieth of a pixel (`m` pixels per ground unit) of a position that has exactly the pixel asked for. -/
theorem C192_double {L : Lib} (h : L.Good (1 / 2 ^ 52)) (t1 t2 : Fin 3 → Fin 3 → DotTree) (cam : Fpa) (w ph k : ℝ) (hcm : cam.cam.m = Rotation.createM w ph k "rpy")
    (hf : cam.cam.f ≠ 0) (hpx : 0 < cam.pitchX) (hpy : 0 < cam.pitchY) (hnx : 0 ≤ cam.npixX) (hny : 0 ≤ cam.npixY)
    (hsx : 2 * (|cam.cam.f| / cam.pitchX) + cam.npixX ≤ 10 ^ 6) (hsy : 2 * (|cam.cam.f| / cam.pitchY) + cam.npixY ≤ 10 ^ 6)
    {ρ Δ R N ν d Q m M S H : ℝ} (centre : ℝ × ℝ) (hρ : 0 ≤ ρ) (hR : R = 2 * ρ + Δ + 1) (hLd : S = 2 * ν * R * (N + Q * ν) / d ^ 2) (hm0 : 0 < m) (hm : 7 * S ≤ m)
    (hM : M + S ≤ 4 * m) (hM6 : 1 / 6 ≤ M + S) (hfar : (M + S) * ρ ≤ 10 ^ 6) (hbig : (M + S) * H ≤ 10 ^ 9) (hH : H ≤ 10 ^ 14)
    (hφ : 1 / 10 ^ 4 ≤ m * ρ) (hΔ2 : 2 ≤ Δ) (hΔ : 3 ≤ (m - S) * Δ) (hc1 : |centre.1| + 2 * ρ + Δ ≤ H) (hc2 : |centre.2| + 2 * ρ + Δ ≤ H)
    (E T : ℝ → ℝ → ℝ) (c δ : ℝ) (hc : 0 ≤ c) (hG : Gentle T c) (hδ : ∀ u v, |E u v - T u v| ≤ δ) (demHi demLo : ℝ) (dist hi lo : Option ℝ) (hdist : 0 < dist.getD 5)
    (hrange : lo.getD demLo < hi.getD demHi) (hE : ∀ u v, lo.getD demLo ≤ E u v ∧ E u v ≤ hi.getD demHi) (A B : ℝ) (hA : A = searchTop (hi.getD demHi) (lo.getD demLo))
    (hB : B = searchBottom (hi.getD demHi) (lo.getD demLo)) (habove : A < cam.cam.pos 2)
    (hbd : ∀ z, z = A ∨ z = B → (fpaProjective cam).Bounded centre R N ν d Q z)
    (hS : ∀ z, z = A ∨ z = B → Resolves ((fpaProjective cam).tangent centre) z m M ∧ m ≤ 5 * |((fpaProjective cam).tangent centre).a z|)
    (hd : ∀ z p, z = A ∨ z = B → apart p centre ≤ R → dist1 cam.cam.pos ![p.1, p.2, z] ≤ 10 * |camFrame cam.cam.m cam.cam.pos ![p.1, p.2, z] 2|)
    (pxs gA gB : List (ℝ × ℝ)) (seeA : List.Forall₂ (fun px (g : ℝ × ℝ) => apart centre g ≤ ρ ∧ fpaMap cam g.1 g.2 A = some px) pxs gA)
    (seeB : List.Forall₂ (fun px (g : ℝ × ℝ) => apart centre g ≤ ρ ∧ fpaMap cam g.1 g.2 B = some px) pxs gB)
    (hslant : ∃ (k : Nat) (a b : ℝ × ℝ), gA[k]? = some a ∧ gB[k]? = some b ∧ 2 * (1 / 50 / m) < apart a b) (eps : ℝ) (n : Nat) (he : 0 < eps ∧ eps ≤ 1 ∧ Δ ≤ eps * 2 ^ n) :
    ∃ ground : ℝ → Nat → ℝ × ℝ,
      (∀ z, z = A ∨ z = B → solverR L.r (fpaMapR L t1 t2 cam w ph k) centre eps n z (1 / 100) 1000 (pxs.map (fun px => ⟨z, px.1, px.2⟩)) =
        .ok ((List.range pxs.length).map (fun k => some (ground z k)))) ∧
      ∃ hits, pixelToLonLatAlt E demHi demLo ground pxs.length dist hi lo = .ok hits ∧ hits.length = pxs.length ∧
        ∀ (k : Nat) (px : ℝ × ℝ), pxs[k]? = some px → ∃ lon lat alt, hits[k]? = some (some (lon, lat, alt)) ∧ B < alt ∧ alt ≤ A ∧
          (∃ g : ℝ × ℝ, fpaMap cam g.1 g.2 alt = some px ∧ apart (lon, lat) g ≤ 1 / 50 / m) ∧ |T lon lat - alt| ≤ c * dist.getD 5 / 2 + δ ∧
          ∀ z, alt ≤ z → z ≤ A → ∀ g : ℝ × ℝ, fpaMap cam g.1 g.2 z = some px → T g.1 g.2 ≤ z + c * (dist.getD 5 / 2 + Real.sqrt 2 * (1 / 50 / m)) + δ := by
  have hne : pxs ≠ [] := by
    rintro rfl
    cases seeA
    obtain ⟨k, a, b, h1, -⟩ := hslant
    simp at h1
  have one : ∀ z gs, z = A ∨ z = B → List.Forall₂ (fun px (g : ℝ × ℝ) => apart centre g ≤ ρ ∧ fpaMap cam g.1 g.2 z = some px) pxs gs →
      ∃ es, solverR L.r (fpaMapR L t1 t2 cam w ph k) centre eps n z (1 / 100) 1000 (pxs.map (fun px => ⟨z, px.1, px.2⟩)) = .ok es ∧ List.Forall₂ (Found (1 / 50 / m)) gs es := by
    intro z gs hz hs
    obtain ⟨es, e1, -, e3⟩ := C181_solver h t1 t2 cam w ph k hcm hpx hpy hnx hny hsx hsy centre hρ hR hLd hm0 hm hM hM6 hfar hbig hH hφ hΔ2 hΔ hc1 hc2 (fun z => z = A ∨ z = B)
      hbd hS hd (pxs.map (fun px => ⟨z, px.1, px.2⟩)) (by simpa using hne) gs (by
        rw [List.forall₂_map_left_iff]
        exact hs.imp (fun px g hh => ⟨hz, hh.1, hh.2⟩)) z hz eps n he
    exact ⟨es, e1, e3⟩
  obtain ⟨esA, sA, fA⟩ := one A gA (Or.inl rfl) seeA
  obtain ⟨esB, sB, fB⟩ := one B gB (Or.inr rfl) seeB
  have hBA : B < A := by rw [hA, hB]; unfold searchTop searchBottom; linarith
  have read : ∀ (gs : List (ℝ × ℝ)) (es : List (Est ℝ)), List.Forall₂ (Found (1 / 50 / m)) gs es → es = (List.range es.length).map (fun k => some ((es.getD k none).getD (0, 0))) := by
    intro gs es hfe
    refine List.ext_getElem (by simp) ?_
    intro i h1 h2
    have hi : i < gs.length := by rw [hfe.length_eq]; exact h1
    obtain ⟨p, hp, -⟩ := List.Forall₂.get hfe hi h1
    have hp' : es[i] = some p := hp
    simp [hp', h1]
  let ground : ℝ → Nat → ℝ × ℝ := fun z k => (((if z = A then esA else esB).getD k none).getD (0, 0))
  have gA' : ∀ k, ground A k = (esA.getD k none).getD (0, 0) := fun k => by simp only [ground, if_pos]
  have gB' : ∀ k, ground B k = (esB.getD k none).getD (0, 0) := fun k => by simp only [ground, if_neg hBA.ne]
  have lA : esA.length = pxs.length := by rw [← fA.length_eq, ← seeA.length_eq]
  have lB : esB.length = pxs.length := by rw [← fB.length_eq, ← seeB.length_eq]
  refine ⟨ground, ?_, ?_⟩
  · rintro z (rfl | rfl)
    · rw [sA, read _ _ fA, lA]
      simp only [gA']
    · rw [sB, read _ _ fB, lB]
      simp only [gB']
  · exact C192_camera cam hpx.ne' hpy.ne' hf (by rw [hcm]; exact C24_rotation _ _ _ "rpy" (by decide)) E T c δ hc hG hδ demHi demLo dist hi lo hdist hrange hE A B hA hB habove
      (1 / 50 / m) pxs gA gB esA esB (seeA.imp (fun _ _ hh => hh.2)) (seeB.imp (fun _ _ hh => hh.2)) fA fB hslant ground
      (fun k p hp => by rw [gA', List.getD_eq_getElem?_getD, hp]; rfl) (fun k p hp => by rw [gB', List.getD_eq_getElem?_getD, hp]; rfl)

open FloatGeom FloatSpectral in
/-- Beside `C192_double`: a camera 1000 m above the ground looking down on a slope that rises from 0 m to 100 m, 50 mm lens, 5 micron pixels; two pixels. -/
example : ∃ (cam : Fpa) (T : ℝ → ℝ → ℝ) (ground : ℝ → Nat → ℝ × ℝ) (hits : List (Hit ℝ)),
    cam = ⟨⟨![0, 0, 1000], 1 / 20, Rotation.createM 0 0 0 "rpy"⟩, 1 / 200000, 1 / 200000, 1000, 1000, false, true⟩ ∧ T = (fun u _ => max (min (u / 2) 100) 0) ∧
    (∀ z, z = 101 ∨ z = -1 → solverR lib64.r (fpaMapR lib64 (fun _ _ => .mul 0) (fun _ _ => .mul 0) cam 0 0 0) (0, 0) (1 / 2 ^ 52) 1074 z (1 / 100) 1000
      [⟨z, 800, 1100⟩, ⟨z, 500, 250⟩] = .ok [some (ground z 0), some (ground z 1)]) ∧
    pixelToLonLatAlt T 100 0 ground 2 none none none = .ok hits ∧
    ∃ lon lat alt, hits[0]? = some (some (lon, lat, alt)) ∧ |T lon lat - alt| ≤ 5 / 4 ∧ ∃ g : ℝ × ℝ, fpaMap cam g.1 g.2 alt = some (800, 1100) ∧ apart (lon, lat) g ≤ 1 / 450 := by
  have g : lib64.Good (1 / 2 ^ 52) := by
    have g := lib64_good
    have w : ∀ x : ℝ, (1 / 2 ^ 53 : ℝ) * |x| ≤ 1 / 2 ^ 52 * |x| := fun x => mul_le_mul_of_nonneg_right (by norm_num) (abs_nonneg x)
    exact ⟨fun x => (g.arith x).trans (w _), fun x => (g.sin x).trans (w _), fun x => (g.cos x).trans (w _), fun x a b => (g.arcsin x a b).trans (w _),
      fun x a b => (g.arccos x a b).trans (w _)⟩
  have e1 : Rotation.createM 0 0 0 "rpy" = 1 := by
    simp only [Rotation.createM, if_true]
    ext i j
    fin_cases i <;> fin_cases j <;> simp [Rotation.mRpy]
  let c : Fpa := ⟨⟨![0, 0, 1000], 1 / 20, Rotation.createM 0 0 0 "rpy"⟩, 1 / 200000, 1 / 200000, 1000, 1000, false, true⟩
  have hcm : c.cam.m = 1 := e1
  have e2 : c.cam.pos 2 = 1000 := rfl
  have z : ∀ i j : Fin 3, i ≠ j → (1 : Rotation.M3) i j = 0 := fun i j h => Matrix.one_apply_ne h
  have o : ∀ i : Fin 3, (1 : Rotation.M3) i i = 1 := fun i => Matrix.one_apply_eq i
  have hn : ∀ alt, (fpaProjective c).n alt = (-10000, 0, 0) ∧ (fpaProjective c).k alt = (0, 10000, 0) ∧ (fpaProjective c).w alt = (0, 0, alt - 1000) := by
    intro alt
    simp only [fpaProjective, hcm, z 0 1 (by decide), z 0 2 (by decide), z 1 0 (by decide), z 1 2 (by decide), z 2 0 (by decide), z 2 1 (by decide), o]
    have e0 : c.cam.pos 0 = 0 := rfl
    have e1 : c.cam.pos 1 = 0 := rfl
    rw [e0, e1, e2]
    refine ⟨?_, ?_, ?_⟩ <;> norm_num [c]
  have hB : ∀ alt : ℝ, alt = 101 ∨ alt = -1 → (fpaProjective c).Bounded (0, 0) 204 10000 0 899 0 alt := by
    intro alt ha
    obtain ⟨h1, h2, h3⟩ := hn alt
    refine ⟨by norm_num, ?_, ?_, ?_, ?_, ?_, ?_⟩
    · intro p _
      rw [h3]
      rcases ha with rfl | rfl <;> norm_num [affineAt]
    · rw [h3]; norm_num
    · rw [h1]; norm_num
    · rw [h2]; norm_num
    · rw [h1]; norm_num [affineAt]
    · rw [h2]; norm_num [affineAt]
  have hT : ∀ alt : ℝ, alt = 101 ∨ alt = -1 → ((fpaProjective c).tangent (0, 0)).a alt = 10000 / (1000 - alt) ∧ ((fpaProjective c).tangent (0, 0)).b alt = 0 ∧
      ((fpaProjective c).tangent (0, 0)).d alt = 0 ∧ ((fpaProjective c).tangent (0, 0)).e alt = -(10000 / (1000 - alt)) := by
    intro alt ha
    obtain ⟨h1, h2, h3⟩ := hn alt
    simp only [Projective.tangent, h1, h2, h3, slopes]
    rcases ha with rfl | rfl <;> refine ⟨?_, ?_, ?_, ?_⟩ <;> norm_num [affineAt]
  have hpix : ∀ x y alt : ℝ, alt < 1000 → fpaMap c x y alt = some (500 + -10000 * x / (alt - 1000), 500 + 10000 * y / (alt - 1000)) := by
    intro x y alt ha
    rw [C173_fpa c (by norm_num [c]) (by norm_num [c]) x y alt]
    obtain ⟨h1, h2, h3⟩ := hn alt
    unfold Projective.map
    have hne : alt - 1000 ≠ 0 := by linarith
    rw [h1, h2, h3, if_neg (by simpa [affineAt] using hne)]
    simp only [affineAt, fpaProjective, c, Option.some.injEq, Prod.mk.injEq]
    constructor <;> norm_num
  have hbig : (3 : ℝ) ≤ 1 / 2 ^ 52 * 2 ^ 1074 := by
    have h : (1 : ℝ) ≤ 2 ^ 1020 := one_le_pow₀ (by norm_num)
    rw [show 1074 = 54 + 1020 by norm_num, pow_add, ← mul_assoc]
    generalize (2 : ℝ) ^ 1020 = z at h
    norm_num
    linarith
  obtain ⟨ground, hs, hits, h1, -, h3⟩ := C192_double g (fun _ _ => .mul 0) (fun _ _ => .mul 0) c 0 0 0 rfl (by norm_num [c]) (by norm_num [c]) (by norm_num [c]) (by norm_num [c])
    (by norm_num [c]) (by rw [abs_of_nonneg (by norm_num [c])]; norm_num [c]) (by rw [abs_of_nonneg (by norm_num [c])]; norm_num [c])
    (ρ := 100) (Δ := 3) (R := 204) (N := 10000) (ν := 0) (d := 899) (Q := 0) (m := 9) (M := 12) (S := 0) (H := 1000) (0, 0) (by norm_num) (by norm_num) (by norm_num)
    (by norm_num) (by norm_num) (by norm_num) (by norm_num) (by norm_num) (by norm_num) (by norm_num) (by norm_num) (by norm_num) (by norm_num) (by norm_num) (by norm_num)
    (fun u _ => max (min (u / 2) 100) 0) (fun u _ => max (min (u / 2) 100) 0) (1 / 2) 0 (by norm_num) (by
      intro p q
      simp only []
      have h1 : |p.1 - q.1| ≤ horizontalLen (p, q) := by
        unfold horizontalLen
        exact Real.abs_le_sqrt (by nlinarith [sq_nonneg (p.2 - q.2)])
      have h2 : |max (min (p.1 / 2) 100) 0 - max (min (q.1 / 2) 100) 0| ≤ |p.1 / 2 - q.1 / 2| :=
        (abs_max_sub_max_le_abs (min (p.1 / 2) 100) (min (q.1 / 2) 100) 0).trans (abs_inf_sub_inf_le_abs (p.1 / 2) (q.1 / 2) 100)
      have h3 : |p.1 / 2 - q.1 / 2| = 1 / 2 * |p.1 - q.1| := by rw [show p.1 / 2 - q.1 / 2 = 1 / 2 * (p.1 - q.1) by ring, abs_mul]; norm_num
      calc _ ≤ |p.1 / 2 - q.1 / 2| := h2
        _ = 1 / 2 * |p.1 - q.1| := h3
        _ ≤ _ := by linarith) (by intro u v; simp) 100 0 none none none (by norm_num) (by norm_num)
    (by intro u v; constructor
        · exact le_max_right _ _
        · exact max_le (min_le_right _ _) (by norm_num)) 101 (-1) (by norm_num [searchTop]) (by norm_num [searchBottom]) (by rw [e2]; norm_num) hB
    (by
      intro alt ha
      obtain ⟨t1, t2, t3, t4⟩ := hT alt ha
      have hs : 9 ≤ 10000 / (1000 - alt) ∧ 10000 / (1000 - alt) ≤ 12 := by rcases ha with rfl | rfl <;> norm_num
      have hpos : |10000 / (1000 - alt)| = 10000 / (1000 - alt) := abs_of_pos (by linarith [hs.1])
      refine ⟨⟨?_, ?_, ?_⟩, ?_⟩
      · intro u v
        rw [t1, t2, t3, t4]
        rw [show (10000 / (1000 - alt) * u + 0 * v : ℝ) = 10000 / (1000 - alt) * u by ring, show (0 * u + -(10000 / (1000 - alt)) * v : ℝ) = -(10000 / (1000 - alt) * v) by ring,
          abs_neg, abs_mul, abs_mul, hpos, ← mul_max_of_nonneg _ _ (by linarith [hs.1])]
        exact mul_le_mul_of_nonneg_right hs.1 ((abs_nonneg _).trans (le_max_left _ _))
      · rw [t1, t2, hpos]; norm_num; exact hs.2
      · rw [t3, t4, abs_neg, hpos]; norm_num; exact hs.2
      · rw [t1, hpos]; linarith [hs.1])
    (by
      intro alt p ha hp
      rw [camFrame_apply, hcm, z 2 0 (by decide), z 2 1 (by decide), o]
      have hp1 : |p.1 - 0| ≤ 204 := (le_max_left _ _).trans hp
      have hp2 : |p.2 - 0| ≤ 204 := (le_max_right _ _).trans hp
      unfold dist1
      have e3 : c.cam.pos 0 = 0 := rfl
      have e4 : c.cam.pos 1 = 0 := rfl
      simp only [e2, e3, e4, Matrix.cons_val_zero, Matrix.cons_val_one, Matrix.cons_val]
      rcases ha with rfl | rfl <;> norm_num <;> norm_num at hp1 hp2 <;> linarith)
    [(800, 1100), (500, 250)] [(26.97, -53.94), (0, 22.475)] [(30.03, -60.06), (0, 25.025)]
    (.cons ⟨by norm_num [apart], by rw [hpix _ _ _ (by norm_num)]; norm_num⟩ (.cons ⟨by norm_num [apart], by rw [hpix _ _ _ (by norm_num)]; norm_num⟩ .nil))
    (.cons ⟨by norm_num [apart], by rw [hpix _ _ _ (by norm_num)]; norm_num⟩ (.cons ⟨by norm_num [apart], by rw [hpix _ _ _ (by norm_num)]; norm_num⟩ .nil))
    ⟨0, (26.97, -53.94), (30.03, -60.06), rfl, rfl, by norm_num [apart]⟩ (1 / 2 ^ 52) 1074 ⟨by norm_num, by norm_num, hbig⟩
  obtain ⟨lon, lat, alt, hh, -, -, hg, hT', -⟩ := h3 0 (800, 1100) rfl
  refine ⟨c, _, ground, hits, rfl, rfl, ?_, h1, lon, lat, alt, hh, hT'.trans (by norm_num), ?_⟩
  · intro z hz
    exact hs z hz
  · obtain ⟨g, hg1, hg2⟩ := hg
    exact ⟨g, hg1, hg2.trans (by norm_num)⟩

end Verif.PointCalc
