import Verif.Props.PointCalc

/-! C173: the pixel-to-world solver finds the ground point for every sensor that is close to affine near it. -/

set_option linter.unusedSectionVars false

namespace Verif.PointCalc
open Verif ImageUtils

variable {K : Type} [Field K] [LinearOrder K] [IsStrictOrderedRing K]

/-! ### Specification -/

/-- The distance between two ground positions: the larger of the two coordinate differences. -/
def apart (p q : K × K) : K := max |p.1 - q.1| |p.2 - q.2|

/-- At altitude `alt` and on the positions `D`, the sensor is affine with the coefficients of `S` up to a slope of `L` pixels per ground unit and up to a
constant error of `η` pixels (the precision with which positions are projected). -/
def CloseTo (f : K → K → K → Option (K × K)) (S : Affine K) (alt : K) (D : K × K → Prop) (L η : K) : Prop :=
  ∀ p q, D p → D q → ∃ P Q, f p.1 p.2 alt = some P ∧ f q.1 q.2 alt = some Q ∧
    |(P.1 - Q.1) - (S.a alt * (p.1 - q.1) + S.b alt * (p.2 - q.2))| ≤ L * apart p q + η ∧
    |(P.2 - Q.2) - (S.d alt * (p.1 - q.1) + S.e alt * (p.2 - q.2))| ≤ L * apart p q + η

/-- The affine sensor moves the image of a point by at least `m` pixels per ground unit in one of the two coordinates, and by at most `M` in both. -/
structure Resolves (S : Affine K) (alt m M : K) : Prop where
  least : ∀ u v : K, m * max |u| |v| ≤ max |S.a alt * u + S.b alt * v| |S.d alt * u + S.e alt * v|
  most1 : |S.a alt| + |S.b alt| ≤ M
  most2 : |S.d alt| + |S.e alt| ≤ M

/-- The position projects onto the target up to `η` pixels. -/
def Sees (f : K → K → K → Option (K × K)) (η : K) (t : Target K) (p : K × K) : Prop :=
  ∃ P, f p.1 p.2 t.alt = some P ∧ |t.x - P.1| ≤ η ∧ |t.y - P.2| ≤ η

/-! ### One step -/

theorem apart_nonneg (p q : K × K) : 0 ≤ apart p q := le_max_of_le_left (abs_nonneg _)

theorem apart_symm (p q : K × K) : apart p q = apart q p := by
  unfold apart
  rw [abs_sub_comm p.1, abs_sub_comm p.2]

theorem apart_tri (p q s : K × K) : apart p s ≤ apart p q + apart q s := by
  unfold apart
  apply max_le
  · have h : |p.1 - s.1| ≤ |p.1 - q.1| + |q.1 - s.1| := abs_sub_le _ _ _
    exact h.trans (add_le_add (le_max_left _ _) (le_max_left _ _))
  · have h : |p.2 - s.2| ≤ |p.2 - q.2| + |q.2 - s.2| := abs_sub_le _ _ _
    exact h.trans (add_le_add (le_max_right _ _) (le_max_right _ _))

theorem apart_shift1 (p : K × K) (d : K) : apart (p.1 + d, p.2) p = |d| := by
  simp [apart]

theorem apart_shift2 (p : K × K) (d : K) : apart (p.1, p.2 + d) p = |d| := by
  simp [apart]

theorem slope_err {x δ a L η : K} (hδ : δ ≠ 0) {L' : K} (hL : L + η / |δ| ≤ L') (h : |x - a * δ| ≤ L * |δ| + η) : |x / δ - a| ≤ L' := by
  have hp : 0 < |δ| := abs_pos.mpr hδ
  have e : x / δ - a = (x - a * δ) / δ := by field_simp
  rw [e, abs_div]
  refine le_trans ?_ hL
  rw [div_le_iff₀ hp]
  have : (L + η / |δ|) * |δ| = L * |δ| + η := by field_simp
  rw [this]
  exact h

/-- A linear combination with coefficients at most `L` in size. -/
theorem comb_le {x y u v L r : K} (hx : |x| ≤ L) (hy : |y| ≤ L) (hu : |u| ≤ r) (hv : |v| ≤ r) : |x * u + y * v| ≤ 2 * L * r := by
  have hL : 0 ≤ L := (abs_nonneg _).trans hx
  have h1 : |x * u| ≤ L * r := by rw [abs_mul]; exact mul_le_mul hx hu (abs_nonneg _) hL
  have h2 : |y * v| ≤ L * r := by rw [abs_mul]; exact mul_le_mul hy hv (abs_nonneg _) hL
  have := abs_add_le (x * u) (y * v)
  linarith

/-- A matrix within `L` of one that stretches by `m` stretches by `m - 2 L`. -/
theorem stretch {S : Affine K} {alt m M L a b d e : K} (hS : Resolves S alt m M) (ha : |a - S.a alt| ≤ L) (hb : |b - S.b alt| ≤ L)
    (hd : |d - S.d alt| ≤ L) (he : |e - S.e alt| ≤ L) (u v r : K) (h1 : |a * u + b * v| ≤ r) (h2 : |d * u + e * v| ≤ r) :
    (m - 2 * L) * max |u| |v| ≤ r := by
  have hl := hS.least u v
  have b1 := comb_le ha hb (le_max_left |u| |v|) (le_max_right |u| |v|)
  have b2 := comb_le hd he (le_max_left |u| |v|) (le_max_right |u| |v|)
  have g1 : |S.a alt * u + S.b alt * v| ≤ r + 2 * L * max |u| |v| := by
    have e : S.a alt * u + S.b alt * v = (a * u + b * v) - ((a - S.a alt) * u + (b - S.b alt) * v) := by ring
    rw [e]
    have := abs_sub (a * u + b * v) ((a - S.a alt) * u + (b - S.b alt) * v)
    linarith
  have g2 : |S.d alt * u + S.e alt * v| ≤ r + 2 * L * max |u| |v| := by
    have e' : S.d alt * u + S.e alt * v = (d * u + e * v) - ((d - S.d alt) * u + (e - S.e alt) * v) := by ring
    rw [e']
    have := abs_sub (d * u + e * v) ((d - S.d alt) * u + (e - S.e alt) * v)
    linarith
  have := hl.trans (max_le g1 g2)
  linarith

/-- One update brings the estimate closer to the ground point. -/
theorem step_closer {f : K → K → K → Option (K × K)} {S : Affine K} {t : Target K} {D : K × K → Prop} {L L' η m M : K} {g p : K × K} {dLon dLat : K}
    (hf : CloseTo f S t.alt D L η) (hS : Resolves S t.alt m M) (hg : D g) (hp : D p) (h1 : D (p.1 + dLon, p.2)) (h2 : D (p.1, p.2 + dLat))
    (hs : Sees f η t g) (hL : L ≤ L') (hLon : dLon ≠ 0) (hLat : dLat ≠ 0) (e1 : L + η / |dLon| ≤ L') (e2 : L + η / |dLat| ≤ L') (ha : L' < |S.a t.alt|) (hm : 2 * L' < m) :
    ∃ p', newtonStep f dLon dLat t.alt t.x t.y (some p) = some p' ∧ (m - 2 * L') * apart p' g ≤ 3 * L' * apart p g + 2 * η := by
  obtain ⟨P1, Q1, hP1, hQ1, x1, y1⟩ := hf _ _ h1 hp
  obtain ⟨P2, Q2, hP2, hQ2, x2, y2⟩ := hf _ _ h2 hp
  obtain ⟨P0, G, hP0, hG, x0, y0⟩ := hf _ _ hp hg
  obtain ⟨G', hG', tx, ty⟩ := hs
  rw [hG] at hG'
  cases hG'
  rw [hP0] at hQ1 hQ2
  have q1 := Option.some.inj hQ1
  have q2 := Option.some.inj hQ2
  subst q1
  subst q2
  rw [apart_shift1] at x1 y1
  rw [apart_shift2] at x2 y2
  simp only [add_sub_cancel_left, sub_self, mul_zero, add_zero, zero_add] at x1 x2 y1 y2
  have A := slope_err hLon e1 x1
  have Dd := slope_err hLon e1 y1
  have B := slope_err hLat e2 x2
  have E := slope_err hLat e2 y2
  set pxx := (P1.1 - P0.1) / dLon with hpxx
  set pyx := (P1.2 - P0.2) / dLon with hpyx
  set pxy := (P2.1 - P0.1) / dLat with hpxy
  set pyy := (P2.2 - P0.2) / dLat with hpyy
  have hxx : pxx ≠ 0 := by
    intro h0
    rw [h0, zero_sub, abs_neg] at A
    exact absurd A (not_le.mpr ha)
  have hdet : pyy * pxx - pxy * pyx ≠ 0 := by
    intro h0
    have := stretch hS A B Dd E (-pxy) pxx 0 (by rw [show pxx * -pxy + pxy * pxx = 0 by ring, abs_zero])
      (by rw [show pyx * -pxy + pyy * pxx = pyy * pxx - pxy * pyx by ring, h0, abs_zero])
    have h3 : 0 < max |(-pxy)| |pxx| := lt_max_of_lt_right (abs_pos.mpr hxx)
    have := mul_pos (show 0 < m - 2 * L' by linarith) h3
    linarith
  refine ⟨(p.1 + ((t.x - P0.1) - ((t.y - P0.2) * pxx - pyx * (t.x - P0.1)) / (pyy * pxx - pxy * pyx) * pxy) / pxx,
    p.2 + ((t.y - P0.2) * pxx - pyx * (t.x - P0.1)) / (pyy * pxx - pxy * pyx)), ?_, ?_⟩
  · simp only [newtonStep, Option.bind_eq_bind, Option.bind_some, hP0, hP1, hP2, fdiv, if_neg hLon, if_neg hLat]
    simp only [← hpxx, ← hpxy, ← hpyx, ← hpyy, if_neg hxx, if_neg hdet, Option.bind_some]
  · set c := ((t.y - P0.2) * pxx - pyx * (t.x - P0.1)) / (pyy * pxx - pxy * pyx) with hc
    set w := ((t.x - P0.1) - c * pxy) / pxx with hw
    have s1 : pxx * w + pxy * c = t.x - P0.1 := by
      rw [hw]; field_simp; ring
    have s2 : pyx * w + pyy * c = t.y - P0.2 := by
      rw [hw, hc]; exact solve_second pxx pxy pyx pyy _ _ _ hxx hdet rfl
    have r1 : |pxx * (p.1 + w - g.1) + pxy * (p.2 + c - g.2)| ≤ 3 * L' * apart p g + 2 * η := by
      have e : pxx * (p.1 + w - g.1) + pxy * (p.2 + c - g.2) = ((pxx - S.a t.alt) * (p.1 - g.1) + (pxy - S.b t.alt) * (p.2 - g.2)) +
          ((t.x - G.1) - ((P0.1 - G.1) - (S.a t.alt * (p.1 - g.1) + S.b t.alt * (p.2 - g.2)))) := by
        linear_combination s1
      rw [e]
      have a1 := comb_le A B (le_max_left |p.1 - g.1| |p.2 - g.2|) (le_max_right |p.1 - g.1| |p.2 - g.2|)
      have a2 := abs_sub (t.x - G.1) ((P0.1 - G.1) - (S.a t.alt * (p.1 - g.1) + S.b t.alt * (p.2 - g.2)))
      have a3 := abs_add_le ((pxx - S.a t.alt) * (p.1 - g.1) + (pxy - S.b t.alt) * (p.2 - g.2))
        ((t.x - G.1) - ((P0.1 - G.1) - (S.a t.alt * (p.1 - g.1) + S.b t.alt * (p.2 - g.2))))
      have a4 := mul_le_mul_of_nonneg_right hL (apart_nonneg p g)
      change |_| ≤ 2 * L' * apart p g at a1
      linarith
    have r2 : |pyx * (p.1 + w - g.1) + pyy * (p.2 + c - g.2)| ≤ 3 * L' * apart p g + 2 * η := by
      have e : pyx * (p.1 + w - g.1) + pyy * (p.2 + c - g.2) = ((pyx - S.d t.alt) * (p.1 - g.1) + (pyy - S.e t.alt) * (p.2 - g.2)) +
          ((t.y - G.2) - ((P0.2 - G.2) - (S.d t.alt * (p.1 - g.1) + S.e t.alt * (p.2 - g.2)))) := by
        linear_combination s2
      rw [e]
      have a1 := comb_le Dd E (le_max_left |p.1 - g.1| |p.2 - g.2|) (le_max_right |p.1 - g.1| |p.2 - g.2|)
      have a2 := abs_sub (t.y - G.2) ((P0.2 - G.2) - (S.d t.alt * (p.1 - g.1) + S.e t.alt * (p.2 - g.2)))
      have a3 := abs_add_le ((pyx - S.d t.alt) * (p.1 - g.1) + (pyy - S.e t.alt) * (p.2 - g.2))
        ((t.y - G.2) - ((P0.2 - G.2) - (S.d t.alt * (p.1 - g.1) + S.e t.alt * (p.2 - g.2))))
      have a4 := mul_le_mul_of_nonneg_right hL (apart_nonneg p g)
      change |_| ≤ 2 * L' * apart p g at a1
      linarith
    exact stretch hS A B Dd E _ _ _ r1 r2

/-! ### The iteration -/

/-- What is known of a request: on the positions within `R` of the ground point `g` the sensor is close to the affine one, which resolves, and `g` is seen at the
target. -/
structure Request (f : K → K → K → Option (K × K)) (S : Affine K) (L L' η m M R : K) (t : Target K) (g : K × K) : Prop where
  close : CloseTo f S t.alt (fun p => apart p g ≤ R) L η
  resolves : Resolves S t.alt m M
  steep : L' < |S.a t.alt|
  sees : Sees f η t g

/-- The estimate is a number within `r` of the ground point. -/
def Found (r : K) (g : K × K) (e : Option (K × K)) : Prop := ∃ p, e = some p ∧ apart p g ≤ r

theorem Found.mono {r r' : K} (h : r ≤ r') {g : K × K} {e : Option (K × K)} : Found r g e → Found r' g e := fun ⟨p, h1, h2⟩ => ⟨p, h1, h2.trans h⟩

section loop
variable {f : K → K → K → Option (K × K)} {S : Affine K} {L L' η m M ρ Δ dLon dLat : K}

theorem step_all (hLon : dLon ≠ 0) (hLat : dLat ≠ 0) (b1 : |dLon| ≤ Δ) (b2 : |dLat| ≤ Δ) (hL : L ≤ L')
    (e1 : L + η / |dLon| ≤ L') (e2 : L + η / |dLat| ≤ L') (hL0 : 0 ≤ L') (hm : 5 * L' < m) (r : K) (hr : r ≤ ρ) (hρ : 0 ≤ ρ) :
    ∀ (ts : List (Target K)) (gs : List (K × K)) (es : List (Option (K × K))), List.Forall₂ (Request f S L L' η m M (ρ + Δ)) ts gs →
      List.Forall₂ (Found r) gs es →
      List.Forall₂ (Found (3 * L' / (m - 2 * L') * r + 2 * η / (m - 2 * L'))) gs (List.zipWith (fun t e => newtonStep f dLon dLat t.alt t.x t.y e) ts es) := by
  intro ts gs es h
  induction h generalizing es with
  | nil => intro h; cases h; exact .nil
  | @cons t g ts gs ht _ ih =>
    intro h
    cases h with
    | @cons _ e _ es he hes =>
      refine .cons ?_ (ih es hes)
      obtain ⟨p, rfl, hp⟩ := he
      have hΔ : 0 ≤ Δ := (abs_nonneg _).trans b1
      have hpos : 0 < m - 2 * L' := by linarith
      obtain ⟨p', hp', hc⟩ := step_closer (p := p) ht.close ht.resolves (show apart g g ≤ ρ + Δ by simp [apart]; linarith)
        (show apart p g ≤ ρ + Δ by linarith)
        (show apart (p.1 + dLon, p.2) g ≤ ρ + Δ by have := apart_tri (p.1 + dLon, p.2) p g; rw [apart_shift1] at this; linarith)
        (show apart (p.1, p.2 + dLat) g ≤ ρ + Δ by have := apart_tri (p.1, p.2 + dLat) p g; rw [apart_shift2] at this; linarith)
        ht.sees hL hLon hLat e1 e2 ht.steep (by linarith)
      refine ⟨p', hp', ?_⟩
      have h2 : 3 * L' * apart p g ≤ 3 * L' * r := mul_le_mul_of_nonneg_left hp (by linarith)
      have e : 3 * L' / (m - 2 * L') * r + 2 * η / (m - 2 * L') = (3 * L' * r + 2 * η) / (m - 2 * L') := by field_simp
      rw [e, le_div_iff₀ hpos]
      linarith

/-- The error left by the precision of the sensor alone. -/
def floorErr (η m L' : K) : K := 2 * η / (m - 5 * L')

/-- The error after `k` updates, when it was at most `ρ` before. -/
def errAfter (η m L' ρ : K) (k : Nat) : K := floorErr η m L' + (3 * L' / (m - 2 * L')) ^ k * (ρ - floorErr η m L')

theorem errAfter_succ (η m L' ρ : K) (h0 : 0 ≤ L') (hm : 5 * L' < m) (k : Nat) :
    3 * L' / (m - 2 * L') * errAfter η m L' ρ k + 2 * η / (m - 2 * L') = errAfter η m L' ρ (k + 1) := by
  have h1 : m - 2 * L' ≠ 0 := by intro h; linarith
  have h2 : m - 5 * L' ≠ 0 := by intro h; linarith
  unfold errAfter
  rw [pow_succ]
  have : 3 * L' / (m - 2 * L') * floorErr η m L' + 2 * η / (m - 2 * L') = floorErr η m L' := by
    unfold floorErr
    rw [div_mul_div_comm, div_add_div _ _ (mul_ne_zero h1 h2) h1, div_eq_div_iff (mul_ne_zero (mul_ne_zero h1 h2) h1) h2]
    ring
  linear_combination this

theorem rate_bounds (h0 : 0 ≤ L') (hm : 5 * L' < m) : 0 ≤ 3 * L' / (m - 2 * L') ∧ 3 * L' / (m - 2 * L') < 1 := by
  have h1 : 0 < m - 2 * L' := by linarith
  exact ⟨by positivity, by rw [div_lt_one h1]; linarith⟩

theorem errAfter_le (h0 : 0 ≤ L') (hm : 5 * L' < m) (hφ : floorErr η m L' ≤ ρ) (k : Nat) : errAfter η m L' ρ k ≤ ρ := by
  obtain ⟨q0, q1⟩ := rate_bounds h0 hm
  unfold errAfter
  have : (3 * L' / (m - 2 * L')) ^ k * (ρ - floorErr η m L') ≤ 1 * (ρ - floorErr η m L') :=
    mul_le_mul_of_nonneg_right (pow_le_one₀ q0 q1.le) (by linarith)
  linarith

theorem iterate_found (hLon : dLon ≠ 0) (hLat : dLat ≠ 0) (b1 : |dLon| ≤ Δ) (b2 : |dLat| ≤ Δ) (hL : L ≤ L')
    (e1 : L + η / |dLon| ≤ L') (e2 : L + η / |dLat| ≤ L') (hL0 : 0 ≤ L') (hm : 5 * L' < m) (hρ : 0 ≤ ρ) (hφ : floorErr η m L' ≤ ρ)
    (ts : List (Target K)) (gs : List (K × K)) (hreq : List.Forall₂ (Request f S L L' η m M (ρ + Δ)) ts gs) :
    ∀ (k j : Nat) (es : List (Option (K × K))), List.Forall₂ (Found (errAfter η m L' ρ j)) gs es →
      List.Forall₂ (Found (errAfter η m L' ρ (j + k))) gs (iterate f dLon dLat ts k es) := by
  intro k
  induction k with
  | zero => intro j es h; exact h
  | succ k ih =>
    intro j es h
    unfold iterate
    have := step_all hLon hLat b1 b2 hL e1 e2 hL0 hm (errAfter η m L' ρ j) (errAfter_le hL0 hm hφ j) hρ ts gs es hreq h
    rw [errAfter_succ _ _ _ _ hL0 hm] at this
    have := ih (j + 1) _ this
    rwa [show j + 1 + k = j + (k + 1) by omega] at this

/-- The loop's answer is one of the iterates. -/
theorem loop_iterate (thr : K) (ts : List (Target K)) : ∀ (n : Nat) (es : List (Option (K × K))),
    ∃ k, k ≤ n ∧ newtonLoop f dLon dLat thr n ts es = iterate f dLon dLat ts k es := by
  intro n
  induction n with
  | zero => intro es; exact ⟨0, le_rfl, rfl⟩
  | succ n ih =>
    intro es
    unfold newtonLoop
    simp only []
    split
    · exact ⟨1, by omega, rfl⟩
    · obtain ⟨k, hk, e⟩ := ih (List.zipWith (fun t e => newtonStep f dLon dLat t.alt t.x t.y e) ts es)
      exact ⟨k + 1, by omega, e⟩

/-- An estimate near the ground point projects near the target. -/
theorem reprojects_of_found (hΔ : 0 ≤ Δ) (hρ : 0 ≤ ρ) {thr r : K} (hr : r ≤ ρ) (hML : 0 ≤ M + L) (hthr : (M + L) * r + 2 * η ≤ thr) {t : Target K} {g : K × K} {e : Option (K × K)}
    (ht : Request f S L L' η m M (ρ + Δ) t g) (he : Found r g e) : Reprojects f thr t e := by
  obtain ⟨p, rfl, hp⟩ := he
  obtain ⟨P, G, hP, hG, x0, y0⟩ := ht.close p g (show apart p g ≤ ρ + Δ by linarith) (show apart g g ≤ ρ + Δ by simp [apart]; linarith)
  obtain ⟨G', hG', tx, ty⟩ := ht.sees
  rw [hG] at hG'
  cases hG'
  have hb := mul_le_mul_of_nonneg_left hp hML
  have key : ∀ a b : K, |a| + |b| ≤ M → |a * (p.1 - g.1) + b * (p.2 - g.2)| ≤ M * apart p g := by
    intro a b hab
    have h1 : |a * (p.1 - g.1)| ≤ |a| * apart p g := by rw [abs_mul]; exact mul_le_mul_of_nonneg_left (le_max_left _ _) (abs_nonneg _)
    have h2 : |b * (p.2 - g.2)| ≤ |b| * apart p g := by rw [abs_mul]; exact mul_le_mul_of_nonneg_left (le_max_right _ _) (abs_nonneg _)
    have h3 := mul_le_mul_of_nonneg_right hab (apart_nonneg p g)
    have := abs_add_le (a * (p.1 - g.1)) (b * (p.2 - g.2))
    linarith
  have k1 := key _ _ ht.resolves.most1
  have k2 := key _ _ ht.resolves.most2
  refine ⟨p.1, p.2, P.1, P.2, rfl, hP, ?_, ?_⟩
  · have e : t.x - P.1 = (t.x - G.1) - ((P.1 - G.1) - (S.a t.alt * (p.1 - g.1) + S.b t.alt * (p.2 - g.2))) - (S.a t.alt * (p.1 - g.1) + S.b t.alt * (p.2 - g.2)) := by ring
    rw [e]
    have h1 := abs_sub ((t.x - G.1) - ((P.1 - G.1) - (S.a t.alt * (p.1 - g.1) + S.b t.alt * (p.2 - g.2)))) (S.a t.alt * (p.1 - g.1) + S.b t.alt * (p.2 - g.2))
    have h2 := abs_sub (t.x - G.1) ((P.1 - G.1) - (S.a t.alt * (p.1 - g.1) + S.b t.alt * (p.2 - g.2)))
    linarith
  · have e : t.y - P.2 = (t.y - G.2) - ((P.2 - G.2) - (S.d t.alt * (p.1 - g.1) + S.e t.alt * (p.2 - g.2))) - (S.d t.alt * (p.1 - g.1) + S.e t.alt * (p.2 - g.2)) := by ring
    rw [e]
    have h1 := abs_sub ((t.y - G.2) - ((P.2 - G.2) - (S.d t.alt * (p.1 - g.1) + S.e t.alt * (p.2 - g.2)))) (S.d t.alt * (p.1 - g.1) + S.e t.alt * (p.2 - g.2))
    have h2 := abs_sub (t.y - G.2) ((P.2 - G.2) - (S.d t.alt * (p.1 - g.1) + S.e t.alt * (p.2 - g.2)))
    linarith

/-- An estimate in the region that projects near the target is near the ground point. -/
theorem found_of_reprojects (hΔ : 0 ≤ Δ) (hρ : 0 ≤ ρ) {thr : K} (hmL : L < m) {t : Target K} {g : K × K} {e : Option (K × K)}
    (ht : Request f S L L' η m M (ρ + Δ) t g) (he : Found ρ g e) (hr : Reprojects f thr t e) : Found ((thr + 2 * η) / (m - L)) g e := by
  obtain ⟨p, rfl, hp⟩ := he
  obtain ⟨lon, lat, x, y, hpe, hf, hx, hy⟩ := hr
  cases hpe
  obtain ⟨P, G, hP, hG, x0, y0⟩ := ht.close (lon, lat) g (show apart (lon, lat) g ≤ ρ + Δ by linarith) (show apart g g ≤ ρ + Δ by simp [apart]; linarith)
  obtain ⟨G', hG', tx, ty⟩ := ht.sees
  rw [hG] at hG'
  cases hG'
  rw [hf] at hP
  cases hP
  refine ⟨(lon, lat), rfl, ?_⟩
  rw [le_div_iff₀ (by linarith)]
  simp only [] at x0 y0
  have hl := ht.resolves.least (lon - g.1) (lat - g.2)
  have g1 : |S.a t.alt * (lon - g.1) + S.b t.alt * (lat - g.2)| ≤ thr + 2 * η + L * apart (lon, lat) g := by
    have e : S.a t.alt * (lon - g.1) + S.b t.alt * (lat - g.2) = (t.x - G.1) - (t.x - x) - ((x - G.1) - (S.a t.alt * (lon - g.1) + S.b t.alt * (lat - g.2))) := by ring
    have h1 := abs_sub ((t.x - G.1) - (t.x - x)) ((x - G.1) - (S.a t.alt * (lon - g.1) + S.b t.alt * (lat - g.2)))
    have h2 := abs_sub (t.x - G.1) (t.x - x)
    rw [← e] at h1
    linarith
  have g2 : |S.d t.alt * (lon - g.1) + S.e t.alt * (lat - g.2)| ≤ thr + 2 * η + L * apart (lon, lat) g := by
    have e : S.d t.alt * (lon - g.1) + S.e t.alt * (lat - g.2) = (t.y - G.2) - (t.y - y) - ((y - G.2) - (S.d t.alt * (lon - g.1) + S.e t.alt * (lat - g.2))) := by ring
    have h1 := abs_sub ((t.y - G.2) - (t.y - y)) ((y - G.2) - (S.d t.alt * (lon - g.1) + S.e t.alt * (lat - g.2)))
    have h2 := abs_sub (t.y - G.2) (t.y - y)
    rw [← e] at h1
    linarith
  have := hl.trans (max_le g1 g2)
  change m * apart (lon, lat) g ≤ _ at this
  linarith

/-- C173 for steps that are given: the solver's answers project within the threshold of the requested pixels and lie close to the ground points seen there. -/
theorem C173_given_deltas (hη : 0 ≤ η) (hL0 : 0 ≤ L) (hL : L ≤ L') (hm : 5 * L' < m) (hLon : dLon ≠ 0) (hLat : dLat ≠ 0) (b1 : |dLon| ≤ Δ) (b2 : |dLat| ≤ Δ)
    (e1 : L + η / |dLon| ≤ L') (e2 : L + η / |dLat| ≤ L') (hρ : 0 ≤ ρ) (hφ : floorErr η m L' ≤ ρ) (ts : List (Target K)) (gs : List (K × K))
    (hreq : List.Forall₂ (Request f S L L' η m M (ρ + Δ)) ts gs) (centre : K × K) (hc : ∀ g ∈ gs, apart centre g ≤ ρ) (thr : K) (k maxIter : Nat)
    (hk : 1 ≤ k ∧ k ≤ maxIter) (hthr : (M + L) * errAfter η m L' ρ k + 2 * η ≤ thr) :
    List.Forall₂ (Reprojects f thr) ts (newtonLoop f dLon dLat thr maxIter ts (ts.map (fun _ => some centre))) ∧
    List.Forall₂ (Found ((thr + 2 * η) / (m - L))) gs (newtonLoop f dLon dLat thr maxIter ts (ts.map (fun _ => some centre))) := by
  have hL'0 : 0 ≤ L' := hL0.trans hL
  have hΔ : 0 ≤ Δ := (abs_nonneg _).trans b1
  have hlen := hreq.length_eq
  have start : List.Forall₂ (Found (errAfter η m L' ρ 0)) gs (ts.map (fun _ => some centre)) := by
    have e : errAfter η m L' ρ 0 = ρ := by simp [errAfter]
    rw [e]
    clear hthr
    induction hreq with
    | nil => exact .nil
    | @cons t g ts gs _ _ ih =>
      exact .cons ⟨centre, rfl, hc g (by simp)⟩ (ih (fun g' hg' => hc g' (by simp [hg'])) (by simpa using hlen))
  have it := iterate_found hLon hLat b1 b2 hL e1 e2 hL'0 hm hρ hφ ts gs hreq
  have hres : List.Forall₂ (Reprojects f thr) ts (newtonLoop f dLon dLat thr maxIter ts (ts.map (fun _ => some centre))) := by
    rcases C20_threshold_or_exhausted_partial f dLon dLat thr ts maxIter (ts.map (fun _ => some centre)) (by simp) with h | h
    · exact h.2
    · exfalso
      refine h.2 k hk.1 hk.2 ?_
      have hf := it k 0 _ start
      rw [Nat.zero_add] at hf
      generalize iterate f dLon dLat ts k (ts.map (fun _ => some centre)) = es at hf
      clear it start h hc hlen
      induction hreq generalizing es with
      | nil => cases hf; exact .nil
      | @cons t g ts gs ht _ ih =>
        cases hf with
        | cons h1 h2 =>
          refine .cons ?_ (ih _ h2)
          have hM : 0 ≤ M := le_trans (by positivity) ht.resolves.most1
          exact reprojects_of_found hΔ hρ (errAfter_le hL'0 hm hφ k) (by linarith) hthr ht h1
  refine ⟨hres, ?_⟩
  obtain ⟨j, -, e⟩ := loop_iterate (f := f) (dLon := dLon) (dLat := dLat) thr ts maxIter (ts.map (fun _ => some centre))
  rw [e] at hres ⊢
  have hf := it j 0 _ start
  rw [Nat.zero_add] at hf
  generalize iterate f dLon dLat ts j (ts.map (fun _ => some centre)) = es at hf hres
  clear it start hc hlen e
  induction hreq generalizing es with
  | nil => cases hf; exact .nil
  | @cons t g ts gs ht _ ih =>
    cases hf with
    | cons h1 h2 =>
      cases hres with
      | cons h3 h4 =>
        exact .cons (found_of_reprojects hΔ hρ (by linarith) ht (h1.mono (errAfter_le hL'0 hm hφ j)) h3) (ih _ h2 h4)

/-! ### The whole call -/

theorem findDelta_bounds (move : K → K × K) (h : ∀ d, 0 < d → d ≤ Δ → ¬ ((move d).1 * (move d).1 + (move d).2 * (move d).2 > 1) → d * 2 ≤ Δ) :
    ∀ (n : Nat) (eps : K), 0 < eps → eps ≤ Δ → Δ < eps * 2 ^ n →
      ∃ d, findDelta move eps n = .ok d ∧ 0 < d ∧ d ≤ Δ ∧ (move d).1 * (move d).1 + (move d).2 * (move d).2 > 1 := by
  intro n
  induction n with
  | zero => intro eps h0 h1 h2; rw [pow_zero, mul_one] at h2; exact absurd h1 (not_le.mpr h2)
  | succ n ih =>
    intro eps h0 h1 h2
    unfold findDelta
    by_cases hm : (move eps).1 * (move eps).1 + (move eps).2 * (move eps).2 > 1
    · rw [if_pos hm]
      exact ⟨eps, rfl, h0, h1, hm⟩
    · rw [if_neg hm]
      exact ih (eps * 2) (by linarith) (h eps h0 h1 hm) (by rw [mul_assoc, ← pow_succ']; exact h2)

/-- A shift that moves the image by at most one pixel is short. -/
theorem short_shift {alt : K} (hS : Resolves S alt m M) {x y u v d : K} (hd : max |u| |v| = d) (hx : |x - (S.a alt * u + S.b alt * v)| ≤ L * d + η)
    (hy : |y - (S.d alt * u + S.e alt * v)| ≤ L * d + η) (h : ¬ (x * x + y * y > 1)) : (m - L) * d ≤ 1 + η := by
  have x1 : |x| ≤ 1 := by
    rw [← abs_one, ← sq_le_sq]
    nlinarith [mul_self_nonneg y]
  have y1 : |y| ≤ 1 := by
    rw [← abs_one, ← sq_le_sq]
    nlinarith [mul_self_nonneg x]
  have g1 : |S.a alt * u + S.b alt * v| ≤ 1 + η + L * d := by
    have e : S.a alt * u + S.b alt * v = x - (x - (S.a alt * u + S.b alt * v)) := by ring
    have := abs_sub x (x - (S.a alt * u + S.b alt * v))
    rw [← e] at this
    linarith
  have g2 : |S.d alt * u + S.e alt * v| ≤ 1 + η + L * d := by
    have e : S.d alt * u + S.e alt * v = y - (y - (S.d alt * u + S.e alt * v)) := by ring
    have := abs_sub y (y - (S.d alt * u + S.e alt * v))
    rw [← e] at this
    linarith
  have hl := hS.least u v
  rw [hd] at hl
  have := hl.trans (max_le g1 g2)
  linarith

/-- A shift that moves the image by more than one pixel is not too short. -/
theorem long_shift {alt : K} (hS : Resolves S alt m M) (hη : η ≤ 1 / 5) {x y u v d : K} (hd : max |u| |v| = d) (hx : |x - (S.a alt * u + S.b alt * v)| ≤ L * d + η)
    (hy : |y - (S.d alt * u + S.e alt * v)| ≤ L * d + η) (h : x * x + y * y > 1) : 1 / 2 ≤ (M + L) * d := by
  have key : ∀ a b : K, |a| + |b| ≤ M → |a * u + b * v| ≤ M * d := by
    intro a b hab
    have h1 : |a * u| ≤ |a| * d := by rw [abs_mul, ← hd]; exact mul_le_mul_of_nonneg_left (le_max_left _ _) (abs_nonneg _)
    have h2 : |b * v| ≤ |b| * d := by rw [abs_mul, ← hd]; exact mul_le_mul_of_nonneg_left (le_max_right _ _) (abs_nonneg _)
    have h0 : 0 ≤ d := by rw [← hd]; exact le_max_of_le_left (abs_nonneg _)
    have h3 := mul_le_mul_of_nonneg_right hab h0
    have := abs_add_le (a * u) (b * v)
    linarith
  have x1 : |x| ≤ (M + L) * d + η := by
    have e : x = (x - (S.a alt * u + S.b alt * v)) + (S.a alt * u + S.b alt * v) := by ring
    have := abs_add_le (x - (S.a alt * u + S.b alt * v)) (S.a alt * u + S.b alt * v)
    rw [← e] at this
    have := key _ _ hS.most1
    linarith
  have y1 : |y| ≤ (M + L) * d + η := by
    have e : y = (y - (S.d alt * u + S.e alt * v)) + (S.d alt * u + S.e alt * v) := by ring
    have := abs_add_le (y - (S.d alt * u + S.e alt * v)) (S.d alt * u + S.e alt * v)
    rw [← e] at this
    have := key _ _ hS.most2
    linarith
  by_contra hlt
  push Not at hlt
  have x2 : |x| ≤ 7 / 10 := by linarith
  have y2 : |y| ≤ 7 / 10 := by linarith
  have x3 : x * x ≤ 7 / 10 * (7 / 10) := by rw [← abs_mul_abs_self x]; exact mul_self_le_mul_self (abs_nonneg _) x2
  have y3 : y * y ≤ 7 / 10 * (7 / 10) := by rw [← abs_mul_abs_self y]; exact mul_self_le_mul_self (abs_nonneg _) y2
  norm_num at x3 y3
  linarith

/-- C173: the call with the steps the solver finds itself. -/
theorem C173_converges (hη : 0 ≤ η) (hη5 : η ≤ 1 / 5) (hL0 : 0 ≤ L) (hm : 5 * L' < m) (hL1 : L + 2 * (M + L) * η ≤ L') (hL2 : L + η / 2 ≤ L')
    (hρ : 0 ≤ ρ) (hφ : floorErr η m L' ≤ ρ) (hΔ2 : 2 ≤ Δ) (hΔ : 2 * (1 + η) ≤ (m - L) * Δ) (ts : List (Target K)) (hts : ts ≠ []) (gs : List (K × K))
    (hreq : List.Forall₂ (Request f S L L' η m M (ρ + Δ)) ts gs) (centre : K × K) (hc : ∀ g ∈ gs, apart centre g ≤ ρ) (meanAlt : K)
    (hmean : CloseTo f S meanAlt (fun p => apart p centre ≤ Δ) L η) (hres : Resolves S meanAlt m M) (eps : K) (n : Nat) (he : 0 < eps ∧ eps ≤ Δ ∧ Δ < eps * 2 ^ n)
    (thr : K) (k maxIter : Nat) (hk : 1 ≤ k ∧ k ≤ maxIter) (hthr : (M + L) * errAfter η m L' ρ k + 2 * η ≤ thr) :
    ∃ es, solver f centre eps n meanAlt thr maxIter ts = .ok es ∧ List.Forall₂ (Reprojects f thr) ts es ∧
      List.Forall₂ (Found ((thr + 2 * η) / (m - L))) gs es := by
  have hM : 0 ≤ M := le_trans (by positivity) hres.most1
  have hL : L ≤ L' := by linarith [show 0 ≤ η / 2 by linarith]
  have hmL : 0 < m - L := by linarith
  -- what is needed of the steps
  have main : ∀ dLon dLat : K, 0 < dLon → dLon ≤ Δ → 0 < dLat → dLat ≤ Δ → L + η / dLon ≤ L' → L + η / dLat ≤ L' →
      ∃ es, (if ts = [] ∧ 0 < maxIter then (.error .valueError : Py (List (Est K))) else .ok (newtonLoop f dLon dLat thr maxIter ts (ts.map (fun _ => some centre)))) = .ok es ∧
      List.Forall₂ (Reprojects f thr) ts es ∧ List.Forall₂ (Found ((thr + 2 * η) / (m - L))) gs es := by
    intro dLon dLat p1 b1 p2 b2 e1 e2
    rw [if_neg (fun h => hts h.1)]
    refine ⟨_, rfl, C173_given_deltas hη hL0 hL hm p1.ne' p2.ne' ?_ ?_ ?_ ?_ hρ hφ ts gs hreq centre hc thr k maxIter hk hthr⟩
    · rw [abs_of_pos p1]; exact b1
    · rw [abs_of_pos p2]; exact b2
    · rw [abs_of_pos p1]; exact e1
    · rw [abs_of_pos p2]; exact e2
  have slope : ∀ d : K, 0 < d → 1 / 2 ≤ (M + L) * d → L + η / d ≤ L' := by
    intro d hd h
    refine le_trans ?_ hL1
    have : η / d ≤ 2 * (M + L) * η := by
      rw [div_le_iff₀ hd]
      have := mul_le_mul_of_nonneg_left h (show 0 ≤ 2 * η by linarith)
      linarith
    linarith
  have c0 : apart centre centre ≤ Δ := by simp [apart]; linarith
  obtain ⟨P0, -, hP0, -⟩ := hmean centre centre c0 c0
  have lonShift : ∀ d, 0 < d → d ≤ Δ → ∃ P, f (centre.1 + d) centre.2 meanAlt = some P ∧ |(P.1 - P0.1) - (S.a meanAlt * d + S.b meanAlt * 0)| ≤ L * d + η ∧
      |(P.2 - P0.2) - (S.d meanAlt * d + S.e meanAlt * 0)| ≤ L * d + η := by
    intro d hd h
    have hap : apart (centre.1 + d, centre.2) centre = d := by rw [apart_shift1, abs_of_pos hd]
    obtain ⟨P, Q, hP, hQ, x, y⟩ := hmean (centre.1 + d, centre.2) centre (hap.le.trans h) c0
    rw [hP0] at hQ
    cases hQ
    rw [hap] at x y
    simp only [add_sub_cancel_left, sub_self] at x y
    exact ⟨P, hP, x, y⟩
  have latShift : ∀ d, 0 < d → d ≤ Δ → ∃ P, f centre.1 (centre.2 + d) meanAlt = some P ∧ |(P.1 - P0.1) - (S.a meanAlt * 0 + S.b meanAlt * d)| ≤ L * d + η ∧
      |(P.2 - P0.2) - (S.d meanAlt * 0 + S.e meanAlt * d)| ≤ L * d + η := by
    intro d hd h
    have hap : apart (centre.1, centre.2 + d) centre = d := by rw [apart_shift2, abs_of_pos hd]
    obtain ⟨P, Q, hP, hQ, x, y⟩ := hmean (centre.1, centre.2 + d) centre (hap.le.trans h) c0
    rw [hP0] at hQ
    cases hQ
    rw [hap] at x y
    simp only [add_sub_cancel_left, sub_self] at x y
    exact ⟨P, hP, x, y⟩
  unfold solver
  simp only [hP0, Option.isSome_some, Bool.true_and]
  split
  · have double : ∀ d : K, (m - L) * d ≤ 1 + η → d * 2 ≤ Δ := by
      intro d h
      by_contra hlt
      push Not at hlt
      have := mul_lt_mul_of_pos_left hlt hmL
      linarith
    obtain ⟨a, ha, a0, a1, a2⟩ := findDelta_bounds (Δ := Δ) (fun d => match f (centre.1 + d) centre.2 meanAlt, some P0 with
      | some (x, y), some (x0, y0) => (x - x0, y - y0)
      | _, _ => (0, 0)) (by
        intro d hd h hmv
        obtain ⟨P, hP, x, y⟩ := lonShift d hd h
        simp only [hP] at hmv
        exact double d (short_shift hres (by simp [abs_of_pos hd, hd.le]) x y hmv)) n eps he.1 he.2.1 he.2.2
    obtain ⟨b, hb, b0, b1, b2⟩ := findDelta_bounds (Δ := Δ) (fun d => match f centre.1 (centre.2 + d) meanAlt, some P0 with
      | some (x, y), some (x0, y0) => (x - x0, y - y0)
      | _, _ => (0, 0)) (by
        intro d hd h hmv
        obtain ⟨P, hP, x, y⟩ := latShift d hd h
        simp only [hP] at hmv
        exact double d (short_shift hres (by simp [abs_of_pos hd, hd.le]) x y hmv)) n eps he.1 he.2.1 he.2.2
    have sa : L + η / a ≤ L' := by
      obtain ⟨P, hP, x, y⟩ := lonShift a a0 a1
      simp only [hP] at a2
      exact slope a a0 (long_shift hres hη5 (by simp [abs_of_pos a0, a0.le]) x y a2)
    have sb : L + η / b ≤ L' := by
      obtain ⟨P, hP, x, y⟩ := latShift b b0 b1
      simp only [hP] at b2
      exact slope b b0 (long_shift hres hη5 (by simp [abs_of_pos b0, b0.le]) x y b2)
    erw [ha, ok_bind, hb, ok_bind, ok_bind]
    exact main a b a0 a1 b0 b1 sa sb
  · rw [ok_bind]
    exact main 2 2 two_pos hΔ2 two_pos hΔ2 hL2 hL2

end loop

end Verif.PointCalc

namespace Verif.PointCalc
open Verif ImageUtils

variable {K : Type} [Field K] [LinearOrder K] [IsStrictOrderedRing K]

/-! ### Frame cameras -/

/-- Specification: a sensor that divides two affine functions of the ground position by a third, as every camera with a centre of projection does at a fixed altitude. -/
structure Projective (K : Type) where
  n : K → K × K × K
  k : K → K × K × K
  w : K → K × K × K
  ox : K → K
  oy : K → K

/-- The value of an affine function. -/
def affineAt (c : K × K × K) (p : K × K) : K := c.1 * p.1 + c.2.1 * p.2 + c.2.2

/-- The pixel of a position: none where the divisor is zero. -/
def Projective.map (P : Projective K) (lon lat alt : K) : Option (K × K) :=
  if affineAt (P.w alt) (lon, lat) = 0 then none
  else some (P.ox alt + affineAt (P.n alt) (lon, lat) / affineAt (P.w alt) (lon, lat), P.oy alt + affineAt (P.k alt) (lon, lat) / affineAt (P.w alt) (lon, lat))

/-- The derivative of a quotient `n / w` of affine functions at `c`, in each direction. -/
def slopes (n w : K × K × K) (c : K × K) : K × K :=
  ((n.1 - affineAt n c / affineAt w c * w.1) / affineAt w c, (n.2.1 - affineAt n c / affineAt w c * w.2.1) / affineAt w c)

/-- The affine sensor touching a projective one at the position `c`. -/
def Projective.tangent (P : Projective K) (c : K × K) : Affine K where
  a alt := (slopes (P.n alt) (P.w alt) c).1
  b alt := (slopes (P.n alt) (P.w alt) c).2
  c _ := 0
  d alt := (slopes (P.k alt) (P.w alt) c).1
  e alt := (slopes (P.k alt) (P.w alt) c).2
  g _ := 0

theorem lin_le {a b u v n r : K} (h : |a| + |b| ≤ n) (hu : |u| ≤ r) (hv : |v| ≤ r) : |a * u + b * v| ≤ n * r := by
  have hr : 0 ≤ r := (abs_nonneg _).trans hu
  have h1 : |a * u| ≤ |a| * r := by rw [abs_mul]; exact mul_le_mul_of_nonneg_left hu (abs_nonneg _)
  have h2 : |b * v| ≤ |b| * r := by rw [abs_mul]; exact mul_le_mul_of_nonneg_left hv (abs_nonneg _)
  have h3 := mul_le_mul_of_nonneg_right h hr
  have := abs_add_le (a * u) (b * v)
  linarith

/-- How far the slopes of a quotient change over a region. -/
theorem quotient_close (n w : K × K × K) (c p q : K × K) {N ν R d Q : K} (hN : |n.1| + |n.2.1| ≤ N) (hν : |w.1| + |w.2.1| ≤ ν) (hd : 0 < d)
    (hc : d ≤ |affineAt w c|) (hp : d ≤ |affineAt w p|) (hq : d ≤ |affineAt w q|) (hpR : apart p c ≤ R) (hqR : apart q c ≤ R) (hQ : |affineAt n c / affineAt w c| ≤ Q) :
    |affineAt n p / affineAt w p - affineAt n q / affineAt w q - ((slopes n w c).1 * (p.1 - q.1) + (slopes n w c).2 * (p.2 - q.2))| ≤
      2 * ν * R * (N + Q * ν) / d ^ 2 * apart p q := by
  have hR : 0 ≤ R := (apart_nonneg _ _).trans hpR
  have hN0 : 0 ≤ N := le_trans (by positivity) hN
  have hν0 : 0 ≤ ν := le_trans (by positivity) hν
  have hQ0 : 0 ≤ Q := (abs_nonneg _).trans hQ
  have c0 : affineAt w c ≠ 0 := by intro h; rw [h, abs_zero] at hc; linarith
  have p0 : affineAt w p ≠ 0 := by intro h; rw [h, abs_zero] at hp; linarith
  have q0 : affineAt w q ≠ 0 := by intro h; rw [h, abs_zero] at hq; linarith
  have inv : ∀ x : K, d ≤ |x| → |x⁻¹| ≤ d⁻¹ := fun x h => by rw [abs_inv]; exact inv_anti₀ hd h
  have ip := inv _ hp
  have iq := inv _ hq
  have ic := inv _ hc
  have hdi : 0 ≤ d⁻¹ := by positivity
  have dN : ∀ s t : K × K, |affineAt n s - affineAt n t| ≤ N * apart s t := by
    intro s t
    have e : affineAt n s - affineAt n t = n.1 * (s.1 - t.1) + n.2.1 * (s.2 - t.2) := by unfold affineAt; ring
    rw [e]
    exact lin_le hN (le_max_left _ _) (le_max_right _ _)
  have dW : ∀ s t : K × K, |affineAt w s - affineAt w t| ≤ ν * apart s t := by
    intro s t
    have e : affineAt w s - affineAt w t = w.1 * (s.1 - t.1) + w.2.1 * (s.2 - t.2) := by unfold affineAt; ring
    rw [e]
    exact lin_le hν (le_max_left _ _) (le_max_right _ _)
  -- the change of the reciprocal
  have recip : |(affineAt w p)⁻¹ - (affineAt w c)⁻¹| ≤ ν * R * d⁻¹ ^ 2 := by
    have e : (affineAt w p)⁻¹ - (affineAt w c)⁻¹ = -(affineAt w p - affineAt w c) * ((affineAt w p)⁻¹ * (affineAt w c)⁻¹) := by field_simp; ring
    rw [e, abs_mul, abs_neg, abs_mul]
    have h1 : |affineAt w p - affineAt w c| ≤ ν * R := (dW p c).trans (mul_le_mul_of_nonneg_left hpR hν0)
    have h2 : |(affineAt w p)⁻¹| * |(affineAt w c)⁻¹| ≤ d⁻¹ * d⁻¹ := mul_le_mul ip ic (abs_nonneg _) hdi
    have := mul_le_mul h1 h2 (by positivity) (by positivity)
    rw [pow_two]
    exact this
  -- the change of the quotient
  set Pc := affineAt n c / affineAt w c with hPc
  set Pq := affineAt n q / affineAt w q with hPq
  have quo : |Pq - Pc| ≤ (N + Q * ν) * R * d⁻¹ := by
    have e : Pq - Pc = ((affineAt n q - affineAt n c) - Pc * (affineAt w q - affineAt w c)) * (affineAt w q)⁻¹ := by
      rw [hPq, hPc]; field_simp; ring
    rw [e, abs_mul]
    have h1 : |affineAt n q - affineAt n c| ≤ N * R := (dN q c).trans (mul_le_mul_of_nonneg_left hqR hN0)
    have h2 : |affineAt w q - affineAt w c| ≤ ν * R := (dW q c).trans (mul_le_mul_of_nonneg_left hqR hν0)
    have h3 : |Pc * (affineAt w q - affineAt w c)| ≤ Q * (ν * R) := by rw [abs_mul]; exact mul_le_mul hQ h2 (abs_nonneg _) hQ0
    have h4 := abs_sub (affineAt n q - affineAt n c) (Pc * (affineAt w q - affineAt w c))
    exact mul_le_mul (by linarith) iq (abs_nonneg _) (by positivity)
  have both : |Pq * (affineAt w p)⁻¹ - Pc * (affineAt w c)⁻¹| ≤ (N + 2 * Q * ν) * R * d⁻¹ ^ 2 := by
    have e : Pq * (affineAt w p)⁻¹ - Pc * (affineAt w c)⁻¹ = (Pq - Pc) * (affineAt w p)⁻¹ + Pc * ((affineAt w p)⁻¹ - (affineAt w c)⁻¹) := by ring
    rw [e]
    have h1 : |(Pq - Pc) * (affineAt w p)⁻¹| ≤ (N + Q * ν) * R * d⁻¹ * d⁻¹ := by rw [abs_mul]; exact mul_le_mul quo ip (abs_nonneg _) (by positivity)
    have h2 : |Pc * ((affineAt w p)⁻¹ - (affineAt w c)⁻¹)| ≤ Q * (ν * R * d⁻¹ ^ 2) := by rw [abs_mul]; exact mul_le_mul hQ recip (abs_nonneg _) hQ0
    have h3 := abs_add_le ((Pq - Pc) * (affineAt w p)⁻¹) (Pc * ((affineAt w p)⁻¹ - (affineAt w c)⁻¹))
    refine h3.trans ((add_le_add h1 h2).trans (le_of_eq ?_))
    ring
  have e : affineAt n p / affineAt w p - Pq - ((slopes n w c).1 * (p.1 - q.1) + (slopes n w c).2 * (p.2 - q.2)) =
      (affineAt n p - affineAt n q) * ((affineAt w p)⁻¹ - (affineAt w c)⁻¹) - (affineAt w p - affineAt w q) * (Pq * (affineAt w p)⁻¹ - Pc * (affineAt w c)⁻¹) := by
    have s1 : (slopes n w c).1 * (p.1 - q.1) + (slopes n w c).2 * (p.2 - q.2) =
        ((affineAt n p - affineAt n q) - Pc * (affineAt w p - affineAt w q)) * (affineAt w c)⁻¹ := by
      unfold slopes
      rw [← hPc]
      simp only [div_eq_mul_inv]
      unfold affineAt
      ring
    have s2 : affineAt n p / affineAt w p - Pq = ((affineAt n p - affineAt n q) - Pq * (affineAt w p - affineAt w q)) * (affineAt w p)⁻¹ := by
      rw [hPq]; field_simp; ring
    rw [s1, s2]
    ring
  rw [e]
  have h1 : |(affineAt n p - affineAt n q) * ((affineAt w p)⁻¹ - (affineAt w c)⁻¹)| ≤ N * apart p q * (ν * R * d⁻¹ ^ 2) := by
    rw [abs_mul]; exact mul_le_mul (dN p q) recip (abs_nonneg _) (mul_nonneg hN0 (apart_nonneg _ _))
  have h2 : |(affineAt w p - affineAt w q) * (Pq * (affineAt w p)⁻¹ - Pc * (affineAt w c)⁻¹)| ≤ ν * apart p q * ((N + 2 * Q * ν) * R * d⁻¹ ^ 2) := by
    rw [abs_mul]; exact mul_le_mul (dW p q) both (abs_nonneg _) (mul_nonneg hν0 (apart_nonneg _ _))
  have h3 := abs_sub ((affineAt n p - affineAt n q) * ((affineAt w p)⁻¹ - (affineAt w c)⁻¹)) ((affineAt w p - affineAt w q) * (Pq * (affineAt w p)⁻¹ - Pc * (affineAt w c)⁻¹))
  refine h3.trans ((add_le_add h1 h2).trans (le_of_eq ?_))
  rw [div_eq_mul_inv, ← inv_pow]
  ring

/-- Bounds of a projective sensor at altitude `alt` around the position `c`: within `R` of `c` the divisor is at least `d` in size; `ν` bounds its slopes, `N` those of
the numerators, `Q` the image coordinates of `c` itself (relative to the principal point). -/
structure Projective.Bounded (P : Projective K) (c : K × K) (R N ν d Q alt : K) : Prop where
  pos : 0 < d
  depth : ∀ p, apart p c ≤ R → d ≤ |affineAt (P.w alt) p|
  flat : |(P.w alt).1| + |(P.w alt).2.1| ≤ ν
  numX : |(P.n alt).1| + |(P.n alt).2.1| ≤ N
  numY : |(P.k alt).1| + |(P.k alt).2.1| ≤ N
  offX : |affineAt (P.n alt) c / affineAt (P.w alt) c| ≤ Q
  offY : |affineAt (P.k alt) c / affineAt (P.w alt) c| ≤ Q

/-- A projective sensor is close to its tangent. -/
theorem projective_close (P : Projective K) (c : K × K) {R N ν d Q alt : K} (hR : 0 ≤ R) (h : P.Bounded c R N ν d Q alt) :
    CloseTo P.map (P.tangent c) alt (fun p => apart p c ≤ R) (2 * ν * R * (N + Q * ν) / d ^ 2) 0 := by
  intro p q hp hq
  have c0 : apart c c ≤ R := by simp [apart]; exact hR
  have wp : affineAt (P.w alt) p ≠ 0 := by intro e; have := h.depth p hp; rw [e, abs_zero] at this; linarith [h.pos]
  have wq : affineAt (P.w alt) q ≠ 0 := by intro e; have := h.depth q hq; rw [e, abs_zero] at this; linarith [h.pos]
  refine ⟨_, _, if_neg wp, if_neg wq, ?_, ?_⟩
  · have := quotient_close (P.n alt) (P.w alt) c p q h.numX h.flat h.pos (h.depth c c0) (h.depth p hp) (h.depth q hq) hp hq h.offX
    rw [add_zero]
    simp only [add_sub_add_left_eq_sub]
    exact this
  · have := quotient_close (P.k alt) (P.w alt) c p q h.numY h.flat h.pos (h.depth c c0) (h.depth p hp) (h.depth q hq) hp hq h.offY
    rw [add_zero]
    simp only [add_sub_add_left_eq_sub]
    exact this

theorem CloseTo.subset {f : K → K → K → Option (K × K)} {S : Affine K} {alt L η : K} {D D' : K × K → Prop} (h : CloseTo f S alt D L η) (hd : ∀ p, D' p → D p) :
    CloseTo f S alt D' L η := fun p q hp hq => h p q (hd p hp) (hd q hq)

/-- A sensor computed with an error of at most `ε` pixels. -/
def Computes (f' f : K → K → K → Option (K × K)) (ε : K) (D : K × K → Prop) (alt : K) : Prop :=
  ∀ p, D p → ∃ P P', f p.1 p.2 alt = some P ∧ f' p.1 p.2 alt = some P' ∧ |P'.1 - P.1| ≤ ε ∧ |P'.2 - P.2| ≤ ε

theorem CloseTo.noise {f f' : K → K → K → Option (K × K)} {S : Affine K} {alt L η ε : K} {D : K × K → Prop} (h : CloseTo f S alt D L η) (hf : Computes f' f ε D alt) :
    CloseTo f' S alt D L (η + 2 * ε) := by
  intro p q hp hq
  obtain ⟨P, Q, h1, h2, x, y⟩ := h p q hp hq
  obtain ⟨P1, P', e1, e1', x1, y1⟩ := hf p hp
  obtain ⟨Q1, Q', e2, e2', x2, y2⟩ := hf q hq
  rw [h1] at e1
  rw [h2] at e2
  cases e1; cases e2
  refine ⟨P', Q', e1', e2', ?_, ?_⟩
  · have e : P'.1 - Q'.1 - (S.a alt * (p.1 - q.1) + S.b alt * (p.2 - q.2)) = (P'.1 - P.1) - (Q'.1 - Q.1) + (P.1 - Q.1 - (S.a alt * (p.1 - q.1) + S.b alt * (p.2 - q.2))) := by ring
    rw [e]
    have a1 := abs_add_le ((P'.1 - P.1) - (Q'.1 - Q.1)) (P.1 - Q.1 - (S.a alt * (p.1 - q.1) + S.b alt * (p.2 - q.2)))
    have a2 := abs_sub (P'.1 - P.1) (Q'.1 - Q.1)
    linarith
  · have e : P'.2 - Q'.2 - (S.d alt * (p.1 - q.1) + S.e alt * (p.2 - q.2)) = (P'.2 - P.2) - (Q'.2 - Q.2) + (P.2 - Q.2 - (S.d alt * (p.1 - q.1) + S.e alt * (p.2 - q.2))) := by ring
    rw [e]
    have a1 := abs_add_le ((P'.2 - P.2) - (Q'.2 - Q.2)) (P.2 - Q.2 - (S.d alt * (p.1 - q.1) + S.e alt * (p.2 - q.2)))
    have a2 := abs_sub (P'.2 - P.2) (Q'.2 - Q.2)
    linarith

/-- C173 for frame cameras, as computed: `f'` projects with an error of at most `ε` pixels; the pixels asked for are those at which the ground points `gs` appear.
With `L = 2 ν R (N + Q ν) / d²` the largest change of the slopes over the region, the solver's answers reproject within the threshold and lie within
`(thr + 4 ε) / (m - L)` ground units of the points. -/
theorem C173_frame_camera (P : Projective K) (f' : K → K → K → Option (K × K)) {ε ρ Δ R N ν d Q m M L L' thr : K} (centre : K × K) (hε : 0 ≤ ε) (hε10 : ε ≤ 1 / 10)
    (hρ : 0 ≤ ρ) (hR : R = 2 * ρ + Δ) (hLd : L = 2 * ν * R * (N + Q * ν) / d ^ 2) (hL1 : L + 4 * (M + L) * ε ≤ L') (hL2 : L + ε ≤ L') (hm : 5 * L' < m)
    (hφ : 4 * ε ≤ (m - 5 * L') * ρ) (hΔ2 : 2 ≤ Δ) (hΔ : 2 * (1 + 2 * ε) ≤ (m - L) * Δ) (alts : K → Prop)
    (hB : ∀ alt, alts alt → P.Bounded centre R N ν d Q alt) (hS : ∀ alt, alts alt → Resolves (P.tangent centre) alt m M ∧ L' < |(P.tangent centre).a alt|)
    (hf : ∀ alt, alts alt → Computes f' P.map ε (fun p => apart p centre ≤ R) alt) (ts : List (Target K)) (hts : ts ≠ []) (gs : List (K × K))
    (hsee : List.Forall₂ (fun t g => alts t.alt ∧ apart centre g ≤ ρ ∧ P.map g.1 g.2 t.alt = some (t.x, t.y)) ts gs) (meanAlt : K) (hmean : alts meanAlt)
    (eps : K) (n : Nat) (he : 0 < eps ∧ eps ≤ Δ ∧ Δ < eps * 2 ^ n) (k maxIter : Nat) (hk : 1 ≤ k ∧ k ≤ maxIter)
    (hthr : (M + L) * errAfter (2 * ε) m L' ρ k + 4 * ε ≤ thr) :
    ∃ es, solver f' centre eps n meanAlt thr maxIter ts = .ok es ∧ List.Forall₂ (Reprojects f' thr) ts es ∧
      List.Forall₂ (Found ((thr + 4 * ε) / (m - L))) gs es := by
  have hR0 : 0 ≤ R := by rw [hR]; linarith
  have b := hB meanAlt hmean
  have hν0 : 0 ≤ ν := le_trans (by positivity) b.flat
  have hN0 : 0 ≤ N := le_trans (by positivity) b.numX
  have hQ0 : 0 ≤ Q := (abs_nonneg _).trans b.offX
  have hL0 : 0 ≤ L := by rw [hLd]; positivity
  have close : ∀ alt, alts alt → CloseTo f' (P.tangent centre) alt (fun p => apart p centre ≤ R) L (2 * ε) := by
    intro alt h
    have := (projective_close P centre hR0 (hB alt h)).noise (hf alt h)
    rw [zero_add, ← hLd] at this
    exact this
  have hreq : List.Forall₂ (Request f' (P.tangent centre) L L' (2 * ε) m M (ρ + Δ)) ts gs := by
    refine hsee.imp ?_
    rintro t g ⟨h1, h2, h3⟩
    refine ⟨(close t.alt h1).subset ?_, (hS _ h1).1, (hS _ h1).2, ?_⟩
    · intro p hp
      have := apart_tri p g centre
      rw [apart_symm g] at this
      rw [hR]
      linarith
    · obtain ⟨A, A', e, e', x, y⟩ := hf t.alt h1 g (show apart g centre ≤ R by rw [apart_symm, hR]; linarith)
      rw [h3] at e
      cases e
      refine ⟨A', e', ?_, ?_⟩
      · rw [abs_sub_comm]; linarith
      · rw [abs_sub_comm]; linarith
  have hc : ∀ g ∈ gs, apart centre g ≤ ρ := by
    clear hreq hts
    induction hsee with
    | nil => intro g h; cases h
    | cons h _ ih =>
      intro g hg
      rcases List.mem_cons.mp hg with rfl | hg
      · exact h.2.1
      · exact ih g hg
  have := C173_converges (f := f') (S := P.tangent centre) (L := L) (L' := L') (η := 2 * ε) (m := m) (M := M) (ρ := ρ) (Δ := Δ) (by linarith) (by linarith) hL0 hm
    (by linarith) (by linarith) hρ (by
      unfold floorErr
      rw [div_le_iff₀ (by linarith)]
      linarith) hΔ2 hΔ ts hts gs hreq centre hc meanAlt ((close meanAlt hmean).subset (fun p hp => by
        show apart p centre ≤ R
        have : apart p centre ≤ Δ := hp
        rw [hR]; linarith)) (hS meanAlt hmean).1 eps n he thr k maxIter hk (by linarith)
  rw [show thr + 4 * ε = thr + 2 * (2 * ε) by ring]
  exact this

end Verif.PointCalc
