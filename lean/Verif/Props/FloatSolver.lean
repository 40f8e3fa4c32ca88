import Verif.Lemmas.FloatSolver

/-! C180: the iterative pixel-to-world conversion carried out in float arithmetic.  The hypotheses are met by the camera of the example at the end of `Verif.Props.FloatCamera`, which
goes through `C180_default` and `C180_converges`. -/

set_option linter.unusedSectionVars false

namespace Verif.PointCalc
open Verif ImageUtils FloatGeom FloatSpectral

variable {K : Type} [Field K] [LinearOrder K] [IsStrictOrderedRing K]

/-! ### Specification -/

/-- How the rounding errors (unit `u`, coordinates up to `H`) are accounted for: `L''` and `η''` are the bounds `L'` on the slope errors and `η` on the precision of the sensor,
enlarged by what the arithmetic of one update adds. -/
structure Budget (u L L' L'' η η'' m M κ H : K) : Prop where
  small : 8 * u * (1 + κ) * (M + L') ≤ m - 2 * L'
  le : L' ≤ L''
  rate : (1 + u) * (3 * L' + u * (2 * growth κ (M + L') (m - 2 * L') + 1) * (M + L)) ≤ 3 * L''
  floor : (1 + u) * (2 * η + u * (2 * growth κ (M + L') (m - 2 * L') + 1) * (2 * η)) + m * (u * H) ≤ 2 * η''

/-- What is known of a request in float arithmetic: `Request`, coordinates of at most `H` in the region, and a bound `κ` on how the slopes compare with the one the
elimination divides by. -/
structure RequestR (f : K → K → K → Option (K × K)) (S : Affine K) (u L L' η m M κ H ρ Δ : K) (t : Target K) (g : K × K) : Prop where
  req : Request f S L L' η m M (ρ + Δ + u * H) t g
  pivot : M + L' ≤ κ * (|S.a t.alt| - L')
  size1 : |g.1| + ρ + Δ ≤ H
  size2 : |g.2| + ρ + Δ ≤ H

section loop
variable {r : K → K} {u : K} {f : K → K → K → Option (K × K)} {S : Affine K} {L L' L'' η η'' m M ρ Δ κ H dLon dLat : K}

theorem step_allR (hr : Rounds r u) (hu : 0 ≤ u) (hu1 : u ≤ 1 / 100) (hη : 0 ≤ η) (hL0 : 0 ≤ L) (hL : L ≤ L') (hm : 5 * L'' < m) (hB : Budget u L L' L'' η η'' m M κ H)
    (hLon : dLon ≠ 0) (hLat : dLat ≠ 0) (b1 : |dLon| ≤ Δ) (b2 : |dLat| ≤ Δ) (e1 : slopeErr u H η L M |dLon| ≤ L') (e2 : slopeErr u H η L M |dLat| ≤ L')
    (d : K) (hd : d ≤ ρ) (hρ : 0 ≤ ρ) :
    ∀ (ts : List (Target K)) (gs : List (K × K)) (es : List (Option (K × K))), List.Forall₂ (RequestR f S u L L' η m M κ H ρ Δ) ts gs →
      List.Forall₂ (Found d) gs es →
      List.Forall₂ (Found (3 * L'' / (m - 2 * L'') * d + 2 * η'' / (m - 2 * L''))) gs (List.zipWith (fun t e => newtonStepR r f dLon dLat t.alt t.x t.y e) ts es) := by
  intro ts gs es h
  induction h generalizing es with
  | nil => intro h; cases h; exact .nil
  | @cons t g ts gs ht _ ih =>
    intro h
    cases h with
    | @cons _ e _ es he hes =>
      refine .cons ?_ (ih es hes)
      obtain ⟨p, rfl, hp⟩ := he
      have hΔ : 0 ≤ Δ := (abs_nonneg _).trans b1
      have hL'0 : 0 ≤ L'' := (hL0.trans hL).trans hB.le
      have hpos : 0 < m - 2 * L'' := by linarith
      have s1 := ht.size1
      have s2 := ht.size2
      have hH0 : 0 ≤ H := by have := abs_nonneg g.1; linarith
      have huH : 0 ≤ u * H := mul_nonneg hu hH0
      have q1 : |p.1 - g.1| ≤ d := (le_max_left _ _).trans hp
      have q2 : |p.2 - g.2| ≤ d := (le_max_right _ _).trans hp
      have c1 : |p.1 + dLon| ≤ H := by
        have a1 := abs_add_le (p.1 - g.1 + g.1) dLon
        have a2 := abs_add_le (p.1 - g.1) g.1
        rw [sub_add_cancel] at a1 a2
        linarith
      have c2 : |p.2 + dLat| ≤ H := by
        have a1 := abs_add_le (p.2 - g.2 + g.2) dLat
        have a2 := abs_add_le (p.2 - g.2) g.2
        rw [sub_add_cancel] at a1 a2
        linarith
      have t1 : |r (p.1 + dLon) - (p.1 + dLon)| ≤ u * H := (hr _).trans (mul_le_mul_of_nonneg_left c1 hu)
      have t2 : |r (p.2 + dLat) - (p.2 + dLat)| ≤ u * H := (hr _).trans (mul_le_mul_of_nonneg_left c2 hu)
      obtain ⟨p', hp', hc⟩ := step_rounded (p := p) (L'' := L'') (η'' := η'') hr hu hu1 ht.req.close ht.req.resolves (show apart g g ≤ ρ + Δ + u * H by simp [apart]; linarith)
        (show apart p g ≤ ρ + Δ + u * H by linarith)
        (show apart (r (p.1 + dLon), p.2) g ≤ ρ + Δ + u * H by
          refine max_le ?_ (by show |p.2 - g.2| ≤ _; linarith)
          show |r (p.1 + dLon) - g.1| ≤ _
          have e : r (p.1 + dLon) - g.1 = (r (p.1 + dLon) - (p.1 + dLon)) + (p.1 - g.1) + dLon := by ring
          rw [e]
          have a1 := abs_add_le ((r (p.1 + dLon) - (p.1 + dLon)) + (p.1 - g.1)) dLon
          have a2 := abs_add_le (r (p.1 + dLon) - (p.1 + dLon)) (p.1 - g.1)
          linarith)
        (show apart (p.1, r (p.2 + dLat)) g ≤ ρ + Δ + u * H by
          refine max_le (by show |p.1 - g.1| ≤ _; linarith) ?_
          show |r (p.2 + dLat) - g.2| ≤ _
          have e : r (p.2 + dLat) - g.2 = (r (p.2 + dLat) - (p.2 + dLat)) + (p.2 - g.2) + dLat := by ring
          rw [e]
          have a1 := abs_add_le ((r (p.2 + dLat) - (p.2 + dLat)) + (p.2 - g.2)) dLat
          have a2 := abs_add_le (r (p.2 + dLat) - (p.2 + dLat)) (p.2 - g.2)
          linarith)
        ht.req.sees hL0 hη hL hLon hLat c1 c2 (by linarith) (by linarith) e1 e2 ht.req.steep ht.pivot (by have := hB.le; linarith) hB.small hB.le hB.rate hB.floor
      refine ⟨p', hp', ?_⟩
      have h2 : 3 * L'' * apart p g ≤ 3 * L'' * d := mul_le_mul_of_nonneg_left hp (by linarith)
      have e : 3 * L'' / (m - 2 * L'') * d + 2 * η'' / (m - 2 * L'') = (3 * L'' * d + 2 * η'') / (m - 2 * L'') := by field_simp
      rw [e, le_div_iff₀ hpos]
      linarith

theorem errAfter_anti (h0 : 0 ≤ L'') (hm : 5 * L'' < m) (hφ : floorErr η'' m L'' ≤ ρ) (j : Nat) : errAfter η'' m L'' ρ (j + 1) ≤ errAfter η'' m L'' ρ j := by
  obtain ⟨q0, q1⟩ := rate_bounds h0 hm
  unfold errAfter
  have : (3 * L'' / (m - 2 * L'')) ^ (j + 1) ≤ (3 * L'' / (m - 2 * L'')) ^ j := pow_le_pow_of_le_one q0 q1.le (by omega)
  have := mul_le_mul_of_nonneg_right this (show 0 ≤ ρ - floorErr η'' m L'' by linarith)
  linarith

theorem errAfter_anti' (h0 : 0 ≤ L'') (hm : 5 * L'' < m) (hφ : floorErr η'' m L'' ≤ ρ) {j k : Nat} (h : k ≤ j) : errAfter η'' m L'' ρ j ≤ errAfter η'' m L'' ρ k := by
  induction j with
  | zero => obtain rfl : k = 0 := by omega
            exact le_rfl
  | succ j ih =>
    rcases Nat.lt_or_ge k (j + 1) with h' | h'
    · exact (errAfter_anti h0 hm hφ j).trans (ih (by omega))
    · obtain rfl : k = j + 1 := by omega
      exact le_rfl

/-- An estimate that passes the computed test projects within the threshold, up to the rounding of one difference. -/
theorem within_reprojects (hr : Rounds r u) (hu1 : u ≤ 1 / 100) {thr : K} {t : Target K} {e : Option (K × K)} (h : withinR r f thr t.alt t.x t.y e = true) : Reprojects f (thr / (1 - u)) t e := by
  unfold withinR at h
  cases e with
  | none => cases h
  | some p =>
    simp only [] at h
    cases hf : f p.1 p.2 t.alt with
    | none => rw [hf] at h; cases h
    | some q =>
      rw [hf] at h
      simp only [decide_eq_true_eq] at h
      have one : ∀ v : K, |r v| ≤ thr → |v| ≤ thr / (1 - u) := by
        intro v hv
        rw [le_div_iff₀ (by linarith)]
        have a1 := hr v
        have a2 := abs_sub (r v) (r v - v)
        rw [sub_sub_cancel] at a2
        linarith
      exact ⟨p.1, p.2, q.1, q.2, rfl, hf, one _ h.1, one _ h.2⟩

/-- An estimate that projects close enough passes the computed test. -/
theorem reprojects_within (hr : Rounds r u) (hu : 0 ≤ u) {thr b : K} (hb : (1 + u) * b ≤ thr) {t : Target K} {e : Option (K × K)} (h : Reprojects f b t e) :
    withinR r f thr t.alt t.x t.y e = true := by
  obtain ⟨lon, lat, x, y, rfl, hf, hx, hy⟩ := h
  have one : ∀ v : K, |v| ≤ b → |r v| ≤ thr := fun v hv => (hr.abs_le v).trans ((mul_le_mul_of_nonneg_left hv (by linarith)).trans hb)
  simp only [withinR, hf, decide_eq_true_eq]
  exact ⟨one _ hx, one _ hy⟩

theorem all_withinR (thr : K) (P : Target K → Option (K × K) → Prop) (h : ∀ t e, withinR r f thr t.alt t.x t.y e = true ↔ P t e) :
    ∀ (ts : List (Target K)) (es : List (Option (K × K))), ts.length = es.length →
      ((List.zipWith (fun t e => withinR r f thr t.alt t.x t.y e) ts es).all id = true ↔ List.Forall₂ P ts es) := by
  intro ts
  induction ts with
  | nil => intro es hl; cases es with
    | nil => simp
    | cons => cases hl
  | cons t ts ih =>
    intro es hl
    cases es with
    | nil => cases hl
    | cons e es =>
      simp only [List.zipWith_cons_cons, List.all_cons, id_eq, Bool.and_eq_true, List.forall₂_cons]
      rw [ih es (by simpa using hl), h]

/-- C180 for steps that are given. -/
theorem C180_given_deltas (hr : Rounds r u) (hu : 0 ≤ u) (hu1 : u ≤ 1 / 100) (hη : 0 ≤ η) (hL0 : 0 ≤ L) (hL : L ≤ L') (hm : 5 * L'' < m) (hB : Budget u L L' L'' η η'' m M κ H)
    (hLon : dLon ≠ 0) (hLat : dLat ≠ 0) (b1 : |dLon| ≤ Δ) (b2 : |dLat| ≤ Δ) (e1 : slopeErr u H η L M |dLon| ≤ L') (e2 : slopeErr u H η L M |dLat| ≤ L')
    (hρ : 0 ≤ ρ) (hφ : floorErr η'' m L'' ≤ ρ) (ts : List (Target K)) (gs : List (K × K))
    (hreq : List.Forall₂ (RequestR f S u L L' η m M κ H ρ Δ) ts gs) (centre : K × K) (hc : ∀ g ∈ gs, apart centre g ≤ ρ) (thr : K) (k maxIter : Nat)
    (hk : 1 ≤ k ∧ k ≤ maxIter) (hthr : (1 + u) * ((M + L) * errAfter η'' m L'' ρ k + 2 * η) ≤ thr) :
    List.Forall₂ (Reprojects f (thr / (1 - u))) ts (newtonLoopR r f dLon dLat thr maxIter ts (ts.map (fun _ => some centre))) ∧
    List.Forall₂ (Found ((thr / (1 - u) + 2 * η) / (m - L))) gs (newtonLoopR r f dLon dLat thr maxIter ts (ts.map (fun _ => some centre))) := by
  have hL'0 : 0 ≤ L'' := (hL0.trans hL).trans hB.le
  have hLL := hB.le
  have hΔ : 0 ≤ Δ := (abs_nonneg _).trans b1
  have start : List.Forall₂ (Found (errAfter η'' m L'' ρ 0)) gs (ts.map (fun _ => some centre)) := by
    have e : errAfter η'' m L'' ρ 0 = ρ := by simp [errAfter]
    rw [e]
    clear hthr
    induction hreq with
    | nil => exact .nil
    | @cons t g ts gs _ _ ih =>
      exact .cons ⟨centre, rfl, hc g (by simp)⟩ (ih (fun g' hg' => hc g' (by simp [hg'])))
  have hlen : ts.length = gs.length := hreq.length_eq
  -- the test passes when the error is small enough
  have pass : ∀ (es : List (Option (K × K))), List.Forall₂ (Found (errAfter η'' m L'' ρ k)) gs es →
      List.Forall₂ (fun t e => withinR r f thr t.alt t.x t.y e = true) ts es := by
    intro es hf
    clear start hc hlen
    induction hreq generalizing es with
    | nil => cases hf; exact .nil
    | @cons t g ts gs ht _ ih =>
      cases hf with
      | cons h1 h2 =>
        refine .cons ?_ (ih _ h2)
        have hM : 0 ≤ M := le_trans (by positivity) ht.req.resolves.most1
        have hH0 : 0 ≤ H := by have := abs_nonneg g.1; have := ht.size1; linarith
        have huH : 0 ≤ u * H := mul_nonneg hu hH0
        have hreq' : Request f S L L' η m M (ρ + (Δ + u * H)) t g := by
          rw [← add_assoc]; exact ht.req
        exact reprojects_within hr hu hthr (reprojects_of_found (Δ := Δ + u * H) (by linarith) hρ (errAfter_le hL'0 hm hφ k) (by linarith) le_rfl hreq' h1)
  -- the iteration
  have main : ∀ (n j : Nat) (es : List (Option (K × K))), List.Forall₂ (Found (errAfter η'' m L'' ρ j)) gs es → 1 ≤ n → k ≤ j + n →
      List.Forall₂ (fun t e => withinR r f thr t.alt t.x t.y e = true) ts (newtonLoopR r f dLon dLat thr n ts es) ∧
      List.Forall₂ (Found ρ) gs (newtonLoopR r f dLon dLat thr n ts es) := by
    intro n
    induction n with
    | zero => intro j es _ h; omega
    | succ n ih =>
      intro j es hf _ hj
      have hstep := step_allR hr hu hu1 hη hL0 hL hm hB hLon hLat b1 b2 e1 e2 (errAfter η'' m L'' ρ j) (errAfter_le hL'0 hm hφ j) hρ ts gs es hreq hf
      rw [errAfter_succ _ _ _ _ hL'0 hm] at hstep
      have hl2 : ts.length = (List.zipWith (fun t e => newtonStepR r f dLon dLat t.alt t.x t.y e) ts es).length := by rw [hlen]; exact hstep.length_eq
      have hall := all_withinR (r := r) (f := f) thr (fun t e => withinR r f thr t.alt t.x t.y e = true) (fun t e => Iff.rfl) ts _ hl2
      unfold newtonLoopR
      simp only []
      by_cases ht : (List.zipWith (fun t e => withinR r f thr t.alt t.x t.y e) ts (List.zipWith (fun t e => newtonStepR r f dLon dLat t.alt t.x t.y e) ts es)).all id = true
      · rw [if_pos ht]
        exact ⟨hall.mp ht, hstep.imp (fun _ _ h => h.mono (errAfter_le hL'0 hm hφ (j + 1)))⟩
      · rw [if_neg ht]
        rcases Nat.lt_or_ge (j + 1) k with hlt | hge
        · exact ih (j + 1) _ hstep (by omega) (by omega)
        · exact absurd (hall.mpr (pass _ (hstep.imp (fun _ _ h => h.mono (errAfter_anti' hL'0 hm hφ hge))))) ht
  obtain ⟨h1, h2⟩ := main maxIter 0 _ start (by omega) (by omega)
  have hrep : List.Forall₂ (Reprojects f (thr / (1 - u))) ts (newtonLoopR r f dLon dLat thr maxIter ts (ts.map (fun _ => some centre))) :=
    h1.imp (fun _ _ h => within_reprojects hr hu1 h)
  refine ⟨hrep, ?_⟩
  generalize newtonLoopR r f dLon dLat thr maxIter ts (ts.map (fun _ => some centre)) = es at h2 hrep
  clear main pass start hc hlen h1
  induction hreq generalizing es with
  | nil => cases h2; exact .nil
  | @cons t g ts gs ht _ ih =>
    cases h2 with
    | cons h1 h2 =>
      cases hrep with
      | cons h3 h4 =>
        refine .cons ?_ (ih _ h2 h4)
        have hH0 : 0 ≤ H := by have := abs_nonneg g.1; have := ht.size1; linarith
        have huH : 0 ≤ u * H := mul_nonneg hu hH0
        have hreq' : Request f S L L' η m M (ρ + (Δ + u * H)) t g := by
          rw [← add_assoc]; exact ht.req
        exact found_of_reprojects (Δ := Δ + u * H) (by linarith) hρ (by linarith) hreq' h1 h3

/-! ### The whole call -/

/-- The computed size of a movement. -/
theorem square_rounded (hr : Rounds r u) (hu : 0 ≤ u) (hu1 : u ≤ 1 / 100) (x y : K) :
    r (r (r x * r x) + r (r y * r y)) ≤ 21 / 20 * (x * x + y * y) ∧ 19 / 20 * (x * x + y * y) ≤ r (r (r x * r x) + r (r y * r y)) := by
  have sq : ∀ v : K, (1 - u) ^ 3 * (v * v) ≤ r (r v * r v) ∧ r (r v * r v) ≤ (1 + u) ^ 3 * (v * v) := by
    intro v
    have h0 : 0 ≤ r v * r v := mul_self_nonneg _
    have h1 := hr.abs_le v
    have h2 : (1 - u) * |v| ≤ |r v| := by
      have a1 := hr v
      have a2 := abs_sub (r v) (r v - v)
      rw [sub_sub_cancel] at a2
      linarith
    have u0 : 0 ≤ 1 - u := by linarith
    have u2 : 0 ≤ 1 + u := by linarith
    have h3 : r v * r v ≤ (1 + u) ^ 2 * (v * v) := by
      have := mul_self_le_mul_self (abs_nonneg _) h1
      rw [abs_mul_abs_self] at this
      have e : (1 + u) * |v| * ((1 + u) * |v|) = (1 + u) ^ 2 * (|v| * |v|) := by ring
      rwa [e, abs_mul_abs_self] at this
    have h4 : (1 - u) ^ 2 * (v * v) ≤ r v * r v := by
      have := mul_self_le_mul_self (mul_nonneg u0 (abs_nonneg _)) h2
      rw [abs_mul_abs_self] at this
      have e : (1 - u) * |v| * ((1 - u) * |v|) = (1 - u) ^ 2 * (|v| * |v|) := by ring
      rwa [e, abs_mul_abs_self] at this
    constructor
    · refine le_trans ?_ (hr.ge h0)
      have := mul_le_mul_of_nonneg_left h4 u0
      have e : (1 - u) ^ 3 * (v * v) = (1 - u) * ((1 - u) ^ 2 * (v * v)) := by ring
      rw [e]; exact this
    · refine (hr.le h0).trans ?_
      have := mul_le_mul_of_nonneg_left h3 u2
      have e : (1 + u) ^ 3 * (v * v) = (1 + u) * ((1 + u) ^ 2 * (v * v)) := by ring
      rw [e]; exact this
  obtain ⟨a1, a2⟩ := sq x
  obtain ⟨b1, b2⟩ := sq y
  have hx : 0 ≤ x * x := mul_self_nonneg _
  have hy : 0 ≤ y * y := mul_self_nonneg _
  have u0 : 0 ≤ 1 - u := by linarith
  have l3 : 0 ≤ (1 - u) ^ 3 := pow_nonneg u0 3
  have n1 : 0 ≤ r (r x * r x) := le_trans (mul_nonneg l3 hx) a1
  have n2 : 0 ≤ r (r y * r y) := le_trans (mul_nonneg l3 hy) b1
  have hi : (1 + u) ^ 4 ≤ 21 / 20 := le_trans (pow_le_pow_left₀ (by linarith) (show 1 + u ≤ 101 / 100 by linarith) 4) (by norm_num)
  have lo : (19 : K) / 20 ≤ (1 - u) ^ 4 := le_trans (by norm_num) (pow_le_pow_left₀ (by norm_num) (show (99 : K) / 100 ≤ 1 - u by linarith) 4)
  constructor
  · refine (hr.le (add_nonneg n1 n2)).trans ?_
    have := mul_le_mul_of_nonneg_left (add_le_add a2 b2) (show 0 ≤ 1 + u by linarith)
    have e : (1 + u) * ((1 + u) ^ 3 * (x * x) + (1 + u) ^ 3 * (y * y)) = (1 + u) ^ 4 * (x * x + y * y) := by ring
    rw [e] at this
    exact this.trans (mul_le_mul_of_nonneg_right hi (add_nonneg hx hy))
  · refine le_trans ?_ (hr.ge (add_nonneg n1 n2))
    have := mul_le_mul_of_nonneg_left (add_le_add a1 b1) u0
    have e : (1 - u) * ((1 - u) ^ 3 * (x * x) + (1 - u) ^ 3 * (y * y)) = (1 - u) ^ 4 * (x * x + y * y) := by ring
    rw [e] at this
    exact (mul_le_mul_of_nonneg_right lo (add_nonneg hx hy)).trans this

/-- A movement computed as at most one pixel. -/
theorem short_shiftR (hr : Rounds r u) (hu : 0 ≤ u) (hu1 : u ≤ 1 / 100) {alt : K} (hS : Resolves S alt m M) {x y a b d : K} (hd : max |a| |b| = d)
    (hx : |x - (S.a alt * a + S.b alt * b)| ≤ L * d + η) (hy : |y - (S.d alt * a + S.e alt * b)| ≤ L * d + η)
    (h : ¬ (r (r (r x * r x) + r (r y * r y)) > 1)) : (m - L) * d ≤ 21 / 20 + η := by
  have h1 := (square_rounded hr hu hu1 x y).2
  have x0 := mul_self_nonneg x
  have y0 := mul_self_nonneg y
  have x1 : |x| ≤ 21 / 20 := by
    rw [← abs_of_pos (show (0 : K) < 21 / 20 by norm_num), ← sq_le_sq]
    rw [pow_two]
    norm_num
    linarith
  have y1 : |y| ≤ 21 / 20 := by
    rw [← abs_of_pos (show (0 : K) < 21 / 20 by norm_num), ← sq_le_sq]
    rw [pow_two]
    norm_num
    linarith
  have g1 : |S.a alt * a + S.b alt * b| ≤ 21 / 20 + η + L * d := by
    have e : S.a alt * a + S.b alt * b = x - (x - (S.a alt * a + S.b alt * b)) := by ring
    have := abs_sub x (x - (S.a alt * a + S.b alt * b))
    rw [← e] at this
    linarith
  have g2 : |S.d alt * a + S.e alt * b| ≤ 21 / 20 + η + L * d := by
    have e : S.d alt * a + S.e alt * b = y - (y - (S.d alt * a + S.e alt * b)) := by ring
    have := abs_sub y (y - (S.d alt * a + S.e alt * b))
    rw [← e] at this
    linarith
  have hl := hS.least a b
  rw [hd] at hl
  have := hl.trans (max_le g1 g2)
  linarith

/-- A movement computed as more than one pixel. -/
theorem long_shiftR (hr : Rounds r u) (hu : 0 ≤ u) (hu1 : u ≤ 1 / 100) {alt : K} (hS : Resolves S alt m M) (hη : η ≤ 1 / 5) {x y a b d : K} (hd : max |a| |b| = d)
    (hx : |x - (S.a alt * a + S.b alt * b)| ≤ L * d + η) (hy : |y - (S.d alt * a + S.e alt * b)| ≤ L * d + η)
    (h : r (r (r x * r x) + r (r y * r y)) > 1) : 2 / 5 ≤ (M + L) * d := by
  have h0 : 0 ≤ d := by rw [← hd]; exact le_max_of_le_left (abs_nonneg _)
  have k1 := lin_le hS.most1 ((le_max_left |a| |b|).trans hd.le) ((le_max_right |a| |b|).trans hd.le)
  have k2 := lin_le hS.most2 ((le_max_left |a| |b|).trans hd.le) ((le_max_right |a| |b|).trans hd.le)
  have x1 : |x| ≤ (M + L) * d + η := by
    have := abs_add_le (x - (S.a alt * a + S.b alt * b)) (S.a alt * a + S.b alt * b)
    rw [sub_add_cancel] at this
    linarith
  have y1 : |y| ≤ (M + L) * d + η := by
    have := abs_add_le (y - (S.d alt * a + S.e alt * b)) (S.d alt * a + S.e alt * b)
    rw [sub_add_cancel] at this
    linarith
  by_contra hlt
  push Not at hlt
  have x2 : |x| ≤ 6 / 10 := by linarith
  have y2 : |y| ≤ 6 / 10 := by linarith
  have x3 : x * x ≤ 6 / 10 * (6 / 10) := by rw [← abs_mul_abs_self x]; exact mul_self_le_mul_self (abs_nonneg _) x2
  have y3 : y * y ≤ 6 / 10 * (6 / 10) := by rw [← abs_mul_abs_self y]; exact mul_self_le_mul_self (abs_nonneg _) y2
  have := (square_rounded hr hu hu1 x y).1
  norm_num at x3 y3
  linarith

theorem findDeltaR_bounds (c : K) (move : K → K × K) {Δ₀ : K}
    (h : ∀ d, 0 < d → d ≤ Δ₀ → ¬ (r (r ((move (r (c + d))).1 * (move (r (c + d))).1) + r ((move (r (c + d))).2 * (move (r (c + d))).2)) > 1) → d * 2 ≤ Δ₀) :
    ∀ (n : Nat) (eps : K), 0 < eps → eps ≤ Δ₀ → Δ₀ < eps * 2 ^ n →
      ∃ d, findDeltaR r c move eps n = .ok (r (r (c + d) - c)) ∧ 0 < d ∧ d ≤ Δ₀ ∧
        r (r ((move (r (c + d))).1 * (move (r (c + d))).1) + r ((move (r (c + d))).2 * (move (r (c + d))).2)) > 1 := by
  intro n
  induction n with
  | zero => intro eps h0 h1 h2; rw [pow_zero, mul_one] at h2; exact absurd h1 (not_le.mpr h2)
  | succ n ih =>
    intro eps h0 h1 h2
    unfold findDeltaR
    by_cases hm : r (r ((move (r (c + eps))).1 * (move (r (c + eps))).1) + r ((move (r (c + eps))).2 * (move (r (c + eps))).2)) > 1
    · rw [if_pos hm]
      exact ⟨eps, rfl, h0, h1, hm⟩
    · rw [if_neg hm]
      exact ih (eps * 2) (by linarith) (h eps h0 h1 hm) (by rw [mul_assoc, ← pow_succ']; exact h2)

/-- C180: the call with the steps the solver finds itself. -/
theorem C180_converges (hr : Rounds r u) (hu : 0 ≤ u) (hu1 : u ≤ 1 / 100) (hη : 0 ≤ η) (hη5 : η ≤ 1 / 5) (hL0 : 0 ≤ L) (hL : L ≤ L') (hm : 5 * L'' < m)
    (hB : Budget u L L' L'' η η'' m M κ H) (hL1 : slopeErr u H η L M (1 / (3 * (M + L))) ≤ L') (hL2 : slopeErr u H η L M 2 ≤ L')
    (hρ : 0 ≤ ρ) (hφ : floorErr η'' m L'' ≤ ρ) (Δ₀ : K) (hΔ2 : 2 ≤ Δ) (hΔ : (1 + u) * (Δ₀ + u * H) ≤ Δ) (hΔ0 : 2 * (21 / 20 + η + (m - L) * (u * H)) ≤ (m - L) * Δ₀)
    (ts : List (Target K)) (hts : ts ≠ []) (gs : List (K × K))
    (hreq : List.Forall₂ (RequestR f S u L L' η m M κ H ρ Δ) ts gs) (centre : K × K) (hc : ∀ g ∈ gs, apart centre g ≤ ρ) (hH1 : |centre.1| + Δ ≤ H) (hH2 : |centre.2| + Δ ≤ H)
    (meanAlt : K) (hmean : CloseTo f S meanAlt (fun p => apart p centre ≤ Δ) L η) (hres : Resolves S meanAlt m M)
    (eps : K) (n : Nat) (he : 0 < eps ∧ eps ≤ Δ₀ ∧ Δ₀ < eps * 2 ^ n)
    (thr : K) (k maxIter : Nat) (hk : 1 ≤ k ∧ k ≤ maxIter) (hthr : (1 + u) * ((M + L) * errAfter η'' m L'' ρ k + 2 * η) ≤ thr) :
    ∃ es, solverR r f centre eps n meanAlt thr maxIter ts = .ok es ∧ List.Forall₂ (Reprojects f (thr / (1 - u))) ts es ∧
      List.Forall₂ (Found ((thr / (1 - u) + 2 * η) / (m - L))) gs es := by
  have hM : 0 ≤ M := le_trans (by positivity) hres.most1
  have hL'' := hB.le
  have hmL : 0 < m - L := by linarith
  have hH0 : 0 ≤ H := by have := abs_nonneg centre.1; linarith
  have huH : 0 ≤ u * H := mul_nonneg hu hH0
  have hN : 0 ≤ η + (M + L) * (u * H) := add_nonneg hη (mul_nonneg (by linarith) huH)
  have hΔ₀ : 0 ≤ Δ₀ := by linarith [he.1, he.2.1]
  have hΔle : Δ₀ + u * H ≤ Δ := by
    have : 0 ≤ u * (Δ₀ + u * H) := mul_nonneg hu (by linarith)
    linarith
  -- what is needed of the steps
  have main : ∀ dLon dLat : K, dLon ≠ 0 → |dLon| ≤ Δ → dLat ≠ 0 → |dLat| ≤ Δ → slopeErr u H η L M |dLon| ≤ L' → slopeErr u H η L M |dLat| ≤ L' →
      ∃ es, (if ts = [] ∧ 0 < maxIter then (.error .valueError : Py (List (Est K))) else .ok (newtonLoopR r f dLon dLat thr maxIter ts (ts.map (fun _ => some centre)))) = .ok es ∧
      List.Forall₂ (Reprojects f (thr / (1 - u))) ts es ∧ List.Forall₂ (Found ((thr / (1 - u) + 2 * η) / (m - L))) gs es := by
    intro dLon dLat p1 b1 p2 b2 e1 e2
    rw [if_neg (fun h => hts h.1)]
    exact ⟨_, rfl, C180_given_deltas hr hu hu1 hη hL0 hL hm hB p1 p2 b1 b2 e1 e2 hρ hφ ts gs hreq centre hc thr k maxIter hk hthr⟩
  have c0 : apart centre centre ≤ Δ := by simp [apart]; linarith
  obtain ⟨P0, -, hP0, -⟩ := hmean centre centre c0 c0
  -- the shifted coordinate
  have coord : ∀ c d : K, |c| + Δ ≤ H → 0 < d → d ≤ Δ₀ → |r (c + d) - c - d| ≤ u * H := by
    intro c d hcH hd0 hd
    have a1 := hr (c + d)
    have a2 : |c + d| ≤ H := by
      have := abs_add_le c d
      rw [abs_of_pos hd0] at this
      linarith
    rw [sub_sub]
    exact a1.trans (mul_le_mul_of_nonneg_left a2 hu)
  have lonShift : ∀ d, 0 < d → d ≤ Δ₀ → ∃ P, f (r (centre.1 + d)) centre.2 meanAlt = some P ∧
      |(P.1 - P0.1) - (S.a meanAlt * (r (centre.1 + d) - centre.1) + S.b meanAlt * 0)| ≤ L * |r (centre.1 + d) - centre.1| + η ∧
      |(P.2 - P0.2) - (S.d meanAlt * (r (centre.1 + d) - centre.1) + S.e meanAlt * 0)| ≤ L * |r (centre.1 + d) - centre.1| + η := by
    intro d hd h
    have hap : apart (r (centre.1 + d), centre.2) centre = |r (centre.1 + d) - centre.1| := by simp [apart]
    have hle : |r (centre.1 + d) - centre.1| ≤ Δ := by
      have a1 := coord _ d hH1 hd h
      have a2 := abs_add_le (r (centre.1 + d) - centre.1 - d) d
      rw [sub_add_cancel, abs_of_pos hd] at a2
      linarith
    obtain ⟨P, Q, hP, hQ, x, y⟩ := hmean (r (centre.1 + d), centre.2) centre (hap.le.trans hle) c0
    rw [hP0] at hQ
    cases hQ
    rw [hap] at x y
    simp only [sub_self] at x y
    exact ⟨P, hP, x, y⟩
  have latShift : ∀ d, 0 < d → d ≤ Δ₀ → ∃ P, f centre.1 (r (centre.2 + d)) meanAlt = some P ∧
      |(P.1 - P0.1) - (S.a meanAlt * 0 + S.b meanAlt * (r (centre.2 + d) - centre.2))| ≤ L * |r (centre.2 + d) - centre.2| + η ∧
      |(P.2 - P0.2) - (S.d meanAlt * 0 + S.e meanAlt * (r (centre.2 + d) - centre.2))| ≤ L * |r (centre.2 + d) - centre.2| + η := by
    intro d hd h
    have hap : apart (centre.1, r (centre.2 + d)) centre = |r (centre.2 + d) - centre.2| := by simp [apart]
    have hle : |r (centre.2 + d) - centre.2| ≤ Δ := by
      have a1 := coord _ d hH2 hd h
      have a2 := abs_add_le (r (centre.2 + d) - centre.2 - d) d
      rw [sub_add_cancel, abs_of_pos hd] at a2
      linarith
    obtain ⟨P, Q, hP, hQ, x, y⟩ := hmean (centre.1, r (centre.2 + d)) centre (hap.le.trans hle) c0
    rw [hP0] at hQ
    cases hQ
    rw [hap] at x y
    simp only [sub_self] at x y
    exact ⟨P, hP, x, y⟩
  -- the step that is found
  have steps : ∀ c d : K, |c| + Δ ≤ H → 0 < d → d ≤ Δ₀ → 2 / 5 ≤ (M + L) * |r (c + d) - c| →
      r (r (c + d) - c) ≠ 0 ∧ |r (r (c + d) - c)| ≤ Δ ∧ slopeErr u H η L M |r (r (c + d) - c)| ≤ L' := by
    intro c d hcH hd0 hd hlong
    have a1 := coord c d hcH hd0 hd
    have a2 := abs_add_le (r (c + d) - c - d) d
    rw [sub_add_cancel, abs_of_pos hd0] at a2
    set q := r (c + d) - c with hq
    have a3 := hr.abs_le q
    have a4 := hr q
    have a5 := abs_sub (r q) (r q - q)
    rw [sub_sub_cancel] at a5
    have hML : 0 < M + L := by
      by_contra hneg
      push Not at hneg
      have := mul_nonpos_of_nonpos_of_nonneg hneg (abs_nonneg q)
      linarith
    have a6 : 1 / 3 ≤ (M + L) * |r q| := by
      have b1 : (1 - u) * |q| ≤ |r q| := by linarith
      have b2 := mul_le_mul_of_nonneg_left b1 hML.le
      have b3 := mul_le_mul (show (99 : K) / 100 ≤ 1 - u by linarith) hlong (by norm_num) (by linarith)
      have e : (M + L) * ((1 - u) * |q|) = (1 - u) * ((M + L) * |q|) := by ring
      rw [e] at b2
      have b4 : (1 : K) / 3 ≤ 99 / 100 * (2 / 5) := by norm_num
      linarith
    have a7 : 1 / (3 * (M + L)) ≤ |r q| := by
      rw [div_le_iff₀ (by linarith)]
      linarith
    have a8 : 0 < 1 / (3 * (M + L)) := by positivity
    refine ⟨?_, ?_, (slopeErr_anti hu hN a8 a7).trans hL1⟩
    · intro h0
      rw [h0, abs_zero] at a7
      linarith
    · refine a3.trans (le_trans ?_ hΔ)
      exact mul_le_mul_of_nonneg_left (by linarith) (by linarith)
  have double : ∀ c d : K, |c| + Δ ≤ H → 0 < d → d ≤ Δ₀ → (m - L) * |r (c + d) - c| ≤ 21 / 20 + η → d * 2 ≤ Δ₀ := by
    intro c d hcH hd0 hd h
    have a1 := coord c d hcH hd0 hd
    have a2 : d ≤ |r (c + d) - c| + u * H := by
      have := abs_sub (r (c + d) - c) (r (c + d) - c - d)
      rw [sub_sub_cancel, abs_of_pos hd0] at this
      linarith
    by_contra hlt
    push Not at hlt
    have b1 := mul_lt_mul_of_pos_left hlt hmL
    have b2 := mul_le_mul_of_nonneg_left a2 hmL.le
    linarith
  unfold solverR
  simp only [hP0, Option.isSome_some, Bool.true_and]
  split
  · obtain ⟨a, ha, a0, a1, a2⟩ := findDeltaR_bounds (r := r) centre.1 (fun x => moveR r (f x centre.2 meanAlt) (some P0)) (Δ₀ := Δ₀) (by
        intro d hd h hmv
        obtain ⟨P, hP, x, y⟩ := lonShift d hd h
        simp only [hP, moveR] at hmv
        exact double _ d hH1 hd h (short_shiftR hr hu hu1 hres (by simp) x y hmv)) n eps he.1 he.2.1 he.2.2
    obtain ⟨b, hb, b0, b1, b2⟩ := findDeltaR_bounds (r := r) centre.2 (fun y => moveR r (f centre.1 y meanAlt) (some P0)) (Δ₀ := Δ₀) (by
        intro d hd h hmv
        obtain ⟨P, hP, x, y⟩ := latShift d hd h
        simp only [hP, moveR] at hmv
        exact double _ d hH2 hd h (short_shiftR hr hu hu1 hres (by simp) x y hmv)) n eps he.1 he.2.1 he.2.2
    obtain ⟨a3, a4, a5⟩ := steps centre.1 a hH1 a0 a1 (by
      obtain ⟨P, hP, x, y⟩ := lonShift a a0 a1
      simp only [hP, moveR] at a2
      exact long_shiftR hr hu hu1 hres hη5 (by simp) x y a2)
    obtain ⟨b3, b4, b5⟩ := steps centre.2 b hH2 b0 b1 (by
      obtain ⟨P, hP, x, y⟩ := latShift b b0 b1
      simp only [hP, moveR] at b2
      exact long_shiftR hr hu hu1 hres hη5 (by simp) x y b2)
    erw [ha, ok_bind, hb, ok_bind, ok_bind]
    exact main _ _ a3 a4 b3 b4 a5 b5
  · rw [ok_bind]
    have h2 : |(2 : K)| = 2 := abs_two
    exact main 2 2 two_ne_zero (by rw [h2]; exact hΔ2) two_ne_zero (by rw [h2]; exact hΔ2) (by rw [h2]; exact hL2) (by rw [h2]; exact hL2)

end loop

end Verif.PointCalc
