import Verif.Lemmas.Base
import Verif.Model.PointCalc
import Mathlib.Tactic.FieldSimp
import Mathlib.Tactic.NormNum
import Mathlib.Tactic.Positivity

/-! C21, C22: the ray caster. -/

set_option linter.unusedSectionVars false

namespace Verif.PointCalc
open Verif ImageUtils

variable {K : Type} [Field K] [LinearOrder K] [IsStrictOrderedRing K]

/-- The point at fraction `t` of the straight segment from `p` to `q`. -/
def segPoint (p q : K × K) (t : K) : K × K := (p.1 + t * (q.1 - p.1), p.2 + t * (q.2 - p.2))

/-- Specification: `h` is the first hit of the ray from (`top`, altitude `A`) to (`bot`, altitude
`B`), sampled at the `s` equidistant fractions `j / (s-1)`, with the terrain `E` interpolated linearly
between consecutive samples: it lies in sample interval `i, i+1` at fraction `x` of it; the terrain
is not above the ray at samples `0..i` and is above it at sample `i+1`. -/
def FirstHit (E : K → K → K) (A B : K) (s : Nat) (top bot : K × K) (h : K × K × K) : Prop :=
  ∃ (i : Nat) (x : K), i + 1 < s ∧ 0 ≤ x ∧ x < 1 ∧
    -- on the ray
    (h.1, h.2.1) = segPoint top bot ((i + x) / (s - 1)) ∧
    h.2.2 = A + (i + x) / (s - 1) * (B - A) ∧
    -- on the interpolated terrain
    h.2.2 = (1 - x) * E (segPoint top bot (i / (s - 1))).1 (segPoint top bot (i / (s - 1))).2 +
      x * E (segPoint top bot ((i + 1) / (s - 1))).1 (segPoint top bot ((i + 1) / (s - 1))).2 ∧
    -- first
    (∀ j : Nat, j ≤ i → E (segPoint top bot (j / (s - 1))).1 (segPoint top bot (j / (s - 1))).2 ≤
      A + j / (s - 1) * (B - A)) ∧
    A + (i + 1) / (s - 1) * (B - A) <
      E (segPoint top bot ((i + 1) / (s - 1))).1 (segPoint top bot ((i + 1) / (s - 1))).2

theorem searchLoop_spec (above : Nat → Bool) : ∀ (s acc : Nat), (∃ i, i < s ∧ above i = true) →
    searchLoop above s acc < s ∧ above (searchLoop above s acc) = true ∧
      ∀ j, j < searchLoop above s acc → above j = false := by
  intro s
  induction s with
  | zero => rintro acc ⟨i, hi, _⟩; omega
  | succ s ih =>
    rintro acc ⟨i, hi, ha⟩
    unfold searchLoop
    by_cases h : ∃ i, i < s ∧ above i = true
    · obtain ⟨h1, h2, h3⟩ := ih (if above s then s else acc) h
      exact ⟨by omega, h2, h3⟩
    · have hn : ∀ j, j < s → above j = false := by
        intro j hj
        by_contra hc
        exact h ⟨j, hj, by simpa using hc⟩
      have hs : above s = true := by
        rcases Nat.lt_or_eq_of_le (Nat.lt_succ_iff.mp hi) with h' | h'
        · rw [hn i h'] at ha; simp at ha
        · rw [← h']; exact ha
      have hres : ∀ m acc, m ≤ s → searchLoop above m acc = acc := by
        intro m
        induction m with
        | zero => intro acc _; rfl
        | succ m ihm =>
          intro acc hm
          unfold searchLoop
          rw [ihm _ (by omega), hn m (by omega)]
          simp
      rw [hres s _ (le_refl _)]
      simp only [hs, if_true]
      exact ⟨by omega, trivial, hn⟩

theorem castRay_first (E : K → K → K) (A B : K) (s : Nat) (hs : 2 ≤ s) (top bot : K × K)
    (h0 : E top.1 top.2 ≤ A)
    (hB : B < E bot.1 bot.2) :
    ∃ h, castRay E A B s top bot = .ok (some h) ∧ FirstHit E A B s top bot h := by
  have hs1 : (0 : K) < (s : K) - 1 := by
    have : (2 : K) ≤ (s : K) := by exact_mod_cast hs
    linarith
  have hcast : ((s - 1 : Nat) : K) = (s : K) - 1 := by
    rw [Nat.cast_sub (by omega)]; simp
  have hlon : ∀ i : Nat, (bot.1 - top.1) * linspace 0 1 s i + top.1 = (segPoint top bot (i / (s - 1))).1 := by
    intro i
    simp only [linspace, if_neg (by omega : ¬ s ≤ 1), segPoint, hcast]
    ring
  have hlat : ∀ i : Nat, (bot.2 - top.2) * linspace 0 1 s i + top.2 = (segPoint top bot (i / (s - 1))).2 := by
    intro i
    simp only [linspace, if_neg (by omega : ¬ s ≤ 1), segPoint, hcast]
    ring
  have hray : ∀ i : Nat, linspace A B s i = A + i / (s - 1) * (B - A) := by
    intro i
    simp only [linspace, if_neg (by omega : ¬ s ≤ 1), hcast]
    ring
  unfold castRay
  simp only [hlon, hlat, hray]
  set e : Nat → K := fun i => E (segPoint top bot (i / (s - 1))).1 (segPoint top bot (i / (s - 1))).2 with he
  set r : Nat → K := fun i => A + i / (s - 1) * (B - A) with hr
  have hex : ∃ i, i < s ∧ (fun i : Nat => decide (r i < e i)) i = true := by
    refine ⟨s - 1, by omega, ?_⟩
    simp only [decide_eq_true_eq, hr, he, hcast, div_self hs1.ne', segPoint]
    have e1 : top.1 + 1 * (bot.1 - top.1) = bot.1 := by ring
    have e2 : top.2 + 1 * (bot.2 - top.2) = bot.2 := by ring
    rw [e1, e2]; linarith
  obtain ⟨g1, g2, g3⟩ := searchLoop_spec (fun i : Nat => decide (r i < e i)) s 0 hex
  change ∃ h, (do
      let first ← pyIdx s ((searchLoop (fun i : Nat => decide (r i < e i)) s 0 : Int) - 1)
      let second ← pyIdx s (searchLoop (fun i : Nat => decide (r i < e i)) s 0 : Int)
      if s < 2 then Except.error Err.indexError
        else Except.ok ((fdiv (e first - r first) (r 1 - r 0 - (e second - e first))).map fun x =>
          (((segPoint top bot (second / (s - 1))).1 - (segPoint top bot (first / (s - 1))).1) * x +
            (segPoint top bot (first / (s - 1))).1,
           ((segPoint top bot (second / (s - 1))).2 - (segPoint top bot (first / (s - 1))).2) * x +
            (segPoint top bot (first / (s - 1))).2,
           (e second - e first) * x + e first))) = Except.ok (some h) ∧ _
  generalize searchLoop (fun i : Nat => decide (r i < e i)) s 0 = idx at g1 g2 g3
  have hidx : idx ≠ 0 := by
    rintro rfl
    simp only [decide_eq_true_eq, hr, he, segPoint] at g2
    simp at g2
    exact absurd g2 (not_lt.mpr h0)
  obtain ⟨i, rfl⟩ : ∃ i, idx = i + 1 := ⟨idx - 1, by omega⟩
  have p1 : pyIdx s (((i + 1 : Nat) : Int) - 1) = .ok i := by
    rw [pyIdx_ok_iff]; exact ⟨by omega, Or.inl (by omega)⟩
  rw [p1, pyIdx_nat g1]
  simp only [ok_bind]
  rw [if_neg (by omega)]
  have hfirst : e i ≤ r i := by
    have := g3 i (by omega)
    simpa using this
  have hsecond : r (i + 1) < e (i + 1) := by simpa using g2
  have hlin : r 1 - r 0 = r (i + 1) - r i := by
    simp only [hr]; push_cast; ring
  have hden : r 1 - r 0 - (e (i + 1) - e i) < 0 := by rw [hlin]; linarith
  rw [fdiv, if_neg hden.ne]
  refine ⟨_, rfl, i, (e i - r i) / (r 1 - r 0 - (e (i + 1) - e i)), g1, ?_, ?_, ?_, ?_, ?_, ?_, ?_⟩
  · apply div_nonneg_of_nonpos (by linarith) hden.le
  · rw [div_lt_one_of_neg hden, hlin]; linarith
  · simp only [segPoint, Prod.mk.injEq]
    push_cast
    constructor <;> ring
  · have key : ∀ x : K, x * (r 1 - r 0 - (e (i + 1) - e i)) = e i - r i →
        (e (i + 1) - e i) * x + e i = A + (i + x) / (s - 1) * (B - A) := by
      intro x hx
      have h1 : (e (i + 1) - e i) * x + e i = r i + x * (r 1 - r 0) := by linear_combination -hx
      rw [h1]
      simp only [hr]; push_cast; ring
    exact key _ (div_mul_cancel₀ _ hden.ne)
  · simp only [he]; push_cast; ring
  · intro j hj
    have := g3 j (by omega)
    simpa [hr, he] using this
  · have := hsecond
    simp only [hr, he] at this
    push_cast at this
    exact this

theorem castRays_ok (E : K → K → K) (A B : K) (s : Nat) (hs : 2 ≤ s) :
    ∀ rays : List ((K × K) × (K × K)),
      (∀ p ∈ rays, E p.1.1 p.1.2 ≤ A ∧ B < E p.2.1 p.2.2) →
      ∃ hits, castRays E A B s rays = .ok hits ∧
        List.Forall₂ (fun p h => ∃ q, h = some q ∧ FirstHit E A B s p.1 p.2 q) rays hits := by
  intro rays
  induction rays with
  | nil => intro _; exact ⟨[], by simp [castRays]; omega, List.Forall₂.nil⟩
  | cons p ps ih =>
    intro h
    obtain ⟨hits, h1, h2⟩ := ih (fun q hq => h q (by simp [hq]))
    obtain ⟨q, q1, q2⟩ := castRay_first E A B s hs p.1 p.2 (h p (by simp)).1 (h p (by simp)).2
    refine ⟨some q :: hits, ?_, List.Forall₂.cons ⟨q, rfl, q2⟩ h2⟩
    simp only [castRays, q1, ok_bind, h1]

theorem maxLen_ge (r : (ℝ × ℝ) × (ℝ × ℝ)) : ∀ rs, r ∈ rs → horizontalLen r ≤ maxLen rs := by
  intro rs
  induction rs with
  | nil => simp
  | cons q rs ih =>
    intro h
    simp only [List.mem_cons] at h
    unfold maxLen
    rcases h with rfl | h
    · exact le_max_left _ _
    · exact le_trans (ih h) (le_max_right _ _)

/-- The samples of a ray are at most the sample distance apart. -/
theorem raySteps_spacing (dist : ℝ) (hd : 0 < dist) (rays : List ((ℝ × ℝ) × (ℝ × ℝ))) (r : (ℝ × ℝ) × (ℝ × ℝ)) (hr : r ∈ rays) :
    horizontalLen r ≤ dist * ((raySteps dist rays : ℝ) - 1) := by
  have h1 := maxLen_ge r rays hr
  have h0 : 0 ≤ horizontalLen r := Real.sqrt_nonneg _
  have h2 : 0 ≤ maxLen rays / dist := div_nonneg (h0.trans h1) hd.le
  have h3 : 0 ≤ ⌈maxLen rays / dist⌉ := Int.ceil_nonneg h2
  have e : ((raySteps dist rays : ℕ) : ℝ) = (⌈maxLen rays / dist⌉ : ℝ) + 1 := by
    have : ((raySteps dist rays : ℕ) : ℤ) = ⌈maxLen rays / dist⌉ + 1 := Int.toNat_of_nonneg (by omega)
    exact_mod_cast this
  rw [e, add_sub_cancel_right]
  have h4 := Int.le_ceil (maxLen rays / dist)
  rw [div_le_iff₀ hd] at h4
  linarith

theorem raySteps_two (dist : ℝ) (hd : 0 < dist) (rays : List ((ℝ × ℝ) × (ℝ × ℝ)))
    (h : ∃ r ∈ rays, r.1 ≠ r.2) : 2 ≤ raySteps dist rays := by
  obtain ⟨r, hr, hne⟩ := h
  have hpos : 0 < horizontalLen r := by
    unfold horizontalLen
    apply Real.sqrt_pos.mpr
    rcases r with ⟨⟨a, b⟩, ⟨c, d⟩⟩
    simp only []
    by_cases h1 : a = c
    · have h2 : b ≠ d := by rintro rfl; exact hne (by rw [h1])
      have : 0 < (b - d) ^ 2 := by have := sub_ne_zero.mpr h2; positivity
      nlinarith [sq_nonneg (a - c)]
    · have : 0 < (a - c) ^ 2 := by have := sub_ne_zero.mpr h1; positivity
      nlinarith [sq_nonneg (b - d)]
  have := maxLen_ge r rays hr
  have h2 : 0 < maxLen rays / dist := div_pos (by linarith) hd
  have h3 : 0 < ⌈maxLen rays / dist⌉ := Int.ceil_pos.mpr h2
  unfold raySteps
  omega

/-- The altitude interval searched: the given (or the DEM's) bounds widened by one percent of their
difference. -/
noncomputable def searchTop (hi lo : ℝ) : ℝ := hi + (hi - lo) / 100
/-- See `searchTop`. -/
noncomputable def searchBottom (hi lo : ℝ) : ℝ := lo - (hi - lo) / 100

/-- C21.  For every DEM whose elevations lie between the altitude bounds used (`lo < hi`), every sensor,
every sample distance and every non-empty list of pixels whose rays are not all vertical, the call
succeeds and each pixel's answer is the first hit of its ray; the samples of no ray are further apart (horizontally) than the sample distance. -/
theorem C21_first_hit (E : ℝ → ℝ → ℝ) (demHi demLo : ℝ) (ground : ℝ → Nat → ℝ × ℝ) (n : Nat) (hn : 0 < n)
    (dist hi lo : Option ℝ) (hd : 0 < dist.getD 5) (hrange : lo.getD demLo < hi.getD demHi)
    (hE : ∀ u v, lo.getD demLo ≤ E u v ∧ E u v ≤ hi.getD demHi)
    (hslant : ∃ k, k < n ∧ ground (searchTop (hi.getD demHi) (lo.getD demLo)) k ≠
      ground (searchBottom (hi.getD demHi) (lo.getD demLo)) k) :
    ∃ (s : Nat) (hits : List (Option (ℝ × ℝ × ℝ))), 2 ≤ s ∧
      (∀ k, k < n → horizontalLen (ground (searchTop (hi.getD demHi) (lo.getD demLo)) k, ground (searchBottom (hi.getD demHi) (lo.getD demLo)) k) ≤
        dist.getD 5 * ((s : ℝ) - 1)) ∧
      pixelToLonLatAlt E demHi demLo ground n dist hi lo = .ok hits ∧ hits.length = n ∧
      ∀ k, k < n → ∃ q, hits[k]? = some (some q) ∧
        FirstHit E (searchTop (hi.getD demHi) (lo.getD demLo)) (searchBottom (hi.getD demHi) (lo.getD demLo))
          s (ground (searchTop (hi.getD demHi) (lo.getD demLo)) k)
          (ground (searchBottom (hi.getD demHi) (lo.getD demLo)) k) q := by
  set H := hi.getD demHi
  set L := lo.getD demLo
  have eT : H + (H - L) * (1 / 100) = searchTop H L := by unfold searchTop; ring
  have eB : L - (H - L) * (1 / 100) = searchBottom H L := by unfold searchBottom; ring
  unfold pixelToLonLatAlt rayCaster
  simp only []
  rw [if_neg (by omega), eT, eB]
  set rays := (List.range n).map (fun k => (ground (searchTop H L) k, ground (searchBottom H L) k)) with hrays
  have hs : 2 ≤ raySteps (dist.getD 5) rays := by
    apply raySteps_two _ hd
    obtain ⟨k, hk, hne⟩ := hslant
    exact ⟨_, List.mem_map.mpr ⟨k, by simpa using hk, rfl⟩, hne⟩
  obtain ⟨hits, h1, h2⟩ := castRays_ok E (searchTop H L) (searchBottom H L) _ hs rays (by
    intro p _
    have := hE p.1.1 p.1.2
    have := hE p.2.1 p.2.2
    unfold searchTop searchBottom
    constructor <;> linarith)
  have hlen : hits.length = n := by rw [← h2.length_eq]; simp [hrays]
  refine ⟨_, hits, hs, ?_, h1, hlen, ?_⟩
  · intro k hk
    exact raySteps_spacing _ hd rays _ (List.mem_map.mpr ⟨k, by simpa using hk, rfl⟩)
  intro k hk
  have h3 := (List.forall₂_iff_get.mp h2).2 k (by simp [hrays, hk]) (by omega)
  simp only [List.get_eq_getElem, hrays, List.getElem_map, List.getElem_range] at h3
  obtain ⟨q, hq, hf⟩ := h3
  refine ⟨q, ?_, hf⟩
  rw [List.getElem?_eq_getElem (by omega), hq]

/-- C21 needs one slanted ray: when every pixel's ray is vertical (for instance an orthographic image)
there is a single sample and the call fails with IndexError. -/
theorem C21_vertical_false (E : ℝ → ℝ → ℝ) (demHi demLo : ℝ) (ground : ℝ → Nat → ℝ × ℝ) (n : Nat) (hn : 0 < n)
    (dist hi lo : Option ℝ)
    (hvert : ∀ k, k < n → ground (searchTop (hi.getD demHi) (lo.getD demLo)) k =
      ground (searchBottom (hi.getD demHi) (lo.getD demLo)) k) :
    pixelToLonLatAlt E demHi demLo ground n dist hi lo = .error .indexError := by
  set H := hi.getD demHi
  set L := lo.getD demLo
  have eT : H + (H - L) * (1 / 100) = searchTop H L := by unfold searchTop; ring
  have eB : L - (H - L) * (1 / 100) = searchBottom H L := by unfold searchBottom; ring
  unfold pixelToLonLatAlt rayCaster
  simp only []
  rw [if_neg (by omega), eT, eB]
  set rays := (List.range n).map (fun k => (ground (searchTop H L) k, ground (searchBottom H L) k)) with hrays
  have hz : ∀ rs : List ((ℝ × ℝ) × (ℝ × ℝ)), (∀ r ∈ rs, r.1 = r.2) → maxLen rs = 0 := by
    intro rs
    induction rs with
    | nil => intro _; rfl
    | cons r rs ih =>
      intro h
      unfold maxLen
      rw [ih (fun q hq => h q (by simp [hq]))]
      have : horizontalLen r = 0 := by
        unfold horizontalLen
        rw [h r (by simp)]
        simp
      rw [this]; simp
  have hs : raySteps (dist.getD 5) rays = 1 := by
    unfold raySteps
    rw [hz rays (by
      intro r hr
      obtain ⟨k, hk, rfl⟩ := List.mem_map.mp hr
      exact hvert k (by simpa using hk))]
    simp
  rw [hs]
  obtain ⟨m, rfl⟩ : ∃ m, n = m + 1 := ⟨n - 1, by omega⟩
  have hcons : rays = (ground (searchTop H L) 0, ground (searchBottom H L) 0) ::
      ((List.range m).map Nat.succ).map (fun k => (ground (searchTop H L) k, ground (searchBottom H L) k)) := by
    rw [hrays, List.range_succ_eq_map]; rfl
  rw [hcons]
  have hc : ∀ A B top bot, castRay E A B 1 top bot = .error .indexError := by
    intro A B top bot
    unfold castRay
    simp only []
    have hi : searchLoop (fun i => decide (linspace A B 1 i < E ((bot.1 - top.1) * linspace 0 1 1 i + top.1)
      ((bot.2 - top.2) * linspace 0 1 1 i + top.2))) 1 0 = 0 := by
      simp [searchLoop]
    rw [hi]
    rfl
  simp only [castRays, hc, error_bind]

example : ∃ (s : Nat) (hits : List (Option (ℝ × ℝ × ℝ))), 2 ≤ s ∧
    pixelToLonLatAlt (fun u _ => if u < 0 then 0 else 10) 10 0 (fun a k => (100 - a, k)) 3 none none none
      = .ok hits ∧ hits.length = 3 := by
  obtain ⟨s, hits, h1, -, h2, h3, -⟩ := C21_first_hit (fun u _ => if u < 0 then 0 else 10) 10 0
    (fun a k => (100 - a, k)) 3 (by decide) none none none (by norm_num) (by norm_num)
    (by intro u v; simp only [Option.getD_none]; split <;> norm_num)
    ⟨0, by norm_num, by norm_num [searchTop, searchBottom]⟩
  exact ⟨s, hits, h1, h2, h3⟩

/-! ### C22 -/

/-- C22 fails for every sensor: with a constant-elevation DEM and the DEM's own altitude bounds the
call raises IndexError. -/
theorem C22_flat_false (elev : ℝ) (ground : ℝ → Nat → ℝ × ℝ) (n : Nat) (hn : 0 < n) (dist : Option ℝ) :
    pixelToLonLatAlt (fun _ _ => elev) elev elev ground n dist none none = .error .indexError := by
  apply C21_vertical_false _ _ _ _ _ hn
  intro k _
  simp [searchTop, searchBottom]

/-- C22 (partial: the caller must pass altitude bounds that differ).  With explicit bounds
`lo ≤ elev ≤ hi`, `lo < hi`, and a sensor whose rays are straight and not all vertical, every pixel
gets its own ground position at that elevation. -/
theorem C22_flat_partial (elev hi lo : ℝ) (hlo : lo ≤ elev) (hhi : elev ≤ hi) (hlt : lo < hi)
    (u v : Nat → ℝ × ℝ) (ground : ℝ → Nat → ℝ × ℝ)
    (hg : ∀ a k, ground a k = ((u k).1 + a * (v k).1, (u k).2 + a * (v k).2))
    (n : Nat) (hslant : ∃ k, k < n ∧ v k ≠ (0, 0)) (dist : Option ℝ) (hd : 0 < dist.getD 5) :
    ∃ hits, pixelToLonLatAlt (fun _ _ => elev) elev elev ground n dist (some hi) (some lo) = .ok hits ∧
      hits.length = n ∧
      ∀ k, k < n → hits[k]? = some (some ((ground elev k).1, (ground elev k).2, elev)) := by
  have hn : 0 < n := by obtain ⟨k, hk, _⟩ := hslant; omega
  obtain ⟨s, hits, hs, -, h1, h2, h3⟩ := C21_first_hit (fun _ _ => elev) elev elev ground n hn dist (some hi)
    (some lo) hd (by simpa using hlt) (by simp [hlo, hhi]) (by
      obtain ⟨k, hk, hne⟩ := hslant
      refine ⟨k, hk, ?_⟩
      simp only [Option.getD_some, hg, searchTop, searchBottom]
      intro hc
      apply hne
      simp only [Prod.mk.injEq] at hc
      have hp : hi + (hi - lo) / 100 - (lo - (hi - lo) / 100) ≠ 0 := by
        apply ne_of_gt; linarith
      ext
      · have : (hi + (hi - lo) / 100 - (lo - (hi - lo) / 100)) * (v k).1 = 0 := by linear_combination hc.1
        simpa [hp] using this
      · have : (hi + (hi - lo) / 100 - (lo - (hi - lo) / 100)) * (v k).2 = 0 := by linear_combination hc.2
        simpa [hp] using this)
  refine ⟨hits, h1, h2, ?_⟩
  intro k hk
  obtain ⟨q, hq, i, x, -, -, -, g1, g2, g3, -, -⟩ := h3 k hk
  rw [hq]
  simp only [Option.getD_some] at g1 g2 g3
  have ha : q.2.2 = elev := by rw [g3]; ring
  simp only [segPoint, hg, Prod.mk.injEq] at g1
  rw [ha] at g2
  obtain ⟨q1, q2, q3⟩ := q
  simp only at ha g1
  subst ha
  simp only [hg, Option.some.injEq, Prod.mk.injEq, and_true]
  constructor
  · rw [g1.1]; linear_combination -(v k).1 * g2
  · rw [g1.2]; linear_combination -(v k).2 * g2

example : ∃ hits, pixelToLonLatAlt (fun _ _ => 5) 5 5 (fun a k => (100 - a, k)) 3 none (some 10) (some 0) = .ok hits ∧
    hits.length = 3 ∧ hits[2]? = some (some (95, 2, 5)) := by
  obtain ⟨hits, h1, h2, h3⟩ := C22_flat_partial 5 10 0 (by norm_num) (by norm_num) (by norm_num)
    (fun k => (100, k)) (fun _ => (-1, 0)) (fun a k => (100 - a, k)) (by intro a k; ext <;> simp; ring) 3
    ⟨0, by norm_num, by norm_num⟩ none (by norm_num)
  refine ⟨hits, h1, h2, ?_⟩
  rw [h3 2 (by norm_num)]
  norm_num

end Verif.PointCalc
