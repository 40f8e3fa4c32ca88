import Verif.Model.Voids
import Verif.Props.Missing
import Verif.Props.Dem
import Verif.Props.RayCaster
import Verif.Props.Obstruction
import Verif.Props.PointCalc

/-! C164-C168: elevation models with voids. -/

set_option linter.unusedSectionVars false

namespace Verif.Voids
open Verif ImageUtils Missing PointCalc
open Verif.Spectral (Both)

/-! ### C164 -/

/-- Specification: `c` is one of the cells next to the coordinate `v` along an axis of `n` cells: less than one cell away, or the edge cell when `v` is beyond it. -/
def Near (n : Nat) (v : ℝ) (c : Nat) : Prop :=
  c < n ∧ (0 ≤ v → v ≤ (n : ℝ) - 1 → |(c : ℝ) - v| < 1) ∧ (v < 0 → c = 0) ∧ ((n : ℝ) - 1 < v → c + 1 = n)

/-- Specification: the raster `r` has the known elevations of `dem`, and any numbers in its voids. -/
def Fills {α : Type} (dem : A2 (Option α)) (r : A2 α) : Prop :=
  r.ny = dem.ny ∧ r.nx = dem.nx ∧ ∀ i j v, dem.px i j = some v → r.px i j = v

theorem near_cells (n : Nat) (hn : 0 < n) (v : ℝ) :
    ∃ a b : Nat, a < n ∧ b < n ∧ Ortho.clipIdx (Ortho.toInt v) n = (a : Int) ∧ Ortho.clipIdx ⌈v⌉ n = (b : Int) ∧ ∀ c, Near n v c ↔ c = a ∨ c = b := by
  have l1 := Int.floor_le v
  have l2 := Int.lt_floor_add_one v
  have l3 := Int.le_ceil v
  have l4 := Int.ceil_lt_add_one v
  by_cases h0 : 0 ≤ v
  · have f0 : 0 ≤ ⌊v⌋ := Int.floor_nonneg.mpr h0
    have c0 : 0 ≤ ⌈v⌉ := Int.ceil_nonneg h0
    have e : Ortho.toInt v = ⌊v⌋ := by rw [Ortho.toInt, Grids.pyInt, if_pos h0]
    by_cases h1 : v ≤ (n : ℝ) - 1
    · have f1 : ⌊v⌋ < (n : Int) := by rw [Int.floor_lt]; push_cast; linarith
      have c1 : ⌈v⌉ ≤ (n : Int) - 1 := by rw [Int.ceil_le]; push_cast; linarith
      have ea : ((⌊v⌋.toNat : Nat) : ℝ) = (⌊v⌋ : ℝ) := by exact_mod_cast congrArg (Int.cast (R := ℝ)) (Int.toNat_of_nonneg f0)
      have eb : ((⌈v⌉.toNat : Nat) : ℝ) = (⌈v⌉ : ℝ) := by exact_mod_cast congrArg (Int.cast (R := ℝ)) (Int.toNat_of_nonneg c0)
      refine ⟨⌊v⌋.toNat, ⌈v⌉.toNat, by omega, by omega, ?_, ?_, ?_⟩
      · rw [e, Ortho.clip_inside _ _ f0 f1]; omega
      · rw [Ortho.clip_inside _ _ c0 (by omega)]; omega
      · intro c
        constructor
        · rintro ⟨-, h, -, -⟩
          have := abs_lt.mp (h h0 h1)
          have g1 : ⌊v⌋ ≤ (c : Int) := by
            have : ⌊v⌋ < (c : Int) + 1 := by rw [Int.floor_lt]; push_cast; linarith
            omega
          have g2 : (c : Int) ≤ ⌈v⌉ := by
            have : (c : Int) - 1 < ⌈v⌉ := by rw [Int.lt_ceil]; push_cast; linarith
            omega
          have g3 : ⌈v⌉ ≤ ⌊v⌋ + 1 := by rw [Int.ceil_le]; push_cast; linarith
          omega
        · rintro (rfl | rfl)
          · refine ⟨by omega, fun _ _ => ?_, fun h => by linarith, fun h => by linarith⟩
            rw [ea, abs_lt]; constructor <;> linarith
          · refine ⟨by omega, fun _ _ => ?_, fun h => by linarith, fun h => by linarith⟩
            rw [eb, abs_lt]; constructor <;> linarith
    · push Not at h1
      have f1 : (n : Int) - 1 ≤ ⌊v⌋ := by rw [Int.le_floor]; push_cast; linarith
      have c1 : (n : Int) - 1 < ⌈v⌉ := by rw [Int.lt_ceil]; push_cast; linarith
      refine ⟨n - 1, n - 1, by omega, by omega, ?_, ?_, ?_⟩
      · rw [e]; unfold Ortho.clipIdx; omega
      · unfold Ortho.clipIdx; omega
      · intro c
        constructor
        · rintro ⟨-, -, -, h⟩
          have := h h1
          omega
        · intro h
          have : c = n - 1 := by omega
          subst this
          exact ⟨by omega, fun _ h => by linarith, fun h => by linarith, fun _ => by omega⟩
  · push Not at h0
    have e : Ortho.toInt v = ⌈v⌉ := by rw [Ortho.toInt, Grids.pyInt, if_neg (by linarith)]
    have hc : ⌈v⌉ ≤ 0 := by rw [Int.ceil_le]; push_cast; linarith
    have hn1 : (1 : ℝ) ≤ (n : ℝ) := by exact_mod_cast hn
    refine ⟨0, 0, hn, hn, ?_, ?_, ?_⟩
    · rw [e]; unfold Ortho.clipIdx; omega
    · unfold Ortho.clipIdx; omega
    · intro c
      constructor
      · rintro ⟨-, -, h, -⟩
        exact Or.inl (h h0)
      · intro h
        have : c = 0 := by omega
        subst this
        exact ⟨hn, fun h => by linarith, fun _ => rfl, fun h => by linarith⟩

theorem cell_bad {V : Type} (d : A2 V) (hbad : ¬(2 ≤ d.ny ∧ 2 ≤ d.nx)) (u v : Int) :
    Ortho.demCell d (Ortho.clipIdx u d.ny) (Ortho.clipIdx v d.nx) = .error .indexError := by
  have e0 : ∀ u, pyIdx 0 (Ortho.clipIdx u 0) = .error .indexError := by
    intro u
    simp [Ortho.clipIdx, pyIdx]
  unfold Ortho.demCell
  by_cases h : d.ny = 1 ∨ d.nx = 1
  · rw [if_pos h]; rfl
  · rw [if_neg h]
    by_cases hy : d.ny = 0
    · rw [hy, e0]
      rfl
    · obtain ⟨c, hc, ec⟩ := Ortho.clip_total u d.ny (by omega)
      have hx : d.nx = 0 := by omega
      rw [ec, pyIdx_nat hc, hx, e0]
      rfl

theorem cell_error {V W : Type} (d : A2 V) (r : A2 W) (h1 : r.ny = d.ny) (h2 : r.nx = d.nx) (hbad : ¬(2 ≤ d.ny ∧ 2 ≤ d.nx)) (u v : Int) :
    ∃ e, Ortho.demCell d (Ortho.clipIdx u d.ny) (Ortho.clipIdx v d.nx) = .error e ∧ Ortho.demCell r (Ortho.clipIdx u r.ny) (Ortho.clipIdx v r.nx) = .error e :=
  ⟨.indexError, cell_bad d hbad u v, cell_bad r (by rw [h1, h2]; exact hbad) u v⟩

theorem bilinearN_ok (dem : A2 (Option ℝ)) (h : 2 ≤ dem.ny ∧ 2 ≤ dem.nx) (x y : ℝ) (x1 x2 y1 y2 : Nat)
    (hx1 : x1 < dem.nx) (hx2 : x2 < dem.nx) (hy1 : y1 < dem.ny) (hy2 : y2 < dem.ny)
    (ex1 : Ortho.clipIdx (Ortho.toInt x) dem.nx = (x1 : Int)) (ex2 : Ortho.clipIdx ⌈x⌉ dem.nx = (x2 : Int))
    (ey1 : Ortho.clipIdx (Ortho.toInt y) dem.ny = (y1 : Int)) (ey2 : Ortho.clipIdx ⌈y⌉ dem.ny = (y2 : Int))
    (w11 w12 w21 w22 : ℝ)
    (e11 : w11 = Real.sqrt ((y - y1) * (y - y1) + (x - x1) * (x - x1)))
    (e12 : w12 = Real.sqrt ((y - y1) * (y - y1) + (x2 - x) * (x2 - x)))
    (e21 : w21 = Real.sqrt ((y2 - y) * (y2 - y) + (x - x1) * (x - x1)))
    (e22 : w22 = Real.sqrt ((y2 - y) * (y2 - y) + (x2 - x) * (x2 - x))) :
    demBilinearN dem x y = if w11 + w12 + w21 + w22 = 0 then .error .zeroDivision
      else .ok ((lift2 (· + ·) (lift2 (· + ·) (lift2 (· + ·) ((dem.px y1 x1).map (· * w11)) ((dem.px y1 x2).map (· * w12)))
        ((dem.px y2 x1).map (· * w21))) ((dem.px y2 x2).map (· * w22))).map (· / (w11 + w12 + w21 + w22))) := by
  subst e11 e12 e21 e22
  unfold demBilinearN
  simp only [ex1, ey1, ex2, ey2, Ortho.demCell_ok dem h _ _ hy1 hx1, Ortho.demCell_ok dem h _ _ hy1 hx2,
    Ortho.demCell_ok dem h _ _ hy2 hx1, Ortho.demCell_ok dem h _ _ hy2 hx2, ok_bind, Int.cast_natCast]

/-- C164: bilinear interpolation over a raster with voids fails as it does without them; the answer is NaN exactly when one of the cells next to the point is a void,
and otherwise the elevation is that of the raster with any numbers in the voids. -/
theorem C164_bilinear (dem : A2 (Option ℝ)) (r : A2 ℝ) (h : Fills dem r) (x y : ℝ) :
    Both (fun v w => (v = none ↔ ∃ i j, Near dem.ny y i ∧ Near dem.nx x j ∧ dem.px i j = none) ∧ (v ≠ none → v = some w))
      (demBilinearN dem x y) (Ortho.demBilinear r x y) := by
  obtain ⟨h1, h2, h3⟩ := h
  by_cases hs : 2 ≤ dem.ny ∧ 2 ≤ dem.nx
  · obtain ⟨y1, y2, hy1, hy2, ey1, ey2, hny⟩ := near_cells dem.ny (by omega) y
    obtain ⟨x1, x2, hx1, hx2, ex1, ex2, hnx⟩ := near_cells dem.nx (by omega) x
    rw [bilinearN_ok dem hs x y x1 x2 y1 y2 hx1 hx2 hy1 hy2 ex1 ex2 ey1 ey2 _ _ _ _ rfl rfl rfl rfl,
      Ortho.bilinear_ok r (by omega) x y x1 x2 y1 y2 (by omega) (by omega) (by omega) (by omega) (by rw [h2]; exact ex1) (by rw [h2]; exact ex2)
        (by rw [h1]; exact ey1) (by rw [h1]; exact ey2) _ _ _ _ rfl rfl rfl rfl]
    split
    · exact Or.inl ⟨_, rfl, rfl⟩
    · refine Or.inr ⟨_, _, rfl, rfl, ?_⟩
      have hex : (∃ i j, Near dem.ny y i ∧ Near dem.nx x j ∧ dem.px i j = none) ↔
          dem.px y1 x1 = none ∨ dem.px y1 x2 = none ∨ dem.px y2 x1 = none ∨ dem.px y2 x2 = none := by
        simp only [hny, hnx]
        constructor
        · rintro ⟨i, j, rfl | rfl, rfl | rfl, h⟩
          · exact Or.inl h
          · exact Or.inr (Or.inl h)
          · exact Or.inr (Or.inr (Or.inl h))
          · exact Or.inr (Or.inr (Or.inr h))
        · rintro (h | h | h | h)
          · exact ⟨y1, x1, Or.inl rfl, Or.inl rfl, h⟩
          · exact ⟨y1, x2, Or.inl rfl, Or.inr rfl, h⟩
          · exact ⟨y2, x1, Or.inr rfl, Or.inl rfl, h⟩
          · exact ⟨y2, x2, Or.inr rfl, Or.inr rfl, h⟩
      rw [hex]
      cases q1 : dem.px y1 x1 with
      | none => simp [lift2]
      | some v1 =>
        cases q2 : dem.px y1 x2 with
        | none => simp [lift2]
        | some v2 =>
          cases q3 : dem.px y2 x1 with
          | none => simp [lift2]
          | some v3 =>
            cases q4 : dem.px y2 x2 with
            | none => simp [lift2]
            | some v4 =>
              rw [h3 _ _ _ q1, h3 _ _ _ q2, h3 _ _ _ q3, h3 _ _ _ q4]
              simp [lift2]
  · obtain ⟨e, e1, e2⟩ := cell_error dem r h1 h2 hs (Ortho.toInt y) (Ortho.toInt x)
    refine Or.inl ⟨e, ?_, ?_⟩
    · unfold demBilinearN
      simp only [e1, error_bind]
    · unfold Ortho.demBilinear
      simp only [e2, error_bind]

/-- C164: the same with nearest interpolation, where the only cell is the one that contains the point. -/
theorem C164_nearest {K : Type} [Field K] [LinearOrder K] [IsStrictOrderedRing K] [FloorRing K] (dem : A2 (Option K)) (r : A2 K) (h : Fills dem r) (x y : K) :
    Both (fun v w => (v = none ↔ ∃ i j, Ortho.IsCell dem.ny y i ∧ Ortho.IsCell dem.nx x j ∧ dem.px i j = none) ∧ (v ≠ none → v = some w))
      (Ortho.demNearest dem x y) (Ortho.demNearest r x y) := by
  obtain ⟨h1, h2, h3⟩ := h
  by_cases hs : 2 ≤ dem.ny ∧ 2 ≤ dem.nx
  · obtain ⟨i, ei, hi⟩ := Ortho.clip_cell dem.ny (by omega) y
    obtain ⟨j, ej, hj⟩ := Ortho.clip_cell dem.nx (by omega) x
    have uniq : ∀ (n : Nat) (v : K) (a b : Nat), Ortho.IsCell n v a → Ortho.IsCell n v b → a = b := by
      rintro n v a b ⟨a0, a1, a2, a3⟩ ⟨b0, b1, b2, b3⟩
      rcases lt_or_ge v 0 with hv | hv
      · rw [a2 hv, b2 hv]
      · rcases lt_or_ge v (n : K) with hn | hn
        · obtain ⟨p1, p2⟩ := a1 hv hn
          obtain ⟨p3, p4⟩ := b1 hv hn
          have g1 : (a : K) < b + 1 := by linarith
          have g2 : (b : K) < a + 1 := by linarith
          have g1' : a < b + 1 := by exact_mod_cast g1
          have g2' : b < a + 1 := by exact_mod_cast g2
          omega
        · have := a3 hn
          have := b3 hn
          omega
    refine Or.inr ⟨dem.px i j, r.px i j, ?_, ?_, ?_, ?_⟩
    · unfold Ortho.demNearest
      rw [ei, ej]
      exact Ortho.demCell_ok dem hs i j hi.1 hj.1
    · unfold Ortho.demNearest
      rw [h1, h2, ei, ej]
      exact Ortho.demCell_ok r (by omega) i j (by rw [h1]; exact hi.1) (by rw [h2]; exact hj.1)
    · constructor
      · intro h; exact ⟨i, j, hi, hj, h⟩
      · rintro ⟨i', j', hi', hj', h⟩
        rw [uniq _ _ _ _ hi' hi, uniq _ _ _ _ hj' hj] at h
        exact h
    · intro hne
      cases e : dem.px i j with
      | none => exact absurd e hne
      | some v => rw [h3 _ _ _ e]
  · obtain ⟨e, e1, e2⟩ := cell_error dem r h1 h2 hs (Ortho.toInt y) (Ortho.toInt x)
    exact Or.inl ⟨e, e1, e2⟩

/-! ### C165, C166 -/

section
variable {K : Type} [Field K] [LinearOrder K] [IsStrictOrderedRing K]

/-- Specification: the DEM's answer at sample `j` of the `s` equidistant samples of the ray from `top` to `bot`; `none` in a void. -/
def at' (E : K → K → Option K) (s : Nat) (top bot : K × K) (j : Nat) : Option K :=
  E (segPoint top bot ((j : K) / (s - 1))).1 (segPoint top bot ((j : K) / (s - 1))).2

/-- Specification: the altitude of the ray from altitude `A` to altitude `B` at sample `j`. -/
def rayAt (A B : K) (s : Nat) (j : Nat) : K := A + (j : K) / (s - 1) * (B - A)

/-- Specification: no sample up to `i` is known to be above the ray, sample `i + 1` is. -/
def FirstAbove (E : K → K → Option K) (A B : K) (s : Nat) (top bot : K × K) (i : Nat) : Prop :=
  i + 1 < s ∧ (∀ j, j ≤ i → ∀ e, at' E s top bot j = some e → e ≤ rayAt A B s j) ∧ ∃ e, at' E s top bot (i + 1) = some e ∧ rayAt A B s (i + 1) < e

/-- Specification: `h` lies on the ray between samples `i` and `i + 1`, the first known to be above the ray; both elevations are known, and `h` is on the terrain
interpolated between them. -/
def KnownHit (E : K → K → Option K) (A B : K) (s : Nat) (top bot : K × K) (h : K × K × K) : Prop :=
  ∃ (i : Nat) (x e0 e1 : K), FirstAbove E A B s top bot i ∧ 0 ≤ x ∧ x < 1 ∧ at' E s top bot i = some e0 ∧ at' E s top bot (i + 1) = some e1 ∧
    (h.1, h.2.1) = segPoint top bot ((i + x) / (s - 1)) ∧ h.2.2 = A + (i + x) / (s - 1) * (B - A) ∧ h.2.2 = (1 - x) * e0 + x * e1

/-- Specification: the elevation just before the first sample known to be above the ray is unknown, or no sample is known to be above the ray and the elevation at its
end is unknown. -/
def Lost (E : K → K → Option K) (A B : K) (s : Nat) (top bot : K × K) : Prop :=
  (∃ i, FirstAbove E A B s top bot i ∧ at' E s top bot i = none) ∨
    (at' E s top bot (s - 1) = none ∧ ∀ j, j < s → ∀ e, at' E s top bot j = some e → e ≤ rayAt A B s j)

theorem searchLoop_none (above : Nat → Bool) : ∀ (s acc : Nat), (∀ i, i < s → above i = false) → searchLoop above s acc = acc := by
  intro s
  induction s with
  | zero => intro acc _; rfl
  | succ s ih =>
    intro acc h
    unfold searchLoop
    rw [h s (by omega)]
    exact ih _ (fun i hi => h i (by omega))

theorem olt_iff {a b : Option K} : olt a b = true ↔ ∃ u v, a = some u ∧ b = some v ∧ u < v := by
  cases a <;> cases b <;> simp [olt]

theorem olt_false {a : K} {b : Option K} : olt (some a) b = false ↔ ∀ v, b = some v → v ≤ a := by
  cases b <;> simp [olt]

/-- The call in terms of samples. -/
theorem castRayN_eq (E : K → K → Option K) (A B : K) (s : Nat) (hs : 2 ≤ s) (top bot : K × K) :
    castRayN E A B s top bot = (do
      let first ← pyIdx s ((searchLoop (fun i : Nat => olt (some (rayAt A B s i)) (at' E s top bot i)) s 0 : Int) - 1)
      let second ← pyIdx s (searchLoop (fun i : Nat => olt (some (rayAt A B s i)) (at' E s top bot i)) s 0 : Int)
      Except.ok (match odiv (lift2 (· - ·) (at' E s top bot first) (some (rayAt A B s first)))
            (lift2 (· - ·) (some (rayAt A B s 1 - rayAt A B s 0)) (lift2 (· - ·) (at' E s top bot second) (at' E s top bot first))),
          lift2 (· + ·) (lift2 (· * ·) (lift2 (· - ·) (at' E s top bot second) (at' E s top bot first))
            (odiv (lift2 (· - ·) (at' E s top bot first) (some (rayAt A B s first)))
            (lift2 (· - ·) (some (rayAt A B s 1 - rayAt A B s 0)) (lift2 (· - ·) (at' E s top bot second) (at' E s top bot first))))) (at' E s top bot first) with
        | some x, some alt => some (((segPoint top bot ((second : K) / (s - 1))).1 - (segPoint top bot ((first : K) / (s - 1))).1) * x + (segPoint top bot ((first : K) / (s - 1))).1,
            ((segPoint top bot ((second : K) / (s - 1))).2 - (segPoint top bot ((first : K) / (s - 1))).2) * x + (segPoint top bot ((first : K) / (s - 1))).2, alt)
        | _, _ => none)) := by
  have hcast : ((s - 1 : Nat) : K) = (s : K) - 1 := by rw [Nat.cast_sub (by omega)]; simp
  have hlon : ∀ i : Nat, (bot.1 - top.1) * linspace 0 1 s i + top.1 = (segPoint top bot ((i : K) / (s - 1))).1 := by
    intro i
    simp only [linspace, if_neg (by omega : ¬ s ≤ 1), segPoint, hcast]
    ring
  have hlat : ∀ i : Nat, (bot.2 - top.2) * linspace 0 1 s i + top.2 = (segPoint top bot ((i : K) / (s - 1))).2 := by
    intro i
    simp only [linspace, if_neg (by omega : ¬ s ≤ 1), segPoint, hcast]
    ring
  have hray : ∀ i : Nat, linspace A B s i = rayAt A B s i := by
    intro i
    simp only [linspace, if_neg (by omega : ¬ s ≤ 1), hcast, rayAt]
    ring
  unfold castRayN
  simp only [hlon, hlat, hray, if_neg (by omega : ¬ s < 2)]
  rfl

theorem castRayN_spec (E : K → K → Option K) (A B : K) (s : Nat) (hs : 2 ≤ s) (top bot : K × K) (h0 : ∀ e, E top.1 top.2 = some e → e ≤ A)
    (hB : ∀ e, E bot.1 bot.2 = some e → B < e) :
    (∃ q, castRayN E A B s top bot = .ok (some q) ∧ KnownHit E A B s top bot q) ∨ (castRayN E A B s top bot = .ok none ∧ Lost E A B s top bot) := by
  have hs1 : (0 : K) < (s : K) - 1 := by
    have : (2 : K) ≤ (s : K) := by exact_mod_cast hs
    linarith
  have hcast : ((s - 1 : Nat) : K) = (s : K) - 1 := by rw [Nat.cast_sub (by omega)]; simp
  have hend : at' E s top bot (s - 1) = E bot.1 bot.2 := by
    unfold at' segPoint
    rw [hcast, div_self hs1.ne']
    congr 1 <;> ring
  have hendr : rayAt A B s (s - 1) = B := by
    unfold rayAt
    rw [hcast, div_self hs1.ne']
    ring
  have hstart : at' E s top bot 0 = E top.1 top.2 := by
    unfold at' segPoint
    simp
  have hstartr : rayAt A B s 0 = A := by
    unfold rayAt
    simp
  rw [castRayN_eq E A B s hs]
  by_cases hex : ∃ i, i < s ∧ olt (some (rayAt A B s i)) (at' E s top bot i) = true
  · obtain ⟨g1, g2, g3⟩ := searchLoop_spec (fun i : Nat => olt (some (rayAt A B s i)) (at' E s top bot i)) s 0 hex
    generalize searchLoop (fun i : Nat => olt (some (rayAt A B s i)) (at' E s top bot i)) s 0 = idx at g1 g2 g3
    have hidx : idx ≠ 0 := by
      rintro rfl
      obtain ⟨u, v, hu, hv, huv⟩ := olt_iff.mp g2
      rw [hstartr] at hu
      rw [hstart] at hv
      cases hu
      exact absurd huv (not_lt.mpr (h0 v hv))
    obtain ⟨i, rfl⟩ : ∃ i, idx = i + 1 := ⟨idx - 1, by omega⟩
    have p1 : pyIdx s (((i + 1 : Nat) : Int) - 1) = .ok i := by
      rw [pyIdx_ok_iff]; exact ⟨by omega, Or.inl (by omega)⟩
    rw [p1, pyIdx_nat g1]
    simp only [ok_bind]
    obtain ⟨u, e1, hu, hv, huv⟩ := olt_iff.mp g2
    cases hu
    have hfa : FirstAbove E A B s top bot i := ⟨g1, fun j hj e he => olt_false.mp (g3 j (by omega)) e he, e1, hv, huv⟩
    rw [hv]
    cases he0 : at' E s top bot i with
    | none =>
      right
      exact ⟨rfl, Or.inl ⟨i, hfa, he0⟩⟩
    | some e0 =>
      left
      have hfirst : e0 ≤ rayAt A B s i := olt_false.mp (g3 i (by omega)) e0 he0
      have hlin : rayAt A B s 1 - rayAt A B s 0 = rayAt A B s (i + 1) - rayAt A B s i := by
        simp only [rayAt]; push_cast; ring
      have hden : rayAt A B s 1 - rayAt A B s 0 - (e1 - e0) < 0 := by rw [hlin]; linarith
      simp only [lift2, odiv, fdiv, if_neg hden.ne]
      refine ⟨_, rfl, i, (e0 - rayAt A B s i) / (rayAt A B s 1 - rayAt A B s 0 - (e1 - e0)), e0, e1, hfa, ?_, ?_, he0, hv, ?_, ?_, ?_⟩
      · exact div_nonneg_of_nonpos (by linarith) hden.le
      · rw [div_lt_one_of_neg hden, hlin]; linarith
      · simp only [segPoint, Prod.mk.injEq]
        push_cast
        constructor <;> ring
      · have key : ∀ x : K, x * (rayAt A B s 1 - rayAt A B s 0 - (e1 - e0)) = e0 - rayAt A B s i →
            (e1 - e0) * x + e0 = A + (i + x) / (s - 1) * (B - A) := by
          intro x hx
          have h1 : (e1 - e0) * x + e0 = rayAt A B s i + x * (rayAt A B s 1 - rayAt A B s 0) := by linear_combination -hx
          rw [h1]
          simp only [rayAt]; push_cast; ring
        exact key _ (div_mul_cancel₀ _ hden.ne)
      · simp only []; ring
  · push Not at hex
    have hno : ∀ i, i < s → olt (some (rayAt A B s i)) (at' E s top bot i) = false := fun i hi => by
      have := hex i hi
      simpa using this
    have hnone : at' E s top bot (s - 1) = none := by
      cases e : at' E s top bot (s - 1) with
      | none => rfl
      | some v =>
        have h1 := olt_false.mp (hno (s - 1) (by omega)) v e
        rw [hendr] at h1
        rw [hend] at e
        exact absurd (hB v e) (not_lt.mpr h1)
    right
    rw [searchLoop_none _ s 0 hno]
    have p1 : pyIdx s (((0 : Nat) : Int) - 1) = .ok (s - 1) := by
      rw [pyIdx_ok_iff]; exact ⟨by omega, Or.inr (by omega)⟩
    rw [p1, pyIdx_nat (by omega)]
    simp only [ok_bind]
    rw [hnone]
    refine ⟨?_, Or.inr ⟨hnone, fun j hj e he => olt_false.mp (hno j hj) e he⟩⟩
    rw [lift2_none_left]
    rfl

theorem castRaysN_ok (E : K → K → Option K) (A B : K) (s : Nat) (hs : 2 ≤ s) : ∀ rays : List ((K × K) × (K × K)),
      (∀ p ∈ rays, (∀ e, E p.1.1 p.1.2 = some e → e ≤ A) ∧ (∀ e, E p.2.1 p.2.2 = some e → B < e)) →
      ∃ hits, castRaysN E A B s rays = .ok hits ∧
        List.Forall₂ (fun p h => (∃ q, h = some q ∧ KnownHit E A B s p.1 p.2 q) ∨ (h = none ∧ Lost E A B s p.1 p.2)) rays hits := by
  intro rays
  induction rays with
  | nil => intro _; exact ⟨[], by simp [castRaysN]; omega, List.Forall₂.nil⟩
  | cons p ps ih =>
    intro h
    obtain ⟨hits, h1, h2⟩ := ih (fun q hq => h q (by simp [hq]))
    rcases castRayN_spec E A B s hs p.1 p.2 (h p (by simp)).1 (h p (by simp)).2 with ⟨q, q1, q2⟩ | ⟨q1, q2⟩
    · refine ⟨some q :: hits, ?_, List.Forall₂.cons (Or.inl ⟨q, rfl, q2⟩) h2⟩
      simp only [castRaysN, q1, ok_bind, h1]
    · refine ⟨none :: hits, ?_, List.Forall₂.cons (Or.inr ⟨rfl, q2⟩) h2⟩
      simp only [castRaysN, q1, ok_bind, h1]

end

/-- C165: over a DEM with voids whose known elevations lie between the altitude bounds used, each pixel's answer is a point on its ray and on the known terrain, at the
first sample known to be above the ray, or NaN; and it is NaN only when the elevation just before that sample, or at the end of the ray, is unknown. -/
theorem C165_hit_or_nan (E : ℝ → ℝ → Option ℝ) (hi lo : ℝ) (ground : ℝ → Nat → ℝ × ℝ) (n : Nat) (hn : 0 < n) (dist : ℝ) (hd : 0 < dist)
    (hrange : lo < hi) (hE : ∀ u v e, E u v = some e → lo ≤ e ∧ e ≤ hi)
    (hslant : ∃ k, k < n ∧ ground (searchTop hi lo) k ≠ ground (searchBottom hi lo) k) :
    ∃ (s : Nat) (hits : List (Option (ℝ × ℝ × ℝ))), 2 ≤ s ∧ rayCasterN E hi lo ground n (raySteps dist) = .ok hits ∧ hits.length = n ∧
      ∀ k, k < n → ∃ h : Option (ℝ × ℝ × ℝ), hits[k]? = some h ∧
        ((∃ q, h = some q ∧ KnownHit E (searchTop hi lo) (searchBottom hi lo) s (ground (searchTop hi lo) k) (ground (searchBottom hi lo) k) q) ∨
         (h = none ∧ Lost E (searchTop hi lo) (searchBottom hi lo) s (ground (searchTop hi lo) k) (ground (searchBottom hi lo) k))) := by
  have eT : hi + (hi - lo) * (1 / 100) = searchTop hi lo := by unfold searchTop; ring
  have eB : lo - (hi - lo) * (1 / 100) = searchBottom hi lo := by unfold searchBottom; ring
  unfold rayCasterN
  simp only []
  rw [if_neg (by omega), eT, eB]
  set rays := (List.range n).map (fun k => (ground (searchTop hi lo) k, ground (searchBottom hi lo) k)) with hrays
  have hs : 2 ≤ raySteps dist rays := by
    apply raySteps_two _ hd
    obtain ⟨k, hk, hne⟩ := hslant
    exact ⟨_, List.mem_map.mpr ⟨k, by simpa using hk, rfl⟩, hne⟩
  obtain ⟨hits, h1, h2⟩ := castRaysN_ok E (searchTop hi lo) (searchBottom hi lo) _ hs rays (by
    intro p _
    constructor
    · intro e he
      have := hE _ _ e he
      unfold searchTop
      linarith
    · intro e he
      have := hE _ _ e he
      unfold searchBottom
      linarith)
  have hlen : hits.length = n := by rw [← h2.length_eq]; simp [hrays]
  refine ⟨_, hits, hs, h1, hlen, ?_⟩
  intro k hk
  have h3 := (List.forall₂_iff_get.mp h2).2 k (by simp [hrays, hk]) (by omega)
  simp only [List.get_eq_getElem, hrays, List.getElem_map, List.getElem_range] at h3
  exact ⟨hits[k], List.getElem?_eq_getElem (by omega), h3⟩

section
variable {K : Type} [Field K] [LinearOrder K] [IsStrictOrderedRing K]

/-- C166 (partial): when the elevations are known up to the first sample above the ray, the answer is the first hit (C21) whatever the terrain is in the voids. -/
theorem C166_known_partial (E : K → K → Option K) (F : K → K → K) (hF : ∀ u v e, E u v = some e → F u v = e) (A B : K) (s : Nat) (hs : 2 ≤ s) (top bot : K × K)
    (h0 : ∀ e, E top.1 top.2 = some e → e ≤ A) (hB : ∀ e, E bot.1 bot.2 = some e → B < e) (i : Nat) (hi : i + 1 < s)
    (hknown : ∀ j, j ≤ i + 1 → at' E s top bot j ≠ none) (habove : ∃ e, at' E s top bot (i + 1) = some e ∧ rayAt A B s (i + 1) < e) :
    ∃ q, castRayN E A B s top bot = .ok (some q) ∧ FirstHit F A B s top bot q := by
  obtain ⟨ea, hea, hra⟩ := habove
  have hlater : ∀ k, FirstAbove E A B s top bot k → k ≤ i := by
    rintro k ⟨-, hk, -⟩
    by_contra hc
    exact absurd (hk (i + 1) (by omega) ea hea) (not_le.mpr hra)
  rcases castRayN_spec E A B s hs top bot h0 hB with ⟨q, hq, k, x, e0, e1, hfa, hx0, hx1, he0, he1, hp, ha, ht⟩ | ⟨-, ⟨k, hfa, hk⟩ | ⟨-, hk⟩⟩
  · have hki := hlater k hfa
    obtain ⟨f1, f2, e', f3, f4⟩ := hfa
    rw [he1] at f3
    cases f3
    refine ⟨q, hq, k, x, f1, hx0, hx1, hp, ha, ?_, ?_, ?_⟩
    · have g0 := hF _ _ _ he0
      have g1 := hF _ _ _ he1
      push_cast at g1
      rw [g0, g1]
      exact ht
    · intro j hj
      cases ej : at' E s top bot j with
      | none => exact absurd ej (hknown j (by omega))
      | some e =>
        have := f2 j hj e ej
        rw [hF _ _ _ ej]
        exact this
    · have g1 := hF _ _ _ he1
      push_cast at g1
      rw [g1]
      simpa [rayAt] using f4
  · exact absurd hk (hknown k (by have := hlater k hfa; omega))
  · exact absurd (hk (i + 1) hi ea hea) (not_le.mpr hra)

/-- C166 is false: voids that the ray passes before the two samples around the hit are not noticed. Removing any elevations there does not change the answer. -/
theorem C166_unnoticed_false (E E' : K → K → Option K) (A B : K) (s : Nat) (hs : 2 ≤ s) (top bot : K × K) (i : Nat) (hfa : FirstAbove E A B s top bot i)
    (hv : ∀ j, j < i → at' E' s top bot j = none) (hsame : at' E' s top bot i = at' E s top bot i ∧ at' E' s top bot (i + 1) = at' E s top bot (i + 1)) :
    castRayN E' A B s top bot = castRayN E A B s top bot := by
  obtain ⟨h1, h2, e1, h3, h4⟩ := hfa
  have hloop : ∀ D : K → K → Option K, (∀ j, j ≤ i → ∀ e, at' D s top bot j = some e → e ≤ rayAt A B s j) → at' D s top bot (i + 1) = some e1 →
      searchLoop (fun i : Nat => olt (some (rayAt A B s i)) (at' D s top bot i)) s 0 = i + 1 := by
    intro D hD hD1
    have hup : olt (some (rayAt A B s (i + 1))) (at' D s top bot (i + 1)) = true := olt_iff.mpr ⟨_, _, rfl, hD1, h4⟩
    obtain ⟨g1, g2, g3⟩ := searchLoop_spec (fun i : Nat => olt (some (rayAt A B s i)) (at' D s top bot i)) s 0 ⟨i + 1, h1, hup⟩
    generalize searchLoop (fun i : Nat => olt (some (rayAt A B s i)) (at' D s top bot i)) s 0 = idx at g1 g2 g3
    rcases Nat.lt_trichotomy idx (i + 1) with hlt | heq | hgt
    · obtain ⟨u, v, hu, hv', huv⟩ := olt_iff.mp g2
      cases hu
      exact absurd (hD idx (by omega) v hv') (not_le.mpr huv)
    · exact heq
    · have := g3 (i + 1) hgt
      rw [hup] at this
      cases this
  rw [castRayN_eq E A B s hs, castRayN_eq E' A B s hs, hloop E h2 h3, hloop E' (fun j hj e he => by
    rcases Nat.lt_or_eq_of_le hj with h | rfl
    · rw [hv j h] at he; cases he
    · rw [hsame.1] at he; exact h2 j (le_refl _) e he) (hsame.2.trans h3)]
  have p1 : pyIdx s (((i + 1 : Nat) : Int) - 1) = .ok i := by
    rw [pyIdx_ok_iff]; exact ⟨by omega, Or.inl (by omega)⟩
  rw [p1, pyIdx_nat h1]
  simp only [ok_bind, hsame.1, hsame.2]

/-- A mountain of 100 at longitude 1 on a plain at elevation 0. -/
def mountain (u _v : ℚ) : ℚ := if u = 1 then 100 else 0
/-- The same terrain with a void at the mountain. -/
def mountainLost (u _v : ℚ) : Option ℚ := if u = 1 then none else some 0

end

/-- C166 is false, an instance: the ray meets a mountain at altitude 5050/67; with a void at the mountain the answer is a point on the plain behind it. -/
theorem C166_behind_false :
    (∃ u a, castRay mountain 101 (-1) 4 (0, 0) (3, 0) = .ok (some (u, 0, a)) ∧ u < 1 ∧ 67 < a) ∧
    (∃ u, castRayN mountainLost 101 (-1) 4 (0, 0) (3, 0) = .ok (some (u, 0, 0)) ∧ 2 < u) := by
  constructor
  · exact ⟨101 / 134, 5050 / 67, by decide +kernel, by norm_num, by norm_num⟩
  · exact ⟨101 / 34, by decide +kernel, by norm_num⟩

/-! ### C167 -/

section
variable {K : Type} [Field K] [LinearOrder K] [IsStrictOrderedRing K] [FloorRing K]

/-- Specification: the terrain is known to be above the straight line from the ground point `(lon, lat, alt)` to the high point at one of the fractions `1/N, 2/N, ...`. -/
def KnownBlocked (dem : K → K → Option K) (lon lat alt hlon hlat halt N : K) : Prop :=
  ∃ (m : Nat) (e : K), 1 ≤ m ∧ (m : K) < N ∧ dem (lon + (m : K) / N * (hlon - lon)) (lat + (m : K) / N * (hlat - lat)) = some e ∧ alt + (m : K) / N * (halt - alt) < e

/-- C167 (partial): what is decided over a DEM with voids: a pixel is marked exactly when its altitude is known and the terrain (mirrored as in C39) is known to be
above the line of sight at one of the samples; unknown elevations never obstruct. -/
theorem C167_decided_partial (n : Nat) (hn : 0 < n) (toLonLat : K → K → K → K × K) (dem : K → K → Option K)
    (highest : K) (castPix : K → K) (px py lons lats : Nat → K) (alts : Option (Nat → Option K)) (res : K) (hr : res ≠ 0)
    (halt : K) (hhalt : halt = castPix (highest + 1 / 1000)) (hi : Nat → K × K)
    (hhi : ∀ k, hi k = toLonLat (px k) (py k) halt) (a : Nat → Option K)
    (ha : ∀ k, a k = match alts with
      | some f => f k
      | none => dem (lons k) (lats k)) :
    ∃ mask N, obstructedN n toLonLat dem highest castPix px py lons lats alts res = .ok mask ∧
      Ortho.IsMaxOf n (fun k => |(lons k - (hi k).1) + (lats k - (hi k).2)|) (N * res) ∧
      ∀ k, k < n → (mask k = true ↔
        ∃ v, a k = some v ∧ KnownBlocked (fun x y => dem (2 * lons k - x) (2 * lats k - y)) (lons k) (lats k) v (hi k).1 (hi k).2 halt N) := by
  subst hhalt
  obtain rfl : hi = fun k => toLonLat (px k) (py k) (castPix (highest + 1 / 1000)) := funext hhi
  obtain rfl : a = alts.getD (fun k => dem (lons k) (lats k)) := by
    funext k; rw [ha k]; cases alts <;> rfl
  obtain ⟨mx, h1, h2⟩ := Ortho.max?_range n (fun k => |lons k - (toLonLat (px k) (py k) (castPix (highest + 1 / 1000))).1 +
    (lats k - (toLonLat (px k) (py k) (castPix (highest + 1 / 1000))).2)|) hn
  unfold obstructedN
  simp only [h1]
  refine ⟨_, mx / res, rfl, ?_, ?_⟩
  · rw [div_mul_cancel₀ _ hr]
    exact h2
  · intro k _
    simp only [List.any_eq_true]
    cases hak : alts.getD (fun k => dem (lons k) (lats k)) k with
    | none =>
      constructor
      · rintro ⟨step, -, h⟩
        simp [lift2, olt] at h
      · rintro ⟨v, hv, -⟩
        cases hv
    | some v =>
      simp only [lift2, Option.map_some]
      rw [Ortho.steps_mem (mx / res) (fun step => olt (some (v + (castPix (highest + 1 / 1000) - v) * step / (mx / res)))
        (dem (lons k + (lons k - (toLonLat (px k) (py k) (castPix (highest + 1 / 1000))).1) * step / (mx / res))
          (lats k + (lats k - (toLonLat (px k) (py k) (castPix (highest + 1 / 1000))).2) * step / (mx / res))) = true)]
      unfold KnownBlocked
      have e1 : ∀ (m : Nat) (v h : K), 2 * v - (v + (m : K) / (mx / res) * (h - v)) = v + (v - h) * m / (mx / res) := by
        intro m v h; ring
      have e2 : ∀ (m : Nat) (v h : K), v + (m : K) / (mx / res) * (h - v) = v + (h - v) * m / (mx / res) := by
        intro m v h; ring
      simp only [e1]
      constructor
      · rintro ⟨m, m1, m2, h⟩
        obtain ⟨u, e, hu, he, hue⟩ := olt_iff.mp h
        cases hu
        exact ⟨v, rfl, m, e, m1, m2, he, by rw [e2]; exact hue⟩
      · rintro ⟨v', hv', m, e, m1, m2, he, hlt⟩
        cases hv'
        rw [e2] at hlt
        exact ⟨m, m1, m2, olt_iff.mpr ⟨_, _, rfl, he, hlt⟩⟩

/-- C167 (partial): a pixel that is marked is marked whatever the terrain is in the voids (and whatever the altitudes are that are not known). -/
theorem C167_marked_partial (n : Nat) (hn : 0 < n) (toLonLat : K → K → K → K × K) (dem : K → K → Option K) (F : K → K → K)
    (hF : ∀ u v e, dem u v = some e → F u v = e) (highest : K) (castPix : K → K) (px py lons lats : Nat → K) (alts : Option (Nat → Option K))
    (altsF : Option (Nat → K)) (halts : (alts = none ∧ altsF = none) ∨ ∃ f g, alts = some f ∧ altsF = some g ∧ ∀ k v, f k = some v → g k = v)
    (res : K) (hr : res ≠ 0) :
    ∃ mask maskF, obstructedN n toLonLat dem highest castPix px py lons lats alts res = .ok mask ∧
      Ortho.obstructed n toLonLat F highest castPix px py lons lats altsF res = .ok maskF ∧ ∀ k, k < n → mask k = true → maskF k = true := by
  obtain ⟨mask, N, h1, h2, h3⟩ := C167_decided_partial n hn toLonLat dem highest castPix px py lons lats alts res hr _ rfl _ (fun _ => rfl) _ (fun _ => rfl)
  obtain ⟨maskF, M, g1, g2, g3⟩ := Ortho.C39_mirrored_partial n hn toLonLat F highest castPix px py lons lats altsF res hr _ rfl _ (fun _ => rfl) _ (fun _ => rfl)
  have hNM : N = M := mul_right_cancel₀ hr (Ortho.isMaxOf_unique h2 g2)
  subst hNM
  refine ⟨mask, maskF, h1, g1, ?_⟩
  intro k hk hm
  rw [g3 k hk]
  obtain ⟨v, hv, m, e, m1, m2, he, hlt⟩ := (h3 k hk).mp hm
  refine ⟨m, m1, m2, ?_⟩
  beta_reduce
  rw [hF _ _ _ he]
  rcases halts with ⟨rfl, rfl⟩ | ⟨f, g, rfl, rfl, hfg⟩
  · simp only [hF _ _ _ hv]
    exact hlt
  · simp only [hfg k v hv]
    exact hlt

/-- C167 is false: a pixel whose own elevation is unknown is always reported as seen, in every scene. -/
theorem C167_void_seen_false (n : Nat) (hn : 0 < n) (toLonLat : K → K → K → K × K) (dem : K → K → Option K)
    (highest : K) (castPix : K → K) (px py lons lats : Nat → K) (res : K) (hr : res ≠ 0) (k : Nat) (hk : k < n) (hv : dem (lons k) (lats k) = none) :
    ∃ mask, obstructedN n toLonLat dem highest castPix px py lons lats none res = .ok mask ∧ mask k = false := by
  obtain ⟨mask, N, h1, h2, h3⟩ := C167_decided_partial n hn toLonLat dem highest castPix px py lons lats none res hr _ rfl _ (fun _ => rfl) _ (fun _ => rfl)
  refine ⟨mask, h1, ?_⟩
  rw [← Bool.not_eq_true, h3 k hk]
  rintro ⟨v, hv', -⟩
  simp only [hv] at hv'
  cases hv'

/-- C167 is false: nor do the voids on the line of sight matter: over a DEM known only at the ground points every pixel is reported as seen. -/
theorem C167_unknown_seen_false (n : Nat) (hn : 0 < n) (toLonLat : K → K → K → K × K) (highest : K) (castPix : K → K) (px py lons lats : Nat → K)
    (alts : Nat → Option K) (res : K) (hr : res ≠ 0) :
    ∃ mask, obstructedN n toLonLat (fun _ _ => none) highest castPix px py lons lats (some alts) res = .ok mask ∧ ∀ k, k < n → mask k = false := by
  obtain ⟨mask, N, h1, h2, h3⟩ := C167_decided_partial n hn toLonLat (fun _ _ => none) highest castPix px py lons lats (some alts) res hr _ rfl _
    (fun _ => rfl) _ (fun _ => rfl)
  refine ⟨mask, h1, ?_⟩
  intro k hk
  rw [← Bool.not_eq_true, h3 k hk]
  rintro ⟨v, -, m, e, -, -, he, -⟩
  cases he

end

/-! ### C168 -/

section
variable {K : Type} [Field K] [LinearOrder K] [IsStrictOrderedRing K]

/-- A request without unknown altitudes. -/
def known (t : Target K) : TargetN K := ⟨some t.alt, t.x, t.y⟩

theorem loopN_known (f : K → K → K → Option (K × K)) (dLon dLat thr : K) (ts : List (Target K)) :
    ∀ (n : Nat) (es : List (Est K)), newtonLoopN f dLon dLat thr n (ts.map known) es = newtonLoop f dLon dLat thr n ts es := by
  intro n
  induction n with
  | zero => intro es; rfl
  | succ n ih =>
    intro es
    unfold newtonLoopN newtonLoop
    simp only [List.zipWith_map_left]
    rw [ih]
    rfl

/-- Without unknown altitudes this is the solver of C19, C20. -/
theorem solverN_known (f : K → K → K → Option (K × K)) (centre : K × K) (eps : K) (m : Nat) (thr : K) (maxIter : Nat) (ts : List (Target K)) (hts : ts ≠ []) :
    solverN f centre eps m thr maxIter (ts.map known) = solver f centre eps m ((ts.map (fun t => t.alt)).sum / (ts.length : K)) thr maxIter ts := by
  have hm : meanAltN (ts.map known) = some ((ts.map (fun t => t.alt)).sum / (ts.length : K)) := by
    unfold meanAltN
    have : (ts.map known).all (fun t => t.alt.isSome) = true := by simp [known]
    rw [if_pos this]
    have hl : ((ts.map known).length : K) ≠ 0 := by
      rw [List.length_map]
      exact_mod_cast (by simpa using hts : ts.length ≠ 0)
    rw [fdiv, if_neg hl, List.length_map, List.map_map]
    rfl
  unfold solverN solver
  simp only [hm, projN, Option.bind_some, List.map_eq_nil_iff, loopN_known, List.map_map]
  rfl

/-- One pixel after `k` updates with both steps 2. -/
def updates (f : K → K → K → Option (K × K)) (t : TargetN K) : Nat → Est K → Est K
  | 0, e => e
  | k + 1, e => updates f t k (newtonStepN f 2 2 t e)

theorem loopN_void (f : K → K → K → Option (K × K)) (thr : K) (ts : List (TargetN K)) (hv : ∃ t ∈ ts, t.alt = none) :
    ∀ (n : Nat) (es : List (Est K)), es.length = ts.length → newtonLoopN f 2 2 thr n ts es = List.zipWith (fun t e => updates f t n e) ts es := by
  have hz : ∀ (ts : List (TargetN K)) (es : List (Est K)), es.length = ts.length → List.zipWith (fun _ e => e) ts es = es := by
    intro ts
    induction ts with
    | nil => intro es h; cases es with
      | nil => rfl
      | cons _ _ => cases h
    | cons t ts ih => intro es h; cases es with
      | nil => cases h
      | cons e es => rw [List.zipWith_cons_cons, ih es (by simpa using h)]
  have hw : ∀ (ts : List (TargetN K)) (es : List (Est K)), es.length = ts.length → (∃ t ∈ ts, t.alt = none) →
      (List.zipWith (fun t e => withinN f thr t e) ts es).all id = false := by
    intro ts
    induction ts with
    | nil => rintro es - ⟨t, ht, -⟩; cases ht
    | cons t ts ih =>
      rintro es h ⟨t', ht', hn⟩
      cases es with
      | nil => cases h
      | cons e es =>
        rw [List.zipWith_cons_cons, List.all_cons]
        rcases List.mem_cons.mp ht' with rfl | ht'
        · have : withinN f thr t' e = false := by unfold withinN; rw [hn]
          rw [this]; rfl
        · rw [ih es (by simpa using h) ⟨t', ht', hn⟩, Bool.and_false]
  have hzz : ∀ (n : Nat) (ts : List (TargetN K)) (es : List (Est K)),
      List.zipWith (fun t e => updates f t n e) ts (List.zipWith (fun t e => newtonStepN f 2 2 t e) ts es) = List.zipWith (fun t e => updates f t (n + 1) e) ts es := by
    intro n ts
    induction ts with
    | nil => intro es; rfl
    | cons t ts ih => intro es; cases es with
      | nil => rfl
      | cons e es =>
        rw [List.zipWith_cons_cons, List.zipWith_cons_cons, List.zipWith_cons_cons, ih]
        rfl
  intro n
  induction n with
  | zero => intro es hl; exact (hz ts es hl).symm
  | succ n ih =>
    intro es hl
    have hl' : (List.zipWith (fun t e => newtonStepN f 2 2 t e) ts es).length = ts.length := by simp [hl]
    unfold newtonLoopN
    simp only []
    rw [if_neg (by rw [hw ts _ hl' hv]; simp), ih _ hl', hzz]

/-- C168 (partial): what happens to the other pixels when one altitude is unknown: each of them is computed by itself from the centre with both steps 2 and exactly
`max_iter` updates; the pixel without an altitude is NaN. -/
theorem C168_void_partial (f : K → K → K → Option (K × K)) (centre : K × K) (eps : K) (m : Nat) (thr : K) (maxIter : Nat) (ts : List (TargetN K))
    (hv : ∃ t ∈ ts, t.alt = none) :
    ∃ es, solverN f centre eps m thr maxIter ts = .ok es ∧ es.length = ts.length ∧
      ∀ (k : Nat) (t : TargetN K), ts[k]? = some t → es[k]? = some (updates f t maxIter (some centre)) ∧
        (t.alt = none → 1 ≤ maxIter → es[k]? = some none) := by
  have hm : meanAltN ts = none := by
    obtain ⟨t, ht, hn⟩ := hv
    unfold meanAltN
    rw [if_neg]
    intro hc
    have := List.all_eq_true.mp hc t ht
    rw [hn] at this
    cases this
  have hne : ¬(ts = [] ∧ 0 < maxIter) := by
    rintro ⟨rfl, -⟩
    obtain ⟨t, ht, -⟩ := hv
    cases ht
  have hup : ∀ (t : TargetN K), t.alt = none → ∀ k e, updates f t (k + 1) e = none := by
    intro t ht
    have h1 : ∀ e, newtonStepN f 2 2 t e = none := by intro e; unfold newtonStepN; rw [ht]; rfl
    intro k
    induction k with
    | zero => intro e; exact h1 e
    | succ k ih => intro e; exact ih _
  refine ⟨List.zipWith (fun t e => updates f t maxIter e) ts (ts.map (fun _ => some centre)), ?_, by simp, ?_⟩
  · unfold solverN
    simp only [hm, projN, Option.bind_none, Option.isSome_none, Bool.false_and, Bool.false_eq_true, if_false, ok_bind]
    rw [if_neg hne, loopN_void f thr ts hv maxIter _ (by simp)]
  · intro k t ht
    have e1 : (List.zipWith (fun t e => updates f t maxIter e) ts (ts.map (fun _ => some centre)))[k]? = some (updates f t maxIter (some centre)) := by
      rw [List.getElem?_zipWith, List.getElem?_map, ht]
      rfl
    refine ⟨e1, ?_⟩
    intro hn h1
    obtain ⟨j, rfl⟩ : ∃ j, maxIter = j + 1 := ⟨maxIter - 1, by omega⟩
    rw [e1, hup t hn]

/-- C168 (partial): for sensors that are affine at each altitude the other pixels are still exact. -/
theorem C168_affine_partial (S : Affine K) (centre : K × K) (eps : K) (m : Nat) (thr : K) (maxIter : Nat) (h1 : 1 ≤ maxIter) (ts : List (TargetN K))
    (hv : ∃ t ∈ ts, t.alt = none) (k : Nat) (t : Target K) (hk : ts[k]? = some (known t)) (ha : S.a t.alt ≠ 0)
    (hd : S.a t.alt * S.e t.alt - S.b t.alt * S.d t.alt ≠ 0) :
    ∃ es e, solverN S.map centre eps m thr maxIter ts = .ok es ∧ es[k]? = some e ∧ Hits S.map t e := by
  obtain ⟨es, h2, -, h3⟩ := C168_void_partial S.map centre eps m thr maxIter ts hv
  refine ⟨es, _, h2, (h3 k _ hk).1, ?_⟩
  have two : (2 : K) ≠ 0 := two_ne_zero
  have step : ∀ p : K × K, Hits S.map t (newtonStepN S.map 2 2 (known t) (some p)) := fun p => step_affine S 2 2 two two t ha hd p.1 p.2
  have all : ∀ n (p : K × K), Hits S.map t (updates S.map (known t) (n + 1) (some p)) := by
    intro n
    induction n with
    | zero => intro p; exact step p
    | succ n ih =>
      intro p
      obtain ⟨lon, lat, e, -⟩ := step p
      have := ih (lon, lat)
      change Hits S.map t (updates S.map (known t) (n + 1) (newtonStepN S.map 2 2 (known t) (some p)))
      rw [e]
      exact this
  obtain ⟨j, rfl⟩ : ∃ j, maxIter = j + 1 := ⟨maxIter - 1, by omega⟩
  exact all j centre

end

/-- A sensor whose image coordinate jumps back by 20 at longitude 1, ten pixels per unit elsewhere (as easting does at a zone boundary). -/
def sawSensor (lon lat _alt : ℚ) : Option (ℚ × ℚ) := some (if lon < 1 then 10 * lon else 10 * (lon - 2), 10 * lat)

/-- C168 is false: there is a sensor and a pixel that is located exactly on its own, and is NaN when the request also contains a pixel without an altitude, for every
iteration limit. -/
theorem C168_others_lost_false : solverN sawSensor (0, 0) (1 / 64) 20 (1 / 100) 1 [⟨some 0, 5, 0⟩] = .ok [some (1 / 2, 0)] ∧
    ∀ (maxIter : Nat), 1 ≤ maxIter → ∀ (eps : ℚ) (m : Nat) (thr : ℚ),
      solverN sawSensor (0, 0) eps m thr maxIter [⟨some 0, 5, 0⟩, ⟨none, 0, 0⟩] = .ok [none, none] := by
  constructor
  · decide +kernel
  · intro n hn eps m thr
    obtain ⟨es, h1, h2, h3⟩ := C168_void_partial sawSensor (0, 0) eps m thr n [⟨some 0, 5, 0⟩, ⟨none, 0, 0⟩] ⟨⟨none, 0, 0⟩, by simp, rfl⟩
    have e0 := (h3 0 _ rfl).1
    have e1 := (h3 1 _ rfl).2 rfl hn
    have hnone : ∀ k, updates sawSensor ⟨some 0, 5, 0⟩ k none = none := by
      intro k
      induction k with
      | zero => rfl
      | succ k ih => exact ih
    have hu : updates sawSensor ⟨some 0, 5, 0⟩ n (some (0, 0)) = none := by
      obtain ⟨j, rfl⟩ : ∃ j, n = j + 1 := ⟨n - 1, by omega⟩
      change updates sawSensor ⟨some 0, 5, 0⟩ j (newtonStepN sawSensor 2 2 ⟨some 0, 5, 0⟩ (some (0, 0))) = none
      have : newtonStepN sawSensor 2 2 ⟨some 0, 5, 0⟩ (some (0, 0)) = none := by decide +kernel
      rw [this, hnone]
    rw [hu] at e0
    rw [h1]
    match es, h2 with
    | [a, b], _ =>
      simp only [List.getElem?_cons_zero, List.getElem?_cons_succ, Option.some.injEq] at e0 e1
      rw [e0, e1]


/-! ### Non-vacuity -/

/-- A raster with a void, filled with 7. -/
example : Fills (⟨3, 3, fun i j => if i = 1 ∧ j = 1 then none else some ((i + j : Nat) : ℚ)⟩) (⟨3, 3, fun i j => if i = 1 ∧ j = 1 then 7 else ((i + j : Nat) : ℚ)⟩) := by
  refine ⟨rfl, rfl, ?_⟩
  intro i j v h
  simp only [] at h ⊢
  split at h
  · cases h
  · rename_i hc
    rw [if_neg hc]
    exact Option.some.inj h

/-- The cell next to 3/2 in both directions. -/
example : Near 3 (3 / 2) 1 ∧ Near 3 (3 / 2) 2 ∧ Near 3 (-4) 0 ∧ Near 3 9 2 := by
  refine ⟨⟨by norm_num, fun _ _ => by rw [abs_lt]; constructor <;> norm_num, fun h => absurd h (by norm_num), fun h => absurd h (by norm_num)⟩,
    ⟨by norm_num, fun _ _ => by rw [abs_lt]; constructor <;> norm_num, fun h => absurd h (by norm_num), fun h => absurd h (by norm_num)⟩,
    ⟨by norm_num, fun h => absurd h (by norm_num), fun _ => rfl, fun h => absurd h (by norm_num)⟩,
    ⟨by norm_num, fun _ h => absurd h (by norm_num), fun h => absurd h (by norm_num), fun _ => rfl⟩⟩

/-- A ray that is lost: the void is just before the sample above the ray. -/
example : castRayN (fun u _ => if u = 2 then none else some 0) (101 : ℚ) (-1) 4 (0, 0) (3, 0) = .ok none := by decide +kernel
/-- A void behind the hit does not matter. -/
example : castRayN (fun u _ => if u = 3 then none else some (if u = 2 then 50 else 0)) (101 : ℚ) (-1) 4 (0, 0) (3, 0) = .ok (some (151 / 84, 0, 1675 / 42)) := by
  decide +kernel
/-- The hypotheses of `C166_unnoticed_false` with a void at longitude 1. -/
example : FirstAbove (fun _ _ => some 0) (101 : ℚ) (-1) 4 (0, 0) (3, 0) 2 ∧ at' (fun u _ => if u = 1 ∨ u = 0 then none else some (0 : ℚ)) 4 (0, 0) (3, 0) 1 = none := by
  refine ⟨⟨by norm_num, ?_, 0, rfl, by norm_num [rayAt]⟩, by norm_num [at', segPoint]⟩
  intro j hj e he
  cases he
  have : j = 0 ∨ j = 1 ∨ j = 2 := by omega
  rcases this with rfl | rfl | rfl <;> norm_num [rayAt]
/-- A wall at longitude 5/2 and a void at longitude 3: the pixel at longitude 2, altitude 0, is marked by the wall (mirrored as in C39). -/
example : KnownBlocked (fun x y => (fun u _ => if u = 3 then none else if u = 5 / 2 then some 60 else some (0 : ℚ)) (2 * 2 - x) (2 * 0 - y)) 2 0 0 0 0 (100001 / 1000) 4 :=
  ⟨1, 60, by norm_num, by norm_num, by norm_num, by norm_num⟩
/-- An affine sensor and a request with an unknown altitude. -/
example : ∃ t ∈ ([known ⟨(1 : ℚ), 2, 3⟩, ⟨none, 0, 0⟩] : List (TargetN ℚ)), t.alt = none := ⟨⟨none, 0, 0⟩, by simp, rfl⟩

end Verif.Voids
