import Verif.Lemmas.Base
import Verif.Lemmas.ImageUtils
import Verif.Model.PointCalc
import Mathlib.Tactic.FieldSimp
import Mathlib.Tactic.NormNum

/-! C16: shapes of the world-to-pixel wrapper.  C19, C20: the iterative pixel-to-world solver. -/

set_option linter.unusedSectionVars false

namespace Verif.PointCalc
open Verif ImageUtils

/-! ### C16 -/

/-- Specification: the pixel of a single ground point: transform the point to the sensor's projection
when the projections differ, then apply the sensor's mapping. -/
def pixelOf {K : Type} (native : K → K → K → K × K) (T : Option (K → K → K → K × K × K))
    (lon lat alt : K) : K × K :=
  match T with
  | none => native lon lat alt
  | some t => native (t lon lat alt).1 (t lon lat alt).2.1 (t lon lat alt).2.2

variable {K : Type}

theorem bAt_eq [Zero K] (a : A1 K) (k : Nat) (h : k < a.n) : bAt a k = a.px k := by
  unfold bAt
  split
  · rename_i h1
    rw [h1] at h
    rw [show k = 0 by omega]
  · rfl

theorem nativeVec_eq [Zero K] (native : K → K → K → K × K) (lo la al : A1 K) (h1 : lo.n = la.n) (h2 : lo.n = al.n) :
    ∃ xs ys : A1 K, nativeVec native lo la al = .ok (xs, ys) ∧ xs.n = lo.n ∧ ys.n = lo.n ∧
      ∀ k, k < lo.n → (xs.px k, ys.px k) = native (lo.px k) (la.px k) (al.px k) := by
  refine ⟨⟨lo.n, fun k => (native (bAt lo k) (bAt la k) (bAt al k)).1⟩, ⟨lo.n, fun k => (native (bAt lo k) (bAt la k) (bAt al k)).2⟩, ?_, rfl, rfl, ?_⟩
  · simp only [nativeVec, bcast, h1.symm, h2.symm, if_true, ok_bind]
  · intro k hk
    simp only []
    rw [bAt_eq lo k hk, bAt_eq la k (by omega), bAt_eq al k (by omega)]

theorem vec_eq [Zero K] (native : K → K → K → K × K) (T : Option (K → K → K → K × K × K))
    (lo la al : A1 K) (h1 : lo.n = la.n) (h2 : lo.n = al.n) :
    ∃ xs ys : A1 K, calcVec native T lo la al = .ok (xs, ys) ∧ xs.n = lo.n ∧ ys.n = lo.n ∧
      ∀ k, k < lo.n → (xs.px k, ys.px k) = pixelOf native T (lo.px k) (la.px k) (al.px k) := by
  cases T with
  | none => exact nativeVec_eq native lo la al h1 h2
  | some t =>
    simp only [calcVec, if_pos (And.intro h1 h2)]
    exact nativeVec_eq native _ _ _ h1 h2

/-- The altitude argument as seen at one position: None is 0, a number applies everywhere. -/
def AltAt1 [Zero K] (alts : Option (Nd K)) (n : Nat) (alt : Nat → K) : Prop :=
  (alts = none ∧ ∀ k, alt k = 0) ∨ (∃ v, alts = some (.num v) ∧ ∀ k, alt k = v) ∨
  (∃ a : A1 K, alts = some (.d1 a) ∧ a.n = n ∧ alt = a.px)

/-- The same for a two-dimensional request of shape `(ny, nx)`. -/
def AltAt2 [Zero K] (alts : Option (Nd K)) (ny nx : Nat) (alt : Nat → Nat → K) : Prop :=
  (alts = none ∧ ∀ y x, alt y x = 0) ∨ (∃ v, alts = some (.num v) ∧ ∀ y x, alt y x = v) ∨
  (∃ a : A2 K, alts = some (.d2 a) ∧ a.ny = ny ∧ a.nx = nx ∧ alt = a.px)

/-- C16, numbers in, numbers out. -/
theorem C16_scalar [Zero K] (native : K → K → K → K × K) (T : Option (K → K → K → K × K × K))
    (lon lat : K) (alts : Option (Nd K)) (alt : Nat → K) (ha : AltAt1 alts 1 alt) :
    worldToPixel native T (.num lon) (.num lat) alts =
      .ok (.num (pixelOf native T lon lat (alt 0)).1, .num (pixelOf native T lon lat (alt 0)).2) := by
  have key : ∀ al : A1 K, al.n = 1 → al.px 0 = alt 0 → ∃ xs ys : A1 K, calcVec native T ⟨1, fun _ => lon⟩ ⟨1, fun _ => lat⟩ al = .ok (xs, ys) ∧
      xs.n ≠ 0 ∧ xs.px 0 = (pixelOf native T lon lat (alt 0)).1 ∧ ys.px 0 = (pixelOf native T lon lat (alt 0)).2 := by
    intro al hn hv
    obtain ⟨xs, ys, e, h1, h2, h3⟩ := vec_eq native T ⟨1, fun _ => lon⟩ ⟨1, fun _ => lat⟩ al rfl hn.symm
    have := h3 0 (by simp)
    simp only [hv] at this
    exact ⟨xs, ys, e, by rw [h1]; simp, congrArg Prod.fst this, congrArg Prod.snd this⟩
  rcases ha with ⟨rfl, h⟩ | ⟨v, rfl, h⟩ | ⟨a, rfl, hn, rfl⟩
  · obtain ⟨xs, ys, e, h1, h2, h3⟩ := key ⟨1, fun _ => 0⟩ rfl (h 0).symm
    simp only [worldToPixel, ok_bind, e, h1, if_false, h2, h3]
  · obtain ⟨xs, ys, e, h1, h2, h3⟩ := key ⟨1, fun _ => v⟩ rfl (h 0).symm
    simp only [worldToPixel, ok_bind, e, h1, if_false, h2, h3]
  · obtain ⟨xs, ys, e, h1, h2, h3⟩ := key a hn rfl
    simp only [worldToPixel, ok_bind, e, h1, if_false, h2, h3]

/-- C16, one-dimensional arrays in, arrays of the same length out, position by position. -/
theorem C16_array1 [Zero K] (native : K → K → K → K × K) (T : Option (K → K → K → K × K × K))
    (lon lat : A1 K) (hn : lat.n = lon.n) (alts : Option (Nd K)) (alt : Nat → K)
    (ha : AltAt1 alts lon.n alt) :
    ∃ xs ys : A1 K, worldToPixel native T (.d1 lon) (.d1 lat) alts = .ok (.d1 xs, .d1 ys) ∧
      xs.n = lon.n ∧ ys.n = lon.n ∧
      ∀ k, k < lon.n → (xs.px k, ys.px k) = pixelOf native T (lon.px k) (lat.px k) (alt k) := by
  rcases ha with ⟨rfl, h⟩ | ⟨v, rfl, h⟩ | ⟨a, rfl, hn2, rfl⟩
  · obtain ⟨xs, ys, e, h1, h2, h3⟩ := vec_eq native T lon lat ⟨lon.n, fun _ => 0⟩ hn.symm rfl
    refine ⟨xs, ys, by simp only [worldToPixel, ok_bind, e], h1, h2, fun k hk => ?_⟩
    rw [h3 k hk, h k]
  · obtain ⟨xs, ys, e, h1, h2, h3⟩ := vec_eq native T lon lat ⟨lon.n, fun _ => v⟩ hn.symm rfl
    refine ⟨xs, ys, by simp only [worldToPixel, ok_bind, e], h1, h2, fun k hk => ?_⟩
    rw [h3 k hk, h k]
  · obtain ⟨xs, ys, e, h1, h2, h3⟩ := vec_eq native T lon lat a hn.symm hn2.symm
    exact ⟨xs, ys, by simp only [worldToPixel, ok_bind, e], h1, h2, h3⟩

theorem flat_index {nx y x : Nat} (h2 : x < nx) : (y * nx + x) / nx = y ∧ (y * nx + x) % nx = x := by
  constructor
  · rw [Nat.add_comm, Nat.add_mul_div_right _ _ (by omega), Nat.div_eq_of_lt h2]; omega
  · rw [Nat.add_comm, Nat.add_mul_mod_self_right, Nat.mod_eq_of_lt h2]

theorem array2_key [Zero K] (native : K → K → K → K × K) (T : Option (K → K → K → K × K × K)) (lon : A2 K) (la al : A1 K)
    (hla : la.n = lon.nx * lon.ny) (hal : al.n = lon.nx * lon.ny) :
    ∃ (px py : A1 K) (xs ys : A2 K), calcVec native T ⟨lon.nx * lon.ny, (flattenBand lon).px⟩ la al = .ok (px, py) ∧
      unflattenBand px lon.nx lon.ny = .ok xs ∧ unflattenBand py lon.nx lon.ny = .ok ys ∧
      xs.ny = lon.ny ∧ xs.nx = lon.nx ∧ ys.ny = lon.ny ∧ ys.nx = lon.nx ∧
      ∀ y x, y < lon.ny → x < lon.nx →
        (xs.px y x, ys.px y x) = pixelOf native T (lon.px y x) (la.px (y * lon.nx + x)) (al.px (y * lon.nx + x)) := by
  obtain ⟨px, py, e, h1, h2, h3⟩ := vec_eq native T ⟨lon.nx * lon.ny, (flattenBand lon).px⟩ la al hla.symm hal.symm
  simp only [] at h1 h2 h3
  refine ⟨px, py, _, _, e, if_pos (by rw [h1, Nat.mul_comm]), if_pos (by rw [h2, Nat.mul_comm]), rfl, rfl, rfl, rfl, ?_⟩
  intro y x hy hx
  obtain ⟨e1, e2⟩ := flat_index (y := y) hx
  have h4 : y * lon.nx + x < lon.nx * lon.ny := by nlinarith
  have := h3 _ h4
  simpa only [flattenBand, e1, e2] using this

/-- C16, two-dimensional arrays in, arrays of the same shape out, position by position. -/
theorem C16_array2 [Zero K] (native : K → K → K → K × K) (T : Option (K → K → K → K × K × K))
    (lon lat : A2 K) (hy : lat.ny = lon.ny) (hx : lat.nx = lon.nx) (alts : Option (Nd K))
    (alt : Nat → Nat → K) (ha : AltAt2 alts lon.ny lon.nx alt) :
    ∃ xs ys : A2 K, worldToPixel native T (.d2 lon) (.d2 lat) alts = .ok (.d2 xs, .d2 ys) ∧
      xs.ny = lon.ny ∧ xs.nx = lon.nx ∧ ys.ny = lon.ny ∧ ys.nx = lon.nx ∧
      ∀ y x, y < lon.ny → x < lon.nx →
        (xs.px y x, ys.px y x) = pixelOf native T (lon.px y x) (lat.px y x) (alt y x) := by
  have hla : reshape1 (lon.nx * lon.ny) (.d2 lat) = .ok (flattenBand lat) := if_pos (by rw [hy, hx, Nat.mul_comm])
  have hn : (flattenBand lat).n = lon.nx * lon.ny := by simp [flattenBand, hy, hx, Nat.mul_comm]
  have hlat : ∀ y x, x < lon.nx → (flattenBand lat).px (y * lon.nx + x) = lat.px y x := by
    intro y x h
    obtain ⟨e1, e2⟩ := flat_index (y := y) h
    simp only [flattenBand, hx, e1, e2]
  rcases ha with ⟨rfl, h⟩ | ⟨v, rfl, h⟩ | ⟨a, rfl, h1, h2, rfl⟩
  · obtain ⟨px, py, xs, ys, e, e1, e2, g1, g2, g3, g4, hv⟩ := array2_key native T lon (flattenBand lat) ⟨lon.nx * lon.ny, fun _ => 0⟩ hn rfl
    refine ⟨xs, ys, by simp only [worldToPixel, hla, ok_bind, e, e1, e2], g1, g2, g3, g4, fun y x h1 h2 => ?_⟩
    rw [hv y x h1 h2, hlat y x h2, h y x]
  · obtain ⟨px, py, xs, ys, e, e1, e2, g1, g2, g3, g4, hv⟩ := array2_key native T lon (flattenBand lat) ⟨lon.nx * lon.ny, fun _ => v⟩ hn rfl
    refine ⟨xs, ys, by simp only [worldToPixel, hla, ok_bind, e, e1, e2], g1, g2, g3, g4, fun y x h1 h2 => ?_⟩
    rw [hv y x h1 h2, hlat y x h2, h y x]
  · have hal : reshape1 (lon.nx * lon.ny) (.d2 a) = .ok (flattenBand a) := if_pos (by rw [h1, h2, Nat.mul_comm])
    obtain ⟨px, py, xs, ys, e, e1, e2, g1, g2, g3, g4, hv⟩ := array2_key native T lon (flattenBand lat) (flattenBand a) hn
      (by simp [flattenBand, h1, h2, Nat.mul_comm])
    refine ⟨xs, ys, by simp only [worldToPixel, hla, hal, ok_bind, e, e1, e2], g1, g2, g3, g4, fun y x h3 h4 => ?_⟩
    obtain ⟨f1, f2⟩ := flat_index (y := y) h4
    rw [hv y x h3 h4, hlat y x h4]
    simp only [flattenBand, h2, f1, f2]

/-- C16, mismatched one-dimensional arrays: neither of length one, or with a change of projection, they are rejected. -/
theorem C16_mismatch [Zero K] (native : K → K → K → K × K) (T : Option (K → K → K → K × K × K))
    (lon lat : A1 K) (hn : lat.n ≠ lon.n) (h1 : (lat.n ≠ 1 ∧ lon.n ≠ 1) ∨ T ≠ none) (alts : Option (Nd K)) :
    ∃ e, worldToPixel native T (.d1 lon) (.d1 lat) alts = .error e := by
  have : ∀ al, calcVec native T lon lat al = .error .valueError := by
    intro al
    cases T with
    | none =>
      obtain ⟨h1, h2⟩ := h1.resolve_right (fun h => h rfl)
      simp only [calcVec, nativeVec, bcast, if_neg (Ne.symm hn), if_neg h1, if_neg h2, error_bind]
    | some t =>
      simp only [calcVec]
      rw [if_neg (fun h => hn h.1.symm)]
  rcases alts with _ | (v | a | a)
  · exact ⟨.valueError, by simp only [worldToPixel, ok_bind, this, error_bind]⟩
  · exact ⟨.valueError, by simp only [worldToPixel, ok_bind, this, error_bind]⟩
  · exact ⟨.valueError, by simp only [worldToPixel, ok_bind, this, error_bind]⟩
  · exact ⟨.notImplemented, by simp only [worldToPixel, error_bind]⟩

/-- C16, without a change of projection an array of one latitude (or of one longitude) goes with every position of the other. -/
theorem C16_one_element [Zero K] (native : K → K → K → K × K) (lon lat : A1 K) (v : K) :
    (lat.n = 1 → ∃ xs ys : A1 K, worldToPixel native none (.d1 lon) (.d1 lat) (some (.num v)) = .ok (.d1 xs, .d1 ys) ∧ xs.n = lon.n ∧ ys.n = lon.n ∧
      ∀ k, k < lon.n → (xs.px k, ys.px k) = native (lon.px k) (lat.px 0) v) ∧
    (lon.n = 1 → 0 < lat.n → ∃ xs ys : A1 K, worldToPixel native none (.d1 lon) (.d1 lat) (some (.num v)) = .ok (.d1 xs, .d1 ys) ∧
      xs.n = lat.n ∧ ys.n = lat.n ∧ ∀ k, k < lat.n → (xs.px k, ys.px k) = native (lon.px 0) (lat.px k) v) := by
  constructor
  · intro h
    have hb : bcast lon.n lat.n = .ok lon.n := by
      unfold bcast
      rw [h]
      split
      · rfl
      · split <;> simp_all
    refine ⟨⟨lon.n, fun k => (native (bAt lon k) (bAt lat k) v).1⟩, ⟨lon.n, fun k => (native (bAt lon k) (bAt lat k) v).2⟩, ?_, rfl, rfl, ?_⟩
    · have hb2 : bcast lon.n lon.n = .ok lon.n := if_pos rfl
      simp only [worldToPixel, ok_bind, calcVec, nativeVec, hb, hb2]
      rfl
    · intro k hk
      simp only []
      rw [bAt_eq lon k hk]
      simp only [bAt, h, if_true]
  · intro h h0
    have hb : bcast lon.n lat.n = .ok lat.n := by
      unfold bcast
      split
      · rename_i he; rw [he]
      · simp [h]
    have hb2 : bcast lat.n lon.n = .ok lat.n := by
      unfold bcast
      rw [h]
      split
      · rfl
      · split <;> simp_all
    refine ⟨⟨lat.n, fun k => (native (bAt lon k) (bAt lat k) v).1⟩, ⟨lat.n, fun k => (native (bAt lon k) (bAt lat k) v).2⟩, ?_, rfl, rfl, ?_⟩
    · simp only [worldToPixel, ok_bind, calcVec, nativeVec, hb, hb2]
      rfl
    · intro k hk
      simp only []
      rw [bAt_eq lat k hk]
      simp only [bAt, h, if_true]

/-- Number of elements of an argument. -/
def Nd.size {α : Type} : Nd α → Nat
  | .num _ => 1
  | .d1 a => a.n
  | .d2 a => a.ny * a.nx

/-- Element `k` of an argument, counted row by row. -/
def Nd.flat {α : Type} : Nd α → Nat → α
  | .num v => fun _ => v
  | .d1 a => a.px
  | .d2 a => fun k => a.px (k / a.nx) (k % a.nx)

/-- C16: with two-dimensional longitudes, latitudes of any form but with the same number of elements are taken row by row;
with another number of elements the call is a ValueError. -/
theorem C16_array2_any [Zero K] (native : K → K → K → K × K) (T : Option (K → K → K → K × K × K)) (lon : A2 K) (lats : Nd K) (v : K) :
    (lats.size = lon.ny * lon.nx →
      ∃ xs ys : A2 K, worldToPixel native T (.d2 lon) lats (some (.num v)) = .ok (.d2 xs, .d2 ys) ∧
        xs.ny = lon.ny ∧ xs.nx = lon.nx ∧ ys.ny = lon.ny ∧ ys.nx = lon.nx ∧
        ∀ y x, y < lon.ny → x < lon.nx →
          (xs.px y x, ys.px y x) = pixelOf native T (lon.px y x) (lats.flat (y * lon.nx + x)) v) ∧
    (lats.size ≠ lon.ny * lon.nx → worldToPixel native T (.d2 lon) lats (some (.num v)) = .error .valueError) := by
  constructor
  · intro h
    obtain ⟨la, hla, hn, hv⟩ : ∃ la, reshape1 (lon.nx * lon.ny) lats = .ok la ∧ la.n = lon.nx * lon.ny ∧
        ∀ k, k < lon.nx * lon.ny → la.px k = lats.flat k := by
      rw [Nat.mul_comm] at h
      cases lats with
      | num v => exact ⟨_, if_pos h.symm, h, fun _ _ => rfl⟩
      | d1 a => exact ⟨_, if_pos h, h, fun _ _ => rfl⟩
      | d2 a => exact ⟨_, if_pos h, h, fun _ _ => rfl⟩
    obtain ⟨px, py, xs, ys, e, e1, e2, g1, g2, g3, g4, hv'⟩ := array2_key native T lon la ⟨lon.nx * lon.ny, fun _ => v⟩ hn rfl
    refine ⟨xs, ys, by simp only [worldToPixel, hla, ok_bind, e, e1, e2], g1, g2, g3, g4, fun y x h1 h2 => ?_⟩
    have h3 : y * lon.nx + x < lon.nx * lon.ny := by nlinarith
    rw [hv' y x h1 h2, hv _ h3]
  · intro h
    have : reshape1 (lon.nx * lon.ny) lats = .error .valueError := by
      rw [Nat.mul_comm] at h
      cases lats with
      | num v => exact if_neg (fun hc => h hc.symm)
      | d1 a => exact if_neg h
      | d2 a => exact if_neg h
    simp only [worldToPixel, this, error_bind]

example : ∃ xs ys : A2 ℚ, worldToPixel (fun a b c => (a + c, b)) (some fun a b c => (2 * a, b, c))
    (.d2 ⟨2, 3, fun y x => (y : ℚ) + x⟩) (.d2 ⟨2, 3, fun _ x => (x : ℚ)⟩) (some (.num 5)) = .ok (.d2 xs, .d2 ys) ∧
    xs.px 1 2 = 11 := by
  obtain ⟨xs, ys, h, -, -, -, -, hv⟩ := C16_array2 (fun a b c => (a + c, b))
    (some fun a b c => (2 * a, b, c)) (⟨2, 3, fun y x => y + x⟩ : A2 ℚ) ⟨2, 3, fun _ x => x⟩ rfl rfl
    (some (.num 5)) (fun _ _ => 5) (Or.inr (Or.inl ⟨5, rfl, fun _ _ => rfl⟩))
  refine ⟨xs, ys, h, ?_⟩
  have := congrArg Prod.fst (hv 1 2 (by decide) (by decide))
  simp only at this
  rw [this]
  norm_num [pixelOf]

/-! ### C19 -/

section solverProps
variable [Field K] [LinearOrder K] [IsStrictOrderedRing K]

/-- Specification: a sensor that is affine in (lon, lat) at each altitude. -/
structure Affine (K : Type) where
  a : K → K
  b : K → K
  c : K → K
  d : K → K
  e : K → K
  g : K → K

/-- The mapping of an affine sensor. -/
def Affine.map (S : Affine K) (lon lat alt : K) : Option (K × K) :=
  some (S.a alt * lon + S.b alt * lat + S.c alt, S.d alt * lon + S.e alt * lat + S.g alt)

/-- A ground position projects exactly onto the target. -/
def Hits (f : K → K → K → Option (K × K)) (t : Target K) (e : Option (K × K)) : Prop :=
  ∃ lon lat, e = some (lon, lat) ∧ f lon lat t.alt = some (t.x, t.y)

theorem solve_second (a b d e D p q : K) (ha : a ≠ 0) (hD : D ≠ 0) (h : D = e * a - b * d) :
    d * ((p - (q * a - d * p) / D * b) / a) + e * ((q * a - d * p) / D) = q := by
  field_simp
  rw [h]
  ring

theorem step_affine (S : Affine K) (dLon dLat : K) (h1 : dLon ≠ 0) (h2 : dLat ≠ 0) (t : Target K)
    (ha : S.a t.alt ≠ 0) (hd : S.a t.alt * S.e t.alt - S.b t.alt * S.d t.alt ≠ 0) (lon lat : K) :
    Hits S.map t (newtonStep S.map dLon dLat t.alt t.x t.y (some (lon, lat))) := by
  have e1 : ∀ u v w : K, (S.a t.alt * (lon + dLon) + v + w - (S.a t.alt * lon + v + w)) / dLon = S.a t.alt := by
    intros; field_simp; ring
  have e2 : ∀ u w : K, (u + S.b t.alt * (lat + dLat) + w - (u + S.b t.alt * lat + w)) / dLat = S.b t.alt := by
    intros; field_simp; ring
  have e3 : ∀ v w : K, (S.d t.alt * (lon + dLon) + v + w - (S.d t.alt * lon + v + w)) / dLon = S.d t.alt := by
    intros; field_simp; ring
  have e4 : ∀ u w : K, (u + S.e t.alt * (lat + dLat) + w - (u + S.e t.alt * lat + w)) / dLat = S.e t.alt := by
    intros; field_simp; ring
  have hd' : S.e t.alt * S.a t.alt - S.b t.alt * S.d t.alt ≠ 0 := by
    rwa [mul_comm (S.e t.alt)]
  simp only [newtonStep, Affine.map, Option.bind_eq_bind, Option.bind_some, fdiv, if_neg h1, if_neg h2,
    e1 0, e2, e3, e4, if_neg ha, if_neg hd']
  refine ⟨_, _, rfl, ?_⟩
  simp only [Affine.map, Option.some.injEq, Prod.mk.injEq]
  constructor
  · field_simp
    ring
  · have h := solve_second (S.a t.alt) (S.b t.alt) (S.d t.alt) (S.e t.alt) (S.e t.alt * S.a t.alt - S.b t.alt * S.d t.alt)
      (t.x - (S.a t.alt * lon + S.b t.alt * lat + S.c t.alt))
      (t.y - (S.d t.alt * lon + S.e t.alt * lat + S.g t.alt)) ha hd' rfl
    linear_combination h

theorem loop_affine (S : Affine K) (dLon dLat thr : K) (h1 : dLon ≠ 0) (h2 : dLat ≠ 0)
    (ts : List (Target K)) (ht : ∀ t ∈ ts, S.a t.alt ≠ 0 ∧ S.a t.alt * S.e t.alt - S.b t.alt * S.d t.alt ≠ 0) :
    ∀ (n : Nat) (es : List (Option (K × K))), 0 < n → es.length = ts.length → (∀ e ∈ es, e.isSome) →
      List.Forall₂ (Hits S.map) ts (newtonLoop S.map dLon dLat thr n ts es) := by
  have hstep : ∀ (ts' : List (Target K)) (es : List (Option (K × K))), (∀ t ∈ ts', t ∈ ts) →
      es.length = ts'.length → (∀ e ∈ es, e.isSome) →
      List.Forall₂ (Hits S.map) ts' (List.zipWith (fun t e => newtonStep S.map dLon dLat t.alt t.x t.y e) ts' es) := by
    intro ts'
    induction ts' with
    | nil => intro es _ hl _; simp
    | cons t ts' ih =>
      intro es hm hl hs
      cases es with
      | nil => simp at hl
      | cons e es =>
        simp only [List.zipWith_cons_cons]
        refine List.Forall₂.cons ?_ (ih es (fun u hu => hm u (by simp [hu])) (by simpa using hl)
          (fun x hx => hs x (by simp [hx])))
        obtain ⟨p, rfl⟩ := Option.isSome_iff_exists.mp (hs e (by simp))
        exact step_affine S dLon dLat h1 h2 t (ht t (hm t (by simp))).1 (ht t (hm t (by simp))).2 p.1 p.2
  intro n
  induction n with
  | zero => intro es h; omega
  | succ n ih =>
    intro es _ hl hs
    have hz := hstep ts es (fun _ h => h) hl hs
    unfold newtonLoop
    simp only []
    split
    · exact hz
    · rcases Nat.eq_zero_or_pos n with rfl | hn
      · simpa [newtonLoop] using hz
      · refine ih _ hn hz.length_eq.symm ?_
        intro e he
        obtain ⟨i, hi, rfl⟩ := List.mem_iff_getElem.mp he
        have := List.forall₂_iff_get.mp hz
        obtain ⟨lon, lat, hh, _⟩ := this.2 i (by rw [this.1]; exact hi) hi
        simp only [List.get_eq_getElem] at hh
        rw [hh]; rfl

theorem findDelta_ok (move : K → K × K) : ∀ (m : Nat) (eps d : K), eps ≠ 0 → findDelta move eps m = .ok d → d ≠ 0 := by
  intro m
  induction m with
  | zero => intro eps d _ h; simp [findDelta] at h
  | succ m ih =>
    intro eps d he h
    unfold findDelta at h
    split at h
    · simp only [Except.ok.injEq] at h; rw [← h]; exact he
    · exact ih (eps * 2) d (mul_ne_zero he two_ne_zero) h

theorem findDelta_exists (move : K → K × K) : ∀ (m : Nat) (eps : K),
    (∃ j, j < m ∧ (move (eps * 2 ^ j)).1 ^ 2 + (move (eps * 2 ^ j)).2 ^ 2 > 1) →
    ∃ d, findDelta move eps m = .ok d := by
  intro m
  induction m with
  | zero => rintro eps ⟨j, hj, _⟩; omega
  | succ m ih =>
    rintro eps ⟨j, hj, h⟩
    unfold findDelta
    split
    · exact ⟨_, rfl⟩
    · rename_i hn
      apply ih
      cases j with
      | zero => simp [pow_two] at h; exact absurd h hn
      | succ j =>
        refine ⟨j, by omega, ?_⟩
        have : eps * 2 * 2 ^ j = eps * 2 ^ (j + 1) := by rw [pow_succ]; ring
        rw [this]; exact h

theorem allFinite_affine (S : Affine K) (c1 c2 alt : K) : ∀ (m : Nat) (eps : K),
    allFinite (fun d => S.map (c1 + d) c2 alt) eps m = true := by
  intro m
  induction m with
  | zero => intro eps; rfl
  | succ m ih => intro eps; unfold allFinite; rw [ih]; simp [Affine.map]

/-- C19 (partial: the derivative of x along longitude must not vanish, see `C19_rotated_false`).
For an affine invertible sensor, any starting centre, any non-zero deltas, any threshold and any
positive iteration limit, the ground points project exactly onto the requested pixels. -/
theorem C19_exact_given_deltas_partial (S : Affine K) (dLon dLat thr : K) (h1 : dLon ≠ 0) (h2 : dLat ≠ 0)
    (centre : K × K) (ts : List (Target K)) (maxIter : Nat) (hm : 1 ≤ maxIter)
    (ht : ∀ t ∈ ts, S.a t.alt ≠ 0 ∧ S.a t.alt * S.e t.alt - S.b t.alt * S.d t.alt ≠ 0) :
    List.Forall₂ (Hits S.map) ts
      (newtonLoop S.map dLon dLat thr maxIter ts (ts.map (fun _ => some centre))) :=
  loop_affine S dLon dLat thr h1 h2 ts ht maxIter _ hm (by simp) (by simp)

/-- C19 (partial) with the deltas found by the code itself: if some doubling of the machine epsilon
moves the centre by more than a pixel in each direction, the call succeeds and is exact. -/
theorem C19_exact_partial (S : Affine K) (centre : K × K) (eps : K) (heps : eps ≠ 0) (m : Nat)
    (meanAlt thr : K) (ts : List (Target K)) (hne : ts ≠ []) (maxIter : Nat) (hm : 1 ≤ maxIter)
    (ht : ∀ t ∈ ts, S.a t.alt ≠ 0 ∧ S.a t.alt * S.e t.alt - S.b t.alt * S.d t.alt ≠ 0)
    (hlon : ∃ j, j < m ∧ (S.a meanAlt * (eps * 2 ^ j)) ^ 2 + (S.d meanAlt * (eps * 2 ^ j)) ^ 2 > 1)
    (hlat : ∃ j, j < m ∧ (S.b meanAlt * (eps * 2 ^ j)) ^ 2 + (S.e meanAlt * (eps * 2 ^ j)) ^ 2 > 1) :
    ∃ es, solver S.map centre eps m meanAlt thr maxIter ts = .ok es ∧
      List.Forall₂ (Hits S.map) ts es := by
  unfold solver
  simp only [allFinite_affine]
  simp only [Affine.map, Option.isSome_some, Bool.and_self, if_true]
  obtain ⟨da, hda⟩ := findDelta_exists (fun d => (S.a meanAlt * (centre.1 + d) + S.b meanAlt * centre.2 +
    S.c meanAlt - (S.a meanAlt * centre.1 + S.b meanAlt * centre.2 + S.c meanAlt),
    S.d meanAlt * (centre.1 + d) + S.e meanAlt * centre.2 +
    S.g meanAlt - (S.d meanAlt * centre.1 + S.e meanAlt * centre.2 + S.g meanAlt))) m eps (by
      obtain ⟨j, hj, h⟩ := hlon
      refine ⟨j, hj, ?_⟩
      simp only []
      ring_nf at h ⊢
      exact h)
  obtain ⟨db, hdb⟩ := findDelta_exists (fun d => (S.a meanAlt * centre.1 + S.b meanAlt * (centre.2 + d) +
    S.c meanAlt - (S.a meanAlt * centre.1 + S.b meanAlt * centre.2 + S.c meanAlt),
    S.d meanAlt * centre.1 + S.e meanAlt * (centre.2 + d) +
    S.g meanAlt - (S.d meanAlt * centre.1 + S.e meanAlt * centre.2 + S.g meanAlt))) m eps (by
      obtain ⟨j, hj, h⟩ := hlat
      refine ⟨j, hj, ?_⟩
      simp only []
      ring_nf at h ⊢
      exact h)
  rw [hda, hdb]
  simp only [ok_bind]
  rw [if_neg (by simp [hne])]
  exact ⟨_, rfl, C19_exact_given_deltas_partial S da db thr (findDelta_ok _ _ _ _ heps hda)
    (findDelta_ok _ _ _ _ heps hdb) centre ts maxIter hm ht⟩

theorem allFinite_false (g : K → Option (K × K)) : ∀ (m : Nat) (eps : K) (j : Nat), j < m → g (eps * 2 ^ j) = none →
    allFinite g eps m = false := by
  intro m
  induction m with
  | zero => intro eps j h; omega
  | succ m ih =>
    intro eps j hj h
    unfold allFinite
    cases j with
    | zero => simp at h; simp [h]
    | succ j =>
      rw [ih (eps * 2) j (by omega) (by rw [← h, pow_succ]; congr 1; ring)]
      simp

/-- The point, and the two points two units east and two units north of it, are in the region. -/
def Roomy (D : K → K → Prop) (p : K × K) : Prop := D p.1 p.2 ∧ D (p.1 + 2) p.2 ∧ D p.1 (p.2 + 2)

theorem step_region (S : Affine K) (f : K → K → K → Option (K × K)) (D : K → K → Prop)
    (hf : ∀ lon lat alt, D lon lat → f lon lat alt = S.map lon lat alt) (alt x y : K) (p : K × K) (hp : Roomy D p) :
    newtonStep f 2 2 alt x y (some p) = newtonStep S.map 2 2 alt x y (some p) := by
  obtain ⟨lon, lat⟩ := p
  obtain ⟨h1, h2, h3⟩ := hp
  simp only [newtonStep, Option.bind_eq_bind, Option.bind_some, hf _ _ _ h1, hf _ _ _ h2, hf _ _ _ h3]

/-- C19: the solver is also exact for a sensor that is affine only on a region and sees nothing outside it,
as long as the centre and the requested ground points are at least two units inside: the search for step
sizes then meets points that are not seen and both steps are 2. -/
theorem C19_region_partial (S : Affine K) (f : K → K → K → Option (K × K)) (D : K → K → Prop)
    (hf : ∀ lon lat alt, D lon lat → f lon lat alt = S.map lon lat alt)
    (centre : K × K) (eps : K) (m : Nat) (meanAlt thr : K) (ts : List (Target K)) (hne : ts ≠ []) (maxIter : Nat) (hm : 1 ≤ maxIter)
    (ht : ∀ t ∈ ts, S.a t.alt ≠ 0 ∧ S.a t.alt * S.e t.alt - S.b t.alt * S.d t.alt ≠ 0)
    (hc : Roomy D centre) (hs : ∀ t ∈ ts, ∀ lon lat, S.map lon lat t.alt = some (t.x, t.y) → Roomy D (lon, lat))
    (hout : ∃ j, j < m ∧ f (centre.1 + eps * 2 ^ j) centre.2 meanAlt = none) :
    ∃ es, solver f centre eps m meanAlt thr maxIter ts = .ok es ∧ List.Forall₂ (Hits f) ts es := by
  have hzip : ∀ (ts' : List (Target K)) (es : List (Est K)), (∀ e ∈ es, ∃ p, e = some p ∧ Roomy D p) →
      List.zipWith (fun t e => newtonStep f 2 2 t.alt t.x t.y e) ts' es =
      List.zipWith (fun t e => newtonStep S.map 2 2 t.alt t.x t.y e) ts' es := by
    intro ts'
    induction ts' with
    | nil => intro es _; simp
    | cons t ts' ih =>
      intro es h
      cases es with
      | nil => simp
      | cons e es =>
        obtain ⟨p, rfl, hp⟩ := h e (by simp)
        simp only [List.zipWith_cons_cons]
        rw [ih es (fun e he => h e (by simp [he])), step_region S f D hf t.alt t.x t.y p hp]
  have hwit : ∀ (ts' : List (Target K)) (es : List (Est K)), (∀ e ∈ es, ∃ p, e = some p ∧ Roomy D p) →
      List.zipWith (fun t e => within f thr t.alt t.x t.y e) ts' es =
      List.zipWith (fun t e => within S.map thr t.alt t.x t.y e) ts' es := by
    intro ts'
    induction ts' with
    | nil => intro es _; simp
    | cons t ts' ih =>
      intro es h
      cases es with
      | nil => simp
      | cons e es =>
        obtain ⟨⟨lon, lat⟩, rfl, hp⟩ := h e (by simp)
        simp only [List.zipWith_cons_cons]
        rw [ih es (fun e he => h e (by simp [he]))]
        congr 1
        simp only [within, hf lon lat t.alt hp.1]
  have hroomy : ∀ es, List.Forall₂ (Hits S.map) ts es → ∀ e ∈ es, ∃ p, e = some p ∧ Roomy D p := by
    intro es h e he
    obtain ⟨i, hi, rfl⟩ := List.mem_iff_getElem.mp he
    have h' := List.forall₂_iff_get.mp h
    obtain ⟨lon, lat, hh, hm⟩ := h'.2 i (by rw [h'.1]; exact hi) hi
    simp only [List.get_eq_getElem] at hh hm
    exact ⟨(lon, lat), hh, hs _ (List.getElem_mem _) lon lat hm⟩
  have hloop : ∀ (n : Nat) (es : List (Est K)), (∀ e ∈ es, ∃ p, e = some p ∧ Roomy D p) → es.length = ts.length →
      newtonLoop f 2 2 thr n ts es = newtonLoop S.map 2 2 thr n ts es := by
    intro n
    induction n with
    | zero => intro es _ _; rfl
    | succ n ih =>
      intro es he hl
      have h1 : List.Forall₂ (Hits S.map) ts (List.zipWith (fun t e => newtonStep S.map 2 2 t.alt t.x t.y e) ts es) := by
        have := loop_affine S 2 2 thr two_ne_zero two_ne_zero ts ht 1 es (by omega) hl
          (fun e h => by obtain ⟨p, rfl, _⟩ := he e h; rfl)
        unfold newtonLoop at this
        simp only [newtonLoop, ite_self] at this
        exact this
      have h2 := hroomy _ h1
      unfold newtonLoop
      simp only []
      rw [hzip ts es he, hwit ts _ h2]
      split
      · rfl
      · exact ih _ h2 h1.length_eq.symm
  have hstart : ∀ e ∈ ts.map (fun _ => (some centre : Est K)), ∃ p, e = some p ∧ Roomy D p := by
    intro e he
    obtain ⟨_, _, rfl⟩ := List.mem_map.1 he
    exact ⟨centre, rfl, hc⟩
  obtain ⟨j, hj, hn⟩ := hout
  unfold solver
  simp only [allFinite_false (fun d => f (centre.1 + d) centre.2 meanAlt) m eps j hj hn, Bool.and_false, Bool.false_eq_true, if_false,
    ok_bind]
  rw [if_neg (by simp [hne])]
  refine ⟨_, rfl, ?_⟩
  rw [hloop maxIter _ hstart (by simp)]
  have h1 := C19_exact_given_deltas_partial S 2 2 thr two_ne_zero two_ne_zero centre ts maxIter hm ht
  have h2 := hroomy _ h1
  rw [List.forall₂_iff_get] at h1 ⊢
  refine ⟨h1.1, ?_⟩
  intro i hi hi'
  obtain ⟨lon, lat, hh, hmap⟩ := h1.2 i hi hi'
  obtain ⟨p, hp, hr⟩ := h2 _ (List.get_mem _ ⟨i, hi'⟩)
  rw [hh] at hp
  cases hp
  exact ⟨lon, lat, hh, by rw [hf _ _ _ hr.1, hmap]⟩

/-- The hypotheses of `C19_region_partial` are met: x = 3 lon, y = 3 lat, seen only for lon < 50. -/
example : Roomy (fun lon (_ : ℚ) => lon < 50) ((0, 0) : ℚ × ℚ) ∧
    (∀ lon lat : ℚ, Affine.map ⟨fun _ => 3, fun _ => 0, fun _ => 0, fun _ => 0, fun _ => 3, fun _ => 0⟩ lon lat 0 = some (6, 9) →
      Roomy (fun lon (_ : ℚ) => lon < 50) (lon, lat)) ∧
    ∃ j, j < 10 ∧ (if (0 : ℚ) + 1 * 2 ^ j < 50 then some ((0 : ℚ), (0 : ℚ)) else none) = none := by
  refine ⟨⟨by norm_num, by norm_num, by norm_num⟩, ?_, ⟨6, by norm_num, by norm_num⟩⟩
  intro lon lat h
  simp only [Affine.map, Option.some.injEq, Prod.mk.injEq] at h
  refine ⟨?_, ?_, ?_⟩ <;> simp only [] <;> linarith [h.1]

/-- C19: an empty request is a ValueError once one iteration is allowed, and an empty answer otherwise (affine sensor, centre that moves by
more than a pixel for some step in each direction). -/
theorem C19_empty (S : Affine K) (centre : K × K) (eps : K) (m : Nat) (meanAlt thr : K) (maxIter : Nat)
    (hlon : ∃ j, j < m ∧ (S.a meanAlt * (eps * 2 ^ j)) ^ 2 + (S.d meanAlt * (eps * 2 ^ j)) ^ 2 > 1)
    (hlat : ∃ j, j < m ∧ (S.b meanAlt * (eps * 2 ^ j)) ^ 2 + (S.e meanAlt * (eps * 2 ^ j)) ^ 2 > 1) :
    solver S.map centre eps m meanAlt thr maxIter [] = if maxIter = 0 then .ok [] else .error .valueError := by
  obtain ⟨da, hda⟩ := findDelta_exists (fun d => (S.a meanAlt * (centre.1 + d) + S.b meanAlt * centre.2 +
    S.c meanAlt - (S.a meanAlt * centre.1 + S.b meanAlt * centre.2 + S.c meanAlt),
    S.d meanAlt * (centre.1 + d) + S.e meanAlt * centre.2 +
    S.g meanAlt - (S.d meanAlt * centre.1 + S.e meanAlt * centre.2 + S.g meanAlt))) m eps (by
      obtain ⟨j, hj, h⟩ := hlon
      refine ⟨j, hj, ?_⟩
      simp only []
      ring_nf at h ⊢
      exact h)
  obtain ⟨db, hdb⟩ := findDelta_exists (fun d => (S.a meanAlt * centre.1 + S.b meanAlt * (centre.2 + d) +
    S.c meanAlt - (S.a meanAlt * centre.1 + S.b meanAlt * centre.2 + S.c meanAlt),
    S.d meanAlt * centre.1 + S.e meanAlt * (centre.2 + d) +
    S.g meanAlt - (S.d meanAlt * centre.1 + S.e meanAlt * centre.2 + S.g meanAlt))) m eps (by
      obtain ⟨j, hj, h⟩ := hlat
      refine ⟨j, hj, ?_⟩
      simp only []
      ring_nf at h ⊢
      exact h)
  unfold solver
  simp only [allFinite_affine]
  simp only [Affine.map, Option.isSome_some, Bool.and_self, if_true]
  rw [hda, hdb]
  simp only [ok_bind, true_and]
  by_cases h : maxIter = 0
  · subst h; simp [newtonLoop]
  · rw [if_pos (by omega), if_neg h]

/-- C19 fails for an affine invertible sensor whose x coordinate does not depend on longitude (for
instance an image rotated by a quarter turn, x = lat, y = lon): every answer is non-finite,
whatever the deltas, threshold, centre and iteration limit. -/
theorem C19_rotated_false (dLon dLat thr : K) (centre : K × K) (t : Target K) (maxIter : Nat)
    (hm : 1 ≤ maxIter) :
    newtonLoop (fun lon lat _ => some (lat, lon)) dLon dLat thr maxIter [t] [some centre] = [none] := by
  have hs : ∀ e, newtonStep (fun lon lat _ => some (lat, lon)) dLon dLat t.alt t.x t.y e = none := by
    intro e
    cases e with
    | none => rfl
    | some p =>
      simp only [newtonStep, Option.bind_eq_bind, Option.bind_some, fdiv]
      split <;> simp
  have hn : ∀ n, newtonLoop (fun lon lat _ => some (lat, lon)) dLon dLat thr n [t] [none] = [none] := by
    intro n
    induction n with
    | zero => rfl
    | succ n ih =>
      unfold newtonLoop
      simp only [List.zipWith_cons_cons, List.zipWith_nil_left, hs, within]
      simpa using ih
  cases maxIter with
  | zero => omega
  | succ n =>
    unfold newtonLoop
    simp only [List.zipWith_cons_cons, List.zipWith_nil_left, hs, within]
    simpa using hn n

example : ∃ es, solver (Affine.map ⟨fun _ => 2, fun _ => 1, fun z => z, fun _ => 1, fun _ => -3, fun _ => 0⟩)
    ((10, 20) : ℚ × ℚ) (1 / 1024) 12 5 (1 / 100) 1000 [⟨5, 7, 8⟩, ⟨6, -7, 100⟩] = .ok es ∧
    List.Forall₂ (Hits (Affine.map ⟨fun _ => 2, fun _ => 1, fun z => z, fun _ => 1, fun _ => -3, fun _ => 0⟩))
      [⟨5, 7, 8⟩, ⟨6, -7, 100⟩] es := by
  apply C19_exact_partial
  · norm_num
  · simp
  · norm_num
  · intro t _; norm_num
  · exact ⟨11, by norm_num⟩
  · exact ⟨11, by norm_num⟩

/-! ### C20 -/

/-- Specification: the estimate projects within the threshold of the target in both coordinates. -/
def Reprojects (f : K → K → K → Option (K × K)) (thr : K) (t : Target K) (e : Option (K × K)) : Prop :=
  ∃ lon lat x y, e = some (lon, lat) ∧ f lon lat t.alt = some (x, y) ∧ |t.x - x| ≤ thr ∧ |t.y - y| ≤ thr

theorem within_iff (f : K → K → K → Option (K × K)) (thr : K) (t : Target K) (e : Option (K × K)) :
    within f thr t.alt t.x t.y e = true ↔ Reprojects f thr t e := by
  unfold within Reprojects
  rcases e with _ | ⟨lon, lat⟩
  · simp
  · simp only [Option.some.injEq, Prod.mk.injEq]
    constructor
    · intro h
      split at h
      · simp at h
      · rename_i x y hf
        exact ⟨lon, lat, x, y, ⟨rfl, rfl⟩, hf, by simpa using h⟩
    · rintro ⟨lon', lat', x, y, ⟨rfl, rfl⟩, hf, h⟩
      rw [hf]
      simpa using h

theorem all_within (f : K → K → K → Option (K × K)) (thr : K) : ∀ (ts : List (Target K)) (es : List (Option (K × K))),
    es.length = ts.length →
    ((List.zipWith (fun t e => within f thr t.alt t.x t.y e) ts es).all id = true ↔
      List.Forall₂ (Reprojects f thr) ts es) := by
  intro ts
  induction ts with
  | nil => intro es h; cases es with
    | nil => simp
    | cons => simp at h
  | cons t ts ih =>
    intro es h
    cases es with
    | nil => simp at h
    | cons e es =>
      simp only [List.zipWith_cons_cons, List.all_cons, Bool.and_eq_true, id, List.forall₂_cons]
      rw [within_iff, ← ih es (by simpa using h)]

/-- The estimates after `k` updates, whatever the errors. -/
def iterate (f : K → K → K → Option (K × K)) (dLon dLat : K) (ts : List (Target K)) :
    Nat → List (Option (K × K)) → List (Option (K × K))
  | 0, es => es
  | k + 1, es => iterate f dLon dLat ts k (List.zipWith (fun t e => newtonStep f dLon dLat t.alt t.x t.y e) ts es)

/-- C20 (partial: convergence is not guaranteed, see `C20_silent_false`).  For every sensor mapping,
the answer reprojects within the threshold, or the iteration limit was used up and no iterate
reprojected within the threshold. -/
theorem C20_threshold_or_exhausted_partial (f : K → K → K → Option (K × K)) (dLon dLat thr : K)
    (ts : List (Target K)) : ∀ (maxIter : Nat) (es : List (Option (K × K))), es.length = ts.length →
    (1 ≤ maxIter ∧ List.Forall₂ (Reprojects f thr) ts (newtonLoop f dLon dLat thr maxIter ts es)) ∨
    (newtonLoop f dLon dLat thr maxIter ts es = iterate f dLon dLat ts maxIter es ∧
      ∀ k, 1 ≤ k → k ≤ maxIter → ¬ List.Forall₂ (Reprojects f thr) ts (iterate f dLon dLat ts k es)) := by
  intro n
  induction n with
  | zero => intro es hl; right; exact ⟨rfl, fun k h1 h2 => by omega⟩
  | succ n ih =>
    intro es hl
    have hl' : (List.zipWith (fun t e => newtonStep f dLon dLat t.alt t.x t.y e) ts es).length = ts.length := by
      simp [hl]
    unfold newtonLoop
    simp only []
    split
    · rename_i h
      left
      exact ⟨by omega, (all_within f thr ts _ hl').mp h⟩
    · rename_i h
      rcases ih _ hl' with ⟨h1, h2⟩ | ⟨h1, h2⟩
      · left; exact ⟨by omega, h2⟩
      · right
        refine ⟨h1, ?_⟩
        intro k hk1 hk2
        cases k with
        | zero => omega
        | succ k =>
          rcases Nat.eq_zero_or_pos k with rfl | hk
          · intro hc
            apply h
            rw [all_within f thr ts _ hl']
            exact hc
          · exact h2 k hk (by omega)

/-- C20 fails: there is a sensor and a pixel for which every call returns without any error a result
that does not reproject within the threshold, whatever the deltas, centre and iteration limit. -/
theorem C20_silent_false : ∃ (f : ℚ → ℚ → ℚ → Option (ℚ × ℚ)) (t : Target ℚ) (thr : ℚ), 0 < thr ∧
    ∀ (dLon dLat : ℚ) (centre : ℚ × ℚ) (maxIter : Nat),
      ¬ List.Forall₂ (Reprojects f thr) [t]
        (newtonLoop f dLon dLat thr maxIter [t] [some centre]) := by
  refine ⟨fun lon lat _ => some (lon * lon + 1, lat), ⟨0, 0, 0⟩, 1 / 100, by norm_num, ?_⟩
  intro dLon dLat centre maxIter h
  generalize newtonLoop (K := ℚ) _ _ _ _ _ _ _ = r at h
  cases h with
  | cons h _ =>
    obtain ⟨lon, lat, x, y, -, hf, h1, -⟩ := h
    simp only [Option.some.injEq, Prod.mk.injEq] at hf
    rw [← hf.1] at h1
    have := (abs_le.mp h1).1
    have := mul_self_nonneg lon
    norm_num at *
    linarith

/-- The complete call also returns normally in that situation. -/
theorem C20_silent_call_false : ∃ es, solver (fun lon lat _ => some (lon * lon + 1, lat))
    ((0, 0) : ℚ × ℚ) (1 / 4) 8 0 (1 / 100) 1000 [⟨0, 0, 0⟩] = .ok es ∧
    ¬ List.Forall₂ (Reprojects (fun lon lat _ => some (lon * lon + 1, lat)) (1 / 100)) [⟨0, 0, 0⟩] es := by
  have hs : ∃ dLon dLat, solver (fun lon lat _ => some (lon * lon + 1, lat))
    ((0, 0) : ℚ × ℚ) (1 / 4) 8 0 (1 / 100) 1000 [⟨0, 0, 0⟩] =
    .ok (newtonLoop (fun lon lat _ => some (lon * lon + 1, lat)) dLon dLat (1 / 100) 1000
      [⟨0, 0, 0⟩] [some (0, 0)]) := by
    refine ⟨2, 2, ?_⟩
    unfold solver
    simp only [allFinite, Option.isSome_some, Bool.and_self, if_true]
    norm_num [findDelta, ok_bind]
  obtain ⟨a, b, hab⟩ := hs
  refine ⟨_, hab, ?_⟩
  intro h
  generalize newtonLoop (K := ℚ) _ _ _ _ _ _ _ = r at h
  cases h with
  | cons h _ =>
    obtain ⟨lon, lat, x, y, -, hf, h1, -⟩ := h
    simp only [Option.some.injEq, Prod.mk.injEq] at hf
    rw [← hf.1] at h1
    have := (abs_le.mp h1).1
    have := mul_self_nonneg lon
    norm_num at *
    linarith

example : List.Forall₂ (Reprojects (Affine.map ⟨fun _ => 1, fun _ => 0, fun _ => 0, fun _ => 0, fun _ => 1, fun _ => 0⟩) 0)
    [(⟨0, 3, 4⟩ : Target ℚ)] [some (3, 4)] := by
  refine List.Forall₂.cons ⟨3, 4, 3, 4, rfl, ?_, ?_, ?_⟩ List.Forall₂.nil <;> norm_num [Affine.map]

end solverProps
end Verif.PointCalc
