import Verif.Model.Rotation
import Mathlib.Tactic.LinearCombination
import Mathlib.Tactic.FieldSimp
import Mathlib.LinearAlgebra.Matrix.Determinant.Basic

/-! C24, C25, C26, C68: orientation matrices. -/

namespace Verif.Rotation
open Verif Matrix Real

/-- Specification: a proper rotation. -/
def IsRotation (m : M3) : Prop := m * mᵀ = 1 ∧ m.det = 1

theorem IsRotation.mul {a b : M3} (ha : IsRotation a) (hb : IsRotation b) : IsRotation (a * b) := by
  refine ⟨?_, by rw [det_mul, ha.2, hb.2, one_mul]⟩
  rw [transpose_mul, Matrix.mul_assoc, ← Matrix.mul_assoc b, hb.1, Matrix.one_mul, ha.1]

theorem IsRotation.left {m : M3} (h : IsRotation m) : mᵀ * m = 1 := mul_eq_one_comm.mp h.1

theorem IsRotation.transpose {m : M3} (h : IsRotation m) : IsRotation mᵀ :=
  ⟨by rw [transpose_transpose]; exact h.left, by rw [det_transpose]; exact h.2⟩

theorem rot_omega (w : ℝ) : IsRotation (mOmega w) := by
  have := sin_sq_add_cos_sq w
  constructor
  · ext i j
    fin_cases i <;> fin_cases j <;> simp [mOmega, Matrix.mul_apply, Fin.sum_univ_three] <;> linarith
  · simp [mOmega, det_fin_three]; linarith

theorem rot_phi (w : ℝ) : IsRotation (mPhi w) := by
  have := sin_sq_add_cos_sq w
  constructor
  · ext i j
    fin_cases i <;> fin_cases j <;> simp [mPhi, Matrix.mul_apply, Fin.sum_univ_three] <;> linarith
  · simp [mPhi, det_fin_three]; linarith

theorem rot_kappa (w : ℝ) : IsRotation (mKappa w) := by
  have := sin_sq_add_cos_sq w
  constructor
  · ext i j
    fin_cases i <;> fin_cases j <;> simp [mKappa, Matrix.mul_apply, Fin.sum_univ_three] <;> linarith
  · simp [mKappa, det_fin_three]; linarith

/-- Specification: rotation of the coordinate frame about one axis by an angle (the coordinates of a
fixed vector in a frame turned counter-clockwise): the axis component is kept, the two others turn
into each other. -/
noncomputable def frameTurn (axis : Fin 3) (a : ℝ) (v : Fin 3 → ℝ) : Fin 3 → ℝ := fun i =>
  if i = axis then v i
  else if i = axis + 1 then cos a * v (axis + 1) + sin a * v (axis + 2)
  else cos a * v (axis + 2) - sin a * v (axis + 1)

/-- Specification: the rotation named by one letter: roll about x by omega, pitch about y by phi, yaw
about z by kappa. -/
noncomputable def letterTurn (w p k : ℝ) : Char → (Fin 3 → ℝ) → (Fin 3 → ℝ)
  | 'r' => frameTurn 0 w
  | 'p' => frameTurn 1 p
  | 'y' => frameTurn 2 k
  | _ => id

theorem omega_turn (w : ℝ) (v : Fin 3 → ℝ) : mOmega w *ᵥ v = frameTurn 0 w v := by
  ext i; fin_cases i <;> simp [mOmega, frameTurn, Matrix.mulVec, dotProduct, Fin.sum_univ_three] <;> ring

theorem phi_turn (w : ℝ) (v : Fin 3 → ℝ) : mPhi w *ᵥ v = frameTurn 1 w v := by
  ext i; fin_cases i <;> simp [mPhi, frameTurn, Matrix.mulVec, dotProduct, Fin.sum_univ_three] <;> ring

theorem kappa_turn (w : ℝ) (v : Fin 3 → ℝ) : mKappa w *ᵥ v = frameTurn 2 w v := by
  ext i; fin_cases i <;> simp [mKappa, frameTurn, Matrix.mulVec, dotProduct, Fin.sum_univ_three] <;> ring

theorem mRpy_eq (w p k : ℝ) : mRpy w p k = mKappa k * mPhi p * mOmega w := by
  ext i j
  fin_cases i <;> fin_cases j <;> simp [mRpy, mKappa, mPhi, mOmega, Matrix.mul_apply, Fin.sum_univ_three] <;> ring

/-- The six documented orders. -/
def orders : List String := ["rpy", "ryp", "pry", "pyr", "yrp", "ypr"]

/-- C24: for every angle triple and each documented order the matrix is a proper rotation. -/
theorem C24_rotation (w p k : ℝ) (order : String) (h : order ∈ orders) : IsRotation (createM w p k order) := by
  simp only [orders, List.mem_cons, List.not_mem_nil, or_false] at h
  rcases h with rfl | rfl | rfl | rfl | rfl | rfl
  · simp only [createM, if_true, mRpy_eq]
    exact ((rot_kappa k).mul (rot_phi p)).mul (rot_omega w)
  · have : createM w p k "ryp" = mPhi p * mKappa k * mOmega w := by simp [createM]
    rw [this]; exact ((rot_phi p).mul (rot_kappa k)).mul (rot_omega w)
  · have : createM w p k "pry" = mKappa k * mOmega w * mPhi p := by simp [createM]
    rw [this]; exact ((rot_kappa k).mul (rot_omega w)).mul (rot_phi p)
  · have : createM w p k "pyr" = mOmega w * mKappa k * mPhi p := by simp [createM]
    rw [this]; exact ((rot_omega w).mul (rot_kappa k)).mul (rot_phi p)
  · have : createM w p k "yrp" = mPhi p * mOmega w * mKappa k := by simp [createM]
    rw [this]; exact ((rot_phi p).mul (rot_omega w)).mul (rot_kappa k)
  · have : createM w p k "ypr" = mOmega w * mPhi p * mKappa k := by simp [createM]
    rw [this]; exact ((rot_omega w).mul (rot_phi p)).mul (rot_kappa k)

/-- C24: the order string names the elementary rotations in order of application: applying the
matrix to a vector is applying the rotation of the first letter first, then the second, then the
third. -/
theorem C24_order (w p k : ℝ) (order : String) (h : order ∈ orders) (v : Fin 3 → ℝ) :
    createM w p k order *ᵥ v = order.toList.foldl (fun u c => letterTurn w p k c u) v := by
  simp only [orders, List.mem_cons, List.not_mem_nil, or_false] at h
  rcases h with rfl | rfl | rfl | rfl | rfl | rfl <;>
    simp [createM, mRpy_eq, ← mulVec_mulVec, omega_turn, phi_turn, kappa_turn, letterTurn]

/-- C24: any other order string silently gives the zero matrix, which is not a rotation. -/
theorem C24_bad_order (w p k : ℝ) (order : String) (h : order ∉ orders) :
    createM w p k order = 0 ∧ ¬ IsRotation (createM w p k order) := by
  simp only [orders, List.mem_cons, List.not_mem_nil, or_false, not_or] at h
  have h0 : createM w p k order = 0 := by simp [createM, h]
  refine ⟨h0, ?_⟩
  rw [h0]
  intro hc
  have := hc.2
  simp at this

example : "pry" ∈ orders ∧ "xyz" ∉ orders := by decide

/-! ### C25 -/

theorem arccos_cos_neg {x : ℝ} (h1 : -π < x) (h2 : x < 0) : arccos (cos x) = -x := by
  rw [← cos_neg, arccos_cos (by linarith) (by linarith)]

/-- C25: angles are recovered from the orientation matrix (order 'rpy', the default). -/
theorem C25_angles_recovered (w p k : ℝ) (hw1 : -π < w) (hw2 : w ≤ π) (hp1 : -(π / 2) < p) (hp2 : p < π / 2)
    (hk1 : -π < k) (hk2 : k ≤ π) :
    solveOPK (createM w p k "rpy") = (some w, some p, some k) := by
  have hc : 0 < cos p := cos_pos_of_mem_Ioo ⟨hp1, hp2⟩
  have e1 : cos p * cos k / cos p = cos k := by field_simp
  have e2 : cos w * cos p / cos p = cos w := by field_simp
  have b : ∀ x, -1 ≤ cos x ∧ cos x ≤ 1 := fun x => ⟨neg_one_le_cos x, cos_le_one x⟩
  have hs : -1 ≤ sin p ∧ sin p ≤ 1 := ⟨neg_one_le_sin p, sin_le_one p⟩
  simp only [createM, if_true, solveOPK, mRpy, Matrix.of_apply, Matrix.cons_val', Matrix.cons_val_zero,
    Matrix.cons_val_one, Matrix.cons_val, npArcsin, if_pos hs, arcsin_sin hp1.le hp2.le, Option.map_some,
    Option.bind_some, ratioArccos, if_neg hc.ne', e1, e2, npArccos, if_pos (b _)]
  refine Prod.ext ?_ (Prod.ext rfl ?_)
  · simp only
    by_cases h : w < 0
    · have : 0 < -1 * sin w * cos p := by
        have := sin_neg_of_neg_of_neg_pi_lt h hw1
        nlinarith
      rw [if_pos this, arccos_cos_neg hw1 h]; simp
    · have : ¬ (0 < -1 * sin w * cos p) := by
        have := sin_nonneg_of_nonneg_of_le_pi (not_lt.mp h) hw2
        nlinarith
      rw [if_neg this, arccos_cos (not_lt.mp h) hw2]
  · simp only
    by_cases h : k < 0
    · have : 0 < -1 * cos p * sin k := by
        have := sin_neg_of_neg_of_neg_pi_lt h hk1
        nlinarith
      rw [if_pos this, arccos_cos_neg hk1 h]; simp
    · have : ¬ (0 < -1 * cos p * sin k) := by
        have := sin_nonneg_of_nonneg_of_le_pi (not_lt.mp h) hk2
        nlinarith
      rw [if_neg this, arccos_cos (not_lt.mp h) hk2]

theorem IsRotation.adj {m : M3} (h : IsRotation m) : m.adjugate = mᵀ := by
  have : m.adjugate * (m * mᵀ) = mᵀ := by
    rw [← Matrix.mul_assoc, adjugate_mul, h.2, one_smul, Matrix.one_mul]
  rwa [h.1, Matrix.mul_one] at this

theorem ratio_solve {m c t : ℝ} (hc : 0 < c) (h : m ^ 2 + t ^ 2 = c ^ 2) :
    ∃ a, (if t > 0 then (ratioArccos m c).map (fun v => -v) else ratioArccos m c) = some a ∧
      cos a = m / c ∧ sin a = -t / c ∧ -π < a ∧ a ≤ π := by
  have hm : |m| ≤ c := abs_le_of_sq_le_sq (by nlinarith [sq_nonneg t]) hc.le
  have h1 : -1 ≤ m / c := by rw [le_div_iff₀ hc]; linarith [(abs_le.mp hm).1]
  have h2 : m / c ≤ 1 := by rw [div_le_iff₀ hc]; linarith [(abs_le.mp hm).2]
  have hsin : sin (arccos (m / c)) = |t| / c := by
    rw [sin_arccos]
    have : 1 - (m / c) ^ 2 = (|t| / c) ^ 2 := by
      rw [div_pow, div_pow, sq_abs]; field_simp; linarith
    rw [this, sqrt_sq (by positivity)]
  have hr : ratioArccos m c = some (arccos (m / c)) := by
    simp only [ratioArccos, if_neg hc.ne', npArccos, if_pos (And.intro h1 h2)]
  have hlo := arccos_nonneg (m / c)
  have hhi := arccos_le_pi (m / c)
  by_cases ht : t > 0
  · refine ⟨-arccos (m / c), by rw [if_pos ht, hr]; rfl, by rw [cos_neg, cos_arccos h1 h2], ?_, ?_, by linarith [pi_pos]⟩
    · rw [sin_neg, hsin, abs_of_pos ht]; ring
    · have : arccos (m / c) ≠ π := by
        rw [Ne, arccos_eq_pi]
        intro hle
        have hmc : m / c = -1 := le_antisymm hle h1
        have : m = -c := by field_simp at hmc; linarith
        rw [this] at h
        nlinarith
      have := lt_of_le_of_ne hhi this
      linarith
  · refine ⟨arccos (m / c), by rw [if_neg ht, hr], cos_arccos h1 h2, ?_, by linarith [pi_pos], hhi⟩
    rw [hsin, abs_of_nonpos (not_lt.mp ht)]

/-- C25, converse: for every rotation matrix away from gimbal lock, solving gives finite angles in the
documented ranges from which the matrix is rebuilt. -/
theorem C25_matrix_rebuilt (m : M3) (hm : IsRotation m) (hg : |m 2 0| < 1) :
    ∃ w p k, solveOPK m = (some w, some p, some k) ∧ createM w p k "rpy" = m ∧
      -π < w ∧ w ≤ π ∧ -(π / 2) < p ∧ p < π / 2 ∧ -π < k ∧ k ≤ π := by
  obtain ⟨g1, g2⟩ := abs_lt.mp hg
  have hadj := hm.adj
  have hrow : m 2 0 ^ 2 + m 2 1 ^ 2 + m 2 2 ^ 2 = 1 := by
    have := congrFun (congrFun hm.1 2) 2
    simp [Matrix.mul_apply, Fin.sum_univ_three] at this
    linarith
  have hcol : m 0 0 ^ 2 + m 1 0 ^ 2 + m 2 0 ^ 2 = 1 := by
    have := congrFun (congrFun hm.left 0) 0
    simp [Matrix.mul_apply, Fin.sum_univ_three] at this
    linarith
  rw [adjugate_fin_three] at hadj
  have a01 := congrFun (congrFun hadj 1) 0   -- entry m 0 1
  have a12 := congrFun (congrFun hadj 2) 1   -- entry m 1 2
  have a02 := congrFun (congrFun hadj 2) 0
  have a11 := congrFun (congrFun hadj 1) 1
  simp at a01 a12 a02 a11
  set p := arcsin (m 2 0) with hp
  have hsp : sin p = m 2 0 := sin_arcsin g1.le g2.le
  have hp1 : -(π / 2) < p := neg_pi_div_two_lt_arcsin.mpr g1
  have hp2 : p < π / 2 := arcsin_lt_pi_div_two.mpr g2
  have hc : 0 < cos p := cos_pos_of_mem_Ioo ⟨hp1, hp2⟩
  have hc2 : cos p ^ 2 = 1 - m 2 0 ^ 2 := by have := sin_sq_add_cos_sq p; rw [hsp] at this; linarith
  obtain ⟨k, hk, hck, hsk, hk1, hk2⟩ := ratio_solve (m := m 0 0) (t := m 1 0) hc (by rw [hc2]; linarith)
  obtain ⟨w, hw, hcw, hsw, hw1, hw2⟩ := ratio_solve (m := m 2 2) (t := m 2 1) hc (by rw [hc2]; linarith)
  refine ⟨w, p, k, ?_, ?_, hw1, hw2, hp1, hp2, hk1, hk2⟩
  · have : npArcsin (m 2 0) = some p := by rw [npArcsin, if_pos ⟨g1.le, g2.le⟩]
    simp only [solveOPK, this, Option.map_some, Option.bind_some]
    rw [hk, hw]
  · have hcc : cos p * cos p = 1 - m 2 0 ^ 2 := by rw [← hc2]; ring
    have hne : (1 - m 2 0 ^ 2) ≠ 0 := by rw [← hc2]; positivity
    have key : ∀ {x y : ℝ}, x * (1 - m 2 0 ^ 2) = y → x = y / (cos p * cos p) := by
      intro x y h; rw [hcc, eq_div_iff hne]; exact h
    have q01 : m 0 1 * (1 - m 2 0 ^ 2) = -m 1 0 * m 2 2 - m 0 0 * m 2 1 * m 2 0 := by
      linear_combination -a01 - m 2 0 * a12
    have q12 : m 1 2 * (1 - m 2 0 ^ 2) = -m 0 0 * m 2 1 - m 1 0 * m 2 2 * m 2 0 := by
      linear_combination -a12 - m 2 0 * a01
    have q02 : m 0 2 * (1 - m 2 0 ^ 2) = m 1 0 * m 2 1 - m 0 0 * m 2 2 * m 2 0 := by
      linear_combination -a02 + m 2 0 * a11
    have q11 : m 1 1 * (1 - m 2 0 ^ 2) = m 0 0 * m 2 2 - m 1 0 * m 2 1 * m 2 0 := by
      linear_combination -a11 + m 2 0 * a02
    simp only [createM, if_true, mRpy, hck, hsk, hcw, hsw, hsp]
    ext i j
    fin_cases i <;> fin_cases j <;> simp
    · field_simp
    · rw [key q01]; field_simp; try ring
    · rw [key q02]; field_simp; try ring
    · field_simp
    · rw [key q11]; field_simp
    · rw [key q12]; field_simp; try ring
    · field_simp
    · field_simp

/-- C25, at gimbal lock (`|m31| = 1`, pitch straight up or down) omega and kappa are not finite. -/
theorem C25_gimbal_lock (m : M3) (hg : |m 2 0| = 1) :
    (solveOPK m).1 = none ∧ (solveOPK m).2.2 = none := by
  have hb : -1 ≤ m 2 0 ∧ m 2 0 ≤ 1 := abs_le.mp hg.le
  have hc : cos (arcsin (m 2 0)) = 0 := by
    rw [cos_arcsin]
    have : m 2 0 ^ 2 = 1 := by rw [← sq_abs, hg]; norm_num
    rw [this]; simp
  simp [solveOPK, npArcsin, hb, hc, ratioArccos]

example : ∃ m : M3, IsRotation m ∧ |m 2 0| < 1 ∧ m ≠ 1 := by
  refine ⟨mKappa (π / 2), rot_kappa _, by simp [mKappa], ?_⟩
  intro h
  have := congrFun (congrFun h 0) 0
  simp [mKappa] at this

/-! ### C26 -/

/-- C26: the offsets matrix carries the rough orientation to the ideal one, and is the only one. -/
theorem C26_offsets (rough ideal : M3) (h : rough.det ≠ 0) :
    ∃ x, boresightOffsets rough ideal = .ok x ∧ rough * x = ideal ∧ ∀ x', rough * x' = ideal → x' = x := by
  have hu : IsUnit rough.det := isUnit_iff_ne_zero.mpr h
  refine ⟨rough⁻¹ * ideal, by rw [boresightOffsets, if_neg h], ?_, ?_⟩
  · rw [← Matrix.mul_assoc, Matrix.mul_nonsing_inv _ hu, Matrix.one_mul]
  · rintro x' rfl
    rw [← Matrix.mul_assoc, Matrix.nonsing_inv_mul _ hu, Matrix.one_mul]

/-- C26: for rotations the offsets matrix is a rotation. -/
theorem C26_offsets_rotation (rough ideal : M3) (h1 : IsRotation rough) (h2 : IsRotation ideal) :
    ∃ x, boresightOffsets rough ideal = .ok x ∧ rough * x = ideal ∧ IsRotation x := by
  obtain ⟨x, hx, hr, hu⟩ := C26_offsets rough ideal (by rw [h1.2]; norm_num)
  refine ⟨x, hx, hr, ?_⟩
  have : x = roughᵀ * ideal := (hu (roughᵀ * ideal) (by rw [← Matrix.mul_assoc, h1.1, Matrix.one_mul])).symm
  rw [this]
  exact h1.transpose.mul h2

/-- C26, error branch: a singular rough matrix is rejected. -/
theorem C26_singular (rough ideal : M3) (h : rough.det = 0) :
    boresightOffsets rough ideal = .error .valueError := by rw [boresightOffsets, if_pos h]

example : (mKappa 1).det ≠ 0 := by rw [(rot_kappa 1).2]; norm_num

/-! ### C68 -/

/-- C68: the Pix4d matrix is the transpose of the photogrammetric matrix of the same angles
(degrees converted to radians), hence a rotation. -/
theorem C68_r_is_transpose (x y z w p k : ℝ) (rest : List ℝ) :
    ∃ r, createR (x :: y :: z :: w :: p :: k :: rest) = .ok r ∧
      r = (createM (w * π / 180) (p * π / 180) (k * π / 180) "rpy")ᵀ ∧ IsRotation r := by
  have he : ∀ d : ℝ, d * π / 180 = deg2rad d := fun d => by unfold deg2rad; ring
  refine ⟨_, rfl, ?_, ?_⟩
  · simp only [he, createM, if_true]
    ext i j
    fin_cases i <;> fin_cases j <;> simp [mRpy] <;> ring
  · have := (C24_rotation (deg2rad w) (deg2rad p) (deg2rad k) "rpy" (by decide)).transpose
    convert this using 1
    simp only [createM, if_true]
    ext i j
    fin_cases i <;> fin_cases j <;> simp [mRpy] <;> ring

/-- C68, error branch: fewer than six parameters raise IndexError. -/
theorem C68_short (params : List ℝ) (h : params.length < 6) : createR params = .error .indexError := by
  unfold createR
  have : params[5]? = none := by rw [List.getElem?_eq_none_iff]; omega
  rw [this]
  split <;> first | rfl | simp_all

end Verif.Rotation
