import Verif.Props.FloatLens
import Verif.Model.FloatDem

/-! The formulas in float arithmetic are those of the exact models: with operations that do not round and functions without error they give the same results, exceptions and
NaN included.  These theorems tie the rounded models of C169-C172, C175, C180, C181 and C183 to the models the other properties are about. -/

set_option linter.unusedSectionVars false

namespace Verif.PointCalc
open Verif ImageUtils FloatGeom

section
variable {K : Type} [Field K] [LinearOrder K] [IsStrictOrderedRing K]

theorem divR_id (a b : K) : divR id a b = fdiv a b := by
  unfold divR
  exact Option.map_id'

theorem newtonStepR_id (f : K → K → K → Option (K × K)) (dLon dLat alt tx ty : K) (e : Option (K × K)) : newtonStepR id f dLon dLat alt tx ty e = newtonStep f dLon dLat alt tx ty e := by
  simp only [newtonStepR, newtonStep, divR_id, id]

theorem withinR_id (f : K → K → K → Option (K × K)) (thr alt tx ty : K) (e : Est K) : withinR id f thr alt tx ty e = within f thr alt tx ty e := by
  unfold withinR within
  rfl

theorem newtonLoopR_id (f : K → K → K → Option (K × K)) (dLon dLat thr : K) (n : Nat) (ts : List (Target K)) (es : List (Est K)) :
    newtonLoopR id f dLon dLat thr n ts es = newtonLoop f dLon dLat thr n ts es := by
  induction n generalizing es with
  | zero => rfl
  | succ n ih => simp only [newtonLoopR, newtonLoop, newtonStepR_id, withinR_id, ih]

theorem findDeltaR_id (c : K) (move : K → K × K) (eps : K) (m : Nat) : findDeltaR id c move eps m = findDelta (fun d => move (c + d)) eps m := by
  induction m generalizing eps with
  | zero => rfl
  | succ m ih =>
    simp only [findDeltaR, findDelta, id, ih]
    split
    · rw [add_sub_cancel_left]
    · rfl

/-- C180 without rounding: the conversion is the one of C19, C20 and C173. -/
theorem C180_no_rounding (f : K → K → K → Option (K × K)) (centre : K × K) (eps : K) (m : Nat) (meanAlt thr : K) (maxIter : Nat) (ts : List (Target K)) :
    solverR id f centre eps m meanAlt thr maxIter ts = solver f centre eps m meanAlt thr maxIter ts := by
  have e : ∀ q base : Option (K × K), moveR id q base = (match q, base with
      | some (x, y), some (x0, y0) => (x - x0, y - y0)
      | _, _ => (0, 0)) := by
    intro q base
    unfold moveR
    rfl
  simp only [solverR, solver, findDeltaR_id, newtonLoopR_id, e, id]
  rfl

end

end Verif.PointCalc

namespace Verif.FloatGeom
open Verif ImageUtils PointCalc FloatSpectral

section
variable {K : Type} [Field K] [LinearOrder K] [IsStrictOrderedRing K]

/-- C169 without rounding: the formula is the one of C23 and C103. -/
theorem C169_no_rounding (c : Geotiff.Rpc K) (lon lat alt : K) : rpcR id c lon lat alt = c.project lon lat alt := by
  simp only [rpcR, Geotiff.Rpc.project, divR_id, computePR, Geotiff.computeP, id]

theorem dot_id {n : Nat} (f g : Nat → K) (t : DotTree) (ht : t.Covers n) : t.eval id f g = ∑ i ∈ Finset.range n, f i * g i := by
  have e : ∀ t : DotTree, t.eval id f g = (t.leaves.map (fun i => f i * g i)).sum := by
    intro t
    induction t with
    | mul k => simp [DotTree.eval, DotTree.leaves]
    | fma k a ih => simp [DotTree.eval, DotTree.leaves, ih]
    | add a b iha ihb => simp [DotTree.eval, DotTree.leaves, iha, ihb]
  rw [e, perm_sum ht]

end

/-- A library without errors. -/
noncomputable def exactLib : Lib := ⟨id, Real.sin, Real.cos, Real.arcsin, Real.arccos⟩

theorem matmulR_id (t : Fin 3 → Fin 3 → DotTree) (ht : ∀ i j, (t i j).Covers 3) (a b : Rotation.M3) : matmulR exactLib t a b = a * b := by
  funext i j
  show (t i j).eval id _ _ = _
  rw [dot_id _ _ _ (ht i j), Matrix.mul_apply, Fin.sum_univ_three]
  simp only [Finset.sum_range_succ, Finset.sum_range_zero, zero_add]
  rfl

/-- C170 without rounding: the matrix is the one of C24, for every order of rotations (and the zero matrix for an unknown one). -/
theorem C170_no_rounding (t1 t2 : Fin 3 → Fin 3 → DotTree) (h1 : ∀ i j, (t1 i j).Covers 3) (h2 : ∀ i j, (t2 i j).Covers 3) (w p k : ℝ) (order : String) :
    createMR exactLib t1 t2 w p k order = Rotation.createM w p k order := by
  have eo : mOmegaR exactLib w = Rotation.mOmega w := by
    ext i j; fin_cases i <;> fin_cases j <;> simp [mOmegaR, Rotation.mOmega, exactLib]
  have ep : mPhiR exactLib p = Rotation.mPhi p := by
    ext i j; fin_cases i <;> fin_cases j <;> simp [mPhiR, Rotation.mPhi, exactLib]
  have ek : mKappaR exactLib k = Rotation.mKappa k := by
    ext i j; fin_cases i <;> fin_cases j <;> simp [mKappaR, Rotation.mKappa, exactLib]
  have er : mRpyR exactLib w p k = Rotation.mRpy w p k := by
    ext i j; fin_cases i <;> fin_cases j <;> simp [mRpyR, Rotation.mRpy, exactLib]
  unfold createMR Rotation.createM
  simp only [eo, ep, ek, er, matmulR_id _ h1, matmulR_id _ h2]
  rfl

/-- C171 without rounding: the image position is the one of C27. -/
theorem C171_no_rounding (c : Camera.Pinhole) (p : Fin 3 → ℝ) : imagePlaneR id c.pos c.f c.m p = c.imagePlane p := by
  simp only [imagePlaneR, Camera.Pinhole.imagePlane, divR_id, rowR, id]

/-- C172 without rounding: the angles are those of C25. -/
theorem C172_no_rounding (m : Rotation.M3) : solveR exactLib m = Rotation.solveOPK m := by
  have ea : ∀ x, asinR exactLib x = Rotation.npArcsin x := fun x => rfl
  have ec : ∀ x c, acosR exactLib x c = Rotation.ratioArccos x c := by
    intro x c
    unfold acosR Rotation.ratioArccos Rotation.npArccos
    rfl
  unfold solveR Rotation.solveOPK
  simp only [ea, ec]
  rfl

/-- C175 without rounding: the elevation is the one of C43. -/
theorem C175_no_rounding (dem : A2 ℝ) (x y : ℝ) : demBilinearR id Real.sqrt dem x y = Ortho.demBilinear dem x y := by
  simp only [demBilinearR, Ortho.demBilinear, weightR, sum4R, id]
  rfl

/-- C181 without rounding: the pixel is the one of C28. -/
theorem C181_no_rounding (c : Camera.Fpa) (p : Fin 3 → ℝ) : fpaPixelR id c c.cam.m p = c.pixel p := by
  simp only [fpaPixelR, Camera.Fpa.pixel, fpaCoordR, divR_id, C171_no_rounding, id]

/-- C183 without rounding: the pixel is the one of C30, the fixture's pose included. -/
theorem C183_no_rounding (t1 t2 tb : Fin 3 → Fin 3 → DotTree) (tx t : Fin 3 → DotTree) (h1 : ∀ i j, (t1 i j).Covers 3) (h2 : ∀ i j, (t2 i j).Covers 3) (hb : ∀ i j, (tb i j).Covers 3)
    (hx : ∀ j, (tx j).Covers 3) (ht : ∀ i, (t i).Covers 3) (c : Camera.OpenCV) (f rel : Fin 3 → ℝ) (w p k w' p' k' lon lat alt : ℝ) :
    c.pixel (fixtureOf f rel w p k w' p' k') ![lon, lat, alt] = .ok (opencvR exactLib t1 t2 tb tx t c f rel w p k w' p' k' lon lat alt) := by
  have eM : absMR id tb (Rotation.createM w' p' k' "rpy") (Rotation.createM w p k "rpy") = Rotation.createM w' p' k' "rpy" * Rotation.createM w p k "rpy" := matmulR_id tb hb _ _
  have eX : absXyzR id tx f rel (Rotation.createM w p k "rpy") = f + Matrix.vecMul rel (Rotation.createM w p k "rpy") := by
    funext j
    unfold absXyzR
    rw [dot_id _ _ _ (hx j)]
    simp only [Finset.sum_range_succ, Finset.sum_range_zero, zero_add, Pi.add_apply, Matrix.vecMul, dotProduct, Fin.sum_univ_three, id]
    rfl
  unfold opencvR opencvPixelR Camera.OpenCV.pixel
  have eL : exactLib.r = id := rfl
  simp only [C170_no_rounding t1 t2 h1 h2, eL, eM, eX, divR_id]
  have hM : (fixtureOf f rel w p k w' p' k').absM = .ok (Rotation.createM w' p' k' "rpy" * Rotation.createM w p k "rpy") := rfl
  have hX : (fixtureOf f rel w p k w' p' k').absXyz = .ok (f + Matrix.vecMul rel (Rotation.createM w p k "rpy")) := rfl
  rw [hM, ok_bind, hX, ok_bind]
  generalize Rotation.createM w' p' k' "rpy" * Rotation.createM w p k "rpy" = rot
  generalize f + Matrix.vecMul rel (Rotation.createM w p k "rpy") = xyz
  have q : ∀ i, (t i).eval id (fun n => rot i (Fin.ofNat 3 n)) (fun n => (![lon, lat, alt] : Fin 3 → ℝ) (Fin.ofNat 3 n) - xyz (Fin.ofNat 3 n)) = Matrix.mulVec rot (![lon, lat, alt] - xyz) i := by
    intro i
    rw [dot_id _ _ _ (ht i)]
    simp only [Finset.sum_range_succ, Finset.sum_range_zero, zero_add, Matrix.mulVec, dotProduct, Fin.sum_univ_three, id, Pi.sub_apply]
    rfl
  simp only [id, q, bendR]

end Verif.FloatGeom
