import Verif.Model.CalcObject
import Verif.Lemmas.Base

/-! C152: a calculator fresh from its factory turns pixels into positions.  C153: projection and centre are those last set. -/

namespace Verif.CalcObject
open Verif

variable {P C R K : Type}

/-! ### Specification -/

/-- A position in the projection `p` expressed in the world projection asked for (none: as it is). -/
def Expressed (srs : P → Nat) (T : P → P → R → R) (p : P) (world : Option P) (r : R) : R :=
  match world with
  | none => r
  | some w => if srs w ≠ srs p then T p w r else r

/-- The projection and the centre a factory is expected to give: none where it does not know any. -/
def expectedProj (p4326 utm18 : P) : Factory P K → Option P
  | .rpc _ _ => some p4326
  | .pix4d _ _ p => some p
  | .pinhole _ _ p => some p
  | .igm _ _ p => some p
  | .geotiff p => some p
  | .opencv => some utm18
  | .sensorModel => none

/-- See `expectedProj`. -/
def expectedCentre : Factory P K → Option (K × K)
  | .rpc lon lat => some (lon, lat)
  | .pix4d x y _ => some (x, y)
  | .pinhole x y _ => some (x, y)
  | .igm lon lat _ => some (lon, lat)
  | .geotiff _ => none
  | .opencv => none
  | .sensorModel => none

/-! ### Lemmas -/

theorem inWorld_val (b : Base P C) (p : P) (h : b.proj = .val p) (srs : P → Nat) (T : P → P → R → R) (world : Option P) (r : R) :
    (do let wp ← b.worldProj world; b.inWorld srs T wp r) = .ok (Expressed srs T p world r) := by
  cases world with
  | none =>
    unfold Base.worldProj
    simp only []
    rw [h]
    show b.inWorld srs T (some p) r = _
    unfold Base.inWorld
    rw [h]
    simp [Slot.get, Expressed]
  | some w =>
    show b.inWorld srs T (some w) r = _
    unfold Base.inWorld
    rw [h]
    simp only [Slot.get, Expressed]
    split <;> rfl

/-- With a projection, the call gives the native position expressed in the world projection, or the error met on the way. -/
theorem call_val (b : Base P C) (p : P) (h : b.proj = .val p) (srs : P → Nat) (T : P → P → R → R) (native : Py (Option R)) (solve : C → Py R) (world : Option P) :
    b.pixelToLonLat srs T native solve world = (b.nativePosition native solve).map (Expressed srs T p world) := by
  unfold Base.pixelToLonLat
  have hw : ∃ wp, b.worldProj world = .ok wp := by
    cases world with
    | some w => exact ⟨some w, rfl⟩
    | none => exact ⟨some p, by unfold Base.worldProj; simp only []; rw [h]; rfl⟩
  obtain ⟨wp, hw⟩ := hw
  cases hn : b.nativePosition native solve with
  | error e => rw [hw, ok_bind]; rfl
  | ok r =>
    have := inWorld_val b p h srs T world r
    rw [hw, ok_bind] at this ⊢
    rw [ok_bind, this]
    rfl

/-! ### C152 -/

/-- C152, partial.  Calculators made from RPCs, pix4d parameters, pinhole parameters or an IGM: every pixel-to-world call gives the position the calculator's own
method gives or, where it has none, the solver's answer from the centre the factory knows, expressed in the projection asked for (the calculator's own when none
is); it fails only when that method or the solver does.  Missing: OpenCV calculators and bare sensor models (`C152_opencv_false`, `C152_sensor_model_false`). -/
theorem C152_factories_partial (p4326 utm18 : P) (f : Factory P K) (p : P) (c : K × K) (hp : expectedProj p4326 utm18 f = some p) (hc : expectedCentre f = some c)
    (srs : P → Nat) (T : P → P → R → R) (native : Py (Option R)) (solve : K × K → Py R) (world : Option P) :
    (make p4326 utm18 f).pixelToLonLat srs T native solve world =
      (do let r ← native; match r with | some r => .ok r | none => solve c : Py R).map (Expressed srs T p world) := by
  have key : (make p4326 utm18 f).proj = .val p ∧ (make p4326 utm18 f).centre = .val c := by
    cases f <;> cases hp <;> cases hc <;> exact ⟨rfl, rfl⟩
  rw [call_val _ p key.1]
  congr 1
  unfold Base.nativePosition
  rw [key.2]
  rfl

/-- C152: a GeoTIFF calculator, which has its own method for every pixel, needs no centre. -/
theorem C152_geotiff (p4326 utm18 p : P) (srs : P → Nat) (T : P → P → R → R) (r : R) (solve : K × K → Py R) (world : Option P) :
    (make p4326 utm18 (.geotiff p : Factory P K)).pixelToLonLat srs T (.ok (some r)) solve world = .ok (Expressed srs T p world r) := by
  rw [call_val _ p rfl]; rfl

/-- C152: an OpenCV calculator, which has no method of its own, has no centre either: every call raises TypeError, until somebody gives it a centre. -/
theorem C152_opencv_false (p4326 utm18 : P) (srs : P → Nat) (T : P → P → R → R) (solve : K × K → Py R) (world : Option P) :
    (make p4326 utm18 (.opencv : Factory P K)).pixelToLonLat srs T (.ok none) solve world = .error .typeError := by
  rw [call_val _ utm18 rfl]; rfl

/-- C152: given one, it works. -/
theorem C152_opencv_centre (p4326 utm18 : P) (c : K × K) (srs : P → Nat) (T : P → P → R → R) (solve : K × K → Py R) (world : Option P) :
    ((make p4326 utm18 (.opencv : Factory P K)).setCentre c).pixelToLonLat srs T (.ok none) solve world = (solve c).map (Expressed srs T utm18 world) := by
  rw [call_val _ utm18 rfl]; rfl

/-- C152: a bare sensor model fails whatever it is asked, even for bands with their own method. -/
theorem C152_sensor_model_false (p4326 utm18 : P) (srs : P → Nat) (T : P → P → R → R) (native : Py (Option R)) (solve : K × K → Py R) (world : Option P) :
    ∃ e, (make p4326 utm18 (.sensorModel : Factory P K)).pixelToLonLat srs T native solve world = .error e := by
  cases native with
  | error e => exact ⟨e, by cases world <;> rfl⟩
  | ok r =>
    cases r with
    | none => exact ⟨.typeError, by cases world <;> rfl⟩
    | some r => exact ⟨.attributeError, by cases world <;> rfl⟩

/-- C152: the sensor model of a MicaSense image made from pix4d calculators has the projection and the centre of its first band. -/
theorem C152_micasense_pix4d (p4326 utm18 p : P) (x y : K) (rest : List (Base P (K × K))) :
    ∃ s, micaPix4d (make p4326 utm18 (.pix4d x y p) :: rest) = .ok s ∧ s.bandsCoregistered = false ∧
      ∀ (srs : P → Nat) (T : P → P → R → R) (native : Py (Option R)) (solve : K × K → Py R) (world : Option P),
        s.pixelToLonLat srs T native solve world =
          (do let r ← native; match r with | some r => .ok r | none => solve (x, y) : Py R).map (Expressed srs T p world) := by
  refine ⟨⟨.val p, .val (x, y), false⟩, rfl, rfl, ?_⟩
  intro srs T native solve world
  rw [call_val _ p rfl]; rfl

/-- C152: one made from OpenCV calculators has no centre: no pixel of it can be located. -/
theorem C152_micasense_opencv_false (p4326 utm18 : P) (rest : List (Base P (K × K))) :
    ∃ s, micaOpencv (make p4326 utm18 (.opencv : Factory P K) :: rest) = .ok s ∧ s.bandsCoregistered = false ∧
      ∀ (srs : P → Nat) (T : P → P → R → R) (solve : K × K → Py R) (world : Option P),
        s.pixelToLonLat srs T (.ok none) solve world = .error .typeError := by
  refine ⟨⟨.val utm18, .none, false⟩, rfl, rfl, ?_⟩
  intro srs T solve world
  rw [call_val _ utm18 rfl]; rfl

/-- C152: without calculators there is no MicaSense sensor model (IndexError); with a first calculator that has no centre the Pix4D one cannot be made (TypeError). -/
theorem C152_micasense_none (p4326 utm18 : P) (rest : List (Base P (K × K))) :
    micaPix4d ([] : List (Base P (K × K))) = .error .indexError ∧ micaOpencv ([] : List (Base P (K × K))) = .error .indexError ∧
    micaPix4d (make p4326 utm18 (.opencv : Factory P K) :: rest) = .error .typeError := ⟨rfl, rfl, rfl⟩

example : (make 4326 32618 (.pix4d 10 20 7 : Factory Nat Nat)).pixelToLonLat id (fun p w (r : Nat × Nat) => (r.1 + w - p, r.2)) (.ok none) (fun c => .ok c) (some 9) =
    .ok (12, 20) := by decide

/-! ### C153 -/

/-- The last projection set, if any. -/
def lastProj (ops : List (SetOp P C)) : Option P := (ops.filterMap (fun o => match o with | .projection p => some p | _ => none)).getLast?

/-- The last centre set, if any. -/
def lastCentre (ops : List (SetOp P C)) : Option C := (ops.filterMap (fun o => match o with | .centre c => some c | _ => none)).getLast?

theorem apply_all (b : Base P C) (ops : List (SetOp P C)) :
    (ops.foldl Base.apply b).proj = ((lastProj ops).map Slot.val).getD b.proj ∧
    (ops.foldl Base.apply b).centre = ((lastCentre ops).map Slot.val).getD b.centre ∧ (ops.foldl Base.apply b).coregistered = b.coregistered := by
  induction ops generalizing b with
  | nil => exact ⟨rfl, rfl, rfl⟩
  | cons o ops ih =>
    obtain ⟨h1, h2, h3⟩ := ih (b.apply o)
    rw [List.foldl_cons]
    cases o with
    | projection p =>
      refine ⟨?_, ?_, h3⟩
      · rw [h1]
        show _ = ((p :: ops.filterMap _).getLast?.map Slot.val).getD b.proj
        rw [List.getLast?_cons]
        unfold lastProj
        cases (ops.filterMap (fun o : SetOp P C => match o with | .projection p => some p | _ => none)).getLast? <;> rfl
      · rw [h2]; rfl
    | centre c =>
      refine ⟨?_, ?_, h3⟩
      · rw [h1]; rfl
      · rw [h2]
        show _ = ((c :: ops.filterMap _).getLast?.map Slot.val).getD b.centre
        rw [List.getLast?_cons]
        unfold lastCentre
        cases (ops.filterMap (fun o : SetOp P C => match o with | .centre c => some c | _ => none)).getLast? <;> rfl

/-- C153.  After any history of setters on a calculator from any factory, the projection and the centre read are those last set, or else the factory's, or None; the
one does not touch the other, nor whether the bands are coregistered.  Partial: for the factories that leave an attribute unassigned see `C153_unassigned_false`. -/
theorem C153_last_set_partial (p4326 utm18 : P) (f : Factory P K) (ops : List (SetOp P (K × K))) :
    ((ops.foldl Base.apply (make p4326 utm18 f)).getProjection = .ok ((lastProj ops).or (expectedProj p4326 utm18 f))) ∧
    ((∃ p, f = .geotiff p) ∧ lastCentre ops = none ∨
      (ops.foldl Base.apply (make p4326 utm18 f)).getCentre = .ok ((lastCentre ops).or (expectedCentre f))) ∧
    (ops.foldl Base.apply (make p4326 utm18 f)).bandsCoregistered = true := by
  obtain ⟨h1, h2, h3⟩ := apply_all (make p4326 utm18 f) ops
  refine ⟨?_, ?_, ?_⟩
  · unfold Base.getProjection
    rw [h1]
    cases lastProj ops with
    | some p => rfl
    | none => cases f <;> rfl
  · unfold Base.getCentre
    rw [h2]
    cases lastCentre ops with
    | some c => right; rfl
    | none =>
      cases f with
      | geotiff p => left; exact ⟨⟨p, rfl⟩, rfl⟩
      | rpc a b => right; rfl
      | pix4d a b p => right; rfl
      | pinhole a b p => right; rfl
      | igm a b p => right; rfl
      | opencv => right; rfl
      | sensorModel => right; rfl
  · unfold Base.bandsCoregistered
    rw [h3]
    cases f <;> rfl

/-- C153: the centre of a GeoTIFF calculator is not None before it is set: reading it raises AttributeError; so does reading the projection of one that was not made by
a factory. -/
theorem C153_unassigned_false (p4326 utm18 p : P) (ops : List (SetOp P (K × K))) :
    (lastCentre ops = none → (ops.foldl Base.apply (make p4326 utm18 (.geotiff p))).getCentre = .error .attributeError) ∧
    (lastProj ops = none → (ops.foldl Base.apply (geotiffInit : Base P (K × K))).getProjection = .error .attributeError) := by
  constructor
  · intro h
    unfold Base.getCentre
    rw [(apply_all _ ops).2.1, h]; rfl
  · intro h
    unfold Base.getProjection
    rw [(apply_all _ ops).1, h]; rfl

example : (([.projection 5, .centre (1, 2), .projection 6] : List (SetOp Nat (Nat × Nat))).foldl Base.apply (make 4326 32618 (.geotiff 3))).getProjection = .ok (some 6) := by decide

end Verif.CalcObject
