import Verif.Model.Shapes
import Verif.Lemmas.Base

/-! C110: sizes of images and cubes. -/

namespace Verif.Shapes
open Verif

variable {α : Type}

/-! ### Specification -/

/-- An image: rows and columns, or rows, columns and bands. -/
def IsImage (a : ND α) (ny nx nb : Nat) : Prop := a.shape = [ny, nx, nb] ∨ (a.shape = [ny, nx] ∧ nb = 1)

/-- Two arrays of the same shape with the same entries. -/
def Equal (a b : ND α) : Prop :=
  a.shape = b.shape ∧ ∀ i : List Nat, i.length = a.shape.length → (∀ k, k < i.length → i.getD k 0 < a.shape.getD k 0) → a.px i = b.px i

/-! ### Theorems -/

/-- C110: an image's size is reported as rows, columns, bands, a two-dimensional one having one band. -/
theorem C110_image_size (a : ND α) (ny nx nb : Nat) (h : IsImage a ny nx nb) :
    nyNxNbands a = .ok (ny, nx, nb) ∧ (isGrayscale a = true ↔ a.shape = [ny, nx]) := by
  rcases h with h | ⟨h, rfl⟩ <;> simp [nyNxNbands, isGrayscale, axis, h, ok_bind]

/-- C110: the size is reported for images only, unless there are more than three axes, of which the later ones are ignored. -/
theorem C110_size_iff (a : ND α) (ny nx nb : Nat) :
    nyNxNbands a = .ok (ny, nx, nb) ↔ IsImage a ny nx nb ∨ ∃ r rest, a.shape = ny :: nx :: nb :: r :: rest := by
  unfold nyNxNbands isGrayscale axis IsImage
  match h : a.shape with
  | [] => simp [error_bind]
  | [_] => simp [error_bind, ok_bind]
  | [p, q] => simp [ok_bind]; tauto
  | [p, q, r] => simp [ok_bind]
  | p :: q :: r :: s :: t => simp [ok_bind]

/-- C110 fails for arrays that are no images because they have too many axes: they are not refused. -/
theorem C110_four_axes_false (ny nx nb r : Nat) (rest : List Nat) (px : List Nat → α) :
    nyNxNbands (⟨ny :: nx :: nb :: r :: rest, px⟩ : ND α) = .ok (ny, nx, nb) ∧
    cubeNxNyNbands (⟨ny :: nx :: nb :: r :: rest, px⟩ : ND α) = .ok (nx, ny, nb) :=
  ⟨by simp [nyNxNbands, axis, isGrayscale, ok_bind], by simp [cubeNxNyNbands, axis, ok_bind]⟩

/-- C110: arrays with fewer axes are refused: IndexError. -/
theorem C110_too_few_axes (a : ND α) :
    (a.shape.length < 2 → nyNxNbands a = .error .indexError) ∧ (a.shape.length < 3 → cubeNxNyNbands a = .error .indexError) ∧
    (a.shape = [] → nChips a = .error .indexError) := by
  unfold nyNxNbands cubeNxNyNbands nChips isGrayscale axis
  match h : a.shape with
  | [] => simp [error_bind]
  | [_] => simp [error_bind, ok_bind]
  | [p, q] => simp [error_bind, ok_bind]
  | p :: q :: r :: s => simp

/-- C110: for a cube the two size functions report the same numbers, the second one columns before rows. -/
theorem C110_cube_size (a : ND α) (nx ny nb : Nat) (h : a.shape.length = 3) :
    cubeNxNyNbands a = .ok (nx, ny, nb) ↔ nyNxNbands a = .ok (ny, nx, nb) := by
  match hs : a.shape with
  | [] => rw [hs] at h; simp at h
  | [_] => rw [hs] at h; simp at h
  | [_, _] => rw [hs] at h; simp at h
  | [p, q, r] => simp [cubeNxNyNbands, nyNxNbands, isGrayscale, axis, hs, ok_bind]; tauto
  | _ :: _ :: _ :: _ :: _ => rw [hs] at h; simp at h

/-- C110: three axes are a 2-D cube, two axes a 1-D cube; a warning is given exactly when it is neither; never both. -/
theorem C110_cubes (a : ND α) :
    ((is2dCube a).1 = true ↔ a.shape.length = 3) ∧ ((is1dCube a).1 = true ↔ a.shape.length = 2) ∧
    ((is2dCube a).2 = true ↔ (is2dCube a).1 = false ∧ (is1dCube a).1 = false) ∧ (is1dCube a).2 = (is2dCube a).2 := by
  unfold is2dCube is1dCube
  by_cases h3 : a.shape.length = 3
  · simp [h3]
  · by_cases h2 : a.shape.length = 2
    · simp [h2]
    · simp [h2, h3]

/-- C110: the number of chips is the length of the first axis. -/
theorem C110_chips (n : Nat) (rest : List Nat) (px : List Nat → α) : nChips (⟨n :: rest, px⟩ : ND α) = .ok n := rfl

/-- C110, resizing: an image of one channel, or of two to four on the third axis, gets the requested rows and columns and keeps its channels; each
entry is what the filter makes of the image for that row, column and channel. -/
theorem C110_resize (filter : Pil α → Nat → Nat → Nat → Nat → Nat → α) (a : ND α) (ny nx nb newNy newNx : Nat) (hy : 0 < newNy) (hx : 0 < newNx)
    (hne : ¬ (newNx = nx ∧ newNy = ny))
    (h : a.shape = [ny, nx] ∨ (a.shape = [ny, nx, nb] ∧ 2 ≤ nb ∧ nb ≤ 4)) :
    ∃ r p, resizeImage filter a newNy newNx = .ok r ∧ p.width = nx ∧ p.height = ny ∧
      (a.shape = [ny, nx] → r.shape = [newNy, newNx] ∧ p.channels = none ∧ (∀ y x b, p.px y x b = a.px [y, x]) ∧
        ∀ y x, r.px [y, x] = filter p newNx newNy y x 0) ∧
      (a.shape = [ny, nx, nb] → r.shape = [newNy, newNx, nb] ∧ p.channels = some nb ∧ (∀ y x b, p.px y x b = a.px [y, x, b]) ∧
        ∀ y x b, r.px [y, x, b] = filter p newNx newNy y x b) := by
  rcases h with h | ⟨h, h1, h2⟩
  · refine ⟨⟨[newNy, newNx], fun i => filter ⟨nx, ny, none, fun y x _ => a.px [y, x]⟩ newNx newNy (i.getD 0 0) (i.getD 1 0) 0⟩,
      ⟨nx, ny, none, fun y x _ => a.px [y, x]⟩, ?_, rfl, rfl, ?_, ?_⟩
    · simp only [resizeImage, toPil, h, ok_bind, pilResize]
      rw [if_neg hne, if_neg (by omega)]
      rfl
    · intro _
      exact ⟨rfl, rfl, fun _ _ _ => rfl, fun _ _ => rfl⟩
    · intro h'; rw [h] at h'; simp at h'
  · have hb : nb = 2 ∨ nb = 3 ∨ nb = 4 := by omega
    refine ⟨⟨[newNy, newNx, nb], fun i => filter ⟨nx, ny, some nb, fun y x b => a.px [y, x, b]⟩ newNx newNy (i.getD 0 0) (i.getD 1 0) (i.getD 2 0)⟩,
      ⟨nx, ny, some nb, fun y x b => a.px [y, x, b]⟩, ?_, rfl, rfl, ?_, ?_⟩
    · simp only [resizeImage, toPil, h, if_pos hb, ok_bind, pilResize]
      rw [if_neg hne, if_neg (by omega)]
      rfl
    · intro h'; rw [h] at h'; simp at h'
    · intro _
      exact ⟨rfl, rfl, fun _ _ _ => rfl, fun _ _ _ => rfl⟩

/-- C110: resizing to an image's own size gives the same image. -/
theorem C110_resize_same (filter : Pil α → Nat → Nat → Nat → Nat → Nat → α) (a : ND α) (ny nx nb : Nat)
    (h : a.shape = [ny, nx] ∨ (a.shape = [ny, nx, nb] ∧ 2 ≤ nb ∧ nb ≤ 4)) :
    ∃ r, resizeImage filter a ny nx = .ok r ∧ Equal r a := by
  rcases h with h | ⟨h, h1, h2⟩
  · refine ⟨⟨[ny, nx], fun i => a.px [i.getD 0 0, i.getD 1 0]⟩, ?_, h.symm, ?_⟩
    · simp [resizeImage, toPil, h, ok_bind, pilResize, fromPil]
    · intro i hi _
      match i, hi with
      | [y, x], _ => rfl
  · have hb : nb = 2 ∨ nb = 3 ∨ nb = 4 := by omega
    refine ⟨⟨[ny, nx, nb], fun i => a.px [i.getD 0 0, i.getD 1 0, i.getD 2 0]⟩, ?_, h.symm, ?_⟩
    · simp [resizeImage, toPil, h, hb, ok_bind, pilResize, fromPil]
    · intro i hi _
      match i, hi with
      | [y, x, b], _ => rfl

/-- C110: a single band on a third axis, as `create_uniform_image_data` makes it, and any other shape cannot be resized: TypeError; a size of 0 is
a ValueError. -/
theorem C110_resize_refused (filter : Pil α → Nat → Nat → Nat → Nat → Nat → α) (a : ND α) (newNy newNx : Nat) :
    ((¬ ∃ ny nx, a.shape = [ny, nx]) → (¬ ∃ ny nx nb, a.shape = [ny, nx, nb] ∧ 2 ≤ nb ∧ nb ≤ 4) →
      resizeImage filter a newNy newNx = .error .typeError) ∧
    (∀ ny nx, a.shape = [ny, nx] → 0 < ny → 0 < nx → (newNy = 0 ∨ newNx = 0) → resizeImage filter a newNy newNx = .error .valueError) := by
  constructor
  · intro h1 h2
    unfold resizeImage toPil
    match hs : a.shape with
    | [] => rfl
    | [_] => rfl
    | [p, q] => exact absurd ⟨p, q, hs⟩ h1
    | [p, q, r] =>
      have : ¬ (r = 2 ∨ r = 3 ∨ r = 4) := fun h => h2 ⟨p, q, r, hs, by omega, by omega⟩
      simp only [if_neg this]
      rfl
    | _ :: _ :: _ :: _ :: _ => rfl
  · intro ny nx h hy hx h0
    simp only [resizeImage, toPil, h, ok_bind, pilResize]
    rw [if_neg (by omega), if_pos (by omega)]
    rfl

/-- C110 fails for `gdal_grid_image_band`: it raises TypeError for every image. -/
theorem C110_gdal_grid_false (a : ND α) : gdalGrid a = .error .typeError := rfl

example : nyNxNbands (⟨[3, 5], fun _ => (0 : Nat)⟩ : ND Nat) = .ok (3, 5, 1) ∧ nyNxNbands (⟨[3, 5, 4], fun _ => (0 : Nat)⟩ : ND Nat) = .ok (3, 5, 4) :=
  ⟨(C110_image_size _ 3 5 1 (Or.inr ⟨rfl, rfl⟩)).1, (C110_image_size _ 3 5 4 (Or.inl rfl)).1⟩

example (filter : Pil Nat → Nat → Nat → Nat → Nat → Nat → Nat) :
    ∃ r, resizeImage filter (⟨[3, 5, 3], fun i => i.getD 0 0⟩ : ND Nat) 6 10 = .ok r ∧ r.shape = [6, 10, 3] := by
  obtain ⟨r, p, h1, -, -, -, h2⟩ := C110_resize filter (⟨[3, 5, 3], fun i => i.getD 0 0⟩ : ND Nat) 3 5 3 6 10 (by omega) (by omega) (by omega)
    (Or.inr ⟨rfl, by omega, by omega⟩)
  exact ⟨r, h1, (h2 rfl).1⟩

end Verif.Shapes
