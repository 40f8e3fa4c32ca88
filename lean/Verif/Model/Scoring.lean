import Verif.Model.Chipper
import Verif.Model.ImageUtils
import Verif.Model.TextUtils
import Mathlib.Data.List.Lex
import Mathlib.Data.Char

/-! Model of `/repo/resippy/image_recognition/neural_net_model_scoring/keras_image_scoring.py` and of the
label file written by `/repo/resippy/image_recognition/neural_net_model_training/keras_model_training.py`.

Contracts of external code, all parameters: `scipy.misc.imresize` followed by keras' `img_to_array` is
`resize`; `Model.predict` of a batch of one image is `predict`, which gives one number per class. -/

namespace Verif.Scoring
open Verif Chipper ImageUtils

section
variable {K : Type} [Field K] [LinearOrder K] [IsStrictOrderedRing K]

/-- The entries of a chip, for `np.min`/`np.max` (keras_image_scoring.py:42). -/
def entries (a : A3 K) : List K :=
  (List.range a.ny).flatMap (fun y => (List.range a.nx).flatMap (fun x => (List.range a.nb).map (fun b => a.px y x b)))

/-- The normalisation of one resized chip (keras_image_scoring.py:39-42): division by 255, min-max stretch, or
nothing for any other name.  `none` is a non-finite value (a constant chip stretched); `np.min` of an
empty chip is a ValueError. -/
def normalise (method : Str) (a : A3 K) : Py (A3 (Option K)) :=
  if method = "divide_by_255".toList then .ok ⟨a.ny, a.nx, a.nb, fun y x b => some (a.px y x b / 255)⟩
  else if method = "min_max_per_chip".toList then
    match (entries a).min?, (entries a).max? with
    | some mn, some mx => .ok ⟨a.ny, a.nx, a.nb, fun y x b => fdiv (a.px y x b - mn) (mx - mn)⟩
    | _, _ => .error .valueError
  else .ok ⟨a.ny, a.nx, a.nb, fun y x b => some (a.px y x b)⟩

/-- `image_chips[i]` as an array `(ny, nx, bands)`; a chip without a band axis gets one from
`img_to_array` (keras_image_scoring.py:36-38). -/
def chipAt (c : Chips K) (i : Nat) : A3 K := ⟨c.ny, c.nx, c.nb.getD 1, fun y x b => c.px i y x b⟩

/-- The loop over the chips from index `i`, `todo` chips left (keras_image_scoring.py:35-46): the list of
prediction vectors.  `ledger` is whether a progress ledger was given: `None.set_status` is an
AttributeError. -/
def scoreLoop (resize : A3 K → A3 K) (method : Str) (predict : A3 (Option K) → List K) (ledger : Bool)
    (c : Chips K) : Nat → Nat → Py (List (List K))
  | 0, _ => .ok []
  | todo + 1, i => do
    let a ← normalise method (resize (chipAt c i))
    let p := predict a
    if ledger then do
      let rest ← scoreLoop resize method predict ledger c todo (i + 1)
      .ok (p :: rest)
    else .error .attributeError

/-- The score array after `np.squeeze` (keras_image_scoring.py:48): a number, a vector or a table. -/
inductive Scores (K : Type) where
  | d0 (v : K)
  | d1 (l : List K)
  | d2 (rows : List (List K))

/-- `np.squeeze(np.array(scores))` of prediction arrays of shape `(1, classes)` (keras_image_scoring.py:48): axes
of length one disappear.  Vectors of one length are assumed (one model made them). -/
def squeeze (rows : List (List K)) : Scores K :=
  match rows with
  | [] => .d1 []
  | [[v]] => .d0 v
  | [r] => .d1 r
  | r :: rs => if r.length = 1 then .d1 ((r :: rs).flatten) else .d2 (r :: rs)

/-- `labels.index(thing)` (keras_image_scoring.py:50): ValueError when absent. -/
def labelIndex (labels : List Str) (thing : Str) : Py Nat :=
  match labels.findIdx? (fun l => l == thing) with
  | some i => .ok i
  | none => .error .valueError

/-- One column: every row needs the entry, otherwise IndexError (keras_image_scoring.py:51). -/
def column (k : Nat) : List (List K) → Py (List K)
  | [] => .ok []
  | r :: rs =>
    match r[k]? with
    | none => .error .indexError
    | some v => do
      let l ← column k rs
      .ok (v :: l)

/-- `scores[:, k]` (keras_image_scoring.py:51): IndexError unless the array is two-dimensional. -/
def scoreColumn (s : Scores K) (k : Nat) : Py (Scores K) :=
  match s with
  | .d2 rows => do
    let l ← column k rows
    .ok (.d1 l)
  | _ => .error .indexError

/-- The alpha channel of a four-band image removed (keras_image_scoring.py:23-24); a two-dimensional image has no
`shape[2]`: IndexError. -/
def dropAlpha : Img K → Py (A3 K)
  | .gray _ => .error .indexError
  | .cube a => .ok (if a.nb = 4 then ⟨a.ny, a.nx, 3, a.px⟩ else a)

/-- `chip_and_score_image` (keras_image_scoring.py:8-52).  The overlap percentages are rationals. -/
def chipAndScore (resize : A3 K → A3 K) (predict : A3 (Option K) → List K) (image : Img K) (cx cy : Nat)
    (px py : ℚ) (method : Str) (labels : Option (List Str)) (thing : Option Str) (ledger : Bool) :
    Py (Scores K × List (Int × Int)) := do
  let img ← dropAlpha image
  let out ← chipEntire (.cube img) cy cx (truncZ (cy * py)) (truncZ (cx * px)) .none true
  let rows ← scoreLoop resize method predict ledger out.chips out.chips.n 0
  match labels, thing with
  | some ls, some t => do
    let k ← labelIndex ls t
    let s ← scoreColumn (squeeze rows) k
    .ok (s, out.uls)
  | _, _ => .ok (squeeze rows, out.uls)

/-- `create_detection_image_from_scores` called with the upper lefts as they come from the chipper, a list of
tuples (`isArray = false`), or converted by the caller with `np.array`: `upper_lefts[:, 0]` of a list
is a TypeError (image_utils.py:153-155, image_chipper.py:97-113). -/
def detectionFrom (isArray : Bool) (scores : List K) (uls : List (Int × Int)) (cx cy : Nat) (order : List Nat) :
    Py (A2 K) :=
  if isArray then detectionImage scores uls cx cy order else .error .typeError

end

/-! ### Label file -/

/-- `sorted(list(class_indices.keys()))` written to `labels.txt` (keras_model_training.py:132-135): Python orders
strings by code points, the order of `List Char`. -/
def writeLabels (sep : Str) (classes : List (Str × Nat)) : Py Str :=
  TextUtils.writeTextList sep ((classes.map Prod.fst).mergeSort (fun a b => decide (a ≤ b)))

end Verif.Scoring
