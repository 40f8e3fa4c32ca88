import Verif.Model.Jobs
import Verif.Model.Training

/-! What `train_model` (`/repo/resippy/image_recognition/neural_net_model_training/keras_model_training.py:113-166`) leaves in its output directory
when it is stopped, and when it is called again. -/

namespace Verif.TrainFiles
open Verif Jobs Training

/-- The contents of the two files: the text of the label file; the model after an epoch, with its validation loss and the label file of the training
that made it (keras_model_training.py:130-143). -/
inductive Saved (K : Type) where
  | labels (text : Str)
  | model (labels : Str) (loss : K) (epoch : Nat)

/-- The epochs after which `ModelCheckpoint(save_best_only=True, mode='min')` writes the model, with their losses (keras_model_training.py:137-143), from
epoch `e` with the best loss so far; compare `Training.checkpoint`. -/
def saves {K : Type} [LT K] [DecidableLT K] : Option K → Nat → List (Option K) → List (Nat × K)
  | _, _, [] => []
  | b, e, none :: l => saves b (e + 1) l
  | none, e, some v :: l => (e, v) :: saves (some v) (e + 1) l
  | some b, e, some v :: l => if v < b then (e, v) :: saves (some v) (e + 1) l else saves (some b) (e + 1) l

/-- The label file (keras_model_training.py:134). -/
def labelPath (dir : Str) : Str := pathJoin dir "labels.txt".toList

/-- Writing one file (file_utils.py:82-83; `model.save`, which opens the file anew). -/
def writeFile {α : Type} (p : Str) (a : α) : List (Act α) := [.start p, .finish p a]

/-- The effects of `train_model` on its output directory (keras_model_training.py:130-166): the label file first, then the model after every epoch better
than those before; the logs of TensorBoard are not modelled. -/
def trainActs {K : Type} [LT K] [DecidableLT K] (dir name labels : Str) (losses : Nat → Option K) (nEpochs : Nat) : List (Act (Saved K)) :=
  writeFile (labelPath dir) (.labels labels) ++
    (saves none 0 ((List.range nEpochs).map losses)).flatMap (fun s => writeFile (pathJoin dir name) (.model labels s.2 s.1))

end Verif.TrainFiles
