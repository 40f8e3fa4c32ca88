import Verif.Model.Scoring
import Mathlib.Data.Rat.Floor
import Mathlib.Algebra.Order.Field.Rat

/-! Model of `/repo/resippy/image_recognition/neural_net_model_training/keras_model_training.py`.

Contracts of Keras 2.2, written down here as definitions or taken as parameters:
`flow_from_directory` numbers the sub-folders in the order of their names and lists their images folder by folder; a
`DirectoryIterator` cuts a permutation of its images (drawn anew for every pass) into batches; `fit_generator` takes one batch after the
other while fewer than `steps_per_epoch` were taken, then does the same with the validation images, then calls `ModelCheckpoint` with the
validation loss; the optimizer counts its steps. -/

namespace Verif.Training
open Verif

/-- The sub-folders of a training or validation directory with the images in each, in the order of the directory listing.
Used for `flow`, keras_model_training.py:48-52. -/
abbrev Folders := List (Str × List Str)

/-- A `DirectoryIterator`: `class_indices`, `filenames` with the number of their class, `batch_size`.
Used for `flow`, keras_model_training.py:48-52. -/
structure Gen where
  classIndices : List (Str × Nat)
  files : List (Str × Nat)
  batch : Nat

/-- The images of one sub-folder. Used for `flow`, keras_model_training.py:48-52. -/
def imagesOf (d : Folders) (c : Str) : List Str := (d.filter (fun e => decide (e.1 = c))).flatMap Prod.snd

/-- `class_indices` of a directory: its sub-folders in the order of their names, numbered from 0 (keras_model_training.py:48-52, 169-171). -/
def indices (d : Folders) : List (Str × Nat) := ((d.map Prod.fst).mergeSort (fun a b => decide (a ≤ b))).zipIdx

/-- `flow_from_directory(dir, batch_size=batchsize)` (keras_model_training.py:48-52, 55-59). -/
def flow (d : Folders) (batch : Nat) : Gen :=
  ⟨indices d, (indices d).flatMap (fun e => (imagesOf d e.1).map (fun f => (e.1 ++ '/' :: f, e.2))), batch⟩

/-- `setup_train_and_val_image_generators` (keras_model_training.py:34-61); the images themselves are not modelled. -/
def setupGenerators (training validation : Folders) (batch : Nat) : Gen × Gen := (flow training batch, flow validation batch)

/-- Batch `i` of a pass over the images in the order `perm` (contract of `DirectoryIterator`, keras_model_training.py:159-166). -/
def batchAt (g : Gen) (perm : List Nat) (i : Nat) : List (Str × Nat) :=
  ((perm.drop (g.batch * i)).take g.batch).filterMap (fun k => g.files[k]?)

/-- Number of batches of one pass, `ceil(n / batch_size)` (contract of `DirectoryIterator`, keras_model_training.py:159-166). -/
def passLength (g : Gen) : Nat := (g.files.length + g.batch - 1) / g.batch

/-- Batch number `j` of the endless stream: passes follow each other, each in its own order (contract of Keras' enqueuer,
keras_model_training.py:159-166). -/
def stream (g : Gen) (perm : Nat → List Nat) (j : Nat) : List (Str × Nat) := batchAt g (perm (j / passLength g)) (j % passLength g)

/-- `while steps_done < steps_per_epoch: batch = next(...)` from stream position `pos` (contract of `fit_generator`,
keras_model_training.py:159-166); `fuel` bounds the loop and is shown never to run out. -/
def takeSteps (next : Nat → List (Str × Nat)) (steps : Rat) : (fuel : Nat) → (done pos : Nat) → List (List (Str × Nat))
  | 0, _, _ => []
  | fuel + 1, done, pos => if (done : Rat) < steps then next pos :: takeSteps next steps fuel (done + 1) (pos + 1) else []

/-- The epochs of `fit_generator`: the batches used in each (keras_model_training.py:157-166). -/
def runEpochs (next : Nat → List (Str × Nat)) (steps : Rat) (fuel : Nat) : (epochs pos : Nat) → List (List (List (Str × Nat)))
  | 0, _ => []
  | e + 1, pos =>
    let l := takeSteps next steps fuel 0 pos
    l :: runEpochs next steps fuel e (pos + l.length)

/-! ### Layers -/

/-- The `trainable` attribute of every layer object, and how many layers exist. Used for `freeze`, keras_model_training.py:87-96. -/
structure Layers where
  trainable : Nat → Bool
  count : Nat

/-- A model: its layers and the number of axes of its output tensor, the batch axis included. Used for `addHead`,
keras_model_training.py:100-110. -/
structure Net where
  layers : List Nat
  rank : Nat

/-- `layer.trainable = b` (keras_model_training.py:89-90, 95-96). -/
def Layers.set (h : Layers) (l : Nat) (b : Bool) : Layers := { h with trainable := fun k => if k = l then b else h.trainable k }

/-- `freeze_model_layers` (keras_model_training.py:87-90). -/
def freeze (h : Layers) (m : Net) : Layers := m.layers.foldl (fun h l => h.set l false) h

/-- `unfreeze_model_layers` (keras_model_training.py:93-96). -/
def unfreeze (h : Layers) (m : Net) : Layers := m.layers.foldl (fun h l => h.set l true) h

/-- A network of `n` new layers as `load_vgg16_model`, `load_vgg19_model` and `load_resnet50_model` load it: with its own classification layers
the output has two axes, without them four (keras_model_training.py:66-84). -/
def loadModel (h : Layers) (n : Nat) (includeTop : Bool) : Layers × Net :=
  (⟨fun k => if h.count ≤ k then true else h.trainable k, h.count + n⟩, ⟨List.range' h.count n, if includeTop then 2 else 4⟩)

/-- `create_final_dense_softmax_layer` followed by `Model(inputs=base_model.input, outputs=final_model_layers)`
(keras_model_training.py:100-110, 146-149): four new layers; `GlobalAveragePooling2D` of anything but a four-axis tensor is a ValueError. -/
def addHead (h : Layers) (m : Net) : Py (Layers × Net) :=
  if m.rank = 4 then
    .ok (⟨fun k => if h.count ≤ k then true else h.trainable k, h.count + 4⟩, ⟨m.layers ++ List.range' h.count 4, 2⟩)
  else .error .valueError

/-- The layers `model.compile` makes trainable: those whose attribute is set at that moment (keras_model_training.py:152). -/
def trainedLayers (h : Layers) (m : Net) : List Nat := m.layers.filter h.trainable

/-! ### Checkpoints -/

/-- `ModelCheckpoint(save_best_only=True, monitor='val_loss', mode='min')` (keras_model_training.py:137-143): best loss so far (None: infinity) and
the epoch whose model the file holds (None: not written). A loss of None is not a number, for which `<` is False. -/
def checkpoint {K : Type} [LT K] [DecidableLT K] (s : Option K × Option Nat) (e : Nat) : Option K → Option K × Option Nat
  | none => s
  | some v => match s.1 with
    | none => (some v, some e)
    | some b => if v < b then (some v, some e) else s

/-- The file after the epochs whose losses are given, from epoch `e` (keras_model_training.py:137-143, 159-166). -/
def checkpoints {K : Type} [LT K] [DecidableLT K] : Option K × Option Nat → Nat → List (Option K) → Option K × Option Nat
  | s, _, [] => s
  | s, e, v :: l => checkpoints (checkpoint s e v) (e + 1) l

/-! ### Training -/

/-- What a call of `train_model` did. Used for `train`, keras_model_training.py:113-166. -/
structure Run where
  labelFile : Str
  epochs : List (List (List (Str × Nat)))
  validation : List (List (List (Str × Nat)))
  trained : List Nat
  saved : Option Nat
  iterations : Nat

/-- `train_model` (keras_model_training.py:113-166) for a model with `outputs` outputs: the order of images in every pass over training and
validation images (`permT`, `permV`), the validation losses (`losses`) and the number of steps already counted by the optimizer object (`iter`)
are parameters. Directories without any image are not modelled. A generator whose number of classes is not the number of outputs is a ValueError. -/
def train {K : Type} [LT K] [DecidableLT K] (sep : Str) (h : Layers) (m : Net) (outputs : Nat) (g v : Gen) (nEpochs : Nat)
    (permT permV : Nat → List Nat) (losses : Nat → Option K) (iter : Nat) : Py Run := do
  let labels ← Scoring.writeLabels sep g.classIndices
  if g.batch = 0 ∨ v.batch = 0 then .error .zeroDivision
  else if g.classIndices.length ≠ outputs ∨ v.classIndices.length ≠ outputs then .error .valueError
  else
    let e := runEpochs (stream g permT) ((g.files.length : Rat) / g.batch) (g.files.length + 1) nEpochs 0
    let w := runEpochs (stream v permV) ((v.files.length : Rat) / v.batch) (v.files.length + 1) nEpochs 0
    .ok ⟨labels, e, w, trainedLayers h m, (checkpoints (none, none) 0 ((List.range nEpochs).map losses)).2, iter + (e.map List.length).sum⟩

/-- A history of calls of `train_model` that leave `optimizer` at its default (keras_model_training.py:122): the default is one object made when
the function is defined, so a call starts with the steps counted by the calls before it. A call is given as a function of that count; the result
is the count every call starts from. -/
def defaultOptimizer : (iter : Nat) → (calls : List (Nat → Run)) → List Nat
  | _, [] => []
  | iter, c :: cs => iter :: defaultOptimizer (c iter).iterations cs

end Verif.Training
