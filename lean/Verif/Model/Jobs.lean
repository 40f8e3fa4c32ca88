import Verif.Model.Chipper

/-! What several processes, or one process that is killed, leave on disk.

Part 1: `write_chips_to_disk` (`/repo/resippy/utils/image_utils/image_chipper.py:135-164`) as the sequence of its effects on the disk.
Part 2: `make_dir_if_not_exists` (`/repo/resippy/utils/file_utils.py:8-11`) and `os.makedirs` as sequences of system calls.

The processes run one effect at a time, in any order. -/

namespace Verif.Jobs
open Verif Chipper

/-! ### Files being written -/

/-- A file: completely written, or opened for writing and not closed yet. Used for `exportActs`, image_chipper.py:159. -/
inductive Blob (α : Type) where
  | torn
  | whole (a : α)
deriving DecidableEq

/-- The files, by path. Used for `exportActs`, image_chipper.py:159. -/
abbrev Disk (α : Type) := Str → Option (Blob α)

/-- The two moments of `imageio.imsave(path, chip)` (image_chipper.py:159): the file is opened, which empties it; later it is complete.
What is in the file between the two moments is not modelled. -/
inductive Act (α : Type) where
  | start (p : Str)
  | finish (p : Str) (a : α)

/-- The file an effect is about (image_chipper.py:159). -/
def Act.path {α : Type} : Act α → Str
  | .start p => p
  | .finish p _ => p

/-- One effect (image_chipper.py:159). -/
def Act.run {α : Type} (d : Disk α) : Act α → Disk α
  | .start p => fun q => if q = p then some .torn else d q
  | .finish p a => fun q => if q = p then some (.whole a) else d q

/-- Effects one after the other (image_chipper.py:148-159). -/
def runActs {α : Type} (d : Disk α) (l : List (Act α)) : Disk α := l.foldl Act.run d

/-- The effects of the loop of `write_chips_to_disk` (image_chipper.py:148-159) from chip `i` with `todo` chips left, up to the exception if there is
one; compare `Chipper.writeLoop`. -/
def exportActs {α : Type} (chips : Chips α) (nb : Nat) (resize : A3 α → A3 α) (removeAlpha : Bool)
    (outputDir base : Str) (fnames : Option (List Str)) (fmt : Str) : (todo i : Nat) → List (Act (A3 α))
  | 0, _ => []
  | todo + 1, i => match chipPath outputDir base fnames fmt i with
    | .error _ => []
    | .ok p => .start p :: .finish p (chipForDisk chips nb resize removeAlpha i) ::
        exportActs chips nb resize removeAlpha outputDir base fnames fmt todo (i + 1)

/-- A call of `write_chips_to_disk` (image_chipper.py:135-145). -/
structure Export (α : Type) where
  chips : Chips α
  resize : A3 α → A3 α
  removeAlpha : Bool
  outputDir : Str
  base : Option Str
  fnames : Option (List Str)
  fmt : Str

/-- The effects of the call (image_chipper.py:135-164). -/
def Export.acts {α : Type} (e : Export α) : List (Act (A3 α)) :=
  let base' := match e.base with
    | none => basename e.outputDir
    | some b => b
  match e.chips.nb with
  | none => []
  | some nb => exportActs e.chips nb e.resize e.removeAlpha e.outputDir base' e.fnames e.fmt e.chips.n 0

/-- Processes at work: what each has still to do, and the disk. Used for `Export.acts`, image_chipper.py:135-164. -/
structure Work (α : Type) where
  todo : List (List (Act α))
  disk : Disk α

/-- Process `i` does its next effect; a process that has finished, or does not exist, does nothing (image_chipper.py:148-159). -/
def Work.step {α : Type} (w : Work α) (i : Nat) : Work α :=
  match w.todo[i]? with
  | some (a :: l) => ⟨w.todo.set i l, a.run w.disk⟩
  | _ => w

/-- The processes take turns as `schedule` says; where the list ends everything stops (image_chipper.py:148-159). -/
def Work.run {α : Type} (w : Work α) (schedule : List Nat) : Work α := schedule.foldl Work.step w

/-! ### Making directories -/

/-- What is at a path. Used for `Tree.mkdir`, file_utils.py:10-11. -/
inductive Node where
  | dir
  | file
deriving DecidableEq

/-- A path: its components, the last one first; `[]` is the root, or the working directory of a relative path. Paths with empty components,
`.` or `..` are not modelled. Used for `makedirs`, file_utils.py:11. -/
abbrev Path := List Str

/-- What is at each path below the root. Used for `Tree.mkdir`, file_utils.py:10-11. -/
abbrev Tree := Path → Option Node

/-- What is at a path; the root is a directory. Used for `Tree.mkdir`, file_utils.py:10-11. -/
def Tree.node (t : Tree) : Path → Option Node
  | [] => some .dir
  | n :: p => t (n :: p)

/-- Exceptions of the system calls. Used for `Tree.mkdir`, file_utils.py:11. -/
inductive OsErr where
  | fileExists
  | fileNotFound
  | notADirectory
deriving DecidableEq

/-- The tree with a directory more (system call `mkdir`, file_utils.py:11). -/
def Tree.add (t : Tree) (p : Path) : Tree := fun q => if q = p then some .dir else t q

/-- The system call `mkdir` (file_utils.py:11): the tree afterwards and the error, if any. -/
def Tree.mkdir (t : Tree) : Path → Tree × Option OsErr
  | [] => (t, some .fileExists)
  | n :: p =>
    if (t.node (n :: p)).isSome then (t, some .fileExists)
    else match t.node p with
      | none => (t, some .fileNotFound)
      | some .file => (t, some .notADirectory)
      | some .dir => (t.add (n :: p), none)

/-- A process: its next system call and what it does with the answer. Used for `makedirs`, file_utils.py:8-11. -/
inductive Prog where
  | done (r : Except OsErr Unit)
  | pathExists (p : Path) (k : Bool → Prog)
  | isDir (p : Path) (k : Bool → Prog)
  | mkdir (p : Path) (k : Option OsErr → Prog)

/-- The end of `os.makedirs`: `try: mkdir(name) except OSError: if not exist_ok or not path.isdir(name): raise` (used in file_utils.py:11,
micasense_image_factory.py:108). -/
def lastMkdir (existOk : Bool) (p : Path) (k : Except OsErr Unit → Prog) : Prog :=
  .mkdir p (fun r => match r with
    | none => k (.ok ())
    | some e => if existOk then .isDir p (fun d => if d then k (.ok ()) else k (.error e)) else k (.error e))

/-- `os.makedirs(name, exist_ok)` of Python 3 (used in file_utils.py:11, micasense_image_factory.py:108): makes the missing parents first, passes over
a FileExistsError of theirs, then makes the directory itself. -/
def makedirs (existOk : Bool) : Path → (Except OsErr Unit → Prog) → Prog
  | [], k => lastMkdir existOk [] k
  | n :: p, k => .pathExists p (fun e =>
      if e then lastMkdir existOk (n :: p) k
      else makedirs existOk p (fun r => match r with
        | .ok _ => lastMkdir existOk (n :: p) k
        | .error .fileExists => lastMkdir existOk (n :: p) k
        | .error e => k (.error e)))

/-- `make_dir_if_not_exists` (file_utils.py:8-11). -/
def makeDirIfNotExists (p : Path) : Prog :=
  .pathExists p (fun e => if e then .done (.ok ()) else makedirs false p .done)

/-- Making the directory for temporary bands (micasense_image_factory.py:108). -/
def makeWorkingDir (p : Path) : Prog := makedirs true p .done

/-- The next system call of a process (file_utils.py:8-11). -/
def Prog.step (t : Tree) : Prog → Tree × Prog
  | .done r => (t, .done r)
  | .pathExists p k => (t, k (t.node p).isSome)
  | .isDir p k => (t, k (decide (t.node p = some .dir)))
  | .mkdir p k => ((t.mkdir p).1, k (t.mkdir p).2)

/-- The processes and the tree. Used for `makeDirIfNotExists`, file_utils.py:8-11. -/
structure World where
  procs : List Prog
  tree : Tree

/-- Process `i` does its next system call (file_utils.py:8-11). -/
def World.step (w : World) (i : Nat) : World :=
  match w.procs[i]? with
  | some p => ⟨w.procs.set i (p.step w.tree).2, (p.step w.tree).1⟩
  | none => w

/-- The processes take turns as `schedule` says (file_utils.py:8-11). -/
def World.run (w : World) (schedule : List Nat) : World := schedule.foldl World.step w

end Verif.Jobs
