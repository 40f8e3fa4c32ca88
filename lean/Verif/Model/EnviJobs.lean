import Verif.Model.Envi

/-! Several processes writing ENVI images at the same time with `write_envi_image` (`/repo/resippy/utils/envi_utils.py:186-212`), byte by byte and in any order. -/

namespace Verif.Envi
open Verif TextUtils

/-- A file growing from empty to its final content (`tofile`, envi_utils.py:202; `f.write`, envi_utils.py:177-181): what it holds after each effect.  Exact
as long as only one process has the file open. -/
def growing (p : Str) (b : List Nat) : List (Str × List Nat) := (List.range (b.length + 1)).map (fun k => (p, b.take k))

/-- A call of `write_envi_image` (envi_utils.py:186-190). -/
structure EnviJob where
  cube : Cube
  fname : Str
  hdr : Option Str
  interleave : Str

/-- The effects of the call on the disk, in order (envi_utils.py:191-212): first the data file, then the header, which is not reached when the data type has no
code. -/
def EnviJob.effects (ls : Str) (j : EnviJob) : List (Str × List Nat) :=
  growing j.fname (dataBytes j.cube j.interleave) ++
    match toEnvi j.cube.dtype with
    | none => []
    | some code => growing (headerName j.fname j.hdr) (headerBytes ls j.cube code j.interleave)

/-- Processes at work: what each has still to do, and the disk. Used for `EnviJob.effects`, envi_utils.py:186-212. -/
structure EnviWork where
  todo : List (List (Str × List Nat))
  disk : FS

/-- Process `i` does its next effect; one that has finished, or does not exist, does nothing (envi_utils.py:186-212). -/
def EnviWork.step (w : EnviWork) (i : Nat) : EnviWork :=
  match w.todo[i]? with
  | some (e :: l) => ⟨w.todo.set i l, w.disk.put e.1 e.2⟩
  | _ => w

/-- The processes take turns as `schedule` says (envi_utils.py:186-212). -/
def EnviWork.run (w : EnviWork) (schedule : List Nat) : EnviWork := schedule.foldl EnviWork.step w

/-- All calls about to start (envi_utils.py:186-212). -/
def startJobs (ls : Str) (fs : FS) (jobs : List EnviJob) : EnviWork := ⟨jobs.map (EnviJob.effects ls), fs⟩

/-! ### Several processes with the same file open -/

/-- A single effect on a file: `open(…, 'wb')` empties it, a `write` puts a byte at the place the process has reached (`tofile`, envi_utils.py:202; `open`
and `f.write`, envi_utils.py:177-181). -/
inductive FileOp where
  | empty (p : Str)
  | byte (p : Str) (at_ : Nat) (v : Nat)

/-- The file concerned (envi_utils.py:177-202). -/
def FileOp.path : FileOp → Str
  | .empty p => p
  | .byte p _ _ => p

/-- POSIX `write` of one byte at a place: bytes missing before it become zero (envi_utils.py:177-202). -/
def putAt (l : List Nat) (k v : Nat) : List Nat := if k < l.length then l.set k v else l ++ List.replicate (k - l.length) 0 ++ [v]

/-- The disk after the effect (envi_utils.py:177-202).  A byte written to a file nobody has created cannot occur; it is ignored. -/
def FileOp.apply (fs : FS) : FileOp → FS
  | .empty p => fs.put p []
  | .byte p k v => match fs p with
    | some l => fs.put p (putAt l k v)
    | none => fs

/-- Writing a whole file byte by byte (envi_utils.py:177-181, 202). -/
def writeOps (p : Str) (b : List Nat) : List FileOp := .empty p :: (List.range b.length).map (fun k => .byte p k (b.getD k 0))

/-- The effects of a call of `write_envi_image`, byte by byte (envi_utils.py:186-212). -/
def EnviJob.ops (ls : Str) (j : EnviJob) : List FileOp :=
  writeOps j.fname (dataBytes j.cube j.interleave) ++
    match toEnvi j.cube.dtype with
    | none => []
    | some code => writeOps (headerName j.fname j.hdr) (headerBytes ls j.cube code j.interleave)

/-- Processes at work on possibly the same files (envi_utils.py:186-212). -/
structure OpWork where
  todo : List (List FileOp)
  disk : FS

/-- Process `i` does its next effect (envi_utils.py:186-212). -/
def OpWork.step (w : OpWork) (i : Nat) : OpWork :=
  match w.todo[i]? with
  | some (e :: l) => ⟨w.todo.set i l, e.apply w.disk⟩
  | _ => w

/-- The processes take turns as `schedule` says (envi_utils.py:186-212). -/
def OpWork.run (w : OpWork) (schedule : List Nat) : OpWork := schedule.foldl OpWork.step w

/-- All calls about to start (envi_utils.py:186-212). -/
def startOps (ls : Str) (fs : FS) (jobs : List EnviJob) : OpWork := ⟨jobs.map (EnviJob.ops ls), fs⟩

end Verif.Envi
