import Verif.Model.Optim

/-!
# Files on disk: `ModelState.save`, `ModelState.load` and `StateCheckpointer` as sequences of disk operations

`Model/Params.lean` identifies a file with the dictionary stored in it. Here a save takes time: `np.savez` opens the
file for writing (which empties it), writes the arrays as members of a zip archive and writes the directory of the
archive last. A process that dies in between leaves a file without directory, which `np.load` refuses. Other
processes, full disks and the reordering of writes by the operating system are not modelled.
-/

namespace GPX
noncomputable section
variable {K M C O : Type}

/-- What is found under a file name. -/
inductive OnDisk where
  /-- opened for writing and not closed -/
  | torn
  /-- a complete archive -/
  | whole (content : List (Key × Dumped))

/-- The file system: names and what is found there. -/
abbrev Disk := List (Key × OnDisk)

/-- The two moments at which `np.savez` (`model_state.py:293`) changes what a later reader finds. -/
inductive DiskOp where
  | opened (file : Key)
  | closed (file : Key) (content : List (Key × Dumped))

/-- The effect of one operation. -/
def DiskOp.run : DiskOp → Disk → Disk
  | .opened f, d => assocSet f .torn d
  | .closed f c, d => assocSet f (.whole c) d

/-- The disk after a sequence of operations. A crash leaves the disk after some initial part of it. -/
def runOps (ops : List DiskOp) (d : Disk) : Disk := ops.foldl (fun d op => op.run d) d

/-- `np.savez(state_file, **params)`, `model_state.py:293`. -/
def savezOps (file : Key) (content : List (Key × Dumped)) : List DiskOp :=
  [.opened (savezName file), .closed (savezName file) content]

/-- `ModelState.save(state_file)`, `model_state.py:246-295` (`BaseGP.save`, `models/base.py:74-76`): everything that can
raise happens before the file is opened. -/
def ModelState.saveOps (s : ModelState K M C) (file : Key) : Except Err (List DiskOp) := do
  let content ← s.save
  pure (savezOps file content)

/-- How reading a model state can fail. -/
inductive LoadErr where
  /-- `FileNotFoundError` of `np.load` -/
  | missing
  /-- `EOFError` or `zipfile.BadZipFile` of `np.load` -/
  | unreadable
  /-- an exception of `ModelState.load` on the content -/
  | raised (e : Err)

/-- `ModelState.load(state_file)`, `model_state.py:297-347` (`BaseGP.load`, `models/base.py:78-81`): `np.load` opens
exactly the name it is given. -/
def ModelState.loadFrom (s : ModelState K M C) (d : Disk) (file : Key) : Except LoadErr (ModelState K M C) :=
  match assocGet file d with
  | none => .error .missing
  | some .torn => .error .unreadable
  | some (.whole c) => match s.load c with
    | .error e => .error (.raised e)
    | .ok r => .ok r

/-- `StateCheckpointer.__call__`, `scipy_optimize.py:225-229`, with counter `n`. -/
def checkpointOps (state : ModelState K M C) (chkFile : List Char) (n : ℕ) (x : List ℝ) :
    Except Err (List DiskOp) := do
  let params ← unravelForward state.params x
  let ustate ← (state.update { params := some params }).1
  let f ← chkName chkFile n
  ustate.saveOps f

/-- Successive calls of one checkpointer whose counter stands at `n` (`scipy_optimize.py:206, 229`). -/
def checkpointsOps (state : ModelState K M C) (chkFile : List Char) :
    ℕ → List (List ℝ) → Except Err (List DiskOp)
  | _, [] => .ok []
  | n, x :: xs => do
      let a ← checkpointOps state chkFile n x
      let b ← checkpointsOps state chkFile (n + 1) xs
      pure (a ++ b)

end
end GPX
