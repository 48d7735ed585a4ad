import Verif.Model.Commands
/-!
# Several CLI processes at once

`commands.rs` takes no locks; the commands of different processes interleave at the level of their file operations
(`fs::read`, `fs::write`, commands.rs 31-92, 108-150, 168-280, 296-398).
-/

namespace Zkenc

/-- One file operation of one process. `fs::write` is not atomic: other processes can see any prefix of the output while it is written
(`writing`). Reading a whole file is one step (simplification; a file read while another process writes it may also be seen torn). A
process that is killed just makes no further steps. -/
inductive Step : Cmd → FS → Cmd → FS → Prop
  | read (p k fs) : Step (.read p k) fs (k (fs p)) fs
  | readError (p k fs) : Step (.read p k) fs (k none) fs
  | writing (p b k fs) (n : Nat) : Step (.write p b k) fs (.write p b k) (fs.set p (b.take n))
  | write (p b k fs) : Step (.write p b k) fs (k true) (fs.set p b)
  | writeError (p b k fs) : Step (.write p b k) fs (k false) fs
  | writePartial (p b k fs) (n : Nat) : Step (.write p b k) fs (k false) (fs.set p (b.take n))

/-- The steps of one process on its own. -/
inductive Steps : Cmd → FS → Cmd → FS → Prop
  | refl (c fs) : Steps c fs c fs
  | tail {c fs c' fs' c'' fs''} : Steps c fs c' fs' → Step c' fs' c'' fs'' → Steps c fs c'' fs''

/-- The steps of several processes on the same files, in any order; `ps i` is what process `i` has still to do. -/
inductive Par {ι : Type} [DecidableEq ι] : (ι → Cmd) → FS → (ι → Cmd) → FS → Prop
  | refl (ps fs) : Par ps fs ps fs
  | tail {ps fs ps' fs' fs''} (i : ι) (c : Cmd) : Par ps fs ps' fs' → Step (ps' i) fs' c fs'' →
      Par ps fs (fun j => if j = i then c else ps' j) fs''

/-- The exit status of a process: `none` if it is not finished. -/
def Cmd.outcome : Cmd → Option (Res Unit)
  | .done r => some r
  | _ => none

/-- The files that a command line names for reading (main.rs 20-93). -/
def Args.inputs : Args → List Path
  | .encap c s i _ _ => [c, s, i]
  | .decap c w ct _ => [c, w, ct]
  | .encrypt c s i m _ _ => [c, s, i, m]
  | .decrypt c w ct _ => [c, w, ct]

/-- The files that a command line names for writing (main.rs 20-93). -/
def Args.outs : Args → List Path
  | .encap _ _ _ ct k => [ct, k]
  | .decap _ _ _ k => [k]
  | .encrypt _ _ _ _ o _ => [o]
  | .decrypt _ _ _ o => [o]

/-- The reading of a command when other processes change files at will: `seen` lists the files read, in order, with what was found. -/
inductive Sees : Cmd → List (Path × Option Bytes) → Cmd → Prop
  | nil (c) : Sees c [] c
  | read {p k o seen c'} : Sees (k o) seen c' → Sees (.read p k) ((p, o) :: seen) c'

end Zkenc
