import Verif.Model.Parallel
import Verif.Model.CommandLine
/-!
# The machine on which the CLI is used

Any number of `zkenc` processes (main.rs 97-138) are started at any time, run at the same time as other programs, fail and are killed. `commands.rs`
takes no locks and keeps nothing outside the files named on the command line.
-/

namespace Zkenc

/-- The processes, by number, with what each has still to do (`none`: not started), and the files. -/
structure World where
  procs : Nat → Option Cmd
  fs : FS

/-- What can happen. `failed`: the operation reported an error to the process. A process that is killed has no further events. -/
inductive Event where
  | start (i : Nat) (ρ : Rand Fr) (nonce : Bytes) (argv : List Str)
  | read (i : Nat) (p : Path) (failed : Bool)
  | write (i : Nat) (p : Path) (failed : Bool)
  | other (p : Path) (content : Option Bytes)

/-- Process `i` has come to `c`, the files are `fs`. -/
def World.put (w : World) (i : Nat) (c : Cmd) (fs : FS) : World := ⟨fun j => if j = i then some c else w.procs j, fs⟩

section
variable {G1 G2 GT : Type} [AddCommGroup G1] [Module Fr G1] [AddCommGroup G2] [Module Fr G2] [AddCommGroup GT] [Module Fr GT]
  (S : Sys G1 G2 GT)

/-- One event. Starting: main.rs 97-138 with fresh randomness. Reading and writing: `fs::read`, `File::open`, `fs::write` (commands.rs 31-92, 108-150,
168-280, 296-398), a write being visible in parts (`writing`) and possibly cut. `other`: some other program writes or deletes a file. -/
inductive Next : World → Event → World → Prop
  | start (w i ρ nonce argv) : w.procs i = none → Next w (.start i ρ nonce argv) (w.put i (cliProgram S false ρ nonce argv) w.fs)
  | read (w i p k) : w.procs i = some (.read p k) → Next w (.read i p false) (w.put i (k (w.fs p)) w.fs)
  | readFailed (w i p k) : w.procs i = some (.read p k) → Next w (.read i p true) (w.put i (k none) w.fs)
  | writing (w i p b k) (n : Nat) : w.procs i = some (.write p b k) → Next w (.write i p false) (w.put i (.write p b k) (w.fs.set p (b.take n)))
  | write (w i p b k) : w.procs i = some (.write p b k) → Next w (.write i p false) (w.put i (k true) (w.fs.set p b))
  | writeFailed (w i p b k) : w.procs i = some (.write p b k) → Next w (.write i p true) (w.put i (k false) w.fs)
  | writeCut (w i p b k) (n : Nat) : w.procs i = some (.write p b k) → Next w (.write i p true) (w.put i (k false) (w.fs.set p (b.take n)))
  | other (w : World) (p : Path) (content : Option Bytes) : Next w (.other p content) ⟨w.procs, fun q => if q = p then content else w.fs q⟩

/-- A sequence of events. -/
inductive Hist : World → List Event → World → Prop
  | nil (w) : Hist w [] w
  | snoc {w es w' e w''} : Hist w es w' → Next S w' e w'' → Hist w (es ++ [e]) w''

end

/-- The result that process `i` has reported, if it has finished. -/
def World.outcome (w : World) (i : Nat) : Option (Res Unit) := (w.procs i).bind Cmd.outcome

end Zkenc
