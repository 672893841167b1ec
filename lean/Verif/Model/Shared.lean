import Verif.Model.Providers

/-!
# Model of processes that work on one data directory at the same time

The files below the data directory (host/src/bin/zkasper_cli.rs:178, 265-289) and the calls by which the state provider and `build-input` read and write
them, one call at a time, so that the calls of several processes can come in any order. A process that does several things one after the other is
modelled as several jobs.
-/

namespace Signal.Shared

/-- `Network` (host/src/bin/zkasper_cli.rs:135-139). -/
inductive Network where
  | mainnet
  | sepolia
  deriving Repr, DecidableEq

/-- `Display` for `Network` (host/src/bin/zkasper_cli.rs:141-148). -/
def Network.name : Network → List Char
  | .sepolia => "sepolia".toList
  | .mainnet => "mainnet".toList

/-- The components of a path below the data directory. -/
abbrev Path := List (List Char)

/-- The files and what they hold. Directories are left out (`create_dir_all` does nothing if they exist). -/
abbrev Disk := Path → Option Bytes

/-- The file of a state (host/src/bin/zkasper_cli.rs:178, host/src/state_provider/file_provider.rs:44, 83). -/
def statePath (network : Network) (slot : Nat) : Path := [network.name, "states".toList, stateFile slot]

/-- The file of an input (host/src/bin/zkasper_cli.rs:265-269). -/
def inputPath (network : Network) (epoch : Nat) : Path := [network.name, "inputs".toList, decimal epoch ++ "_stdin.bin".toList]

/-- The file of a journal (host/src/bin/zkasper_cli.rs:271-278). -/
def journalPath (network : Network) (epoch : Nat) : Path := [network.name, "journals".toList, decimal epoch ++ "_journal.bin".toList]

/-- A call that changes a file: opening it for writing, which creates or empties it (`File::create`, `fs::write`), and writing through the handle
at its offset. -/
inductive Call where
  | create (path : Path)
  | write (path : Path) (offset : Nat) (data : Bytes)
  deriving Repr, DecidableEq

/-- The file of a call. -/
def Call.path : Call → Path
  | .create path => path
  | .write path _ _ => path

variable {σ : Type}

/-- What a process is about to do. -/
inductive Job (σ : Type) where
  /-- `PersistentApiStateProvider::state_at_slot` (host/src/state_provider/persistant_api_provider.rs:49-67), about to look for the file; `answer` is
  what the node will answer if it is asked -/
  | look (network : Network) (slot : Nat) (answer : Option σ)
  /-- `save_state` (host/src/state_provider/file_provider.rs:41-53), about to look whether the file exists -/
  | save (network : Network) (state : σ)
  /-- in the middle of writing; `state` is what the request is answered with at the end -/
  | calls (todo : List Call) (state : Option σ)
  /-- `fs::read` (host/src/state_provider/file_provider.rs:88), which has got the first bytes -/
  | read (path : Path) (got : Bytes)
  | done (state : Option σ)
  | failed
  | killed

/-- The writing of `build-input` (host/src/bin/zkasper_cli.rs:265-291): both files are created before the first is written. -/
def buildJob (network : Network) (epoch : Nat) (input journal : Bytes) : Job σ :=
  .calls [.create (inputPath network epoch), .create (journalPath network epoch), .write (inputPath network epoch) 0 input,
    .write (journalPath network epoch) 0 journal] none

/-- Bytes written at an offset; if the file has become shorter, the gap is filled with zeros. -/
def overwrite (content : Bytes) (offset : Nat) (data : Bytes) : Bytes :=
  content.take offset ++ List.replicate (offset - content.length) 0 ++ data ++ content.drop (offset + data.length)

/-- One file gets another content. -/
def Disk.set (disk : Disk) (path : Path) (content : Bytes) : Disk := fun p => if p = path then some content else disk p

/-- What happens when it is the turn of a process: it makes its next call, by which up to so many bytes are read or written (but at least one if there
is one), or it is killed. A call that fails because of the disk is like being killed. -/
inductive Turn where
  | go (bytes : Nat)
  | kill
  deriving Repr, DecidableEq

/-- One turn of one process. What is written through the handle of a file that is no longer there changes no file. -/
def Job.step (ops : StateOps σ) (disk : Disk) : Job σ → Turn → Disk × Job σ
  | .done s, _ => (disk, .done s)
  | .failed, _ => (disk, .failed)
  | .killed, _ => (disk, .killed)
  | _, .kill => (disk, .killed)
  | .look network slot answer, .go _ =>
    match disk (statePath network slot) with
    | some _ => (disk, .read (statePath network slot) [])
    | none =>
      match answer with
      | none => (disk, .failed)
      | some state => (disk, .save network state)
  | .save network state, .go _ =>
    let path := statePath network (ops.slot state)
    match disk path with
    | some _ => (disk, .failed)
    | none => (disk, .calls [.create path, .write path 0 (ops.serialize state)] (some state))
  | .calls [] state, .go _ => (disk, .done state)
  | .calls (.create path :: todo) state, .go _ => (disk.set path [], .calls todo state)
  | .calls (.write path offset data :: todo) state, .go bytes =>
    if data = [] then (disk, .calls todo state)
    else
      let chunk := data.take (max 1 bytes)
      let rest := .calls (.write path (offset + chunk.length) (data.drop (max 1 bytes)) :: todo) state
      match disk path with
      | none => (disk, rest)
      | some content => (disk.set path (overwrite content offset chunk), rest)
  | .read path got, .go bytes =>
    match disk path with
    | none => (disk, .failed)
    | some content =>
      if content.length ≤ got.length then
        match ops.deserialize got with
        | none => (disk, .failed)
        | some state => (disk, .done (some state))
      else (disk, .read path (got ++ (content.drop got.length).take (max 1 bytes)))

/-- One turn: that of the `i`-th process. -/
def turn (ops : StateOps σ) (s : Disk × List (Job σ)) (t : Nat × Turn) : Disk × List (Job σ) :=
  match s.2[t.1]? with
  | none => s
  | some job => ((job.step ops s.1 t.2).1, s.2.set t.1 (job.step ops s.1 t.2).2)

/-- The processes take turns in the given order. -/
def run (ops : StateOps σ) (disk : Disk) (jobs : List (Job σ)) (turns : List (Nat × Turn)) : Disk × List (Job σ) :=
  turns.foldl (turn ops) (disk, jobs)

end Signal.Shared
