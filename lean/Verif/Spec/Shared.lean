import Verif.Model.Shared
import Verif.Spec.Providers

/-!
# Independent specification: processes that work on one data directory

What the files should hold, how processes start, and which network they belong to.
-/

namespace Signal.Spec
open Shared

variable {σ : Type}

/-- `part` has the bytes of `full`, possibly not all of them, and zeros in places. -/
def Holed (full part : Bytes) : Prop :=
  part.length ≤ full.length ∧ ∀ i < part.length, part[i]? = full[i]? ∨ part[i]? = some 0

/-- A process starts with a request for a state, which the node answers, if at all, with the state that belongs into the file of its slot; or with
writing the input and the journal that belong into the files of an epoch. `contents` says what belongs into the files. -/
inductive Starts (ops : StateOps σ) (contents : Path → Bytes) : Job σ → Prop where
  | request (network : Network) (slot : Nat) (answer : Option σ)
      (h : ∀ state, answer = some state → ops.serialize state = contents (statePath network (ops.slot state))) :
      Starts ops contents (.look network slot answer)
  | build (network : Network) (epoch : Nat) :
      Starts ops contents (buildJob network epoch (contents (inputPath network epoch)) (contents (journalPath network epoch)))

/-- The process has come to its end, and was not killed. -/
def Ended : Job σ → Prop
  | .done _ => True
  | .failed => True
  | _ => False

/-- A file of the network. -/
def OfNetwork (network : Network) (path : Path) : Prop := path.head? = some network.name

/-- A process that works on these files only. -/
def WorksOn (ops : StateOps σ) (mine : Path → Prop) : Job σ → Prop
  | .look network slot answer => mine (statePath network slot) ∧ ∀ state, answer = some state → mine (statePath network (ops.slot state))
  | .save network state => mine (statePath network (ops.slot state))
  | .calls todo _ => ∀ call ∈ todo, mine call.path
  | .read path _ => mine path
  | _ => True

/-- A process that was started for the network. -/
inductive StartsFor (network : Network) : Job σ → Prop where
  | request (slot : Nat) (answer : Option σ) : StartsFor network (.look network slot answer)
  | build (epoch : Nat) (input journal : Bytes) : StartsFor network (buildJob network epoch input journal)

/-- No bytes of a state with some of them missing or zero are read as another state. -/
def NoWrongHoles (ops : StateOps σ) (chain : Nat → σ) : Prop :=
  ∀ slot < 2 ^ 64, ∀ part s, Holed (ops.serialize (chain slot)) part → ops.deserialize part = some s → s = chain slot

end Signal.Spec
