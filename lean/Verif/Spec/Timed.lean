import Verif.Model.Timed

/-!
# Independent specification: answers that do not change
-/

namespace Signal.Spec
open Wire Program Timed

/-- All states that are given belong to one network: they name the same genesis validators root. -/
def OneNetwork (o : Outside) (genesisRoot : Root) : Prop :=
  ∀ k slot st, o.state k slot = .ok st → st.beacon.genesisValidatorsRoot = genesisRoot

/-- The answers of `w`, which do not change, are among those that were given: each state it gives was given for that slot, and its
headers are the answers to one of the requests. -/
structure Snapshot (o : Outside) (genesisRoot : Root) (w : World) : Prop where
  states : ∀ slot st, w.provider slot = .ok st → ∃ k, o.state k slot = .ok st
  headers : ∃ k, w.headers = o.header k
  genesisRoot : w.genesisRoot = .ok genesisRoot
  boundaryBlock : w.boundaryBlock = o.boundaryBlock
  find : w.find = o.find
  walk : w.walk = o.walk
  getBlock : w.getBlock = o.getBlock
  decompress : w.decompress = o.decompress

/-- The answers of `w` are what the outside says if it answers: for a slot no two different states are given, some requests may fail,
and `w` has the second answer for each header. -/
structure Agrees (o : Outside) (w : World) : Prop where
  states : ∀ k slot st, o.state k slot = .ok st → w.provider slot = .ok st
  headers : w.headers = o.header 1
  boundaryBlock : w.boundaryBlock = o.boundaryBlock
  find : w.find = o.find
  walk : w.walk = o.walk
  getBlock : w.getBlock = o.getBlock
  decompress : w.decompress = o.decompress

/-- The node gives the same header whenever it is asked for one. -/
def SteadyHeaders (o : Outside) : Prop := ∀ k, o.header k = o.header 0

/-- The world `w` as an outside: its answers at every request, with the given order of the cache. -/
def unchanging (w : World) (pick : Nat → Nat) : Outside where
  state _ := w.provider
  header _ := w.headers
  pick := pick
  boundaryBlock := w.boundaryBlock
  find := w.find
  walk := w.walk
  getBlock := w.getBlock
  decompress := w.decompress

/-- Two outcomes of `prepare_input` that differ at most in the error and in the slot. -/
def SameUpToSlot : Option (Res PrepareError Prepared) → Option (Res PrepareError Prepared) → Prop
  | none, none => True
  | some .panic, some .panic => True
  | some (.err _), some (.err _) => True
  | some (.ok p), some (.ok q) => q.inputBytes = p.inputBytes ∧ q.pre = p.pre ∧ q.post = p.post
  | _, _ => False

/-- All operations on the files except what is written into journals. -/
def exceptJournals (ops : List FileOp) : List FileOp :=
  ops.filter (fun op => match op with
    | .write (.journal _) _ => false
    | _ => true)

end Signal.Spec
