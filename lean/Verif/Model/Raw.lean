import Verif.Model.Client
import Verif.Model.StateTree

/-!
# Model of `build-input` on bytes: the data directory and the replies of the node

The states that the programs work with come out of files of the data directory, or out of replies of the node, and are written to the
directory then. The models of states and their files are those of `Model/StateSsz` and `Model/StateTree`, the model of replies is `Model/Client`.
-/

namespace Signal.Raw
open StateSsz Client

/-- The states of a provider, as the host reads them (host/src/beacon_state.rs:483-674). -/
def hostStates (f : Nat → Res ProviderError State) (slot : Nat) : Res ProviderError HostState := f slot >>= fun s => .ok s.host

/-- The decoders (host/src/beacon_client.rs:206-273), with what the host reads of a state (host/src/beacon_state.rs:483-674) for the state. -/
def hostDecoders (D : Decoders State) : Decoders HostState where
  header := D.header
  block := D.block
  version := D.version
  stateAs v body := (D.stateAs v body).map State.host
  finality := D.finality

/-- What a request for a state meets: the content of the data directory, the replies of the node and how a write ends. -/
structure Asked where
  dir : Dir
  node : Request → Reply
  write : WriteEnd

/-- `PersistentApiStateProvider::state_at_slot` (host/src/state_provider/persistant_api_provider.rs:49-67) on states as they are: a state that
cannot be serialized is not given (`ssz_rs::serialize(state)?`, host/src/state_provider/file_provider.rs:51). The check for an existing file comes before the
serialization in the code; both give an error. -/
def stateAtSlot (X : Ext) (order : List Variant) (D : Decoders State) (a : Asked) (slot : Nat) : Res ProviderError State × Dir :=
  match fileStateAtSlot (stateOps X order) a.dir slot with
  | .err (.notFound _) =>
    match apiAnswer D a.node slot with
    | none => (.err .other, a.dir)
    | some s =>
      match encodeState s with
      | none => (.err .other, a.dir)
      | some _ =>
        let r := saveState (stateOps X order) a.dir s a.write
        (r.1 >>= fun _ => .ok s, r.2)
  | r => (r, a.dir)

/-- One pass of `build-input` or `sync` (host/src/bin/zkasper_cli.rs:234-289, 320-356): the replies of the node to the requests that are not for
states, and for each slot what the first successful request for its state meets, after which the state is cached. Any two of these may differ. -/
structure RawPass where
  head : Request → Reply
  replies : Replies
  asked : Nat → Asked
  genesisRoot : Res ProviderError Root
  decompress : Bytes → Option Bytes

/-- The states of the pass (host/src/state_provider/persistant_api_provider.rs:49-67). -/
def RawPass.state (X : Ext) (order : List Variant) (D : Decoders State) (n : RawPass) (slot : Nat) : Res ProviderError State :=
  (stateAtSlot X order D (n.asked slot) slot).1

/-- The pass of the program (host/src/bin/zkasper_cli.rs:234-289). -/
def RawPass.pass (X : Ext) (order : List Variant) (D : Decoders State) (n : RawPass) : Program.Pass :=
  NodePass.pass (hostDecoders D) ⟨n.head, n.replies, hostStates (n.state X order D), n.genesisRoot, n.decompress⟩

end Signal.Raw
