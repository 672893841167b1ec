import Verif.Model.Verify

/-!
# Model of the chain search of the host (host/src/input_reader/host_input_reader.rs:230-337)

The functions ask a beacon node. The node is modelled by the answers it gives while one call of one function is
running: a function from the requested slot to the answer. No function asks for one slot twice during a call (except
for slots saturated at `u64::MAX`), so answers that change over time are covered.

The two searches loop over an open range of epochs. They are modelled with a bound on the number of requests;
`none` means that the bound was reached and the search still runs. The theorems are for every bound. The
range is taken over the naturals: that a search goes on past `u64::MAX` is not modelled.
-/

namespace Signal

/-- `HostReaderError` (host/src/input_reader/host_input_reader.rs:35-63): the variants raised by the
modelled functions. -/
inductive HostError where
  | node
  | provider
  | blockMissing
  | unsupportedBlockVersion
  | invalidTrustedCheckpoint
  | consensus (e : ConsensusError)
  | conversion
  deriving Repr, DecidableEq

/-- lighthouse `Epoch::start_slot`: saturating multiplication. -/
def startSlot (spe epoch : Nat) : Nat := satMul epoch spe

/-- Answers of a node to `get_consensus_state` (host/src/chain_reader.rs:32-36), by slot. The client aborts on an
invalid state (host/src/beacon_client.rs:293-300). -/
abbrev StateAnswers := Nat → Res HostError ConsensusState

/-- The loop of `find_finalization_epoch` (host/src/input_reader/host_input_reader.rs:235-247). -/
def findFinalizationLoop (spe : Nat) (ask : StateAnswers) (trusted : Checkpoint) :
    (bound epoch : Nat) → Option (Res HostError Nat)
  | 0, _ => none
  | bound + 1, epoch =>
    match ask (startSlot spe epoch) with
    | .panic => some .panic
    | .err e => some (.err e)
    | .ok state =>
      if state.finalized = trusted then some (.ok epoch)
      else if state.finalized.epoch < trusted.epoch then findFinalizationLoop spe ask trusted bound (epoch + 1)
      else some (.err .invalidTrustedCheckpoint)

/-- `find_finalization_epoch` (host/src/input_reader/host_input_reader.rs:231-250). -/
def findFinalizationEpoch (spe : Nat) (ask : StateAnswers) (trusted : Checkpoint) (bound : Nat) :
    Option (Res HostError Nat) :=
  findFinalizationLoop spe ask trusted bound (trusted.epoch + 1)

/-- The loop of `get_justifications_until_new_finality`
(host/src/input_reader/host_input_reader.rs:264-281). -/
def justificationsLoop (spe : Nat) (ask : StateAnswers) (initial : Checkpoint) :
    (bound epoch : Nat) → (prev : ConsensusState) → (links : List Link) →
      Option (Res HostError (ConsensusState × List Link))
  | 0, _, _, _ => none
  | bound + 1, epoch, prev, links =>
    match ask (startSlot spe epoch) with
    | .panic => some .panic
    | .err e => some (.err e)
    | .ok current =>
      match prev.transitionLink current with
      | .panic => some .panic
      | .err e => some (.err (.consensus e))
      | .ok link =>
        let links := links ++ link.toList
        if current.finalized ≠ initial then some (.ok (current, links))
        else justificationsLoop spe ask initial bound (epoch + 1) current links

/-- `get_justifications_until_new_finality` (host/src/input_reader/host_input_reader.rs:253-284). -/
def justificationsUntilNewFinality (spe : Nat) (ask : StateAnswers) (startEpoch bound : Nat) :
    Option (Res HostError (ConsensusState × ConsensusState × List Link)) :=
  match ask (startSlot spe startEpoch) with
  | .panic => some .panic
  | .err e => some (.err e)
  | .ok initial =>
    (justificationsLoop spe ask initial.finalized bound (startEpoch + 1) initial []).map
      (fun r => do
        let (current, links) ← r
        return (initial, current, links))

/-- The body of a block as far as it matters here: the attestations of an Electra block, `none` standing for one
whose conversion fails (host/src/conversions.rs:25-45); or a block of another version. -/
inductive Block where
  | electra (attestations : List (Option Attestation))
  | other
  deriving Repr, DecidableEq

/-- `attestations_by_link.entry(link).or_default().push(attestation)`
(host/src/input_reader/host_input_reader.rs:322-325), on a hash map kept as a list of pairs. -/
def pushByLink (m : List (Link × List Attestation)) (link : Link) (a : Attestation) :
    List (Link × List Attestation) :=
  match m with
  | [] => [(link, [a])]
  | (k, g) :: m => if k = link then (k, g ++ [a]) :: m else (k, g) :: pushByLink m link a

/-- `attestations_by_link.remove(link)` (host/src/input_reader/host_input_reader.rs:333): the group, and the map
without it. -/
def removeLink (m : List (Link × List Attestation)) (link : Link) :
    Option (List Attestation) × List (Link × List Attestation) :=
  match m with
  | [] => (none, [])
  | (k, g) :: m =>
    if k = link then (some g, m)
    else
      let r := removeLink m link
      (r.1, (k, g) :: r.2)

/-- Grouping the attestations of one block (host/src/input_reader/host_input_reader.rs:316-326). -/
def groupBlock : List (Option Attestation) → List (Link × List Attestation) →
    Res HostError (List (Link × List Attestation))
  | [], m => .ok m
  | none :: _, _ => .err .conversion
  | some a :: as, m => groupBlock as (pushByLink m ⟨a.data.source, a.data.target⟩ a)

/-- Grouping the attestations of all blocks (host/src/input_reader/host_input_reader.rs:311-327). -/
def groupBlocks : List (Option Block) → List (Link × List Attestation) →
    Res HostError (List (Link × List Attestation))
  | [], m => .ok m
  | none :: bs, m => groupBlocks bs m
  | some .other :: _, _ => .err .unsupportedBlockVersion
  | some (.electra as) :: bs, m => do
    let m' ← groupBlock as m
    groupBlocks bs m'

/-- Assembling the result (host/src/input_reader/host_input_reader.rs:330-334). -/
def assemble : List Link → List (Link × List Attestation) → List Attestation
  | [], _ => []
  | l :: ls, m =>
    let r := removeLink m l
    r.1.getD [] ++ assemble ls r.2

/-- The inclusive range of slots asked for (host/src/input_reader/host_input_reader.rs:296-307): `first..=last`. -/
def slotRange (first last : Nat) : List Nat := (List.range (last + 1 - first)).map (first + ·)

/-- `collect_attestations_for_links` (host/src/input_reader/host_input_reader.rs:287-337). `getBlock` are the answers
to `get_block`; the concurrent requests of `try_join_all` are made one after the other here, which differs only
in which of several errors is reported. -/
def collectAttestations (spe : Nat) (getBlock : Nat → Res HostError (Option Block)) (links : List Link) :
    Res HostError (List Attestation) :=
  if links = [] then .ok []
  else do
    let epochs := links.map (·.target.epoch)
    let minEpoch ← expect epochs.min?
    let maxEpoch ← expect epochs.max?
    let blocks ← mapRes getBlock (slotRange (satMul minEpoch spe) (satMul (satAdd maxEpoch 1) spe))
    let m ← groupBlocks blocks []
    return assemble links m

/-- What `HostInputReader::new` (host/src/input_reader/host_input_reader.rs:81-118) computes: the consensus state to
start from, the one it expects, the links and the attestations. `find` and `walk` are the answers of the node during
the two searches. -/
def hostSearch (spe : Nat) (find walk : StateAnswers) (getBlock : Nat → Res HostError (Option Block))
    (trusted : Checkpoint) (bound : Nat) :
    Option (Res HostError (ConsensusState × ConsensusState × List Link × List Attestation)) :=
  match findFinalizationEpoch spe find trusted bound with
  | none => none
  | some .panic => some .panic
  | some (.err e) => some (.err e)
  | some (.ok epoch) =>
    match justificationsUntilNewFinality spe walk epoch bound with
    | none => none
    | some .panic => some .panic
    | some (.err e) => some (.err e)
    | some (.ok (state, next, links)) => some (do
      assert (decide (state.finalized = trusted))
      let attestations ← collectAttestations spe getBlock links
      return (state, next, links, attestations))

end Signal
