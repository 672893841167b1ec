import Verif.Model.ConsensusState
import Verif.Model.Multiproof
import Verif.Model.Sha256
import Verif.Model.Signing
import Verif.Model.Networks

/-!
# The model run on the repository's own unit tests and on published values

These are tests of the model, not proofs of properties, and no claim rests on them. They show that the definitions the theorems are about
answer as the code does on the inputs its authors chose, and that the model of SHA-256 gives the published digests.
-/

namespace Signal.Conformance
open Signal

def cp (epoch : Nat) : Checkpoint := ⟨epoch, zeroRoot⟩
def state (justified finalized : Nat) : ConsensusState := ⟨cp justified, cp finalized⟩

/-! ## `test_mainnet_state_transitions` (core/src/consensus_state.rs:228-279) -/

/-- The body of the loop of the test; two-finality is accepted where the test accepts it. -/
def mainnetCase (pre post : ConsensusState) : Bool :=
  match pre.transitionLink post with
  | .ok (some link) => decide (pre.stateTransition link = .ok post)
  | .ok none => decide (pre = post)
  | .err .twoFinality => decide (pre.finalized ≠ post.finalized ∧ post.currentJustified.epoch - post.finalized.epoch = 2)
  | _ => false

/-- core/src/fixtures/mainnet-transitions.json. -/
example : [(state 2 1, state 3 2), (state 2 0, state 3 2), (state 2 1, state 12 1), (state 3 1, state 4 3), (state 2 1, state 5 1),
    (state 12 1, state 13 12), (state 0 0, state 2 0), (state 5 1, state 6 5), (state 2 1, state 4 2)].all
    (fun c => mainnetCase c.1 c.2) = true := by decide +kernel

/-! ## `test_state_transition` (core/src/consensus_state.rs:285-454) -/

def transitionCase (pre : ConsensusState) (source target : Nat) (expected : Res ConsensusError ConsensusState) : Bool :=
  let link : Link := ⟨cp source, cp target⟩
  decide (pre.stateTransition link = expected) &&
    match expected with
    | .ok post => post.isValid && decide (pre.transitionLink post = .ok (some link))
    | _ => true

example : [(state 2 0, 1, 3, .err .invalidTransition), (state 2 0, 2, 3, .ok (state 3 2)), (state 3 0, 2, 4, .err .invalidTransition),
    (state 3 0, 3, 4, .ok (state 4 3)), (state 1 0, 1, 1, .err .invalidTransition), (state 1 0, 2, 3, .err .invalidTransition),
    (state 2 0, 1, 3, .err .invalidTransition), (state 2 0, 0, 4, .err .invalidTransition), (state 2 0, 1, 4, .err .invalidTransition),
    (state 2 0, 1, 2, .err .invalidTransition), (state 3 0, 1, 2, .err .invalidTransition)].all
    (fun c => transitionCase c.1 c.2.1 c.2.2.1 c.2.2.2) = true := by decide +kernel

/-! ## `test_gindex_iterator` (ssz-multiproofs/src/multiproof.rs:275-284) -/

example : gindexIter [false, false, true, false, false, true, false, true, true, true, true] 1 [1] = [4, 20, 42, 43, 11, 3] := by decide

/-! ## SHA-256 -/

/-- A digest given as one number. -/
def digest (n : Nat) : Bytes := beBytes 32 n

/-- FIPS 180-4, the one-block example `abc`. -/
example : Sha.sha256 [0x61, 0x62, 0x63] = digest 0xba7816bf8f01cfea414140de5dae2223b00361a396177a9cb410ff61f20015ad := by decide +kernel

/-- The empty message. -/
example : Sha.sha256 [] = digest 0xe3b0c44298fc1c149afbf4c8996fb92427ae41e4649b934ca495991b7852b855 := by decide +kernel

/-- The hash of two zero chunks and of two of those, in every SSZ tree. -/
example : Sha.sha256 (List.replicate 64 0) = digest 0xf5a5fd42d16a20302798ef6ed309979b43003d2320d9f0e8ea9831a92759fb4b ∧
    Sha.sha256 (digest 0xf5a5fd42d16a20302798ef6ed309979b43003d2320d9f0e8ea9831a92759fb4b ++
      digest 0xf5a5fd42d16a20302798ef6ed309979b43003d2320d9f0e8ea9831a92759fb4b) =
      digest 0xdb56114e00fdd4c1f85c892bf35ac9a89289aaecb1ebd0a96cde606a748b5d71 := by decide +kernel

/-! ## The fork digests of mainnet

The first four bytes of the root of the fork data, published for every fork. -/

def mainnetGenesis : Root := digest 0x4b363db94e286120d76eb905340fdd4e54bfe9f06bf33ff6cf5ad27f511bfe95

example : [([2, 0, 0, 0], [0x4a, 0x26, 0xc5, 0x8b]), ([3, 0, 0, 0], [0xbb, 0xa4, 0xda, 0x96]), ([4, 0, 0, 0], [0x6a, 0x95, 0xa1, 0xa9]),
    ([5, 0, 0, 0], [0xad, 0x53, 0x2c, 0xeb])].all
    (fun c => decide ((Signing.forkDataRoot Sha.sha256 c.1 mainnetGenesis).take 4 = c.2)) = true := by decide +kernel

/-- The domain of attester signatures in Electra. -/
example : Signing.computeDomain Sha.sha256 Signing.beaconAttester [5, 0, 0, 0] mainnetGenesis =
    [1, 0, 0, 0] ++ (digest 0xad532ceb9ec5d246daad29da8aa157bfdab35e5f069f9db81f1da754d7b0be65).take 28 := by decide +kernel

end Signal.Conformance
