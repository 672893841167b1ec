import Verif.Model.Networks
import Verif.Proofs.ExampleGuest

/-!
Helper definitions and lemmas for complete guest inputs of the two shipped networks, with votes on both sides of the start of Fulu.
-/

namespace Signal
open Spec

/-- What the examples need of a network: its schedule and configuration, the versions of Deneb, Electra and Fulu, and the first epochs
of the last two. -/
structure Net where
  forks : ForkSchedule
  cfg : Config
  deneb : Bytes
  electra : Bytes
  fulu : Bytes
  electraEpoch : Nat
  fuluEpoch : Nat

namespace Net

def mainnet : Net := ⟨mainnetForks, Config.default, [4, 0, 0, 0], [5, 0, 0, 0], [6, 0, 0, 0], 364032, 411392⟩
def sepolia : Net :=
  ⟨sepoliaForks, Config.sepolia, [0x90, 0, 0, 0x73], [0x90, 0, 0, 0x74], [0x90, 0, 0, 0x75], 222464, 272640⟩

/-- The signing root of the consensus specification, over the toy hash function. -/
def sign : AttestationData → Bytes → Root := Signing.signingRoot toyHash

/-! ## The registry -/

/-- Ten active validators of 32 ETH each, the last one slashed; the eleventh has exited at epoch 2. -/
def vs : List Validator :=
  (List.range 10).map (fun i =>
    ⟨exExt.pkSerialize (exKey i), exRoot32 1, 32000000000, decide (i = 9), 0, 0, u64Max, u64Max⟩) ++
  [⟨exExt.pkSerialize [200], exRoot32 1, 32000000000, false, 0, 0, 2, 2⟩]

def elem (i : Nat) : Tree := match vs[i]? with
  | some v => v.tree
  | none => .leaf zeroRoot

/-- The tree of the registry proof: empty subtrees are not opened. -/
def regP : Tree := .node (spine exExt 4 (perfect 4 elem) 36) (.leaf (u64Chunk 11))

def active : OMap ValidatorInfo :=
  (List.range 10).map (fun i => (i, ⟨exKey i, 32000000000, decide (i = 9), 0, 0, u64Max⟩))

theorem elem_zero (i : Nat) (h : 2 ^ 4 ≤ i) : elem i = .leaf zeroRoot := by
  have : vs[i]? = none := by
    rw [List.getElem?_eq_none_iff]
    have : vs.length = 11 := by decide
    omega
  simp [elem, this]

/-- The root proved is that of the whole registry. -/
theorem reg_root : (registryTree vs).root exExt = regP.root exExt := by
  rw [registryTree_perfect vs elem rfl 4 36 (by decide)]
  exact list_root exExt 4 36 11 elem elem_zero

/-! ## The state, the blocks and the votes -/

variable (n : Net)

def spec : ChainSpec := networkSpec n.forks sign

/-- The trusted state is four epochs before Fulu. -/
def state : BeaconState where
  fulu := false
  genesisValidatorsRoot := exRoot32 77
  slot := (n.fuluEpoch - 4) * 32
  fork := ⟨n.deneb, n.electra, n.electraEpoch⟩
  validators := vs
  finalizedEpoch := n.fuluEpoch - 6
  finalizedRoot := exRoot32 2
  earliestExitEpoch := n.fuluEpoch + 2
  earliestConsolidationEpoch := n.fuluEpoch + 1
  other := fun _ => .leaf zeroRoot

def field (name : String) : Tree :=
  if name = "validators" then .leaf (regP.root exExt) else n.state.field name

def stateP : Tree := container 6 (electraFields.map n.field)

def stateInfo : StateInfo :=
  ⟨exRoot32 77, (n.fuluEpoch - 4) * 32, ⟨n.deneb, n.electra, n.electraEpoch⟩, regP.root exExt, n.fuluEpoch - 6,
    n.fuluEpoch + 2, n.fuluEpoch + 1⟩

def hdr : Header := ⟨(n.fuluEpoch - 4) * 32, 5, exRoot32 31, n.stateP.root exExt, exRoot32 32⟩
/-- The block of the last epoch before Fulu, which becomes final. -/
def hdr' : Header := ⟨(n.fuluEpoch - 1) * 32, 6, exRoot32 41, n.stateP.root exExt, exRoot32 43⟩

def trusted : Checkpoint := ⟨n.fuluEpoch - 4, n.hdr.tree.root exExt⟩
def justified : Checkpoint := ⟨n.fuluEpoch - 3, exRoot32 4⟩
def last : Checkpoint := ⟨n.fuluEpoch - 1, n.hdr'.tree.root exExt⟩
def first : Checkpoint := ⟨n.fuluEpoch, exRoot32 7⟩

/-- With ten validators and 32 slots these slots of an epoch have a committee of one member each; the tenth validator is slashed
and does not vote. -/
def committees : List (Nat × Nat) := [(3, 0), (6, 1), (9, 2), (12, 3), (15, 4), (19, 5), (22, 6), (25, 7), (28, 8)]

def vote (version : Bytes) (source target : Checkpoint) (c : Nat × Nat) : Attestation :=
  let data : AttestationData := ⟨target.epoch * 32 + c.1, 0, List.replicate 32 0, source, target⟩
  .electra ⟨[true], data, true :: List.replicate 63 false, padSig (sign data (exExt.computeDomain version (exRoot32 77)) ++ [UInt8.ofNat (100 + c.2)])⟩

def votes : List Attestation :=
  committees.map (vote n.electra n.justified n.last) ++ committees.map (vote n.fulu n.last n.first)

/-- Patches for the two target epochs. Validator 8 will exit. -/
def patches : OMap StatePatch :=
  [(n.fuluEpoch - 1, ⟨[((n.fuluEpoch - 3) % 65536, exRoot32 1)], [(8, n.fuluEpoch + 5)]⟩),
   (n.fuluEpoch, ⟨[((n.fuluEpoch - 2) % 65536, exRoot32 1)], [(8, n.fuluEpoch + 5)]⟩)]

def input : GuestInput where
  beaconBlock := proofOf n.hdr.tree [11]
  beaconState := proofOf n.stateP gxStateWanted
  activeValidators := proofOf regP gxRegWanted
  publicKeys := gxKeys
  patches := n.patches
  consensusState := ⟨n.justified, n.trusted⟩
  attestations := n.votes
  blockSlotProofs := [proofOf n.hdr'.tree [8]]

def reader : GuestReader where
  spec := n.spec
  genesisValidatorsRoot := exRoot32 77
  validators := active
  patches := n.patches
  consensusState := ⟨n.justified, n.trusted⟩
  attestations := n.votes
  blockSlots := [(n.last.root, (n.fuluEpoch - 1) * 32)]

/-! ## The guest accepts it -/

set_option maxRecDepth 100000

theorem regP_chunked : regP.Chunked := chunked_of_chunkedB (by decide +kernel)
theorem regP_depth : regP.depth < 64 := by decide +kernel

theorem reg_values : ((regP.leafIndices 1).zip regP.leaves).filter (fun x => decide (x.1 ∈ gxRegWanted)) =
    (List.range 10).flatMap (fun i => (gxFields i).zip
      [exExt.pkSerialize (exKey i) |>.take 32,
        (exExt.pkSerialize (exKey i)).drop 32 ++ List.replicate 16 0,
        u64Chunk 32000000000, boolChunk (decide (i = 9)), u64Chunk 0, u64Chunk 0, u64Chunk u64Max]) ++
    [(exitEpochGindex 10, u64Chunk 2), (3, u64Chunk 11)] := by
  decide +kernel

/-- One of the two shipped networks. -/
def Shipped : Prop := n = mainnet ∨ n = sepolia

variable {n}

theorem stateP_chunked (h : n.Shipped) : n.stateP.Chunked := by
  rcases h with rfl | rfl <;> exact chunked_of_chunkedB (by decide +kernel)
theorem stateP_depth (h : n.Shipped) : n.stateP.depth < 64 := by rcases h with rfl | rfl <;> decide +kernel
theorem hdr_chunked (h : n.Shipped) : n.hdr.tree.Chunked := by
  rcases h with rfl | rfl <;> exact chunked_of_chunkedB (by decide +kernel)
theorem hdr_depth (h : n.Shipped) : n.hdr.tree.depth < 64 := by rcases h with rfl | rfl <;> decide +kernel
theorem hdr'_chunked (h : n.Shipped) : n.hdr'.tree.Chunked := by
  rcases h with rfl | rfl <;> exact chunked_of_chunkedB (by decide +kernel)
theorem hdr'_depth (h : n.Shipped) : n.hdr'.tree.depth < 64 := by rcases h with rfl | rfl <;> decide +kernel

theorem reg_extract (h : n.Shipped) :
    extractValidators exExt (proofOf regP gxRegWanted) gxKeys n.trusted.epoch = .ok active := by
  unfold extractValidators
  rw [proofOf_values regP_chunked regP_depth, reg_values]
  rcases h with rfl | rfl <;> decide +kernel

theorem state_extract (h : n.Shipped) : extractBeaconState (proofOf n.stateP gxStateWanted) = .ok n.stateInfo := by
  unfold extractBeaconState
  rw [proofOf_values (stateP_chunked h) (stateP_depth h)]
  rcases h with rfl | rfl <;> decide +kernel

theorem hdr_extract (h : n.Shipped) : extractBeaconBlock (proofOf n.hdr.tree [11]) = .ok (n.stateP.root exExt) := by
  unfold extractBeaconBlock
  rw [proofOf_values (hdr_chunked h) (hdr_depth h)]
  rcases h with rfl | rfl <;> decide +kernel

theorem slot_value (h : n.Shipped) : nextAssertGindex (proofOf n.hdr'.tree [8]).values blockSlotGindex =
    .ok (u64Chunk ((n.fuluEpoch - 1) * 32), []) := by
  rw [proofOf_values (hdr'_chunked h) (hdr'_depth h)]
  rcases h with rfl | rfl <;> decide +kernel

theorem input_slots (h : n.Shipped) :
    blockSlotLoop exExt [proofOf n.hdr'.tree [8]] [] = .ok [(n.last.root, (n.fuluEpoch - 1) * 32)] := by
  have h1 : (proofOf n.hdr'.tree [8]).calculateRoot exExt = .ok n.last.root := proofOf_root exExt (hdr'_chunked h) [8]
  unfold blockSlotLoop
  rw [h1, slot_value h]
  rcases h with rfl | rfl <;> decide +kernel

theorem input_patches (h : n.Shipped) :
    validateStatePatches exExt n.spec n.patches n.trusted n.stateInfo active = .ok () := by
  rcases h with rfl | rfl <;> decide +kernel

theorem input_registry (h : n.Shipped) : (registryLoop n.spec n.stateInfo.finalizedCheckpointEpoch n.trusted.epoch n.justified.epoch
    2 n.trusted.epoch active : Res GuestReaderError _) = .ok active := by
  rcases h with rfl | rfl <;> decide +kernel

theorem input_reader (h : n.Shipped) : n.input.intoReader exExt n.spec = .ok n.reader := by
  unfold GuestInput.intoReader
  simp only [Res.bind_eq_ok, Res.mapErr_eq_ok, ensure_eq_ok, decide_eq_true_eq, slotEpoch_eq_ok_iff,
    Res.pure_eq, Res.ok.injEq]
  refine ⟨(), proofOf_verify exExt (hdr_chunked h) [11], n.stateP.root exExt, hdr_extract h, (),
    proofOf_verify exExt (stateP_chunked h) gxStateWanted, n.stateInfo, state_extract h, (),
    proofOf_verify exExt regP_chunked gxRegWanted, active, reg_extract h, n.trusted.epoch, ?_, (), ?_, active, ?_, (),
    input_patches h, _, input_slots h, rfl⟩
  · rcases h with rfl | rfl <;> exact ⟨by decide, by decide⟩
  · rcases h with rfl | rfl <;> decide
  · have := input_registry h
    rcases h with rfl | rfl <;> exact this

theorem reader_verifies (h : n.Shipped) :
    verify exExt n.cfg n.reader.toReader = .ok (⟨n.first, n.last⟩, (n.fuluEpoch - 1) * 32) := by
  rcases h with rfl | rfl <;> decide +kernel

end Net
end Signal
