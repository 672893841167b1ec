import Verif.Model.Verify

/-!
# Model of the shipped networks (chainspec/src/lib.rs, chainspec/configs/*.yaml, core/src/config.rs)

The specifications of mainnet and Sepolia as the guest programs are built with them.
-/

namespace Signal

/-- A fork schedule: the genesis version, and the version and first epoch of every later fork, Altair first. These are the fork entries
of a configuration file (chainspec/configs/mainnet.yaml:28-55, chainspec/configs/sepolia.yaml:10-45). -/
structure ForkSchedule where
  genesisVersion : Bytes
  forks : List (Bytes × Nat)

namespace ForkSchedule

/-- The epoch of the fork at the given place has come (the tests in lighthouse `fork_name_at_epoch`, external). -/
def started (s : ForkSchedule) (epoch i : Nat) : Bool := match s.forks[i]? with
  | some f => decide (f.2 ≤ epoch)
  | none => false

/-- lighthouse `fork_name_at_epoch`: the newest fork whose epoch has come, else the base. The number of a fork is its place. -/
def nameAt (s : ForkSchedule) (epoch : Nat) : Nat :=
  ((List.range s.forks.length).reverse.find? (s.started epoch)).elim 0 (· + 1)

/-- The version of a fork by its number (`ChainSpec::fork_version_for_name`, external). -/
def version (s : ForkSchedule) : Nat → Bytes
  | 0 => s.genesisVersion
  | n + 1 => match s.forks[n]? with
    | some f => f.1
    | none => s.genesisVersion

/-- lighthouse `fork_at_epoch`. The fork before the first one is the first one itself. -/
def forkAt (s : ForkSchedule) (epoch : Nat) : Fork where
  previousVersion := s.version (s.nameAt epoch - 1)
  currentVersion := s.version (s.nameAt epoch)
  epoch := match s.nameAt epoch with
    | 0 => 0
    | n + 1 => match s.forks[n]? with
      | some f => f.2
      | none => 0

end ForkSchedule

/-- chainspec/configs/mainnet.yaml:28-55. -/
def mainnetForks : ForkSchedule where
  genesisVersion := [0, 0, 0, 0]
  forks := [([1, 0, 0, 0], 74240), ([2, 0, 0, 0], 144896), ([3, 0, 0, 0], 194048), ([4, 0, 0, 0], 269568), ([5, 0, 0, 0], 364032),
    ([6, 0, 0, 0], 411392)]

/-- chainspec/configs/sepolia.yaml:10-45. -/
def sepoliaForks : ForkSchedule where
  genesisVersion := [0x90, 0, 0, 0x69]
  forks := [([0x90, 0, 0, 0x70], 50), ([0x90, 0, 0, 0x71], 100), ([0x90, 0, 0, 0x72], 56832), ([0x90, 0, 0, 0x73], 132608),
    ([0x90, 0, 0, 0x74], 222464), ([0x90, 0, 0, 0x75], 272640)]

/-- `ChainSpec::from_config::<MainnetEthSpec>` (chainspec/src/lib.rs:21-35) on either configuration. Both configurations
name the mainnet preset (chainspec/configs/mainnet.yaml:4, chainspec/configs/sepolia.yaml:2). The values of the preset are those of the
external crate and are not in /repo; the churn limits are in the configuration (chainspec/configs/mainnet.yaml:81, 145,
chainspec/configs/sepolia.yaml:72, 135). Parsing the YAML is not modelled. -/
def networkSpec (forks : ForkSchedule) (signingRoot : AttestationData → Bytes → Root) : ChainSpec where
  slotsPerEpoch := 32
  epochsPerHistoricalVector := 65536
  farFutureEpoch := u64Max
  effectiveBalanceIncrement := 1000000000
  minActivationBalance := 32000000000
  maxSeedLookahead := 4
  minSeedLookahead := 1
  shuffleRoundCount := 90
  minPerEpochChurnLimitElectra := 128000000000
  churnLimitQuotient := 65536
  maxCommitteesPerSlot := 64
  targetCommitteeSize := 128
  domainBeaconAttester := [1, 0, 0, 0]
  forkNameAtEpoch := forks.nameAt
  forkAtEpoch := forks.forkAt
  signingRoot := signingRoot

/-- `mainnet_spec` (chainspec/src/lib.rs:21-26). -/
def mainnetSpec (signingRoot : AttestationData → Bytes → Root) : ChainSpec := networkSpec mainnetForks signingRoot

/-- `sepolia_spec` (chainspec/src/lib.rs:30-35). -/
def sepoliaSpec (signingRoot : AttestationData → Bytes → Root) : ChainSpec := networkSpec sepoliaForks signingRoot

end Signal
