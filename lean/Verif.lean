import Verif.Model.Basic
import Verif.Model.OMap
import Verif.Props.Consensus
import Verif.Props.Abi
import Verif.Spec.Merkle
import Verif.Props.Multiproof
import Verif.Props.Builder
import Verif.Props.Committee
import Verif.Props.Verify
import Verif.Props.VerifyOrder
import Verif.Props.Layout
import Verif.Props.Guest
import Verif.Props.Patches
import Verif.Props.EndToEnd
import Verif.Props.Depth
import Verif.Props.Degenerate
import Verif.Props.Safety
import Verif.Props.Drift
import Verif.Spec.Host
import Verif.Model.HostSearch
import Verif.Model.Cli
import Verif.Props.Host
import Verif.Spec.Providers
import Verif.Model.Providers
import Verif.Props.Providers
import Verif.Props.PatchesExact
import Verif.Model.Preflight
import Verif.Spec.Preflight
import Verif.Proofs.Request
import Verif.Proofs.RegistryProof
import Verif.Proofs.Preflight
import Verif.Proofs.ExampleHost
import Verif.Props.Preflight
import Verif.Model.Recorded
import Verif.Spec.Verdict
import Verif.Proofs.Verdict
import Verif.Props.Verdict
import Verif.Proofs.SameVerdict
import Verif.Props.SameVerdict
import Verif.Spec.Machine
import Verif.Proofs.Machine
import Verif.Props.Machine
import Verif.Model.Wire
import Verif.Spec.Wire
import Verif.Proofs.Wire
import Verif.Props.Wire
import Verif.Spec.Size
import Verif.Proofs.Size
import Verif.Props.Size
import Verif.Model.Program
import Verif.Spec.Program
import Verif.Proofs.Program
import Verif.Proofs.ExampleProgram
import Verif.Props.Program
import Verif.Props.OddFinality
import Verif.Spec.Accept
import Verif.Model.AssertReader
import Verif.Proofs.Accept
import Verif.Proofs.AssertReader
import Verif.Props.Accept
import Verif.Props.AssertReader
import Verif.Model.Client
import Verif.Spec.Client
import Verif.Proofs.Client
import Verif.Props.Client
import Verif.Model.Networks
import Verif.Spec.Networks
import Verif.Props.Networks
import Verif.Model.Gindices
import Verif.Spec.Gindices
import Verif.Props.Gindices
import Verif.Proofs.ExampleNetworks
import Verif.Props.SafetyFloor
import Verif.Spec.AnyNode
import Verif.Props.AnyNode
import Verif.Props.ForeignGenesis
import Verif.Model.Shuffle
import Verif.Spec.Shuffle
import Verif.Proofs.Shuffle
import Verif.Props.Shuffle
import Verif.Model.AttestationSsz
import Verif.Spec.AttestationSsz
import Verif.Proofs.AttestationSsz
import Verif.Props.AttestationSsz
import Verif.Model.Signing
import Verif.Spec.Signing
import Verif.Proofs.Signing
import Verif.Props.Signing
import Verif.Model.Timed
import Verif.Spec.Timed
import Verif.Proofs.Timed
import Verif.Proofs.TimedRun
import Verif.Props.Timed
import Verif.Spec.History
import Verif.Props.History
import Verif.Proofs.Reproducible
import Verif.Spec.Reproducible
import Verif.Props.Reproducible
import Verif.Spec.Shipped
import Verif.Proofs.ExampleShipped
import Verif.Props.Shipped
import Verif.Spec.Divergence
import Verif.Proofs.ExampleDivergence
import Verif.Props.Divergence
import Verif.Props.CommitteeCache
import Verif.Props.BuildNode
import Verif.Props.LargeSets
import Verif.Props.ShippedVotes
import Verif.Conformance
import Verif.Props.SizeExact
import Verif.Model.ResponseCache
import Verif.Props.ResponseCache
import Verif.Spec.Casper
import Verif.Props.Casper
import Verif.Spec.BalanceDrift
import Verif.Props.BalanceDrift
import Verif.Spec.Follow
import Verif.Proofs.Follow
import Verif.Props.Follow
import Verif.Spec.Beacon
import Verif.Proofs.Beacon
import Verif.Props.Beacon
import Verif.Model.Shared
import Verif.Spec.Shared
import Verif.Proofs.Shared
import Verif.Props.Shared
import Verif.Model.StateSsz
import Verif.Spec.StateSsz
import Verif.Proofs.StateSsz
import Verif.Proofs.StateFile
import Verif.Props.StateSsz
import Verif.Model.StateTree
import Verif.Spec.StateTree
import Verif.Proofs.StateTree
import Verif.Proofs.StateHost
import Verif.Proofs.FreeHash
import Verif.Proofs.StateDepth
import Verif.Props.StateTree
import Verif.Props.Examples
import Verif.Model.Raw
import Verif.Spec.Raw
import Verif.Props.Raw
import Verif.Model.Paths
import Verif.Spec.Paths
import Verif.Props.Paths
import Verif.Model.BitVec
import Verif.Props.BitVec
import Verif.Spec.Work
import Verif.Proofs.Work
import Verif.Props.Work
import Verif.Props.Forged
import Verif.Props.StateLayout
import Verif.Props.Points
import Verif.Props.Requests
import Verif.Props.Needs
import Verif.Props.Unused
import Verif.Props.Outcome
import Verif.Props.Strict
import Verif.Props.Agree
import Verif.Props.OneView
import Verif.Props.Convict
import Verif.Props.NetworkRoots
