import Verif.Model.Basic
import Verif.Spec.Ssz

/-!
# Model of the state providers of the host (host/src/state_provider.rs, host/src/state_provider/*.rs)

A beacon state is a value of any type `σ` with the functions of `StateOps`, which stand for library code: the accessors
of the state, SSZ serialization and hash tree root.
-/

namespace Signal

/-- What the providers use of a beacon state. -/
structure StateOps (σ : Type) where
  slot : σ → Nat
  genesisValidatorsRoot : σ → Root
  latestBlockHeader : σ → Spec.Header
  hashTreeRoot : σ → Root
  serialize : σ → Bytes
  deserialize : Bytes → Option σ

/-- `StateProviderError` (host/src/state_provider.rs:31-39). `other` stands for all errors of other kinds. -/
inductive ProviderError where
  | invalidCheckpoint
  | notFound (slot : Nat)
  | other
  deriving Repr, DecidableEq

variable {σ : Type}

/-! ## The default methods of the trait -/

/-- `StateProvider::state_at_epoch` (host/src/state_provider.rs:89-92). -/
def stateAtEpoch (spe : Nat) (stateAtSlot : Nat → Res ProviderError σ) (epoch : Nat) : Res ProviderError σ :=
  stateAtSlot (satMul epoch spe)

/-- `StateProvider::state_at_epoch_boundary` (host/src/state_provider.rs:54-70). -/
def stateAtEpochBoundary (ops : StateOps σ) (spe : Nat) (stateAtSlot : Nat → Res ProviderError σ) (epoch : Nat) :
    Res ProviderError σ := do
  let state ← stateAtEpoch spe stateAtSlot epoch
  let boundary := (ops.latestBlockHeader state).slot
  if boundary = ops.slot state then return state
  else stateAtSlot boundary

/-- `StateProvider::state_at_checkpoint` (host/src/state_provider.rs:73-86). -/
def stateAtCheckpoint (X : Ext) (ops : StateOps σ) (spe : Nat) (stateAtSlot : Nat → Res ProviderError σ)
    (c : Checkpoint) : Res ProviderError σ := do
  let state ← stateAtEpochBoundary ops spe stateAtSlot c.epoch
  let block := { ops.latestBlockHeader state with stateRoot := ops.hashTreeRoot state }
  ensure (decide (c.root = block.tree.root X)) .invalidCheckpoint
  return state

/-! ## The cache -/

/-- The map of the cache, as a list of pairs. -/
abbrev StateCache (σ : Type) := List (Nat × σ)

/-- `CacheStateProvider::state_at_slot` (host/src/state_provider/cache_provider.rs:50-60): the answer, the new cache,
and whether the wrapped provider was asked. -/
def cacheStateAtSlot (inner : Nat → Res ProviderError σ) (cache : StateCache σ) (slot : Nat) :
    Res ProviderError σ × StateCache σ × Bool :=
  match cache.lookup slot with
  | some state => (.ok state, cache, false)
  | none =>
    match inner slot with
    | .ok state => (.ok state, cache ++ [(slot, state)], true)
    | .err e => (.err e, cache, true)
    | .panic => (.panic, cache, true)

/-- A sequence of requests to one cache: for each request the slot and the answers that the wrapped provider gives
at that time. Returned is, for each request, the slot, the answer and whether the wrapped provider was asked. -/
def cacheRun (cache : StateCache σ) : List (Nat × (Nat → Res ProviderError σ)) →
    List (Nat × Res ProviderError σ × Bool)
  | [] => []
  | (slot, inner) :: rs =>
    let r := cacheStateAtSlot inner cache slot
    (slot, r.1, r.2.2) :: cacheRun r.2.1 rs

/-- `CacheStateProvider::genesis_validators_root` (host/src/state_provider/cache_provider.rs:42-48). `pick` is the
position of the entry that `values().next()` yields, which depends on the iteration order of the hash map. -/
def cacheGenesisRoot (ops : StateOps σ) (inner : Nat → Res ProviderError σ) (cache : StateCache σ) (pick : Nat) :
    Res ProviderError Root :=
  match cache[pick % cache.length]? with
  | some (_, state) => .ok (ops.genesisValidatorsRoot state)
  | none => do
    let state ← (cacheStateAtSlot inner cache 0).1
    return ops.genesisValidatorsRoot state

/-! ## Files -/

/-- Decimal digits, as written by `Display` for `Slot`. -/
def decimal (n : Nat) : List Char :=
  if n < 10 then [Char.ofNat (48 + n)] else decimal (n / 10) ++ [Char.ofNat (48 + n % 10)]
termination_by n

/-- The digits of `u64::from_str`; `none` for any other character. -/
def parseDigits : List Char → Nat → Option Nat
  | [], acc => some acc
  | c :: cs, acc => if 48 ≤ c.toNat ∧ c.toNat ≤ 57 then parseDigits cs (10 * acc + (c.toNat - 48)) else none

/-- The optional sign of `u64::from_str`. -/
def stripPlus : List Char → List Char
  | '+' :: cs => cs
  | cs => cs

/-- `str::parse::<Slot>` (lighthouse: `u64::from_str`): decimal digits, at least one, with an optional sign `+`, in
the range of `u64`. -/
def parseSlot (s : List Char) : Option Nat :=
  let digits := stripPlus s
  if digits = [] then none
  else match parseDigits digits 0 with
    | some n => if n < 2 ^ 64 then some n else none
    | none => none

/-- What a directory holds under a name: a file, or something that is not a file. -/
inductive Entry where
  | file (content : Bytes)
  | directory
  deriving Repr, DecidableEq

/-- A directory: its entries in the order in which `read_dir` yields them. -/
abbrev Dir := List (List Char × Entry)

/-- `format!("{slot}_beacon_state.ssz")`
(host/src/state_provider/file_provider.rs:44, 84). -/
def stateFile (slot : Nat) : List Char := decimal slot ++ "_beacon_state.ssz".toList

/-- `FileProvider::state_at_slot` (host/src/state_provider/file_provider.rs:82-95). -/
def fileStateAtSlot (ops : StateOps σ) (dir : Dir) (slot : Nat) : Res ProviderError σ :=
  match dir.lookup (stateFile slot) with
  | none => .err (.notFound slot)
  | some .directory => .err .other
  | some (.file content) =>
    match ops.deserialize content with
    | none => .err .other
    | some state => .ok state

/-- How a call of `fs::write` ends: it writes everything, it fails after some bytes, or the process is killed after some
bytes. The file is created before the first byte is written. -/
inductive WriteEnd where
  | complete
  | failed (written : Nat)
  | killed (written : Nat)
  deriving Repr, DecidableEq

/-- `FileProvider::save_state` (host/src/state_provider/file_provider.rs:41-53): the result and the directory after it. An
abort stands for the killed process. -/
def saveState (ops : StateOps σ) (dir : Dir) (state : σ) (w : WriteEnd) : Res ProviderError Unit × Dir :=
  let name := stateFile (ops.slot state)
  match dir.lookup name with
  | some _ => (.err .other, dir)
  | none =>
    match w with
    | .complete => (.ok (), dir ++ [(name, .file (ops.serialize state))])
    | .failed k => (.err .other, dir ++ [(name, .file ((ops.serialize state).take k))])
    | .killed k => (.panic, dir ++ [(name, .file ((ops.serialize state).take k))])

/-- The first part of a file name (`split('_').next()`) as a slot
(host/src/state_provider/file_provider.rs:64-69). -/
def slotOfName (name : List Char) : Option Nat := parseSlot (name.takeWhile (· ≠ '_'))

/-- The loop of `FileProvider::clear_states_before` (host/src/state_provider/file_provider.rs:62-75): it goes through the
entries that `read_dir` yields and stops at the first error. `fails` tells which removals fail. `steps` is the number
of entries after which the process is killed. Removing something that is not a file fails. -/
def clearLoop (fails : List Char → Bool) (slot : Nat) : (steps : Nat) → (entries dir : Dir) →
    Res ProviderError Unit × Dir
  | 0, _, dir => (.panic, dir)
  | _ + 1, [], dir => (.ok (), dir)
  | n + 1, (name, entry) :: entries, dir =>
    match slotOfName name with
    | none => clearLoop fails slot n entries dir
    | some s =>
      if s < slot then
        if fails name || decide (entry = .directory) then (.err .other, dir)
        else clearLoop fails slot n entries (dir.filter (fun p => p.1 ≠ name))
      else clearLoop fails slot n entries dir

/-- `FileProvider::clear_states_before` (host/src/state_provider/file_provider.rs:55-77). -/
def clearStatesBefore (spe : Nat) (fails : List Char → Bool) (dir : Dir) (epoch steps : Nat) :
    Res ProviderError Unit × Dir :=
  clearLoop fails (satMul epoch spe) steps dir dir

/-- `PersistentApiStateProvider::state_at_slot` (host/src/state_provider/persistant_api_provider.rs:49-67): the answer and
the directory after it. `api` is the answer of the beacon node to `get_beacon_state`, `w` the way in which the write
ends. -/
def persistentStateAtSlot (ops : StateOps σ) (api : Nat → Option σ) (w : WriteEnd) (dir : Dir) (slot : Nat) :
    Res ProviderError σ × Dir :=
  match fileStateAtSlot ops dir slot with
  | .err (.notFound _) =>
    match api slot with
    | none => (.err .other, dir)
    | some state =>
      let r := saveState ops dir state w
      (r.1 >>= fun _ => .ok state, r.2)
  | r => (r, dir)

/-- What happens to the directory: a request, or a call of `clear_states_before`; a kill ends the process, and the
next event is that of a new one. -/
inductive ProviderEvent (σ : Type) where
  | request (slot : Nat) (api : Nat → Option σ) (w : WriteEnd)
  | clear (epoch : Nat) (fails : List Char → Bool) (steps : Nat)

/-- One event: the directory after it, and the answer to a request. -/
def providerStep (ops : StateOps σ) (spe : Nat) (dir : Dir) : ProviderEvent σ →
    Dir × Option (Nat × Res ProviderError σ)
  | .request slot api w =>
    let r := persistentStateAtSlot ops api w dir slot
    (r.2, some (slot, r.1))
  | .clear epoch fails steps => ((clearStatesBefore spe fails dir epoch steps).2, none)

/-- A sequence of events: the directory after it and the answers to the requests. -/
def providerRun (ops : StateOps σ) (spe : Nat) (dir : Dir) : List (ProviderEvent σ) →
    Dir × List (Nat × Res ProviderError σ)
  | [] => (dir, [])
  | e :: es =>
    let r := providerStep ops spe dir e
    let r' := providerRun ops spe r.1 es
    (r'.1, r.2.toList ++ r'.2)

end Signal
