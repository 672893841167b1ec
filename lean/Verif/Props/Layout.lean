import Verif.Proofs.Ssz
import Verif.Proofs.Example

/-!
# Properties C50, C51, C52: generalized indices, chunk decoders and public keys

The SSZ trees are specified in `Verif/Spec/Ssz.lean`.
-/

namespace Signal
open Spec

/-! ## C50 -/

/-- **C50.** The block indices address the slot and the state root of a block header. -/
theorem C50_header (h : Header) :
    h.tree.nodeAt blockSlotGindex = some (.leaf (u64Chunk h.slot)) ∧
    h.tree.nodeAt stateRootGindex = some (.leaf h.stateRoot) :=
  ⟨nodeAt_container 3 _ 0 _ (by omega) rfl, nodeAt_container 3 _ 3 _ (by omega) rfl⟩

theorem state_field (s : BeaconState) (i : Nat) (name : String) (hi : i < 37)
    (h : electraFields[i]? = some name) : s.tree.nodeAt (64 + i) = some (s.field name) := by
  apply nodeAt_container 6 _ i _ (by omega)
  have h2 : (if s.fulu = true then fuluFields else electraFields)[i]? = some name := by
    split
    · unfold fuluFields
      rw [List.getElem?_append_left (by simp [electraFields]; omega), h]
    · exact h
  simp [List.getElem?_map, h2]

/-- **C50.** The state indices address the intended fields of the Electra and of the Fulu state. -/
theorem C50_state (s : BeaconState) :
    s.tree.nodeAt genesisValidatorsRootGindex = some (.leaf s.genesisValidatorsRoot) ∧
    s.tree.nodeAt slotGindex = some (.leaf (u64Chunk s.slot)) ∧
    s.tree.nodeAt forkPreviousVersionGindex = some (.leaf (versionChunk s.fork.previousVersion)) ∧
    s.tree.nodeAt forkCurrentVersionGindex = some (.leaf (versionChunk s.fork.currentVersion)) ∧
    s.tree.nodeAt forkEpochGindex = some (.leaf (u64Chunk s.fork.epoch)) ∧
    s.tree.nodeAt validatorsGindex = some (registryTree s.validators) ∧
    s.tree.nodeAt finalizedCheckpointEpochGindex = some (.leaf (u64Chunk s.finalizedEpoch)) ∧
    s.tree.nodeAt earliestExitEpochGindex = some (.leaf (u64Chunk s.earliestExitEpoch)) ∧
    s.tree.nodeAt earliestConsolidationEpochGindex =
      some (.leaf (u64Chunk s.earliestConsolidationEpoch)) := by
  have hf := state_field s 3 "fork" (by omega) rfl
  have hc := state_field s 20 "finalized_checkpoint" (by omega) rfl
  refine ⟨state_field s 1 "genesis_validators_root" (by omega) rfl,
    state_field s 2 "slot" (by omega) rfl, ?_, ?_, ?_,
    state_field s 11 "validators" (by omega) rfl, ?_,
    state_field s 31 "earliest_exit_epoch" (by omega) rfl,
    state_field s 33 "earliest_consolidation_epoch" (by omega) rfl⟩
  · exact (nodeAt_mul' (by omega) hf 2 0 (by omega)).trans (nodeAt_container 2 _ 0 _ (by omega) rfl)
  · exact (nodeAt_mul' (by omega) hf 2 1 (by omega)).trans (nodeAt_container 2 _ 1 _ (by omega) rfl)
  · exact (nodeAt_mul' (by omega) hf 2 2 (by omega)).trans (nodeAt_container 2 _ 2 _ (by omega) rfl)
  · exact (nodeAt_mul' (by omega) hc 1 0 (by omega)).trans (nodeAt_container 1 _ 0 _ (by omega) rfl)

/-- **C50.** The validator indices address the intended fields of the intended validator, for every
validator of every registry within the limit; index 3, at which the code stops, addresses the length. -/
theorem C50_validator (vs : List Validator) (hl : vs.length ≤ 2 ^ 40) (i : Nat) (v : Validator)
    (h : vs[i]? = some v) :
    (registryTree vs).nodeAt (publicKey0Gindex i) = some (.leaf (v.pubkey.take 32)) ∧
    (registryTree vs).nodeAt (publicKey1Gindex i) =
      some (.leaf (v.pubkey.drop 32 ++ List.replicate 16 0)) ∧
    (registryTree vs).nodeAt (effectiveBalanceGindex i) = some (.leaf (u64Chunk v.effectiveBalance)) ∧
    (registryTree vs).nodeAt (slashedGindex i) = some (.leaf (boolChunk v.slashed)) ∧
    (registryTree vs).nodeAt (activationEligibilityEpochGindex i) =
      some (.leaf (u64Chunk v.activationEligibilityEpoch)) ∧
    (registryTree vs).nodeAt (activationEpochGindex i) = some (.leaf (u64Chunk v.activationEpoch)) ∧
    (registryTree vs).nodeAt (exitEpochGindex i) = some (.leaf (u64Chunk v.exitEpoch)) ∧
    (registryTree vs).nodeAt 3 = some (.leaf (u64Chunk vs.length)) := by
  have hi : i < 2 ^ 40 := by
    obtain ⟨h', _⟩ := List.getElem?_eq_some_iff.1 h
    omega
  have hp : v.tree.nodeAt 8 = some (Validator.pubkeyTree v.pubkey) := v.nodeAt_field 0 _ (by omega) rfl
  refine ⟨?_, ?_, ?_, ?_, ?_, ?_, ?_, nodeAt_three _ _⟩
  · refine (registryTree_field hi h 16 4 (by omega) (by omega) (by omega) (by omega)).trans ?_
    exact (nodeAt_mul' (by omega) hp 1 0 (by omega)).trans (nodeAt_two _ _)
  · refine (registryTree_field hi h 17 4 (by omega) (by omega) (by omega) (by omega)).trans ?_
    exact (nodeAt_mul' (by omega) hp 1 1 (by omega)).trans (nodeAt_three _ _)
  · exact (registryTree_field hi h 10 3 (by omega) (by omega) (by omega) (by omega)).trans
      (v.nodeAt_field 2 _ (by omega) rfl)
  · exact (registryTree_field hi h 11 3 (by omega) (by omega) (by omega) (by omega)).trans
      (v.nodeAt_field 3 _ (by omega) rfl)
  · exact (registryTree_field hi h 12 3 (by omega) (by omega) (by omega) (by omega)).trans
      (v.nodeAt_field 4 _ (by omega) rfl)
  · exact (registryTree_field hi h 13 3 (by omega) (by omega) (by omega) (by omega)).trans
      (v.nodeAt_field 5 _ (by omega) rfl)
  · exact (registryTree_field hi h 14 3 (by omega) (by omega) (by omega) (by omega)).trans
      (v.nodeAt_field 6 _ (by omega) rfl)

/-- The seven validator index functions of the code. -/
def validatorGindices (i : Nat) : List Nat :=
  [publicKey0Gindex i, publicKey1Gindex i, effectiveBalanceGindex i, slashedGindex i,
    activationEligibilityEpochGindex i, activationEpochGindex i, exitEpochGindex i]

/-- **C50.** Below the registry limit the `u64` computation of the validator indices does not wrap. -/
theorem C50_no_overflow (i : Nat) (hi : i < 2 ^ 40) :
    validatorGindices i = [16 * (2 ^ 41 + i), 16 * (2 ^ 41 + i) + 1, 8 * (2 ^ 41 + i) + 2,
      8 * (2 ^ 41 + i) + 3, 8 * (2 ^ 41 + i) + 4, 8 * (2 ^ 41 + i) + 5, 8 * (2 ^ 41 + i) + 6] ∧
    ∀ g ∈ validatorGindices i, g < 2 ^ 64 := by
  have : validatorGindices i = [16 * (2 ^ 41 + i), 16 * (2 ^ 41 + i) + 1, 8 * (2 ^ 41 + i) + 2,
      8 * (2 ^ 41 + i) + 3, 8 * (2 ^ 41 + i) + 4, 8 * (2 ^ 41 + i) + 5, 8 * (2 ^ 41 + i) + 6] := by
    simp only [validatorGindices, publicKey0Gindex, publicKey1Gindex, effectiveBalanceGindex,
      slashedGindex, activationEligibilityEpochGindex, activationEpochGindex, exitEpochGindex,
      validatorFieldGindex, wrapAdd, wrapMul, List.cons.injEq, and_true]
    omega
  refine ⟨this, ?_⟩
  rw [this]
  intro g hg
  simp only [List.mem_cons, List.not_mem_nil, or_false] at hg
  omega

/-- **C50.** Distinct pairs of validator and field have distinct indices, and none is the index of the
length. -/
theorem C50_distinct (i j a b g : Nat) (hi : i < 2 ^ 40) (hj : j < 2 ^ 40)
    (ha : (validatorGindices i)[a]? = some g) (hb : (validatorGindices j)[b]? = some g) :
    i = j ∧ a = b ∧ g ≠ 3 := by
  rw [(C50_no_overflow i hi).1] at ha
  rw [(C50_no_overflow j hj).1] at hb
  obtain ⟨ha1, ha⟩ := List.getElem?_eq_some_iff.1 ha
  obtain ⟨hb1, hb⟩ := List.getElem?_eq_some_iff.1 hb
  simp only [List.length_cons, List.length_nil] at ha1 hb1
  have ca : a = 0 ∨ a = 1 ∨ a = 2 ∨ a = 3 ∨ a = 4 ∨ a = 5 ∨ a = 6 := by omega
  have cb : b = 0 ∨ b = 1 ∨ b = 2 ∨ b = 3 ∨ b = 4 ∨ b = 5 ∨ b = 6 := by omega
  rcases ca with rfl | rfl | rfl | rfl | rfl | rfl | rfl <;>
    rcases cb with rfl | rfl | rfl | rfl | rfl | rfl | rfl <;>
    simp only [List.getElem_cons_zero, List.getElem_cons_succ] at ha hb <;> omega

/-! ## C51 -/

/-- **C51.** Decoding the chunk of a `u64` or `bool` gives the value back. -/
theorem C51_decode_encode :
    (∀ n < 2 ^ 64, u64FromChunk (u64Chunk n) = n) ∧
    ∀ b, (boolFromChunk (boolChunk b) : Res ProofError Bool) = .ok b :=
  ⟨u64FromChunk_u64Chunk, boolFromChunk_boolChunk⟩

/-- **C51.** A decoded `u64` fits its type, and depends on nothing but the first eight bytes. -/
theorem C51_u64_range (c : Bytes) (n : Nat) (hc : 8 ≤ c.length) :
    u64FromChunk c < 2 ^ 64 ∧ (u64FromChunk c = n ↔ c.take 8 = leBytes 8 n ∧ n < 2 ^ 64) := by
  have hl : (c.take 8).length = 8 := by simp; omega
  have h1 : u64FromChunk c < 2 ^ 64 := by
    have := ofLE_lt (c.take 8)
    rw [hl] at this
    unfold u64FromChunk; omega
  refine ⟨h1, ?_⟩
  constructor
  · rintro rfl
    refine ⟨?_, h1⟩
    have := leBytes_ofLE (c.take 8)
    rw [hl] at this
    exact this.symm
  · rintro ⟨h2, h3⟩
    unfold u64FromChunk
    rw [h2, ofLE_leBytes]
    apply Nat.mod_eq_of_lt; omega

/-- **C51.** A chunk that is not the canonical encoding of a boolean aborts. -/
theorem C51_bool_canonical (c : Bytes) (hc : c.length = 32) :
    (∀ b, (boolFromChunk c : Res ProofError Bool) = .ok b ↔ c = boolChunk b) ∧
    ((∀ b, c ≠ boolChunk b) → (boolFromChunk c : Res ProofError Bool) = .panic) := by
  obtain ⟨x, xs, rfl⟩ : ∃ x xs, c = x :: xs := by
    cases c with
    | nil => simp at hc
    | cons x xs => exact ⟨x, xs, rfl⟩
  have hx : xs.length = 31 := by simpa using hc
  have hz : (xs.all (· == 0)) = true ↔ xs = List.replicate 31 0 := by
    rw [List.eq_replicate_iff, List.all_eq_true]; simp [hx]
  unfold boolFromChunk boolChunk
  generalize List.replicate 31 (0 : UInt8) = z at hz ⊢
  simp only [List.drop_one, List.tail_cons, List.head?_cons, Option.some.injEq, List.cons.injEq]
  by_cases h : xs.all (· == 0) = true
  · rw [h]
    have h' := hz.1 h
    by_cases x0 : x = 0
    · subst x0; constructor
      · intro b; cases b <;> simp [assert, h']
      · intro hb; exact absurd (by simp [h']) (hb false)
    · by_cases x1 : x = 1
      · subst x1; constructor
        · intro b; cases b <;> simp [assert, h']
        · intro hb; exact absurd (by simp [h']) (hb true)
      · simp only [assert, Res.ok_bind, if_true, x0, x1, if_false]
        constructor
        · intro b; cases b <;> simp [x0, x1]
        · simp
  · have h' : xs ≠ z := fun e => h (hz.2 e)
    simp [assert, h, h']

/-! ## C52 -/

/-- **C52.** `has_compressed_chunks` accepts a key exactly if the two chunks are the Merkle leaves of its
compressed encoding, padding included. -/
theorem C52_compressed_chunks (X : Ext) (pk c1 c2 : Bytes) (h2 : c2.length = 32) :
    hasCompressedChunks X pk c1 c2 = true ↔
      Validator.pubkeyTree (X.pkSerialize pk) = .node (.leaf c1) (.leaf c2) := by
  have hs := X.pkSerialize_length pk
  unfold hasCompressedChunks Validator.pubkeyTree
  simp only [Bool.and_eq_true, decide_eq_true_eq, Tree.node.injEq, Tree.leaf.injEq]
  have e1 : ((X.pkSerialize pk).drop 32).take 16 = (X.pkSerialize pk).drop 32 :=
    List.take_of_length_le (by simp; omega)
  have e2 : (c2.drop 16).take 16 = c2.drop 16 := List.take_of_length_le (by simp; omega)
  rw [e1, e2, and_assoc]
  refine and_congr_right (fun _ => ?_)
  constructor
  · rintro ⟨a, b⟩
    rw [a, ← b, List.take_append_drop]
  · intro h
    rw [← h]
    have : ((X.pkSerialize pk).drop 32).length = 16 := by simp; omega
    exact ⟨by rw [List.take_left' this], by rw [List.drop_left' this]⟩

/-- **C52.** Checked against the chunks of a registered 48-byte key, only keys with that very encoding are
accepted. -/
theorem C52_registered_key_only (X : Ext) (pk registered c1 c2 : Bytes) (hr : registered.length = 48)
    (hc : Validator.pubkeyTree registered = .node (.leaf c1) (.leaf c2)) :
    hasCompressedChunks X pk c1 c2 = true ↔ X.pkSerialize pk = registered := by
  have hs := X.pkSerialize_length pk
  have h2 : c2.length = 32 := by
    simp only [Validator.pubkeyTree, Tree.node.injEq, Tree.leaf.injEq] at hc
    rw [← hc.2]; simp; omega
  rw [C52_compressed_chunks X pk c1 c2 h2, ← hc]
  constructor
  · intro h
    simp only [Validator.pubkeyTree, Tree.node.injEq, Tree.leaf.injEq, List.append_cancel_right_eq] at h
    rw [← List.take_append_drop 32 (X.pkSerialize pk), h.1, h.2, List.take_append_drop]
  · intro h; rw [h]

/-! ## The hypotheses can be met -/

/-- A validator with recognisable fields. -/
def exValidator (k : UInt8) : Validator :=
  { pubkey := List.replicate 48 k, withdrawalCredentials := zeroRoot, effectiveBalance := 32000000000,
    slashed := false, activationEligibilityEpoch := 0, activationEpoch := 0, exitEpoch := u64Max,
    withdrawableEpoch := u64Max }

/-- C50 for the second validator of a registry of two. -/
example : (registryTree [exValidator 1, exValidator 2]).nodeAt (effectiveBalanceGindex 1) =
    some (.leaf (u64Chunk 32000000000)) :=
  (C50_validator _ (by simp) 1 (exValidator 2) rfl).2.2.1

/-- C51: a chunk that aborts. -/
example : (boolFromChunk (2 :: List.replicate 31 0) : Res ProofError Bool) = .panic := by
  apply (C51_bool_canonical _ (by simp)).2
  intro b; cases b <;> simp [boolChunk]

/-- C52: an accepted and a rejected key. -/
example : hasCompressedChunks exExt (List.replicate 48 7) (List.replicate 32 7)
      (List.replicate 16 7 ++ List.replicate 16 0) = true ∧
    hasCompressedChunks exExt (List.replicate 48 7) (List.replicate 32 7) (List.replicate 32 7) = false := by
  decide

end Signal
