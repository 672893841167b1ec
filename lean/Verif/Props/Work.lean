import Verif.Proofs.Work

/-!
# C97: how much the guest asks of costly external code

Hashes of proofs, compressed keys, shuffles and signature checks make up the cost of a proof. The theorems bound how many of them a run can depend on.
-/

namespace Signal
open Spec

/-- What the checking of one proof comes to, for every expected root, is fixed by at most one hash less than the proof has chunks of 32 bytes. -/
theorem C97_proof (X : Ext) (p : Multiproof) :
    ∃ q : List Bytes, q.length ≤ p.data.length / 32 - 1 ∧ ∀ root, FixedBy { hashes := q } (fun X => p.verify X root) X := verifyProof_asks X p

theorem groups_le (atts : List Attestation) : (chunkBy attLink atts).length ≤ atts.length := by
  have h : ∀ gs : List (Link × List Attestation), (∀ g ∈ gs, g.2 ≠ []) → gs.length ≤ (gs.flatMap (·.2)).length := by
    intro gs
    induction gs with
    | nil => simp
    | cons g gs ih =>
      intro hg
      have h1 : 0 < g.2.length := List.length_pos_iff.2 (hg g (by simp))
      have h2 := ih fun g' h' => hg g' (by simp [h'])
      rw [List.flatMap_cons, List.length_append, List.length_cons]; omega
  have := h (chunkBy attLink atts) fun g hg => (chunkBy_key hg).1
  rwa [chunkBy_flatten] at this

theorem verify_asks (X : Ext) (cfg : Config) (R : Reader) {atts : List Attestation} (ha : R.attestations = .ok atts) :
    Asks (min (cfg.epochLookaheadLimit + 1) atts.length) (min (cfg.epochLookaheadLimit + 1) atts.length) atts.length (fun X => verify X cfg R) X := by
  refine Asks.after fun state _ => ?_
  rw [ha]
  have h := verifyLoop_asks X cfg R state.finalized (chunkBy attLink atts) state
  rw [chunkBy_flatten] at h
  have hg := groups_le atts
  exact Asks.before (Asks.mono h (by omega) (by omega) (Nat.le_refl _)) _

/-- Verification against any reader is fixed by few answers: one hash and one shuffle for each link, of which there are at most one more than the
lookahead limit, one domain and one signature check for each attestation. No key is compressed and no list of exits sorted. -/
theorem C97_verify (X : Ext) (cfg : Config) (R : Reader) {atts : List Attestation} (ha : R.attestations = .ok atts) :
    ∃ q, q.hashes.length ≤ min (cfg.epochLookaheadLimit + 1) atts.length ∧ q.shuffles.length ≤ min (cfg.epochLookaheadLimit + 1) atts.length ∧
      q.domains.length ≤ atts.length ∧ q.signatures.length ≤ atts.length ∧ q.keys = [] ∧ q.sorts = [] ∧
      FixedBy q (fun X => verify X cfg R) X := by
  obtain ⟨q, hq, hf⟩ := verify_asks X cfg R ha
  exact ⟨q, hq.hashes, hq.shuffles, hq.domains, hq.signatures, hq.keys, hq.sorts, hf⟩

/-- The whole guest program, on any input. -/
theorem C97_guest {ε : Type} (X : Ext) (spec : ChainSpec) (cfg : Config) (input : GuestInput) :
    ∃ q, q.hashes.length ≤ (([input.beaconBlock, input.beaconState, input.activeValidators] ++ input.blockSlotProofs).map (fun p => p.data.length / 32 - 1)).sum
          + min (cfg.epochLookaheadLimit + 1) input.attestations.length ∧
      q.shuffles.length ≤ min (cfg.epochLookaheadLimit + 1) input.attestations.length ∧
      q.domains.length ≤ input.attestations.length ∧ q.signatures.length ≤ input.attestations.length ∧
      q.keys.length ≤ input.publicKeys.length ∧ q.sorts.length ≤ input.patches.length ∧
      FixedBy q (fun X => (guestEntry X spec cfg input : Res ε Bytes)) X := by
  obtain ⟨q1, b1, f1⟩ := intoReader_asks X spec input
  cases e : input.intoReader X spec with
  | ok reader =>
    obtain ⟨q2, c2, f2⟩ := verify_asks X cfg reader.toReader (atts := input.attestations) (by
      obtain ⟨-, -, -, -, -, -, -, -, -, -, -, -, -, -, -, -, -, -, h⟩ := intoReader_eq_ok e
      exact congrArg Res.ok h)
    refine ⟨(⟨q1, input.publicKeys, [], [], [], input.patches.map (fun p => p.2.validatorExits)⟩ : Questions).both q2, ?_, ?_, ?_, ?_, ?_, ?_, ?_⟩
    · simp only [Questions.both, List.length_append]; have := c2.hashes; simp only [proofHashes] at b1; omega
    · simpa [Questions.both] using c2.shuffles
    · simpa [Questions.both] using c2.domains
    · simpa [Questions.both] using c2.signatures
    · simp [Questions.both, c2.keys]
    · simp [Questions.both, c2.sorts]
    · intro X' h
      have e1 : input.intoReader X' spec = input.intoReader X spec := f1 X' h.left
      have e2 : verify X' cfg reader.toReader = verify X cfg reader.toReader := f2 X' h.right
      simp only [guestEntry, e1, e, Res.unwrap, Res.ok_bind, e2]
  | err er =>
    refine ⟨⟨q1, input.publicKeys, [], [], [], input.patches.map (fun p => p.2.validatorExits)⟩, ?_, ?_, ?_, ?_, ?_, ?_, ?_⟩
    · simp only [proofHashes] at b1; exact le_trans b1 (Nat.le_add_right _ _)
    iterate 5 simp
    · intro X' h
      have e1 : input.intoReader X' spec = input.intoReader X spec := f1 X' h
      simp only [guestEntry, e1, e, Res.unwrap, Res.panic_bind]
  | panic =>
    refine ⟨⟨q1, input.publicKeys, [], [], [], input.patches.map (fun p => p.2.validatorExits)⟩, ?_, ?_, ?_, ?_, ?_, ?_, ?_⟩
    · simp only [proofHashes] at b1; exact le_trans b1 (Nat.le_add_right _ _)
    iterate 5 simp
    · intro X' h
      have e1 : input.intoReader X' spec = input.intoReader X spec := f1 X' h
      simp only [guestEntry, e1, e, Res.unwrap, Res.panic_bind]

theorem sum_chunks (l : List Multiproof) : 32 * (l.map (fun p => p.data.length / 32 - 1)).sum ≤ (l.map (fun p => p.data.length)).sum := by
  induction l with
  | nil => simp
  | cons p l ih => simp only [List.map_cons, List.sum_cons]; omega

/-- The guest program on the bytes of its standard input: whatever they are, the outcome is fixed by the answers to questions that these bytes
have paid for, except for the shuffles and their seeds, of which there are at most one more than the lookahead limit. -/
theorem C97_bytes {ε : Type} (keyValid sigValid : Bytes → Bool) (X : Ext) (spec : ChainSpec) (cfg : Config) (stdin : Bytes) :
    ∃ q, q.shuffles.length ≤ cfg.epochLookaheadLimit + 1 ∧ q.domains.length ≤ stdin.length / 237 ∧
      32 * q.hashes.length + 96 * q.keys.length + 237 * q.signatures.length + 16 * q.sorts.length ≤ stdin.length + 32 * (cfg.epochLookaheadLimit + 1) ∧
      FixedBy q (fun X => (Wire.guestMain (Wire.realWire keyValid sigValid) X spec cfg stdin : Res ε Bytes)) X := by
  cases e : Frame.readFrame stdin with
  | none =>
    refine ⟨{}, by simp, by simp, by simp, fun X' h => ?_⟩
    simp only [Wire.guestMain, e, expect, Res.panic_bind]
  | some frame =>
    have hlen : frame.length ≤ stdin.length := by
      unfold Frame.readFrame at e
      split at e
      · cases e
      · dsimp only at e
        split at e
        · cases e; simp
        · cases e
    cases e2 : Wire.decodeInput (Wire.realWire keyValid sigValid) X.usizeMod frame with
    | none =>
      refine ⟨{}, by simp, by simp, by simp, fun X' h => ?_⟩
      simp only [Wire.guestMain, e, h.word, e2, expect, Res.ok_bind, Res.panic_bind]
    | some input =>
      have hin := Wire.input_takes keyValid sigValid X.usizeMod e2
      obtain ⟨q, b1, b2, b3, b4, b5, b6, hf⟩ := C97_guest (ε := ε) X spec cfg input
      have hs := sum_chunks ([input.beaconBlock, input.beaconState, input.activeValidators] ++ input.blockSlotProofs)
      simp only [List.cons_append, List.nil_append, List.map_cons, List.sum_cons] at b1 hs
      refine ⟨q, by omega, by omega, by omega, fun X' h => ?_⟩
      have := hf X' h
      simp only [Wire.guestMain, e, h.word, e2, expect, Res.ok_bind]
      exact this

/-! ## Concrete cases -/

/-- The same external code with another hash of the strings that are not in `q`. -/
def otherHash (X : Ext) (q : List Bytes) (x : UInt8) : Ext :=
  { X with
    sha256 := fun b => if b ∈ q then X.sha256 b else List.replicate 32 x
    sha256_length := fun b => by split; exacts [X.sha256_length b, by simp] }

theorem otherHash_agree (X : Ext) (q : Questions) (x : UInt8) : Agree q X (otherHash X q.hashes x) where
  word := rfl
  capacity := rfl
  hashes b hb := by simp [otherHash, hb]
  keys _ _ := rfl
  shuffles _ _ := rfl
  domains _ _ := rfl
  signatures _ _ := rfl
  sorts _ _ := rfl

/-- Answers to finitely many questions never fix the external code itself, so that `FixedBy` says something of the program. -/
example (X : Ext) (q : Questions) : ¬ FixedBy q (fun X => X.sha256) X := by
  intro h
  have e1 := h _ (otherHash_agree X q 0)
  have e2 := h _ (otherHash_agree X q 1)
  obtain ⟨n, hn⟩ : ∃ n, List.replicate n (0 : UInt8) ∉ q.hashes := by
    by_contra hall
    have hall : ∀ n, List.replicate n (0 : UInt8) ∈ q.hashes := by simpa using hall
    have hle : ∀ l : List Bytes, ∃ m, ∀ b ∈ l, b.length ≤ m := by
      intro l
      induction l with
      | nil => exact ⟨0, by simp⟩
      | cons a l ih =>
        obtain ⟨m, hm⟩ := ih
        refine ⟨max a.length m, fun b hb => ?_⟩
        rcases List.mem_cons.1 hb with rfl | hb
        · exact Nat.le_max_left _ _
        · exact le_trans (hm b hb) (Nat.le_max_right _ _)
    obtain ⟨m, hm⟩ := hle q.hashes
    have := hm _ (hall (m + 1))
    simp at this
  have := congrFun (e1.trans e2.symm) (List.replicate n 0)
  simp only [otherHash, hn, if_false] at this
  exact absurd this (by decide)

/-- A proof of two chunks asks one question, and this bound cannot be lowered. -/
example (X : Ext) (hX : 2 ≤ X.stackCapacity) (a b : Bytes) (ha : a.length = 32) (hb : b.length = 32) :
    let p : Multiproof := ⟨a ++ b, [true, false], [false, true, true], 2⟩
    (∃ q : List Bytes, q.length ≤ 1 ∧ ∀ root, FixedBy { hashes := q } (fun X => p.verify X root) X) ∧
      p.verify X (X.sha256 (a ++ b)) = .ok () ∧ ¬ FixedBy {} (fun X' => p.verify X' (X.sha256 (a ++ b))) X := by
  intro p
  have hroot : ∀ X' : Ext, X'.stackCapacity = X.stackCapacity → p.calculateRoot X' = .ok (X'.sha256 (a ++ b)) := by
    intro X' hc
    have h1 : slice? (a ++ b) 0 32 = some a := by simp [slice?, ha, hb]
    have h2 : slice? (a ++ b) 32 64 = some b := by simp [slice?, ha, hb]
    simp [p, Multiproof.calculateRoot, calculateCompactMultiMerkleRoot, rootLoop, hc, hX, assert, h1, h2, expect, reduceStack, TreeNode.value?]
  have hv : ∀ X' : Ext, X'.stackCapacity = X.stackCapacity → (p.verify X' (X.sha256 (a ++ b)) = .ok () ↔ X'.sha256 (a ++ b) = X.sha256 (a ++ b)) := by
    intro X' hc
    simp only [Multiproof.verify, hroot X' hc, Res.ok_bind]
    split <;> simp_all
  refine ⟨?_, (hv X rfl).2 rfl, fun h => ?_⟩
  · have := C97_proof X p
    simpa [p, ha, hb] using this
  · have e1 := (hv (otherHash X [] 0) rfl).1 ((h _ (otherHash_agree X {} 0)).trans ((hv X rfl).2 rfl))
    have e2 := (hv (otherHash X [] 1) rfl).1 ((h _ (otherHash_agree X {} 1)).trans ((hv X rfl).2 rfl))
    have := e1.trans e2.symm
    simp only [otherHash, List.not_mem_nil, if_false] at this
    exact absurd this (by decide)

/-- With the limits of both networks, at most five shuffles. -/
example (X : Ext) (s : Bytes) : ∃ q, q.shuffles.length ≤ 5 ∧
    FixedBy q (fun X => (Wire.guestMain (Wire.realWire (fun _ => true) (fun _ => true)) X (mainnetOf exExt) Config.default s : Res Unit Bytes)) X := by
  obtain ⟨q, h, -, -, hf⟩ := C97_bytes (ε := Unit) (fun _ => true) (fun _ => true) X (mainnetOf exExt) Config.default s
  exact ⟨q, h, hf⟩

end Signal
