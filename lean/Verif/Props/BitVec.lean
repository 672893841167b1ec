import Verif.Model.BitVec
import Verif.Props.AttestationSsz
import Verif.Props.Shipped

/-!
# C96: bit vectors in files

What is assumed of their format elsewhere (`WireLaws` in `Verif/Spec/Wire.lean`, the length in C65) holds of the format of `bitvec`.

Partial: `RealChainDigests` excludes proofs that go on below a leaf of the real header, state or registry. The hardness of SHA-256 does not: without the
condition the claim is false (`C40_one_deposit`, `C81_one_deposit`).
-/

namespace Signal
open Spec Wire

theorem wordOf_lt (l : List Bool) : wordOf l < 2 ^ l.length := by
  induction l with
  | nil => simp [wordOf]
  | cons b l ih =>
    have : wordOf (b :: l) = 2 * wordOf l + b.toNat := rfl
    have hb := Bool.toNat_le b
    rw [this, List.length_cons, Nat.pow_succ]; omega

theorem wordOf_testBit (l : List Bool) : ∀ i, (wordOf l).testBit i = l.getD i false := by
  induction l with
  | nil => intro i; simp [wordOf]
  | cons b l ih =>
    intro i
    have : wordOf (b :: l) = 2 * wordOf l + b.toNat := rfl
    rw [this]
    cases i with
    | zero => cases b <;> simp [Nat.testBit_zero]
    | succ i =>
      rw [Nat.testBit_succ]
      have : (2 * wordOf l + b.toNat) / 2 = wordOf l := by have := Bool.toNat_le b; omega
      rw [this, ih]; simp

theorem bitsOfWord_wordOf (l : List Bool) (h : l.length ≤ 32) : bitsOfWord (wordOf l) = l ++ List.replicate (32 - l.length) false := by
  unfold bitsOfWord
  apply List.ext_getElem?
  intro i
  rw [List.getElem?_map, List.getElem?_append]
  by_cases hi : i < 32
  · rw [List.getElem?_range hi]
    simp only [Option.map_some, wordOf_testBit]
    split
    · simp [*]
    · rename_i hl
      rw [List.getElem?_replicate, if_pos (by omega), List.getD_eq_getElem?_getD, List.getElem?_eq_none (by omega)]
      rfl
  · rw [List.getElem?_eq_none (by simp; omega)]
    rw [if_neg (by omega), List.getElem?_replicate, if_neg (by omega)]
    rfl

theorem bitsOfWord_length (w : Nat) : (bitsOfWord w).length = 32 := by simp [bitsOfWord]

theorem packN_spec (k : Nat) : ∀ l : List Bool, l.length ≤ 32 * k →
    (packN k l).length = k ∧ (∀ w ∈ packN k l, w < 2 ^ 32) ∧ ((packN k l).flatMap bitsOfWord).take l.length = l := by
  induction k with
  | zero => intro l h; have : l = [] := List.length_eq_zero_iff.1 (by omega); subst this; simp [packN]
  | succ k ih =>
    intro l h
    obtain ⟨h1, h2, h3⟩ := ih (l.drop 32) (by rw [List.length_drop]; omega)
    have hl : (l.take 32).length ≤ 32 := by simp [List.length_take]
    simp only [packN]
    refine ⟨by rw [List.length_cons, h1], ?_, ?_⟩
    · intro w hw
      rcases List.mem_cons.1 hw with rfl | hw
      · exact lt_of_lt_of_le (wordOf_lt _) (Nat.pow_le_pow_right (by omega) hl)
      · exact h2 w hw
    · rw [List.flatMap_cons, bitsOfWord_wordOf _ hl]
      by_cases hlen : l.length ≤ 32
      · rw [List.take_of_length_le hlen, List.append_assoc, List.take_append_of_le_length (by omega), List.take_of_length_le (by omega)]
      · have e : (l.take 32).length = 32 := by rw [List.length_take]; omega
        rw [e, Nat.sub_self, List.replicate_zero, List.append_nil]
        have e2 : l.length = 32 + (l.drop 32).length := by rw [List.length_drop]; omega
        rw [e2, List.take_append, e, Nat.add_sub_cancel_left, h3, List.take_of_length_le (by omega), List.take_append_drop]

theorem packWords_spec (l : List Bool) :
    (packWords l).length = (l.length + 31) / 32 ∧ (∀ w ∈ packWords l, w < 2 ^ 32) ∧ ((packWords l).flatMap bitsOfWord).take l.length = l :=
  packN_spec _ l (by omega)

/-- The unused bits and words do not matter; the first bit need not be the first. -/
theorem decodeBitVec_eq {word : Nat} (hw : word ≤ 2 ^ 64) (index bits : Nat) (data : List Nat) (hi : index < 32) (hb : 8 * bits < word)
    (hd : data.length < word) (hdata : ∀ w ∈ data, w < 2 ^ 32) (hroom : index + bits ≤ 32 * data.length) (rest : Bytes) :
    decodeBitVec word (encodeBytes orderName ++ ([32, UInt8.ofNat index] ++ (encodeU64 bits ++ encodeSeq encodeU32 data)) ++ rest) =
      some (((data.flatMap bitsOfWord).drop index).take bits, rest) := by
  have hname : orderName.length < 2 ^ 64 := by decide
  unfold decodeBitVec
  unfold encodeBytes
  simp only [List.append_assoc]
  rw [bind_reads (u64_reads hname _), bind_reads (check_reads (by simp) _), bind_reads (take_reads _ _ rfl), bind_reads (check_reads (by simp) _),
    bind_reads (take_reads (n := 2) [32, UInt8.ofNat index] _ rfl), bind_reads (check_reads (by simp) _)]
  have hidx : ofLE (([32, UInt8.ofNat index] : Bytes).drop 1) = index := by
    simp [ofLE]; omega
  simp only [hidx]
  rw [bind_reads (check_reads (by simpa using hi) _), bind_reads (u64_reads (by omega) _), bind_reads (check_reads (by simpa using hb) _),
    bind_reads (seq_reads hw hd (fun w hw' rest => u32_reads (hdata w hw') rest) _), bind_reads (check_reads (by simpa using hroom) _), pure_apply]

/-- **C96.** A bit vector that fits the machine is read back as it was written, whatever follows. -/
theorem C96_round_trip (word : Nat) (hw : word ≤ 2 ^ 64) (l : List Bool) (h : 8 * l.length < word) (rest : Bytes) :
    decodeBitVec word (encodeBitVec l ++ rest) = some (l, rest) := by
  obtain ⟨h1, h2, h3⟩ := packWords_spec l
  have := decodeBitVec_eq hw 0 l.length (packWords l) (by omega) h (by omega) h2 (by omega) rest
  rw [List.drop_zero, h3] at this
  exact this

/-- **C96.** The form has at most one byte in eight bits and 49 more. -/
theorem C96_size (l : List Bool) : (encodeBitVec l).length ≤ l.length / 8 + 49 := by
  obtain ⟨h1, -, -⟩ := packWords_spec l
  have hname : orderName.length = 19 := by decide
  have hflat : ∀ d : List Nat, ((d.map encodeU32).flatten).length = 4 * d.length := by
    intro d
    induction d with
    | nil => rfl
    | cons w d ih => simp only [List.map_cons, List.flatten_cons, List.length_append, ih, encodeU32, leBytes_length, List.length_cons]; omega
  unfold encodeBitVec encodeBytes encodeSeq
  simp only [List.length_append, hname, encodeU64, leBytes_length, hflat, h1, List.length_cons, List.length_nil]
  omega

theorem gives_bitVec (word : Nat) : Gives (decodeBitVec word) (fun l => 8 * l.length < word) := by
  intro b l rest h
  unfold decodeBitVec at h
  obtain ⟨n, r1, -, h⟩ := bind_eq_some.1 h
  obtain ⟨_, r2, -, h⟩ := bind_eq_some.1 h
  obtain ⟨name, r3, -, h⟩ := bind_eq_some.1 h
  obtain ⟨_, r4, -, h⟩ := bind_eq_some.1 h
  obtain ⟨head, r5, -, h⟩ := bind_eq_some.1 h
  obtain ⟨_, r6, -, h⟩ := bind_eq_some.1 h
  obtain ⟨_, r7, -, h⟩ := bind_eq_some.1 h
  obtain ⟨bits, r8, -, h⟩ := bind_eq_some.1 h
  obtain ⟨_, r9, hc, h⟩ := bind_eq_some.1 h
  obtain ⟨data, r10, -, h⟩ := bind_eq_some.1 h
  obtain ⟨_, r11, -, h⟩ := bind_eq_some.1 h
  rw [pure_apply] at h
  cases h
  have hb : 8 * bits < word := by
    unfold check at hc
    split at hc
    · rename_i hc'; simpa using hc'
    · cases hc
  have := List.length_take_le bits ((data.flatMap bitsOfWord).drop (ofLE (head.drop 1)))
  omega

theorem more_bitVec (word : Nat) : More (decodeBitVec word) :=
  more_bind more_u64 fun _ => more_bind (more_check _) fun _ => more_bind (more_take _) fun _ => more_bind (more_check _) fun _ =>
    more_bind (more_take _) fun _ => more_bind (more_check _) fun _ => more_bind (more_check _) fun _ => more_bind more_u64 fun _ =>
      more_bind (more_check _) fun _ => more_bind (more_seq _ more_u32) fun _ => more_bind (more_check _) fun _ => more_pure _

theorem larger_bitVec {word word' : Nat} (hw : word ≤ word') : Larger (decodeBitVec word) (decodeBitVec word') :=
  larger_bind (larger_refl _) fun _ => larger_bind (larger_refl _) fun _ => larger_bind (larger_refl _) fun _ => larger_bind (larger_refl _) fun _ =>
    larger_bind (larger_refl _) fun _ => larger_bind (larger_refl _) fun _ => larger_bind (larger_refl _) fun _ => larger_bind (larger_refl _) fun _ =>
      larger_bind (larger_check fun hc => by simp only [decide_eq_true_eq] at hc ⊢; omega) fun _ =>
        larger_bind (larger_seq hw (larger_refl _)) fun _ => larger_refl _

attribute [local irreducible] decodeBitVec encodeBitVec

theorem realWire_eq (keyValid sigValid : Bytes → Bool) : realWire keyValid sigValid = Ssz.wire (realWire keyValid sigValid) sigValid := rfl

/-- **C96.** With bit vectors in the format of `bitvec` and attestations in SSZ, everything that the theorems about files assume of the format holds,
for whatever checks of keys and signatures. -/
theorem C96_laws (keyValid sigValid : Bytes → Bool) :
    WireLaws (realWire keyValid sigValid) ∧ ∀ l, ((realWire keyValid sigValid).encodeBits l).length ≤ l.length + 64 := by
  refine ⟨?_, fun l => ?_⟩
  · rw [realWire_eq]
    refine C75_wire_laws (realWire keyValid sigValid) sigValid ?_ ?_ ?_ ?_
    · exact fun word l rest hw h => C96_round_trip word hw l h rest
    · exact fun word b l rest h => gives_bitVec word b l rest h
    · exact fun word b l rest more h => more_bitVec word b l rest more h
    · exact fun word word' b r hw h => larger_bitVec hw b r h
  · have := C96_size l
    show (encodeBitVec l).length ≤ _
    omega

/-- **C96.** The guest for mainnet as a function of bytes, with nothing assumed of the format of its input. `hdomain` holds of `realExt`, which has SHA-256, the
shuffle and the domains as programs; what is left open then is BLS, of which it is assumed that it cannot be forged, the sort and the allocator. -/
theorem C96_mainnet_partial {ε : Type} (keyValid sigValid : Bytes → Bool) (X : Ext)
    (hdomain : ∀ version root, X.computeDomain version root = Signing.computeDomain X.sha256 Signing.beaconAttester version root)
    (signed : Bytes → Bytes → Prop) (hu : Unforgeable X signed) (stdin journal : Bytes)
    (h : (guestMain (realWire keyValid sigValid) X (mainnetOf X) Config.default stdin : Res ε Bytes) = .ok journal) :
    ∃ frame input post slot, Frame.readFrame stdin = some frame ∧
      decodeInput (realWire keyValid sigValid) X.usizeMod frame = some input ∧
      journal = Abi.encodeJournal input.consensusState post slot ∧
      Abi.cliReadJournal journal = .ok (input.consensusState, post) ∧
      364028 ≤ input.consensusState.finalized.epoch ∧
      input.consensusState.finalized.epoch < post.finalized.epoch ∧
      input.consensusState.currentJustified.epoch < post.currentJustified.epoch ∧
      ∀ hdr st, RealChainDigests X (mainnetOf X) input hdr st →
        ∃ links, Run input.consensusState links post ∧
          ∀ link ∈ links, 364032 ≤ link.target.epoch ∧ link.target.epoch ≤ input.consensusState.finalized.epoch + 4 ∧
            ∃ voters, CarriedBy X signed 85 (if link.target.epoch < 411392 then [5, 0, 0, 0] else [6, 0, 0, 0])
              st.genesisValidatorsRoot (registryOf (mainnetOf X) st input.consensusState) input.attestations link voters :=
  C81_mainnet_partial (realWire keyValid sigValid) sigValid (C96_laws keyValid sigValid).1 X hdomain signed hu stdin journal h

/-- **C96.** The guest for Sepolia, likewise. -/
theorem C96_sepolia_partial {ε : Type} (keyValid sigValid : Bytes → Bool) (X : Ext)
    (hdomain : ∀ version root, X.computeDomain version root = Signing.computeDomain X.sha256 Signing.beaconAttester version root)
    (signed : Bytes → Bytes → Prop) (hu : Unforgeable X signed) (stdin journal : Bytes)
    (h : (guestMain (realWire keyValid sigValid) X (sepoliaOf X) Config.sepolia stdin : Res ε Bytes) = .ok journal) :
    ∃ frame input post slot, Frame.readFrame stdin = some frame ∧
      decodeInput (realWire keyValid sigValid) X.usizeMod frame = some input ∧
      journal = Abi.encodeJournal input.consensusState post slot ∧
      Abi.cliReadJournal journal = .ok (input.consensusState, post) ∧
      222460 ≤ input.consensusState.finalized.epoch ∧
      input.consensusState.finalized.epoch < post.finalized.epoch ∧
      input.consensusState.currentJustified.epoch < post.currentJustified.epoch ∧
      ∀ hdr st, RealChainDigests X (sepoliaOf X) input hdr st →
        ∃ links, Run input.consensusState links post ∧
          ∀ link ∈ links, 222464 ≤ link.target.epoch ∧ link.target.epoch ≤ input.consensusState.finalized.epoch + 4 ∧
            ∃ voters, CarriedBy X signed 70
              (if link.target.epoch < 272640 then [0x90, 0, 0, 0x74] else [0x90, 0, 0, 0x75])
              st.genesisValidatorsRoot (registryOf (sepoliaOf X) st input.consensusState) input.attestations link voters :=
  C81_sepolia_partial (realWire keyValid sigValid) sigValid (C96_laws keyValid sigValid).1 X hdomain signed hu stdin journal h

/-! ## Concrete cases -/

/-- Forty bits after a partly used word, with unused bits set; more bits than words; another order. -/
example : decodeBitVec (2 ^ 32) (encodeBytes orderName ++ ([32, 30] ++ (encodeU64 3 ++ encodeSeq encodeU32 [0xbfffffff, 0xffffffff])) ++ [7]) = some ([false, true, true], [7]) ∧
    decodeBitVec (2 ^ 32) (encodeBytes orderName ++ ([32, 30] ++ (encodeU64 35 ++ encodeSeq encodeU32 [0xbfffffff, 0xffffffff]))) = none ∧
    decodeBitVec (2 ^ 32) (encodeBytes (orderName.dropLast ++ [49]) ++ ([32, 0] ++ (encodeU64 0 ++ encodeSeq encodeU32 []))) = none := by decide +kernel

namespace Net

theorem real_fits {n : Net} (h : n.Shipped) : InputFits (realWire exWire.keyValid (fun _ => true)) (2 ^ 32) n.input := by
  obtain ⟨h1, h2, h3, h4, h5, h6, h7, h8, h9, h10, h11, h12, h13⟩ := Net.input_fits h
  exact ⟨h1, h2, h3, h4, h5, h6, h7, h8, h9, h10, h11, h12, h13⟩

theorem real_size {n : Net} (h : n.Shipped) : (encodeInput (realWire exWire.keyValid (fun _ => true)) n.input).length < 2 ^ 32 := by
  rcases h with rfl | rfl <;> decide +kernel

end Net

/-- The file of the examples of C81, with its bit vectors in this format: all hypotheses of `C96_mainnet_partial` and `C96_sepolia_partial` are met. -/
example : ∃ journal, (guestMain (realWire exWire.keyValid (fun _ => true)) exExt (mainnetOf exExt) Config.default
    (Frame.encodeInputStdin (encodeInput (realWire exWire.keyValid (fun _ => true)) Net.mainnet.input)) : Res Unit Bytes) = .ok journal := by
  have hn : Net.mainnet.Shipped := Or.inl rfl
  have := C63_guest_reads (ε := Unit) (realWire exWire.keyValid (fun _ => true)) (C96_laws _ _).1 exExt (by decide) (by decide) Net.mainnet.spec Net.mainnet.cfg
    Net.mainnet.input (Net.real_fits hn) (Net.real_size hn) []
  rw [List.append_nil, Net.input_runs hn] at this
  exact ⟨_, this⟩

example : ∃ journal, (guestMain (realWire exWire.keyValid (fun _ => true)) exExt (sepoliaOf exExt) Config.sepolia
    (Frame.encodeInputStdin (encodeInput (realWire exWire.keyValid (fun _ => true)) Net.sepolia.input)) : Res Unit Bytes) = .ok journal := by
  have hn : Net.sepolia.Shipped := Or.inr rfl
  have := C63_guest_reads (ε := Unit) (realWire exWire.keyValid (fun _ => true)) (C96_laws _ _).1 exExt (by decide) (by decide) Net.sepolia.spec Net.sepolia.cfg
    Net.sepolia.input (Net.real_fits hn) (Net.real_size hn) []
  rw [List.append_nil, Net.input_runs hn] at this
  exact ⟨_, this⟩

end Signal
