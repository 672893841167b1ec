import Verif.Model.Abi
import Verif.Spec.Types
import Verif.Proofs.Bytes
import Verif.Proofs.Consensus
import Verif.Props.Consensus

/-!
# C06-C08, C49: ABI encoding, journal, stdin frame
-/

namespace Signal
open Spec Abi

theorem encodeU64_length (n : Nat) : (encodeU64 n).length = 32 := by simp [encodeU64]

theorem decodeU64_encodeU64 {n : Nat} (h : n < 2 ^ 64) : decodeU64 (encodeU64 n) = n := by
  unfold decodeU64 encodeU64
  rw [List.drop_append_of_le_length (by simp), List.drop_of_length_le (by simp)]
  simp [ofBE_beBytes]
  omega

theorem encodeCheckpoint_length {c : Checkpoint} (h : WfCheckpoint c) :
    (encodeCheckpoint c).length = 64 := by
  simp [encodeCheckpoint, encodeU64_length, h.2]

theorem nextWord_append {w rest : Bytes} (h : w.length = 32) :
    nextWord (w ++ rest) = .ok (w, rest) := by
  have : 32 ≤ (w ++ rest).length := by simp [h]
  simp only [nextWord, this, if_true]
  rw [← h, List.take_left, List.drop_left]

theorem decodeCheckpoint_encode {c : Checkpoint} (h : WfCheckpoint c) (rest : Bytes) :
    decodeCheckpoint (encodeCheckpoint c ++ rest) = .ok (c, rest) := by
  unfold decodeCheckpoint encodeCheckpoint
  rw [List.append_assoc, nextWord_append (encodeU64_length _)]
  simp only [Res.ok_bind]
  rw [nextWord_append h.2]
  simp [decodeU64_encodeU64 h.1]

theorem encodeState_length {s : ConsensusState} (h : WfState s) : (encodeState s).length = 128 := by
  simp [encodeState, encodeCheckpoint_length h.1, encodeCheckpoint_length h.2]

theorem abiDecode_encodeState {s : ConsensusState} (hw : WfState s) (hv : ValidState s)
    (rest : Bytes) : abiDecode (encodeState s ++ rest) = .ok s := by
  unfold abiDecode encodeState
  rw [List.append_assoc, decodeCheckpoint_encode hw.1]
  simp only [Res.ok_bind]
  rw [decodeCheckpoint_encode hw.2]
  have : s.isValid = true := (isValid_iff s).2 hv
  simp [tryFromState, ConsensusState.new, assert, ensure, this, Res.mapErr]

/-- **C06.** Encoding a valid state succeeds with 128 bytes which decode to the same state. -/
theorem C06_abi_round_trip (s : ConsensusState) (hw : WfState s) (hv : ValidState s) :
    ∃ b, abiEncode s = .ok b ∧ b.length = 128 ∧ b.length = abiEncodedSize ∧ abiDecode b = .ok s := by
  refine ⟨encodeState s, ?_, encodeState_length hw, encodeState_length hw, ?_⟩
  · simp [abiEncode, assert, (isValid_iff s).2 hv]
  · simpa using abiDecode_encodeState hw hv []

/-- **C06** (injectivity). -/
theorem C06_abi_injective (s t : ConsensusState) (hs : WfState s) (ht : WfState t) (b : Bytes)
    (h1 : abiEncode s = .ok b) (h2 : abiEncode t = .ok b) : s = t := by
  have key : ∀ {x}, WfState x → abiEncode x = .ok b → abiDecode b = .ok x := by
    intro x hx h
    simp [abiEncode, Res.bind_eq_ok] at h
    rw [← h.2]
    simpa using abiDecode_encodeState hx ((isValid_iff x).1 h.1) []
  have := (key hs h1).symm.trans (key ht h2)
  simpa using this

/-- **C06** (layout). The words, in order: justified epoch, justified root, finalized epoch, finalized
root; epochs big-endian in the last 8 bytes of their word. -/
theorem C06_abi_layout (s : ConsensusState) (b : Bytes) (h : abiEncode s = .ok b) :
    b = List.replicate 24 0 ++ (leBytes 8 s.currentJustified.epoch).reverse ++
        s.currentJustified.root ++
        (List.replicate 24 0 ++ (leBytes 8 s.finalized.epoch).reverse ++ s.finalized.root) := by
  simp [abiEncode, Res.bind_eq_ok] at h
  rw [← h.2]
  rfl

/-- Sample well-typed state. -/
def exState : ConsensusState := ⟨⟨2 ^ 64 - 1, exRoot 1⟩, ⟨77, exRoot 2⟩⟩

example : WfState exState ∧ ValidState exState := by
  refine ⟨⟨⟨by decide, by decide⟩, by decide, by decide⟩, Or.inl (by decide)⟩

/-- **C07.** The journal has 288 bytes; the CLI reads back exactly the two states; the
last word holds the slot. -/
theorem C07_journal_round_trip (pre post : ConsensusState) (slot : Nat)
    (hw : WfState pre) (hv : ValidState pre) (hw' : WfState post) (hv' : ValidState post)
    (hs : slot < 2 ^ 64) :
    (encodeJournal pre post slot).length = 288 ∧
    cliReadJournal (encodeJournal pre post slot) = .ok (pre, post) ∧
    abiEncode pre = .ok ((encodeJournal pre post slot).take 128) ∧
    ofBE ((encodeJournal pre post slot).drop 256) = slot := by
  have l1 := encodeState_length hw
  have l2 := encodeState_length hw'
  have l3 := encodeU64_length slot
  have e1 : (encodeJournal pre post slot).take 128 = encodeState pre := by
    unfold encodeJournal; rw [List.append_assoc, ← l1, List.take_left]
  have e2 : (encodeJournal pre post slot).drop 128 = encodeState post ++ encodeU64 slot := by
    unfold encodeJournal; rw [List.append_assoc, ← l1, List.drop_left]
  have e3 : (encodeJournal pre post slot).drop 256 = encodeU64 slot := by
    have : (256 : Nat) = 128 + 128 := rfl
    rw [this, ← List.drop_drop, e2, ← l2, List.drop_left]
  have l : (encodeJournal pre post slot).length = 288 := by
    simp [encodeJournal, l1, l2, l3]
  refine ⟨l, ?_, ?_, ?_⟩
  · simp only [cliReadJournal, abiEncodedSize, l, e1, e2]
    have := abiDecode_encodeState hw hv []
    rw [List.append_nil] at this
    simp [assert, this, abiDecode_encodeState hw' hv']
  · rw [e1]; simp [abiEncode, assert, (isValid_iff pre).2 hv]
  · rw [e3]
    unfold encodeU64 ofBE beBytes
    rw [List.reverse_append, List.reverse_reverse]
    have key : ∀ (a : Bytes) (k : Nat), ofLE (a ++ List.replicate k 0) = ofLE a := by
      intro a k
      induction a with
      | nil =>
        induction k with
        | zero => rfl
        | succ k ih => simp only [List.nil_append] at ih ⊢; simp [List.replicate_succ, ofLE, ih]
      | cons x a ih => simp [ofLE, ih]
    rw [List.reverse_replicate, key, ofLE_leBytes]
    omega

/-- **C07** (injectivity). Equal journals mean equal pre state, post state and slot. -/
theorem C07_journal_injective (pre post pre' post' : ConsensusState) (slot slot' : Nat)
    (hw : WfState pre) (hv : ValidState pre) (hw' : WfState post) (hv' : ValidState post)
    (kw : WfState pre') (kv : ValidState pre') (kw' : WfState post') (kv' : ValidState post')
    (hs : slot < 2 ^ 64) (hs' : slot' < 2 ^ 64)
    (h : encodeJournal pre post slot = encodeJournal pre' post' slot') :
    pre = pre' ∧ post = post' ∧ slot = slot' := by
  obtain ⟨_, a, _, b⟩ := C07_journal_round_trip pre post slot hw hv hw' hv' hs
  obtain ⟨_, a', _, b'⟩ := C07_journal_round_trip pre' post' slot' kw kv kw' kv' hs'
  rw [h] at a b
  rw [a] at a'
  simp at a'
  exact ⟨a'.1, a'.2, b.symm.trans b'⟩

set_option maxRecDepth 10000 in
example : cliReadJournal (encodeJournal exState exState 12345) = .ok (exState, exState) := by
  decide

/-- **C08.** Whatever the bytes, decoding never returns an invalid state. -/
theorem C08_decode_never_invalid (b : Bytes) (s : ConsensusState) (h : abiDecode b = .ok s) :
    ValidState s := by
  simp [abiDecode, Res.bind_eq_ok, tryFromState, ConsensusState.new] at h
  rw [← isValid_iff]
  obtain ⟨_, _, _, _, _, h⟩ := h
  simp_all

/-- **C08** (abort instead of error). The advertised `InvalidState` error is never
returned: bytes that are long enough but encode an invalid state abort the program. -/
theorem C08_invalid_state_aborts (s : ConsensusState) (hw : WfState s) (hv : ¬ ValidState s) :
    abiDecode (encodeState s) = .panic := by
  have h1 := decodeCheckpoint_encode hw.2 []
  rw [List.append_nil] at h1
  have hv' : s.isValid = false := by rw [← Bool.not_eq_true, isValid_iff]; exact hv
  simp only [abiDecode, encodeState, decodeCheckpoint_encode hw.1, Res.ok_bind, h1]
  simp [tryFromState, ConsensusState.new, assert, hv', Res.mapErr]

theorem C08_error_is_only_overrun (b : Bytes) (e : AbiError) (h : abiDecode b = .err e) :
    e = .overrun ∧ b.length < 128 := by
  unfold abiDecode decodeCheckpoint nextWord at h
  by_cases h1 : 32 ≤ b.length
  · by_cases h2 : 32 ≤ b.length - 32
    · by_cases h3 : 32 ≤ b.length - 64
      · by_cases h4 : 32 ≤ b.length - 96
        · have e3 : 32 ≤ b.length - (32 + 32) := h3
          have e4 : 32 ≤ b.length - (32 + (32 + 32)) := h4
          simp [h1, h2, e3, e4, Res.mapErr, tryFromState, ConsensusState.new, assert,
            ensure, List.length_drop] at h
          split at h <;> simp_all
          split at * <;> simp_all
        · refine ⟨?_, by omega⟩
          have e3 : 32 ≤ b.length - (32 + 32) := h3
          have e4 : ¬ 32 ≤ b.length - (32 + (32 + 32)) := h4
          simp [h1, h2, e3, e4, List.length_drop] at h
          exact h.symm
      · refine ⟨?_, by omega⟩
        have e3 : ¬ 32 ≤ b.length - (32 + 32) := h3
        simp [h1, h2, e3, List.length_drop] at h
        exact h.symm
    · refine ⟨?_, by omega⟩
      simp [h1, h2, List.length_drop] at h
      exact h.symm
  · refine ⟨?_, by omega⟩
    simp [h1] at h
    exact h.symm

example : WfState ⟨⟨3, exRoot 1⟩, ⟨3, exRoot 2⟩⟩ ∧ ¬ ValidState ⟨⟨3, exRoot 1⟩, ⟨3, exRoot 2⟩⟩ := by
  refine ⟨⟨⟨by decide, by decide⟩, by decide, by decide⟩, by decide⟩

/-- **C49.** The frame is lossless below 4 GiB. -/
theorem C49_frame_round_trip (input : Bytes) (h : input.length < 2 ^ 32) :
    Frame.readFrame (Frame.encodeInputStdin input) = some input := by
  unfold Frame.readFrame Frame.encodeInputStdin
  have h4 : (leBytes 4 (input.length % 2 ^ 32)).length = 4 := by simp
  have ht : (leBytes 4 (input.length % 2 ^ 32) ++ input).take 4 =
      leBytes 4 (input.length % 2 ^ 32) := by
    conv => lhs; arg 1; rw [← h4]
    rw [List.take_left]
  have hd : (leBytes 4 (input.length % 2 ^ 32) ++ input).drop 4 = input := by
    conv => lhs; arg 1; rw [← h4]
    rw [List.drop_left]
  have hl : ofLE (leBytes 4 (input.length % 2 ^ 32)) = input.length := by
    rw [ofLE_leBytes]; omega
  simp only [ht, hd, hl]
  simp

/-- **C49** (above the limit). From 4 GiB on the reader never gets the input back. -/
theorem C49_frame_truncates (input : Bytes) (h : 2 ^ 32 ≤ input.length) :
    Frame.readFrame (Frame.encodeInputStdin input) ≠ some input := by
  unfold Frame.readFrame Frame.encodeInputStdin
  have h4 : (leBytes 4 (input.length % 2 ^ 32)).length = 4 := by simp
  have ht : (leBytes 4 (input.length % 2 ^ 32) ++ input).take 4 =
      leBytes 4 (input.length % 2 ^ 32) := by
    conv => lhs; arg 1; rw [← h4]
    rw [List.take_left]
  have hd : (leBytes 4 (input.length % 2 ^ 32) ++ input).drop 4 = input := by
    conv => lhs; arg 1; rw [← h4]
    rw [List.drop_left]
  have hl : ofLE (leBytes 4 (input.length % 2 ^ 32)) < 2 ^ 32 := by
    rw [ofLE_leBytes]; omega
  simp only [ht, hd]
  intro hh
  split at hh
  · cases hh
  · split at hh
    · simp only [Option.some.injEq] at hh
      have := congrArg List.length hh
      rw [List.length_take] at this
      omega
    · cases hh

example : Frame.encodeInputStdin [7, 8] = [2, 0, 0, 0, 7, 8] := by decide
/-- Inputs of that size exist. -/
example : ∃ input : Bytes, 2 ^ 32 ≤ input.length :=
  have key : ∀ n, ∃ input : Bytes, n ≤ input.length :=
    fun n => ⟨List.replicate n 0, by rw [List.length_replicate]; exact Nat.le_refl _⟩
  key _

end Signal
