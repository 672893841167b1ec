import Verif.Proofs.Wire
import Verif.Props.Machine
import Verif.Props.SameVerdict
import Verif.Props.Abi
import Verif.Props.Safety

/-!
# C63, C64: the serialized input, the whole guest program and the host's check of it
-/

namespace Signal
open Spec Wire

/-! ## C63 -/

/-- **C63.** What the host serializes, the guest and the host deserialize to the same input, whatever bytes follow. -/
theorem C63_round_trip (W : WireExt) (hW : WireLaws W) (word : Nat) (hlo : 32 < word) (hw : word ≤ 2 ^ 64)
    (input : GuestInput) (h : InputFits W word input) (rest : Bytes) :
    decodeInput W word (encodeInput W input ++ rest) = some input := by
  unfold decodeInput
  rw [input_reads hW hw hlo h]
  rfl

/-- **C63.** Different inputs have different serializations. -/
theorem C63_injective (W : WireExt) (hW : WireLaws W) (word : Nat) (hlo : 32 < word) (hw : word ≤ 2 ^ 64)
    (a b : GuestInput) (ha : InputFits W word a) (hb : InputFits W word b) (h : encodeInput W a = encodeInput W b) : a = b := by
  have h1 := C63_round_trip W hW word hlo hw a ha []
  have h2 := C63_round_trip W hW word hlo hw b hb []
  rw [h, h2] at h1
  cases h1; rfl

/-- **C63.** Whatever the bytes, an input that is deserialized consists of values of the Rust types: its maps are sorted and have no
key twice, its roots have 32 bytes, its keys 96, its numbers fit. -/
theorem C63_decoded_fits (W : WireExt) (hW : WireLaws W) (word : Nat) (b : Bytes) (input : GuestInput)
    (h : decodeInput W word b = some input) : InputFits W word input ∧ Typed input := by
  unfold decodeInput at h
  obtain ⟨⟨i, rest⟩, hr, rfl⟩ := Option.map_eq_some_iff.1 h
  have g := gives_input hW word _ _ _ hr
  refine ⟨⟨g.beaconBlock, g.beaconState, g.activeValidators, g.keys.1, g.keys.2, g.patches.1, g.patches.2.1, g.patches.2.2,
    g.state, g.attestations.1, ?_, g.slotProofs.1, g.slotProofs.2⟩, ⟨g.state, ?_⟩⟩
  · intro a ha
    obtain ⟨x, hx, hd⟩ := g.attestations.2 a ha
    obtain ⟨h1, h2⟩ := hW.attestation x a hd
    exact ⟨by omega, h1⟩
  · intro a ha
    obtain ⟨x, -, hd⟩ := g.attestations.2 a ha
    exact hW.checkpoints x a hd

/-- **C63.** What the guest deserializes, the host deserializes to the same input: its words are not smaller. -/
theorem C63_host_agrees (W : WireExt) (hW : WireLaws W) (word word' : Nat) (hw : word ≤ word') (b : Bytes) (input : GuestInput)
    (h : decodeInput W word b = some input) : decodeInput W word' b = some input := by
  unfold decodeInput at h ⊢
  obtain ⟨r, hr, rfl⟩ := Option.map_eq_some_iff.1 h
  rw [larger_input hw hW _ _ hr]
  rfl

/-- **C63.** Nothing that is shorter than the serialization of an input and agrees with it is accepted, neither by the host
nor by the guest. -/
theorem C63_prefix_rejected (W : WireExt) (hW : WireLaws W) (word word' : Nat) (hlo : 32 < word) (hw : word ≤ 2 ^ 64)
    (hle : word' ≤ word) (input : GuestInput) (h : InputFits W word input) (n : Nat) (hn : n < (encodeInput W input).length) :
    decodeInput W word' ((encodeInput W input).take n) = none := by
  cases hd : readInput W word' ((encodeInput W input).take n) with
  | none => unfold decodeInput; rw [hd]; rfl
  | some p =>
    exfalso
    obtain ⟨i, rest⟩ := p
    have h1 := more_input hW word _ _ _ ((encodeInput W input).drop n) (larger_input hle hW _ _ hd)
    rw [List.take_append_drop] at h1
    have h2 := input_reads hW hw hlo h []
    rw [List.append_nil, h1] at h2
    simp only [Option.some.injEq, Prod.mk.injEq, List.append_eq_nil_iff] at h2
    have := congrArg List.length h2.2.2
    rw [List.length_drop, List.length_nil] at this
    omega

/-- The frame around the input, followed by anything. -/
theorem readFrame_append (b more : Bytes) (h : b.length < 2 ^ 32) :
    Frame.readFrame (Frame.encodeInputStdin b ++ more) = some b := by
  unfold Frame.readFrame Frame.encodeInputStdin
  have h4 : (leBytes 4 (b.length % 2 ^ 32)).length = 4 := leBytes_length 4 _
  rw [if_neg (by simp), List.append_assoc]
  simp only [List.take_left' h4, List.drop_left' h4, ofLE_leBytes]
  have : b.length % 2 ^ 32 % 256 ^ 4 = b.length := by omega
  rw [this, if_pos (by simp), List.take_left' rfl]

/-- What `readFrame` gives of a part of the file. -/
theorem readFrame_take (b : Bytes) (n : Nat) (x : Bytes)
    (h : Frame.readFrame ((Frame.encodeInputStdin b).take n) = some x) :
    4 + b.length % 2 ^ 32 ≤ n ∧ x = b.take (b.length % 2 ^ 32) := by
  unfold Frame.readFrame Frame.encodeInputStdin at h
  have h4 : (leBytes 4 (b.length % 2 ^ 32)).length = 4 := leBytes_length 4 _
  split at h
  · cases h
  · rename_i hlen
    rw [List.length_take, List.length_append, h4] at hlen
    have hn : 4 ≤ n := by omega
    have ht : (leBytes 4 (b.length % 2 ^ 32) ++ b).take n = leBytes 4 (b.length % 2 ^ 32) ++ b.take (n - 4) := by
      rw [List.take_append, h4, List.take_of_length_le (by omega)]
    simp only [ht, List.take_left' h4, List.drop_left' h4, ofLE_leBytes] at h
    have : b.length % 2 ^ 32 % 256 ^ 4 = b.length % 2 ^ 32 := by omega
    rw [this] at h
    split at h
    · rename_i hle
      rw [List.length_take] at hle
      refine ⟨by omega, ?_⟩
      simp only [Option.some.injEq] at h
      rw [← h, List.take_take, Nat.min_eq_left (by omega)]
    · cases h

section program
variable {ε : Type} (W : WireExt) (hW : WireLaws W) (X : Ext) (hlo : 32 < X.usizeMod) (hhi : X.usizeMod ≤ 2 ^ 64)
  (spec : ChainSpec) (cfg : Config) (input : GuestInput)

include hW hlo hhi in
/-- **C63.** The guest program, started with the file the host wrote, does what it does for the host's input; this needs the
input to be shorter than `2^32` bytes. -/
theorem C63_guest_reads (h : InputFits W X.usizeMod input) (hsize : (encodeInput W input).length < 2 ^ 32) (more : Bytes) :
    (guestMain W X spec cfg (Frame.encodeInputStdin (encodeInput W input) ++ more) : Res ε Bytes) =
      guestEntry X spec cfg input := by
  unfold guestMain
  rw [readFrame_append _ _ hsize]
  have := C63_round_trip W hW X.usizeMod hlo hhi input h []
  rw [List.append_nil] at this
  simp only [expect, Res.ok_bind, this]

include hW hhi in
/-- **C63 (crash points).** If the host is killed at any point while it writes the input file, the guest aborts on what is there. -/
theorem C63_truncated_file_aborts (word : Nat) (hw : X.usizeMod ≤ word) (hlo : 32 < word) (hw' : word ≤ 2 ^ 64)
    (h : InputFits W word input) (n : Nat) (hn : n < (Frame.encodeInputStdin (encodeInput W input)).length) :
    (guestMain W X spec cfg ((Frame.encodeInputStdin (encodeInput W input)).take n) : Res ε Bytes) = .panic := by
  unfold guestMain
  cases hf : Frame.readFrame ((Frame.encodeInputStdin (encodeInput W input)).take n) with
  | none => rfl
  | some x =>
    obtain ⟨h1, rfl⟩ := readFrame_take _ _ _ hf
    have hlen : (Frame.encodeInputStdin (encodeInput W input)).length = 4 + (encodeInput W input).length := by
      simp [Frame.encodeInputStdin]
    have := C63_prefix_rejected W hW word X.usizeMod hlo hw' hw input h ((encodeInput W input).length % 2 ^ 32) (by omega)
    simp only [expect, Res.ok_bind, this]
    rfl

include hW hhi in
/-- **C63.** If the input is too long for the frame, the guest aborts. -/
theorem C63_oversized_aborts (word : Nat) (hw : X.usizeMod ≤ word) (hlo : 32 < word) (hw' : word ≤ 2 ^ 64)
    (h : InputFits W word input) (hsize : 2 ^ 32 ≤ (encodeInput W input).length) :
    (guestMain W X spec cfg (Frame.encodeInputStdin (encodeInput W input)) : Res ε Bytes) = .panic := by
  unfold guestMain
  cases hf : Frame.readFrame (Frame.encodeInputStdin (encodeInput W input)) with
  | none => rfl
  | some x =>
    have e : (Frame.encodeInputStdin (encodeInput W input)).take (Frame.encodeInputStdin (encodeInput W input)).length =
      Frame.encodeInputStdin (encodeInput W input) := List.take_length
    rw [← e] at hf
    obtain ⟨-, rfl⟩ := readFrame_take _ _ _ hf
    have := C63_prefix_rejected W hW word X.usizeMod hlo hw' hw input h ((encodeInput W input).length % 2 ^ 32) (by omega)
    simp only [expect, Res.ok_bind, this]
    rfl

end program

/-- **C63.** Whatever bytes the guest program is started with: if it commits to a journal, the journal consists of the encodings of two
valid states and a slot, the second state strictly ahead of the first, and the host's reader of journals gives these two states. -/
theorem C63_any_stdin {ε : Type} (W : WireExt) (hW : WireLaws W) (X : Ext) (spec : ChainSpec) (cfg : Config) (stdin journal : Bytes)
    (h : (guestMain W X spec cfg stdin : Res ε Bytes) = .ok journal) :
    ∃ pre post slot, journal = Abi.encodeJournal pre post slot ∧ Abi.cliReadJournal journal = .ok (pre, post) ∧ slot < 2 ^ 64 ∧
      ValidState pre ∧ WfState pre ∧ ValidState post ∧ WfState post ∧ Ahead pre post := by
  unfold guestMain at h
  simp only [Res.bind_eq_ok] at h
  obtain ⟨frame, -, input, hi, he⟩ := h
  cases hd : decodeInput W X.usizeMod frame with
  | none => rw [hd] at hi; cases hi
  | some i =>
    rw [hd] at hi
    cases hi
    obtain ⟨-, ht⟩ := C63_decoded_fits W hW _ _ _ hd
    obtain ⟨post, slot, h1, h2, h3, h4, h5, h6, h7, -⟩ := journal_parts ht he
    exact ⟨_, post, slot, h1, h2, h3, h4, ht.state, h6, h5, h7⟩

/-! ## C64 -/

/-- **C64.** If the host's check with the virtual machine succeeds, the guest program commits, for exactly these bytes, to the given pre
state and to the returned post state. -/
theorem C64_checked (W : WireExt) (hW : WireLaws W) (Xh Xg : Ext) (spec : ChainSpec) (cfg : Config) (pre post : ConsensusState)
    (inputBytes : Bytes) (h : runVerify W Xh Xg spec cfg pre inputBytes true = .ok post) :
    ∃ slot, (guestMain W Xg spec cfg (Frame.encodeInputStdin inputBytes) : Res Empty Bytes) =
        .ok (Abi.encodeJournal pre post slot) ∧ slot < 2 ^ 64 ∧ WfState pre ∧ ValidState pre ∧ WfState post ∧ ValidState post ∧
      Ahead pre post := by
  unfold runVerify at h
  simp only [Res.bind_eq_ok, if_true, Res.mapErr_eq_ok, ensure_eq_ok, Res.pure_eq, Res.ok.injEq, Prod.exists,
    decide_eq_true_eq] at h
  obtain ⟨input, -, reader, -, post', slot', -, journal, hj, gpre, gpost, hr, -, rfl, -, rfl, rfl⟩ := h
  unfold executeGuest at hj
  cases hm : (guestMain W Xg spec cfg (Frame.encodeInputStdin inputBytes) : Res Empty Bytes) with
  | panic => rw [hm] at hj; cases hj
  | err e => exact nomatch e
  | ok j =>
    rw [hm] at hj
    cases hj
    obtain ⟨p, q, slot, h1, h2, h3, h4, h5, h6, h7, h8⟩ := C63_any_stdin W hW Xg spec cfg _ _ hm
    rw [h2] at hr
    cases hr
    exact ⟨slot, by rw [h1], h3, h5, h4, h7, h6, h8⟩

/-- **C64.** Without the virtual machine, success means that the host's own run of the verification over the deserialized input gave the
returned state; the given pre state plays no part. -/
theorem C64_native (W : WireExt) (Xh Xg : Ext) (spec : ChainSpec) (cfg : Config) (pre post : ConsensusState)
    (inputBytes : Bytes) : runVerify W Xh Xg spec cfg pre inputBytes false = .ok post ↔
      ∃ input reader slot, decodeInput W Xh.usizeMod inputBytes = some input ∧ input.intoReader Xh spec = .ok reader ∧
        verify Xh cfg reader.toReader = .ok (post, slot) := by
  unfold runVerify
  simp only [Res.bind_eq_ok, Res.mapErr_eq_ok, Bool.false_eq_true, if_false, Res.pure_eq, Res.ok.injEq, Prod.exists]
  constructor
  · rintro ⟨input, hi, reader, hr, post', slot, hv, rfl⟩
    refine ⟨input, reader, slot, ?_, hr, hv⟩
    cases hd : decodeInput W Xh.usizeMod inputBytes with
    | none => rw [hd] at hi; cases hi
    | some i => rw [hd] at hi; cases hi; rfl
  · rintro ⟨input, reader, slot, hi, hr, hv⟩
    exact ⟨input, by rw [hi]; rfl, reader, hr, post, slot, hv, rfl⟩

/-- What the check needs to succeed. -/
theorem runVerify_of {W : WireExt} {Xh Xg : Ext} {spec : ChainSpec} {cfg : Config} {pre post : ConsensusState} {inputBytes : Bytes}
    {input : GuestInput} {reader : GuestReader} {slot : Nat} {journal : Bytes}
    (hd : decodeInput W Xh.usizeMod inputBytes = some input) (hr : input.intoReader Xh spec = .ok reader)
    (hv : verify Xh cfg reader.toReader = .ok (post, slot))
    (hm : (guestMain W Xg spec cfg (Frame.encodeInputStdin inputBytes) : Res Empty Bytes) = .ok journal)
    (hj : Abi.cliReadJournal journal = .ok (pre, post)) (r0vm : Bool) :
    runVerify W Xh Xg spec cfg pre inputBytes r0vm = .ok post := by
  unfold runVerify executeGuest
  rw [hm]
  simp only [hd, okOr, Res.ok_bind, hr, Res.mapErr, hv, hj]
  cases r0vm <;> simp [ensure]

section pipeline
variable (W : WireExt) (hW : WireLaws W) (X : Ext) (order : List Nat → List Nat) (ho : ∀ l, (order l).Perm l)
  (hcap : 126 ≤ X.stackCapacity)
variable {cfg : Config} {r : HostReader} {trusted : Checkpoint} {st : HostState} {input : GuestInput}
  {pre post : ConsensusState} {slot : Nat}

include hW ho hcap

omit ho hcap in
/-- If the guest program succeeds on a part of the input file, that part is the whole file and it has read the input. -/
theorem guestMain_take (spec : ChainSpec) (word capacity : Nat) (hlo : 32 < X.usizeMod) (hhi : X.usizeMod ≤ 2 ^ 64) (hle : word ≤ X.usizeMod)
    (hfits : InputFits W X.usizeMod input) (n : Nat) (journal : Bytes) {ε : Type}
    (hj : (guestMain W (onMachine X word capacity) spec cfg
      ((Frame.encodeInputStdin (encodeInput W input)).take n) : Res ε Bytes) = .ok journal) :
    (guestEntry (onMachine X word capacity) spec cfg input : Res ε Bytes) = .ok journal := by
  unfold guestMain at hj
  simp only [Res.bind_eq_ok] at hj
  obtain ⟨x, hx, input', hi, he⟩ := hj
  cases hrf : Frame.readFrame ((Frame.encodeInputStdin (encodeInput W input)).take n) with
  | none => rw [hrf] at hx; cases hx
  | some y =>
    rw [hrf] at hx
    cases hx
    obtain ⟨-, rfl⟩ := readFrame_take _ _ _ hrf
    cases hd : decodeInput W (onMachine X word capacity).usizeMod
        ((encodeInput W input).take ((encodeInput W input).length % 2 ^ 32)) with
    | none => rw [hd] at hi; cases hi
    | some i =>
      rw [hd] at hi
      cases hi
      by_cases hlt : (encodeInput W input).length % 2 ^ 32 < (encodeInput W input).length
      · have := C63_prefix_rejected W hW X.usizeMod word hlo hhi hle input hfits _ hlt
        rw [show (onMachine X word capacity).usizeMod = word from rfl, this] at hd
        cases hd
      · rw [List.take_of_length_le (by omega)] at hd
        have h1 := C63_host_agrees W hW word X.usizeMod hle _ _ hd
        have h2 := C63_round_trip W hW X.usizeMod hlo hhi input hfits []
        rw [List.append_nil, h1] at h2
        cases h2
        exact he

/-- **C63, C62, C61.** The two files the host writes belong together: the guest program, started with the input file or with any part of it
that was written before the host was killed, aborts or commits to the content of the journal file. -/
theorem C63_files_agree (word capacity : Nat) (hlo : 32 < X.usizeMod) (hhi : X.usizeMod ≤ 2 ^ 64) (hle : word ≤ X.usizeMod)
    (hroom : 126 ≤ capacity) (hk : KeepsLength X) (ht : TrustedState X r trusted st)
    (hc : Consistent X r trusted st (verifyQueries X r.spec r.attestations post.finalized.root))
    (hf : ∀ a ∈ r.attestations, ∀ l, r.activeValidators a.data.target.epoch = .ok l →
      FitsWord X.usizeMod r.spec l ∧ FitsWord word r.spec l)
    (h : preflight X order cfg r trusted = .ok (input, pre, post, slot)) (hfits : InputFits W X.usizeMod input) (n : Nat)
    (journal : Bytes) {ε : Type}
    (hj : (guestMain W (onMachine X word capacity) r.spec cfg
      ((Frame.encodeInputStdin (encodeInput W input)).take n) : Res ε Bytes) = .ok journal) :
    journal = Abi.encodeJournal pre post slot := by
  have he := guestMain_take W hW X r.spec word capacity hlo hhi hle hfits n journal hj
  exact C62_same_journal_or_abort X order ho hcap word capacity hroom hk ht hc hf h journal he

/-- The stacks of the input's proofs fit both machines. -/
theorem preflight_intoReader (word capacity : Nat) (hroom : 126 ≤ capacity) (hk : KeepsLength X) (ht : TrustedState X r trusted st)
    (hc : Consistent X r trusted st (verifyQueries X r.spec r.attestations post.finalized.root))
    (hf : ∀ a ∈ r.attestations, ∀ l, r.activeValidators a.data.target.epoch = .ok l →
      FitsWord X.usizeMod r.spec l ∧ FitsWord word r.spec l)
    (h : preflight X order cfg r trusted = .ok (input, pre, post, slot)) :
    input.intoReader (onMachine X word capacity) r.spec = input.intoReader X r.spec := by
  have depth : ∀ (Y : Ext) (q : List Query), InputFor Y r trusted st q input → ∀ p ∈ input.proofs, p.maxStackDepth ≤ Y.stackCapacity := by
    intro Y q hi p hp
    simp only [GuestInput.proofs, List.mem_append, List.mem_cons, List.not_mem_nil, or_false] at hp
    rcases hp with (rfl | rfl | rfl) | hp
    · exact calculateRoot_hint _ (verify_calculateRoot hi.block)
    · exact calculateRoot_hint _ (verify_calculateRoot hi.state)
    · exact calculateRoot_hint _ (verify_calculateRoot hi.registry)
    · obtain ⟨roots, -, h2⟩ := hi.slots
      obtain ⟨root, -, h3⟩ := forall₂_mem_right h2 hp
      exact calculateRoot_hint _ (verify_calculateRoot h3.verifies)
  obtain ⟨hq, h'⟩ := preflight_machine X order ho hcap word capacity hroom hk ht hc hf h
  obtain ⟨-, -, log, hl, hi⟩ := preflight_parts X order ht h
  obtain ⟨-, -, log', hl', hi'⟩ := preflight_parts (onMachine X word capacity) order ht.machine h'
  rw [hq] at hl'
  exact intoReader_machine (depth X _ (inputFor_of_toInput X order ho hcap ht hc hl hi))
    (depth _ _ (inputFor_of_toInput (onMachine X word capacity) order ho hroom ht.machine hc.machine hl' hi'))

/-- **C64, C61.** The host's check of an input it has built succeeds, with and without the virtual machine, and gives the state the
preflight announced, if no active validator's balance has changed and the patches of the input are accepted. -/
theorem C64_complete (word capacity : Nat) (hlo : 32 < word) (hhi : X.usizeMod ≤ 2 ^ 64) (hle : word ≤ X.usizeMod)
    (hroom : 126 ≤ capacity) (hk : KeepsLength X) (ht : TrustedState X r trusted st)
    (hc : Consistent X r trusted st (verifyQueries X r.spec r.attestations post.finalized.root))
    (hf : ∀ a ∈ r.attestations, ∀ l, r.activeValidators a.data.target.epoch = .ok l →
      FitsWord X.usizeMod r.spec l ∧ FitsWord word r.spec l)
    (h : preflight X order cfg r trusted = .ok (input, pre, post, slot))
    (hbal : ∀ a ∈ r.attestations, ∀ s, r.state a.data.target.epoch = .ok s →
      ∀ (i : Nat) (v w : Validator), st.beacon.validators[i]? = some v → s.beacon.validators[i]? = some w →
        w.activeAt a.data.target.epoch → w.effectiveBalance = v.effectiveBalance)
    (hacc : ∃ g, input.intoReader X r.spec = .ok g) (hfits : InputFits W word input)
    (hsize : (encodeInput W input).length < 2 ^ 32) (r0vm : Bool) :
    runVerify W X (onMachine X word capacity) r.spec cfg pre (encodeInput W input) r0vm = .ok post := by
  have hmach := preflight_intoReader W hW X order ho hcap word capacity hroom hk ht hc hf h
  have hg := C62_same_journal X order ho hcap word capacity hroom hk ht hc hf h hbal (by rw [hmach]; exact hacc) (ε := Empty)
  have hdec := C63_round_trip W hW word hlo (by omega) input hfits []
  rw [List.append_nil] at hdec
  have hdec' := C63_host_agrees W hW word X.usizeMod hle _ _ hdec
  have htyped := (C63_decoded_fits W hW _ _ _ hdec).2
  have hmain := C63_guest_reads (ε := Empty) W hW (onMachine X word capacity) hlo (show word ≤ _ by omega) r.spec cfg input hfits hsize []
  rw [List.append_nil, hg] at hmain
  obtain ⟨-, hpre, -⟩ := preflight_parts X order ht h
  -- the host's own run
  have hhost := C61_same_journal X order ho hcap ht hc h hbal hacc (ε := Empty)
  obtain ⟨reader, post', slot', hr, hv, -⟩ := guestEntry_eq_ok hhost
  obtain ⟨hv0, -⟩ := preflight_parts X order ht h
  obtain ⟨v1, v2⟩ := guest_sameView X order ho hcap ht hc h hr
  obtain ⟨_, _, _, _, _, _, hu, _⟩ := C61_verdict_iff X cfg _ _ post slot hv0 v1 v2
  cases hu _ hv
  obtain ⟨hread, -⟩ := verified_parts htyped hr hv
  rw [← hpre] at hread
  exact runVerify_of hdec' hr hv hmain hread r0vm

end pipeline

/-! ## Concrete cases -/

/-- One byte per bit. -/
def exBit : Decoder Bool := do
  let x ← take 1
  return decide (x = [1])

def exDecodeBits (word : Nat) : Decoder (List Bool) := do
  let n ← decodeU64
  check (decide (8 * n < word))
  decodeN exBit n

/-- A concrete format: a bit vector is its length and one byte per bit, an attestation is its place in the list of the example's votes. -/
def exWire : WireExt where
  encodeBits := encodeSeq fun b => [if b then 1 else 0]
  decodeBits := fun word => exDecodeBits word
  encodeAttestation := fun a => [UInt8.ofNat (gxVotes.idxOf a)]
  decodeAttestation := fun b => match b with
    | [i] => gxVotes[i.toNat]?
    | _ => none
  keyValid := fun _ => true

theorem exBit_reads (b : Bool) (rest : Bytes) : exBit ([if b then 1 else 0] ++ rest) = some (b, rest) := by
  unfold exBit
  rw [bind_reads (take_reads [if b then 1 else 0] rest (n := 1) rfl), pure_apply]
  cases b <;> rfl

theorem more_exBit : More exBit := more_bind (more_take _) (fun _ => more_pure _)

theorem gxVotes_table : ∀ i : Nat, i < gxVotes.length → ∀ a, gxVotes[i]? = some a →
    gxVotes[(UInt8.ofNat (gxVotes.idxOf a)).toNat]? = some a ∧ WfCheckpoint a.data.source ∧ WfCheckpoint a.data.target := by
  intro i hi a ha
  have hm : a ∈ gxVotes := List.mem_of_getElem? ha
  have hl : gxVotes.length = 9 := by decide
  have hx := List.idxOf_lt_length_iff.2 hm
  refine ⟨?_, ?_⟩
  · have : (UInt8.ofNat (gxVotes.idxOf a)).toNat = gxVotes.idxOf a := by
      simp only [UInt8.toNat_ofNat']
      omega
    rw [this]
    exact (List.getElem?_eq_getElem hx).trans (by rw [List.getElem_idxOf])
  · have h4 : WfCheckpoint exC4 := ⟨by decide, by decide⟩
    have h6 : WfCheckpoint gxC6 := ⟨by decide, exExt.sha256_length _⟩
    have h7 : WfCheckpoint exC7 := ⟨by decide, by decide⟩
    unfold gxVotes at hm
    simp only [List.mem_cons, List.not_mem_nil, or_false] at hm
    rcases hm with rfl | rfl | rfl | rfl | rfl | rfl | rfl | rfl | rfl
    · exact ⟨h4, h6⟩
    · exact ⟨h4, h6⟩
    · exact ⟨h4, h6⟩
    · exact ⟨h4, h6⟩
    · exact ⟨h6, h7⟩
    · exact ⟨h6, h7⟩
    · exact ⟨h6, h7⟩
    · exact ⟨h6, h7⟩
    · exact ⟨h6, h7⟩

theorem exWire_attestation {b : Bytes} {a : Attestation} (h : exWire.decodeAttestation b = some a) :
    b.length = 1 ∧ gxVotes[(UInt8.ofNat (gxVotes.idxOf a)).toNat]? = some a ∧ WfCheckpoint a.data.source ∧ WfCheckpoint a.data.target := by
  match b, h with
  | [i], h =>
    have h' : gxVotes[i.toNat]? = some a := h
    exact ⟨rfl, gxVotes_table _ (List.getElem?_eq_some_iff.1 h').1 a h'⟩

theorem exBits_fits (word : Nat) : Gives (exDecodeBits word) (fun l => 8 * l.length < word) :=
  gives_bind gives_u64 fun _ _ => gives_bind (gives_check _) fun _ hc b x rest h => by
    have := gives_decodeN (P := fun _ => True) (fun _ _ _ _ => trivial) _ _ _ _ h
    simp only [decide_eq_true_eq] at hc
    rw [this.1]
    exact hc

theorem exWire_laws : WireLaws exWire where
  bits := by
    intro word l rest hw h
    show exDecodeBits word (encodeSeq _ l ++ rest) = _
    unfold exDecodeBits encodeSeq
    rw [List.append_assoc, bind_reads (u64_reads (by omega) _), bind_reads (check_reads (by simpa using h) _),
      decodeN_reads l (fun x _ => exBit_reads x)]
  bits_fit := fun word b l rest h => exBits_fits word b l rest h
  bits_more := fun word b l rest more h =>
    (more_bind more_u64 fun _ => more_bind (more_check _) fun _ => more_decodeN more_exBit _ : More (exDecodeBits word)) b l rest more h
  bits_larger := fun word word' b r hw h =>
    (larger_bind (larger_refl _) fun _ => larger_bind (larger_check fun hc => by
      simp only [decide_eq_true_eq] at hc ⊢; omega) fun _ => larger_refl _ : Larger (exDecodeBits word) (exDecodeBits word')) b r h
  attestation := by
    intro b a h
    obtain ⟨h1, h2, -⟩ := exWire_attestation h
    exact ⟨h2, by rw [h1]; exact Nat.le_refl 1⟩
  checkpoints := fun b a h => (exWire_attestation h).2.2

set_option maxRecDepth 100000 in
theorem gxInput_fits : InputFits exWire (2 ^ 32) gxInput where
  beaconBlock := ⟨by decide +kernel, by decide +kernel, by decide +kernel, by decide +kernel⟩
  beaconState := ⟨by decide +kernel, by decide +kernel, by decide +kernel, by decide +kernel⟩
  activeValidators := ⟨by decide +kernel, by decide +kernel, by decide +kernel, by decide +kernel⟩
  keysCount := by decide +kernel
  keys := by decide +kernel
  patchesSorted := by decide +kernel
  patchesCount := by decide +kernel
  patches := by
    intro x hx
    have hx' : x ∈ gxPatches := hx
    unfold gxPatches at hx'
    simp only [List.mem_cons, List.not_mem_nil, or_false] at hx'
    rcases hx' with rfl | rfl
    · exact ⟨by decide, by decide, by decide, by decide, by decide, by decide, by decide⟩
    · exact ⟨by decide, by decide, by decide, by decide, by decide, by decide, by decide⟩
  state := ⟨⟨by decide, by decide⟩, ⟨by decide, exExt.sha256_length _⟩⟩
  attestationsCount := by decide +kernel
  attestations := fun a ha => by
    obtain ⟨i, hi, rfl⟩ := List.getElem_of_mem ha
    exact ⟨(by decide : 1 < 2 ^ 32), (gxVotes_table i hi _ (List.getElem?_eq_getElem hi)).1⟩
  slotProofsCount := by decide +kernel
  slotProofs := by
    intro p hp
    rw [List.mem_singleton.1 hp]
    exact ⟨by decide +kernel, by decide +kernel, by decide +kernel, by decide +kernel⟩

set_option maxRecDepth 100000 in
theorem gxInput_size : (encodeInput exWire gxInput).length < 2 ^ 32 := by decide +kernel

theorem gxInput_runs {ε : Type} : (guestEntry exExt exSpec Config.default gxInput : Res ε Bytes) =
    .ok (Abi.encodeJournal ⟨exC4, gxC3⟩ ⟨exC7, gxC6⟩ 24) := by
  unfold guestEntry
  rw [gxInput_reader]
  simp only [Res.unwrap, Res.ok_bind, gxReader_verifies]
  rfl

/-- C63: the guest program on a concrete file commits to the journal. -/
theorem gxInput_main {ε : Type} : (guestMain exWire exExt exSpec Config.default
    (Frame.encodeInputStdin (encodeInput exWire gxInput)) : Res ε Bytes) =
      .ok (Abi.encodeJournal ⟨exC4, gxC3⟩ ⟨exC7, gxC6⟩ 24) := by
  have := C63_guest_reads (ε := ε) exWire exWire_laws exExt (by decide) (by decide) exSpec Config.default gxInput gxInput_fits
    gxInput_size []
  rw [List.append_nil, gxInput_runs] at this
  exact this

/-- C63: every part of this file makes the guest abort. -/
example (n : Nat) (hn : n < (Frame.encodeInputStdin (encodeInput exWire gxInput)).length) :
    (guestMain exWire exExt exSpec Config.default ((Frame.encodeInputStdin (encodeInput exWire gxInput)).take n) : Res Unit Bytes) =
      .panic :=
  C63_truncated_file_aborts exWire exWire_laws exExt (by decide) exSpec Config.default gxInput (2 ^ 32) (by decide) (by decide)
    (by decide) gxInput_fits n hn

theorem gxInput_decoded : decodeInput exWire exExt.usizeMod (encodeInput exWire gxInput) = some gxInput := by
  have hd := C63_round_trip exWire exWire_laws exExt.usizeMod (by decide) (by decide) gxInput gxInput_fits []
  rwa [List.append_nil] at hd

theorem gxInput_journal : Abi.cliReadJournal (Abi.encodeJournal ⟨exC4, gxC3⟩ ⟨exC7, gxC6⟩ 24) =
    .ok (⟨exC4, gxC3⟩, ⟨exC7, gxC6⟩) :=
  (verified_parts (C63_decoded_fits exWire exWire_laws _ _ _ gxInput_decoded).2 gxInput_reader gxReader_verifies).1

/-- C64: the host's check of this input succeeds, and C64_checked applies to it. -/
theorem gxInput_checked (r0vm : Bool) :
    runVerify exWire exExt exExt exSpec Config.default ⟨exC4, gxC3⟩ (encodeInput exWire gxInput) r0vm = .ok ⟨exC7, gxC6⟩ :=
  runVerify_of gxInput_decoded gxInput_reader gxReader_verifies gxInput_main gxInput_journal r0vm

/-- C64: with another pre state the check fails. -/
example (post : ConsensusState) :
    runVerify exWire exExt exExt exSpec Config.default ⟨exC6, exC4⟩ (encodeInput exWire gxInput) true ≠ .ok post := by
  intro h
  obtain ⟨slot, h1, h2, h3, h4, h5, h6, -⟩ := C64_checked exWire exWire_laws _ _ _ _ _ _ _ h
  obtain ⟨slot', k1, k2, k3, k4, k5, k6, -⟩ := C64_checked exWire exWire_laws _ _ _ _ _ _ _ (gxInput_checked true)
  rw [k1] at h1
  have := (C07_journal_injective _ _ _ _ _ _ k3 k4 k5 k6 h3 h4 h5 h6 k2 h2 (Res.ok.inj h1)).1
  exact absurd (congrArg (fun s => s.currentJustified.epoch) this) (by decide)

end Signal
