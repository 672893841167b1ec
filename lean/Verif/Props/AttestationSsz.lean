import Verif.Proofs.AttestationSsz
import Verif.Props.Size

/-!
# C75: the byte form of attestations
-/

namespace Signal
open Spec Wire

/-- **C75.** The decoder accepts exactly the SSZ forms of attestations, and reads the value they stand for. -/
theorem C75_reads_iff (sigValid : Bytes → Bool) (b : Bytes) (a : Attestation) :
    Ssz.decodeAttestation sigValid b = some a ↔ SszAttestation sigValid a b := by
  cases b with
  | nil =>
    constructor
    · intro h; cases h
    · intro h; cases a <;> obtain ⟨_, _, h⟩ := h <;> cases h
  | cons sel b =>
    unfold Ssz.decodeAttestation
    dsimp only
    by_cases h0 : sel = 0
    · subst h0
      rw [if_pos rfl]
      cases a with
      | base a => simp [SszAttestation, Ssz.decodeBase_iff]
      | electra a => simp [SszAttestation]
    · rw [if_neg h0]
      by_cases h1 : sel = 1
      · subst h1
        rw [if_pos rfl]
        cases a with
        | base a => simp [SszAttestation]
        | electra a => simp [SszAttestation, Ssz.decodeElectra_iff]
      · rw [if_neg h1]
        cases a with
        | base a => simp [SszAttestation, h0]
        | electra a => simp [SszAttestation, h1]

/-- The encoder writes the SSZ form. -/
theorem encodeElectra_spec (sigValid : Bytes → Bool) (a : AttestationElectra) (h : WfElectra a) (hs : sigValid a.signature = true) :
    SszElectra sigValid a (Ssz.encodeElectra a) :=
  ⟨Ssz.encodeData a.data, Ssz.encodeBitvector a.committeeBits, Ssz.encodeBitlist a.aggregationBits,
    ⟨h.slot, h.index, h.root, h.source, h.target, rfl⟩, h.signature, hs, Ssz.encodeBitvector_spec _ h.committeeBits,
    Ssz.encodeBitlist_spec _ h.aggregationBits, rfl⟩

theorem encodeBase_spec (sigValid : Bytes → Bool) (a : AttestationBase) (h : WfBase a) (hs : sigValid a.signature = true) :
    SszBase sigValid a (Ssz.encodeBase a) :=
  ⟨Ssz.encodeData a.data, Ssz.encodeBitlist a.aggregationBits,
    ⟨h.slot, h.index, h.root, h.source, h.target, rfl⟩, h.signature, hs, Ssz.encodeBitlist_spec _ h.aggregationBits, rfl⟩

theorem sszElectra_wf {sigValid : Bytes → Bool} {a : AttestationElectra} {b : Bytes} (h : SszElectra sigValid a b) :
    WfElectra a ∧ sigValid a.signature = true := by
  obtain ⟨d, c, g, hd, hs, hv, hc, hg, -⟩ := h
  exact ⟨⟨hd.slot, hd.index, hd.root, hd.source, hd.target, hc.count, hg.limit, hs⟩, hv⟩

theorem sszBase_wf {sigValid : Bytes → Bool} {a : AttestationBase} {b : Bytes} (h : SszBase sigValid a b) :
    WfBase a ∧ sigValid a.signature = true := by
  obtain ⟨d, g, hd, hs, hv, hg, -⟩ := h
  exact ⟨⟨hd.slot, hd.index, hd.root, hd.source, hd.target, hg.limit, hs⟩, hv⟩

theorem sszElectra_unique {sigValid : Bytes → Bool} {a : AttestationElectra} {b b' : Bytes} (h : SszElectra sigValid a b)
    (h' : SszElectra sigValid a b') : b = b' := by
  obtain ⟨d, c, g, hd, -, -, hc, hg, rfl⟩ := h
  obtain ⟨d', c', g', hd', -, -, hc', hg', rfl⟩ := h'
  rw [hd.bytes, hd'.bytes, Ssz.SszBitvector.unique hc hc', Ssz.SszBitlist.unique hg hg']

theorem sszBase_unique {sigValid : Bytes → Bool} {a : AttestationBase} {b b' : Bytes} (h : SszBase sigValid a b)
    (h' : SszBase sigValid a b') : b = b' := by
  obtain ⟨d, g, hd, -, -, hg, rfl⟩ := h
  obtain ⟨d', g', hd', -, -, hg', rfl⟩ := h'
  rw [hd.bytes, hd'.bytes, Ssz.SszBitlist.unique hg hg']

/-- A value of the Rust type whose signature is accepted. -/
def Spec.WfAttestation (sigValid : Bytes → Bool) : Attestation → Prop
  | .base a => WfBase a ∧ sigValid a.signature = true
  | .electra a => WfElectra a ∧ sigValid a.signature = true

/-- **C75.** Every attestation is read back as it was written. -/
theorem C75_round_trip (sigValid : Bytes → Bool) (a : Attestation) (h : WfAttestation sigValid a) :
    Ssz.decodeAttestation sigValid (Ssz.encodeAttestation a) = some a := by
  rw [C75_reads_iff]
  cases a with
  | base a => exact ⟨_, encodeBase_spec sigValid a h.1 h.2, rfl⟩
  | electra a => exact ⟨_, encodeElectra_spec sigValid a h.1 h.2, rfl⟩

/-- **C75.** Every byte string that is accepted is the one the encoder writes for its value; the value is one of the Rust type. So no two
byte strings stand for the same attestation. -/
theorem C75_canonical (sigValid : Bytes → Bool) (b : Bytes) (a : Attestation) (h : Ssz.decodeAttestation sigValid b = some a) :
    Ssz.encodeAttestation a = b ∧ WfAttestation sigValid a := by
  rw [C75_reads_iff] at h
  cases a with
  | base a =>
    obtain ⟨b', hb, rfl⟩ := h
    obtain ⟨h1, h2⟩ := sszBase_wf hb
    exact ⟨by rw [Ssz.encodeAttestation, sszBase_unique (encodeBase_spec sigValid a h1 h2) hb], h1, h2⟩
  | electra a =>
    obtain ⟨b', hb, rfl⟩ := h
    obtain ⟨h1, h2⟩ := sszElectra_wf hb
    exact ⟨by rw [Ssz.encodeAttestation, sszElectra_unique (encodeElectra_spec sigValid a h1 h2) hb], h1, h2⟩

/-- **C75.** Different attestations are written differently. -/
theorem C75_injective (sigValid : Bytes → Bool) (a a' : Attestation) (h : WfAttestation sigValid a) (h' : WfAttestation sigValid a')
    (he : Ssz.encodeAttestation a = Ssz.encodeAttestation a') : a = a' := by
  have h1 := C75_round_trip sigValid a h
  rw [he, C75_round_trip sigValid a' h'] at h1
  cases h1; rfl

/-- **C75.** The conversion of an attestation the node has sent changes nothing, and fails exactly if its signature is not accepted. -/
theorem C75_conversion (sigValid : Bytes → Bool) (a : AttestationElectra) (h : WfElectra a) :
    Ssz.tryAsBeaconType sigValid a = if sigValid a.signature = true then some (.electra a) else none := by
  unfold Ssz.tryAsBeaconType
  split
  · rename_i hs
    rw [(Ssz.decodeElectra_iff _ _ _).2 (encodeElectra_spec sigValid a h hs)]
    rfl
  · rename_i hs
    cases hd : Ssz.decodeElectra sigValid (Ssz.encodeElectra a) with
    | none => rfl
    | some a' =>
      exfalso
      obtain ⟨h1, h2⟩ := sszElectra_wf ((Ssz.decodeElectra_iff _ _ _).1 hd)
      have e1 := sszElectra_unique (encodeElectra_spec (fun _ => true) a' h1 rfl) (sszElectra_true ((Ssz.decodeElectra_iff _ _ _).1 hd))
      have e2 := C75_injective (fun _ => true) (.electra a) (.electra a') ⟨h, rfl⟩ ⟨h1, rfl⟩ (by
        show 1 :: Ssz.encodeElectra a = 1 :: Ssz.encodeElectra a'
        rw [e1])
      cases e2
      exact hs h2
where
  sszElectra_true {sigValid : Bytes → Bool} {a : AttestationElectra} {b : Bytes} (h : SszElectra sigValid a b) :
      SszElectra (fun _ => true) a b := by
    obtain ⟨d, c, g, hd, hs, -, hc, hg, e⟩ := h
    exact ⟨d, c, g, hd, hs, rfl, hc, hg, e⟩

/-- **C75.** An attestation takes between 238 and 16622 bytes. -/
theorem C75_size (a : AttestationElectra) (h : WfElectra a) :
    (Ssz.encodeAttestation (.electra a)).length = 238 + a.aggregationBits.length / 8 ∧
      (Ssz.encodeAttestation (.electra a)).length ≤ 16622 := by
  have e : (Ssz.encodeAttestation (.electra a)).length = 238 + a.aggregationBits.length / 8 := by
    simp [Ssz.encodeAttestation, Ssz.encodeElectra, Ssz.encodeData, Ssz.encodeCheckpoint, Ssz.encodeBitvector, Ssz.encodeBitlist,
      h.root, h.source.2, h.target.2, h.signature]
    omega
  have := h.aggregationBits
  exact ⟨e, by omega⟩

/-! ## What the other modules assume of the format -/

/-- A format whose attestations are in SSZ. -/
def Ssz.wire (W : WireExt) (sigValid : Bytes → Bool) : WireExt :=
  { W with encodeAttestation := Ssz.encodeAttestation, decodeAttestation := Ssz.decodeAttestation sigValid }

/-- **C75.** With attestations in SSZ, what the other theorems assume of the format is needed of bit vectors only. -/
theorem C75_wire_laws (W : WireExt) (sigValid : Bytes → Bool)
    (bits : ∀ word l rest, word ≤ 2 ^ 64 → 8 * l.length < word → W.decodeBits word (W.encodeBits l ++ rest) = some (l, rest))
    (bits_fit : ∀ word b l rest, W.decodeBits word b = some (l, rest) → 8 * l.length < word)
    (bits_more : ∀ word b l rest more, W.decodeBits word b = some (l, rest) → W.decodeBits word (b ++ more) = some (l, rest ++ more))
    (bits_larger : ∀ word word' b r, word ≤ word' → W.decodeBits word b = some r → W.decodeBits word' b = some r) :
    WireLaws (Ssz.wire W sigValid) where
  bits := bits
  bits_fit := bits_fit
  bits_more := bits_more
  bits_larger := bits_larger
  attestation := by
    intro b a h
    have h : Ssz.decodeAttestation sigValid b = some a := h
    obtain ⟨h1, h2⟩ := C75_canonical sigValid b a h
    exact ⟨C75_round_trip sigValid a h2, by show (Ssz.encodeAttestation a).length ≤ _; rw [h1]⟩
  checkpoints := by
    intro b a h
    have h : Ssz.decodeAttestation sigValid b = some a := h
    obtain ⟨h1, h2⟩ := C75_canonical sigValid b a h
    cases a with
    | base a => exact ⟨h2.1.source, h2.1.target⟩
    | electra a => exact ⟨h2.1.source, h2.1.target⟩

/-- **C75, C65.** The input the preflight has made, with attestations the conversion has returned, from at most `2^22` validators and
a hundred thousand attestations, is below `2^32` bytes, so its length fits the frame and the guest reads it as the host wrote it. -/
theorem C75_shipped (W : WireExt) (sigValid : Bytes → Bool) (hW : WireLaws (Ssz.wire W sigValid)) (X : Ext) (order : List Nat → List Nat)
    (ho : ∀ l, (order l).Perm l) (hcap : 126 ≤ X.stackCapacity) {cfg : Config} {r : HostReader} {trusted : Checkpoint} {st : HostState}
    {input : GuestInput} {pre post : ConsensusState} {slot : Nat} (ht : TrustedState X r trusted st)
    (hc : Consistent X r trusted st (verifyQueries X r.spec r.attestations post.finalized.root))
    (h : preflight X order cfg r trusted = .ok (input, pre, post, slot)) (hwf : WfHost (Ssz.wire W sigValid) r)
    (hbits : ∀ l, (W.encodeBits l).length ≤ l.length + 64) (hcfg : cfg.epochLookaheadLimit ≤ 4)
    (hV : st.beacon.validators.length ≤ 2 ^ 22)
    (hconv : ∀ a ∈ r.attestations, ∃ n, WfElectra n ∧ Ssz.tryAsBeaconType sigValid n = some a)
    (hcount : r.attestations.length ≤ 100000) :
    InputFits (Ssz.wire W sigValid) (2 ^ 32) input ∧ (encodeInput (Ssz.wire W sigValid) input).length < 2 ^ 32 := by
  refine C65_shipped (Ssz.wire W sigValid) hW X order ho hcap ht hc h hwf hbits hcfg hV 16622 ?_ (by omega)
  intro a ha
  obtain ⟨n, hn, e⟩ := hconv a ha
  rw [C75_conversion sigValid n hn] at e
  split at e
  · cases e; exact (C75_size n hn).2
  · cases e

/-! ## Concrete cases -/

theorem exVote_wf {slot : Nat} {source target : Checkpoint} {signers : List Nat} (h1 : slot < 2 ^ 64) (h2 : WfCheckpoint source)
    (h3 : WfCheckpoint target) (h4 : signers.length ≤ 20) : ∃ e, exVote slot source target signers = .electra e ∧ WfElectra e := by
  refine ⟨_, rfl, ⟨h1, show 0 < 2 ^ 64 by decide, show (List.replicate 32 (0 : UInt8)).length = 32 by decide, h2, h3,
    show ([true, true] ++ List.replicate 62 false).length = 64 by decide, by simp; omega, ?_⟩⟩
  have hl : ∀ d dom, (exSpec.signingRoot d dom).length = 32 := by
    intro d dom
    show (Signing.signingRoot toyHash d dom).length = 32
    unfold Signing.signingRoot Signing.signingData
    rw [Signing.merkleize, if_neg (by simp)]
    exact exExt.sha256_length _
  simp only [padSig, List.length_append, List.length_replicate, List.length_map, hl]
  omega

theorem gxVotes_wf : ∀ a ∈ gxVotes, ∃ e, a = .electra e ∧ WfElectra e := by
  have h4 : WfCheckpoint exC4 := ⟨by decide, by decide⟩
  have h6 : WfCheckpoint gxC6 := ⟨by decide, exExt.sha256_length _⟩
  have h7 : WfCheckpoint exC7 := ⟨by decide, by decide⟩
  intro a hm
  unfold gxVotes at hm
  simp only [List.mem_cons, List.not_mem_nil, or_false] at hm
  rcases hm with rfl | rfl | rfl | rfl | rfl | rfl | rfl | rfl | rfl <;>
    exact exVote_wf (by decide) (by assumption) (by assumption) (by decide)

/-- The example's votes are read back. -/
theorem gxVotes_read : ∀ a ∈ gxVotes, Ssz.decodeAttestation (fun _ => true) (Ssz.encodeAttestation a) = some a := by
  intro a ha
  obtain ⟨e, rfl, he⟩ := gxVotes_wf a ha
  exact C75_round_trip (fun _ => true) (.electra e) ⟨he, rfl⟩

set_option maxRecDepth 100000 in
/-- Rejected: a vote without its last byte, with one more, with an unknown selector, or with a signature that is not accepted. -/
example : (Ssz.encodeAttestation (exVote 24 exC4 exC6 [0, 1])).length = 238 ∧
    Ssz.decodeAttestation (fun _ => true) ((Ssz.encodeAttestation (exVote 24 exC4 exC6 [0, 1])).take 237) = none ∧
    Ssz.decodeAttestation (fun _ => true) (Ssz.encodeAttestation (exVote 24 exC4 exC6 [0, 1]) ++ [0]) = none ∧
    Ssz.decodeAttestation (fun _ => true) (2 :: (Ssz.encodeAttestation (exVote 24 exC4 exC6 [0, 1])).tail) = none ∧
    Ssz.decodeAttestation (fun _ => false) (Ssz.encodeAttestation (exVote 24 exC4 exC6 [0, 1])) = none := by decide +kernel

/-- Bits one, zero, one and the delimiter. -/
example : SszBitlist 131072 [true, false, true] [13] ∧ Ssz.encodeBitlist [true, false, true] = [13] :=
  ⟨(Ssz.decodeBitlist_iff _ _ _).1 (by decide +kernel), by decide⟩

theorem szWire_laws : WireLaws (Ssz.wire exWire (fun _ => true)) :=
  C75_wire_laws exWire _ exWire_laws.bits exWire_laws.bits_fit exWire_laws.bits_more exWire_laws.bits_larger

theorem szHost_converted : ∀ a ∈ fxHost.attestations, ∃ n, WfElectra n ∧ Ssz.tryAsBeaconType (fun _ => true) n = some a := by
  intro a ha
  obtain ⟨e, rfl, he⟩ := gxVotes_wf a ha
  exact ⟨e, he, by rw [C75_conversion _ e he, if_pos rfl]⟩

theorem szHost_wf : WfHost (Ssz.wire exWire (fun _ => true)) fxHost where
  mixes := fx_wf.mixes
  exits := fx_wf.exits
  keys := fx_wf.keys
  state := fx_wf.state
  attestations := gxVotes_read

/-- The input of the concrete host, with attestations in SSZ, fits the frame and the guest. -/
example : ∃ input, preflight exExt id Config.default fxHost gxC3 = .ok (input, fxHost.consensusState, ⟨exC7, gxC6⟩, 24) ∧
    InputFits (Ssz.wire exWire (fun _ => true)) (2 ^ 32) input ∧
    (encodeInput (Ssz.wire exWire (fun _ => true)) input).length < 2 ^ 32 := by
  obtain ⟨input, hp, hj⟩ := fx_same_journal
  have ho : ∀ l : List Nat, (id l).Perm l := fun l => List.Perm.refl l
  have hcap : 126 ≤ exExt.stackCapacity := by decide
  have hc : Consistent exExt fxHost gxC3 (fxState 12 gxVs)
      (verifyQueries exExt fxHost.spec fxHost.attestations (⟨exC7, gxC6⟩ : ConsensusState).finalized.root) := by
    rw [show (⟨exC7, gxC6⟩ : ConsensusState).finalized.root = gxC6.root from rfl, fx_queries]
    exact fx_consistent
  have hV : (fxState 12 gxVs).beacon.validators.length ≤ 2 ^ 22 := by
    have e : (fxState 12 gxVs).beacon.validators.length = gxVs.length := rfl
    have : gxVs.length ≤ 20 := by decide
    rw [e]
    exact this.trans (by norm_num)
  have hn : fxHost.attestations.length ≤ 100000 := by
    have e : fxHost.attestations.length = 9 := by decide
    rw [e]
    norm_num
  have hs := C75_shipped exWire (fun _ => true) szWire_laws exExt id ho hcap fx_trusted hc hp szHost_wf exWire_bits (by decide) hV
    szHost_converted hn
  exact ⟨input, hp, hs.1, hs.2⟩

end Signal
