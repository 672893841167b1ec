import Verif.Spec.ShippedVotes
import Verif.Props.Shuffle
import Verif.Proofs.ExampleShipped

/-!
Helper definitions and lemmas: a complete file for the mainnet guest whose votes are those of the committees of the published shuffle.
-/

namespace Signal
open Spec Wire

set_option maxRecDepth 100000

/-- The toy environment with the published shuffle over its hash. -/
def shuExt : Ext := { exExt with shuffleList := Shuffle.shuffleList toyHash (2 ^ 64) }

set_option smartUnfolding false

theorem shu_mverify : @Multiproof.verify shuExt = @Multiproof.verify exExt := by with_unfolding_all rfl
theorem shu_extract : @extractValidators shuExt = @extractValidators exExt := by with_unfolding_all rfl
theorem shu_slots : @blockSlotLoop shuExt = @blockSlotLoop exExt := by with_unfolding_all rfl
theorem shu_patches : @validateStatePatches shuExt = @validateStatePatches exExt := by with_unfolding_all rfl
theorem shu_root : @Tree.root shuExt = @Tree.root exExt := by with_unfolding_all rfl
theorem shu_noCollision : @NoCollision shuExt = @NoCollision exExt := by with_unfolding_all rfl
theorem shu_noPreimage : @NoPreimage shuExt = @NoPreimage exExt := by with_unfolding_all rfl

set_option smartUnfolding true

theorem shu_reader {spec : ChainSpec} {input : GuestInput} {r : GuestReader} (h : input.intoReader exExt spec = .ok r)
    (atts : List Attestation) :
    GuestInput.intoReader shuExt spec { input with attestations := atts } = .ok { r with attestations := atts } := by
  unfold GuestInput.intoReader at h ⊢
  rw [shu_mverify, shu_extract, shu_slots, shu_patches]
  simp only [Res.bind_eq_ok, Res.pure_eq, Res.ok.injEq] at h ⊢
  obtain ⟨a1, b1, a2, b2, a3, b3, a4, b4, a5, b5, a6, b6, a7, b7, a8, b8, a9, b9, a10, b10, a11, b11, rfl⟩ := h
  exact ⟨a1, b1, a2, b2, a3, b3, a4, b4, a5, b5, a6, b6, a7, b7, a8, b8, a9, b9, a10, b10, a11, b11, rfl⟩

theorem shu_real {spec : ChainSpec} {input : GuestInput} {hdr : Header} {st : BeaconState} (h : RealChainDigests exExt spec input hdr st)
    (atts : List Attestation) : RealChainDigests shuExt spec { input with attestations := atts } hdr st where
  header_wf := h.header_wf
  state_wf := h.state_wf
  block_root := by rw [shu_root]; exact h.block_root
  state_root := by rw [shu_root]; exact h.state_root
  finalized_past := h.finalized_past
  shallow := h.shallow
  no_collision := by rw [shu_noCollision]; exact h.no_collision
  no_preimage := by rw [shu_noPreimage]; exact h.no_preimage

theorem shu_shuffle : RealShuffle shuExt := fun _ _ _ => rfl

theorem shu_keys : KeysAsPoints shuExt := by
  intro sig msg keys keys' h
  have hd : ∀ k : Bytes, ((k ++ List.replicate 48 0).take 48).headD 0 = k.headD 0 := by
    intro k
    cases k <;> rfl
  have : keys.map (·.headD 0) = keys'.map (·.headD 0) := by
    have := congrArg (List.map (fun k : Bytes => k.headD 0)) h
    simp only [List.map_map, Function.comp_def] at this
    have e : ∀ l : List Bytes, l.map (fun k => (shuExt.pkSerialize k).headD 0) = l.map (·.headD 0) :=
      fun l => List.map_congr_left (fun k _ => hd k)
    rwa [e, e] at this
  show decide (sig = padSig (msg ++ keys.map (·.headD 0))) = decide (sig = padSig (msg ++ keys'.map (·.headD 0)))
  rw [this]

namespace Net

/-- The votes of all unslashed validators in the two target epochs, by slot of the epoch and validator. -/
def shuVotes : List Attestation :=
  [(3, 1), (6, 5), (9, 7), (12, 0), (15, 4), (19, 8), (22, 3), (25, 2), (28, 6)].map (vote [5, 0, 0, 0] mainnet.justified mainnet.last) ++
  [(3, 4), (6, 6), (9, 0), (12, 3), (15, 2), (19, 1), (22, 7), (25, 5), (31, 8)].map (vote [6, 0, 0, 0] mainnet.last mainnet.first)

def shuInput : GuestInput := { mainnet.input with attestations := shuVotes }
def shuReader : GuestReader := { mainnet.reader with attestations := shuVotes }

theorem shu_verifies :
    verify shuExt mainnet.cfg shuReader.toReader = .ok (⟨mainnet.first, mainnet.last⟩, (mainnet.fuluEpoch - 1) * 32) := by
  decide +kernel

theorem shu_fits : InputFits (Ssz.wire exWire (fun _ => true)) (2 ^ 32) shuInput :=
  { input_fits (Or.inl rfl) with
    attestationsCount := by decide +kernel
    attestations := by decide +kernel }

theorem shu_size : (encodeInput (Ssz.wire exWire (fun _ => true)) shuInput).length < 2 ^ 32 := by decide +kernel

def shuFile : Bytes := Frame.encodeInputStdin (encodeInput (Ssz.wire exWire (fun _ => true)) shuInput)

end Net
end Signal
