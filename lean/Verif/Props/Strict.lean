import Verif.Props.Verify
import Verif.Props.Wire
import Verif.Proofs.ExampleChain
import Verif.Props.Signing

/-!
# C104: a less strict configuration accepts no less and says the same
-/

namespace Signal
open Spec

/-- The second configuration asks for no more than the first: no later fork, no earlier fork, no shorter lookahead and no greater part of the stake. -/
structure NoStricter (cfg cfg' : Config) : Prop where
  first : cfg'.minVersion ≤ cfg.minVersion
  last : cfg.maxVersion ≤ cfg'.maxVersion
  lookahead : cfg.epochLookaheadLimit ≤ cfg'.epochLookaheadLimit
  quotient : 0 < cfg.justificationThresholdQuotient
  threshold : cfg'.justificationThresholdFactor * cfg.justificationThresholdQuotient ≤
    cfg.justificationThresholdFactor * cfg'.justificationThresholdQuotient

instance (cfg cfg' : Config) : Decidable (NoStricter cfg cfg') :=
  decidable_of_iff (cfg'.minVersion ≤ cfg.minVersion ∧ cfg.maxVersion ≤ cfg'.maxVersion ∧ cfg.epochLookaheadLimit ≤ cfg'.epochLookaheadLimit ∧
    0 < cfg.justificationThresholdQuotient ∧ cfg'.justificationThresholdFactor * cfg.justificationThresholdQuotient ≤
      cfg.justificationThresholdFactor * cfg'.justificationThresholdQuotient)
    ⟨fun h => ⟨h.1, h.2.1, h.2.2.1, h.2.2.2.1, h.2.2.2.2⟩, fun h => ⟨h.1, h.2, h.3, h.4, h.5⟩⟩

section
variable {cfg cfg' : Config} (h : NoStricter cfg cfg')
include h

theorem NoStricter.link {spec : ChainSpec} {trusted : Checkpoint} {link : Link} (hv : validateLink cfg spec trusted link = .ok ()) :
    validateLink cfg' spec trusted link = .ok () := by
  unfold validateLink at hv ⊢
  simp only [Res.bind_eq_ok, ensure_eq_ok, decide_eq_true_eq, Config.isSupportedVersion, Bool.and_eq_true] at hv ⊢
  have h1 := h.first
  have h2 := h.last
  have h3 := h.lookahead
  obtain ⟨u, ⟨a, b⟩, c⟩ := hv
  exact ⟨u, ⟨Nat.le_trans h1 a, Nat.le_trans b h2⟩, Nat.le_trans c h3⟩

theorem NoStricter.balance {target total : Nat} (hv : checkThreshold cfg target total = .ok ()) : checkThreshold cfg' target total = .ok () := by
  unfold checkThreshold at hv ⊢
  dsimp only at hv ⊢
  have hle : total * cfg.justificationThresholdFactor ≤ target * cfg.justificationThresholdQuotient := by
    by_contra hn
    rw [if_neg (by omega)] at hv
    split at hv <;> cases hv
  have : total * cfg'.justificationThresholdFactor ≤ target * cfg'.justificationThresholdQuotient := by
    refine Nat.le_of_mul_le_mul_right ?_ h.quotient
    calc total * cfg'.justificationThresholdFactor * cfg.justificationThresholdQuotient
        = total * (cfg'.justificationThresholdFactor * cfg.justificationThresholdQuotient) := Nat.mul_assoc ..
      _ ≤ total * (cfg.justificationThresholdFactor * cfg'.justificationThresholdQuotient) := Nat.mul_le_mul_left _ h.threshold
      _ = total * cfg.justificationThresholdFactor * cfg'.justificationThresholdQuotient := (Nat.mul_assoc ..).symm
      _ ≤ target * cfg.justificationThresholdQuotient * cfg'.justificationThresholdQuotient := Nat.mul_le_mul_right _ hle
      _ = target * cfg'.justificationThresholdQuotient * cfg.justificationThresholdQuotient := by
        rw [Nat.mul_assoc, Nat.mul_comm cfg.justificationThresholdQuotient, ← Nat.mul_assoc]
  rw [if_pos (by omega)]

theorem NoStricter.group {X : Ext} {R : Reader} {trusted : Checkpoint} {state state' : ConsensusState} {link : Link} {atts : List Attestation}
    (hv : processGroup X cfg R trusted state link atts = .ok state') : processGroup X cfg' R trusted state link atts = .ok state' := by
  unfold processGroup at hv ⊢
  simp only [Res.bind_eq_ok] at hv ⊢
  obtain ⟨u1, e1, u2, e2, list, e3, committees, e4, part, e5, vs, e6, tb, e7, ta, e8, u3, e9, rest⟩ := hv
  exact ⟨u1, e1, u2, h.link e2, list, e3, committees, e4, part, e5, vs, e6, tb, e7, ta, e8, u3, h.balance e9, rest⟩

theorem NoStricter.loop {X : Ext} {R : Reader} {trusted : Checkpoint} {gs : List (Link × List Attestation)} : ∀ {state state' : ConsensusState},
    verifyLoop X cfg R trusted state gs = .ok state' → verifyLoop X cfg' R trusted state gs = .ok state' := by
  induction gs with
  | nil => intro state state' hv; exact hv
  | cons g gs ih =>
    obtain ⟨link, atts⟩ := g
    intro state state' hv
    unfold verifyLoop at hv ⊢
    obtain ⟨s, e1, e2⟩ := Res.bind_eq_ok.1 hv
    rw [h.group e1, Res.ok_bind]
    exact ih e2

end

/-- **C104.** What is verified under one configuration is verified with the same result under any that asks for no more. -/
theorem C104_verify {X : Ext} {cfg cfg' : Config} (hc : NoStricter cfg cfg') {R : Reader} {post : ConsensusState} {slot : Nat}
    (h : verify X cfg R = .ok (post, slot)) : verify X cfg' R = .ok (post, slot) := by
  unfold verify at h ⊢
  simp only [Res.bind_eq_ok] at h ⊢
  obtain ⟨s, e1, as, e2, s', e3, rest⟩ := h
  exact ⟨s, e1, as, e2, s', hc.loop e3, rest⟩

/-- **C104** for the guest: the same journal, byte by byte. -/
theorem C104_guest {ε : Type} {X : Ext} {spec : ChainSpec} {cfg cfg' : Config} (hc : NoStricter cfg cfg') {input : GuestInput} {journal : Bytes}
    (h : (guestEntry X spec cfg input : Res ε Bytes) = .ok journal) : (guestEntry X spec cfg' input : Res ε Bytes) = .ok journal := by
  unfold guestEntry at h ⊢
  simp only [Res.bind_eq_ok, Res.unwrap_eq_ok] at h ⊢
  obtain ⟨r, e1, ⟨post, slot⟩, e2, e3⟩ := h
  exact ⟨r, e1, (post, slot), C104_verify hc e2, e3⟩

/-- **C104**: the condition on the threshold is needed. With fewer votes the input is verified under the configuration of Sepolia and refused under the default one,
which differs from it in the threshold only. -/
theorem C104_threshold_needed : ∃ (X : Ext) (R : Reader) (post : ConsensusState) (slot : Nat), verify X Config.sepolia R = .ok (post, slot) ∧
    verify X Config.default R ≠ .ok (post, slot) :=
  ⟨sgExt, sgSecondReader.toReader, _, _, sgSecond_verifies, by decide +kernel⟩

/-- The hypotheses are met: the default configuration and the one of Sepolia. -/
example : NoStricter Config.default Config.sepolia ∧ ¬NoStricter Config.sepolia Config.default ∧
    (guestEntry exExt exSpec Config.default gxInput : Res Unit Bytes) = .ok (Abi.encodeJournal ⟨exC4, gxC3⟩ ⟨exC7, gxC6⟩ 24) :=
  ⟨by decide, by decide, gxInput_runs⟩

end Signal
