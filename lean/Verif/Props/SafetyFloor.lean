import Verif.Props.Safety

/-!
# C13 and C41 are false below the floor

Specification: `Verif/Spec/Slashing.lean`. The positive theorems are in `Verif/Props/Safety.lean`.
-/

namespace Signal
open Spec

/-- The example specification with an increment above the balance of all validators together. -/
def flSpec : ChainSpec := { exSpec with effectiveBalanceIncrement := 1000 }

def flA6 : Checkpoint := ⟨6, exRoot32 61⟩
def flA7 : Checkpoint := ⟨7, exRoot32 71⟩
def flB6 : Checkpoint := ⟨6, exRoot32 62⟩
def flB7 : Checkpoint := ⟨7, exRoot32 72⟩

/-- Only validators 0 and 1 vote. -/
def flVotesA : List Attestation := [exVote 24 exC4 flA6 [0, 1], exVote 28 flA6 flA7 [0, 1]]
/-- Only validators 2, 3 and 4 vote. -/
def flVotesB : List Attestation := [exVote 25 exC4 flB6 [2, 3, 4], exVote 29 flB6 flB7 [2, 3, 4]]

def flReader (votes : List Attestation) : Reader :=
  { exReader with spec := flSpec, attestations := .ok votes, slotForBlock := fun _ => .ok 24 }

def flAnc (a b : Checkpoint) : Prop := a = b ∨ a = exC4 ∨ (a = flA6 ∧ b = flA7) ∨ (a = flB6 ∧ b = flB7)

/-- With the toy signature scheme the signature tells who signed: the first bytes of the signers' keys, zero aside, are in it. -/
theorem flSigners {votes : List Attestation} {active : OMap ValidatorInfo} {slot : Nat} {s t : Checkpoint} {who signers : List Nat}
    (hfork : 3 ≤ t.epoch)
    (hv : Vote exExt (flReader votes) active (exVote slot s t who) signers) :
    ∀ i ∈ signers, (pubkey active i).headD 0 ≠ 0 → (pubkey active i).headD 0 ∈ who.map (fun i => UInt8.ofNat (100 + i)) := by
  obtain ⟨e, he, -, -, -, fork, root, hf, hr, hsig⟩ := hv.electra
  obtain rfl := Attestation.electra.inj he
  have hroot : root = exRoot32 77 := (Res.ok.inj hr).symm
  have hfk : fork = ⟨[4, 0, 0, 0], [5, 0, 0, 0], 3⟩ := by
    have : exSpec.forkAtEpoch t.epoch = fork := Res.ok.inj hf
    rw [← this]
    simp [exSpec, Nat.not_lt.2 hfork]
  subst hroot hfk
  simp only [exExt, decide_eq_true_eq, Nat.not_lt.2 hfork, if_false] at hsig
  unfold padSig at hsig
  rw [List.append_assoc, List.append_assoc] at hsig
  have h := List.append_cancel_left hsig
  intro i hi hne
  have hm : (pubkey active i).headD 0 ∈ List.map (fun x => List.headD x 0) (List.map (pubkey active) signers) :=
    List.mem_map.2 ⟨_, List.mem_map.2 ⟨i, hi, rfl⟩, rfl⟩
  have hm' := cast (congrArg (fun l => (pubkey active i).headD 0 ∈ l) h).symm (List.mem_append_left _ hm)
  rcases List.mem_append.1 hm' with hm' | hm'
  · exact hm'
  · exact absurd (List.eq_of_mem_replicate hm') hne

theorem flSigned {votes : List Attestation} {who : List Nat} {link : Link} {i : Nat}
    (hvotes : ∀ a ∈ votes, ∃ slot s t, a = exVote slot s t who ∧ 3 ≤ t.epoch)
    (h : Signed exExt (flReader votes) votes link i) :
    i < 10 ∧ UInt8.ofNat (100 + i) ∈ who.map (fun i => UInt8.ofNat (100 + i)) := by
  obtain ⟨l, hl, b, hb, -, signers, hi, hv⟩ := h
  obtain rfl : exActive = l := Res.ok.inj hl
  obtain ⟨slot, s, t, rfl, ht⟩ := hvotes b hb
  have hs : (OMap.ofList exActive) = exActive := by decide +kernel
  rw [hs] at hv
  obtain ⟨v, hget⟩ := hv.signers_active i hi
  have hmem : (i, v) ∈ exActive := OMap.get?_eq_some_mem hget
  simp only [exActive, List.mem_map, List.mem_range, Prod.mk.injEq] at hmem
  obtain ⟨j, hj, rfl, rfl⟩ := hmem
  have hk : (pubkey exActive j).headD 0 = UInt8.ofNat (100 + j) := by simp [pubkey, hget, exVal, exKey]
  refine ⟨hj, ?_⟩
  rw [← hk]
  refine flSigners ht hv j hi ?_
  rw [hk]
  clear hget hi hv hk
  revert j
  decide

set_option maxRecDepth 100000 in
/-- **C41** does not hold when the active balance is below one increment: the floor then makes every set of votes a supermajority. Two runs from the
same pre-state with the same validators and balances and the default configuration finalize conflicting checkpoints, and nobody
signed votes in both. -/
theorem C41_fails_below_floor : ∃ (X : Ext) (R R' : Reader) (post post' : ConsensusState) (slot slot' : Nat) (set : List Nat)
    (bal : Nat → Nat) (atts atts' : List Attestation) (anc : Checkpoint → Checkpoint → Prop),
    verify X Config.default R = .ok (post, slot) ∧ verify X Config.default R' = .ok (post', slot') ∧
    R.consensusState = R'.consensusState ∧ CountsWith R (fun _ => set) bal ∧ CountsWith R' (fun _ => set) bal ∧
    R.attestations = .ok atts ∧ R'.attestations = .ok atts' ∧ 0 < sumOf bal set ∧
    sumOf bal set < R.spec.effectiveBalanceIncrement ∧ R.spec = R'.spec ∧
    Ancestry anc (atts ++ atts') ∧ ¬ anc post.finalized post'.finalized ∧ ¬ anc post'.finalized post.finalized ∧
    ∀ link link' i, ¬ (Signed X R atts link i ∧ Signed X R' atts' link' i) := by
  have hcount : ∀ votes, CountsWith (flReader votes) (fun _ => List.range 10) (balance exActive) := by
    intro votes e l hl
    obtain rfl : exActive = l := Res.ok.inj hl
    have hs : (OMap.ofList exActive) = exActive := by decide +kernel
    rw [hs]
    exact ⟨(by decide +kernel : OMap.keys exActive = List.range 10), fun _ _ => rfl⟩
  refine ⟨exExt, flReader flVotesA, flReader flVotesB, ⟨flA7, flA6⟩, ⟨flB7, flB6⟩, 24, 24, List.range 10, balance exActive,
    flVotesA, flVotesB, flAnc, by decide +kernel, by decide +kernel, rfl, hcount _, hcount _, rfl, rfl, by decide +kernel,
    by decide +kernel, rfl, ⟨fun _ => Or.inl rfl, ?_, ?_⟩, ?_, ?_, ?_⟩
  · rintro a b c (rfl | rfl | ⟨rfl, rfl⟩ | ⟨rfl, rfl⟩) hbc
    · exact hbc
    · exact Or.inr (Or.inl rfl)
    · rcases hbc with rfl | h | ⟨h, -⟩ | ⟨h, -⟩
      · exact Or.inr (Or.inr (Or.inl ⟨rfl, rfl⟩))
      all_goals exact absurd h (by decide)
    · rcases hbc with rfl | h | ⟨h, -⟩ | ⟨h, -⟩
      · exact Or.inr (Or.inr (Or.inr ⟨rfl, rfl⟩))
      all_goals exact absurd h (by decide)
  · intro a ha
    simp only [flVotesA, flVotesB, List.cons_append, List.nil_append, List.mem_cons, List.not_mem_nil, or_false] at ha
    rcases ha with rfl | rfl | rfl | rfl
    · exact Or.inr (Or.inl rfl)
    · exact Or.inr (Or.inr (Or.inl ⟨rfl, rfl⟩))
    · exact Or.inr (Or.inl rfl)
    · exact Or.inr (Or.inr (Or.inr ⟨rfl, rfl⟩))
  · rintro (h | h | ⟨h, h'⟩ | ⟨h, h'⟩)
    all_goals first | exact absurd h (by decide) | exact absurd h' (by decide)
  · rintro (h | h | ⟨h, h'⟩ | ⟨h, h'⟩)
    all_goals first | exact absurd h (by decide) | exact absurd h' (by decide)
  · rintro link link' i ⟨h, h'⟩
    obtain ⟨hi, h1⟩ := flSigned (who := [0, 1]) (by
      intro a ha
      simp only [flVotesA, List.mem_cons, List.not_mem_nil, or_false] at ha
      rcases ha with rfl | rfl
      · exact ⟨_, _, _, rfl, by decide⟩
      · exact ⟨_, _, _, rfl, by decide⟩) h
    obtain ⟨-, h2⟩ := flSigned (who := [2, 3, 4]) (by
      intro a ha
      simp only [flVotesB, List.mem_cons, List.not_mem_nil, or_false] at ha
      rcases ha with rfl | rfl
      · exact ⟨_, _, _, rfl, by decide⟩
      · exact ⟨_, _, _, rfl, by decide⟩) h'
    have key : ∀ i < 10, UInt8.ofNat (100 + i) ∈ [0, 1].map (fun i => UInt8.ofNat (100 + i)) →
        UInt8.ofNat (100 + i) ∉ [2, 3, 4].map (fun i => UInt8.ofNat (100 + i)) := by decide
    exact key i hi h1 h2

set_option maxRecDepth 100000 in
/-- **C13** does not hold when the active balance is below one increment: the default configuration accepts an input although those who signed
any of its votes hold less than two thirds of the active balance. -/
theorem C13_fails_below_floor : ∃ (X : Ext) (R : Reader) (r : ConsensusState × Nat) (atts : List Attestation) (active : OMap ValidatorInfo),
    verify X Config.default R = .ok r ∧ R.attestations = .ok atts ∧ (∀ e, R.activeValidators e = .ok active) ∧
    ∀ (link : Link) (voters : List Nat), voters.Nodup → (∀ i ∈ voters, Signed X R atts link i) →
      3 * weight active voters < 2 * totalWeight active := by
  refine ⟨exExt, flReader flVotesA, (⟨flA7, flA6⟩, 24), flVotesA, exActive, by decide +kernel, rfl, fun _ => rfl, ?_⟩
  intro link voters hn hs
  have hsub : ∀ i ∈ voters, i ∈ [0, 1] := by
    intro i hi
    obtain ⟨h10, hm⟩ := flSigned (who := [0, 1]) (by
      intro a ha
      simp only [flVotesA, List.mem_cons, List.not_mem_nil, or_false] at ha
      rcases ha with rfl | rfl
      · exact ⟨_, _, _, rfl, by decide⟩
      · exact ⟨_, _, _, rfl, by decide⟩) (hs i hi)
    have key : ∀ i < 10, UInt8.ofNat (100 + i) ∈ [0, 1].map (fun i => UInt8.ofNat (100 + i)) → i ∈ [0, 1] := by decide
    exact key i h10 hm
  have h1 : weight exActive voters ≤ weight exActive [0, 1] := sum_le_of_subset _ voters [0, 1] hn hsub
  have h2 : 3 * weight exActive [0, 1] < 2 * totalWeight exActive := by decide +kernel
  omega

end Signal
