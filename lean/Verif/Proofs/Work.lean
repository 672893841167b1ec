import Verif.Spec.Work
import Verif.Model.Wire
import Verif.Proofs.Accept
import Verif.Props.BitVec

/-!
# Lemmas for C97
-/

namespace Signal
open Spec

namespace Spec.Questions

/-- Both lists of questions. -/
def both (p q : Questions) : Questions :=
  ⟨p.hashes ++ q.hashes, p.keys ++ q.keys, p.shuffles ++ q.shuffles, p.domains ++ q.domains, p.signatures ++ q.signatures, p.sorts ++ q.sorts⟩

end Spec.Questions

theorem Spec.Agree.left {p q : Questions} {X X' : Ext} (h : Agree (p.both q) X X') : Agree p X X' where
  word := h.word
  capacity := h.capacity
  hashes b hb := h.hashes b (List.mem_append_left _ hb)
  keys b hb := h.keys b (List.mem_append_left _ hb)
  shuffles b hb := h.shuffles b (List.mem_append_left _ hb)
  domains b hb := h.domains b (List.mem_append_left _ hb)
  signatures b hb := h.signatures b (List.mem_append_left _ hb)
  sorts b hb := h.sorts b (List.mem_append_left _ hb)

theorem Spec.Agree.right {p q : Questions} {X X' : Ext} (h : Agree (p.both q) X X') : Agree q X X' where
  word := h.word
  capacity := h.capacity
  hashes b hb := h.hashes b (List.mem_append_right _ hb)
  keys b hb := h.keys b (List.mem_append_right _ hb)
  shuffles b hb := h.shuffles b (List.mem_append_right _ hb)
  domains b hb := h.domains b (List.mem_append_right _ hb)
  signatures b hb := h.signatures b (List.mem_append_right _ hb)
  sorts b hb := h.sorts b (List.mem_append_right _ hb)

section
variable {ε ε' α β : Type} {X : Ext}

theorem Spec.FixedBy.const {q : Questions} (a : α) : FixedBy q (fun _ => a) X := fun _ _ => rfl

theorem Spec.FixedBy.bind {p q : Questions} {f : Ext → Res ε α} {g : α → Ext → Res ε β} (hf : FixedBy p f X)
    (hg : ∀ a, f X = .ok a → FixedBy q (g a) X) : FixedBy (p.both q) (fun X => f X >>= fun a => g a X) X := by
  intro X' h
  simp only [hf X' h.left]
  cases e : f X with
  | ok a => exact hg a e X' h.right
  | err e => simp only [Res.err_bind]
  | panic => simp only [Res.panic_bind]

/-- A step that asks for nothing first. -/
theorem Spec.FixedBy.after {q : Questions} {x : Res ε α} {g : α → Ext → Res ε β} (hg : ∀ a, x = .ok a → FixedBy q (g a) X) :
    FixedBy q (fun X => x >>= fun a => g a X) X := by
  intro X' h
  cases x with
  | ok a => exact hg a rfl X' h
  | err e => rfl
  | panic => rfl

theorem Spec.FixedBy.map {q : Questions} {f : Ext → Res ε α} (hf : FixedBy q f X) (g : Res ε α → β) : FixedBy q (fun X => g (f X)) X :=
  fun X' h => by simp only [hf X' h]

theorem Spec.FixedBy.congr {q : Questions} {f g : Ext → α} (hf : FixedBy q f X) (h : ∀ X', X'.usizeMod = X.usizeMod → f X' = g X') : FixedBy q g X := by
  intro X' ha
  rw [← h X' ha.word, ← h X rfl, hf X' ha]

end

/-! ## Proofs -/

/-- The nodes on the stack that have a value. -/
def valued (st : List TreeNode) : Nat := st.countP (fun t => t.value?.isSome)

theorem reduceStack_asks (X : Ext) (st : List TreeNode) :
    ∃ q : List Bytes, q.length + valued (reduceStack X st) = valued st ∧ (q ≠ [] → 0 < valued (reduceStack X st)) ∧
      (0 < valued st → 0 < valued (reduceStack X st)) ∧
      FixedBy { hashes := q } (fun X => reduceStack X st) X := by
  induction st using reduceStack.induct X with
  | case1 r l rest rv lv hr hl ih =>
    obtain ⟨q, h1, h2, h3, h4⟩ := ih
    have hv : valued (r :: l :: .internal :: rest) = valued rest + 2 := by
      have hi : TreeNode.internal.value? = none := rfl
      unfold valued; simp [hr, hl, hi]
    have hv' : valued (.computed (X.sha256 (lv ++ rv)) :: rest) = valued rest + 1 := by
      unfold valued; simp [TreeNode.value?]
    have hpos := h3 (by omega)
    have e : ∀ X', reduceStack X' (r :: l :: .internal :: rest) = reduceStack X' (.computed (X'.sha256 (lv ++ rv)) :: rest) := by
      intro X'; rw [reduceStack, hr, hl]
    refine ⟨(lv ++ rv) :: q, ?_, ?_, ?_, ?_⟩
    · rw [e, List.length_cons]; omega
    · rw [e]; exact fun _ => hpos
    · rw [e]; exact fun _ => hpos
    · intro X' h
      simp only [e]
      rw [h.hashes _ (List.mem_cons_self ..)]
      exact h4 X' ⟨h.word, h.capacity, fun b hb => h.hashes b (List.mem_cons_of_mem _ hb), h.keys, h.shuffles, h.domains, h.signatures, h.sorts⟩
  | case2 r l rest h =>
    have e : ∀ X', reduceStack X' (r :: l :: .internal :: rest) = r :: l :: .internal :: rest := by
      intro X'
      rw [reduceStack]
      split
      · rename_i rv lv hr hl; exact absurd hl (h rv lv hr)
      · rfl
    exact ⟨[], by rw [e]; simp, by simp, by rw [e]; exact id, fun X' _ => by simp only [e]⟩
  | case3 st h =>
    have e : ∀ X', reduceStack X' st = st := by
      intro X'
      rw [reduceStack.eq_def]
      split
      · rename_i r l rest; exact absurd rfl (h r l rest)
      · rfl
    exact ⟨[], by rw [e]; simp, by simp, by rw [e]; exact id, fun X' _ => by simp only [e]⟩


theorem rootLoop_asks (X : Ext) (data : Bytes) (d : List Bool) : ∀ (st : List TreeNode) (i : Nat),
    ∃ q : List Bytes, q.length ≤ valued st + (data.length / 32 - i) - 1 ∧ FixedBy { hashes := q } (fun X => rootLoop X data d st i) X := by
  induction d with
  | nil => exact fun st i => ⟨[], by simp, fun _ _ => rfl⟩
  | cons b d ih =>
    intro st i
    cases b with
    | false =>
      obtain ⟨q, h1, h2⟩ := ih (.internal :: st) i
      exact ⟨q, by simpa [valued, List.countP_cons, TreeNode.value?] using h1, h2⟩
    | true =>
      cases e : slice? data (i * 32) ((i + 1) * 32) with
      | none => exact ⟨[], by simp, fun X' _ => by simp [rootLoop, e, expect]⟩
      | some chunk =>
        have hi : (i + 1) * 32 ≤ data.length := by
          unfold slice? at e; split at e
          · rename_i h; exact h.2
          · cases e
        obtain ⟨q, h1, -, h3, h4⟩ := reduceStack_asks X (.leaf chunk :: st)
        have hv : valued (.leaf chunk :: st) = valued st + 1 := by simp [valued, TreeNode.value?]
        obtain ⟨q', g1, g2⟩ := ih (reduceStack X (.leaf chunk :: st)) (i + 1)
        have hpos := h3 (by omega)
        refine ⟨q ++ q', ?_, ?_⟩
        · rw [List.length_append]; omega
        · intro X' h
          have h' : Agree (Questions.both { hashes := q } { hashes := q' }) X X' := h
          simp only [rootLoop, e, expect, Res.ok_bind]
          rw [show reduceStack X' _ = reduceStack X _ from h4 X' h'.left]
          exact g2 X' h'.right

theorem calculateRoot_asks (X : Ext) (p : Multiproof) :
    ∃ q : List Bytes, q.length ≤ p.data.length / 32 - 1 ∧ FixedBy { hashes := q } (fun X => p.calculateRoot X) X := by
  obtain ⟨q, h1, h2⟩ := rootLoop_asks X p.data p.descriptor [] 0
  refine ⟨q, by simpa [valued] using h1, fun X' h => ?_⟩
  simp only [Multiproof.calculateRoot, calculateCompactMultiMerkleRoot]
  rw [h.capacity, show rootLoop X' _ _ _ _ = rootLoop X _ _ _ _ from h2 X' h]

theorem verifyProof_asks (X : Ext) (p : Multiproof) :
    ∃ q : List Bytes, q.length ≤ p.data.length / 32 - 1 ∧ ∀ root, FixedBy { hashes := q } (fun X => p.verify X root) X := by
  obtain ⟨q, h1, h2⟩ := calculateRoot_asks X p
  exact ⟨q, h1, fun root => h2.map (fun r => r >>= fun r => if r = root then pure () else .err .rootMismatch)⟩

/-! ## The reader -/

theorem extractValidator_asks (X : Ext) (pubkey : Bytes) (values : List (Nat × Bytes)) (i : Nat) :
    FixedBy { keys := [pubkey] } (fun X => extractValidator X pubkey values i) X := by
  intro X' h
  simp only [extractValidator, hasCompressedChunks]
  rw [h.keys pubkey (List.mem_singleton.2 rfl)]

theorem extractLoop_asks (X : Ext) (epoch fuel : Nat) : ∀ (values : List (Nat × Bytes)) (pubkeys : List Bytes) (i : Nat) (cache : OMap ValidatorInfo),
    FixedBy { keys := pubkeys } (fun X => extractLoop X epoch fuel values pubkeys i cache) X := by
  induction fuel with
  | zero => exact fun _ _ _ _ _ _ => rfl
  | succ fuel ih =>
    intro values pubkeys i cache X' h
    cases values with
    | nil => rfl
    | cons v rest =>
      obtain ⟨gindex, node⟩ := v
      simp only [extractLoop]
      split
      · rfl
      split
      · cases (assert (decide (u64FromChunk node ≤ epoch)) : Res ProofError Unit) with
        | ok _ => exact ih _ _ _ _ X' h
        | err _ => rfl
        | panic => rfl
      · cases pubkeys with
        | nil => rfl
        | cons k ks =>
          have h1 : Agree { keys := [k] } X X' := ⟨h.word, h.capacity, h.hashes, fun b hb => h.keys b (by
            rw [List.mem_singleton.1 hb]; exact List.mem_cons_self ..), h.shuffles, h.domains, h.signatures, h.sorts⟩
          have h2 : Agree { keys := ks } X X' := ⟨h.word, h.capacity, h.hashes, fun b hb => h.keys b (List.mem_cons_of_mem _ hb),
            h.shuffles, h.domains, h.signatures, h.sorts⟩
          simp only
          rw [show extractValidator X' k ((gindex, node) :: rest) i = extractValidator X k ((gindex, node) :: rest) i from extractValidator_asks X k _ i X' h1]
          cases extractValidator X k ((gindex, node) :: rest) i with
          | ok r => exact ih _ _ _ _ X' h2
          | err _ => rfl
          | panic => rfl

theorem validatePatchLoop_asks {ε : Type} (X : Ext) (spec : ChainSpec) (patches : OMap StatePatch) (validators : OMap ValidatorInfo) (trustedEpoch churn : Nat)
    (l : List (Nat × StatePatch)) : ∀ earliest,
    FixedBy { sorts := l.map (fun p => p.2.validatorExits) }
      (fun X => (validatePatchLoop X spec patches validators trustedEpoch churn l earliest : Res ε Unit)) X := by
  induction l with
  | nil => exact fun _ _ _ => rfl
  | cons p l ih =>
    intro earliest X' h
    obtain ⟨patchEpoch, patch⟩ := p
    have h2 : Agree { sorts := l.map (fun p => p.2.validatorExits) } X X' := ⟨h.word, h.capacity, h.hashes, h.keys, h.shuffles, h.domains, h.signatures,
      fun b hb => h.sorts b (List.mem_cons_of_mem _ hb)⟩
    simp only [validatePatchLoop]
    rw [h.sorts patch.validatorExits (List.mem_cons_self ..)]
    cases (assert (decide (trustedEpoch ≤ patchEpoch)) : Res ε Unit) with
    | err _ => rfl
    | panic => rfl
    | ok _ =>
      simp only [Res.ok_bind]
      cases (validateExits spec patches validators patchEpoch churn (X.sortByEpoch patch.validatorExits) earliest churn : Res ε Nat) with
      | ok e => exact ih e X' h2
      | err _ => rfl
      | panic => rfl

/-- The chunks of proofs, without one for each proof. -/
def proofHashes (l : List Multiproof) : Nat := (l.map (fun p => p.data.length / 32 - 1)).sum

theorem blockSlotLoop_asks (X : Ext) (l : List Multiproof) : ∀ m : List (Root × Nat),
    ∃ q : List Bytes, q.length ≤ proofHashes l ∧ FixedBy { hashes := q } (fun X => blockSlotLoop X l m) X := by
  induction l with
  | nil => exact fun m => ⟨[], by simp, fun _ _ => rfl⟩
  | cons p l ih =>
    intro m
    obtain ⟨q, h1, h2⟩ := calculateRoot_asks X p
    have hsum : proofHashes (p :: l) = (p.data.length / 32 - 1) + proofHashes l := by simp [proofHashes]
    cases e : (p.calculateRoot X).mapErr GuestReaderError.sszMultiproof >>= fun root =>
        (nextAssertGindex p.values blockSlotGindex).mapErr GuestReaderError.sszMultiproof >>= fun r => .ok ((root, u64FromChunk r.1) :: m) with
    | ok m' =>
      obtain ⟨q', g1, g2⟩ := ih m'
      refine ⟨q ++ q', by rw [List.length_append]; omega, fun X' h => ?_⟩
      have h' : Agree (Questions.both { hashes := q } { hashes := q' }) X X' := h
      simp only [blockSlotLoop]
      rw [show p.calculateRoot X' = p.calculateRoot X from h2 X' h'.left]
      simp only [Res.bind_eq_ok] at e
      obtain ⟨root, e1, r, e2, e3⟩ := e
      obtain ⟨slot, rest⟩ := r
      cases e3
      rw [e1, Res.ok_bind, Res.ok_bind, e2, Res.ok_bind, Res.ok_bind]
      exact g2 X' h'.right
    | _ =>
      refine ⟨q, by omega, fun X' h => ?_⟩
      simp only [blockSlotLoop]
      rw [show p.calculateRoot X' = p.calculateRoot X from h2 X' h]
      cases e1 : (p.calculateRoot X).mapErr GuestReaderError.sszMultiproof with
      | ok root =>
        rw [e1] at e
        simp only [Res.ok_bind] at e ⊢
        cases e2 : (nextAssertGindex p.values blockSlotGindex).mapErr GuestReaderError.sszMultiproof with
        | ok r => rw [e2] at e; simp at e
        | err _ => rfl
        | panic => rfl
      | err _ => rfl
      | panic => rfl


theorem intoReader_asks (X : Ext) (spec : ChainSpec) (input : GuestInput) :
    ∃ q : List Bytes, q.length ≤ proofHashes ([input.beaconBlock, input.beaconState, input.activeValidators] ++ input.blockSlotProofs) ∧
      FixedBy { hashes := q, keys := input.publicKeys, sorts := input.patches.map (fun p => p.2.validatorExits) } (fun X => input.intoReader X spec) X := by
  obtain ⟨q1, b1, f1⟩ := verifyProof_asks X input.beaconBlock
  obtain ⟨q2, b2, f2⟩ := verifyProof_asks X input.beaconState
  obtain ⟨q3, b3, f3⟩ := verifyProof_asks X input.activeValidators
  obtain ⟨q4, b4, f4⟩ := blockSlotLoop_asks X input.blockSlotProofs []
  refine ⟨q1 ++ (q2 ++ (q3 ++ q4)), ?_, fun X' h => ?_⟩
  · simp only [List.length_append, proofHashes, List.cons_append, List.nil_append, List.map_cons, List.sum_cons] at b4 ⊢
    omega
  · have sub : ∀ q : List Bytes, (∀ b ∈ q, b ∈ q1 ++ (q2 ++ (q3 ++ q4))) → Agree { hashes := q } X X' := fun q hq =>
      ⟨h.word, h.capacity, fun b hb => h.hashes b (hq b hb), by simp, by simp, by simp, by simp, by simp⟩
    have e1 : ∀ root, input.beaconBlock.verify X' root = input.beaconBlock.verify X root := fun root => f1 root X' (sub q1 (by simp +contextual))
    have e2 : ∀ root, input.beaconState.verify X' root = input.beaconState.verify X root := fun root => f2 root X' (sub q2 (by simp +contextual))
    have e3 : ∀ root, input.activeValidators.verify X' root = input.activeValidators.verify X root := fun root => f3 root X' (sub q3 (by simp +contextual))
    have e4 : blockSlotLoop X' input.blockSlotProofs [] = blockSlotLoop X input.blockSlotProofs [] := f4 X' (sub q4 (by simp +contextual))
    have e5 : ∀ epoch, extractValidators X' input.activeValidators input.publicKeys epoch = extractValidators X input.activeValidators input.publicKeys epoch :=
      fun epoch => extractLoop_asks X epoch _ _ _ _ _ X' ⟨h.word, h.capacity, by simp, h.keys, by simp, by simp, by simp, by simp⟩
    have e6 : ∀ trusted state validators, validateStatePatches X' spec input.patches trusted state validators =
        validateStatePatches X spec input.patches trusted state validators := by
      intro trusted state validators
      have := fun churn earliest => validatePatchLoop_asks (ε := GuestReaderError) X spec input.patches validators trusted.epoch churn input.patches earliest X'
        ⟨h.word, h.capacity, by simp, by simp, by simp, by simp, by simp, h.sorts⟩
      simp only [validateStatePatches]
      simp only at this
      simp only [this]
    simp only [GuestInput.intoReader, e1, e2, e3, e4, e5, e6]

/-! ## Verification -/

/-- Few questions, none about keys or sorting. -/
structure Few (q : Questions) (hashes shuffles votes : Nat) : Prop where
  hashes : q.hashes.length ≤ hashes
  keys : q.keys = []
  shuffles : q.shuffles.length ≤ shuffles
  domains : q.domains.length ≤ votes
  signatures : q.signatures.length ≤ votes
  sorts : q.sorts = []

/-- The outcome is fixed by few answers. -/
def Asks {α : Type} (hashes shuffles votes : Nat) (f : Ext → α) (X : Ext) : Prop := ∃ q, Few q hashes shuffles votes ∧ FixedBy q f X

namespace Asks
variable {ε ε' α β : Type} {X : Ext} {h s v h' s' v' : Nat}

theorem mono {f : Ext → α} (hf : Asks h s v f X) (a : h ≤ h') (b : s ≤ s') (c : v ≤ v') : Asks h' s' v' f X :=
  let ⟨q, hq, hfix⟩ := hf
  ⟨q, ⟨le_trans hq.hashes a, hq.keys, le_trans hq.shuffles b, le_trans hq.domains c, le_trans hq.signatures c, hq.sorts⟩, hfix⟩

theorem const (a : α) : Asks h s v (fun _ => a) X :=
  ⟨{}, ⟨Nat.zero_le _, rfl, Nat.zero_le _, Nat.zero_le _, Nat.zero_le _, rfl⟩, fun _ _ => rfl⟩

/-- What depends on the word size only. -/
theorem word {f : Ext → α} (hf : ∀ X', X'.usizeMod = X.usizeMod → f X' = f X) : Asks h s v f X :=
  ⟨{}, ⟨Nat.zero_le _, rfl, Nat.zero_le _, Nat.zero_le _, Nat.zero_le _, rfl⟩, fun X' ha => hf X' ha.word⟩

theorem map {f : Ext → α} (hf : Asks h s v f X) (g : α → β) : Asks h s v (fun X => g (f X)) X :=
  let ⟨q, hq, hfix⟩ := hf
  ⟨q, hq, fun X' ha => congrArg g (hfix X' ha)⟩

theorem bind {f : Ext → Res ε α} {g : α → Ext → Res ε β} (hf : Asks h s v f X) (hg : ∀ a, f X = .ok a → Asks h' s' v' (g a) X) :
    Asks (h + h') (s + s') (v + v') (fun X => f X >>= fun a => g a X) X := by
  obtain ⟨q, hq, hfix⟩ := hf
  cases e : f X with
  | ok a =>
    obtain ⟨q', hq', hfix'⟩ := hg a e
    refine ⟨q.both q', ⟨?_, ?_, ?_, ?_, ?_, ?_⟩, hfix.bind fun b hb => ?_⟩
    · simpa [Questions.both] using Nat.add_le_add hq.hashes hq'.hashes
    · simp [Questions.both, hq.keys, hq'.keys]
    · simpa [Questions.both] using Nat.add_le_add hq.shuffles hq'.shuffles
    · simpa [Questions.both] using Nat.add_le_add hq.domains hq'.domains
    · simpa [Questions.both] using Nat.add_le_add hq.signatures hq'.signatures
    · simp [Questions.both, hq.sorts, hq'.sorts]
    · rw [e] at hb; cases hb; exact hfix'
  | err e' =>
    exact mono ⟨q, hq, fun X' ha => by simp only [show f X' = f X from hfix X' ha, e, Res.err_bind]⟩ (Nat.le_add_right _ _) (Nat.le_add_right _ _) (Nat.le_add_right _ _)
  | panic =>
    exact mono ⟨q, hq, fun X' ha => by simp only [show f X' = f X from hfix X' ha, e, Res.panic_bind]⟩ (Nat.le_add_right _ _) (Nat.le_add_right _ _) (Nat.le_add_right _ _)

/-- A step that asks for nothing first. -/
theorem after {x : Res ε α} {g : α → Ext → Res ε β} (hg : ∀ a, x = .ok a → Asks h s v (g a) X) : Asks h s v (fun X => x >>= fun a => g a X) X :=
  mono (bind (h := 0) (s := 0) (v := 0) (const x) hg) (by omega) (by omega) (by omega)

/-- A last step that asks for nothing. -/
theorem before {f : Ext → Res ε α} (hf : Asks h s v f X) (g : α → Res ε β) : Asks h s v (fun X => f X >>= g) X := map hf (· >>= g)

end Asks

theorem getSeed_asks (X : Ext) (R : Reader) (epoch : Nat) (domain : Bytes) : Asks 1 0 0 (fun X => R.getSeed X epoch domain) X := by
  refine Asks.after fun a _ => Asks.after fun b _ => Asks.after fun i _ => ?_
  refine Asks.mono (Asks.bind (h := 0) (s := 0) (v := 0) (h' := 1) (s' := 0) (v' := 0) (Asks.word fun X' hw => ?_) fun mix _ => ?_) (by omega) (by omega) (by omega)
  · simp only [Reader.getRandaoMix, hw]
  · refine ⟨{ hashes := [domain ++ leBytes 8 epoch ++ mix] }, ⟨by simp, rfl, by simp, by simp, by simp, rfl⟩, fun X' h => ?_⟩
    simp only [h.hashes _ (List.mem_singleton.2 rfl)]

theorem initialized_asks (X : Ext) (spec : ChainSpec) (seed : Bytes) (indices : List Nat) (cps epoch : Nat) :
    Asks 0 1 0 (fun X => CommitteeCache.initialized X spec seed indices cps epoch) X := by
  refine ⟨{ shuffles := [(indices, spec.shuffleRoundCount, seed)] }, ⟨by simp, rfl, by simp, by simp, by simp, rfl⟩, fun X' h => ?_⟩
  simp only [CommitteeCache.initialized, h.word]
  rw [h.shuffles (indices, spec.shuffleRoundCount, seed) (List.mem_singleton.2 rfl)]

theorem computeCommittees_asks (X : Ext) (R : Reader) (active : OMap ValidatorInfo) (epoch : Nat) :
    Asks 1 1 0 (fun X => computeCommittees X R active epoch) X :=
  Asks.mono (Asks.bind ((getSeed_asks X R epoch R.spec.domainBeaconAttester).map (Res.mapErr (fun _ => VerifyError.stateReader))) fun seed _ =>
    Asks.after fun cps _ => (initialized_asks X R.spec seed active.keys cps epoch).map (Res.mapErr VerifyError.committeeCache)) (by omega) (by omega) (by omega)

theorem getAttestingIndices_word {X X' : Ext} (hw : X'.usizeMod = X.usizeMod) (spec : ChainSpec) (a : AttestationElectra) (cache : CommitteeCache) :
    getAttestingIndices X' spec a cache = getAttestingIndices X spec a cache := by
  have h1 : epochCommitteeCount X' = epochCommitteeCount X := by funext a b; unfold epochCommitteeCount; rw [hw]
  have h2 : computeCommitteeRangeInEpoch X' = computeCommitteeRangeInEpoch X := by
    funext a b c; unfold computeCommitteeRangeInEpoch; rw [hw]
  have h3 : computeCommitteeIndexInEpoch X' = computeCommitteeIndexInEpoch X := by
    funext a b c d; unfold computeCommitteeIndexInEpoch; rw [hw]
  have h4 : ∀ i, cache.computeCommittee X' i = cache.computeCommittee X i := by
    intro i; unfold CommitteeCache.computeCommittee CommitteeCache.epochCount; rw [h1, h2]
  have hc : ∀ slot i, cache.getBeaconCommittee X' spec slot i = cache.getBeaconCommittee X spec slot i := by
    intro slot i; unfold CommitteeCache.getBeaconCommittee; rw [h3]; simp only [h4]
  have hl : ∀ (l : List Nat) (acc : OSet) (offset : Nat), attestingLoop X' spec cache a l acc offset = attestingLoop X spec cache a l acc offset := by
    intro l
    induction l with
    | nil => exact fun _ _ => rfl
    | cons i l ih => intro acc offset; simp only [attestingLoop, hc, ih]
  simp only [getAttestingIndices, hl]

theorem processAttestation_asks (X : Ext) (R : Reader) (active : OMap ValidatorInfo) (committees : CommitteeCache) (attestation : Attestation) :
    Asks 0 0 1 (fun X => processAttestation X R active committees attestation) X := by
  cases attestation with
  | base a => exact Asks.const _
  | electra a =>
    refine Asks.after fun e _ => Asks.after fun _ _ => Asks.after fun _ _ => ?_
    refine Asks.mono (Asks.bind (h := 0) (s := 0) (v := 0) (h' := 0) (s' := 0) (v' := 1) (Asks.word fun X' hw => ?_) fun indices _ =>
      Asks.after fun validators _ => Asks.before ?_ fun valid => ensure valid VerifyError.invalidSignature >>= fun _ => return indices)
      (by omega) (by omega) (by omega)
    · simp only [getAttestingIndices_word hw]
    · unfold isValidIndexedAttestation
      by_cases hv : validators = []
      · simp only [hv, if_true]; exact Asks.const _
      simp only [hv, if_false]
      refine Asks.after fun fork _ => Asks.after fun root _ => ?_
      refine ⟨⟨[], [], [], [(fork.versionAt a.data.target.epoch, root)],
        [(a.signature, R.spec.signingRoot a.data (getDomain X a.data.target.epoch fork root), validators.map (·.pubkey))], []⟩,
        ⟨by simp, rfl, by simp, by simp, by simp, rfl⟩, fun X' h => ?_⟩
      have hd : getDomain X' a.data.target.epoch fork root = getDomain X a.data.target.epoch fork root := h.domains _ (List.mem_singleton.2 rfl)
      simp only [hd]
      rw [h.signatures _ (List.mem_singleton.2 rfl)]

theorem collectParticipants_asks (X : Ext) (R : Reader) (active : OMap ValidatorInfo) (committees : CommitteeCache) (l : List Attestation) : ∀ acc : OSet,
    Asks 0 0 l.length (fun X => collectParticipants X R active committees l acc) X := by
  induction l with
  | nil => exact fun acc => Asks.const _
  | cons a l ih =>
    intro acc
    refine Asks.mono (Asks.bind (processAttestation_asks X R active committees a) fun indices _ => ih (OSet.extend acc indices)) (by omega) (by omega) ?_
    rw [List.length_cons]; omega

theorem processGroup_asks (X : Ext) (cfg : Config) (R : Reader) (trusted : Checkpoint) (state : ConsensusState) (link : Link) (l : List Attestation) :
    Asks 1 1 l.length (fun X => processGroup X cfg R trusted state link l) X := by
  refine Asks.after fun _ _ => Asks.after fun _ _ => Asks.after fun list _ => ?_
  refine Asks.mono (Asks.bind (computeCommittees_asks X R (OMap.ofList list) link.target.epoch) fun committees _ =>
    Asks.before (collectParticipants_asks X R (OMap.ofList list) committees l []) _) (by omega) (by omega) (by omega)

/-- A group that is accepted leads to a later justified epoch within the limit. -/
theorem processGroup_later {X : Ext} {cfg : Config} {R : Reader} {trusted : Checkpoint} {state state' : ConsensusState} {link : Link} {l : List Attestation}
    (h : processGroup X cfg R trusted state link l = .ok state') :
    trusted.epoch ≤ state.currentJustified.epoch ∧ state.currentJustified.epoch < state'.currentJustified.epoch ∧
      state'.currentJustified.epoch - trusted.epoch ≤ cfg.epochLookaheadLimit := by
  obtain ⟨h1, h2, -, h3, -⟩ := processGroup_voters.1 h
  obtain ⟨hv, -, hs⟩ := (stateTransition_ok_iff _ _ _).1 h3
  have h2 := (validateLink_ok_iff.1 h2).2
  have hle : trusted.epoch ≤ state.currentJustified.epoch := by
    rw [← h1]
    rcases hv with hv | rfl
    · exact Nat.le_of_lt hv
    · exact Nat.le_refl _
  cases hs with
  | finalize c f b hb => exact ⟨hle, by show c.epoch < b.epoch; omega, by
      have : b.epoch ≤ trusted.epoch + cfg.epochLookaheadLimit := h2
      show b.epoch - trusted.epoch ≤ _; omega⟩
  | justify c f b hb => exact ⟨hle, by show c.epoch < b.epoch; omega, by
      have : b.epoch ≤ trusted.epoch + cfg.epochLookaheadLimit := h2
      show b.epoch - trusted.epoch ≤ _; omega⟩

theorem verifyLoop_asks (X : Ext) (cfg : Config) (R : Reader) (trusted : Checkpoint) (gs : List (Link × List Attestation)) : ∀ state : ConsensusState,
    Asks (min (1 + (cfg.epochLookaheadLimit - (state.currentJustified.epoch - trusted.epoch))) gs.length)
      (min (1 + (cfg.epochLookaheadLimit - (state.currentJustified.epoch - trusted.epoch))) gs.length)
      (gs.flatMap (·.2)).length (fun X => verifyLoop X cfg R trusted state gs) X := by
  induction gs with
  | nil => exact fun state => Asks.const _
  | cons g gs ih =>
    intro state
    obtain ⟨link, l⟩ := g
    cases e : processGroup X cfg R trusted state link l with
    | ok state' =>
      obtain ⟨h1, h2, h3⟩ := processGroup_later e
      refine Asks.mono (Asks.bind (processGroup_asks X cfg R trusted state link l) fun st hst => by rw [e] at hst; cases hst; exact ih state') ?_ ?_ ?_
      · rw [List.length_cons]; omega
      · rw [List.length_cons]; omega
      · simp [List.flatMap_cons]
    | err e' =>
      refine Asks.mono (Asks.bind (h' := 0) (s' := 0) (v' := 0) (processGroup_asks X cfg R trusted state link l) fun st hst => by rw [e] at hst; cases hst) ?_ ?_ ?_
      · rw [List.length_cons]; omega
      · rw [List.length_cons]; omega
      · simp [List.flatMap_cons]
    | panic =>
      refine Asks.mono (Asks.bind (h' := 0) (s' := 0) (v' := 0) (processGroup_asks X cfg R trusted state link l) fun st hst => by rw [e] at hst; cases hst) ?_ ?_ ?_
      · rw [List.length_cons]; omega
      · rw [List.length_cons]; omega
      · simp [List.flatMap_cons]


/-! ## The bytes of the input -/

namespace Wire
variable {α β : Type}

/-- Arithmetic after the costs have been put in. -/
local macro "count" : tactic => `(tactic| ((try beta_reduce at *); (try dsimp only at *); omega))

/-- What is read takes at least this many bytes. -/
def Takes (d : Decoder α) (cost : α → Nat) : Prop := ∀ b x rest, d b = some (x, rest) → rest.length + cost x ≤ b.length

theorem takes_pure {a : α} {c : α → Nat} (h : c a = 0) : Takes (pure a) c := by
  intro b x rest hx; rw [pure_apply] at hx; cases hx; count

/-- One decoder after another: the second may count bytes that the first has read. -/
theorem takes_bind {d : Decoder α} {f : α → Decoder β} {c : α → Nat} {c' : β → Nat} (hd : Takes d c)
    (hf : ∀ x b y rest, f x b = some (y, rest) → rest.length + c' y ≤ b.length + c x) : Takes (d >>= f) c' := by
  intro b y rest h
  obtain ⟨x, r, h1, h2⟩ := bind_eq_some.1 h
  have := hd _ _ _ h1
  have := hf _ _ _ _ h2
  count

theorem takes_check (c : Bool) : Takes (check c) (fun _ => 0) := by
  intro b x rest h; unfold check at h; split at h
  · cases h; count
  · cases h

theorem takes_take (n : Nat) : Takes (take n) (fun _ => n) := by
  intro b x rest h; unfold take at h; split at h
  · cases h; simp; count
  · cases h

theorem takes_u64 : Takes decodeU64 (fun _ => 8) :=
  takes_bind (takes_take 8) fun x b y rest h => by rw [pure_apply] at h; cases h; count

theorem takes_u32 : Takes decodeU32 (fun _ => 4) :=
  takes_bind (takes_take 4) fun x b y rest h => by rw [pure_apply] at h; cases h; count

theorem takes_usize (word : Nat) : Takes (decodeUsize word) (fun _ => 8) :=
  takes_bind takes_u64 fun x b y rest h => by
    have := takes_bind (c' := fun _ => 0) (takes_check _) (fun _ b y rest h => by rw [pure_apply] at h; cases h; count) b y rest h
    count

theorem takes_bytes (word : Nat) : Takes (decodeBytes word) (fun x => 8 + x.length) :=
  takes_bind (takes_usize word) fun n b y rest h => by
    have h1 := takes_take n b y rest h
    have h2 := gives_take n b y rest h
    count

theorem takes_root (word : Nat) : Takes (decodeRoot word) (fun _ => 8) :=
  takes_bind (takes_bytes word) fun x b y rest h => by
    have := takes_bind (c' := fun _ => 0) (takes_check _) (fun _ b y rest h => by rw [pure_apply] at h; cases h; count) b y rest h
    count

theorem takes_decodeN {d : Decoder α} {c : α → Nat} (hd : Takes d c) (n : Nat) : Takes (decodeN d n) (fun l => (l.map c).sum) := by
  induction n with
  | zero => exact takes_pure rfl
  | succ n ih =>
    exact takes_bind hd fun x b y rest h => by
      obtain ⟨l, r, h1, h2⟩ := bind_eq_some.1 h
      have := ih _ _ _ h1
      rw [pure_apply] at h2
      cases h2
      simp only [List.map_cons, List.sum_cons]; count

theorem takes_seq (word : Nat) {d : Decoder α} {c : α → Nat} (hd : Takes d c) : Takes (decodeSeq word d) (fun l => 8 + (l.map c).sum) :=
  takes_bind (takes_usize word) fun n b y rest h => by have := takes_decodeN hd n b y rest h; count

theorem sum_const (l : List α) (n : Nat) : (l.map (fun _ => n)).sum = n * l.length := by
  induction l with
  | nil => simp
  | cons a l ih => rw [List.map_cons, List.sum_cons, ih, List.length_cons, Nat.mul_add]; count

theorem takes_map {V : Type} (word : Nat) {dk : Decoder Nat} {dv : Decoder V} {n : Nat} (hk : Takes dk (fun _ => 0)) (hv : Takes dv (fun _ => n)) :
    Takes (decodeMap word dk dv) (fun m => 8 + n * m.length) :=
  takes_bind (takes_seq word (c := fun _ => n) (takes_bind hk fun x b y rest h => by
    obtain ⟨v, r, h1, h2⟩ := bind_eq_some.1 h
    have := hv _ _ _ h1
    rw [pure_apply] at h2; cases h2; count)) fun l b y rest h => by
      rw [pure_apply] at h; cases h
      have : (OMap.ofList l).length ≤ l.length := by have := foldl_insert_length_le l []; simpa [OMap.ofList] using this
      have := Nat.mul_le_mul_left n this
      rw [sum_const]; count

theorem takes_weaken {d : Decoder α} {c c' : α → Nat} (h : Takes d c) (hle : ∀ x, c' x ≤ c x) : Takes d c' :=
  fun b x rest hx => le_trans (Nat.add_le_add_left (hle x) _) (h b x rest hx)

theorem takes_bits (word : Nat) : Takes (decodeBitVec word) (fun _ => 0) := by
  intro b l rest h
  obtain ⟨n, r1, h1, h⟩ := bind_eq_some.1 h
  obtain ⟨_, r2, h2, h⟩ := bind_eq_some.1 h
  obtain ⟨name, r3, h3, h⟩ := bind_eq_some.1 h
  obtain ⟨_, r4, h4, h⟩ := bind_eq_some.1 h
  obtain ⟨head, r5, h5, h⟩ := bind_eq_some.1 h
  obtain ⟨_, r6, h6, h⟩ := bind_eq_some.1 h
  obtain ⟨_, r7, h7, h⟩ := bind_eq_some.1 h
  obtain ⟨bits, r8, h8, h⟩ := bind_eq_some.1 h
  obtain ⟨_, r9, h9, h⟩ := bind_eq_some.1 h
  obtain ⟨data, r10, h10, h⟩ := bind_eq_some.1 h
  obtain ⟨_, r11, h11, h⟩ := bind_eq_some.1 h
  rw [pure_apply] at h; cases h
  have := takes_u64 _ _ _ h1
  have := takes_check _ _ _ _ h2
  have := takes_take _ _ _ _ h3
  have := takes_check _ _ _ _ h4
  have := takes_take _ _ _ _ h5
  have := takes_check _ _ _ _ h6
  have := takes_check _ _ _ _ h7
  have := takes_u64 _ _ _ h8
  have := takes_check _ _ _ _ h9
  have := takes_seq word takes_u32 _ _ _ h10
  have := takes_check _ _ _ _ h11
  count

variable (keyValid sigValid : Bytes → Bool) (word : Nat)

theorem takes_multiproof : Takes (decodeMultiproof (realWire keyValid sigValid) word) (fun p => p.data.length) :=
  takes_bind (takes_bytes word) fun data b p rest h => by
    obtain ⟨mask, r1, h1, h⟩ := bind_eq_some.1 h
    obtain ⟨desc, r2, h2, h⟩ := bind_eq_some.1 h
    obtain ⟨depth, r3, h3, h⟩ := bind_eq_some.1 h
    rw [pure_apply] at h; cases h
    have := takes_bits word _ _ _ h1
    have := takes_bits word _ _ _ h2
    have := takes_usize word _ _ _ h3
    count

theorem takes_key : Takes (decodeKey (realWire keyValid sigValid)) (fun _ => 96) :=
  takes_bind (takes_take 96) fun x b y rest h => by
    have := takes_bind (c' := fun _ => 0) (takes_check _) (fun _ b y rest h => by rw [pure_apply] at h; cases h; count) b y rest h
    count

theorem takes_patch : Takes (decodePatch word) (fun _ => 16) :=
  takes_bind (takes_map word (takes_weaken takes_u32 fun _ => Nat.zero_le _) (takes_root word)) fun mixes b y rest h => by
    obtain ⟨exits, r1, h1, h⟩ := bind_eq_some.1 h
    rw [pure_apply] at h; cases h
    have := takes_map word (takes_weaken (takes_usize word) fun _ => Nat.zero_le _) takes_u64 _ _ _ h1
    count

theorem takes_state : Takes (decodeState word) (fun _ => 0) := by
  have hc : Takes (decodeCheckpoint word) (fun _ => 0) := takes_bind takes_u64 fun e b y rest h => by
    obtain ⟨root, r1, h1, h⟩ := bind_eq_some.1 h
    rw [pure_apply] at h; cases h
    have := takes_root word _ _ _ h1
    count
  exact takes_bind hc fun c b y rest h => by
    obtain ⟨f, r1, h1, h⟩ := bind_eq_some.1 h
    rw [pure_apply] at h; cases h
    have := hc _ _ _ h1
    count

theorem attestation_length {b : Bytes} {a : Attestation} (h : Ssz.decodeAttestation sigValid b = some a) : 229 ≤ b.length := by
  cases b with
  | nil => cases h
  | cons sel b =>
    simp only [Ssz.decodeAttestation] at h
    rw [List.length_cons]
    split at h
    · rw [Option.map_eq_some_iff] at h
      obtain ⟨x, h, -⟩ := h
      unfold Ssz.decodeBase at h
      split at h
      · cases h
      · omega
    · split at h
      · rw [Option.map_eq_some_iff] at h
        obtain ⟨x, h, -⟩ := h
        unfold Ssz.decodeElectra at h
        split at h
        · cases h
        · omega
      · cases h

theorem takes_attestation : Takes (decodeDiskAttestation (realWire keyValid sigValid) word) (fun _ => 237) :=
  takes_bind (takes_bytes word) fun x b y rest h => by
    unfold lift at h
    rw [Option.map_eq_some_iff] at h
    obtain ⟨a, h1, h2⟩ := h
    cases h2
    have := attestation_length sigValid h1
    count

theorem input_takes {b : Bytes} {input : GuestInput} (h : decodeInput (realWire keyValid sigValid) word b = some input) :
    input.beaconBlock.data.length + input.beaconState.data.length + input.activeValidators.data.length +
      (input.blockSlotProofs.map (fun p => p.data.length)).sum +
      96 * input.publicKeys.length + 237 * input.attestations.length + 16 * input.patches.length ≤ b.length := by
  unfold decodeInput at h
  rw [Option.map_eq_some_iff] at h
  obtain ⟨⟨i, rest⟩, h, rfl⟩ := h
  obtain ⟨block, r1, h1, h⟩ := bind_eq_some.1 h
  obtain ⟨state, r2, h2, h⟩ := bind_eq_some.1 h
  obtain ⟨validators, r3, h3, h⟩ := bind_eq_some.1 h
  obtain ⟨keys, r4, h4, h⟩ := bind_eq_some.1 h
  obtain ⟨patches, r5, h5, h⟩ := bind_eq_some.1 h
  obtain ⟨cs, r6, h6, h⟩ := bind_eq_some.1 h
  obtain ⟨atts, r7, h7, h⟩ := bind_eq_some.1 h
  obtain ⟨slots, r8, h8, h⟩ := bind_eq_some.1 h
  rw [pure_apply] at h; cases h
  have := takes_multiproof keyValid sigValid word _ _ _ h1
  have := takes_multiproof keyValid sigValid word _ _ _ h2
  have := takes_multiproof keyValid sigValid word _ _ _ h3
  have t4 := takes_seq word (takes_key keyValid sigValid) _ _ _ h4
  have := takes_map word (takes_weaken takes_u64 fun _ => Nat.zero_le _) (takes_patch word) _ _ _ h5
  have := takes_state word _ _ _ h6
  have t7 := takes_seq word (takes_attestation keyValid sigValid word) _ _ _ h7
  have := takes_seq word (takes_multiproof keyValid sigValid word) _ _ _ h8
  beta_reduce at t4 t7
  rw [sum_const] at t4 t7
  count

end Wire

end Signal
