import Verif.Spec.Machine
import Verif.Props.SameVerdict

/-! The same program on two machines: helper lemmas. -/

namespace Signal
open Spec

theorem onMachine_self (X : Ext) : onMachine X X.usizeMod X.stackCapacity = X := rfl

theorem length_ofList_le {α : Type} (l : List (Nat × α)) : (OMap.ofList l).length ≤ l.length := by
  have h1 : ∀ (m : OMap α) (k : Nat) (v : α), (m.insert k v).length ≤ m.length + 1 := by
    intro m k v
    induction m with
    | nil => simp [OMap.insert]
    | cons e m ih =>
      obtain ⟨a, b⟩ := e
      simp only [OMap.insert]
      split
      · simp
      · split <;> simp <;> omega
  have h2 : ∀ (l : List (Nat × α)) (m : OMap α),
      (l.foldl (fun m e => m.insert e.1 e.2) m).length ≤ m.length + l.length := by
    intro l
    induction l with
    | nil => intro m; simp
    | cons e l ih =>
      intro m
      have := ih (m.insert e.1 e.2)
      have := h1 m e.1 e.2
      simp only [List.foldl_cons, List.length_cons]
      omega
  have := h2 l []
  simp only [List.length_nil, Nat.zero_add] at this
  exact this

theorem ofList_fst {α : Type} (l : List (Nat × α)) : ∀ p ∈ OMap.ofList l, ∃ x ∈ l, x.1 = p.1 := by
  have h : ∀ (l : List (Nat × α)) (m : OMap α), ∀ p ∈ l.foldl (fun m e => OMap.insert m e.1 e.2) m,
      (∃ x ∈ l, x.1 = p.1) ∨ ∃ x ∈ m, x.1 = p.1 := by
    intro l
    induction l with
    | nil => intro m p hp; exact Or.inr ⟨p, hp, rfl⟩
    | cons e l ih =>
      intro m p hp
      rcases ih _ p hp with ⟨x, hx, h⟩ | ⟨x, hx, h⟩
      · exact Or.inl ⟨x, by simp [hx], h⟩
      · rcases OMap.mem_insert_fst hx with h' | h'
        · exact Or.inl ⟨e, by simp, by rw [← h, h']⟩
        · exact Or.inr ⟨x, h', h⟩
  intro p hp
  exact (h l [] p hp).resolve_right (by simp)

variable {X : Ext} {m k : Nat}

/-! ## Committees and votes -/

theorem getSeed_machine {R : Reader} {epoch : Nat} {d : Bytes} (h1 : R.spec.epochsPerHistoricalVector ∣ X.usizeMod)
    (h2 : R.spec.epochsPerHistoricalVector ∣ m) :
    R.getSeed (onMachine X m k) epoch d = R.getSeed X epoch d := by
  unfold Reader.getSeed
  refine Res.bind_congr fun _ _ => Res.bind_congr fun _ _ => Res.bind_congr fun i _ => ?_
  have : R.getRandaoMix (onMachine X m k) epoch i = R.getRandaoMix X epoch i := by
    unfold Reader.getRandaoMix safeRem
    have e : (onMachine X m k).usizeMod = m := rfl
    rw [e, Nat.mod_mod_of_dvd _ h1, Nat.mod_mod_of_dvd _ h2]
  rw [this]
  rfl

theorem initialized_machine {spec : ChainSpec} {seed : Bytes} {indices : List Nat} {cps epoch : Nat}
    (h1 : ∀ i ∈ indices, i + 1 < X.usizeMod) (h2 : ∀ i ∈ indices, i + 1 < m) :
    CommitteeCache.initialized (onMachine X m k) spec seed indices cps epoch =
      CommitteeCache.initialized X spec seed indices cps epoch := by
  unfold CommitteeCache.initialized
  refine Res.bind_congr fun _ _ => Res.bind_congr fun maxIndex hm => Res.bind_congr fun sh _ => ?_
  rw [okOr_eq_ok] at hm
  have hmem := List.max?_mem hm
  have e : (onMachine X m k).usizeMod = m := rfl
  have a1 := h1 _ hmem
  have a2 := h2 _ hmem
  rw [e, decide_eq_true (show maxIndex < X.usizeMod - 1 by omega), decide_eq_true (show maxIndex < m - 1 by omega)]

theorem getBeaconCommittee_machine {spec : ChainSpec} {c : CommitteeCache} {slot i : Nat}
    (hs : c.slotsPerEpoch = spec.slotsPerEpoch)
    (h1 : NoUsizeWrap X.usizeMod c.shuffling.length c.committeesPerSlot c.slotsPerEpoch)
    (h2 : NoUsizeWrap m c.shuffling.length c.committeesPerSlot c.slotsPerEpoch) :
    c.getBeaconCommittee (onMachine X m k) spec slot i = c.getBeaconCommittee X spec slot i := by
  by_cases hc : c.initializedEpoch = some (slot / spec.slotsPerEpoch) ∧ i < c.committeesPerSlot
  · rw [getBeaconCommittee_eq h1 hs hc.1 rfl hc.2, getBeaconCommittee_eq (X := onMachine X m k) h2 hs hc.1 rfl hc.2]
  · unfold CommitteeCache.getBeaconCommittee
    refine Res.bind_congr fun _ _ => Res.bind_congr fun e he => Res.bind_congr fun _ h3 => Res.bind_congr fun _ h4 => ?_
    rw [ensure_eq_ok, decide_eq_true_eq] at h3 h4
    unfold slotEpoch at he
    split at he
    · simp at he
    · cases he
      exact absurd ⟨h3, h4⟩ hc

theorem attestingLoop_machine {spec : ChainSpec} {c : CommitteeCache} {a : AttestationElectra}
    (hs : c.slotsPerEpoch = spec.slotsPerEpoch)
    (h1 : NoUsizeWrap X.usizeMod c.shuffling.length c.committeesPerSlot c.slotsPerEpoch)
    (h2 : NoUsizeWrap m c.shuffling.length c.committeesPerSlot c.slotsPerEpoch) :
    ∀ (cis : List Nat) (acc : OSet) (off : Nat), attestingLoop (onMachine X m k) spec c a cis acc off =
      attestingLoop X spec c a cis acc off := by
  intro cis
  induction cis with
  | nil => intros; rfl
  | cons ci cis ih =>
    intro acc off
    simp only [attestingLoop, getBeaconCommittee_machine hs h1 h2, ih]

theorem processAttestation_machine {R : Reader} {active : OMap ValidatorInfo} {c : CommitteeCache} {a : Attestation}
    (hs : c.slotsPerEpoch = R.spec.slotsPerEpoch)
    (h1 : NoUsizeWrap X.usizeMod c.shuffling.length c.committeesPerSlot c.slotsPerEpoch)
    (h2 : NoUsizeWrap m c.shuffling.length c.committeesPerSlot c.slotsPerEpoch) :
    processAttestation (onMachine X m k) R active c a = processAttestation X R active c a := by
  unfold processAttestation
  cases a with
  | base d => rfl
  | electra a =>
    have : getAttestingIndices (onMachine X m k) R.spec a c = getAttestingIndices X R.spec a c := by
      unfold getAttestingIndices
      rw [attestingLoop_machine hs h1 h2]
    simp only [this]
    rfl

theorem collectParticipants_machine {R : Reader} {active : OMap ValidatorInfo} {c : CommitteeCache}
    (hs : c.slotsPerEpoch = R.spec.slotsPerEpoch)
    (h1 : NoUsizeWrap X.usizeMod c.shuffling.length c.committeesPerSlot c.slotsPerEpoch)
    (h2 : NoUsizeWrap m c.shuffling.length c.committeesPerSlot c.slotsPerEpoch) :
    ∀ (as : List Attestation) (acc : OSet), collectParticipants (onMachine X m k) R active c as acc =
      collectParticipants X R active c as acc := by
  intro as
  induction as with
  | nil => intros; rfl
  | cons a as ih =>
    intro acc
    simp only [collectParticipants, processAttestation_machine hs h1 h2, ih]

theorem noWrap_of_fits {word : Nat} {spec : ChainSpec} {l : List (Nat × ValidatorInfo)} {n cps : Nat}
    (hf : FitsWord word spec l) (hn : n ≤ l.length) (hspe : spec.slotsPerEpoch ≠ 0)
    (hc : cps ≤ max 1 spec.maxCommitteesPerSlot) : NoUsizeWrap word n cps spec.slotsPerEpoch := by
  refine ⟨hf.slots, Nat.pos_of_ne_zero hspe, lt_of_le_of_lt (Nat.mul_le_mul_right _ hc) hf.count, ?_⟩
  exact lt_of_le_of_lt (Nat.mul_le_mul hn (Nat.mul_le_mul_right _ hc)) hf.range

theorem processGroup_machine {cfg : Config} {R : Reader} {trusted : Checkpoint} {state : ConsensusState} {link : Link}
    {atts : List Attestation} (hk : KeepsLength X)
    (hf : ∀ l, R.activeValidators link.target.epoch = .ok l → FitsWord X.usizeMod R.spec l ∧ FitsWord m R.spec l) :
    processGroup (onMachine X m k) cfg R trusted state link atts = processGroup X cfg R trusted state link atts := by
  unfold processGroup
  refine Res.bind_congr fun _ _ => Res.bind_congr fun _ _ => Res.bind_congr fun l hl => ?_
  rw [Res.mapErr_eq_ok] at hl
  obtain ⟨f1, f2⟩ := hf l hl
  have hkeys : ∀ i ∈ (OMap.ofList l).keys, ∃ x ∈ l, x.1 = i := by
    intro i hi
    obtain ⟨p, hp, rfl⟩ := List.mem_map.1 hi
    exact ofList_fst l p hp
  have hcc : computeCommittees (onMachine X m k) R (OMap.ofList l) link.target.epoch =
      computeCommittees X R (OMap.ofList l) link.target.epoch := by
    unfold computeCommittees
    rw [getSeed_machine f1.history f2.history]
    refine Res.bind_congr fun _ _ => Res.bind_congr fun _ _ => ?_
    rw [initialized_machine]
    · intro i hi
      obtain ⟨x, hx, rfl⟩ := hkeys i hi
      exact f1.indices x hx
    · intro i hi
      obtain ⟨x, hx, rfl⟩ := hkeys i hi
      exact f2.indices x hx
  dsimp only
  rw [hcc]
  refine Res.bind_congr fun c hc => ?_
  have : ∀ acc, collectParticipants (onMachine X m k) R (OMap.ofList l) c atts acc =
      collectParticipants X R (OMap.ofList l) c atts acc := by
    unfold computeCommittees at hc
    simp only [Res.bind_eq_ok, Res.mapErr_eq_ok] at hc
    obtain ⟨seed, -, cps, hcps, hc⟩ := hc
    obtain ⟨-, -, g3, -, g5, g6, -⟩ := initialized_ok hc
    have hlen := hk _ _ _ _ g3
    unfold committeeCountPerSlot at hcps
    simp only [Res.bind_eq_ok, Res.mapErr_eq_ok, Res.pure_eq, Res.ok.injEq] at hcps
    obtain ⟨a, ha, b, -, rfl⟩ := hcps
    have hspe : R.spec.slotsPerEpoch ≠ 0 := by
      intro h0
      simp [safeDiv, h0] at ha
    have hl' : c.shuffling.length ≤ l.length := by
      rw [hlen]
      have := length_ofList_le l
      simpa [OMap.keys] using this
    have hcp : c.committeesPerSlot ≤ max 1 R.spec.maxCommitteesPerSlot := by
      rw [g5]; omega
    intro acc
    apply collectParticipants_machine g6
    · rw [g6]; exact noWrap_of_fits f1 hl' hspe hcp
    · rw [g6]; exact noWrap_of_fits f2 hl' hspe hcp
  rw [this]

theorem verifyLoop_machine {cfg : Config} {R : Reader} {trusted : Checkpoint} (hk : KeepsLength X) :
    ∀ {gs : List (Link × List Attestation)}
      (_ : ∀ p ∈ gs, ∀ l, R.activeValidators p.1.target.epoch = .ok l →
        FitsWord X.usizeMod R.spec l ∧ FitsWord m R.spec l) (state : ConsensusState),
      verifyLoop (onMachine X m k) cfg R trusted state gs = verifyLoop X cfg R trusted state gs := by
  intro gs
  induction gs with
  | nil => intros; rfl
  | cons p gs ih =>
    obtain ⟨link, atts⟩ := p
    intro hf state
    simp only [verifyLoop]
    rw [processGroup_machine hk (hf (link, atts) (by simp))]
    refine Res.bind_congr fun s _ => ?_
    exact ih (fun p hp => hf p (by simp [hp])) s

/-! ## Proofs and the guest's reader -/

theorem root_machine (t : Tree) : t.root (onMachine X m k) = t.root X := by
  induction t with
  | leaf b => rfl
  | node l r ihl ihr => simp only [Tree.root, ihl, ihr]; rfl

theorem reduceStack_machine (st : List TreeNode) : reduceStack (onMachine X m k) st = reduceStack X st := by
  induction st using reduceStack.induct (X := X) with
  | case1 r l rest rv lv hr hl ih =>
    rw [reduceStack, reduceStack.eq_1 X]
    simp only [hr, hl]
    exact ih
  | case2 r l rest h =>
    rw [reduceStack, reduceStack.eq_1 X]
    split
    · rename_i rv lv h1 h2
      exact absurd h2 (by intro h2; exact h _ _ h1 h2)
    · rfl
  | case3 st h => rw [reduceStack.eq_2 _ _ h, reduceStack.eq_2 _ _ h]

theorem rootLoop_machine (data : Bytes) : ∀ (d : List Bool) (st : List TreeNode) (i : Nat),
    rootLoop (onMachine X m k) data d st i = rootLoop X data d st i := by
  intro d
  induction d with
  | nil => intros; rfl
  | cons b d ih =>
    intro st i
    cases b <;> simp only [rootLoop, reduceStack_machine, ih]

theorem calculateRoot_machine {p : Multiproof} (h1 : p.maxStackDepth ≤ X.stackCapacity) (h2 : p.maxStackDepth ≤ k) :
    p.calculateRoot (onMachine X m k) = p.calculateRoot X := by
  unfold Multiproof.calculateRoot calculateCompactMultiMerkleRoot
  have e : (onMachine X m k).stackCapacity = k := rfl
  rw [e, decide_eq_true h1, decide_eq_true h2, rootLoop_machine]

theorem verify_machine {p : Multiproof} {root : Root} (h1 : p.maxStackDepth ≤ X.stackCapacity)
    (h2 : p.maxStackDepth ≤ k) : p.verify (onMachine X m k) root = p.verify X root := by
  unfold Multiproof.verify
  rw [calculateRoot_machine h1 h2]

theorem blockSlotLoop_machine : ∀ {ps : List Multiproof} (_ : ∀ p ∈ ps, p.maxStackDepth ≤ X.stackCapacity)
    (_ : ∀ p ∈ ps, p.maxStackDepth ≤ k) (l : List (Root × Nat)),
    blockSlotLoop (onMachine X m k) ps l = blockSlotLoop X ps l := by
  intro ps
  induction ps with
  | nil => intros; rfl
  | cons p ps ih =>
    intro h1 h2 l
    simp only [blockSlotLoop]
    rw [calculateRoot_machine (h1 p (by simp)) (h2 p (by simp))]
    refine Res.bind_congr fun root _ => Res.bind_congr fun x _ => ?_
    exact ih (fun p hp => h1 p (by simp [hp])) (fun p hp => h2 p (by simp [hp])) _

theorem extractLoop_machine (e : Nat) : ∀ (fuel : Nat) (vs : List (Nat × Bytes)) (keys : List Bytes) (i : Nat)
    (cache : OMap ValidatorInfo),
    extractLoop (onMachine X m k) e fuel vs keys i cache = extractLoop X e fuel vs keys i cache := by
  intro fuel
  induction fuel with
  | zero => intros; rfl
  | succ fuel ih =>
    intro vs keys i cache
    have hx : ∀ pk vs i, extractValidator (onMachine X m k) pk vs i = extractValidator X pk vs i := fun _ _ _ => rfl
    unfold extractLoop
    simp only [ih, hx]

theorem validatePatchLoop_machine {ε : Type} (spec : ChainSpec) (patches : OMap StatePatch) (vs : OMap ValidatorInfo)
    (t churn : Nat) : ∀ (l : OMap StatePatch) (earliest : Nat),
    (validatePatchLoop (onMachine X m k) spec patches vs t churn l earliest : Res ε _) =
      validatePatchLoop X spec patches vs t churn l earliest := by
  intro l
  induction l with
  | nil => intros; rfl
  | cons e l ih =>
    obtain ⟨epoch, p⟩ := e
    intro earliest
    simp only [validatePatchLoop, ih]
    rfl

/-- The proofs of an input. -/
def GuestInput.proofs (input : GuestInput) : List Multiproof :=
  [input.beaconBlock, input.beaconState, input.activeValidators] ++ input.blockSlotProofs

theorem intoReader_machine {spec : ChainSpec} {input : GuestInput}
    (h1 : ∀ p ∈ input.proofs, p.maxStackDepth ≤ X.stackCapacity) (h2 : ∀ p ∈ input.proofs, p.maxStackDepth ≤ k) :
    input.intoReader (onMachine X m k) spec = input.intoReader X spec := by
  simp only [GuestInput.proofs, List.mem_append, List.mem_cons, List.not_mem_nil, or_false] at h1 h2
  unfold GuestInput.intoReader
  simp only [verify_machine (h1 _ (Or.inl (Or.inl rfl))) (h2 _ (Or.inl (Or.inl rfl))),
    verify_machine (h1 _ (Or.inl (Or.inr (Or.inl rfl)))) (h2 _ (Or.inl (Or.inr (Or.inl rfl)))),
    verify_machine (h1 _ (Or.inl (Or.inr (Or.inr rfl)))) (h2 _ (Or.inl (Or.inr (Or.inr rfl)))),
    blockSlotLoop_machine (fun p hp => h1 p (Or.inr hp)) (fun p hp => h2 p (Or.inr hp)),
    extractValidators, extractLoop_machine, validateStatePatches, validatePatchLoop_machine]

/-! ## The preflight -/

theorem hostStateOps_machine : hostStateOps (onMachine X m k) = hostStateOps X := by
  unfold hostStateOps
  simp only [root_machine]

theorem stateAtCheckpoint_machine {σ : Type} (ops : StateOps σ) (spe : Nat) (f : Nat → Res ProviderError σ) (c : Checkpoint) :
    stateAtCheckpoint (onMachine X m k) ops spe f c = stateAtCheckpoint X ops spe f c := by
  unfold stateAtCheckpoint
  simp only [root_machine]

theorem build_machine (order : List Nat → List Nat) (g : OSet) (t : Tree) :
    build (onMachine X m k) order g t = build X order g t := by
  unfold build
  simp only [root_machine]

theorem Spec.TrustedState.machine {r : HostReader} {trusted : Checkpoint} {st : HostState}
    (h : TrustedState X r trusted st) : TrustedState (onMachine X m k) r trusted st where
  found := by rw [hostStateOps_machine, stateAtCheckpoint_machine]; exact h.found
  start := h.start
  wf := h.wf
  header_wf := by rw [hostStateOps_machine]; exact h.header_wf
  fork := h.fork
  slots_per_epoch := h.slots_per_epoch
  finalized_past := h.finalized_past
  justified := h.justified
  small := h.small
  far := h.far
  keys := h.keys

theorem Spec.Consistent.machine {r : HostReader} {trusted : Checkpoint} {st : HostState} {qs : List Query}
    (h : Consistent X r trusted st qs) : Consistent (onMachine X m k) r trusted st qs where
  states := h.states
  headers root hd hh := by rw [root_machine]; exact h.headers root hd hh
  genesis := h.genesis
  forks := h.forks

theorem verifyQueries_machine {spec : ChainSpec} {atts : List Attestation} {root : Root}
    (h1 : atts ≠ [] → spec.epochsPerHistoricalVector ∣ X.usizeMod) (h2 : atts ≠ [] → spec.epochsPerHistoricalVector ∣ m) :
    verifyQueries (onMachine X m k) spec atts root = verifyQueries X spec atts root := by
  by_cases ha : atts = []
  · subst ha; rfl
  · have : ∀ e, seedMixIndex (onMachine X m k) spec e = seedMixIndex X spec e := by
      intro e
      unfold seedMixIndex
      have e : (onMachine X m k).usizeMod = m := rfl
      rw [e, Nat.mod_mod_of_dvd _ (h1 ha), Nat.mod_mod_of_dvd _ (h2 ha)]
    unfold verifyQueries
    simp only [this]

theorem slotProof_machine {order : List Nat → List Nat} {r : HostReader} {root : Root} {p q : Multiproof}
    (h1 : slotProof X order r root = .ok p) (h2 : slotProof (onMachine X m k) order r root = .ok q) : q = p := by
  unfold slotProof at h1 h2
  rw [Res.bind_eq_ok] at h1 h2
  obtain ⟨a, ha, h1⟩ := h1
  obtain ⟨a', ha', h2⟩ := h2
  rw [ha] at ha'; cases ha'
  rw [Res.bind_eq_ok] at h1 h2
  obtain ⟨a, ha, h1⟩ := h1
  obtain ⟨a', ha', h2⟩ := h2
  rw [ha] at ha'; cases ha'
  rw [Res.bind_eq_ok] at h1 h2
  obtain ⟨a, ha, h1⟩ := h1
  obtain ⟨a', ha', h2⟩ := h2
  rw [build_machine, ha] at ha'; cases ha'
  rw [Res.bind_eq_ok] at h1 h2
  obtain ⟨_, _, h1⟩ := h1
  obtain ⟨_, _, h2⟩ := h2
  cases h1; cases h2
  rfl

theorem mapRes_unique {ε α β : Type} {f g : α → Res ε β} (h : ∀ a p q, f a = .ok p → g a = .ok q → q = p) :
    ∀ {l : List α} {ps qs : List β}, mapRes f l = .ok ps → mapRes g l = .ok qs → qs = ps := by
  intro l
  induction l with
  | nil => intro ps qs h1 h2; cases h1; cases h2; rfl
  | cons a l ih =>
    intro ps qs h1 h2
    simp only [mapRes, Res.bind_eq_ok, Res.pure_eq, Res.ok.injEq] at h1 h2
    obtain ⟨p, h3, ps', h4, rfl⟩ := h1
    obtain ⟨q, h5, qs', h6, rfl⟩ := h2
    rw [h a p q h3 h5, ih h4 h6]

/-- The input does not depend on the machine. -/
theorem toInput_machine {order : List Nat → List Nat} {r : HostReader} {trusted : Checkpoint} {log : PreflightLog}
    {input input' : GuestInput} (h1 : toInput X order r trusted log = .ok input)
    (h2 : toInput (onMachine X m k) order r trusted log = .ok input') : input' = input := by
  unfold toInput at h1 h2
  rw [hostStateOps_machine, stateAtCheckpoint_machine] at h2
  simp only [build_machine, root_machine] at h2
  rw [Res.bind_eq_ok] at h1 h2
  obtain ⟨st, ha, h1⟩ := h1
  obtain ⟨st', ha', h2⟩ := h2
  rw [ha] at ha'; cases ha'
  rw [Res.bind_eq_ok] at h1 h2
  obtain ⟨b, ha, h1⟩ := h1
  obtain ⟨b', ha', h2⟩ := h2
  rw [ha] at ha'; cases ha'
  rw [Res.bind_eq_ok] at h1 h2
  obtain ⟨_, _, h1⟩ := h1
  obtain ⟨_, _, h2⟩ := h2
  rw [Res.bind_eq_ok] at h1 h2
  obtain ⟨s, ha, h1⟩ := h1
  obtain ⟨s', ha', h2⟩ := h2
  rw [ha] at ha'; cases ha'
  rw [Res.bind_eq_ok] at h1 h2
  obtain ⟨_, _, h1⟩ := h1
  obtain ⟨_, _, h2⟩ := h2
  rw [Res.bind_eq_ok] at h1 h2
  obtain ⟨ac, ha, h1⟩ := h1
  obtain ⟨ac', ha', h2⟩ := h2
  rw [ha] at ha'; cases ha'
  rw [Res.bind_eq_ok] at h1 h2
  obtain ⟨ks, ha, h1⟩ := h1
  obtain ⟨ks', ha', h2⟩ := h2
  rw [ha] at ha'; cases ha'
  rw [Res.bind_eq_ok] at h1 h2
  obtain ⟨av, ha, h1⟩ := h1
  obtain ⟨av', ha', h2⟩ := h2
  rw [ha] at ha'; cases ha'
  rw [Res.bind_eq_ok] at h1 h2
  obtain ⟨_, _, h1⟩ := h1
  obtain ⟨_, _, h2⟩ := h2
  rw [Res.bind_eq_ok] at h1 h2
  obtain ⟨b1, ha, h1⟩ := h1
  obtain ⟨b1', ha', h2⟩ := h2
  rw [ha] at ha'; cases ha'
  rw [Res.bind_eq_ok] at h1 h2
  obtain ⟨b2, ha, h1⟩ := h1
  obtain ⟨b2', ha', h2⟩ := h2
  rw [ha] at ha'; cases ha'
  rw [Res.bind_eq_ok] at h1 h2
  obtain ⟨sp, ha, h1⟩ := h1
  obtain ⟨sp', ha', h2⟩ := h2
  have := mapRes_unique (fun _ _ _ => slotProof_machine) ha ha'
  subst this
  cases h1; cases h2
  rfl

end Signal
