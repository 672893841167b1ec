import Verif.Props.Wire
import Verif.Proofs.Size
import Verif.Props.Providers

/-!
# C65: the size of proofs and inputs
-/

namespace Signal
open Spec Wire

/-- **C65.** A built proof has one chunk and one mask bit more than the requested nodes have proper ancestors, and two descriptor bits for
each of these and one more; its stack needs at most 126 nodes. -/
theorem C65_proof_size (X : Ext) (T : Tree) (hT : T.Chunked) (S : OSet) (hS : OSet.Sorted S) (h : GoodRequest T S)
    (order : List Nat → List Nat) (ho : ∀ l, (order l).Perm l) (p : Multiproof) (hb : build X order S T = .ok p) :
    ProofSize (ancestorsOf S).length p := build_size X hT hS h order ho hb

/-- **C65.** What is an ancestor. -/
theorem C65_ancestors (S : List Nat) (hS : ∀ s ∈ S, s < 2 ^ 64) (n : Nat) :
    n ∈ ancestorsOf S ↔ 0 < n ∧ ∃ s ∈ S, ∃ k, s / 2 ^ (k + 1) = n := by
  rw [mem_ancestorsOf hS]
  unfold SB Below
  have : ∀ s k, s / 2 / 2 ^ k = s / 2 ^ (k + 1) := by
    intro s k
    rw [Nat.div_div_eq_div_mul, Nat.pow_succ, Nat.mul_comm]
  simp only [this]

theorem sorted_keys_nodup {V : Type} {m : OMap V} (h : m.Sorted) : (m.map (·.1)).Nodup := by
  unfold OMap.Sorted at h
  rw [List.Nodup, List.pairwise_map]
  exact h.imp (fun hab => Nat.ne_of_lt hab)

theorem length_le_of_keys {V : Type} {m : OMap V} (h : m.Sorted) (A : List Nat) (hA : ∀ x ∈ m, x.1 ∈ A) :
    m.length ≤ A.length := by
  have := List.Subperm.length_le (List.subperm_of_subset (sorted_keys_nodup h) (l₂ := A) (by
    intro n hn
    obtain ⟨x, hx, rfl⟩ := List.mem_map.1 hn
    exact hA x hx))
  rwa [List.length_map] at this

theorem changedExits_length (vs ws : List Validator) : (changedExits vs ws).length ≤ vs.length := by
  unfold changedExits
  refine le_trans (List.length_filterMap_le _ _) ?_
  rw [List.length_zipIdx, List.length_zip]
  omega

theorem presentKeys_mem {dec : Bytes → Option Bytes} {t : Nat} (vs : List Validator) :
    (presentKeys dec t vs).length ≤ vs.length ∧ ∀ k ∈ presentKeys dec t vs, ∃ v ∈ vs, dec v.pubkey = some k := by
  induction vs with
  | nil => simp [presentKeys]
  | cons v vs ih =>
    unfold presentKeys
    split
    · exact ⟨by simp only [List.length_cons]; omega, fun k hk => (ih.2 k hk).imp fun v h => ⟨List.mem_cons_of_mem _ h.1, h.2⟩⟩
    · split
      · rename_i k hk
        refine ⟨by simp only [List.length_cons]; omega, ?_⟩
        intro k' hk'
        rcases List.mem_cons.1 hk' with rfl | hk'
        · exact ⟨_, List.mem_cons_self, hk⟩
        · exact (ih.2 k' hk').imp fun v h => ⟨List.mem_cons_of_mem _ h.1, h.2⟩
      · exact ⟨by simp only [List.length_cons]; omega, fun k hk => (ih.2 k hk).imp fun v h => ⟨List.mem_cons_of_mem _ h.1, h.2⟩⟩

section fits
variable (W : WireExt) (hW : WireLaws W) (X : Ext) (order : List Nat → List Nat) (ho : ∀ l, (order l).Perm l)
  (hcap : 126 ≤ X.stackCapacity)
variable {cfg : Config} {r : HostReader} {trusted : Checkpoint} {st : HostState} {input : GuestInput}
  {pre post : ConsensusState} {slot : Nat}

theorem proofSize_fits {n word : Nat} {p : Multiproof} (h : ProofSize n p) (hn : 32 * (n + 1) < word) (hw : 126 < word) :
    ProofFits word p := by
  obtain ⟨h1, h2, h3, h4⟩ := h
  exact ⟨by omega, by omega, by omega, by omega⟩

/-- The parts of the patches of a built input. -/
theorem patches_parts {qs : List Query} {t : Nat} {vs : List Validator} {patches : OMap StatePatch}
    (hp : PatchesFor r t vs qs patches) {spec : ChainSpec} {root : Root} (hq : qs = verifyQueries X spec r.attestations root) :
    (∀ x ∈ patches, ∃ a ∈ r.attestations, x.1 = a.data.target.epoch) ∧
    (∀ x ∈ patches, x.2.randaoMixes.length ≤ 1 ∧ x.2.validatorExits.length ≤ vs.length ∧ x.2.randaoMixes.Sorted ∧
      x.2.validatorExits.Sorted ∧
      (∀ y ∈ x.2.randaoMixes, y.1 < 2 ^ 32 ∧ ∃ s, r.state x.1 = .ok s ∧ y.2 ∈ s.randaoMixes) ∧
      ∀ y ∈ x.2.validatorExits, y.1 < vs.length ∧ ∃ s, r.state x.1 = .ok s ∧ ∃ v ∈ s.beacon.validators, y.2 = v.exitEpoch) := by
  constructor
  · intro x hx
    have hg := (OMap.get?_eq_some_iff hp.sorted).2 hx
    rcases hp.epochs x.1 x.2 hg with ⟨h, -⟩ | ⟨i, h⟩
    · rw [hq] at h
      rcases mem_verifyQueries.1 h with ⟨a, ha, h | h⟩ | h
      · exact ⟨a, ha, Query.activeValidators.inj h⟩
      · cases h
      · cases h
    · rw [hq] at h
      rcases mem_verifyQueries.1 h with ⟨a, ha, h | h⟩ | h
      · cases h
      · obtain ⟨h, -⟩ := Query.randaoMix.inj h; exact ⟨a, ha, h⟩
      · cases h
  · intro x hx
    have hg := (OMap.get?_eq_some_iff hp.sorted).2 hx
    have hs := hp.mixes_sorted x.1 x.2 hg
    have hmix : ∀ y ∈ x.2.randaoMixes, y.1 = seedMixIndex X spec x.1 ∧ ∃ s, r.state x.1 = .ok s ∧ y.2 ∈ s.randaoMixes := by
      intro y hy
      obtain ⟨h1, s, h2, h3⟩ := hp.mixes_only x.1 x.2 y.1 y.2 hg ((OMap.get?_eq_some_iff hs).2 hy)
      refine ⟨?_, s, h2, List.mem_of_getElem? h3⟩
      rw [hq] at h1
      rcases mem_verifyQueries.1 h1 with ⟨a, ha, h | h⟩ | h
      · cases h
      · obtain ⟨h, h'⟩ := Query.randaoMix.inj h; rw [h', h]
      · cases h
    have hex : x.2.validatorExits = [] ∨ ∃ s, r.state x.1 = .ok s ∧ x.2.validatorExits = changedExits vs s.beacon.validators := by
      by_cases h : Query.activeValidators x.1 ∈ qs ∧ x.1 ≠ t
      · obtain ⟨s, p, h1, h2, h3⟩ := hp.exits x.1 h.1 h.2
        rw [hg] at h2
        cases h2
        exact Or.inr ⟨s, h1, h3⟩
      · refine Or.inl (hp.no_exits x.1 x.2 ?_ hg)
        by_cases h' : Query.activeValidators x.1 ∈ qs
        · exact Or.inr (by_contra fun hne => h ⟨h', hne⟩)
        · exact Or.inl h'
    refine ⟨?_, ?_, hs, ?_, ?_, ?_⟩
    · exact length_le_of_keys hs [seedMixIndex X spec x.1] (fun y hy => by rw [(hmix y hy).1]; exact List.mem_singleton.2 rfl)
    · rcases hex with h | ⟨s, -, h⟩
      · rw [h]; exact Nat.zero_le _
      · rw [h]; exact changedExits_length _ _
    · rcases hex with h | ⟨s, -, h⟩
      · rw [h]; exact List.Pairwise.nil
      · rw [h]; exact changedExits_sorted _ _
    · intro y hy
      obtain ⟨h1, h2⟩ := hmix y hy
      exact ⟨by rw [h1]; exact Nat.mod_lt _ (by norm_num), h2⟩
    · intro y hy
      rcases hex with h | ⟨s, h1, h⟩
      · rw [h] at hy; cases hy
      · rw [h] at hy
        obtain ⟨v, w, k1, k2, -, k4⟩ := mem_changedExits.1 (show (y.1, y.2) ∈ _ from hy)
        exact ⟨(List.getElem?_eq_some_iff.1 k1).1, s, h1, w, List.mem_of_getElem? k2, k4⟩

theorem patches_count {qs : List Query} {t : Nat} {vs : List Validator} {patches : OMap StatePatch}
    (hp : PatchesFor r t vs qs patches) {spec : ChainSpec} {root : Root} (hq : qs = verifyQueries X spec r.attestations root) :
    patches.length ≤ r.attestations.length := by
  have := length_le_of_keys hp.sorted (r.attestations.map (fun a => a.data.target.epoch)) (fun x hx => by
    obtain ⟨a, ha, h⟩ := (patches_parts X hp hq).1 x hx
    exact List.mem_map.2 ⟨a, ha, h.symm⟩)
  rwa [List.length_map] at this

theorem trusted_provided {trusted : Checkpoint} {st : HostState} (ht : TrustedState X r trusted st) :
    ∃ slot, r.provider slot = .ok st := by
  obtain ⟨-, slot, h, -⟩ := C57_root_matches X _ _ _ _ _ ht.found
  exact ⟨slot, h⟩

theorem state_provided {r : HostReader} {e : Nat} {s : HostState} (h : r.state e = .ok s) : ∃ slot, r.provider slot = .ok s := by
  unfold HostReader.state at h
  rw [Res.mapErr_eq_ok] at h
  exact ⟨_, h⟩

theorem slots_le_one {trusted : Checkpoint} {st : HostState} {root : Root}
    (hi : InputFor X r trusted st (verifyQueries X r.spec r.attestations root) input) : input.blockSlotProofs.length ≤ 1 := by
  obtain ⟨roots, h1, h2, h3⟩ := hi.slots_count
  rw [h3]
  have : ∀ x ∈ roots, x = root := by
    intro x hx
    rcases mem_verifyQueries.1 (h2 x hx) with ⟨a, ha, h | h⟩ | h
    · cases h
    · cases h
    · cases h; rfl
  exact List.Subperm.length_le (List.subperm_of_subset h1 (l₂ := [root]) (fun x hx => by rw [this x hx]; exact List.mem_singleton.2 rfl))

include hW ho hcap

/-- **C65.** An input the preflight has made from `n` validators is a value of the Rust types on every machine with at least
`288 * n + 1400` values of `usize`; so it is deserialized to itself there. -/
theorem C65_preflight_fits (word : Nat) (ht : TrustedState X r trusted st)
    (hc : Consistent X r trusted st (verifyQueries X r.spec r.attestations post.finalized.root))
    (h : preflight X order cfg r trusted = .ok (input, pre, post, slot)) (hwf : WfHost W r)
    (hword : 288 * st.beacon.validators.length + 1400 ≤ word) (hcount : r.attestations.length < word)
    (hatt : ∀ a ∈ r.attestations, (W.encodeAttestation a).length < word) : InputFits W word input := by
  obtain ⟨-, -, log, hl, hi⟩ := preflight_parts X order ht h
  have hf := inputFor_of_toInput X order ho hcap ht hc hl hi
  obtain ⟨p1, p2⟩ := patches_parts X hf.patches rfl
  obtain ⟨k1, k2⟩ := presentKeys_mem (dec := r.decompress) (t := trusted.epoch) st.beacon.validators
  obtain ⟨n, hn, hs⟩ := hf.registry_size
  obtain ⟨ts, hts⟩ := trusted_provided X ht
  exact {
    beaconBlock := proofSize_fits hf.block_size (by omega) (by omega)
    beaconState := proofSize_fits hf.state_size (by omega) (by omega)
    activeValidators := proofSize_fits hs (by omega) (by omega)
    keysCount := by rw [hf.keys]; omega
    keys := by
      intro k hk
      rw [hf.keys] at hk
      obtain ⟨v, hv, hpk⟩ := k2 k hk
      exact hwf.keys _ st hts v hv k hpk
    patchesSorted := hf.patches.sorted
    patchesCount := lt_of_le_of_lt (patches_count X hf.patches rfl) hcount
    patches := by
      intro x hx
      obtain ⟨a, ha, he⟩ := p1 x hx
      obtain ⟨q1, q2, q3, q4, q5, q6⟩ := p2 x hx
      refine ⟨?_, q3, by omega, ?_, q4, by omega, ?_⟩
      · rw [he]
        exact (hW.checkpoints _ _ (hwf.attestations a ha)).2.1
      · intro y hy
        obtain ⟨h1, s, h2, h3⟩ := q5 y hy
        exact ⟨h1, hwf.mixes _ s (state_provided h2).choose_spec _ h3⟩
      · intro y hy
        obtain ⟨h1, s, h2, v, h3, h4⟩ := q6 y hy
        exact ⟨by omega, by rw [h4]; exact hwf.exits _ s (state_provided h2).choose_spec v h3⟩
    state := by rw [hf.consensus]; exact hwf.state
    attestationsCount := by rw [hf.attestations]; exact hcount
    attestations := by
      rw [hf.attestations]
      exact fun a ha => ⟨hatt a ha, hwf.attestations a ha⟩
    slotProofsCount := lt_of_le_of_lt (slots_le_one X hf) (by omega)
    slotProofs := by
      intro p hp
      obtain ⟨roots, -, h2⟩ := hf.slots
      obtain ⟨root, -, h3⟩ := forall₂_mem_right h2 hp
      exact proofSize_fits h3.size (by omega) (by omega) }

omit hW ho hcap in
theorem multiproof_length {n : Nat} {p : Multiproof} (hbits : ∀ l, (W.encodeBits l).length ≤ l.length + 64) (h : ProofSize n p) :
    (encodeMultiproof W p).length ≤ 35 * n + 178 := by
  obtain ⟨h1, h2, h3, -⟩ := h
  have b1 := hbits p.valueMask
  have b2 := hbits p.descriptor
  simp only [encodeMultiproof, encodeBytes, encodeU64, List.length_append, leBytes_length]
  omega

omit hW ho hcap in
theorem flatten_length_le {α : Type} (f : α → Bytes) (c : Nat) (l : List α) (h : ∀ x ∈ l, (f x).length ≤ c) :
    (l.map f).flatten.length ≤ c * l.length := by
  induction l with
  | nil => simp
  | cons a l ih =>
    simp only [List.map_cons, List.flatten_cons, List.length_append, List.length_cons]
    have h1 := h a List.mem_cons_self
    have h2 := ih (fun x hx => h x (List.mem_cons_of_mem _ hx))
    rw [Nat.mul_add, Nat.mul_one]
    omega

omit hW ho hcap in
theorem encodeSeq_length_le {α : Type} (f : α → Bytes) (c : Nat) (l : List α) (h : ∀ x ∈ l, (f x).length ≤ c) :
    (encodeSeq f l).length ≤ 8 + c * l.length := by
  have := flatten_length_le f c l h
  simp only [encodeSeq, encodeU64, List.length_append, leBytes_length]
  omega

omit hW ho hcap in
theorem patch_length {n : Nat} {p : StatePatch} (h1 : p.randaoMixes.length ≤ 1) (h2 : p.validatorExits.length ≤ n)
    (h3 : ∀ y ∈ p.randaoMixes, y.2.length = 32) : (encodePatch p).length ≤ 16 * n + 60 := by
  unfold encodePatch
  have a : (encodeMap encodeU32 encodeBytes p.randaoMixes).length ≤ 8 + 44 * p.randaoMixes.length :=
    encodeSeq_length_le _ 44 _ (fun x hx => by
    have := h3 x hx
    simp only [encodeU32, encodeBytes, encodeU64, List.length_append, leBytes_length]
    omega)
  have b : (encodeMap encodeU64 encodeU64 p.validatorExits).length ≤ 8 + 16 * p.validatorExits.length :=
    encodeSeq_length_le _ 16 _ (fun x _ => by
    simp only [encodeU64, List.length_append, leBytes_length]
    omega)
  have c : (encodeMap encodeU32 encodeBytes p.randaoMixes ++ encodeMap encodeU64 encodeU64 p.validatorExits).length = _ := List.length_append
  omega

/-- **C65.** The serialization of an input the preflight has made from `n` validators, for `k` epochs, takes at most
`411 * n + k * (16 * n + 68) + 3600` bytes and the attestations, if the format of a bit vector takes at most a byte for each
bit and 64 bytes more. -/
theorem C65_input_size (ht : TrustedState X r trusted st)
    (hc : Consistent X r trusted st (verifyQueries X r.spec r.attestations post.finalized.root))
    (h : preflight X order cfg r trusted = .ok (input, pre, post, slot)) (hwf : WfHost W r)
    (hbits : ∀ l, (W.encodeBits l).length ≤ l.length + 64) (size : Nat)
    (hatt : ∀ a ∈ r.attestations, (W.encodeAttestation a).length ≤ size) :
    (encodeInput W input).length ≤ 411 * st.beacon.validators.length +
      input.patches.length * (16 * st.beacon.validators.length + 68) + r.attestations.length * (size + 8) + 3600 := by
  obtain ⟨-, -, log, hl, hi⟩ := preflight_parts X order ht h
  have hf := inputFor_of_toInput X order ho hcap ht hc hl hi
  obtain ⟨p1, p2⟩ := patches_parts X hf.patches rfl
  obtain ⟨k1, k2⟩ := presentKeys_mem (dec := r.decompress) (t := trusted.epoch) st.beacon.validators
  obtain ⟨n, hn, hs⟩ := hf.registry_size
  obtain ⟨ts, hts⟩ := trusted_provided X ht
  have b1 := multiproof_length W hbits hf.block_size
  have b2 := multiproof_length W hbits hf.state_size
  have b3 := multiproof_length W hbits hs
  have b4 := encodeSeq_length_le id 96 input.publicKeys (fun k hk => by
    rw [hf.keys] at hk
    obtain ⟨v, hv, hpk⟩ := k2 k hk
    exact Nat.le_of_eq (hwf.keys _ st hts v hv k hpk).1)
  rw [hf.keys] at b4
  have b5 : (encodeMap encodeU64 encodePatch input.patches).length ≤
      8 + (16 * st.beacon.validators.length + 68) * input.patches.length :=
    encodeSeq_length_le _ _ _ (fun x hx => by
      obtain ⟨q1, q2, q3, q4, q5, q6⟩ := p2 x hx
      have := patch_length q1 q2 (fun y hy => by
        obtain ⟨-, s, h2, h3⟩ := q5 y hy
        exact hwf.mixes _ s (state_provided h2).choose_spec _ h3)
      simp only [encodeU64, List.length_append, leBytes_length]
      omega)
  have b6 : (encodeState input.consensusState).length = 96 := by
    rw [hf.consensus]
    obtain ⟨⟨-, h1⟩, -, h2⟩ := hwf.state
    simp only [encodeState, encodeCheckpoint, encodeBytes, encodeU64, List.length_append, leBytes_length, h1, h2]
  have b7 := encodeSeq_length_le (encodeDiskAttestation W) (size + 8) r.attestations (fun a ha => by
    have := hatt a ha
    simp only [encodeDiskAttestation, encodeBytes, encodeU64, List.length_append, leBytes_length]
    omega)
  have b8 := encodeSeq_length_le (encodeMultiproof W) 283 input.blockSlotProofs (fun p hp => by
    obtain ⟨roots, -, h2⟩ := hf.slots
    obtain ⟨root, -, h3⟩ := forall₂_mem_right h2 hp
    exact multiproof_length W hbits h3.size)
  have b9 := slots_le_one X hf
  rw [Nat.mul_comm (16 * st.beacon.validators.length + 68)] at b5
  rw [Nat.mul_comm (size + 8)] at b7
  unfold encodeInput
  rw [hf.attestations, hf.keys]
  simp only [List.length_append]
  omega

/-- **C65.** There are patches for at most half as many epochs as the lookahead limit, and for one more at most at the start of the chain. -/
theorem C65_patch_count (ht : TrustedState X r trusted st)
    (hc : Consistent X r trusted st (verifyQueries X r.spec r.attestations post.finalized.root))
    (h : preflight X order cfg r trusted = .ok (input, pre, post, slot)) :
    2 * input.patches.length ≤ cfg.epochLookaheadLimit + 2 := by
  obtain ⟨hv, hp, log, hl, hi⟩ := preflight_parts X order ht h
  have hf := inputFor_of_toInput X order ho hcap ht hc hl hi
  obtain ⟨links, h1, h2, -⟩ := C18_link_count X cfg r.toReader post slot hv _ rfl _ rfl
  have := length_le_of_keys hf.patches.sorted (links.map (fun l => l.target.epoch)) (fun x hx => by
    obtain ⟨a, ha, h⟩ := (patches_parts X hf.patches rfl).1 x hx
    rw [h1.concat] at ha
    obtain ⟨l, hl, hal⟩ := List.mem_flatMap.1 ha
    have := of_decide_eq_true (List.mem_filter.1 hal).2
    refine List.mem_map.2 ⟨l, hl, ?_⟩
    rw [h, ← this]
    rfl)
  rw [List.length_map] at this
  omega

/-- **C65.** For the shipped configurations, up to `2^22` validators and two gigabytes of attestations, the whole input is below `2^32`
bytes, so its length fits the frame, and the guest, a machine with `2^32` values of `usize`, reads it as the host wrote it. -/
theorem C65_shipped (ht : TrustedState X r trusted st)
    (hc : Consistent X r trusted st (verifyQueries X r.spec r.attestations post.finalized.root))
    (h : preflight X order cfg r trusted = .ok (input, pre, post, slot)) (hwf : WfHost W r)
    (hbits : ∀ l, (W.encodeBits l).length ≤ l.length + 64) (hcfg : cfg.epochLookaheadLimit ≤ 4)
    (hV : st.beacon.validators.length ≤ 2 ^ 22) (size : Nat)
    (hatt : ∀ a ∈ r.attestations, (W.encodeAttestation a).length ≤ size)
    (htotal : r.attestations.length * (size + 8) ≤ 2 ^ 31) :
    InputFits W (2 ^ 32) input ∧ (encodeInput W input).length < 2 ^ 32 := by
  have hn : r.attestations.length ≤ 2 ^ 31 := by
    refine Nat.le_trans ?_ htotal
    exact Nat.le_mul_of_pos_right _ (by omega)
  have hs : r.attestations ≠ [] → size < 2 ^ 32 := by
    intro hne
    have : 1 * (size + 8) ≤ r.attestations.length * (size + 8) :=
      Nat.mul_le_mul_right _ (List.length_pos_iff.2 hne)
    norm_num at htotal ⊢
    omega
  refine ⟨C65_preflight_fits W hW X order ho hcap _ ht hc h hwf ?_ ?_ ?_, ?_⟩
  · norm_num at hV ⊢
    omega
  · norm_num at hn ⊢
    omega
  · intro a ha
    exact Nat.lt_of_le_of_lt (hatt a ha) (hs (List.ne_nil_of_mem ha))
  · have h1 := C65_input_size W hW X order ho hcap ht hc h hwf hbits size hatt
    have h2 := C65_patch_count W hW X order ho hcap ht hc h
    have h3 : input.patches.length * (16 * st.beacon.validators.length + 68) ≤ 3 * (16 * st.beacon.validators.length + 68) :=
      Nat.mul_le_mul_right _ (by omega)
    norm_num at hV htotal ⊢
    omega

/-- **C65, C64, C61.** So the host's check of an input it has built succeeds, with and without the virtual machine, without any
condition on the input itself other than that its patches are accepted. -/
theorem C65_shipped_check (capacity : Nat) (hhi : X.usizeMod ≤ 2 ^ 64) (hle : 2 ^ 32 ≤ X.usizeMod)
    (hroom : 126 ≤ capacity) (hk : KeepsLength X) (ht : TrustedState X r trusted st)
    (hc : Consistent X r trusted st (verifyQueries X r.spec r.attestations post.finalized.root))
    (hf : ∀ a ∈ r.attestations, ∀ l, r.activeValidators a.data.target.epoch = .ok l →
      FitsWord X.usizeMod r.spec l ∧ FitsWord (2 ^ 32) r.spec l)
    (h : preflight X order cfg r trusted = .ok (input, pre, post, slot))
    (hbal : ∀ a ∈ r.attestations, ∀ s, r.state a.data.target.epoch = .ok s →
      ∀ (i : Nat) (v w : Validator), st.beacon.validators[i]? = some v → s.beacon.validators[i]? = some w →
        w.activeAt a.data.target.epoch → w.effectiveBalance = v.effectiveBalance)
    (hacc : ∃ g, input.intoReader X r.spec = .ok g) (hwf : WfHost W r)
    (hbits : ∀ l, (W.encodeBits l).length ≤ l.length + 64) (hcfg : cfg.epochLookaheadLimit ≤ 4)
    (hV : st.beacon.validators.length ≤ 2 ^ 22) (size : Nat)
    (hatt : ∀ a ∈ r.attestations, (W.encodeAttestation a).length ≤ size)
    (htotal : r.attestations.length * (size + 8) ≤ 2 ^ 31) (r0vm : Bool) :
    runVerify W X (onMachine X (2 ^ 32) capacity) r.spec cfg pre (encodeInput W input) r0vm = .ok post := by
  obtain ⟨h1, h2⟩ := C65_shipped W hW X order ho hcap ht hc h hwf hbits hcfg hV size hatt htotal
  exact C64_complete W hW X order ho hcap _ capacity (by norm_num) hhi hle hroom hk ht hc hf h hbal hacc h1 h2 r0vm

/-- **C65, C63.** And the guest program commits, when started with the file the host wrote, to the journal the host announced, if the
patches of the input are accepted. -/
theorem C65_shipped_guest {ε : Type} (capacity : Nat) (hle : 2 ^ 32 ≤ X.usizeMod)
    (hroom : 126 ≤ capacity) (hk : KeepsLength X) (ht : TrustedState X r trusted st)
    (hc : Consistent X r trusted st (verifyQueries X r.spec r.attestations post.finalized.root))
    (hf : ∀ a ∈ r.attestations, ∀ l, r.activeValidators a.data.target.epoch = .ok l →
      FitsWord X.usizeMod r.spec l ∧ FitsWord (2 ^ 32) r.spec l)
    (h : preflight X order cfg r trusted = .ok (input, pre, post, slot))
    (hbal : ∀ a ∈ r.attestations, ∀ s, r.state a.data.target.epoch = .ok s →
      ∀ (i : Nat) (v w : Validator), st.beacon.validators[i]? = some v → s.beacon.validators[i]? = some w →
        w.activeAt a.data.target.epoch → w.effectiveBalance = v.effectiveBalance)
    (hacc : ∃ g, input.intoReader X r.spec = .ok g) (hwf : WfHost W r)
    (hbits : ∀ l, (W.encodeBits l).length ≤ l.length + 64) (hcfg : cfg.epochLookaheadLimit ≤ 4)
    (hV : st.beacon.validators.length ≤ 2 ^ 22) (size : Nat)
    (hatt : ∀ a ∈ r.attestations, (W.encodeAttestation a).length ≤ size)
    (htotal : r.attestations.length * (size + 8) ≤ 2 ^ 31) :
    (guestMain W (onMachine X (2 ^ 32) capacity) r.spec cfg (Frame.encodeInputStdin (encodeInput W input)) : Res ε Bytes) =
      .ok (Abi.encodeJournal pre post slot) := by
  obtain ⟨h1, h2⟩ := C65_shipped W hW X order ho hcap ht hc h hwf hbits hcfg hV size hatt htotal
  have hmach := preflight_intoReader W hW X order ho hcap (2 ^ 32) capacity hroom hk ht hc hf h
  have hg := C62_same_journal X order ho hcap (2 ^ 32) capacity hroom hk ht hc hf h hbal (by rw [hmach]; exact hacc) (ε := ε)
  have hm := C63_guest_reads (ε := ε) W hW (onMachine X (2 ^ 32) capacity) (by show 32 < 2 ^ 32; norm_num)
    (by show 2 ^ 32 ≤ 2 ^ 64; norm_num) r.spec cfg input h1 h2 []
  rw [List.append_nil, hg] at hm
  exact hm

end fits

/-! ## Concrete cases -/

/-- C65: the proof of nodes 3 and 5 has two inner nodes. -/
example : ∃ p, build exExt id [3, 5] exTree = .ok p ∧ ProofSize 2 p := by
  obtain ⟨p, hp, -⟩ := C28_built_proof_verifies exExt exTree exProof_encodes.2.1 [3, 5] (by decide) exRequest_good id
    (fun _ => .refl _) (by decide)
  have h := C65_proof_size exExt exTree exProof_encodes.2.1 [3, 5] (by decide) exRequest_good id (fun _ => .refl _) p hp
  have e : (ancestorsOf [3, 5]).length = 2 := by decide +kernel
  rw [e] at h
  exact ⟨p, hp, h⟩

example : 2 ∈ ancestorsOf [3, 5] ∧ 3 ∉ ancestorsOf [3, 5] := by
  rw [C65_ancestors _ (by decide), C65_ancestors _ (by decide)]
  refine ⟨⟨by decide, 5, by decide, 0, by decide⟩, ?_⟩
  rintro ⟨-, s, hs, k, hk⟩
  have h2 : s ≤ 5 := by
    simp only [List.mem_cons, List.not_mem_nil, or_false] at hs
    omega
  have : s / 2 ^ (k + 1) ≤ 5 / 2 := by
    refine (Nat.div_le_div_right h2).trans ?_
    exact Nat.div_le_div_left (by rw [Nat.pow_succ]; have := Nat.one_le_two_pow (n := k); omega) (by decide)
  omega

theorem fx_provided {slot : Nat} {s : HostState} (h : fxHost.provider slot = .ok s) :
    s = fxState 12 gxVs ∨ s = fxState 24 fxVs ∨ s = fxState 28 fxVs := by
  have h : fxProvider slot = .ok s := h
  unfold fxProvider at h
  split at h
  · cases h; exact .inl rfl
  · split at h
    · cases h; exact .inr (.inl rfl)
    · split at h
      · cases h; exact .inr (.inr rfl)
      · cases h

theorem fx_wf : WfHost exWire fxHost where
  mixes := by
    intro slot s hs x hx
    have : x = exRoot32 1 := by
      rcases fx_provided hs with rfl | rfl | rfl <;> exact List.eq_of_mem_replicate hx
    rw [this]
    decide
  exits := by
    intro slot s hs
    have h1 : ∀ v ∈ gxVs, v.exitEpoch < 2 ^ 64 := by decide +kernel
    have h2 : ∀ v ∈ fxVs, v.exitEpoch < 2 ^ 64 := by decide +kernel
    rcases fx_provided hs with rfl | rfl | rfl
    · exact h1
    · exact h2
    · exact h2
  keys := by
    intro slot s hs v hv k hk
    have h1 : ∀ v ∈ gxVs, (v.pubkey ++ List.replicate 48 0).length = 96 := by decide +kernel
    have h2 : ∀ v ∈ fxVs, (v.pubkey ++ List.replicate 48 0).length = 96 := by decide +kernel
    have hk : some (v.pubkey ++ List.replicate 48 0) = some k := hk
    cases hk
    refine ⟨?_, rfl⟩
    rcases fx_provided hs with rfl | rfl | rfl
    · exact h1 v hv
    · exact h2 v hv
    · exact h2 v hv
  state := gxInput_fits.state
  attestations := fun a ha => (gxInput_fits.attestations a ha).2

theorem exWire_bits (l : List Bool) : (exWire.encodeBits l).length ≤ l.length + 64 := by
  have := encodeSeq_length_le (fun b : Bool => [if b then (1 : UInt8) else 0]) 1 l (fun _ _ => Nat.le_refl 1)
  have e : (exWire.encodeBits l).length = (encodeSeq (fun b : Bool => [if b then (1 : UInt8) else 0]) l).length := rfl
  omega

/-- C65, C64 and C63 for the concrete host: the input it builds fits the frame and the guest, the host's checks of it succeed, and the
guest commits to the host's result when it is started with the file. -/
example : ∃ input, preflight exExt id Config.default fxHost gxC3 = .ok (input, fxHost.consensusState, ⟨exC7, gxC6⟩, 24) ∧
    InputFits exWire (2 ^ 32) input ∧ (encodeInput exWire input).length < 2 ^ 32 ∧
    (∀ r0vm, runVerify exWire exExt (onMachine exExt (2 ^ 32) 126) fxHost.spec Config.default fxHost.consensusState
      (encodeInput exWire input) r0vm = .ok ⟨exC7, gxC6⟩) ∧
    (guestMain exWire (onMachine exExt (2 ^ 32) 126) fxHost.spec Config.default (Frame.encodeInputStdin (encodeInput exWire input)) :
      Res Unit Bytes) = .ok (Abi.encodeJournal fxHost.consensusState ⟨exC7, gxC6⟩ 24) := by
  obtain ⟨input, hp, hj⟩ := fx_same_journal
  have ho : ∀ l : List Nat, (id l).Perm l := fun l => List.Perm.refl l
  have hcap : 126 ≤ exExt.stackCapacity := by decide
  have hc : Consistent exExt fxHost gxC3 (fxState 12 gxVs)
      (verifyQueries exExt fxHost.spec fxHost.attestations (⟨exC7, gxC6⟩ : ConsensusState).finalized.root) := by
    rw [show (⟨exC7, gxC6⟩ : ConsensusState).finalized.root = gxC6.root from rfl, fx_queries]
    exact fx_consistent
  have hword : exExt.usizeMod = 2 ^ 32 := rfl
  have hf : ∀ a ∈ fxHost.attestations, ∀ l, fxHost.activeValidators a.data.target.epoch = .ok l →
      FitsWord exExt.usizeMod fxHost.spec l ∧ FitsWord (2 ^ 32) fxHost.spec l := by
    intro a ha l hl
    have h6 : fxHost.activeValidators 6 = .ok (exActive.set 8 (8, { exVal 8 with exitEpoch := 9 })) := by decide +kernel
    have h7 : fxHost.activeValidators 7 = .ok (exActive.set 8 (8, { exVal 8 with exitEpoch := 9 })) := by decide +kernel
    have : ∀ a ∈ fxHost.attestations, a.data.target.epoch = 6 ∨ a.data.target.epoch = 7 := by decide +kernel
    rcases this a ha with h | h
    · rw [h, h6] at hl
      cases hl
      have := (ex_fits (l := exActive.set 8 (8, { exVal 8 with exitEpoch := 9 })) (by decide) (by decide) fxHost.spec rfl).1
      exact ⟨this, hword ▸ this⟩
    · rw [h, h7] at hl
      cases hl
      have := (ex_fits (l := exActive.set 8 (8, { exVal 8 with exitEpoch := 9 })) (by decide) (by decide) fxHost.spec rfl).1
      exact ⟨this, hword ▸ this⟩
  have hacc : ∃ g, input.intoReader exExt fxHost.spec = .ok g := by
    obtain ⟨reader, _, _, hr, _⟩ := guestEntry_eq_ok hj
    exact ⟨reader, hr⟩
  have hbal : ∀ a ∈ fxHost.attestations, ∀ s, fxHost.state a.data.target.epoch = .ok s → ∀ (i : Nat) (v w : Validator),
      (fxState 12 gxVs).beacon.validators[i]? = some v → s.beacon.validators[i]? = some w →
      w.activeAt a.data.target.epoch → w.effectiveBalance = v.effectiveBalance :=
    fun a _ s hs i v w hvi hwi _ => fx_balances s hs i v w hvi hwi
  have hV : (fxState 12 gxVs).beacon.validators.length ≤ 2 ^ 22 := by
    have e : (fxState 12 gxVs).beacon.validators.length = gxVs.length := rfl
    have : gxVs.length ≤ 20 := by decide
    rw [e]
    exact this.trans (by norm_num)
  have hatt : ∀ a ∈ fxHost.attestations, (exWire.encodeAttestation a).length ≤ 1 := fun a _ => Nat.le_refl 1
  have htotal : fxHost.attestations.length * (1 + 8) ≤ 2 ^ 31 := by
    have e : fxHost.attestations.length = 9 := by decide
    rw [e]
    norm_num
  have hs := C65_shipped exWire exWire_laws exExt id ho hcap fx_trusted hc hp fx_wf exWire_bits (by decide) hV 1 hatt htotal
  exact ⟨input, hp, hs.1, hs.2,
    C65_shipped_check exWire exWire_laws exExt id ho hcap 126 (by rw [hword]; norm_num) (by rw [hword]) (by decide) exExt_keepsLength
      fx_trusted hc hf hp hbal hacc fx_wf exWire_bits (by decide) hV 1 hatt htotal,
    C65_shipped_guest exWire exWire_laws exExt id ho hcap 126 (by rw [hword]) (by decide) exExt_keepsLength
      fx_trusted hc hf hp hbal hacc fx_wf exWire_bits (by decide) hV 1 hatt htotal⟩

end Signal
