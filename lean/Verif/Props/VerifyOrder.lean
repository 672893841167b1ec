import Verif.Props.Verify

/-!
# C15: order and repetition of votes inside a block do not matter
-/

namespace Signal
open Spec

section chunk
variable {α κ : Type} [DecidableEq κ] {key : α → κ}

theorem chunkBy_block_append (g : List α) (k : κ) (hne : g ≠ []) (hk : ∀ a ∈ g, key a = k)
    (rest : List α) (hrest : ∀ p ∈ (chunkBy key rest).head?, p.1 ≠ k) :
    chunkBy key (g ++ rest) = (k, g) :: chunkBy key rest := by
  induction g with
  | nil => exact absurd rfl hne
  | cons a g ih =>
    have ha := hk a (by simp)
    cases g with
    | nil =>
      rw [List.singleton_append, chunkBy]
      cases hc : chunkBy key rest with
      | nil => simp [ha]
      | cons p ps =>
        obtain ⟨k', g'⟩ := p
        rw [hc] at hrest
        have : k' ≠ k := hrest (k', g') (by simp)
        simp only [ha]
        rw [if_neg (fun h => this h.symm)]
    | cons b g =>
      rw [List.cons_append, chunkBy, ih (by simp) (fun x hx => hk x (by simp [hx]))]
      simp [ha]

/-- Concatenating homogeneous non-empty blocks with distinct keys and grouping gives them back. -/
theorem chunkBy_concat {gs : List (κ × List α)} (hnd : (gs.map (·.1)).Nodup)
    (hne : ∀ p ∈ gs, p.2 ≠ []) (hk : ∀ p ∈ gs, ∀ a ∈ p.2, key a = p.1) :
    chunkBy key (gs.flatMap (·.2)) = gs := by
  induction gs with
  | nil => rfl
  | cons p gs ih =>
    obtain ⟨k, g⟩ := p
    simp only [List.map_cons, List.nodup_cons] at hnd
    have ih := ih hnd.2 (fun p hp => hne p (by simp [hp])) (fun p hp => hk p (by simp [hp]))
    rw [List.flatMap_cons, chunkBy_block_append g k (hne (k, g) (by simp)) (hk (k, g) (by simp)), ih]
    rw [ih]
    intro p hp hpk
    cases gs with
    | nil => simp at hp
    | cons q gs =>
      simp at hp; subst hp
      exact hnd.1 (by simp [hpk])

end chunk

theorem chunkBy_of_blocks {atts : List Attestation} {links : List Link} (h : Blocks atts links) :
    chunkBy linkOf atts =
      links.map (fun l => (l, atts.filter (fun a => decide (linkOf a = l)))) := by
  have := chunkBy_concat (key := linkOf)
    (gs := links.map (fun l => (l, atts.filter (fun a => decide (linkOf a = l)))))
    (by rw [List.map_map]; show (links.map id).Nodup; rw [List.map_id]; exact h.nodup)
    (by
      intro p hp
      obtain ⟨l, hl, rfl⟩ := List.mem_map.1 hp
      obtain ⟨a, ha, hal⟩ := h.nonempty l hl
      exact List.ne_nil_of_mem (List.mem_filter.2 ⟨ha, by simpa using hal⟩))
    (by
      intro p hp a ha
      obtain ⟨l, hl, rfl⟩ := List.mem_map.1 hp
      simpa using (List.mem_filter.1 ha).2)
  rw [List.flatMap_map] at this
  rw [← h.concat] at this
  exact this

theorem processGroup_congr {X : Ext} {cfg : Config} {R : Reader} {t : Checkpoint}
    {s s' : ConsensusState} {l : Link} {g g' : List Attestation} (hg : ∀ a, a ∈ g ↔ a ∈ g')
    (h : processGroup X cfg R t s l g = .ok s') : processGroup X cfg R t s l g' = .ok s' := by
  rw [processGroup_ok_iff] at h ⊢
  obtain ⟨h1, h2, l', c, f, h3, h4, h5, h6⟩ := h
  refine ⟨h1, h2, l', c, f, h3, h4, fun a ha => h5 a ((hg a).2 ha), ?_⟩
  have : OSet.extend [] (g'.flatMap f) = OSet.extend [] (g.flatMap f) := by
    apply OSet.eq_of_mem_iff (OSet.sorted_extend List.Pairwise.nil _)
      (OSet.sorted_extend List.Pairwise.nil _)
    intro i
    simp only [OSet.mem_extend, List.mem_flatMap, hg]
  rw [this]
  exact h6

theorem verifyLoop_congr {X : Ext} {cfg : Config} {R : Reader} {t : Checkpoint}
    {F F' : Link → List Attestation} (hF : ∀ l a, a ∈ F l ↔ a ∈ F' l) {links : List Link} :
    ∀ {s s' : ConsensusState},
    verifyLoop X cfg R t s (links.map (fun l => (l, F l))) = .ok s' →
    verifyLoop X cfg R t s (links.map (fun l => (l, F' l))) = .ok s' := by
  induction links with
  | nil => intro s s' h; exact h
  | cons l links ih =>
    intro s s' h
    rw [List.map_cons] at h ⊢
    rw [verifyLoop_cons] at h ⊢
    obtain ⟨s₁, h1, h2⟩ := h
    exact ⟨s₁, processGroup_congr (hF l) h1, ih h2⟩

theorem verifyLoop_setAtts {X : Ext} {cfg : Config} {R : Reader} {t : Checkpoint}
    (x : Res ReaderError (List Attestation)) {gs : List (Link × List Attestation)} :
    ∀ {s : ConsensusState}, verifyLoop X cfg { R with attestations := x } t s gs =
      verifyLoop X cfg R t s gs := by
  induction gs with
  | nil => intro s; rfl
  | cons p gs ih =>
    intro s
    simp only [verifyLoop, ih]
    congr 1
    unfold processGroup
    have hcp : ∀ (a : OMap ValidatorInfo) (c : CommitteeCache) (l : List Attestation) (acc : OSet),
        collectParticipants X { R with attestations := x } a c l acc =
          collectParticipants X R a c l acc := by
      intro a c l
      induction l with
      | nil => intro acc; rfl
      | cons b l ih => intro acc; simp only [collectParticipants, ih]; rfl
    simp only [hcp]
    rfl

/-- **C15.** If `verify` accepts an input, it accepts, with the same result, every input with the same
votes (as a set) in the same order of links: votes of a block may be permuted and repeated. -/
theorem C15_order_and_repetition (X : Ext) (cfg : Config) (R : Reader) (r : ConsensusState × Nat)
    (atts atts' : List Attestation) (links : List Link)
    (hatts : R.attestations = .ok atts) (h : verify X cfg R = .ok r)
    (hb : Blocks atts links) (hb' : Blocks atts' links) (hset : ∀ a, a ∈ atts' ↔ a ∈ atts) :
    verify X cfg { R with attestations := .ok atts' } = .ok r := by
  obtain ⟨post, slot⟩ := r
  obtain ⟨pre, atts₀, h1, h2, h3, h4, h5⟩ := verify_ok h
  rw [hatts] at h2; cases h2
  refine verify_ok_of (R := { R with attestations := .ok atts' }) h1 rfl ?_ h4 h5
  rw [verifyLoop_setAtts]
  rw [chunkBy_of_blocks hb] at h3
  rw [chunkBy_of_blocks hb']
  refine verifyLoop_congr ?_ h3
  intro l a
  simp only [List.mem_filter, hset]

/-- **C15.** Each validator is counted at most once per link: the voters of an accepted link are pairwise
distinct, although a validator may sign several votes of the block. -/
theorem C15_counted_once (X : Ext) (cfg : Config) (R : Reader) (r : ConsensusState × Nat)
    (h : verify X cfg R = .ok r) (atts : List Attestation) (hatts : R.attestations = .ok atts)
    (a : Attestation) (ha : a ∈ atts) :
    ∃ l, ∃ signers : Attestation → List Nat, ∃ voters : List Nat,
      R.activeValidators a.data.target.epoch = .ok l ∧
      (∀ b ∈ atts, linkOf b = linkOf a → Vote X R (OMap.ofList l) b (signers b)) ∧ voters.Nodup ∧
      (∀ i, i ∈ voters ↔ (∃ b ∈ atts, linkOf b = linkOf a ∧ i ∈ signers b) ∧
        ∃ v, (OMap.ofList l).get? i = some v ∧ v.slashed = false) ∧
      floored R.spec (totalWeight (OMap.ofList l)) * cfg.justificationThresholdFactor ≤
        floored R.spec (weight (OMap.ofList l) voters) * cfg.justificationThresholdQuotient := by
  obtain ⟨post, slot⟩ := r
  obtain ⟨l, signers, voters, h1, h2, h3, h4, h5⟩ :=
    C16_slashed_not_counted X cfg R post slot h atts hatts a ha
  exact ⟨l, signers, voters, h1, h3, h2, h4, h5⟩

/-! ## A concrete accepted input

Ten validators, one slashed, two links: epoch 4 → 6 (skips) and 6 → 7 (finalizes 6). -/

def exRoot32 (n : UInt8) : Root := n :: List.replicate 31 0

/-- The (uncompressed) key of a validator. -/
def exKey (i : Nat) : Bytes := UInt8.ofNat (100 + i) :: List.replicate 95 0

def exVal (i : Nat) : ValidatorInfo :=
  ⟨exKey i, 32, decide (i = 9), 0, 0, u64Max⟩

def exActive : List (Nat × ValidatorInfo) := (List.range 10).map (fun i => (i, exVal i))

/-- The vote of the whole committee(s) of a slot for a link, correctly signed. -/
def exVote (slot : Nat) (source target : Checkpoint) (signers : List Nat) : Attestation :=
  let data : AttestationData := ⟨slot, 0, List.replicate 32 0, source, target⟩
  .electra {
    aggregationBits := signers.map (fun _ => true)
    data := data
    committeeBits := [true, true] ++ List.replicate 62 false
    signature := padSig (exSpec.signingRoot data (exExt.computeDomain [5, 0, 0, 0] (exRoot32 77)) ++
      signers.map (fun i => UInt8.ofNat (100 + i))) }

def exC4 : Checkpoint := ⟨4, exRoot32 4⟩
def exC6 : Checkpoint := ⟨6, exRoot32 6⟩
def exC7 : Checkpoint := ⟨7, exRoot32 7⟩

/-- With ten validators, four slots and two committees per slot, slot `4e+k` has members
`10·2k/8 … 10·(2k+2)/8`. -/
def exVotes : List Attestation :=
  [exVote 24 exC4 exC6 [0, 1], exVote 25 exC4 exC6 [2, 3, 4], exVote 26 exC4 exC6 [5, 6],
   exVote 27 exC4 exC6 [7, 8, 9],
   exVote 28 exC6 exC7 [0, 1], exVote 30 exC6 exC7 [5, 6], exVote 29 exC6 exC7 [2, 3, 4],
   exVote 31 exC6 exC7 [7, 8, 9], exVote 28 exC6 exC7 [0, 1]]

def exReader : Reader where
  spec := exSpec
  genesisValidatorsRoot := .ok (exRoot32 77)
  fork := fun e => .ok (exSpec.forkAtEpoch e)
  activeValidators := fun _ => .ok exActive
  randaoMix := fun _ _ => .ok (some (exRoot32 1))
  attestations := .ok exVotes
  consensusState := .ok ⟨exC4, ⟨3, exRoot32 3⟩⟩
  slotForBlock := fun r => if r = exRoot32 6 then .ok 24 else .err .other

set_option maxRecDepth 100000 in
/-- The example input is accepted under the default configuration: 9 of 10 equal balances voted, the
tenth is slashed. -/
theorem exReader_verifies : verify exExt Config.default exReader = .ok (⟨exC7, exC6⟩, 24) := by
  decide +kernel

example : Blocks exVotes [⟨exC4, exC6⟩, ⟨exC6, exC7⟩] :=
  ⟨by decide +kernel, by decide +kernel, by decide +kernel⟩

/-- C18: these two links are as many as the lookahead limit of 4 allows. -/
example : ∃ links, Blocks exVotes links ∧ 2 * links.length ≤ 4 := by
  obtain ⟨links, h1, -, h2⟩ := C18_link_count exExt Config.default exReader _ _ exReader_verifies _ rfl _ rfl
  exact ⟨links, h1, h2 (by decide)⟩

set_option maxRecDepth 100000 in
/-- Without the votes of slot 31 the threshold is missed. -/
example : verify exExt Config.default
    { exReader with attestations := .ok (exVotes.eraseIdx 7) } = .err (.thresholdNotMet 224 272) := by
  decide +kernel

set_option maxRecDepth 100000 in
/-- The genesis exception of C11 occurs: from the all-zero state a link to epoch 1 may precede. -/
theorem C11_genesis_exception : ∃ (X : Ext) (cfg : Config) (R : Reader) (atts : List Attestation)
    (r : ConsensusState × Nat), R.consensusState = .ok ConsensusState.zero ∧
      R.attestations = .ok atts ∧ verify X cfg R = .ok r ∧
      Blocks atts [⟨⟨0, zeroRoot⟩, ⟨1, exRoot32 1⟩⟩, ⟨⟨1, exRoot32 1⟩, ⟨2, exRoot32 2⟩⟩] := by
  refine ⟨exExt, ⟨0, 6, 4, 70, 100⟩, { exReader with
      fork := fun _ => .ok ⟨[5, 0, 0, 0], [5, 0, 0, 0], 0⟩
      attestations := .ok [exVote 4 ⟨0, zeroRoot⟩ ⟨1, exRoot32 1⟩ [0, 1],
        exVote 5 ⟨0, zeroRoot⟩ ⟨1, exRoot32 1⟩ [2, 3, 4], exVote 6 ⟨0, zeroRoot⟩ ⟨1, exRoot32 1⟩ [5, 6],
        exVote 7 ⟨0, zeroRoot⟩ ⟨1, exRoot32 1⟩ [7, 8, 9],
        exVote 8 ⟨1, exRoot32 1⟩ ⟨2, exRoot32 2⟩ [0, 1],
        exVote 9 ⟨1, exRoot32 1⟩ ⟨2, exRoot32 2⟩ [2, 3, 4], exVote 10 ⟨1, exRoot32 1⟩ ⟨2, exRoot32 2⟩ [5, 6],
        exVote 11 ⟨1, exRoot32 1⟩ ⟨2, exRoot32 2⟩ [7, 8, 9]]
      consensusState := .ok ConsensusState.zero
      slotForBlock := fun _ => .ok 4 }, _, (⟨⟨2, exRoot32 2⟩, ⟨1, exRoot32 1⟩⟩, 4), rfl, rfl, ?_, ?_⟩
  · decide +kernel
  · exact ⟨by decide, by decide, by decide⟩

end Signal
