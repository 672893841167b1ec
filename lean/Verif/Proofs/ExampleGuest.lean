import Verif.Proofs.Guest
import Mathlib.Data.List.Dedup
import Verif.Proofs.Example
import Verif.Proofs.Patches
import Verif.Spec.EndToEnd
import Verif.Props.VerifyOrder
import Verif.Props.Multiproof

/-!
Helper definitions and lemmas for a complete concrete guest input: a small registry below the 40 levels of the
real one, a state, a block, their proofs and votes.
-/

namespace Signal
open Spec

/-! ## Proofs from trees -/

/-- The proof with the given tree that reports the leaves with the given indices. -/
def proofOf (P : Tree) (wanted : List Nat) : Multiproof where
  data := P.leaves.flatten
  valueMask := (P.leafIndices 1).map (fun g => decide (g ∈ wanted))
  descriptor := P.preorder
  maxStackDepth := 0

theorem proofOf_encodes {P : Tree} (h : P.Chunked) (w : List Nat) : Encodes (proofOf P w) P :=
  ⟨rfl, h, [], by simp [proofOf]⟩

theorem zip_map_filterMap {α : Type} (p : Nat → Bool) : ∀ (l : List Nat) (c : List α), l.length = c.length →
    ((l.zip c).zip (l.map p)).filterMap (fun (node, isValue) => if isValue then some node else none) =
      (l.zip c).filter (fun x => p x.1) := by
  intro l
  induction l with
  | nil => intro c _; simp
  | cons a l ih =>
    intro c hc
    cases c with
    | nil => simp at hc
    | cons b c =>
      simp only [List.zip_cons_cons, List.map_cons, List.filterMap_cons, List.filter_cons]
      rw [ih c (by simpa using hc)]
      cases p a <;> simp

theorem proofOf_values {P : Tree} (h : P.Chunked) (hd : P.depth < 64) (w : List Nat) :
    (proofOf P w).values = ((P.leafIndices 1).zip P.leaves).filter (fun x => decide (x.1 ∈ w)) := by
  unfold Multiproof.values
  rw [nodes_noWrap (proofOf_encodes h w) hd]
  exact zip_map_filterMap (fun g => decide (g ∈ w)) _ _ (leaves_length P 1).symm

theorem proofOf_root (X : Ext) {l r : Tree} (h : (Tree.node l r).Chunked) (w : List Nat) :
    (proofOf (.node l r) w).calculateRoot X = .ok ((Tree.node l r).root X) :=
  (C25_root_ok_iff X _ _).2 ⟨Nat.zero_le _, l, r, proofOf_encodes h w, rfl⟩

theorem proofOf_verify (X : Ext) {l r : Tree} (h : (Tree.node l r).Chunked) (w : List Nat) :
    (proofOf (.node l r) w).verify X ((Tree.node l r).root X) = .ok () :=
  (C25_verify_ok_iff X _ _).2 ⟨Nat.zero_le _, l, r, proofOf_encodes h w, rfl⟩

theorem proofOf_noWrap {P : Tree} (h : P.Chunked) (hd : P.depth < 64) (w : List Nat) :
    NoWrap (proofOf P w) := fun Q hQ => by
  rw [C25_tree_unique _ _ _ hQ (proofOf_encodes h w)]; exact hd

theorem proofOf_noCollision {X : Ext} {P T : Tree} (h : P.Chunked) (w : List Nat) {L : List Bytes}
    (hL : NoCollisionOn X L) (hT : ∀ x ∈ T.hashed X, x ∈ L) (hP : ∀ x ∈ P.hashed X, x ∈ L) :
    NoCollision X (proofOf P w) T := fun Q hQ => by
  rw [C25_tree_unique _ _ _ hQ (proofOf_encodes h w)]
  intro x hx y hy
  refine hL x ?_ y ?_
  · rcases List.mem_append.1 hx with hx | hx
    · exact hT x hx
    · exact hP x hx
  · rcases List.mem_append.1 hy with hy | hy
    · exact hT y hy
    · exact hP y hy

theorem noCollisionOn_of_nodup {X : Ext} {L : List Bytes} (h : (L.map X.sha256).Nodup) :
    NoCollisionOn X L := by
  intro x hx y hy hxy
  exact List.inj_on_of_nodup_map h hx hy hxy

/-! ## Empty subtrees -/

/-- Roots of the trees of zero chunks. -/
def zeroHash (X : Ext) : Nat → Bytes
  | 0 => zeroRoot
  | d + 1 => X.sha256 (zeroHash X d ++ zeroHash X d)

/-- The strings hashed in the tree of zero chunks of depth `d`. -/
def zeroStrings (X : Ext) (d : Nat) : List Bytes := (List.range d).map (fun k => zeroHash X k ++ zeroHash X k)

/-- `k` levels above a tree of depth `d`, next to empty subtrees. -/
def spine (X : Ext) (d : Nat) (S : Tree) : Nat → Tree
  | 0 => S
  | k + 1 => .node (spine X d S k) (.leaf (zeroHash X (d + k)))

theorem perfect_zero_root (X : Ext) (d : Nat) (f : Nat → Tree) (hf : ∀ i, f i = .leaf zeroRoot) :
    (perfect d f).root X = zeroHash X d := by
  induction d generalizing f with
  | zero => simp [perfect, hf, Tree.root, zeroHash]
  | succ d ih => simp only [perfect, Tree.root, zeroHash, ih f hf, ih _ (fun i => hf _)]

theorem perfect_zero_hashed (X : Ext) (d : Nat) (f : Nat → Tree) (hf : ∀ i, f i = .leaf zeroRoot) :
    ∀ x ∈ (perfect d f).hashed X, x ∈ zeroStrings X d := by
  induction d generalizing f with
  | zero => simp [perfect, hf, Tree.hashed]
  | succ d ih =>
    have hmono : ∀ x ∈ zeroStrings X d, x ∈ zeroStrings X (d + 1) := by
      intro x hx
      unfold zeroStrings at hx ⊢
      rw [List.range_succ, List.map_append]
      exact List.mem_append_left _ hx
    intro x hx
    simp only [perfect, Tree.hashed, List.mem_cons, List.mem_append] at hx
    rcases hx with hx | hx | hx
    · rw [hx, perfect_zero_root X d f hf, perfect_zero_root X d _ (fun i => hf _)]
      unfold zeroStrings
      rw [List.range_succ, List.map_append]
      exact List.mem_append_right _ (by simp)
    · exact hmono x (ih f hf x hx)
    · exact hmono x (ih _ (fun i => hf _) x hx)

theorem spine_root (X : Ext) (d k : Nat) (f : Nat → Tree) (hf : ∀ i, 2 ^ d ≤ i → f i = .leaf zeroRoot) :
    (perfect (d + k) f).root X = (spine X d (perfect d f) k).root X := by
  induction k with
  | zero => rfl
  | succ k ih =>
    have hz : ∀ i, f (2 ^ (d + k) + i) = .leaf zeroRoot := by
      intro i
      apply hf
      have : 2 ^ d ≤ 2 ^ (d + k) := Nat.pow_le_pow_right (by omega) (by omega)
      omega
    rw [← Nat.add_assoc]
    simp only [perfect, spine, Tree.root, ih, perfect_zero_root X _ _ hz]

theorem spine_hashed (X : Ext) (d k : Nat) (f : Nat → Tree) (hf : ∀ i, 2 ^ d ≤ i → f i = .leaf zeroRoot) :
    ∀ x ∈ (perfect (d + k) f).hashed X,
      x ∈ (spine X d (perfect d f) k).hashed X ∨ x ∈ zeroStrings X (d + k) := by
  induction k with
  | zero => intro x hx; exact Or.inl hx
  | succ k ih =>
    have hz : ∀ i, f (2 ^ (d + k) + i) = .leaf zeroRoot := by
      intro i
      apply hf
      have : 2 ^ d ≤ 2 ^ (d + k) := Nat.pow_le_pow_right (by omega) (by omega)
      omega
    have hmono : ∀ x ∈ zeroStrings X (d + k), x ∈ zeroStrings X (d + k + 1) := by
      intro x hx
      unfold zeroStrings at hx ⊢
      rw [List.range_succ, List.map_append]
      exact List.mem_append_left _ hx
    intro x hx
    rw [← Nat.add_assoc] at hx ⊢
    simp only [perfect, Tree.hashed, List.mem_cons, List.mem_append] at hx
    simp only [spine, Tree.hashed, List.mem_cons, List.mem_append]
    rcases hx with hx | hx | hx
    · left; left
      rw [hx, perfect_zero_root X _ _ hz, spine_root X d k f hf]
      rfl
    · rcases ih x hx with h | h
      · exact Or.inl (Or.inr (Or.inl h))
      · exact Or.inr (hmono x h)
    · exact Or.inr (hmono x (perfect_zero_hashed X _ _ hz x hx))

theorem perfect_root_congr (X : Ext) (d : Nat) (f g : Nat → Tree) (h : ∀ i, (f i).root X = (g i).root X) :
    (perfect d f).root X = (perfect d g).root X := by
  induction d generalizing f g with
  | zero => exact h 0
  | succ d ih => simp only [perfect, Tree.root, ih f g h, ih _ _ (fun i => h (2 ^ d + i))]

theorem perfect_hashed_congr (X : Ext) (d : Nat) (f g : Nat → Tree) (h : ∀ i, (f i).root X = (g i).root X) :
    ∀ x ∈ (perfect d f).hashed X, x ∈ (perfect d g).hashed X ∨ ∃ i, x ∈ (f i).hashed X ∧ f i ≠ g i := by
  induction d generalizing f g with
  | zero =>
    intro x hx
    by_cases h0 : f 0 = g 0
    · left; simp only [perfect] at hx ⊢; rwa [← h0]
    · exact Or.inr ⟨0, hx, h0⟩
  | succ d ih =>
    intro x hx
    simp only [perfect, Tree.hashed, List.mem_cons, List.mem_append] at hx ⊢
    rcases hx with hx | hx | hx
    · left; left
      rw [hx, perfect_root_congr X d f g h, perfect_root_congr X d _ _ (fun i => h (2 ^ d + i))]
    · rcases ih f g h x hx with h' | h'
      · exact Or.inl (Or.inr (Or.inl h'))
      · exact Or.inr h'
    · rcases ih _ _ (fun i => h (2 ^ d + i)) x hx with h' | ⟨i, h'⟩
      · exact Or.inl (Or.inr (Or.inr h'))
      · exact Or.inr ⟨_, h'⟩

/-! ## The registry -/

/-- Ten active validators, the last one slashed; the eleventh has exited at epoch 2. -/
def gxVs : List Validator :=
  (List.range 10).map (fun i =>
    ⟨exExt.pkSerialize (exKey i), exRoot32 1, 32, decide (i = 9), 0, 0, u64Max, u64Max⟩) ++
  [⟨exExt.pkSerialize [200], exRoot32 1, 32, false, 0, 0, 2, 2⟩]

/-- The elements of the registry by index. -/
def gxElem (i : Nat) : Tree := match gxVs[i]? with
  | some v => v.tree
  | none => .leaf zeroRoot

/-- The tree of the registry proof: empty subtrees are not opened. -/
def gxRegP : Tree := .node (spine exExt 4 (perfect 4 gxElem) 36) (.leaf (u64Chunk 11))

theorem gxElem_zero (i : Nat) (h : 2 ^ 4 ≤ i) : gxElem i = .leaf zeroRoot := by
  have : gxVs[i]? = none := by
    rw [List.getElem?_eq_none_iff]
    have : gxVs.length = 11 := by decide
    omega
  simp [gxElem, this]

theorem registryTree_perfect (vs : List Validator) (f : Nat → Tree) (hf : f = fun i => match vs[i]? with
      | some v => v.tree
      | none => .leaf zeroRoot) (d k : Nat) (h : 40 = d + k) :
    registryTree vs = .node (perfect (d + k) f) (.leaf (u64Chunk vs.length)) := by
  rw [← h, hf]; rfl

theorem list_root (X : Ext) (d k n : Nat) (f : Nat → Tree) (hf : ∀ i, 2 ^ d ≤ i → f i = .leaf zeroRoot) :
    (Tree.node (perfect (d + k) f) (.leaf (u64Chunk n))).root X =
      (Tree.node (spine X d (perfect d f) k) (.leaf (u64Chunk n))).root X := by
  simp only [Tree.root, spine_root X d k f hf]

theorem list_hashed (X : Ext) (d k n : Nat) (f : Nat → Tree) (hf : ∀ i, 2 ^ d ≤ i → f i = .leaf zeroRoot) :
    ∀ x ∈ (Tree.node (perfect (d + k) f) (.leaf (u64Chunk n))).hashed X,
      x ∈ (Tree.node (spine X d (perfect d f) k) (.leaf (u64Chunk n))).hashed X ∨
        x ∈ zeroStrings X (d + k) := by
  intro x hx
  simp only [Tree.hashed, List.mem_cons, List.mem_append, List.not_mem_nil, or_false] at hx ⊢
  rcases hx with hx | hx
  · exact Or.inl (Or.inl (by rw [hx, spine_root X d k f hf]))
  · rcases spine_hashed X d k f hf x hx with h | h
    · exact Or.inl (Or.inr h)
    · exact Or.inr h

theorem gxReg_eq : registryTree gxVs = .node (perfect (4 + 36) gxElem) (.leaf (u64Chunk 11)) :=
  registryTree_perfect gxVs gxElem rfl 4 36 (by decide)

theorem gxReg_root : (registryTree gxVs).root exExt = gxRegP.root exExt := by
  rw [gxReg_eq]
  exact list_root exExt 4 36 11 gxElem gxElem_zero

theorem gxReg_hashed : ∀ x ∈ (registryTree gxVs).hashed exExt,
    x ∈ gxRegP.hashed exExt ∨ x ∈ zeroStrings exExt (4 + 36) := by
  rw [gxReg_eq]
  exact list_hashed exExt 4 36 11 gxElem gxElem_zero

/-- The fields reported for validator `i`. -/
def gxFields (i : Nat) : List Nat :=
  [publicKey0Gindex i, publicKey1Gindex i, effectiveBalanceGindex i, slashedGindex i,
    activationEligibilityEpochGindex i, activationEpochGindex i, exitEpochGindex i]

def gxRegWanted : List Nat := (List.range 10).flatMap gxFields ++ [exitEpochGindex 10, 3]

def gxRegProof : Multiproof := proofOf gxRegP gxRegWanted

def gxKeys : List Bytes := (List.range 10).map exKey

def chunkedB : Tree → Bool
  | .leaf c => c.length == 32
  | .node l r => chunkedB l && chunkedB r

theorem chunked_of_chunkedB : ∀ {T : Tree}, chunkedB T = true → T.Chunked
  | .leaf _, h => by simpa [chunkedB, Tree.Chunked] using h
  | .node _ _, h => by
    simp only [chunkedB, Bool.and_eq_true] at h
    exact ⟨chunked_of_chunkedB h.1, chunked_of_chunkedB h.2⟩

set_option maxRecDepth 100000

theorem gxRegP_chunked : gxRegP.Chunked := chunked_of_chunkedB (by decide +kernel)
theorem gxRegP_depth : gxRegP.depth < 64 := by decide +kernel

theorem gxReg_values : ((gxRegP.leafIndices 1).zip gxRegP.leaves).filter (fun x => decide (x.1 ∈ gxRegWanted)) =
    (List.range 10).flatMap (fun i => (gxFields i).zip
      [exExt.pkSerialize (exKey i) |>.take 32,
        (exExt.pkSerialize (exKey i)).drop 32 ++ List.replicate 16 0,
        u64Chunk 32, boolChunk (decide (i = 9)), u64Chunk 0, u64Chunk 0, u64Chunk u64Max]) ++
    [(exitEpochGindex 10, u64Chunk 2), (3, u64Chunk 11)] := by
  decide +kernel

theorem gxReg_extract : extractValidators exExt gxRegProof gxKeys 3 = .ok exActive := by
  unfold extractValidators gxRegProof
  rw [proofOf_values gxRegP_chunked gxRegP_depth, gxReg_values]
  decide +kernel


/-! ## The state and the block -/

def gxState : BeaconState where
  fulu := false
  genesisValidatorsRoot := exRoot32 77
  slot := 12
  fork := ⟨[4, 0, 0, 0], [5, 0, 0, 0], 3⟩
  validators := gxVs
  finalizedEpoch := 1
  finalizedRoot := exRoot32 2
  earliestExitEpoch := 9
  earliestConsolidationEpoch := 8
  other := fun _ => .leaf zeroRoot

/-- A field in the tree of the state proof: the registry is not opened. -/
def gxField (name : String) : Tree :=
  if name = "validators" then .leaf (gxRegP.root exExt) else gxState.field name

def gxStateP : Tree := container 6 (electraFields.map gxField)

theorem getD_map_root (X : Ext) (l : List String) (f g : String → Tree)
    (h : ∀ n, (f n).root X = (g n).root X) (i : Nat) :
    ((l.map f).getD i (.leaf zeroRoot)).root X = ((l.map g).getD i (.leaf zeroRoot)).root X := by
  simp only [List.getD_eq_getElem?_getD, List.getElem?_map]
  cases l[i]? with
  | none => rfl
  | some n => exact h n

theorem gxField_root (n : String) : (gxState.field n).root exExt = (gxField n).root exExt := by
  unfold gxField
  split
  · rename_i h
    subst h
    exact gxReg_root
  · rfl

theorem gxState_tree : gxState.tree =
    perfect 6 (fun i => (electraFields.map gxState.field).getD i (.leaf zeroRoot)) := rfl

theorem gxState_root : gxState.tree.root exExt = gxStateP.root exExt := by
  rw [gxState_tree]
  exact perfect_root_congr exExt 6 _ _ (getD_map_root exExt _ _ _ gxField_root)

theorem gxState_hashed : ∀ x ∈ gxState.tree.hashed exExt,
    x ∈ gxStateP.hashed exExt ∨ x ∈ gxRegP.hashed exExt ∨ x ∈ zeroStrings exExt (4 + 36) := by
  intro x hx
  rw [gxState_tree] at hx
  rcases perfect_hashed_congr exExt 6 _ _ (getD_map_root exExt _ _ _ gxField_root) x hx with h | h
  · exact Or.inl h
  · obtain ⟨i, hi, hne⟩ := h
    right
    simp only [List.getD_eq_getElem?_getD, List.getElem?_map] at hi hne
    cases hn : electraFields[i]? with
    | none => simp [hn] at hne
    | some n =>
      rw [hn] at hi hne
      simp only [Option.map_some, Option.getD_some] at hi hne
      by_cases hv : n = "validators"
      · subst hv; exact gxReg_hashed x hi
      · exact absurd (by unfold gxField; rw [if_neg hv]) hne

def gxHdr : Header := ⟨12, 5, exRoot32 31, gxStateP.root exExt, exRoot32 32⟩
def gxHdr6 : Header := ⟨24, 6, exRoot32 41, gxStateP.root exExt, exRoot32 43⟩

def gxStateWanted : List Nat := [65, 66, 268, 269, 270, 75, 168, 95, 97]

theorem gxStateP_chunked : gxStateP.Chunked := chunked_of_chunkedB (by decide +kernel)
theorem gxStateP_depth : gxStateP.depth < 64 := by decide +kernel
theorem gxHdr_chunked : gxHdr.tree.Chunked := chunked_of_chunkedB (by decide +kernel)
theorem gxHdr_depth : gxHdr.tree.depth < 64 := by decide +kernel
theorem gxHdr6_chunked : gxHdr6.tree.Chunked := chunked_of_chunkedB (by decide +kernel)
theorem gxHdr6_depth : gxHdr6.tree.depth < 64 := by decide +kernel

def gxStateInfo : StateInfo :=
  ⟨exRoot32 77, 12, ⟨[4, 0, 0, 0], [5, 0, 0, 0], 3⟩, gxRegP.root exExt, 1, 9, 8⟩

theorem gxState_extract : extractBeaconState (proofOf gxStateP gxStateWanted) = .ok gxStateInfo := by
  unfold extractBeaconState
  rw [proofOf_values gxStateP_chunked gxStateP_depth]
  decide +kernel

theorem gxHdr_extract : extractBeaconBlock (proofOf gxHdr.tree [11]) = .ok (gxStateP.root exExt) := by
  unfold extractBeaconBlock
  rw [proofOf_values gxHdr_chunked gxHdr_depth]
  decide +kernel

/-! ## The input -/

def gxC3 : Checkpoint := ⟨3, gxHdr.tree.root exExt⟩
def gxC6 : Checkpoint := ⟨6, gxHdr6.tree.root exExt⟩

def gxVotes : List Attestation :=
  [exVote 24 exC4 gxC6 [0, 1], exVote 25 exC4 gxC6 [2, 3, 4], exVote 26 exC4 gxC6 [5, 6],
   exVote 27 exC4 gxC6 [7, 8, 9],
   exVote 28 gxC6 exC7 [0, 1], exVote 30 gxC6 exC7 [5, 6], exVote 29 gxC6 exC7 [2, 3, 4],
   exVote 31 gxC6 exC7 [7, 8, 9], exVote 28 gxC6 exC7 [0, 1]]

/-- Patches for the two target epochs. Validator 8 will exit at epoch 9. -/
def gxPatches : OMap StatePatch :=
  [(6, ⟨[(4, exRoot32 1)], [(8, 9)]⟩), (7, ⟨[(5, exRoot32 1)], [(8, 9)]⟩)]

/-- A complete guest input. -/
def gxInput : GuestInput where
  beaconBlock := proofOf gxHdr.tree [11]
  beaconState := proofOf gxStateP gxStateWanted
  activeValidators := gxRegProof
  publicKeys := gxKeys
  patches := gxPatches
  consensusState := ⟨exC4, gxC3⟩
  attestations := gxVotes
  blockSlotProofs := [proofOf gxHdr6.tree [8]]

def gxReader : GuestReader where
  spec := exSpec
  genesisValidatorsRoot := exRoot32 77
  validators := exActive
  patches := gxPatches
  consensusState := ⟨exC4, gxC3⟩
  attestations := gxVotes
  blockSlots := [(gxC6.root, 24)]

theorem gxInput_patches : validateStatePatches exExt exSpec gxPatches gxC3 gxStateInfo exActive = .ok () := by
  decide +kernel

theorem gxInput_registry : (registryLoop exSpec 1 3 4 2 3 exActive : Res GuestReaderError _) = .ok exActive := by
  decide +kernel

theorem gxSlot_value : nextAssertGindex (proofOf gxHdr6.tree [8]).values blockSlotGindex =
    .ok (u64Chunk 24, []) := by
  rw [proofOf_values gxHdr6_chunked gxHdr6_depth]
  decide +kernel

theorem gxInput_slots : blockSlotLoop exExt [proofOf gxHdr6.tree [8]] [] = .ok [(gxC6.root, 24)] := by
  have h1 : (proofOf gxHdr6.tree [8]).calculateRoot exExt = .ok gxC6.root :=
    proofOf_root exExt gxHdr6_chunked [8]
  unfold blockSlotLoop
  rw [h1, gxSlot_value]
  decide +kernel

theorem gxInput_reader : gxInput.intoReader exExt exSpec = .ok gxReader := by
  unfold GuestInput.intoReader
  simp only [Res.bind_eq_ok, Res.mapErr_eq_ok, ensure_eq_ok, decide_eq_true_eq, slotEpoch_eq_ok_iff,
    Res.pure_eq, Res.ok.injEq]
  exact ⟨(), proofOf_verify exExt gxHdr_chunked [11], gxStateP.root exExt, gxHdr_extract, (),
    proofOf_verify exExt gxStateP_chunked gxStateWanted, gxStateInfo, gxState_extract, (),
    proofOf_verify exExt gxRegP_chunked gxRegWanted, exActive, gxReg_extract, 3, ⟨by decide, by decide⟩, (),
    by decide, exActive, gxInput_registry, (), gxInput_patches, _, gxInput_slots, rfl⟩

theorem gxReader_verifies : verify exExt Config.default gxReader.toReader = .ok (⟨exC7, gxC6⟩, 24) := by
  decide +kernel

/-! ## The trees behind it -/

def gxStrings : List Bytes :=
  (gxRegP.hashed exExt ++ zeroStrings exExt (4 + 36) ++ gxStateP.hashed exExt ++ gxHdr.tree.hashed exExt ++
    gxHdr6.tree.hashed exExt).dedup

theorem gxStrings_noCollision : NoCollisionOn exExt gxStrings :=
  noCollisionOn_of_nodup (by decide +kernel)

theorem gx_mem_left {x : Bytes} (h : x ∈ gxRegP.hashed exExt ∨ x ∈ zeroStrings exExt (4 + 36) ∨
    x ∈ gxStateP.hashed exExt ∨ x ∈ gxHdr.tree.hashed exExt ∨ x ∈ gxHdr6.tree.hashed exExt) : x ∈ gxStrings := by
  unfold gxStrings
  rw [List.mem_dedup]
  simp only [List.mem_append]
  rcases h with h | h | h | h | h
  · exact Or.inl (Or.inl (Or.inl (Or.inl h)))
  · exact Or.inl (Or.inl (Or.inl (Or.inr h)))
  · exact Or.inl (Or.inl (Or.inr h))
  · exact Or.inl (Or.inr h)
  · exact Or.inr h

theorem gxVs_wf : RegistryWF gxVs := by
  have hl : gxVs.length = 11 := by decide
  refine ⟨by rw [hl]; decide, ?_⟩
  intro v hv
  unfold gxVs at hv
  rcases List.mem_append.1 hv with hv | hv
  · obtain ⟨i, -, rfl⟩ := List.mem_map.1 hv
    exact ⟨exExt.pkSerialize_length _, by simp [exRoot32], (by decide : (32 : Nat) < 2 ^ 64), (by decide : (0 : Nat) < 2 ^ 64),
      (by decide : (0 : Nat) < 2 ^ 64), (by decide : u64Max < 2 ^ 64)⟩
  · rw [List.mem_singleton.1 hv]
    exact ⟨exExt.pkSerialize_length _, by simp [exRoot32], by decide, by decide, by decide, by decide⟩

theorem gxState_wf : gxState.WF :=
  ⟨by decide, by decide, by decide, by decide, by decide, gxVs_wf, by decide, by decide, by decide, by decide,
    fun _ => (by decide : zeroRoot.length = 32)⟩

theorem gxHdr_wf : gxHdr.WF := ⟨by decide, by decide, exExt.sha256_length _, by decide⟩
theorem gxHdr6_wf : gxHdr6.WF := ⟨by decide, by decide, exExt.sha256_length _, by decide⟩

theorem gxHdr_noCollision : NoCollision exExt (proofOf gxHdr.tree [11]) gxHdr.tree :=
  proofOf_noCollision gxHdr_chunked _ gxStrings_noCollision
    (fun _ hx => gx_mem_left (Or.inr (Or.inr (Or.inr (Or.inl hx)))))
    (fun _ hx => gx_mem_left (Or.inr (Or.inr (Or.inr (Or.inl hx)))))

theorem gxHdr6_noCollision : NoCollision exExt (proofOf gxHdr6.tree [8]) gxHdr6.tree :=
  proofOf_noCollision gxHdr6_chunked _ gxStrings_noCollision
    (fun _ hx => gx_mem_left (Or.inr (Or.inr (Or.inr (Or.inr hx)))))
    (fun _ hx => gx_mem_left (Or.inr (Or.inr (Or.inr (Or.inr hx)))))

theorem gxState_noCollision : NoCollision exExt (proofOf gxStateP gxStateWanted) gxState.tree := by
  refine proofOf_noCollision gxStateP_chunked _ gxStrings_noCollision (fun x hx => gx_mem_left ?_)
    (fun _ hx => gx_mem_left (Or.inr (Or.inr (Or.inl hx))))
  rcases gxState_hashed x hx with h | h | h
  · exact Or.inr (Or.inr (Or.inl h))
  · exact Or.inl h
  · exact Or.inr (Or.inl h)

theorem gxReg_noCollision : NoCollision exExt gxRegProof (registryTree gxState.validators) := by
  refine proofOf_noCollision gxRegP_chunked _ gxStrings_noCollision (fun x hx => gx_mem_left ?_)
    (fun _ hx => gx_mem_left (Or.inl hx))
  rcases gxReg_hashed x hx with h | h
  · exact Or.inl h
  · exact Or.inr (Or.inl h)

theorem gxReg_verify : gxRegProof.verify exExt ((registryTree gxVs).root exExt) = .ok () := by
  rw [gxReg_root]
  exact proofOf_verify exExt gxRegP_chunked gxRegWanted

theorem gxState_verify :
    (proofOf gxStateP gxStateWanted).verify exExt (gxState.tree.root exExt) = .ok () := by
  rw [gxState_root]
  exact proofOf_verify exExt gxStateP_chunked gxStateWanted

/-- The input belongs to a real block with a real state. -/
theorem gxInput_real : RealChain exExt exSpec gxInput gxHdr gxState where
  header_wf := gxHdr_wf
  state_wf := gxState_wf
  block_root := rfl
  state_root := gxState_root
  finalized_past := by decide
  no_collision := ⟨gxHdr_noCollision, gxState_noCollision, gxReg_noCollision⟩
  no_wrap := ⟨proofOf_noWrap gxHdr_chunked gxHdr_depth _, proofOf_noWrap gxStateP_chunked gxStateP_depth _,
    proofOf_noWrap gxRegP_chunked gxRegP_depth _⟩

end Signal
