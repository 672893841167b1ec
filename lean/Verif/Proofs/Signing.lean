import Verif.Spec.Signing
import Verif.Proofs.Ssz

/-! Helper lemmas on signing roots. -/

namespace Signal
open Spec

/-! ## Trees of the same shape -/

/-- Same shape. -/
def sameShape : Tree → Tree → Prop
  | .leaf _, .leaf _ => True
  | .node l r, .node l' r' => sameShape l l' ∧ sameShape r r'
  | _, _ => False

/-- Trees of the same shape and with the same root are equal, unless there is a collision. -/
theorem root_inj (X : Ext) : ∀ (t t' : Tree), sameShape t t' → t.Chunked → t'.Chunked →
    NoCollisionOn X (t.hashed X ++ t'.hashed X) → t.root X = t'.root X → t = t' := by
  intro t
  induction t with
  | leaf c => intro t' hs _ _ _ h; cases t' with
    | leaf c' => exact congrArg Tree.leaf h
    | node => exact hs.elim
  | node l r ihl ihr =>
    intro t' hs hc hc' hn h
    cases t' with
    | leaf => exact hs.elim
    | node l' r' =>
      have hin := hn (l.root X ++ r.root X) (by simp [Tree.hashed]) (l'.root X ++ r'.root X) (by simp [Tree.hashed]) h
      obtain ⟨h1, h2⟩ := append_inj_32 (Tree.root_length X hc.1) (Tree.root_length X hc'.1) hin
      have sub : ∀ {a b : Tree}, (∀ x ∈ a.hashed X, x ∈ (Tree.node l r).hashed X) → (∀ x ∈ b.hashed X, x ∈ (Tree.node l' r').hashed X) →
          NoCollisionOn X (a.hashed X ++ b.hashed X) := by
        intro a b ha hb x hx y hy
        refine hn x ?_ y ?_
        · rcases List.mem_append.1 hx with hx | hx
          · exact List.mem_append_left _ (ha x hx)
          · exact List.mem_append_right _ (hb x hx)
        · rcases List.mem_append.1 hy with hy | hy
          · exact List.mem_append_left _ (ha y hy)
          · exact List.mem_append_right _ (hb y hy)
      rw [ihl l' hs.1 hc.1 hc'.1 (sub (by intro x hx; simp [Tree.hashed, hx]) (by intro x hx; simp [Tree.hashed, hx])) h1,
        ihr r' hs.2 hc.2 hc'.2 (sub (by intro x hx; simp [Tree.hashed, hx]) (by intro x hx; simp [Tree.hashed, hx])) h2]

theorem perfect_sameShape (d : Nat) : ∀ f g : Nat → Tree, (∀ i, sameShape (f i) (g i)) → sameShape (perfect d f) (perfect d g) := by
  induction d with
  | zero => intro f g h; exact h 0
  | succ d ih => intro f g h; exact ⟨ih f g h, ih _ _ (fun i => h _)⟩

theorem perfect_inj (d : Nat) (f g : Nat → Tree) (h : perfect d f = perfect d g) (i : Nat) (hi : i < 2 ^ d) : f i = g i := by
  have h1 := nodeAt_perfect d f i hi
  rw [h, nodeAt_perfect d g i hi] at h1
  exact (Option.some.inj h1).symm

theorem container_inj {d : Nat} {l m : List Tree} (h : container d l = container d m) {i : Nat} {t u : Tree} (hi : i < 2 ^ d)
    (ht : l[i]? = some t) (hu : m[i]? = some u) : t = u := by
  have := perfect_inj d _ _ h i hi
  simpa [List.getD, ht, hu] using this

/-! ## The program computes roots of trees -/

theorem zeroHash_eq (X : Ext) (d : Nat) : Signing.zeroHash X.sha256 d = (perfect d (fun _ => .leaf zeroRoot)).root X := by
  induction d with
  | zero => rfl
  | succ d ih => rw [Signing.zeroHash, ih]; rfl

theorem merkleize_eq (X : Ext) (d : Nat) : ∀ (leaves : List Bytes) (f : Nat → Tree),
    (∀ i, i < 2 ^ d → (f i).root X = leaves.getD i zeroRoot) → Signing.merkleize X.sha256 d leaves = (perfect d f).root X := by
  induction d with
  | zero => intro l f h; rw [perfect, h 0 (by omega)]; cases l <;> rfl
  | succ d ih =>
    intro l f h
    have e : 2 ^ (d + 1) = 2 ^ d + 2 ^ d := by rw [Nat.pow_succ]; omega
    rw [Signing.merkleize]
    split
    · rename_i hl
      subst hl
      have key : ∀ (d : Nat) (f : Nat → Tree), (∀ i, i < 2 ^ d → (f i).root X = zeroRoot) →
          (perfect d f).root X = (perfect d (fun _ => .leaf zeroRoot)).root X := by
        intro d
        induction d with
        | zero => intro f h; exact h 0 (by omega)
        | succ d ih' =>
          intro f h
          have e : 2 ^ (d + 1) = 2 ^ d + 2 ^ d := by rw [Nat.pow_succ]; omega
          simp only [perfect, Tree.root]
          rw [ih' f (fun i hi => h i (by omega)), ih' _ (fun i hi => h (2 ^ d + i) (by omega))]
      rw [zeroHash_eq, key (d + 1) f (by intro i hi; rw [h i hi]; simp)]
    · simp only [perfect, Tree.root]
      rw [ih (l.take (2 ^ d)) f, ih (l.drop (2 ^ d)) (fun i => f (2 ^ d + i))]
      · intro i hi
        show (f (2 ^ d + i)).root X = _
        rw [h _ (by omega)]
        simp [List.getD_eq_getElem?_getD, List.getElem?_drop]
      · intro i hi
        rw [h i (by omega)]
        simp [List.getD_eq_getElem?_getD, hi]

theorem merkleize_container (X : Ext) (d : Nat) (leaves : List Bytes) (fields : List Tree) (h : fields.map (·.root X) = leaves) :
    Signing.merkleize X.sha256 d leaves = (container d fields).root X := by
  refine merkleize_eq X d leaves _ (fun i _ => ?_)
  rw [← h, List.getD_eq_getElem?_getD, List.getD_eq_getElem?_getD, List.getElem?_map]
  cases fields[i]? <;> rfl

theorem chunk_u64 (n : Nat) : Signing.chunk (leBytes 8 n) = u64Chunk n := by
  simp [Signing.chunk, u64Chunk]

theorem chunk_version {v : Bytes} (h : v.length = 4) : Signing.chunk v = versionChunk v := by
  simp [Signing.chunk, versionChunk, h]

theorem checkpointRoot_eq (X : Ext) (c : Checkpoint) : Signing.checkpointRoot X.sha256 c = (checkpointTree c).root X :=
  merkleize_container X 1 _ _ (by simp [Tree.root, chunk_u64])

theorem dataRoot_eq (X : Ext) (d : AttestationData) : Signing.dataRoot X.sha256 d = (dataTree d).root X :=
  merkleize_container X 3 _ _ (by simp [Tree.root, chunk_u64, checkpointRoot_eq])

theorem computeDomain_eq (X : Ext) (t : Bytes) {v : Bytes} (hv : v.length = 4) (g : Bytes) :
    Signing.computeDomain X.sha256 t v g = domainOf X t v g := by
  unfold Signing.computeDomain domainOf Signing.forkDataRoot forkDataTree
  rw [merkleize_container X 1 _ [.leaf (versionChunk v), .leaf g] (by simp [Tree.root, chunk_version hv])]

theorem signingRoot_eq (X : Ext) (d : AttestationData) (dom : Bytes) :
    Signing.signingRoot X.sha256 d dom = (Tree.node (dataTree d) (.leaf dom)).root X := by
  unfold Signing.signingRoot Signing.signingData
  rw [merkleize_container X 1 _ [dataTree d, .leaf dom] (by simp [Tree.root, dataRoot_eq])]
  rfl

/-! ## Trees determine what they are trees of -/

theorem u64Chunk_inj {m n : Nat} (hm : m < 2 ^ 64) (hn : n < 2 ^ 64) (h : u64Chunk m = u64Chunk n) : m = n :=
  leBytes_inj (by simpa using hm) (by simpa using hn) (List.append_cancel_right h)

theorem versionChunk_inj {v w : Bytes} (h : versionChunk v = versionChunk w) : v = w := List.append_cancel_right h

theorem checkpointTree_chunked {c : Checkpoint} (h : WfCheckpoint c) : (checkpointTree c).Chunked := by
  apply container_chunked
  intro t ht
  simp only [List.mem_cons, List.not_mem_nil, or_false] at ht
  rcases ht with rfl | rfl
  · exact u64Chunk_length _
  · exact h.2

theorem dataTree_chunked {d : AttestationData} (h : WfVoteData d) : (dataTree d).Chunked := by
  apply container_chunked
  intro t ht
  simp only [List.mem_cons, List.not_mem_nil, or_false] at ht
  rcases ht with rfl | rfl | rfl | rfl | rfl
  · exact u64Chunk_length _
  · exact u64Chunk_length _
  · exact h.block
  · exact checkpointTree_chunked h.source
  · exact checkpointTree_chunked h.target

theorem checkpointTree_inj {c c' : Checkpoint} (h : WfCheckpoint c) (h' : WfCheckpoint c') (e : checkpointTree c = checkpointTree c') :
    c = c' := by
  have h0 := container_inj e (i := 0) (by omega) rfl rfl
  have h1 := container_inj e (i := 1) (by omega) rfl rfl
  have := u64Chunk_inj h.1 h'.1 (Tree.leaf.inj h0)
  have := Tree.leaf.inj h1
  cases c; cases c'; simp_all

theorem dataTree_inj {d d' : AttestationData} (h : WfVoteData d) (h' : WfVoteData d') (e : dataTree d = dataTree d') : d = d' := by
  have h0 := u64Chunk_inj h.slot h'.slot (Tree.leaf.inj (container_inj e (i := 0) (by omega) rfl rfl))
  have h1 := u64Chunk_inj h.index h'.index (Tree.leaf.inj (container_inj e (i := 1) (by omega) rfl rfl))
  have h2 := Tree.leaf.inj (container_inj e (i := 2) (by omega) rfl rfl)
  have h3 := checkpointTree_inj h.source h'.source (container_inj e (i := 3) (by omega) rfl rfl)
  have h4 := checkpointTree_inj h.target h'.target (container_inj e (i := 4) (by omega) rfl rfl)
  cases d; cases d'; simp_all

theorem dataTree_sameShape (d d' : AttestationData) : sameShape (dataTree d) (dataTree d') := by
  exact ⟨⟨⟨trivial, trivial⟩, ⟨trivial, ⟨trivial, trivial⟩⟩⟩, ⟨⟨⟨trivial, trivial⟩, trivial⟩, ⟨trivial, trivial⟩⟩⟩

theorem forkDataTree_inj {v g v' g' : Bytes} (e : forkDataTree v g = forkDataTree v' g') : v = v' ∧ g = g' :=
  ⟨versionChunk_inj (Tree.leaf.inj (container_inj e (i := 0) (by omega) rfl rfl)),
    Tree.leaf.inj (container_inj e (i := 1) (by omega) rfl rfl)⟩

theorem forkDataTree_chunked {v g : Bytes} (hv : v.length = 4) (hg : g.length = 32) : (forkDataTree v g).Chunked := by
  apply container_chunked
  intro t ht
  simp only [List.mem_cons, List.not_mem_nil, or_false] at ht
  rcases ht with rfl | rfl
  · simp [Tree.Chunked, versionChunk, hv]
  · exact hg

theorem domainOf_length (X : Ext) {t v g : Bytes} (ht : t.length = 4) (hv : v.length = 4) (hg : g.length = 32) :
    (domainOf X t v g).length = 32 := by
  have := Tree.root_length X (forkDataTree_chunked hv hg)
  simp [domainOf, ht, this]

theorem domainOf_inj (X : Ext) {t v g t' v' g' : Bytes} (ht : t.length = 4) (ht' : t'.length = 4)
    (h : domainOf X t v g = domainOf X t' v' g') :
    t = t' ∧ ((forkDataTree v g).root X).take 28 = ((forkDataTree v' g').root X).take 28 :=
  List.append_inj h (by rw [ht, ht'])

namespace Spec.Duty

theorem object_chunked {x : Duty} (h : x.WF) : x.object.Chunked := by
  cases x with
  | vote d v g => exact dataTree_chunked h.1
  | other => exact h.1

theorem domain_length (X : Ext) {x : Duty} (h : x.WF) : (x.domain X).length = 32 := by
  cases x with
  | vote d v g => exact domainOf_length X rfl h.2.1 h.2.2
  | other => exact domainOf_length X h.2.1 h.2.2.2.1 h.2.2.2.2

theorem message_inj (X : Ext) {x y : Duty} (hx : x.WF) (hy : y.WF) (hd : Distinguished X x y) (h : x.message X = y.message X) :
    x.object.root X = y.object.root X ∧ x.domain X = y.domain X := by
  have hin := hd.message (x.object.root X ++ x.domain X) (by simp [Tree.hashed, Tree.root])
    (y.object.root X ++ y.domain X) (by simp [Tree.hashed, Tree.root]) h
  exact append_inj_32 (Tree.root_length X (object_chunked hx)) (Tree.root_length X (object_chunked hy)) hin

end Spec.Duty

end Signal
