import Verif.Spec.StateSsz
import Verif.Spec.Gindices

/-!
# Independent specification: the Merkle trees of SSZ values

`hash_tree_root` of the SSZ specification ("Merkleization"), for the types that occur in states. Its digest is the root of the tree here.
-/

namespace Signal.Spec
open StateSsz Gen

/-- The `i`-th chunk of 32 bytes, filled up with zeros. -/
def chunk (b : Bytes) (i : Nat) : Bytes := (b.drop (32 * i)).take 32 ++ List.replicate (32 - (b.drop (32 * i)).length) 0

/-- The bytes in chunks, with room for `limit` of them. -/
def chunksTree (limit : Nat) (b : Bytes) : Tree := perfect (depthFor limit) fun i => .leaf (chunk b i)

/-- The size of a value of a basic type; several of them share a chunk. In the states these are numbers of one and of eight bytes, and truth values. -/
def basicSize : Typ → Option Nat
  | .bytes n => if n = 1 ∨ n = 8 then some n else none
  | .bool => some 1
  | _ => none

/-- The bytes of a value of a basic type. -/
def basicBytes : Val → Bytes
  | .bytes b => b
  | .bool b => [if b then 1 else 0]
  | _ => []

/-- Eight bits to a byte, the first one the least. -/
def bitBytes (l : List Bool) : Bytes := leBytes ((l.length + 7) / 8) (Ssz.bitsNat l)

/-- The elements of a vector or a list with room for `limit` of them: several to a chunk if they are of a basic type, else the tree of each. -/
def seriesTree (limit : Nat) (basic : Option Nat) (elemTree : Val → Tree) (l : List Val) : Tree :=
  match basic with
  | some k => chunksTree ((limit * k + 31) / 32) (l.flatMap basicBytes)
  | none => perfect (depthFor limit) fun i => match l[i]? with
    | some v => elemTree v
    | none => .leaf zeroRoot

mutual
/-- The tree of a value. -/
def valTree : Typ → Val → Tree
  | .bytes n, .bytes b => chunksTree ((n + 31) / 32) b
  | .bool, .bool b => .leaf (boolChunk b)
  | .bitvector n, .bits l => chunksTree ((n + 255) / 256) (bitBytes l)
  | .bitlist limit, .bits l => .node (chunksTree ((limit + 255) / 256) (bitBytes l)) (.leaf (u64Chunk l.length))
  | .vector n elem, .seq l => seriesTree n (basicSize elem) (valTree elem) l
  | .list limit elem, .seq l => .node (seriesTree limit (basicSize elem) (valTree elem) l) (.leaf (u64Chunk l.length))
  | .container fields, .seq l => container (depthFor fields.length) (fieldTrees fields l)
  | _, _ => .leaf zeroRoot

/-- The trees of the fields. -/
def fieldTrees : List Typ → List Val → List Tree
  | t :: ts, v :: vs => valTree t v :: fieldTrees ts vs
  | _, _ => []
end

mutual
/-- The limits of all lists fit in 64 bits. -/
def Typ.Limited : Typ → Prop
  | .bitlist limit => limit < 2 ^ 64
  | .vector _ elem => Typ.Limited elem
  | .list limit elem => limit < 2 ^ 64 ∧ Typ.Limited elem
  | .container fields => Typ.AllLimited fields
  | _ => True

/-- All of them. -/
def Typ.AllLimited : List Typ → Prop
  | [] => True
  | t :: ts => Typ.Limited t ∧ Typ.AllLimited ts
end

/-- The tree of a state. -/
def stateTree (s : State) : Tree := valTree s.variant.typ s.value

end Signal.Spec
