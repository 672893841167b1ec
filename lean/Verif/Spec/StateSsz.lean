import Verif.Model.StateSsz
import Verif.Spec.AttestationSsz
import Mathlib.Data.List.Forall2

/-!
# Independent specification: SSZ

The relation between values and bytes of the SSZ specification ("simple-serialize.md"), for the types that occur in states.
-/

namespace Signal.Spec
open StateSsz

mutual
/-- Whether all values of the type are equally long ("fixed-size"). -/
def isFixed : Typ → Bool
  | .bytes _ => true
  | .bool => true
  | .bitvector _ => true
  | .bitlist _ => false
  | .vector _ elem => isFixed elem
  | .list _ _ => false
  | .container fields => areFixed fields

/-- All of them. -/
def areFixed : List Typ → Bool
  | [] => true
  | t :: ts => isFixed t && areFixed ts
end

/-- What comes first of a part: its bytes, or four bytes for the offset. -/
def firstLength (p : Bool × Bytes) : Nat := if p.1 then p.2.length else 4

/-- What comes behind all of these: the parts of variable size. -/
def secondPart (p : Bool × Bytes) : Bytes := if p.1 then [] else p.2

/-- A sequence of parts as the specification puts them together: first every part of fixed size, and for every other one the place at which it will be;
then the others. -/
def series (parts : List (Bool × Bytes)) : Bytes :=
  (parts.mapIdx fun i p => if p.1 then p.2
    else leBytes 4 ((parts.map firstLength).sum + ((parts.take i).map fun q => (secondPart q).length).sum)).flatten ++
  (parts.map secondPart).flatten

mutual
/-- The bytes are the serialization of the value. -/
def Ssz : Typ → Val → Bytes → Prop
  | .bytes n, .bytes x, b => x.length = n ∧ b = x
  | .bool, .bool x, b => b = [if x then 1 else 0]
  | .bitvector n, .bits l, b =>
    l.length = n ∧ b.length = (n + 7) / 8 ∧ (∀ i (h : i < l.length), bitAt b i = l[i]) ∧ ∀ i, n ≤ i → bitAt b i = false
  | .bitlist limit, .bits l, b => SszBitlist limit l b
  | .vector n elem, .seq l, b =>
    l.length = n ∧ ∃ bs, List.Forall₂ (fun v x => Ssz elem v x) l bs ∧ b = series (bs.map (isFixed elem, ·)) ∧ b.length < 2 ^ 32
  | .list limit elem, .seq l, b =>
    l.length ≤ limit ∧ ∃ bs, List.Forall₂ (fun v x => Ssz elem v x) l bs ∧ b = series (bs.map (isFixed elem, ·)) ∧ b.length < 2 ^ 32
  | .container fields, .seq l, b => ∃ parts, SszFields fields l parts ∧ b = series parts ∧ b.length < 2 ^ 32
  | _, _, _ => False

/-- The fields of a container. -/
def SszFields : List Typ → List Val → List (Bool × Bytes) → Prop
  | [], [], parts => parts = []
  | t :: ts, v :: vs, parts => ∃ b rest, parts = (isFixed t, b) :: rest ∧ Ssz t v b ∧ SszFields ts vs rest
  | _, _, _ => False
end

mutual
/-- No list has elements of no length. -/
def Typ.WF : Typ → Prop
  | .vector _ elem => Typ.WF elem
  | .list _ elem => elem.size ≠ some 0 ∧ Typ.WF elem
  | .container fields => Typ.WFs fields
  | _ => True

/-- All of them. -/
def Typ.WFs : List Typ → Prop
  | [] => True
  | t :: ts => Typ.WF t ∧ Typ.WFs ts
end

/-- The state is the one given, with the last of its pending consolidations missing. -/
def LacksConsolidations (j : Nat) (s s' : State) : Prop :=
  ∃ before consolidations after, s.value = .seq (before ++ .seq consolidations :: after) ∧
    before.length = 36 ∧ j ≤ consolidations.length ∧ s'.variant = s.variant ∧
    s'.value = .seq (before ++ .seq (consolidations.take (consolidations.length - j)) :: after)

end Signal.Spec
