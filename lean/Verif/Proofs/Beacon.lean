import Verif.Spec.Beacon
import Verif.Proofs.Follow

/-! Helper lemmas: the justified and finalized epochs of the beacon chain. -/

namespace Signal
open Spec

/-- The checkpoint of an epoch: at genesis its root is zero. -/
def ck (root : Nat → Root) (e : Nat) : Checkpoint := if e = 0 then ⟨0, List.replicate 32 0⟩ else ⟨e, root e⟩

@[simp] theorem ck_epoch (root : Nat → Root) (e : Nat) : (ck root e).epoch = e := by
  unfold ck
  split <;> simp_all

theorem ck_pos (root : Nat → Root) {e : Nat} (h : e ≠ 0) : ck root e = ⟨e, root e⟩ := if_neg h

theorem ck_inj {root : Nat → Root} {a b : Nat} : ck root a = ck root b ↔ a = b :=
  ⟨fun h => by simpa using congrArg Checkpoint.epoch h, fun h => by rw [h]⟩

/-- What is known of the epochs and bits after `n`. -/
structure Bits (n p c f : Nat) (b0 b1 b2 b3 : Bool) : Prop where
  n_pos : 1 ≤ n
  c_le : c ≤ n
  p_le : p ≤ c
  f_le : f ≤ p
  recent : p = c ∨ n ≤ c + 1
  bit0 : b0 = true → c = n
  nbit0 : b0 = false → c + 1 ≤ n
  bit1 : b1 = true → n ≤ c + 1 ∧ 2 ≤ n
  nbit1 : b0 = false → b1 = false → c + 2 ≤ n ∨ c = 0
  bit2 : b2 = true → n ≤ c + 2 ∧ 3 ≤ n
  bit3 : b3 = true → n ≤ c + 3 ∧ 4 ≤ n
  pbit0 : p = n → b0 = true
  pbit1 : p + 1 = n → p ≠ 0 → b1 = true
  pbit2 : p + 2 = n → p ≠ 0 → b2 = true
  cbit1 : c + 1 = n → c ≠ 0 → b1 = true
  cbit2 : c + 2 = n → c ≠ 0 → b2 = true
  final1 : b0 = true → b1 = true → p + 1 = n → f = p
  final2 : b0 = true → b1 = true → b2 = true → p + 2 = n → f = p
  valid : f < c ∨ c = 0

/-- The justified epoch after `n + 1`. -/
def nextC (n c : Nat) (cv pv : Bool) : Nat := if cv then n + 1 else if pv then n else c

/-- The finalized epoch after `n + 1`. -/
def nextF (n p c f : Nat) (b0 b1 b2 : Bool) (cv pv : Bool) : Nat :=
  if cv ∧ (pv || b0) ∧ c + 1 = n + 1 then c
  else if cv ∧ (pv || b0) ∧ b1 ∧ c + 2 = n + 1 then c
  else if (pv || b0) ∧ b1 ∧ p + 2 = n + 1 then p
  else if (pv || b0) ∧ b1 ∧ b2 ∧ p + 3 = n + 1 then p
  else f

theorem next_eq (root : Nat → Root) (counted : Link → Bool) {n p c f : Nat} {b0 b1 b2 b3 : Bool} (hn : 1 ≤ n) :
    Casper.next root counted (n + 1) ⟨ck root p, ck root c, ck root f, b0, b1, b2, b3⟩ =
      let cv := counted ⟨ck root c, ck root (n + 1)⟩
      let pv := counted ⟨ck root p, ck root n⟩
      ⟨ck root c, ck root (nextC n c cv pv), ck root (nextF n p c f b0 b1 b2 cv pv), cv, pv || b0, b1, b2⟩ := by
  have h1 : (⟨n + 1, root (n + 1)⟩ : Checkpoint) = ck root (n + 1) := (ck_pos root (by omega)).symm
  have h2 : (⟨n, root n⟩ : Checkpoint) = ck root n := (ck_pos root (by omega)).symm
  unfold Casper.next Casper.justify Casper.rule234 Casper.rule23 Casper.rule123 Casper.rule12
  simp only [Nat.add_sub_cancel, h1, h2, ck_epoch]
  generalize counted ⟨ck root c, ck root (n + 1)⟩ = cv
  generalize counted ⟨ck root p, ck root n⟩ = pv
  congr 1
  · unfold nextC; cases cv <;> cases pv <;> rfl
  · unfold nextF; simp only [apply_ite (ck root)]

theorem Bits.genesis : Bits 1 0 0 0 false false false false := by
  constructor <;> simp

theorem Bits.next {n p c f : Nat} {b0 b1 b2 b3 : Bool} (h : Bits n p c f b0 b1 b2 b3) (cv pv : Bool) :
    Bits (n + 1) c (nextC n c cv pv) (nextF n p c f b0 b1 b2 cv pv) cv (pv || b0) b1 b2 := by
  obtain ⟨i1, i2, i3, i4, i5, i6, i7, i8, i9, i10, i11, i12, i13, i14, i15, i16, i17, i18, i19⟩ := h
  unfold nextC nextF
  cases cv <;> cases pv <;> cases b0 <;> cases b1 <;> cases b2 <;>
    simp only [Bool.or_true, Bool.or_false, if_true, if_false, true_and, false_and, and_false, reduceCtorEq, forall_true_left,
      IsEmpty.forall_iff] at * <;>
    (constructor <;> (try simp only [reduceCtorEq, false_implies, true_implies, implies_true]) <;> (try split_ifs) <;> first | omega | exact .inl trivial)

/-- The states of the chain have this form. -/
theorem beacon_bits (root : Nat → Root) (counted : Nat → Link → Bool) :
    ∀ n, ∃ p c f b0 b1 b2 b3, Bits (n + 1) p c f b0 b1 b2 b3 ∧ beacon root counted (n + 1) = ⟨ck root p, ck root c, ck root f, b0, b1, b2, b3⟩
  | 0 => ⟨0, 0, 0, false, false, false, false, Bits.genesis, rfl⟩
  | n + 1 => by
    obtain ⟨p, c, f, b0, b1, b2, b3, h, e⟩ := beacon_bits root counted n
    refine ⟨_, _, _, _, _, _, _, h.next (counted (n + 2) ⟨ck root c, ck root (n + 2)⟩) (counted (n + 2) ⟨ck root p, ck root (n + 1)⟩), ?_⟩
    rw [beacon, e, next_eq root _ h.n_pos]


set_option maxHeartbeats 2000000 in
/-- What the epochs do in one step. -/
theorem Bits.step {n p c f : Nat} {b0 b1 b2 b3 : Bool} (h : Bits n p c f b0 b1 b2 b3) (cv pv : Bool) :
    let c' := nextC n c cv pv
    let f' := nextF n p c f b0 b1 b2 cv pv
    (c' = c ∧ f' = f) ∨
    (c < c' ∧ (f' = f ∧ c + 1 < c' ∨ f' = c ∧ f ≠ c ∧ c' = c + 1) ∧ (cv = true ∧ c' = n + 1 ∨ p = c ∧ pv = true ∧ c' = n)) ∨
    (f < f' ∧ c < c' ∧ c' = f' + 2) ∨
    (f' = f ∧ c' = c + 1 ∧ pv = true ∧ cv = false ∧ c' = n ∧ (p < c ∨ c = 0)) := by
  have h' := h.next cv pv
  obtain ⟨i1, i2, i3, i4, i5, i6, i7, i8, i9, i10, i11, i12, i13, i14, i15, i16, i17, i18, i19⟩ := h
  have j := h'.valid
  clear h'
  unfold nextC nextF at *
  cases cv <;> cases pv <;> cases b0 <;> cases b1 <;> cases b2 <;>
    simp only [Bool.or_true, Bool.or_false, if_true, if_false, true_and, false_and, and_false, reduceCtorEq, forall_true_left,
      IsEmpty.forall_iff] at * <;> (try split_ifs at *) <;> first | (exact .inl trivial) | (simp; done) | (simp; omega)

/-- Two consecutive states of the chain. -/
theorem beacon_step (root : Nat → Root) (counted : Nat → Link → Bool) (n : Nat) (hn : 1 ≤ n) :
    ∃ p c f b0 b1 b2 b3, Bits n p c f b0 b1 b2 b3 ∧ beacon root counted n = ⟨ck root p, ck root c, ck root f, b0, b1, b2, b3⟩ ∧
      beacon root counted (n + 1) =
        let cv := counted (n + 1) ⟨ck root c, ck root (n + 1)⟩
        let pv := counted (n + 1) ⟨ck root p, ck root n⟩
        ⟨ck root c, ck root (nextC n c cv pv), ck root (nextF n p c f b0 b1 b2 cv pv), cv, pv || b0, b1, b2⟩ := by
  obtain ⟨n, rfl⟩ : ∃ m, n = m + 1 := ⟨n - 1, by omega⟩
  obtain ⟨p, c, f, b0, b1, b2, b3, h, e⟩ := beacon_bits root counted n
  refine ⟨p, c, f, b0, b1, b2, b3, h, e, ?_⟩
  rw [beacon, e, next_eq root _ h.n_pos]

theorem Bits.induced_valid {n p c f : Nat} {b0 b1 b2 b3 : Bool} (h : Bits n p c f b0 b1 b2 b3) (root : Nat → Root) :
    ValidState ⟨ck root c, ck root f⟩ := by
  rcases h.valid with hv | hv
  · exact .inl (by simpa using hv)
  · right
    have := h.p_le
    have := h.f_le
    have : f = 0 := by omega
    subst this; subst hv
    rfl

theorem Bits.mono {n p c f : Nat} {b0 b1 b2 b3 : Bool} (h : Bits n p c f b0 b1 b2 b3) (cv pv : Bool) :
    f ≤ nextF n p c f b0 b1 b2 cv pv := by
  have := h.f_le
  have := h.p_le
  unfold nextF
  split_ifs <;> omega

theorem Bits.skip {n p c f : Nat} {b0 b1 b2 b3 : Bool} (h : Bits n p c f b0 b1 b2 b3) (cv pv : Bool)
    (hf : f < nextF n p c f b0 b1 b2 cv pv) (hc : nextC n c cv pv = nextF n p c f b0 b1 b2 cv pv + 2) :
    (pv || b0) = true ∧ b1 = true ∧ (b2 = true ∧ p + 3 = n + 1 ∨ cv = true ∧ c + 2 = n + 1) := by
  obtain ⟨i1, i2, i3, i4, i5, i6, i7, i8, i9, i10, i11, i12, i13, i14, i15, i16, i17, i18, i19⟩ := h
  unfold nextF at hf hc
  unfold nextC at hc
  split at hf
  · rename_i g; rw [if_pos g] at hc; rw [if_pos g.1] at hc; omega
  · rename_i g
    rw [if_neg g] at hc
    split at hf
    · rename_i g1
      exact ⟨g1.2.1, g1.2.2.1, .inr ⟨g1.1, g1.2.2.2⟩⟩
    · rename_i g1
      rw [if_neg g1] at hc
      split at hf
      · rename_i g2
        rw [if_pos g2] at hc
        cases cv with
        | false =>
          exfalso
          split at hc <;> [cases ‹false = true›; skip]
          split at hc <;> omega
        | true =>
          refine ⟨g2.1, g2.2.1, .inr ⟨rfl, ?_⟩⟩
          have := (i8 g2.2.1).1
          rcases Nat.lt_or_ge c n with h1 | h1
          · omega
          · exact absurd ⟨rfl, g2.1, by omega⟩ g
      · split at hf
        · rename_i g3
          exact ⟨g3.1, g3.2.1, .inl g3.2.2⟩
        · omega

theorem skipRule_of {root : Nat → Root} {counted : Nat → Link → Bool} {n p c f : Nat} {b0 b1 b2 b3 : Bool} (hn : 1 ≤ n)
    (e : beacon root counted n = ⟨ck root p, ck root c, ck root f, b0, b1, b2, b3⟩)
    (h : (counted (n + 1) ⟨ck root p, ck root n⟩ || b0) = true ∧ b1 = true ∧
      (b2 = true ∧ p + 3 = n + 1 ∨ counted (n + 1) ⟨ck root c, ck root (n + 1)⟩ = true ∧ c + 2 = n + 1)) :
    SkipRule root counted (n + 1) := by
  have h1 : (⟨n + 1, root (n + 1)⟩ : Checkpoint) = ck root (n + 1) := (ck_pos root (by omega)).symm
  have h2 : (⟨n, root n⟩ : Checkpoint) = ck root n := (ck_pos root (by omega)).symm
  unfold SkipRule Casper.rule234 Casper.rule123 Casper.justify
  simp only [Nat.add_sub_cancel, e, h1, h2, ck_epoch]
  obtain ⟨g1, g2, g3 | g3⟩ := h
  · exact .inl ⟨g1, g2, g3.1, g3.2⟩
  · exact .inr ⟨g3.1, g1, g2, g3.2⟩

end Signal
