import Verif.Proofs.AssertReader
import Verif.Props.Verdict
import Verif.Props.VerifyOrder

/-!
# C70: verifying over two readers checked against each other
-/

namespace Signal
open Spec

/-- **C70.** Verification over two readers checked against each other succeeds exactly if verification over the first
alone does, with the same result, and the second shows the same view of everything that was asked, up to the balances
and the exits of validators. -/
theorem C70_checked_iff (X : Ext) (cfg : Config) (A B : Reader) (hspec : B.spec = A.spec) (post : ConsensusState)
    (slot : Nat) :
    verify X cfg (assertReader A B) = .ok (post, slot) ↔
      verify X cfg A = .ok (post, slot) ∧ SameView X A B ∧
        B.slotForBlock post.finalized.root = A.slotForBlock post.finalized.root := by
  constructor
  · intro h
    obtain ⟨pre, atts, h1, h2, _, _, h5⟩ := verify_ok h
    have hA : verify X cfg A = .ok (post, slot) := by
      refine verify_answers_too h2 ⟨rfl, ?_, ?_, ?_, ?_, ?_, ?_, ?_⟩ h
      · exact fun x hx => (assertRead_ok_iff.1 hx).1
      · exact fun hx => (assertRead_ok_iff.1 hx).1
      · exact fun x hx => (assertRead_ok_iff.1 hx).1
      · exact fun a _ x hx => (assertRead_ok_iff.1 hx).1
      · exact fun a _ x hx => (assertRead_ok_iff.1 hx).1
      · exact fun a _ x hx => (assertRead_ok_iff.1 hx).1
      · exact fun x hx => (assertRead_ok_iff.1 hx).1
    have hne : atts ≠ [] := by
      rintro rfl
      obtain ⟨pre', atts', k1, k2, k3, k4, _⟩ := verify_ok h
      rw [h2] at k2; cases k2
      simp only [chunkBy, verifyLoop_nil] at k3
      subst k3; exact k4 rfl
    obtain ⟨a₀, ha₀⟩ := List.exists_mem_of_ne_nil _ hne
    obtain ⟨a1, b1⟩ := assertRead_eq_iff.1 h1
    obtain ⟨a2, y, b2, e2⟩ := assertRead_ok_iff.1 h2
    rw [inStep_eq_iff] at e2; subst e2
    obtain ⟨a5, b5⟩ := assertRead_eq_iff.1 h5
    refine ⟨hA, ⟨hspec, by rw [a1, b1], by rw [a2, b2], ?_, ?_, ?_, ?_⟩, by rw [a5, b5]⟩
    · obtain ⟨⟨x, hx⟩, _⟩ := verify_asked h h2 ha₀
      obtain ⟨p, q⟩ := assertRead_eq_iff.1 hx
      rw [p, q]
    · intro atts' ha' a ha
      rw [a2] at ha'; cases ha'
      obtain ⟨_, ⟨x, hx⟩, _⟩ := verify_asked h h2 ha
      obtain ⟨p, q⟩ := assertRead_eq_iff.1 hx
      rw [p, q]
    · intro atts' ha' a ha
      rw [a2] at ha'; cases ha'
      obtain ⟨_, _, _, x, hx⟩ := verify_asked h h2 ha
      obtain ⟨p, q⟩ := assertRead_eq_iff.1 hx
      exact q.trans p.symm
    · intro atts' ha' a ha l hl
      rw [a2] at ha'; cases ha'
      obtain ⟨_, _, ⟨x, hx⟩, _⟩ := verify_asked h h2 ha
      obtain ⟨p, l', q, e⟩ := assertRead_ok_iff.1 hx
      rw [hl] at p; cases p
      exact ⟨l', q, inStep_agreeOn_iff.1 e⟩
  · rintro ⟨h, hv, hslot⟩
    obtain ⟨pre, atts, h1, h2, _, _, h5⟩ := verify_ok h
    refine verify_answers_too h2 ⟨rfl, ?_, ?_, ?_, ?_, ?_, ?_, ?_⟩ h
    · intro x hx; exact assertRead_eq_iff.2 ⟨hx, by rw [hv.start]; exact hx⟩
    · intro hx; exact assertRead_ok_iff.2 ⟨hx, atts, by rw [hv.votes]; exact hx, inStep_eq_iff.2 rfl⟩
    · intro x hx; exact assertRead_eq_iff.2 ⟨hx, by rw [hv.genesis]; exact hx⟩
    · intro a ha x hx; exact assertRead_eq_iff.2 ⟨hx, by rw [hv.fork atts h2 a ha]; exact hx⟩
    · intro a ha x hx; exact assertRead_eq_iff.2 ⟨hx, by rw [hv.mix atts h2 a ha]; exact hx⟩
    · intro a ha x hx
      obtain ⟨l', q, e⟩ := hv.validators atts h2 a ha x hx
      exact assertRead_ok_iff.2 ⟨hx, l', q, inStep_agreeOn_iff.2 e⟩
    · intro x hx; exact assertRead_eq_iff.2 ⟨hx, by rw [hslot]; exact hx⟩

/-- **C70.** What the check is worth: once it has succeeded, the second reader alone can only lead to the same result, or
to a failure because, with its balances, the voters of a link do not have enough weight. -/
theorem C70_second_reader (X : Ext) (cfg : Config) (A B : Reader) (hspec : B.spec = A.spec) (post : ConsensusState)
    (slot : Nat) (h : verify X cfg (assertReader A B) = .ok (post, slot)) :
    (∀ result, verify X cfg B = .ok result → result = (post, slot)) ∧
    ((∀ e, B.activeValidators e = A.activeValidators e) → verify X cfg B = .ok (post, slot)) := by
  obtain ⟨hA, hv, hslot⟩ := (C70_checked_iff X cfg A B hspec post slot).1 h
  obtain ⟨pre, atts, h1, h2, voters, _, h4, _⟩ := C61_verdict_iff X cfg A B post slot hA hv hslot
  refine ⟨h4, fun he => ?_⟩
  refine verify_answers_too h2 ⟨hspec, ?_, ?_, ?_, ?_, ?_, ?_, ?_⟩ hA
  · intro x hx; rw [hv.start]; exact hx
  · intro hx; rw [hv.votes]; exact hx
  · intro x hx; rw [hv.genesis]; exact hx
  · intro a ha x hx; rw [hv.fork atts h2 a ha]; exact hx
  · intro a ha x hx; rw [hv.mix atts h2 a ha]; exact hx
  · intro a _ x hx; rw [he]; exact hx
  · intro x hx; rw [hslot]; exact hx

/-! ## Examples -/

/-- The example reader with another balance of validator `j`. -/
def exRichReader (j b : Nat) : Reader :=
  { exReader with activeValidators := fun _ => .ok (exActive.map (fun p =>
      (p.1, { p.2 with effectiveBalance := if p.1 = j then b else p.2.effectiveBalance }))) }

/-- The example reader with another key. -/
def exOtherKey : Reader :=
  { exReader with activeValidators := fun _ => .ok (exActive.map (fun p =>
      (p.1, { p.2 with pubkey := if p.1 = 9 then exKey 10 else p.2.pubkey }))) }

set_option maxRecDepth 100000 in
/-- Other balances pass the check, even if with them the thresholds are missed; another key does not. -/
example : verify exExt Config.default (assertReader exReader (exRichReader 0 64)) = .ok (⟨exC7, exC6⟩, 24) ∧
    verify exExt Config.default (exRichReader 0 64) = .ok (⟨exC7, exC6⟩, 24) ∧
    verify exExt Config.default (assertReader exReader (exRichReader 9 64)) = .ok (⟨exC7, exC6⟩, 24) ∧
    verify exExt Config.default (exRichReader 9 64) = .err (.thresholdNotMet 288 299) ∧
    verify exExt Config.default (assertReader exReader exOtherKey) = .panic := by
  decide +kernel

set_option maxRecDepth 100000 in
example : SameView exExt exReader (exRichReader 0 64) :=
  ((C70_checked_iff exExt Config.default exReader (exRichReader 0 64) rfl ⟨exC7, exC6⟩ 24).1 (by decide +kernel)).2.1

end Signal
