import Verif.Model.AttestationSsz
import Verif.Spec.AttestationSsz
import Verif.Proofs.Bytes
import Mathlib.Data.Nat.Bitwise

/-!
# Lemmas about bits and slices
-/

namespace Signal.Ssz
open Spec

/-! ## Bits -/

theorem bitAt_eq (b : Bytes) (i : Nat) : bitAt b i = (ofLE b).testBit i := by
  induction b generalizing i with
  | nil => simp [bitAt, ofLE]
  | cons x xs ih =>
    have hx : x.toNat < 2 ^ 8 := x.toNat_lt
    rw [ofLE, Nat.add_comm, show (256 : Nat) = 2 ^ 8 by rfl, Nat.testBit_two_pow_mul_add _ hx]
    by_cases hi : i < 8
    · rw [if_pos hi, bitAt, Nat.div_eq_of_lt hi, Nat.mod_eq_of_lt hi, Nat.testBit_eq_decide_div_mod_eq]
      rfl
    · rw [if_neg hi, ← ih, bitAt, bitAt]
      have h1 : i / 8 = (i - 8) / 8 + 1 := by omega
      have h2 : i % 8 = (i - 8) % 8 := by omega
      rw [h1, h2]
      rfl

theorem bitsNat_testBit (l : List Bool) (i : Nat) : (bitsNat l).testBit i = l.getD i false := by
  induction l generalizing i with
  | nil => simp [bitsNat]
  | cons b l ih =>
    cases i with
    | zero => cases b <;> simp [bitsNat, Nat.testBit_zero]
    | succ i =>
      rw [Nat.testBit_succ, List.getD_cons_succ, ← ih]
      congr 1
      show ((if b then 1 else 0) + 2 * bitsNat l) / 2 = bitsNat l
      split <;> omega

theorem bitsNat_lt (l : List Bool) : bitsNat l < 2 ^ l.length := by
  induction l with
  | nil => decide
  | cons b l ih =>
    rw [List.length_cons, Nat.pow_succ]
    show (if b then 1 else 0) + 2 * bitsNat l < _
    split <;> omega

theorem pow256 (k : Nat) : 256 ^ k = 2 ^ (8 * k) := by rw [Nat.pow_mul]

theorem eq_of_bits {b b' : Bytes} (hlen : b.length = b'.length) (h : ∀ i, bitAt b i = bitAt b' i) : b = b' := by
  have : ofLE b = ofLE b' := Nat.eq_of_testBit_eq (fun i => by rw [← bitAt_eq, ← bitAt_eq]; exact h i)
  rw [← leBytes_ofLE b, ← leBytes_ofLE b', this, hlen]

theorem encodeBitlist_spec {limit : Nat} (l : List Bool) (h : l.length ≤ limit) : SszBitlist limit l (encodeBitlist l) := by
  have hval : ofLE (encodeBitlist l) = bitsNat (l ++ [true]) := by
    unfold encodeBitlist
    rw [ofLE_leBytes, pow256]
    apply Nat.mod_eq_of_lt
    refine lt_of_lt_of_le (bitsNat_lt _) (Nat.pow_le_pow_right (by omega) ?_)
    simp only [List.length_append, List.length_singleton]
    omega
  refine ⟨h, by simp [encodeBitlist], fun i hi => ?_, ?_, fun i hi => ?_⟩
  · rw [bitAt_eq, hval, bitsNat_testBit]; simp [List.getD_eq_getElem?_getD, List.getElem?_append, hi]
  · rw [bitAt_eq, hval, bitsNat_testBit]; simp
  · rw [bitAt_eq, hval, bitsNat_testBit]
    rw [List.getD_eq_getElem?_getD, List.getElem?_eq_none (by simp; omega)]; rfl

theorem SszBitlist.unique {limit : Nat} {l : List Bool} {b b' : Bytes} (h : SszBitlist limit l b) (h' : SszBitlist limit l b') : b = b' := by
  refine eq_of_bits (by rw [h.size, h'.size]) (fun i => ?_)
  rcases Nat.lt_trichotomy i l.length with hi | hi | hi
  · rw [h.entries i hi, h'.entries i hi]
  · rw [hi, h.delimiter, h'.delimiter]
  · rw [h.rest i hi, h'.rest i hi]

theorem decodeBitlist_iff (limit : Nat) (b : Bytes) (l : List Bool) : decodeBitlist limit b = some l ↔ SszBitlist limit l b := by
  constructor
  · intro h
    unfold decodeBitlist at h
    dsimp only at h
    split at h
    · cases h
    · rename_i hn
      split at h
      · cases h
      · rename_i hb
        split at h
        · cases h
        · rename_i hm
          cases h
          push Not at hb hm
          refine ⟨by simpa using hm, by simpa using hb.symm, fun i hi => ?_, ?_, fun i hi => ?_⟩
          · rw [bitAt_eq]; simp
          · rw [bitAt_eq, List.length_map, List.length_range]
            exact Nat.testBit_log2 hn
          · rw [bitAt_eq]
            rw [List.length_map, List.length_range] at hi
            exact Nat.testBit_lt_two_pow (lt_of_lt_of_le Nat.lt_log2_self (Nat.pow_le_pow_right (by omega) hi))
  · intro h
    have hd := h.delimiter
    rw [bitAt_eq] at hd
    have hn : ofLE b ≠ 0 := by
      intro h0; rw [h0] at hd; simp at hd
    have hlog : (ofLE b).log2 = l.length := by
      apply Nat.le_antisymm
      · by_contra hlt
        push Not at hlt
        have h1 := Nat.testBit_log2 hn
        rw [← bitAt_eq, h.rest _ hlt] at h1
        cases h1
      · by_contra hlt
        push Not at hlt
        have := Nat.testBit_lt_two_pow (lt_of_lt_of_le (Nat.lt_log2_self (n := ofLE b)) (Nat.pow_le_pow_right (by omega : 0 < 2) hlt))
        rw [this] at hd; cases hd
    have n1 : ¬ (l.length / 8 + 1 ≠ b.length) := by rw [h.size]; simp
    have n2 : ¬ limit < l.length := by have := h.limit; omega
    unfold decodeBitlist
    dsimp only
    rw [if_neg hn, hlog, if_neg n1, if_neg n2]
    congr 1
    apply List.ext_getElem (by simp)
    intro i h1 h2
    rw [List.getElem_map, List.getElem_range, ← bitAt_eq, h.entries i h2]

theorem encodeBitvector_spec (l : List Bool) (h : l.length = 64) : SszBitvector l (encodeBitvector l) := by
  have hval : ofLE (encodeBitvector l) = bitsNat l := by
    unfold encodeBitvector
    rw [ofLE_leBytes, pow256]
    apply Nat.mod_eq_of_lt
    have := bitsNat_lt l
    rw [h] at this
    exact this
  refine ⟨h, by simp [encodeBitvector], fun i hi => ?_⟩
  rw [bitAt_eq, hval, bitsNat_testBit]; simp [List.getD_eq_getElem?_getD, hi]

theorem SszBitvector.unique {l : List Bool} {b b' : Bytes} (h : SszBitvector l b) (h' : SszBitvector l b') : b = b' := by
  refine eq_of_bits (by rw [h.size, h'.size]) (fun i => ?_)
  by_cases hi : i < l.length
  · rw [h.entries i hi, h'.entries i hi]
  · have hz : ∀ c : Bytes, c.length = 8 → bitAt c i = false := by
      intro c hc
      have := h.count
      unfold bitAt
      rw [List.getD_eq_getElem?_getD, List.getElem?_eq_none (by omega)]
      simp
    rw [hz b h.size, hz b' h'.size]

theorem decodeBitvector_iff (b : Bytes) (hb : b.length = 8) (l : List Bool) : decodeBitvector b = l ↔ SszBitvector l b := by
  constructor
  · rintro rfl
    refine ⟨by simp [decodeBitvector], hb, fun i hi => ?_⟩
    rw [bitAt_eq]; simp [decodeBitvector]
  · intro h
    apply List.ext_getElem (by simp [decodeBitvector, h.count])
    intro i h1 h2
    rw [← h.entries i h2, bitAt_eq]
    simp [decodeBitvector]

/-! ## Slices -/

/-- Cut a string into a first part of given length and the rest. -/
theorem split_at (b : Bytes) (n : Nat) (h : n ≤ b.length) : ∃ x y, b = x ++ y ∧ x.length = n :=
  ⟨b.take n, b.drop n, (List.take_append_drop n b).symm, by simp [h]⟩

theorem drop_app {x y : Bytes} {n k : Nat} (hx : x.length = k) (h : k ≤ n) : (x ++ y).drop n = y.drop (n - k) := by
  rw [List.drop_append, List.drop_of_length_le (by omega), hx, List.nil_append]

theorem ofLE_lt' (b : Bytes) (h : b.length = 8) : ofLE b < 2 ^ 64 := by
  have := ofLE_lt b; rw [h] at this; exact this

theorem decodeData_iff (b : Bytes) (hb : b.length = 128) (d : AttestationData) : decodeData b = d ↔ SszData d b := by
  constructor
  · rintro rfl
    obtain ⟨x1, y1, rfl, h1⟩ := split_at b 8 (by omega)
    obtain ⟨x2, y2, rfl, h2⟩ := split_at y1 8 (by simp at hb; omega)
    obtain ⟨x3, y3, rfl, h3⟩ := split_at y2 32 (by simp at hb; omega)
    obtain ⟨x4, y4, rfl, h4⟩ := split_at y3 8 (by simp at hb; omega)
    obtain ⟨x5, y5, rfl, h5⟩ := split_at y4 32 (by simp at hb; omega)
    obtain ⟨x6, y6, rfl, h6⟩ := split_at y5 8 (by simp at hb; omega)
    have h7 : y6.length = 32 := by simp at hb; omega
    have e : decodeData (x1 ++ (x2 ++ (x3 ++ (x4 ++ (x5 ++ (x6 ++ y6)))))) = ⟨ofLE x1, ofLE x2, x3, ⟨ofLE x4, x5⟩, ⟨ofLE x6, y6⟩⟩ := by
      unfold decodeData decodeCheckpoint
      simp [List.take_append, List.drop_append, h1, h2, h3, h4, h5, h6, List.take_of_length_le, List.drop_of_length_le]
    rw [e]
    refine ⟨ofLE_lt' _ h1, ofLE_lt' _ h2, h3, ⟨ofLE_lt' _ h4, h5⟩, ⟨ofLE_lt' _ h6, h7⟩, ?_⟩
    have l1 := leBytes_ofLE x1
    have l2 := leBytes_ofLE x2
    have l4 := leBytes_ofLE x4
    have l6 := leBytes_ofLE x6
    rw [h1] at l1; rw [h2] at l2; rw [h4] at l4; rw [h6] at l6
    simp [l1, l2, l4, l6]
  · rintro ⟨h1, h2, h3, ⟨h4, h5⟩, ⟨h6, h7⟩, rfl⟩
    have e : ∀ n, n < 2 ^ 64 → ofLE (leBytes 8 n) = n := fun n hn => by
      rw [ofLE_leBytes]; exact Nat.mod_eq_of_lt hn
    unfold decodeData decodeCheckpoint
    simp [List.take_append, List.drop_append, h3, h5, List.take_of_length_le, List.drop_of_length_le, e _ h1, e _ h2, e _ h4, e _ h6]

theorem SszData.length {d : AttestationData} {b : Bytes} (h : SszData d b) : b.length = 128 := by
  rw [h.bytes]; simp [h.root, h.source.2, h.target.2]

theorem decodeElectra_iff (sigValid : Bytes → Bool) (b : Bytes) (a : AttestationElectra) :
    decodeElectra sigValid b = some a ↔ SszElectra sigValid a b := by
  constructor
  · intro h
    unfold decodeElectra at h
    split at h
    · cases h
    · rename_i hlen
      obtain ⟨x1, y1, rfl, h1⟩ := split_at b 4 (by omega)
      obtain ⟨x2, y2, rfl, h2⟩ := split_at y1 128 (by simp at hlen; omega)
      obtain ⟨x3, y3, rfl, h3⟩ := split_at y2 96 (by simp at hlen; omega)
      obtain ⟨x4, y4, rfl, h4⟩ := split_at y3 8 (by simp at hlen; omega)
      have e1 : (x1 ++ (x2 ++ (x3 ++ (x4 ++ y4)))).take 4 = x1 := by simp [h1]
      have e2 : ((x1 ++ (x2 ++ (x3 ++ (x4 ++ y4)))).drop 4).take 128 = x2 := by rw [drop_app h1 (by decide)]; simp [h2]
      have e3 : ((x1 ++ (x2 ++ (x3 ++ (x4 ++ y4)))).drop 132).take 96 = x3 := by
        rw [drop_app h1 (by decide), drop_app h2 (by decide)]; simp [h3]
      have e4 : ((x1 ++ (x2 ++ (x3 ++ (x4 ++ y4)))).drop 228).take 8 = x4 := by
        rw [drop_app h1 (by decide), drop_app h2 (by decide), drop_app h3 (by decide)]; simp [h4]
      have e5 : (x1 ++ (x2 ++ (x3 ++ (x4 ++ y4)))).drop 236 = y4 := by
        rw [drop_app h1 (by decide), drop_app h2 (by decide), drop_app h3 (by decide), drop_app h4 (by decide)]; simp
      rw [e1, e2, e3, e4, e5] at h
      split at h
      · cases h
      · rename_i ho
        split at h
        · cases h
        · rename_i hs
          split at h
          · cases h
          · rename_i bits hbits
            cases h
            push Not at ho
            refine ⟨x2, x4, y4, (decodeData_iff _ h2 _).1 rfl, h3, by simpa using hs, (decodeBitvector_iff _ h4 _).1 rfl,
              (decodeBitlist_iff _ _ _).1 hbits, ?_⟩
            have := leBytes_ofLE x1
            rw [h1, ho] at this
            rw [← this]
            simp
  · rintro ⟨d, c, g, hd, hs, hv, hc, hg, rfl⟩
    have hdl := SszData.length hd
    have hcl := hc.size
    have e1 : (leBytes 4 (4 + 128 + 96 + 8) ++ d ++ a.signature ++ c ++ g).take 4 = leBytes 4 236 := by simp
    have e2 : ((leBytes 4 (4 + 128 + 96 + 8) ++ d ++ a.signature ++ c ++ g).drop 4).take 128 = d := by
      simp only [List.append_assoc]; rw [drop_app (leBytes_length 4 (4 + 128 + 96 + 8)) (by decide)]; simp [hdl]
    have e3 : ((leBytes 4 (4 + 128 + 96 + 8) ++ d ++ a.signature ++ c ++ g).drop 132).take 96 = a.signature := by
      simp only [List.append_assoc]; rw [drop_app (leBytes_length 4 (4 + 128 + 96 + 8)) (by decide), drop_app hdl (by decide)]; simp [hs]
    have e4 : ((leBytes 4 (4 + 128 + 96 + 8) ++ d ++ a.signature ++ c ++ g).drop 228).take 8 = c := by
      simp only [List.append_assoc]; rw [drop_app (leBytes_length 4 (4 + 128 + 96 + 8)) (by decide), drop_app hdl (by decide), drop_app hs (by decide)]; simp [hcl]
    have e5 : (leBytes 4 (4 + 128 + 96 + 8) ++ d ++ a.signature ++ c ++ g).drop 236 = g := by
      simp only [List.append_assoc]
      rw [drop_app (leBytes_length 4 (4 + 128 + 96 + 8)) (by decide), drop_app hdl (by decide), drop_app hs (by decide), drop_app hcl (by decide)]; simp
    unfold decodeElectra
    rw [e1, e2, e3, e4, e5]
    have n1 : ¬ (leBytes 4 (4 + 128 + 96 + 8) ++ d ++ a.signature ++ c ++ g).length < 236 := by simp [hdl, hs, hcl]; omega
    have n2 : ¬ ofLE (leBytes 4 236) ≠ 236 := by decide
    have n3 : ¬ sigValid a.signature = false := by simp [hv]
    rw [if_neg n1, if_neg n2, if_neg n3, show decodeBitlist maxElectra g = _ from (decodeBitlist_iff _ _ _).2 hg,
      (decodeData_iff _ hdl _).2 hd, (decodeBitvector_iff _ hcl _).2 hc]

theorem decodeBase_iff (sigValid : Bytes → Bool) (b : Bytes) (a : AttestationBase) :
    decodeBase sigValid b = some a ↔ SszBase sigValid a b := by
  constructor
  · intro h
    unfold decodeBase at h
    split at h
    · cases h
    · rename_i hlen
      obtain ⟨x1, y1, rfl, h1⟩ := split_at b 4 (by omega)
      obtain ⟨x2, y2, rfl, h2⟩ := split_at y1 128 (by simp at hlen; omega)
      obtain ⟨x3, y3, rfl, h3⟩ := split_at y2 96 (by simp at hlen; omega)
      have e1 : (x1 ++ (x2 ++ (x3 ++ y3))).take 4 = x1 := by simp [h1]
      have e2 : ((x1 ++ (x2 ++ (x3 ++ y3))).drop 4).take 128 = x2 := by rw [drop_app h1 (by decide)]; simp [h2]
      have e3 : ((x1 ++ (x2 ++ (x3 ++ y3))).drop 132).take 96 = x3 := by
        rw [drop_app h1 (by decide), drop_app h2 (by decide)]; simp [h3]
      have e5 : (x1 ++ (x2 ++ (x3 ++ y3))).drop 228 = y3 := by
        rw [drop_app h1 (by decide), drop_app h2 (by decide), drop_app h3 (by decide)]; simp
      rw [e1, e2, e3, e5] at h
      split at h
      · cases h
      · rename_i ho
        split at h
        · cases h
        · rename_i hs
          split at h
          · cases h
          · rename_i bits hbits
            cases h
            push Not at ho
            refine ⟨x2, y3, (decodeData_iff _ h2 _).1 rfl, h3, by simpa using hs, (decodeBitlist_iff _ _ _).1 hbits, ?_⟩
            have := leBytes_ofLE x1
            rw [h1, ho] at this
            rw [← this]
            simp
  · rintro ⟨d, g, hd, hs, hv, hg, rfl⟩
    have hdl := SszData.length hd
    have e1 : (leBytes 4 (4 + 128 + 96) ++ d ++ a.signature ++ g).take 4 = leBytes 4 228 := by simp
    have e2 : ((leBytes 4 (4 + 128 + 96) ++ d ++ a.signature ++ g).drop 4).take 128 = d := by
      simp only [List.append_assoc]; rw [drop_app (leBytes_length 4 (4 + 128 + 96)) (by decide)]; simp [hdl]
    have e3 : ((leBytes 4 (4 + 128 + 96) ++ d ++ a.signature ++ g).drop 132).take 96 = a.signature := by
      simp only [List.append_assoc]; rw [drop_app (leBytes_length 4 (4 + 128 + 96)) (by decide), drop_app hdl (by decide)]; simp [hs]
    have e5 : (leBytes 4 (4 + 128 + 96) ++ d ++ a.signature ++ g).drop 228 = g := by
      simp only [List.append_assoc]
      rw [drop_app (leBytes_length 4 (4 + 128 + 96)) (by decide), drop_app hdl (by decide), drop_app hs (by decide)]; simp
    unfold decodeBase
    rw [e1, e2, e3, e5]
    have n1 : ¬ (leBytes 4 (4 + 128 + 96) ++ d ++ a.signature ++ g).length < 228 := by simp [hdl, hs]; omega
    have n2 : ¬ ofLE (leBytes 4 228) ≠ 228 := by decide
    have n3 : ¬ sigValid a.signature = false := by simp [hv]
    rw [if_neg n1, if_neg n2, if_neg n3, show decodeBitlist maxBase g = _ from (decodeBitlist_iff _ _ _).2 hg,
      (decodeData_iff _ hdl _).2 hd]

end Signal.Ssz
