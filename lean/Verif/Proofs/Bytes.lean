import Verif.Model.Basic

/-! Helper lemmas on byte strings. -/

namespace Signal

@[simp] theorem leBytes_length (k n : Nat) : (leBytes k n).length = k := by
  induction k generalizing n with
  | zero => rfl
  | succ k ih => simp [leBytes, ih]

@[simp] theorem beBytes_length (k n : Nat) : (beBytes k n).length = k := by simp [beBytes]

theorem ofLE_leBytes (k n : Nat) : ofLE (leBytes k n) = n % 256 ^ k := by
  induction k generalizing n with
  | zero => simp [leBytes, ofLE, Nat.mod_one]
  | succ k ih =>
    simp only [leBytes, ofLE, ih]
    have h : (UInt8.ofNat (n % 256)).toNat = n % 256 := by
      simp
    rw [h, Nat.pow_succ, Nat.mul_comm (256 ^ k) 256, Nat.mod_mul]

theorem ofLE_lt (b : Bytes) : ofLE b < 256 ^ b.length := by
  induction b with
  | nil => simp [ofLE]
  | cons x b ih =>
    simp only [ofLE, List.length_cons, Nat.pow_succ]
    have := x.toNat_lt
    omega

theorem leBytes_ofLE (b : Bytes) : leBytes b.length (ofLE b) = b := by
  induction b with
  | nil => rfl
  | cons x b ih =>
    simp only [List.length_cons, leBytes, ofLE]
    have hx := x.toNat_lt
    have h1 : (x.toNat + 256 * ofLE b) % 256 = x.toNat := by omega
    have h2 : (x.toNat + 256 * ofLE b) / 256 = ofLE b := by omega
    rw [h1, h2, ih]; simp

theorem ofBE_beBytes (k n : Nat) : ofBE (beBytes k n) = n % 256 ^ k := by
  simp [ofBE, beBytes, ofLE_leBytes]

theorem leBytes_inj {k m n : Nat} (hm : m < 256 ^ k) (hn : n < 256 ^ k)
    (h : leBytes k m = leBytes k n) : m = n := by
  have := congrArg ofLE h
  rw [ofLE_leBytes, ofLE_leBytes, Nat.mod_eq_of_lt hm, Nat.mod_eq_of_lt hn] at this
  exact this

end Signal
