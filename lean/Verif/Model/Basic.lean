/-!
# Basic conventions of the model

Rust results with panics, `u64` arithmetic in its three flavours, ordered maps and byte strings.
-/

namespace Signal

/-- Outcome of a Rust function returning `Result<α, ε>`: a value, an `Err`, or an abort
(`panic!`, failed `assert!`, `unwrap`/`expect` on nothing, out-of-range index, division by zero). -/
inductive Res (ε : Type) (α : Type) where
  | ok (a : α)
  | err (e : ε)
  | panic
  deriving Repr, DecidableEq

namespace Res

variable {ε ε' α β : Type}

/-- Sequencing, i.e. the `?` operator: errors and aborts propagate. -/
@[inline] def bind (x : Res ε α) (f : α → Res ε β) : Res ε β :=
  match x with
  | ok a => f a
  | err e => err e
  | panic => panic

instance : Monad (Res ε) where
  pure := ok
  bind := bind

/-- `Result::map_err` / the `From` conversion done by `?`. -/
def mapErr (f : ε → ε') : Res ε α → Res ε' α
  | ok a => ok a
  | err e => err (f e)
  | panic => panic

/-- `Result::unwrap` / `expect`: an error becomes an abort. -/
def unwrap : Res ε α → Res ε' α
  | ok a => ok a
  | err _ => panic
  | panic => panic

/-- True when the outcome is a value. -/
def isOk : Res ε α → Bool
  | ok _ => true
  | _ => false

@[simp] theorem pure_eq (a : α) : (pure a : Res ε α) = ok a := rfl
@[simp] theorem ok_bind (a : α) (f : α → Res ε β) : (ok a >>= f) = f a := rfl
@[simp] theorem err_bind (e : ε) (f : α → Res ε β) : ((err e : Res ε α) >>= f) = err e := rfl
@[simp] theorem panic_bind (f : α → Res ε β) : ((panic : Res ε α) >>= f) = panic := rfl

theorem bind_eq_ok {x : Res ε α} {f : α → Res ε β} {b : β} :
    (x >>= f) = ok b ↔ ∃ a, x = ok a ∧ f a = ok b := by
  cases x <;> simp

@[simp] theorem mapErr_eq_ok {f : ε → ε'} {x : Res ε α} {a : α} :
    x.mapErr f = ok a ↔ x = ok a := by
  cases x <;> simp [mapErr]

@[simp] theorem unwrap_eq_ok {x : Res ε α} {a : α} :
    (x.unwrap : Res ε' α) = ok a ↔ x = ok a := by
  cases x <;> simp [unwrap]

@[simp] theorem isOk_eq_true {x : Res ε α} : x.isOk = true ↔ ∃ a, x = ok a := by
  cases x <;> simp [isOk]

end Res

/-- The `ensure!` macro (core/src/lib.rs:206-213): return the error unless the condition holds. -/
def ensure {ε : Type} (c : Bool) (e : ε) : Res ε Unit := if c then .ok () else .err e

/-- Rust's `assert!`: abort unless the condition holds. -/
def assert {ε : Type} (c : Bool) : Res ε Unit := if c then .ok () else .panic

/-- `Option::expect` / `unwrap`: abort on `None`. -/
def expect {ε α : Type} : Option α → Res ε α
  | some a => .ok a
  | none => .panic

/-- `Option::ok_or`. -/
def okOr {ε α : Type} (e : ε) : Option α → Res ε α
  | some a => .ok a
  | none => .err e

@[simp] theorem ensure_eq_ok {ε : Type} {c : Bool} {e : ε} {u : Unit} :
    ensure c e = Res.ok u ↔ c = true := by
  cases c <;> simp [ensure]

@[simp] theorem assert_eq_ok {ε : Type} {c : Bool} {u : Unit} :
    (assert c : Res ε Unit) = Res.ok u ↔ c = true := by
  cases c <;> simp [assert]

@[simp] theorem expect_eq_ok {ε α : Type} {o : Option α} {a : α} :
    (expect o : Res ε α) = Res.ok a ↔ o = some a := by
  cases o <;> simp [expect]

@[simp] theorem okOr_eq_ok {ε α : Type} {o : Option α} {e : ε} {a : α} :
    (okOr e o : Res ε α) = Res.ok a ↔ o = some a := by
  cases o <;> simp [okOr]

/-- `iter.map(f).collect::<Result<Vec<_>, _>>()`: stops at the first error or abort. -/
def mapRes {ε α β : Type} (f : α → Res ε β) : List α → Res ε (List β)
  | [] => .ok []
  | a :: l => do
    let b ← f a
    let bs ← mapRes f l
    return b :: bs

theorem mapRes_eq_ok {ε α β : Type} {f : α → Res ε β} {l : List α} {bs : List β} :
    mapRes f l = .ok bs ↔ List.map f l = bs.map .ok := by
  induction l generalizing bs with
  | nil => cases bs <;> simp [mapRes]
  | cons a l ih =>
    simp only [mapRes, Res.bind_eq_ok, Res.pure_eq, ih]
    constructor
    · rintro ⟨b, hb, bs', hbs, h⟩; cases h; simp [hb, hbs]
    · intro h
      cases bs with
      | nil => simp at h
      | cons b bs =>
        simp only [List.map_cons, List.cons.injEq] at h
        exact ⟨b, h.1, bs, h.2, rfl⟩

theorem mapRes_ok {ε α β : Type} {f : α → Res ε β} {g : α → β} {l : List α}
    (h : ∀ a ∈ l, f a = .ok (g a)) : mapRes f l = .ok (l.map g) := by
  rw [mapRes_eq_ok, List.map_map]
  exact List.map_congr_left h

/-! ## `u64` arithmetic

Values are naturals; the operations carry the `u64` behaviour. -/

/-- `2^64`. -/
notation "U64" => (18446744073709551616 : Nat)

/-- `u64::MAX`, also lighthouse's `FAR_FUTURE_EPOCH`. -/
notation "u64Max" => (18446744073709551615 : Nat)

/-- `safe_arith::ArithError`. -/
inductive ArithError where
  | overflow
  | divisionByZero
  deriving Repr, DecidableEq

/-- `SafeArith::safe_add`: checked addition. -/
def safeAdd (a b : Nat) : Res ArithError Nat := if a + b < U64 then .ok (a + b) else .err .overflow
/-- `SafeArith::safe_sub`: checked subtraction. -/
def safeSub (a b : Nat) : Res ArithError Nat := if b ≤ a then .ok (a - b) else .err .overflow
/-- `SafeArith::safe_mul`: checked multiplication. -/
def safeMul (a b : Nat) : Res ArithError Nat := if a * b < U64 then .ok (a * b) else .err .overflow
/-- `SafeArith::safe_div`: checked division. -/
def safeDiv (a b : Nat) : Res ArithError Nat := if b = 0 then .err .divisionByZero else .ok (a / b)
/-- `SafeArith::safe_rem`: checked remainder. -/
def safeRem (a b : Nat) : Res ArithError Nat := if b = 0 then .err .divisionByZero else .ok (a % b)

/-- lighthouse `Epoch`/`Slot` `+` (feature "legacy-arith"): saturating. -/
def satAdd (a b : Nat) : Nat := min (a + b) u64Max
/-- lighthouse `Epoch`/`Slot` `-` and `saturating_sub`. -/
abbrev satSub (a b : Nat) : Nat := a - b
/-- lighthouse `saturating_mul` (as used by `Epoch::start_slot`). -/
def satMul (a b : Nat) : Nat := min (a * b) u64Max

/-- Raw `u64` `+` with overflow checks off. -/
def wrapAdd (a b : Nat) : Nat := (a + b) % U64
/-- Raw `u64` `*` with overflow checks off. -/
def wrapMul (a b : Nat) : Nat := (a * b) % U64

@[simp] theorem safeAdd_eq_ok {a b c : Nat} : safeAdd a b = .ok c ↔ a + b < U64 ∧ c = a + b := by
  unfold safeAdd; split <;> simp [*, eq_comm] <;> omega
@[simp] theorem safeSub_eq_ok {a b c : Nat} : safeSub a b = .ok c ↔ b ≤ a ∧ c = a - b := by
  unfold safeSub; split <;> simp [*, eq_comm] <;> omega
@[simp] theorem safeMul_eq_ok {a b c : Nat} : safeMul a b = .ok c ↔ a * b < U64 ∧ c = a * b := by
  unfold safeMul; split <;> simp [*, eq_comm] <;> omega
@[simp] theorem safeDiv_eq_ok {a b c : Nat} : safeDiv a b = .ok c ↔ b ≠ 0 ∧ c = a / b := by
  unfold safeDiv; split <;> simp_all [eq_comm]
@[simp] theorem safeRem_eq_ok {a b c : Nat} : safeRem a b = .ok c ↔ b ≠ 0 ∧ c = a % b := by
  unfold safeRem; split <;> simp_all [eq_comm]

/-! ## Bytes -/

/-- A byte string (`Vec<u8>`, `&[u8]`). -/
abbrev Bytes := List UInt8

/-- A 32-byte value (`B256`, `[u8; 32]`); that the length is 32 is stated where it matters. -/
abbrev Root := Bytes

/-- `B256::ZERO`. -/
def zeroRoot : Root := List.replicate 32 0

/-- `u64::to_le_bytes` for `k` bytes. -/
def leBytes : (k : Nat) → Nat → Bytes
  | 0, _ => []
  | k + 1, n => UInt8.ofNat (n % 256) :: leBytes k (n / 256)

/-- `u64::from_le_bytes`. -/
def ofLE : Bytes → Nat
  | [] => 0
  | b :: bs => b.toNat + 256 * ofLE bs

/-- Big-endian bytes, as used by the Solidity ABI. -/
def beBytes (k n : Nat) : Bytes := (leBytes k n).reverse

/-- Value of big-endian bytes. -/
def ofBE (b : Bytes) : Nat := ofLE b.reverse

/-- `&data[i..j]` with Rust's bounds check. -/
def slice? (data : Bytes) (i j : Nat) : Option Bytes :=
  if i ≤ j ∧ j ≤ data.length then some ((data.drop i).take (j - i)) else none

end Signal
