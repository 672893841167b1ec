import Verif.Model.Basic

/-!
# SHA-256

The hash function behind every hash the program takes: `sha2::Sha256` in the seeds of the committees (core/src/input_reader.rs:72-86)
and in the Merkle trees (ssz-multiproofs/src/multiproof.rs:18), `ethereum_hashing` in the shuffle (core/src/committee_cache.rs:89-95)
and in the signing roots (core/src/verify.rs:252-262). All of it is code of external
crates. Everywhere else the hash is a parameter; here it is the function of the standard (FIPS 180-4, sections 4.1.2, 4.2.2, 5.1.1, 5.3.3
and 6.2.2), so that the theorems can be used at the hash the program really runs with. Words of 32 bits are naturals below `2^32`.
-/

namespace Signal.Sha

/-- The constants of FIPS 180-4, section 4.2.2 (inside the crates behind core/src/input_reader.rs:72-86). -/
def K : List Nat :=
  [0x428a2f98, 0x71374491, 0xb5c0fbcf, 0xe9b5dba5, 0x3956c25b, 0x59f111f1, 0x923f82a4, 0xab1c5ed5,
   0xd807aa98, 0x12835b01, 0x243185be, 0x550c7dc3, 0x72be5d74, 0x80deb1fe, 0x9bdc06a7, 0xc19bf174,
   0xe49b69c1, 0xefbe4786, 0x0fc19dc6, 0x240ca1cc, 0x2de92c6f, 0x4a7484aa, 0x5cb0a9dc, 0x76f988da,
   0x983e5152, 0xa831c66d, 0xb00327c8, 0xbf597fc7, 0xc6e00bf3, 0xd5a79147, 0x06ca6351, 0x14292967,
   0x27b70a85, 0x2e1b2138, 0x4d2c6dfc, 0x53380d13, 0x650a7354, 0x766a0abb, 0x81c2c92e, 0x92722c85,
   0xa2bfe8a1, 0xa81a664b, 0xc24b8b70, 0xc76c51a3, 0xd192e819, 0xd6990624, 0xf40e3585, 0x106aa070,
   0x19a4c116, 0x1e376c08, 0x2748774c, 0x34b0bcb5, 0x391c0cb3, 0x4ed8aa4a, 0x5b9cca4f, 0x682e6ff3,
   0x748f82ee, 0x78a5636f, 0x84c87814, 0x8cc70208, 0x90befffa, 0xa4506ceb, 0xbef9a3f7, 0xc67178f2]

/-- The initial hash value of FIPS 180-4, section 5.3.3 (inside the crates behind core/src/input_reader.rs:72-86). -/
def H0 : List Nat :=
  [0x6a09e667, 0xbb67ae85, 0x3c6ef372, 0xa54ff53a, 0x510e527f, 0x9b05688c, 0x1f83d9ab, 0x5be0cd19]

/-- A word of 32 bits rotated to the right (FIPS 180-4, section 3.2). -/
def rotr (n x : Nat) : Nat := x / 2 ^ n + x % 2 ^ n * 2 ^ (32 - n)

/-- FIPS 180-4, equation (4.2). The complement of `x` is `2^32 - 1 - x`. -/
def ch (x y z : Nat) : Nat := (x &&& y) ^^^ ((2 ^ 32 - 1 - x) &&& z)

/-- FIPS 180-4, equation (4.3). -/
def maj (x y z : Nat) : Nat := (x &&& y) ^^^ (x &&& z) ^^^ (y &&& z)

/-- FIPS 180-4, equation (4.4). -/
def S0 (x : Nat) : Nat := rotr 2 x ^^^ rotr 13 x ^^^ rotr 22 x

/-- FIPS 180-4, equation (4.5). -/
def S1 (x : Nat) : Nat := rotr 6 x ^^^ rotr 11 x ^^^ rotr 25 x

/-- FIPS 180-4, equation (4.6). -/
def s0 (x : Nat) : Nat := rotr 7 x ^^^ rotr 18 x ^^^ (x / 2 ^ 3)

/-- FIPS 180-4, equation (4.7). -/
def s1 (x : Nat) : Nat := rotr 17 x ^^^ rotr 19 x ^^^ (x / 2 ^ 10)

/-- A number out of bytes, the most significant first (FIPS 180-4, section 3.1). -/
def ofBE (b : Bytes) : Nat := ofLE b.reverse

/-- The padding of a message of `n` bytes (FIPS 180-4, section 5.1.1): a one bit, zeros, and the length in bits. -/
def padding (n : Nat) : Bytes := 0x80 :: List.replicate ((119 - n % 64) % 64) 0 ++ beBytes 8 (8 * n)

/-- The first words of a text (FIPS 180-4, section 5.2.1). -/
def words : Nat → Bytes → List Nat
  | 0, _ => []
  | k + 1, b => ofBE (b.take 4) :: words k (b.drop 4)

/-- The next word of the message schedule out of the last sixteen (FIPS 180-4, section 6.2.2, step 1). -/
def nextWord (w : List Nat) : Nat := (s1 (w.getD 14 0) + w.getD 9 0 + s0 (w.getD 1 0) + w.getD 0 0) % 2 ^ 32

/-- The eight working variables (FIPS 180-4, section 6.2.2, step 2). -/
structure Vars where
  a : Nat
  b : Nat
  c : Nat
  d : Nat
  e : Nat
  f : Nat
  g : Nat
  h : Nat

/-- One round (FIPS 180-4, section 6.2.2, step 3). -/
def step (v : Vars) (k w : Nat) : Vars :=
  let t1 := v.h + S1 v.e + ch v.e v.f v.g + k + w
  let t2 := S0 v.a + maj v.a v.b v.c
  ⟨(t1 + t2) % 2 ^ 32, v.a, v.b, v.c, (v.d + t1) % 2 ^ 32, v.e, v.f, v.g⟩

/-- The rounds, with the message schedule computed alongside: `w` holds the next sixteen of its words (FIPS 180-4, section 6.2.2). -/
def run : List Nat → Vars → List Nat → Vars
  | [], v, _ => v
  | k :: ks, v, w => run ks (step v k (w.headD 0)) (w.tail ++ [nextWord w])

/-- One block of the message (FIPS 180-4, section 6.2.2, steps 2 to 4). -/
def compress (hash : List Nat) (block : Bytes) : List Nat :=
  let i := hash.getD
  let v := run K ⟨i 0 0, i 1 0, i 2 0, i 3 0, i 4 0, i 5 0, i 6 0, i 7 0⟩ (words 16 block)
  [(i 0 0 + v.a) % 2 ^ 32, (i 1 0 + v.b) % 2 ^ 32, (i 2 0 + v.c) % 2 ^ 32, (i 3 0 + v.d) % 2 ^ 32,
    (i 4 0 + v.e) % 2 ^ 32, (i 5 0 + v.f) % 2 ^ 32, (i 6 0 + v.g) % 2 ^ 32, (i 7 0 + v.h) % 2 ^ 32]

/-- The given number of blocks, one after the other (FIPS 180-4, section 6.2.2). -/
def blocks : Nat → List Nat → Bytes → List Nat
  | 0, h, _ => h
  | n + 1, h, m => blocks n (compress h (m.take 64)) (m.drop 64)

/-- SHA-256 (FIPS 180-4, section 6.2); what `sha2::Sha256` computes (core/src/input_reader.rs:80-85). The standard bounds
messages by `2^64` bits; longer ones are given the length modulo that. -/
def sha256 (m : Bytes) : Bytes :=
  let p := m ++ padding m.length
  (blocks (p.length / 64) H0 p).flatMap (beBytes 4)

end Signal.Sha
