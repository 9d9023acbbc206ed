/-!
# Specification: the published MPQ cipher and hashes

Natural-number arithmetic modulo 2^32 (and 2^64 for Jenkins), written from the published description of the
MPQ format. Nothing here refers to the model.
-/

namespace Spec

/-- 32-bit modulus. -/
def M32 : Nat := 2 ^ 32
/-- 64-bit modulus. -/
def M64 : Nat := 2 ^ 64

/-- The linear congruential sequence behind the crypt table. -/
def lcg : Nat → Nat
  | 0 => 0x00100001
  | n + 1 => (lcg n * 125 + 3) % 0x2AAAAB

/-- Crypt table entry `a + 256 * b` is made from draws number `2m+1` and `2m+2`, `m = 5a + b`:
the low 16 bits of the first are its high half, those of the second its low half. -/
def cryptTable (i : Nat) : Nat :=
  let m := 5 * (i % 256) + i / 256
  (lcg (2 * m + 1) % 0x10000) * 0x10000 + lcg (2 * m + 2) % 0x10000

/-- Key schedule: `((~key << 21) + 0x11111111) | (key >> 11)`. -/
def keySchedule (key : Nat) : Nat :=
  (((M32 - 1 - key) * 2 ^ 21 % M32 + 0x11111111) % M32) ||| (key / 2 ^ 11)

/-- One keystream state: the current key and the running seed. -/
structure Stream where
  key : Nat
  seed : Nat

/-- The state before the first dword. -/
def Stream.start (key : Nat) : Stream := ⟨key, 0xEEEEEEEE⟩

/-- The seed after mixing in the crypt table. -/
def Stream.mixed (s : Stream) : Nat := (s.seed + cryptTable (0x400 + s.key % 256)) % M32

/-- The mask XORed onto the next dword. -/
def Stream.mask (s : Stream) : Nat := (s.key + s.mixed) % M32

/-- The state after a dword whose plain value is `p`. -/
def Stream.next (s : Stream) (p : Nat) : Stream :=
  ⟨keySchedule s.key, (p + s.mixed + s.mixed * 32 + 3) % M32⟩

/-- `Encrypts s plain cipher`: starting in state `s`, `cipher` is the encryption of `plain`. -/
inductive Encrypts : Stream → List Nat → List Nat → Prop where
  | nil (s) : Encrypts s [] []
  | cons (s p ps cs) : Encrypts (s.next p) ps cs → Encrypts s (p :: ps) ((p ^^^ s.mask) :: cs)

/-- ASCII upper case, with `/` (47) read as `\` (92). -/
def upper (b : Nat) : Nat :=
  if b = 47 then 92 else if 97 ≤ b ∧ b ≤ 122 then b - 32 else b

/-- ASCII lower case, with `/` read as `\`. -/
def lower (b : Nat) : Nat :=
  if b = 47 then 92 else if 65 ≤ b ∧ b ≤ 90 then b + 32 else b

/-- One character of the MPQ name hash. -/
def hashStep (hashType : Nat) (s : Nat × Nat) (b : Nat) : Nat × Nat :=
  let c := upper b
  let s1 := cryptTable (hashType * 256 + c) ^^^ ((s.1 + s.2) % M32)
  (s1, (c + s1 + s.2 + s.2 * 32 + 3) % M32)

/-- The MPQ name hash. -/
def nameHash (hashType : Nat) (name : List Nat) : Nat :=
  (name.foldl (hashStep hashType) (0x7FED7FED, 0xEEEEEEEE)).1

/-- One character of the 64-bit one-at-a-time hash used by HET tables. -/
def jenkinsStep (h b : Nat) : Nat :=
  let h := (h + lower b) % M64
  let h := (h + h * 2 ^ 10) % M64
  h ^^^ (h / 2 ^ 6)

/-- The 64-bit one-at-a-time hash. -/
def jenkins (name : List Nat) : Nat :=
  let h := name.foldl jenkinsStep 0
  let h := (h + h * 2 ^ 3) % M64
  let h := h ^^^ (h / 2 ^ 11)
  (h + h * 2 ^ 15) % M64

/-- Two name bytes that users regard as the same: equal, the same letter in the other case, or the two
separators. -/
def sameChar (a b : Nat) : Prop :=
  a = b ∨ (65 ≤ a ∧ a ≤ 90 ∧ b = a + 32) ∨ (65 ≤ b ∧ b ≤ 90 ∧ a = b + 32)
    ∨ (a = 47 ∧ b = 92) ∨ (a = 92 ∧ b = 47)

/-- Two names that users regard as the same. -/
def sameName : List Nat → List Nat → Prop
  | [], [] => True
  | a :: as, b :: bs => sameChar a b ∧ sameName as bs
  | _, _ => False

end Spec
