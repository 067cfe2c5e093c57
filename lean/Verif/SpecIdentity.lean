import Verif.SpecLists
/-
How Chromium identifies a component: by the SHA-256 hash (FIPS 180-4) of the public key in its manifest, which is written
in base64 (RFC 4648).  All of this is written down here, and nothing of it is taken from the code.
-/
namespace AdBlock.Spec
open AdBlock

/-! ### base64 -/

/-- the value of a digit -/
def base64Digit (c : Byte) : Option Nat :=
  if ch%'A' ≤ c ∧ c ≤ ch%'Z' then some (c.toNat - 65)
  else if ch%'a' ≤ c ∧ c ≤ ch%'z' then some (c.toNat - 97 + 26)
  else if ch%'0' ≤ c ∧ c ≤ ch%'9' then some (c.toNat - 48 + 52)
  else if c = ch%'+' then some 62
  else if c = ch%'/' then some 63
  else none

/-- What a text in base64 stands for: groups of four digits, the last of which may be padded. -/
def fromBase64 : Bytes → Option (List Nat)
  | [] => some []
  | a :: b :: c :: d :: rest =>
    match base64Digit a, base64Digit b with
    | some x, some y =>
      if c = ch%'=' ∧ d = ch%'=' ∧ rest = [] then some [x * 4 + y / 16]
      else
        match base64Digit c with
        | none => none
        | some z =>
          if d = ch%'=' ∧ rest = [] then some [x * 4 + y / 16, y % 16 * 16 + z / 4]
          else
            match base64Digit d, fromBase64 rest with
            | some w, some bytes => some ([x * 4 + y / 16, y % 16 * 16 + z / 4, z % 4 * 64 + w] ++ bytes)
            | _, _ => none
    | _, _ => none
  | _ => none

/-! ### SHA-256, on numbers below 2^32 -/

namespace Sha

def rotr (n x : Nat) : Nat := x >>> n ||| (x <<< (32 - n)) % 4294967296

/-- FIPS 180-4, 4.1.2 -/
def ch (x y z : Nat) : Nat := (x &&& y) ^^^ ((x ^^^ 4294967295) &&& z)
def maj (x y z : Nat) : Nat := (x &&& y) ^^^ (x &&& z) ^^^ (y &&& z)
def sum0 (x : Nat) : Nat := rotr 2 x ^^^ rotr 13 x ^^^ rotr 22 x
def sum1 (x : Nat) : Nat := rotr 6 x ^^^ rotr 11 x ^^^ rotr 25 x
def sigma0 (x : Nat) : Nat := rotr 7 x ^^^ rotr 18 x ^^^ x >>> 3
def sigma1 (x : Nat) : Nat := rotr 17 x ^^^ rotr 19 x ^^^ x >>> 10

/-- FIPS 180-4, 4.2.2 -/
def constants : List Nat :=
  [0x428a2f98, 0x71374491, 0xb5c0fbcf, 0xe9b5dba5, 0x3956c25b, 0x59f111f1, 0x923f82a4, 0xab1c5ed5,
   0xd807aa98, 0x12835b01, 0x243185be, 0x550c7dc3, 0x72be5d74, 0x80deb1fe, 0x9bdc06a7, 0xc19bf174,
   0xe49b69c1, 0xefbe4786, 0x0fc19dc6, 0x240ca1cc, 0x2de92c6f, 0x4a7484aa, 0x5cb0a9dc, 0x76f988da,
   0x983e5152, 0xa831c66d, 0xb00327c8, 0xbf597fc7, 0xc6e00bf3, 0xd5a79147, 0x06ca6351, 0x14292967,
   0x27b70a85, 0x2e1b2138, 0x4d2c6dfc, 0x53380d13, 0x650a7354, 0x766a0abb, 0x81c2c92e, 0x92722c85,
   0xa2bfe8a1, 0xa81a664b, 0xc24b8b70, 0xc76c51a3, 0xd192e819, 0xd6990624, 0xf40e3585, 0x106aa070,
   0x19a4c116, 0x1e376c08, 0x2748774c, 0x34b0bcb5, 0x391c0cb3, 0x4ed8aa4a, 0x5b9cca4f, 0x682e6ff3,
   0x748f82ee, 0x78a5636f, 0x84c87814, 0x8cc70208, 0x90befffa, 0xa4506ceb, 0xbef9a3f7, 0xc67178f2]

/-- the eight words of the state -/
structure State where
  a : Nat
  b : Nat
  c : Nat
  d : Nat
  e : Nat
  f : Nat
  g : Nat
  h : Nat

/-- FIPS 180-4, 5.3.3 -/
def start : State := ⟨0x6a09e667, 0xbb67ae85, 0x3c6ef372, 0xa54ff53a, 0x510e527f, 0x9b05688c, 0x1f83d9ab, 0x5be0cd19⟩

/-- FIPS 180-4, 6.2.2, step 1: the next word of the schedule from the last sixteen -/
def nextWord : List Nat → Nat
  | [w0, w1, _, _, _, _, _, _, _, w9, _, _, _, _, w14, _] => (sigma1 w14 + w9 + sigma0 w1 + w0) % 4294967296
  | _ => 0

/-- FIPS 180-4, 6.2.2, step 3, for one constant and one word -/
def round (s : State) (k w : Nat) : State :=
  let t1 := s.h + sum1 s.e + ch s.e s.f s.g + k + w
  ⟨(t1 + sum0 s.a + maj s.a s.b s.c) % 4294967296, s.a, s.b, s.c, (s.d + t1) % 4294967296, s.e, s.f, s.g⟩

/-- the rounds for these constants; `ws` are the sixteen words next in turn -/
def rounds : List Nat → List Nat → State → State
  | [], _, s => s
  | k :: ks, ws, s => rounds ks (ws.drop 1 ++ [nextWord ws]) (round s k (ws.headD 0))

/-- FIPS 180-4, 6.2.2, for one block of sixteen words -/
def block (s : State) (ws : List Nat) : State :=
  let r := rounds constants ws s
  ⟨(s.a + r.a) % 4294967296, (s.b + r.b) % 4294967296, (s.c + r.c) % 4294967296, (s.d + r.d) % 4294967296,
   (s.e + r.e) % 4294967296, (s.f + r.f) % 4294967296, (s.g + r.g) % 4294967296, (s.h + r.h) % 4294967296⟩

/-- FIPS 180-4, 5.1.1: one bit, zeros up to eight bytes before the end of a block, and the length in bits -/
def padded (m : List Nat) : List Nat :=
  m ++ 128 :: List.replicate ((119 - m.length % 64) % 64) 0 ++
    [56, 48, 40, 32, 24, 16, 8, 0].map fun n => (8 * m.length) >>> n % 256

/-- the words of a text, each of four bytes -/
def words : List Nat → List Nat
  | a :: b :: c :: d :: rest => (((a * 256 + b) * 256 + c) * 256 + d) :: words rest
  | _ => []

/-- block by block; `n` is the number of blocks -/
def blocks : Nat → List Nat → State → State
  | 0, _, s => s
  | n + 1, ws, s => blocks n (ws.drop 16) (block s (ws.take 16))

/-- SHA-256 of a text: eight words -/
def hash (m : List Nat) : List Nat :=
  let ws := words (padded m)
  let s := blocks (ws.length / 16) ws start
  [s.a, s.b, s.c, s.d, s.e, s.f, s.g, s.h]

end Sha

/-! ### components -/

/-- the digits of a word in base 16, each written as one of the letters from `a` to `p` -/
def letters (w : Nat) : Bytes := [28, 24, 20, 16, 12, 8, 4, 0].map fun n => UInt8.ofNat (97 + w >>> n % 16)

/-- The identity of the component with this key: the first half of the hash of the key, in letters. -/
def componentOf (base64 : Bytes) : Option Bytes := (fromBase64 base64).map fun key => ((Sha.hash key).take 4).flatMap letters

/-- what `componentOf` makes of the key in a manifest -/
def identifiedBy (manifest : Bytes) : Option Bytes :=
  match readJson manifest with
  | none => none
  | some members =>
    match members.find? (fun m => m.1 == bs%"key") with
    | some (_, .string key) => componentOf key
    | _ => none

end AdBlock.Spec
