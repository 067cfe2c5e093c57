import Verif.Model.Chars
/-
Fingerprints.  Models ad_block_client.cc:101-193 and the constants of
ad_block_client.h (kFingerprintSize) and bad_fingerprints.h.

`bad` stands for the array `badFingerprints` of bad_fingerprints.h (14746 six byte
strings).  The model and all theorems are parametric in it.
-/
namespace AdBlock

/-- ad_block_client.h `kFingerprintSize` -/
def kFingerprintSize : Nat := 6

/-- bad_fingerprints.h `badSubstrings` -/
def badSubstrings : List Bytes := [bs%"http", bs%"www"]

/-- ad_block_client.cc:105-114 `isBadFingerprint(start, start + n)`; `s` is the C string
at `start`. -/
def isBadFingerprint (bad : List Bytes) (s : Bytes) (n : Nat) : Bool :=
  bad.any fun bf => strncmpEq bf s n

/-- ad_block_client.cc:116-126 `hasBadSubstring(start, start + n)`; `s` is the C string
at `start`. -/
def hasBadSubstring (s : Bytes) (n : Nat) : Bool :=
  badSubstrings.any fun sub =>
    match strstr sub s with
    | some off => off + sub.length ≤ n
    | none => false

/-- What one run of the inner part of the loop ad_block_client.cc:138-169 from a given
`start` ends with. -/
inductive FpStep where
  /-- NUL reached (line 141) -/
  | atEnd
  /-- a non fingerprint character at offset `k`: restart just after it (139-144) -/
  | nonFpChar (k : Nat)
  /-- bad substring or bad fingerprint: restart at `start + 1` (148-153, 160-165) -/
  | bump
  /-- a fingerprint was found (169) -/
  | found
deriving DecidableEq, Repr

/-- One run of the loop ad_block_client.cc:138-169 from `start`, until it restarts or
ends.  `s` is the C string at `start`, `rest` the C string at `p = start + size`,
`todo = kFingerprintSize - size`. -/
def fpRun (bad : List Bytes) (s : Bytes) : (todo : Nat) → (rest : Bytes) → (size : Nat) → FpStep
  | 0, _, _ => .atEnd  -- not reached: `size` never gets to 6 without deciding
  | _ + 1, [], _ => .atEnd
  | todo + 1, c :: rest, size =>
    if !isFingerprintChar c then .nonFpChar size
    else if hasBadSubstring s (size + 1) then .bump
    else if todo = 0 then
      if isBadFingerprint bad s (size + 1) then .bump else .found
    else fpRun bad s todo rest (size + 1)

/-- The whole loop ad_block_client.cc:138-169; `s` is the C string at `start`. -/
def fpLoop (bad : List Bytes) : (fuel : Nat) → (s : Bytes) → Option Bytes
  | 0, _ => none
  | fuel + 1, s =>
    match fpRun bad s kFingerprintSize s 0 with
    | .atEnd => none
    | .nonFpChar k => fpLoop bad fuel (s.drop (k + 1))
    | .bump => fpLoop bad fuel (s.drop 1)
    | .found => some (s.take kFingerprintSize)

/-- ad_block_client.cc:131-174 `getFingerprint(buffer, input)` for a NUL terminated
`input` with contents `s`: `some fp` when it returns true with `fp` in the buffer.
(`start` strictly increases at each restart, so `s.length + 1` restarts suffice; see
`fpLoop_fuel` in the proofs.) -/
def getFingerprintStr (bad : List Bytes) (s : Bytes) : Option Bytes :=
  fpLoop bad (s.length + 1) s

end AdBlock
