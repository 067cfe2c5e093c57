import Verif.Model.Base
/-
Character classes, URL host extraction and the protocol check.
Models: filter.h:223-225, ad_block_client.cc:47-64, 101-103, 195-210, protocol.cc:29-135.
-/
namespace AdBlock

/-- filter.h:223-225 `isEndOfLine` -/
def isEndOfLine (c : Byte) : Bool := c == 13 || c == 10

/-- ad_block_client.cc:196 `separatorBuffer` (signed chars written as unsigned bytes:
-128 is 128, -92 is 164; the elements not listed in the initialiser are 0). -/
def separatorBuffer : List Byte :=
  [0, 0, 0, 0, 16, 128, 0, 164, 0, 0, 0, 64, 0, 0, 0, 0,
   0, 0, 0, 0, 0, 0, 0, 0, 0, 0, 0, 0, 0, 0, 0, 0]

/-- ad_block_client.cc:197-199 `isSeparatorChar`: bit `c % 8` of `separatorBuffer[c / 8]`. -/
def isSeparatorChar (c : Byte) : Bool :=
  (separatorBuffer.getD (c / 8).toNat 0 &&& (1 <<< (c % 8))) != 0

/-- ad_block_client.cc:201-210 `findFirstSeparatorChar(input, end)`; the range
`[input, end)` is the list. -/
def findFirstSeparatorChar : Bytes → Nat
  | [] => 0
  | c :: p => if isSeparatorChar c then 0 else findFirstSeparatorChar p + 1

/-- ad_block_client.cc:49-57, the part of `getUrlHost` that moves `p`: to just after the
first ':' and any slashes following it, or to the terminator when there is no ':'. -/
def hostStart : Bytes → Bytes
  | [] => []
  | c :: s => if c = ch%':' then s.dropWhile (· == ch%'/') else hostStart s

/-- ad_block_client.cc:47-64 `getUrlHost`: the bytes `[returned pointer, +len)`.
All its loops stop at the terminator, so on a NUL terminated string it reads in bounds. -/
def getUrlHost (s : Bytes) : Bytes :=
  (hostStart s).take (findFirstSeparatorChar (hostStart s))

/-- ad_block_client.cc:101-103 `isFingerprintChar` -/
def isFingerprintChar (c : Byte) : Bool := c != ch%'|' && c != ch%'*' && c != ch%'^'

/-- C `tolower` in the "C" locale. -/
def tolower (c : Byte) : Byte := if 65 ≤ c ∧ c ≤ 90 then c + 32 else c

/-- The conditions `tolower(*curChar) == l0 && tolower(*(curChar+1)) == l1 && ...` of
protocol.cc:75-79, 88-91, 100-101: short-circuit, so reading stops at the first mismatch. -/
def readsLower (p : Ptr) : List Byte → Res Bool
  | [] => .ok true
  | l :: ls => do
    let c ← rd p 0
    if tolower c = l then readsLower (p.drop 1) ls else pure false

/-- The condition of protocol.cc:118-120 (no `tolower` there). -/
def readsExact (p : Ptr) : List Byte → Res Bool
  | [] => .ok true
  | l :: ls => do
    let c ← rd p 0
    if c = l then readsExact (p.drop 1) ls else pure false

/-- protocol.cc:117-124 state `ReadingSeperator` -/
def protoSeparator (p : Ptr) : Res Bool := readsExact p bs%"://"

/-- protocol.cc:109-116 state `PostProto` (with the fall through) -/
def protoPost (p : Ptr) (total urlLen : Nat) : Res Bool := do
  let c ← rd p 0
  if tolower c = ch%'s' then
    if total + 1 ≥ urlLen then pure false else protoSeparator (p.drop 1)
  else protoSeparator p

/-- protocol.cc:87-97 state `ReadingProtoHTTP` and 127-133 the bookkeeping after it -/
def protoHttp (p : Ptr) (total urlLen : Nat) : Res Bool := do
  if ← readsLower p bs%"http" then
    if total + 4 ≥ urlLen then pure false else protoPost (p.drop 4) (total + 4) urlLen
  else pure false

/-- protocol.cc:99-107 state `ReadingProtoWebSocket` and 127-133 -/
def protoWs (p : Ptr) (total urlLen : Nat) : Res Bool := do
  if ← readsLower p bs%"ws" then
    if total + 2 ≥ urlLen then pure false else protoPost (p.drop 2) (total + 2) urlLen
  else pure false

/-- protocol.cc:58-72 state `PostBlob` -/
def protoPostBlob (p : Ptr) (total urlLen : Nat) : Res Bool := do
  let c ← rd p 0
  if tolower c = ch%'w' then protoWs p total urlLen
  else if tolower c = ch%'h' then protoHttp p total urlLen
  else pure false

/-- protocol.cc:74-85 state `ReadingBlob` and 127-133 -/
def protoBlob (p : Ptr) (total urlLen : Nat) : Res Bool := do
  if ← readsLower p bs%"blob:" then
    if total + 5 ≥ urlLen then pure false else protoPostBlob (p.drop 5) (total + 5) urlLen
  else pure false

/-- protocol.cc:29-135 `isBlockableProtocol`.  The state machine has no cycle, so each
state is one function; `total` is `totalCharsRead`. -/
def isBlockableProtocol (url : Ptr) (urlLen : Nat) : Res Bool := do
  if urlLen ≤ 5 then pure false
  else
    let c ← rd url 0
    if tolower c = ch%'b' then protoBlob url 0 urlLen
    else protoPostBlob url 0 urlLen

end AdBlock
