import Verif.Model.Wrap
/-
What the Node module exports besides the class: the constants in `FilterOptions`; and the numbers
reported by `getParsingStats`.
Models ad_block_client_wrap.cc:142-203 and 403-435, and scripts/check.js:30 and 45.
-/
namespace AdBlock

/-- ad_block_client_wrap.cc:142-203: the properties of the object exported as `FilterOptions`, in the
order in which they are set (no key is set twice) -/
def filterOptionsObject : List (Bytes × Mask) :=
  [ (bs%"noFilterOption", 0), (bs%"script", FOScript), (bs%"image", FOImage), (bs%"stylesheet", FOStylesheet),
    (bs%"object", FOObject), (bs%"xmlHttpRequest", FOXmlHttpRequest), (bs%"objectSubrequest", FOObjectSubrequest),
    (bs%"subdocument", FOSubdocument), (bs%"document", FODocument), (bs%"other", FOOther), (bs%"xbl", FOXBL),
    (bs%"collapse", FOCollapse), (bs%"doNotTrack", FODoNotTrack), (bs%"elemHide", FOElemHide),
    (bs%"thirdParty", FOThirdParty), (bs%"notThirdParty", FONotThirdParty), (bs%"ping", FOPing), (bs%"popup", FOPopup),
    (bs%"redirect", FORedirect), (bs%"csp", FOCSP), (bs%"font", FOFont), (bs%"media", FOMedia), (bs%"webrtc", FOWebRTC),
    (bs%"genericblock", FOGenericBlock), (bs%"generichide", FOGenericHide), (bs%"empty", FOEmpty),
    (bs%"websocket", FOWebsocket), (bs%"important", FOImportant), (bs%"explicitcancel", FOExplicitCancel),
    (bs%"unknown", FOUnknown) ]

/-- `FilterOptions[key]` in JavaScript; `none` is `undefined`, or one of the functions every object
inherits, as for the key `toString`.  (The constants are all smaller than 2^31, so that `Int32::New`
keeps them.) -/
def filterOptionsGet (key : Bytes) : Option Mask := filterOptionsObject.lookup key

/-- ad_block_client_wrap.cc:269-270 and 290-291 `args[1]->Int32Value(...)`: what is not a number is converted to
0. -/
def int32Argument : Option Mask → Mask
  | some m => m
  | none => 0

/-- scripts/check.js:30 and 45: the value of `commander.filterOption`, given the argument of `-O`, or `none` if
there is no `-O` -/
def checkFilterOption : Option Bytes → Option Mask
  | none => filterOptionsGet bs%"noFilterOption"
  | some val => filterOptionsGet val

/-- ad_block_client_wrap.cc:408-433: the object returned by `getParsingStats` -/
structure ParsingStats where
  numFilters : Nat
  numCosmeticFilters : Nat
  numExceptionFilters : Nat
  numNoFingerprintFilters : Nat
  numNoFingerprintDomainOnlyFilters : Nat
  numNoFingerprintAntiDomainOnlyFilters : Nat
  numNoFingerprintExceptionFilters : Nat
  numNoFingerprintDomainOnlyExceptionFilters : Nat
  numNoFingerprintAntiDomainOnlyExceptionFilters : Nat
  numHostAnchoredFilters : Nat
  numHostAnchoredExceptionFilters : Nat
deriving DecidableEq, Repr

/-- ad_block_client_wrap.cc:403-435 `getParsingStats`.  (The counters of the arrays are their lengths, see
`Client`.) -/
def Client.getParsingStats {E} (c : Client E) : ParsingStats where
  numFilters := (c.lists .filters).length
  numCosmeticFilters := (c.lists .cosmetic).length
  numExceptionFilters := (c.lists .exception).length
  numNoFingerprintFilters := (c.lists .noFp).length
  numNoFingerprintDomainOnlyFilters := (c.lists .noFpDomain).length
  numNoFingerprintAntiDomainOnlyFilters := (c.lists .noFpAntiDomain).length
  numNoFingerprintExceptionFilters := (c.lists .noFpException).length
  numNoFingerprintDomainOnlyExceptionFilters := (c.lists .noFpDomainException).length
  numNoFingerprintAntiDomainOnlyExceptionFilters := (c.lists .noFpAntiDomainException).length
  numHostAnchoredFilters := c.numHostAnchoredFilters
  numHostAnchoredExceptionFilters := c.numHostAnchoredExceptionFilters

/-- ad_block_client_wrap.cc:590-609 `getMatchingStats`: the properties of the object it returns, with their values (below
2^31, above which `int` overflows) -/
def Client.getMatchingStats {E} (c : Client E) : List (Bytes × Nat) :=
  [(bs%"numFalsePositives", c.stats.numFalsePositives),
   (bs%"numExceptionFalsePositives", c.stats.numExceptionFalsePositives),
   (bs%"numBloomFilterSaves", c.stats.numBloomFilterSaves),
   (bs%"numExceptionBloomFilterSaves", c.stats.numExceptionBloomFilterSaves),
   (bs%"numHashSetSaves", c.stats.numHashSetSaves),
   (bs%"numExceptionHashSetSaves", c.stats.numExceptionHashSetSaves)]

end AdBlock
