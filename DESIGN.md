# Formal model of brave/ad-block: design

This directory contains a Lean 4 model of the ad-block library in `/repo` and proofs of
the properties listed in `properties.jsonl`.  `MANIFEST.json` maps properties to theorem
names, `seeded/LOG.jsonl` records mutation experiments.

## Layout

| module | contents |
| --- | --- |
| `Verif/Model/Base.lean` | bytes, memory seen through a `char *`, undefined behaviour as an outcome, libc string functions |
| `Verif/Model/Chars.lean` | separators, `getUrlHost`, `isBlockableProtocol` |
| `Verif/Model/Fingerprint.lean` | `getFingerprint` on strings |
| `Verif/Model/Filter.lean` | `Filter`: masks, option parsing, domain lists, matching |
| `Verif/Model/ParseFilter.lean` | `parseFilter`, `getFingerprint` of a filter |
| `Verif/Model/Lib.lean` | interface of the vendored bloom filter and hash set |
| `Verif/Model/Client.lean` | `AdBlockClient`: parse, matches, findMatchingFilters, tags, clear |
| `Verif/Model/Serialize.lean` | serialize / deserialize at byte level |
| `Verif/Model/Ownership.lean` | which object frees which block |
| `Verif/Model/JsLib.lean` | `lib/filtering.js`, the text processing of `lib/util.js` |
| `Verif/Model/Cosmetic.lean` | the style sheet of `cosmetic_filter.h` |
| `Verif/Model/Refused.lean` | `deserialize` with the client it leaves behind when it returns false |
| `Verif/Model/Wrap.lean`, `NodeApi`, `NodeArgs`, `NodeProgram` | the methods of the Node module, how values of JavaScript reach them, programs with several clients |
| `Verif/Model/Lists.lean`, `ListTables`, `Catalogue` | the tables of lists, finding lists, manifests; the tables as JavaScript sees them |
| `Verif/Model/Scripts.lean`, `Check`, `Programs`, `Upload` | `scripts/*.js`, `main.cc`, `perf.cc` |
| `Verif/Model/Toy.lean` | a concrete bloom filter and environment, for the examples |
| `Verif/Spec.lean`, `SpecRequest` | rules as texts, and for which requests they are |
| `Verif/SpecClient.lean`, `SpecOps`, `SpecSession`, `SpecExact`, `SpecLaws`, `SpecRuleLaws`, `SpecDocumented` | histories of clients, and the answers to be expected |
| `Verif/SpecSerialize.lean`, `SpecReread`, `SpecReload`, `SpecSaved` | what the format can represent, and what becomes of the rest |
| `Verif/Spec*.lean` | the other declarative specifications used in theorem statements |
| `Verif/Lemmas/*` | helper lemmas |
| `Verif/Props/*` | the property theorems, each with a concrete instance beside it |

## Modelling decisions

* **Bytes.** Strings are `List UInt8`.  A C string argument is given by its contents (no
  NUL inside); where reads past the end matter, memory is a `Ptr`: the list of bytes from
  the pointee to the end of its allocation.
* **Undefined behaviour is a distinct outcome.** Functions which may read or write out of
  bounds, or dereference null, return `Res α` = `ok a | ub kind`.  "Never crashes" is then a
  theorem, and crashes of the code can be exhibited as theorems too.
* **Fuel.** Loops that are not structurally recursive take a fuel argument; running out of
  it is reported as `ub fuel`, so a theorem that a run is `ok` shows that the fuel sufficed.
* **Vendored libraries are parameters.** `bloom-filter-cpp` and `hashset-cpp` are not in
  `/repo`.  The bloom filter is an arbitrary structure with laws (no false negatives, ...);
  the hash set is a chained table with an arbitrary hash function.  Every theorem
  about the client quantifies over these.
* **Bad fingerprints.** The list in `bad_fingerprints.h` is a parameter.
* **Regular expressions.** `binding.gyp` does not define `ENABLE_REGEX`, so regex rules never
  match; that is what is modelled.
* **Not modelled:** see "Trusted base" below.

## Properties: what is modelled and how it is proved

| id | model | proof |
| --- | --- | --- |
| C01 | `Client.query` | unfold; the first test returns |
| C02, C03 | `isBlockableProtocol` on memory | case analysis along the state machine against a declarative grammar; `ok` result for all strings |
| C04 | table of 32 bytes | exhaustive check over the whole type `UInt8` by the kernel |
| C05 | `getUrlHost` | induction over scheme, slashes, host |
| C06 | `isThirdPartyHost` | list algebra |
| C07 | `resolveContext` | case analysis, using C06 |
| C08 | `wildLoop`/`indexOfFilter` | refinement of the greedy search to the existence of a placement; induction over parts |
| C09 | `Filter.matchesPattern` | `strcmp`/`strncmp` characterised by list equalities |
| C10 | `Filter.matches` | C06 plus the order of the checks; counterexample for the right anchor |
| C11 | `contextDomainMatchesFilter` | loop invariant against "longest listed suffix" |
| C12, C13 | `matchesOptions` | Boolean case analysis over masks |
| C14 | `matchesOptions`, `classify` | unfold; invariant of the option loop |
| C15 | `matches` with/without bloom | every pair tested occurs in a matching URL |
| C16 | `fpLoop` | loop invariant |
| C17 | `getFingerprint` + `matches` | fingerprint window lies inside one `*` part and has no `^` |
| C18, C19, C20 | `parse` | induction over lines; first and second pass classify equally |
| C21 | `parse` | invariants of the line loop; counterexamples for the violated cases; both directions for every list: a line cannot be loaded exactly in three cases (`Spec.NoText`, `Spec.TextTooShort`, `Spec.DomainTooLong`), by an invariant of the loop and by running the parser over the parts of such a line; from the text alone for lists of well-formed rules |
| C22 | `parseFilter` | symbolic execution of the loop on lines of a given shape, for the usual way of writing a rule and for all others (blanks and repeated `@@` before the rule, single `@` or bars, bars in the text); then a decomposition of an arbitrary line, by induction, which shows that no line is left out (Lemmas/EveryLine.lean) |
| C23, C24, C45, C46 | reachable clients | representation invariant relating index structures to the list of rules |
| C25-C30 | `query` | from the characterisation of `query` |
| C31-C33 | operations on clients | induction over histories |
| C34 | `parse` then `query` | combination of C22, C05, C08 |
| C35-C39 | byte-level serialisation | round-trip lemmas for hex numbers, strings, arrays, tables; `Props/Reread.lean` describes what is read back of the rules the format cannot represent |
| C40 | ownership model | invariant over histories; counterexample for parse after deserialize |
| C41 | `parseOption` | finite table plus prefix characterisation; the meaning of an arbitrary text by the search through the table (C41_meaning) |
| C42, C43 | `parseFilter` | loop invariant |
| C44 | `parse`, `query` | C23 restricted to the network lists; for the text of lists (`C44_text`) from the exact verdict of C59 |
| C47 | `matches` | exactly which comparisons are `ub` (`SpecBounds.lean`), for rules in memory and from the text of a rule; no `ub` under a syntactic condition; counterexample otherwise |
| C48 | `sanitizeABPInput` | list lemmas |
| C49 | `fillStylesheetBuffer` | exact characterisation of the outcome by the last bucket; counterexample |
| C50 | `serialize` after `deserialize` | the round trip gives the same written fields; in general, what is written of the rules read back |
| C51, C52 | `parse` of lists with repeated or reordered rules | the verdict depends only on the set of rules considered; `Props/TextLaws.lean` states them (and C25, C26, C30, C31, C53) about the text of lists, from the exact verdict of C59 |
| C53 | `parse`, `query` | two rules that differ in behavioural options match alike; induction over the list |
| C54 | `query` with detection enabled | invariant of the search loop; histories |
| C55 | `query`, histories | case analysis of the phases of `query`; induction over histories |
| C56 | ownership model | the invariant of C40 also counts the blocks; counterexample for repeated options |
| C57 | `getFilters` of the Node binding, with the lengths it stores | a client with stored lengths answers like one without, by induction over the calls; refinement of the ten arrays to a classification of rules |
| C58 | `getListFilterFunction`, preprocessing, `parse`, `query` | the lines loaded are known; C34 for each of them; conversely every rule that matches |
| C59 | `parse`, `clear`, tags, `query`, `findMatchingFilters` and everything they call | a specification that reads the text of a rule and the request only (SpecRequest.lean), and a book of rules and tags as reference for sessions (SpecSession.lean); refinement: every call keeps the client in step with the book; options by cases over the table of types, addresses by C08 to C10, domains by C11, lists by C18, C22, C23 and C24; the exact version (SpecExact.lean) says from the text which rules count, by an ordered correspondence between lines and rules |
| C60 | `deserialize` on a block of exactly the given bytes | complete data by C37; for cut data: success does not change when bytes are added behind, and complete data are used up to the last byte, so no proper part can be read with success; the only undefined behaviour that can occur is a read out of bounds |
| C61 | the two Node methods, which read the text of the rule found up to its NUL | every rule found is one of the arrays (its text is terminated) or an entry of a hash set (it is not, or it is followed by the host), so the outcome of the read is known in each case; from the text of the rules (Props/NodeText.lean), via the sessions of C59; exactly (Props/NodeTextExact.lean), by the order in which the lists are searched (Props/FindOrder.lean) |
| C62 | sessions of operations in which the client is saved and loaded at arbitrary places (SpecReload.lean) | simulation: the client that was never saved and the one of the session keep the same network rules and indexes (`SameNetwork`), by induction over the session; loading lists preserves this (the sets compare hosts only), reloading restores it by C37 and C50. `C62_exact` compares with a client whose rules are replaced at each reload (`replay`); it needs an invariant of clients (`Sane`, Lemmas/Sane.lean) that is kept by loading, by replacing and by all other calls |
| C63 | scripts/generateDataFiles.js, the loading of data files, `checkForClient` of main.cc (Model/Scripts.lean) | queries and detection change nothing that is serialized (C29), then C37; for the lists by C48; from the text of several lists by C59 and C67 |
| C64 | the loops of scripts/check.js and perf.cc | induction over the sites, every query leaves the client alike (C29); with `--discover` the condition is always true |
| C65 | `generateHeader` and the Node method that calls it | a lexer for lists of C++ string literals as the specification (SpecScripts.lean); round trip by induction over the list; origin of the fingerprints by C54, use by C16 |
| C66 | C59 and C62 put together (SpecSaved.lean): calls described by the text of the rules, and reloads at arbitrary places | the specification of C59 gives the answers without reloads, C62 that reloads are invisible, C67 that the data are not too large; what is left is that the rules of such lists can be represented, by induction over the lines. Both for the specification by rules that apply and for the exact one of C59, from one theorem about sessions |
| C67 | `serialize` after any sequence of operations | a measure of the structures (bytes they take when written) that grows by at most 90 bytes per byte of a list, by invariants of the parser (no part of a rule is longer than its line) and of the hash sets, and by induction over the operations |
| C68 | the tables of lists (Model/ListTables.lean, made by tools/lists.py from lists/*.h), `makeAdBlockClientFromListUUID`, the run of scripts/generateDataFiles.js with an arbitrary outcome of each download (Model/Lists.lean) | the UUIDs are distinct, by evaluation over the tables; the rest by cases and by induction over the list of regions |
| C69 | `GenerateManifestFile` and its callers | a reader of JSON objects of strings and numbers as the specification (SpecLists.lean); round trip for arbitrary titles and keys by induction over them; for the tables by evaluation |
| C70 | the object `FilterOptions`, the conversion of the argument and `-O` (Model/NodeApi.lean) | the tables of names are compared by evaluation over all entries; the verdict follows from C59 |
| C71 | `getParsingStats` | induction over histories for the counters of host rules; the arrays are those of C57; the classes of rules partition the list, by induction |
| C72 | the whole of scripts/check.js over arbitrary arguments, files and responses (Model/Check.lean) | the source of the rules as a relation in SpecCheck.lean, by cases; the answers from C59, the rules shown from C61, the counts by induction over the addresses, the second run from C66; exactly in Props/CheckExact.lean; data files that are refused in Model/CheckRefused.lean and Props/CheckRefused.lean |
| C73 | main.cc and perf.cc as a whole, over arbitrary files (Model/Programs.lean) | several lists loaded in turn by induction, the verdicts from C59 (also in its exact form), saving and loading from C37 and C67, the words by induction over the text, the header from C54 and C65 |
| C74 | the conversion of arguments and results between JavaScript and the library, and lib/filtering.js on strings (Model/NodeArgs.lean); rules, requests and patterns over characters (SpecText.lean) | UTF-8 is self-synchronising: no byte by which a character begins occurs elsewhere; hence parts of strings, lines and patterns correspond, by induction; the verdict then follows from C59 and C61; exactly (Props/NodeArgsExact.lean) from the invariant of C75 |
| C75 | programs over any number of objects and buffers: creating, the methods, saving, filling from data, cleaning up (Model/NodeProgram.lean); what the author of a program keeps in mind about each client and buffer (SpecNodeProgram.lean) | an invariant over the statements: every client has loaded the lists noted, or is indistinguishable from one that has (C62), and every buffer holds the data of such a client; the answers then follow from C59, C61, C66 and C74 |
| C76 | base64, SHA-256 and the letters of component IDs (SpecIdentity.lean), the manifests of C69 | the kernel evaluates the hash of all 41 keys; combined with C69, which says that the key can be read from the manifest |
| C77 | the exported objects and looking up a list by a string (Model/Catalogue.lean); what the objects are to show, the default lists and the languages (SpecCatalogue.lean) | texts of the tables survive the conversion (UTF-8 is invertible); the lookup on strings is the lookup of C68 on UTF-8; for languages, the finite table and that no object has another one |
| C78 | the upload script as a list of jobs, done one at a time with arbitrary outcomes (Model/Upload.lean); keys and what is to be there (SpecUpload.lean) | a run stores a prefix of its jobs; keys are injective and the three places are disjoint; induction over histories of runs; C68 for the contents |
| C79 | lines without a network rule, and programs that differ only in them (SpecSilent.lean) | what such a line is read as (Lemmas/AnyLine.lean): nothing, an element hiding rule, or a rule that never applies; two clients that differ in such rules are in a relation which every call keeps (Lemmas/Silent.lean) |
| C80 | `deserialize` with the client it leaves behind, the contents of the refused set being arbitrary (Model/Refused.lean); sessions with such loads (SpecRefused.lean) | equal to the other model when true is returned; loading and clearing forget everything but the tags; induction over sessions; the damaged data are evaluated for every client |
| C81 | `parse`, `query`; rules which differ in the order of options and domains (SpecRuleLaws.lean) | the conditions of the exact verdict of C59 are the same for both rules |
| C82 | the same for redundant stars | where the parts between the stars are found does not depend on empty parts (Lemmas/Stars.lean), except at the end |
| C83 | the same for rules split by types or domains | one of the parts applies exactly if the rule does; the index by domain takes them into account alike |
| C84 | lists with and without a rule (SpecRuleLaws.lean) | the same other rules are taken into account, by the exact verdict of C59 |
| C85 | lists whose exceptions read like their other rules or cover them | if a blocking rule is taken into account, so is the exception that reads like it; an exception that covers a rule applies whenever the rule does |
| C86 | requests which differ in their page or type | the same rules apply and are taken into account |
| C87 | lists with and without a rule that another covers | where the text is found, so is any part of it, by induction over the parts of the pattern; then as for C84 |
| C88 | rules and addresses, and the same in lower case | where the text is found, it is found in lower case, by induction over the parts |
| C89 | rules replaced by one with an option and one with its opposite | one of the halves allows the type and the page exactly if the rule does; then as for C83 |
| C90 | requests with a user name, or a user name and a password, in the address | which hosts the name before `@` can belong to; then C84 and C34 |
| C91 | `SpecDocumented`: what a text stands for according to the documentation | induction over the text and its parts; the comparison succeeds only where the text stands, and everywhere there if it is simple or regular |
| C92 | the two requests as `Request`s; `Placed` for a longer address | induction over the parts of the text: each fits where it did, and what fitted the end fits a separator |
| C93 | `SchemeFree` texts | a text of this kind fits nothing that begins in the scheme; what fits behind it does so behind any other |
| C94 | `ForHost` rules | as C93, with everything before the host |
| C95 | requests that differ in the page | a page that no list mentions is covered by the same entries as its parent; the rules that count are the same |
| C96 | clients that load lists alone and together | if no rule of another list is in its way, a rule counts in its list exactly if it counts in all lists together |
| C97 | clients that load a list, and each of its rules | whether a rule counts is up to the rule and the request, if no other is in its way |
| C98 | clients that load lists with the rule written one way or the other | both apply to the hosts of the site; the table of hosts keeps either |
| C99 | clients that load lists of rules for whole hosts | such a rule fits every address with a host of the site (as in C98), and counts or not by the host alone |
| C100 | clients that load any list with an exception for a whole host | the exception applies and counts, so C59 forbids blocking |
| C101 | clients that load a list, with two sets of tags | which rules count does not depend on tags, and what applies does so with more of them |
| C102 | the same request with and without its type or its page | the options of a rule allow more if less is asked; which rules count depends on the page only in the index of domains |
| C103 | a list, its blocking rules, and its exceptions read as rules, in three clients | whether a rule counts depends on the rules of its own kind only, and in the same way for both kinds |
| C104 | lists in which each rule is for other requests by one of its options | a separate relation `Elsewhere` between the options of a rule and a request, none of which the rule applies to |
| C105 | `findMatchingFilters` of clients that load two lists, and `matches` | which rules it takes into account depends only on the rules for the same host before them |
| C106 | `getParsingStats` before and after `parse`, against the constituents of the rules in the text | each line is read as the rule it is written as (C22), and C71 counts the rules read |
| C107 | `getFilters` after any calls, against the constituents of the rules in the text | C57, and each line is read as the rule it is written as (C22) |
| C108 | the same for the lines about the contents of pages | C57, and the loop of parseFilter on such lines |
| C109 | `getFilters` of a client that has loaded the data of another one | C35 (what is read back of a rule), C57 and C107 |
| C110 | two clients, each with any history, whose `serialize` writes the same bytes | C35 (what is read back from the data is a function of the data), C71 for the numbers, C107 and C109 for the reports, C22 for the answers |
| C111 | two lists whose rules differ in redundant entries of `domain=` | which rules are taken into account (C59), and that the most specific name decides (C11) |
| C112 | two lists whose rules are for the same types, but list and exclude different ones | which rules apply, by the text of their options (C59) |
| C113 | two lists written in different ways, and `findMatchingFilters` | which rules it takes into account (C105), and the rule by rule part of C30, C51, C53, C81–C84, C89, C98, C111, C112 |
| C114 | a list, two requests, and `findMatchingFilters` | which rules it takes into account (C105), and that the same of them apply to both requests, by the rule by rule part of C86, C90, C92–C95, C99, C100, C104 |
| C115 | two or more lists and all of them together, a list and its parts, or two sets of tags, and `findMatchingFilters` | which rules it takes into account (C105): of those of a kind that consist of the same host the first; how this changes from a list to its parts |
| C116 | a request with and without its type, or its page, and `findMatchingFilters` | which rules it takes into account depends on the host only (C105); to which of the two requests each rule applies |
| C117 | the documented meaning of rules, and lower case, and `findMatchingFilters` | which rules it takes into account (C105), and the rule by rule part of C91 and C88 |

Where the code violates a property, the violation is proved with a concrete witness and the
part that does hold is proved as a theorem with suffix `_partial`.


## Trusted base

**The kernel and the axioms.**  All theorems are checked by Lean's kernel.  No axioms were added; there is
no `sorry`, `native_decide`, `bv_decide`, `unsafe` or `implemented_by`.  `AXIOMS.txt` lists the axioms of
every claim theorem (made by `tools/axioms.sh`).  Only the three standard ones occur: `propext`,
`Quot.sound` and `Classical.choice`.  `C41_names`, two theorems about names (C70), `C76_distinct` and `C78_version` depend on none.  The remaining theorems depend on
`propext`, most on `Quot.sound`, and about two thirds on `Classical.choice`.

**The model is a transcription by hand.**  That the definitions in `Verif/Model` say what the C++ and
JavaScript code does has been checked by reading only.  Every definition cites the lines it stands for.

**Contracts of code that is not in `/repo`:**

* `bloom-filter-cpp` (`BloomLib` in `Model/Lib.lean`): an element that was added is found, also after
  more additions; `substringExists(s, n)` finds every stored window of length `n` in `s` if the rolling hash
  agrees with the direct hash on `s` (the predicate `rolls`; theorems which need it have it as a
  hypothesis); a filter built from the buffer of another one equals it; the buffer is not empty.
  For C66 and C67 also: adding does not change the size of the buffer (`FixedBlooms`), and for C66 and
  `C67_fits`: the filters of a new client take at most 1 MB each (`ModerateBlooms`).
  False positives are arbitrary.
* `hashset-cpp` (`HSet`): a fixed number of buckets, each a chain in order of insertion; `Add` drops an
  element that is equal to one in its bucket; `Find` returns the first equal one.  The hash function is
  arbitrary.
  The serialized form is: the number of buckets in hexadecimal and a NUL, then for each bucket its
  elements as they serialize themselves, and a NUL.  `Serialize` makes a dry run for the size and
  then fills a buffer of zeros.  `Deserialize` rejects data when an element does, or when an element ends
  beyond the given size.  What is in a set whose data were rejected is left open (`Leftover`), except in `C80_matches_counterexample`: a set
  whose first element was rejected has no elements.
* libc: `strlen`, `strcmp`, `strncmp`, `strchr`, `strtok_r`-like scanning, `memcpy`, `snprintf` with `%x`,
  `sscanf` with `%x` are modelled by their standard meaning.
* V8: a string given as an argument arrives in UTF-8 (`String::Utf8Value`), and the UTF-8 form of a string is made
  this string again (`String::NewFromUtf8`); a value that cannot be converted arrives as a null pointer.  UTF-8 is
  `String.utf8EncodeChar` of Lean's core library.  Strings with lone surrogates are not modelled.
* `new` never fails.

**What is modelled:** `protocol.cc`; `filter.cc` and `filter.h` except the regular expression branch;
`ad_block_client.cc` except console output; `no_fingerprint_domain.cc`; `context_domain.cc` (by contents);
`cosmetic_filter.h`; the bad fingerprints as an arbitrary list; `lib/filtering.js`; the text processing of
`lib/util.js`; of `ad_block_client_wrap.cc` `GetFilters`, `Matches`, `FindMatchingFilters`, `GetParsingStats`, `GetMatchingStats`, `GetFingerprint`, `New`, `Serialize`, `Deserialize`, `Cleanup`, the object `FilterOptions`, the conversion of strings, and the memory management of parse, serialize, deserialize and
cleanup; `bad_fingerprint.h` (`generateHeader`, as built with `PERF_STATS`); of the programs around the library `scripts/generateDataFiles.js`,
`scripts/check.js` (without options that lack their value), `main.cc` and `perf.cc` (without times); the tables in `lists/`
and `filter_list.h`; the manifests (`GenerateManifestFile` and its callers); the exported lists and version; `scripts/uploadDataFiles.js` (the store is a map from keys to contents; without credentials and the retries inside `s3-client`).  The program stores the length of a rule's text in the rule when it first needs it; the model
of `matches` computes it each time.  `C57_getFilters_is_invisible` proves that this makes no difference: its
model (`Model/Wrap.lean`) stores the lengths of arbitrary rules at arbitrary times.

**What is not modelled:** downloads,
the operating system's part in files and console output (they are parameters and results).
Overflow of `int` for inputs of 2 GB and more.  Threads: the library has none, and its functions are called one at a time.  Data races in a
program that shares a client between threads are outside the model.

**Simplifications of memory.**  In the main model, only `data` of a rule is represented as memory
(`Ptr`); hosts, domain lists, tags and rule texts are represented by their contents, since the code only
reads them as C strings.  The byte behind a line of the input is a parameter.  Who owns which block is
the subject of a separate model (`Model/Ownership.lean`), in which only pointers and blocks occur and
everything that depends on contents is universally quantified.

## Properties the code violates

Each is proved with a witness, most of them for every environment or for a whole class of inputs.

| property | violation | theorem |
| --- | --- | --- |
| C10 | `\|\|example.com\|` ignores its host anchor | `C10_right_anchor_counterexample` |
| C12 | with an unknown type but a known page, rules that exclude types are applied | `C12_unknown_type_counterexample` |
| C13 | `first-party` has no effect | `C13_first_party_ignored`, `C13_first_party_counterexample` |
| C21 | a bar inside the host of a `\|\|` rule: read out of bounds | `C21_counterexample_bar_in_host` |
| C21, C42 | an over-long `\|\|` rule with a path: null pointer dereference | `C21_counterexample_long_line`, `C42_null_dereference` |
| C21 | a domain of more than 1024 bytes: stack buffer overflow | `C21_counterexample_long_domain` |
| C24 | `findMatchingFilters` and `matches` differ (gates for excluded domains) | `C24_counterexample` |
| C26 | adding a rule about excluded domains switches off other such rules | `C26_counterexample` |
| C27 | `important` is never honoured | `C27_important_ignored`, `C27_never_honoured`, `C27_counterexample` |
| C30 | a rule with a disabled tag hides another rule for the same host | `C30_counterexample` |
| C35 | a rule with an empty text, an empty domain list, or a domain list starting with `~#` changes by serialization | `C35_*_counterexample` |
| C37, C50, C62, C63 | such a rule may no longer be applied after a reload, or (without domains in its list) only then, and may be written differently | `C37_verdict_counterexample`, `C37_no_domain_counterexample`, `C37_no_text_counterexample`, `C50_counterexample`, `C62_counterexample`, `C63_counterexample` |
| C39 | wraparound of 32 bit sizes: data beyond the end are accepted | `C39_overflow_counterexample` |
| C39 | the header of a domain entry is looked for beyond the given size | `C39_domain_counterexample` |
| C40 | parse after deserialize, then clear or destruction: frees pointers into the buffer | `C40_counterexample` |
| C41 | prefixes of option names are accepted; the empty option means `script` | `C41_prefixes_accepted` |
| C43 | the preserved text of element hiding rules lacks its last two characters; of a regular expression with white space before it, one character of that and the last slash are dropped instead of the slashes (its text is wrong in the same way) | `C43_preserved_text`, `C43_regex` |
| C47 | a `^` inside a pattern: reads behind the end of the URL | `C47_counterexample` |
| C47 | rules in the hash set have no terminator: reads behind the rule (also, with a bar in the host, whenever the address ends with the text: `C47_exact_unterminated_right`) | `C47_hash_set_counterexample` |
| C49 | the style sheet is written outside its buffer | `C49_counterexample` |
| C52 | of two different host rules for a host only the first is kept | `C52_counterexample` |
| C53 | `collapse` and `donottrack` are taken for resource types: rules with them are never applied to requests of a known type | `C53_collapse_and_donottrack`, `C53_counterexample` |
| C56 | a repeated `domain=` or `tag=` option leaks memory | `C56_counterexample` |
| C57 | plain host rules are reported under no name | `C57_counterexample_host_rules` |
| C57 | an empty text is reported only the first time | `C57_counterexample_twice` |
| C58 | a list of hosts which ends with a line feed gives the rule `\|\|`: read out of bounds | `C58_counterexample` |
| C60 | `deserialize` reads behind the end of data that are cut off, at whatever byte | `C60_cut_off_counterexample`, `C60_header_counterexample` |
| C61 | Node's `findMatchingFilters` reads beyond the text of a host rule, reports it with the host appended after a reload, and takes a missing page for the page `undefined` | `C61_host_rule_counterexample`, `C61_host_rule_found_counterexample`, `C61_reloaded_counterexample`, `C61_reloaded_found_counterexample`, `C61_page_undefined_counterexample`, `C61_no_page_counterexample` |
| C63 | making a data file of a list with the UUID of the malware hosts reads behind a rule if the text ends with a line feed (the table of such lists is empty at this commit) | `C63_malware_counterexample` |
| C64 | `check.js --discover` counts every site as matching | `C64_discover_counterexample` |
| C65 | the generated header does not escape quotes and backslashes; without detection a null pointer is dereferenced | `C65_quote_counterexample`, `C65_backslash_counterexample`, `C65_not_enabled_counterexample` |
| C68 | the header with bad fingerprints is overwritten by each file; the UUID with a function of its own is in no table; the file for malware blocks nothing | `C68_header_counterexample`, `C68_malware_counterexample`, `C68_empty_file_counterexample` |
| C70 | `check.js -O` takes names it does not know for an unknown type, among them `xmlhttprequest` and `object-subrequest` | `C70_unknown_name_counterexample`, `C70_rule_names_counterexample`, `C70_tool_counterexample` |
| C71 | HTML rules are not counted | `C71_html_counterexample` |
| C72 | `check.js --stats --output` writes no file; `--discover --list` counts every address as blocked | `C72_stats_output_counterexample`, `C72_discover_counterexample` |
| C72 | with `--discover` the tool reads memory beyond the text of the rule if it comes upon one that consists of a host | `C72_discover_host_counterexample` |
| C72 | check.js reports no error for a data file that `deserialize` refuses, and answers from what is left of it | `C72_refused_no_error`, `C72_damaged_counterexample` |
| C73 | a list that begins with `\|\|exa\|mple.com` makes the sample program and the benchmark read out of bounds | `C73_broken_list_counterexample` |
| C73 | with `\|\|googlesyndication.com^$domain=news.com` in the first list and `\|\|googlesyndication.com^` in the second, the sample program prints that nothing is to be blocked | `C73_second_list_counterexample` |
| C74 | what follows a NUL is ignored; `undefined` is taken for a rule; a symbol makes the library read through a null pointer; `getFingerprint` may end in half a character | `C74_nul_counterexample`, `C74_nul_found_counterexample`, `C74_undefined_counterexample`, `C74_no_text_counterexample`, `C74_fingerprint_counterexample` |
| C75 | every method of an object that has been cleaned up, also `cleanup` itself, uses freed memory | `C75_cleanup_counterexample` |
| C75 | after any program, `findMatchingFilters` of an object that comes upon a rule consisting of a host reads memory beyond the text of the rule | `C75_find_counterexample` |
| C78 | `uploadDataFiles.js --dat X` without `--prod` stores `test/X` instead of `test/4/X`; a second run for production within a second replaces the copies of the first | `C78_test_counterexample`, `C78_same_second_counterexample` |
| C80 | after data have been refused, the rules read before the damaged place are in force, without the exceptions; `matches` and `findMatchingFilters` differ | `C80_matches_counterexample`, `C80_find_counterexample`, `C80_dat_file_counterexample` |
| C82 | a star is taken literally in rules with a bar and in the hosts of `||` rules; two stars at the end ask for one more character | `C82_literal_star_counterexample`, `C82_double_star_counterexample` |
| C83 | rules for the types of a rule that consists of a host do less than the rule | `C83_host_counterexample` |
| C84 | a rule that does not apply to a request changes the answer to it | `C84_host_counterexample`, `C84_excluding_counterexample` |
| C85 | a rule that is repeated as an exception still blocks, if there are other exceptions | `C85_host_counterexample`, `C85_excluding_counterexample` |
| C86 | a request of unknown type is compared with rules that exclude types only if its page is known | `C86_unknown_counterexample` |
| C87 | a rule that another covers is not redundant if the other consists of a host and is not the first for it | `C87_host_counterexample` |
| C88 | letters are compared byte by byte, in hosts as well; `match-case` makes a rule void | `C88_host_counterexample`, `C88_path_counterexample` |
| C89 | a rule with an option and one with the opposite do less than the rule without, if it consists of a host, or if neither the type nor the page is known | `C89_host_counterexample`, `C89_unknown_counterexample` |
| C90 | a user name, a password or `blob:` before the host hides it from rules, and a user name can be taken for the host | `C90_user_counterexample`, `C90_password_counterexample`, `C90_blob_counterexample` |
| C91 | `^` does not stand for all separators; special characters have no meaning in rules with a bar; a `^` behind a star is not compared with the end of the address if nothing is left for the star; after two bars only whole hosts count, and the rest is looked for anywhere | `C91_separator_counterexample`, `C91_anchored_counterexample`, `C91_tight_counterexample`, `C91_prefix_counterexample`, `C91_elsewhere_counterexample` |
| C92 | `&` and `#` are no separators, so that an address with them added is not blocked by a rule that ends with `^` | `C92_separator_counterexample` |
| C94 | a rule for a host without a dot does not apply to subdomains | `C94_dot_counterexample` |
| C95 | a page of a subdomain counts as a third party for the domain itself; domains without a dot can be excluded, their subdomains not | `C95_party_counterexample`, `C95_dot_counterexample` |
| C96 | rules of one list make the program ignore rules of another: the second rule for a host, and rules that only exclude domains | `C96_neither_counterexample`, `C96_both_counterexample` |
| C97 | the same for the rules of one list | `C97_host_counterexample`, `C97_excluding_counterexample` |
| C98 | a rule for a host with `^*` behind it differs from one with `^` for a host without a dot and for the second of two rules for a host; a star directly behind the host is part of it | `C98_dot_counterexample`, `C98_first_counterexample`, `C98_host_counterexample` |
| C100 | an exception for a host is ignored behind another one for the host, and for subdomains of a host without a dot | `C100_first_counterexample`, `C100_dot_counterexample` |
| C102 | `banner$~script` blocks a request of unknown type but not a script; `&b=$domain=x.com` blocks on its page but not on an unknown one | `C102_type_counterexample`, `C102_page_counterexample` |
| C108 | `a.com,b.com##.ad` is reported with the one domain `a.com,b.com`; `a.com#@#.ad` with the selector `#.ad` | `C108_two_domains`, `C108_exceptions` |
| C109 | after a reload `adbanner$domain=~#x\|a.com` is reported with the tag `x\|a.com`, and `adbanner$domain=` not as a rule for listed domains only | `C109_tag_counterexample`, `C109_no_domain_counterexample` |
| C110 | `adbanner$domain=` and `adbanner` are saved as the same bytes, but only the latter blocks `http://b.com/adbanner` on a page of `a.com` | `C110_counterexample`, `C110_reports_counterexample` |
| C111 | `domain=~lan` does not exclude pages of `a.lan`; if the page is unknown, `&b=$domain=a.com` is ignored, `&b=$domain=a.com\|~c.com` is not | `C111_dot_counterexample`, `C111_page_counterexample` |
| C112 | `banner$~script,~image` blocks requests of an unknown type, `banner$` with all other types listed does not | `C112_unknown_counterexample` |
| C113 | `\|\|ads.com^$script,image` blocks what `\|\|ads.com^$script` and `\|\|ads.com^$image` together do not; before `\|\|ads.com^` a rule `\|\|ads.com^$tag=x` makes a difference although the tag is not enabled; and as for C98 and C112 | `C113_host_counterexample`, `C113_tags_counterexample`, `C113_dot_counterexample`, `C113_unknown_counterexample` |
| C114 | as for C86, C90 (a user name), C92, C94, C95 (party) and C100 (an exception behind another one) | `C114_unknown_counterexample`, `C114_separator_counterexample`, `C114_dot_counterexample`, `C114_party_counterexample`, `C114_first_counterexample`, `C114_user_counterexample` |
| C115 | neither `@@\|\|ads.com^$script` nor `ads` with `@@\|\|ads.com^$image` blocks an image, together they do; and as for C97 and C87 | `C115_neither_counterexample`, `C115_host_counterexample`, `C115_covered_counterexample` |
| C116 | `banner$~script` blocks a request of unknown type of a known page, not the same request as a script, nor if the page is unknown | `C116_type_counterexample`, `C116_page_counterexample` |
| C117 | as for C91 and C88 | `C117_separator_counterexample`, `C117_anchored_counterexample`, `C117_tight_counterexample`, `C117_prefix_counterexample`, `C117_elsewhere_counterexample`, `C117_case_counterexample` |

Further observations, part of the exact characterisations: a host rule with an unsupported option still
occupies its host in the hash set (C23_exact); with a null context domain `matches` skips the rules that
are only about domains while `findMatchingFilters` does not; the rules `|` and `@@` match every request;
rules without `document` never match a main document, and `||com^` does not block `a.com` (C34_limits);
tags survive `clear` (C33); `check.js` never prints its note that rule discovery is not supported for data files, since it tests for it
where no data file is given; the comment on the table of separators lists `;`, which the table does not have, and not `$`, which it does (C04); the list for Czech and Slovak sites is not offered for the language `sk` (C77_languages);
`uploadDataFiles.js` uploads whatever is in `out`, also files that an earlier run of `generateDataFiles.js` left there.

## Wrong programs

`seeded/LOG.jsonl` has one line per edit of the model.  The edits are in `seeded/round*.json`, what failed is
in `seeded/result*.jsonl`; `tools/mutate.py` applies and builds them, `tools/mutlog.py` writes the log.
