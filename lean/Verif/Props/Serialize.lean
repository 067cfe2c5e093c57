import Verif.Lemmas.SerializeSame
import Verif.Model.Toy
/-
Serialization: properties C35 to C39 and C50.
-/
namespace AdBlock
open Spec

/-! ### C35: arrays of rules -/

/-- C35, with its restrictions: an array of rules which the format can represent is written in
`bytes`, wherever in a zeroed buffer it is written, and what is read back from there are the
same rules; reading stops exactly behind them. -/
theorem C35_round_trip_partial {fs : List Filter} (h : ∀ f ∈ fs, StorableRule f) :
    ∃ bytes : Bytes,
      (∀ (a : Bytes) (n avail : Nat), bytes.length ≤ avail →
        serializeFilters (some (a ++ List.replicate (bytes.length + n) 0)) a.length avail fs 0 =
          .ok (some (a ++ bytes ++ List.replicate n 0), bytes.length)) ∧
      ∀ q : Bytes, ∃ gs, deserializeFilters fs.length (bytes ++ q) = .ok (gs, q) ∧ Pointwise SameRule fs gs := by
  refine ⟨arrayBytes fs, fun a n avail hv => ?_, deserializeFilters_eq h⟩
  have := serializeFilters_some (fun f hf => storable_written (h f hf)) a n a.length avail 0 rfl hv
  simpa [zeros] using this

/-- a rule with a tag, a list of domains and a host -/
def sampleRule : Filter :=
  { filterType := FTHostAnchored, filterOption := FOScript, data := some (cstr bs%"ads.com/banner"), tag := bs%"stylesheet",
    domainList := some bs%"a.com|~b.a.com", host := some bs%"ads.com" }

example : StorableRule sampleRule where
  tag := by decide
  domains := by intro dl h; cases h; exact ⟨by decide, by decide, by decide⟩
  host := by intro h e; cases e; decide
  text := .inr ⟨bs%"ads.com/banner", ⟨by decide, ⟨[], rfl⟩, .inl rfl⟩, by decide⟩

/-- C35 is violated by rules with an empty text: they lose it, so that they match nothing
instead of everything. -/
theorem C35_empty_text_counterexample :
    ∃ f g : Filter, parseFilter [] bs%"|" 0 false true = .ok (f, .none) ∧
      (∃ b n, serializeFilters (some (List.replicate 9 0)) 0 9 [f] 0 = .ok (some b, n) ∧
        deserializeFilters 1 b = .ok ([g], [])) ∧
      f.matches bs%"https://a.com/" FOScript none none = .ok true ∧
      g.matches bs%"https://a.com/" FOScript none none = .ok false :=
  ⟨{ data := some [0] }, { borrowed := true }, by decide +kernel,
    ⟨bs%"0,0,0" ++ [0, 0, 0, 0], 9, by decide +kernel, by decide +kernel⟩, by decide +kernel, by decide +kernel⟩

/-- C35 is violated by lists of domains which start with `~#`: what follows, up to a comma, is
taken for a tag. -/
theorem C35_tag_counterexample :
    ∃ f g : Filter, parseFilter [] bs%"ads$domain=~#x" 0 false true = .ok (f, .none) ∧
      (∃ b n, serializeFilters (some (List.replicate 15 0)) 0 15 [f] 0 = .ok (some b, n) ∧
        deserializeFilters 1 b = .ok ([g], [])) ∧ f.tag = [] ∧ g.tag = bs%"x" :=
  ⟨{ data := some (cstr bs%"ads"), domainList := some bs%"~#x" },
    { borrowed := true, data := some (bs%"ads" ++ 0 :: bs%"~#x" ++ [0, 0]), domainList := some bs%"x", tag := bs%"x" },
    by decide +kernel,
    ⟨bs%"0,0,0" ++ 0 :: bs%"ads" ++ 0 :: bs%"~#x" ++ [0, 0], 15, by decide +kernel, by decide +kernel⟩, rfl, rfl⟩

/-- C35 is violated by empty lists of domains: the rule, which never acts for a request with a
context, acts on all of them after the round trip. -/
theorem C35_empty_domains_counterexample :
    ∃ f g : Filter, parseFilter [] bs%"ads$domain=" 0 false true = .ok (f, .none) ∧
      (∃ b n, serializeFilters (some (List.replicate 12 0)) 0 12 [f] 0 = .ok (some b, n) ∧
        deserializeFilters 1 b = .ok ([g], [])) ∧
      f.matches bs%"https://a.com/ads" FOScript (some bs%"b.com") none = .ok false ∧
      g.matches bs%"https://a.com/ads" FOScript (some bs%"b.com") none = .ok true :=
  ⟨{ data := some (cstr bs%"ads"), domainList := some [] },
    { borrowed := true, data := some (bs%"ads" ++ [0, 0, 0]) }, by decide +kernel,
    ⟨bs%"0,0,0" ++ 0 :: bs%"ads" ++ [0, 0, 0], 12, by decide +kernel, by decide +kernel⟩,
    by decide +kernel, by decide +kernel⟩

/-! ### C36: entries of the hash sets -/

/-- C36 for rules, with the restrictions of C35 about tags and lists of domains: an entry is
written in `bytes`, wherever in a zeroed buffer it is written, and what is read back from there
is the same entry, whatever follows; reading consumes exactly these bytes. -/
theorem C36_rule_partial {f : Filter} (h : StorableEntry f) :
    ∃ bytes : Bytes,
      (∀ (a : Bytes) (n : Nat), f.serialize (some (a ++ List.replicate (bytes.length + n) 0)) a.length =
        .ok (some (a ++ bytes ++ List.replicate n 0), bytes.length)) ∧
      ∀ (q : Bytes) (size : Nat), bytes.length ≤ size →
        ∃ g, Filter.deserialize (bytes ++ q) size = .ok (some (g, bytes.length)) ∧ SameEntry f g := by
  obtain ⟨text, ht, hl⟩ := h.text
  refine ⟨entryBytes text f, fun a n => (Filter.serialize_writes ht).real a n _ rfl, fun q size hs => ?_⟩
  exact ⟨_, Filter.deserialize_eq h.toStorableOptions hl q size hs, readEntry_same q ht⟩

example : StorableEntry { sampleRule with data := some bs%"ads.com/banner", dataLen := some 14 } where
  tag := by decide
  domains := by intro dl h; cases h; exact ⟨by decide, by decide, by decide⟩
  host := by intro h e; cases e; decide
  text := ⟨bs%"ads.com/banner", ⟨by decide, ⟨[], rfl⟩, rfl⟩, by decide⟩

/-- C36 for domains, which are compared as a whole. -/
theorem C36_domain {d : Bytes} (h : d.length < 2 ^ 31) :
    ∃ bytes : Bytes,
      (∀ (a : Bytes) (n : Nat), serializeDomain d (some (a ++ List.replicate (bytes.length + n) 0)) a.length =
        .ok (some (a ++ bytes ++ List.replicate n 0), bytes.length)) ∧
      ∀ (q : Bytes) (size : Nat), bytes.length ≤ size →
        deserializeDomain (bytes ++ q) size = .ok (some (d, bytes.length)) :=
  ⟨domainBytes d, fun a n => (serializeDomain_writes d).real a n _ rfl, fun q size hs => deserializeDomain_eq h q size hs⟩

example : (bs%"example.com").length < 2 ^ 31 ∧
    deserializeDomain (bs%"bx" ++ 0 :: bs%"example.com" ++ 0 :: bs%"rest") 20 = .ok (some (bs%"example.com", 15)) := by
  decide +kernel

/-! ### C37: clients -/

/-- C37, with the restrictions of C35: what a client loaded from filter lists writes can be read
by any other client, whatever follows, and this client then answers every query like the
original one if the same tags are enabled. -/
theorem C37_round_trip_partial {E : Env} {c : Client E} {fs : List Filter} (hist : History E c fs)
    {ic ih : Bool}
    (hr : ∀ f ∈ fs, LeftOut ic ih f ∨ Representable f)
    (hn : c.numHostAnchoredFilters < 2 ^ 31 ∧ c.numHostAnchoredExceptionFilters < 2 ^ 31) :
    ∃ s, c.serialize ic ih = .ok s ∧ (s.totalSize < 2 ^ 31 → ∀ (d : Client E) (q : Bytes),
      ∃ d', d.deserialize (s.buffer ++ q) = .ok (some d') ∧ d'.tags = d.tags ∧
        ((∀ t, t ∈ d.tags ↔ t ∈ c.tags) → ∀ url ctx dom, 0 ∉ url →
          (∀ o, c.query url ctx dom = .ok o → ∃ o', d'.query url ctx dom = .ok o' ∧ SameOutcome o o') ∧
          (∀ o, c.findMatchingFilters url ctx dom = .ok o →
            ∃ o', d'.findMatchingFilters url ctx dom = .ok o' ∧ SameFound o o'))) := by
  have hs := history_storable hist hr hn
  have hc := history_comparable hist
  refine ⟨_, serialize_eq (history_written hist) ic ih, fun hsize d q => ?_⟩
  obtain ⟨d', h1, h2, h3, h4, h5⟩ := deserialize_eq hs hsize d q
  refine ⟨d', h1, h3, fun ht url ctx dom hu => ?_⟩
  have ht' : ∀ f, tagOk d'.tags f = tagOk c.tags f := by
    intro f
    unfold tagOk
    rw [h3]
    congr 1
    rw [Bool.eq_iff_iff]
    simp [ht]
  exact ⟨fun o ho => query_same hc (same_network h2) ht' hu h5 ho, fun o ho => find_same_client hc (same_network h2) ht' hu ho⟩

/-- a list of two rules -/
def storedList₀ : Bytes := bs%"banner" ++ 10 :: bs%"@@goodies$script,tag=x"

/-- the client which has loaded it has no more than `n` bytes of rules, and sets of the usual sizes -/
def storedCheck : Bool :=
  match (Client.fresh toyEnv).parse storedList₀ false with
  | .ub _ => false
  | .ok c => decide ((∀ ic ih, ((c.arrays ic ih).flatMap arrayBytes).length < 1000) ∧ (bloomSection (E := toyEnv) c.bloom).length < 1000 ∧
      (bloomSection (E := toyEnv) c.exceptionBloom).length < 1000 ∧ (c.hostSet.map HSet.count) = some 18000 ∧
      (c.hostExceptionSet.map HSet.count) = some 2000 ∧ (c.domSets .domain).map HSet.count = some 1000 ∧
      (c.domSets .antiDomain).map HSet.count = some 100 ∧ (c.domSets .domainException).map HSet.count = some 1000 ∧
      (c.domSets .antiDomainException).map HSet.count = some 100 ∧ c.numHostAnchoredFilters = 0 ∧
      c.numHostAnchoredExceptionFilters = 0 ∧ c.tags = [])

/-- the rules of the list -/
def storedRules : List Filter :=
  [{ data := some (cstr bs%"banner") },
    { filterType := FTException, filterOption := FOScript, tag := bs%"x", data := some (cstr bs%"goodies") }]

theorem stored_history : ∃ c, History toyEnv c storedRules ∧ (∀ f ∈ storedRules, Representable f) ∧
    (c.numHostAnchoredFilters < 2 ^ 31 ∧ c.numHostAnchoredExceptionFilters < 2 ^ 31) ∧
    c.tags = [] ∧ (∀ ic ih, (c.bytes ic ih).length < 2 ^ 31) ∧ (Client.fresh toyEnv).parse storedList₀ false = .ok c := by
  have hck : storedCheck = true := by decide +kernel
  unfold storedCheck at hck
  cases hp : (Client.fresh toyEnv).parse storedList₀ false with
  | ub u => rw [hp] at hck; cases hck
  | ok c =>
    rw [hp] at hck
    have hck := of_decide_eq_true hck
    obtain ⟨k1, k2, k3, k4, k5, k6, k7, k8, k9, k10, k11, k12⟩ := hck
    have hist : History toyEnv c ([] ++ storedRules) := by
      refine .parse .new (by decide +kernel) hp (?_ : Reads _ _ _ _)
      rw [show lines storedList₀ = [bs%"banner", bs%"@@goodies$script,tag=x"] by decide +kernel]
      exact .cons (e := .addFingerprint bs%"banner") (by decide +kernel)
        (.cons (e := .addExceptionFingerprint bs%"goodie") (by decide +kernel) .nil)
    refine ⟨c, hist, ?_, ⟨by omega, by omega⟩, k12, fun ic ih => ?_, rfl⟩
    · have ht : ∀ {f : Filter} {t : Bytes}, f.data = some (cstr t) → f.dataLen = none → 0 ∉ t → ∀ pat, HasText f pat → pat = t := by
        intro f t h1 h2 h3 pat hp
        exact HasText.unique hp ⟨h3, ⟨[], h1⟩, .inl h2⟩
      intro f hf
      simp only [storedRules, List.mem_cons, List.not_mem_nil, or_false] at hf
      rcases hf with rfl | rfl
      · exact ⟨fun pat hp => by rw [ht rfl rfl (by decide) pat hp]; decide, fun dl h => by cases h⟩
      · exact ⟨fun pat hp => by rw [ht rfl rfl (by decide) pat hp]; decide, fun dl h => by cases h⟩
    · have hh := history_holds hist
      have host : ∀ (s : Bool) (t : HSet Filter), c.hs s = some t → ∀ i, t.bucket i = [] := by
        intro s t ht i
        have hsub := (hh.hosts ht).sub i
        have e : (([] ++ storedRules).filter (Filter.entered s)).map Filter.bare = [] := by cases s <;> decide +kernel
        rw [e] at hsub
        exact List.eq_nil_iff_forall_not_mem.2 fun x hx => by simpa using hsub x hx
      have dom : ∀ (d : DomId) (t : HSet Bytes), c.domSets d = some t → ∀ i, t.bucket i = [] := by
        intro d t ht i
        have hsub := (hh.doms ht).sub i
        have e : (([] ++ storedRules).filter (Filter.domClass toyEnv.bad d)).flatMap Filter.entries = [] := by
          rw [List.flatMap_eq_nil_iff]
          intro f hf
          have hf := (List.mem_filter.1 hf).1
          simp only [storedRules, List.nil_append, List.mem_cons, List.not_mem_nil, or_false] at hf
          rcases hf with rfl | rfl <;> rfl
        rw [e] at hsub
        exact List.eq_nil_iff_forall_not_mem.2 fun x hx => by simpa using hsub x hx
      have sh : ∀ (s : Bool) (n : Nat), (c.hs s).map HSet.count = some n → (hostBytes (c.hs s)).length ≤ 9 + n := by
        intro s n hn
        cases hx : c.hs s with
        | none => rw [hx] at hn; cases hn
        | some t =>
          rw [hx] at hn
          have := setBytes_empty (enc := fun f => entryBytes (entryText f) f) (host s t hx)
          cases hn
          exact this
      have sd : ∀ (d : DomId) (n : Nat), (c.domSets d).map HSet.count = some n → (domBytes (c.domSets d)).length ≤ 9 + n := by
        intro d n hn
        cases hx : c.domSets d with
        | none => rw [hx] at hn; cases hn
        | some t =>
          rw [hx] at hn
          have := setBytes_empty (enc := domainBytes) (dom d t hx)
          cases hn
          exact this
      have h1 := sh false _ k4
      have h2 := sh true _ k5
      have h3 := sd _ _ k6
      have h4 := sd _ _ k7
      have h5 := sd _ _ k8
      have h6 := sd _ _ k9
      simp only [Client.hs, Bool.false_eq_true, ↓reduceIte] at h1 h2
      have k1 := k1 ic ih
      have := bytes_length_le c ic ih
      simp only [Client.sections, storedSets, List.map_cons, List.map_nil, List.cons_append, List.nil_append,
        List.sum_cons, List.sum_nil] at this
      omega

/-- the hypotheses of C37 can be met -/
example : ∃ (c d : Client toyEnv) (s : Serialized), History toyEnv c storedRules ∧ c.serialize false false = .ok s ∧
    (Client.fresh toyEnv).deserialize s.buffer = .ok (some d) ∧ ∀ url ctx dom, 0 ∉ url →
      (∀ o, c.query url ctx dom = .ok o → ∃ o', d.query url ctx dom = .ok o' ∧ SameOutcome o o') := by
  obtain ⟨c, h, hr, hn, ht, hs, _⟩ := stored_history
  obtain ⟨s, e, hd⟩ := C37_round_trip_partial (ic := false) (ih := false) h (fun f hf => .inr (hr f hf)) hn
  have hw := serialize_eq (history_written h) false false
  have e' := e
  rw [hw] at e'
  cases e'
  obtain ⟨d, h1, h2, h3⟩ := hd (hs _ _) (Client.fresh toyEnv) []
  rw [List.append_nil] at h1
  refine ⟨c, d, _, h, e, h1, fun url ctx dom hu => ((h3 ?_) url ctx dom hu).1⟩
  rw [ht]
  exact fun t => Iff.rfl

/-! ### C38: sizes -/

/-- C38: serializing a client loaded from filter lists is well defined (in particular it writes
within the buffer), and the size computed beforehand, the size of the buffer and the number of
bytes written are all the same. -/
theorem C38_size {E : Env} {c : Client E} {fs : List Filter} (hist : History E c fs) (ic ih : Bool) :
    ∃ s, c.serialize ic ih = .ok s ∧ s.totalSize = s.buffer.length ∧ s.written = s.buffer.length :=
  ⟨_, serialize_eq (history_written hist) ic ih, rfl, rfl⟩

/-- C38: the dry run of `serializeFilters` returns the number of bytes the real one writes. -/
theorem C38_rules {E : Env} {c : Client E} {fs : List Filter} (hist : History E c fs) (id : ListId) (a b : Nat) :
    ∃ bytes, serializeFilters none a b (c.lists id) 0 = .ok (none, bytes.length) ∧
      ∀ (p : Bytes) (n avail : Nat), bytes.length ≤ avail →
        serializeFilters (some (p ++ List.replicate (bytes.length + n) 0)) p.length avail (c.lists id) 0 =
          .ok (some (p ++ bytes ++ List.replicate n 0), bytes.length) := by
  have h := (history_written hist).rules id
  refine ⟨arrayBytes (c.lists id), ?_, fun p n avail hv => ?_⟩
  · simpa using serializeFilters_none h a b 0
  · simpa using serializeFilters_some h p n p.length avail 0 rfl hv

/-- C38: the dry run of `Filter::Serialize` returns the number of bytes the real one writes. -/
theorem C38_entry {f : Filter} {pat : Bytes} (h : HasBareText f pat) :
    ∃ bytes, (∀ off, f.serialize none off = .ok (none, bytes.length)) ∧
      ∀ (a : Bytes) (n : Nat), f.serialize (some (a ++ List.replicate (bytes.length + n) 0)) a.length =
        .ok (some (a ++ bytes ++ List.replicate n 0), bytes.length) :=
  ⟨_, (Filter.serialize_writes h).dry, fun a n => (Filter.serialize_writes h).real a n _ rfl⟩

/-- C38: the same for `NoFingerprintDomain::Serialize`. -/
theorem C38_domain (d : Bytes) :
    ∃ bytes, (∀ off, serializeDomain d none off = .ok (none, bytes.length)) ∧
      ∀ (a : Bytes) (n : Nat), serializeDomain d (some (a ++ List.replicate (bytes.length + n) 0)) a.length =
        .ok (some (a ++ bytes ++ List.replicate n 0), bytes.length) :=
  ⟨_, (serializeDomain_writes d).dry, fun a n => (serializeDomain_writes d).real a n _ rfl⟩

example : ∃ c, History toyEnv c storedRules := by
  obtain ⟨c, h, _⟩ := stored_history
  exact ⟨c, h⟩

/-! ### C39: truncated entries -/

theorem scanXs_head (d : BitVec 32) (ds : List (BitVec 32)) (s : Bytes) :
    (scanXs (d :: ds) s).getD 0 0 = ((scanX s).map fun v => v.1).getD d := by
  unfold scanXs
  cases scanX s <;> rfl

theorem announced_eq (ds : List (BitVec 32)) (s : Bytes) : ((scanXs (0 :: ds) s).getD 0 0).toNat = announced s := by
  rw [scanXs_head]
  unfold announced
  cases scanX s <;> rfl

theorem hasNewlineBefore_header {sz : Bytes} (h : 0 ∉ sz) (rest : Bytes) (size : Nat) :
    hasNewlineBefore (sz ++ 0 :: rest) size = .ok (decide (sz.length < size)) := by
  induction sz generalizing size with
  | nil =>
    cases size with
    | zero => rfl
    | succ n => simp [hasNewlineBefore]
  | cons a sz ih =>
    simp only [List.mem_cons, not_or] at h
    cases size with
    | zero => rfl
    | succ n =>
      simp only [List.cons_append, hasNewlineBefore, if_neg (Ne.symm h.1), List.length_cons, Nat.add_lt_add_iff_right]
      exact ih h.2 n

/-- C39 for host rules, apart from announced sizes so large that the sum overflows: if the data
announced by the header does not fit, 0 is returned, whatever follows the header, even nothing. -/
theorem C39_rule_partial {header : Bytes} (h0 : 0 ∉ header) {size : Nat} (hs : size ≤ header.length + 1 + announced header)
    (hv : header.length + 1 + announced header < 2 ^ 32) (rest : Bytes) :
    Filter.deserialize (header ++ 0 :: rest) size = .ok none := by
  unfold Filter.deserialize
  rw [hasNewlineBefore_header h0]
  simp only [Res.bind_ok]
  by_cases hl : header.length < size
  · simp only [hl, decide_true, Bool.not_true, Bool.false_eq_true, ↓reduceIte, cstrAt_cstr h0, Res.bind_ok]
    rw [announced_eq, add32, Nat.mod_eq_of_lt hv, if_pos hs]
    rfl
  · simp [hl]

/-- C39: a header which does not end within the given size is rejected as well. -/
theorem C39_no_header {p : Bytes} {size : Nat} (hl : size ≤ p.length) (h : 0 ∉ p.take size) :
    Filter.deserialize p size = .ok none := by
  have hn : ∀ (p : Bytes) (size : Nat), size ≤ p.length → 0 ∉ p.take size → hasNewlineBefore p size = .ok false := by
    intro p
    induction p with
    | nil =>
      intro size hl _
      simp only [List.length_nil, Nat.le_zero_eq] at hl
      subst hl
      rfl
    | cons a p ih =>
      intro size hl h
      cases size with
      | zero => rfl
      | succ n =>
        simp only [List.take_succ_cons, List.mem_cons, not_or] at h
        simp only [hasNewlineBefore, if_neg (Ne.symm h.1)]
        exact ih n (by simpa using hl) h.2
  simp [Filter.deserialize, hn p size hl h]

/-- C39 for domain entries, with the same restriction. -/
theorem C39_domain_partial {header : Bytes} (h0 : 0 ∉ header) {size : Nat}
    (hs : size ≤ header.length + 1 + announced header)
    (hv : header.length + 1 + announced header < 2 ^ 32) (rest : Bytes) :
    deserializeDomain (header ++ 0 :: rest) size = .ok none := by
  unfold deserializeDomain
  simp only [cstrAt_cstr h0, Res.bind_ok]
  rw [announced_eq, add32, Nat.mod_eq_of_lt hv, if_pos hs]
  rfl

/-- nine bytes of a text of which only five are there -/
example : announced bs%"9,2,0,0" = 9 ∧ Filter.deserialize (bs%"9,2,0,0" ++ 0 :: bs%"abcde") 13 = .ok none ∧
    deserializeDomain (bs%"9x" ++ 0 :: bs%"abcde") 8 = .ok none := by decide +kernel

/-- C39 fails if the sum of the lengths overflows: these entries announce 4 GB of data in a
buffer of 20 bytes, and are accepted. -/
theorem C39_overflow_counterexample : announced bs%"ffffffff,2,0,0" = 2 ^ 32 - 1 ∧
    (∃ f n, Filter.deserialize (bs%"ffffffff,2,0,0" ++ 0 :: bs%"abc" ++ 0 :: bs%"a") 20 = .ok (some (f, n))) ∧
    (∃ d n, deserializeDomain (bs%"ffffffffx" ++ 0 :: bs%"abc" ++ 0 :: bs%"abcdef") 20 = .ok (some (d, n))) :=
  ⟨by decide +kernel,
    ⟨{ borrowed := true, filterType := 2, data := some (bs%"abc" ++ 0 :: bs%"a"), domainList := some bs%"abc" }, 19,
      by decide +kernel⟩,
    ⟨bs%"abc" ++ 0 :: bs%"abcdef", 10, by decide +kernel⟩⟩

/-- C39 fails for a domain entry without header: its end is looked for beyond the given size. -/
theorem C39_domain_counterexample {p : Bytes} (h : 0 ∉ p) (size : Nat) : deserializeDomain p size = .ub .oobRead := by
  have key : cstrAt p = .ub .oobRead := by
    clear size
    induction p with
    | nil => rfl
    | cons a p ih =>
      simp only [List.mem_cons, not_or] at h
      simp [cstrAt, Ne.symm h.1, ih h.2]
  simp [deserializeDomain, key]

/-! ### C50: serializing again -/

/-- C50, with the restrictions of C35: a client which has been reloaded writes the same bytes
again, if asked to leave out the same kinds of rules. -/
theorem C50_stable_partial {E : Env} {c : Client E} {fs : List Filter} (hist : History E c fs)
    {ic ih : Bool}
    (hr : ∀ f ∈ fs, LeftOut ic ih f ∨ Representable f)
    (hn : c.numHostAnchoredFilters < 2 ^ 31 ∧ c.numHostAnchoredExceptionFilters < 2 ^ 31) :
    ∃ s, c.serialize ic ih = .ok s ∧ (s.totalSize < 2 ^ 31 → ∀ (d : Client E) (q : Bytes),
      ∃ d', d.deserialize (s.buffer ++ q) = .ok (some d') ∧ d'.serialize ic ih = .ok s) := by
  have hs := history_storable hist hr hn
  have hc := history_comparable hist
  refine ⟨_, serialize_eq (history_written hist) ic ih, fun hsize d q => ?_⟩
  obtain ⟨d', h1, h2, _⟩ := deserialize_eq hs hsize d q
  obtain ⟨hw, hb⟩ := same_bytes h2 (history_written hist)
  refine ⟨d', h1, ?_⟩
  rw [serialize_eq hw, hb]

example : ∃ c, History toyEnv c storedRules ∧ (∀ f ∈ storedRules, Representable f) ∧
    (c.numHostAnchoredFilters < 2 ^ 31 ∧ c.numHostAnchoredExceptionFilters < 2 ^ 31) := by
  obtain ⟨c, h, hr, hn, _⟩ := stored_history
  exact ⟨c, h, hr, hn⟩

end AdBlock
