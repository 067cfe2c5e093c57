import Verif.Lemmas.Reread
import Verif.Props.Reload
import Verif.Lemmas.Sane
import Verif.Props.Scripts
/-
Serialization of every rule: what is read back of the rules the format cannot represent, too (C35, C36, C37,
C50), and how this shows in answers (C37, C62, C63).
-/
namespace AdBlock
open Spec

/-! ### C35 -/

/-- C35 for all rules the parser leaves: an array of them is written in `bytes`, wherever in a zeroed buffer
it is written; what is read back from there are the rules described by `rereadRule`, and reading
stops exactly behind them.  They are the rules written if and only if the format can represent
each of these. -/
theorem C35_exact {fs : List Filter} (h : ∀ f ∈ fs, CleanRule f) :
    ∃ bytes : Bytes,
      (∀ (a : Bytes) (n avail : Nat), bytes.length ≤ avail →
        serializeFilters (some (a ++ List.replicate (bytes.length + n) 0)) a.length avail fs 0 =
          .ok (some (a ++ bytes ++ List.replicate n 0), bytes.length)) ∧
      ∀ q : Bytes, ∃ gs, deserializeFilters fs.length (bytes ++ q) = .ok (gs, q) ∧
        Pointwise SameRule (fs.map rereadRule) gs ∧
        (Pointwise SameRule fs gs ↔ ∀ f ∈ fs, StorableRule f) := by
  refine ⟨arrayBytes fs, fun a n avail hv => ?_, fun q => ?_⟩
  · have := serializeFilters_some (fun f hf => cleanRule_written (h f hf)) a n a.length avail 0 rfl hv
    simpa [zeros] using this
  · obtain ⟨gs, e, hs⟩ := deserializeFilters_reread h q
    exact ⟨gs, e, pointwise_map hs, pointwise_iff hs fun f hf g hg => same_iff_storable (h f hf) hg⟩

/-- Every rule read from a line of a filter list is such a rule. -/
theorem C35_parsed_rules {bad : List Bytes} {preserve : Bool} {line : Bytes} {f : Filter} {e : Effect} (h0 : 0 ∉ line)
    (h : parseFilter bad line 0 preserve true = .ok (f, e)) : CleanRule f := by
  have hc := parsed_clean (.inl rfl) h0 h
  have hp := (parseFilter_facts (.inl rfl) h0 h).1
  refine ⟨⟨hc.tag, hc.domains, hc.host⟩, ?_⟩
  rcases hp.text with h | ⟨pat, h0, h⟩
  · exact .inl h
  · exact .inr ⟨pat, h0, ⟨[], h⟩, .inl hp.dataLen⟩

/-- a rule whose list of domains looks like a tag, and one whose list of domains is empty -/
def rereadSamples : List Filter :=
  [{ data := some (cstr bs%"ads"), domainList := some bs%"~#x|a.com" }, { data := some [0], domainList := some [] }]

example : (∀ f ∈ rereadSamples, CleanRule f) ∧ ¬ (∀ f ∈ rereadSamples, StorableRule f) ∧
    rereadSamples.map rereadRule =
      [{ data := some (cstr bs%"ads"), tag := bs%"x|a.com", domainList := some bs%"x|a.com" }, {}] := by
  refine ⟨fun f hf => ?_, fun h => ?_, by decide +kernel⟩
  · simp only [rereadSamples, List.mem_cons, List.not_mem_nil, or_false] at hf
    rcases hf with rfl | rfl
    · exact ⟨⟨by decide, fun dl e => by cases e; decide, fun x e => by cases e⟩, .inr ⟨bs%"ads", by decide, ⟨[], rfl⟩, .inl rfl⟩⟩
    · exact ⟨⟨by decide, fun dl e => by cases e; decide, fun x e => by cases e⟩, .inr ⟨[], by decide, ⟨[], rfl⟩, .inl rfl⟩⟩
  · exact ((h { data := some [0], domainList := some [] } (by simp [rereadSamples])).domains [] rfl).2.1 rfl

/-! ### C36 -/

/-- C36 for all rules the parser leaves in the hash sets: the entry is written in `bytes`, wherever in a
zeroed buffer it is written, and what is read back from there, consuming exactly these bytes, is the rule
described by `rereadEntry`.  It is the rule written if and only if the format can represent this. -/
theorem C36_exact {f : Filter} (h : CleanEntry f) :
    ∃ bytes : Bytes,
      (∀ (a : Bytes) (n : Nat), f.serialize (some (a ++ List.replicate (bytes.length + n) 0)) a.length =
        .ok (some (a ++ bytes ++ List.replicate n 0), bytes.length)) ∧
      ∀ (q : Bytes) (size : Nat), bytes.length ≤ size →
        ∃ g, Filter.deserialize (bytes ++ q) size = .ok (some (g, bytes.length)) ∧
          SameEntry (rereadEntry f) g ∧ (SameEntry f g ↔ StorableEntry f) := by
  obtain ⟨text, ht, hl⟩ := h.text
  refine ⟨entryBytes text f, fun a n => (Filter.serialize_writes ht).real a n _ rfl, fun q size hs => ?_⟩
  have := rereadEntry₀_same q ht
  exact ⟨_, Filter.deserialize_reread h.toCleanStrings hl q size hs, this, same_entry_iff h this⟩

example : CleanEntry { data := some bs%"ads.com^", dataLen := some 8, domainList := some bs%"~#", host := some bs%"ads.com" } ∧
    rereadEntry { data := some bs%"ads.com^", dataLen := some 8, domainList := some bs%"~#", host := some bs%"ads.com" } =
      { data := some bs%"ads.com^", dataLen := some 8, host := some bs%"ads.com" } :=
  ⟨⟨⟨by decide, fun dl e => by cases e; decide, fun x e => by cases e; decide⟩,
    bs%"ads.com^", ⟨by decide, ⟨[], rfl⟩, rfl⟩, by decide⟩, by decide +kernel⟩

/-! ### C37 -/

/-- C37 for every client loaded from filter lists: what it writes can be read by any other client, whatever
follows, provided only that it is smaller than 2 GB; this client then has the rules described by
`rereadRule` and `rereadEntry`, and the other indexes as they were, and it answers every query like a
client with them if the same tags are enabled. -/
theorem C37_exact {E : Env} {c : Client E} {fs : List Filter} (hist : History E c fs) {ic ih : Bool}
    (hn : c.numHostAnchoredFilters < 2 ^ 31 ∧ c.numHostAnchoredExceptionFilters < 2 ^ 31) :
    ∃ s, c.serialize ic ih = .ok s ∧ (s.totalSize < 2 ^ 31 → ∀ (d : Client E) (q : Bytes),
      ∃ d', d.deserialize (s.buffer ++ q) = .ok (some d') ∧ d'.tags = d.tags ∧
        SameClient ic ih (rereadClient c) d' ∧
        ((∀ t, t ∈ d.tags ↔ t ∈ c.tags) → ∀ url ctx dom, 0 ∉ url →
          (∀ o, (rereadClient c).query url ctx dom = .ok o → ∃ o', d'.query url ctx dom = .ok o' ∧ SameOutcome o o') ∧
          (∀ o, (rereadClient c).findMatchingFilters url ctx dom = .ok o →
            ∃ o', d'.findMatchingFilters url ctx dom = .ok o' ∧ SameFound o o'))) := by
  have hc := reread_comparable (history_comparable hist)
  refine ⟨_, serialize_eq (history_written hist) ic ih, fun hsize d q => ?_⟩
  obtain ⟨d', h1, h2, h3, h4, h5⟩ := history_reread hist hn hsize d q
  refine ⟨d', h1, h3, h2, fun ht url ctx dom hu => ?_⟩
  have ht' : ∀ f, tagOk d'.tags f = tagOk (rereadClient c).tags f := by
    intro f
    unfold tagOk
    rw [h3]
    congr 1
    rw [Bool.eq_iff_iff]
    simp [ht, rereadClient]
  exact ⟨fun o ho => query_same hc (same_network h2) ht' hu h5 ho, fun o ho => find_same_client hc (same_network h2) ht' hu ho⟩

example : ∃ (c : Client toyEnv) (fs : List Filter), History toyEnv c fs ∧
    c.numHostAnchoredFilters < 2 ^ 31 ∧ c.numHostAnchoredExceptionFilters < 2 ^ 31 ∧ ∃ f ∈ fs, ¬ StorableRule f := by
  have hck : ((Client.fresh toyEnv).parse bs%"ads$domain=" false).isOk = true := by decide +kernel
  have hnum : (match (Client.fresh toyEnv).parse bs%"ads$domain=" false with
    | .ub _ => false
    | .ok c => decide (c.numHostAnchoredFilters = 0 ∧ c.numHostAnchoredExceptionFilters = 0)) = true := by decide +kernel
  cases hp : (Client.fresh toyEnv).parse bs%"ads$domain=" false with
  | ub u => rw [hp] at hck; cases hck
  | ok c =>
    rw [hp] at hnum
    obtain ⟨h1, h2⟩ := of_decide_eq_true hnum
    refine ⟨c, [] ++ [{ data := some (cstr bs%"ads"), domainList := some [] }], ?_, by omega, by omega,
      { data := some (cstr bs%"ads"), domainList := some [] }, by simp, fun h => (h.domains [] rfl).2.1 rfl⟩
    refine .parse .new (by decide +kernel) hp (?_ : Reads _ _ _ _)
    rw [show lines bs%"ads$domain=" = [bs%"ads$domain="] by decide +kernel]
    exact .cons (e := .none) (by decide +kernel) .nil

/-! ### C50 -/

/-- C50 for every client loaded from filter lists: a client which has been reloaded writes what a client
with the rules described by `rereadRule` and `rereadEntry` writes. -/
theorem C50_exact {E : Env} {c : Client E} {fs : List Filter} (hist : History E c fs) {ic ih : Bool}
    (hn : c.numHostAnchoredFilters < 2 ^ 31 ∧ c.numHostAnchoredExceptionFilters < 2 ^ 31) :
    ∃ s s', c.serialize ic ih = .ok s ∧ (rereadClient c).serialize ic ih = .ok s' ∧
      (s.totalSize < 2 ^ 31 → ∀ (d : Client E) (q : Bytes),
        ∃ d', d.deserialize (s.buffer ++ q) = .ok (some d') ∧ d'.serialize ic ih = .ok s') := by
  have hc := comparable_written (reread_comparable (history_comparable hist))
  refine ⟨_, _, serialize_eq (history_written hist) ic ih, serialize_eq hc ic ih, fun hsize d q => ?_⟩
  obtain ⟨d', h1, h2, _⟩ := history_reread hist hn hsize d q
  obtain ⟨hw, hb⟩ := same_bytes h2 hc
  exact ⟨d', h1, by rw [serialize_eq hw, hb]⟩

/-! ### answers -/

/-- what is to be known about a client which has loaded `text`, for it to answer `before` about a request, and `after` once it
has been saved and loaded again -/
def changedCheck (text url : Bytes) (option : Mask) (page : Option Bytes) (before after : Bool) : Bool :=
  match (Client.fresh toyEnv).parse text false with
  | .ub _ => false
  | .ok c => decide ((c.bytes true true).length < 100000 ∧ c.numHostAnchoredFilters = 0 ∧
      c.numHostAnchoredExceptionFilters = 0 ∧ c.tags = [] ∧
      ((fun o => o.block) <$> c.query url option page) = .ok before ∧
      ((fun o => o.block) <$> (rereadClient c).query url option page) = .ok after)

theorem changed_client {text url : Bytes} {option : Mask} {page : Option Bytes} {before after : Bool} {fs : List Filter}
    (h0 : 0 ∉ text) (hu : 0 ∉ url) (hr : Reads toyEnv.bad false (lines text) fs)
    (hck : changedCheck text url option page before after = true) :
    ∃ (c : Client toyEnv) (s : Serialized), (Client.fresh toyEnv).parse text false = .ok c ∧
    c.serialize true true = .ok s ∧ c.tags = [] ∧
    (∃ o, c.query url option page = .ok o ∧ o.block = before) ∧
    ∃ d, (Client.fresh toyEnv).deserialize s.buffer = .ok (some d) ∧
      ∃ o, d.query url option page = .ok o ∧ o.block = after := by
  unfold changedCheck at hck
  cases hp : (Client.fresh toyEnv).parse text false with
  | ub u => rw [hp] at hck; cases hck
  | ok c =>
    rw [hp] at hck
    obtain ⟨k1, k2, k3, k4, k5, k6⟩ := of_decide_eq_true hck
    have hist : History toyEnv c ([] ++ fs) := .parse .new h0 hp hr
    obtain ⟨s, e, h⟩ := C37_exact (ic := true) (ih := true) hist (by omega)
    have hw := serialize_eq (history_written hist) true true
    have hsize : s.totalSize < 2 ^ 31 := by
      rw [e] at hw
      cases hw
      show (c.bytes true true).length < 2 ^ 31
      omega
    obtain ⟨d, h1, -, -, h2⟩ := h hsize (Client.fresh toyEnv) []
    rw [List.append_nil] at h1
    obtain ⟨o, ho, hb⟩ := Res.map_eq_ok.1 k5
    obtain ⟨o1, ho1, hb1⟩ := Res.map_eq_ok.1 k6
    obtain ⟨o2, ho2, hs2⟩ := (h2 (by rw [k4]; exact fun t => Iff.rfl) url option page hu).1 o1 ho1
    exact ⟨c, s, rfl, e, k4, ⟨o, ho, hb⟩, d, h1, o2, ho2, hs2.block.trans hb1⟩

theorem tagLike_client : ∃ (c : Client toyEnv) (s : Serialized),
    (Client.fresh toyEnv).parse bs%"adbanner$domain=~#x|a.com" false = .ok c ∧
    c.serialize true true = .ok s ∧ c.tags = [] ∧
    (∃ o, c.query bs%"http://b.com/adbanner" 0 (some bs%"a.com") = .ok o ∧ o.block = true) ∧
    ∃ d, (Client.fresh toyEnv).deserialize s.buffer = .ok (some d) ∧
      ∃ o, d.query bs%"http://b.com/adbanner" 0 (some bs%"a.com") = .ok o ∧ o.block = false := by
  refine changed_client (fs := [{ data := some (cstr bs%"adbanner"), domainList := some bs%"~#x|a.com" }]) (by decide +kernel)
    (by decide +kernel) ?_ (by decide +kernel)
  rw [show lines bs%"adbanner$domain=~#x|a.com" = [bs%"adbanner$domain=~#x|a.com"] by decide +kernel]
  exact .cons (e := .addFingerprint bs%"adbann") (by decide +kernel) .nil

/-- C37 fails for a rule whose list of domains begins with `~#`: the client that has loaded the rule blocks a
request, and the one that has read its data does not. -/
theorem C37_verdict_counterexample : ∃ (c d : Client toyEnv) (s : Serialized),
    (Client.fresh toyEnv).parse bs%"adbanner$domain=~#x|a.com" false = .ok c ∧ c.serialize true true = .ok s ∧
    (Client.fresh toyEnv).deserialize s.buffer = .ok (some d) ∧
    (∃ o, c.query bs%"http://b.com/adbanner" 0 (some bs%"a.com") = .ok o ∧ o.block = true) ∧
    ∃ o, d.query bs%"http://b.com/adbanner" 0 (some bs%"a.com") = .ok o ∧ o.block = false := by
  obtain ⟨c, s, h1, h2, -, h3, d, h4, h5⟩ := tagLike_client
  exact ⟨c, d, s, h1, h2, h4, h3, h5⟩

/-- C37 fails for a rule with an empty list of domains: the client that has loaded the rule does not block a request from a
page, because the page is not listed, and the one that has read its data does, as if the rule named no domains. -/
theorem C37_no_domain_counterexample : ∃ (c d : Client toyEnv) (s : Serialized),
    (Client.fresh toyEnv).parse bs%"adbanner$domain=" false = .ok c ∧ c.serialize true true = .ok s ∧
    (Client.fresh toyEnv).deserialize s.buffer = .ok (some d) ∧
    (∃ o, c.query bs%"http://b.com/adbanner" 0 (some bs%"a.com") = .ok o ∧ o.block = false) ∧
    ∃ o, d.query bs%"http://b.com/adbanner" 0 (some bs%"a.com") = .ok o ∧ o.block = true := by
  obtain ⟨c, s, h1, h2, -, h3, d, h4, h5⟩ := changed_client (text := bs%"adbanner$domain=") (url := bs%"http://b.com/adbanner")
    (option := 0) (page := some bs%"a.com") (before := false) (after := true)
    (fs := [{ data := some (cstr bs%"adbanner"), domainList := some [] }]) (by decide +kernel)
    (by decide +kernel) (by
      rw [show lines bs%"adbanner$domain=" = [bs%"adbanner$domain="] by decide +kernel]
      exact .cons (e := .addFingerprint bs%"adbann") (by decide +kernel) .nil) (by decide +kernel)
  exact ⟨c, d, s, h1, h2, h4, h3, h5⟩

/-- C37 fails for a rule whose text is empty: the client that has loaded `|$script` blocks every script, and the one that has
read its data does not. -/
theorem C37_no_text_counterexample : ∃ (c d : Client toyEnv) (s : Serialized),
    (Client.fresh toyEnv).parse bs%"|$script" false = .ok c ∧ c.serialize true true = .ok s ∧
    (Client.fresh toyEnv).deserialize s.buffer = .ok (some d) ∧
    (∃ o, c.query bs%"http://b.com/x.js" FOScript (some bs%"a.com") = .ok o ∧ o.block = true) ∧
    ∃ o, d.query bs%"http://b.com/x.js" FOScript (some bs%"a.com") = .ok o ∧ o.block = false := by
  obtain ⟨c, s, h1, h2, -, h3, d, h4, h5⟩ := changed_client (text := bs%"|$script") (url := bs%"http://b.com/x.js")
    (option := FOScript) (page := some bs%"a.com") (before := true) (after := false)
    (fs := [{ filterType := FTLeftAnchored, filterOption := FOScript, data := some (cstr []) }]) (by decide +kernel)
    (by decide +kernel) (by
      rw [show lines bs%"|$script" = [bs%"|$script"] by decide +kernel]
      exact .cons (e := .none) (by decide +kernel) .nil) (by decide +kernel)
  exact ⟨c, d, s, h1, h2, h4, h3, h5⟩

/-- C62 fails for the same rule: load it, save the client, go on with a new one, and ask about the request. -/
theorem C62_counterexample : ∃ (c d : Client toyEnv) (f e f' e' : Option Filter),
    run (Client.fresh toyEnv) [.parse bs%"adbanner$domain=~#x|a.com" false, .matches bs%"http://b.com/adbanner" 0 (some bs%"a.com")] =
      .ok ([.done, .verdict true f e], c) ∧
    Session (Client.fresh toyEnv) [.op (.parse bs%"adbanner$domain=~#x|a.com" false), .reload,
      .op (.matches bs%"http://b.com/adbanner" 0 (some bs%"a.com"))] [.done, .verdict false f' e'] d := by
  obtain ⟨c, s, h1, h2, ht, ⟨o, h3, hb⟩, d, h4, o', h5, hb'⟩ := tagLike_client
  refine ⟨{ c with stats := o.stats, badFps := o.badFps }, { d with stats := o'.stats, badFps := o'.badFps },
    o.filter, o.exception, o'.filter, o'.exception, ?_, ?_⟩
  · have h1' : (Client.fresh toyEnv).parse bs%"adbanner$domain=~#x|a.com" false = .ok c := h1
    simp only [run, step, h1', Res.map_ok, Res.bind_ok, h3, hb]
  · refine .op (d1 := c) (by simp only [step]; rw [show (Client.fresh toyEnv).parse bs%"adbanner$domain=~#x|a.com" false = .ok c from h1]; rfl)
      (.reload h2 (d1 := d) ?_ (.op ?_ .nil))
    · rw [ht]; exact h4
    · simp only [step, h5, Res.map_ok, hb']

/-- C63 fails for the same rule: a client made from the data file does not block what a client made from the
text blocks. -/
theorem C63_counterexample : ∃ (c d : Client toyEnv) (r : DataFile),
    makeClientFromStrings toyEnv false [bs%"adbanner$domain=~#x|a.com"] = .ok c ∧
    generateDataFile toyEnv [bs%"adbanner$domain=~#x|a.com"] [] = .ok r ∧ makeClientFromData toyEnv r.data = .ok (some d) ∧
    (∃ o, c.query bs%"http://b.com/adbanner" 0 (some bs%"a.com") = .ok o ∧ o.block = true) ∧
    ∃ o, d.query bs%"http://b.com/adbanner" 0 (some bs%"a.com") = .ok o ∧ o.block = false := by
  obtain ⟨c, s, h1, h2, -, h3, d, h4, h5⟩ := tagLike_client
  have hc : makeClientFromStrings toyEnv false [bs%"adbanner$domain=~#x|a.com"] = .ok c := (C48_array_of_lists toyEnv false (by simp) c).2 h1
  obtain ⟨r, hr⟩ := C63_file_is_written (sites := []) hc (by decide) (by simp)
  obtain ⟨c', s', g1, g2, g3⟩ := C63_sites_do_not_matter hr
  rw [hc] at g1
  cases g1
  rw [h2] at g2
  cases g2
  exact ⟨c, d, r, hc, hr, by rw [g3]; exact h4, h3, h5⟩

/-- C63 for every text, and data smaller than 2 GB: a client made from the data file answers every query like one in which
each rule of the texts has been replaced by what is read back of it. -/
theorem C63_exact {E : Env} {texts sites : List Bytes} {c : Client E} {r : DataFile}
    (hg : generateDataFile E texts sites = .ok r) (hc : makeClientFromStrings E false texts = .ok c) (h0 : ∀ t ∈ texts, 0 ∉ t)
    (hfit : Fits c) : ∃ d, makeClientFromData E r.data = .ok (some d) ∧ ∀ url ctx dom, 0 ∉ url →
      (∀ o, (rereadClient c).query url ctx dom = .ok o → ∃ o', d.query url ctx dom = .ok o' ∧ SameOutcome o o') ∧
      (∀ o, (rereadClient c).findMatchingFilters url ctx dom = .ok o →
        ∃ o', d.findMatchingFilters url ctx dom = .ok o' ∧ SameFound o o') := by
  obtain ⟨c', s, h1, h2, h3⟩ := C63_sites_do_not_matter hg
  rw [hc] at h1
  cases h1
  obtain ⟨ht, fs, hist, -⟩ := strings_history hc h0
  obtain ⟨s', e, hd⟩ := C37_exact hist hfit.1
  rw [h2] at e
  cases e
  obtain ⟨d, h4, -, -, h5⟩ := hd (hfit.2 s h2) (Client.fresh E) []
  rw [List.append_nil] at h4
  refine ⟨d, by rw [h3]; exact h4, h5 ?_⟩
  rw [ht]
  exact fun t => Iff.rfl

/-- the hypotheses of C63 can be met by a text for which the data file changes an answer -/
example : ∃ (c d : Client toyEnv) (r : DataFile), makeClientFromStrings toyEnv false [bs%"adbanner$domain="] = .ok c ∧ Fits c ∧
    generateDataFile toyEnv [bs%"adbanner$domain="] [] = .ok r ∧ makeClientFromData toyEnv r.data = .ok (some d) ∧
    (∃ o, c.query bs%"http://b.com/adbanner" 0 (some bs%"a.com") = .ok o ∧ o.block = false) ∧
    ∃ o, d.query bs%"http://b.com/adbanner" 0 (some bs%"a.com") = .ok o ∧ o.block = true := by
  have hck : changedCheck bs%"adbanner$domain=" bs%"http://b.com/adbanner" 0 (some bs%"a.com") false true = true := by decide +kernel
  unfold changedCheck at hck
  cases hp : (Client.fresh toyEnv).parse bs%"adbanner$domain=" false with
  | ub u => rw [hp] at hck; cases hck
  | ok c =>
    rw [hp] at hck
    obtain ⟨k1, k2, k3, k4, k5, k6⟩ := of_decide_eq_true hck
    have hc : makeClientFromStrings toyEnv false [bs%"adbanner$domain="] = .ok c := (C48_array_of_lists toyEnv false (by simp) c).2 hp
    have hfit : Fits c := by
      refine ⟨by omega, fun s hs => ?_⟩
      rw [serialize_eq (comparable_written (sane_comparable (sane_parse sane_fresh (by decide +kernel) hp)))] at hs
      cases hs
      show (c.bytes true true).length < 2 ^ 31
      omega
    obtain ⟨r, hr⟩ := C63_file_is_written (sites := []) hc (by decide) (by simp)
    obtain ⟨d, hd, h⟩ := C63_exact hr hc (by decide) hfit
    obtain ⟨o, ho, hb⟩ := Res.map_eq_ok.1 k5
    obtain ⟨o1, ho1, hb1⟩ := Res.map_eq_ok.1 k6
    obtain ⟨o2, ho2, hs2⟩ := (h bs%"http://b.com/adbanner" 0 (some bs%"a.com") (by decide +kernel)).1 o1 ho1
    exact ⟨c, d, r, hc, hfit, hr, hd, ⟨o, ho, hb⟩, o2, ho2, hs2.block.trans hb1⟩

/-! ### C62 -/

/-- a client whose rules are replaced, and what the session has made of it -/
structure Alongside {E : Env} (c d : Client E) : Prop where
  sane : Sane c
  same : SameNetwork c d
  tags : d.tags = c.tags

theorem sameNetwork_of {E : Env} {c d c' d' : Client E} (h : SameNetwork c d)
    (hc : c'.lists = c.lists ∧ c'.numHostAnchoredFilters = c.numHostAnchoredFilters ∧
      c'.numHostAnchoredExceptionFilters = c.numHostAnchoredExceptionFilters ∧ c'.bloom = c.bloom ∧ c'.exceptionBloom = c.exceptionBloom ∧
      c'.hostSet = c.hostSet ∧ c'.hostExceptionSet = c.hostExceptionSet ∧ c'.domSets = c.domSets)
    (hd : d'.lists = d.lists ∧ d'.numHostAnchoredFilters = d.numHostAnchoredFilters ∧
      d'.numHostAnchoredExceptionFilters = d.numHostAnchoredExceptionFilters ∧ d'.bloom = d.bloom ∧ d'.exceptionBloom = d.exceptionBloom ∧
      d'.hostSet = d.hostSet ∧ d'.hostExceptionSet = d.hostExceptionSet ∧ d'.domSets = d.domSets) : SameNetwork c' d' := by
  obtain ⟨a1, a2, a3, a4, a5, a6, a7, a8⟩ := hc
  obtain ⟨b1, b2, b3, b4, b5, b6, b7, b8⟩ := hd
  refine ⟨?_, ?_, ?_, ?_, ?_, ?_, ?_, ?_, ?_⟩
  · rw [a1, b1]; exact h.lists
  · rw [a1, b1]; exact h.pageRules
  · rw [a2, b2]; exact h.numHostAnchoredFilters
  · rw [a3, b3]; exact h.numHostAnchoredExceptionFilters
  · rw [a4, b4]; exact h.bloom
  · rw [a5, b5]; exact h.exceptionBloom
  · rw [a6, b6]; exact h.hostSet
  · rw [a7, b7]; exact h.hostExceptionSet
  · rw [a8, b8]; exact h.domSets

theorem alongside_step {E : Env} {c d c' : Client E} (h : Alongside c d) {o : Op} (ho : StringsOp o) {a : Answer}
    (hs : step c o = .ok (a, c')) : ∃ a' d', step d o = .ok (a', d') ∧ AlikeAnswer a a' ∧ Alongside c' d' := by
  have hsane : Sane c' := sane_step h.sane (fun input pr e => by subst e; exact ho) hs
  cases o with
  | parse input pr =>
    simp only [step] at hs
    obtain ⟨c1, h1, hs⟩ := Res.map_eq_ok.1 hs
    cases hs
    obtain ⟨d', e1, e2, e3⟩ := parse_same h.same h1
    exact ⟨.done, d', by simp only [step, e1]; rfl, .done, hsane, e2, by rw [e3, h.tags, parse_tags h1]⟩
  | «matches» url ctx dom =>
    simp only [step] at hs
    obtain ⟨o, h1, hs⟩ := Res.map_eq_ok.1 hs
    cases hs
    obtain ⟨o', e1, e2⟩ := query_network' (sane_comparable h.sane) h.sane.ready h.same h.tags ho h1
    refine ⟨.verdict o'.block o'.filter o'.exception, { d with stats := o'.stats, badFps := o'.badFps },
      by simp only [step, e1]; rfl, ?_, hsane, sameNetwork_of h.same (by simp) (by simp), h.tags⟩
    rw [e2.block]; exact .verdict e2.filter e2.exception
  | find url ctx dom =>
    simp only [step] at hs
    obtain ⟨r, h1, hs⟩ := Res.map_eq_ok.1 hs
    cases hs
    obtain ⟨r', e1, e2⟩ := find_same_client (sane_comparable h.sane) h.same (fun f => by rw [h.tags]) ho h1
    refine ⟨.verdict r'.block r'.filter r'.exception, d, by simp only [step, e1]; rfl, ?_, h⟩
    rw [e2.block]; exact .verdict e2.filter e2.exception
  | addTag t =>
    cases hs
    refine ⟨.done, d.addTag t, rfl, .done, hsane, ?_, ?_⟩
    · unfold Client.addTag Client.tagExists
      rw [h.tags]
      split
      · exact h.same
      · exact sameNetwork_of h.same (by simp) (by simp)
    · unfold Client.addTag Client.tagExists
      rw [h.tags]
      split
      · exact h.tags
      · rfl
  | removeTag t =>
    cases hs
    refine ⟨.done, d.removeTag t, rfl, .done, hsane, sameNetwork_of h.same (by simp [Client.removeTag]) (by simp [Client.removeTag]), ?_⟩
    show d.tags.erase t = c.tags.erase t
    rw [h.tags]
  | tagExists t =>
    cases hs
    refine ⟨.bool (d.tagExists t), d, rfl, ?_, h⟩
    rw [show d.tagExists t = c.tagExists t by unfold Client.tagExists; rw [h.tags]]
    exact .bool _
  | clear =>
    cases hs
    exact ⟨.done, d.clear, rfl, .done, hsane, ⟨fun _ _ => .nil, fun _ => ⟨[], List.suffix_refl _, .nil⟩, rfl, rfl, rfl,
      rfl, .null, .null, fun _ => .null⟩, h.tags⟩
  | enableBadFingerprintDetection =>
    cases hs
    refine ⟨.done, _, rfl, .done, hsane, ?_, ?_⟩
    · unfold Client.enableBadFingerprintDetection
      split <;> split <;> exact sameNetwork_of h.same (by simp) (by simp)
    · unfold Client.enableBadFingerprintDetection
      split <;> split <;> exact h.tags

theorem alongside_reload {E : Env} {c d : Client E} (h : Alongside c d) (hf : Fits c) :
    ∃ s d', d.serialize true true = .ok s ∧
      ({ Client.fresh E with tags := d.tags } : Client E).deserialize s.buffer = .ok (some d') ∧ Alongside (rereadClient c) d' := by
  have hw := comparable_written (sane_comparable h.sane)
  have hsize : (c.bytes true true).length < 2 ^ 31 := hf.2 _ (serialize_eq hw true true)
  have hl : ∀ id, Pointwise SameRule (c.storedList true true id) (d.storedList true true id) := by
    intro id
    have := h.same.lists id
    cases id <;> simp only [Client.storedList] <;> first | exact .nil | exact this (by simp)
  obtain ⟨h1, h2⟩ := network_bytes h.same hw hl
  have h3 := serialize_eq h1 true true
  rw [h2] at h3
  obtain ⟨d', e1, e2, e3, -⟩ := sane_reread h.sane hf.1 hsize ({ Client.fresh E with tags := d.tags } : Client E) []
  rw [List.append_nil] at e1
  exact ⟨_, d', h3, e1, sane_rereadClient h.sane, same_network e2, e3.trans h.tags⟩

theorem alongside_session {E : Env} {calls : List SaveOp} {c d c' : Client E} (h : Alongside c d)
    (ho : ∀ o, .op o ∈ calls → StringsOp o) {as : List Answer} (hr : replay c calls = .ok (as, c'))
    (hf : ∀ pre post, calls = pre ++ .reload :: post → ∀ as c', replay c pre = .ok (as, c') → Fits c') :
    ∃ as' d', Session d calls as' d' ∧ Pointwise AlikeAnswer as as' ∧ SameNetwork c' d' ∧ d'.tags = c'.tags := by
  induction calls generalizing c d as with
  | nil =>
    cases hr
    exact ⟨[], d, .nil, .nil, h.same, h.tags⟩
  | cons call calls ih =>
    cases call with
    | op o =>
      simp only [replay] at hr
      obtain ⟨⟨a, c1⟩, h1, hr⟩ := Res.bind_eq_ok.1 hr
      obtain ⟨⟨as1, c2⟩, h2, hr⟩ := Res.bind_eq_ok.1 hr
      cases hr
      obtain ⟨a', d1, e1, e2, e3⟩ := alongside_step h (ho o (by simp)) h1
      obtain ⟨as', d', e4, e5, e6⟩ := ih e3 (fun o ho' => ho o (by simp [ho'])) h2 fun pre post hp as c' hc => by
        refine hf (.op o :: pre) post (by rw [hp]; rfl) (a :: as) c' ?_
        simp only [replay]
        rw [h1, Res.bind_ok]
        dsimp only
        rw [hc]; rfl
      exact ⟨a' :: as', d', .op e1 e4, .cons e2 e5, e6⟩
    | reload =>
      obtain ⟨s, d1, e1, e2, e3⟩ := alongside_reload h (hf [] calls rfl [] c rfl)
      obtain ⟨as', d', e4, e5, e6⟩ := ih e3 (fun o ho' => ho o (by simp [ho'])) hr fun pre post hp as c' hc =>
        hf (.reload :: pre) post (by rw [hp]; rfl) as c' hc
      exact ⟨as', d', .reload e1 e2 e4, e5, e6⟩

/-- C62 for every list, and data smaller than 2 GB: in any session of loading lists, queries, tags, clearing and detection of
bad fingerprints, saving the client and going on with a new one that has loaded the data, at any number of places, gives the same answers
as replacing each rule, at these places, by what is read back of it (`rereadRule` and `rereadEntry`). -/
theorem C62_exact {E : Env} {calls : List SaveOp} {as : List Answer} {c : Client E}
    (ho : ∀ o, .op o ∈ calls → StringsOp o) (hr : replay (Client.fresh E) calls = .ok (as, c))
    (hf : ∀ pre post, calls = pre ++ .reload :: post → ∀ as c, replay (Client.fresh E) pre = .ok (as, c) → Fits c) :
    ∃ as' d, Session (Client.fresh E) calls as' d ∧ Pointwise AlikeAnswer as as' ∧ d.tags = c.tags := by
  obtain ⟨as', d, h1, h2, _, h3⟩ := alongside_session ⟨sane_fresh, network_refl _, rfl⟩ ho hr hf
  exact ⟨as', d, h1, h2, h3⟩

/-- a session in which the answer depends on what is read back -/
def changedSession : List SaveOp := [.op (.parse bs%"adbanner$domain=" false), .reload, .op (.matches bs%"http://b.com/adbanner" 0 (some bs%"a.com"))]

/-- the hypotheses of C62 can be met by a session whose answers are changed by saving -/
example : ∃ as c as' d f e, replay (Client.fresh toyEnv) changedSession = .ok (as, c) ∧ as = [.done, .verdict true f e] ∧
    Session (Client.fresh toyEnv) changedSession as' d ∧ Pointwise AlikeAnswer as as' := by
  have hck : changedCheck bs%"adbanner$domain=" bs%"http://b.com/adbanner" 0 (some bs%"a.com") false true = true := by decide +kernel
  unfold changedCheck at hck
  cases hp : (Client.fresh toyEnv).parse bs%"adbanner$domain=" false with
  | ub u => rw [hp] at hck; cases hck
  | ok c =>
    rw [hp] at hck
    obtain ⟨k1, k2, k3, k4, k5, k6⟩ := of_decide_eq_true hck
    obtain ⟨o, ho, hb⟩ := Res.map_eq_ok.1 k6
    have hr : replay (Client.fresh toyEnv) changedSession = .ok ([.done, .verdict o.block o.filter o.exception],
        { rereadClient c with stats := o.stats, badFps := o.badFps }) := by
      simp only [changedSession, replay, step, hp, Res.map_ok, Res.bind_ok, ho]
    suffices hh : (∀ o, .op o ∈ changedSession → StringsOp o) ∧ ∀ pre post, changedSession = pre ++ .reload :: post →
        ∀ as c, replay (Client.fresh toyEnv) pre = .ok (as, c) → Fits c by
      obtain ⟨as', d, h1, h2, _⟩ := C62_exact hh.1 hr hh.2
      exact ⟨_, _, as', d, o.filter, o.exception, hr, by rw [hb], h1, h2⟩
    constructor
    · intro o ho
      simp only [changedSession, List.mem_cons, SaveOp.op.injEq, List.not_mem_nil, or_false, reduceCtorEq, false_or] at ho
      rcases ho with rfl | rfl
      · show 0 ∉ _
        decide +kernel
      · show 0 ∉ _
        decide +kernel
    · intro pre post e as c' hc
      have : pre = [.op (.parse bs%"adbanner$domain=" false)] := by
        unfold changedSession at e
        rcases pre with _ | ⟨a, pre⟩
        · simp at e
        simp only [List.cons_append, List.cons.injEq] at e
        obtain ⟨rfl, e⟩ := e
        rcases pre with _ | ⟨a, pre⟩
        · rfl
        simp only [List.cons_append, List.cons.injEq] at e
        obtain ⟨rfl, e⟩ := e
        rcases pre with _ | ⟨a, pre⟩ <;> simp at e
      subst this
      simp only [replay, step, hp, Res.map_ok, Res.bind_ok] at hc
      cases hc
      refine ⟨by omega, fun s hs => ?_⟩
      rw [serialize_eq (comparable_written (sane_comparable (sane_parse sane_fresh (by decide +kernel) hp)))] at hs
      cases hs
      show (c.bytes true true).length < 2 ^ 31
      omega

/-- what is to be known about the client which has loaded a rule with the domain list `~#x` -/
def tagOnlyCheck : Bool :=
  match (Client.fresh toyEnv).parse bs%"adbanner$domain=~#x" false with
  | .ub _ => false
  | .ok c => decide ((c.bytes true true).length < 100000 ∧ c.numHostAnchoredFilters = 0 ∧
      c.numHostAnchoredExceptionFilters = 0 ∧ ((rereadClient c).bytes true true).length = (c.bytes true true).length + 2)

/-- C50 fails for a rule with the domain list `~#x`: the client that has read the data writes two bytes more. -/
theorem C50_counterexample : ∃ (c d : Client toyEnv) (s s' : Serialized),
    (Client.fresh toyEnv).parse bs%"adbanner$domain=~#x" false = .ok c ∧ c.serialize true true = .ok s ∧
    (Client.fresh toyEnv).deserialize s.buffer = .ok (some d) ∧ d.serialize true true = .ok s' ∧
    s'.buffer.length = s.buffer.length + 2 := by
  have hck : tagOnlyCheck = true := by decide +kernel
  unfold tagOnlyCheck at hck
  cases hp : (Client.fresh toyEnv).parse bs%"adbanner$domain=~#x" false with
  | ub u => rw [hp] at hck; cases hck
  | ok c =>
    rw [hp] at hck
    obtain ⟨k1, k2, k3, k4⟩ := of_decide_eq_true hck
    have hist : History toyEnv c ([] ++ [{ data := some (cstr bs%"adbanner"), domainList := some bs%"~#x" }]) := by
      refine .parse .new (by decide +kernel) hp (?_ : Reads _ _ _ _)
      rw [show lines bs%"adbanner$domain=~#x" = [bs%"adbanner$domain=~#x"] by decide +kernel]
      exact .cons (e := .addFingerprint bs%"adbann") (by decide +kernel) .nil
    obtain ⟨s, s', e, e', h⟩ := C50_exact (ic := true) (ih := true) hist (by omega)
    have hw := serialize_eq (history_written hist) true true
    have hw' := serialize_eq (comparable_written (reread_comparable (history_comparable hist))) true true
    rw [e] at hw
    rw [e'] at hw'
    cases hw
    cases hw'
    have hsize : (c.bytes true true).length < 2 ^ 31 := by omega
    obtain ⟨d, h1, h2⟩ := h hsize (Client.fresh toyEnv) []
    rw [List.append_nil] at h1
    exact ⟨c, d, _, _, rfl, e, h1, h2, k4⟩

end AdBlock
