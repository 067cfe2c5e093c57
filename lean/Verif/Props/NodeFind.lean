import Verif.Lemmas.NodeFind
import Verif.Lemmas.SerializeQuery
import Verif.Lemmas.SerializeSame
import Verif.Props.Serialize
import Verif.Props.Verdict
/-
C61: what the Node methods `findMatchingFilters` and `matches` tell about a request.
-/
namespace AdBlock
open Spec

variable {E : Env} {c : Client E} {fs : List Filter} {url : Bytes} {option : Mask} {page : Bytes}

/-! ### what is found -/

/-- Where the rules found come from. -/
theorem found_from (hist : History E c fs) {dom : Option Bytes} {found : Found}
    (h : c.findMatchingFilters url option dom = .ok found) :
    (∀ f, found.filter = some f → (f ∈ fs ∧ Blocking f ∧ has f.filterType FTHostOnly = false ∨ ∃ g ∈ fs, HostRule false g ∧ f = g.bare) ∧
      Acts c.tags url (resolveContext url option dom) dom f) ∧
    (∀ f, found.exception = some f → (f ∈ fs ∧ IsException f ∧ has f.filterType FTHostOnly = false ∨ ∃ g ∈ fs, HostRule true g ∧ f = g.bare) ∧
      Acts c.tags url (resolveContext url option dom) dom f) := by
  have hh := history_holds hist
  have from' : ∀ {s f}, c.FindMeets s url f →
      (f ∈ fs ∧ Kind s f ∧ has f.filterType FTHostOnly = false) ∨ ∃ g ∈ fs, HostRule s g ∧ f = g.bare := by
    intro s f hm
    rcases findMeets_cases hm with ⟨id, hid, hf⟩ | ⟨t, i, ht, hf⟩
    · exact .inl (listed_not_host hh hid hf)
    · exact .inr (entry_is_host hh ht hf)
  rcases hh.ready with hr | ⟨rfl, _, hs, _⟩
  · cases find_ok hr rfl h with
    | free _ => exact ⟨by simp, by simp⟩
    | excepted f e m1 a1 m2 a2 =>
      refine ⟨fun f' hf => ?_, fun e' he => ?_⟩
      · cases hf; exact ⟨from' m1, a1⟩
      · cases he; exact ⟨from' m2, a2⟩
    | blocked f m1 a1 _ =>
      refine ⟨fun f' hf => ?_, by simp⟩
      cases hf; exact ⟨from' m1, a1⟩
  · rw [find_empty (fun id => List.eq_nil_iff_forall_not_mem.2 fun f hf => by simpa using (hh.mem.1 hf).1) hs] at h
    cases h
    exact ⟨by simp, by simp⟩

/-- The text of a rule which acts on a request. -/
theorem text_of_acts (hist : History E c fs) {f : Filter} (hf : f ∈ fs) {tags : List Bytes} {ctx : Mask} {dom : Option Bytes}
    (ha : Acts tags url ctx dom f) : ∃ pat, HasText f pat := by
  have hp := (history_holds hist).index.parsed f hf
  rcases hp.text with h | ⟨pat, h0, h⟩
  · exact absurd h ha.data
  · exact ⟨pat, h0, ⟨[], h⟩, .inl hp.dataLen⟩

theorem host_entry_texts (hist : History E c fs) {s : Bool} {g : Filter} (hg : g ∈ fs) (hr : HostRule s g) :
    foundTexts (some g.bare) = .ub .oobRead := by
  rcases ((history_holds hist).index.parsed g hg).text with h | ⟨pat, h0, h⟩
  · exact absurd h hr.2.2
  · exact foundTexts_bare h0 h

/-- **C61** for new clients, as far as it goes: whenever `findMatchingFilters` answers, it says whether
the request is to be blocked; the text it reports is the one of a rule which was loaded and which
applies to the request, and the original rule is the one kept with it, if rules are kept; the same
for an exception. -/
theorem C61_report_partial (hist : History E c fs) {r : FoundData} (h : c.nodeFind url option (some page) = .ok r) :
    (r.isMatch = true ↔ r.matchingFilter ≠ none ∧ r.matchingExceptionFilter = none) ∧
    (∀ t, r.matchingFilter = some t → ∃ f ∈ fs, Blocking f ∧
      Acts c.tags url (resolveContext url option (some page)) (some page) f ∧ HasText f t ∧ r.matchingOrigRule = f.ruleDefinition) ∧
    (∀ t, r.matchingExceptionFilter = some t → ∃ f ∈ fs, IsException f ∧
      Acts c.tags url (resolveContext url option (some page)) (some page) f ∧ HasText f t ∧ r.matchingExceptionOrigRule = f.ruleDefinition) ∧
    (r.matchingFilter = none → r.matchingOrigRule = none) ∧
    (r.matchingExceptionFilter = none → r.matchingExceptionOrigRule = none) := by
  obtain ⟨found, hf, h⟩ := Res.bind_eq_ok.1 h
  obtain ⟨⟨t, o⟩, ht, h⟩ := Res.bind_eq_ok.1 h
  obtain ⟨⟨t', o'⟩, ht', h⟩ := Res.bind_eq_ok.1 h
  cases h
  obtain ⟨_, _, hb⟩ := C28_find_reports hist hf
  obtain ⟨h1, h2⟩ := found_from hist hf
  have key : ∀ {s : Bool} {x : Option Filter} {t o : Option Bytes}, foundTexts x = .ok (t, o) →
      (∀ f, x = some f → (f ∈ fs ∧ Kind s f ∧ has f.filterType FTHostOnly = false ∨ ∃ g ∈ fs, HostRule s g ∧ f = g.bare) ∧
        Acts c.tags url (resolveContext url option (some page)) (some page) f) →
      (x = none ↔ t = none) ∧ (t = none → o = none) ∧ (∀ t', t = some t' → ∃ f ∈ fs, Kind s f ∧
        Acts c.tags url (resolveContext url option (some page)) (some page) f ∧ HasText f t' ∧ o = f.ruleDefinition) := by
    intro s x t o hx hfrom
    cases x with
    | none => cases hx; simp
    | some f =>
      obtain ⟨hfrom, ha⟩ := hfrom f rfl
      rcases hfrom with ⟨hm, hk, _⟩ | ⟨g, hg, hr, rfl⟩
      · obtain ⟨pat, hp⟩ := text_of_acts hist hm ha
        rw [foundTexts_text hp] at hx
        cases hx
        refine ⟨by simp, by simp, fun t' e => ?_⟩
        cases e
        exact ⟨f, hm, hk, ha, hp, rfl⟩
      · rw [host_entry_texts hist hg hr] at hx
        cases hx
  obtain ⟨k1, k2, k3⟩ := key (s := false) ht h1
  obtain ⟨j1, j2, j3⟩ := key (s := true) ht' h2
  refine ⟨?_, k3, j3, k2, j2⟩
  dsimp only
  rw [hb, ne_eq, k1, j1]

/-- **C61** fails for rules consisting of a host: if `findMatchingFilters` finds one of them, as a
rule or as an exception, then Node reads memory beyond the text of the rule. -/
theorem C61_host_rule_counterexample (hist : History E c fs) {found : Found}
    (h : c.findMatchingFilters url option (some page) = .ok found) {f : Filter}
    (hf : found.filter = some f ∨ found.exception = some f) (hh : has f.filterType FTHostOnly = true) :
    c.nodeFind url option (some page) = .ub .oobRead := by
  obtain ⟨h1, h2⟩ := found_from hist h
  have host : ∀ {s : Bool}, (f ∈ fs ∧ Kind s f ∧ has f.filterType FTHostOnly = false ∨ ∃ g ∈ fs, HostRule s g ∧ f = g.bare) →
      foundTexts (some f) = .ub .oobRead := by
    rintro s (⟨_, _, hn⟩ | ⟨g, hg, hr, rfl⟩)
    · rw [hh] at hn; cases hn
    · exact host_entry_texts hist hg hr
  have either : ∀ {s : Bool} {x : Option Filter}, (∀ f, x = some f →
      (f ∈ fs ∧ Kind s f ∧ has f.filterType FTHostOnly = false ∨ ∃ g ∈ fs, HostRule s g ∧ f = g.bare) ∧
        Acts c.tags url (resolveContext url option (some page)) (some page) f) →
      foundTexts x = .ub .oobRead ∨ ∃ r, foundTexts x = .ok r := by
    intro s x hx
    cases x with
    | none => exact .inr ⟨_, rfl⟩
    | some g =>
      obtain ⟨hfrom, ha⟩ := hx g rfl
      rcases hfrom with ⟨hm, _⟩ | ⟨g', hg, hr, rfl⟩
      · obtain ⟨pat, hp⟩ := text_of_acts hist hm ha
        exact .inr ⟨_, foundTexts_text hp⟩
      · exact .inl (host_entry_texts hist hg hr)
  unfold Client.nodeFind
  simp only [pageArgument, h, Res.bind_ok]
  rcases hf with hf | hf
  · rw [hf, host (h1 f hf).1]; rfl
  · rcases either (s := false) h1 with e | ⟨r, e⟩
    · rw [e]; rfl
    · rw [e, hf, host (h2 f hf).1]; rfl

/-- **C61**: for all other rules, there is an answer. -/
theorem C61_defined_partial (hist : History E c fs) {found : Found}
    (h : c.findMatchingFilters url option (some page) = .ok found)
    (hh : ∀ f, found.filter = some f ∨ found.exception = some f → has f.filterType FTHostOnly = false) :
    ∃ r, c.nodeFind url option (some page) = .ok r ∧ r.isMatch = found.block ∧
      (r.matchingFilter = none ↔ found.filter = none) ∧ (r.matchingExceptionFilter = none ↔ found.exception = none) := by
  obtain ⟨h1, h2⟩ := found_from hist h
  have texts : ∀ {s : Bool} {x : Option Filter}, (∀ f, x = some f → has f.filterType FTHostOnly = false) → (∀ f, x = some f →
      (f ∈ fs ∧ Kind s f ∧ has f.filterType FTHostOnly = false ∨ ∃ g ∈ fs, HostRule s g ∧ f = g.bare) ∧
        Acts c.tags url (resolveContext url option (some page)) (some page) f) →
      ∃ t o, foundTexts x = .ok (t, o) ∧ (t = none ↔ x = none) := by
    intro s x hn hx
    cases x with
    | none => exact ⟨_, _, rfl, by simp⟩
    | some g =>
      obtain ⟨hfrom, ha⟩ := hx g rfl
      rcases hfrom with ⟨hm, _⟩ | ⟨g', hg, hr, rfl⟩
      · obtain ⟨pat, hp⟩ := text_of_acts hist hm ha
        exact ⟨_, _, foundTexts_text hp, by simp⟩
      · have := hn _ rfl
        simp [hr.2.1] at this
  obtain ⟨t, o, e, n⟩ := texts (s := false) (fun f hf => hh f (.inl hf)) h1
  obtain ⟨t', o', e', n'⟩ := texts (s := true) (fun f hf => hh f (.inr hf)) h2
  refine ⟨⟨found.block, t, o, t', o'⟩, ?_, rfl, n, n'⟩
  unfold Client.nodeFind
  simp only [pageArgument, h, Res.bind_ok, e, e', Res.pure_eq]

/-! ### reloaded clients -/

/-- What is reported about a rule by a client which has been read from serialized data: it is one of
the rules of the original client, and reported is the text of this rule, or for a rule consisting
of a host its text and the host run together. -/
def ShownAs (fs : List Filter) (x : Option Filter) (t : Option Bytes) : Prop :=
  (x = none → t = none) ∧
  ∀ f, x = some f → ∃ g ∈ fs, SameOptions g f ∧ ∃ pat, HasText g pat ∧
    t = some (if has g.filterType FTHostOnly = true then pat ++ g.host.getD [] else pat)

theorem reloaded_texts (hist : History E c fs) {ic ih : Bool} (hst : StorableClient ic ih c) {d : Client E} (hs : SameClient ic ih c d)
    (hset : SamePointer (SameSet ReadBack) c.hostSet d.hostSet)
    (hexc : SamePointer (SameSet ReadBack) c.hostExceptionSet d.hostExceptionSet) {s : Bool} {f : Filter}
    (hm : d.FindMeets s url f) (hd : f.data ≠ none) : ∃ t o, foundTexts (some f) = .ok (t, o) ∧ ShownAs fs (some f) t := by
  have hh := history_holds hist
  rcases findMeets_cases hm with ⟨id, hid, hf⟩ | ⟨t, i, ht, hf⟩
  · obtain ⟨g, hg, hsame⟩ := pointwise_mem (hs.lists id) f hf
    have hg : g ∈ c.lists id := by
      unfold kept at hg
      split at hg
      · simp at hg
      · exact hg
    obtain ⟨hgm, _, hho⟩ := listed_not_host hh hid hg
    rcases (hh.index.parsed g hgm).text with hn | ⟨pat, h0, hp⟩
    · exact absurd (hsame.noText hn) hd
    · have ht := hsame.text pat ⟨h0, ⟨[], hp⟩, .inl (hh.index.parsed g hgm).dataLen⟩
      refine ⟨_, _, foundTexts_text ht, by simp, fun f' e => ?_⟩
      cases e
      refine ⟨g, hgm, hsame.toSameOptions, pat, ⟨h0, ⟨[], hp⟩, .inl (hh.index.parsed g hgm).dataLen⟩, ?_⟩
      simp [hho]
  · have hp : SamePointer (SameSet ReadBack) (c.hs s) (d.hs s) := by cases s <;> assumption
    rw [ht] at hp
    cases hc : c.hs s with
    | none => rw [hc] at hp; cases hp
    | some t₀ =>
      rw [hc] at hp
      cases hp with
      | some hp =>
        have hpos : 0 < t₀.count := by
          cases s
          · exact (hst.hostSet _ hc).count.1
          · exact (hst.hostExceptionSet _ hc).count.1
        rw [hp.count] at hf
        obtain ⟨g, hg, hback⟩ := pointwise_mem (hp.bucket _ (Nat.mod_lt _ hpos)) f hf
        obtain ⟨g', hg', hr, rfl⟩ := entry_is_host hh hc hg
        rcases (hh.index.parsed g' hg').text with hn | ⟨pat, h0, hp⟩
        · exact absurd hn hr.2.2
        · obtain ⟨text, ht, e⟩ := foundTexts_readBack hback
          refine ⟨_, _, e, by simp, fun f' e => ?_⟩
          cases e
          have hb : HasBareText f pat := hback.same.text pat (by
            rw [bare_of_text hp]
            exact ⟨h0, ⟨[], by simp⟩, rfl⟩)
          have he : text = pat := by
            have := rawData_bare ht
            rw [rawData_bare hb] at this
            cases this
            rfl
          have ho := hback.same.toSameOptions
          rw [bare_of_text hp] at ho
          refine ⟨g', hg', ⟨ho.kind, ho.options, ho.antiOptions, ho.tag, ho.domainList, ho.host⟩, pat,
            ⟨h0, ⟨[], hp⟩, .inl (hh.index.parsed g' hg').dataLen⟩, ?_⟩
          rw [if_pos hr.2.1, he, ho.host]

/-- **C61** for a client which has been read from the serialized data of another one: there is
always an answer, but where a rule consisting of a host is reported, the host is appended to its
text. -/
theorem C61_reloaded_counterexample (hist : History E c fs) {ic ih : Bool}
    (hr : ∀ f ∈ fs, LeftOut ic ih f ∨ Representable f)
    (hn : c.numHostAnchoredFilters < 2 ^ 31 ∧ c.numHostAnchoredExceptionFilters < 2 ^ 31) :
    ∃ s, c.serialize ic ih = .ok s ∧ (s.totalSize < 2 ^ 31 → ∀ (d : Client E) (q : Bytes),
      ∃ d', d.deserialize (s.buffer ++ q) = .ok (some d') ∧
        ∀ url option page found, d'.findMatchingFilters url option (some page) = .ok found →
          ∃ r, d'.nodeFind url option (some page) = .ok r ∧ r.isMatch = found.block ∧
            ShownAs fs found.filter r.matchingFilter ∧ ShownAs fs found.exception r.matchingExceptionFilter) := by
  have hs := history_storable hist hr hn
  refine ⟨_, serialize_eq (history_written hist) ic ih, fun hsize d q => ?_⟩
  obtain ⟨d', h1, h2, _, _, _, h3, h4⟩ := deserialize_entries hs hsize d q
  refine ⟨d', h1, fun url option page found hf => ?_⟩
  have shown : (∀ f, found.filter = some f → f.data ≠ none ∧ d'.FindMeets false url f) ∧
      (∀ f, found.exception = some f → f.data ≠ none ∧ d'.FindMeets true url f) := by
    have hh := history_holds hist
    have point : ∀ {A B : Type} {R : A → B → Prop} {x : Option A} {y : Option B}, SamePointer R x y → x.isSome = y.isSome := by
      intro A B R x y h
      cases h <;> rfl
    rcases hh.ready with hr | ⟨rfl, _, hs, _⟩
    · have hr' : d'.Ready := {
        bl := fun s => by
          have := hr.bl s
          cases s
          · exact (congrArg Option.isSome h2.bloom).trans this
          · exact (congrArg Option.isSome h2.exceptionBloom).trans this
        hs := fun s => by
          have := hr.hs s
          cases s
          · exact (point h2.hostSet).symm.trans this
          · exact (point h2.hostExceptionSet).symm.trans this
        doms := fun i => (point (h2.domSets i)).symm.trans (hr.doms i) }
      cases find_ok hr' rfl hf with
      | free _ => exact ⟨by simp, by simp⟩
      | excepted f e m1 a1 m2 a2 =>
        refine ⟨fun f' hf => ?_, fun e' he => ?_⟩
        · cases hf; exact ⟨a1.data, m1⟩
        · cases he; exact ⟨a2.data, m2⟩
      | blocked f m1 a1 _ =>
        refine ⟨fun f' hf => ?_, by simp⟩
        cases hf; exact ⟨a1.data, m1⟩
    · have hl : ∀ id, d'.lists id = [] := fun id => List.eq_nil_iff_forall_not_mem.2 fun f hf => by
        obtain ⟨g, hg, _⟩ := pointwise_mem (h2.lists id) f hf
        unfold kept at hg
        split at hg
        · simp at hg
        · simpa using (hh.mem.1 hg).1
      have hs' : ∀ s, d'.hs s = none := fun s => by
        have hs := hs s
        cases s
        · exact Option.isNone_iff_eq_none.1 (by
            rw [← Option.not_isSome, show d'.hs false = d'.hostSet from rfl, ← point h2.hostSet, show c.hostSet = none from hs]; rfl)
        · exact Option.isNone_iff_eq_none.1 (by
            rw [← Option.not_isSome, show d'.hs true = d'.hostExceptionSet from rfl, ← point h2.hostExceptionSet,
              show c.hostExceptionSet = none from hs]; rfl)
      rw [find_empty hl hs'] at hf
      cases hf
      exact ⟨by simp, by simp⟩
  have texts : ∀ {s : Bool} {x : Option Filter}, (∀ f, x = some f → f.data ≠ none ∧ d'.FindMeets s url f) →
      ∃ t o, foundTexts x = .ok (t, o) ∧ ShownAs fs x t := by
    intro s x hx
    cases x with
    | none => exact ⟨_, _, rfl, by simp [ShownAs]⟩
    | some f => exact reloaded_texts hist hs h2 h3 h4 (hx f rfl).2 (hx f rfl).1
  obtain ⟨t, o, e, n⟩ := texts shown.1
  obtain ⟨t', o', e', n'⟩ := texts shown.2
  refine ⟨⟨found.block, t, o, t', o'⟩, ?_, rfl, n, n'⟩
  unfold Client.nodeFind
  simp only [pageArgument, hf, Res.bind_ok, e, e', Res.pure_eq]

/-! ### examples -/

/-- The first theorems are not empty: a list with a rule, an exception and a rule with a host, and
the original rules kept. -/
example : (do
    let c ← (Client.fresh toyEnv).parse bs%"adbanner$script\n@@||a.com/ad\n||ads.com^" true
    let r1 ← c.nodeFind bs%"http://b.com/adbanner" FOScript (some bs%"b.com")
    let r2 ← c.nodeFind bs%"http://a.com/adbanner" FOScript (some bs%"b.com")
    let r3 ← c.nodeFind bs%"http://b.com/" FOScript (some bs%"b.com")
    pure [r1, r2, r3]) = .ok [
      ⟨true, some bs%"adbanner", some bs%"adbanner$script", none, none⟩,
      ⟨false, some bs%"adbanner", some bs%"adbanner$script", some bs%"a.com/ad", some bs%"@@||a.com/ad"⟩,
      ⟨false, none, none, none, none⟩] := by decide +kernel

/-- A host rule. -/
theorem C61_host_rule_found_counterexample : ((Client.fresh toyEnv).parse bs%"||ads.com^" false >>= fun c =>
    c.nodeFind bs%"http://ads.com/x.js" FOScript (some bs%"b.com")) = .ub .oobRead := by decide +kernel

private def hostRuleList : Bytes := bs%"||ads.com^"

private def hostRuleRead : Filter :=
  { filterType := FTHostAnchored ||| FTHostOnly, data := some (cstr bs%"ads.com^"), host := some bs%"ads.com" }

/-- what is to be known about the client which has loaded this rule -/
private def hostRuleCheck : Bool :=
  match (Client.fresh toyEnv).parse hostRuleList false with
  | .ub _ => false
  | .ok c => decide ((c.bytes false false).length < 100000 ∧ c.numHostAnchoredFilters = 1 ∧
      c.numHostAnchoredExceptionFilters = 0 ∧ c.tags = [] ∧
      c.findMatchingFilters bs%"http://ads.com/x.js" FOScript (some bs%"b.com") =
        .ok ⟨true, some hostRuleRead.bare, none⟩)

/-- **C61** fails after a reload: load the rule `||ads.com^`, serialize, and read the data into
another client; ask it about a request to `ads.com`.  The rule reported is `ads.com^ads.com`. -/
theorem C61_reloaded_found_counterexample : ∃ (c d : Client toyEnv) (s : Serialized),
    (Client.fresh toyEnv).parse bs%"||ads.com^" false = .ok c ∧ c.serialize false false = .ok s ∧
    (Client.fresh toyEnv).deserialize s.buffer = .ok (some d) ∧
    ∃ r, d.nodeFind bs%"http://ads.com/x.js" FOScript (some bs%"b.com") = .ok r ∧
      r.matchingFilter = some bs%"ads.com^ads.com" := by
  have hck : hostRuleCheck = true := by decide +kernel
  unfold hostRuleCheck at hck
  cases hp : (Client.fresh toyEnv).parse hostRuleList false with
  | ub u => rw [hp] at hck; cases hck
  | ok c =>
    rw [hp] at hck
    obtain ⟨k1, k2, k3, k4, k5⟩ := of_decide_eq_true hck
    have hist : History toyEnv c ([] ++ [hostRuleRead]) := by
      refine .parse .new (by decide +kernel) hp (?_ : Reads _ _ _ _)
      rw [show lines hostRuleList = [bs%"||ads.com^"] by decide +kernel]
      exact .cons (e := .addHost) (by decide +kernel) .nil
    have hr : ∀ f ∈ [] ++ [hostRuleRead], Representable f := by
      intro f hf
      rw [List.nil_append, List.mem_singleton] at hf
      subst hf
      refine ⟨fun pat hp => ?_, fun dl h => by cases h⟩
      rw [HasText.unique hp (q := bs%"ads.com^") ⟨by decide, ⟨[], rfl⟩, .inl rfl⟩]
      decide
    have hn : c.numHostAnchoredFilters < 2 ^ 31 ∧ c.numHostAnchoredExceptionFilters < 2 ^ 31 := by omega
    obtain ⟨s, e, hd⟩ := C61_reloaded_counterexample (ic := false) (ih := false) hist (fun f hf => .inr (hr f hf)) hn
    obtain ⟨s', e', hd'⟩ := C37_round_trip_partial (ic := false) (ih := false) hist (fun f hf => .inr (hr f hf)) hn
    rw [e] at e'
    cases e'
    have hw := serialize_eq (history_written hist) false false
    have hsize : s.totalSize < 2 ^ 31 := by
      rw [e] at hw
      cases hw
      show (c.bytes false false).length < 2 ^ 31
      omega
    obtain ⟨d, h1, h2⟩ := hd hsize (Client.fresh toyEnv) []
    obtain ⟨d', h1', ht, h2'⟩ := hd' hsize (Client.fresh toyEnv) []
    rw [h1] at h1'
    cases h1'
    rw [List.append_nil] at h1
    refine ⟨c, d, s, hp, e, h1, ?_⟩
    obtain ⟨o, ho, hsame⟩ := (h2' (by rw [k4]; exact fun t => Iff.rfl) bs%"http://ads.com/x.js" FOScript (some bs%"b.com")
      (by decide)).2 _ k5
    obtain ⟨r, hr, _, hshown, _⟩ := h2 _ _ _ _ ho
    refine ⟨r, hr, ?_⟩
    have hf := hsame.filter
    cases hx : o.filter with
    | none => rw [hx] at hf; cases hf
    | some f =>
      rw [hx] at hf
      cases hf with
      | some hf =>
        obtain ⟨g, hg, _, pat, hpat, ht⟩ := hshown.2 f hx
        rw [List.nil_append, List.mem_singleton] at hg
        subst hg
        rw [HasText.unique hpat (q := bs%"ads.com^") ⟨by decide, ⟨[], rfl⟩, .inl rfl⟩] at ht
        rw [ht]
        decide

/-- **C61** fails where the page is left out: Node asks about the page `undefined`. -/
theorem C61_page_undefined_counterexample {E : Env} (c : Client E) (url : Bytes) (option : Mask) :
    (Prod.fst <$> c.nodeMatches url option none) = (fun o => o.block) <$> c.query url option (some bs%"undefined") ∧
    c.nodeFind url option none = c.nodeFind url option (some bs%"undefined") := by
  refine ⟨?_, rfl⟩
  unfold Client.nodeMatches Client.matches
  rw [show pageArgument none = bs%"undefined" from rfl]
  cases c.query url option (some bs%"undefined") <;> rfl

/-- Hence a request whose page is not known is judged differently: the client itself judges it as if
it might come from any page. -/
theorem C61_no_page_counterexample : ((Client.fresh toyEnv).parse bs%"adbanner$domain=a.com" false >>= fun c => do
    let r1 ← c.query bs%"http://b.com/adbanner" 0 none
    let r2 ← c.nodeMatches bs%"http://b.com/adbanner" 0 none
    let r3 ← c.findMatchingFilters bs%"http://b.com/adbanner" 0 none
    let r4 ← c.nodeFind bs%"http://b.com/adbanner" 0 none
    pure (r1.block, r2.1, r3.block, r4.isMatch)) = .ok (true, false, true, false) := by decide +kernel

end AdBlock
