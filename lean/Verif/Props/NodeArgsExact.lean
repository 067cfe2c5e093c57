import Verif.Props.NodeProgram
/-
C74 exactly: what a program in JavaScript is told, for all lists that can be loaded, with the rules that count.
-/
namespace AdBlock
open Spec

/-- What is kept in mind about a client that has loaded one list. -/
def oneList (list : Chars) (keep : Bool) (rs : List TextRule) (tags : List Chars) : ClientBook :=
  { lists := [{ text := list, keep := keep, rules := rs }], tags := tags }

theorem addTags_same {E : Env} (c : Client E) (ts : List Bytes) : (c.addTags ts).startBuild = c.startBuild ∧
    (c.addTags ts).numHostAnchoredFilters = c.numHostAnchoredFilters ∧
    (c.addTags ts).numHostAnchoredExceptionFilters = c.numHostAnchoredExceptionFilters := by
  induction ts generalizing c with
  | nil => exact ⟨rfl, rfl, rfl⟩
  | cons t ts ih =>
    obtain ⟨e1, e2, e3⟩ := ih (c.addTag t)
    have e : (c.addTag t).startBuild = c.startBuild ∧ (c.addTag t).numHostAnchoredFilters = c.numHostAnchoredFilters ∧
        (c.addTag t).numHostAnchoredExceptionFilters = c.numHostAnchoredExceptionFilters := by
      unfold Client.addTag; split <;> exact ⟨rfl, rfl, rfl⟩
    exact ⟨e1.trans e.1, e2.trans e.2.1, e3.trans e.2.2⟩

/-- **C74** exactly, for strings without NUL: a program in JavaScript loads a list into a new client, enables tags and asks about requests that can be
compared with the rules.  What stands in a rule and in an address is compared character by character.  `matches` goes by the rules that count;
`findMatchingFilters` shows a rule and an exception that count and apply, as strings, unless it comes upon a rule that consists of a host, and
exactly then it reads memory beyond the text of this rule. -/
theorem C74_exact (E : Env) (hE : FixedBlooms E) (rs : List TextRule) (hs : SoundList E.bad (rs.map TextRule.rule)) (list : Chars)
    (h0 : '\x00' ∉ list) (hl : ListOf ((textLines list).map utf8) (rs.map TextRule.rule)) (keep : Bool) :
    ∃ c, (Client.fresh E).jsParse (.string list) keep = .ok c ∧
      ∀ (tags : List Chars), (∀ t ∈ tags, '\x00' ∉ t) → ∃ c', c.jsAddTags tags = .ok c' ∧
        ∀ q : TextRequest, q.request.Web → Spec.Comparable (rs.map TextRule.rule) q.request → '\x00' ∉ q.url → '\x00' ∉ q.domain →
          (E.fp.rolls (utf8 q.url) → ∃ b c'', c'.jsMatches (.string q.url) q.request.context (.string q.domain) = .ok (b, c'') ∧
            (b = true ↔ (oneList list keep rs tags).CountedText E.bad false q ∧ ¬ (oneList list keep rs tags).CountedText E.bad true q)) ∧
          (¬ (oneList list keep rs tags).FindsHost E.bad q → ∃ d, c'.jsFind (.string q.url) q.request.context (.string q.domain) = .ok d ∧
            (oneList list keep rs tags).TellsAbout q d) ∧
          ((oneList list keep rs tags).FindsHost E.bad q → c'.jsFind (.string q.url) q.request.context (.string q.domain) = .ub .oobRead) := by
  obtain ⟨c, h1, h2⟩ := tracks_load hE (tracks_new E) rfl (l := { text := list, keep := keep, rules := rs }) h0 hl (by simpa [ClientBook.rules] using hs)
  have hp : (Client.fresh E).jsParse (.string list) keep = .ok c := by
    simp only [Client.jsCall] at h1
    obtain ⟨d, hd, e⟩ := Res.bind_eq_ok.1 h1
    cases e
    exact hd
  refine ⟨c, hp, fun tags ht => ⟨_, jsAddTags_eq c ht, fun q hq hsafe hu hd => ?_⟩⟩
  have tr : Tracks (c.addTags (tags.map utf8)) (oneList list keep rs tags) := by
    cases h2 with
    | data _ _ _ _ hd' => cases hd'
    | @own fs h _ =>
      have et : c.tags = [] := by
        refine List.eq_nil_iff_forall_not_mem.2 fun t ht => ?_
        have := (h.order.tags t).1 ht
        simp [listBook] at this
      have e := addTags_same c (tags.map utf8)
      refine .own (h.other (addTags_history h.order.hist _) e.1 e.2.1 e.2.2 (addTags_nodup h.order.nodup _) fun t => ?_) rfl
      rw [mem_addTags, et]
      simp [oneList]
  have hsafe' : Spec.Comparable ((oneList list keep rs tags).rules.map TextRule.rule) q.request := by
    simpa [oneList, ClientBook.rules] using hsafe
  refine ⟨fun hroll => ?_, fun hno => tracks_find tr hq hsafe' hu hd hno, fun hyes => tracks_find_host tr rfl hq hsafe' hu hd hyes⟩
  obtain ⟨x, d', e1, e2, -⟩ := tracks_matches tr hq hsafe' hu hd hroll
  simp only [Client.jsCall] at e1
  obtain ⟨⟨b, c''⟩, e3, e4⟩ := Res.bind_eq_ok.1 e1
  cases e4
  exact ⟨_, _, e3, e2⟩

/-- With the rule `||a.com^`, `matches` answers and `findMatchingFilters` reads beyond the text. -/
example (E : Env) (hE : FixedBlooms E) (hroll : ∀ url, E.fp.rolls url) : ∃ c c', (Client.fresh E).jsParse (.string cs%"||a.com^") false = .ok c ∧
    c.jsMatches (.string cs%"http://a.com/größe.png") FOScript (.string cs%"b.com") = .ok (true, c') ∧
    c.jsFind (.string cs%"http://a.com/größe.png") FOScript (.string cs%"b.com") = .ub .oobRead := by
  have web : (exPlace cs%"größe.png").request.Web := exPlace_web (by decide)
  have hp : ∀ r ∈ ([{ anchor := .host, text := cs%"a.com^" }] : List TextRule).map TextRule.rule, plainRule r = true := by decide +kernel
  obtain ⟨c, h1, h2⟩ := C74_exact E hE [{ anchor := .host, text := cs%"a.com^" }] (plainRules_sound hp) cs%"||a.com^" (by decide)
    (.rule ({ anchor := .host, text := cs%"a.com^" } : TextRule).rule .nil) false
  obtain ⟨c', h3, h4⟩ := h2 [] (by simp)
  cases h3
  have ha : ({ anchor := .host, text := cs%"a.com^" } : TextRule).rule.AppliesTo [] (exPlace cs%"größe.png").request :=
    (applies_compared (v := true) (hp _ (by simp)) web (by decide +kernel) (by decide +kernel) []).2 rfl
  have hc : HostCounted ([{ anchor := .host, text := cs%"a.com^" }].map TextRule.rule) (exPlace cs%"größe.png").request
    ({ anchor := .host, text := cs%"a.com^" } : TextRule).rule := fun _ => ⟨⟨[], [], rfl, by simp⟩, .inr (by decide +kernel)⟩
  obtain ⟨h5, -, h6⟩ := h4 (exPlace cs%"größe.png") web ((plainRules_askable (E := toyEnv) (fun _ => trivial) hp web).safe) (by decide) (by decide)
  obtain ⟨b, c'', h7, h8⟩ := h5 (hroll _)
  have hb : b = true := h8.2 ⟨⟨_, List.mem_singleton.2 rfl, rfl, ⟨hc, fun dl h => (by cases h.1), fun dl h => (by cases h.1)⟩,
    (applies_utf8 _ [] _).1 ha⟩, by
      rintro ⟨r, hr, he, -⟩
      cases List.mem_singleton.1 hr
      cases he⟩
  subst hb
  refine ⟨_, c'', h1, h7, h6 (.inl ⟨⟨_, List.mem_singleton.2 rfl, rfl, ⟨by decide +kernel, hc⟩, ha⟩, ?_⟩)⟩
  rintro ⟨r, hr, -, hn, -⟩
  exact hn (by cases List.mem_singleton.1 hr; decide +kernel)

end AdBlock
