import Verif.Props.NodeText
import Verif.Props.FindOrder
import Verif.Props.Covered
/-
C61 from the text of the rules, exactly: what `findMatchingFilters` tells a program in JavaScript, and when it reads memory
beyond the text of a rule.
-/
namespace AdBlock
open Spec

/-- **C61** from the text of the rules, exactly: load a list with the rules `rs` into a new client and enable some tags.  Then
for every web request with a page that can be compared with the rules, `findMatchingFilters` tells whether it is to be blocked
and shows a rule and an exception that count and apply, unless it comes upon a rule that consists of a host; and exactly then
it reads memory beyond the text of this rule. -/
theorem C61_text_exact (E : Env) (rs : List RuleText) (hs : SoundList E.bad rs) (input : Bytes) (h0 : 0 ∉ input)
    (hl : ListOf (lines input) rs) (keep : Bool) :
    ∃ c, (Client.fresh E).parse input keep = .ok c ∧
      ∀ (tags : List Bytes) (q : Request) (page : Bytes), q.Web → Spec.Comparable rs q → q.domain = some page →
        (¬ FindsHost E.bad { rules := rs, tags := tags } q → ∃ d, (c.addTags tags).nodeFind q.url q.context (some page) = .ok d ∧
          TellsExactly keep { rules := rs, tags := tags } q d) ∧
        (FindsHost E.bad { rules := rs, tags := tags } q → (c.addTags tags).nodeFind q.url q.context (some page) = .ub .oobRead) := by
  obtain ⟨c, -, h1, -, -⟩ := load_inOrder (History.new (E := E)) h0 hl hs keep
  have hz : ∀ l ∈ lines input, 0 ∉ l := fun l hl h => h0 (mem_lines hl 0 h).1
  obtain ⟨gs, hreads, h3⟩ := loadedIn_lines E.bad hl hz hs.wellFormed keep
  have h2 : History E c gs := by simpa using History.parse (History.new (E := E)) h0 h1 hreads
  have hkept := kept_lines E.bad hl hz hs.wellFormed keep hreads
  refine ⟨c, h1, fun tags q page hq hsafe hd => ?_⟩
  have hin : InOrder (c.addTags tags) { rules := rs, tags := tags } gs := by
    refine ⟨addTags_history h2 tags, h3, hs, addTags_nodup (by rw [parse_tags h1]; simp [Client.fresh]) tags, fun t => ?_⟩
    rw [mem_addTags, parse_tags h1]
    simp [Client.fresh]
  obtain ⟨found, hf, hv⟩ := inOrder_find hin hq hsafe
  obtain ⟨o1, o2⟩ := found_from hin.hist hf
  have both := finds_host hin hq hsafe hf
  rw [hd] at hf
  refine ⟨fun hno => ?_, fun hyes => ?_⟩
  case refine_2 =>
    obtain ⟨f, h, h'⟩ := both.1 hyes
    exact C61_host_rule_counterexample hin.hist hf h h'
  rw [both] at hno
  have texts : ∀ (s : Bool) (x : Option Filter), (∀ f, x = some f →
      (f ∈ gs ∧ Kind s f ∧ has f.filterType FTHostOnly = false ∨ ∃ g ∈ gs, HostRule s g ∧ f = g.bare) ∧
        Acts (c.addTags tags).tags q.url (resolveContext q.url q.context q.domain) q.domain f) →
      (∀ f, x = some f → has f.filterType FTHostOnly = false) →
      ∃ t o, foundTexts x = .ok (t, o) ∧ (x ≠ none → ShowsCounted keep { rules := rs, tags := tags } s q t o) ∧ (x = none → t = none ∧ o = none) := by
    intro s x hx hr
    cases x with
    | none => exact ⟨none, none, rfl, by simp, by simp⟩
    | some f =>
      obtain ⟨hfrom, ha⟩ := hx f rfl
      have hf0 := hr f rfl
      rcases hfrom with ⟨hm, hk, -⟩ | ⟨g, hg, hg', rfl⟩
      · rcases hkept f hm with ⟨r', k1, rfl⟩ | h | h
        · refine ⟨_, _, foundTexts_text (filter_hasText (hs.wellFormed r' k1) keep), fun _ => ?_, by simp⟩
          refine ⟨r', k1, (kind_filter r' keep s).1 hk, fun h => ?_, ?_, rfl, rfl⟩
          · rw [(hostOnly_bit r' keep).2 h] at hf0
            cases hf0
          · rw [acts_iff (hs.wellFormed r' k1) keep hq (hsafe.inBounds r' k1)] at ha
            exact (appliesTo_tags hin.tags q).1 ha
        · exact absurd hk (h s)
        · have := ha.1
          rw [h.2] at this
          cases this
      · have : has g.bare.filterType FTHostOnly = true := by simpa using hg'.2.1
        rw [this] at hf0
        cases hf0
  obtain ⟨t, o, e, n1, n2⟩ := texts false _ o1 fun f h => Bool.eq_false_iff.2 fun h' => hno ⟨f, .inl h, h'⟩
  obtain ⟨t', o', e', n1', n2'⟩ := texts true _ o2 fun f h => Bool.eq_false_iff.2 fun h' => hno ⟨f, .inr h, h'⟩
  refine ⟨⟨found.block, t, o, t', o'⟩, ?_, hv.blocked, fun h => n1 (hv.matched.2 h), fun h => ?_, fun h h' => n1' (hv.excepted.2 ⟨h, h'⟩), fun h => ?_⟩
  · unfold Client.nodeFind
    simp only [pageArgument, hf, Res.bind_ok, e, e', Res.pure_eq]
  · exact n2 (Classical.byContradiction fun hn => h (hv.matched.1 hn))
  · exact n2' (Classical.byContradiction fun hn => h (hv.excepted.1 hn))

/-! #### an example -/

theorem plainRules_safe {rs : List RuleText} (h : ∀ r ∈ rs, plainRule r = true) {q : Request} (hq : q.Web) : Spec.Comparable rs q :=
  (plainRules_askable (E := toyEnv) (fun _ => trivial) h hq).safe

/-- an image from `ads.com`, on a page of another site -/
def exShown : Request := { exAds with rest := bs%"/-ad", domain := some bs%"news.com" }

theorem exShown_web : exShown.Web :=
  ⟨exAds_web.scheme, exAds_web.host, .inr ⟨ch%'/', bs%"-ad", rfl, by decide +kernel⟩, by decide +kernel, by
    intro t h; cases h; decide +kernel⟩

/-- the rules `||ads.com^` and `-ad` -/
def exHostAndOther : List RuleText := [exAll, { text := bs%"-ad" }]

/-- Both rules apply: it is the second that is shown.  The first alone must not be asked for. -/
example (E : Env) : (∃ c d, (Client.fresh E).parse bs%"||ads.com^\n-ad" true = .ok c ∧
      c.nodeFind exShown.url exShown.context (some bs%"news.com") = .ok d ∧ d.isMatch = true ∧ ∃ r ∈ exHostAndOther, d.matchingFilter = some r.text) ∧
    ∃ c, (Client.fresh E).parse bs%"||ads.com^" true = .ok c ∧ c.nodeFind exShown.url exShown.context (some bs%"news.com") = .ub .oobRead := by
  have hp : ∀ r ∈ exHostAndOther, plainRule r = true := by decide +kernel
  have hp1 : ∀ r ∈ [exAll], plainRule r = true := by decide +kernel
  have ha : ∀ r ∈ exHostAndOther, r.AppliesTo [] exShown := fun r hr =>
    (applies_compared (v := true) (hp r hr) exShown_web
      ((by decide +kernel : ∀ r ∈ exHostAndOther, (r.filter false).matches exShown.url (resolveContext exShown.url exShown.context exShown.domain)
        exShown.domain none = .ok true) r hr) ((by decide +kernel : ∀ r ∈ exHostAndOther, (r.filter false).tag = []) r hr) []).2 rfl
  have he : ∀ r ∈ exHostAndOther, r.exception = false := by decide +kernel
  constructor
  · have hl := lists_rules (E := E) (plainRules_sound hp) (by simp [exHostAndOther])
    obtain ⟨c, h1, h2⟩ := C61_text_exact E exHostAndOther hl.sound _ hl.noNul hl.rules true
    have hc : ({ rules := exHostAndOther } : Book).CountedRule (fun r => ¬ r.HostOnly) false exShown :=
      ⟨exHostAndOther[1], by simp [exHostAndOther], rfl, by decide +kernel, ha _ (by simp [exHostAndOther])⟩
    have hx : ∀ counts, ¬ ({ rules := exHostAndOther } : Book).CountedRule counts true exShown := by
      rintro counts ⟨r, hr, hr', -⟩
      rw [he r hr] at hr'
      cases hr'
    obtain ⟨d, h3, h4⟩ := (h2 [] exShown bs%"news.com" exShown_web (plainRules_safe hp exShown_web) rfl).1 (by
      rintro (h | h)
      · exact h.2 hc
      · exact hx _ h.2.1)
    have hc' : ({ rules := exHostAndOther } : Book).CountedRule (HostCounted exHostAndOther exShown) false exShown := by
      obtain ⟨r, m1, m2, m3, m4⟩ := hc
      exact ⟨r, m1, m2, fun h => absurd h m3, m4⟩
    obtain ⟨r, hr, -, -, -, ht, -⟩ := h4.rule hc'
    exact ⟨c, d, h1, h3, h4.isMatch.2 ⟨hc', hx _⟩, r, hr, ht⟩
  · have hl := lists_rules (E := E) (plainRules_sound hp1) (by simp)
    obtain ⟨c, h1, h2⟩ := C61_text_exact E [exAll] hl.sound _ hl.noNul hl.rules true
    refine ⟨c, h1, (h2 [] exShown bs%"news.com" exShown_web (plainRules_safe hp1 exShown_web) rfl).2 (.inl ⟨⟨exAll, by simp, rfl, ⟨by decide +kernel,
      fun _ => ⟨⟨[], [], rfl, by simp⟩, .inr (by decide +kernel)⟩⟩, ha _ (by simp [exHostAndOther])⟩, ?_⟩)⟩
    rintro ⟨r, hr, -, hn, -⟩
    exact hn (by rw [List.mem_singleton.1 hr]; decide +kernel)

end AdBlock
