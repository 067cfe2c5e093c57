import Verif.SpecFind
import Verif.Props.NodeFind
import Verif.Props.EndToEnd
/-
C61 from the text of the rules: what `findMatchingFilters` tells a program in JavaScript.
-/
namespace AdBlock
open Spec

/-- whether the text of the rules is kept is the same for all of them -/
theorem kept_lines (bad : List Bytes) {ls : List Bytes} {rs : List RuleText} (h : ListOf ls rs) (h0 : ∀ l ∈ ls, 0 ∉ l)
    (hw : ∀ r ∈ rs, r.WellFormed) (pr : Bool) {fs : List Filter} (hr : Reads bad pr ls fs) :
    ∀ f ∈ fs, (∃ r ∈ rs, f = r.filter pr) ∨ (∀ s, ¬ Kind s f) ∨ Inert f := by
  have tail : ∀ {l : Bytes} {ls : List Bytes} {fs : List Filter} {f : Filter} {e : Effect} {rs : List RuleText},
      parseFilter bad l 0 pr true = .ok (f, e) → Reads bad pr (l :: ls) fs →
      ((∃ r ∈ rs, f = r.filter pr) ∨ (∀ s, ¬ Kind s f) ∨ Inert f) →
      (∀ gs, Reads bad pr ls gs → ∀ g ∈ gs, (∃ r ∈ rs, g = r.filter pr) ∨ (∀ s, ¬ Kind s g) ∨ Inert g) →
      ∀ g ∈ fs, (∃ r ∈ rs, g = r.filter pr) ∨ (∀ s, ¬ Kind s g) ∨ Inert g := by
    intro l ls fs f e rs hp hr hf ih
    cases hr with
    | cons hp' hr =>
      rw [hp] at hp'
      cases hp'
      intro g hg
      rcases List.mem_cons.1 hg with rfl | hg
      · exact hf
      · exact ih _ hr g hg
  induction h generalizing fs with
  | nil => cases hr; simp
  | @idle l ls rs hi _ ih =>
    have ih := fun gs hr => ih (fun l hl => h0 l (by simp [hl])) hw (fs := gs) hr
    rcases hi with ⟨hb, hb'⟩ | hc
    · exact tail (C18_blank_line bad l 0 pr true hb hb').1 hr (.inr (.inl fun s => by cases s <;> decide)) ih
    · exact tail (C18_comment_line bad l 0 pr true hc).1 hr (.inr (.inl fun s => by cases s <;> decide)) ih
  | @page l ls rs hp _ ih =>
    have ih := fun gs hr => ih (fun l hl => h0 l (by simp [hl])) hw (fs := gs) hr
    obtain ⟨f, e, fp, hf, ht, -⟩ := parse_page hp bad pr true
    refine tail hf hr (.inr (.inl fun s => ?_)) ih
    unfold Kind
    rcases ht with h | h | h <;> rw [h] <;> cases s <;> decide
  | @regex l ls rs hp _ ih =>
    have ih := fun gs hr => ih (fun l hl => h0 l (by simp [hl])) hw (fs := gs) hr
    obtain ⟨f, body, hf, e1, e2, e3, e4, e5⟩ := parse_regex hp bad pr true
    have hb : 0 ∉ body := fun hb => h0 l (by simp) (by rw [e5]; simp [hb])
    refine tail hf hr (.inr (.inr ⟨by rw [e1]; decide, fun url ctx dom bloom => ?_⟩)) ih
    rcases matches_regex f e1 hb e3 url ctx dom bloom with h | h
    · exact h
    · exact absurd e4 h
  | @other l ls rs hc hl _ ih =>
    have ih := fun gs hr => ih (fun l hl => h0 l (by simp [hl])) hw (fs := gs) hr
    obtain ⟨f, e, hf, -, -, hi⟩ := parse_ruleless hc hl bad pr true
    exact tail hf hr (.inr (hi.imp_right (·.1))) ih
  | @rule ls rs r _ ih =>
    have ih := fun gs hr => ih (fun l hl => h0 l (by simp [hl])) (fun r hr => hw r (by simp [hr])) (fs := gs) hr
    obtain ⟨fp, _, hp⟩ := C22_rule_text bad (hw r (by simp)) (t := 0) (.inl rfl) pr true
    refine tail hp hr (.inl ⟨r, by simp, rfl⟩) fun gs hr g hg => ?_
    rcases ih gs hr g hg with ⟨r', hr', e⟩ | h
    · exact .inl ⟨r', by simp [hr'], e⟩
    · exact .inr h

/-- **C61** from the text of the rules, with the restrictions of C59 and for requests to which no rule consisting of
a host applies: load a list with the rules `rs` into a new client and enable some tags.  Then `findMatchingFilters`
tells whether a request is to be blocked, and shows a rule and an exception that apply to it. -/
theorem C61_text_partial (E : Env) (rs : List RuleText) (hs : SoundList E.bad rs) (input : Bytes) (h0 : 0 ∉ input)
    (hl : ListOf (lines input) rs) (keep : Bool) :
    ∃ c, (Client.fresh E).parse input keep = .ok c ∧
      ∀ (tags : List Bytes) (q : Request) (page : Bytes), q.Web → Clear E.bad rs q → q.domain = some page →
        (∀ r ∈ rs, r.HostOnly → ¬ r.AppliesTo tags q) →
        ∃ d, (c.addTags tags).nodeFind q.url q.context (some page) = .ok d ∧ Tells keep { rules := rs, tags := tags } q d := by
  obtain ⟨c, -, h1, -, -⟩ := load_listOf (History.new (E := E)) h0 hl hs keep
  have hz : ∀ l ∈ lines input, 0 ∉ l := fun l hl h => h0 (mem_lines hl 0 h).1
  obtain ⟨gs, hreads, h3⟩ := loadedAs_lines E.bad hl hz hs.wellFormed keep
  have h2 : History E c gs := by simpa using History.parse (History.new (E := E)) h0 h1 hreads
  have hkept := kept_lines E.bad hl hz hs.wellFormed keep hreads
  refine ⟨c, h1, fun tags q page hq hclear hd hno => ?_⟩
  have hstep : InStep (c.addTags tags) { rules := rs, tags := tags } gs := by
    refine ⟨addTags_history h2 tags, h3, hs, addTags_nodup (by rw [parse_tags h1]; simp [Client.fresh]) tags, fun t => ?_⟩
    rw [mem_addTags, parse_tags h1]
    simp [Client.fresh]
  obtain ⟨found, hf, hv⟩ := inStep_find hstep hq hclear
  rw [hd] at hf
  obtain ⟨o1, o2⟩ := found_from hstep.hist hf
  have texts : ∀ (s : Bool) (x : Option Filter), (∀ f, x = some f →
      (f ∈ gs ∧ Kind s f ∧ has f.filterType FTHostOnly = false ∨ ∃ g ∈ gs, HostRule s g ∧ f = g.bare) ∧
        Acts (c.addTags tags).tags q.url (resolveContext q.url q.context (some page)) (some page) f) →
      (∀ f, x = some f → ({ rules := rs, tags := tags } : Book).Reported s q f) →
      ∃ t o, foundTexts x = .ok (t, o) ∧ (x ≠ none → ShowsRule keep { rules := rs, tags := tags } s q t o) ∧ (x = none → t = none ∧ o = none) := by
    intro s x hx hr
    cases x with
    | none => exact ⟨none, none, rfl, by simp, by simp⟩
    | some f =>
      obtain ⟨hfrom, ha⟩ := hx f rfl
      obtain ⟨r, m1, m2, m3, pr, m4⟩ := hr f rfl
      have hnot : ¬ r.HostOnly := fun h => hno r m1 h m3
      have hkind : f.filterType = r.kind := by
        rcases m4 with rfl | ⟨pat, -, rfl⟩ <;> rfl
      have hf0 : has f.filterType FTHostOnly = false := by
        rw [hkind, (kind_bits r).2.1]; simpa using hnot
      rcases hfrom with ⟨hm, hk, -⟩ | ⟨g, hg, hg', rfl⟩
      · rcases hkept f hm with ⟨r', k1, rfl⟩ | h | h
        · refine ⟨_, _, foundTexts_text (filter_hasText (hs.wellFormed r' k1) keep), fun _ => ?_, by simp⟩
          refine ⟨r', k1, (kind_filter r' keep s).1 hk, ?_, rfl, rfl⟩
          rw [← hd, acts_iff (hs.wellFormed r' k1) keep hq (hclear.inBounds r' k1)] at ha
          exact (appliesTo_tags hstep.tags q).1 ha
        · exact absurd hk (h s)
        · have := ha.1
          rw [h.2] at this
          cases this
      · have : has g.bare.filterType FTHostOnly = true := by simpa using hg'.2.1
        rw [this] at hf0
        cases hf0
  obtain ⟨t, o, e, n1, n2⟩ := texts false _ o1 hv.isRule
  obtain ⟨t', o', e', n1', n2'⟩ := texts true _ o2 hv.isException
  refine ⟨⟨found.block, t, o, t', o'⟩, ?_, hv.blocked, fun h => n1 (hv.matched.2 h), fun h => ?_, fun h h' => n1' (hv.excepted.2 ⟨h, h'⟩), fun h => ?_⟩
  · unfold Client.nodeFind
    simp only [pageArgument, hf, Res.bind_ok, e, e', Res.pure_eq]
  · exact n2 (Classical.byContradiction fun hn => h (hv.matched.1 hn))
  · exact n2' (Classical.byContradiction fun hn => h (hv.excepted.1 hn))

/-! ### The theorem is not empty -/

/-- an image of another site, with a name as in the second rule of the example -/
def exImage : Request :=
  { host := bs%"cdn.example.net", rest := bs%"/a&ad_box_1.gif?x", type := some (bs%"image", FOImage), domain := some bs%"news.com" }

theorem exImage_web : exImage.Web := by
  constructor
  · decide +kernel
  · decide +kernel
  · exact .inr ⟨_, _, rfl, by decide⟩
  · decide +kernel
  · intro t ht; cases ht; decide +kernel

theorem exImage_no_host : ∀ r ∈ exRules, r.HostOnly → ¬ r.AppliesTo [] exImage := by
  intro r hr ho ha
  rw [← acts_iff ((exSound (bad := [])).wellFormed r hr) true exImage_web ((exClear _).inBounds r hr)] at ha
  have key : ∀ r ∈ exRules, r.HostOnly → (r.filter true).matches exImage.url
      (resolveContext exImage.url exImage.context exImage.domain) exImage.domain none = .ok false := by decide +kernel
  have e := ha.1
  rw [key r hr ho] at e
  cases e

theorem exImage_rule : ({ rules := exRules } : Book).SomeRule false exImage ∧ ¬ ({ rules := exRules } : Book).SomeRule true exImage := by
  constructor
  · refine ⟨exRules[1], by simp [exRules], rfl, ?_⟩
    have hr : exRules[1] ∈ exRules := by simp [exRules]
    exact (acts_iff ((exSound (bad := [])).wellFormed _ hr) true exImage_web ((exClear _).inBounds _ hr) []).1
      ⟨by decide +kernel, .inl (by decide +kernel)⟩
  · rintro ⟨r, hr, he, ha⟩
    rw [← acts_iff ((exSound (bad := [])).wellFormed r hr) true exImage_web ((exClear _).inBounds r hr)] at ha
    have key : ∀ r ∈ exRules, r.exception = true → (r.filter true).matches exImage.url
        (resolveContext exImage.url exImage.context exImage.domain) exImage.domain none = .ok false := by decide +kernel
    have e := ha.1
    rw [key r hr he] at e
    cases e

/-- the rule that is shown -/
example (E : Env) (hbad : E.bad = [bs%"tracke"]) : ∃ c d, (Client.fresh E).parse exText true = .ok c ∧
    c.nodeFind exImage.url FOImage (some bs%"news.com") = .ok d ∧ d.isMatch = true ∧ d.matchingExceptionFilter = none ∧
    ∃ r ∈ exRules, d.matchingFilter = some r.text ∧ d.matchingOrigRule = some r.body := by
  obtain ⟨c, h1, h2⟩ := C61_text_partial E exRules exSound exText (by decide +kernel) exList true
  obtain ⟨d, h3, h4⟩ := h2 [] exImage bs%"news.com" exImage_web (hbad ▸ exClear _) rfl exImage_no_host
  obtain ⟨r, hr, -, -, e1, e2⟩ := h4.rule exImage_rule.1
  exact ⟨c, d, h1, h3, h4.isMatch.2 exImage_rule, (h4.noException fun h => exImage_rule.2 h.2).1, r, hr, e1, e2⟩

end AdBlock
