import Verif.SpecExact
import Verif.Props.EndToEnd
/-
From the text of a list to the verdict, exactly: C59 for every list that can be loaded and every
web request that can be compared with its rules.
-/
namespace AdBlock
open Spec

/-! ### the order of the rules -/

theorem hostRule_of_text (r : RuleText) (pr s : Bool) : HostRule s (r.filter pr) ↔ r.HostOnly ∧ r.exception = s := by
  unfold HostRule
  rw [kind_filter, hostOnly_bit]
  constructor
  · rintro ⟨h1, h2, -⟩; exact ⟨h2, h1⟩
  · rintro ⟨h1, h2⟩; exact ⟨h2, h1, by simp [RuleText.filter]⟩

theorem hostRule_host {r : RuleText} (h : r.HostOnly) (pr : Bool) : (r.filter pr).host = some r.hostPart := by
  simp [RuleText.filter, h.1]

/-- the first host rule for a host, among the rules read and among the texts -/
theorem loadedIn_find {fs : List Filter} {rs : List RuleText} (h : LoadedIn fs rs) (s : Bool) (name : Bytes) :
    (fs.find? (fun g => decide (HostRule s g ∧ g.host = some name)) = none ∧
      rs.find? (fun r => decide (r.HostOnly ∧ r.exception = s ∧ r.hostPart = name)) = none) ∨
    ∃ r pr, fs.find? (fun g => decide (HostRule s g ∧ g.host = some name)) = some (r.filter pr) ∧
      rs.find? (fun r => decide (r.HostOnly ∧ r.exception = s ∧ r.hostPart = name)) = some r := by
  induction h with
  | nil => exact .inl ⟨rfl, rfl⟩
  | @idle f fs rs hf _ ih =>
    rw [List.find?_cons_of_neg]
    · exact ih
    · rw [decide_eq_true_eq]
      rintro ⟨⟨h1, h2, -⟩, -⟩
      rcases hf with hf | ⟨hf, -⟩
      · exact hf s h1
      · rw [hf.1] at h2; cases h2
  | @rule fs rs r pr _ ih =>
    by_cases hr : r.HostOnly ∧ r.exception = s ∧ r.hostPart = name
    · right
      refine ⟨r, pr, List.find?_cons_of_pos ?_, List.find?_cons_of_pos (by simpa using hr)⟩
      rw [decide_eq_true_eq, hostRule_of_text, hostRule_host hr.1]
      exact ⟨⟨hr.1, hr.2.1⟩, by rw [hr.2.2]⟩
    · rw [List.find?_cons_of_neg, List.find?_cons_of_neg]
      · exact ih
      · simpa using hr
      · rw [decide_eq_true_eq, hostRule_of_text]
        rintro ⟨⟨h1, h2⟩, h3⟩
        rw [hostRule_host h1] at h3
        exact hr ⟨h1, h2, Option.some.inj h3⟩

theorem first_iff (rs : List RuleText) (s : Bool) (name : Bytes) (r : RuleText) :
    rs.find? (fun r => decide (r.HostOnly ∧ r.exception = s ∧ r.hostPart = name)) = some r ↔
      (r.HostOnly ∧ r.exception = s ∧ r.hostPart = name) ∧ ∃ before after, rs = before ++ r :: after ∧
        ∀ r' ∈ before, ¬ (r'.HostOnly ∧ r'.exception = s ∧ r'.hostPart = name) := by
  rw [List.find?_eq_some_iff_append]
  simp only [decide_eq_true_eq, Bool.not_eq_true', decide_eq_false_iff_not]

/-! ### which rules count -/

theorem byDomain_filter {bad : List Bytes} {rs : List RuleText} (hs : SoundList bad rs) {r : RuleText} (hr : r ∈ rs) {pr : Bool} {dl : Bytes} :
    ByDomain bad r dl ↔ (r.filter pr).domainList = some dl ∧ Unindexed bad r.exception (r.filter pr) := by
  have : (r.filter pr).domainList = r.value bs%"domain=" := opts_domainList (hs.wellFormed r hr)
  rw [this, unindexed_filter (hs.wellFormed r hr)]
  unfold ByDomain
  simp

section
variable {bad : List Bytes} {rs : List RuleText} (hs : SoundList bad rs) {fs : List Filter} (hl : LoadedIn fs rs) {q : Request} (hq : q.Web)

include hl hq

/-- a rule that is listed stands for one that counts, as far as hosts are concerned -/
theorem hostCounted_of {s : Bool} {r : RuleText} {pr : Bool} (hr : r ∈ rs) (h : Listed s fs q.url (r.filter pr))
    (hk : Kind s (r.filter pr)) : ∃ r' ∈ rs, ∃ pr', r.filter pr = r'.filter pr' ∧ r'.exception = s ∧ HostCounted rs q r' := by
  have hk := (kind_filter r pr s).1 hk
  by_cases hho : r.HostOnly
  · obtain ⟨h1, h2⟩ := h ((hostRule_of_text r pr s).2 ⟨hho, hk⟩)
    unfold FirstForHost at h1
    rw [hostRule_host hho, web_host hq] at h2
    rw [hostRule_host hho] at h1
    rcases loadedIn_find hl s r.hostPart with ⟨h3, -⟩ | ⟨r', pr', h3, h4⟩
    · rw [h1] at h3; cases h3
    · rw [h1] at h3
      obtain ⟨⟨a1, a2, a3⟩, a4⟩ := (first_iff _ _ _ _).1 h4
      refine ⟨r', List.mem_of_find?_eq_some h4, pr', Option.some.inj h3, a2, fun _ => ⟨?_, ?_⟩⟩
      · rw [a2, a3]; exact a4
      · rw [a3]; exact h2.2
  · exact ⟨r, hr, pr, rfl, hk, fun h => absurd h hho⟩

/-- a rule that counts, as far as hosts are concerned, and applies is represented by one that is listed -/
theorem listed_of {r : RuleText} (hr : r ∈ rs) (h : HostCounted rs q r) (hsite : r.HostOnly → SameSite r.hostPart q.host) :
    ∃ pr, r.filter pr ∈ fs ∧ Listed r.exception fs q.url (r.filter pr) := by
  by_cases hho : r.HostOnly
  · obtain ⟨h1, h2⟩ := h hho
    rcases loadedIn_find hl r.exception r.hostPart with ⟨-, h3⟩ | ⟨r', pr, h3, h4⟩
    · rw [(first_iff _ _ _ _).2 ⟨⟨hho, rfl, rfl⟩, h1⟩] at h3; cases h3
    · rw [(first_iff _ _ _ _).2 ⟨⟨hho, rfl, rfl⟩, h1⟩] at h4
      cases h4
      refine ⟨pr, List.mem_of_find?_eq_some h3, fun _ => ⟨?_, ?_⟩⟩
      · unfold FirstForHost
        rw [hostRule_host hho]
        exact h3
      · rw [hostRule_host hho, web_host hq]
        exact ⟨hsite hho, h2⟩
  · obtain ⟨pr, h1⟩ := hl.loadedAs.all r hr
    exact ⟨pr, h1, fun hh => absurd ((hostRule_of_text r pr _).1 hh).1 hho⟩

include hs

omit hq in
theorem counted_iff {r : RuleText} (hr : r ∈ rs) {pr : Bool} :
    Considered bad r.exception fs q.url q.domain (r.filter pr) ∧ HostCounted rs q r ↔
      Listed r.exception fs q.url (r.filter pr) ∧ Counted bad rs q r := by
  constructor
  · rintro ⟨⟨h1, h2, h3⟩, h4⟩
    refine ⟨h1, h4, ?_, ?_⟩
    · intro dl hd hn
      obtain ⟨a1, a2⟩ := (byDomain_filter hs hr (pr := pr)).1 hd
      exact h2 a2 ⟨dl, a1, hn⟩
    · intro dl hd hp r' hr' he hsup dl' hd' hp' d hdom s hs' hname
      obtain ⟨a1, a2⟩ := (byDomain_filter hs hr (pr := pr)).1 hd
      obtain ⟨pr', hm⟩ := hl.loadedAs.all r' hr'
      obtain ⟨b1, b2⟩ := (byDomain_filter hs hr' (pr := pr')).1 hd'
      rw [he] at b2
      exact h3 a2 ⟨dl, a1, hp⟩ d hdom _ hm ((supported_filter (hs.wellFormed _ hr') pr').2 hsup) b2
        ⟨dl', b1, hp'⟩ dl' b1 s hs' hname
  · rintro ⟨h1, h2, h3, h4⟩
    refine ⟨⟨h1, ?_, ?_⟩, h2⟩
    · rintro hu ⟨dl, e, hn⟩
      exact h3 dl ((byDomain_filter hs hr).2 ⟨e, hu⟩) hn
    · rintro hu ⟨dl, e, hp⟩ d hdom g hg hsup hgu ⟨dl', e', hp'⟩ dl'' e'' x hx hname
      rw [e'] at e''
      cases e''
      rcases hl.loadedAs.rule g hg with ⟨r', hr', pr', rfl⟩ | h | ⟨-, h⟩
      · have hk := (kind_filter r' pr' _).1 hgu.1
        refine h4 dl ((byDomain_filter hs hr).2 ⟨e, hu⟩) hp r' hr' hk
          ((supported_filter (hs.wellFormed _ hr') pr').1 hsup) dl'
          ((byDomain_filter hs hr' (pr := pr')).2 ⟨e', by rw [hk]; exact hgu⟩) hp' d hdom x hx hname
      · exact absurd hgu.1 (h _)
      · rw [h] at e'; cases e'

omit hq in
theorem noEmpty_of (h : NoEmptyDomain bad rs) (s : Bool) : NoEmptyExclusion bad s fs := by
  rintro g hg hu - dl e
  rcases hl.loadedAs.rule g hg with ⟨r, hr, pr, rfl⟩ | h' | ⟨-, h'⟩
  · have hk := (kind_filter r pr _).1 hu.1
    exact h r hr dl ((byDomain_filter hs hr (pr := pr)).2 ⟨e, by rw [hk]; exact hu⟩)
  · exact absurd hu.1 (h' _)
  · rw [h'] at e; cases e

end

/-! ### the book -/

/-- The client has loaded the rules of the book in order, and its tags are enabled. -/
structure InOrder {E : Env} (c : Client E) (b : Book) (fs : List Filter) : Prop where
  hist : History E c fs
  loaded : LoadedIn fs b.rules
  sound : SoundList E.bad b.rules
  nodup : c.tags.Nodup
  tags : ∀ t, t ∈ c.tags ↔ t ∈ b.tags

theorem InOrder.inStep {E : Env} {c : Client E} {b : Book} {fs : List Filter} (h : InOrder c b fs) : InStep c b fs :=
  ⟨h.hist, h.loaded.loadedAs, h.sound, h.nodup, h.tags⟩

/-- a host rule that applies is one for the host -/
theorem site_of_applies {r : RuleText} {tags : List Bytes} {q : Request} (hc : ¬ r.ReadsPast q) (ha : r.AppliesTo tags q) (h : r.HostOnly) :
    SameSite r.hostPart q.host := by
  have hfit := ha.2.2.2.2
  unfold RuleText.AddressFits at hfit
  rw [h.1, applies_noBar hc ha h] at hfit
  exact hfit.1

section
variable {E : Env} {c : Client E} {b : Book} {fs : List Filter} (h : InOrder c b fs) {q : Request} (hq : q.Web)
  (hsafe : Comparable b.rules q)
include h hq hsafe

theorem counted_of_considered {s : Bool} {f g : Filter} (hg : g ∈ fs) (hk : Kind s g) (hc : CopyOf f g)
    (hcons : Considered E.bad s fs q.url q.domain g)
    (ha : Acts c.tags q.url (resolveContext q.url q.context q.domain) q.domain g) :
    b.CountedReport (Counted E.bad b.rules q) s q f := by
  obtain ⟨r, hr, h1, h2, pr, rfl⟩ := rule_of_acts h.sound h.loaded.loadedAs h.tags hq hsafe hg hk ha
  obtain ⟨r', hr', pr', e, e1, hcount⟩ := hostCounted_of h.loaded hq hr hcons.host hk
  rw [e] at hcons hc ha
  subst e1
  refine ⟨r', hr', rfl, ((counted_iff h.sound h.loaded hr' (pr := pr')).1 ⟨hcons, hcount⟩).2, ?_, pr', hc⟩
  rw [acts_iff (h.sound.wellFormed r' hr') pr' hq (hsafe.inBounds r' hr')] at ha
  exact (appliesTo_tags h.tags q).1 ha

theorem hostCounted_of_listed {s : Bool} {f g : Filter} (hg : g ∈ fs) (hk : Kind s g) (hc : CopyOf f g)
    (hlist : Listed s fs q.url g)
    (ha : Acts c.tags q.url (resolveContext q.url q.context q.domain) q.domain g) :
    b.CountedReport (HostCounted b.rules q) s q f := by
  obtain ⟨r, hr, h1, h2, pr, rfl⟩ := rule_of_acts h.sound h.loaded.loadedAs h.tags hq hsafe hg hk ha
  obtain ⟨r', hr', pr', e, e1, hcount⟩ := hostCounted_of h.loaded hq hr hlist hk
  rw [e] at hc ha
  refine ⟨r', hr', e1, hcount, ?_, pr', hc⟩
  rw [acts_iff (h.sound.wellFormed r' hr') pr' hq (hsafe.inBounds r' hr')] at ha
  exact (appliesTo_tags h.tags q).1 ha

theorem acts_of_counted {r : RuleText} (hr : r ∈ b.rules) (ha : r.AppliesTo b.tags q) (hcount : HostCounted b.rules q r) :
    ∃ pr, r.filter pr ∈ fs ∧ Kind r.exception (r.filter pr) ∧ Listed r.exception fs q.url (r.filter pr) ∧
      (Counted E.bad b.rules q r → Considered E.bad r.exception fs q.url q.domain (r.filter pr)) ∧
      Acts c.tags q.url (resolveContext q.url q.context q.domain) q.domain (r.filter pr) := by
  obtain ⟨pr, h1, h2⟩ := listed_of h.loaded hq hr hcount (site_of_applies (hsafe.inBounds r hr) ha)
  refine ⟨pr, h1, (kind_filter r pr _).2 rfl, h2, fun hc => ((counted_iff h.sound h.loaded hr).2 ⟨h2, hc⟩).1, ?_⟩
  rw [acts_iff (h.sound.wellFormed r hr) pr hq (hsafe.inBounds r hr)]
  exact (appliesTo_tags h.tags q).2 ha

theorem inOrder_matches (hempty : q.domain = none → NoEmptyDomain E.bad b.rules) (hroll : E.fp.rolls q.url) :
    ∃ o, c.query q.url q.context q.domain = .ok o ∧
      b.ExactVerdict (Counted E.bad b.rules q) q o.block o.filter o.exception := by
  obtain ⟨w1, w2, w3⟩ := web_url hq
  have hold := history_holds h.hist
  obtain ⟨o, ho⟩ := query_safe' hold (loaded_safe h.sound h.loaded.loadedAs hq hsafe) w3
  refine ⟨o, ho, ?_⟩
  have weak : ∀ {s f}, b.CountedReport (Counted E.bad b.rules q) s q f → b.CountedRule (Counted E.bad b.rules q) s q :=
    fun ⟨r, h1, h2, h3, h4, _⟩ => ⟨r, h1, h2, h3, h4⟩
  rcases hold.ready with hr | ⟨rfl, hb, hh, hd⟩
  · have hx := query_ok hr w3 (fun id f hf => hold.index.parsed f (hold.mem.1 hf).1)
      ((C02_blockable_protocols q.url).1.2 ⟨w1, w2⟩) rfl ho
    have rep : ∀ {s f}, c.Meets s q.url q.domain f → Acts c.tags q.url (resolveContext q.url q.context q.domain) q.domain f →
        b.CountedReport (Counted E.bad b.rules q) s q f := by
      intro s f hm ha
      obtain ⟨g, hg, hc, hk, hcons, ha⟩ := decided_considered hold hr hm ha
      exact counted_of_considered h hq hsafe hg hk hc hcons ha
    have none' : ∀ {s}, c.Undecided s q.url (resolveContext q.url q.context q.domain) q.domain →
        ¬ b.CountedRule (Counted E.bad b.rules q) s q := by
      rintro s hn ⟨r, hr', rfl, hc, ha⟩
      obtain ⟨pr, a1, a2, a3, a4, a5⟩ := acts_of_counted h hq hsafe hr' ha hc.host
      exact undecided_considered hold hr w3 hroll (fun hd => noEmpty_of h.sound h.loaded (hempty hd) _) hn
        ⟨_, a1, a2, a4 hc, a5⟩
    cases hx with
    | free h1 h2 h3 h4 =>
      rw [h2, h3, h4]
      exact ⟨by simp [none' h1], by simp [none' h1], by simp [none' h1], by simp, by simp⟩
    | excepted f e h1 h2 h3 h4 h5 h6 h7 =>
      have x := rep h1 h2
      have y := rep h3 h4
      rw [h5, h6, h7]
      refine ⟨by simp [weak y], by simp [weak x], by simp [weak x, weak y], ?_, ?_⟩
      · rintro _ ⟨⟩; exact x
      · rintro _ ⟨⟩; exact y
    | blocked f h1 h2 h3 h4 h5 h6 =>
      have x := rep h1 h2
      rw [h4, h5, h6]
      refine ⟨by simp [weak x, none' h3], by simp [weak x], by simp [none' h3], ?_, by simp⟩
      rintro _ ⟨⟩; exact x
  · have hempty : ∀ id, c.lists id = [] := by
      intro id
      apply List.eq_nil_iff_forall_not_mem.2
      intro f hf
      have := (hold.mem.1 hf).1
      simp at this
    have no : ∀ s, ¬ b.CountedRule (Counted E.bad b.rules q) s q := by
      rintro s ⟨r, hr, -⟩
      obtain ⟨pr, hf⟩ := h.loaded.loadedAs.all r hr
      cases hf
    obtain ⟨o', h1, h2, h3, h4, _⟩ := query_empty hempty hh q.url q.context q.domain
    rw [ho] at h1
    cases h1
    rw [h2, h3, h4]
    exact ⟨by simp [no], by simp [no], by simp [no], by simp, by simp⟩

theorem inOrder_find :
    ∃ r, c.findMatchingFilters q.url q.context q.domain = .ok r ∧
      b.ExactVerdict (HostCounted b.rules q) q r.block r.filter r.exception := by
  obtain ⟨w1, w2, w3⟩ := web_url hq
  have hold := history_holds h.hist
  obtain ⟨r, ho⟩ := find_safe' hold (loaded_safe h.sound h.loaded.loadedAs hq hsafe)
  refine ⟨r, ho, ?_⟩
  have weak : ∀ {s f}, b.CountedReport (HostCounted b.rules q) s q f → b.CountedRule (HostCounted b.rules q) s q :=
    fun ⟨r, h1, h2, h3, h4, _⟩ => ⟨r, h1, h2, h3, h4⟩
  rcases hold.ready with hr | ⟨rfl, hb, hh, hd⟩
  · have rep : ∀ {s f}, c.FindMeets s q.url f → Acts c.tags q.url (resolveContext q.url q.context q.domain) q.domain f →
        b.CountedReport (HostCounted b.rules q) s q f := by
      intro s f hm ha
      obtain ⟨g, hg, hc, hk, hlist, ha⟩ := find_listed hold hm ha
      exact hostCounted_of_listed h hq hsafe hg hk hc hlist ha
    have none : ∀ {s}, c.FindNone s q.url (resolveContext q.url q.context q.domain) q.domain →
        ¬ b.CountedRule (HostCounted b.rules q) s q := by
      rintro s hn ⟨r, hr', rfl, hc, ha⟩
      obtain ⟨pr, a1, a2, a3, -, a5⟩ := acts_of_counted h hq hsafe hr' ha hc
      exact find_none_listed hold hr hn ⟨_, a1, a2, a3, a5⟩
    cases find_ok hr rfl ho with
    | free h1 => exact ⟨by simp [none h1], by simp [none h1], by simp [none h1], by simp, by simp⟩
    | excepted f e h1 h2 h3 h4 =>
      have x := rep h1 h2
      have y := rep h3 h4
      refine ⟨by simp [weak y], by simp [weak x], by simp [weak x, weak y], ?_, ?_⟩
      · rintro _ ⟨⟩; exact x
      · rintro _ ⟨⟩; exact y
    | blocked f h1 h2 h3 =>
      have x := rep h1 h2
      refine ⟨by simp [weak x, none h3], by simp [weak x], by simp [none h3], ?_, by simp⟩
      rintro _ ⟨⟩; exact x
  · have hempty : ∀ id, c.lists id = [] := by
      intro id
      apply List.eq_nil_iff_forall_not_mem.2
      intro f hf
      have := (hold.mem.1 hf).1
      simp at this
    rw [find_empty hempty hh] at ho
    cases ho
    have no : ∀ s, ¬ b.CountedRule (HostCounted b.rules q) s q := by
      rintro s ⟨r, hr, -⟩
      obtain ⟨pr, hf⟩ := h.loaded.loadedAs.all r hr
      cases hf
    exact ⟨by simp [no], by simp [no], by simp [no], by simp, by simp⟩

end

/-- every call is answered as expected, and leaves the client in step with the book -/
theorem inOrder_step {E : Env} {c : Client E} {b : Book} {fs : List Filter} (h : InOrder c b fs) {call : Call} (hc : b.AllowsExact E call) :
    ∃ a c' fs', step c call.op = .ok (a, c') ∧ b.ExpectsExact E.bad call a ∧ InOrder c' (b.after call) fs' := by
  have tags : ∀ {call : Call} {a c' fs'}, step c call.op = .ok (a, c') → History E c' fs' → LoadedIn fs' (b.after call).rules →
      SoundList E.bad (b.after call).rules → (∃ a' c'' fs'', step c call.op = .ok (a', c'') ∧ b.Expects call a' ∧ InStep c'' (b.after call) fs'') →
      InOrder c' (b.after call) fs' := by
    rintro call a c' fs' h1 h2 h3 h4 ⟨a', c'', fs'', h5, -, h6⟩
    rw [h1] at h5
    cases h5
    exact ⟨h2, h3, h4, h6.nodup, h6.tags⟩
  cases call with
  | load input preserve rules =>
    obtain ⟨h0, hl, hs⟩ := hc
    obtain ⟨c', gs, h1, h2, h3⟩ := load_inOrder h.hist h0 hl (soundList_subset hs (by simp +contextual)) preserve
    have e : step c (Call.load input preserve rules).op = .ok (.done, c') := by simp only [Call.op, step, h1]; rfl
    exact ⟨.done, c', fs ++ gs, e, rfl, tags e h2 (h.loaded.append h3) hs (inStep_step h.inStep ⟨h0, hl, hs⟩)⟩
  | clear => exact ⟨.done, c.clear, [], rfl, rfl, tags rfl (.clear c) .nil (soundList_nil _) (inStep_step h.inStep trivial)⟩
  | addTag t =>
    exact ⟨.done, c.addTag t, fs, rfl, rfl, tags rfl (.addTag t h.hist) h.loaded h.sound (inStep_step h.inStep trivial)⟩
  | removeTag t =>
    exact ⟨.done, c.removeTag t, fs, rfl, rfl, tags rfl (.removeTag t h.hist) h.loaded h.sound (inStep_step h.inStep trivial)⟩
  | tagExists t =>
    refine ⟨.bool (c.tagExists t), c, fs, rfl, ?_, h⟩
    show c.tagExists t = true ↔ t ∈ b.tags
    rw [← h.tags]
    simp [Client.tagExists]
  | «matches» q =>
    obtain ⟨o, h1, h2⟩ := inOrder_matches h hc.1 hc.2.1 hc.2.2.1 hc.2.2.2
    have h3 : c.matches q.url q.context q.domain = .ok (o.block, { c with stats := o.stats, badFps := o.badFps }) := by
      unfold Client.matches; rw [h1]; rfl
    exact ⟨.verdict o.block o.filter o.exception, _, fs, by simp only [Call.op, step, h1]; rfl, h2, .query h.hist h3,
      h.loaded, h.sound, h.nodup, h.tags⟩
  | find q =>
    obtain ⟨r, h1, h2⟩ := inOrder_find h hc.1 hc.2
    exact ⟨.verdict r.block r.filter r.exception, c, fs, by simp only [Call.op, step, h1]; rfl, h2, h⟩
  | enableBadFingerprintDetection =>
    exact ⟨.done, _, fs, rfl, rfl, tags rfl (.enableBadFingerprintDetection h.hist) h.loaded h.sound (inStep_step h.inStep trivial)⟩

theorem inOrder_run {E : Env} {c : Client E} {b : Book} {fs : List Filter} (h : InOrder c b fs) {calls : List Call}
    (hc : b.AllowsAllExact E calls) :
    ∃ as c', run c (calls.map Call.op) = .ok (as, c') ∧ b.ExpectsAllExact E.bad calls as := by
  induction calls generalizing c b fs with
  | nil => exact ⟨[], c, rfl, rfl⟩
  | cons call calls ih =>
    obtain ⟨a, c1, fs1, h1, h2, h3⟩ := inOrder_step h hc.1
    obtain ⟨as, c2, h4, h5⟩ := ih h3 hc.2
    refine ⟨a :: as, c2, ?_, a, as, rfl, h2, h5⟩
    simp only [List.map_cons, run, h1, Res.bind_ok, h4]

theorem inOrder_fresh (E : Env) : InOrder (Client.fresh E) {} [] :=
  ⟨.new, .nil, soundList_nil _, by simp [Client.fresh], by simp [Client.fresh]⟩

/-- **C59**, exactly: whatever sequence of calls is made on a new client, with lists that can be
loaded and web requests that can be compared with their rules, no call runs into undefined
behaviour; and a request is blocked exactly if one of the rules loaded *that counts* applies to it,
and no exception that counts does; and the rule and the exception reported are rules that count
and apply.  `Counted` describes, in terms of the text of the rules, what is left of the defects of
the indexes. -/
theorem C59_session_exact (E : Env) (calls : List Call) (h : ({} : Book).AllowsAllExact E calls) :
    ∃ as c, run (Client.fresh E) (calls.map Call.op) = .ok (as, c) ∧ ({} : Book).ExpectsAllExact E.bad calls as :=
  inOrder_run (inOrder_fresh E) h

/-- **C59**, exactly, for one list: load it into a new client and enable some tags.  Then every web
request that can be compared with its rules is blocked exactly if a rule that counts applies to it,
and no exception that counts does. -/
theorem C59_text_exact (E : Env) (rs : List RuleText) (hs : SoundList E.bad rs) (input : Bytes) (h0 : 0 ∉ input)
    (hl : ListOf (lines input) rs) (preserve : Bool) :
    ∃ c, (Client.fresh E).parse input preserve = .ok c ∧
      ∀ (tags : List Bytes) (q : Request), q.Web → Comparable rs q → (q.domain = none → NoEmptyDomain E.bad rs) → E.fp.rolls q.url →
        ∃ o, (c.addTags tags).query q.url q.context q.domain = .ok o ∧
          (o.block = true ↔ (∃ r ∈ rs, r.exception = false ∧ Counted E.bad rs q r ∧ r.AppliesTo tags q) ∧
            ¬ ∃ r ∈ rs, r.exception = true ∧ Counted E.bad rs q r ∧ r.AppliesTo tags q) := by
  obtain ⟨c, gs, h1, h2, h3⟩ := load_inOrder (History.new (E := E)) h0 hl hs preserve
  rw [List.nil_append] at h2
  refine ⟨c, h1, fun tags q hq hsafe hempty hroll => ?_⟩
  have hmem : ∀ t, t ∈ (c.addTags tags).tags ↔ t ∈ tags := by
    intro t
    rw [mem_addTags, parse_tags h1]
    simp [Client.fresh]
  have hnodup : (c.addTags tags).tags.Nodup := addTags_nodup (by rw [parse_tags h1]; simp [Client.fresh]) tags
  have hin : InOrder (c.addTags tags) { rules := rs, tags := tags } gs := ⟨addTags_history h2 tags, h3, hs, hnodup, hmem⟩
  obtain ⟨o, ho, hv⟩ := inOrder_matches hin hq hsafe hempty hroll
  exact ⟨o, ho, hv.blocked⟩

/-! #### an example -/

def exTrickyText : Bytes := bs%"||two.com^$script\n||two.com^$image\n-ad$domain=news.com\n-x$domain=~blog.org\n-y$domain=~shop.com\n"

def exTrickyRules : List RuleText :=
  [ { anchor := .host, text := bs%"two.com^", options := some bs%"script" },
    { anchor := .host, text := bs%"two.com^", options := some bs%"image" },
    { text := bs%"-ad", options := some bs%"domain=news.com" },
    { text := bs%"-x", options := some bs%"domain=~blog.org" },
    { text := bs%"-y", options := some bs%"domain=~shop.com" } ]

theorem exTricky_list : ListOf (lines exTrickyText) exTrickyRules := by
  have : lines exTrickyText = exTrickyRules.map RuleText.line ++ [[]] := by decide +kernel
  rw [this]
  exact .rule _ (.rule _ (.rule _ (.rule _ (.rule _ (.idle (.inl ⟨by decide, by simp⟩) .nil)))))

theorem exTricky_sound {bad : List Bytes} : SoundList bad exTrickyRules where
  wellFormed r hr := RuleText.wellFormed ((by decide +kernel : ∀ r ∈ exTrickyRules, r.ok = true) r hr)
  fits r hr := fits_of_entries ((by decide +kernel : ∀ r ∈ exTrickyRules, ∀ o ∈ r.entries, o.length ≤ 1024) r hr)

theorem exTricky_safe (q : Request) : Comparable exTrickyRules q where
  inBounds r hr := by
    have h := safeRule_ok ((by decide +kernel : ∀ r ∈ exTrickyRules, safeRule (r.filter false) = true) r hr)
    exact inBounds_of (fun part hp => CaretEdge.safe ((h r.text (filter_hasText ((exTricky_sound (bad := [])).wellFormed r hr) false)).1 part hp) q.url)
      (fun _ _ => (by decide +kernel : ∀ r ∈ exTrickyRules, r.text ≠ [] ∧ r.text.getLast? ≠ some ch%'*') r hr)
      fun hh h => absurd ((by decide +kernel : ∀ r ∈ exTrickyRules, r.HostOnly → r.rightBar = false) r hr hh) (by simp [h])

/-- an image from a host with two rules; a request without a page; and one from a page that another rule excludes -/
def exTricky1 : Request := { host := bs%"two.com", rest := bs%"/", type := some (bs%"image", FOImage), domain := some bs%"news.com" }
def exTricky2 : Request := { host := bs%"b.com", rest := bs%"/-ad", type := some (bs%"image", FOImage) }
def exTricky3 : Request := { host := bs%"b.com", rest := bs%"/-y", type := some (bs%"image", FOImage), domain := some bs%"blog.org" }
/-- the same from another page -/
def exTricky4 : Request := { exTricky3 with domain := some bs%"news.com" }

theorem exTricky_web : exTricky1.Web ∧ exTricky2.Web ∧ exTricky3.Web ∧ exTricky4.Web := by
  refine ⟨?_, ?_, ?_, ?_⟩ <;>
    exact ⟨by decide, by decide, .inr ⟨_, _, rfl, by decide⟩, by decide, by rintro t ⟨⟩; simp [typeTable]⟩

theorem exTricky_applies (q : Request) (hq : q.Web) {r : RuleText} (hr : r ∈ exTrickyRules) : r.AppliesTo [] q ↔
    Acts [] q.url (resolveContext q.url q.context q.domain) q.domain (r.filter true) :=
  (acts_iff ((exTricky_sound (bad := [])).wellFormed r hr) true hq ((exTricky_safe q).inBounds r hr) _).symm

theorem exTricky_short {r : RuleText} (hr : r ∈ exTrickyRules) (hn : ¬ r.HostOnly) (bad : List Bytes) : ¬ r.Indexable bad := by
  rintro ⟨w, h1, h2, -⟩
  have h3 : ∀ r ∈ exTrickyRules, ¬ r.HostOnly → r.text.length < 6 := by decide +kernel
  have h4 := h1.length_le
  have h5 := h3 r hr hn
  omega

theorem exTricky_second : ¬ HostCounted exTrickyRules exTricky1 exTrickyRules[1] := by
  intro hc
  have h1 : exTrickyRules[1].HostOnly := by decide +kernel
  have h2 : exTrickyRules[1].hostPart = bs%"two.com" := by decide +kernel
  have := (first_iff _ false bs%"two.com" _).2 ⟨⟨h1, rfl, h2⟩, h2 ▸ (hc h1).1⟩
  have h3 : (exTrickyRules.find? (fun r => decide (r.HostOnly ∧ r.exception = false ∧ r.hostPart = bs%"two.com"))).map RuleText.options
    ≠ some exTrickyRules[1].options := by decide +kernel
  rw [this] at h3
  exact h3 rfl

theorem exTricky_supported : ∀ o ∈ exTrickyRules[3].entries, ¬ RuleText.Unsupported o :=
  (supported_filter ((exTricky_sound (bad := [])).wellFormed exTrickyRules[3] (by simp [exTrickyRules])) true).1 (by decide +kernel)

/-- Rules apply to the first three requests, but none is blocked: the rules do not count.  The fourth is
blocked. -/
example (E : Env) (hroll : ∀ url, E.fp.rolls url) : ∃ c, (Client.fresh E).parse exTrickyText true = .ok c ∧
    (∀ q ∈ [exTricky1, exTricky2, exTricky3], (∃ r ∈ exTrickyRules, r.exception = false ∧ r.AppliesTo [] q) ∧
      ∃ o, c.query q.url q.context q.domain = .ok o ∧ o.block = false) ∧
    ∃ o, c.query exTricky4.url exTricky4.context exTricky4.domain = .ok o ∧ o.block = true := by
  obtain ⟨w1, w2, w3, w4⟩ := exTricky_web
  obtain ⟨c, h1, h2⟩ := C59_text_exact E exTrickyRules exTricky_sound exTrickyText (by decide +kernel) exTricky_list true
  have noEmpty : ∀ r ∈ exTrickyRules, ∀ dl, ByDomain E.bad r dl → [] ∉ negative dl := by
    rintro r hr dl ⟨hd, -⟩
    have : ∀ r ∈ exTrickyRules, ∀ dl ∈ (r.value bs%"domain=").toList, [] ∉ negative dl := by decide +kernel
    exact this r hr dl (by rw [hd]; simp)
  have ask : ∀ q : Request, q.Web → ∃ o, c.query q.url q.context q.domain = .ok o ∧
      (o.block = true ↔ (∃ r ∈ exTrickyRules, r.exception = false ∧ Counted E.bad exTrickyRules q r ∧ r.AppliesTo [] q) ∧
        ¬ ∃ r ∈ exTrickyRules, r.exception = true ∧ Counted E.bad exTrickyRules q r ∧ r.AppliesTo [] q) :=
    fun q hq => h2 [] q hq (exTricky_safe q) (fun _ => noEmpty) (hroll _)
  have free : ∀ q : Request, q.Web → (∀ r ∈ exTrickyRules, Counted E.bad exTrickyRules q r → ¬ r.AppliesTo [] q) →
      ∃ o, c.query q.url q.context q.domain = .ok o ∧ o.block = false := by
    intro q hq hno
    obtain ⟨o, ho, hb⟩ := ask q hq
    refine ⟨o, ho, ?_⟩
    rw [← Bool.not_eq_true, hb]
    rintro ⟨⟨r, hr, -, hc, ha⟩, -⟩
    exact hno r hr hc ha
  have not : ∀ {q : Request} (hq : q.Web) {r : RuleText}, r ∈ exTrickyRules → (r.filter true).matches q.url
      (resolveContext q.url q.context q.domain) q.domain none = .ok false → ¬ r.AppliesTo [] q := by
    intro q hq r hr hf ha
    have := ((exTricky_applies q hq hr).1 ha).1
    rw [hf] at this
    cases this
  have by' : ∀ i : Fin 5, 2 ≤ i.1 → ∀ dl, (exTrickyRules[i.1]'i.2).value bs%"domain=" = some dl → ByDomain E.bad (exTrickyRules[i.1]'i.2) dl := by
    intro i hi dl hd
    have hn : ¬ (exTrickyRules[i.1]'i.2).HostOnly := (by decide +kernel : ∀ i : Fin 5, 2 ≤ i.1 → ¬ (exTrickyRules[i.1]'i.2).HostOnly) i hi
    exact ⟨hd, hn, exTricky_short (List.getElem_mem _) hn _⟩
  refine ⟨c, h1, ?_, ?_⟩
  · intro q hq
    simp only [List.mem_cons, List.not_mem_nil, or_false] at hq
    rcases hq with rfl | rfl | rfl
    · refine ⟨⟨exTrickyRules[1], by simp [exTrickyRules], rfl, (exTricky_applies _ w1 (by simp [exTrickyRules])).2 ⟨by decide +kernel, .inl (by decide +kernel)⟩⟩, free _ w1 ?_⟩
      intro r hr hc
      have hm : ∀ i : Fin 5, i.1 ≠ 1 → ((exTrickyRules[i.1]'i.2).filter true).matches exTricky1.url (resolveContext exTricky1.url exTricky1.context exTricky1.domain)
        exTricky1.domain none = .ok false := by decide +kernel
      obtain ⟨i, hi, rfl⟩ := List.mem_iff_getElem.1 hr
      by_cases e : i = 1
      · subst e
        exact absurd hc.host exTricky_second
      · exact not w1 hr (hm ⟨i, hi⟩ e)
    · refine ⟨⟨exTrickyRules[2], by simp [exTrickyRules], rfl, (exTricky_applies _ w2 (by simp [exTrickyRules])).2 ⟨by decide +kernel, .inl (by decide +kernel)⟩⟩, free _ w2 ?_⟩
      intro r hr hc
      have hm : ∀ i : Fin 5, i.1 ≠ 2 → ((exTrickyRules[i.1]'i.2).filter true).matches exTricky2.url (resolveContext exTricky2.url exTricky2.context exTricky2.domain)
        exTricky2.domain none = .ok false := by decide +kernel
      obtain ⟨i, hi, rfl⟩ := List.mem_iff_getElem.1 hr
      by_cases e : i = 2
      · subst e
        exact absurd rfl (hc.page bs%"news.com" (by' 2 (by decide) _ (by decide +kernel)) (by decide +kernel))
      · exact not w2 hr (hm ⟨i, hi⟩ e)
    · refine ⟨⟨exTrickyRules[4], by simp [exTrickyRules], rfl, (exTricky_applies _ w3 (by simp [exTrickyRules])).2 ⟨by decide +kernel, .inl (by decide +kernel)⟩⟩, free _ w3 ?_⟩
      intro r hr hc
      have hm : ∀ i : Fin 5, i.1 ≠ 4 → ((exTrickyRules[i.1]'i.2).filter true).matches exTricky3.url (resolveContext exTricky3.url exTricky3.context exTricky3.domain)
        exTricky3.domain none = .ok false := by decide +kernel
      obtain ⟨i, hi, rfl⟩ := List.mem_iff_getElem.1 hr
      by_cases e : i = 4
      · subst e
        exact absurd ⟨.inl rfl, .inl rfl⟩ (hc.excluded bs%"~shop.com" (by' 4 (by decide) _ (by decide +kernel)) (by decide +kernel) exTrickyRules[3] (by simp [exTrickyRules]) rfl
          exTricky_supported bs%"~blog.org" (by' 3 (by decide) _ (by decide +kernel)) (by decide +kernel) bs%"blog.org" rfl bs%"blog.org" (by decide +kernel))
      · exact not w3 hr (hm ⟨i, hi⟩ e)
  · obtain ⟨o, ho, hb⟩ := ask exTricky4 w4
    refine ⟨o, ho, hb.2 ⟨⟨exTrickyRules[4], by simp [exTrickyRules], rfl, ⟨?_, ?_, ?_⟩,
      (exTricky_applies _ w4 (by simp [exTrickyRules])).2 ⟨by decide +kernel, .inl (by decide +kernel)⟩⟩, ?_⟩⟩
    · intro h; exact absurd h (by decide +kernel)
    · intro dl _ _; decide
    · rintro - - - r' hr' - - dl' ⟨hd', -⟩ - d hdom s hs
      cases hdom
      have : ∀ r ∈ exTrickyRules, ∀ dl ∈ (r.value bs%"domain=").toList, ∀ s ∈ negative dl, s = bs%"blog.org" ∨ s = bs%"shop.com" := by decide +kernel
      rintro ⟨h | ⟨sub, h⟩, -⟩
      · rcases this r' hr' dl' (by rw [hd']; simp) s hs with rfl | rfl <;> cases h
      · rcases this r' hr' dl' (by rw [hd']; simp) s hs with rfl | rfl
        · have := congrArg List.length h; simp at this
        · have := congrArg List.length h; simp at this
    · rintro ⟨r, hr, he, -⟩
      exact absurd he ((by decide +kernel : ∀ r ∈ exTrickyRules, r.exception ≠ true) r hr)

end AdBlock
