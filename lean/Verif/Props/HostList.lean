import Verif.Props.HostRule
import Verif.Props.JsLib
/-
The conversion of lists of hosts into filter lists by the JavaScript package: C58.
-/
namespace AdBlock
open Spec

/-! ### what is loaded -/

theorem jsJoin_listText (ls : List Bytes) : jsJoin ls = listText ls := by
  induction ls with
  | nil => rfl
  | cons l ls ih =>
    cases ls with
    | nil => rfl
    | cons m ls => rw [jsJoin.eq_3 _ _ (by simp), listText.eq_3 _ _ (by simp), ih]

theorem sanitize_jsJoin {ls : List Bytes} (h : ∀ l ∈ ls, 10 ∉ l ∧ l ≠ []) :
    sanitizeABPInput (jsJoin ls) = jsJoin (ls.map mapRule ++ extraConcatRules) := by
  unfold sanitizeABPInput
  rw [jsSplit_eq]
  cases ls with
  | nil => rfl
  | cons l ls =>
    rw [splitOn_jsJoin_lines (by simp) fun x hx => (h x hx).1]
    congr 3
    rw [List.filter_eq_self]
    intro x hx
    simpa [jsTruthy] using (h x hx).2

/-- the rules which the preprocessing appends -/
def extraRuleTexts : List RuleText := [{ anchor := .host, text := bs%"imasdk.googleapis.com/", options := some bs%"third-party" },
  { text := bs%"^ima3.js" }]

/-- the rule given by the line `||` -/
def bareRule (pr : Bool) : Filter :=
  { filterType := FTHostAnchored ||| FTHostOnly, data := some (cstr []), host := some [], ruleDefinition := if pr then some bs%"||" else none }

theorem parse_bareRule (bad : List Bytes) (pr : Bool) : ∃ e, parseFilter bad bs%"||" 0 pr true = .ok (bareRule pr, e) := by
  have h : ∀ pr : Bool, parseLoop bs%"||" 0 pr bs%"||" 0 {} = .ok (.fin { st := .data, f := { filterType := FTHostAnchored ||| FTHostOnly, host := some [] }, data := [], ruleStart := 0, ruleEnd := 2 }) := by
    decide +kernel
  refine ⟨.addHost, ?_⟩
  unfold parseFilter
  rw [h]
  cases pr <;> rfl

/-- The lines loaded, each with its rule. -/
def hostListItems (hosts : List Bytes) (trailing pr : Bool) : List (Bytes × Filter) :=
  hosts.map (fun h => (bs%"||" ++ h, (hostRule h []).filter pr)) ++ (if trailing then [(bs%"||", bareRule pr)] else []) ++
    (extraRuleTexts ++ extraRuleTexts).map fun r => (r.line, r.filter pr)

theorem hostRule_line (h : Bytes) : (hostRule h []).line = bs%"||" ++ h := by
  simp [RuleText.line, RuleText.body, RuleText.marks, RuleText.trailer, RuleText.optionText, hostRule, Anchor.mark]

theorem extraRuleTexts_ok : ∀ r ∈ extraRuleTexts, r.WellFormed ∧ SafeLine r.line := by
  intro r hr
  exact ⟨RuleText.wellFormed ((by decide : ∀ r ∈ extraRuleTexts, r.ok = true) r hr),
    safeLine_ok ((by decide : ∀ r ∈ extraRuleTexts, safeLine r.line = true) r hr)⟩

section
variable {hosts : List Bytes} (hh : ∀ h ∈ hosts, HostName h ∧ h.length ≤ 2044)
include hh

theorem hostListItems_cases {trailing pr : Bool} {x : Bytes × Filter} (hx : x ∈ hostListItems hosts trailing pr) :
    (∃ h ∈ hosts, HostName h ∧ h.length ≤ 2044 ∧ x = (bs%"||" ++ h, (hostRule h []).filter pr)) ∨
    (trailing = true ∧ x = (bs%"||", bareRule pr)) ∨ ∃ r ∈ extraRuleTexts, x = (r.line, r.filter pr) := by
  unfold hostListItems at hx
  rw [List.append_assoc, List.mem_append, List.mem_append] at hx
  rcases hx with hx | hx | hx
  · obtain ⟨h, hm, rfl⟩ := List.mem_map.1 hx
    exact .inl ⟨h, hm, (hh h hm).1, (hh h hm).2, rfl⟩
  · cases trailing with
    | false => cases hx
    | true => exact .inr (.inl ⟨rfl, by simpa using hx⟩)
  · obtain ⟨r, hr, rfl⟩ := List.mem_map.1 hx
    exact .inr (.inr ⟨r, by simpa using hr, rfl⟩)

theorem hostListItems_line {trailing pr : Bool} {x : Bytes × Filter} (hx : x ∈ hostListItems hosts trailing pr) :
    (∀ c ∈ x.1, c ≠ 0 ∧ c ≠ 10 ∧ c ≠ 13) ∧ SafeLine x.1 ∧ ∀ bad, ∃ e, parseFilter bad x.1 0 pr true = .ok (x.2, e) := by
  have key : ∀ r : RuleText, r.WellFormed → SafeLine r.line →
      (∀ c ∈ r.line, c ≠ 0 ∧ c ≠ 10 ∧ c ≠ 13) ∧ SafeLine r.line ∧ ∀ bad, ∃ e, parseFilter bad r.line 0 pr true = .ok (r.filter pr, e) := by
    intro r hw hs
    refine ⟨rule_line_clean hw, hs, fun bad => ?_⟩
    obtain ⟨fp, _, hp⟩ := C22_rule_text bad hw (t := 0) (.inl rfl) pr true
    exact ⟨_, hp⟩
  rcases hostListItems_cases hh hx with ⟨h, _, h1, h2, rfl⟩ | ⟨_, rfl⟩ | ⟨r, hr, rfl⟩
  · rw [← hostRule_line]
    exact key _ (hostRule_wellFormed h1 (.inl rfl) h2) (hostRule_safeLine h1 (.inl rfl) h2)
  · exact ⟨(by decide : ∀ c ∈ bs%"||", c ≠ 0 ∧ c ≠ 10 ∧ c ≠ 13), safeLine_ok (by decide : safeLine bs%"||" = true), fun bad => parse_bareRule bad pr⟩
  · exact key _ (extraRuleTexts_ok r hr).1 (extraRuleTexts_ok r hr).2

omit hh in
theorem reads_items {bad : List Bytes} {pr : Bool} {items : List (Bytes × Filter)}
    (h : ∀ x ∈ items, ∃ e, parseFilter bad x.1 0 pr true = .ok (x.2, e)) : Reads bad pr (items.map (·.1)) (items.map (·.2)) := by
  induction items with
  | nil => exact .nil
  | cons x items ih =>
    obtain ⟨e, he⟩ := h x (by simp)
    exact .cons he (ih fun y hy => h y (by simp [hy]))

theorem hostList_load {E : Env} {c : Client E} {fs : List Filter} (hist : History E c fs) (trailing pr : Bool) :
    ∃ c', c.parse (jsJoin ((hostListItems hosts trailing pr).map (·.1))) pr = .ok c' ∧
      History E c' (fs ++ (hostListItems hosts trailing pr).map (·.2)) := by
  have hline : ∀ l ∈ (hostListItems hosts trailing pr).map (·.1), (∀ c ∈ l, c ≠ 0 ∧ c ≠ 10 ∧ c ≠ 13) ∧ SafeLine l := by
    intro l hl
    obtain ⟨x, hx, rfl⟩ := List.mem_map.1 hl
    exact ⟨(hostListItems_line hh hx).1, (hostListItems_line hh hx).2.1⟩
  rw [jsJoin_listText]
  have hne : (hostListItems hosts trailing pr).map (·.1) ≠ [] := by simp [hostListItems, extraRuleTexts]
  have hlines := lines_listText (fun l hl c hc => ((hline l hl).1 c hc).2) hne
  have h0 : 0 ∉ listText ((hostListItems hosts trailing pr).map (·.1)) := by
    intro h
    rcases mem_listText h with h | ⟨l, hl, hc⟩
    · cases h
    · exact ((hline l hl).1 0 hc).1 rfl
  obtain ⟨c', hc'⟩ := C21_memory_safe_partial c _ pr h0 (by rw [hlines]; exact fun l hl => (hline l hl).2)
  refine ⟨c', hc', .parse hist h0 hc' ?_⟩
  rw [hlines]
  exact reads_items fun x hx => (hostListItems_line hh hx).2.2 E.bad

omit hh in
theorem host_not_rewritten {h : Bytes} (hn : HostName h) : ¬ Rewritten (bs%"||" ++ h) := by
  rintro (e | e)
  · have : h = bs%"imasdk.googleapis.com^$third-party" := by simpa using e
    exact absurd (by decide) (hn.2 ch%'^' (by rw [this]; decide)).1
  · simp at e

/-- the text given to the parser -/
theorem hostList_text {header : List Bytes} (hlen : header.length = 4) {body : Bytes} {trailing : Bool}
    (hbody : splitOn 10 body = header ++ hosts ++ if trailing then [[]] else []) (pr : Bool) :
    listURLText (getListFilterFunction bs%"FBB430E8-3910-4761-9373-840FC3B43FF2") body =
    jsJoin ((hostListItems hosts trailing pr).map (·.1)) := by
  have hclean : ∀ h ∈ hosts, 10 ∉ h := fun h hm h10 => ((hh h hm).1.2 10 h10).2.2.1 rfl
  have e1 : getListFilterFunction bs%"FBB430E8-3910-4761-9373-840FC3B43FF2" =
      some fun input => jsJoin (((jsSplit input).drop 4).map fun line => bs%"||" ++ line) := by
    unfold getListFilterFunction
    rw [if_pos rfl]
  have e2 : (header ++ hosts ++ if trailing then [[]] else []).drop 4 = hosts ++ if trailing then [[]] else [] := by
    rw [List.append_assoc, ← hlen, List.drop_left]
  unfold listURLText singleListData
  rw [e1]
  simp only
  rw [jsSplit_eq, hbody, e2]
  have hL : ∀ l ∈ (hosts ++ if trailing then [[]] else []).map (fun line => bs%"||" ++ line), (10 ∉ l ∧ l ≠ []) ∧ ¬ Rewritten l := by
    intro l hl
    obtain ⟨h, hm, rfl⟩ := List.mem_map.1 hl
    rcases List.mem_append.1 hm with hm | hm
    · refine ⟨⟨?_, by simp⟩, host_not_rewritten (hh h hm).1⟩
      have := hclean h hm
      simpa using this
    · cases trailing with
      | false => cases hm
      | true =>
        simp at hm
        subst hm
        exact ⟨by decide, by unfold Rewritten; decide⟩
  have hext : ∀ l ∈ extraConcatRules, (10 ∉ l ∧ l ≠ []) ∧ ¬ Rewritten l := by unfold Rewritten; decide
  have hid : ∀ {L : List Bytes}, (∀ l ∈ L, (10 ∉ l ∧ l ≠ []) ∧ ¬ Rewritten l) → L.map mapRule = L := by
    intro L h
    exact (List.map_congr_left fun l hl => mapRule_eq (h l hl).2).trans (List.map_id _)
  rw [sanitize_jsJoin fun l hl => (hL l hl).1, hid hL, sanitize_jsJoin, hid]
  · congr 1
    unfold hostListItems
    cases trailing <;> simp [extraConcatRules, extraRuleTexts, RuleText.line, RuleText.body, RuleText.marks, RuleText.trailer, RuleText.optionText, Anchor.mark]
  · intro l hl
    rcases List.mem_append.1 hl with hl | hl
    · exact hL l hl
    · exact hext l hl
  · intro l hl
    rcases List.mem_append.1 hl with hl | hl
    · exact (hL l hl).1
    · exact (hext l hl).1

/-! ### C58 -/

/-- A list of hosts as `body`: four lines of preamble, then one host per line; the last line
may end with a line feed. -/
structure Spec.HostList (hosts : List Bytes) (body : Bytes) : Prop where
  lines : ∃ header : List Bytes, header.length = 4 ∧ (splitOn 10 body = header ++ hosts ∨ splitOn 10 body = header ++ hosts ++ [[]])
  hosts : ∀ h ∈ hosts, HostName h ∧ h.length ≤ 2044

omit hh in
theorem hostList_loaded {hosts : List Bytes} {body : Bytes} (hl : HostList hosts body) (E : Env) (keep : Bool) : ∃ trailing c,
    (Client.fresh E).parse (listURLText (getListFilterFunction bs%"FBB430E8-3910-4761-9373-840FC3B43FF2") body) keep = .ok c ∧
    History E c ((hostListItems hosts trailing keep).map (·.2)) ∧ (splitOn 10 body).length = hosts.length + 4 + (if trailing then 1 else 0) := by
  obtain ⟨⟨header, hlen, hb⟩, hh⟩ := hl
  have : ∃ trailing : Bool, splitOn 10 body = header ++ hosts ++ if trailing then [[]] else [] := by
    rcases hb with hb | hb
    · exact ⟨false, by simpa using hb⟩
    · exact ⟨true, by simpa using hb⟩
  obtain ⟨trailing, hb⟩ := this
  obtain ⟨c, h1, h2⟩ := hostList_load hh (History.new (E := E)) trailing keep
  refine ⟨trailing, c, by rw [hostList_text hh hlen hb keep]; exact h1, h2, ?_⟩
  rw [hb]
  cases trailing <;> simp [hlen] <;> omega

omit hh in
theorem find_unique {α : Type} {l : List α} {p : α → Bool} {a : α} (ha : a ∈ l) (hp : p a = true) (hu : ∀ b ∈ l, p b = true → b = a) :
    l.find? p = some a := by
  obtain ⟨b, hb⟩ := Option.isSome_iff_exists.1 (List.find?_isSome.2 ⟨a, ha, hp⟩)
  rw [hb, hu b (List.mem_of_find?_eq_some hb) (List.find?_some hb)]

theorem hostList_rule {trailing pr : Bool} {f : Filter} (hf : f ∈ (hostListItems hosts trailing pr).map (·.2)) :
    (∃ h ∈ hosts, HostName h ∧ f = (hostRule h []).filter pr) ∨ f = bareRule pr ∨ ∃ r ∈ extraRuleTexts, f = r.filter pr := by
  obtain ⟨x, hx, rfl⟩ := List.mem_map.1 hf
  rcases hostListItems_cases hh hx with ⟨h, h0, h1, h2, rfl⟩ | ⟨_, rfl⟩ | ⟨r, hr, rfl⟩
  · exact .inl ⟨h, h0, h1, rfl⟩
  · exact .inr (.inl rfl)
  · exact .inr (.inr ⟨r, hr, rfl⟩)

omit hh in
/-- **C58** A list of hosts, converted for the list with this identifier, preprocessed and loaded:
all hosts listed, and subdomains of those with a dot, are blocked (except for main
documents). -/
theorem C58_listed_hosts_are_blocked {hosts : List Bytes} {body : Bytes} (hl : HostList hosts body) (E : Env) (keep : Bool) : ∃ c,
    (Client.fresh E).parse (listURLText (getListFilterFunction bs%"FBB430E8-3910-4761-9373-840FC3B43FF2") body) keep = .ok c ∧
    ∀ h ∈ hosts, ∀ url, OnHost h url → ∀ co dom, has co FODocument = false → ∀ o, c.query url co dom = .ok o → o.block = true := by
  obtain ⟨trailing, c, h1, hist, _⟩ := hostList_loaded hl E keep
  have hh := hl.hosts
  refine ⟨c, h1, fun h hm url hu co dom hdoc o ho => ?_⟩
  have hn := (hh h hm).1
  obtain ⟨rd, hf⟩ := hostRule_filter hn (.inl rfl) keep
  have hmem : (hostRule h []).filter keep ∈ (hostListItems hosts trailing keep).map (·.2) := by
    refine List.mem_map.2 ⟨(bs%"||" ++ h, _), ?_, rfl⟩
    unfold hostListItems
    exact List.mem_append_left _ (List.mem_append_left _ (List.mem_map.2 ⟨h, hm, rfl⟩))
  refine C34_in_list hn (.inl rfl) hist keep hmem ?_ ?_ hu hdoc ho
  · refine find_unique hmem ?_ ?_
    · rw [hf]
      simp only [and_true, decide_eq_true_eq]
      exact ⟨hostMask.2.2.2.2.2, hostMask.2.2.2.2.1, by simp⟩
    · intro g hg hp
      simp only [decide_eq_true_eq] at hp
      obtain ⟨hr, hhost⟩ := hp
      rw [show ((hostRule h []).filter keep).host = some h by rw [hf]] at hhost
      rcases hostList_rule hh hg with ⟨h', hm', hn', rfl⟩ | rfl | ⟨r, hr', rfl⟩
      · obtain ⟨rd', hf'⟩ := hostRule_filter hn' (.inl rfl) keep
        rw [hf'] at hhost
        cases hhost
        rfl
      · cases hhost
        exact absurd rfl hn.1
      · exfalso
        revert hr
        have : ∀ r ∈ extraRuleTexts, ∀ pr, ¬ HostRule false (r.filter pr) := by decide +kernel
        exact this r hr' keep
  · intro g hg
    rcases hostList_rule hh hg with ⟨h', hm', hn', rfl⟩ | rfl | ⟨r, hr', rfl⟩
    · obtain ⟨rd', hf'⟩ := hostRule_filter hn' (.inl rfl) keep
      rw [hf']
      show ¬ (FTHostAnchored ||| FTHostOnly) &&& FTListTypesMask = FTException
      decide
    · show ¬ (FTHostAnchored ||| FTHostOnly) &&& FTListTypesMask = FTException
      decide
    · have : ∀ r ∈ extraRuleTexts, ∀ pr, ¬ Kind true (r.filter pr) := by unfold Kind; decide +kernel
      exact this r hr' keep

omit hh in
/-- **C58** If the list does not end with a line feed, no query reads out of bounds. -/
theorem C58_queries_are_safe_partial {hosts : List Bytes} {body : Bytes} (hl : HostList hosts body)
    (hlast : (splitOn 10 body).length = hosts.length + 4) {E : Env} {keep : Bool} {c : Client E}
    (hc : (Client.fresh E).parse (listURLText (getListFilterFunction bs%"FBB430E8-3910-4761-9373-840FC3B43FF2") body) keep = .ok c)
    {url : Bytes} (h0 : 0 ∉ url) (co : Mask) (dom : Option Bytes) : ∃ o, c.query url co dom = .ok o := by
  obtain ⟨trailing, c', h1, hist, hlen⟩ := hostList_loaded hl E keep
  rw [hc] at h1
  cases h1
  have ht : trailing = false := by
    cases trailing with
    | false => rfl
    | true => rw [hlast] at hlen; simp at hlen
  subst ht
  refine query_safe (history_holds hist) (fun f hf => ?_) h0 co dom
  obtain ⟨x, hx, rfl⟩ := List.mem_map.1 hf
  rcases hostListItems_cases hl.hosts hx with ⟨h, _, h1, h2, rfl⟩ | ⟨h, _⟩ | ⟨r, hr, rfl⟩
  · exact hostRule_safe h1 (.inl rfl) keep
  · cases h
  · exact safeRule_ok ((by decide +kernel : ∀ r ∈ extraRuleTexts, ∀ pr, safeRule (r.filter pr) = true) r hr keep)

omit hh in
theorem partAt_literal {p u : Bytes} (hp : ch%'^' ∉ p) (h : PartAt p u) : p <+: u := by
  induction p generalizing u with
  | nil => simp
  | cons x p ih =>
    cases u with
    | nil => exact absurd (by rw [h.1]; simp) hp
    | cons c u =>
      obtain ⟨h1 | ⟨h1, _⟩, h2⟩ := h
      · subst h1
        exact (List.cons_prefix_cons).2 ⟨rfl, ih (fun hm => hp (by simp [hm])) h2⟩
      · exact absurd (by rw [h1]; simp) hp

omit hh in
/-- **C58** Nothing else is blocked, apart from what the two rules appended by the
preprocessing are for. -/
theorem C58_nothing_else_is_blocked {hosts : List Bytes} {body : Bytes} (hl : HostList hosts body) {E : Env} {keep : Bool} {c : Client E}
    (hc : (Client.fresh E).parse (listURLText (getListFilterFunction bs%"FBB430E8-3910-4761-9373-840FC3B43FF2") body) keep = .ok c)
    {url : Bytes} (h0 : 0 ∉ url) (hroll : E.fp.rolls url) (hhost : getUrlHost url ≠ []) {co : Mask} {dom : Option Bytes} {o : Outcome E}
    (hq : c.query url co dom = .ok o) (hb : o.block = true) :
    (∃ h ∈ hosts, SameSite h (getUrlHost url)) ∨ SameSite bs%"imasdk.googleapis.com" (getUrlHost url) ∨ bs%"ima3.js" <:+: url := by
  obtain ⟨trailing, c', h1, hist, hlen⟩ := hostList_loaded hl E keep
  rw [hc] at h1
  cases h1
  have hweb : WebUrl url ∧ 5 < url.length := by
    obtain ⟨b, hweb⟩ := C03_protocol_check_in_bounds url url.length
    cases b with
    | false => rw [query_not_web hweb] at hq; cases hq; cases hb
    | true => exact (C02_blockable_protocols url).1.1 hweb
  have hne : dom = none → ∀ s, NoEmptyExclusion E.bad s ((hostListItems hosts trailing keep).map (·.2)) := by
    intro _ s g hg _ hon dl hdl
    have : g.domainList = none := by
      rcases hostList_rule hl.hosts hg with ⟨h', hm', hn', rfl⟩ | rfl | ⟨r, hr', rfl⟩
      · obtain ⟨rd', hf'⟩ := hostRule_filter hn' (.inl rfl) keep
        rw [hf']
      · rfl
      · exact (by decide +kernel : ∀ r ∈ extraRuleTexts, ∀ pr, (r.filter pr).domainList = none) r hr' keep
    rw [this] at hdl
    cases hdl
  obtain ⟨⟨f, hf, hk, hcons, hact⟩, _⟩ := (C23_exact hist hweb.1 hweb.2 h0 hroll hne hq).1 hb
  rcases hostList_rule hl.hosts hf with ⟨h', hm', hn', rfl⟩ | rfl | ⟨r, hr', rfl⟩
  · obtain ⟨rd', hf'⟩ := hostRule_filter hn' (.inl rfl) keep
    have hn := (hcons.host (by rw [hf']; exact ⟨hostMask.2.2.2.2.2, hostMask.2.2.2.2.1, by simp⟩)).2
    rw [hf'] at hn
    exact .inl ⟨h', hm', hn.1⟩
  · have hn := (hcons.host ⟨hostMask.2.2.2.2.2, hostMask.2.2.2.2.1, by simp [bareRule]⟩).2
    rcases hn.2 with e | e
    · exact absurd e.symm hhost
    · cases e
  · simp only [extraRuleTexts, List.mem_cons, List.not_mem_nil, or_false] at hr'
    rcases hr' with rfl | rfl
    · refine .inr (.inl ?_)
      have hm0 : ∀ pr, Unanchored (RuleText.filter { anchor := .host, text := bs%"imasdk.googleapis.com/", options := some bs%"third-party" } pr) ∧
          has (RuleText.filter { anchor := .host, text := bs%"imasdk.googleapis.com/", options := some bs%"third-party" } pr).filterType FTHostAnchored = true := by
        unfold Unanchored; decide +kernel
      have := (C10_host_anchored_exact _ bs%"imasdk.googleapis.com/" bs%"imasdk.googleapis.com" url _ dom true
        ⟨by decide, ⟨[], rfl⟩, .inl rfl⟩ rfl (hm0 keep).1 (hm0 keep).2 h0 hact.1).1 rfl
      exact this.2.1
    · refine .inr (.inr ?_)
      have hm0 : ∀ pr, Unanchored (RuleText.filter { text := bs%"^ima3.js" } pr) ∧
          has (RuleText.filter { text := bs%"^ima3.js" } pr).filterType FTHostAnchored = false := by
        unfold Unanchored; decide +kernel
      have := (C08_unanchored_exact _ bs%"^ima3.js" url _ dom true ⟨by decide, ⟨[], rfl⟩, .inl rfl⟩ (hm0 keep).1 (hm0 keep).2 h0 hact.1).1 rfl
      have hp := this.2
      unfold Placed at hp
      rw [show splitOn ch%'*' bs%"^ima3.js" = [bs%"^ima3.js"] by decide] at hp
      rcases hp with ⟨hp, _⟩ | ⟨_, _, k, _, hp, _⟩
      · cases hp
      · cases hd : url.drop k with
        | nil => rw [hd] at hp; exact absurd hp.2 (by decide)
        | cons x u =>
          rw [hd] at hp
          obtain ⟨t, ht⟩ := partAt_literal (by decide) hp.2
          exact ⟨url.take k ++ [x], t, by rw [List.append_assoc, List.append_assoc, ht, List.singleton_append, ← hd, List.take_append_drop]⟩

end

private def hostListBody : Bytes := bs%"# 1\n# 2\n# 3\n# 4\nads.example.com\ntracker.net\n"

/-- A list of two hosts -/
example : HostList [bs%"ads.example.com", bs%"tracker.net"] hostListBody :=
  ⟨⟨[bs%"# 1", bs%"# 2", bs%"# 3", bs%"# 4"], rfl, .inr (by decide +kernel)⟩, by
    intro h hm
    simp only [List.mem_cons, List.not_mem_nil, or_false] at hm
    rcases hm with rfl | rfl <;> exact ⟨⟨by decide, by decide⟩, by decide⟩⟩

/-- **C58** is violated when the list ends with a line feed, as texts usually do: that gives the
line `||`, and a query for an address with an empty host then reads behind this rule. -/
theorem C58_counterexample : ∃ url, ((Client.fresh toyEnv).parse (listURLText
    (getListFilterFunction bs%"FBB430E8-3910-4761-9373-840FC3B43FF2") hostListBody) false >>= fun c =>
    Outcome.block <$> c.query url 0 none) = .ub .oobRead := by
  refine ⟨bs%"http://", ?_⟩
  decide +kernel

end AdBlock
