import Verif.Props.Verdict
import Verif.Model.Toy
/-
The most common kind of rule, `||h^`: C34.
-/
namespace AdBlock
open Spec

/-- Host names: at least one character, no separators and none of the characters with a
meaning in rules. -/
def HostName (h : Bytes) : Prop :=
  h ≠ [] ∧ ∀ c ∈ h, ¬ IsSep c ∧ c ≠ 0 ∧ c ≠ 10 ∧ c ≠ 13 ∧ c ≠ ch%'|' ∧ c ≠ ch%'*' ∧ c ≠ ch%'#'

/-- What may follow the host in a host rule: nothing, or a separator placeholder. -/
def HostEnd (tl : Bytes) : Prop := tl = [] ∨ tl = bs%"^"

/-- The lines `||h` and `||h^` -/
def hostRule (h tl : Bytes) : RuleText := { anchor := .host, text := h ++ tl }

theorem hostMask : has (FTHostAnchored ||| FTHostOnly) FTRegex = false ∧ has (FTHostAnchored ||| FTHostOnly) FTLeftAnchored = false ∧
    has (FTHostAnchored ||| FTHostOnly) FTRightAnchored = false ∧ has (FTHostAnchored ||| FTHostOnly) FTHostAnchored = true ∧
    has (FTHostAnchored ||| FTHostOnly) FTHostOnly = true ∧ (FTHostAnchored ||| FTHostOnly) &&& FTListTypesMask = 0 := by decide

section
variable {h tl : Bytes} (hh : HostName h) (he : HostEnd tl)
include hh he

omit hh in
theorem hostEnd_length : tl.length ≤ 1 := by rcases he with rfl | rfl <;> decide

omit hh in
theorem hostRule_text_mem {c : Byte} (hc : c ∈ (hostRule h tl).text) : c = ch%'^' ∨ c ∈ h := by
  rcases he with rfl | rfl
  · exact .inr (by simpa [hostRule] using hc)
  · simpa [hostRule, or_comm] using hc

theorem hostRule_usual (hlen : h.length ≤ 2044) : (hostRule h tl).Usual where
  odd := rfl
  indent := by simp [hostRule]
  nonempty := by simp [hostRule, hh.1]
  plain := by
    intro c hc
    rcases hostRule_text_mem he hc with rfl | hc
    · decide
    · obtain ⟨h1, h2, h3, h4, h5, _⟩ := hh.2 c hc
      exact ⟨h2, h3, h4, h5, fun e => h1 (by rw [e]; decide)⟩
  hash := by
    intro a d b e
    rcases hostRule_text_mem he (c := ch%'#') (by rw [e]; simp) with h | h
    · cases h
    · exact absurd rfl (hh.2 _ h).2.2.2.2.2.2
  first := by intro h; cases h
  opts := by intro o h; cases h
  short := by
    have := hostEnd_length he
    simp [RuleText.Short, RuleText.line, RuleText.body, RuleText.marks, RuleText.trailer, RuleText.optionText, hostRule, Anchor.mark]
    omega

theorem hostRule_wellFormed (hlen : h.length ≤ 2044) : (hostRule h tl).WellFormed := .usual (hostRule_usual hh he hlen)

theorem takeWhile_host : (h ++ tl).takeWhile (fun c => decide (¬ IsSep c)) = h := by
  rw [List.takeWhile_append_of_pos (by intro c hc; simpa using (hh.2 c hc).1)]
  rcases he with rfl | rfl
  · simp
  · rw [List.takeWhile_cons_of_neg (by decide)]
    simp

theorem hostRule_safeLine (hlen : h.length ≤ 2044) : SafeLine (hostRule h tl).line := by
  have hl := hostEnd_length he
  have e : (hostRule h tl).line = bs%"||" ++ h ++ tl := by
    simp [RuleText.line, RuleText.body, RuleText.marks, RuleText.trailer, RuleText.optionText, hostRule, Anchor.mark]
  refine ⟨?_, ?_, ?_⟩
  · rw [e]; simp; omega
  · intro a p e' ha
    rw [e] at e'
    cases a with
    | nil =>
      have : p = h ++ tl := by simpa using e'.symm
      rw [this, takeWhile_host hh he]
      intro hm
      exact (hh.2 _ (List.dropLast_subset _ hm)).2.2.2.2.1 rfl
    | cons x a =>
      simp only [List.cons_append, List.nil_append, List.cons.injEq] at e'
      exact absurd (by rw [← e'.1]; simp) ha
  · intro a d b e' _ _ s hs
    rw [e] at e'
    have : ch%'=' ∈ bs%"||" ++ h ++ tl := by rw [e']; simp
    have : ch%'=' ∈ h := by rcases he with rfl | rfl <;> simpa using this
    exact absurd (by decide) (hh.2 _ this).1

theorem hostRule_hostPart : (hostRule h tl).hostPart = h := takeWhile_host hh he

theorem hostRule_filter (pr : Bool) : ∃ rd, (hostRule h tl).filter pr =
    { filterType := FTHostAnchored ||| FTHostOnly, data := some (cstr (h ++ tl)), host := some h, ruleDefinition := rd } := by
  have h1 := hostRule_hostPart hh he
  have h2 : (hostRule h tl).HostOnly := ⟨rfl, fun _ => rfl, by
    rcases he with rfl | rfl
    · left; rw [h1]; simp [hostRule, RuleText.written]
    · right; rw [h1]; rfl⟩
  have h3 : (hostRule h tl).kind = FTHostAnchored ||| FTHostOnly := by
    unfold RuleText.kind
    rw [if_pos h2]
    show ((if false = true then FTException else 0) ||| FTHostAnchored ||| (if false = true then FTRightAnchored else 0)) ||| FTHostOnly = _
    decide
  refine ⟨((hostRule h tl).filter pr).ruleDefinition, ?_⟩
  unfold RuleText.filter
  simp only [h1, h3]
  rfl

omit hh in
theorem partAt_host (h rest : Bytes) (hrest : rest = [] ∨ ∃ c r, rest = c :: r ∧ IsSep c) : PartAt (h ++ tl) (h ++ rest) := by
  induction h with
  | nil =>
    rcases he with rfl | rfl
    · trivial
    · rcases hrest with rfl | ⟨c, r, rfl, hc⟩
      · exact ⟨rfl, rfl⟩
      · exact ⟨.inr ⟨rfl, hc⟩, trivial⟩
  | cons c h ih => exact ⟨.inl rfl, ih⟩

/-- The addresses on the host `h` or, if `h` contains a dot, one of its subdomains:
`scheme://[sub.]h` followed by nothing or by a separator and anything. -/
structure OnHost (h url : Bytes) : Prop where
  shape : ∃ scheme sub rest, url = scheme ++ bs%"://" ++ sub ++ h ++ rest ∧
    scheme.map lower ∈ [bs%"http", bs%"https", bs%"ws", bs%"wss"] ∧
    (sub = [] ∨ ∃ s, sub = s ++ bs%"." ∧ (∀ c ∈ s, ¬ IsSep c) ∧ ch%'.' ∈ h) ∧
    (rest = [] ∨ ∃ c r, rest = c :: r ∧ IsSep c)
  nul : 0 ∉ url

/-- the rule acts on all these addresses -/
theorem hostRule_acts (pr : Bool) {url : Bytes} (hu : OnHost h url) (tags : List Bytes) (ctx : Mask) (dom : Option Bytes)
    (hdoc : has ctx FODocument = false) :
    Acts tags url ctx dom ((hostRule h tl).filter pr) ∧ NameOf (getUrlHost url) h ∧ WebUrl url ∧ 5 < url.length := by
  obtain ⟨⟨scheme, sub, rest, rfl, hsch, hsub, hrest⟩, h0⟩ := hu
  obtain ⟨rd, hf⟩ := hostRule_filter hh he pr
  have hhost : getUrlHost (scheme ++ bs%"://" ++ sub ++ h ++ rest) = sub ++ h := by
    have := C05_host_of_url scheme bs%"//" (sub ++ h) rest ?_ (by decide) (by simp [hh.1]) ?_ hrest
    · simpa using this
    · intro hm
      have : lower ch%':' ∈ scheme.map lower := List.mem_map.2 ⟨_, hm, rfl⟩
      have key : ∀ s ∈ [bs%"http", bs%"https", bs%"ws", bs%"wss"], lower ch%':' ∉ s := by decide
      exact key _ hsch this
    · intro c hc
      rcases List.mem_append.1 hc with hc | hc
      · rcases hsub with rfl | ⟨s, rfl, hs, _⟩
        · cases hc
        · rcases List.mem_append.1 hc with hc | hc
          · exact hs c hc
          · simp at hc; subst hc; decide
      · exact (hh.2 c hc).1
  have hname : NameOf (sub ++ h) h := by
    rcases hsub with rfl | ⟨s, rfl, hs, hdot⟩
    · exact ⟨.inl (by simp), .inl (by simp)⟩
    · exact ⟨.inr ⟨s, by simp⟩, .inr hdot⟩
  have hpos := List.length_pos_iff.2 hh.1
  have hschl : 2 ≤ scheme.length := by
    have : ∀ s ∈ [bs%"http", bs%"https", bs%"ws", bs%"wss"], 2 ≤ s.length := by decide
    simpa using this _ hsch
  have hpat0 : (0 : Byte) ∉ h ++ tl := by
    intro hm
    rcases List.mem_append.1 hm with hm | hm
    · exact (hh.2 _ hm).2.1 rfl
    · rcases he with rfl | rfl <;> (revert hm; decide)
  have hstar : ch%'*' ∉ h ++ tl := by
    intro hm
    rcases List.mem_append.1 hm with hm | hm
    · exact (hh.2 _ hm).2.2.2.2.2.1 rfl
    · rcases he with rfl | rfl <;> (revert hm; decide)
  have htext : HasText ((hostRule h tl).filter pr) (h ++ tl) := by
    rw [hf]; exact ⟨hpat0, ⟨[], rfl⟩, .inl rfl⟩
  have hplaced : Placed (h ++ tl) (scheme ++ bs%"://" ++ sub ++ h ++ rest) := by
    unfold Placed
    rw [splitOn_of_not_mem hstar]
    refine .inr ⟨?_, ?_, (scheme ++ bs%"://" ++ sub).length, ?_, ?_, trivial⟩
    · intro e
      obtain ⟨x, t, ht⟩ := List.exists_cons_of_ne_nil hh.1
      rw [ht, List.cons_append, List.cons.injEq] at e
      exact absurd (by rw [e.1]; decide) (hh.2 x (by rw [ht]; simp)).1
    · have := hostEnd_length he
      simp; omega
    · simp; omega
    · have : (scheme ++ bs%"://" ++ sub ++ h ++ rest).drop (scheme ++ bs%"://" ++ sub).length = h ++ rest := by
        rw [List.append_assoc _ h rest, List.drop_left]
      rw [this]
      exact partAt_host he h rest hrest
  have hopt : ((hostRule h tl).filter pr).matchesOptions ctx dom = true := by
    rw [hf]
    simp [Filter.matchesOptions, Filter.hasUnsupportedOptions, Filter.domainCheckFails, hdoc]
  refine ⟨⟨?_, .inl (by rw [hf])⟩, by rw [hhost]; exact hname, ⟨[], scheme, sub ++ h ++ rest, by simp, .inl rfl, hsch⟩, by simp; omega⟩
  obtain ⟨b, hb⟩ := C47_in_bounds_partial _ _ htext (by
    rw [splitOn_of_not_mem hstar]
    intro part hp
    simp only [List.mem_singleton] at hp
    subst hp
    refine fun a b e => .inr ?_
    cases hb : b.reverse with
    | nil => simpa using hb
    | cons x t =>
      have hb' : b = t.reverse ++ [x] := by simpa using congrArg List.reverse hb
      rw [hb'] at e
      have : ch%'^' ∈ h := by
        rcases he with rfl | rfl
        · have : ch%'^' ∈ h ++ [] := by rw [e]; simp
          simpa using this
        · have e' : h ++ bs%"^" = (a ++ ch%'^' :: t.reverse) ++ [x] := by simpa using e
          have := (List.append_inj' e' rfl).1
          rw [this]; simp
      exact absurd (by decide) (hh.2 _ this).1) _ h0 ctx dom
  rw [hb]
  congr 1
  rw [C10_host_anchored_exact _ (h ++ tl) h _ ctx dom b htext (by rw [hf]) (by rw [hf]; exact ⟨hostMask.1, hostMask.2.1, hostMask.2.2.1⟩) (by rw [hf]; exact hostMask.2.2.2.1) h0 hb]
  exact ⟨hopt, by rw [hhost]; exact hname.1, hplaced⟩

/-- the rule can be matched without reading out of bounds -/
theorem hostRule_safe (pr : Bool) : SafeRule ((hostRule h tl).filter pr) := by
  obtain ⟨rd, hf⟩ := hostRule_filter hh he pr
  refine safeRule_ok ?_
  rw [hf]
  have h0 : (0 : Byte) ∉ h := fun hm => (hh.2 _ hm).2.1 rfl
  have h1 : ch%'^' ∉ h := fun hm => absurd (by decide) (hh.2 _ hm).1
  have h2 : ch%'*' ∉ h := fun hm => absurd rfl (hh.2 _ hm).2.2.2.2.2.1
  rcases he with rfl | rfl
  · simp only [safeRule, cstr, List.append_nil, List.reverse_append, List.reverse_cons, List.reverse_nil, List.nil_append,
      List.singleton_append, BEq.rfl, Bool.true_and, Bool.and_eq_true, Bool.not_eq_true', Bool.or_eq_true,
      bne_iff_ne, List.contains_eq_mem, List.mem_reverse, decide_eq_false_iff_not]
    refine ⟨⟨h0, fun hm => h1 ?_⟩, .inr ⟨⟨by simpa using hh.1, fun hm => h2 ?_⟩, by decide⟩⟩
    · exact List.mem_reverse.1 (List.drop_subset _ _ (List.dropLast_subset _ hm))
    · exact List.mem_reverse.1 (List.mem_of_mem_head? (by rw [hm]; rfl))
  · simp [safeRule, cstr]
    exact ⟨⟨h0, fun hm => h1 (List.mem_of_mem_tail hm)⟩, .inr (by decide)⟩

/-- **C34**, in any list: if `||h^` or `||h` is the first rule of this kind for the host `h` and the list
has no exceptions, every request for an address on `h` is blocked, unless it is for the main
document of a page. -/
theorem C34_in_list {E : Env} {c : Client E} {fs : List Filter} (hist : History E c fs) (pr : Bool)
    (hmem : (hostRule h tl).filter pr ∈ fs) (hfirst : FirstForHost false fs ((hostRule h tl).filter pr))
    (hexc : ∀ g ∈ fs, ¬ IsException g) {url : Bytes} (hu : OnHost h url) {co : Mask} {dom : Option Bytes}
    (hdoc : has co FODocument = false) {o : Outcome E} (hq : c.query url co dom = .ok o) : o.block = true := by
  have hdoc' : has (resolveContext url co dom) FODocument = false := by
    have := C07_other_bits_kept url co dom
    unfold has at hdoc ⊢
    have e : ∀ m : Mask, m &&& FODocument = (m &&& ~~~(FOThirdParty ||| FONotThirdParty)) &&& FODocument := by
      intro m
      rw [BitVec.and_assoc]
      congr 1
    rw [e, this, ← e]
    exact hdoc
  obtain ⟨hacts, hname, hw, hl⟩ := hostRule_acts hh he pr hu c.tags (resolveContext url co dom) dom hdoc'
  have hold := history_holds hist
  obtain ⟨rd, hf⟩ := hostRule_filter hh he pr
  have hhr : HostRule false ((hostRule h tl).filter pr) := by
    rw [hf]; exact ⟨hostMask.2.2.2.2.2, hostMask.2.2.2.2.1, by simp⟩
  rcases hold.ready with hr | ⟨rfl, _, _, _⟩
  · have hq := query_ok hr hu.nul (fun id f hf => hold.index.parsed f (hold.mem.1 hf).1) ((C02_blockable_protocols url).1.2 ⟨hw, hl⟩) rfl hq
    cases hq with
    | free hn =>
      obtain ⟨t, ht⟩ := Option.isSome_iff_exists.1 (hr.hs false)
      have hfind := (host_find hold ht).2 ⟨_, hmem, hhr, hfirst, rfl, rfl⟩
      have hlook : (((hostRule h tl).filter pr).host.getD []) ∈ hostLookups (getUrlHost url) :=
        (mem_hostLookups _ _).2 (by rw [hf]; exact hname)
      obtain ⟨b, hb⟩ := hn.hosts t _ _ ht hlook hfind
      have hb' := matches_bare (hold.index.parsed _ hmem) hb
      rw [hacts.1] at hb'
      cases hb'
      exact absurd ⟨_, .inr (.inr (.inr (.inr ⟨t, _, ht, hlook, hfind⟩))), hb, by simpa using hacts.2⟩ hn.undecided
    | excepted f e h1 h2 h3 h4 =>
      obtain ⟨g, hg, _, hk, _⟩ := decided_considered hold hr h3 h4
      exact absurd hk (hexc g hg)
    | blocked f _ _ _ h4 => exact h4
  · cases hmem

/-- **C34**: after loading `||h^` or `||h` into a new client, every request for an address on `h`, or on
a subdomain of `h` when `h` has a dot, is blocked, whatever its scheme, port, path and query, its
type (other than main document) and the page it comes from. -/
theorem C34_host_rule_blocks (E : Env) (hlen : h.length ≤ 2044) : ∃ c,
    (Client.fresh E).parse (bs%"||" ++ h ++ tl) false = .ok c ∧
    ∀ url, OnHost h url → ∀ co dom, has co FODocument = false → ∃ o, c.query url co dom = .ok o ∧ o.block = true := by
  have e : listText ([hostRule h tl].map RuleText.line) = bs%"||" ++ h ++ tl := by
    simp [listText, RuleText.line, RuleText.body, RuleText.marks, RuleText.trailer, RuleText.optionText, hostRule, Anchor.mark]
  obtain ⟨c, h1, h2⟩ := load_texts (History.new (E := E)) [hostRule h tl] (by simp)
    (fun r hr => by simp only [List.mem_singleton] at hr; subst hr; exact ⟨hostRule_wellFormed hh he hlen, hostRule_safeLine hh he hlen⟩) false
  rw [e] at h1
  refine ⟨c, h1, fun url hu co dom hdoc => ?_⟩
  simp only [List.nil_append, List.map_cons, List.map_nil] at h2
  obtain ⟨rd, hf⟩ := hostRule_filter hh he false
  have hsafe : ∀ f ∈ [(hostRule h tl).filter false], SafeRule f := by
    intro f hm
    simp only [List.mem_singleton] at hm
    subst hm
    exact hostRule_safe hh he false
  obtain ⟨o, ho⟩ := query_safe (history_holds h2) hsafe hu.nul co dom
  refine ⟨o, ho, C34_in_list hh he h2 false (by simp) ?_ ?_ hu hdoc ho⟩
  · unfold FirstForHost
    rw [List.find?_cons_of_pos]
    simp only [and_true, decide_eq_true_eq]
    rw [hf]; exact ⟨hostMask.2.2.2.2.2, hostMask.2.2.2.2.1, by simp⟩
  · intro g hg
    simp only [List.mem_singleton] at hg
    subst hg
    rw [hf]
    show ¬ (FTHostAnchored ||| FTHostOnly) &&& FTListTypesMask = FTException
    decide

end

/-- the hypotheses are met, e.g., by these addresses -/
example : HostName bs%"ads.example.com" ∧ OnHost bs%"ads.example.com" bs%"https://ads.example.com" ∧
    OnHost bs%"ads.example.com" bs%"wss://a.b.ads.example.com:8080/x?y=z" := by
  refine ⟨⟨by decide, by decide⟩, ⟨⟨bs%"https", [], [], by decide, by decide, .inl rfl, .inl rfl⟩, by decide⟩,
    ⟨⟨bs%"wss", bs%"a.b.", bs%":8080/x?y=z", by decide, by decide, .inr ⟨bs%"a.b", by decide, by decide, by decide⟩,
      .inr ⟨ch%':', bs%"8080/x?y=z", by decide, by decide⟩⟩, by decide⟩⟩

/-- **C34**, why a dot is required for subdomains, and other requests than main documents:
`||com^` does not block `http://a.com/`, and `||a.com^` does not block its main document. -/
theorem C34_limits :
    ((Client.fresh toyEnv).parse bs%"||com^" false >>= fun c => Outcome.block <$> c.query bs%"http://a.com/" 0 none) = .ok false ∧
    ((Client.fresh toyEnv).parse bs%"||a.com^" false >>= fun c => Outcome.block <$> c.query bs%"http://a.com/" FODocument none) = .ok false := by
  decide +kernel

end AdBlock
