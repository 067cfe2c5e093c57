import Verif.Props.FindRuleLaws
import Verif.Props.Apart
import Verif.Props.HostRules
import Verif.Props.Longer
import Verif.Props.Pages
import Verif.Props.Scheme
/-
What requests have in common for `findMatchingFilters` (C114).
-/
namespace AdBlock
open Spec

/-- Requests to which the same rules of a list apply get the same answer of `findMatchingFilters`. -/
theorem finds_requests {E : Env} {A : Bytes} {rs : List RuleText} (hA : Lists E A rs) {q q' : Request} (preserve preserve' : Bool) {tags : List Bytes}
    (hq : q.Web) (hs : Spec.Comparable rs q) (hq' : q'.Web) (hs' : Spec.Comparable rs q')
    (h : ∀ r ∈ rs, (HostCounted rs q r ∧ r.AppliesTo tags q ↔ HostCounted rs q' r ∧ r.AppliesTo tags q')) :
    ∃ b, Finds E A preserve tags q b ∧ Finds E A preserve' tags q' b := by
  obtain ⟨b, h1, h2⟩ := finds_iff hA preserve tags hq hs
  obtain ⟨b', h3, h4⟩ := finds_iff hA preserve' tags hq' hs'
  have key : ∀ s, (∃ r ∈ rs, r.exception = s ∧ HostCounted rs q r ∧ r.AppliesTo tags q) ↔
      ∃ r ∈ rs, r.exception = s ∧ HostCounted rs q' r ∧ r.AppliesTo tags q' := fun s =>
    exists_congr fun r => and_congr_right fun hr => and_congr_right fun _ => h r hr
  have : b = b' := by rw [Bool.eq_iff_iff, h2, h4, key, key]
  exact ⟨b, h1, this ▸ h3⟩

/-- The same for requests that differ in their type and page only. -/
theorem finds_origins {E : Env} {A : Bytes} {rs : List RuleText} (hA : Lists E A rs) {q q' : Request} (hurl : q'.url = q.url) (hhost : q'.host = q.host)
    (hall : ∀ r ∈ rs, (r.TypeAllowed q' ∧ r.PageAllowed q' ↔ r.TypeAllowed q ∧ r.PageAllowed q)) (preserve preserve' : Bool) (tags : List Bytes)
    (hq : q.Web) (hs : Spec.Comparable rs q) (hq' : q'.Web) : ∃ b, Finds E A preserve tags q b ∧ Finds E A preserve' tags q' b := by
  have hs' : Spec.Comparable rs q' := by
    refine ⟨fun r hr hp => hs.inBounds r hr ?_⟩
    unfold RuleText.ReadsPast at hp ⊢
    rw [hurl, hhost] at hp
    obtain ⟨h1, h2, h3, h4⟩ := hp
    obtain ⟨h2, h3⟩ := (hall r hr).1 ⟨h2, h3⟩
    exact ⟨h1, h2, h3, h4⟩
  refine finds_requests hA preserve preserve' hq hs hq' hs' fun r hr => and_congr ?_ ?_
  · unfold HostCounted
    rw [hhost]
  · have hfit : r.AddressFits q ↔ r.AddressFits q' := by
      unfold RuleText.AddressFits
      rw [hurl, hhost]
    unfold RuleText.AppliesTo
    rw [hfit]
    constructor
    · rintro ⟨h1, h2, h3, h4⟩
      obtain ⟨h2, h3⟩ := (hall r hr).2 ⟨h2, h3⟩
      exact ⟨h1, h2, h3, h4⟩
    · rintro ⟨h1, h2, h3, h4⟩
      obtain ⟨h2, h3⟩ := (hall r hr).1 ⟨h2, h3⟩
      exact ⟨h1, h2, h3, h4⟩

/-! ### The claims -/

/-- **C114**: the page makes no difference to `findMatchingFilters` if no rule says anything about pages (see C86), as far as this holds, … -/
theorem C114_page_partial {E : Env} {A : Bytes} {rs : List RuleText} (hA : Lists E A rs) (h : ∀ r ∈ rs, AnyPage r) (preserve preserve' : Bool)
    (tags : List Bytes) {q : Request} (ht : q.type ≠ none ∨ ∀ r ∈ rs, r.notTypes = [] ∧ ¬ r.TakenForType) (hq : q.Web) (hs : Spec.Comparable rs q)
    (page : Option Bytes) : ∃ b, Finds E A preserve tags q b ∧ Finds E A preserve' tags { q with domain := page } b := by
  refine finds_origins (q := q) (q' := { q with domain := page }) hA rfl rfl (fun r hr => ?_) preserve preserve' tags hq hs
    ⟨hq.scheme, hq.host, hq.rest, hq.text, hq.type⟩
  refine and_congr ?_ ⟨fun _ => anyPage_allowed (h r hr) _, fun _ => anyPage_allowed (h r hr) _⟩
  unfold RuleText.TypeAllowed
  cases hty : q.type with
  | none =>
    rcases ht with ht | ht
    · exact absurd hty ht
    · simp [(ht r hr).1, (ht r hr).2]
  | some t => exact Iff.rfl

/-- … nor the type if none says anything about types, main documents aside (see C86), … -/
theorem C114_type {E : Env} {A : Bytes} {rs : List RuleText} (hA : Lists E A rs) (h : ∀ r ∈ rs, AnyType r) (preserve preserve' : Bool)
    (tags : List Bytes) {q : Request} (hq : q.Web) (hs : Spec.Comparable rs q) (type : Option (Bytes × Mask)) (hin : ∀ t, type = some t → t ∈ typeTable)
    (hdoc : ∀ t, q.type = some t ∨ type = some t → t.1 ≠ bs%"document") :
    ∃ b, Finds E A preserve tags q b ∧ Finds E A preserve' tags { q with type := type } b := by
  have hallowed : ∀ r, AnyType r → ∀ x : Request, (∀ t, x.type = some t → t.1 ≠ bs%"document") → r.TypeAllowed x := by
    intro r hr x hx
    unfold RuleText.TypeAllowed
    cases hty : x.type with
    | none => exact ⟨hr.1, fun _ => hr.2.1, fun _ => hr.2.2⟩
    | some t => exact ⟨.inr ⟨hr.1, hr.2.2⟩, by rw [hr.2.1]; simp, fun hd => absurd hd (hx t hty)⟩
  refine finds_origins (q := q) (q' := { q with type := type }) hA rfl rfl (fun r hr => and_congr ?_ Iff.rfl) preserve preserve' tags hq hs
    ⟨hq.scheme, hq.host, hq.rest, hq.text, hin⟩
  exact ⟨fun _ => hallowed r (h r hr) q fun t ht => hdoc t (.inl ht), fun _ => hallowed r (h r hr) _ fun t ht => hdoc t (.inr ht)⟩

/-- … nor the scheme if none says anything about it (see C93). -/
theorem C114_scheme {E : Env} {A : Bytes} {rs : List RuleText} (hA : Lists E A rs) (hr : ∀ r ∈ rs, r.anchor ≠ .left ∧ SchemeFree r.text)
    {q : Request} {scheme : Bytes} (preserve preserve' : Bool) (tags : List Bytes) (hq : q.Web) (hs : Spec.Comparable rs q)
    (hq' : ({ q with scheme := scheme } : Request).Web) (hs' : Spec.Comparable rs { q with scheme := scheme }) :
    ∃ b, Finds E A preserve tags q b ∧ Finds E A preserve' tags { q with scheme := scheme } b := by
  refine finds_requests hA preserve preserve' hq hs hq' hs' fun r hr' => and_congr Iff.rfl ⟨?_, ?_⟩
  · rintro ⟨ha1, ha2, ha3, ha4, ha5⟩
    exact ⟨ha1, ha2, ha3, ha4, fits_scheme (hr r hr').1 (hr r hr').2 hq (web_scheme hq').1 ha5⟩
  · rintro ⟨ha1, ha2, ha3, ha4, ha5⟩
    exact ⟨ha1, ha2, ha3, ha4,
      fits_scheme (q := { q with scheme := scheme }) (scheme := q.scheme) (hr r hr').1 (hr r hr').2 hq' (web_scheme hq).1 ha5⟩

/-- Pages of subdomains are like those of the domain, which here needs no dot (see C95), as far as this holds. -/
theorem C114_subdomain_page_partial {E : Env} {A : Bytes} {rs : List RuleText} (hA : Lists E A rs) {q : Request} {d sub : Bytes}
    (hm : ∀ r ∈ rs, ∀ dl, r.value bs%"domain=" = some dl → ∀ s ∈ positive dl ++ negative dl, SameSite s (sub ++ ch%'.' :: d) → SameSite s d)
    (hp : (∀ r ∈ rs, ¬ r.Says bs%"third-party" ∧ ¬ r.Denies bs%"third-party") ∨ (SameSite d q.host ↔ SameSite (sub ++ ch%'.' :: d) q.host))
    (preserve preserve' : Bool) (tags : List Bytes) (hq : q.Web) (hs : Spec.Comparable rs { q with domain := some d }) :
    ∃ b, Finds E A preserve tags { q with domain := some d } b ∧ Finds E A preserve' tags { q with domain := some (sub ++ ch%'.' :: d) } b := by
  refine finds_origins (q := { q with domain := some d }) (q' := { q with domain := some (sub ++ ch%'.' :: d) }) hA rfl rfl (fun r hr => and_congr ?_ ?_)
    preserve preserve' tags ⟨hq.scheme, hq.host, hq.rest, hq.text, hq.type⟩ hs ⟨hq.scheme, hq.host, hq.rest, hq.text, hq.type⟩
  · unfold RuleText.TypeAllowed
    cases q.type <;> simp
  · unfold RuleText.PageAllowed
    have e : ∀ x, (∀ y, ({ q with domain := some x } : Request).domain = some y → (r.Says bs%"third-party" → ¬ SameSite y q.host) ∧
        (r.Denies bs%"third-party" → SameSite y q.host) ∧ ∀ dl, r.value bs%"domain=" = some dl → DomainAdmitted dl y) ↔
        ((r.Says bs%"third-party" → ¬ SameSite x q.host) ∧ (r.Denies bs%"third-party" → SameSite x q.host) ∧
          ∀ dl, r.value bs%"domain=" = some dl → DomainAdmitted dl x) := by
      intro x
      constructor
      · exact fun h => h x rfl
      · rintro h y ⟨⟩
        exact h
    refine (e _).trans (Iff.trans ?_ (e d).symm)
    have hadm : (∀ dl, r.value bs%"domain=" = some dl → DomainAdmitted dl d) ↔
        ∀ dl, r.value bs%"domain=" = some dl → DomainAdmitted dl (sub ++ ch%'.' :: d) :=
      forall_congr' fun dl => forall_congr' fun hdl => (admitted_subdomain fun s hs =>
        ⟨hm r hr dl hdl s hs, fun h => sameSite_trans h (.inr ⟨sub, rfl⟩)⟩).symm
    rw [hadm]
    rcases hp with hp | hp
    · simp [(hp r hr).1, (hp r hr).2]
    · rw [hp]

/-- What is added at the end of an address makes no difference to what blocks (see C92), as far as this holds. -/
theorem C114_longer_partial {E : Env} {A : Bytes} {rs : List RuleText} (hA : Lists E A rs) {tags : List Bytes} {q : Request} {more : Bytes}
    (hb : ∀ r ∈ rs, r.exception = false → r.rightBar = false)
    (hm : (∃ c w, more = c :: w ∧ IsSep c) ∨ ∀ r ∈ rs, r.exception = false → ch%'^' ∉ r.text)
    (he : ∀ r ∈ rs, r.exception = true → ¬ r.AppliesTo tags { q with rest := q.rest ++ more })
    (preserve : Bool) (hq : q.Web) (hs : Spec.Comparable rs q) (hq' : ({ q with rest := q.rest ++ more } : Request).Web)
    (hs' : Spec.Comparable rs { q with rest := q.rest ++ more }) (h : Finds E A preserve tags q true) :
    Finds E A preserve tags { q with rest := q.rest ++ more } true := by
  obtain ⟨b, h1, h2⟩ := finds_iff hA preserve tags hq hs
  obtain ⟨b', h3, h4⟩ := finds_iff hA preserve tags hq' hs'
  rw [finds_unique h1 h] at h2
  obtain ⟨⟨r, hr, hre, hc, ha1, ha2, ha3, ha4, ha5⟩, -⟩ := h2.1 rfl
  have : b' = true := by
    rw [h4]
    refine ⟨⟨r, hr, hre, hc, ha1, ha2, ha3, ha4, ?_⟩, fun ⟨x, hx, hxe, _, hxa⟩ => he x hx hxe hxa⟩
    exact fits_longer (hb r hr hre) (hm.imp_right fun h => h r hr hre) ha5
  exact this ▸ h3

/-- What is blocked for a host is so for its subdomains (see C94), as far as this holds. -/
theorem C114_subdomain_partial {E : Env} {A : Bytes} {rs : List RuleText} (hA : Lists E A rs) {tags : List Bytes} {q : Request} {sub : Bytes}
    (hr : ∀ r ∈ rs, r.exception = false → ForHost r)
    (hd : ∀ r ∈ rs, r.Says bs%"third-party" → ∀ d, q.domain = some d → ¬ SameSite d (sub ++ ch%'.' :: q.host))
    (he : ∀ r ∈ rs, r.exception = true → ¬ r.AppliesTo tags { q with host := sub ++ ch%'.' :: q.host })
    (preserve : Bool) (hq : q.Web) (hs : Spec.Comparable rs q) (hq' : ({ q with host := sub ++ ch%'.' :: q.host } : Request).Web)
    (hs' : Spec.Comparable rs { q with host := sub ++ ch%'.' :: q.host })
    (h : Finds E A preserve tags q true) : Finds E A preserve tags { q with host := sub ++ ch%'.' :: q.host } true := by
  obtain ⟨b, h1, h2⟩ := finds_iff hA preserve tags hq hs
  obtain ⟨b', h3, h4⟩ := finds_iff hA preserve tags hq' hs'
  rw [finds_unique h1 h] at h2
  obtain ⟨⟨r, hr', hre, hc, ha1, ha2, ha3, ha4, ha5⟩, -⟩ := h2.1 rfl
  have : b' = true := by
    rw [h4]
    refine ⟨⟨r, hr', hre, fun hh => ⟨(hc hh).1, .inr (hr r hr' hre).2.2.2.1⟩, ha1, ha2, fun d hdom => ?_, ha4,
      fits_subdomain (hr r hr' hre) hq ha5⟩, fun ⟨x, hx, hxe, _, hxa⟩ => he x hx hxe hxa⟩
    obtain ⟨h5, h6, h7⟩ := ha3 d hdom
    exact ⟨fun hs => hd r hr' hs d hdom, fun hs => sameSite_trans (h6 hs) (.inr ⟨sub, rfl⟩), h7⟩
  exact this ▸ h3

/-- If all rules of a list consist of a host, nothing in the address but its host makes a difference (see C99). -/
theorem C114_host_only {E : Env} {A : Bytes} {rs : List RuleText} (hA : Lists E A rs) (hw : ∀ r ∈ rs, WholeHost r) (preserve preserve' : Bool)
    (tags : List Bytes) {q q' : Request} (hq : q.Web) (hq' : q'.Web) (hs : SameApartFromAddress q q') :
    ∃ b, Finds E A preserve tags q b ∧ Finds E A preserve' tags q' b := by
  refine finds_requests hA preserve preserve' hq ⟨fun r hr => whole_safe (hw r hr) q⟩ hq' ⟨fun r hr => whole_safe (hw r hr) q'⟩ fun r hr => ?_
  rw [whole_applies (hw r hr) hq hq' hs]
  unfold HostCounted
  rw [hs.host]

/-- An exception for a host frees everything from it (see C100), as far as this holds. -/
theorem C114_exception_partial {E : Env} {A : Bytes} {before after : List RuleText} {e : RuleText} (hA : Lists E A (before ++ e :: after))
    (hex : e.exception = true) (he : WholeHost e) (ho : e.options = none)
    (hfirst : ∀ r ∈ before, r.exception = true → r.HostOnly → r.hostPart ≠ e.hostPart) (preserve : Bool) (tags : List Bytes)
    {q : Request} (hq : q.Web) (hs : Spec.Comparable (before ++ e :: after) q) (hsite : SameSite e.hostPart q.host)
    (hdot : e.hostPart = q.host ∨ ch%'.' ∈ e.hostPart) (hdoc : ∀ t, q.type = some t → t.1 ≠ bs%"document") : Finds E A preserve tags q false := by
  obtain ⟨b, h1, h2⟩ := finds_iff hA preserve tags hq hs
  have : b = false := by
    rw [← Bool.not_eq_true, h2]
    rintro ⟨-, hno⟩
    refine hno ⟨e, by simp, hex, fun _ => ⟨⟨before, after, rfl, ?_⟩, hdot⟩, exception_applies he ho hq hsite hdoc tags⟩
    rintro r hr ⟨h3, h4, h5⟩
    exact hfirst r hr (h4.trans hex) h3 h5
  exact this ▸ h1

/-- A list which is for other requests by its options blocks nothing (see C104). -/
theorem C114_left_alone {E : Env} {A : Bytes} {rs : List RuleText} (hA : Lists E A rs) (preserve : Bool) {tags : List Bytes} {q : Request}
    (hq : q.Web) (hs : Spec.Comparable rs q) (h : ∀ r ∈ rs, r.exception = false → Elsewhere r tags q) : Finds E A preserve tags q false := by
  obtain ⟨b, h1, h2⟩ := finds_iff hA preserve tags hq hs
  have : b = false := by
    rw [← Bool.not_eq_true, h2]
    rintro ⟨⟨r, hr, he, -, ha⟩, -⟩
    exact elsewhere_applies (h r hr he) ha
  exact this ▸ h1

/-! ### examples, and what goes wrong otherwise -/

/-- **C114** fails for the page of requests of an unknown type: see C86. -/
theorem C114_unknown_counterexample {E : Env} (hroll : ∀ url, E.fp.rolls url) :
    Finds E bs%"banner$~script" false [] { exBanner with type := none, domain := none } false ∧
    Finds E bs%"banner$~script" false [] { exBanner with type := none, domain := some bs%"b.com" } true := by
  have hp : ∀ r ∈ [({ text := bs%"banner", options := some bs%"~script" } : RuleText)], plainRule r = true := by decide +kernel
  have hw : ∀ d, ({ exBanner with type := none, domain := d } : Request).Web := fun d =>
    ⟨exBanner_web.scheme, exBanner_web.host, exBanner_web.rest, exBanner_web.text, by simp⟩
  exact ⟨finds_of_answers hroll hp (lists_rules (plainRules_sound hp) (by simp)) (by decide +kernel) (hw _) (C86_unknown_counterexample hroll).1,
    finds_of_answers hroll hp (lists_rules (plainRules_sound hp) (by simp)) (by decide +kernel) (hw _) (C86_unknown_counterexample hroll).2⟩

/-- **C114** fails for `&` and `#` behind an address: see C92. -/
theorem C114_separator_counterexample {E : Env} (hroll : ∀ url, E.fp.rolls url) : Finds E bs%"banner^" false [] exBanner true ∧
    Finds E bs%"banner^" false [] (exQuery bs%"&x") false ∧ Finds E bs%"banner^" false [] (exQuery bs%"#x") false := by
  have hp : ∀ r ∈ [({ text := bs%"banner^" } : RuleText)], plainRule r = true := by decide +kernel
  obtain ⟨h1, h2, h3⟩ := C92_separator_counterexample hroll
  exact ⟨finds_of_answers hroll hp (lists_rules (plainRules_sound hp) (by simp)) (by decide +kernel) exBanner_web h1,
    finds_of_answers hroll hp (lists_rules (plainRules_sound hp) (by simp)) (by decide +kernel) (exQuery_web (by decide)) h2,
    finds_of_answers hroll hp (lists_rules (plainRules_sound hp) (by simp)) (by decide +kernel) (exQuery_web (by decide)) h3⟩

/-- **C114** fails for the subdomains of a host without a dot: see C94. -/
theorem C114_dot_counterexample {E : Env} (hroll : ∀ url, E.fp.rolls url) : Finds E bs%"||intranet^" false [] exIntranet true ∧
    Finds E bs%"||intranet^" false [] { exIntranet with host := bs%"a.intranet" } false := by
  have hp : ∀ r ∈ [({ anchor := .host, text := bs%"intranet^" } : RuleText)], plainRule r = true := by decide +kernel
  exact ⟨finds_of_answers hroll hp (lists_rules (plainRules_sound hp) (by simp)) (by decide +kernel) exIntranet_web (C94_dot_counterexample hroll).1,
    finds_of_answers (q := { exIntranet with host := bs%"a.intranet" }) hroll hp (lists_rules (plainRules_sound hp) (by simp)) (by decide +kernel)
      ⟨exIntranet_web.scheme, ⟨by decide +kernel, by decide +kernel⟩, exIntranet_web.rest, ⟨by decide +kernel, exIntranet_web.text.2⟩, exIntranet_web.type⟩
      (C94_dot_counterexample hroll).2⟩

/-- **C114** fails for options about the party: see C95. -/
theorem C114_party_counterexample {E : Env} (hroll : ∀ url, E.fp.rolls url) : Finds E bs%"banner$third-party" false [] (exOnPage bs%"b.com") false ∧
    Finds E bs%"banner$third-party" false [] (exOnPage bs%"www.b.com") true := by
  have hp : ∀ r ∈ [({ text := bs%"banner", options := some bs%"third-party" } : RuleText)], plainRule r = true := by decide +kernel
  exact ⟨finds_of_answers hroll hp (lists_rules (plainRules_sound hp) (by simp)) (by decide +kernel) (exOnPage_web _) (C95_party_counterexample hroll).1,
    finds_of_answers hroll hp (lists_rules (plainRules_sound hp) (by simp)) (by decide +kernel) (exOnPage_web _) (C95_party_counterexample hroll).2⟩

/-- **C114** fails for an exception behind one which consists of the same host: see C100. -/
theorem C114_first_counterexample {E : Env} (hroll : ∀ url, E.fp.rolls url) :
    Finds E bs%"banner\n@@||b.com^$image\n@@||b.com^" false [] exBanner true := by
  have hp : ∀ r ∈ [({ text := bs%"banner" } : RuleText), { exception := true, anchor := .host, text := bs%"b.com^", options := some bs%"image" },
    { exception := true, anchor := .host, text := bs%"b.com^" }], plainRule r = true := by decide +kernel
  exact finds_of_answers hroll hp (lists_rules (plainRules_sound hp) (by simp)) (by decide +kernel) exBanner_web (C100_first_counterexample hroll)

private def exFreed : List RuleText := [{ text := bs%"banner" }, { exception := true, anchor := .host, text := bs%"b.com^" }]

/-- **C114**, examples: the page and the type do not matter to rules without options, … -/
example {E : Env} (hroll : ∀ url, E.fp.rolls url) (page : Option Bytes) :
    (∃ b, Finds E bs%"banner\n@@||b.com^" false [] exBanner b ∧ Finds E bs%"banner\n@@||b.com^" false [] { exBanner with domain := page } b) ∧
    ∃ b, Finds E bs%"banner\n@@||b.com^" false [] exBanner b ∧
      Finds E bs%"banner\n@@||b.com^" false [] { exBanner with type := some (bs%"image", FOImage) } b := by
  have hp : ∀ r ∈ exFreed, plainRule r = true := by decide +kernel
  have hl : Lists E bs%"banner\n@@||b.com^" exFreed := lists_rules (plainRules_sound hp) (by simp [exFreed])
  have hs := (plainRules_askable hroll hp exBanner_web).safe
  refine ⟨C114_page_partial hl (fun r hr => ?_) false false [] (.inl (by simp [exBanner, exRequest])) exBanner_web hs page,
    C114_type hl (fun r hr => ?_) false false [] exBanner_web hs _ (by rintro t ⟨⟩; decide +kernel) (by rintro t (h | h) <;> cases h <;> decide)⟩
  · simp only [exFreed, List.mem_cons, List.not_mem_nil, or_false] at hr
    rcases hr with rfl | rfl <;> exact ⟨by decide +kernel, by decide +kernel, by decide +kernel⟩
  · simp only [exFreed, List.mem_cons, List.not_mem_nil, or_false] at hr
    rcases hr with rfl | rfl <;> exact ⟨by decide +kernel, by decide +kernel, by decide +kernel⟩

/-- … nor the scheme, … -/
example {E : Env} (hroll : ∀ url, E.fp.rolls url) : ∃ b, Finds E bs%"banner\n@@||b.com^" false [] exBanner b ∧
    Finds E bs%"banner\n@@||b.com^" false [] { exBanner with scheme := bs%"ws" } b := by
  have hp : ∀ r ∈ exFreed, plainRule r = true := by decide +kernel
  have hw : ({ exBanner with scheme := bs%"ws" } : Request).Web := ⟨by decide +kernel, exBanner_web.host, exBanner_web.rest, exBanner_web.text, exBanner_web.type⟩
  refine C114_scheme (rs := exFreed) (lists_rules (plainRules_sound hp) (by simp [exFreed])) (fun r hr => ?_) false false [] exBanner_web
    (plainRules_askable (E := E) hroll hp exBanner_web).safe hw (plainRules_askable (E := E) hroll hp hw).safe
  simp only [exFreed, List.mem_cons, List.not_mem_nil, or_false] at hr
  rcases hr with rfl | rfl
  · exact ⟨nofun, [], ch%'b', bs%"anner", rfl, by simp, by decide +kernel, by decide, .inl rfl⟩
  · exact ⟨nofun, [], ch%'b', bs%".com^", rfl, by simp, by decide +kernel, by decide, .inl rfl⟩

/-- … an exception for a host frees its subdomains too, … -/
example {E : Env} (hroll : ∀ url, E.fp.rolls url) : Finds E bs%"banner\n@@||b.com^" false [] { exBanner with host := bs%"a.b.com" } false := by
  have hp : ∀ r ∈ exFreed, plainRule r = true := by decide +kernel
  have hw : ({ exBanner with host := bs%"a.b.com" } : Request).Web :=
    ⟨exBanner_web.scheme, ⟨by decide, by decide +kernel⟩, exBanner_web.rest, ⟨by decide, exBanner_web.text.2⟩, exBanner_web.type⟩
  exact C114_exception_partial (before := [{ text := bs%"banner" }]) (after := []) (e := { exception := true, anchor := .host, text := bs%"b.com^" })
    (lists_rules (plainRules_sound hp) (by simp)) rfl ⟨rfl, by decide +kernel⟩ rfl (by simp) false [] hw
    (plainRules_askable (E := E) hroll hp hw).safe (.inr ⟨bs%"a", by decide +kernel⟩) (.inr (by decide +kernel)) (by rintro t ⟨⟩; decide)

/-- … a page of `a.lan` is like one of `lan`, though not for `matches` (C95), … -/
example {E : Env} (hroll : ∀ url, E.fp.rolls url) : ∃ b, Finds E bs%"&b=$domain=~lan" false [] (exOnLan bs%"lan") b ∧
    Finds E bs%"&b=$domain=~lan" false [] (exOnLan bs%"a.lan") b := by
  have hp : ∀ r ∈ [exNotLan], plainRule r = true := by decide +kernel
  refine C114_subdomain_page_partial (q := exOnY) (d := bs%"lan") (sub := bs%"a") (lists_rules (plainRules_sound hp) (by simp)) ?_ (.inl (by decide +kernel))
    false false [] exOnY_web (plainRules_askable (E := E) hroll hp (exOnLan_web _)).safe
  intro r hr dl hdl s hs _
  rw [List.mem_singleton.1 hr, show exNotLan.value bs%"domain=" = some bs%"~lan" from by decide +kernel] at hdl
  cases hdl
  have h2 : ∀ s ∈ positive bs%"~lan" ++ negative bs%"~lan", bs%"lan" = s := by decide +kernel
  exact .inl (h2 s hs)

/-- … a query makes no difference to a rule that blocks, … -/
example {E : Env} (hroll : ∀ url, E.fp.rolls url) {query : Bytes} (h : 0 ∉ query) : Finds E bs%"banner^" false [] (exQuery (ch%'?' :: query)) true := by
  have hp : ∀ r ∈ [({ text := bs%"banner^" } : RuleText)], plainRule r = true := by decide +kernel
  have hw := exQuery_web (more := ch%'?' :: query) (by simpa using h)
  exact C114_longer_partial (q := exBanner) (more := ch%'?' :: query) (lists_rules (plainRules_sound hp) (by simp)) (by simp)
    (.inl ⟨_, _, rfl, by decide +kernel⟩) (by simp) false exBanner_web (plainRules_askable (E := E) hroll hp exBanner_web).safe hw
    (plainRules_askable (E := E) hroll hp hw).safe (C114_separator_counterexample hroll).1

/-- … rules for a host hold for its subdomains, … -/
example {E : Env} (hroll : ∀ url, E.fp.rolls url) : Finds E bs%"||b.com/ban" false [] { exBanner with host := bs%"a.b.com" } true := by
  have hp : ∀ r ∈ [({ anchor := .host, text := bs%"b.com/ban" } : RuleText)], plainRule r = true := by decide +kernel
  have hw : ({ exBanner with host := bs%"a.b.com" } : Request).Web :=
    ⟨exBanner_web.scheme, ⟨by decide, by decide +kernel⟩, exBanner_web.rest, ⟨by decide, exBanner_web.text.2⟩, exBanner_web.type⟩
  have hl : Lists E bs%"||b.com/ban" [{ anchor := .host, text := bs%"b.com/ban" }] := lists_rules (plainRules_sound hp) (by simp)
  refine C114_subdomain_partial (q := exBanner) (sub := bs%"a") hl ?_ ?_ (by simp) false exBanner_web
    (plainRules_askable (E := E) hroll hp exBanner_web).safe hw (plainRules_askable (E := E) hroll hp hw).safe
    (finds_of_answers hroll hp hl (by decide +kernel) exBanner_web
      (answers_compared (v := true) (r := { anchor := .host, text := bs%"b.com/ban" }) hroll (by decide +kernel) rfl
        (.inl (by decide +kernel)) (by decide +kernel) (by decide +kernel) exBanner_web (by decide +kernel)))
  · intro r hr _
    rw [List.mem_singleton.1 hr]
    exact ⟨rfl, rfl, rfl, by decide +kernel, by decide +kernel⟩
  · intro r _ _ d hdom
    cases hdom

/-- … lists of hosts look at the host only, … -/
example {E : Env} : ∃ b, Finds E bs%"||ads.com^$image" false [] exAds b ∧
    Finds E bs%"||ads.com^$image" false [] { exAds with scheme := bs%"wss", rest := bs%":8080/a?b=c" } b := by
  have hp : ∀ r ∈ [exImages], plainRule r = true := by decide +kernel
  exact C114_host_only (lists_rules (plainRules_sound hp) (by simp)) (fun r hr => by rw [List.mem_singleton.1 hr]; exact ⟨rfl, by decide +kernel⟩)
    false false [] exAds_web (q' := { exAds with scheme := bs%"wss", rest := bs%":8080/a?b=c" })
    ⟨by decide +kernel, exAds_web.host, .inr ⟨_, _, rfl, by decide +kernel⟩, ⟨exAds_web.text.1, by decide +kernel⟩, exAds_web.type⟩ ⟨rfl, rfl, rfl⟩

/-- … and a list for third parties and images leaves the scripts of a page itself alone. -/
example {E : Env} (hroll : ∀ url, E.fp.rolls url) :
    Finds E bs%"banner$third-party\npixel$image" false [] { exBanner with domain := some bs%"b.com" } false := by
  have hp : ∀ r ∈ [({ text := bs%"banner", options := some bs%"third-party" } : RuleText), { text := bs%"pixel", options := some bs%"image" }],
    plainRule r = true := by decide +kernel
  have hw : ({ exBanner with domain := some bs%"b.com" } : Request).Web :=
    ⟨exBanner_web.scheme, exBanner_web.host, exBanner_web.rest, exBanner_web.text, exBanner_web.type⟩
  refine C114_left_alone (lists_rules (plainRules_sound hp) (by simp)) false hw (plainRules_askable (E := E) hroll hp hw).safe fun r hr _ => ?_
  rcases List.mem_cons.1 hr with rfl | hr
  · exact .thirdParty rfl (by decide +kernel) (.inl rfl)
  · rw [List.mem_singleton.1 hr]
    exact .types rfl (by decide +kernel) (by decide +kernel)

end AdBlock
