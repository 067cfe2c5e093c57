import Verif.SpecRedundant
import Verif.Props.Pages
/-
Domains in a `domain=` list which make no difference.
-/
namespace AdBlock
open Spec

/-! ### domains and their subdomains -/

theorem sameSite_length {a b : Bytes} (h : SameSite a b) : a.length ≤ b.length := by
  rcases h with rfl | ⟨x, rfl⟩
  · exact Nat.le_refl _
  · simp only [List.length_append, List.length_cons]
    omega

theorem sameSite_shorter {a b : Bytes} (h : SameSite a b) (hne : a ≠ b) : a.length < b.length := by
  rcases h with rfl | ⟨x, rfl⟩
  · exact absurd rfl hne
  · simp only [List.length_append, List.length_cons]
    omega

/-- of two domains to which a third belongs, the longer one belongs to the shorter one -/
theorem sameSite_between {a b d : Bytes} (ha : SameSite a d) (hb : SameSite b d) (h : a.length ≤ b.length) : SameSite a b := by
  rcases ha with rfl | ⟨x, rfl⟩
  · rcases hb with rfl | ⟨y, rfl⟩
    · exact .inl rfl
    · simp only [List.length_append, List.length_cons] at h
      omega
  · rcases hb with rfl | ⟨y, e⟩
    · exact .inr ⟨x, rfl⟩
    · rcases List.append_eq_append_iff.1 e with ⟨c, e1, e2⟩ | ⟨c, e1, e2⟩
      · cases c with
        | nil =>
          simp only [List.nil_append] at e2
          injection e2 with _ e2
          exact .inl e2.symm
        | cons z c =>
          rw [List.cons_append] at e2
          injection e2 with _ e2
          rw [e2] at h
          simp only [List.length_append, List.length_cons] at h
          omega
      · cases c with
        | nil =>
          simp only [List.nil_append] at e2
          injection e2 with _ e2
          exact .inl e2
        | cons z c =>
          rw [List.cons_append] at e2
          injection e2 with _ e2
          exact .inr ⟨c, e2⟩

theorem moreDomains_positive {dl dl' : Bytes} (h : MoreDomains dl dl') {s : Bytes} (hs : s ∈ positive dl) : s ∈ positive dl' := by
  unfold positive at hs ⊢
  rw [List.mem_filter] at hs ⊢
  exact ⟨h.kept s hs.1, hs.2⟩

theorem moreDomains_negative {dl dl' : Bytes} (h : MoreDomains dl dl') {s : Bytes} (hs : s ∈ negative dl) : s ∈ negative dl' := by
  unfold negative at hs ⊢
  obtain ⟨t, ht, rfl⟩ := List.mem_map.1 hs
  rw [List.mem_filter] at ht
  exact List.mem_map.2 ⟨t, List.mem_filter.2 ⟨h.kept t ht.1, ht.2⟩, rfl⟩

theorem moreDomains_nil {dl dl' : Bytes} (h : MoreDomains dl dl') : positive dl' = [] ↔ positive dl = [] := by
  simp only [List.eq_nil_iff_forall_not_mem]
  refine ⟨fun h1 s hs => h1 s (moreDomains_positive h hs), fun h1 s hs => ?_⟩
  rcases h.listed s hs with h2 | ⟨p, h2, -⟩ <;> exact h1 _ h2

theorem moreDomains_admitted {dl dl' : Bytes} (h : MoreDomains dl dl') (d : Bytes) : DomainAdmitted dl' d ↔ DomainAdmitted dl d := by
  constructor
  · rintro (⟨s, hs, hc, hl⟩ | ⟨h1, h2⟩)
    · left
      rcases h.listed s hs with h1 | ⟨p, hp, hdot, h1, h2⟩
      · exact ⟨s, h1, hc, fun n hn hcn => hl n (moreDomains_negative h hn) hcn⟩
      · refine ⟨p, hp, ⟨sameSite_trans h1 hc.1, hdot⟩, fun n hn hcn => ?_⟩
        have hn' := moreDomains_negative h hn
        exact sameSite_length (h2 n hn' (sameSite_between hcn.1 hc.1 (hl n hn' hcn)))
    · exact .inr ⟨(moreDomains_nil h).1 h1, fun s hs => h2 s (moreDomains_negative h hs)⟩
  · rintro (⟨p, hp, hc, hl⟩ | ⟨h1, h2⟩)
    · left
      have hp' := moreDomains_positive h hp
      refine ⟨p, hp', hc, fun s hs hcs => ?_⟩
      rcases h.excluded s hs with h1 | ⟨n, hn, hdot, h1, h2⟩ | ⟨-, h1⟩
      · exact hl s h1 hcs
      · refine Nat.le_of_not_lt fun hlt => ?_
        obtain ⟨h3, h4⟩ := h2 p hp' (sameSite_between hc.1 hcs.1 (Nat.le_of_lt hlt))
        have := hl n hn ⟨sameSite_trans h1 hcs.1, hdot⟩
        have := sameSite_shorter h3 h4
        omega
      · refine Nat.le_of_not_lt fun hlt => ?_
        exact h1 p hp' (sameSite_between hc.1 hcs.1 (Nat.le_of_lt hlt))
    · refine .inr ⟨(moreDomains_nil h).2 h1, fun s hs hcs => ?_⟩
      rcases h.excluded s hs with h3 | ⟨n, hn, hdot, h3, -⟩ | ⟨h3, -⟩
      · exact h2 s h3 hcs
      · exact h2 n hn ⟨sameSite_trans h3 hcs.1, hdot⟩
      · exact h3 h1

/-- The page is one of those a rule that only excludes domains excludes, in the index of domains. -/
def Excluded (dl d : Bytes) : Prop := ∃ s ∈ negative dl, SameSite s d ∧ (s = d ∨ ch%'.' ∈ s)

theorem moreDomains_excluded {dl dl' : Bytes} (h : MoreDomains dl dl') (hp : positive dl = []) (d : Bytes) : Excluded dl' d ↔ Excluded dl d := by
  constructor
  · rintro ⟨s, hs, h1, h2⟩
    rcases h.excluded s hs with h3 | ⟨n, hn, hdot, h3, -⟩ | ⟨h3, -⟩
    · exact ⟨s, h3, h1, h2⟩
    · exact ⟨n, hn, sameSite_trans h3 h1, .inr hdot⟩
    · exact absurd hp h3
  · rintro ⟨s, hs, h1⟩
    exact ⟨s, moreDomains_negative h hs, h1⟩

/-! ### rules -/

section
variable {r r' : RuleText} (h : SameUpToDomains r r')
include h

theorem more_exists {P : Bytes → Prop} (hP : ∀ o, P o → ¬ HasValue o) : (∃ o ∈ r'.entries, P o) ↔ ∃ o ∈ r.entries, P o := by
  constructor
  · rintro ⟨o, h1, h2⟩; exact ⟨o, (h.options o (hP o h2)).1 h1, h2⟩
  · rintro ⟨o, h1, h2⟩; exact ⟨o, (h.options o (hP o h2)).2 h1, h2⟩

theorem more_supported : (∀ o ∈ r'.entries, ¬ RuleText.Unsupported o) ↔ ∀ o ∈ r.entries, ¬ RuleText.Unsupported o := by
  have := more_exists h (P := RuleText.Unsupported) fun _ => not_hasValue_of_unsupported
  constructor
  · intro h1 o ho hu
    obtain ⟨o', h2, h3⟩ := this.2 ⟨o, ho, hu⟩
    exact h1 o' h2 h3
  · intro h1 o ho hu
    obtain ⟨o', h2, h3⟩ := this.1 ⟨o, ho, hu⟩
    exact h1 o' h2 h3

theorem more_says (n : Bytes) : r'.Says n ↔ r.Says n :=
  more_exists h fun o ho => not_hasValue_of_fullName (by rw [unsigned_of_fullName ho]; exact ho)

theorem more_denies (n : Bytes) : r'.Denies n ↔ r.Denies n :=
  more_exists h fun _ ho => not_hasValue_of_fullName ho.2

theorem more_typeAllowed (q : Request) : r'.TypeAllowed q ↔ r.TypeAllowed q := by
  have h1 : r'.TakenForType ↔ r.TakenForType := or_congr (more_says h _) (more_says h _)
  have h2 : r'.types = r.types := by
    unfold RuleText.types
    exact List.filter_congr fun t _ => by simp [more_says h]
  have h3 : r'.notTypes = r.notTypes := by
    unfold RuleText.notTypes
    exact List.filter_congr fun t _ => by simp [more_denies h]
  unfold RuleText.TypeAllowed
  rw [h2, h3]
  split <;> simp only [h1]

theorem more_pageAllowed (q : Request) : r'.PageAllowed q ↔ r.PageAllowed q := by
  have hd : ∀ d, (∀ dl, r'.value bs%"domain=" = some dl → DomainAdmitted dl d) ↔ ∀ dl, r.value bs%"domain=" = some dl → DomainAdmitted dl d := by
    intro d
    rcases h.domains with ⟨h1, h2⟩ | ⟨dl, dl', h1, h2, h3⟩
    · rw [h1, h2]
    · rw [h1, h2]
      simp only [Option.some.injEq, forall_eq']
      exact moreDomains_admitted h3 d
  unfold RuleText.PageAllowed
  simp only [more_says h, more_denies h, hd]

theorem more_fields : r'.exception = r.exception ∧ r'.anchor = r.anchor ∧ r'.text = r.text ∧ r'.rightBar = r.rightBar ∧ r'.odd = r.odd := by
  have := h.rest
  refine ⟨?_, ?_, ?_, ?_, ?_⟩ <;> rw [← this]

theorem more_hostPart : r'.hostPart = r.hostPart := by
  obtain ⟨-, -, h3, -, h5⟩ := more_fields h
  unfold RuleText.hostPart
  rw [h3, h5]

theorem more_hostOnly : r'.HostOnly ↔ r.HostOnly := by
  obtain ⟨-, h2, h3, h4, h5⟩ := more_fields h
  unfold RuleText.HostOnly RuleText.written
  rw [h2, h3, h4, h5, more_hostPart h]

theorem more_applies (tags : List Bytes) (q : Request) : r'.AppliesTo tags q ↔ r.AppliesTo tags q := by
  obtain ⟨-, h2, h3, h4, -⟩ := more_fields h
  unfold RuleText.AppliesTo RuleText.AddressFits RuleText.TagEnabled
  rw [more_supported h, more_typeAllowed h, more_pageAllowed h, h.tag, h2, h3, h4, more_hostPart h]

theorem more_readsPast (q : Request) : r'.ReadsPast q ↔ r.ReadsPast q := by
  obtain ⟨-, h2, h3, h4, -⟩ := more_fields h
  unfold RuleText.ReadsPast
  simp only [more_supported h, more_typeAllowed h, more_pageAllowed h, h2, h3, h4, more_hostPart h, more_hostOnly h]

theorem more_byDomain {bad : List Bytes} {dl : Bytes} (hb : ByDomain bad r dl) : ∃ dl', ByDomain bad r' dl' ∧ MoreDomains dl dl' := by
  obtain ⟨e1, e2, e3⟩ := hb
  rcases h.domains with ⟨g1, -⟩ | ⟨dl, dl', g1, g2, g3⟩
  · rw [g1] at e1; cases e1
  · rw [g1] at e1
    cases e1
    refine ⟨dl', ⟨g2, mt (more_hostOnly h).1 e2, mt (fun hi => ?_) e3⟩, g3⟩
    unfold RuleText.Indexable at hi ⊢
    rwa [(more_fields h).2.2.1] at hi

theorem more_byDomain' {bad : List Bytes} {dl' : Bytes} (hb : ByDomain bad r' dl') : ∃ dl, ByDomain bad r dl ∧ MoreDomains dl dl' := by
  obtain ⟨e1, e2, e3⟩ := hb
  rcases h.domains with ⟨-, g1⟩ | ⟨dl, dl', g1, g2, g3⟩
  · rw [g1] at e1; cases e1
  · rw [g2] at e1
    cases e1
    refine ⟨dl, ⟨g1, mt (more_hostOnly h).2 e2, mt (fun hi => ?_) e3⟩, g3⟩
    unfold RuleText.Indexable at hi ⊢
    rwa [(more_fields h).2.2.1]

end

/-! ### lists -/

/-- **C111**, if the page is known or every rule with domains is indexed otherwise: domains which make no difference, such as the
subdomains of domains in the same list, can be added or left out. -/
theorem C111_redundant_domains_partial {E : Env} {A B : Bytes} {rs : List RuleText} {φ : RuleText → RuleText} (hA : Lists E A rs)
    (hB : Lists E B (rs.map φ)) (hφ : ∀ r ∈ rs, SameUpToDomains r (φ r)) (preserve preserve' : Bool) (tags : List Bytes) {q : Request}
    (hd : q.domain = none → ∀ r ∈ rs, r.value bs%"domain=" = none ∨ r.HostOnly ∨ r.Indexable E.bad)
    (hq : Askable E rs q) : ∃ b, Answers E A preserve tags q b ∧ Answers E B preserve' tags q b := by
  have known : ∀ r ∈ rs, ∀ dl, ByDomain E.bad r dl → q.domain ≠ none := by
    intro r hr dl hdl hn
    rcases hd hn r hr with h | h | h
    · exact nomatch h.symm.trans hdl.1
    · exact hdl.2.1 h
    · exact hdl.2.2 h
  have hq' : Askable E (rs.map φ) q := by
    refine ⟨hq.web, ⟨fun r hr => ?_⟩, fun hn r hr dl hdl => ?_, hq.rolls⟩
    · obtain ⟨x, hx, rfl⟩ := List.mem_map.1 hr
      rw [more_readsPast (hφ x hx)]
      exact hq.safe.inBounds x hx
    · obtain ⟨x, hx, rfl⟩ := List.mem_map.1 hr
      obtain ⟨dl', h1, -⟩ := more_byDomain' (hφ x hx) hdl
      exact absurd hn (known x hx dl' h1)
  have kind : ∀ {x r : RuleText}, x ∈ rs → r ∈ rs → (((φ x).HostOnly ∧ (φ x).exception = (φ r).exception ∧ (φ x).hostPart = (φ r).hostPart) ↔
      (x.HostOnly ∧ x.exception = r.exception ∧ x.hostPart = r.hostPart)) := by
    intro x r hx hr
    rw [more_hostOnly (hφ x hx), more_hostPart (hφ x hx), more_hostPart (hφ r hr), (more_fields (hφ x hx)).1, (more_fields (hφ r hr)).1]
  have page : ∀ r ∈ rs, ∀ dl, ByDomain E.bad (φ r) dl → negative dl = [] → q.domain ≠ none := by
    intro r hr dl h1 _
    obtain ⟨dl', h3, -⟩ := more_byDomain' (hφ r hr) h1
    exact known r hr dl' h3
  have excl : ∀ r ∈ rs, ((∀ dl, ByDomain E.bad (φ r) dl → positive dl = [] →
        ∀ r' ∈ rs.map φ, r'.exception = (φ r).exception → (∀ o ∈ r'.entries, ¬ RuleText.Unsupported o) →
        ∀ dl', ByDomain E.bad r' dl' → positive dl' = [] → ∀ d, q.domain = some d →
        ∀ s ∈ negative dl', ¬ (SameSite s d ∧ (s = d ∨ ch%'.' ∈ s))) ↔
      (∀ dl, ByDomain E.bad r dl → positive dl = [] →
        ∀ r' ∈ rs, r'.exception = r.exception → (∀ o ∈ r'.entries, ¬ RuleText.Unsupported o) →
        ∀ dl', ByDomain E.bad r' dl' → positive dl' = [] → ∀ d, q.domain = some d →
        ∀ s ∈ negative dl', ¬ (SameSite s d ∧ (s = d ∨ ch%'.' ∈ s)))) := by
    intro r hr
    constructor
    · intro h dl h1 h2 r' hr' h3 h4 dl' h5 h6 d hd s hs hc
      obtain ⟨el, e1, e2⟩ := more_byDomain (hφ r hr) h1
      obtain ⟨el', e3, e4⟩ := more_byDomain (hφ r' hr') h5
      obtain ⟨t, ht, hc⟩ := (moreDomains_excluded e4 h6 d).2 ⟨s, hs, hc⟩
      refine h el e1 ((moreDomains_nil e2).2 h2) (φ r') (List.mem_map.2 ⟨r', hr', rfl⟩) ?_ ((more_supported (hφ r' hr')).2 h4)
        el' e3 ((moreDomains_nil e4).2 h6) d hd t ht hc
      rw [(more_fields (hφ r hr)).1, (more_fields (hφ r' hr')).1, h3]
    · intro h dl h1 h2 r' hr' h3 h4 dl' h5 h6 d hd s hs hc
      obtain ⟨x, hx, rfl⟩ := List.mem_map.1 hr'
      obtain ⟨el, e1, e2⟩ := more_byDomain' (hφ r hr) h1
      obtain ⟨el', e3, e4⟩ := more_byDomain' (hφ x hx) h5
      have h6' := (moreDomains_nil e4).1 h6
      obtain ⟨t, ht, hc⟩ := (moreDomains_excluded e4 h6' d).1 ⟨s, hs, hc⟩
      refine h el e1 ((moreDomains_nil e2).1 h2) x hx ?_ ((more_supported (hφ x hx)).1 h4) el' e3 h6' d hd t ht hc
      rw [(more_fields (hφ r hr)).1, (more_fields (hφ x hx)).1] at h3
      exact h3
  refine answers_same hA hB preserve preserve' hq hq' fun s => ⟨?_, ?_⟩
  · rintro ⟨r, hr, he, hc, ha⟩
    refine ⟨φ r, List.mem_map.2 ⟨r, hr, rfl⟩, by rw [(more_fields (hφ r hr)).1, he], ⟨?_, page r hr, (excl r hr).2 hc.excluded⟩,
      (more_applies (hφ r hr) tags q).2 ha⟩
    intro hh
    obtain ⟨⟨before, after, h1, h2⟩, h3⟩ := hc.host ((more_hostOnly (hφ r hr)).1 hh)
    refine ⟨⟨before.map φ, after.map φ, by rw [h1]; simp, fun x hx => ?_⟩, by rw [more_hostPart (hφ r hr)]; exact h3⟩
    obtain ⟨y, hy, rfl⟩ := List.mem_map.1 hx
    rw [kind (by rw [h1]; simp [hy]) hr]
    exact h2 y hy
  · rintro ⟨r, hr, he, hc, ha⟩
    by_cases hh : r.HostOnly
    · obtain ⟨⟨before, after, h1, h2⟩, h3⟩ := hc.host hh
      obtain ⟨b, l, h4, rfl, h5⟩ := List.map_eq_append_iff.1 h1
      obtain ⟨x, a, rfl, rfl, rfl⟩ := List.map_eq_cons_iff.1 h5
      have hx : x ∈ rs := by rw [h4]; simp
      refine ⟨x, hx, by rw [← (more_fields (hφ x hx)).1, he], ⟨fun _ => ⟨⟨b, a, h4, fun y hy => ?_⟩, ?_⟩, fun dl h _ => known x hx dl h,
        (excl x hx).1 hc.excluded⟩, (more_applies (hφ x hx) tags q).1 ha⟩
      · rw [← kind (by rw [h4]; simp [hy]) hx]
        exact h2 _ (List.mem_map.2 ⟨y, hy, rfl⟩)
      · rw [← more_hostPart (hφ x hx)]
        exact h3
    · obtain ⟨x, hx, rfl⟩ := List.mem_map.1 hr
      exact ⟨x, hx, by rw [← (more_fields (hφ x hx)).1, he], ⟨fun hh' => absurd ((more_hostOnly (hφ x hx)).2 hh') hh, fun dl h _ => known x hx dl h,
        (excl x hx).1 hc.excluded⟩, (more_applies (hφ x hx) tags q).1 ha⟩

/-! ### an example, and what goes wrong otherwise -/

theorem sameSite_suffix (a b : Bytes) : SameSite a b ↔ b = a ∨ ch%'.' :: a <:+ b :=
  or_congr Iff.rfl ⟨fun ⟨x, h⟩ => ⟨x, h.symm⟩, fun ⟨x, h⟩ => ⟨x, h.symm⟩⟩

instance (a b : Bytes) : Decidable (SameSite a b) := decidable_of_iff _ (sameSite_suffix a b).symm

/-- `domain=a.com|~x.a.com` and a longer way to write it -/
theorem exMore : MoreDomains bs%"a.com|~x.a.com" bs%"~c.com|a.com|www.a.com|~y.x.a.com|~x.a.com" :=
  ⟨by decide +kernel, by decide +kernel, by decide +kernel⟩

/-- **C111**, an example: for pages of `a.com`, but not of `x.a.com`. -/
example {E : Env} (hroll : ∀ url, E.fp.rolls url) (page : Bytes) : ∃ b,
    Answers E bs%"banner$domain=a.com|~x.a.com" false [] (exOnPage page) b ∧
    Answers E bs%"banner$domain=~c.com|a.com|www.a.com|~y.x.a.com|~x.a.com" false [] (exOnPage page) b := by
  let r : RuleText := { text := bs%"banner", options := some bs%"domain=a.com|~x.a.com" }
  let r' : RuleText := { text := bs%"banner", options := some bs%"domain=~c.com|a.com|www.a.com|~y.x.a.com|~x.a.com" }
  have hp : ∀ x ∈ [r], plainRule x = true := by decide +kernel
  have hp' : ∀ x ∈ [r'], plainRule x = true := by decide +kernel
  refine C111_redundant_domains_partial (rs := [r]) (φ := fun _ => r') (lists_rules (plainRules_sound hp) (by simp))
    (lists_rules (rs := [r']) (plainRules_sound hp') (by simp)) (fun x hx => ?_) false false [] (fun h => nomatch h)
    (plainRules_askable hroll hp (exOnPage_web page))
  rw [List.mem_singleton.1 hx]
  refine ⟨rfl, fun o ho => ?_, by decide +kernel, .inr ⟨_, _, by decide +kernel, by decide +kernel, exMore⟩⟩
  have h1 : ∀ o ∈ r.entries, HasValue o := by decide +kernel
  have h2 : ∀ o ∈ r'.entries, HasValue o := by decide +kernel
  exact ⟨fun h => absurd (h2 o h) ho, fun h => absurd (h1 o h) ho⟩

/-- **C111** fails for domains without a dot: they are not taken to include their subdomains. -/
theorem C111_dot_counterexample {E : Env} (hroll : ∀ url, E.fp.rolls url) :
    Answers E bs%"&b=$domain=~lan" false [] (exOnLan bs%"a.lan") true ∧
    Answers E bs%"&b=$domain=~lan|~a.lan" false [] (exOnLan bs%"a.lan") false := by
  refine ⟨(C95_dot_counterexample hroll).2, ?_⟩
  let r : RuleText := { text := bs%"&b=", options := some bs%"domain=~lan|~a.lan" }
  have hp : ∀ x ∈ [r], plainRule x = true := by decide +kernel
  obtain ⟨b, h1, h2⟩ := answers_iff (lists_rules (E := E) (plainRules_sound hp) (by simp)) false [] (plainRules_askable hroll hp (exOnLan_web bs%"a.lan"))
  have : b = false := by
    rw [← Bool.not_eq_true, h2]
    rintro ⟨⟨x, hx, -, -, ha⟩, -⟩
    rw [List.mem_singleton.1 hx] at ha
    exact nomatch (applies_compared (v := false) (by decide +kernel) (exOnLan_web bs%"a.lan") (by decide +kernel) (by decide +kernel) []).1 ha
  exact this ▸ h1

/-- a request of an unknown page -/
def exNoPage : Request := { exOnY with domain := none }

theorem exNoPage_web : exNoPage.Web := ⟨exOnY_web.scheme, exOnY_web.host, exOnY_web.rest, exOnY_web.text, exOnY_web.type⟩

/-- **C111** fails if the page is unknown: a rule found by its domains only is ignored, but not if it excludes any, however pointless
this may be. -/
theorem C111_page_counterexample {E : Env} (hroll : ∀ url, E.fp.rolls url) :
    MoreDomains bs%"a.com" bs%"a.com|~c.com" ∧
    Answers E bs%"&b=$domain=a.com" false [] exNoPage false ∧ Answers E bs%"&b=$domain=a.com|~c.com" false [] exNoPage true := by
  refine ⟨⟨by decide +kernel, by decide +kernel, by decide +kernel⟩, ?_, ?_⟩
  · let r : RuleText := { text := bs%"&b=", options := some bs%"domain=a.com" }
    have hp : ∀ x ∈ [r], plainRule x = true := by decide +kernel
    obtain ⟨b, h1, h2⟩ := answers_iff (lists_rules (E := E) (plainRules_sound hp) (by simp)) false [] (plainRules_askable hroll hp exNoPage_web)
    have : b = false := by
      rw [← Bool.not_eq_true, h2]
      rintro ⟨⟨x, hx, -, hc, -⟩, -⟩
      rw [List.mem_singleton.1 hx] at hc
      exact hc.page bs%"a.com" ⟨by decide +kernel, fun hh => (nomatch hh.1), short_not_indexable (by decide +kernel)⟩ (by decide +kernel) rfl
    exact this ▸ h1
  · let r : RuleText := { text := bs%"&b=", options := some bs%"domain=a.com|~c.com" }
    have hp : ∀ x ∈ [r], plainRule x = true := by decide +kernel
    obtain ⟨b, h1, h2⟩ := answers_iff (lists_rules (E := E) (plainRules_sound hp) (by simp)) false [] (plainRules_askable hroll hp exNoPage_web)
    have hdl : ∀ dl, ByDomain E.bad r dl → dl = bs%"a.com|~c.com" := by
      intro dl h
      have := h.1
      rw [show r.value bs%"domain=" = some bs%"a.com|~c.com" from by decide +kernel] at this
      exact (Option.some.inj this).symm
    have : b = true := by
      rw [h2]
      refine ⟨⟨r, by simp, rfl, ⟨fun hh => (nomatch hh.1), fun dl h hn => ?_, fun dl h hn => ?_⟩,
        (applies_compared (v := true) (by decide +kernel) exNoPage_web (by decide +kernel) (by decide +kernel) []).2 rfl⟩, ?_⟩
      · rw [hdl dl h] at hn
        exact absurd hn (by decide +kernel)
      · rw [hdl dl h] at hn
        exact absurd hn (by decide +kernel)
      · rintro ⟨x, hx, he, -⟩
        rw [List.mem_singleton.1 hx] at he
        cases he
    exact this ▸ h1

end AdBlock
