import Verif.SpecRuleLaws
import Verif.Props.TextLaws
import Verif.Lemmas.Stars
import Verif.Props.JsLib
/-
Further laws about lists of rules in terms of their text: the order of options and domains, redundant wildcards, and
rules which can be replaced by several others.
-/
namespace AdBlock
open Spec

/-! ### lists whose rules correspond to each other -/

/-- Two rules that are alike as far as a request is concerned. -/
structure RuleAlike (bad : List Bytes) (tags : List Bytes) (q : Request) (r r' : RuleText) : Prop where
  exception : r'.exception = r.exception
  hostOnly : r'.HostOnly ↔ r.HostOnly
  hostPart : r.HostOnly → r'.hostPart = r.hostPart
  supported : (∀ o ∈ r'.entries, ¬ RuleText.Unsupported o) ↔ ∀ o ∈ r.entries, ¬ RuleText.Unsupported o
  applies : r'.AppliesTo tags q ↔ r.AppliesTo tags q
  readsPast : r'.ReadsPast q ↔ r.ReadsPast q
  domains : ∀ dl, ByDomain bad r dl → ∃ dl', ByDomain bad r' dl' ∧ SameDomains dl dl'
  domains' : ∀ dl, ByDomain bad r' dl → ∃ dl', ByDomain bad r dl' ∧ SameDomains dl dl'

theorem sameDomains_symm {dl dl' : Bytes} (h : SameDomains dl dl') : SameDomains dl' dl := fun s => (h s).symm

theorem sameDomains_positive {dl dl' : Bytes} (h : SameDomains dl dl') (s : Bytes) : s ∈ positive dl' ↔ s ∈ positive dl := by
  unfold positive
  rw [List.mem_filter, List.mem_filter, h s]

theorem sameDomains_negative {dl dl' : Bytes} (h : SameDomains dl dl') (s : Bytes) : s ∈ negative dl' ↔ s ∈ negative dl := by
  unfold negative
  simp only [List.mem_map, List.mem_filter, h _]

theorem sameDomains_nil {dl dl' : Bytes} (h : SameDomains dl dl') : (positive dl' = [] ↔ positive dl = []) ∧ (negative dl' = [] ↔ negative dl = []) := by
  constructor
  · simp only [List.eq_nil_iff_forall_not_mem, sameDomains_positive h]
  · simp only [List.eq_nil_iff_forall_not_mem, sameDomains_negative h]

theorem sameDomains_admitted {dl dl' : Bytes} (h : SameDomains dl dl') (d : Bytes) : DomainAdmitted dl' d ↔ DomainAdmitted dl d := by
  unfold DomainAdmitted
  simp only [sameDomains_positive h, sameDomains_negative h, (sameDomains_nil h).1]

theorem answers_alike {E : Env} {A B : Bytes} {rs : List RuleText} {φ : RuleText → RuleText} (hA : Lists E A rs) (hB : Lists E B (rs.map φ))
    {tags : List Bytes} {q : Request} (hφ : ∀ r ∈ rs, RuleAlike E.bad tags q r (φ r)) (preserve preserve' : Bool) (hq : Askable E rs q) :
    ∃ b, Answers E A preserve tags q b ∧ Answers E B preserve' tags q b := by
  have hq' : Askable E (rs.map φ) q := by
    refine ⟨hq.web, ⟨fun r hr => ?_⟩, fun hd r hr dl hdl => ?_, hq.rolls⟩
    · obtain ⟨x, hx, rfl⟩ := List.mem_map.1 hr
      rw [(hφ x hx).readsPast]
      exact hq.safe.inBounds x hx
    · obtain ⟨x, hx, rfl⟩ := List.mem_map.1 hr
      obtain ⟨dl', h1, h2⟩ := (hφ x hx).domains' dl hdl
      rw [← sameDomains_negative h2]
      exact hq.empty hd x hx dl' h1
  have kind : ∀ {x r : RuleText}, x ∈ rs → r ∈ rs → r.HostOnly → (((φ x).HostOnly ∧ (φ x).exception = (φ r).exception ∧ (φ x).hostPart = (φ r).hostPart) ↔
      (x.HostOnly ∧ x.exception = r.exception ∧ x.hostPart = r.hostPart)) := by
    intro x r hx hr hh
    rw [(hφ x hx).hostOnly, (hφ r hr).hostPart hh, (hφ x hx).exception, (hφ r hr).exception]
    exact and_congr_right fun hh' => by rw [(hφ x hx).hostPart hh']
  have page : ∀ r ∈ rs, ((∀ dl, ByDomain E.bad (φ r) dl → negative dl = [] → q.domain ≠ none) ↔
      ∀ dl, ByDomain E.bad r dl → negative dl = [] → q.domain ≠ none) := by
    intro r hr
    constructor
    · intro h dl h1 h2
      obtain ⟨dl', h3, h4⟩ := (hφ r hr).domains dl h1
      exact h dl' h3 ((sameDomains_nil h4).2.2 h2)
    · intro h dl h1 h2
      obtain ⟨dl', h3, h4⟩ := (hφ r hr).domains' dl h1
      exact h dl' h3 ((sameDomains_nil h4).2.2 h2)
  have excl : ∀ r ∈ rs, ((∀ dl, ByDomain E.bad (φ r) dl → positive dl = [] →
        ∀ r' ∈ rs.map φ, r'.exception = (φ r).exception → (∀ o ∈ r'.entries, ¬ RuleText.Unsupported o) →
        ∀ dl', ByDomain E.bad r' dl' → positive dl' = [] → ∀ d, q.domain = some d →
        ∀ s ∈ negative dl', ¬ (SameSite s d ∧ (s = d ∨ ch%'.' ∈ s))) ↔
      (∀ dl, ByDomain E.bad r dl → positive dl = [] →
        ∀ r' ∈ rs, r'.exception = r.exception → (∀ o ∈ r'.entries, ¬ RuleText.Unsupported o) →
        ∀ dl', ByDomain E.bad r' dl' → positive dl' = [] → ∀ d, q.domain = some d →
        ∀ s ∈ negative dl', ¬ (SameSite s d ∧ (s = d ∨ ch%'.' ∈ s)))) := by
    intro r hr
    constructor
    · intro h dl h1 h2 r' hr' h3 h4 dl' h5 h6 d hd s hs
      obtain ⟨el, e1, e2⟩ := (hφ r hr).domains dl h1
      obtain ⟨el', e3, e4⟩ := (hφ r' hr').domains dl' h5
      refine h el e1 ((sameDomains_nil e2).1.2 h2) (φ r') (List.mem_map.2 ⟨r', hr', rfl⟩) ?_ ((hφ r' hr').supported.2 h4)
        el' e3 ((sameDomains_nil e4).1.2 h6) d hd s ((sameDomains_negative e4 s).2 hs)
      rw [(hφ r hr).exception, (hφ r' hr').exception, h3]
    · intro h dl h1 h2 r' hr' h3 h4 dl' h5 h6 d hd s hs
      obtain ⟨x, hx, rfl⟩ := List.mem_map.1 hr'
      obtain ⟨el, e1, e2⟩ := (hφ r hr).domains' dl h1
      obtain ⟨el', e3, e4⟩ := (hφ x hx).domains' dl' h5
      refine h el e1 ((sameDomains_nil e2).1.2 h2) x hx ?_ ((hφ x hx).supported.1 h4)
        el' e3 ((sameDomains_nil e4).1.2 h6) d hd s ((sameDomains_negative e4 s).2 hs)
      rw [(hφ r hr).exception, (hφ x hx).exception] at h3
      exact h3
  refine answers_same hA hB preserve preserve' hq hq' fun s => ⟨?_, ?_⟩
  · rintro ⟨r, hr, he, hc, ha⟩
    refine ⟨φ r, List.mem_map.2 ⟨r, hr, rfl⟩, by rw [(hφ r hr).exception, he], ⟨?_, (page r hr).2 hc.page, (excl r hr).2 hc.excluded⟩,
      (hφ r hr).applies.2 ha⟩
    intro hh
    replace hh := (hφ r hr).hostOnly.1 hh
    obtain ⟨⟨before, after, h1, h2⟩, h3⟩ := hc.host hh
    rw [(hφ r hr).hostPart hh]
    refine ⟨⟨before.map φ, after.map φ, by rw [h1]; simp, fun x hx => ?_⟩, h3⟩
    obtain ⟨y, hy, rfl⟩ := List.mem_map.1 hx
    rw [← (hφ r hr).hostPart hh, kind (by rw [h1]; simp [hy]) hr hh]
    exact h2 y hy
  · rintro ⟨r, hr, he, hc, ha⟩
    by_cases hh : r.HostOnly
    · obtain ⟨⟨before, after, h1, h2⟩, h3⟩ := hc.host hh
      obtain ⟨b, l, h4, rfl, h5⟩ := List.map_eq_append_iff.1 h1
      obtain ⟨x, a, rfl, rfl, rfl⟩ := List.map_eq_cons_iff.1 h5
      have hx : x ∈ rs := by rw [h4]; simp
      replace hh := (hφ x hx).hostOnly.1 hh
      refine ⟨x, hx, by rw [← (hφ x hx).exception, he], ⟨fun _ => ⟨⟨b, a, h4, fun y hy => ?_⟩, ?_⟩, (page x hx).1 hc.page, (excl x hx).1 hc.excluded⟩,
        (hφ x hx).applies.1 ha⟩
      · rw [← kind (by rw [h4]; simp [hy]) hx hh]
        exact h2 _ (List.mem_map.2 ⟨y, hy, rfl⟩)
      · rw [← (hφ x hx).hostPart hh]
        exact h3
    · obtain ⟨x, hx, rfl⟩ := List.mem_map.1 hr
      exact ⟨x, hx, by rw [← (hφ x hx).exception, he], ⟨fun hh' => absurd ((hφ x hx).hostOnly.2 hh') hh, (page x hx).1 hc.page,
        (excl x hx).1 hc.excluded⟩, (hφ x hx).applies.1 ha⟩

/-! ### the order of options and domains -/

section
variable {r r' : RuleText} (h : SameUpToOrder r r')
include h

theorem order_exists {P : Bytes → Prop} (hP : ∀ o, P o → ¬ HasValue o) : (∃ o ∈ r'.entries, P o) ↔ ∃ o ∈ r.entries, P o := by
  constructor
  · rintro ⟨o, h1, h2⟩; exact ⟨o, (h.options o (hP o h2)).1 h1, h2⟩
  · rintro ⟨o, h1, h2⟩; exact ⟨o, (h.options o (hP o h2)).2 h1, h2⟩

omit h in
theorem not_hasValue_of_fullName {o n : Bytes} (h : fullName (RuleText.unsigned o) = some n) : ¬ HasValue o := by
  rintro (hp | hp) <;> rw [fullName_of_prefix (by simp) hp] at h <;> cases h

omit h in
theorem not_hasValue_of_unsupported {o : Bytes} (h : RuleText.Unsupported o) : ¬ HasValue o := by
  rcases h with ⟨n, hn, h⟩ | h | ⟨h1, h2, h3⟩
  · exact not_hasValue_of_fullName (by rw [unsigned_of_fullName h]; exact h)
  · have hu : RuleText.unsigned o = o := by
      obtain ⟨t, rfl⟩ := h
      rfl
    unfold HasValue
    rw [hu]
    rintro (hp | hp) <;>
      exact absurd (List.prefix_or_prefix_of_prefix h hp) (by decide +kernel)
  · have hu : RuleText.unsigned o = o := by
      unfold RuleText.unsigned
      rw [if_neg h1]
    unfold HasValue
    rw [hu]
    rintro (hp | hp) <;> exact h2 _ (by simp) hp

theorem order_supported : (∀ o ∈ r'.entries, ¬ RuleText.Unsupported o) ↔ ∀ o ∈ r.entries, ¬ RuleText.Unsupported o := by
  have := order_exists h (P := RuleText.Unsupported) fun _ => not_hasValue_of_unsupported
  constructor
  · intro h1 o ho hu
    obtain ⟨o', h2, h3⟩ := this.2 ⟨o, ho, hu⟩
    exact h1 o' h2 h3
  · intro h1 o ho hu
    obtain ⟨o', h2, h3⟩ := this.1 ⟨o, ho, hu⟩
    exact h1 o' h2 h3

theorem order_says (n : Bytes) : r'.Says n ↔ r.Says n :=
  order_exists h fun o ho => not_hasValue_of_fullName (by rw [unsigned_of_fullName ho]; exact ho)

theorem order_denies (n : Bytes) : r'.Denies n ↔ r.Denies n :=
  order_exists h fun _ ho => not_hasValue_of_fullName ho.2

theorem order_typeAllowed (q : Request) : r'.TypeAllowed q ↔ r.TypeAllowed q := by
  have h1 : r'.TakenForType ↔ r.TakenForType := or_congr (order_says h _) (order_says h _)
  have h2 : r'.types = r.types := by
    unfold RuleText.types
    exact List.filter_congr fun t _ => by simp [order_says h]
  have h3 : r'.notTypes = r.notTypes := by
    unfold RuleText.notTypes
    exact List.filter_congr fun t _ => by simp [order_denies h]
  unfold RuleText.TypeAllowed
  rw [h2, h3]
  split <;> simp only [h1]

theorem order_pageAllowed (q : Request) : r'.PageAllowed q ↔ r.PageAllowed q := by
  have hd : ∀ d, (∀ dl, r'.value bs%"domain=" = some dl → DomainAdmitted dl d) ↔ ∀ dl, r.value bs%"domain=" = some dl → DomainAdmitted dl d := by
    intro d
    rcases h.domains with ⟨h1, h2⟩ | ⟨dl, dl', h1, h2, h3⟩
    · rw [h1, h2]
    · rw [h1, h2]
      simp only [Option.some.injEq, forall_eq']
      exact sameDomains_admitted h3 d
  unfold RuleText.PageAllowed
  simp only [order_says h, order_denies h, hd]

theorem order_fields : r'.exception = r.exception ∧ r'.anchor = r.anchor ∧ r'.text = r.text ∧ r'.rightBar = r.rightBar ∧ r'.odd = r.odd := by
  have := h.rest
  refine ⟨?_, ?_, ?_, ?_, ?_⟩ <;> rw [← this]

theorem order_alike (bad tags : List Bytes) (q : Request) : RuleAlike bad tags q r r' := by
  obtain ⟨h1, h2, h3, h4, h5⟩ := order_fields h
  have hhost : r'.hostPart = r.hostPart := by
    unfold RuleText.hostPart
    rw [h3, h5]
  have honly : r'.HostOnly ↔ r.HostOnly := by
    unfold RuleText.HostOnly RuleText.written
    rw [h2, h3, h4, h5, hhost]
  have hindex : r'.Indexable bad ↔ r.Indexable bad := by
    unfold RuleText.Indexable
    rw [h3]
  refine ⟨h1, honly, fun _ => hhost, order_supported h, ?_, ?_, ?_, ?_⟩
  · unfold RuleText.AppliesTo RuleText.AddressFits RuleText.TagEnabled
    rw [order_supported h, order_typeAllowed h, order_pageAllowed h, h.tag, h2, h3, h4, hhost]
  · unfold RuleText.ReadsPast
    simp only [order_supported h, order_typeAllowed h, order_pageAllowed h, h2, h3, h4, hhost, honly]
  · rintro dl ⟨e1, e2, e3⟩
    rcases h.domains with ⟨g1, g2⟩ | ⟨dl, dl', g1, g2, g3⟩
    · rw [g1] at e1; cases e1
    · rw [g1] at e1
      cases e1
      exact ⟨dl', ⟨g2, mt honly.1 e2, mt hindex.1 e3⟩, g3⟩
  · rintro dl ⟨e1, e2, e3⟩
    rcases h.domains with ⟨g1, g2⟩ | ⟨dl, dl', g1, g2, g3⟩
    · rw [g2] at e1; cases e1
    · rw [g2] at e1
      cases e1
      exact ⟨dl, ⟨g1, mt honly.2 e2, mt hindex.2 e3⟩, sameDomains_symm g3⟩

end

/-- **C81**: two lists whose rules differ only in the order and repetition of their options, and of the domains in their `domain=`
lists, give the same answers. -/
theorem C81_order_of_options {E : Env} {A B : Bytes} {rs : List RuleText} {φ : RuleText → RuleText} (hA : Lists E A rs)
    (hB : Lists E B (rs.map φ)) (hφ : ∀ r ∈ rs, SameUpToOrder r (φ r)) (preserve preserve' : Bool) (tags : List Bytes) {q : Request}
    (hq : Askable E rs q) : ∃ b, Answers E A preserve tags q b ∧ Answers E B preserve' tags q b :=
  answers_alike hA hB (fun r hr => order_alike (hφ r hr) _ _ _) preserve preserve' hq

/-! ### redundant stars -/

theorem stars_alike {r r' : RuleText} (h : SameUpToStars r r') (ht : r.text ≠ []) (bad tags : List Bytes) (q : Request) :
    RuleAlike bad tags q r r' := by
  have hf : r'.exception = r.exception ∧ r'.anchor = r.anchor ∧ r'.options = r.options ∧ r'.rightBar = r.rightBar ∧ r'.odd = r.odd := by
    have := h.rest
    refine ⟨?_, ?_, ?_, ?_, ?_⟩ <;> rw [← this]
  obtain ⟨h1, h2, h3, h4, h5⟩ := hf
  obtain ⟨-, hparts, hinfix⟩ := extraStars_same h.stars ht
  have hu : q.url ≠ [] := by unfold Request.url; simp
  have hs := hparts q.url hu
  have hent : r'.entries = r.entries := by unfold RuleText.entries; rw [h3]
  have hnot : ¬ r.HostOnly ∧ ¬ r'.HostOnly := by
    by_cases ha : r.anchor = .host
    · exact (h.host ha).2
    · exact ⟨fun hh => ha hh.1, fun hh => ha (h2 ▸ hh.1)⟩
  have hval : ∀ k, r'.value k = r.value k := fun k => by unfold RuleText.value; rw [hent]
  have htype : r'.TypeAllowed q ↔ r.TypeAllowed q := by
    have e : r' = { r with text := r'.text } := by
      conv => rhs; rw [← h.rest]
    rw [e]
    exact Iff.rfl
  have hpage : r'.PageAllowed q ↔ r.PageAllowed q := by
    unfold RuleText.PageAllowed RuleText.Says RuleText.Denies
    rw [hent, hval]
  have hsite : r.anchor = .host → r'.hostPart = r.hostPart := fun ha => (h.host ha).1
  have hindex : r'.Indexable bad ↔ r.Indexable bad := by
    unfold RuleText.Indexable
    constructor
    · rintro ⟨w, hw, hus⟩
      exact ⟨w, (hinfix w (fun hm => (hus.2.1 _ hm).2.1 rfl) (by rintro rfl; exact absurd hus.1 (by decide))).1 hw, hus⟩
    · rintro ⟨w, hw, hus⟩
      exact ⟨w, (hinfix w (fun hm => (hus.2.1 _ hm).2.1 rfl) (by rintro rfl; exact absurd hus.1 (by decide))).2 hw, hus⟩
  refine ⟨h1, ⟨fun hh => absurd hh hnot.2, fun hh => absurd hh hnot.1⟩, fun hh => absurd hh hnot.1, by rw [hent], ?_, ?_, ?_, ?_⟩
  · have haddr : r'.AddressFits q ↔ r.AddressFits q := by
      unfold RuleText.AddressFits Placed
      rw [h2, h4, h.bars.2]
      cases ha : r.anchor with
      | none => exact hs.placed
      | left => exact absurd ha h.bars.1
      | host => rw [hsite ha]; exact and_congr Iff.rfl hs.placed
    unfold RuleText.AppliesTo RuleText.TagEnabled
    rw [hent, htype, hpage, hval, haddr]
  · unfold RuleText.ReadsPast
    rw [hent, htype, hpage, h2, h4, h.bars.2]
    simp only [hnot.1, hnot.2, decide_false, Bool.not_false, hs.past, false_and, or_false]
    by_cases ha : r.anchor = .host
    · rw [hsite ha]
    · simp only [ha, false_implies]
  · rintro dl ⟨e1, e2, e3⟩
    exact ⟨dl, ⟨by rw [hval, e1], hnot.2, mt hindex.1 e3⟩, fun _ => Iff.rfl⟩
  · rintro dl ⟨e1, e2, e3⟩
    exact ⟨dl, ⟨by rw [← hval, e1], hnot.1, mt hindex.2 e3⟩, fun _ => Iff.rfl⟩

theorem alike_refl (bad tags : List Bytes) (q : Request) (r : RuleText) : RuleAlike bad tags q r r :=
  ⟨rfl, Iff.rfl, fun _ => rfl, Iff.rfl, Iff.rfl, Iff.rfl, fun dl h => ⟨dl, h, fun _ => Iff.rfl⟩, fun dl h => ⟨dl, h, fun _ => Iff.rfl⟩⟩

/-- **C82**, as far as it holds: stars at the beginning or the end of the text of rules without bars, next to other stars, or behind
the host of a `||` rule and something else make no difference. -/
theorem C82_redundant_stars_partial {E : Env} {A B : Bytes} {rs : List RuleText} {φ : RuleText → RuleText} (hA : Lists E A rs)
    (hB : Lists E B (rs.map φ)) (hφ : ∀ r ∈ rs, φ r = r ∨ SameUpToStars r (φ r)) (preserve preserve' : Bool) (tags : List Bytes)
    {q : Request} (hq : Askable E rs q) : ∃ b, Answers E A preserve tags q b ∧ Answers E B preserve' tags q b := by
  refine answers_alike hA hB (fun r hr => ?_) preserve preserve' hq
  rcases hφ r hr with h | h
  · rw [h]
    exact alike_refl _ _ _ _
  · refine stars_alike h ?_ _ _ _
    cases hA.sound.wellFormed r hr with
    | usual hw => exact hw.nonempty
    | odd hw => rw [h.usual] at hw; cases hw

/-- **C82** fails for other rules with stars: a star between bars, or in the host behind two bars, is taken for a character of the
address, so that rules with it block nothing. -/
theorem C82_literal_star_counterexample {E : Env} {A : Bytes} {rs : List RuleText} (hA : Lists E A rs)
    (hs : ∀ r ∈ rs, r.exception = false → LiteralStar r) (preserve : Bool) (tags : List Bytes) {q : Request} (hq : Askable E rs q)
    (hstar : ch%'*' ∉ q.url) : Answers E A preserve tags q false := by
  obtain ⟨b, h1, h2⟩ := answers_iff hA preserve tags hq
  cases b with
  | false => exact h1
  | true =>
    obtain ⟨⟨r, hr, he, -, ha⟩, -⟩ := h2.1 rfl
    exfalso
    have hfit := ha.2.2.2.2
    unfold RuleText.AddressFits at hfit
    apply hstar
    rcases hs r hr he with ⟨hm, hb⟩ | ⟨h3, h4, h5⟩
    · cases hl : r.anchor <;> cases hrb : r.rightBar <;> rw [hl, hrb] at hfit <;> simp only [hl, hrb, reduceCtorEq, or_self, Bool.false_eq_true] at hb
      · exact hfit.subset hm
      · exact hfit.subset hm
      · exact hfit ▸ hm
      · exact hfit.subset hm
    · rw [h3, h4] at hfit
      have : ch%'*' ∈ q.host := by
        rcases hfit.1 with h | ⟨sub, h⟩
        · rw [h]; exact h5
        · rw [h]; simp [h5]
      unfold Request.url
      simp [this]

/-! ### splitting rules -/

/-- The rules `parts` are as good as the rule `r`, as far as a request is concerned. -/
structure AsGood (bad tags : List Bytes) (q : Request) (r : RuleText) (parts : List RuleText) : Prop where
  nonempty : parts ≠ []
  exception : ∀ p ∈ parts, p.exception = r.exception
  hostOnly : ¬ r.HostOnly ∧ ∀ p ∈ parts, ¬ p.HostOnly
  supported : ∀ p ∈ parts, ((∀ o ∈ p.entries, ¬ RuleText.Unsupported o) ↔ ∀ o ∈ r.entries, ¬ RuleText.Unsupported o)
  applies : r.AppliesTo tags q ↔ ∃ p ∈ parts, p.AppliesTo tags q
  readsPast : r.ReadsPast q ↔ ∃ p ∈ parts, p.ReadsPast q
  page : ∀ p ∈ parts, ((∃ dl, ByDomain bad p dl ∧ negative dl = []) ↔ ∃ dl, ByDomain bad r dl ∧ negative dl = [])
  excluding : ∀ p ∈ parts, ∀ dl, negative dl ≠ [] ∨ positive dl = [] → (ByDomain bad p dl ↔ ByDomain bad r dl)

/-- Some rules are replaced by others that are as good. -/
inductive Replaced (bad tags : List Bytes) (q : Request) : (rs rs' : List RuleText) → Prop
  | nil : Replaced bad tags q [] []
  | keep {r rs rs'} : Replaced bad tags q rs rs' → Replaced bad tags q (r :: rs) (r :: rs')
  | by {r parts rs rs'} : AsGood bad tags q r parts → Replaced bad tags q rs rs' → Replaced bad tags q (r :: rs) (parts ++ rs')

/-- `p` is `r`, or one of the rules that replace it. -/
def ComesFrom (bad tags : List Bytes) (q : Request) (rs' : List RuleText) (r p : RuleText) : Prop :=
  p = r ∨ ∃ parts, AsGood bad tags q r parts ∧ p ∈ parts ∧ ∀ x ∈ parts, x ∈ rs'

theorem replaced_back {bad tags : List Bytes} {q : Request} {rs rs' : List RuleText} (h : Replaced bad tags q rs rs') :
    ∀ p ∈ rs', ∃ r ∈ rs, ComesFrom bad tags q rs' r p := by
  induction h with
  | nil => intro p hp; cases hp
  | @keep r rs rs' _ ih =>
    intro p hp
    rcases List.mem_cons.1 hp with rfl | hp
    · exact ⟨p, by simp, .inl rfl⟩
    · obtain ⟨x, hx, h⟩ := ih p hp
      refine ⟨x, List.mem_cons_of_mem _ hx, h.imp (fun h => h) ?_⟩
      rintro ⟨parts, h1, h2, h3⟩
      exact ⟨parts, h1, h2, fun y hy => List.mem_cons_of_mem _ (h3 y hy)⟩
  | @«by» r parts rs rs' hg _ ih =>
    intro p hp
    rcases List.mem_append.1 hp with hp | hp
    · exact ⟨r, by simp, .inr ⟨parts, hg, hp, fun y hy => List.mem_append_left _ hy⟩⟩
    · obtain ⟨x, hx, h⟩ := ih p hp
      refine ⟨x, List.mem_cons_of_mem _ hx, h.imp (fun h => h) ?_⟩
      rintro ⟨parts', h1, h2, h3⟩
      exact ⟨parts', h1, h2, fun y hy => List.mem_append_right _ (h3 y hy)⟩

theorem replaced_forth {bad tags : List Bytes} {q : Request} {rs rs' : List RuleText} (h : Replaced bad tags q rs rs') :
    ∀ r ∈ rs, r ∈ rs' ∨ ∃ parts, AsGood bad tags q r parts ∧ ∀ x ∈ parts, x ∈ rs' := by
  induction h with
  | nil => intro r hr; cases hr
  | @keep r rs rs' _ ih =>
    intro x hx
    rcases List.mem_cons.1 hx with rfl | hx
    · exact .inl (by simp)
    · rcases ih x hx with h | ⟨parts, h1, h2⟩
      · exact .inl (List.mem_cons_of_mem _ h)
      · exact .inr ⟨parts, h1, fun y hy => List.mem_cons_of_mem _ (h2 y hy)⟩
  | @«by» r parts rs rs' hg _ ih =>
    intro x hx
    rcases List.mem_cons.1 hx with rfl | hx
    · exact .inr ⟨parts, hg, fun y hy => List.mem_append_left _ hy⟩
    · rcases ih x hx with h | ⟨parts, h1, h2⟩
      · exact .inl (List.mem_append_right _ h)
      · exact .inr ⟨parts, h1, fun y hy => List.mem_append_right _ (h2 y hy)⟩

theorem replaced_hosts {bad tags : List Bytes} {q : Request} {rs rs' : List RuleText} (h : Replaced bad tags q rs rs') :
    rs'.filter (fun r => decide r.HostOnly) = rs.filter (fun r => decide r.HostOnly) := by
  induction h with
  | nil => rfl
  | keep _ ih => rw [List.filter_cons, List.filter_cons, ih]
  | «by» hg _ ih =>
    rw [List.filter_append, ih, List.filter_cons_of_neg (by simpa using hg.hostOnly.1),
      List.filter_eq_nil_iff.2 (fun p hp => by simpa using hg.hostOnly.2 p hp)]
    rfl

/-- Only the rules that consist of a host matter for whether one of them counts. -/
theorem hostCounted_hosts {rs : List RuleText} {q : Request} {r : RuleText} :
    HostCounted rs q r ↔ HostCounted (rs.filter fun r => decide r.HostOnly) q r := by
  constructor
  · intro h hh
    obtain ⟨⟨before, after, h1, h2⟩, h3⟩ := h hh
    exact ⟨⟨before.filter _, after.filter _, by rw [h1, List.filter_append, List.filter_cons_of_pos (by simpa using hh)],
      fun x hx => h2 x (List.mem_filter.1 hx).1⟩, h3⟩
  · intro h hh
    obtain ⟨⟨before, after, h1, h2⟩, h3⟩ := h hh
    refine ⟨?_, h3⟩
    obtain ⟨l1, l2, h4, h5, h6⟩ := List.filter_eq_append_iff.1 h1
    obtain ⟨l3, l4, h7, h8, h9, h10⟩ := List.filter_eq_cons_iff.1 h6
    refine ⟨l1 ++ l3, l4, by rw [h4, h7]; simp, fun x hx hk => ?_⟩
    rcases List.mem_append.1 hx with hx | hx
    · exact h2 x (by rw [← h5]; exact List.mem_filter.2 ⟨hx, by simpa using hk.1⟩) hk
    · exact absurd hk.1 (by simpa using h8 x hx)

/-- A rule that only excludes domains, and cannot be indexed, excludes the page. -/
def Gate (bad : List Bytes) (rs : List RuleText) (q : Request) (s : Bool) : Prop :=
  ∃ r ∈ rs, r.exception = s ∧ (∀ o ∈ r.entries, ¬ RuleText.Unsupported o) ∧ ∃ dl, ByDomain bad r dl ∧ positive dl = [] ∧
    ∃ d, q.domain = some d ∧ ∃ x ∈ negative dl, SameSite x d ∧ (x = d ∨ ch%'.' ∈ x)

theorem counted_gate {bad : List Bytes} {rs : List RuleText} {q : Request} {r : RuleText} : Counted bad rs q r ↔
    HostCounted rs q r ∧ ((∃ dl, ByDomain bad r dl ∧ negative dl = []) → q.domain ≠ none) ∧
      ((∃ dl, ByDomain bad r dl ∧ positive dl = []) → ¬ Gate bad rs q r.exception) := by
  constructor
  · rintro ⟨h1, h2, h3⟩
    refine ⟨h1, fun ⟨dl, h4, h5⟩ => h2 dl h4 h5, ?_⟩
    rintro ⟨dl, h4, h5⟩ ⟨x, hx, he, hs, dl', h6, h7, d, h8, y, hy, h9⟩
    exact h3 dl h4 h5 x hx he hs dl' h6 h7 d h8 y hy h9
  · rintro ⟨h1, h2, h3⟩
    refine ⟨h1, fun dl h4 h5 => h2 ⟨dl, h4, h5⟩, ?_⟩
    intro dl h4 h5 x hx he hs dl' h6 h7 d h8 y hy h9
    exact h3 ⟨dl, h4, h5⟩ ⟨x, hx, he, hs, dl', h6, h7, d, h8, y, hy, h9⟩

theorem answers_replaced {E : Env} {A B : Bytes} {rs rs' : List RuleText} (hA : Lists E A rs) (hB : Lists E B rs') {tags : List Bytes}
    {q : Request} (h : Replaced E.bad tags q rs rs') (preserve preserve' : Bool) (hq : Askable E rs q) :
    ∃ b, Answers E A preserve tags q b ∧ Answers E B preserve' tags q b := by
  have hq' : Askable E rs' q := by
    refine ⟨hq.web, ⟨fun p hp hpast => ?_⟩, fun hd p hp dl hdl => ?_, hq.rolls⟩
    · obtain ⟨r, hr, rfl | ⟨parts, hg, hpp, -⟩⟩ := replaced_back h p hp
      · exact hq.safe.inBounds p hr hpast
      · exact hq.safe.inBounds r hr (hg.readsPast.2 ⟨p, hpp, hpast⟩)
    · obtain ⟨r, hr, rfl | ⟨parts, hg, hpp, -⟩⟩ := replaced_back h p hp
      · exact hq.empty hd p hr dl hdl
      · by_cases hn : negative dl = []
        · rw [hn]; simp
        · exact hq.empty hd r hr dl ((hg.excluding p hpp dl (.inl hn)).1 hdl)
  have gate : ∀ s, Gate E.bad rs' q s ↔ Gate E.bad rs q s := by
    intro s
    constructor
    · rintro ⟨p, hp, he, hs, dl, h1, h2, h3⟩
      obtain ⟨r, hr, rfl | ⟨parts, hg, hpp, -⟩⟩ := replaced_back h p hp
      · exact ⟨p, hr, he, hs, dl, h1, h2, h3⟩
      · exact ⟨r, hr, by rw [← hg.exception p hpp, he], (hg.supported p hpp).1 hs, dl, (hg.excluding p hpp dl (.inr h2)).1 h1, h2, h3⟩
    · rintro ⟨r, hr, he, hs, dl, h1, h2, h3⟩
      rcases replaced_forth h r hr with hr' | ⟨parts, hg, hin⟩
      · exact ⟨r, hr', he, hs, dl, h1, h2, h3⟩
      · obtain ⟨p, ps, hp⟩ := List.exists_cons_of_ne_nil hg.nonempty
        have hpp : p ∈ parts := by rw [hp]; simp
        exact ⟨p, hin p hpp, by rw [hg.exception p hpp, he], (hg.supported p hpp).2 hs, dl, (hg.excluding p hpp dl (.inr h2)).2 h1, h2, h3⟩
  have counts : ∀ r, Counted E.bad rs' q r ↔ Counted E.bad rs q r := by
    intro r
    rw [counted_gate, counted_gate, hostCounted_hosts, hostCounted_hosts (rs := rs), replaced_hosts h, gate]
  have part : ∀ {r p : RuleText} {parts : List RuleText}, AsGood E.bad tags q r parts → p ∈ parts →
      (Counted E.bad rs q p ↔ Counted E.bad rs q r) := by
    intro r p parts hg hp
    have hpos : (∃ dl, ByDomain E.bad p dl ∧ positive dl = []) ↔ ∃ dl, ByDomain E.bad r dl ∧ positive dl = [] := by
      constructor
      · rintro ⟨dl, h1, h2⟩; exact ⟨dl, (hg.excluding p hp dl (.inr h2)).1 h1, h2⟩
      · rintro ⟨dl, h1, h2⟩; exact ⟨dl, (hg.excluding p hp dl (.inr h2)).2 h1, h2⟩
    rw [counted_gate, counted_gate, hg.page p hp, hpos, hg.exception p hp]
    exact and_congr ⟨fun _ hh => absurd hh hg.hostOnly.1, fun _ hh => absurd hh (hg.hostOnly.2 p hp)⟩ Iff.rfl
  refine answers_same hA hB preserve preserve' hq hq' fun s => ⟨?_, ?_⟩
  · rintro ⟨r, hr, he, hc, ha⟩
    rcases replaced_forth h r hr with hr' | ⟨parts, hg, hin⟩
    · exact ⟨r, hr', he, (counts r).2 hc, ha⟩
    · obtain ⟨p, hp, hap⟩ := hg.applies.1 ha
      exact ⟨p, hin p hp, by rw [hg.exception p hp, he], (counts p).2 ((part hg hp).2 hc), hap⟩
  · rintro ⟨p, hp, he, hc, ha⟩
    obtain ⟨r, hr, rfl | ⟨parts, hg, hpp, -⟩⟩ := replaced_back h p hp
    · exact ⟨p, hr, he, (counts p).1 hc, ha⟩
    · exact ⟨r, hr, by rw [← hg.exception p hpp, he], (part hg hpp).1 ((counts p).1 hc), hg.applies.2 ⟨p, hpp, ha⟩⟩

/-- What matters for rules that differ only in their options. -/
theorem asGood_of {bad tags : List Bytes} {q : Request} {r : RuleText} {parts : List RuleText}
    (hsame : ∀ p ∈ parts, { p with options := r.options } = r) (hne : parts ≠ []) (hh : ¬ r.HostOnly)
    (hs : ∀ p ∈ parts, ((∀ o ∈ p.entries, ¬ RuleText.Unsupported o) ↔ ∀ o ∈ r.entries, ¬ RuleText.Unsupported o))
    (htag : ∀ p ∈ parts, p.value bs%"tag=" = r.value bs%"tag=")
    (hallowed : (r.TypeAllowed q ∧ r.PageAllowed q) ↔ ∃ p ∈ parts, p.TypeAllowed q ∧ p.PageAllowed q)
    (hpage : ∀ p ∈ parts, ((∃ dl, p.value bs%"domain=" = some dl ∧ negative dl = []) ↔ ∃ dl, r.value bs%"domain=" = some dl ∧ negative dl = []))
    (hexcl : ∀ p ∈ parts, ∀ dl, negative dl ≠ [] ∨ positive dl = [] → (p.value bs%"domain=" = some dl ↔ r.value bs%"domain=" = some dl)) :
    AsGood bad tags q r parts := by
  have hf : ∀ p ∈ parts, p.exception = r.exception ∧ p.anchor = r.anchor ∧ p.text = r.text ∧ p.rightBar = r.rightBar ∧ p.odd = r.odd := by
    intro p hp
    have := hsame p hp
    refine ⟨?_, ?_, ?_, ?_, ?_⟩ <;> rw [← this]
  have hhost : ∀ p ∈ parts, p.hostPart = r.hostPart := by
    intro p hp
    obtain ⟨-, -, h3, -, h5⟩ := hf p hp
    unfold RuleText.hostPart
    rw [h3, h5]
  have honly : ∀ p ∈ parts, (p.HostOnly ↔ r.HostOnly) := by
    intro p hp
    obtain ⟨-, h2, h3, h4, h5⟩ := hf p hp
    unfold RuleText.HostOnly RuleText.written
    rw [h2, h3, h4, h5, hhost p hp]
  have hindex : ∀ p ∈ parts, (p.Indexable bad ↔ r.Indexable bad) := by
    intro p hp
    unfold RuleText.Indexable
    rw [(hf p hp).2.2.1]
  have hby : ∀ p ∈ parts, ∀ dl, (ByDomain bad p dl ↔ p.value bs%"domain=" = some dl ∧ ¬ r.HostOnly ∧ ¬ r.Indexable bad) := by
    intro p hp dl
    unfold ByDomain
    rw [honly p hp, hindex p hp]
  refine ⟨hne, fun p hp => (hf p hp).1, ⟨hh, fun p hp => mt (honly p hp).1 hh⟩, hs, ?_, ?_, ?_, ?_⟩
  · unfold RuleText.AppliesTo
    constructor
    · rintro ⟨h1, h2, h3, h4, h5⟩
      obtain ⟨p, hp, h6, h7⟩ := hallowed.1 ⟨h2, h3⟩
      obtain ⟨-, e2, e3, e4, -⟩ := hf p hp
      refine ⟨p, hp, (hs p hp).2 h1, h6, h7, ?_, ?_⟩
      · unfold RuleText.TagEnabled
        rw [htag p hp]; exact h4
      · unfold RuleText.AddressFits
        rw [e2, e3, e4, hhost p hp]; exact h5
    · rintro ⟨p, hp, h1, h2, h3, h4, h5⟩
      obtain ⟨-, e2, e3, e4, -⟩ := hf p hp
      obtain ⟨h6, h7⟩ := hallowed.2 ⟨p, hp, h2, h3⟩
      refine ⟨(hs p hp).1 h1, h6, h7, ?_, ?_⟩
      · unfold RuleText.TagEnabled at h4
        rw [htag p hp] at h4; exact h4
      · unfold RuleText.AddressFits at h5
        rw [e2, e3, e4, hhost p hp] at h5; exact h5
  · unfold RuleText.ReadsPast
    constructor
    · rintro ⟨h1, h2, h3, h4⟩
      obtain ⟨p, hp, h6, h7⟩ := hallowed.1 ⟨h2, h3⟩
      obtain ⟨-, e2, e3, e4, -⟩ := hf p hp
      refine ⟨p, hp, (hs p hp).2 h1, h6, h7, ?_⟩
      simpa only [e2, e3, e4, hhost p hp, honly p hp] using h4
    · rintro ⟨p, hp, h1, h2, h3, h4⟩
      obtain ⟨-, e2, e3, e4, -⟩ := hf p hp
      obtain ⟨h6, h7⟩ := hallowed.2 ⟨p, hp, h2, h3⟩
      refine ⟨(hs p hp).1 h1, h6, h7, ?_⟩
      simpa only [e2, e3, e4, hhost p hp, honly p hp] using h4
  · intro p hp
    simp only [hby p hp]
    unfold ByDomain
    constructor
    · rintro ⟨dl, ⟨h1, h2⟩, h3⟩
      obtain ⟨dl', h4, h5⟩ := (hpage p hp).1 ⟨dl, h1, h3⟩
      exact ⟨dl', ⟨h4, h2⟩, h5⟩
    · rintro ⟨dl, ⟨h1, h2⟩, h3⟩
      obtain ⟨dl', h4, h5⟩ := (hpage p hp).2 ⟨dl, h1, h3⟩
      exact ⟨dl', ⟨h4, h2⟩, h5⟩
  · intro p hp dl h
    rw [hby p hp]
    unfold ByDomain
    rw [hexcl p hp dl h]

/-- The value of an option depends on the options with this key only. -/
theorem value_append {k : Bytes} {r p : RuleText} {front front' others : List Bytes} (hr : r.entries = front ++ others)
    (hp : p.entries = front' ++ others) (h : ∀ o ∈ front, ¬ k <+: RuleText.unsigned o) (h' : ∀ o ∈ front', ¬ k <+: RuleText.unsigned o) :
    p.value k = r.value k := by
  have key : ∀ l : List Bytes, (∀ o ∈ l, ¬ k <+: RuleText.unsigned o) →
      (l.filterMap fun o => if k.isPrefixOf (RuleText.unsigned o) then some ((RuleText.unsigned o).drop k.length) else none) = [] := by
    intro l hl
    rw [List.filterMap_eq_nil_iff]
    intro o ho
    rw [if_neg fun hp => hl o ho (List.isPrefixOf_iff_prefix.1 hp)]
  unfold RuleText.value
  rw [hr, hp, List.filterMap_append, List.filterMap_append, key front h, key front' h']

theorem isType_facts {o : Bytes} (h : IsType o) : (∃ n, fullName o = some n ∧ ∃ t ∈ typeTable, t.1 = n) ∧ RuleText.unsigned o = o ∧
    o.head? ≠ some ch%'~' ∧ ¬ RuleText.Unsupported o ∧ ∀ k ∈ [bs%"domain=", bs%"tag="], ¬ k <+: RuleText.unsigned o := by
  obtain ⟨x, hx, h⟩ := h
  have hu := unsigned_of_fullName h
  have hk : ∀ k ∈ [bs%"domain=", bs%"tag=", bs%"csp=", bs%"redirect=", bs%"~"], ¬ k <+: o := by
    intro k hk hp
    rw [fullName_of_prefix hk hp] at h
    cases h
  refine ⟨⟨x.1, h, x, hx, rfl⟩, hu, ?_, ?_, ?_⟩
  · intro hh
    cases o with
    | nil => cases hh
    | cons c o =>
      simp only [List.head?_cons, Option.some.injEq] at hh
      subst hh
      exact hk bs%"~" (by simp) ⟨o, rfl⟩
  · rintro (⟨n, hn, h2⟩ | h2 | ⟨-, -, h2⟩)
    · rw [h2] at h
      cases h
      exact (by decide +kernel : ∀ x ∈ typeTable, x.1 ∉ [bs%"popup", bs%"elemhide", bs%"generichide", bs%"genericblock", bs%"empty"]) x hx hn
    · exact hk _ (by simp) h2
    · rw [h2] at h; cases h
  · rw [hu]
    intro k hk' hp
    exact hk k (by simp at hk' ⊢; rcases hk' with h | h <;> simp [h]) hp

theorem splitByType_asGood {bad tags : List Bytes} {q : Request} {r : RuleText} {parts : List RuleText} (h : SplitByType r parts)
    (hh : ¬ r.HostOnly) : AsGood bad tags q r parts := by
  obtain ⟨types, others, hne, htypes, hothers, hent, hparts⟩ := h.options
  have hof : ∀ p ∈ parts, ∃ o ∈ types, p.entries = o :: others := by
    intro p hp
    have : p.entries ∈ types.map (· :: others) := by rw [← hparts]; exact List.mem_map.2 ⟨p, hp, rfl⟩
    obtain ⟨o, ho, he⟩ := List.mem_map.1 this
    exact ⟨o, ho, he.symm⟩
  have hto : ∀ o ∈ types, ∃ p ∈ parts, p.entries = o :: others := by
    intro o ho
    have : o :: others ∈ parts.map RuleText.entries := by rw [hparts]; exact List.mem_map.2 ⟨o, ho, rfl⟩
    obtain ⟨p, hp, he⟩ := List.mem_map.1 this
    exact ⟨p, hp, he⟩
  have hval : ∀ p ∈ parts, ∀ k ∈ [bs%"domain=", bs%"tag="], p.value k = r.value k := by
    intro p hp k hk
    obtain ⟨o, ho, he⟩ := hof p hp
    refine value_append (front := types) (front' := [o]) hent he (fun x hx => (isType_facts (htypes x hx)).2.2.2.2 k hk) ?_
    intro x hx
    rw [List.mem_singleton.1 hx]
    exact (isType_facts (htypes o ho)).2.2.2.2 k hk
  have hsays : ∀ p ∈ parts, ∀ n, (∀ t ∈ typeTable, t.1 ≠ n) → (p.Says n ↔ r.Says n) := by
    intro p hp n hn
    obtain ⟨o, ho, he⟩ := hof p hp
    have hno : ∀ x ∈ types, fullName x ≠ some n := by
      intro x hx hf
      obtain ⟨⟨m, h1, t, ht, h2⟩, -⟩ := isType_facts (htypes x hx)
      rw [h1] at hf
      cases hf
      exact hn t ht h2
    unfold RuleText.Says
    rw [he, hent]
    constructor
    · rintro ⟨x, hx, hf⟩
      rcases List.mem_cons.1 hx with rfl | hx
      · exact absurd hf (hno _ ho)
      · exact ⟨x, List.mem_append_right _ hx, hf⟩
    · rintro ⟨x, hx, hf⟩
      rcases List.mem_append.1 hx with hx | hx
      · exact absurd hf (hno _ hx)
      · exact ⟨x, List.mem_cons_of_mem _ hx, hf⟩
  have hdenies : ∀ p ∈ parts, ∀ n, (p.Denies n ↔ r.Denies n) := by
    intro p hp n
    obtain ⟨o, ho, he⟩ := hof p hp
    unfold RuleText.Denies
    rw [he, hent]
    constructor
    · rintro ⟨x, hx, hf, hg⟩
      rcases List.mem_cons.1 hx with rfl | hx
      · exact absurd hf (isType_facts (htypes _ ho)).2.2.1
      · exact ⟨x, List.mem_append_right _ hx, hf, hg⟩
    · rintro ⟨x, hx, hf, hg⟩
      rcases List.mem_append.1 hx with hx | hx
      · exact absurd hf (isType_facts (htypes _ hx)).2.2.1
      · exact ⟨x, List.mem_cons_of_mem _ hx, hf, hg⟩
  have hnot : ∀ p ∈ parts, p.notTypes = r.notTypes := by
    intro p hp
    unfold RuleText.notTypes
    exact List.filter_congr fun t _ => by simp [hdenies p hp]
  have htaken : ∀ p ∈ parts, (p.TakenForType ↔ r.TakenForType) := fun p hp =>
    or_congr (hsays p hp _ (by decide +kernel)) (hsays p hp _ (by decide +kernel))
  have hmemr : ∀ t, t ∈ r.types ↔ t ∈ typeTable ∧ ∃ o ∈ types, fullName o = some t.1 := by
    intro t
    unfold RuleText.types
    rw [List.mem_filter, decide_eq_true_iff]
    refine and_congr_right fun ht => ?_
    unfold RuleText.Says
    rw [hent]
    constructor
    · rintro ⟨x, hx, hf⟩
      rcases List.mem_append.1 hx with hx | hx
      · exact ⟨x, hx, hf⟩
      · exact absurd ⟨t, ht, hf⟩ (hothers x hx)
    · rintro ⟨x, hx, hf⟩
      exact ⟨x, List.mem_append_left _ hx, hf⟩
  have hmemp : ∀ p ∈ parts, ∀ o, p.entries = o :: others → ∀ t, t ∈ p.types ↔ t ∈ typeTable ∧ fullName o = some t.1 := by
    intro p hp o he t
    unfold RuleText.types
    rw [List.mem_filter, decide_eq_true_iff]
    refine and_congr_right fun ht => ?_
    unfold RuleText.Says
    rw [he]
    constructor
    · rintro ⟨x, hx, hf⟩
      rcases List.mem_cons.1 hx with rfl | hx
      · exact hf
      · exact absurd ⟨t, ht, hf⟩ (hothers x hx)
    · intro hf
      exact ⟨o, by simp, hf⟩
  have hrne : r.types ≠ [] := by
    obtain ⟨o, os, ho⟩ := List.exists_cons_of_ne_nil hne
    obtain ⟨x, hx, hf⟩ := htypes o (by rw [ho]; simp)
    exact List.ne_nil_of_mem ((hmemr x).2 ⟨hx, o, by rw [ho]; simp, hf⟩)
  have hpne : ∀ p ∈ parts, p.types ≠ [] := by
    intro p hp
    obtain ⟨o, ho, he⟩ := hof p hp
    obtain ⟨x, hx, hf⟩ := htypes o ho
    exact List.ne_nil_of_mem ((hmemp p hp o he x).2 ⟨hx, hf⟩)
  have hpage : ∀ p ∈ parts, (p.PageAllowed q ↔ r.PageAllowed q) := by
    intro p hp
    unfold RuleText.PageAllowed
    simp only [hsays p hp _ (by decide +kernel : ∀ t ∈ typeTable, t.1 ≠ bs%"third-party"), hdenies p hp, hval p hp bs%"domain=" (by simp)]
  have htype : r.TypeAllowed q ↔ ∃ p ∈ parts, p.TypeAllowed q := by
    unfold RuleText.TypeAllowed
    cases q.type with
    | none =>
      constructor
      · rintro ⟨h1, -⟩; exact absurd h1 hrne
      · rintro ⟨p, hp, h1, -⟩; exact absurd h1 (hpne p hp)
    | some t =>
      constructor
      · rintro ⟨h1, h2, -⟩
        have h1 := h1.resolve_right fun h => hrne h.1
        obtain ⟨ht, o, ho, hf⟩ := (hmemr t).1 h1
        obtain ⟨p, hp, he⟩ := hto o ho
        have := (hmemp p hp o he t).2 ⟨ht, hf⟩
        exact ⟨p, hp, .inl this, by rw [hnot p hp]; exact h2, fun _ => this⟩
      · rintro ⟨p, hp, h1, h2, -⟩
        have h1 := h1.resolve_right fun h => hpne p hp h.1
        obtain ⟨o, ho, he⟩ := hof p hp
        obtain ⟨ht, hf⟩ := (hmemp p hp o he t).1 h1
        have := (hmemr t).2 ⟨ht, o, ho, hf⟩
        exact ⟨.inl this, by rw [← hnot p hp]; exact h2, fun _ => this⟩
  refine asGood_of h.same ?_ hh ?_ (fun p hp => hval p hp _ (by simp)) ?_ (fun p hp => by rw [hval p hp _ (by simp)])
    (fun p hp dl _ => by rw [hval p hp _ (by simp)])
  · rintro rfl
    cases types with
    | nil => exact hne rfl
    | cons o os => cases hparts
  · intro p hp
    obtain ⟨o, ho, he⟩ := hof p hp
    rw [he, hent]
    constructor
    · intro h1 x hx
      rcases List.mem_append.1 hx with hx | hx
      · exact (isType_facts (htypes x hx)).2.2.2.1
      · exact h1 x (List.mem_cons_of_mem _ hx)
    · intro h1 x hx
      rcases List.mem_cons.1 hx with rfl | hx
      · exact (isType_facts (htypes _ ho)).2.2.2.1
      · exact h1 x (List.mem_append_right _ hx)
  · rw [htype]
    constructor
    · rintro ⟨⟨p, hp, h1⟩, h2⟩; exact ⟨p, hp, h1, (hpage p hp).2 h2⟩
    · rintro ⟨p, hp, h1, h2⟩; exact ⟨⟨p, hp, h1⟩, (hpage p hp).1 h2⟩

theorem splitOn_bar_mem {dl d : Bytes} (h : d ∈ splitOn ch%'|' dl) : splitOn ch%'|' d = [d] :=
  splitOn_of_not_mem (splitOn_pieces h)

theorem splitByDomain_asGood {bad tags : List Bytes} {q : Request} {r : RuleText} {parts : List RuleText} (h : SplitByDomain r parts)
    (hh : ¬ r.HostOnly) : AsGood bad tags q r parts := by
  obtain ⟨dl, others, hneg, hothers, hent, hparts⟩ := h.options
  have hof : ∀ p ∈ parts, ∃ d ∈ splitOn ch%'|' dl, p.entries = (bs%"domain=" ++ d) :: others := by
    intro p hp
    have : p.entries ∈ (splitOn ch%'|' dl).map fun d => (bs%"domain=" ++ d) :: others := by
      rw [← hparts]; exact List.mem_map.2 ⟨p, hp, rfl⟩
    obtain ⟨d, hd, he⟩ := List.mem_map.1 this
    exact ⟨d, hd, he.symm⟩
  have hto : ∀ d ∈ splitOn ch%'|' dl, ∃ p ∈ parts, p.entries = (bs%"domain=" ++ d) :: others := by
    intro d hd
    have : (bs%"domain=" ++ d) :: others ∈ parts.map RuleText.entries := by rw [hparts]; exact List.mem_map.2 ⟨d, hd, rfl⟩
    obtain ⟨p, hp, he⟩ := List.mem_map.1 this
    exact ⟨p, hp, he⟩
  have hu : ∀ d : Bytes, RuleText.unsigned (bs%"domain=" ++ d) = bs%"domain=" ++ d := fun _ => rfl
  have hname : ∀ d : Bytes, fullName (bs%"domain=" ++ d) = none := fun d => fullName_of_prefix (by simp) ⟨d, rfl⟩
  have hval : ∀ (x : RuleText) (d : Bytes), x.entries = (bs%"domain=" ++ d) :: others → x.value bs%"domain=" = some d := by
    intro x d he
    have key : (others.filterMap fun o => if (bs%"domain=").isPrefixOf (RuleText.unsigned o) then
        some ((RuleText.unsigned o).drop (bs%"domain=").length) else none) = [] := by
      rw [List.filterMap_eq_nil_iff]
      intro o ho
      rw [if_neg fun hp => hothers o ho (List.isPrefixOf_iff_prefix.1 hp)]
    unfold RuleText.value
    rw [he, List.filterMap_cons, key, hu, if_pos (List.isPrefixOf_iff_prefix.2 ⟨d, rfl⟩)]
    rfl
  have hplain : ∀ d ∈ splitOn ch%'|' dl, d.head? ≠ some ch%'~' := by
    intro d hd hh
    have : d.drop 1 ∈ negative dl := by
      unfold negative
      exact List.mem_map.2 ⟨d, List.mem_filter.2 ⟨hd, by simpa using hh⟩, rfl⟩
    rw [hneg] at this
    cases this
  have hpos : positive dl = splitOn ch%'|' dl := by
    unfold positive
    exact List.filter_eq_self.2 fun d hd => by simpa using hplain d hd
  have hone : ∀ d ∈ splitOn ch%'|' dl, positive d = [d] ∧ negative d = [] := by
    intro d hd
    unfold positive negative
    rw [splitOn_bar_mem hd]
    have := hplain d hd
    simp [this]
  have hrest : ∀ (d : Bytes) (x : RuleText), x.entries = (bs%"domain=" ++ d) :: others → ∀ P : Bytes → Prop,
      ¬ P (bs%"domain=" ++ d) → ((∃ o ∈ x.entries, P o) ↔ ∃ o ∈ others, P o) := by
    intro d x he P hP
    rw [he]
    constructor
    · rintro ⟨o, ho, hp⟩
      rcases List.mem_cons.1 ho with rfl | ho
      · exact absurd hp hP
      · exact ⟨o, ho, hp⟩
    · rintro ⟨o, ho, hp⟩
      exact ⟨o, List.mem_cons_of_mem _ ho, hp⟩
  have hboth : ∀ p ∈ parts, ∀ P : Bytes → Prop, (∀ d, ¬ P (bs%"domain=" ++ d)) → ((∃ o ∈ p.entries, P o) ↔ ∃ o ∈ r.entries, P o) := by
    intro p hp P hP
    obtain ⟨d, hd, he⟩ := hof p hp
    rw [hrest d p he P (hP d), hrest dl r hent P (hP dl)]
  have hsays : ∀ p ∈ parts, ∀ n, (p.Says n ↔ r.Says n) := fun p hp n => hboth p hp _ fun d => by rw [hname]; simp
  have hdenies : ∀ p ∈ parts, ∀ n, (p.Denies n ↔ r.Denies n) := fun p hp n => hboth p hp _ fun d hd => by rw [hu, hname] at hd; cases hd.2
  have hsupp : ∀ p ∈ parts, ((∃ o ∈ p.entries, RuleText.Unsupported o) ↔ ∃ o ∈ r.entries, RuleText.Unsupported o) := by
    intro p hp
    refine hboth p hp _ fun d => ?_
    rintro (⟨n, hn, h2⟩ | h2 | ⟨-, h2, -⟩)
    · rw [hname] at h2; cases h2
    · exact absurd (List.prefix_or_prefix_of_prefix h2 ⟨d, rfl⟩ : bs%"csp=" <+: bs%"domain=" ∨ bs%"domain=" <+: bs%"csp=") (by decide +kernel)
    · exact h2 bs%"domain=" (by simp) ⟨d, rfl⟩
  have htag : ∀ p ∈ parts, p.value bs%"tag=" = r.value bs%"tag=" := by
    intro p hp
    obtain ⟨d, hd, he⟩ := hof p hp
    have hno : ∀ d : Bytes, ∀ o ∈ [bs%"domain=" ++ d], ¬ bs%"tag=" <+: RuleText.unsigned o := by
      intro d o ho hpre
      rw [List.mem_singleton.1 ho, hu] at hpre
      exact absurd (List.prefix_or_prefix_of_prefix hpre ⟨d, rfl⟩ : bs%"tag=" <+: bs%"domain=" ∨ bs%"domain=" <+: bs%"tag=") (by decide +kernel)
    exact value_append (front := [bs%"domain=" ++ dl]) (front' := [bs%"domain=" ++ d]) hent he (hno dl) (hno d)
  have htype : ∀ p ∈ parts, (p.TypeAllowed q ↔ r.TypeAllowed q) := by
    intro p hp
    have h1 : p.TakenForType ↔ r.TakenForType := or_congr (hsays p hp _) (hsays p hp _)
    have h2 : p.types = r.types := by
      unfold RuleText.types
      exact List.filter_congr fun t _ => by simp [hsays p hp]
    have h3 : p.notTypes = r.notTypes := by
      unfold RuleText.notTypes
      exact List.filter_congr fun t _ => by simp [hdenies p hp]
    unfold RuleText.TypeAllowed
    rw [h2, h3]
    split <;> simp only [h1]
  have hadmit : ∀ c, DomainAdmitted dl c ↔ ∃ d ∈ splitOn ch%'|' dl, DomainAdmitted d c := by
    intro c
    unfold DomainAdmitted
    rw [hpos, hneg]
    constructor
    · rintro (⟨s, hs, h1, -⟩ | ⟨h1, -⟩)
      · refine ⟨s, hs, .inl ⟨s, by rw [(hone s hs).1]; simp, h1, ?_⟩⟩
        rw [(hone s hs).2]; simp
      · exact absurd h1 (splitOn_ne_nil _ _)
    · rintro ⟨d, hd, (⟨s, hs, h1, -⟩ | ⟨h1, -⟩)⟩
      · rw [(hone d hd).1, List.mem_singleton] at hs
        subst hs
        exact .inl ⟨s, hd, h1, by simp⟩
      · rw [(hone d hd).1] at h1; cases h1
  have hpne : parts ≠ [] := by
    rintro rfl
    have := congrArg List.length hparts
    simp only [List.map_nil, List.length_nil, List.length_map] at this
    exact splitOn_ne_nil _ _ (List.length_eq_zero_iff.1 this.symm)
  have hpage : r.PageAllowed q ↔ ∃ p ∈ parts, p.PageAllowed q := by
    unfold RuleText.PageAllowed
    cases hd : q.domain with
    | none =>
      obtain ⟨p, ps, he⟩ := List.exists_cons_of_ne_nil hpne
      exact ⟨fun _ => ⟨p, by rw [he]; simp, fun d h => by cases h⟩, fun _ d h => by cases h⟩
    | some c =>
      simp only [Option.some.injEq, forall_eq']
      constructor
      · rintro ⟨h1, h2, h3⟩
        obtain ⟨d, hd', h4⟩ := (hadmit c).1 (h3 dl (hval r dl hent))
        obtain ⟨p, hp, he⟩ := hto d hd'
        refine ⟨p, hp, by rw [hsays p hp]; exact h1, by rw [hdenies p hp]; exact h2, fun d' h5 => ?_⟩
        rw [hval p d he] at h5
        cases h5
        exact h4
      · rintro ⟨p, hp, h1, h2, h3⟩
        obtain ⟨d, hd', he⟩ := hof p hp
        refine ⟨by rw [← hsays p hp]; exact h1, by rw [← hdenies p hp]; exact h2, fun d' h5 => ?_⟩
        rw [hval r dl hent] at h5
        cases h5
        exact (hadmit c).2 ⟨d, hd', h3 d (hval p d he)⟩
  refine asGood_of h.same hpne hh ?_ htag ?_ ?_ ?_
  · intro p hp
    have := not_congr (hsupp p hp)
    simpa only [not_exists, not_and] using this
  · rw [hpage]
    constructor
    · rintro ⟨h1, p, hp, h2⟩; exact ⟨p, hp, (htype p hp).2 h1, h2⟩
    · rintro ⟨p, hp, h1, h2⟩; exact ⟨(htype p hp).1 h1, p, hp, h2⟩
  · intro p hp
    obtain ⟨d, hd, he⟩ := hof p hp
    exact ⟨fun _ => ⟨dl, hval r dl hent, hneg⟩, fun _ => ⟨d, hval p d he, (hone d hd).2⟩⟩
  · intro p hp dl' h1
    obtain ⟨d, hd, he⟩ := hof p hp
    rw [hval p d he, hval r dl hent, Option.some.injEq, Option.some.injEq]
    constructor
    · rintro rfl
      rw [(hone d hd).1, (hone d hd).2] at h1
      simp at h1
    · rintro rfl
      rw [hneg, hpos] at h1
      exact absurd h1 (by simp [splitOn_ne_nil])

theorem splitUp_replaced {bad tags : List Bytes} {q : Request} {rs rs' : List RuleText} (h : SplitUp rs rs') : Replaced bad tags q rs rs' := by
  induction h with
  | nil => exact .nil
  | keep _ ih => exact .keep ih
  | types h hh _ ih => exact .by (splitByType_asGood h hh) ih
  | domains h hh _ ih => exact .by (splitByDomain_asGood h hh) ih

/-- **C83**, as far as it holds: rules other than those that consist of a host can be replaced by rules for each of their types, or for
each of their domains. -/
theorem C83_split_partial {E : Env} {A B : Bytes} {rs rs' : List RuleText} (hA : Lists E A rs) (hB : Lists E B rs') (h : SplitUp rs rs')
    (preserve preserve' : Bool) (tags : List Bytes) {q : Request} (hq : Askable E rs q) :
    ∃ b, Answers E A preserve tags q b ∧ Answers E B preserve' tags q b :=
  answers_replaced hA hB (splitUp_replaced h) preserve preserve' hq

/-! ### examples -/

/-- what is to be known about the rules of an example -/
def plainRule (r : RuleText) : Bool :=
  r.ok && safeRule (r.filter false) && decide (r.text ≠ [] ∧ r.text.getLast? ≠ some ch%'*' ∨ ¬ r.HostOnly) && decide (r.HostOnly → r.rightBar = false) &&
    decide (∀ o ∈ r.entries, o.length ≤ 1024) && decide (∀ dl ∈ (r.value bs%"domain=").toList, [] ∉ negative dl)

theorem plainRule_facts {r : RuleText} (h : plainRule r = true) : r.ok = true ∧ safeRule (r.filter false) = true ∧
    (r.text ≠ [] ∧ r.text.getLast? ≠ some ch%'*' ∨ ¬ r.HostOnly) ∧ (r.HostOnly → r.rightBar = false) ∧
    (∀ o ∈ r.entries, o.length ≤ 1024) ∧ ∀ dl ∈ (r.value bs%"domain=").toList, [] ∉ negative dl := by
  unfold plainRule at h
  simp only [Bool.and_eq_true, decide_eq_true_eq] at h
  obtain ⟨⟨⟨⟨⟨h1, h2⟩, h3⟩, h4⟩, h5⟩, h6⟩ := h
  exact ⟨h1, h2, h3, h4, h5, h6⟩

theorem plainRules_sound {bad : List Bytes} {rs : List RuleText} (h : ∀ r ∈ rs, plainRule r = true) : SoundList bad rs where
  wellFormed r hr := RuleText.wellFormed (plainRule_facts (h r hr)).1
  fits r hr := fits_of_entries (plainRule_facts (h r hr)).2.2.2.2.1

theorem plainRules_askable {E : Env} (hroll : ∀ url, E.fp.rolls url) {rs : List RuleText} (h : ∀ r ∈ rs, plainRule r = true) {q : Request}
    (hq : q.Web) : Askable E rs q where
  web := hq
  rolls := hroll _
  empty _ r hr dl hd := (plainRule_facts (h r hr)).2.2.2.2.2 dl (by rw [hd.1]; simp)
  safe := ⟨fun r hr => by
    obtain ⟨h1, h2, h3, h4, -⟩ := plainRule_facts (h r hr)
    have h2 := safeRule_ok h2
    exact inBounds_of (fun part hp => CaretEdge.safe ((h2 r.text (filter_hasText (RuleText.wellFormed h1) false)).1 part hp) q.url)
      (fun hh _ => h3.resolve_right (fun h => h hh)) fun hh h => absurd (h4 hh) (by simp [h])⟩

/-- A list of one rule without a `domain=` list blocks what the rule applies to. -/
theorem answers_single {E : Env} (hroll : ∀ url, E.fp.rolls url) {r : RuleText} (h : plainRule r = true) (he : r.exception = false)
    (hhost : ¬ r.HostOnly ∨ ch%'.' ∈ r.hostPart) (hd : r.value bs%"domain=" = none) {q : Request} (hq : q.Web) (preserve : Bool) (tags : List Bytes) :
    ∃ b, Answers E (listText [r.line]) preserve tags q b ∧ (b = true ↔ r.AppliesTo tags q) := by
  have hall : ∀ x ∈ [r], plainRule x = true := fun x hx => by rw [List.mem_singleton.1 hx]; exact h
  obtain ⟨b, h1, h2⟩ := answers_iff (lists_rules (E := E) (plainRules_sound hall) (by simp)) preserve tags (plainRules_askable hroll hall hq)
  refine ⟨b, h1, h2.trans ⟨?_, fun ha => ⟨⟨r, by simp, he, ⟨?_, ?_, ?_⟩, ha⟩, ?_⟩⟩⟩
  · rintro ⟨⟨x, hx, -, -, ha⟩, -⟩
    rw [List.mem_singleton.1 hx] at ha
    exact ha
  · intro hh
    exact ⟨⟨[], [], rfl, by simp⟩, .inr (hhost.resolve_left (fun h => h hh))⟩
  · intro dl hdl; exact absurd (hd.symm.trans hdl.1) (by simp)
  · intro dl hdl; exact absurd (hd.symm.trans hdl.1) (by simp)
  · rintro ⟨x, hx, hex, -⟩
    rw [List.mem_singleton.1 hx, he] at hex
    cases hex

/-- the rules of the example, with their options and domains in another order, and repeated -/
def exOrder (r : RuleText) : RuleText :=
  { r with options := r.options.map fun o =>
      if o = bs%"image,third-party" then bs%"third-party,image,third-party" else
      if o = bs%"domain=news.com|~blog.news.com,tag=track" then bs%"tag=track,domain=~blog.news.com|news.com|~blog.news.com" else o }

theorem exOrder_same : ∀ r ∈ exRules, SameUpToOrder r (exOrder r) := by
  intro r hr
  have h1 : ∀ r ∈ exRules, (∀ o ∈ (exOrder r).entries, ¬ HasValue o → o ∈ r.entries) ∧ (∀ o ∈ r.entries, ¬ HasValue o → o ∈ (exOrder r).entries) ∧
      (exOrder r).value bs%"tag=" = r.value bs%"tag=" ∧
      ((r.value bs%"domain=" = none ∧ (exOrder r).value bs%"domain=" = none) ∨
        ∃ dl ∈ (r.value bs%"domain=").toList, ∃ dl' ∈ ((exOrder r).value bs%"domain=").toList,
          (∀ s ∈ splitOn ch%'|' dl', s ∈ splitOn ch%'|' dl) ∧ ∀ s ∈ splitOn ch%'|' dl, s ∈ splitOn ch%'|' dl') := by decide +kernel
  obtain ⟨h2, h3, h4, h5⟩ := h1 r hr
  refine ⟨rfl, fun o ho => ⟨fun h => h2 o h ho, fun h => h3 o h ho⟩, h4, h5.imp (fun h => h) ?_⟩
  rintro ⟨dl, hdl, dl', hdl', h6, h7⟩
  exact ⟨dl, dl', Option.mem_toList.1 hdl, Option.mem_toList.1 hdl', fun s => ⟨h6 s, h7 s⟩⟩

/-- This makes no difference (C81), while some requests are blocked. -/
example {E : Env} (hroll : ∀ url, E.fp.rolls url) :
    Answers E (listText ((exRules.map exOrder).map RuleText.line)) true [bs%"track"] exScript true ∧
    Answers E (listText ((exRules.map exOrder).map RuleText.line)) true [bs%"track"] exOk false := by
  have hB := lists_rules (E := E) (plainRules_sound (by decide +kernel : ∀ r ∈ exRules.map exOrder, plainRule r = true)) (by simp [exRules])
  constructor
  · obtain ⟨b, h1, h2⟩ := C81_order_of_options exLaw_lists hB exOrder_same true true [bs%"track"] (exRules_askable hroll exWeb.1)
    exact answers_unique h1 (exLaw_blocked hroll) ▸ h2
  · obtain ⟨b, h1, h2⟩ := C81_order_of_options exLaw_lists hB exOrder_same true true [bs%"track"] (exRules_askable hroll exWeb.2)
    exact answers_unique h1 (exLaw_excepted hroll) ▸ h2

/-- a request for an address ending in `banner` -/
def exBanner : Request := exRequest bs%"b.com" bs%"/banner" (some (bs%"script", FOScript)) none

theorem exBanner_web : exBanner.Web :=
  ⟨by decide +kernel, ⟨by decide +kernel, by decide +kernel⟩, .inr ⟨ch%'/', bs%"banner", rfl, by decide +kernel⟩, by decide +kernel, by
    intro t h; cases h; decide +kernel⟩

/-- What a list of one rule without a tag answers can be seen by comparing the rule with the request. -/
theorem answers_compared {E : Env} (hroll : ∀ url, E.fp.rolls url) {r : RuleText} (h : plainRule r = true) (he : r.exception = false)
    (hhost : ¬ r.HostOnly ∨ ch%'.' ∈ r.hostPart) (hd : r.value bs%"domain=" = none) (ht : (r.filter false).tag = []) {q : Request} (hq : q.Web)
    {v : Bool} (hv : (r.filter false).matches q.url (resolveContext q.url q.context q.domain) q.domain none = .ok v) :
    Answers E (listText [r.line]) false [] q v := by
  obtain ⟨b, h1, h2⟩ := answers_single (E := E) hroll h he hhost hd hq false []
  rw [← acts_iff (RuleText.wellFormed (plainRule_facts h).1) false hq ((plainRules_askable (E := E) hroll (rs := [r]) (by simpa using h) hq).safe.inBounds r (by simp))] at h2
  unfold Acts at h2
  rw [hv] at h2
  simp only [ht, Res.ok.injEq, true_or, and_true] at h2
  have : b = v := by
    cases b <;> cases v <;> simp_all
  exact this ▸ h1

/-- **C82** also fails for two stars at the end: `banner*` blocks an address that ends in `banner`, while `banner**` needs a further
character. -/
theorem C82_double_star_counterexample {E : Env} (hroll : ∀ url, E.fp.rolls url) :
    Answers E bs%"banner*" false [] exBanner true ∧ Answers E bs%"banner**" false [] exBanner false :=
  ⟨answers_compared (v := true) (r := { text := bs%"banner*" }) hroll (by decide +kernel) rfl (.inl (by decide +kernel)) (by decide +kernel) (by decide +kernel)
    exBanner_web (by decide +kernel),
   answers_compared (v := false) (r := { text := bs%"banner**" }) hroll (by decide +kernel) rfl (.inl (by decide +kernel)) (by decide +kernel) (by decide +kernel)
    exBanner_web (by decide +kernel)⟩

/-- With other stars nothing changes (C82). -/
example {E : Env} (hroll : ∀ url, E.fp.rolls url) : Answers E bs%"com*banner" false [] exBanner true ∧ Answers E bs%"**com**banner*" false [] exBanner true := by
  have h0 : Answers E bs%"com*banner" false [] exBanner true :=
    answers_compared (v := true) (r := { text := bs%"com*banner" }) hroll (by decide +kernel) rfl (.inl (by decide +kernel)) (by decide +kernel) (by decide +kernel)
      exBanner_web (by decide +kernel)
  obtain ⟨b, h1, h2⟩ := C82_redundant_stars_partial (E := E) (rs := [{ text := bs%"com*banner" }]) (φ := fun _ => { text := bs%"**com**banner*" })
    (lists_rules (plainRules_sound (by decide +kernel)) (by simp)) (lists_rules (plainRules_sound (by decide +kernel)) (by simp))
    (fun r hr => .inr (by
      rw [List.mem_singleton.1 hr]
      refine ⟨rfl, rfl, by simp, by simp, ?_⟩
      exact .back (t' := bs%"**com**banner") (.front (.front (.doubled (a := bs%"com") (c := ch%'b') (b := bs%"anner") .same (by decide)))) (by decide)))
    false false [] (plainRules_askable hroll (by decide +kernel) exBanner_web)
  exact ⟨h0, answers_unique h1 h0 ▸ h2⟩

/-- a request to `ads.com` -/
def exAds : Request := { host := bs%"ads.com", rest := bs%"/", type := some (bs%"image", FOImage) }

theorem exAds_web : exAds.Web :=
  ⟨by decide +kernel, ⟨by decide +kernel, by decide +kernel⟩, .inr ⟨ch%'/', [], rfl, by decide +kernel⟩, by decide +kernel, by
    intro t h; cases h; decide +kernel⟩

/-- The rule `||ads.com` blocks the request, while `||ads.*^`, `|http://ads.*` and `*.com/|` do not (C82). -/
example {E : Env} (hroll : ∀ url, E.fp.rolls url) : Answers E bs%"||ads.com" false [] exAds true ∧
    Answers E bs%"||ads.*^\n|http://ads.*\n*.com/|" false [] exAds false := by
  refine ⟨answers_compared (v := true) (r := { anchor := .host, text := bs%"ads.com" }) hroll (by decide +kernel) rfl (.inr (by decide +kernel))
    (by decide +kernel) (by decide +kernel) exAds_web (by decide +kernel), ?_⟩
  have hp : ∀ r ∈ [({ anchor := .host, text := bs%"ads.*^" } : RuleText), { anchor := .left, text := bs%"http://ads.*" },
    { text := bs%"*.com/", rightBar := true }], plainRule r = true := by decide +kernel
  refine C82_literal_star_counterexample (lists_rules (E := E) (plainRules_sound hp) (by simp)) (fun r hr _ => ?_) false [] (plainRules_askable hroll hp exAds_web)
    (by decide +kernel)
  simp only [List.mem_cons, List.not_mem_nil, or_false] at hr
  rcases hr with rfl | rfl | rfl
  · exact .inr ⟨rfl, rfl, by decide +kernel⟩
  · exact .inl ⟨by decide +kernel, .inl rfl⟩
  · exact .inl ⟨by decide +kernel, .inr rfl⟩

/-- **C83** fails for rules that consist of a host: of several for the same host only the first is kept (C52). -/
theorem C83_host_counterexample {E : Env} (hroll : ∀ url, E.fp.rolls url) : Answers E bs%"||ads.com^$script,image" false [] exAds true ∧
    Answers E bs%"||ads.com^$script\n||ads.com^$image" false [] exAds false := by
  refine ⟨answers_compared (v := true) (r := { anchor := .host, text := bs%"ads.com^", options := some bs%"script,image" }) hroll (by decide +kernel) rfl
    (.inr (by decide +kernel)) (by decide +kernel) (by decide +kernel) exAds_web (by decide +kernel), ?_⟩
  obtain ⟨c, o, -, -, h1, h2, h3, -⟩ := C52_counterexample E hroll
  exact ⟨c, h1, o, h2, h3⟩

/-- a list to be split, and the result -/
def exSplit : List RuleText :=
  [{ text := bs%"-ad_", options := some bs%"script,image,third-party" }, exRules[3], { text := bs%"&x=", options := some bs%"domain=a.com|b.com,image" }]
def exSplit_parts : List RuleText :=
  [{ text := bs%"-ad_", options := some bs%"script,third-party" }, { text := bs%"-ad_", options := some bs%"image,third-party" }, exRules[3],
    { text := bs%"&x=", options := some bs%"domain=a.com,image" }, { text := bs%"&x=", options := some bs%"domain=b.com,image" }]

theorem exSplit_splitUp : SplitUp exSplit exSplit_parts := by
  refine .types (parts := exSplit_parts.take 2) ⟨?_, [bs%"script", bs%"image"], [bs%"third-party"], by simp, ?_, ?_, by decide +kernel, by decide +kernel⟩
    ?_ (.keep (.domains (parts := exSplit_parts.drop 3) (rs' := []) ⟨?_, bs%"a.com|b.com", [bs%"image"], by decide +kernel,
      by decide +kernel, by decide +kernel, by decide +kernel⟩ ?_ .nil))
  · intro p hp
    simp only [exSplit_parts, List.take_succ_cons, List.take_zero, List.mem_cons, List.not_mem_nil, or_false] at hp
    rcases hp with rfl | rfl <;> rfl
  · exact (by decide +kernel : ∀ o ∈ [bs%"script", bs%"image"], ∃ x ∈ typeTable, fullName o = some x.1)
  · exact (by decide +kernel : ∀ o ∈ [bs%"third-party"], ¬ ∃ x ∈ typeTable, fullName o = some x.1)
  · decide +kernel
  · intro p hp
    simp only [exSplit_parts, List.drop_succ_cons, List.drop_zero, List.mem_cons, List.not_mem_nil, or_false] at hp
    rcases hp with rfl | rfl <;> rfl
  · decide +kernel

/-- a request that the second of two rules is for -/
def exPixel : Request := exRequest bs%"c.com" bs%"/p?&x=1" (some (bs%"image", FOImage)) (some bs%"b.com")

theorem exPixel_web : exPixel.Web :=
  ⟨by decide +kernel, ⟨by decide +kernel, by decide +kernel⟩, .inr ⟨ch%'/', bs%"p?&x=1", rfl, by decide +kernel⟩, by decide +kernel, by
    intro t h; cases h; decide +kernel⟩

/-- The list blocks it, and so it does when its rules are split (C83). -/
example {E : Env} (hroll : ∀ url, E.fp.rolls url) : Answers E (listText (exSplit.map RuleText.line)) false [] exPixel true ∧
    Answers E (listText (exSplit_parts.map RuleText.line)) false [] exPixel true := by
  have hp : ∀ r ∈ exSplit, plainRule r = true := by decide +kernel
  have hq := plainRules_askable (E := E) hroll hp exPixel_web
  have hA := lists_rules (E := E) (plainRules_sound hp) (by simp [exSplit])
  have h0 : Answers E (listText (exSplit.map RuleText.line)) false [] exPixel true := by
    obtain ⟨b, h1, h2⟩ := answers_iff hA false [] hq
    have : b = true := by
      rw [h2]
      have hv : exSplit[2].value bs%"domain=" = some bs%"a.com|b.com" := by decide +kernel
      refine ⟨⟨exSplit[2], by simp [exSplit], rfl, ⟨fun hh => absurd hh (by decide +kernel), fun _ _ _ => by simp [exPixel, exRequest], ?_⟩, ?_⟩, ?_⟩
      · intro dl hdl hpos
        rw [← Option.some.inj (hv.symm.trans hdl.1)] at hpos
        exact absurd hpos (by decide +kernel)
      · exact (acts_iff ((plainRules_sound (bad := []) hp).wellFormed exSplit[2] (by simp [exSplit])) true exPixel_web
          (hq.safe.inBounds _ (by simp [exSplit])) _).1 ⟨by decide +kernel, .inl (by decide +kernel)⟩
      · rintro ⟨r, hr, he, -, ha⟩
        have hm : ∀ r ∈ exSplit, r.exception = true → (r.filter true).matches exPixel.url
            (resolveContext exPixel.url exPixel.context exPixel.domain) exPixel.domain none = .ok false := by decide +kernel
        have := ((acts_iff ((plainRules_sound (bad := []) hp).wellFormed r hr) true exPixel_web (hq.safe.inBounds _ hr) _).2 ha).1
        rw [hm r hr he] at this
        cases this
    exact this ▸ h1
  obtain ⟨b, h1, h2⟩ := C83_split_partial hA (lists_rules (E := E) (rs := exSplit_parts) (plainRules_sound (by decide +kernel)) (by simp [exSplit_parts]))
    exSplit_splitUp false false [] hq
  exact ⟨h0, answers_unique h1 h0 ▸ h2⟩

end AdBlock
