import Verif.Lemmas.Request
import Verif.Lemmas.Load
import Verif.Lemmas.PageLine
import Verif.Lemmas.AnyLine
import Verif.Lemmas.Loadable
import Verif.SpecSession
import Verif.Props.Verdict
import Verif.Props.Bounds
/-
From the text of a list to the verdict: C59.  The specification (`SpecRequest`) says from the
text of a rule alone which requests it applies to.
-/
namespace AdBlock
open Spec

/-! ### one rule -/

theorem web_host {q : Request} (hq : q.Web) : getUrlHost q.url = q.host := by
  have hs : ch%':' ∉ q.scheme := by
    intro hm
    have h2 := List.mem_map_of_mem (f := lower) hm
    have h3 : ∀ s ∈ [bs%"http", bs%"https", bs%"ws", bs%"wss"], lower ch%':' ∉ s := by decide
    exact h3 _ hq.scheme h2
  have := C05_host_of_url q.scheme bs%"//" q.host q.rest hs (by decide) hq.host.1 hq.host.2 hq.rest
  rw [← this]
  unfold Request.url
  congr 1
  simp [List.append_assoc]

theorem web_scheme_length {q : Request} (hq : q.Web) : 2 ≤ q.scheme.length ∧ 0 ∉ q.scheme := by
  have h3 : ∀ s ∈ [bs%"http", bs%"https", bs%"ws", bs%"wss"], 2 ≤ s.length ∧ lower 0 ∉ s := by decide
  obtain ⟨h1, h2⟩ := h3 _ hq.scheme
  rw [List.length_map] at h1
  exact ⟨h1, fun h => h2 (List.mem_map_of_mem h)⟩

theorem web_url {q : Request} (hq : q.Web) : WebUrl q.url ∧ 5 < q.url.length ∧ 0 ∉ q.url := by
  obtain ⟨h1, h2⟩ := web_scheme_length hq
  refine ⟨⟨[], q.scheme, q.host ++ q.rest, by simp [Request.url], .inl rfl, hq.scheme⟩, ?_, ?_⟩
  · have : 0 < q.host.length := List.length_pos_iff.2 hq.host.1
    simp only [Request.url, List.length_append, List.length_cons, List.length_nil]
    omega
  · simp only [Request.url, List.mem_append, not_or]
    exact ⟨⟨⟨h2, by decide⟩, hq.text.1⟩, hq.text.2⟩

theorem filter_unanchored (r : RuleText) (pr : Bool) : Unanchored (r.filter pr) ↔ r.anchor ≠ .left ∧ r.rightBar = false := by
  obtain ⟨-, -, -, k4, k5, k6, -⟩ := kind_bits r
  unfold Unanchored
  change has r.kind FTRegex = false ∧ has r.kind FTLeftAnchored = false ∧ has r.kind FTRightAnchored = false ↔ _
  rw [k4, k5, k6]
  simp

theorem filter_site {r : RuleText} (pr : Bool) {q : Request} (hq : q.Web) :
    (has (r.filter pr).filterType FTHostAnchored = true → SameSite ((r.filter pr).host.getD []) (getUrlHost q.url)) ↔
      (r.anchor = .host → SameSite r.hostPart q.host) := by
  rw [web_host hq]
  change (has r.kind FTHostAnchored = true → _) ↔ _
  rw [(kind_bits r).2.2.1, decide_eq_true_iff]
  refine forall_congr' fun ha => ?_
  simp [RuleText.filter, ha]

theorem filter_bare {r : RuleText} (pr : Bool) : (r.filter pr).bare = { r.filter pr with dataLen := some r.text.length, data := some r.text } :=
  bare_of_text rfl

theorem options_data (f : Filter) (n : Option Nat) (d : Option Ptr) (ctx : Mask) (dom : Option Bytes) :
    ({ f with dataLen := n, data := d } : Filter).matchesOptions ctx dom = f.matchesOptions ctx dom := by
  apply matchesOptions_congr <;> rfl

/-- **C47** From the text of a rule: comparing it with a request, as a client does, reads out of bounds exactly
if the specification says so. -/
theorem C47_rule_text {r : RuleText} (hw : r.WellFormed)
    (pr : Bool) {q : Request} (hq : q.Web) :
    let result := (if r.HostOnly then (r.filter pr).bare else r.filter pr).matches q.url (resolveContext q.url q.context q.domain) q.domain none
    (result = .ub .oobRead ↔ r.ReadsPast q) ∧ (result = .ub .oobRead ∨ ∃ b, result = .ok b) := by
  intro result
  have hu := (web_url hq).2.2
  have h0 : 0 ∉ r.text := hw.noNul
  by_cases hun : ∃ o ∈ r.entries, RuleText.Unsupported o
  · have hfalse : result = .ok false := by
      simp only [result]
      split
      · have hb : (r.filter pr).bare.filterOption = r.opts.filterOption := by rw [filter_bare]; rfl
        exact C14_unsupported_never_matches _ (by rw [hb]; exact unsupported_opts hw hun) ..
      · exact unsupported_matches hw hun ..
    refine ⟨⟨fun h => by rw [hfalse] at h; (cases h), fun h => ?_⟩, .inr ⟨false, hfalse⟩⟩
    obtain ⟨o, h1, h2⟩ := hun
    exact absurd h2 (h.1 o h1)
  have hsup : ∀ o ∈ r.entries, ¬ RuleText.Unsupported o := fun o h hu => hun ⟨o, h, hu⟩
  have hopt := matchesOptions_iff hw hsup pr hq
  by_cases hh : r.HostOnly
  · have e : result = (r.filter pr).bare.matches q.url (resolveContext q.url q.context q.domain) q.domain none := by
      simp only [result, if_pos hh]
    rw [filter_bare] at e
    have hm : ({ r.filter pr with dataLen := some r.text.length, data := some r.text } : Filter).matchesOptions
        (resolveContext q.url q.context q.domain) q.domain = (r.filter pr).matchesOptions (resolveContext q.url q.context q.domain) q.domain :=
      options_data ..
    by_cases hbar : r.rightBar = true
    · have := C47_exact_unterminated_right { r.filter pr with dataLen := some r.text.length, data := some r.text } r.text q.url
        (resolveContext q.url q.context q.domain) q.domain rfl rfl (kind_bits r).2.2.2.1
        (by show has r.kind FTLeftAnchored = false; rw [(kind_bits r).2.2.2.2.1, hh.1]; rfl)
        (by show has r.kind FTRightAnchored = true; rw [(kind_bits r).2.2.2.2.2.1]; exact hbar) hu
      rw [← e, hm] at this
      refine ⟨this.1.trans ⟨?_, ?_⟩, this.2⟩
      · rintro ⟨h1, h2⟩
        exact ⟨hsup, (hopt.1 h1).1, (hopt.1 h1).2, .inr ⟨hh, hbar, h2⟩⟩
      · rintro ⟨-, h1, h2, ⟨-, h, -⟩ | ⟨-, -, h⟩⟩
        · rw [hbar] at h; cases h
        · exact ⟨hopt.2 ⟨h1, h2⟩, h⟩
    have hbar : r.rightBar = false := by simpa using hbar
    have hua : Unanchored (r.filter pr) := (filter_unanchored r pr).2 ⟨by rw [hh.1]; decide, hbar⟩
    have := C47_exact_unterminated { r.filter pr with dataLen := some r.text.length, data := some r.text } r.text q.url
      (resolveContext q.url q.context q.domain) q.domain h0 rfl rfl hua hu
    rw [← e] at this
    rw [hm] at this
    refine ⟨this.1.trans ?_, this.2⟩
    unfold RuleText.ReadsPast
    rw [decide_eq_true hh]
    constructor
    · rintro ⟨h1, h2, h3⟩
      exact ⟨hsup, (hopt.1 h1).1, (hopt.1 h1).2, .inl ⟨by rw [hh.1]; decide, hbar, (filter_site pr hq).1 h2, h3⟩⟩
    · rintro ⟨-, h1, h2, ⟨-, -, h3, h4⟩ | ⟨-, h, -⟩⟩
      · exact ⟨hopt.2 ⟨h1, h2⟩, (filter_site pr hq).2 h3, h4⟩
      · rw [hbar] at h; cases h
  · have e : result = (r.filter pr).matches q.url (resolveContext q.url q.context q.domain) q.domain none := by
      simp only [result, if_neg hh]
    have := C47_exact (r.filter pr) r.text q.url (resolveContext q.url q.context q.domain) q.domain (filter_hasText hw pr) hu
    rw [← e] at this
    refine ⟨this.1.trans ?_, this.2⟩
    unfold RuleText.ReadsPast
    rw [decide_eq_false hh, filter_unanchored, filter_site pr hq, hopt]
    constructor
    · rintro ⟨⟨h1, h2⟩, ⟨h3, h4⟩, h5, h6⟩; exact ⟨hsup, h1, h2, .inl ⟨h3, h4, h5, h6⟩⟩
    · rintro ⟨-, h1, h2, ⟨h3, h4, h5, h6⟩ | ⟨h, -⟩⟩
      · exact ⟨⟨h1, h2⟩, ⟨h3, h4⟩, h5, h6⟩
      · exact absurd h hh

/-- a rule that is read past for a script, but not for an image from the same address -/
example : ∃ (r : RuleText) (q q' : Request), q.Web ∧ q'.Web ∧ q'.url = q.url ∧ r.ReadsPast q ∧ ¬ r.ReadsPast q' := by
  let r : RuleText := { text := bs%"foo^oo", options := some bs%"script" }
  let q : Request := { host := bs%"a.foo", type := some (bs%"script", FOScript) }
  let q' : Request := { host := bs%"a.foo", type := some (bs%"image", FOImage) }
  have hw : r.WellFormed := RuleText.wellFormed (by decide +kernel)
  have hq : q.Web := ⟨by decide, by decide, .inl rfl, by decide, by rintro t ⟨⟩; simp [typeTable]⟩
  have hq' : q'.Web := ⟨by decide, by decide, .inl rfl, by decide, by rintro t ⟨⟩; simp [typeTable]⟩
  refine ⟨r, q, q', hq, hq', rfl, (C47_rule_text hw true hq).1.1 (by decide +kernel), fun h => ?_⟩
  exact absurd ((C47_rule_text hw true hq').1.2 h) (by decide +kernel)

/-- The rule itself, whose text is terminated, can be compared then as well. -/
theorem filter_in_bounds {r : RuleText} (hw : r.WellFormed)
    (pr : Bool) {q : Request} (hq : q.Web) (hc : ¬ r.ReadsPast q) :
    ∃ b, (r.filter pr).matches q.url (resolveContext q.url q.context q.domain) q.domain none = .ok b := by
  obtain ⟨h1, h2⟩ := C47_exact (r.filter pr) r.text q.url (resolveContext q.url q.context q.domain) q.domain (filter_hasText hw pr) (web_url hq).2.2
  refine h2.resolve_left fun h => hc ?_
  by_cases hun : ∃ o ∈ r.entries, RuleText.Unsupported o
  · rw [unsupported_matches hw hun] at h; cases h
  have hsup : ∀ o ∈ r.entries, ¬ RuleText.Unsupported o := fun o h hu => hun ⟨o, h, hu⟩
  obtain ⟨k1, k2, k3, k4⟩ := h1.1 h
  rw [matchesOptions_iff hw hsup pr hq] at k1
  rw [filter_unanchored] at k2
  refine ⟨hsup, k1.1, k1.2, .inl ⟨k2.1, k2.2, (filter_site pr hq).1 k3, ?_⟩⟩
  by_cases hh : r.HostOnly
  · rw [decide_eq_true hh]; exact partsGoPast_mono k4
  · rw [decide_eq_false hh]; exact k4

/-- Conditions under which a rule can be compared with a request that are easy to check. -/
theorem inBounds_of {r : RuleText} {q : Request} (hc : ∀ part ∈ splitOn ch%'*' r.text, CaretSafe part q.url)
    (hh : r.HostOnly → SameSite r.hostPart q.host → r.text ≠ [] ∧ r.text.getLast? ≠ some ch%'*')
    (hb : r.HostOnly → r.rightBar = true → ¬ r.text <:+ q.url) : ¬ r.ReadsPast q := by
  rintro ⟨-, -, -, ⟨-, -, hsite, h⟩ | ⟨h1, h2, h3⟩⟩
  case inr => exact hb h1 h2 h3
  rcases partsGoPast_caret h with ⟨p, hp, h'⟩ | ⟨h1, h2⟩
  · exact h' (hc p hp)
  · have hho : r.HostOnly := by simpa using h1
    obtain ⟨h3, h4⟩ := hh hho (hsite hho.1)
    rcases splitOn_last h2 with h | h
    · exact h3 h
    · exact h4 h

/-- A rule that consists of a host, and that applies to a request with which it can be compared, has no bar in the host. -/
theorem applies_noBar {r : RuleText} {q : Request} {tags : List Bytes} (hc : ¬ r.ReadsPast q) (ha : r.AppliesTo tags q) (h : r.HostOnly) :
    r.rightBar = false := by
  cases hb : r.rightBar with
  | false => rfl
  | true =>
    obtain ⟨h1, h2, h3, -, hfit⟩ := ha
    unfold RuleText.AddressFits at hfit
    rw [h.1, hb] at hfit
    exact absurd ⟨h1, h2, h3, .inr ⟨h, hb, hfit⟩⟩ hc

/-- Whether a rule acts on a request, from its text. -/
theorem acts_iff {r : RuleText} (hw : r.WellFormed)
    (pr : Bool) {q : Request} (hq : q.Web)
    (hc : ¬ r.ReadsPast q) (tags : List Bytes) :
    Acts tags q.url (resolveContext q.url q.context q.domain) q.domain (r.filter pr) ↔ r.AppliesTo tags q := by
  by_cases hun : ∃ o ∈ r.entries, RuleText.Unsupported o
  · constructor
    · intro ha
      have := ha.1
      rw [unsupported_matches hw hun] at this
      cases this
    · intro ha
      obtain ⟨o, h1, h2⟩ := hun
      exact absurd h2 (ha.1 o h1)
  have hsup : ∀ o ∈ r.entries, ¬ RuleText.Unsupported o := fun o h hu => hun ⟨o, h, hu⟩
  have hu := (web_url hq).2.2
  obtain ⟨bit, hbit⟩ := filter_in_bounds hw pr hq hc
  have ht := filter_hasText hw pr
  obtain ⟨k1, k2, k3, k4, k5, k6, -⟩ := kind_bits r
  have hk : (r.filter pr).filterType = r.kind := rfl
  have htag : ((r.filter pr).tag = [] ∨ (r.filter pr).tag ∈ tags) ↔ r.TagEnabled tags := by
    have : (r.filter pr).tag = (r.value bs%"tag=").getD [] := opts_tag hw
    rw [this]
    unfold RuleText.TagEnabled
    cases r.value bs%"tag=" with
    | none => simp
    | some t => simp
  have hm : (r.filter pr).matches q.url (resolveContext q.url q.context q.domain) q.domain none = .ok true ↔
      (r.filter pr).matchesOptions (resolveContext q.url q.context q.domain) q.domain = true ∧ r.AddressFits q := by
    revert hbit
    generalize resolveContext q.url q.context q.domain = ctx
    intro hbit
    unfold RuleText.AddressFits
    have hreg : has (r.filter pr).filterType FTRegex = false := by rw [hk, k4]
    have fin : ∀ {P : Prop}, (∃ b, (r.filter pr).matches q.url ctx q.domain none = .ok b ∧
        (b = true ↔ (r.filter pr).matchesOptions ctx q.domain = true ∧ P)) →
        ((r.filter pr).matches q.url ctx q.domain none = .ok true ↔ (r.filter pr).matchesOptions ctx q.domain = true ∧ P) := by
      rintro P ⟨b, h1, h2⟩
      rw [h1, ← h2]
      simp
    have un : r.anchor ≠ .left → r.rightBar = false → Unanchored (r.filter pr) := by
      intro h1 h2
      refine ⟨hreg, ?_, ?_⟩
      · rw [hk, k5]; simpa using h1
      · rw [hk, k6, h2]
    cases ha : r.anchor with
    | none =>
      cases hb : r.rightBar with
      | false =>
        exact fin ⟨bit, hbit, C08_unanchored_exact _ r.text q.url ctx q.domain bit ht (un (by rw [ha]; decide) hb)
          (by rw [hk, k3, ha]; rfl) hu hbit⟩
      | true => exact fin (C09_right_anchor _ r.text q.url ctx q.domain none ht hu hreg (by rw [hk, k5, ha]; rfl) (by rw [hk, k6, hb]))
    | left =>
      cases hb : r.rightBar with
      | false => exact fin (C09_left_anchor _ r.text q.url ctx q.domain none ht hu hreg (by rw [hk, k5, ha]; rfl) (by rw [hk, k6, hb]))
      | true =>
        have := fin (C09_both_anchors _ r.text q.url ctx q.domain none ht hu hreg (by rw [hk, k5, ha]; rfl) (by rw [hk, k6, hb]))
        rw [this]
        exact and_congr_right fun _ => eq_comm
    | host =>
      cases hb : r.rightBar with
      | false =>
        have := C10_host_anchored_exact _ r.text r.hostPart q.url ctx q.domain bit ht (by simp [RuleText.filter, ha])
          (un (by rw [ha]; decide) hb) (by rw [hk, k3, ha]; rfl) hu hbit
        rw [web_host hq] at this
        exact fin ⟨bit, hbit, this⟩
      | true => exact fin (C09_right_anchor _ r.text q.url ctx q.domain none ht hu hreg (by rw [hk, k5, ha]; rfl) (by rw [hk, k6, hb]))
  unfold Acts RuleText.AppliesTo
  rw [hm, htag, matchesOptions_iff hw hsup pr hq]
  constructor
  · rintro ⟨⟨⟨h1, h2⟩, h3⟩, h4⟩; exact ⟨hsup, h1, h2, h4, h3⟩
  · rintro ⟨-, h1, h2, h4, h3⟩; exact ⟨⟨⟨h1, h2⟩, h3⟩, h4⟩

/-! ### a list -/

theorem Spec.Clear.comparable {bad : List Bytes} {rs : List RuleText} {q : Request} (h : Clear bad rs q) : Comparable rs q :=
  ⟨h.inBounds⟩

theorem kind_filter (r : RuleText) (pr s : Bool) : Kind s (r.filter pr) ↔ r.exception = s := by
  unfold Kind
  change r.kind &&& FTListTypesMask = _ ↔ _
  unfold RuleText.kind
  by_cases hh : r.HostOnly <;> cases r.exception <;> cases r.anchor <;> cases r.rightBar <;> cases s <;>
    simp only [hh, ↓reduceIte, Bool.false_eq_true, Anchor.mask] <;> decide

theorem hostOnly_bit (r : RuleText) (pr : Bool) : has (r.filter pr).filterType FTHostOnly = true ↔ r.HostOnly := by
  change has r.kind FTHostOnly = true ↔ _
  rw [(kind_bits r).2.1]
  simp

theorem indexable_iff {r : RuleText} (hw : r.WellFormed) (bad : List Bytes) (pr : Bool) :
    HasFingerprint bad (r.filter pr) ↔ r.Indexable bad := by
  constructor
  · rintro ⟨-, pat, w, ht, h1, h2⟩
    rw [HasText.unique ht (filter_hasText hw pr)] at h1
    exact ⟨w, h1, h2⟩
  · rintro ⟨w, h1, h2⟩
    exact ⟨(kind_bits r).2.2.2.1, r.text, w, filter_hasText hw pr, h1, h2⟩

theorem unindexed_filter {r : RuleText} (hw : r.WellFormed) (bad : List Bytes) (pr s : Bool) :
    Unindexed bad s (r.filter pr) ↔ r.exception = s ∧ ¬ r.HostOnly ∧ ¬ r.Indexable bad := by
  unfold Unindexed
  rw [kind_filter, indexable_iff hw, ← Bool.not_eq_true, hostOnly_bit]

theorem supported_filter {r : RuleText} (hw : r.WellFormed)
    (pr : Bool) : (r.filter pr).hasUnsupportedOptions = false ↔ ∀ o ∈ r.entries, ¬ RuleText.Unsupported o := by
  constructor
  · intro h o hm hu
    obtain ⟨m, h1, h2⟩ := unsupported_opts hw ⟨o, hm, hu⟩
    have : has r.opts.filterOption FOUnsupportedSoSkipCheck = true := by
      refine has_mono ?_ h2
      simp only [List.mem_cons, List.not_mem_nil, or_false] at h1
      rcases h1 with rfl | rfl | rfl | rfl | rfl | rfl | rfl <;> decide
    rw [show (r.filter pr).hasUnsupportedOptions = has r.opts.filterOption FOUnsupportedSoSkipCheck from rfl, this] at h
    cases h
  · intro h
    exact opts_supported hw h

theorem overflows_iff {r : RuleText} (hw : r.WellFormed)
    (bad : List Bytes) (pr : Bool) : DomainsOverflow bad (r.filter pr) ↔ r.Overflows bad := by
  have : (r.filter pr).domainList = r.value bs%"domain=" := opts_domainList hw
  unfold DomainsOverflow RuleText.Overflows
  rw [supported_filter hw, this]
  simp only [unindexed_filter hw]
  constructor
  · rintro ⟨h1, ⟨s, -, h2, h3⟩, h4⟩; exact ⟨h1, h2, h3, h4⟩
  · rintro ⟨h1, h2, h3, h4⟩; exact ⟨h1, ⟨_, rfl, h2, h3⟩, h4⟩

/-- a sufficient condition -/
theorem fits_of_entries {bad : List Bytes} {r : RuleText} (h : ∀ o ∈ r.entries, o.length ≤ 1024) : ¬ r.Overflows bad := by
  rintro ⟨-, -, -, dl, hv, hl⟩
  unfold RuleText.value at hv
  have hm := List.mem_of_getLast? hv
  rw [List.mem_filterMap] at hm
  obtain ⟨o, ho, hm⟩ := hm
  split at hm
  · cases hm
    have hlen := h o ho
    have hu : (RuleText.unsigned o).length ≤ o.length := by
      unfold RuleText.unsigned; split <;> simp
    have seg : ∀ s ∈ splitOn ch%'|' ((RuleText.unsigned o).drop (bs%"domain=").length), s.length ≤ 1024 := fun s hs => by
      obtain ⟨a, b, e, -⟩ := mem_splitOn_infix hs
      have := congrArg List.length e
      simp only [List.length_append, List.length_drop] at this
      omega
    rcases hl with ⟨-, d, hd, hl⟩ | ⟨-, d, hd, hl⟩
    · have := seg d (List.mem_filter.1 hd).1
      omega
    · obtain ⟨s, hs, rfl⟩ := List.mem_map.1 hd
      have := seg s (List.mem_filter.1 hs).1
      rw [List.length_drop] at hl
      omega
  · cases hm

/-- exactly the rules that overflow the buffer for domains cannot be loaded -/
theorem fillLine_rule_iff (E : Env) (pr : Bool) (b : Build E) {r : RuleText} (hw : r.WellFormed)
    :
    (∃ cl, lineClass E.bad (r.line, 0) = .ok cl) ∧ ((∃ b', fillLine E pr b (r.line, 0) = .ok b') ↔ ¬ r.Overflows E.bad) := by
  have h0 : 0 ∉ r.line := fun h => (rule_line_clean hw 0 h).1 rfl
  constructor
  · obtain ⟨fp, h1, h2⟩ := C22_rule_text E.bad hw (t := 0) (.inl rfl) false false
    unfold lineClass
    rw [h2, Res.bind_ok]
    exact classify_ok h1
  · obtain ⟨fp, h1, h2⟩ := C22_rule_text E.bad hw (t := 0) (.inl rfl) pr true
    rw [fillLine_iff pr b h0 h2, overflows_iff hw]
    exact ⟨fun h => h.2, fun h => ⟨classify_ok h1, h⟩⟩

theorem appliesTo_tags {r : RuleText} {tags tags' : List Bytes} (h : ∀ t, t ∈ tags ↔ t ∈ tags') (q : Request) :
    r.AppliesTo tags q ↔ r.AppliesTo tags' q := by
  unfold RuleText.AppliesTo RuleText.TagEnabled
  simp only [h]

/-- What the lines of a list with the rules `rs` are read as: the rules (with or without their
text preserved), and rules that play no part in the verdict on a request. -/
structure LoadedAs (fs : List Filter) (rs : List RuleText) : Prop where
  rule : ∀ f ∈ fs, (∃ r ∈ rs, ∃ pr, f = r.filter pr) ∨ (∀ s, ¬ Kind s f) ∨ (Inert f ∧ f.domainList = none)
  all : ∀ r ∈ rs, ∃ pr, r.filter pr ∈ fs

theorem LoadedAs.append {fs gs : List Filter} {rs rs' : List RuleText} (h : LoadedAs fs rs) (h' : LoadedAs gs rs') :
    LoadedAs (fs ++ gs) (rs ++ rs') where
  rule f hf := by
    rcases List.mem_append.1 hf with hf | hf
    · rcases h.rule f hf with ⟨r, hr, pr, e⟩ | h
      · exact .inl ⟨r, by simp [hr], pr, e⟩
      · exact .inr h
    · rcases h'.rule f hf with ⟨r, hr, pr, e⟩ | h
      · exact .inl ⟨r, by simp [hr], pr, e⟩
      · exact .inr h
  all r hr := by
    rcases List.mem_append.1 hr with hr | hr
    · obtain ⟨pr, h⟩ := h.all r hr; exact ⟨pr, by simp [h]⟩
    · obtain ⟨pr, h⟩ := h'.all r hr; exact ⟨pr, by simp [h]⟩

theorem LoadedAs.nil : LoadedAs [] [] := ⟨by simp, by simp⟩

/-- What the lines of a list with the rules `rs` are read as, in order. -/
inductive LoadedIn : List Filter → List RuleText → Prop
  | nil : LoadedIn [] []
  | idle {f fs rs} : (∀ s, ¬ Kind s f) ∨ (Inert f ∧ f.domainList = none) → LoadedIn fs rs → LoadedIn (f :: fs) rs
  | rule {fs rs} (r : RuleText) (pr : Bool) : LoadedIn fs rs → LoadedIn (r.filter pr :: fs) (r :: rs)

theorem LoadedIn.append {fs gs : List Filter} {rs rs' : List RuleText} (h : LoadedIn fs rs) (h' : LoadedIn gs rs') :
    LoadedIn (fs ++ gs) (rs ++ rs') := by
  induction h with
  | nil => exact h'
  | idle hf _ ih => exact .idle hf ih
  | rule r pr _ ih => exact .rule r pr ih

theorem LoadedIn.loadedAs {fs : List Filter} {rs : List RuleText} (h : LoadedIn fs rs) : LoadedAs fs rs := by
  induction h with
  | nil => exact .nil
  | @idle f fs rs hf _ ih =>
    have : LoadedAs [f] [] := ⟨fun g hg => by rw [List.mem_singleton.1 hg]; exact .inr hf, by simp⟩
    exact this.append ih
  | @rule fs rs r pr _ ih =>
    have : LoadedAs [r.filter pr] [r] := ⟨fun g hg => .inl ⟨r, by simp, pr, by simpa using hg⟩, fun x hx => ⟨pr, by
      rw [List.mem_singleton.1 hx]; simp⟩⟩
    exact this.append ih

section
variable {bad : List Bytes} {rs : List RuleText} (hs : SoundList bad rs) {fs : List Filter} (hl : LoadedAs fs rs)
include hs hl

theorem unindexed_rule {s : Bool} {f : Filter} (hf : f ∈ fs) (hu : Unindexed bad s f) {dl : Bytes} (hd : f.domainList = some dl) :
    ∃ r ∈ rs, r.value bs%"domain=" = some dl ∧ ¬ r.HostOnly ∧ ¬ r.Indexable bad := by
  obtain ⟨h1, h2, h3⟩ := hu
  rcases hl.rule f hf with ⟨r, hr, pr, rfl⟩ | h | ⟨-, h⟩
  · refine ⟨r, hr, ?_, ?_, ?_⟩
    · rw [← opts_domainList (hs.wellFormed r hr)]; exact hd
    · have : has r.kind FTHostOnly = false := h2
      rw [(kind_bits r).2.1] at this
      simpa using this
    · rintro ⟨w, hw1, hw2⟩
      exact h3 ⟨(kind_bits r).2.2.2.1, r.text, w, filter_hasText (hs.wellFormed r hr) pr, hw1, hw2⟩
  · exact absurd h1 (h s)
  · rw [h] at hd; cases hd

theorem loaded_safe {q : Request} (hq : q.Web) (hsafe : Comparable rs q) : ∀ f ∈ fs, ∀ s, Kind s f →
    SafeOn q.url (resolveContext q.url q.context q.domain) q.domain f ∨ Inert f := by
  intro f hf s hk
  rcases hl.rule f hf with ⟨r, hr, pr, rfl⟩ | h | ⟨h, -⟩
  · left
    have hw := hs.wellFormed r hr
    refine ⟨filter_in_bounds hw pr hq (hsafe.inBounds r hr), fun _ _ _ hh _ => ?_⟩
    have hho : r.HostOnly := by
      have : has r.kind FTHostOnly = true := hh
      rw [(kind_bits r).2.1] at this
      simpa using this
    obtain ⟨h1, h2⟩ := C47_rule_text hw pr hq
    rw [if_pos hho] at h1 h2
    exact h2.resolve_left fun h => hsafe.inBounds r hr (h1.1 h)
  · exact absurd hk (h s)
  · exact .inr h

/-- a rule of the list is represented by one that is not overlooked -/
theorem representative {q : Request} (hclear : Clear bad rs q) {r : RuleText} (hr : r ∈ rs) (hsite : r.HostOnly → SameSite r.hostPart q.host) : ∃ pr, r.filter pr ∈ fs ∧
    (HostRule r.exception (r.filter pr) → FirstForHost r.exception fs (r.filter pr) ∧ r.HostOnly) := by
  have key : ∀ {x : RuleText} {pr}, has (x.filter pr).filterType FTHostOnly = true → x.HostOnly := by
    intro x pr hx
    have : has x.kind FTHostOnly = true := hx
    rw [(kind_bits x).2.1] at this
    simpa using this
  obtain ⟨pr, hf⟩ := hl.all r hr
  by_cases hho : r.HostOnly
  · have hhost : ∀ {x : RuleText} pr, x.HostOnly → (x.filter pr).host = some x.hostPart := by
      intro x pr hx
      simp [RuleText.filter, hx.1]
    have hrule : HostRule r.exception (r.filter pr) := by
      refine ⟨(kind_filter r pr _).2 rfl, ?_, by simp [RuleText.filter]⟩
      change has r.kind FTHostOnly = true
      rw [(kind_bits r).2.1]
      simpa using hho
    cases hf? : fs.find? (fun g => decide (HostRule r.exception g ∧ g.host = (r.filter pr).host)) with
    | none =>
      rw [List.find?_eq_none] at hf?
      exact absurd (hf? _ hf) (by simpa using hrule)
    | some g =>
      have hg := List.find?_some hf?
      have hgm := List.mem_of_find?_eq_some hf?
      simp only [decide_eq_true_eq] at hg
      obtain ⟨⟨g1, g2, -⟩, g4⟩ := hg
      rcases hl.rule g hgm with ⟨r', hr', pr', rfl⟩ | h | ⟨h, -⟩
      · have hho' := key g2
        rw [hhost pr hho, hhost pr' hho'] at g4
        have : r = r' := hclear.different r hr r' hr' hho hho' ((kind_filter r' pr' _).1 g1).symm (Option.some.inj g4).symm (hsite hho)
        subst this
        refine ⟨pr', hgm, fun _ => ⟨?_, hho⟩⟩
        unfold FirstForHost
        rw [hhost pr' hho, ← hhost pr hho]
        exact hf?
      · exact absurd g1 (h _)
      · rw [h.1] at g2; cases g2
  · exact ⟨pr, hf, fun h => absurd (key h.2.1) hho⟩

section
variable {ctags tags : List Bytes} (ht : ∀ t, t ∈ ctags ↔ t ∈ tags) {q : Request} (hq : q.Web)
include ht hq

/-- a rule that acts is one of the list, and applies -/
theorem rule_of_acts (hsafe : Comparable rs q) {s : Bool} {f : Filter} (hf : f ∈ fs) (hk : Kind s f)
    (ha : Acts ctags q.url (resolveContext q.url q.context q.domain) q.domain f) :
    ∃ r ∈ rs, r.exception = s ∧ r.AppliesTo tags q ∧ ∃ pr, f = r.filter pr := by
  rcases hl.rule f hf with ⟨r, hr, pr, rfl⟩ | h | ⟨h, -⟩
  · refine ⟨r, hr, (kind_filter r pr s).1 hk, ?_, pr, rfl⟩
    rw [acts_iff (hs.wellFormed r hr) pr hq (hsafe.inBounds r hr)] at ha
    exact (appliesTo_tags ht q).1 ha
  · exact absurd hk (h s)
  · have := ha.1
    rw [h.2] at this
    cases this

variable (hclear : Clear bad rs q)
include hclear

theorem acts_of_rule {r : RuleText} (hr : r ∈ rs) (ha : r.AppliesTo tags q) :
    ∃ f ∈ fs, Kind r.exception f ∧ Listed r.exception fs q.url f ∧ Considered bad r.exception fs q.url q.domain f ∧
      Acts ctags q.url (resolveContext q.url q.context q.domain) q.domain f := by
  have hsite : r.HostOnly → SameSite r.hostPart q.host := fun h2 => by
    have hfit := ha.2.2.2.2
    unfold RuleText.AddressFits at hfit
    rw [h2.1, applies_noBar (hclear.inBounds r hr) ha h2] at hfit
    exact hfit.1
  obtain ⟨pr, hf, h⟩ := representative hs hl hclear hr hsite
  have hacts := (acts_iff (hs.wellFormed r hr) pr hq (hclear.inBounds r hr) tags).2 ha
  have hlist : Listed r.exception fs q.url (r.filter pr) := by
    intro hh
    obtain ⟨h1, h2⟩ := h hh
    refine ⟨h1, ?_⟩
    have hhost : (r.filter pr).host = some r.hostPart := by simp [RuleText.filter, h2.1]
    rw [hhost, web_host hq]
    exact ⟨hsite h2, hclear.hosts r hr h2 (hsite h2)⟩
  refine ⟨_, hf, (kind_filter r pr _).2 rfl, hlist, ⟨hlist, ?_, ?_⟩, ?_⟩
  · rintro hu ⟨dl, e, h2⟩ hn
    obtain ⟨r', hr', e1, e2, e3⟩ := unindexed_rule hs hl hf hu e
    exact (hclear.noPage hn r' hr' dl e1 e2 e3).1 h2
  · rintro - - d hd g hg - hu ⟨dl, e, h1⟩ dl' e' x hx hname
    rw [e] at e'
    cases e'
    obtain ⟨r', hr', e1, e2, e3⟩ := unindexed_rule hs hl hg hu e
    exact hclear.excluded d hd r' hr' dl e1 e2 e3 h1 x hx hname
  · exact ⟨hacts.1, hacts.2.imp id (ht _).2⟩

theorem someActs_iff (s : Bool) : SomeActs bad ctags s fs q.url (resolveContext q.url q.context q.domain) q.domain ↔
    ∃ r ∈ rs, r.exception = s ∧ r.AppliesTo tags q := by
  constructor
  · rintro ⟨f, hf, hk, -, ha⟩
    obtain ⟨r, hr, h1, h2, -⟩ := rule_of_acts hs hl ht hq hclear.comparable hf hk ha
    exact ⟨r, hr, h1, h2⟩
  · rintro ⟨r, hr, rfl, ha⟩
    obtain ⟨f, hf, h1, -, h3, h4⟩ := acts_of_rule hs hl ht hq hclear hr ha
    exact ⟨f, hf, h1, h3, h4⟩

theorem someListedActs_iff (s : Bool) : SomeListedActs ctags s fs q.url (resolveContext q.url q.context q.domain) q.domain ↔
    ∃ r ∈ rs, r.exception = s ∧ r.AppliesTo tags q := by
  constructor
  · rintro ⟨f, hf, hk, -, ha⟩
    obtain ⟨r, hr, h1, h2, -⟩ := rule_of_acts hs hl ht hq hclear.comparable hf hk ha
    exact ⟨r, hr, h1, h2⟩
  · rintro ⟨r, hr, rfl, ha⟩
    obtain ⟨f, hf, h1, h3, -, h4⟩ := acts_of_rule hs hl ht hq hclear hr ha
    exact ⟨f, hf, h1, h3, h4⟩

end

theorem clear_noEmptyExclusion {q : Request} (hclear : Clear bad rs q) (hn : q.domain = none) (s : Bool) : NoEmptyExclusion bad s fs := by
  intro g hg hu _ dl e
  obtain ⟨r', hr', e1, e2, e3⟩ := unindexed_rule hs hl hg hu e
  exact (hclear.noPage hn r' hr' dl e1 e2 e3).2

end

/-! ### loading a list -/

/-- the lines of a list are read as its rules, and as rules that play no part -/
theorem loadedIn_lines (bad : List Bytes) {ls : List Bytes} {rs : List RuleText} (h : ListOf ls rs) (h0 : ∀ l ∈ ls, 0 ∉ l)
    (hw : ∀ r ∈ rs, r.WellFormed) (pr : Bool) : ∃ fs, Reads bad pr ls fs ∧ LoadedIn fs rs := by
  induction h with
  | nil => exact ⟨[], .nil, .nil⟩
  | @idle l ls rs hi _ ih =>
    obtain ⟨fs, h1, h2⟩ := ih (fun l hl => h0 l (by simp [hl])) hw
    rcases hi with ⟨hb, hb'⟩ | hc
    · exact ⟨_, .cons (C18_blank_line bad l 0 pr true hb hb').1 h1, .idle (.inl fun s => by cases s <;> decide) h2⟩
    · exact ⟨_, .cons (C18_comment_line bad l 0 pr true hc).1 h1, .idle (.inl fun s => by cases s <;> decide) h2⟩
  | @page l ls rs hp _ ih =>
    obtain ⟨fs, h1, h2⟩ := ih (fun l hl => h0 l (by simp [hl])) hw
    obtain ⟨f, e, fp, hf, ht, -⟩ := parse_page hp bad pr true
    refine ⟨_, .cons hf h1, .idle (.inl fun s => ?_) h2⟩
    unfold Kind
    rcases ht with h | h | h <;> rw [h] <;> cases s <;> decide
  | @regex l ls rs hp _ ih =>
    obtain ⟨fs, h1, h2⟩ := ih (fun l hl => h0 l (by simp [hl])) hw
    obtain ⟨f, body, hf, e1, e2, e3, e4, e5⟩ := parse_regex hp bad pr true
    have hb : 0 ∉ body := fun hb => h0 l (by simp) (by rw [e5]; simp [hb])
    refine ⟨_, .cons hf h1, .idle (.inr ⟨⟨by rw [e1]; decide, fun url ctx dom bloom => ?_⟩, e2⟩) h2⟩
    rcases matches_regex f e1 hb e3 url ctx dom bloom with h | h
    · exact h
    · exact absurd e4 h
  | @other l ls rs hc hl _ ih =>
    obtain ⟨fs, h1, h2⟩ := ih (fun l hl => h0 l (by simp [hl])) hw
    obtain ⟨f, e, hf, -, -, hi⟩ := parse_ruleless hc hl bad pr true
    exact ⟨_, .cons hf h1, .idle hi h2⟩
  | @rule ls rs r _ ih =>
    obtain ⟨fs, h1, h2⟩ := ih (fun l hl => h0 l (by simp [hl])) (fun r hr => hw r (by simp [hr]))
    obtain ⟨fp, _, hp⟩ := C22_rule_text bad (hw r (by simp)) (t := 0) (.inl rfl) pr true
    exact ⟨_, .cons hp h1, .rule r pr h2⟩

theorem loadedAs_lines (bad : List Bytes) {ls : List Bytes} {rs : List RuleText} (h : ListOf ls rs) (h0 : ∀ l ∈ ls, 0 ∉ l)
    (hw : ∀ r ∈ rs, r.WellFormed) (pr : Bool) : ∃ fs, Reads bad pr ls fs ∧ LoadedAs fs rs := by
  obtain ⟨fs, h1, h2⟩ := loadedIn_lines bad h h0 hw pr
  exact ⟨fs, h1, h2.loadedAs⟩

/-- the first pass over the lines of a list is defined, and the second exactly if no rule overflows the buffer -/
theorem fill_listOf_iff (E : Env) (pr : Bool) {ls : List Bytes} {rs : List RuleText} (h : ListOf ls rs)
    (hw : ∀ r ∈ rs, r.WellFormed)
    (b : Build E) (n : Counts) :
    (∃ n', countPass E.bad (nul ls) n = .ok n') ∧
      ((∃ b', fill E pr (nul ls) b = .ok b') ↔ ∀ r ∈ rs, ¬ r.Overflows E.bad) := by
  have step : ∀ {l ls} {rs rs' : List RuleText} {b : Build E} {n}, ((∃ cl, lineClass E.bad (l, 0) = .ok cl) ∧
        ((∃ b', fillLine E pr b (l, 0) = .ok b') ↔ ∀ r ∈ rs', ¬ r.Overflows E.bad)) →
      (∀ b n, (∃ n', countPass E.bad (nul ls) n = .ok n') ∧ ((∃ b', fill E pr (nul ls) b = .ok b') ↔ ∀ r ∈ rs, ¬ r.Overflows E.bad)) →
      (∃ n', countPass E.bad (nul (l :: ls)) n = .ok n') ∧
        ((∃ b', fill E pr (nul (l :: ls)) b = .ok b') ↔ ∀ r ∈ rs' ++ rs, ¬ r.Overflows E.bad) := by
    rintro l ls rs rs' b n ⟨⟨cl, hcl⟩, hb⟩ ih
    rw [List.forall_mem_append]
    simp only [nul, List.map_cons] at ih ⊢
    rw [countPass_cons, hcl, Res.bind_ok]
    refine ⟨(ih b (n.bump cl)).1, ?_⟩
    rw [← hb]
    simp only [fill]
    cases hf : fillLine E pr b (l, 0) with
    | ub u => exact ⟨fun ⟨_, h⟩ => (by cases h), fun ⟨⟨_, h⟩, _⟩ => (by cases h)⟩
    | ok b1 =>
      rw [Res.bind_ok, (ih b1 n).2]
      exact ⟨fun h => ⟨⟨b1, rfl⟩, h⟩, fun h => h.2⟩
  have easy : ∀ {l} {b : Build E}, (∃ cl, lineClass E.bad (l, 0) = .ok cl) ∧ (∃ b', fillLine E pr b (l, 0) = .ok b') →
      (∃ cl, lineClass E.bad (l, 0) = .ok cl) ∧
        ((∃ b', fillLine E pr b (l, 0) = .ok b') ↔ ∀ r ∈ ([] : List RuleText), ¬ r.Overflows E.bad) :=
    fun h => ⟨h.1, fun _ _ h => (by cases h), fun _ => h.2⟩
  induction h generalizing b n with
  | nil => exact ⟨⟨n, rfl⟩, fun _ _ h => (by cases h), fun _ => ⟨b, rfl⟩⟩
  | @idle l ls rs hi _ ih => exact step (easy ⟨⟨_, lineClass_idle E.bad hi⟩, _, fillLine_idle E pr b hi⟩) (ih hw)
  | @page l ls rs hp _ ih => exact step (easy (fillLine_page E pr b hp)) (ih hw)
  | @regex l ls rs hp _ ih => exact step (easy (fillLine_regex E pr b hp)) (ih hw)
  | @other l ls rs hc hl _ ih => exact step (easy (fillLine_ruleless E pr b hc hl)) (ih hw)
  | @rule ls rs r _ ih =>
    refine step (rs' := [r]) ?_ (ih fun r hr => hw r (by simp [hr]))
    obtain ⟨h1, h2⟩ := fillLine_rule_iff E pr b (hw r (by simp))
    exact ⟨h1, by rw [h2]; simp⟩

/-- and loading them runs into no undefined behaviour -/
theorem fill_listOf (E : Env) (pr : Bool) {ls : List Bytes} {rs : List RuleText} (h : ListOf ls rs)
    (hs : SoundList E.bad rs) (b : Build E) (n : Counts) :
    (∃ n', countPass E.bad (nul ls) n = .ok n') ∧ ∃ b', fill E pr (nul ls) b = .ok b' := by
  obtain ⟨h1, h2⟩ := fill_listOf_iff E pr h hs.wellFormed b n
  exact ⟨h1, h2.2 hs.fits⟩

theorem load_inOrder {E : Env} {c : Client E} {fs : List Filter} (hist : History E c fs) {input : Bytes} (h0 : 0 ∉ input)
    {rs : List RuleText} (h : ListOf (lines input) rs) (hs : SoundList E.bad rs) (pr : Bool) :
    ∃ c' gs, c.parse input pr = .ok c' ∧ History E c' (fs ++ gs) ∧ LoadedIn gs rs := by
  obtain ⟨⟨n, hn⟩, b, hb⟩ := fill_listOf E pr h hs c.startBuild {}
  have hp := parse_ok_iff.2 ⟨n, b, hn, hb, rfl⟩
  obtain ⟨gs, h1, h2⟩ := loadedIn_lines E.bad h (fun l hl h => h0 (mem_lines hl 0 h).1) hs.wellFormed pr
  exact ⟨_, gs, hp, .parse hist h0 hp h1, h2⟩

theorem load_listOf {E : Env} {c : Client E} {fs : List Filter} (hist : History E c fs) {input : Bytes} (h0 : 0 ∉ input)
    {rs : List RuleText} (h : ListOf (lines input) rs) (hs : SoundList E.bad rs) (pr : Bool) :
    ∃ c' gs, c.parse input pr = .ok c' ∧ History E c' (fs ++ gs) ∧ LoadedAs gs rs := by
  obtain ⟨c', gs, h1, h2, h3⟩ := load_inOrder hist h0 h hs pr
  exact ⟨c', gs, h1, h2, h3.loadedAs⟩

/-! ### the book -/

theorem soundList_nil (bad : List Bytes) : SoundList bad [] := by
  constructor <;> simp

theorem soundList_subset {bad : List Bytes} {rs rs' : List RuleText} (h : SoundList bad rs) (hsub : ∀ r ∈ rs', r ∈ rs) : SoundList bad rs' where
  wellFormed r hr := h.wellFormed r (hsub r hr)
  fits r hr := h.fits r (hsub r hr)

/-- The client has loaded the rules of the book, and its tags are enabled. -/
structure InStep {E : Env} (c : Client E) (b : Book) (fs : List Filter) : Prop where
  hist : History E c fs
  loaded : LoadedAs fs b.rules
  sound : SoundList E.bad b.rules
  nodup : c.tags.Nodup
  tags : ∀ t, t ∈ c.tags ↔ t ∈ b.tags

section
variable {E : Env} {c : Client E} {b : Book} {fs : List Filter} (h : InStep c b fs) {q : Request} (hq : q.Web)
include h hq

theorem reported (hsafe : Comparable b.rules q) {s : Bool} {f g : Filter} (hg : g ∈ fs) (hk : Kind s g) (hc : CopyOf f g)
    (ha : Acts c.tags q.url (resolveContext q.url q.context q.domain) q.domain g) : b.Reported s q f := by
  obtain ⟨r, hr, h1, h2, pr, rfl⟩ := rule_of_acts h.sound h.loaded h.tags hq hsafe hg hk ha
  exact ⟨r, hr, h1, h2, pr, hc⟩

variable (hclear : Clear E.bad b.rules q)
include hclear

theorem inStep_matches (hroll : E.fp.rolls q.url) :
    ∃ o, c.query q.url q.context q.domain = .ok o ∧ b.Verdict q o.block o.filter o.exception := by
  obtain ⟨w1, w2, w3⟩ := web_url hq
  obtain ⟨o, ho⟩ := query_safe' (history_holds h.hist) (loaded_safe h.sound h.loaded hq hclear.comparable) w3
  refine ⟨o, ho, ?_⟩
  have hne : q.domain = none → ∀ s, NoEmptyExclusion E.bad s fs := clear_noEmptyExclusion h.sound h.loaded hclear
  have hblock := C23_exact h.hist w1 w2 w3 hroll hne ho
  obtain ⟨r1, r2, r3, r4, r5⟩ := query_report h.hist w3 ho
  have iff := someActs_iff h.sound h.loaded h.tags hq hclear
  have e1 : ∀ f, o.filter = some f → b.Reported false q f := fun f hf => by
    obtain ⟨g, hg, hc, hk, -, ha⟩ := r1 f hf
    exact reported h hq hclear.comparable hg hk hc ha
  have e2 : ∀ f, o.exception = some f → b.Reported true q f := fun f hf => by
    obtain ⟨g, hg, hc, hk, -, ha⟩ := r2 f hf
    exact reported h hq hclear.comparable hg hk hc ha
  have weak : ∀ {s f}, b.Reported s q f → b.SomeRule s q := fun ⟨r, h1, h2, h3, _⟩ => ⟨r, h1, h2, h3⟩
  have e3 : o.filter ≠ none → b.SomeRule false q := fun hn => by
    obtain ⟨f, hf⟩ := Option.ne_none_iff_exists'.1 hn
    exact weak (e1 f hf)
  rw [iff, iff] at hblock
  have both : b.SomeRule false q → b.SomeRule true q → o.filter ≠ none ∧ o.exception ≠ none := by
    intro h1 h2
    obtain ⟨e, he, hk, hc, ha⟩ := (iff true).2 h2
    obtain ⟨-, hx⟩ := C25_exceptions_override h.hist w1 w2 w3 hroll hne ho he hk hc ha
    obtain ⟨f, e', hf, he', -⟩ := hx ((iff false).2 h1)
    rw [hf, he']
    exact ⟨by simp, by simp⟩
  refine ⟨hblock, ⟨e3, fun h1 => ?_⟩, ⟨fun hn => ?_, fun ⟨h1, h2⟩ => (both h1 h2).2⟩, e1, e2⟩
  · by_cases h2 : b.SomeRule true q
    · exact (both h1 h2).1
    · exact (r3 (hblock.2 ⟨h1, h2⟩)).1
  · obtain ⟨e, he⟩ := Option.ne_none_iff_exists'.1 hn
    exact ⟨e3 (r5 hn), weak (e2 e he)⟩

theorem inStep_find :
    ∃ r, c.findMatchingFilters q.url q.context q.domain = .ok r ∧ b.Verdict q r.block r.filter r.exception := by
  obtain ⟨w1, w2, w3⟩ := web_url hq
  have hold := history_holds h.hist
  obtain ⟨r, ho⟩ := find_safe' hold (loaded_safe h.sound h.loaded hq hclear.comparable)
  refine ⟨r, ho, ?_⟩
  have iff := someListedActs_iff h.sound h.loaded h.tags hq hclear
  have weak : ∀ {s f}, b.Reported s q f → b.SomeRule s q := fun ⟨r, h1, h2, h3, _⟩ => ⟨r, h1, h2, h3⟩
  rcases hold.ready with hr | ⟨rfl, hb, hh, hd⟩
  · have rep : ∀ {s f}, c.FindMeets s q.url f → Acts c.tags q.url (resolveContext q.url q.context q.domain) q.domain f →
        b.Reported s q f := by
      intro s f hm ha
      obtain ⟨g, hg, hc, hk, -, ha⟩ := find_listed hold hm ha
      exact reported h hq hclear.comparable hg hk hc ha
    have none : ∀ {s}, c.FindNone s q.url (resolveContext q.url q.context q.domain) q.domain → ¬ b.SomeRule s q := by
      intro s hn hs
      exact find_none_listed hold hr hn ((iff s).2 hs)
    cases find_ok hr rfl ho with
    | free h1 => exact ⟨by simp [none h1], by simp [none h1], by simp [none h1], by simp, by simp⟩
    | excepted f e h1 h2 h3 h4 =>
      have a := rep h1 h2
      have b := rep h3 h4
      refine ⟨by simp [weak b], by simp [weak a], by simp [weak a, weak b], ?_, ?_⟩
      · rintro _ ⟨⟩; exact a
      · rintro _ ⟨⟩; exact b
    | blocked f h1 h2 h3 =>
      have a := rep h1 h2
      refine ⟨by simp [weak a, none h3], by simp [weak a], by simp [none h3], ?_, by simp⟩
      rintro _ ⟨⟩; exact a
  · have hempty : ∀ id, c.lists id = [] := by
      intro id
      apply List.eq_nil_iff_forall_not_mem.2
      intro f hf
      have := (hold.mem.1 hf).1
      simp at this
    rw [find_empty hempty hh] at ho
    cases ho
    have no : ∀ s, ¬ b.SomeRule s q := by
      rintro s ⟨r, hr, -⟩
      obtain ⟨pr, hf⟩ := h.loaded.all r hr
      cases hf
    exact ⟨by simp [no], by simp [no], by simp [no], by simp, by simp⟩

end

/-- every call is answered as expected, and leaves the client in step with the book -/
theorem inStep_step {E : Env} {c : Client E} {b : Book} {fs : List Filter} (h : InStep c b fs) {call : Call} (hc : b.Allows E call) :
    ∃ a c' fs', step c call.op = .ok (a, c') ∧ b.Expects call a ∧ InStep c' (b.after call) fs' := by
  cases call with
  | load input preserve rules =>
    obtain ⟨h0, hl, hs⟩ := hc
    obtain ⟨c', gs, h1, h2, h3⟩ := load_listOf h.hist h0 hl (soundList_subset hs (by simp +contextual)) preserve
    refine ⟨.done, c', fs ++ gs, by simp only [Call.op, step, h1]; rfl, rfl, h2, h.loaded.append h3, hs, ?_, ?_⟩
    · rw [parse_tags h1]; exact h.nodup
    · rw [parse_tags h1]; exact h.tags
  | clear => exact ⟨.done, c.clear, [], rfl, rfl, .clear c, .nil, soundList_nil _, h.nodup, h.tags⟩
  | addTag t =>
    refine ⟨.done, c.addTag t, fs, rfl, rfl, .addTag t h.hist, h.loaded, h.sound, ?_, ?_⟩
    · unfold Client.addTag Client.tagExists
      split
      · exact h.nodup
      · rename_i hn
        have hn : t ∉ c.tags := by simpa using hn
        exact List.nodup_append.2 ⟨h.nodup, by simp, fun x hx y hy => by
          rw [List.mem_singleton.1 hy]; rintro rfl; exact hn hx⟩
    · intro u
      unfold Client.addTag Client.tagExists
      simp only [Book.after, List.mem_cons]
      split
      · rename_i hm
        have hm : t ∈ c.tags := by simpa using hm
        rw [h.tags]
        constructor
        · exact .inr
        · rintro (rfl | h')
          · exact (h.tags _).1 hm
          · exact h'
      · simp [h.tags, or_comm]
  | removeTag t =>
    refine ⟨.done, c.removeTag t, fs, rfl, rfl, .removeTag t h.hist, h.loaded, h.sound, h.nodup.erase t, ?_⟩
    intro u
    simp only [Client.removeTag, Book.after, h.nodup.mem_erase_iff, List.mem_filter, h.tags, decide_eq_true_eq]
    exact and_comm
  | tagExists t =>
    refine ⟨.bool (c.tagExists t), c, fs, rfl, ?_, h⟩
    show c.tagExists t = true ↔ t ∈ b.tags
    rw [← h.tags]
    simp [Client.tagExists]
  | «matches» q =>
    obtain ⟨o, h1, h2⟩ := inStep_matches h hc.1 hc.2.1 hc.2.2
    have h3 : c.matches q.url q.context q.domain = .ok (o.block, { c with stats := o.stats, badFps := o.badFps }) := by
      unfold Client.matches; rw [h1]; rfl
    exact ⟨.verdict o.block o.filter o.exception, _, fs, by simp only [Call.op, step, h1]; rfl, h2, .query h.hist h3,
      h.loaded, h.sound, h.nodup, h.tags⟩
  | find q =>
    obtain ⟨r, h1, h2⟩ := inStep_find h hc.1 hc.2
    exact ⟨.verdict r.block r.filter r.exception, c, fs, by simp only [Call.op, step, h1]; rfl, h2, h⟩
  | enableBadFingerprintDetection =>
    exact ⟨.done, _, fs, rfl, rfl, .enableBadFingerprintDetection h.hist, h.loaded, h.sound,
      (by unfold Client.enableBadFingerprintDetection; split <;> exact h.nodup),
      (by unfold Client.enableBadFingerprintDetection; split <;> exact h.tags)⟩

theorem inStep_run {E : Env} {c : Client E} {b : Book} {fs : List Filter} (h : InStep c b fs) {calls : List Call}
    (hc : b.AllowsAll E calls) :
    ∃ as c', run c (calls.map Call.op) = .ok (as, c') ∧ b.ExpectsAll calls as := by
  induction calls generalizing c b fs with
  | nil => exact ⟨[], c, rfl, rfl⟩
  | cons call calls ih =>
    obtain ⟨a, c1, fs1, h1, h2, h3⟩ := inStep_step h hc.1
    obtain ⟨as, c2, h4, h5⟩ := ih h3 hc.2
    refine ⟨a :: as, c2, ?_, a, as, rfl, h2, h5⟩
    simp only [List.map_cons, run, h1, Res.bind_ok, h4]

theorem inStep_fresh (E : Env) : InStep (Client.fresh E) {} [] :=
  ⟨.new, .nil, soundList_nil _, by simp [Client.fresh], by simp [Client.fresh]⟩

/-- the client with further tags enabled -/
def Client.addTags {E : Env} (c : Client E) (tags : List Bytes) : Client E := tags.foldl Client.addTag c

theorem addTags_history {E : Env} {c : Client E} {fs : List Filter} (h : History E c fs) (tags : List Bytes) :
    History E (c.addTags tags) fs := by
  unfold Client.addTags
  induction tags generalizing c with
  | nil => exact h
  | cons t tags ih => exact ih (.addTag t h)

theorem mem_addTags {E : Env} (c : Client E) (tags : List Bytes) (t : Bytes) : t ∈ (c.addTags tags).tags ↔ t ∈ c.tags ∨ t ∈ tags := by
  unfold Client.addTags
  induction tags generalizing c with
  | nil => simp
  | cons u tags ih =>
    rw [List.foldl_cons, ih]
    have : t ∈ (c.addTag u).tags ↔ t ∈ c.tags ∨ t = u := by
      unfold Client.addTag Client.tagExists
      split
      · rename_i h
        constructor
        · exact .inl
        · rintro (h' | rfl)
          · exact h'
          · simpa using h
      · simp
    rw [this]
    simp [or_assoc]

theorem addTags_nodup {E : Env} {c : Client E} (h : c.tags.Nodup) (tags : List Bytes) : (c.addTags tags).tags.Nodup := by
  unfold Client.addTags
  induction tags generalizing c with
  | nil => exact h
  | cons t tags ih =>
    refine ih ?_
    unfold Client.addTag Client.tagExists
    split
    · exact h
    · rename_i hn
      have hn : t ∉ c.tags := by simpa using hn
      exact List.nodup_append.2 ⟨h, by simp, fun x hx y hy => by
        rw [List.mem_singleton.1 hy]; rintro rfl; exact hn hx⟩

/-- **C59**, for whole sessions: whatever sequence of calls is made on a new client (lists
loaded, one after the other or after clearing the client, tags enabled and disabled, requests
decided by `matches` or by `findMatchingFilters`), no call runs into undefined behaviour, and
every answer is the one the specification derives from the text of the rules: a request is
blocked exactly if one of the rules loaded applies to it, and none of the exceptions does; and
the rule and the exception reported are rules that apply. -/
theorem C59_session_partial (E : Env) (calls : List Call) (h : ({} : Book).AllowsAll E calls) :
    ∃ as c, run (Client.fresh E) (calls.map Call.op) = .ok (as, c) ∧ ({} : Book).ExpectsAll calls as :=
  inStep_run (inStep_fresh E) h

/-- **C59**, from the text to the verdict: load a list with the rules `rs` (and blank lines,
comments, regular expressions and rules about the contents of pages) into a new client and enable
some tags.  Then every web request is blocked exactly if one of the rules applies to it, and none
of the exceptions does, where the specification says from the text of a rule which requests it
applies to. -/
theorem C59_text_to_verdict_partial (E : Env) (rs : List RuleText) (hs : SoundList E.bad rs) (input : Bytes) (h0 : 0 ∉ input)
    (hl : ListOf (lines input) rs) (preserve : Bool) :
    ∃ c, (Client.fresh E).parse input preserve = .ok c ∧
      ∀ (tags : List Bytes) (q : Request), q.Web → Clear E.bad rs q → E.fp.rolls q.url →
        ∃ o, (c.addTags tags).query q.url q.context q.domain = .ok o ∧
          (o.block = true ↔ (∃ r ∈ rs, r.exception = false ∧ r.AppliesTo tags q) ∧
            ¬ ∃ r ∈ rs, r.exception = true ∧ r.AppliesTo tags q) := by
  obtain ⟨c, gs, h1, h2, h3⟩ := load_listOf (History.new (E := E)) h0 hl hs preserve
  rw [List.nil_append] at h2
  refine ⟨c, h1, fun tags q hq hclear hroll => ?_⟩
  obtain ⟨w1, w2, w3⟩ := web_url hq
  have hist := addTags_history h2 tags
  have htags : ∀ t, t ∈ (c.addTags tags).tags ↔ t ∈ tags := by
    intro t
    rw [mem_addTags, parse_tags h1]
    simp [Client.fresh]
  obtain ⟨o, ho⟩ := query_safe' (history_holds hist) (loaded_safe hs h3 hq hclear.comparable) w3
  refine ⟨o, ho, ?_⟩
  rw [C23_exact hist w1 w2 w3 hroll (clear_noEmptyExclusion hs h3 hclear) ho, someActs_iff hs h3 htags hq hclear,
    someActs_iff hs h3 htags hq hclear]

/-- Conditions on a list under which no known defect applies to any request. -/
theorem clear_of {bad : List Bytes} {rs : List RuleText} (carets : ∀ r ∈ rs, ∀ part ∈ splitOn ch%'*' r.text, CaretEdge part)
    (hosts : ∀ r ∈ rs, r.HostOnly → ch%'.' ∈ r.hostPart ∧ r.text ≠ [] ∧ r.text.getLast? ≠ some ch%'*')
    (different : ∀ r ∈ rs, ∀ r' ∈ rs, r.HostOnly → r'.HostOnly → r.exception = r'.exception → r.hostPart = r'.hostPart → r = r')
    (domains : ∀ r ∈ rs, ∀ dl, r.value bs%"domain=" = some dl → ¬ r.HostOnly → r.Indexable bad) (bars : ∀ r ∈ rs, r.HostOnly → r.rightBar = false) (q : Request) : Clear bad rs q where
  inBounds r hr := inBounds_of (fun part hp => CaretEdge.safe (carets r hr part hp) q.url) (fun hh _ => (hosts r hr hh).2)
    fun hh h => absurd (bars r hr hh) (by simp [h])
  hosts r hr hh _ := .inr (hosts r hr hh).1
  different r hr r' hr' h1 h2 h3 h4 _ := different r hr r' hr' h1 h2 h3 h4
  excluded d _ r hr dl h1 h2 h3 := absurd (domains r hr dl h1 h2) h3
  noPage _ r hr dl h1 h2 h3 := absurd (domains r hr dl h1 h2) h3

/-! #### an example -/

def exText : Bytes := bs%"[Adblock Plus 2.0]\n! an example\n\n||ads.example.com^\n&ad_box_*.gif^$image,third-party\n-tracker.js|$domain=news.com|~blog.news.com,tag=track\n@@||ads.example.com/ok.js$script\nnews.com##.banner\n/ads[0-9]+/\n@@||ads.example.com^$popup\n"

def exRules : List RuleText :=
  [ { anchor := .host, text := bs%"ads.example.com^" },
    { text := bs%"&ad_box_*.gif^", options := some bs%"image,third-party" },
    { text := bs%"-tracker.js", rightBar := true, options := some bs%"domain=news.com|~blog.news.com,tag=track" },
    { exception := true, anchor := .host, text := bs%"ads.example.com/ok.js", options := some bs%"script" },
    { exception := true, anchor := .host, text := bs%"ads.example.com^", options := some bs%"popup" } ]

theorem exList : ListOf (lines exText) exRules := by
  have : lines exText = [bs%"[Adblock Plus 2.0]", bs%"! an example", []] ++ (exRules.take 4).map RuleText.line ++
      [bs%"news.com##.banner", bs%"/ads[0-9]+/"] ++ (exRules.drop 4).map RuleText.line ++ [[]] := by decide +kernel
  rw [this]
  refine .idle (.inr ⟨[], _, by simp, by decide, .inr (.inl rfl)⟩) (.idle (.inr ⟨[], _, by simp, by decide, .inl rfl⟩) (.idle (.inl ⟨by decide, by simp⟩) ?_))
  have last : ListOf [[]] [] := .idle (.inl ⟨by decide, by simp⟩) .nil
  refine .rule _ (.rule _ (.rule _ (.rule _ (.page ⟨bs%"news.com", bs%"##", bs%".banner", rfl, by decide, by decide, by decide⟩
    (.regex ⟨bs%"ads[0-9]+", rfl⟩ (.rule _ last))))))

private theorem exEntries : exRules.map RuleText.entries = [[], [bs%"image", bs%"third-party"],
    [bs%"domain=news.com|~blog.news.com", bs%"tag=track"], [bs%"script"], [bs%"popup"]] := by decide +kernel

theorem exSound {bad : List Bytes} : SoundList bad exRules where
  wellFormed r hr := RuleText.wellFormed ((by decide +kernel : ∀ r ∈ exRules, r.ok = true) r hr)
  fits r hr := fits_of_entries ((by decide +kernel : ∀ r ∈ exRules, ∀ o ∈ r.entries, o.length ≤ 1024) r hr)

theorem exClear (q : Request) : Clear [bs%"tracke"] exRules q := by
  apply clear_of
  case carets =>
    intro r hr
    have h := safeRule_ok ((by decide +kernel : ∀ r ∈ exRules, safeRule (r.filter false) = true) r hr)
    exact (h r.text (filter_hasText (RuleText.wellFormed ((by decide +kernel : ∀ r ∈ exRules, r.ok = true) r hr)) false)).1
  case hosts => decide +kernel
  case bars => decide +kernel
  case different =>
    have : ∀ r ∈ exRules, r.HostOnly → r = { anchor := .host, text := bs%"ads.example.com^" } ∨
        r = { exception := true, anchor := .host, text := bs%"ads.example.com^", options := some bs%"popup" } := by
      intro r hr
      simp only [exRules, List.mem_cons, List.not_mem_nil, or_false] at hr
      rcases hr with rfl | rfl | rfl | rfl | rfl
      · exact fun _ => .inl rfl
      · exact fun h => absurd h (by decide +kernel)
      · exact fun h => absurd h (by decide +kernel)
      · exact fun h => absurd h (by decide +kernel)
      · exact fun _ => .inr rfl
    intro r hr r' hr' h h' he _
    rcases this r hr h with rfl | rfl <;> rcases this r' hr' h' with rfl | rfl
    · rfl
    · cases he
    · cases he
    · rfl
  case domains =>
    intro r hr dl hdl _
    simp only [exRules, List.mem_cons, List.not_mem_nil, or_false] at hr
    rcases hr with rfl | rfl | rfl | rfl | rfl
    · exact absurd ((show _ = none by decide +kernel).symm.trans hdl) (by simp)
    · exact absurd ((show _ = none by decide +kernel).symm.trans hdl) (by simp)
    · exact ⟨bs%"-track", ⟨[], bs%"er.js", rfl⟩, by decide, by decide, by decide +kernel, by decide +kernel, by decide +kernel⟩
    · exact absurd ((show _ = none by decide +kernel).symm.trans hdl) (by simp)
    · exact absurd ((show _ = none by decide +kernel).symm.trans hdl) (by simp)

def exRequest (host rest : Bytes) (type : Option (Bytes × Mask)) (domain : Option Bytes) : Request :=
  { scheme := bs%"https", host := host, rest := rest, type := type, domain := domain }

def exScript : Request := exRequest bs%"ads.example.com" bs%"/a.js" (some (bs%"script", FOScript)) (some bs%"news.com")
def exOk : Request := exRequest bs%"ads.example.com" bs%"/ok.js?1" (some (bs%"script", FOScript)) (some bs%"news.com")

theorem exWeb : exScript.Web ∧ exOk.Web := by
  constructor
  · exact ⟨by decide, by decide, .inr ⟨_, _, rfl, by decide⟩, by decide, by rintro t ⟨⟩; simp [typeTable]⟩
  · exact ⟨by decide, by decide, .inr ⟨_, _, rfl, by decide⟩, by decide, by rintro t ⟨⟩; simp [typeTable]⟩

private theorem exApplies (q : Request) (hq : q.Web) (r : RuleText) (hr : r ∈ exRules) : r.AppliesTo [bs%"track"] q ↔
    Acts [bs%"track"] q.url (resolveContext q.url q.context q.domain) q.domain (r.filter true) :=
  (acts_iff ((exSound (bad := [])).wellFormed r hr) true hq ((exClear q).inBounds r hr) _).symm

def exBook : Book := { rules := exRules, tags := [bs%"track"] }

theorem exRuleFalse : exBook.SomeRule false exScript ∧ exBook.SomeRule false exOk := by
  constructor
  · refine ⟨_, List.mem_cons_self, rfl, ?_⟩
    exact (exApplies _ exWeb.1 _ List.mem_cons_self).2 ⟨by decide +kernel, .inl (by decide +kernel)⟩
  · refine ⟨_, List.mem_cons_self, rfl, ?_⟩
    exact (exApplies _ exWeb.2 _ List.mem_cons_self).2 ⟨by decide +kernel, .inl (by decide +kernel)⟩

theorem exRuleTrue : ¬ exBook.SomeRule true exScript ∧ exBook.SomeRule true exOk := by
  constructor
  · rintro ⟨r, hr, he, ha⟩
    rw [show exBook.tags = [bs%"track"] from rfl, exApplies _ exWeb.1 r hr] at ha
    have : ∀ r ∈ exRules, r.exception = true → (r.filter true).matches exScript.url
        (resolveContext exScript.url exScript.context exScript.domain) exScript.domain none = .ok false := by decide +kernel
    have e := ha.1
    rw [this r hr he] at e
    cases e
  · refine ⟨exRules[3], by simp [exBook, exRules], rfl, ?_⟩
    exact (exApplies _ exWeb.2 _ (by simp [exRules])).2 ⟨by decide +kernel, .inl (by decide +kernel)⟩

/-- the hypotheses of **C59** are met, and both verdicts occur -/
example (E : Env) (hbad : E.bad = [bs%"tracke"]) (hroll : ∀ url, E.fp.rolls url) : ∃ c, (Client.fresh E).parse exText true = .ok c ∧
    (∃ o, (c.addTags [bs%"track"]).query exScript.url exScript.context exScript.domain = .ok o ∧ o.block = true) ∧
    ∃ o, (c.addTags [bs%"track"]).query exOk.url exOk.context exOk.domain = .ok o ∧ o.block = false := by
  obtain ⟨c, h1, h2⟩ := C59_text_to_verdict_partial E exRules exSound exText (by decide +kernel) exList true
  obtain ⟨w1, w2⟩ := exWeb
  obtain ⟨o1, a1, b1⟩ := h2 [bs%"track"] exScript w1 (hbad ▸ exClear _) (hroll _)
  obtain ⟨o2, a2, b2⟩ := h2 [bs%"track"] exOk w2 (hbad ▸ exClear _) (hroll _)
  refine ⟨c, h1, ⟨o1, a1, b1.2 ⟨exRuleFalse.1, exRuleTrue.1⟩⟩, o2, a2, ?_⟩
  rw [← Bool.not_eq_true, b2]
  exact fun h => h.2 exRuleTrue.2

private def exCalls : List Call :=
  [.addTag bs%"track", .load exText true exRules, .matches exScript, .find exOk, .clear, .load exText false exRules,
    .tagExists bs%"track", .find exScript]

/-- the hypothesis of **C59** for sessions is met, and what it says about one -/
example (E : Env) (hbad : E.bad = [bs%"tracke"]) (hroll : ∀ url, E.fp.rolls url) :
    ∃ c f1 f2 e2 f3, run (Client.fresh E) (exCalls.map Call.op) = .ok ([.done, .done, .verdict true (some f1) none,
      .verdict false (some f2) (some e2), .done, .done, .bool true, .verdict true (some f3) none], c) := by
  have hs : SoundList E.bad exRules := exSound
  have hc : ∀ q, Clear E.bad exRules q := fun q => hbad ▸ exClear q
  have ht : (0 : Byte) ∉ exText := by decide +kernel
  obtain ⟨w1, w2⟩ := exWeb
  obtain ⟨r1, r2⟩ := exRuleFalse
  obtain ⟨x1, x2⟩ := exRuleTrue
  obtain ⟨as, c, h1, h2⟩ := C59_session_partial E exCalls
    ⟨trivial, ⟨ht, exList, hs⟩, ⟨w1, hc _, hroll _⟩, ⟨w2, hc _⟩, trivial, ⟨ht, exList, hs⟩, trivial, ⟨w1, hc _⟩, trivial⟩
  obtain ⟨_, _, rfl, a1, _, _, rfl, a2, a3, _, rfl, b3, a4, _, rfl, b4, _, _, rfl, a5, _, _, rfl, a6, a7, _, rfl, b7, a8, _, rfl, b8, rfl⟩ := h2
  cases a1; cases a2; cases a5; cases a6
  cases a3 with
  | done => cases b3
  | bool _ => cases b3
  | verdict x f e =>
  cases a4 with
  | done => cases b4
  | bool _ => cases b4
  | verdict x' f' e' =>
  cases a7 with
  | done => cases b7
  | verdict => cases b7
  | bool y =>
  cases a8 with
  | done => cases b8
  | bool _ => cases b8
  | verdict x'' f'' e'' =>
  have k3 : exBook.Verdict exScript x f e := b3
  have k4 : exBook.Verdict exOk x' f' e' := b4
  have k8 : exBook.Verdict exScript x'' f'' e'' := b8
  have k7 : y = true := Iff.mpr b7 (by simp [Book.after])
  obtain ⟨f1, rfl⟩ := Option.ne_none_iff_exists'.1 (k3.matched.2 r1)
  obtain ⟨f2, rfl⟩ := Option.ne_none_iff_exists'.1 (k4.matched.2 r2)
  obtain ⟨e2, rfl⟩ := Option.ne_none_iff_exists'.1 (k4.excepted.2 ⟨r2, x2⟩)
  obtain ⟨f3, rfl⟩ := Option.ne_none_iff_exists'.1 (k8.matched.2 r1)
  have z1 : e = none := Classical.byContradiction fun h => x1 (k3.excepted.1 h).2
  have z2 : e'' = none := Classical.byContradiction fun h => x1 (k8.excepted.1 h).2
  have z3 : x = true := k3.blocked.2 ⟨r1, x1⟩
  have z4 : x'' = true := k8.blocked.2 ⟨r1, x1⟩
  have z5 : x' = false := by rw [← Bool.not_eq_true]; exact fun h => (k4.blocked.1 h).2 x2
  subst z1 z2 z3 z4 z5 k7
  exact ⟨c, f1, f2, e2, f3, h1⟩

/-! #### an example with rules which the program has difficulties with for other requests -/

instance decPartAt : ∀ p u : Bytes, Decidable (PartAt p u)
  | [], _ => isTrue trivial
  | p :: ps, [] => inferInstanceAs (Decidable (p = ch%'^' ∧ ps = []))
  | p :: ps, c :: u => have := decPartAt ps u; inferInstanceAs (Decidable ((p = c ∨ (p = ch%'^' ∧ IsSep c)) ∧ PartAt ps u))

/-- the condition on `^` can be checked -/
theorem caretSafe_of {part u : Bytes} (h : ∀ k ∈ List.range part.length, ¬ (part[k]? = some ch%'^' ∧ k ≠ 0 ∧ k + 1 ≠ part.length ∧
    k ≤ u.length ∧ PartAt (part.take k) (u.drop (u.length - k)))) : CaretSafe part u := by
  rintro a b rfl ha hb v ⟨x, rfl⟩ hv hp
  have h1 : 0 < a.length := List.length_pos_iff.2 ha
  have h2 : 0 < b.length := List.length_pos_iff.2 hb
  refine h a.length (by simp) ⟨by simp, by omega, by simp; omega, by simp; omega, ?_⟩
  rw [List.take_left' rfl, List.length_append, ← hv, Nat.add_sub_cancel, List.drop_left' rfl]
  exact hp

private def exHardRules : List RuleText :=
  [ { anchor := .host, text := bs%"two.com^" },
    { anchor := .host, text := bs%"two.com^", options := some bs%"script" },
    { text := bs%"-ad", options := some bs%"domain=news.com" },
    { text := bs%"-x", options := some bs%"domain=~blog.org" },
    { text := bs%"a^b^c" } ]

private def exHardText : Bytes := bs%"||two.com^\n||two.com^$script\n-ad$domain=news.com\n-x$domain=~blog.org\na^b^c"

private def exHard : Request := { host := bs%"b.com", rest := bs%"/-ad", type := some (bs%"image", FOImage), domain := some bs%"news.com" }

private theorem exHard_web : exHard.Web :=
  ⟨by decide, by decide, .inr ⟨_, _, rfl, by decide⟩, by decide, by rintro t ⟨⟩; simp [typeTable]⟩

private theorem exHard_sound {bad : List Bytes} : SoundList bad exHardRules where
  wellFormed r hr := RuleText.wellFormed ((by decide +kernel : ∀ r ∈ exHardRules, r.ok = true) r hr)
  fits r hr := fits_of_entries ((by decide +kernel : ∀ r ∈ exHardRules, ∀ o ∈ r.entries, o.length ≤ 1024) r hr)

private theorem exHard_other {r : RuleText} (hr : r ∈ exHardRules) (hh : r.HostOnly) : ¬ SameSite r.hostPart exHard.host := by
  rw [(by decide +kernel : ∀ r ∈ exHardRules, r.HostOnly → r.hostPart = bs%"two.com") r hr hh]
  rintro (h | ⟨sub, h⟩)
  · cases h
  · have := congrArg List.length h
    simp [exHard] at this

private theorem exHard_clear (bad : List Bytes) : Clear bad exHardRules exHard where
  inBounds r hr := by
    refine inBounds_of (fun part hp => ?_) (fun hh hsite => absurd hsite (exHard_other hr hh)) fun hh h => absurd
      ((by decide +kernel : ∀ r ∈ exHardRules, r.HostOnly → r.rightBar = false) r hr hh) (by simp [h])
    have : ∀ r ∈ exHardRules, ∀ part ∈ splitOn ch%'*' r.text, ∀ k ∈ List.range part.length, ¬ (part[k]? = some ch%'^' ∧ k ≠ 0 ∧
        k + 1 ≠ part.length ∧ k ≤ exHard.url.length ∧ PartAt (part.take k) (exHard.url.drop (exHard.url.length - k))) := by decide +kernel
    exact caretSafe_of (this r hr part hp)
  hosts r hr hh hsite := absurd hsite (exHard_other hr hh)
  different r hr r' hr' hh _ _ _ hsite := absurd hsite (exHard_other hr hh)
  excluded d hd r hr dl hdl _ _ hp s hs := by
    cases hd
    have : ∀ r ∈ exHardRules, r.value bs%"domain=" ∈ [none, some bs%"news.com", some bs%"~blog.org"] := by decide +kernel
    have := this r hr
    rw [hdl] at this
    simp only [List.mem_cons, Option.some.injEq, List.not_mem_nil, or_false, reduceCtorEq, false_or] at this
    rcases this with rfl | rfl
    · exact absurd hp (by decide)
    · rw [show negative bs%"~blog.org" = [bs%"blog.org"] by decide +kernel] at hs
      rw [List.mem_singleton.1 hs]
      rintro ⟨h | ⟨sub, h⟩, -⟩
      · cases h
      · have := congrArg List.length h
        simp at this
  noPage h := by cases h

/-- Two rules for one host, rules with domains but without a fingerprint, and a rule with `^` in the middle: the verdict about
this request follows nevertheless. -/
example (E : Env) (hroll : ∀ url, E.fp.rolls url) : ∃ c o, (Client.fresh E).parse exHardText false = .ok c ∧
    c.query exHard.url exHard.context exHard.domain = .ok o ∧ o.block = true := by
  obtain ⟨c, h1, h2⟩ := C59_text_to_verdict_partial E exHardRules exHard_sound exHardText (by decide +kernel) (by
    rw [show Spec.lines exHardText = exHardRules.map RuleText.line by decide +kernel]
    exact .rule _ (.rule _ (.rule _ (.rule _ (.rule _ .nil))))) false
  obtain ⟨o, ho, hb⟩ := h2 [] exHard exHard_web (exHard_clear _) (hroll _)
  refine ⟨c, o, h1, ho, hb.2 ⟨⟨exHardRules[2], by simp [exHardRules], rfl, ?_⟩, ?_⟩⟩
  · exact (acts_iff ((exHard_sound (bad := [])).wellFormed _ (by simp [exHardRules])) true exHard_web
      ((exHard_clear []).inBounds _ (by simp [exHardRules])) _).1 ⟨by decide +kernel, .inl (by decide +kernel)⟩
  · rintro ⟨r, hr, he, -⟩
    exact absurd he (by rw [(by decide +kernel : ∀ r ∈ exHardRules, r.exception = false) r hr]; simp)

end AdBlock
