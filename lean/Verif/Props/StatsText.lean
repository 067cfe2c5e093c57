import Verif.SpecStats
import Verif.Props.NodeApi
import Verif.Props.FindLaws
/-
The numbers of `getParsingStats` in terms of the text of lists (C106).
-/
namespace AdBlock
open Spec

theorem loop_pageIndent (line : Bytes) (t : Byte) (pr : Bool) (ws rest : Bytes) (pos : Nat) (s : PLocals) (hs : s.st = .start)
    (hl : pos + ws.length ≤ 2047) (hw : ∀ c ∈ ws, c = 32 ∨ c = 9) :
    ∃ s', parseLoop line t pr (ws ++ rest) pos s = parseLoop line t pr rest (pos + ws.length) s' ∧ s'.f = s.f ∧ s'.st = .start ∧ s'.data = s.data := by
  induction ws generalizing pos s with
  | nil => exact ⟨s, rfl, rfl, hs, rfl⟩
  | cons c ws ih =>
    simp only [List.length_cons] at hl
    have : ∃ s1, parseStep line t pr c (ws ++ rest) s = .ok (.one s1) ∧ s1.f = s.f ∧ s1.st = .start ∧ s1.data = s.data := by
      have hbar : s.bar c = s := by
        unfold PLocals.bar
        rw [if_neg]
        rintro ⟨h, -⟩
        rw [hs] at h; cases h
      unfold parseStep
      rw [if_neg (by rw [hs]; simp), hbar]
      rcases hw c (by simp) with rfl | rfl <;> exact ⟨{ s with ruleStart := s.ruleStart + 1, ruleEnd := s.ruleEnd + 1 }, by simp [parseChar, hs], rfl, hs, rfl⟩
    obtain ⟨s1, h1, h2, h3, h4⟩ := this
    rw [List.cons_append, parseLoop_cons _ _ _ _ _ _ _ (by omega), h1, Res.bind_ok]
    obtain ⟨s', e1, e2, e3, e4⟩ := ih (pos + 1) s1 h3 (by omega) (fun c hc => hw c (by simp [hc]))
    refine ⟨s', ?_, e2.trans h2, e3, e4.trans h4⟩
    dsimp only
    rw [e1]
    congr 1
    simp only [List.length_cons]; omega

theorem loop_pageDomains (line : Bytes) (t : Byte) (pr : Bool) (ds rest : Bytes) (pos : Nat) (s : PLocals)
    (hs : s.st = .data ∨ s.st = .start ∧ ∀ c, ds.head? = some c → c ∉ bs%" \t\r\n")
    (hl : pos + ds.length ≤ 2047) (hd : ∀ c ∈ ds, c ∉ bs%"|@![/$#") :
    ∃ s', parseLoop line t pr (ds ++ rest) pos s = parseLoop line t pr rest (pos + ds.length) s' ∧
      s'.f = s.f ∧ (s'.st = .start ∨ s'.st = .data) ∧ s'.data = s.data ++ ds := by
  induction ds generalizing pos s with
  | nil => exact ⟨s, rfl, rfl, hs.symm.imp_left And.left, by simp⟩
  | cons c ds ih =>
    simp only [List.length_cons] at hl
    have hc := hd c (by simp)
    simp only [List.mem_cons, List.not_mem_nil, or_false, not_or] at hc
    obtain ⟨c1, c2, c3, c4, c5, c6, c7⟩ := hc
    have : ∃ s1, parseStep line t pr c (ds ++ rest) s = .ok (.one s1) ∧ s1.f = s.f ∧ s1.st = .data ∧ s1.data = s.data ++ [c] := by
      have hbar : s.bar c = s := by
        unfold PLocals.bar
        rw [if_neg]
        rintro ⟨h, -⟩
        rcases hs with h' | ⟨h', -⟩ <;> rw [h'] at h <;> cases h
      unfold parseStep
      rw [if_neg (by rcases hs with h' | ⟨h', -⟩ <;> rw [h'] <;> simp), hbar]
      unfold parseChar
      rw [if_neg c1, if_neg c2, if_neg (by simp [c3, c4])]
      by_cases hw : c = 13 ∨ c = 10 ∨ c = 9 ∨ c = 32
      · rw [if_pos hw]
        have hst : s.st = .data := hs.resolve_right fun h => absurd (h.2 c rfl) (by
          rcases hw with rfl | rfl | rfl | rfl <;> decide)
        rw [if_neg (by rw [hst]; simp)]; exact ⟨_, rfl, rfl, hst, rfl⟩
      · rw [if_neg hw, if_neg c5, if_neg c6, if_neg c7]
        exact ⟨_, rfl, rfl, rfl, rfl⟩
    obtain ⟨s1, h1, h2, h3, h4⟩ := this
    rw [List.cons_append, parseLoop_cons _ _ _ _ _ _ _ (by omega), h1, Res.bind_ok]
    obtain ⟨s', e1, e2, e3, e4⟩ := ih (pos + 1) s1 (.inl h3) (by omega) (fun c hc => hd c (by simp [hc]))
    refine ⟨s', ?_, e2.trans h2, e3, by rw [e4, h4]; simp⟩
    dsimp only
    rw [e1]
    congr 1
    simp only [List.length_cons]; omega

/-- the text after the mark -/
theorem loop_pageSelector (line : Bytes) (t : Byte) (pr : Bool) (rest : Bytes) (pos : Nat) (s : PLocals) (hs : s.st = .dataOnly) (hl : pos + rest.length ≤ 2047) :
    ∃ s', parseLoop line t pr rest pos s = .ok (.fin s') ∧ s'.f = s.f ∧ s'.st = .dataOnly ∧ s'.data = s.data ++ rest := by
  induction rest generalizing pos s with
  | nil => exact ⟨s, rfl, rfl, hs, by simp⟩
  | cons c rest ih =>
    simp only [List.length_cons] at hl
    rw [parseLoop_cons _ _ _ _ _ _ _ (by omega)]
    unfold parseStep
    rw [if_pos hs, Res.bind_ok]
    obtain ⟨s', h1, h2, h3, h4⟩ := ih (pos + 1) (s.push c) hs (by omega)
    exact ⟨s', h1, h2, h3, by rw [h4]; simp [PLocals.push]⟩

/-- the type of the rule which a line about the contents of pages becomes -/
def Spec.PageKind.mask : PageKind → Mask
  | .hide => FTElementHiding
  | .unhide => FTElementHidingException
  | .html => FTHTMLFiltering

theorem loop_hash (line : Bytes) (t : Byte) (pr : Bool) (k : PageKind) (rest : Bytes) (pos : Nat) (s : PLocals) (hs : s.st = .start ∨ s.st = .data)
    (hl : pos < 2047) :
    ∃ s', parseLoop line t pr (k.mark ++ rest) pos s = parseLoop line t pr rest (pos + 2) s' ∧ s'.st = .dataOnly ∧
      s'.f = { s.f with domainList := if s.data = [] then s.f.domainList else some s.data, filterType := k.mask } ∧ s'.data = [] := by
  have key : ∀ c d, k.mark = [c, d] → (∃ s1, parseStep line t pr c (d :: rest) s = .ok (.two s1) ∧ s1.st = .dataOnly ∧
      s1.f = { s.f with domainList := if s.data = [] then s.f.domainList else some s.data, filterType := k.mask } ∧ s1.data = []) →
      ∃ s', parseLoop line t pr (k.mark ++ rest) pos s = parseLoop line t pr rest (pos + 2) s' ∧ s'.st = .dataOnly ∧
      s'.f = { s.f with domainList := if s.data = [] then s.f.domainList else some s.data, filterType := k.mask } ∧ s'.data = [] := by
    rintro c d e ⟨s1, h1, h2, h3⟩
    refine ⟨s1, ?_, h2, h3⟩
    rw [e, List.cons_append, parseLoop_cons _ _ _ _ _ _ _ hl, List.cons_append, List.nil_append, h1, Res.bind_ok]
    rfl
  have hbar : ∀ c, s.bar c = s := by
    intro c
    unfold PLocals.bar
    rw [if_neg]
    rintro ⟨h, -⟩
    rcases hs with h' | h' <;> rw [h'] at h <;> cases h
  have hne : ¬ s.st = .dataOnly := by rcases hs with h' | h' <;> rw [h'] <;> simp
  have take : s.takeDomains.f = { s.f with domainList := if s.data = [] then s.f.domainList else some s.data } ∧ s.takeDomains.data = [] := by
    unfold PLocals.takeDomains
    cases hd : s.data with
    | nil => simp [hd]
    | cons c d => simp
  cases k with
  | hide =>
    refine key _ _ rfl ?_
    unfold parseStep
    rw [if_neg hne, hbar]
    simp [parseChar, take, PageKind.mask]
  | unhide =>
    refine key _ _ rfl ?_
    unfold parseStep
    rw [if_neg hne, hbar]
    simp [parseChar, take, PageKind.mask]
  | html =>
    refine key _ _ rfl ?_
    unfold parseStep
    rw [if_neg hne, hbar]
    simp [parseChar, take, PageKind.mask]

theorem pageText_rule {l : PageText} (h : l.WellFormed) : IsPageRule l.line :=
  ⟨l.indent ++ l.domains, l.kind.mark, l.selector, rfl, by cases l.kind <;> simp [PageKind.mark], fun c hc => by
    rcases List.mem_append.1 hc with hc | hc
    · rcases h.indent c hc with rfl | rfl <;> decide
    · exact h.domains c hc, h.short⟩

/-- The rule which a line about the contents of pages is read as. -/
structure PageRead (l : PageText) (f : Filter) : Prop where
  kind : f.filterType = l.kind.mask
  supported : f.hasUnsupportedOptions = false
  text : f.data = some (cstr l.selector)
  len : f.dataLen = none
  domains : f.domainList = if l.domains = [] then none else some l.domains
  host : f.host = none
  tag : f.tag = []

theorem parse_pageText {l : PageText} (h : l.WellFormed) (bad : List Bytes) (pr full : Bool) :
    ∃ f e, parseFilter bad l.line 0 pr full = .ok (f, e) ∧ PageRead l f := by
  obtain ⟨f, e, fp, hp, -⟩ := parse_page (pageText_rule h) bad pr full
  refine ⟨f, e, hp, ?_⟩
  have hl := h.short
  have hline : l.line = l.indent ++ (l.domains ++ (l.kind.mark ++ l.selector)) := by simp [PageText.line]
  have hml : l.kind.mark.length = 2 := by cases l.kind <;> rfl
  rw [hline] at hl
  simp only [List.length_append] at hl
  obtain ⟨s0, i1, i2, i3, i4⟩ := loop_pageIndent l.line 0 pr l.indent (l.domains ++ (l.kind.mark ++ l.selector)) 0 {} rfl (by omega) h.indent
  obtain ⟨s1, a1, a2, a3, a4⟩ := loop_pageDomains l.line 0 pr l.domains (l.kind.mark ++ l.selector) (0 + l.indent.length) s0 (.inr ⟨i3, h.first⟩) (by omega) h.domains
  obtain ⟨s2, b1, b2, b3, b4⟩ := loop_hash l.line 0 pr l.kind l.selector (0 + l.indent.length + l.domains.length) s1 a3 (by omega)
  obtain ⟨s3, c1, c2, c3, c4⟩ := loop_pageSelector l.line 0 pr l.selector (0 + l.indent.length + l.domains.length + 2) s2 b2 (by omega)
  unfold parseFilter at hp
  rw [show parseLoop l.line 0 pr l.line 0 {} = .ok (.fin s3) by
    conv => lhs; enter [4]; rw [hline]
    rw [i1, a1, b1, c1], Res.bind_ok] at hp
  dsimp only at hp
  rw [finishFilter_eq _ _ _ _ (by rw [c3]; simp)] at hp
  have hf : f = s3.result l.line pr := (finishWith_effect (by simp [show (s3.result l.line pr).data = some (cstr s3.data) from rfl]) hp).1
  have hd1 : s1.data = l.domains := by rw [a4, i4]; rfl
  have hd3 : s3.data = l.selector := by rw [c4, b4]; rfl
  have hf3 : s3.f = { ({} : Filter) with domainList := if l.domains = [] then none else some l.domains, filterType := l.kind.mask } := by
    rw [c2, b3, a2, i2, hd1]
  subst hf
  refine ⟨?_, ?_, ?_, ?_, ?_, ?_, ?_⟩
  · show s3.f.filterType = _
    rw [hf3]
  · show has s3.f.filterOption FOUnsupportedSoSkipCheck = false
    rw [hf3]
    show has 0 FOUnsupportedSoSkipCheck = false
    decide
  · show some (cstr s3.data) = _
    rw [hd3]
  · show s3.f.dataLen = _
    rw [hf3]
  · show s3.f.domainList = _
    rw [hf3]
  · show s3.f.host = _
    rw [hf3]
  · show s3.f.tag = _
    rw [hf3]

/-- What the lines of a list are read as. -/
inductive ReadAs : List Filter → List RuleText → List PageText → Prop
  | nil : ReadAs [] [] []
  | idle {f fs rs ps} : f.filterType = FTComment ∨ f.filterType = FTEmpty → ReadAs fs rs ps → ReadAs (f :: fs) rs ps
  | page {f fs rs ps} (p : PageText) : p.WellFormed → PageRead p f → ReadAs fs rs ps → ReadAs (f :: fs) rs (p :: ps)
  | rule {fs rs ps} (r : RuleText) (pr : Bool) : r.WellFormed → ReadAs fs rs ps → ReadAs (r.filter pr :: fs) (r :: rs) ps

theorem contents_listOf {ls : List Bytes} {rs : List RuleText} {ps : List PageText} (h : Contents ls rs ps) : ListOf ls rs := by
  induction h with
  | nil => exact .nil
  | idle hi _ ih => exact .idle hi ih
  | page p hp _ ih => exact .page (pageText_rule hp) ih
  | rule r _ ih => exact .rule r ih

theorem contents_reads (bad : List Bytes) {ls : List Bytes} {rs : List RuleText} {ps : List PageText} (h : Contents ls rs ps)
    (hw : ∀ r ∈ rs, r.WellFormed) (pr : Bool) : ∃ fs, Reads bad pr ls fs ∧ ReadAs fs rs ps := by
  induction h with
  | nil => exact ⟨[], .nil, .nil⟩
  | @idle l ls rs ps hi _ ih =>
    obtain ⟨fs, h1, h2⟩ := ih hw
    rcases hi with ⟨hb, hb'⟩ | hc
    · exact ⟨_, .cons (C18_blank_line bad l 0 pr true hb hb').1 h1, .idle (by decide) h2⟩
    · exact ⟨_, .cons (C18_comment_line bad l 0 pr true hc).1 h1, .idle (by decide) h2⟩
  | @page ls rs ps p hp _ ih =>
    obtain ⟨fs, h1, h2⟩ := ih hw
    obtain ⟨f, ef, hf, hr⟩ := parse_pageText hp bad pr true
    exact ⟨_, .cons hf h1, .page p hp hr h2⟩
  | @rule ls rs ps r _ ih =>
    obtain ⟨fs, h1, h2⟩ := ih (fun r hr => hw r (by simp [hr]))
    obtain ⟨fp, _, hp⟩ := C22_rule_text bad (hw r (by simp)) (t := 0) (.inl rfl) pr true
    exact ⟨_, .cons hp h1, .rule r pr (hw r (by simp)) h2⟩

theorem howMany_append {A : Type} (P : A → Prop) (l l' : List A) : howMany P (l ++ l') = howMany P l + howMany P l' := by
  unfold howMany
  exact List.countP_append

open Classical in
theorem howMany_cons {A : Type} (P : A → Prop) (a : A) (l : List A) : howMany P (a :: l) = howMany P l + if P a then 1 else 0 := by
  unfold howMany
  rw [List.countP_cons]
  by_cases h : P a <;> simp [h]

/-- rules of one kind are as many as their texts -/
theorem readAs_howMany {P : Filter → Prop} {Q : RuleText → Prop} (hP : ∀ f, P f → ∃ s, Kind s f)
    (hQ : ∀ r pr, r.WellFormed → (P (r.filter pr) ↔ Q r)) {fs : List Filter} {rs : List RuleText} {ps : List PageText} (h : ReadAs fs rs ps) :
    howMany P fs = howMany Q rs := by
  have no : ∀ f : Filter, f.filterType ∈ [FTComment, FTEmpty, FTElementHiding, FTElementHidingException, FTHTMLFiltering] → ¬ P f := by
    intro f hf hp
    obtain ⟨s, hs⟩ := hP f hp
    unfold Kind at hs
    simp only [List.mem_cons, List.not_mem_nil, or_false] at hf
    rcases hf with h | h | h | h | h <;> rw [h] at hs <;> revert hs <;> cases s <;> decide
  induction h with
  | nil => rfl
  | idle hf _ ih => rw [howMany_cons, ih, if_neg (no _ (by rcases hf with h | h <;> rw [h] <;> decide))]; rfl
  | page p _ hf _ ih => rw [howMany_cons, ih, if_neg (no _ (by rw [hf.kind]; cases p.kind <;> decide))]; rfl
  | rule r pr hw _ ih =>
    rw [howMany_cons, howMany_cons, ih]
    have := hQ r pr hw
    by_cases h : Q r
    · rw [if_pos h, if_pos (this.2 h)]
    · rw [if_neg h, if_neg fun h' => h (this.1 h')]

theorem readAs_cosmetic (bad : List Bytes) {fs : List Filter} {rs : List RuleText} {ps : List PageText} (h : ReadAs fs rs ps) :
    howMany (Under bad bs%"cosmeticFilters") fs = howMany (fun p => p.kind ≠ .html) ps := by
  have only : ∀ {f}, Under bad bs%"cosmeticFilters" f → f.filterType = FTElementHiding ∨ f.filterType = FTElementHidingException := by
    intro f hu
    generalize hn : bs%"cosmeticFilters" = name at hu
    cases hu with
    | cosmetic _ h => exact h
    | _ => exact absurd hn (by decide)
  induction h with
  | nil => rfl
  | @idle f _ _ _ hf _ ih =>
    rw [howMany_cons, ih, if_neg]; rfl
    intro hu
    have := only hu
    rcases hf with h | h <;> rw [h] at this <;> revert this <;> decide
  | page p _ hf _ ih =>
    rw [howMany_cons, howMany_cons, ih]
    cases hk : p.kind with
    | hide => rw [if_pos (.cosmetic hf.supported (.inl (by rw [hf.kind, hk]; rfl))), if_pos (by simp)]
    | unhide => rw [if_pos (.cosmetic hf.supported (.inr (by rw [hf.kind, hk]; rfl))), if_pos (by simp)]
    | html =>
      rw [if_neg, if_neg (by simp)]
      intro hu
      have := only hu
      rw [hf.kind, hk] at this
      revert this; decide
  | rule r pr hw _ ih =>
    rw [howMany_cons, ih, if_neg]; rfl
    intro hu
    have h1 := only hu
    have h2 := (kind_filter r pr r.exception).2 rfl
    unfold Kind at h2
    revert h2
    rcases h1 with h | h <;> rw [h] <;> cases r.exception <;> decide

theorem usable_filter {r : RuleText} (hw : r.WellFormed) (pr s : Bool) :
    (r.filter pr).hasUnsupportedOptions = false ∧ Kind s (r.filter pr) ↔ Usable s r := by
  rw [supported_filter hw, kind_filter]
  exact and_comm

theorem host_filter {r : RuleText} (hw : r.WellFormed) (pr s : Bool) : UsableHostRule s (r.filter pr) ↔ HostSort s r := by
  unfold UsableHostRule HostSort
  rw [← and_assoc, usable_filter hw, hostOnly_bit]

theorem indexed_filter {r : RuleText} (hw : r.WellFormed) (bad : List Bytes) (pr s : Bool) :
    (r.filter pr).hasUnsupportedOptions = false ∧ Kind s (r.filter pr) ∧ has (r.filter pr).filterType FTHostOnly = false ∧
      HasFingerprint bad (r.filter pr) ↔ IndexedSort bad s r := by
  rw [← and_assoc, usable_filter hw, ← Bool.not_eq_true, hostOnly_bit, indexable_iff hw]
  exact Iff.rfl

theorem other_filter {r : RuleText} (hw : r.WellFormed) (bad : List Bytes) (pr s : Bool) :
    (r.filter pr).hasUnsupportedOptions = false ∧ Unindexed bad s (r.filter pr) ∧ ¬ OnlyPositive (r.filter pr) ∧ ¬ OnlyNegative (r.filter pr) ↔
      OtherSort bad s r := by
  have hd : (r.filter pr).domainList = r.value bs%"domain=" := opts_domainList hw
  rw [unindexed_filter hw, supported_filter hw]
  unfold OnlyPositive OnlyNegative OtherSort Usable
  rw [hd]
  constructor
  · rintro ⟨h1, ⟨h2, h3, h4⟩, h5, h6⟩
    exact ⟨⟨h2, h1⟩, h3, h4, fun dl h => ⟨fun h' => h6 ⟨dl, h, h'⟩, fun h' => h5 ⟨dl, h, h'⟩⟩⟩
  · rintro ⟨⟨h2, h1⟩, h3, h4, h5⟩
    exact ⟨h1, ⟨h2, h3, h4⟩, fun ⟨dl, h, h'⟩ => (h5 dl h).2 h', fun ⟨dl, h, h'⟩ => (h5 dl h).1 h'⟩

theorem domain_filter {r : RuleText} (hw : r.WellFormed) (bad : List Bytes) (pr s : Bool) :
    ((r.filter pr).hasUnsupportedOptions = false ∧ Unindexed bad s (r.filter pr) ∧ OnlyPositive (r.filter pr) ↔ DomainSort bad s r) ∧
    ((r.filter pr).hasUnsupportedOptions = false ∧ Unindexed bad s (r.filter pr) ∧ OnlyNegative (r.filter pr) ↔ AntiDomainSort bad s r) := by
  have hd : (r.filter pr).domainList = r.value bs%"domain=" := opts_domainList hw
  rw [unindexed_filter hw, supported_filter hw]
  unfold OnlyPositive OnlyNegative DomainSort AntiDomainSort Usable ByDomain
  rw [hd]
  constructor
  · constructor
    · rintro ⟨h1, ⟨h2, h3, h4⟩, dl, h5, h6⟩
      exact ⟨⟨h2, h1⟩, dl, ⟨h5, h3, h4⟩, h6⟩
    · rintro ⟨⟨h2, h1⟩, dl, ⟨h5, h3, h4⟩, h6⟩
      exact ⟨h1, ⟨h2, h3, h4⟩, dl, h5, h6⟩
  · constructor
    · rintro ⟨h1, ⟨h2, h3, h4⟩, dl, h5, h6⟩
      exact ⟨⟨h2, h1⟩, dl, ⟨h5, h3, h4⟩, h6⟩
    · rintro ⟨⟨h2, h1⟩, dl, ⟨h5, h3, h4⟩, h6⟩
      exact ⟨h1, ⟨h2, h3, h4⟩, dl, h5, h6⟩

/-- the rules reported under a name other than `cosmeticFilters` and `htmlFilters` -/
theorem under_names (bad : List Bytes) (f : Filter) :
    (Under bad bs%"filters" f ↔ f.hasUnsupportedOptions = false ∧ Kind false f ∧ has f.filterType FTHostOnly = false ∧ HasFingerprint bad f) ∧
    (Under bad bs%"exceptionFilters" f ↔ f.hasUnsupportedOptions = false ∧ Kind true f ∧ has f.filterType FTHostOnly = false ∧ HasFingerprint bad f) ∧
    (Under bad bs%"noFingerprintFilters" f ↔ f.hasUnsupportedOptions = false ∧ Unindexed bad false f ∧ ¬ OnlyPositive f ∧ ¬ OnlyNegative f) ∧
    (Under bad bs%"noFingerprintExceptionFilters" f ↔ f.hasUnsupportedOptions = false ∧ Unindexed bad true f ∧ ¬ OnlyPositive f ∧ ¬ OnlyNegative f) ∧
    (Under bad bs%"noFingerprintDomainOnlyFilters" f ↔ f.hasUnsupportedOptions = false ∧ Unindexed bad false f ∧ OnlyPositive f) ∧
    (Under bad bs%"noFingerprintAntiDomainOnlyFilters" f ↔ f.hasUnsupportedOptions = false ∧ Unindexed bad false f ∧ OnlyNegative f) ∧
    (Under bad bs%"noFingerprintDomainOnlyExceptionFilters" f ↔ f.hasUnsupportedOptions = false ∧ Unindexed bad true f ∧ OnlyPositive f) ∧
    (Under bad bs%"noFingerprintAntiDomainOnlyExceptionFilters" f ↔ f.hasUnsupportedOptions = false ∧ Unindexed bad true f ∧ OnlyNegative f) := by
  refine ⟨⟨fun hu => ?_, fun ⟨a, b, c, d⟩ => .filters a b c d⟩, ⟨fun hu => ?_, fun ⟨a, b, c, d⟩ => .exceptionFilters a b c d⟩,
    ⟨fun hu => ?_, fun ⟨a, b, c, d⟩ => .noFp a b c d⟩, ⟨fun hu => ?_, fun ⟨a, b, c, d⟩ => .noFpException a b c d⟩,
    ⟨fun hu => ?_, fun ⟨a, b, c⟩ => .domainOnly a b c⟩, ⟨fun hu => ?_, fun ⟨a, b, c⟩ => .antiDomainOnly a b c⟩,
    ⟨fun hu => ?_, fun ⟨a, b, c⟩ => .domainOnlyException a b c⟩, ⟨fun hu => ?_, fun ⟨a, b, c⟩ => .antiDomainOnlyException a b c⟩⟩
  · generalize hn : bs%"filters" = name at hu
    cases hu with
    | filters a b c d => exact ⟨a, b, c, d⟩
    | _ => exact absurd hn (by decide)
  · generalize hn : bs%"exceptionFilters" = name at hu
    cases hu with
    | exceptionFilters a b c d => exact ⟨a, b, c, d⟩
    | _ => exact absurd hn (by decide)
  · generalize hn : bs%"noFingerprintFilters" = name at hu
    cases hu with
    | noFp a b c d => exact ⟨a, b, c, d⟩
    | _ => exact absurd hn (by decide)
  · generalize hn : bs%"noFingerprintExceptionFilters" = name at hu
    cases hu with
    | noFpException a b c d => exact ⟨a, b, c, d⟩
    | _ => exact absurd hn (by decide)
  · generalize hn : bs%"noFingerprintDomainOnlyFilters" = name at hu
    cases hu with
    | domainOnly a b c => exact ⟨a, b, c⟩
    | _ => exact absurd hn (by decide)
  · generalize hn : bs%"noFingerprintAntiDomainOnlyFilters" = name at hu
    cases hu with
    | antiDomainOnly a b c => exact ⟨a, b, c⟩
    | _ => exact absurd hn (by decide)
  · generalize hn : bs%"noFingerprintDomainOnlyExceptionFilters" = name at hu
    cases hu with
    | domainOnlyException a b c => exact ⟨a, b, c⟩
    | _ => exact absurd hn (by decide)
  · generalize hn : bs%"noFingerprintAntiDomainOnlyExceptionFilters" = name at hu
    cases hu with
    | antiDomainOnlyException a b c => exact ⟨a, b, c⟩
    | _ => exact absurd hn (by decide)

/-- **C106**: after a list of rules, blank lines, comments and rules about the contents of pages has been loaded, at
whatever point of the life of a client, each number is greater by the number of rules in the text of the list which are of
the kind counted: by whether they are exceptions, consist of a host, can be indexed, or have a list of domains; and
rules with unsupported options are not counted. -/
theorem C106_numbers {E : Env} {c : Client E} {fs : List Filter} (hist : History E c fs) {input : Bytes} (h0 : 0 ∉ input)
    {rs : List RuleText} {ps : List PageText} (h : Contents (lines input) rs ps) (hs : SoundList E.bad rs) (pr : Bool) :
    ∃ c', c.parse input pr = .ok c' ∧ AddedTo E.bad c.getParsingStats rs ps c'.getParsingStats := by
  obtain ⟨⟨m, hm⟩, b, hb⟩ := fill_listOf E pr (contents_listOf h) hs c.startBuild {}
  have hp := parse_ok_iff.2 ⟨m, b, hm, hb, rfl⟩
  obtain ⟨gs, h1, h2⟩ := contents_reads E.bad h hs.wellFormed pr
  have hist' : History E _ (fs ++ gs) := .parse hist h0 hp h1
  obtain ⟨a1, a2, a3, a4, a5, a6, a7, a8, a9, a10, a11⟩ := C71_numbers hist
  obtain ⟨b1, b2, b3, b4, b5, b6, b7, b8, b9, b10, b11⟩ := C71_numbers hist'
  have kind : ∀ {s f}, Unindexed E.bad s f → ∃ s, Kind s f := fun h => ⟨_, h.1⟩
  have u := under_names E.bad
  refine ⟨_, hp, ⟨?_, ?_, ?_, ?_, ?_, ?_, ?_, ?_, ?_, ?_, ?_⟩⟩
  · rw [b1, a1, howMany_append, readAs_howMany (fun f hf => ⟨_, ((u f).1.1 hf).2.1⟩)
      (fun r pr hw => (u _).1.trans (indexed_filter hw E.bad pr false)) h2]
  · rw [b2, a2, howMany_append, readAs_cosmetic E.bad h2]
  · rw [b3, a3, howMany_append, readAs_howMany (fun f hf => ⟨_, ((u f).2.1.1 hf).2.1⟩)
      (fun r pr hw => (u _).2.1.trans (indexed_filter hw E.bad pr true)) h2]
  · rw [b4, a4, howMany_append, readAs_howMany (fun f hf => kind ((u f).2.2.1.1 hf).2.1)
      (fun r pr hw => (u _).2.2.1.trans (other_filter hw E.bad pr false)) h2]
  · rw [b5, a5, howMany_append, readAs_howMany (fun f hf => kind ((u f).2.2.2.2.1.1 hf).2.1)
      (fun r pr hw => (u _).2.2.2.2.1.trans (domain_filter hw E.bad pr false).1) h2]
  · rw [b6, a6, howMany_append, readAs_howMany (fun f hf => kind ((u f).2.2.2.2.2.1.1 hf).2.1)
      (fun r pr hw => (u _).2.2.2.2.2.1.trans (domain_filter hw E.bad pr false).2) h2]
  · rw [b7, a7, howMany_append, readAs_howMany (fun f hf => kind ((u f).2.2.2.1.1 hf).2.1)
      (fun r pr hw => (u _).2.2.2.1.trans (other_filter hw E.bad pr true)) h2]
  · rw [b8, a8, howMany_append, readAs_howMany (fun f hf => kind ((u f).2.2.2.2.2.2.1.1 hf).2.1)
      (fun r pr hw => (u _).2.2.2.2.2.2.1.trans (domain_filter hw E.bad pr true).1) h2]
  · rw [b9, a9, howMany_append, readAs_howMany (fun f hf => kind ((u f).2.2.2.2.2.2.2.1 hf).2.1)
      (fun r pr hw => (u _).2.2.2.2.2.2.2.trans (domain_filter hw E.bad pr true).2) h2]
  · rw [b10, a10, howMany_append, readAs_howMany (fun f hf => ⟨_, hf.2.1⟩)
      (fun r pr hw => host_filter hw pr false) h2]
  · rw [b11, a11, howMany_append, readAs_howMany (fun f hf => ⟨_, hf.2.1⟩)
      (fun r pr hw => host_filter hw pr true) h2]

theorem howMany_perm {A : Type} (P : A → Prop) {l l' : List A} (h : l.Perm l') : howMany P l = howMany P l' := by
  unfold howMany
  exact h.countP_eq _

theorem addedTo_unique {bad : List Bytes} {old new new' : ParsingStats} {rs rs' : List RuleText} {ps : List PageText} (h : rs.Perm rs')
    (h1 : AddedTo bad old rs ps new) (h2 : AddedTo bad old rs' ps new') : new = new' := by
  obtain ⟨a1, a2, a3, a4, a5, a6, a7, a8, a9, a10, a11⟩ := h1
  obtain ⟨b1, b2, b3, b4, b5, b6, b7, b8, b9, b10, b11⟩ := h2
  simp only [howMany_perm _ h] at a1 a3 a4 a5 a6 a7 a8 a9 a10 a11
  cases new; cases new'
  simp_all

/-- **C106**: the order of the rules in a list, and the blank lines, comments and HTML rules between them, do
not matter for the numbers. -/
theorem C106_order {E : Env} {c : Client E} {fs : List Filter} (hist : History E c fs) {input input' : Bytes} (h0 : 0 ∉ input) (h0' : 0 ∉ input')
    {rs rs' : List RuleText} {ps : List PageText} (h : Contents (lines input) rs ps) (h' : Contents (lines input') rs' ps) (hp : rs.Perm rs')
    (hs : SoundList E.bad rs) (hs' : SoundList E.bad rs') (pr pr' : Bool) :
    ∃ d d', c.parse input pr = .ok d ∧ c.parse input' pr' = .ok d' ∧ d.getParsingStats = d'.getParsingStats := by
  obtain ⟨d, h1, h2⟩ := C106_numbers hist h0 h hs pr
  obtain ⟨d', h1', h2'⟩ := C106_numbers hist h0' h' hs' pr'
  exact ⟨d, d', h1, h1', addedTo_unique hp h2 h2'⟩

open Classical in
/-- every usable rule is of exactly one of the kinds -/
theorem sorts_partition (bad : List Bytes) (s : Bool) (rs : List RuleText) :
    howMany (HostSort s) rs + howMany (IndexedSort bad s) rs + howMany (DomainSort bad s) rs + howMany (AntiDomainSort bad s) rs +
      howMany (OtherSort bad s) rs = howMany (Usable s) rs := by
  induction rs with
  | nil => rfl
  | cons r rs ih =>
    simp only [howMany_cons]
    have : ((if HostSort s r then 1 else 0) + (if IndexedSort bad s r then 1 else 0) + (if DomainSort bad s r then 1 else 0) +
      (if AntiDomainSort bad s r then 1 else 0) + (if OtherSort bad s r then 1 else 0) : Nat) = if Usable s r then 1 else 0 := by
      have hpn : ∀ dl, ¬ (negative dl = [] ∧ positive dl = []) := fun dl ⟨h1, h2⟩ => (positive_or_negative dl).elim (· h2) (· h1)
      unfold HostSort IndexedSort DomainSort AntiDomainSort OtherSort ByDomain
      by_cases hu : Usable s r <;> by_cases hh : r.HostOnly <;> by_cases hi : r.Indexable bad <;> simp [hu, hh, hi]
      cases hv : r.value bs%"domain=" with
      | none => simp
      | some dl =>
        have := hpn dl
        by_cases hn : negative dl = [] <;> by_cases hp : positive dl = [] <;> simp_all
    omega

/-- **C106**: together, the numbers are greater by the number of rules with supported options and of lines which hide elements. -/
theorem C106_total {E : Env} {c : Client E} {fs : List Filter} (hist : History E c fs) {input : Bytes} (h0 : 0 ∉ input)
    {rs : List RuleText} {ps : List PageText} (h : Contents (lines input) rs ps) (hs : SoundList E.bad rs) (pr : Bool) :
    ∃ c', c.parse input pr = .ok c' ∧ total c'.getParsingStats =
      total c.getParsingStats + howMany (fun r => ∀ o ∈ r.entries, ¬ RuleText.Unsupported o) rs + howMany (fun p => p.kind ≠ .html) ps := by
  obtain ⟨c', h1, ⟨a1, a2, a3, a4, a5, a6, a7, a8, a9, a10, a11⟩⟩ := C106_numbers hist h0 h hs pr
  refine ⟨c', h1, ?_⟩
  have p := sorts_partition E.bad false rs
  have p' := sorts_partition E.bad true rs
  have both : howMany (fun r => ∀ o ∈ r.entries, ¬ RuleText.Unsupported o) rs = howMany (Usable false) rs + howMany (Usable true) rs := by
    clear p p' a1 a2 a3 a4 a5 a6 a7 a8 a9 a10 a11 h1 c' hs h
    induction rs with
    | nil => rfl
    | cons r rs ih =>
      simp only [howMany_cons, ih]
      by_cases hu : ∀ o ∈ r.entries, ¬ RuleText.Unsupported o
      · cases he : r.exception with
        | false => rw [if_pos hu, if_pos ⟨he, hu⟩, if_neg fun h => absurd (he.symm.trans h.1) (by simp)]; omega
        | true => rw [if_pos hu, if_neg fun h => absurd (he.symm.trans h.1) (by simp), if_pos ⟨he, hu⟩]; omega
      · rw [if_neg hu, if_neg fun h => hu h.2, if_neg fun h => hu h.2]; omega
  unfold total
  rw [both]
  omega

/-- a list with an HTML rule, two lines which hide elements, a comment, and rules of several kinds -/
private def mixedRules : List RuleText := [{ anchor := .host, text := bs%"ads.com^" }, { text := bs%"&b=", options := some bs%"domain=~x.com" },
  { exception := true, text := bs%"&c=", options := some bs%"domain=x.com" }, { text := bs%"&d=", options := some bs%"what" },
  { text := bs%"&e=", options := some bs%"domain=x.com|~y.x.com" }]

private def mixedList : Bytes :=
  bs%"! a comment\n||ads.com^\n##.ad\n&b=$domain=~x.com\n@@&c=$domain=x.com\nx.com$$script\nx.com#@#.ad\n&d=$what\n\n&e=$domain=x.com|~y.x.com"

private def mixedPages : List PageText := [{ domains := [], kind := .hide, selector := bs%".ad" },
  { domains := bs%"x.com", kind := .html, selector := bs%"script" }, { domains := bs%"x.com", kind := .unhide, selector := bs%"#.ad" }]

private theorem mixed_wf : ∀ p ∈ mixedPages, p.WellFormed := by
  intro p hp
  simp only [mixedPages, List.mem_cons, List.not_mem_nil, or_false] at hp
  rcases hp with rfl | rfl | rfl <;> exact ⟨by decide, by decide, by simp, by decide, by decide⟩

private theorem mixed_contents : Contents (lines mixedList) mixedRules mixedPages := by
  rw [show lines mixedList = [bs%"! a comment", bs%"||ads.com^", bs%"##.ad", bs%"&b=$domain=~x.com", bs%"@@&c=$domain=x.com", bs%"x.com$$script",
    bs%"x.com#@#.ad", bs%"&d=$what", [], bs%"&e=$domain=x.com|~y.x.com"] by decide +kernel]
  refine .idle (.inr ⟨[], bs%" a comment", by decide, by decide, .inl rfl⟩) (.rule (mixedRules[0]) (.page (mixedPages[0]) (mixed_wf _ (by simp [mixedPages]))
    (.rule (mixedRules[1]) (.rule (mixedRules[2]) (.page (mixedPages[1]) (mixed_wf _ (by simp [mixedPages]))
      (.page (mixedPages[2]) (mixed_wf _ (by simp [mixedPages])) (.rule (mixedRules[3])
        (.idle (.inl (by simp)) (.rule (mixedRules[4]) .nil)))))))))

private def usableB (s : Bool) (r : RuleText) : Bool := decide (r.exception = s) && !(r.filter false).hasUnsupportedOptions

private def domainsB (p : Bytes → Bool) (none' : Bool) (s : Bool) (r : RuleText) : Bool := usableB s r && !decide r.HostOnly &&
  match r.value bs%"domain=" with
  | none => none'
  | some dl => p dl

private theorem short_sorts (bad : List Bytes) {r : RuleText} (hw : r.WellFormed) (h : r.HostOnly ∨ r.text.length < 6) (s : Bool) :
    ((usableB s r && decide r.HostOnly) = true ↔ HostSort s r) ∧ (false = true ↔ IndexedSort bad s r) ∧
    (domainsB (fun dl => decide (negative dl = [])) false s r = true ↔ DomainSort bad s r) ∧
    (domainsB (fun dl => decide (positive dl = [])) false s r = true ↔ AntiDomainSort bad s r) ∧
    (domainsB (fun dl => decide (positive dl ≠ [] ∧ negative dl ≠ [])) true s r = true ↔ OtherSort bad s r) := by
  have hu : usableB s r = true ↔ Usable s r := by
    unfold usableB Usable
    rw [← supported_filter hw false]
    simp
  have hi : ¬ r.HostOnly → ¬ r.Indexable bad := fun h' => short_not_indexable (h.resolve_left h')
  refine ⟨?_, ?_, ?_, ?_, ?_⟩
  · unfold HostSort
    rw [Bool.and_eq_true, hu, decide_eq_true_iff]
  · unfold IndexedSort
    exact ⟨nofun, fun h => absurd h.2.2 (hi h.2.1)⟩
  all_goals
    first | unfold DomainSort ByDomain | unfold AntiDomainSort ByDomain | unfold OtherSort
    unfold domainsB
    rw [Bool.and_eq_true, Bool.and_eq_true, hu]
    by_cases hh : r.HostOnly
    · simp [hh]
    · cases hv : r.value bs%"domain=" with
      | none => simp [hh, hi hh]
      | some dl => simp [hh, hi hh]

example (E : Env) : ∃ c, (Client.fresh E).parse mixedList false = .ok c ∧ c.getParsingStats =
    { numFilters := 0, numCosmeticFilters := 2, numExceptionFilters := 0, numNoFingerprintFilters := 1,
      numNoFingerprintDomainOnlyFilters := 0, numNoFingerprintAntiDomainOnlyFilters := 1, numNoFingerprintExceptionFilters := 0,
      numNoFingerprintDomainOnlyExceptionFilters := 1, numNoFingerprintAntiDomainOnlyExceptionFilters := 0,
      numHostAnchoredFilters := 1, numHostAnchoredExceptionFilters := 0 } := by
  obtain ⟨c, h1, h2⟩ := C106_numbers (History.new (E := E)) (by decide +kernel) mixed_contents (plainRules_sound (by decide +kernel)) false
  refine ⟨c, h1, ?_⟩
  have hs := fun s r hr => short_sorts E.bad ((plainRules_sound (bad := E.bad) (rs := mixedRules) (by decide +kernel)).wellFormed r hr)
    ((by decide +kernel : ∀ r ∈ mixedRules, r.HostOnly ∨ r.text.length < 6) r hr) s
  have e0 := howMany_eq (fun p : PageText => p.kind ≠ .html) (fun p => decide (p.kind ≠ .html)) mixedPages (by simp)
  have e1 := fun s => howMany_eq (HostSort s) _ mixedRules fun r hr => (hs s r hr).1
  have e2 := fun s => howMany_eq (IndexedSort E.bad s) _ mixedRules fun r hr => (hs s r hr).2.1
  have e3 := fun s => howMany_eq (DomainSort E.bad s) _ mixedRules fun r hr => (hs s r hr).2.2.1
  have e4 := fun s => howMany_eq (AntiDomainSort E.bad s) _ mixedRules fun r hr => (hs s r hr).2.2.2.1
  have e5 := fun s => howMany_eq (OtherSort E.bad s) _ mixedRules fun r hr => (hs s r hr).2.2.2.2
  rw [show (Client.fresh E).getParsingStats = ⟨0, 0, 0, 0, 0, 0, 0, 0, 0, 0, 0⟩ from rfl] at h2
  obtain ⟨a1, a2, a3, a4, a5, a6, a7, a8, a9, a10, a11⟩ := h2
  generalize c.getParsingStats = st at *
  cases st
  simp only [e0, e1, e2, e3, e4, e5] at a1 a2 a3 a4 a5 a6 a7 a8 a9 a10 a11
  subst a1 a2 a3 a4 a5 a6 a7 a8 a9 a10 a11
  decide +kernel

end AdBlock
