import Verif.Lemmas.Outcome
/-
Loading lists of rules given by their constituents: computable sufficient conditions, used
for examples and counterexamples.
-/
namespace AdBlock
open Spec

/-- a computable sufficient condition for `WellFormed` -/
def Spec.RuleText.ok (r : RuleText) : Bool :=
  r.odd.isNone && r.indent.all (fun c => c == 32 || c == 9) && !r.text.isEmpty &&
  r.text.all (fun c => c != 0 && c != 10 && c != 13 && c != ch%'|' && c != ch%'$' && c != ch%'#') &&
  (r.anchor != .none || match r.text with
    | [] => true
    | c :: _ => !(bs%"@![# /").contains c && c != 9) &&
  (match r.options with
    | none => true
    | some o => o.all (fun c => c != 0 && c != 10 && c != 13) && o.head? != some ch%'$') &&
  decide (r.line.length ≤ 1024)

theorem RuleText.wellFormed {r : RuleText} (h : r.ok = true) : r.WellFormed := by
  unfold RuleText.ok at h
  simp only [Bool.and_eq_true] at h
  obtain ⟨⟨⟨⟨⟨⟨h0, h1⟩, h2⟩, h3⟩, h4⟩, h5⟩, h6⟩ := h
  rw [List.all_eq_true] at h1 h3
  have h3' : ∀ c ∈ r.text, c ≠ 0 ∧ c ≠ 10 ∧ c ≠ 13 ∧ c ≠ ch%'|' ∧ c ≠ ch%'$' ∧ c ≠ ch%'#' := by
    intro c hc
    have := h3 c hc
    simp only [Bool.and_eq_true, bne_iff_ne] at this
    obtain ⟨⟨⟨⟨⟨a, b⟩, c⟩, d⟩, e⟩, f⟩ := this
    exact ⟨a, b, c, d, e, f⟩
  refine .usual ⟨by simpa using h0, fun c hc => by simpa using h1 c hc, ?_, fun c hc => ?_, ?_, ?_, ?_, ?_⟩
  · intro e; rw [e] at h2; cases h2
  · obtain ⟨a, b, c, d, e, f⟩ := h3' c hc
    exact ⟨a, b, c, d, e⟩
  · intro a d b e
    exact absurd rfl (h3' ch%'#' (by rw [e]; simp)).2.2.2.2.2
  · intro ha c hc
    cases ht : r.text with
    | nil => rw [ht] at hc; cases hc
    | cons x t =>
      rw [ht] at hc h4
      simp only [List.head?_cons, Option.some.injEq] at hc
      subst hc
      rw [ha] at h4
      simp only [bne_self_eq_false, Bool.false_or, Bool.and_eq_true, Bool.not_eq_true', bne_iff_ne] at h4
      have hx : x ∉ bs%"@![# /" := by simpa using h4.1
      refine ⟨fun hm => hx ?_, h4.2, fun e => absurd (by rw [e]; decide) hx⟩
      simp at hm ⊢
      rcases hm with h | h | h | h | h <;> simp [h]
  · intro o ho
    rw [ho] at h5
    simp only [Bool.and_eq_true, List.all_eq_true, bne_iff_ne] at h5
    refine ⟨fun c hc => ?_, h5.2⟩
    obtain ⟨⟨a, b⟩, c⟩ := h5.1 c hc
    exact ⟨a, b, c⟩
  · have := of_decide_eq_true h6
    unfold RuleText.Short
    omega

/-- a computable sufficient condition for `SafeLine` -/
def safeLine (l : Bytes) : Bool :=
  decide (l.length ≤ 1024) &&
  let rest := l.dropWhile (· ≠ ch%'|')
  !(rest.take 2 == bs%"||" && (((rest.drop 2).takeWhile fun c => decide (¬ IsSep c)).dropLast).contains ch%'|')

theorem safeLine_ok {l : Bytes} (h : safeLine l = true) : SafeLine l := by
  unfold safeLine at h
  simp only [Bool.and_eq_true, decide_eq_true_eq, Bool.not_eq_true', Bool.and_eq_false_iff] at h
  obtain ⟨h1, h2⟩ := h
  refine ⟨by omega, ?_, ?_⟩
  · intro a p e ha
    have hd : l.dropWhile (· ≠ ch%'|') = bs%"||" ++ p := by
      rw [e, List.append_assoc, List.dropWhile_append_of_pos (by intro c hc; simp; rintro rfl; exact ha hc)]
      rfl
    rw [hd] at h2
    rcases h2 with h2 | h2
    · simp at h2
    · simpa using h2
  · intro a d b h _ _ s hs
    obtain ⟨x, y, e, _⟩ := mem_splitOn_infix hs
    have h1 := congrArg List.length h
    have h2 := congrArg List.length e
    simp at h1 h2
    omega

/-- the text of a list: the lines, joined by line feeds -/
def listText : List Bytes → Bytes
  | [] => []
  | [l] => l
  | l :: ls => l ++ 10 :: listText ls

theorem lines_listText {ls : List Bytes} (h : ∀ l ∈ ls, ∀ c ∈ l, c ≠ 10 ∧ c ≠ 13) (hne : ls ≠ []) :
    lines (listText ls) = ls := by
  induction ls with
  | nil => exact absurd rfl hne
  | cons l ls ih =>
    cases ls with
    | nil => exact lines_single (h l (by simp))
    | cons k ls =>
      rw [listText.eq_3 _ _ (by simp), lines_append _ _ (.inr rfl), lines_single (h l (by simp)),
        ih (fun x hx => h x (by simp [hx])) (by simp)]
      rfl

theorem mem_listText {ls : List Bytes} {c : Byte} (h : c ∈ listText ls) : c = 10 ∨ ∃ l ∈ ls, c ∈ l := by
  induction ls with
  | nil => cases h
  | cons l ls ih =>
    cases ls with
    | nil => exact .inr ⟨l, by simp, h⟩
    | cons k ls =>
      rw [listText.eq_3 _ _ (by simp)] at h
      rcases List.mem_append.1 h with h | h
      · exact .inr ⟨l, by simp, h⟩
      · rcases List.mem_cons.1 h with h | h
        · exact .inl h
        · rcases ih h with h | ⟨x, hx, hc⟩
          · exact .inl h
          · exact .inr ⟨x, by simp [hx], hc⟩

/-- Loading rules given by their constituents succeeds and adds these rules. -/
theorem load_texts {E : Env} {c : Client E} {fs : List Filter} (hist : History E c fs) (rs : List RuleText) (hne : rs ≠ [])
    (hok : ∀ r ∈ rs, r.WellFormed ∧ SafeLine r.line) (pr : Bool) :
    ∃ c', c.parse (listText (rs.map RuleText.line)) pr = .ok c' ∧
      History E c' (fs ++ rs.map fun r => r.filter pr) := by
  have hclean : ∀ l ∈ rs.map RuleText.line, ∀ c ∈ l, c ≠ 0 ∧ c ≠ 10 ∧ c ≠ 13 := by
    intro l hl
    obtain ⟨r, hr, rfl⟩ := List.mem_map.1 hl
    exact rule_line_clean (hok r hr).1
  have hlines : lines (listText (rs.map RuleText.line)) = rs.map RuleText.line :=
    lines_listText (fun l hl c hc => (hclean l hl c hc).2) (by simpa using hne)
  have h0 : 0 ∉ listText (rs.map RuleText.line) := by
    intro h
    rcases mem_listText h with h | ⟨l, hl, hc⟩
    · cases h
    · exact (hclean l hl 0 hc).1 rfl
  obtain ⟨c', hc'⟩ := C21_memory_safe_partial c _ pr h0 (by
    rw [hlines]
    intro l hl
    obtain ⟨r, hr, rfl⟩ := List.mem_map.1 hl
    exact (hok r hr).2)
  refine ⟨c', hc', .parse hist h0 hc' ?_⟩
  rw [hlines]
  clear hlines h0 hclean hc' hne
  induction rs with
  | nil => exact .nil
  | cons r rs ih =>
    obtain ⟨fp, _, hp⟩ := C22_rule_text E.bad (hok r (by simp)).1 (t := 0) (.inl rfl) pr true
    exact .cons hp (ih fun r hr => hok r (by simp [hr]))

theorem load_rules {E : Env} {c : Client E} {fs : List Filter} (hist : History E c fs) (rs : List RuleText) (hne : rs ≠ [])
    (hok : ∀ r ∈ rs, r.ok = true ∧ safeLine r.line = true) (pr : Bool) :
    ∃ c', c.parse (listText (rs.map RuleText.line)) pr = .ok c' ∧
      History E c' (fs ++ rs.map fun r => r.filter pr) :=
  load_texts hist rs hne (fun r hr => ⟨RuleText.wellFormed (hok r hr).1, safeLine_ok (hok r hr).2⟩) pr

/-! ### short rules have no fingerprint -/

theorem no_fingerprint_of_short (bad : List Bytes) {f : Filter} {pat : Bytes} (hd : f.data = some (cstr pat)) (h0 : 0 ∉ pat)
    (hl : pat.length < 6) : ¬ HasFingerprint bad f := by
  rintro ⟨_, pat', w, ⟨h1, ⟨r, h2⟩, _⟩, hw, hus⟩
  have : pat' = pat := by
    rw [hd] at h2
    simp only [Option.some.injEq] at h2
    have a : (pat' ++ 0 :: r).takeWhile (· ≠ 0) = pat' := by
      rw [List.takeWhile_append_of_pos (by intro x hx; simp; rintro rfl; exact h1 hx)]; simp
    have b : (pat ++ [(0 : Byte)]).takeWhile (· ≠ 0) = pat := by
      rw [List.takeWhile_append_of_pos (by intro x hx; simp; rintro rfl; exact h0 hx)]; simp
    rw [← a, ← h2, cstr, b]
  subst this
  have := hw.length_le
  have := hus.1
  omega

/-- a computable sufficient condition for `SafeRule` -/
def safeRule (f : Filter) : Bool :=
  match f.data with
  | none => true
  | some d =>
    match d.reverse with
    | [] => false
    | z :: t => z == 0 && !t.contains 0 && !(t.drop 1).dropLast.contains ch%'^' &&
      (!has f.filterType FTHostOnly || (!t.isEmpty && t.head? != some ch%'*' && !has f.filterType FTRightAnchored))

theorem safeRule_ok {f : Filter} (h : safeRule f = true) : SafeRule f := by
  rintro pat ⟨h0, ⟨r, hd⟩, _⟩
  unfold safeRule at h
  rw [hd] at h
  simp only at h
  cases hr : (pat ++ 0 :: r).reverse with
  | nil => simp at hr
  | cons z t =>
    rw [hr] at h
    simp only [Bool.and_eq_true, beq_iff_eq, Bool.not_eq_true', Bool.or_eq_true] at h
    obtain ⟨⟨⟨rfl, ht⟩, hc⟩, hh⟩ := h
    have e : pat ++ 0 :: r = t.reverse ++ [0] := by
      have := congrArg List.reverse hr
      simpa using this
    have ht0 : 0 ∉ t.reverse := by simpa using ht
    have hpat : t.reverse = pat := by
      have a : (pat ++ 0 :: r).takeWhile (· ≠ 0) = pat := by
        rw [List.takeWhile_append_of_pos (by intro x hx; simp; rintro rfl; exact h0 hx)]; simp
      have b : (t.reverse ++ [(0 : Byte)]).takeWhile (· ≠ 0) = t.reverse := by
        rw [List.takeWhile_append_of_pos (by intro x hx; simp; rintro rfl; exact ht0 hx)]; simp
      rw [← a, e, b]
    have ht : t = pat.reverse := by rw [← hpat]; simp
    subst ht
    refine ⟨fun part hp a b hab => ?_, fun hho => ?_⟩
    · obtain ⟨x, y, he, _⟩ := mem_splitOn_infix hp
      apply Decidable.byContradiction
      intro hb
      simp only [not_or] at hb
      have hc' : ch%'^' ∉ pat.dropLast.tail := by
        intro hm
        have : ch%'^' ∈ (pat.reverse.drop 1).dropLast := by
          have e : (pat.reverse.drop 1).dropLast = pat.dropLast.tail.reverse := by
            rw [List.drop_one, List.tail_reverse, List.dropLast_reverse]
          rw [e]
          simpa using hm
        rw [List.contains_iff_mem.2 this] at hc
        cases hc
      apply hc'
      cases b with
      | nil => exact absurd rfl hb.2
      | cons z b' =>
        cases a with
        | nil => exact absurd rfl hb.1
        | cons w a' =>
          have hl : pat = (x ++ w :: a' ++ [ch%'^']) ++ (z :: (b' ++ y)) := by rw [he, hab]; simp
          rw [hl, List.dropLast_append_of_ne_nil (by simp)]
          cases x <;> simp
    · rcases hh with hh | ⟨⟨h1, h2⟩, h3⟩
      · rw [hho] at hh; cases hh
      · refine ⟨?_, ?_, h3⟩
        · rintro rfl; simp at h1
        · simpa using h2

theorem parse_tags {E} {c c' : Client E} {input : Bytes} {pr : Bool} (h : c.parse input pr = .ok c') : c'.tags = c.tags := by
  obtain ⟨n, b, _, _, rfl⟩ := parse_ok_iff.1 h
  rfl

theorem webUrl_of_check {url : Bytes} (h : isBlockableProtocol (cstr url) url.length = .ok true) : WebUrl url ∧ 5 < url.length :=
  (C02_blockable_protocols url).1.1 h

theorem firstInLists_defined {tags : List Bytes} {m : Filter → Res Bool} {ls : List (List Filter)}
    (h : ∀ l ∈ ls, ∀ f ∈ l, ∃ b, m f = .ok b) : ∃ r, firstInLists tags m ls = .ok r := by
  induction ls with
  | nil => exact ⟨_, rfl⟩
  | cons l ls ih =>
    obtain ⟨r, hr⟩ := hasMatching_defined (tags := tags) (h l (by simp))
    obtain ⟨r', hr'⟩ := ih fun l hl => h l (by simp [hl])
    unfold firstInLists
    rw [hr, Res.bind_ok]
    cases r with
    | none => exact ⟨r', hr'⟩
    | some f => exact ⟨_, rfl⟩

/-- `findMatchingFilters` is defined if all rules about requests are safe. -/
theorem find_safe' {E : Env} {c : Client E} {fs : List Filter} (h : c.Holds fs) {url : Bytes} {co : Mask} {dom : Option Bytes}
    (hs : ∀ f ∈ fs, ∀ s, Kind s f → SafeOn url (resolveContext url co dom) dom f ∨ Inert f) : ∃ r, c.findMatchingFilters url co dom = .ok r := by
  rw [find_eq]
  revert hs
  generalize resolveContext url co dom = ctx
  intro hs
  have hl : ∀ id, id ≠ .cosmetic ∧ id ≠ .html → ∀ f ∈ c.lists id, ∃ b, Client.callMatchNoBloom url ctx dom f = .ok b := by
    intro id n f hf
    obtain ⟨hfs, s, hk⟩ := holds_kind h n.1 n.2 hf
    rcases hs f hfs s hk with hs | hi
    · exact hs.1
    · exact ⟨false, hi.2 ..⟩
  have hset : ∀ s, ∃ r, isHostAnchoredHashSetMiss E c.tags (Client.callMatchNoBloom url ctx dom) (c.hs s)
      (getUrlHost url) = .ok r := by
    intro s
    unfold isHostAnchoredHashSetMiss
    cases ht : c.hs s with
    | none => exact ⟨_, rfl⟩
    | some t =>
      obtain ⟨r, hr⟩ := hostSetLookup_defined (E := E) (tags := c.tags) (m := Client.callMatchNoBloom url ctx dom) (s := t)
        (ds := hostLookups (getUrlHost url)) (by
          intro d hd f hf
          obtain ⟨g, hg, hhr, hfirst, hk, rfl⟩ := (host_find h ht).1 hf
          have hp := h.index.parsed g hg
          obtain ⟨pat, h1, h2⟩ := bare_hasBareText hp hhr.2.2
          have hsafe : SafeOn url ctx dom g := (hs g hg s hhr.1).resolve_right fun hi => absurd hhr.2.1 (by rw [hi.1]; decide)
          exact hsafe.2 pat h1 h2 hhr.2.1 (hk ▸ hd))
      simp only [hr, Res.bind_ok]
      exact ⟨_, rfl⟩
  obtain ⟨r1, e1⟩ := firstInLists_defined (tags := c.tags) (m := Client.callMatchNoBloom url ctx dom)
    (ls := [c.lists .noFp, c.lists .noFpDomain, c.lists .noFpAntiDomain, c.lists .filters]) (by
      simp only [List.forall_mem_cons]
      exact ⟨hl _ (by decide), hl _ (by decide), hl _ (by decide), hl _ (by decide), by simp⟩)
  obtain ⟨e1', e2⟩ := firstInLists_defined (tags := c.tags) (m := Client.callMatchNoBloom url ctx dom)
    (ls := [c.lists .noFpException, c.lists .noFpDomainException, c.lists .noFpAntiDomainException]) (by
      simp only [List.forall_mem_cons]
      exact ⟨hl _ (by decide), hl _ (by decide), hl _ (by decide), by simp⟩)
  obtain ⟨s1, h1⟩ := hset false
  obtain ⟨s2, h2⟩ := hset true
  obtain ⟨s3, h3⟩ := hasMatching_defined (tags := c.tags) (hl .exception (by decide))
  change isHostAnchoredHashSetMiss E c.tags (Client.callMatchNoBloom url ctx dom) c.hostSet (getUrlHost url) = .ok s1 at h1
  change isHostAnchoredHashSetMiss E c.tags (Client.callMatchNoBloom url ctx dom) c.hostExceptionSet (getUrlHost url) = .ok s2 at h2
  rw [e1, e2, h1, h2, h3, Res.bind_ok]
  simp only [Res.map_ok, Res.bind_ok]
  cases r1 with
  | some f =>
    simp only [Res.bind_ok]
    cases e1' with
    | some e => exact ⟨_, rfl⟩
    | none => cases hs2 : s2.found <;> exact ⟨_, rfl⟩
  | none =>
    cases hs1 : s1.found with
    | none => exact ⟨_, rfl⟩
    | some f =>
      cases e1' with
      | some e => exact ⟨_, rfl⟩
      | none => cases hs2 : s2.found <;> exact ⟨_, rfl⟩

/-- `findMatchingFilters` is defined if all rules are safe. -/
theorem find_safe {E : Env} {c : Client E} {fs : List Filter} (h : c.Holds fs) (hs : ∀ f ∈ fs, SafeRule f) {url : Bytes}
    (hu : 0 ∉ url) (co : Mask) (dom : Option Bytes) : ∃ r, c.findMatchingFilters url co dom = .ok r :=
  find_safe' h (fun f hf _ _ => .inl (safeRule_on (hs f hf) ((h.index.parsed f hf).hasText.imp id fun ⟨pat, ht, _⟩ => ⟨pat, ht⟩) hu _ dom))

/-- Loading concrete rules into a new client. -/
theorem loaded (E : Env) (rs : List RuleText) (hne : rs ≠ [])
    (hok : ∀ r ∈ rs, r.ok = true ∧ safeLine r.line = true) (hsafe : ∀ f ∈ rs.map fun r => r.filter false, safeRule f = true) :
    ∃ c, (Client.fresh E).parse (listText (rs.map RuleText.line)) false = .ok c ∧
      History E c (rs.map fun r => r.filter false) ∧ c.tags = [] ∧
      ∀ url co dom, 0 ∉ url → (∃ o, c.query url co dom = .ok o) ∧ ∃ r, c.findMatchingFilters url co dom = .ok r := by
  obtain ⟨c, h1, h2⟩ := load_rules (History.new (E := E)) rs hne hok false
  refine ⟨c, h1, h2, parse_tags h1, fun url co dom h0 => ?_⟩
  exact ⟨query_safe (history_holds h2) (fun f hf => safeRule_ok (hsafe f hf)) h0 co dom,
    find_safe (history_holds h2) (fun f hf => safeRule_ok (hsafe f hf)) h0 co dom⟩

/-- Rules without `domain=` and with different hosts are regular. -/
theorem regular_of_no_domains {bad : List Bytes} {fs : List Filter} {url : Bytes} {dom : Option Bytes}
    (hd : ∀ f ∈ fs, f.domainList = none)
    (hh : ∀ s, ∀ f ∈ fs, HostRule s f → FirstForHost s fs f ∧
      (∃ h, f.host = some h ∧ (h = getUrlHost url ∨ ch%'.' ∈ h)) ∧
      has f.filterType FTLeftAnchored = false ∧ has f.filterType FTRightAnchored = false) : Regular bad fs url dom := by
  refine ⟨⟨fun _ s f hf _ hp => ?_, fun _ s f hf _ hp => ?_, fun d _ s f hf g hg _ hp => ?_⟩, hh⟩
  · obtain ⟨dl, e, _⟩ := hp; rw [hd f hf] at e; cases e
  · obtain ⟨dl, e, _⟩ := hp; rw [hd f hf] at e; cases e
  · obtain ⟨dl, e, _⟩ := hp; rw [hd f hf] at e; cases e

end AdBlock
