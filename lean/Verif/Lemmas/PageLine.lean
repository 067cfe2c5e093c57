import Verif.SpecRequest
import Verif.Props.Parse
/-
Lines of a list that are no network rules: rules about the contents of pages and regular
expressions (`SpecRequest`).
-/
namespace AdBlock
open Spec

theorem cstrAt_defined (d : Bytes) : ∃ x, cstrAt (cstr d) = .ok x := by
  induction d with
  | nil => exact ⟨[], rfl⟩
  | cons c d ih =>
    obtain ⟨x, hx⟩ := ih
    have : cstr (c :: d) = c :: cstr d := rfl
    rw [this]
    unfold cstrAt
    by_cases hc : c = 0
    · rw [if_pos hc]; exact ⟨_, rfl⟩
    · rw [if_neg hc, hx]; exact ⟨_, rfl⟩

/-- a line that only needs to be stored -/
theorem enter_defined (E : Env) (pr : Bool) (line : Bytes) (h : ∀ full, ∃ f e cl, parseFilter E.bad line 0 (full && pr) full = .ok (f, e) ∧
      classify E.bad f = .ok cl ∧ (∀ b : Build E, ∃ b', b.apply f e = .ok b') ∧
      (f.domainList = none ∨ ∀ id, cl = .list id → id.domId = none)) (b : Build E) :
    (∃ cl, lineClass E.bad (line, 0) = .ok cl) ∧ ∃ b', fillLine E pr b (line, 0) = .ok b' := by
  constructor
  · obtain ⟨f, e, cl, h1, h2, -⟩ := h false
    unfold lineClass
    rw [Bool.false_and] at h1
    rw [h1, Res.bind_ok]
    exact ⟨cl, h2⟩
  · obtain ⟨f, e, cl, h1, h2, h3, h4⟩ := h true
    rw [Bool.true_and] at h1
    obtain ⟨b1, hb1⟩ := h3 b
    unfold fillLine Build.enter
    rw [h1, Res.bind_ok, hb1, Res.bind_ok, h2, Res.bind_ok]
    cases cl with
    | drop => exact ⟨_, rfl⟩
    | hostAnchored => exact ⟨_, rfl⟩
    | hostAnchoredException => exact ⟨_, rfl⟩
    | list id =>
      simp only [Build.store]
      cases hd : id.domId with
      | none => exact ⟨_, rfl⟩
      | some d =>
        rcases h4 with h4 | h4
        · have : addFilterDomainsToHashSet E f (b1.domSets d) = .ok (b1.domSets d) := by
            unfold addFilterDomainsToHashSet; rw [h4]; rfl
          simp only
          rw [this, Res.bind_ok]
          exact ⟨_, rfl⟩
        · rw [h4 id rfl] at hd; cases hd

section
variable (line : Bytes) (t : Byte) (pr : Bool)

/-- the characters of the domains -/
theorem loop_plain (ds rest : Bytes) (pos : Nat) (s : PLocals) (hs : s.st = .start ∨ s.st = .data)
    (hl : pos + ds.length ≤ 2047) (hd : ∀ c ∈ ds, c ∉ bs%"|@![/$#") :
    ∃ s', parseLoop line t pr (ds ++ rest) pos s = parseLoop line t pr rest (pos + ds.length) s' ∧
      s'.f = s.f ∧ (s'.st = .start ∨ s'.st = .data) := by
  induction ds generalizing pos s with
  | nil => exact ⟨s, rfl, rfl, hs⟩
  | cons c ds ih =>
    simp only [List.length_cons] at hl
    have hc := hd c (by simp)
    simp only [List.mem_cons, List.not_mem_nil, or_false, not_or] at hc
    obtain ⟨c1, c2, c3, c4, c5, c6, c7⟩ := hc
    have : ∃ s1, parseStep line t pr c (ds ++ rest) s = .ok (.one s1) ∧ s1.f = s.f ∧ (s1.st = .start ∨ s1.st = .data) := by
      have hbar : s.bar c = s := by
        unfold PLocals.bar
        rw [if_neg]
        rintro ⟨h, -⟩
        rcases hs with h' | h' <;> rw [h'] at h <;> cases h
      unfold parseStep
      rw [if_neg (by rcases hs with h' | h' <;> rw [h'] <;> simp), hbar]
      unfold parseChar
      rw [if_neg c1, if_neg c2, if_neg (by simp [c3, c4])]
      by_cases hw : c = 13 ∨ c = 10 ∨ c = 9 ∨ c = 32
      · rw [if_pos hw]
        by_cases h' : s.st = .start
        · rw [if_pos h']; exact ⟨_, rfl, rfl, .inl h'⟩
        · rw [if_neg h']; exact ⟨_, rfl, rfl, hs⟩
      · rw [if_neg hw, if_neg c5, if_neg c6, if_neg c7]
        exact ⟨_, rfl, rfl, .inr rfl⟩
    obtain ⟨s1, h1, h2, h3⟩ := this
    rw [List.cons_append, parseLoop_cons _ _ _ _ _ _ _ (by omega), h1, Res.bind_ok]
    obtain ⟨s', e1, e2, e3⟩ := ih (pos + 1) s1 h3 (by omega) (fun c hc => hd c (by simp [hc]))
    refine ⟨s', ?_, e2.trans h2, e3⟩
    dsimp only
    rw [e1]
    congr 1
    simp only [List.length_cons]; omega

/-- the text after the mark -/
theorem loop_dataOnly (rest : Bytes) (pos : Nat) (s : PLocals) (hs : s.st = .dataOnly) (hl : pos + rest.length ≤ 2047) :
    ∃ s', parseLoop line t pr rest pos s = .ok (.fin s') ∧ s'.f = s.f ∧ s'.st = .dataOnly := by
  induction rest generalizing pos s with
  | nil => exact ⟨s, rfl, rfl, hs⟩
  | cons c rest ih =>
    simp only [List.length_cons] at hl
    rw [parseLoop_cons _ _ _ _ _ _ _ (by omega)]
    unfold parseStep
    rw [if_pos hs, Res.bind_ok]
    exact ih (pos + 1) (s.push c) hs (by omega)

/-- the mark -/
theorem loop_mark (mark rest : Bytes) (pos : Nat) (s : PLocals) (hs : s.st = .start ∨ s.st = .data)
    (hm : mark ∈ [bs%"##", bs%"#@", bs%"$$"]) (hl : pos < 2047) :
    ∃ s', parseLoop line t pr (mark ++ rest) pos s = parseLoop line t pr rest (pos + 2) s' ∧ s'.st = .dataOnly ∧
      (s'.f.filterType = FTElementHiding ∨ s'.f.filterType = FTElementHidingException ∨ s'.f.filterType = FTHTMLFiltering) := by
  have key : ∀ c d, mark = [c, d] → (∃ s1, parseStep line t pr c (d :: rest) s = .ok (.two s1) ∧ s1.st = .dataOnly ∧
      (s1.f.filterType = FTElementHiding ∨ s1.f.filterType = FTElementHidingException ∨ s1.f.filterType = FTHTMLFiltering)) →
      ∃ s', parseLoop line t pr (mark ++ rest) pos s = parseLoop line t pr rest (pos + 2) s' ∧ s'.st = .dataOnly ∧
      (s'.f.filterType = FTElementHiding ∨ s'.f.filterType = FTElementHidingException ∨ s'.f.filterType = FTHTMLFiltering) := by
    rintro c d rfl ⟨s1, h1, h2, h3⟩
    refine ⟨s1, ?_, h2, h3⟩
    rw [List.cons_append, parseLoop_cons _ _ _ _ _ _ _ hl, List.cons_append, List.nil_append, h1, Res.bind_ok]
    rfl
  have hbar : ∀ c, s.bar c = s := by
    intro c
    unfold PLocals.bar
    rw [if_neg]
    rintro ⟨h, -⟩
    rcases hs with h' | h' <;> rw [h'] at h <;> cases h
  have hne : ¬ s.st = .dataOnly := by rcases hs with h' | h' <;> rw [h'] <;> simp
  simp only [List.mem_cons, List.not_mem_nil, or_false] at hm
  rcases hm with rfl | rfl | rfl
  · refine key _ _ rfl ?_
    unfold parseStep
    rw [if_neg hne, hbar]
    simp [parseChar]
  · refine key _ _ rfl ?_
    unfold parseStep
    rw [if_neg hne, hbar]
    simp [parseChar]
  · refine key _ _ rfl ?_
    unfold parseStep
    rw [if_neg hne, hbar]
    simp [parseChar]

end

/-- a rule about the contents of pages becomes a rule of this kind -/
theorem parse_page {line : Bytes} (h : IsPageRule line) (bad : List Bytes) (pr full : Bool) :
    ∃ f e fp, parseFilter bad line 0 pr full = .ok (f, e) ∧
      (f.filterType = FTElementHiding ∨ f.filterType = FTElementHidingException ∨ f.filterType = FTHTMLFiltering) ∧
      getFingerprint bad f = .ok fp ∧ ∀ {E : Env} (b : Build E), ∃ b', b.apply f e = .ok b' := by
  obtain ⟨ds, mark, sel, rfl, hm, hd, hl⟩ := h
  have hml : mark.length = 2 := by
    simp only [List.mem_cons, List.not_mem_nil, or_false] at hm
    rcases hm with rfl | rfl | rfl <;> rfl
  simp only [List.length_append] at hl
  have : ∃ s, parseLoop (ds ++ mark ++ sel) 0 pr (ds ++ mark ++ sel) 0 {} = .ok (.fin s) ∧ s.st = .dataOnly ∧
      (s.f.filterType = FTElementHiding ∨ s.f.filterType = FTElementHidingException ∨ s.f.filterType = FTHTMLFiltering) := by
    generalize hline : ds ++ mark ++ sel = line
    conv => enter [1, s, 1, 1, 4]; rw [← hline, List.append_assoc]
    obtain ⟨s1, a1, a2, a3⟩ := loop_plain line 0 pr ds (mark ++ sel) 0 {} (.inl rfl) (by omega) hd
    obtain ⟨s2, b1, b2, b3⟩ := loop_mark line 0 pr mark sel (0 + ds.length) s1 a3 hm (by omega)
    obtain ⟨s3, c1, c2, c3⟩ := loop_dataOnly line 0 pr sel (0 + ds.length + 2) s2 b2 (by omega)
    exact ⟨s3, by rw [a1, b1, c1], c3, by rw [c2]; exact b3⟩
  obtain ⟨s, h1, h2, h3⟩ := this
  unfold parseFilter
  rw [h1, Res.bind_ok]
  dsimp only
  rw [finishFilter_eq _ _ _ _ (by rw [h2]; simp)]
  have hft : (s.result (ds ++ mark ++ sel) pr).filterType = s.f.filterType := rfl
  have hdat : (s.result (ds ++ mark ++ sel) pr).data = some (cstr s.data) := rfl
  have hbits : has (s.result (ds ++ mark ++ sel) pr).filterType FTHostAnchored = false ∧
      has (s.result (ds ++ mark ++ sel) pr).filterType FTRegex = false ∧
      has (s.result (ds ++ mark ++ sel) pr).filterType FTHostOnly = false := by
    rw [hft]; rcases h3 with h | h | h <;> rw [h] <;> decide
  have hfp : ∃ fp, getFingerprint bad (s.result (ds ++ mark ++ sel) pr) = .ok fp := by
    unfold getFingerprint
    rw [hbits.1, hbits.2.1, hdat]
    simp only [Bool.false_eq_true, if_false, Res.pure_eq, Res.bind_ok]
    obtain ⟨x, hx⟩ := cstrAt_defined s.data
    rw [hx]
    exact ⟨_, rfl⟩
  obtain ⟨fp, hfp⟩ := hfp
  obtain ⟨e, he⟩ := finishWith_ok (full := full) hfp
  refine ⟨_, e, fp, he, by rw [hft]; exact h3, hfp, fun b => ?_⟩
  obtain ⟨-, e1, e2⟩ := finishWith_effect (by rw [hdat]; simp) he
  cases full with
  | false => rw [e1 rfl]; exact ⟨b, rfl⟩
  | true =>
    cases e2 rfl with
    | noText _ => exact ⟨b, rfl⟩
    | other _ => exact ⟨b, rfl⟩
    | host _ hh => rw [hbits.2.2] at hh; cases hh
    | noFp _ _ _ => exact ⟨b, rfl⟩
    | fp w _ _ _ => split <;> exact ⟨_, rfl⟩

/-- a regular expression becomes a rule of this kind -/
theorem parse_regex {line : Bytes} (h : IsRegexRule line) (bad : List Bytes) (pr full : Bool) :
    ∃ f body, parseFilter bad line 0 pr full = .ok (f, .none) ∧ f.filterType = FTRegex ∧ f.domainList = none ∧
      f.data = some (cstr body) ∧ f.dataLen = none ∧ line = ch%'/' :: body ++ bs%"/" := by
  obtain ⟨body, rfl⟩ := h
  refine ⟨{ ({} : Filter) with
      data := some (cstr body)
      ruleDefinition := if pr then some body else none
      filterType := FTRegex }, body, ?_, rfl, rfl, rfl, rfl, rfl⟩
  have hreg : regexFilter (ch%'/' :: body ++ bs%"/") pr {} = some { ({} : Filter) with
      data := some (cstr body)
      ruleDefinition := if pr then some body else none
      filterType := FTRegex } := by
    unfold regexFilter
    have h1 : (ch%'/' :: body ++ bs%"/").length = body.length + 2 := by simp
    rw [if_pos]
    · have : ((ch%'/' :: body ++ bs%"/").drop (({} : PLocals).data.length + 1)).take
          ((ch%'/' :: body ++ bs%"/").length - ({} : PLocals).data.length - 2) = body := by
        rw [h1]
        show List.take (body.length + 2 - 0 - 2) (body ++ bs%"/") = body
        simp
      dsimp only
      rw [this]
    · rw [h1]
      simp
  have hstep : parseStep (ch%'/' :: body ++ bs%"/") 0 pr ch%'/' (body ++ bs%"/") {} = .ok (.stop (.ret { ({} : Filter) with
      data := some (cstr body)
      ruleDefinition := if pr then some body else none
      filterType := FTRegex })) := by
    unfold parseStep
    rw [if_neg (by simp)]
    have hbar : ({} : PLocals).bar ch%'/' = {} := rfl
    rw [hbar]
    unfold parseChar
    rw [if_neg (by decide), if_neg (by decide), if_neg (by decide), if_neg (by decide), if_pos rfl, if_pos (show ({} : PLocals).st.fresh = true from rfl), hreg]
  unfold parseFilter
  generalize hline : ch%'/' :: body ++ bs%"/" = line at hstep ⊢
  conv => lhs; enter [1, 4]; rw [← hline, List.cons_append]
  rw [parseLoop_cons _ _ _ _ _ _ _ (by omega), hstep, Res.bind_ok]
  rfl

/-- these lines can be loaded -/
theorem fillLine_page (E : Env) (pr : Bool) (b : Build E) {line : Bytes} (h : IsPageRule line) :
    (∃ cl, lineClass E.bad (line, 0) = .ok cl) ∧ ∃ b', fillLine E pr b (line, 0) = .ok b' := by
  refine enter_defined E pr line (fun full => ?_) b
  obtain ⟨f, e, fp, h1, h2, h3, h4⟩ := parse_page h E.bad (full && pr) full
  obtain ⟨cl, hcl⟩ := classify_ok h3
  refine ⟨f, e, cl, h1, hcl, h4, .inr fun id hid => ?_⟩
  subst hid
  rcases classify_cosmetic (bad := E.bad) h2 with h | h | h <;> rw [h] at hcl <;> cases hcl <;> rfl

theorem fillLine_regex (E : Env) (pr : Bool) (b : Build E) {line : Bytes} (h : IsRegexRule line) :
    (∃ cl, lineClass E.bad (line, 0) = .ok cl) ∧ ∃ b', fillLine E pr b (line, 0) = .ok b' := by
  refine enter_defined E pr line (fun full => ?_) b
  obtain ⟨f, body, h1, h2, h3, -⟩ := parse_regex h E.bad (full && pr) full
  have hfp : getFingerprint E.bad f = .ok none := by
    unfold getFingerprint
    rw [h2]; rfl
  obtain ⟨cl, hcl⟩ := classify_ok hfp
  exact ⟨f, .none, cl, h1, hcl, fun b => ⟨b, rfl⟩, .inl h3⟩

end AdBlock
