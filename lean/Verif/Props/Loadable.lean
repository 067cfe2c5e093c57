import Verif.Lemmas.Utf8
import Verif.Props.EndToEnd
import Verif.Lemmas.HostLine
/-
Exactly which lists can be loaded: C21.
-/
namespace AdBlock
open Spec

/-- **C21**, exactly, for lists of network rules (among blank lines, comments, regular
expressions and rules about the contents of pages): loading such a list into any client is free of undefined behaviour
if and only if none of its rules overflows the buffer for domains. -/
theorem C21_list_exact {E : Env} (c : Client E) {rs : List RuleText} (hw : ∀ r ∈ rs, r.WellFormed) {input : Bytes}
    (hl : ListOf (lines input) rs) (preserve : Bool) :
    (∃ c', c.parse input preserve = .ok c') ↔ ∀ r ∈ rs, ¬ r.Overflows E.bad := by
  obtain ⟨⟨n, hn⟩, hb⟩ := fill_listOf_iff E preserve hl hw c.startBuild {}
  rw [← hb]
  constructor
  · rintro ⟨c', h⟩
    obtain ⟨-, b, -, h, -⟩ := parse_ok_iff.1 h
    exact ⟨b, h⟩
  · rintro ⟨b, h⟩
    exact ⟨_, parse_ok_iff.2 ⟨n, b, hn, h, rfl⟩⟩

/-- a rule with a domain of `n` bytes -/
def exLongDomain (n : Nat) : RuleText := { text := bs%"-ad", options := some (bs%"domain=" ++ List.replicate n ch%'a') }

private theorem exLongDomain_usual (n : Nat) : (exLongDomain n).Usual where
  odd := rfl
  indent c hc := by cases hc
  nonempty h := by cases h
  plain := (by decide : ∀ c ∈ bs%"-ad", c ≠ 0 ∧ c ≠ 10 ∧ c ≠ 13 ∧ c ≠ ch%'|' ∧ c ≠ ch%'$')
  hash a d b h := by
    have : ch%'#' ∈ bs%"-ad" := by rw [show bs%"-ad" = _ from h]; simp
    exact absurd this (by decide)
  first h c hc := by
    cases hc
    exact ⟨by decide, by decide, fun h => by cases h⟩
  opts o ho := by
    cases ho
    refine ⟨fun c hc => ?_, by simp⟩
    rcases List.mem_append.1 hc with hc | hc
    · exact (by decide : ∀ c ∈ bs%"domain=", c ≠ 0 ∧ c ≠ 10 ∧ c ≠ 13) c hc
    · rw [List.eq_of_mem_replicate hc]; decide
  short := by
    simp [RuleText.Short, RuleText.line, RuleText.body, RuleText.marks, RuleText.trailer, exLongDomain, Anchor.mark, RuleText.optionText]
    omega

private theorem exLongDomain_wellFormed (n : Nat) : (exLongDomain n).WellFormed := .usual (exLongDomain_usual n)

private theorem exLongDomain_split (sep : Byte) (n : Nat) (x : Bytes) (h : sep ∉ x) (h' : sep ≠ ch%'a') :
    splitOn sep (x ++ List.replicate n ch%'a') = [x ++ List.replicate n ch%'a'] := by
  have := splitOn_noSep (sep := sep) (x := x ++ List.replicate n ch%'a') (fun hx => by
    rcases List.mem_append.1 hx with hx | hx
    · exact h hx
    · exact h' (List.eq_of_mem_replicate hx)) []
  simpa [splitOn] using this

private theorem exLongDomain_entries (n : Nat) : (exLongDomain n).entries = [bs%"domain=" ++ List.replicate n ch%'a'] :=
  exLongDomain_split ch%',' n bs%"domain=" (by decide) (by decide)

private theorem exLongDomain_overflows (bad : List Bytes) (n : Nat) : (exLongDomain n).Overflows bad ↔ 1024 < n := by
  have hv : (exLongDomain n).value bs%"domain=" = some (List.replicate n ch%'a') := by
    unfold RuleText.value
    rw [exLongDomain_entries]
    rfl
  have hp : positive (List.replicate n ch%'a') = [List.replicate n ch%'a'] := by
    unfold positive
    have := exLongDomain_split ch%'|' n [] (by simp) (by decide)
    rw [List.nil_append] at this
    rw [this]
    cases n <;> rfl
  have hn : negative (List.replicate n ch%'a') = [] := by
    unfold negative
    have := exLongDomain_split ch%'|' n [] (by simp) (by decide)
    rw [List.nil_append] at this
    rw [this]
    cases n <;> rfl
  constructor
  · rintro ⟨-, -, -, dl, h1, h2⟩
    rw [hv] at h1
    cases h1
    rcases h2 with ⟨-, d, hd, hl⟩ | ⟨-, d, hd, -⟩
    · rw [hp, List.mem_singleton] at hd
      subst hd
      simpa using hl
    · rw [hn] at hd; cases hd
  · intro h
    refine ⟨?_, fun h => (by cases h.1), ?_, _, hv, .inl ⟨hn, List.replicate n ch%'a', (by rw [hp]; simp), by simpa using h⟩⟩
    · rw [exLongDomain_entries]
      intro o ho
      rw [List.mem_singleton.1 ho]
      rintro (⟨n, -, h⟩ | h | ⟨-, h, -⟩)
      · exact absurd ⟨_, rfl⟩ (fullName_plain h).2.1.1
      · obtain ⟨t, h⟩ := h; cases h
      · exact h bs%"domain=" (by simp) ⟨_, rfl⟩
    · rintro ⟨w, hw, hu⟩
      have := hw.length_le
      have hl := hu.1
      simp [exLongDomain] at this
      omega

/-- The condition is met exactly up to a length: a rule `-ad$domain=aa...a` can be loaded if and only if the domain has at
most 1024 bytes. -/
example {E : Env} (c : Client E) (n : Nat) (preserve : Bool) :
    (∃ c', c.parse (exLongDomain n).line preserve = .ok c') ↔ n ≤ 1024 := by
  have hw := exLongDomain_wellFormed n
  have hl : lines (exLongDomain n).line = [(exLongDomain n).line] :=
    lines_listText (ls := [(exLongDomain n).line]) (fun l hl c hc => by
      rw [List.mem_singleton.1 hl] at hc
      exact (rule_line_clean hw c hc).2) (by simp)
  rw [C21_list_exact c (rs := [exLongDomain n]) (by simpa using hw) (by rw [hl]; exact .rule _ .nil) preserve]
  simp [exLongDomain_overflows]

/-- Also rules with two bars in a row, or with empty domains, can be loaded. -/
example {E : Env} (c : Client E) (preserve : Bool) : ∃ c', c.parse bs%"foo$domain=a||b|~c" preserve = .ok c' := by
  have hl : ListOf (lines bs%"foo$domain=a||b|~c") [{ text := bs%"foo", options := some bs%"domain=a||b|~c" }] := by
    rw [show lines bs%"foo$domain=a||b|~c" = [({ text := bs%"foo", options := some bs%"domain=a||b|~c" } : RuleText).line] by decide +kernel]
    exact .rule _ .nil
  refine (C21_list_exact c ?_ hl preserve).2 ?_
  · exact fun r hr => RuleText.wellFormed ((by decide +kernel : ∀ r ∈ [({ text := bs%"foo", options := some bs%"domain=a||b|~c" } : RuleText)], r.ok = true) r hr)
  · exact fun r hr => fits_of_entries ((by decide +kernel : ∀ r ∈ [({ text := bs%"foo", options := some bs%"domain=a||b|~c" } : RuleText)], ∀ o ∈ r.entries, o.length ≤ 1024) r hr)

/-- **C21**, exactly, for every list: loading a list into any client is free of undefined behaviour if and only if all of
its lines can be loaded, that is, none of them is an over-long line with two bars and more than a host, has bars in the
host behind two bars, or has a domain that is too long. -/
theorem C21_exact {E : Env} (c : Client E) (input : Bytes) (preserve : Bool) (h0 : 0 ∉ input) :
    (∃ c', c.parse input preserve = .ok c') ↔ ∀ line ∈ lines input, Loadable E.bad line := by
  rw [← passes_all E preserve (fun line hl d hd => ?_) c.startBuild {}]
  · constructor
    · rintro ⟨c', h⟩
      obtain ⟨n, b, h1, h2, -⟩ := parse_ok_iff.1 h
      exact ⟨⟨n, h1⟩, b, h2⟩
    · rintro ⟨⟨n, h1⟩, b, h2⟩
      exact ⟨_, parse_ok_iff.2 ⟨n, b, h1, h2, rfl⟩⟩
  · have := mem_lines hl d hd
    exact ⟨fun e => h0 (e ▸ this.1), this.2.1, this.2.2⟩

/-- the exact condition is implied by the simple one -/
example {E : Env} (c : Client E) {line : Bytes} (hclean : ∀ c ∈ line, c ≠ 0 ∧ c ≠ 10 ∧ c ≠ 13) (h : SafeLine line) : Loadable E.bad line :=
  (passes_iff E false c.startBuild hclean).1 (fillLine_safe E false _ hclean h)

/-- Bars in a host: the text of the rule, `example.com^`, is shorter than the host, `exa|mp|le.com`. -/
example : TextTooShort bs%"||exa|mp|le.com^$script" :=
  ⟨[], [], bs%"exa|mp|le.com^", bs%"$script", ⟨rfl, .blanks (by simp), by decide, fun x y e => by
    have : ch%'#' ∈ bs%"exa|mp|le.com^" := by rw [e]; simp
    exact absurd this (by decide)⟩, .inr ⟨⟨bs%"script", rfl, by decide⟩, by decide⟩, by decide⟩

/-- An over-long line with a host and a path, whatever follows. -/
example {n : Nat} (hn : n = 2039) (rest : Bytes) (hr : rest ≠ []) : NoText (bs%"||a.com/" ++ List.replicate n ch%'x' ++ rest) := by
  have hc : ∀ c ∈ bs%"a.com/" ++ List.replicate n ch%'x', c ≠ ch%'$' ∧ c ≠ ch%'#' := by
    intro c hc
    rcases List.mem_append.1 hc with hc | hc
    · exact (by decide : ∀ c ∈ bs%"a.com/", c ≠ ch%'$' ∧ c ≠ ch%'#') c hc
    · rw [List.eq_of_mem_replicate hc]; decide
  have hb : ∀ x, barHost (bs%"a.com/" ++ x) = bs%"a.com" := fun x => rfl
  refine ⟨[], [], bs%"a.com/" ++ List.replicate n ch%'x', rest, ⟨by simp, .blanks (by simp), fun h => (hc _ h).1 rfl, fun x y e => ?_⟩, hr,
    by simp only [List.length_append, List.length_replicate, List.length_cons, List.length_nil]; omega, ?_, ?_⟩
  · exact absurd rfl (hc ch%'#' (by rw [e]; simp)).2
  · rw [List.append_assoc, hb]; simp
  · rintro ⟨r, h, h'⟩
    rw [List.append_assoc, hb] at h
    rcases h with h | h
    · simp only [List.cons_append, List.nil_append, List.cons.injEq, true_and] at h
      rw [← h] at h'
      rcases h' with h' | h'
      · cases h'
      · simp at h'
    · simp at h

/-- An exception with a blank behind the `@@` can be loaded in spite of a bar in its host, since the blank is counted as
part of the text. -/
example {E : Env} (c : Client E) (preserve : Bool) : ∃ c', c.parse bs%"@@ ||exa|mple.com" preserve = .ok c' := by
  have hcl : ∀ d ∈ bs%"@@ ||exa|mple.com", d ≠ 0 ∧ d ≠ 10 ∧ d ≠ 13 := by decide
  rw [C21_exact c _ _ (by decide), lines_single (fun d hd => (hcl d hd).2)]
  intro line hl
  rw [List.mem_singleton.1 hl]
  have key : ∀ full, ∃ f e, parseFilter E.bad bs%"@@ ||exa|mple.com" 0 false full = .ok (f, e) ∧ f.domainList = none ∧ ∃ cl, classify E.bad f = .ok cl := by
    intro full
    let s : PLocals := { st := .data, ruleEnd := 17, data := bs%" example.com", f := { filterType := FTException ||| FTHostAnchored ||| FTHostOnly ||| FTRightAnchored, host := some bs%"exa|mple.com" } }
    have hloop : parseLoop bs%"@@ ||exa|mple.com" 0 false bs%"@@ ||exa|mple.com" 0 {} = .ok (.fin s) := by decide +kernel
    have hfp : ∃ fp, getFingerprint E.bad (s.result bs%"@@ ||exa|mple.com" false) = .ok fp := by
      refine getFingerprint_ok E.bad ⟨rfl, rfl, .inr ⟨s.data, by decide, rfl⟩, fun _ => rfl, fun _ => by decide, .inl (by decide), fun h => by cases h⟩
        (fun h => by cases h) (fun _ h pat hh hd => ?_)
      cases hh
      have : cstr bs%" example.com" = cstr pat := Option.some.inj hd
      have := congrArg List.length this
      simp [cstr] at this
      simp
      omega
    obtain ⟨fp, hfp⟩ := hfp
    obtain ⟨e, he⟩ := finishWith_ok (full := full) hfp
    refine ⟨_, e, ?_, rfl, classify_ok hfp⟩
    unfold parseFilter
    rw [hloop, Res.bind_ok]
    show finishFilter _ _ _ _ s = _
    rw [finishFilter_eq _ _ _ _ (by simp [s])]
    exact he
  obtain ⟨f, e, hf, hd, hc⟩ := key true
  obtain ⟨g, e', hg, -, cl, hcl'⟩ := key false
  refine (passes_iff E false c.startBuild hcl).1 ⟨⟨cl, ?_⟩, (fillLine_iff _ _ (by decide) hf).2 ⟨hc, ?_⟩⟩
  · unfold lineClass; rw [hg, Res.bind_ok]; exact hcl'
  · rintro ⟨-, -, dl, h, -⟩
    rw [hd] at h
    cases h

end AdBlock
