import Verif.SpecClient
import Verif.Lemmas.ParseSafe
import Verif.Props.ParseLine
/-!
Properties of `AdBlockClient::parse`: C18 (comments and blank lines), C19 (piecewise
loading), C20 (agreement of the passes), C21 (memory safety).
-/
namespace AdBlock
open Spec

/-! ### C18 -/

theorem lineClass_idle (bad : List Bytes) {line : Bytes} (h : Idle line) : lineClass bad (line, 0) = .ok .drop := by
  unfold lineClass
  rcases h with ⟨h1, h2⟩ | h
  · have := C18_blank_line bad line 0 false false h1 h2
    rw [this.1]; exact this.2
  · have := C18_comment_line bad line 0 false false h
    rw [this.1]; exact this.2

theorem fillLine_idle (E : Env) (pr : Bool) (b : Build E) {line : Bytes} (h : Idle line) :
    fillLine E pr b (line, 0) = .ok b := by
  unfold fillLine Build.enter
  rcases h with ⟨h1, h2⟩ | h
  · have := C18_blank_line E.bad line 0 pr true h1 h2
    rw [this.1, Res.bind_ok]
    simp only [Build.apply, Res.pure_eq, Res.bind_ok, this.2]
    rfl
  · have := C18_comment_line E.bad line 0 pr true h
    rw [this.1, Res.bind_ok]
    simp only [Build.apply, Res.pure_eq, Res.bind_ok, this.2]
    rfl

theorem countPass_filter (bad : List Bytes) (keep : Bytes → Bool) (hk : ∀ l, keep l = false → Idle l) (ls : List Bytes)
    (n : Counts) : countPass bad (nul ls) n = countPass bad (nul (ls.filter keep)) n := by
  induction ls generalizing n with
  | nil => rfl
  | cons l ls ih =>
    simp only [nul, List.map_cons] at ih ⊢
    rw [countPass_cons]
    cases hl : keep l with
    | true =>
      rw [List.filter_cons_of_pos hl, List.map_cons, countPass_cons]
      congr 1; funext cl; exact ih _
    | false =>
      rw [List.filter_cons_of_neg (by simp [hl]), lineClass_idle bad (hk l hl), Res.bind_ok]
      exact ih _

theorem fill_filter (E : Env) (pr : Bool) (keep : Bytes → Bool) (hk : ∀ l, keep l = false → Idle l) (ls : List Bytes)
    (b : Build E) : fill E pr (nul ls) b = fill E pr (nul (ls.filter keep)) b := by
  induction ls generalizing b with
  | nil => rfl
  | cons l ls ih =>
    simp only [nul, List.map_cons] at ih ⊢
    simp only [fill]
    cases hl : keep l with
    | true =>
      rw [List.filter_cons_of_pos hl, List.map_cons]
      simp only [fill]
      congr 1; funext b; exact ih _
    | false =>
      rw [List.filter_cons_of_neg (by simp [hl]), fillLine_idle E pr b (hk l hl), Res.bind_ok]
      exact ih _

/-- **C18**: two lists which differ only in blank lines and comments (`keep` selects the
other lines), wherever they are, have exactly the same effect on every client. -/
theorem C18_comments_and_blank_lines {E} (c : Client E) (keep : Bytes → Bool) (hk : ∀ l, keep l = false → Idle l)
    (A B : Bytes) (preserve : Bool) (h : (lines A).filter keep = (lines B).filter keep) :
    c.parse A preserve = c.parse B preserve := by
  rw [parse_lines, parse_lines, countPass_filter E.bad keep hk (lines A), countPass_filter E.bad keep hk (lines B), h]
  congr 1; funext n
  rw [fill_filter E preserve keep hk (lines A), fill_filter E preserve keep hk (lines B), h]

/-- two lists as in `C18_comments_and_blank_lines`, with `keep` true only for `||a.com^` -/
example : (lines bs%"! title\n\n||a.com^\n  \n").filter (· == bs%"||a.com^") =
    (lines bs%"||a.com^").filter (· == bs%"||a.com^") := by decide +kernel

/-! ### C19 -/

theorem startBuild_finish {E} (c : Client E) (n : Counts) (b : Build E) : (c.finish n b).startBuild = b := rfl

theorem finish_finish {E} (c : Client E) (n m : Counts) (b b' : Build E) :
    (c.finish n b).finish m b' = c.finish (n.plus m) b' := by
  simp only [Client.finish, Counts.plus, Nat.add_assoc]

/-- **C19**: loading `A` and then `B` has the same result as loading the two joined by a
line end. -/
theorem C19_piecewise {E} (c c' : Client E) (A B : Bytes) (preserve : Bool) {nl : Byte} (hnl : nl = 13 ∨ nl = 10) :
    (c.parse A preserve >>= fun c1 => c1.parse B preserve) = .ok c' ↔
      c.parse (A ++ nl :: B) preserve = .ok c' := by
  rw [parse_ok_iff, lines_append A B hnl, nul_append, countPass_append, fill_append, Res.bind_eq_ok]
  simp only [parse_ok_iff, Res.bind_eq_ok]
  constructor
  · rintro ⟨c1, ⟨n, b, h1, h2, rfl⟩, m, b', h3, h4, rfl⟩
    refine ⟨n.plus m, b', ⟨n, h1, ?_⟩, ⟨b, h2, h4⟩, finish_finish ..⟩
    rw [countPass_from, h3, Res.map_ok]
  · rintro ⟨nm, b', ⟨n, h1, h3⟩, ⟨b, h2, h4⟩, rfl⟩
    rw [countPass_from] at h3
    cases hm : countPass E.bad (nul (lines B)) {} with
    | ub u => rw [hm] at h3; cases h3
    | ok m =>
      rw [hm, Res.map_ok] at h3
      cases h3
      exact ⟨_, ⟨n, b, h1, h2, rfl⟩, m, b', rfl, h4, (finish_finish ..).symm⟩

/-- **C19**: CR, LF and CRLF line ends are interchangeable: only the sequence of
non-empty lines matters. -/
theorem C19_line_ends {E} (c : Client E) (A B : Bytes) (preserve : Bool)
    (h : (lines A).filter (· ≠ []) = (lines B).filter (· ≠ [])) : c.parse A preserve = c.parse B preserve := by
  refine C18_comments_and_blank_lines c (· ≠ []) (fun l hl => ?_) A B preserve h
  have : l = [] := by simpa using hl
  subst this
  exact .inl ⟨by simp, by simp⟩

example : (lines bs%"||a.com^\r\n||b.com^\r\n").filter (· ≠ []) = (lines bs%"||a.com^\n\n||b.com^").filter (· ≠ []) ∧
    (lines bs%"||a.com^\r||b.com^").filter (· ≠ []) = [bs%"||a.com^", bs%"||b.com^"] := by decide +kernel

/-! ### C20 -/

theorem fill_reads {E : Env} {pr : Bool} {ls : List Bytes} {b b' : Build E} {n n' : Counts}
    (hn : countPass E.bad (nul ls) n = .ok n') (h : fill E pr (nul ls) b = .ok b') :
    ∃ fs, Reads E.bad pr ls fs ∧ (∀ f ∈ fs, ∃ cl, classify E.bad f = .ok cl) ∧
      (∀ id, b'.arr id = b.arr id ++ fs.filter (fun f => classify E.bad f = .ok (.list id))) ∧
      n'.hostAnchored = n.hostAnchored + (fs.filter (fun f => classify E.bad f = .ok .hostAnchored)).length ∧
      n'.hostAnchoredException = n.hostAnchoredException +
        (fs.filter (fun f => classify E.bad f = .ok .hostAnchoredException)).length := by
  induction ls generalizing b n with
  | nil => cases h; cases hn; exact ⟨[], .nil, by simp, by simp, by simp, by simp⟩
  | cons l ls ih =>
    simp only [nul, List.map_cons, fill] at ih h hn
    rw [countPass_cons, Res.bind_eq_ok] at hn
    obtain ⟨cl, hcl, hn⟩ := hn
    rw [Res.bind_eq_ok] at h
    obtain ⟨b1, h1, h⟩ := h
    obtain ⟨fs, e1, e2, e3, e4, e5⟩ := ih hn h
    obtain ⟨f, e, hf, hc⟩ := lineClass_pass hcl pr
    unfold fillLine Build.enter at h1
    rw [hf, Res.bind_ok, Res.bind_eq_ok] at h1
    obtain ⟨b0, h0, h1⟩ := h1
    rw [hc, Res.bind_ok] at h1
    refine ⟨f :: fs, .cons hf e1, ?_, ?_, ?_, ?_⟩
    · intro g hg
      rcases List.mem_cons.1 hg with rfl | hg
      · exact ⟨cl, hc⟩
      · exact e2 g hg
    · intro id
      rw [e3 id, (store_ok h1).1 id, apply_arr h0]
      by_cases hh : cl = .list id
      · rw [if_pos hh, List.filter_cons_of_pos (by simp [hc, hh])]; simp
      · rw [if_neg hh, List.filter_cons_of_neg (by simpa [hc] using hh)]
    · rw [e4]
      by_cases hh : cl = .hostAnchored
      · rw [List.filter_cons_of_pos (by simp [hc, hh]), hh]; simp [Counts.bump]; omega
      · rw [List.filter_cons_of_neg (by simpa [hc] using hh)]
        cases cl <;> simp_all [Counts.bump]
    · rw [e5]
      by_cases hh : cl = .hostAnchoredException
      · rw [List.filter_cons_of_pos (by simp [hc, hh]), hh]; simp [Counts.bump]; omega
      · rw [List.filter_cons_of_neg (by simpa [hc] using hh)]
        cases cl <;> simp_all [Counts.bump]

/-- **C20**: after a successful `parse` every array consists of its former rules followed
by exactly the rules of its class among those read from the lines, in order, without
unwritten slots; and the two counters of host rules grew by the number of these. -/
theorem C20_arrays_filled {E} {c c' : Client E} {input : Bytes} {preserve : Bool}
    (h : c.parse input preserve = .ok c') :
    ∃ fs, Reads E.bad preserve (lines input) fs ∧ (∀ f ∈ fs, ∃ cl, classify E.bad f = .ok cl) ∧
      (∀ id, c'.lists id = c.lists id ++ fs.filter (fun f => classify E.bad f = .ok (.list id))) ∧
      c'.numHostAnchoredFilters = c.numHostAnchoredFilters +
        (fs.filter (fun f => classify E.bad f = .ok .hostAnchored)).length ∧
      c'.numHostAnchoredExceptionFilters = c.numHostAnchoredExceptionFilters +
        (fs.filter (fun f => classify E.bad f = .ok .hostAnchoredException)).length := by
  obtain ⟨n, b, h1, h2, rfl⟩ := parse_ok_iff.1 h
  obtain ⟨fs, e1, e2, e3, e4, e5⟩ := fill_reads h1 h2
  refine ⟨fs, e1, e2, e3, ?_, ?_⟩
  · simp only [Client.finish, e4]; simp
  · simp only [Client.finish, e5]; simp

/-- **C20**: the second pass never writes past the arrays allocated from the counts of the
first: larger arrays would make no difference. -/
theorem C20_no_overflow {E : Env} (b : Build E) (input : Bytes) (preserve : Bool) {n : Counts}
    (h : countPass E.bad (splitLines input) {} = .ok n) (larger : ListId → Nat)
    (hl : ∀ id, n.lists id + (b.arr id).length ≤ larger id) :
    fillPass E preserve (fun id => n.lists id + (b.arr id).length) (splitLines input) b =
      fillPass E preserve larger (splitLines input) b := by
  rw [(fillPass_eq h (fun id => ?_)).1, (fillPass_eq h (fun id => ?_)).1]
  · have := hl id
    show _ ≤ _ + 0
    omega
  · show _ ≤ _ + 0
    omega

/-! ### C21 -/

theorem fillLine_safe (E : Env) (pr : Bool) (b : Build E) {line : Bytes}
    (hclean : ∀ c ∈ line, c ≠ 0 ∧ c ≠ 10 ∧ c ≠ 13) (hs : SafeLine line) :
    (∃ cl, lineClass E.bad (line, 0) = .ok cl) ∧ ∃ b', fillLine E pr b (line, 0) = .ok b' := by
  constructor
  · obtain ⟨f, e, cl, h1, h2, _⟩ := parseFilter_safe E.bad (t := 0) (.inl rfl) false false hclean hs.short hs.host
    unfold lineClass
    rw [h1, Res.bind_ok]
    exact ⟨cl, h2⟩
  · obtain ⟨f, e, cl, h1, h2, h3⟩ := parseFilter_safe E.bad (t := 0) (.inl rfl) pr true hclean hs.short hs.host
    have h0 : 0 ∉ line := fun h => (hclean 0 h).1 rfl
    obtain ⟨hp, _, he⟩ := parseFilter_facts (.inl rfl) h0 h1
    have he := he rfl
    have happ : ∃ b1, b.apply f e = .ok b1 := by
      cases he with
      | noText _ => exact ⟨b, rfl⟩
      | other _ => exact ⟨b, rfl⟩
      | host hd _ =>
        rcases hp.text with h | ⟨pat, h0, hdat⟩
        · exact absurd h hd
        · have hcp := copy_ok hp h0 hdat
          split
          · simp only [Build.apply]; rw [hcp]; exact ⟨_, rfl⟩
          · simp only [Build.apply]; rw [hcp]; exact ⟨_, rfl⟩
      | noFp _ _ _ => exact ⟨b, rfl⟩
      | fp w _ _ _ => split <;> exact ⟨_, rfl⟩
    obtain ⟨b1, hb1⟩ := happ
    unfold fillLine Build.enter
    rw [h1, Res.bind_ok, hb1, Res.bind_ok, h2, Res.bind_ok]
    cases cl with
    | drop => exact ⟨_, rfl⟩
    | hostAnchored => exact ⟨_, rfl⟩
    | hostAnchoredException => exact ⟨_, rfl⟩
    | list id =>
      simp only [Build.store]
      cases hd : id.domId with
      | none => exact ⟨_, rfl⟩
      | some d =>
        have hdom := h3 id rfl (by simp [hd])
        obtain ⟨s, hs'⟩ : ∃ s, addFilterDomainsToHashSet E f (b1.domSets d) = .ok s := by
          unfold addFilterDomainsToHashSet
          cases hl : f.domainList with
          | none => exact ⟨_, rfl⟩
          | some dl =>
            obtain ⟨x, y, e1, e2, e3⟩ := hdom dl hl
            refine addDomains_ok E _ _ (fun s hs2 => ?_)
            rw [domainSegments_eq] at hs2
            exact hs.domains x dl y e1 e2 e3 s hs2
        simp only
        rw [hs', Res.bind_ok]
        exact ⟨_, rfl⟩

theorem fill_safe (E : Env) (pr : Bool) (ls : List Bytes) (b : Build E) (n : Counts)
    (h : ∀ line ∈ ls, (∀ c ∈ line, c ≠ 0 ∧ c ≠ 10 ∧ c ≠ 13) ∧ SafeLine line) :
    (∃ n', countPass E.bad (nul ls) n = .ok n') ∧ ∃ b', fill E pr (nul ls) b = .ok b' := by
  induction ls generalizing b n with
  | nil => exact ⟨⟨n, rfl⟩, b, rfl⟩
  | cons l ls ih =>
    obtain ⟨h1, h2⟩ := h l (by simp)
    obtain ⟨⟨cl, hcl⟩, b1, hb1⟩ := fillLine_safe E pr b h1 h2
    obtain ⟨r1, r2⟩ := ih b1 (n.bump cl) (fun l hl => h l (by simp [hl]))
    simp only [nul, List.map_cons] at r1 r2 ⊢
    rw [countPass_cons, hcl, Res.bind_ok]
    simp only [fill]
    rw [hb1, Res.bind_ok]
    exact ⟨r1, r2⟩

/-- **C21**, the part that holds: if all lines of a list are safe (at most 2047 bytes, no
`|` inside the host of a `||` rule, no domain of more than 1024 bytes), parsing it runs
into no undefined behaviour, whatever is already loaded. -/
theorem C21_memory_safe_partial {E} (c : Client E) (input : Bytes) (preserve : Bool) (h0 : 0 ∉ input)
    (h : ∀ line ∈ lines input, SafeLine line) : ∃ c', c.parse input preserve = .ok c' := by
  obtain ⟨⟨n, hn⟩, b, hb⟩ := fill_safe E preserve (lines input) c.startBuild {} (fun line hl =>
    ⟨fun d hd => by
      have := mem_lines hl d hd
      exact ⟨fun e => h0 (e ▸ this.1), this.2.1, this.2.2⟩, h line hl⟩)
  exact ⟨_, parse_ok_iff.2 ⟨n, b, hn, hb, rfl⟩⟩

/-- A simple sufficient condition: short lines without `||`. -/
theorem safeLine_of_short {line : Bytes} (hl : line.length ≤ 1024) (hb : ¬ bs%"||" <:+: line) : SafeLine line where
  short := by omega
  host := by
    intro a p h _
    exact absurd ⟨a, p, by rw [h]⟩ hb
  domains := by
    intro a d b h _ _ s hs
    obtain ⟨x, y, e, _⟩ := mem_splitOn_infix hs
    have h1 := congrArg List.length h
    have h2 := congrArg List.length e
    simp at h1 h2
    omega

/-- also met by `||` rules -/
theorem safeLine_example : SafeLine bs%"||ads.com^$script,domain=a.com|~b.a.com" where
  short := by decide
  host := by
    intro a p h ha
    have h1 : a = [] := by
      cases a with
      | nil => rfl
      | cons x a => simp at h; simp [← h.1] at ha
    subst h1
    simp at h
    subst h
    decide
  domains := by
    intro a d b h _ _ s hs
    obtain ⟨x, y, e, _⟩ := mem_splitOn_infix hs
    have h1 := congrArg List.length h
    have h2 := congrArg List.length e
    simp at h1 h2
    omega

example {E} (c : Client E) : ∃ c', c.parse bs%"||ads.com^$script,domain=a.com|~b.a.com" true = .ok c' :=
  C21_memory_safe_partial c _ true (by decide) (by
    have : lines bs%"||ads.com^$script,domain=a.com|~b.a.com" = [bs%"||ads.com^$script,domain=a.com|~b.a.com"] := by
      decide +kernel
    rw [this]
    simpa using safeLine_example)

theorem lines_single {input : Bytes} (h : ∀ c ∈ input, c ≠ 10 ∧ c ≠ 13) : lines input = [input] := by
  have : (input.map fun c => if c = 13 then 10 else c) = input := by
    conv => rhs; rw [← List.map_id input]
    exact List.map_congr_left (fun c hc => if_neg (h c hc).2)
  unfold lines
  rw [this]
  exact splitOn_of_not_mem (fun hm => (h 10 hm).1 rfl)

theorem parse_ub_of_lineClass {E} (c : Client E) (input : Bytes) (pr : Bool) {u : UB} (h1 : ∀ c ∈ input, c ≠ 10 ∧ c ≠ 13)
    (h2 : lineClass E.bad (input, 0) = .ub u) : c.parse input pr = .ub u := by
  rw [parse_lines, lines_single h1]
  simp only [nul, List.map_cons, List.map_nil]
  rw [countPass_cons, h2]
  rfl

/-- **C21**, violation: a `|` inside the host of a `||` rule makes every client read past
the text of the rule. -/
theorem C21_counterexample_bar_in_host {E} (c : Client E) (preserve : Bool) :
    c.parse bs%"||exa|mple.com" preserve = .ub .oobRead := by
  refine parse_ub_of_lineClass c _ _ (by decide) ?_
  unfold lineClass parseFilter
  have h : parseLoop bs%"||exa|mple.com" 0 false bs%"||exa|mple.com" 0 {} =
      .ok (.fin (PLocals.mk .data { filterType := FTHostAnchored ||| FTHostOnly ||| FTRightAnchored, host := some bs%"exa|mple.com" }
        bs%"example.com" 0 14)) := by decide +kernel
  rw [h]
  rfl

/-- **C21**, violation: an over-long `||` rule with a path makes every client dereference
a null pointer. -/
theorem C21_counterexample_long_line {E} (c : Client E) (preserve : Bool) (host rest : Bytes) (hh : host ≠ [])
    (hs : ∀ c ∈ host, ¬ IsSep c) (hplain : ∀ c ∈ host ++ rest, c ∉ [0, 10, 13, ch%'|', ch%'$', ch%'#'])
    (hlen : (host ++ rest).length > 2048) (hshort : host.length < 2000) :
    c.parse (bs%"||" ++ host ++ ch%'/' :: rest) preserve = .ub .nullDeref := by
  have hp : ∀ c ∈ host ++ rest, c ≠ 0 ∧ c ≠ 10 ∧ c ≠ 13 ∧ c ≠ ch%'|' ∧ c ≠ ch%'$' ∧ c ≠ ch%'#' := by
    intro c hc
    simpa [not_or] using hplain c hc
  refine parse_ub_of_lineClass c _ _ ?_ ?_
  · intro c hc
    simp only [List.mem_append, List.mem_cons, List.not_mem_nil, or_false] at hc
    rcases hc with ((rfl | rfl) | hc) | rfl | hc
    · decide
    · decide
    · have := hp c (by simp [hc]); exact ⟨this.2.1, this.2.2.1⟩
    · decide
    · have := hp c (by simp [hc]); exact ⟨this.2.1, this.2.2.1⟩
  · obtain ⟨f, h1, h2⟩ := C42_null_dereference E.bad host rest (t := 0) (.inl rfl) false false hh hs
      (fun c hc => by have := hp c hc; exact ⟨this.1, this.2.2.2⟩) hlen hshort
    unfold lineClass
    rw [h1, Res.bind_ok]
    exact h2

/-- **C21**, violation: a domain of more than 1024 bytes in a rule without fingerprint
overflows a buffer on the stack of every client. -/
theorem C21_counterexample_long_domain {E} (c : Client E) (preserve : Bool) (d : Bytes)
    (hd : ∀ c ∈ d, c ∉ [0, 10, 13, ch%',', ch%'|', ch%'~']) (hlen : d.length > 1024) :
    c.parse (bs%"a$domain=" ++ d) preserve = .ub .oobWrite := by
  have hp : ∀ c ∈ d, c ≠ 0 ∧ c ≠ 10 ∧ c ≠ 13 ∧ c ≠ ch%',' ∧ c ≠ ch%'|' ∧ c ≠ ch%'~' := by
    intro c hc
    simpa [not_or] using hd c hc
  let r : RuleText := { text := bs%"a", options := some (bs%"domain=" ++ d) }
  have hline : r.line = bs%"a$domain=" ++ d := by simp [r, RuleText.line, RuleText.body, RuleText.marks, RuleText.trailer, RuleText.optionText, Anchor.mark]
  have hw : r.WellFormed := .usual {
    odd := rfl
    indent := by simp [r]
    nonempty := by simp [r]
    plain := by simp [r]
    hash := by
      intro a x b h
      have := congrArg List.length h
      simp [r] at this
      omega
    first := by simp [r]
    opts := by
      intro o ho
      cases ho
      refine ⟨fun c hc => ?_, by simp⟩
      rcases List.mem_append.1 hc with h | h
      · clear hc; revert c; decide
      · have := hp c h; exact ⟨this.1, this.2.1, this.2.2.1⟩
    short := by unfold RuleText.Short; rw [hline]; simp [r]; omega }
  have hopt : ({} : Filter).parseOptions (bs%"domain=" ++ d) = { domainList := some d } := by
    rw [parseOptions_eq]
    · have hsplit : splitOn ch%',' (bs%"domain=" ++ d) = [bs%"domain=" ++ d] :=
        splitOn_of_not_mem (fun h => by
          rcases List.mem_append.1 h with h | h
          · exact absurd h (by decide)
          · exact (hp _ h).2.2.2.1 rfl)
      rw [hsplit, List.foldl_cons, List.foldl_nil, parseOption_plain (by simp), if_pos ⟨d, rfl⟩]
      rfl
    · intro c hc
      rcases List.mem_append.1 hc with h | h
      · clear hc; revert c; decide
      · have := hp c h; exact ⟨this.1, this.2.2.1, this.2.1⟩
  have hf : ∀ pr, ∃ f e, parseFilter E.bad (bs%"a$domain=" ++ d) 0 pr true = .ok (f, e) ∧ e = .none ∧
      f.domainList = some d ∧ classify E.bad f = .ok (.list .noFpDomain) := by
    intro pr
    obtain ⟨fp, h1, h2⟩ := C22_rule_text E.bad hw (t := 0) (.inl rfl) pr true
    have hkind : (r.filter pr).filterType = 0 := by
      simp [RuleText.filter, RuleText.kind, RuleText.HostOnly, Anchor.mask, r]
    have hfp : getFingerprint E.bad (r.filter pr) = .ok none := by
      unfold getFingerprint
      rw [hkind]
      rfl
    rw [hfp] at h1
    cases h1
    have hdl : (r.filter pr).domainList = some d := by
      show (({} : Filter).parseOptions (bs%"domain=" ++ d)).domainList = some d
      rw [hopt]
    have ho : (r.filter pr).filterOption = 0 := by
      show (({} : Filter).parseOptions (bs%"domain=" ++ d)).filterOption = 0
      rw [hopt]
    have hseg : domainSegments d = [d] := by
      rw [domainSegments_eq]; exact splitOn_of_not_mem (fun h => (hp _ h).2.2.2.2.1 rfl)
    have hhead : d.head? ≠ some ch%'~' := by
      cases d with
      | nil => simp
      | cons x d => simpa using (hp x (by simp)).2.2.2.2.2
    have hdo : (r.filter pr).isDomainOnlyFilter = true := by
      simp [Filter.isDomainOnlyFilter, Filter.getDomainCount, Filter.domains, Filter.antiDomains, hdl, hseg, hhead]
    have heff : r.effect true none = .none := by
      simp [RuleText.effect, RuleText.HostOnly, r]
    refine ⟨r.filter pr, r.effect true none, by rw [← hline]; exact h2, heff, hdl, ?_⟩
    unfold classify
    have hu : (r.filter pr).hasUnsupportedOptions = false := by
      unfold Filter.hasUnsupportedOptions
      rw [ho]; decide
    rw [hu, hkind, hfp, hdo]
    rfl
  have hnl : ∀ c ∈ bs%"a$domain=" ++ d, c ≠ 10 ∧ c ≠ 13 := by
    intro c hc
    rcases List.mem_append.1 hc with h | h
    · clear hc; revert c; decide
    · have := hp c h; exact ⟨this.2.1, this.2.2.1⟩
  rw [parse_lines, lines_single hnl]
  simp only [nul, List.map_cons, List.map_nil]
  -- the first pass is fine
  have h1 : ∃ cl, lineClass E.bad (bs%"a$domain=" ++ d, 0) = .ok cl := by
    obtain ⟨fp, e1, e2⟩ := C22_rule_text E.bad hw (t := 0) (.inl rfl) false false
    rw [hline] at e2
    unfold lineClass
    rw [e2, Res.bind_ok]
    obtain ⟨f, e, g1, g2, g3, g4⟩ := hf false
    obtain ⟨fp', e1', e2'⟩ := C22_rule_text E.bad hw (t := 0) (.inl rfl) false true
    rw [hline, g1] at e2'
    cases e2'
    exact ⟨_, g4⟩
  obtain ⟨cl, hcl⟩ := h1
  obtain ⟨f, e, g1, rfl, g3, g4⟩ := hf preserve
  rw [countPass_cons, hcl, Res.bind_ok]
  simp only [countPass, Res.pure_eq, Res.bind_ok, fill, fillLine, Build.enter]
  rw [g1, Res.bind_ok]
  simp only [Build.apply, Res.pure_eq, Res.bind_ok, g4, Build.store, ListId.domId, addFilterDomainsToHashSet, g3]
  have hseg : domainSegments d = [d] := by
    rw [domainSegments_eq]; exact splitOn_of_not_mem (fun h => (hp _ h).2.2.2.2.1 rfl)
  have hhead : d.head? ≠ some ch%'~' := by
    cases d with
    | nil => simp
    | cons x d => simpa using (hp x (by simp)).2.2.2.2.2
  rw [hseg]
  unfold addDomains
  rw [if_pos ⟨by omega, hhead⟩, if_pos (show d.length > domainBuffer by unfold domainBuffer; omega)]
  rfl

example : ∀ c ∈ List.replicate 1500 ch%'x', c ∉ [0, 10, 13, ch%',', ch%'|', ch%'~'] := by
  intro c hc
  rw [List.eq_of_mem_replicate hc]
  decide

end AdBlock
