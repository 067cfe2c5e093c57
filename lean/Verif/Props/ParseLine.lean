import Verif.Lemmas.ParseFacts
import Verif.Props.ParseRule
/-!
Properties of the parsing of one line that is not (only) a well-formed network rule:
C18 (comments and blank lines), C42 (over-long lines), C43 (preserved text).
-/
namespace AdBlock
open Spec

/-! ### C22: domain list and tag of an option list -/

theorem foldl_domainList_none (l : List Bytes) (f : Filter)
    (h : ∀ o ∈ l, ¬ bs%"domain=" <+: o ∧ ¬ bs%"~domain=" <+: o) :
    (l.foldl Filter.parseOption f).domainList = f.domainList := by
  induction l generalizing f with
  | nil => rfl
  | cons o l ih =>
    rw [List.foldl_cons, ih _ (fun o ho => h o (by simp [ho]))]
    obtain ⟨h1, h2⟩ := h o (by simp)
    by_cases ha : o.head? = some ch%'~'
    · obtain ⟨o', rfl⟩ : ∃ o', o = ch%'~' :: o' := by cases o <;> simp_all
      rw [parseOption_anti, if_neg (by intro h; exact h2 (by simpa using h))]
      split <;> rfl
    · rw [parseOption_plain ha, if_neg h1]
      split <;> rfl

theorem foldl_tag_none (l : List Bytes) (f : Filter)
    (h : ∀ o ∈ l, ¬ bs%"tag=" <+: o ∧ ¬ bs%"~tag=" <+: o) :
    (l.foldl Filter.parseOption f).tag = f.tag := by
  induction l generalizing f with
  | nil => rfl
  | cons o l ih =>
    rw [List.foldl_cons, ih _ (fun o ho => h o (by simp [ho]))]
    obtain ⟨h1, h2⟩ := h o (by simp)
    by_cases ha : o.head? = some ch%'~'
    · obtain ⟨o', rfl⟩ : ∃ o', o = ch%'~' :: o' := by cases o <;> simp_all
      rw [parseOption_anti, if_neg (c := bs%"tag=" <+: o') (by intro h; exact h2 (by simpa using h))]
      split <;> rfl
    · rw [parseOption_plain ha, if_neg (c := bs%"tag=" <+: o) h1]
      split <;> rfl

/-- **C22** (options): the `domain=` option listed last gives the domain list, the `tag=`
option listed last gives the tag; without one there is none. (The bits are described by
C41.) -/
theorem C22_domain_and_tag (text : Bytes) (ht : ∀ c ∈ text, c ≠ 0 ∧ c ≠ 13 ∧ c ≠ 10) :
    ((∀ o ∈ splitOn ch%',' text, ¬ bs%"domain=" <+: o ∧ ¬ bs%"~domain=" <+: o) →
      (({} : Filter).parseOptions text).domainList = none) ∧
    (∀ a d b, splitOn ch%',' text = a ++ (bs%"domain=" ++ d) :: b →
      (∀ o ∈ b, ¬ bs%"domain=" <+: o ∧ ¬ bs%"~domain=" <+: o) →
      (({} : Filter).parseOptions text).domainList = some d) ∧
    ((∀ o ∈ splitOn ch%',' text, ¬ bs%"tag=" <+: o ∧ ¬ bs%"~tag=" <+: o) →
      (({} : Filter).parseOptions text).tag = []) ∧
    (∀ a d b, splitOn ch%',' text = a ++ (bs%"tag=" ++ d) :: b →
      (∀ o ∈ b, ¬ bs%"tag=" <+: o ∧ ¬ bs%"~tag=" <+: o) →
      (({} : Filter).parseOptions text).tag = d) := by
  rw [parseOptions_eq _ text ht]
  refine ⟨fun h => foldl_domainList_none _ _ h, ?_, fun h => foldl_tag_none _ _ h, ?_⟩
  · intro a d b he hb
    rw [he, List.foldl_append, List.foldl_cons, foldl_domainList_none _ _ hb,
      parseOption_plain (by simp), if_pos ⟨d, rfl⟩]
    rfl
  · intro a d b he hb
    have : ¬ (bs%"domain=" <+: bs%"tag=" ++ d) := by simp
    rw [he, List.foldl_append, List.foldl_cons, foldl_tag_none _ _ hb,
      parseOption_plain (by simp), if_neg this, if_pos ⟨d, rfl⟩]
    rfl

/-! ### C18: comments and blank lines -/

/-- **C18** for one line: a blank line gives an empty rule, which is not stored. -/
theorem C18_blank_line (bad : List Bytes) (line : Bytes) (t : Byte) (preserve full : Bool)
    (hl : line.length ≤ 2047) (hw : ∀ c ∈ line, c = 32 ∨ c = 9) :
    parseFilter bad line t preserve full = .ok ({ filterType := FTEmpty }, .none) ∧
    classify bad { filterType := FTEmpty } = .ok .drop := by
  constructor
  · unfold parseFilter
    have := loop_indent line t preserve line [] 0 {} rfl hw (by omega)
    rw [List.append_nil] at this
    rw [this]
    rfl
  · rfl

/-- **C18** for one line: a comment gives an empty rule, which is not stored. -/
theorem C18_comment_line (bad : List Bytes) (line : Bytes) (t : Byte) (preserve full : Bool)
    (h : IsComment line) :
    parseFilter bad line t preserve full = .ok ({ filterType := FTComment }, .none) ∧
    classify bad { filterType := FTComment } = .ok .drop := by
  refine ⟨?_, rfl⟩
  obtain ⟨ws, rest, hw, hl, h⟩ := h
  unfold parseFilter
  have key : ∀ c p, (c = ch%'!' ∨ c = ch%'[' ∨ c = ch%'#' ∧ ∃ q, p = 32 :: q) →
      parseLoop line t preserve (ws ++ c :: p) 0 {} = .ok (.ret { filterType := FTComment }) := by
    intro c p hc
    rw [loop_indent line t preserve ws _ 0 {} rfl hw (by omega)]
    have hp : ¬ (0 + ws.length ≥ kMaxLineLength - 1) := by simp [kMaxLineLength]; omega
    rcases hc with rfl | rfl | ⟨rfl, q, rfl⟩ <;>
      simp only [parseLoop, hp, ↓reduceIte, parseStep, parseChar, PLocals.bar] <;> rfl
  rcases h with rfl | rfl | rfl
  · rw [key _ _ (.inl rfl)]; rfl
  · rw [key _ _ (.inr (.inl rfl))]; rfl
  · rw [key _ _ (.inr (.inr ⟨rfl, rest, rfl⟩))]; rfl

example : IsComment bs%"  ! Title: x" ∧ IsComment bs%"[Adblock Plus 2.0]" ∧ IsComment bs%"# note" :=
  ⟨⟨bs%"  ", bs%" Title: x", by simp, by decide, .inl rfl⟩,
   ⟨[], bs%"Adblock Plus 2.0]", by simp, by decide, .inr (.inl rfl)⟩,
   ⟨[], bs%"note", by simp, by decide, .inr (.inr rfl)⟩⟩

/-! ### C42: over-long lines -/

theorem matches_no_text (f : Filter) (h : f.data = none) (url : Bytes) (ctx : Mask) (dom : Option Bytes)
    (bloom : Option (Bytes → Bool)) : f.matches url ctx dom bloom = .ok false := by
  unfold Filter.matches
  simp [h]

theorem matches_regex (f : Filter) (h : f.filterType = FTRegex) {pat : Bytes} (h0 : 0 ∉ pat) (hd : f.data = some (cstr pat))
    (url : Bytes) (ctx : Mask) (dom : Option Bytes)
    (bloom : Option (Bytes → Bool)) : f.matches url ctx dom bloom = .ok false ∨ f.dataLen ≠ none := by
  by_cases hl : f.dataLen = none
  · left
    unfold Filter.matches
    split
    · rfl
    · rw [hd]
      simp only [hl, cstr, strlen_cstr h0, Res.bind_ok, Filter.matchesPattern, h]
      rfl
  · exact .inr hl

/-- **C42**: a line of more than 2048 bytes without a `$` in its first 2047 bytes is
parsed without entering anything in the indexes, and the resulting rule matches no
request. -/
theorem C42_over_long_line (bad : List Bytes) (line : Bytes) {t : Byte} (ht : t = 0 ∨ t = 10 ∨ t = 13)
    (preserve full : Bool) (h0 : 0 ∉ line) (hl : line.length > 2048) (hd : ch%'$' ∉ line.take 2047) :
    ∃ f, parseFilter bad line t preserve full = .ok (f, .none) ∧
      ∀ url ctx dom bloom, f.matches url ctx dom bloom = .ok false := by
  obtain ⟨o, ho⟩ := parseLoop_ok line ht preserve line 0 {}
  have hpost := parseLoop_facts ht h0 ho
  have hret : ∃ f, o = .ret f := by
    refine parseLoop_inv (P := fun rest pos s => rest = line.drop pos ∧ pos ≤ 2048)
      (Q := fun o => ∃ f, o = .ret f) ?_ ?_ ?_ (by simp) ho
    · intro pos s ⟨hs, hp⟩
      have := List.drop_eq_nil_iff.1 hs.symm
      omega
    · intro c p pos s _ _; exact ⟨_, rfl⟩
    · intro c p pos s n ⟨hs, _⟩ hp hn
      have hc : c ∈ line.take 2047 := by
        have h1 : (line.take 2047)[pos]? = some c := by
          rw [List.getElem?_take_of_lt hp]
          have := congrArg (fun l => l[0]?) hs
          simpa using this.symm
        exact List.mem_of_getElem? h1
      have hp1 : p = line.drop (pos + 1) := by
        have := congrArg (List.drop 1) hs
        simpa [List.drop_drop] using this
      have hp2 : p.drop 1 = line.drop (pos + 2) := by
        rw [hp1, List.drop_drop]
      have one : ∀ s, (Next.one s).Good (fun o => ∃ f, o = LoopOut.ret f)
          (fun rest pos s => rest = line.drop pos ∧ pos ≤ 2048) p pos := fun s => ⟨hp1, by omega⟩
      have two : ∀ s, (Next.two s).Good (fun o => ∃ f, o = LoopOut.ret f)
          (fun rest pos s => rest = line.drop pos ∧ pos ≤ 2048) p pos := fun s => ⟨hp2, by omega⟩
      unfold parseStep at hn
      split at hn
      · cases hn; exact one _
      · have hcase := parseChar_cases line ht preserve c p (s.bar c)
        rw [hn] at hcase
        cases hcase with
        | opts h1 h2 => exact absurd (h1 ▸ hc) hd
        | comment => exact ⟨_, rfl⟩
        | regex => exact ⟨_, rfl⟩
        | html => exact two _
        | cosmetic => exact two _
        | bar1 => exact one _
        | bar2 => exact one _
        | barR => exact one _
        | at1 => exact one _
        | at2 => exact one _
        | white => exact one _
        | push => exact one _
        | data => exact one _
  obtain ⟨f, rfl⟩ := hret
  refine ⟨f, ?_, ?_⟩
  · unfold parseFilter; rw [ho]; rfl
  · intro url ctx dom bloom
    obtain ⟨_, hdl, _, _, h⟩ := hpost
    rcases h with ⟨h, _⟩ | ⟨h, pat, h1, h2⟩ | ⟨h, _⟩ | ⟨h, _⟩
    · exact matches_no_text f h _ _ _ _
    · rcases matches_regex f h h1 h2 url ctx dom bloom with h | h
      · exact h
      · exact absurd hdl h
    · exact matches_no_text f h _ _ _ _
    · exact matches_no_text f h _ _ _ _

/-- a line as in `C42_over_long_line` -/
example : 0 ∉ List.replicate 3000 ch%'a' ∧ (List.replicate 3000 ch%'a').length > 2048 ∧
    ch%'$' ∉ (List.replicate 3000 ch%'a').take 2047 := by
  refine ⟨fun h => absurd (List.eq_of_mem_replicate h) (by decide), ?_, fun h => ?_⟩
  · rw [List.length_replicate]; omega
  · exact absurd (List.eq_of_mem_replicate (List.mem_of_mem_take h)) (by decide)

/-- **C42**, the counterexample: an over-long line that starts with `||` and has more than a
host makes the parser dereference a null pointer when it looks for the fingerprint of the
rule (here for every host and every ordinary text behind it). -/
theorem C42_null_dereference (bad : List Bytes) (host rest : Bytes) {t : Byte} (ht : t = 0 ∨ t = 10 ∨ t = 13)
    (preserve full : Bool) (hh : host ≠ []) (hs : ∀ c ∈ host, ¬ IsSep c)
    (hplain : ∀ c ∈ host ++ rest, c ≠ 0 ∧ c ≠ ch%'|' ∧ c ≠ ch%'$' ∧ c ≠ ch%'#')
    (hlen : (host ++ rest).length > 2048) (hshort : host.length < 2000) :
    ∃ f, parseFilter bad (bs%"||" ++ host ++ ch%'/' :: rest) t preserve full = .ok (f, .none) ∧
      classify bad f = .ub .nullDeref := by
  have hanch : anchoredHost (host ++ ch%'/' :: rest) = host := by
    have hf := findFirstSeparatorChar_spec hs (rest := ch%'/' :: rest) (.inr ⟨_, _, rfl, by decide⟩)
    have hl : host.length > 0 := List.length_pos_iff.2 hh
    have hlast : (host ++ ch%'/' :: rest).getD (host.length - 1) 0 ≠ ch%'|' := by
      have hm : (host ++ ch%'/' :: rest).getD (host.length - 1) 0 ∈ host := by
        rw [List.getD_eq_getElem?_getD, List.getElem?_append_left (by omega),
          List.getElem?_eq_getElem (by omega), Option.getD_some]
        exact List.getElem_mem _
      exact (hplain _ (List.mem_append_left _ hm)).2.1
    unfold anchoredHost
    simp only [hf]
    rw [beq_false_of_ne hlast]
    simp
  have hany : (host ++ ch%'/' :: rest)[host.length]? = some ch%'/' := by simp
  let s1 : PLocals := { st := .data, f := { filterType := FTHostAnchored, host := some host }, ruleEnd := 2 }
  have hs1 : PLocals.anchored { st := .oneBar, f := {}, ruleEnd := 1 } (host ++ ch%'/' :: rest) = s1 := by
    simp only [PLocals.anchored, hanch, hany, s1, endsHostAt]
    simp [show endsHost ch%'/' = false by decide]
  let text := host ++ ch%'/' :: rest
  have htl : text.length > 2049 := by
    simp only [List.length_append] at hlen
    simp only [text, List.length_append, List.length_cons]; omega
  have hnp : ∀ c ∈ text, c ≠ ch%'|' ∧ c ≠ ch%'$' ∧ c ≠ ch%'#' := by
    intro c hc
    rcases List.mem_append.1 hc with h | h
    · exact (hplain c (by simp [h])).2
    · rcases List.mem_cons.1 h with rfl | h
      · decide
      · exact (hplain c (by simp [h])).2
  have hloop : parseLoop (bs%"||" ++ host ++ ch%'/' :: rest) t preserve (bs%"||" ++ host ++ ch%'/' :: rest) 0 {} =
      .ok (.ret s1.f) := by
    generalize hline : bs%"||" ++ host ++ ch%'/' :: rest = line
    have : line = ch%'|' :: ch%'|' :: text := by rw [← hline]; simp [text]
    conv => lhs; rw [show parseLoop line t preserve line 0 {} = parseLoop line t preserve (ch%'|' :: ch%'|' :: text) 0 {} by rw [← this]]
    rw [loop_bar line t preserve _ 0 _ rfl (by omega), loop_bar2 line t preserve _ _ _ rfl (by omega),
      secondBar_eq _ _ ht, hs1, Res.bind_ok]
    have hsplit : text = text.take 2045 ++ text.drop 2045 := (List.take_append_drop _ _).symm
    obtain ⟨d, q, hdq⟩ : ∃ d q, text.drop 2045 = d :: q := by
      cases h : text.drop 2045 with
      | nil => have := List.drop_eq_nil_iff.1 h; omega
      | cons d q => exact ⟨d, q, rfl⟩
    have hdm : d ∈ text := List.mem_of_mem_drop (by rw [hdq]; simp : d ∈ text.drop 2045)
    have hdm' : d ≠ ch%'@' ∨ d = ch%'@' := by by_cases h : d = ch%'@' <;> simp [h]
    have htk : (text.take 2045).length = 2045 := by simp; omega
    have hgo : ∀ (u r : Bytes) (pos : Nat) (s : PLocals), s.st = .data → (∀ c ∈ u, c ≠ ch%'|' ∧ c ≠ ch%'$' ∧ c ≠ ch%'#') →
        pos + u.length ≤ 2047 → ∃ s', s'.f = s.f ∧
          parseLoop line t preserve (u ++ r) pos s = parseLoop line t preserve r (pos + u.length) s' := by
      intro u
      induction u with
      | nil => intro r pos s hs hc hl; exact ⟨s, rfl, rfl⟩
      | cons c u ih =>
        intro r pos s hs hc hl
        simp only [List.length_cons] at hl
        obtain ⟨c1, c2, c3⟩ := hc c (by simp)
        obtain ⟨s', h1, h2⟩ := ih r (pos + 1) (s.push c) hs (fun c h => hc c (by simp [h])) (by omega)
        refine ⟨s', h1, ?_⟩
        rw [List.cons_append, loop_data_char line t preserve c _ pos s hs (by omega) c1 c2 (fun h => absurd h c3), h2]
        simp only [List.length_cons]
        congr 1; omega
    obtain ⟨s', h1, h2⟩ := hgo (text.take 2045) (text.drop 2045) 2 s1 rfl
      (fun c hc => hnp c (List.mem_of_mem_take hc)) (by omega)
    rw [hsplit, h2, hdq, htk, parseLoop_long _ _ _ _ _ _ _ (by omega), h1]
  refine ⟨s1.f, ?_, ?_⟩
  · unfold parseFilter; rw [hloop]; rfl
  · have hhl : host.length ≠ 0 := fun h => hh (List.length_eq_zero_iff.1 h)
    have hg : getFingerprint bad s1.f = .ub .nullDeref := by
      simp [getFingerprint, s1, hhl, show has FTHostAnchored FTRegex = false by decide,
        show has FTHostAnchored FTHostAnchored = true by decide]
    have hu : s1.f.hasUnsupportedOptions = false := by
      show ({} : Filter).hasUnsupportedOptions = false
      decide
    have hlt : s1.f.filterType &&& FTListTypesMask = 0 := by
      show FTHostAnchored &&& FTListTypesMask = 0
      decide
    have hho : has s1.f.filterType FTHostOnly = false := by
      show has FTHostAnchored FTHostOnly = false
      decide
    unfold classify
    rw [hg, hu, hlt, hho]
    rfl

/-- such lines exist -/
example : ∃ host rest : Bytes, host ≠ [] ∧ (∀ c ∈ host, ¬ IsSep c) ∧
    (∀ c ∈ host ++ rest, c ≠ 0 ∧ c ≠ ch%'|' ∧ c ≠ ch%'$' ∧ c ≠ ch%'#') ∧
    (host ++ rest).length > 2048 ∧ host.length < 2000 :=
  ⟨bs%"ads.com", List.replicate 3000 ch%'a', by decide, by decide, by
    intro c hc
    rcases List.mem_append.1 hc with h | h
    · clear hc; revert c; decide
    · rw [List.eq_of_mem_replicate h]; decide, by
    rw [List.length_append, List.length_replicate]; omega, by decide⟩

/-! ### C43: the preserved text -/

/-- white space -/
def Spec.White (c : Byte) : Prop := c = 9 ∨ c = 10 ∨ c = 13 ∨ c = 32

instance (c : Byte) : Decidable (White c) := inferInstanceAs (Decidable (_ ∨ _))

/-- the line without leading white space -/
def Spec.trimLeft (line : Bytes) : Bytes := line.dropWhile fun c => decide (White c)

/-- number of leading white space characters -/
def lead (line : Bytes) : Nat := (line.takeWhile fun c => decide (White c)).length

theorem drop_lead (line : Bytes) : line.drop (lead line) = trimLeft line := by
  have h := List.takeWhile_append_dropWhile (p := fun c => decide (White c)) (l := line)
  have h2 := congrArg (List.drop (lead line)) h
  rw [← h2]
  exact List.drop_left

theorem lead_eq {line : Bytes} {pos : Nat} {c : Byte} {p : Bytes} (h1 : ∀ d ∈ line.take pos, White d)
    (h2 : line.drop pos = c :: p) (h3 : ¬ White c) : lead line = pos := by
  have hp : pos ≤ line.length := by
    rcases Nat.lt_or_ge line.length pos with h | h
    · rw [List.drop_eq_nil_of_le (by omega)] at h2; cases h2
    · exact h
  unfold lead
  rw [← List.take_append_drop pos line, List.takeWhile_append_of_pos (by intro a ha; simpa using h1 a ha), h2]
  simp [h3]
  omega

/-- the state of the parser in which a cosmetic rule is read -/
def PLocals.cosmetic (s : PLocals) : Prop := s.st = .dataOnly ∧ s.f.filterType ≠ FTHTMLFiltering

structure DefInv (line : Bytes) (rest : Bytes) (pos : Nat) (s : PLocals) : Prop where
  rest : rest = line.drop pos
  le : pos ≤ line.length
  start : s.st = .start → s.ruleStart = pos ∧ ∀ c ∈ line.take pos, White c
  past : s.st ≠ .start → s.ruleStart = lead line
  fin : (s.cosmetic → s.ruleEnd + 2 = pos) ∧ (¬ s.cosmetic → s.ruleEnd = pos)

def DefPost (line : Bytes) : LoopOut → Prop
  | .fin s => s.st ≠ .start → s.ruleStart = lead line ∧
      (s.cosmetic → s.ruleEnd + 2 = line.length) ∧ (¬ s.cosmetic → s.ruleEnd = line.length)
  | .ret _ => True

theorem parseLoop_definition {line : Bytes} {t : Byte} (ht : Term t) {pr : Bool} {o : LoopOut}
    (hclean : ∀ c ∈ line, c ≠ 0 ∧ c ≠ 10 ∧ c ≠ 13)
    (h : parseLoop line t pr line 0 {} = .ok o) : DefPost line o := by
  refine parseLoop_inv (P := DefInv line) (Q := DefPost line) ?_ ?_ ?_ ?_ h
  · intro pos s hs hst
    have hpos : pos = line.length := by
      have := List.drop_eq_nil_iff.1 hs.rest.symm
      have := hs.le
      omega
    subst hpos
    exact ⟨hs.past hst, hs.fin⟩
  · intro c p pos s _ _; trivial
  · intro c p pos s n hs _ hn
    have hp1 : p = line.drop (pos + 1) := by
      have := congrArg (List.drop 1) hs.rest
      simpa [List.drop_drop] using this
    have hle : pos + 1 ≤ line.length := by
      have := congrArg List.length hs.rest
      simp at this; omega
    have hmem : c ∈ line := List.mem_of_mem_drop (by rw [← hs.rest]; simp : c ∈ line.drop pos)
    have htake : ∀ d ∈ line.take (pos + 1), d ∈ line.take pos ∨ d = c := by
      intro d hd
      have hg : line[pos]? = some c := by
        have := congrArg (fun l => l[0]?) hs.rest
        simpa using this.symm
      rw [List.take_add_one, hg] at hd
      rcases List.mem_append.1 hd with h | h
      · exact .inl h
      · right; simpa using h
    have hlead : s.st ≠ .start ∨ ¬ White c → s.ruleStart = lead line := by
      by_cases hst : s.st = .start
      · intro hw
        rw [lead_eq (hs.start hst).2 hs.rest.symm (by exact hw.elim (absurd hst) id)]
        exact (hs.start hst).1
      · exact fun _ => hs.past hst
    unfold parseStep at hn
    split at hn
    · rename_i hdo
      cases hn
      have hns : s.st ≠ .start := by rw [hdo]; simp
      exact { rest := hp1, le := hle, start := fun h => absurd h hns, past := fun _ => hs.past hns
              fin := ⟨fun h => by have := hs.fin.1 h; simp only [PLocals.push]; omega,
                      fun h => by have := hs.fin.2 h; simp only [PLocals.push]; omega⟩ }
    · rename_i hdo
      have hbar : (s.bar c).ruleStart = s.ruleStart ∧ (s.bar c).ruleEnd = s.ruleEnd ∧
          ((s.bar c).st = s.st ∨ (s.bar c).st = .data ∧ s.st ≠ .start) := by
        unfold PLocals.bar; split
        · rename_i h; exact ⟨rfl, rfl, .inr ⟨rfl, by rw [h.1]; simp⟩⟩
        · exact ⟨rfl, rfl, .inl rfl⟩
      have hnc : ¬ s.cosmetic := fun h => hdo h.1
      have hend : s.ruleEnd = pos := hs.fin.2 hnc
      have hcase := parseChar_cases line ht pr c p (s.bar c)
      rw [hn] at hcase
      have hst' : (s.bar c).st = .start → s.st = .start := by
        intro h
        rcases hbar.2.2 with h' | ⟨h', _⟩
        · rw [← h', h]
        · rw [h] at h'; cases h'
      have hst'' : (s.bar c).st ≠ .start → s.st ≠ .start := by
        intro h h'
        rcases hbar.2.2 with h2 | ⟨_, h2⟩
        · exact h (h2.trans h')
        · exact h2 h'
      have hb1 := hbar.1
      have hb2 := hbar.2.1
      have hnd : (s.bar c).st ≠ .dataOnly := by
        rcases hbar.2.2 with h | ⟨h, _⟩
        · rw [h]; exact hdo
        · rw [h]; simp
      generalize s.bar c = u at hcase hst' hst'' hb1 hb2 hnd
      have htd : u.takeDomains.ruleStart = u.ruleStart ∧ u.takeDomains.ruleEnd = u.ruleEnd := by
        unfold PLocals.takeDomains; split <;> exact ⟨rfl, rfl⟩
      -- a step that leaves white space behind and consumes one character
      have one : ∀ v : PLocals, v.st ≠ .start → v.st ≠ .dataOnly → v.ruleStart = u.ruleStart →
          v.ruleEnd = u.ruleEnd + 1 → (s.st ≠ .start ∨ ¬ White c) → DefInv line p (pos + 1) v := by
        intro v h1 h2 h3 h4 h5
        exact { rest := hp1, le := hle, start := fun h => absurd h h1
                past := fun _ => by rw [h3, hb1]; exact hlead h5
                fin := ⟨fun h => absurd h.1 h2, fun _ => by rw [h4, hb2, hend]⟩ }
      cases hcase with
      | bar1 h1 h2 => exact one _ (by simp) (by simp) rfl rfl (.inr (by rw [h1]; decide))
      | bar2 h1 h2 => exact one _ (by simp [PLocals.anchored]) (by simp [PLocals.anchored]) rfl rfl (.inr (by rw [h1]; decide))
      | barR h1 h2 => exact one _ (by simp) (by simp) rfl rfl (.inr (by rw [h1]; decide))
      | at1 h1 h2 => exact one _ (by simp) (by simp) rfl rfl (.inr (by rw [h1]; decide))
      | at2 h1 h2 => exact one _ (by simp) (by simp) rfl rfl (.inr (by rw [h1]; decide))
      | comment h1 h2 => trivial
      | regex => trivial
      | white h1 h2 =>
        have hss := hs.start (hst' h2)
        exact { rest := hp1, le := hle
                start := fun _ => ⟨by show u.ruleStart + 1 = pos + 1; rw [hb1, hss.1], by
                  intro d hd
                  rcases htake d hd with h | h
                  · exact hss.2 d h
                  · subst h
                    unfold White
                    rcases h1 with h | h | h | h <;> simp [h]⟩
                past := fun h => absurd h2 h
                fin := ⟨fun h => absurd h.1 hnd, fun _ => by show u.ruleEnd + 1 = pos + 1; rw [hb2, hend]⟩ }
      | push h1 h2 h3 => exact one _ h3 hnd rfl rfl (.inl (hst'' h3))
      | data h1 h2 h3 =>
        exact one _ (by simp [PLocals.push]) (by simp [PLocals.push]) rfl rfl (.inr (by
          intro h; exact h3 (by unfold IsWs; rcases h with h | h | h | h <;> simp [h])))
      | html h1 h2 =>
        have h2' : 1 ≤ p.length := by cases p <;> simp at h2 ⊢
        have hlen : p.length = line.length - (pos + 1) := by rw [hp1]; simp
        exact { rest := by rw [hp1, List.drop_drop], le := by omega, start := by simp
                past := fun _ => by
                  show u.takeDomains.ruleStart = _
                  rw [htd.1, hb1]; exact hlead (.inr (by rw [h1]; decide))
                fin := ⟨fun h => absurd rfl h.2, fun _ => by
                  show u.takeDomains.ruleEnd + 2 = _
                  rw [htd.2, hb2, hend]⟩ }
      | opts h1 h2 =>
        intro hst
        refine ⟨by show u.ruleStart = _; rw [hb1]; exact hlead (.inr (by rw [h1]; decide)), fun h => absurd h.1 hnd, fun _ => ?_⟩
        show u.ruleEnd + _ = _
        have htw : ((line.drop u.ruleEnd).takeWhile fun c => c != 0 && !isEndOfLine c) = line.drop u.ruleEnd := by
          rw [← List.append_nil (line.drop u.ruleEnd), List.takeWhile_append_of_pos]
          · simp
          · intro d hd
            have := hclean d (List.mem_of_mem_drop hd)
            simp [isEndOfLine, this]
        rw [htw, List.length_drop, hb2, hend]
        omega
      | cosmetic m h1 h2 h3 =>
        have h2' : 1 ≤ p.length := by cases p <;> simp at h2 ⊢
        have hlen : p.length = line.length - (pos + 1) := by rw [hp1]; simp
        exact { rest := by rw [hp1, List.drop_drop], le := by omega, start := by simp
                past := fun _ => by
                  show u.takeDomains.ruleStart = _
                  rw [htd.1, hb1]; exact hlead (.inr (by rw [h1]; decide))
                fin := ⟨fun _ => by
                  show u.takeDomains.ruleEnd + 2 = _
                  rw [htd.2, hb2, hend], fun h => absurd ⟨rfl, by show m ≠ _; rw [h3]; split <;> decide⟩ h⟩ }
  · exact { rest := rfl, le := by simp, start := fun _ => ⟨rfl, by simp⟩, past := by simp
            fin := ⟨fun h => absurd h.1 (by simp), fun _ => rfl⟩ }

/-- **C43**: with `preserveRules`, the text stored with a rule whose line was read to its
end is the line without leading white space; for element hiding rules and their
exceptions the last two characters are missing (the violation). -/
theorem C43_preserved_text (bad : List Bytes) (line : Bytes) {t : Byte} (ht : t = 0 ∨ t = 10 ∨ t = 13) (full : Bool)
    (hclean : ∀ c ∈ line, c ≠ 0 ∧ c ≠ 10 ∧ c ≠ 13) {f : Filter} {e : Effect}
    (h : parseFilter bad line t true full = .ok (f, e)) (hd : f.data ≠ none) (hr : f.filterType ≠ FTRegex) :
    (f.filterType ≠ FTElementHiding → f.filterType ≠ FTElementHidingException →
      f.ruleDefinition = some (trimLeft line)) ∧
    (f.filterType = FTElementHiding ∨ f.filterType = FTElementHidingException →
      f.ruleDefinition = some ((trimLeft line).take ((trimLeft line).length - 2))) := by
  unfold parseFilter at h
  rw [Res.bind_eq_ok] at h
  obtain ⟨o, ho, h⟩ := h
  have hdef := parseLoop_definition ht hclean ho
  have hpost := parseLoop_facts ht (fun h => (hclean 0 h).1 rfl) ho
  cases o with
  | ret g =>
    cases h
    obtain ⟨_, _, _, _, h⟩ := hpost
    rcases h with ⟨h, _⟩ | ⟨h, _⟩ | ⟨h, _⟩ | ⟨h, _⟩
    · exact absurd h hd
    · exact absurd h hr
    · exact absurd h hd
    · exact absurd h hd
  | fin s =>
    have h : finishFilter bad line true full s = .ok (f, e) := h
    by_cases hs : s.st = .start
    · simp only [finishFilter, hs, ↓reduceIte, Res.pure_eq, Res.ok.injEq, Prod.mk.injEq] at h
      obtain ⟨rfl, rfl⟩ := h
      exact absurd hpost.data hd
    · rw [finishFilter_eq _ _ _ _ hs] at h
      obtain ⟨rfl, _, _⟩ := finishWith_effect (result_facts hpost hs line true).2 h
      obtain ⟨h1, h2, h3⟩ := hdef hs
      have hlen : (trimLeft line).length = line.length - lead line := by rw [← drop_lead]; simp
      have hft : (s.result line true).filterType = s.f.filterType := rfl
      rw [hft]
      constructor
      · intro n1 n2
        have hnc : ¬ s.cosmetic := by
          rintro ⟨c1, c2⟩
          rcases hpost.only c1 with h | h | h
          · exact n1 h
          · exact n2 h
          · exact c2 h
        simp only [PLocals.result, ↓reduceIte, h1, h3 hnc, drop_lead, Option.some.injEq]
        rw [List.take_of_length_le (by omega)]
      · intro hc
        have hcos : s.cosmetic := by
          have hdo : s.st = .dataOnly := by
            by_cases hdo : s.st = .dataOnly
            · exact hdo
            · have := hpost.net hdo
              rcases hc with hc | hc <;> rw [hc] at this <;> exact absurd this (by decide)
          exact ⟨hdo, by rcases hc with hc | hc <;> rw [hc] <;> decide⟩
        have := h2 hcos
        simp only [PLocals.result, ↓reduceIte, h1, drop_lead, Option.some.injEq]
        congr 1
        omega

example : (·.1.ruleDefinition) <$> parseFilter [] bs%"  ||ads.com/x$script" 10 true true =
      .ok (some bs%"||ads.com/x$script") ∧
    (·.1.ruleDefinition) <$> parseFilter [] bs%"ads.com##.banner" 10 true true =
      .ok (some bs%"ads.com##.bann") := by decide +kernel

/-- a rule with a regular expression -/
def regexRule (text : Bytes) (preserve : Bool) : Filter where
  filterType := FTRegex
  data := some (cstr text)
  ruleDefinition := if preserve then some text else none

/-- **C43** and C22 for regular expressions: of a line with a regular expression between slashes, the text without
these is kept, both as the text of the rule and as the text stored with it; but with white space before it, only the
first character of this and the last slash are left out (the violation). -/
theorem C43_regex (bad : List Bytes) (ws body : Bytes) (t : Byte) (preserve full : Bool) (hw : ∀ c ∈ ws, c = 32 ∨ c = 9)
    (hl : ws.length < 2047) :
    parseFilter bad (ws ++ ch%'/' :: body ++ bs%"/") t preserve full =
      .ok (regexRule ((ws ++ ch%'/' :: body).drop 1) preserve, .none) := by
  generalize hline : ws ++ ch%'/' :: body ++ bs%"/" = line
  have hlen : line.length = (ws ++ ch%'/' :: body).length + 1 := by rw [← hline]; simp; omega
  have hpos : 0 < (ws ++ ch%'/' :: body).length := by simp; omega
  have htext : (line.drop (0 + 1)).take (line.length - 0 - 2) = (ws ++ ch%'/' :: body).drop 1 := by
    rw [hlen, ← hline, List.drop_append_of_le_length (by omega)]
    exact List.take_left' (by simp)
  have hlast : line.getD (line.length - 1) 0 = ch%'/' := by
    rw [hlen, ← hline]
    simp [List.getD]
  have hreg : regexFilter line preserve { ({} : PLocals) with ruleStart := 0 + ws.length, ruleEnd := 0 + ws.length } =
      some (regexRule ((ws ++ ch%'/' :: body).drop 1) preserve) := by
    unfold regexFilter
    rw [if_pos (by simp only [hlast]; simp; omega)]
    dsimp only [List.length_nil]
    rw [htext]
    rfl
  have hstep : parseStep line t preserve ch%'/' (body ++ bs%"/")
      { ({} : PLocals) with ruleStart := 0 + ws.length, ruleEnd := 0 + ws.length } =
      .ok (.stop (.ret (regexRule ((ws ++ ch%'/' :: body).drop 1) preserve))) := by
    have hbar : ({ ({} : PLocals) with ruleStart := 0 + ws.length, ruleEnd := 0 + ws.length } : PLocals).bar ch%'/' =
        { ({} : PLocals) with ruleStart := 0 + ws.length, ruleEnd := 0 + ws.length } := rfl
    unfold parseStep parseChar
    rw [if_neg (by simp), hbar, if_neg (by decide), if_neg (by decide), if_neg (by decide), if_neg (by decide), if_pos rfl,
      if_pos (show FPState.fresh .start = true from rfl), hreg]
  unfold parseFilter
  have h1 : parseLoop line t preserve line 0 {} = parseLoop line t preserve (ws ++ (ch%'/' :: (body ++ bs%"/"))) 0 {} := by
    congr 1
    rw [← hline]
    simp
  rw [h1, loop_indent line t preserve ws _ 0 {} rfl hw (by omega), parseLoop_cons _ _ _ _ _ _ _ (by omega), hstep]
  rfl

/-- a regular expression with a blank before it: its text begins with a slash -/
example : parseFilter [] bs%" /banner[0-9]+/" 0 true true = .ok (regexRule bs%"/banner[0-9]+" true, .none) := by decide +kernel

end AdBlock
