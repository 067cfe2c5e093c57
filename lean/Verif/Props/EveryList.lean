import Verif.Lemmas.EveryLine
import Verif.Props.Exact
import Verif.Props.Loadable
/-
The theorems from text to rule and to verdict are about all lists that can be loaded: C22, C59.
-/
namespace AdBlock
open Spec

/-- a rule that is written in one of the ways considered is not peculiar -/
theorem rule_not_peculiar {r : RuleText} (hw : r.WellFormed) : ¬ Peculiar r.line := by
  intro h
  obtain ⟨fp, -, hp⟩ := C22_rule_text [] hw (t := 0) (.inl rfl) false false
  obtain ⟨-, -, h2⟩ := parse_peculiar (fun c hc => rule_line_clean hw c hc) h hp
  cases h2

theorem listOf_not_peculiar {ls : List Bytes} {rs : List RuleText} (h : ListOf ls rs) (hclean : ∀ line ∈ ls, ∀ c ∈ line, c ≠ 0 ∧ c ≠ 10 ∧ c ≠ 13)
    (hw : ∀ r ∈ rs, r.WellFormed) : ∀ line ∈ ls, ¬ Peculiar line := by
  have none : ∀ {line : Bytes}, (∀ c ∈ line, c ≠ 0 ∧ c ≠ 10 ∧ c ≠ 13) → (∃ f e, parseFilter [] line 0 false false = .ok (f, e) ∧
      (has f.filterType FTHostOnly = false ∨ ∀ s, ¬ Kind s f)) → ¬ Peculiar line := by
    rintro line hc ⟨f, e, hf, h⟩ hp
    obtain ⟨h1, ⟨s, h2⟩, -⟩ := parse_peculiar hc hp hf
    rcases h with h | h
    · rw [h] at h1; cases h1
    · exact h s h2
  induction h with
  | nil => simp
  | @idle l ls rs hi _ ih =>
    rw [List.forall_mem_cons] at hclean ⊢
    refine ⟨none hclean.1 ?_, ih hclean.2 hw⟩
    rcases hi with ⟨h1, h2⟩ | h
    · exact ⟨_, _, (C18_blank_line [] l 0 false false h1 h2).1, .inl rfl⟩
    · exact ⟨_, _, (C18_comment_line [] l 0 false false h).1, .inl rfl⟩
  | @page l ls rs hp _ ih =>
    rw [List.forall_mem_cons] at hclean ⊢
    refine ⟨none hclean.1 ?_, ih hclean.2 hw⟩
    obtain ⟨f, e, fp, hf, ht, -⟩ := parse_page hp [] false false
    exact ⟨f, _, hf, .inl (by rcases ht with h | h | h <;> rw [h] <;> decide)⟩
  | @regex l ls rs hp _ ih =>
    rw [List.forall_mem_cons] at hclean ⊢
    refine ⟨none hclean.1 ?_, ih hclean.2 hw⟩
    obtain ⟨f, body, hf, e1, -⟩ := parse_regex hp [] false false
    exact ⟨f, _, hf, .inl (by rw [e1]; decide)⟩
  | @other l ls rs hc hr _ ih =>
    rw [List.forall_mem_cons] at hclean ⊢
    refine ⟨none hclean.1 ?_, ih hclean.2 hw⟩
    obtain ⟨f, e, hf, -, -, h⟩ := parse_ruleless hc hr [] false false
    exact ⟨f, e, hf, h.elim .inr fun h => .inl h.1.1⟩
  | @rule ls rs r _ ih =>
    rw [List.forall_mem_cons] at hclean ⊢
    exact ⟨rule_not_peculiar (hw r (by simp)), ih hclean.2 fun r hr => hw r (by simp [hr])⟩

theorem lines_clean {input : Bytes} (h0 : 0 ∉ input) : ∀ line ∈ lines input, ∀ c ∈ line, c ≠ 0 ∧ c ≠ 10 ∧ c ≠ 13 := by
  intro line hl d hd
  have := mem_lines hl d hd
  exact ⟨fun e => h0 (e ▸ this.1), this.2.1, this.2.2⟩

/-- **C22**, for every line: a line that can be loaded, and is not a peculiar host rule, either holds no network rule
that could apply to anything (the rule read from it is of another kind or never matches), or it is the line of a rule
with constituents that can be told apart, and the rule read from it is the one with these constituents. -/
theorem C22_every_line (bad : List Bytes) {line : Bytes} (hclean : ∀ c ∈ line, c ≠ 0 ∧ c ≠ 10 ∧ c ≠ 13) (hl : Loadable bad line)
    (hp : ¬ Peculiar line) (preserve full : Bool) :
    ((Idle line ∨ Ruleless line) ∧ ∃ f e, parseFilter bad line 0 preserve full = .ok (f, e) ∧
      ((∀ s, ¬ Kind s f) ∨ ∀ url ctx dom bloom, f.matches url ctx dom bloom = .ok false)) ∨
    ∃ r : RuleText, r.WellFormed ∧ r.line = line ∧ ∃ fp, getFingerprint bad (r.filter preserve) = .ok fp ∧
      parseFilter bad line 0 preserve full = .ok (r.filter preserve, r.effect full fp) := by
  rcases every_line hclean hl.text hl.host hp with h | h | ⟨r, hw, rfl⟩
  · refine .inl ⟨.inl h, ?_⟩
    rcases h with ⟨h1, h2⟩ | h
    · exact ⟨_, _, (C18_blank_line bad line 0 preserve full h1 h2).1, .inl fun s => by cases s <;> decide⟩
    · exact ⟨_, _, (C18_comment_line bad line 0 preserve full h).1, .inl fun s => by cases s <;> decide⟩
  · obtain ⟨f, e, hf, -, -, h'⟩ := parse_ruleless hclean h bad preserve full
    exact .inl ⟨.inr h, f, e, hf, h'.imp id fun h => h.1.2⟩
  · exact .inr ⟨r, hw, rfl, C22_rule_text bad hw (.inl rfl) preserve full⟩

/-- **C59**, which lists it is about: those which can be loaded and have no peculiar host rules (of more than 2047
bytes). -/
theorem C59_every_list (E : Env) {input : Bytes} (h0 : 0 ∉ input) :
    (∃ rs, ListOf (lines input) rs ∧ SoundList E.bad rs) ↔ ∀ line ∈ lines input, Loadable E.bad line ∧ ¬ Peculiar line := by
  constructor
  · rintro ⟨rs, hl, hs⟩ line hline
    refine ⟨(C21_exact (Client.fresh E) input false h0).1 ?_ line hline, listOf_not_peculiar hl (lines_clean h0) hs.wellFormed line hline⟩
    exact (C21_list_exact _ hs.wellFormed hl false).2 hs.fits
  · intro h
    obtain ⟨rs, hl, hw⟩ := every_list (lines_clean h0) fun line hline => ⟨(h line hline).1.text, (h line hline).1.host, (h line hline).2⟩
    refine ⟨rs, hl, hw, ?_⟩
    exact (C21_list_exact (Client.fresh E) hw hl false).1 ((C21_exact (Client.fresh E) input false h0).2 fun line hline => (h line hline).1)

/-- **C59**, exactly, for every list that can be loaded and has no peculiar host rules: it is a list of rules, and when it
is loaded into a new client, and some tags are enabled, every web request that can be compared with these rules is
blocked exactly if a rule that counts applies to it, and no exception that counts does. -/
theorem C59_every_list_exact (E : Env) (input : Bytes) (h0 : 0 ∉ input) (h : ∀ line ∈ lines input, Loadable E.bad line ∧ ¬ Peculiar line)
    (preserve : Bool) :
    ∃ rs c, ListOf (lines input) rs ∧ SoundList E.bad rs ∧ (Client.fresh E).parse input preserve = .ok c ∧
      ∀ (tags : List Bytes) (q : Request), q.Web → Comparable rs q → (q.domain = none → NoEmptyDomain E.bad rs) → E.fp.rolls q.url →
        ∃ o, (c.addTags tags).query q.url q.context q.domain = .ok o ∧
          (o.block = true ↔ (∃ r ∈ rs, r.exception = false ∧ Counted E.bad rs q r ∧ r.AppliesTo tags q) ∧
            ¬ ∃ r ∈ rs, r.exception = true ∧ Counted E.bad rs q r ∧ r.AppliesTo tags q) := by
  obtain ⟨rs, hl, hs⟩ := (C59_every_list E h0).2 h
  obtain ⟨c, h1, h2⟩ := C59_text_exact E rs hs input h0 hl preserve
  exact ⟨rs, c, hl, hs, h1, h2⟩

/-- lines that are short enough are not peculiar -/
theorem short_not_peculiar {line : Bytes} (h : line.length ≤ 2047) : ¬ Peculiar line := by
  rintro ⟨a, kept, body, rest, hl, -, hlen, hr⟩
  rw [hl.line, List.length_append] at h
  have := List.length_pos_iff.2 hr
  omega

/-- The conditions hold of every list with lines of at most 2047 bytes, without a bar in the host of a `||` rule, and
with domains of at most 1024 bytes, whatever else its lines are. -/
theorem C59_safe_lists (E : Env) {input : Bytes} (h0 : 0 ∉ input) (h : ∀ line ∈ lines input, SafeLine line) :
    ∃ rs, ListOf (lines input) rs ∧ SoundList E.bad rs :=
  (C59_every_list E h0).2 fun line hl => ⟨(passes_iff E false (Client.fresh E).startBuild (lines_clean h0 line hl)).1
    (fillLine_safe E false _ (lines_clean h0 line hl) (h line hl)), short_not_peculiar (h line hl).short⟩

/-! #### examples -/

/-- lines of all kinds, most of which nobody would write -/
def exOddities : Bytes := bs%"  @@ ||ads.example.com^|$script\n@ /foo|bar\n$image\n@@!comment\nnews.com##.ad\n |\n||\n@@/x.*y/\n"

example : ∃ rs, ListOf (lines exOddities) rs ∧ SoundList toyEnv.bad rs := by
  have h : ∀ line ∈ lines exOddities, line.length ≤ 2047 ∧
      (∀ n ∈ List.range line.length, bs%"||" <+: line.drop n → ch%'|' ∉ line.take n →
        ch%'|' ∉ ((line.drop (n + 2)).takeWhile fun c => decide (¬ IsSep c)).dropLast) := by decide +kernel
  refine C59_safe_lists toyEnv (by decide +kernel) fun line hl => ⟨(h line hl).1, ?_, ?_⟩
  · rintro a p rfl ha
    have := (h _ hl).2 a.length (by simp)
    simp only [List.append_assoc, List.drop_left', List.take_left'] at this
    have := this ⟨p, rfl⟩ ha
    rwa [← List.drop_drop, List.drop_left'] at this
    rfl
  · have h : ∀ line ∈ lines exOddities, line.length ≤ 1024 := by decide +kernel
    rintro a d b rfl - - s hs
    obtain ⟨x, y, rfl, -⟩ := mem_splitOn_infix hs
    have h2 := h _ hl
    simp only [List.length_append] at h2
    omega

/-- A peculiar rule: its host has 2046 letters. -/
example (n : Nat) (hn : n = 2045) : Peculiar (bs%"||" ++ List.replicate (n + 1) ch%'x') := by
  have hx : ∀ k, (List.replicate k ch%'x').takeWhile (fun c => decide (¬ IsSep c)) = List.replicate k ch%'x' := by
    intro k
    induction k with
    | zero => rfl
    | succ k ih =>
      rw [List.replicate_succ, List.takeWhile_cons, ih]
      rfl
  have hh : barHost (List.replicate (n + 1) ch%'x') = List.replicate (n + 1) ch%'x' := by
    unfold barHost
    rw [hx, if_neg (by simp [List.getLast?_replicate])]
  refine ⟨[], [], List.replicate n ch%'x', [ch%'x'], ⟨?_, .blanks (by simp), ?_, fun x y e => ?_⟩, ⟨[], .inl ?_, .inl rfl⟩, ?_, by simp⟩
  · rw [List.replicate_succ']
    rfl
  · intro h
    exact absurd (List.eq_of_mem_replicate h) (by decide)
  · have : ch%'#' ∈ List.replicate n ch%'x' := by rw [e]; simp
    exact absurd (List.eq_of_mem_replicate this) (by decide)
  · rw [← List.replicate_succ', hh, List.append_nil]
  · simp only [List.nil_append, List.length_append, List.length_replicate, hn]
    rfl

/-- A rule with a bar in the host is a rule like others: it is entered for the host `exa|mple.com`, and can be compared
with requests except if the address ends with `example.com^`. -/
def exBarred : RuleText := { anchor := .host, text := bs%"example.com^", rightBar := true, odd := some ⟨[], bs%"exa|mple.com^"⟩ }

example : exBarred.WellFormed ∧ exBarred.line = bs%"||exa|mple.com^" ∧ exBarred.hostPart = bs%"exa|mple.com" ∧ exBarred.HostOnly ∧
    (∀ q : Request, q.type = none → (exBarred.ReadsPast q ↔ bs%"example.com^" <:+ q.url)) := by
  refine ⟨.odd (w := ⟨[], bs%"exa|mple.com^"⟩) rfl ?_, by decide +kernel, by decide +kernel, by decide +kernel, fun q ht => ⟨?_, fun h => ?_⟩⟩
  · exact {
      indent := by decide
      lead := by decide
      opening := ⟨[], .host (.blanks (by decide)) rfl, by decide⟩
      bar := by decide
      runs := ⟨by decide, fun x y e => absurd (show ch%'#' ∈ bs%"exa|mple.com^" from (show bs%"exa|mple.com^" = _ from e) ▸ by simp) (by decide)⟩
      clean := by decide +kernel
      opts := fun o h => by cases h
      short := by decide +kernel
      host := by decide +kernel }
  · rintro ⟨-, -, -, ⟨-, h, -⟩ | ⟨-, -, h⟩⟩
    · cases h
    · exact h
  · have he : exBarred.entries = [] := by decide +kernel
    refine ⟨by simp [he], ?_, fun d _ => ⟨?_, ?_, ?_⟩, .inr ⟨by decide +kernel, rfl, h⟩⟩
    · unfold RuleText.TypeAllowed
      rw [ht]
      exact ⟨by decide +kernel, fun _ => by decide +kernel, fun _ h => by
        rcases h with ⟨o, ho, -⟩ | ⟨o, ho, -⟩ <;> rw [he] at ho <;> cases ho⟩
    · rintro ⟨o, ho, -⟩
      rw [he] at ho
      cases ho
    · rintro ⟨o, ho, -⟩
      rw [he] at ho
      cases ho
    · intro dl h
      rw [show exBarred.value bs%"domain=" = none by decide +kernel] at h
      cases h

end AdBlock
