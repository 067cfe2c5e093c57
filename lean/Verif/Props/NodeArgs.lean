import Verif.Lemmas.Utf8
import Verif.Props.NodeText
import Verif.Props.JsLib
import Verif.Props.Fingerprint
/-
C74: strings of JavaScript.
-/
namespace AdBlock
open Spec

/-! ### the specification on characters and the one on bytes -/

theorem rule_line (r : TextRule) : r.rule.line = utf8 r.line ∧ r.rule.body = utf8 r.line := by
  have h : r.rule.body = utf8 r.line := by
    have e1 : utf8 ['@', '@'] = bs%"@@" := by decide
    have e2 : utf8 ['|'] = bs%"|" := by decide
    have e3 : utf8 ['|', '|'] = bs%"||" := by decide
    have e4 : String.utf8EncodeChar '$' = bs%"$" := by decide
    obtain ⟨ex, an, text, bar, opts⟩ := r
    unfold RuleText.body RuleText.marks RuleText.trailer TextRule.line TextRule.rule
    simp only [utf8_append]
    cases ex <;> cases an <;> cases bar <;> cases opts <;>
      simp [RuleText.optionText, Anchor.mark, e1, e2, e3, e4]
  exact ⟨by rw [← h]; rfl, h⟩

theorem hostPart_utf8 (r : TextRule) : r.rule.hostPart = utf8 r.hostPart := by
  unfold RuleText.hostPart TextRule.hostPart
  show (utf8 r.text).takeWhile _ = _
  generalize r.text = t
  induction t with
  | nil => rfl
  | cons c t ih =>
    by_cases hc : SepChar c
    · obtain ⟨b, e, hb⟩ := sepChar_encode hc
      simp [e, hb, hc]
    · have hn : ∀ x ∈ String.utf8EncodeChar c, ¬ IsSep x := fun x hx hs => hc (sep_encode hx hs).1
      rw [utf8_cons, List.takeWhile_append_of_pos (by simpa using hn), ih]
      simp [hc]

theorem url_utf8 (q : TextRequest) : q.request.url = utf8 q.url := by
  have e : utf8 [':', '/', '/'] = bs%"://" := by decide
  unfold Request.url TextRequest.url TextRequest.request
  simp only [utf8_append, e]

theorem sameSite_utf8 (a b : Chars) : SameSite (utf8 a) (utf8 b) ↔ SameSiteText a b := by
  have hdot : (ch%'.' :: utf8 a) = utf8 ('.' :: a) := by
    rw [utf8_cons, show String.utf8EncodeChar '.' = bs%"." from by decide]; rfl
  unfold SameSite SameSiteText
  refine or_congr ⟨utf8_injective, by rintro rfl; rfl⟩ ?_
  rw [hdot, ← utf8_suffix]
  constructor
  · rintro ⟨s, h⟩; exact ⟨s, h.symm⟩
  · rintro ⟨s, h⟩; exact ⟨s, h.symm⟩

theorem fits_utf8 (r : TextRule) (q : TextRequest) : r.rule.AddressFits q.request ↔ r.AddressFits q := by
  have ht : r.rule.text = utf8 r.text := rfl
  have hh : q.request.host = utf8 q.host := rfl
  have ha : r.rule.anchor = r.anchor := rfl
  have hb : r.rule.rightBar = r.rightBar := rfl
  unfold RuleText.AddressFits TextRule.AddressFits
  rw [url_utf8, hostPart_utf8, ht, hh, ha, hb]
  cases r.anchor <;> cases r.rightBar <;>
    simp only [placed_utf8, utf8_suffix, utf8_prefix, sameSite_utf8]
  exact ⟨utf8_injective, fun h => by rw [h]⟩

theorem applies_utf8 (r : TextRule) (tags : List Chars) (q : TextRequest) :
    r.rule.AppliesTo (tags.map utf8) q.request ↔ r.AppliesTo tags q := by
  unfold RuleText.AppliesTo TextRule.AppliesTo
  rw [fits_utf8]

theorem someRule_utf8 (rs : List TextRule) (tags : List Chars) (s : Bool) (q : TextRequest) :
    (∃ r ∈ rs.map TextRule.rule, r.exception = s ∧ r.AppliesTo (tags.map utf8) q.request) ↔ SomeTextRule rs tags s q := by
  constructor
  · rintro ⟨_, hr, he, ha⟩
    obtain ⟨r, hr', rfl⟩ := List.mem_map.1 hr
    exact ⟨r, hr', he, (applies_utf8 r tags q).1 ha⟩
  · rintro ⟨r, hr, he, ha⟩
    exact ⟨r.rule, List.mem_map_of_mem hr, he, (applies_utf8 r tags q).2 ha⟩

/-! ### arguments -/

theorem encode_nul : String.utf8EncodeChar '\x00' = [0] := by decide

theorem utf8_zero {s : Chars} : 0 ∈ utf8 s ↔ '\x00' ∈ s := utf8_mem (a := '\x00') (by decide) s

/-- **C74**: a string arrives in UTF-8, up to its first NUL. -/
theorem C74_argument (s : Chars) : (JsValue.string s).cstring = some (utf8 (s.takeWhile (· ≠ '\x00'))) := by
  unfold JsValue.cstring JsValue.toText
  simp only [Option.map_some, Option.some.injEq]
  induction s with
  | nil => rfl
  | cons c s ih =>
    by_cases hc : c = '\x00'
    · subst hc
      rw [utf8_cons, encode_nul]
      simp
    · have hn : ∀ x ∈ String.utf8EncodeChar c, x ≠ 0 := by
        rintro x hx rfl
        exact hc ((encode_mem (a := '\x00') (by decide)).1 hx)
      rw [utf8_cons, List.takeWhile_append_of_pos (by simpa using hn), ih]
      simp [hc]

theorem cstring_string {s : Chars} (h : '\x00' ∉ s) : (JsValue.string s).cstring = some (utf8 s) := by
  rw [C74_argument]
  congr 2
  have : ∀ c ∈ s, (decide (c ≠ '\x00')) = true := by
    intro c hc
    simp only [decide_eq_true_eq]
    rintro rfl
    exact h hc
  simpa using List.takeWhile_append_of_pos (l₂ := []) this

/-- **C74**: what arrives can be read back, and nothing else can: two strings never arrive as the same bytes, and
the strings made from the bytes of a string are this string. -/
theorem C74_round_trip (s : Chars) (b : Bytes) : fromUtf8 b = some s ↔ b = utf8 s := by
  constructor
  · exact utf8_of_fromUtf8
  · rintro rfl
    exact fromUtf8_utf8 s

/-- **C74**: one string is part of another, or its beginning, or its end, exactly if this is so for the bytes. -/
theorem C74_parts (p t : Chars) :
    (utf8 p <:+: utf8 t ↔ p <:+: t) ∧ (utf8 p <+: utf8 t ↔ p <+: t) ∧ (utf8 p <:+ utf8 t ↔ p <:+ t) :=
  ⟨utf8_infix, utf8_prefix, utf8_suffix⟩

/-- **C74**: the lines of a list are the same. -/
theorem C74_lines (s : Chars) : Spec.lines (utf8 s) = (textLines s).map utf8 := utf8_lines s

/-- **C74**: a pattern matches the same addresses, character by character and byte by byte. -/
theorem C74_patterns (p u : Chars) : Placed (utf8 p) (utf8 u) ↔ TextPlaced p u := placed_utf8 p u

/-- enabling tags, one after the other -/
def Client.jsAddTags {E : Env} (c : Client E) (tags : List Chars) : Res (Client E) :=
  tags.foldlM (fun c t => c.jsAddTag (.string t)) c

theorem jsAddTags_eq {E : Env} (c : Client E) {tags : List Chars} (h : ∀ t ∈ tags, '\x00' ∉ t) :
    c.jsAddTags tags = .ok (c.addTags (tags.map utf8)) := by
  unfold Client.jsAddTags Client.addTags
  induction tags generalizing c with
  | nil => rfl
  | cons t tags ih =>
    have : c.jsAddTag (.string t) = .ok (c.addTag (utf8 t)) := by
      unfold Client.jsAddTag
      rw [cstring_string (h t (by simp))]
      rfl
    rw [List.foldlM_cons, this, Res.bind_ok, ih _ (fun t ht => h t (by simp [ht]))]
    rfl

/-- **C74**, with the restrictions of C59 and for strings without NUL: a program in JavaScript loads a list into a
new client, enables tags and asks about requests.  The verdicts are those of the rules read as strings: what
stands in a rule and in an address is compared character by character. -/
theorem C74_verdict_partial (E : Env) (rs : List TextRule) (hs : SoundList E.bad (rs.map TextRule.rule)) (list : Chars)
    (h0 : '\x00' ∉ list) (hl : ListOf ((textLines list).map utf8) (rs.map TextRule.rule)) (keep : Bool) :
    ∃ c, (Client.fresh E).jsParse (.string list) keep = .ok c ∧
      ∀ (tags : List Chars), (∀ t ∈ tags, '\x00' ∉ t) → ∃ c', c.jsAddTags tags = .ok c' ∧
        ∀ q : TextRequest, q.request.Web → Clear E.bad (rs.map TextRule.rule) q.request → '\x00' ∉ q.url → '\x00' ∉ q.domain → E.fp.rolls (utf8 q.url) →
          ∃ b c'', c'.jsMatches (.string q.url) q.request.context (.string q.domain) = .ok (b, c'') ∧
            (b = true ↔ SomeTextRule rs tags false q ∧ ¬ SomeTextRule rs tags true q) := by
  obtain ⟨c, h1, h2⟩ := C59_text_to_verdict_partial E (rs.map TextRule.rule) hs (utf8 list) (fun h => h0 (utf8_zero.1 h))
    (by rw [utf8_lines]; exact hl) keep
  refine ⟨c, ?_, fun tags ht => ⟨_, jsAddTags_eq c ht, fun q hq hclear hu hd hroll => ?_⟩⟩
  · unfold Client.jsParse
    rw [cstring_string h0]
    exact h1
  · obtain ⟨o, ho, hv⟩ := h2 (tags.map utf8) q.request hq hclear (by rw [url_utf8]; exact hroll)
    rw [someRule_utf8, someRule_utf8] at hv
    refine ⟨o.block, { c.addTags (tags.map utf8) with stats := o.stats, badFps := o.badFps }, ?_, hv⟩
    unfold Client.jsMatches
    rw [cstring_string hu, cstring_string hd]
    dsimp only
    unfold Client.matches
    rw [← url_utf8, show some (utf8 q.domain) = q.request.domain from rfl, ho]
    rfl

/-- the book in UTF-8 -/
def book8 (b : TextBook) : Book := { rules := b.rules.map TextRule.rule, tags := b.tags.map utf8 }

theorem book8_some (b : TextBook) (s : Bool) (q : TextRequest) :
    (book8 b).SomeRule s q.request ↔ SomeTextRule b.rules b.tags s q := someRule_utf8 b.rules b.tags s q

theorem utf8_tags_filter (tags : List Chars) (t : Chars) :
    (tags.map utf8).filter (· ≠ utf8 t) = (tags.filter (· ≠ t)).map utf8 := by
  induction tags with
  | nil => rfl
  | cons a tags ih =>
    by_cases h : a = t
    · subst h; simpa using ih
    · have : utf8 a ≠ utf8 t := fun e => h (utf8_injective e)
      simpa [h, this] using ih

theorem textStep {E : Env} {c : Client E} {b : TextBook} {fs : List Filter} (h : InStep c (book8 b) fs) {call : TextCall}
    (hc : b.Allows E call) : ∃ a c' fs', c.jsCall call.js = .ok (a, c') ∧ b.Expects call a ∧ InStep c' (book8 (b.after call)) fs' := by
  cases call with
  | load list keep rules =>
    obtain ⟨h0, hl, hs⟩ := hc
    obtain ⟨a, c', fs', h1, h2, h3⟩ := inStep_step h (call := .load (utf8 list) keep (rules.map TextRule.rule))
      ⟨fun h => h0 (utf8_zero.1 h), by rw [utf8_lines]; exact hl, by simpa [book8] using hs⟩
    have h1 : c.parse (utf8 list) keep = .ok c' := by
      simp only [Call.op, step] at h1
      obtain ⟨d, hd, e⟩ := Res.bind_eq_ok.1 h1
      cases e
      exact hd
    refine ⟨none, c', fs', ?_, rfl, ?_⟩
    · simp only [TextCall.js, Client.jsCall, Client.jsParse, cstring_string h0, h1]
      rfl
    · simpa [book8, Book.after, TextBook.after] using h3
  | clear =>
    obtain ⟨a, c', fs', h1, h2, h3⟩ := inStep_step h (call := .clear) trivial
    simp only [Call.op, step] at h1
    cases h1
    exact ⟨none, _, fs', rfl, rfl, h3⟩
  | addTag t =>
    obtain ⟨a, c', fs', h1, h2, h3⟩ := inStep_step h (call := .addTag (utf8 t)) trivial
    simp only [Call.op, step] at h1
    cases h1
    refine ⟨none, _, fs', ?_, rfl, h3⟩
    simp only [TextCall.js, Client.jsCall, Client.jsAddTag, cstring_string hc]
    rfl
  | removeTag t =>
    obtain ⟨a, c', fs', h1, h2, h3⟩ := inStep_step h (call := .removeTag (utf8 t)) trivial
    simp only [Call.op, step] at h1
    cases h1
    refine ⟨none, c.removeTag (utf8 t), fs', ?_, rfl, ?_⟩
    · simp only [TextCall.js, Client.jsCall, Client.jsRemoveTag, cstring_string hc]
      rfl
    · have e : (book8 b).after (.removeTag (utf8 t)) = book8 (b.after (.removeTag t)) := by
        simp only [book8, Book.after, TextBook.after, utf8_tags_filter]
      rwa [e] at h3
  | «matches» q =>
    obtain ⟨hw, hclear, hu, hd, hroll⟩ := hc
    obtain ⟨a, c', fs', h1, h2, h3⟩ := inStep_step h (call := .matches q.request) ⟨hw, hclear, by rw [url_utf8]; exact hroll⟩
    simp only [Call.op, step] at h1
    obtain ⟨o, ho, e⟩ := Res.bind_eq_ok.1 h1
    cases e
    refine ⟨some o.block, _, fs', ?_, ⟨_, rfl, ?_⟩, h3⟩
    · simp only [TextCall.js, Client.jsCall, Client.jsMatches, cstring_string hu, cstring_string hd, Client.matches]
      rw [← url_utf8, show some (utf8 q.domain) = q.request.domain from rfl, ho]
      rfl
    · have := h2.blocked
      rwa [book8_some, book8_some] at this

/-- **C74** for whole programs, with the restrictions of C59 and for strings without NUL: whatever calls are made on
a new client in JavaScript (lists loaded, tags enabled and disabled, the client cleared, requests decided), the library
works without undefined behaviour, and every answer is the one expected from the strings. -/
theorem C74_session_partial (E : Env) (calls : List TextCall) (h : ({} : TextBook).AllowsAll E calls) :
    ∃ as c, (Client.fresh E).jsCalls (calls.map TextCall.js) = .ok (as, c) ∧ ({} : TextBook).ExpectsAll calls as := by
  have key : ∀ (calls : List TextCall) (c : Client E) (b : TextBook) (fs : List Filter), InStep c (book8 b) fs → b.AllowsAll E calls →
      ∃ as c', c.jsCalls (calls.map TextCall.js) = .ok (as, c') ∧ b.ExpectsAll calls as := by
    intro calls
    induction calls with
    | nil => exact fun c b fs _ _ => ⟨[], c, rfl, rfl⟩
    | cons call calls ih =>
      intro c b fs h hc
      obtain ⟨a, c1, fs1, h1, h2, h3⟩ := textStep h hc.1
      obtain ⟨as, c2, h4, h5⟩ := ih c1 _ fs1 h3 hc.2
      refine ⟨a :: as, c2, ?_, a, as, rfl, h2, h5⟩
      simp only [List.map_cons, Client.jsCalls, h1, Res.bind_ok, h4]
      rfl
  exact key calls _ {} [] (inStep_fresh E) h

theorem shows_utf8 {keep : Bool} {rs : List TextRule} {tags : List Chars} {s : Bool} {q : TextRequest} {text orig : Option Bytes}
    (h : ShowsRule keep { rules := rs.map TextRule.rule, tags := tags.map utf8 } s q.request text orig) :
    ShowsText keep rs tags s q text orig := by
  obtain ⟨_, hr, he, ha, h1, h2⟩ := h
  obtain ⟨r, hr', rfl⟩ := List.mem_map.1 hr
  subst h1 h2
  refine ⟨r, hr', he, (applies_utf8 r tags q).1 ha, fromUtf8_utf8 r.text, ?_, ?_⟩
  · rintro rfl
    simp [(rule_line r).2, fromUtf8_utf8]
  · rintro rfl
    rfl

/-- **C74** for `findMatchingFilters`, with the restrictions of C61: the rules JavaScript is told about are, as
strings, the rules of the list. -/
theorem C74_told_partial (E : Env) (rs : List TextRule) (hs : SoundList E.bad (rs.map TextRule.rule)) (list : Chars)
    (h0 : '\x00' ∉ list) (hl : ListOf ((textLines list).map utf8) (rs.map TextRule.rule)) (keep : Bool) :
    ∃ c, (Client.fresh E).jsParse (.string list) keep = .ok c ∧
      ∀ (tags : List Chars), (∀ t ∈ tags, '\x00' ∉ t) → ∃ c', c.jsAddTags tags = .ok c' ∧
        ∀ q : TextRequest, q.request.Web → Clear E.bad (rs.map TextRule.rule) q.request → '\x00' ∉ q.url → '\x00' ∉ q.domain →
          (∀ r ∈ rs, r.rule.HostOnly → ¬ r.AppliesTo tags q) →
          ∃ d, c'.jsFind (.string q.url) q.request.context (.string q.domain) = .ok d ∧ TellsText keep rs tags q d := by
  obtain ⟨c, h1, h2⟩ := C61_text_partial E (rs.map TextRule.rule) hs (utf8 list) (fun h => h0 (utf8_zero.1 h))
    (by rw [utf8_lines]; exact hl) keep
  refine ⟨c, ?_, fun tags ht => ⟨_, jsAddTags_eq c ht, fun q hq hclear hu hd hno => ?_⟩⟩
  · unfold Client.jsParse
    rw [cstring_string h0]
    exact h1
  · obtain ⟨d, h3, t1, t2, t3, t4, t5⟩ := h2 (tags.map utf8) q.request (utf8 q.domain) hq hclear rfl (by
      intro r hr ho ha
      obtain ⟨r', hr', rfl⟩ := List.mem_map.1 hr
      exact hno r' hr' ho ((applies_utf8 r' tags q).1 ha))
    have e : ∀ s, ({ rules := rs.map TextRule.rule, tags := tags.map utf8 } : Book).SomeRule s q.request ↔ SomeTextRule rs tags s q :=
      fun s => someRule_utf8 rs tags s q
    rw [e, e] at t1 t5
    rw [e] at t2 t3 t4
    rw [e] at t4
    refine ⟨d, ?_, t1, fun h => shows_utf8 (t2 h), t3, fun h h' => shows_utf8 (t4 h h'), t5⟩
    unfold Client.jsFind
    rw [cstring_string hu, cstring_string hd]
    rw [url_utf8] at h3
    exact h3

/-! ### a text without special characters -/

theorem plain_no {p : Chars} (hp : PlainText p) {a : Char} (ha : a.val < 128)
    (hm : a ∈ ['\x00', '\n', '\r', '|', '$', '*', '^', '#']) : a.val.toUInt8 ∉ utf8 p := fun h =>
  hp.plain a ((utf8_mem ha p).1 h) hm

theorem getLast_suffix {A : Type} {l : List A} {a : A} : l.getLast? = some a ↔ [a] <:+ l := by
  constructor
  · intro h
    obtain ⟨s, rfl⟩ := List.getLast?_eq_some_iff.1 h
    exact ⟨s, rfl⟩
  · rintro ⟨s, rfl⟩
    simp

theorem plain_sound {bad : List Bytes} {p : Chars} (hp : PlainText p) : SoundList bad [({ text := p } : TextRule).rule] := by
  have hline : ({ text := p } : TextRule).rule.line = utf8 p := by rw [(rule_line _).1]; simp [TextRule.line]
  have n0 := plain_no hp (a := '\x00') (by decide) (by decide)
  have n1 := plain_no hp (a := '\n') (by decide) (by decide)
  have n2 := plain_no hp (a := '\r') (by decide) (by decide)
  have n3 := plain_no hp (a := '|') (by decide) (by decide)
  have n4 := plain_no hp (a := '$') (by decide) (by decide)
  have n7 := plain_no hp (a := '#') (by decide) (by decide)
  have first : ∀ c, (utf8 p).head? = some c → c ∉ bs%"@![# " ∧ c ≠ 9 ∧ (c = ch%'/' → (utf8 p).getLast? ≠ some ch%'/') := by
    intro b hb
    cases p with
    | nil => cases hb
    | cons c t =>
      obtain ⟨b', l, e, -⟩ := encode_form c
      have hbe : b ∈ String.utf8EncodeChar c := by
        simp only [utf8_cons, e, List.cons_append, List.head?_cons, Option.some.injEq] at hb
        rw [e, hb]; simp
      have hf := hp.first c rfl
      have hpl := hp.plain c (by simp)
      have key : ∀ a : Char, a.val < 128 → a ∈ ['@', '!', '[', ' ', '\t', '#'] → b ≠ a.val.toUInt8 := by
        rintro a ha hm rfl
        have := (encode_mem ha).1 hbe
        subst this
        simp only [List.mem_cons, List.not_mem_nil, or_false] at hm
        rcases hm with h | h | h | h | h | h
        · exact hf.1 (by simp [h])
        · exact hf.1 (by simp [h])
        · exact hf.1 (by simp [h])
        · exact hf.1 (by simp [h])
        · exact hf.1 (by simp [h])
        · exact hpl (by simp [h])
      refine ⟨?_, ?_, ?_⟩
      · intro hm
        simp only [List.mem_cons, List.not_mem_nil, or_false] at hm
        rcases hm with h | h | h | h | h
        · exact key '@' (by decide) (by decide) h
        · exact key '!' (by decide) (by decide) h
        · exact key '[' (by decide) (by decide) h
        · exact key '#' (by decide) (by decide) h
        · exact key ' ' (by decide) (by decide) h
      · exact key '\t' (by decide) (by decide)
      · intro h hl
        have hc := (encode_mem (a := '/') (by decide)).1 (show ('/' : Char).val.toUInt8 ∈ _ from h ▸ hbe)
        refine hf.2 hc ?_
        rw [getLast_suffix] at hl ⊢
        exact utf8_suffix.1 (show utf8 ['/'] <:+ _ from by rw [show utf8 ['/'] = [ch%'/'] from by decide]; exact hl)
  have all : ∀ {P : RuleText → Prop}, P ({ text := p } : TextRule).rule → ∀ r ∈ [({ text := p } : TextRule).rule], P r := by
    intro P h r hr
    rw [List.mem_singleton.1 hr]; exact h
  constructor
  · refine all (.usual ?_)
    constructor
    · rfl
    · intro c hc; cases hc
    · exact fun h => hp.nonempty (utf8_eq_nil.1 h)
    · intro c hc
      refine ⟨?_, ?_, ?_, ?_, ?_⟩ <;> rintro rfl
      · exact n0 hc
      · exact n1 hc
      · exact n2 hc
      · exact n3 hc
      · exact n4 hc
    · intro a d b h
      exact absurd (show ch%'#' ∈ utf8 p from by rw [show utf8 p = _ from h]; simp) n7
    · intro _ c hc
      rw [hline]
      exact first c hc
    · intro o ho; cases ho
    · unfold RuleText.Short; rw [hline]; have := hp.short; omega
  · refine all ?_
    exact fits_of_entries (by intro o ho; cases ho)

theorem plain_clear (bad : List Bytes) {p : Chars} (hp : PlainText p) (q : Request) : Clear bad [({ text := p } : TextRule).rule] q := by
  have nohost : ¬ ({ text := p } : TextRule).rule.HostOnly := fun h => by cases h.1
  apply clear_of
  case carets =>
    intro r hr part hpart a b h
    rw [List.mem_singleton.1 hr] at hpart
    exfalso
    have hs : splitOn ch%'*' (utf8 p) = [utf8 p] := by
      have := splitOn_noSep (sep := ch%'*') (x := utf8 p) (plain_no hp (a := '*') (by decide) (by decide)) []
      simpa [splitOn] using this
    rw [show ({ text := p } : TextRule).rule.text = utf8 p from rfl, hs] at hpart
    rw [List.mem_singleton.1 hpart] at h
    exact plain_no hp (a := '^') (by decide) (by decide) (by rw [h]; simp)
  case hosts =>
    intro r hr h
    rw [List.mem_singleton.1 hr] at h
    exact absurd h nohost
  case bars =>
    intro r hr h
    rw [List.mem_singleton.1 hr] at h
    exact absurd h nohost
  case different =>
    intro r hr r' hr' h
    rw [List.mem_singleton.1 hr] at h
    exact absurd h nohost
  case domains =>
    intro r hr dl h
    rw [List.mem_singleton.1 hr] at h
    cases h

theorem textPartAt_plain {p : Chars} (h : '^' ∉ p) (u : Chars) : TextPartAt p u ↔ p <+: u := by
  induction p generalizing u with
  | nil => simp [TextPartAt]
  | cons a p ih =>
    have ha : a ≠ '^' := fun e => h (by simp [e])
    cases u with
    | nil => simp [TextPartAt, ha]
    | cons c u => simp [TextPartAt, ha, ih (fun hx => h (by simp [hx])), List.cons_prefix_cons]

theorem textPlaced_plain {p : Chars} (hp : PlainText p) (u : Chars) : TextPlaced p u ↔ p <:+: u := by
  have hcaret : '^' ∉ p := fun h => hp.plain _ h (by decide)
  have hs : splitText '*' p = [p] := by
    have hst : '*' ∉ p := fun h => hp.plain _ h (by decide)
    clear hp hcaret
    induction p with
    | nil => rfl
    | cons c p ih =>
      rw [splitText, if_neg (fun e => hst (by simp [e])), ih (fun h => hst (by simp [h]))]
  unfold TextPlaced
  rw [hs]
  simp only [TextPlacedParts, hp.nonempty, false_or, and_true, textPartAt_plain hcaret]
  constructor
  · rintro ⟨-, -, k, -, h⟩
    exact h.isInfix.trans (List.drop_suffix k u).isInfix
  · rintro ⟨x, y, rfl⟩
    have := List.length_pos_iff.2 hp.nonempty
    refine ⟨fun e => hcaret (by rw [e]; simp), ?_, x.length, ?_, ?_⟩
    · simp only [List.length_append]; omega
    · simp only [List.length_append]; omega
    · simp

/-- **C74** in its simplest form: a rule without special characters blocks exactly the requests whose address
contains its text, as strings of JavaScript.  (Requests for main documents are not blocked.) -/
theorem C74_plain_rule (E : Env) {p : Chars} (hp : PlainText p) (keep : Bool) :
    ∃ c, (Client.fresh E).jsParse (.string p) keep = .ok c ∧
      ∀ q : TextRequest, q.request.Web → (∀ t, q.type = some t → t.1 ≠ bs%"document") → '\x00' ∉ q.url → '\x00' ∉ q.domain →
        E.fp.rolls (utf8 q.url) →
        ∃ b c', c.jsMatches (.string q.url) q.request.context (.string q.domain) = .ok (b, c') ∧
          (b = true ↔ p <:+: q.url) := by
  have hz : '\x00' ∉ p := fun h => hp.plain _ h (by decide)
  have hl : textLines p = [p] := by
    have h1 : '\n' ∉ p := fun h => hp.plain _ h (by decide)
    have h2 : '\r' ∉ p := fun h => hp.plain _ h (by decide)
    clear hp hz
    unfold textLines
    induction p with
    | nil => rfl
    | cons c p ih =>
      have hc : c ≠ '\r' := fun e => h2 (by simp [e])
      rw [List.map_cons, if_neg hc, splitText, if_neg (fun e => h1 (by simp [e])),
        ih (fun h => h1 (by simp [h])) (fun h => h2 (by simp [h]))]
  obtain ⟨c, h1, h2⟩ := C74_verdict_partial E [{ text := p }] (plain_sound hp) p hz (by
    rw [hl]
    have := ListOf.rule ({ text := p } : TextRule).rule .nil
    rw [(rule_line _).1] at this
    simpa [TextRule.line] using this) keep
  obtain ⟨c', h3, h4⟩ := h2 [] (by simp)
  have : c' = c := by
    have : c.jsAddTags [] = .ok c := rfl
    rw [this] at h3
    cases h3; rfl
  subst this
  refine ⟨c', h1, fun q hq hdoc hu hd hroll => ?_⟩
  obtain ⟨b, c'', h5, h6⟩ := h4 q hq (plain_clear E.bad hp _) hu hd hroll
  refine ⟨b, c'', h5, h6.trans ?_⟩
  have happ : ({ text := p } : TextRule).AppliesTo [] q ↔ p <:+: q.url := by
    rw [← textPlaced_plain hp]
    unfold TextRule.AppliesTo
    constructor
    · rintro ⟨-, -, -, -, h⟩; exact h
    · intro h
      obtain ⟨hty, hnt, htk, hsay, hdeny⟩ := no_options (r := ({ text := p } : TextRule).rule) rfl
      refine ⟨?_, ?_, ?_, ?_, h⟩
      · intro o ho; cases ho
      · unfold RuleText.TypeAllowed
        show (match q.type with | some t => _ | none => _)
        cases ht : q.type with
        | none => exact ⟨hty, fun _ => hnt, fun _ => htk⟩
        | some t => exact ⟨.inr ⟨hty, htk⟩, by rw [hnt]; simp, fun e => absurd e (hdoc t ht)⟩
      · intro d _
        exact ⟨fun h => absurd h (hsay _), fun h => absurd h (hdeny _), fun dl h => (by cases h)⟩
      · intro t h; cases h
  constructor
  · rintro ⟨⟨r, hr, -, ha⟩, -⟩
    rw [List.mem_singleton.1 hr] at ha
    exact happ.1 ha
  · intro h
    refine ⟨⟨_, by simp, rfl, happ.2 h⟩, ?_⟩
    rintro ⟨r, hr, he, -⟩
    rw [List.mem_singleton.1 hr] at he
    cases he

/-! ### what does not arrive -/

theorem cstring_nul (s t : Chars) : (JsValue.string (s ++ '\x00' :: t)).cstring = (JsValue.string s).cstring := by
  rw [C74_argument, C74_argument]
  congr 2
  induction s with
  | nil => simp
  | cons c s ih =>
    by_cases hc : c = '\x00'
    · simp [hc]
    · simpa [hc] using ih

/-- **C74** fails for strings with NUL: what follows it is ignored, in lists, addresses, pages and tags. -/
theorem C74_nul_counterexample {E : Env} (c : Client E) (s t : Chars) :
    (∀ keep, c.jsParse (.string (s ++ '\x00' :: t)) keep = c.jsParse (.string s) keep) ∧
    (∀ option page, c.jsMatches (.string (s ++ '\x00' :: t)) option page = c.jsMatches (.string s) option page) ∧
    (∀ option page, c.jsFind (.string (s ++ '\x00' :: t)) option page = c.jsFind (.string s) option page) ∧
    (∀ url option, c.jsMatches url option (.string (s ++ '\x00' :: t)) = c.jsMatches url option (.string s)) ∧
    (∀ url option, c.jsFind url option (.string (s ++ '\x00' :: t)) = c.jsFind url option (.string s)) ∧
    c.jsAddTag (.string (s ++ '\x00' :: t)) = c.jsAddTag (.string s) ∧
    c.jsRemoveTag (.string (s ++ '\x00' :: t)) = c.jsRemoveTag (.string s) := by
  simp only [Client.jsParse, Client.jsMatches, Client.jsFind, Client.jsAddTag, Client.jsRemoveTag, cstring_nul]
  simp

private def exWord : Chars := cs%"adbanner"

private theorem exWord_plain : PlainText exWord where
  nonempty := by decide
  plain := by decide
  first c h := by
    cases h
    decide
  short := by decide

def exPlace (rest : Chars) : TextRequest :=
  { host := cs%"a.com", rest := '/' :: rest, type := some (bs%"script", FOScript), domain := cs%"b.com" }

theorem exPlace_web {rest : Chars} (h : '\x00' ∉ rest) : (exPlace rest).request.Web where
  scheme := (by decide : (utf8 cs%"http").map lower ∈ _)
  host := (by decide : utf8 cs%"a.com" ≠ [] ∧ ∀ c ∈ utf8 cs%"a.com", ¬ IsSep c)
  rest := .inr ⟨ch%'/', utf8 rest, by
    show utf8 ('/' :: rest) = _
    rw [utf8_cons, show String.utf8EncodeChar '/' = [ch%'/'] from by decide]; rfl, by decide⟩
  text := ⟨(by decide : 0 ∉ utf8 cs%"a.com"), by
    show 0 ∉ utf8 ('/' :: rest)
    rw [utf8_zero]
    simpa using h⟩
  type t ht := by cases ht; decide

/-- Hence a request is not blocked although its address contains the text of a rule. -/
theorem C74_nul_found_counterexample (E : Env) (hroll : ∀ url, E.fp.rolls url) :
    ∃ c c', (Client.fresh E).jsParse (.string cs%"adbanner") false = .ok c ∧
      c.jsMatches (.string cs%"http://a.com/\x00adbanner") FOScript (.string cs%"b.com") = .ok (false, c') := by
  obtain ⟨c, h1, h2⟩ := C74_plain_rule E exWord_plain false
  obtain ⟨b, c', h3, h4⟩ := h2 (exPlace []) (exPlace_web (by simp)) (by intro t ht; cases ht; decide)
    (by decide) (by decide) (hroll _)
  refine ⟨c, c', h1, ?_⟩
  have e := (C74_nul_counterexample c cs%"http://a.com/" cs%"adbanner").2.1 FOScript (.string cs%"b.com")
  rw [show cs%"http://a.com/" ++ '\x00' :: cs%"adbanner" = cs%"http://a.com/\x00adbanner" from by decide] at e
  rw [e]
  have hb : b = false := by
    cases b with
    | false => rfl
    | true => exact absurd (h4.1 rfl) (by decide)
  rw [← hb]
  exact h3

private theorem exUndefined_plain : PlainText cs%"undefined" where
  nonempty := by decide
  plain := by decide
  first c h := by
    cases h
    decide
  short := by decide

/-- **C74** fails for what is not a string: a list which is `undefined`, such as a property that does not exist, is
taken for a rule with this text, and requests whose address contains it are blocked. -/
theorem C74_undefined_counterexample (E : Env) (hroll : ∀ url, E.fp.rolls url) :
    ∃ c c', (Client.fresh E).jsParse .undefined false = .ok c ∧
      c.jsMatches (.string cs%"http://a.com/undefined.js") FOScript (.string cs%"b.com") = .ok (true, c') := by
  obtain ⟨c, h1, h2⟩ := C74_plain_rule E exUndefined_plain false
  obtain ⟨b, c', h3, h4⟩ := h2 (exPlace cs%"undefined.js") (exPlace_web (by decide)) (by intro t ht; cases ht; decide)
    (by decide) (by decide) (hroll _)
  refine ⟨c, c', h1, ?_⟩
  have hb : b = true := h4.2 (by decide)
  rw [← hb]
  exact h3

/-- **C74** fails for what cannot be converted to a string, such as a symbol: the library reads through a null
pointer. -/
theorem C74_no_text_counterexample {E : Env} (c : Client E) :
    (∀ keep, c.jsParse (.other none) keep = .ub .nullDeref) ∧
    (∀ option page, c.jsMatches (.other none) option page = .ub .nullDeref) ∧
    (∀ option page, c.jsFind (.other none) option page = .ub .nullDeref) ∧
    c.jsAddTag (.other none) = .ub .nullDeref ∧ c.jsRemoveTag (.other none) = .ub .nullDeref :=
  ⟨fun _ => rfl, fun _ _ => rfl, fun _ _ => rfl, rfl, rfl⟩

/-- **C74** fails for `getFingerprint`: the six bytes may end in the middle of a character, so that they are not
the UTF-8 form of any string. -/
theorem C74_fingerprint_counterexample (bad : List Bytes) (h : ∀ w ∈ bad, ¬ bs%"abcde" <+: w) :
    ∃ b, jsGetFingerprint bad (.string cs%"abcdeé") = .ok (some b) ∧ fromUtf8 b = none := by
  have hu : utf8 cs%"abcdeé" = bs%"abcde" ++ [0xC3, 0xA9] := by decide
  have hw : getFingerprintStr bad (utf8 cs%"abcdeé") = some (bs%"abcde" ++ [0xC3]) := by
    rw [(C16_leftmost_usable_window bad _).1, hu]
    refine ⟨⟨rfl, by decide, by decide, by decide, fun x hx hp => h x hx (List.IsPrefix.trans ⟨[0xC3], rfl⟩ hp)⟩,
      [], [0xA9], rfl, fun _ _ _ _ _ => Nat.zero_le _⟩
  refine ⟨bs%"abcde" ++ [0xC3], ?_, ?_⟩
  · unfold jsGetFingerprint
    rw [cstring_string (by decide)]
    dsimp only
    rw [hw]
    rfl
  · cases hf : fromUtf8 (bs%"abcde" ++ [0xC3]) with
    | none => rfl
    | some s =>
      exfalso
      have e := utf8_of_fromUtf8 hf
      obtain ⟨r, rfl⟩ := (utf8_prefix (p := cs%"abcde") (t := s)).1 ⟨[0xC3], by
        rw [← e]; decide⟩
      have e' : [0xC3] = utf8 r := by
        rw [utf8_append, show utf8 cs%"abcde" = bs%"abcde" from by decide] at e
        exact List.append_cancel_left e
      cases r with
      | nil => cases e'
      | cons c r =>
        by_cases hc : c.val < 128
        · rw [utf8_cons, encode_ascii hc] at e'
          injection e' with e1 _
          have h2 := UInt32.lt_iff_toNat_lt.1 hc
          have h1 := congrArg UInt8.toNat e1
          rw [UInt32.toNat_toUInt8] at h1
          simp only [UInt32.reduceToNat, UInt8.reduceToNat] at h1 h2
          omega
        · have hl := congrArg List.length e'
          have h1 : c.utf8Size ≠ 1 := fun hs => hc (by
            have := UInt32.le_iff_toNat_le.1 (Char.utf8Size_eq_one_iff.1 hs)
            exact UInt32.lt_iff_toNat_lt.2 (by simp at this ⊢; omega))
          have h2 := c.utf8Size_pos
          rw [utf8_cons, List.length_append, String.length_utf8EncodeChar] at hl
          simp only [List.length_singleton] at hl
          omega

/-! ### lib/filtering.js -/

theorem jsSplitText_eq (s : Chars) : jsSplitText s = splitText '\n' s := by
  induction s with
  | nil => rfl
  | cons c s ih =>
    rw [jsSplitText, splitText, ih]
    have : splitText '\n' s ≠ [] := by
      cases s with
      | nil => simp [splitText]
      | cons d s =>
        rw [splitText]
        split
        · simp
        · split <;> simp
    cases h : splitText '\n' s with
    | nil => exact absurd h this
    | cons l ls => rfl

theorem utf8_jsSplit (s : Chars) : jsSplit (utf8 s) = (jsSplitText s).map utf8 := by
  rw [jsSplit_eq, jsSplitText_eq]
  exact utf8_split (sep := '\n') (by decide) s

theorem utf8_jsJoin (ls : List Chars) : jsJoin (ls.map utf8) = utf8 (jsJoinText ls) := by
  induction ls with
  | nil => rfl
  | cons l ls ih =>
    cases ls with
    | nil => rfl
    | cons l' ls =>
      simp only [List.map_cons, jsJoin, jsJoinText] at ih ⊢
      rw [ih, utf8_append, utf8_cons, show String.utf8EncodeChar '\n' = [10] from by decide]
      rfl

theorem utf8_mapRule (rule : Chars) : mapRule (utf8 rule) = utf8 (mapRuleText rule) := by
  have eq : ∀ t, utf8 rule = utf8 t ↔ rule = t := fun t => ⟨utf8_injective, fun h => by rw [h]⟩
  have e1 : bs%"||imasdk.googleapis.com^$third-party" = utf8 cs%"||imasdk.googleapis.com^$third-party" := by decide
  have e2 : bs%"/ima3.js" = utf8 cs%"/ima3.js" := by decide
  have e3 : bs%"||imasdk.googleapis.com^$third-party,explicitcancel" = utf8 cs%"||imasdk.googleapis.com^$third-party,explicitcancel" := by decide
  have e4 : bs%"/ima3.js$explicitcancel" = utf8 cs%"/ima3.js$explicitcancel" := by decide
  unfold mapRule mapRuleText
  rw [e1, e2, e3, e4]
  by_cases h1 : rule = cs%"||imasdk.googleapis.com^$third-party"
  · rw [if_pos h1, if_pos ((eq _).2 h1)]
  · rw [if_neg h1, if_neg (fun h => h1 ((eq _).1 h))]
    by_cases h2 : rule = cs%"/ima3.js"
    · rw [if_pos h2, if_pos ((eq _).2 h2)]
    · rw [if_neg h2, if_neg (fun h => h2 ((eq _).1 h))]

/-- **C74** for the preprocessing of lists: it makes no difference whether it is done on strings, as in
JavaScript, or on their UTF-8 forms, as in the theorems about it (C48). -/
theorem C74_preprocessing (s : Chars) :
    sanitizeABPInput (utf8 s) = utf8 (sanitizeABPText s) ∧
    ∀ (p : Chars → Bool) (p' : Bytes → Bool), (∀ l, p' (utf8 l) = p l) → sanitizeABPInput (utf8 s) p' = utf8 (sanitizeABPText s p) := by
  have key : ∀ (p : Chars → Bool) (p' : Bytes → Bool), (∀ l, p' (utf8 l) = p l) →
      sanitizeABPInput (utf8 s) p' = utf8 (sanitizeABPText s p) := by
    intro p p' hp
    unfold sanitizeABPInput sanitizeABPText
    rw [← utf8_jsJoin, utf8_jsSplit, List.filter_map, List.map_append, List.map_map, List.map_map,
      show extraConcatRules = extraConcatTexts.map utf8 from by decide]
    congr 2
    rw [show p' ∘ utf8 = p from funext hp]
    exact List.map_congr_left fun l _ => utf8_mapRule l
  refine ⟨key _ _ fun l => ?_, key⟩
  simp [jsTruthy, utf8_eq_nil]

/-! ### The theorems are not empty -/

/-- the rule of the examples -/
theorem exUmlaut_plain : PlainText cs%"größe" where
  nonempty := by decide
  plain := by decide
  first c h := by
    cases h
    decide
  short := by decide

/-- a rule and addresses with other letters: the rule is found where its letters are -/
example (E : Env) (hroll : ∀ url, E.fp.rolls url) : ∃ c, (Client.fresh E).jsParse (.string cs%"größe") true = .ok c ∧
    (∃ c', c.jsMatches (.string cs%"http://a.com/ö/größe.png") FOScript (.string cs%"b.com") = .ok (true, c')) ∧
    (∃ c', c.jsMatches (.string cs%"http://a.com/ö/grösse.png") FOScript (.string cs%"b.com") = .ok (false, c')) := by
  obtain ⟨c, h1, h2⟩ := C74_plain_rule E exUmlaut_plain true
  refine ⟨c, h1, ?_, ?_⟩
  · obtain ⟨b, c', h3, h4⟩ := h2 (exPlace cs%"ö/größe.png") (exPlace_web (by decide)) (by intro t ht; cases ht; decide)
      (by decide) (by decide) (hroll _)
    have hb : b = true := h4.2 (by decide)
    subst hb
    exact ⟨c', h3⟩
  · obtain ⟨b, c', h3, h4⟩ := h2 (exPlace cs%"ö/grösse.png") (exPlace_web (by decide)) (by intro t ht; cases ht; decide)
      (by decide) (by decide) (hroll _)
    have hb : b = false := by
      cases b with
      | false => rfl
      | true => exact absurd (h4.1 rfl) (by decide)
    subst hb
    exact ⟨c', h3⟩

theorem exUmlaut_rule (tags : List Chars) : SomeTextRule [{ text := cs%"größe" }] tags false (exPlace cs%"größe.png") := by
  obtain ⟨hty, hnt, htk, hsay, hdeny⟩ := no_options (r := ({ text := cs%"größe" } : TextRule).rule) rfl
  refine ⟨{ text := cs%"größe" }, by simp, rfl, ?_, ?_, ?_, ?_, ?_⟩
  · intro o ho; cases ho
  · exact ⟨.inr ⟨hty, htk⟩, by rw [hnt]; simp, by decide⟩
  · intro d _
    exact ⟨fun h => absurd h (hsay _), fun h => absurd h (hdeny _), fun dl h => (by cases h)⟩
  · intro t h; cases h
  · exact (textPlaced_plain exUmlaut_plain _).2 (by decide)

/-- the rule that is shown -/
example (E : Env) : ∃ c d, (Client.fresh E).jsParse (.string cs%"größe") true = .ok c ∧
    c.jsFind (.string cs%"http://a.com/größe.png") FOScript (.string cs%"b.com") = .ok d ∧
    d.isMatch = true ∧ d.matchingFilter.bind fromUtf8 = some cs%"größe" ∧ d.matchingOrigRule.bind fromUtf8 = some cs%"größe" := by
  obtain ⟨c, h1, h2⟩ := C74_told_partial E [{ text := cs%"größe" }] (plain_sound exUmlaut_plain) cs%"größe" (by decide)
    (.rule ({ text := cs%"größe" } : TextRule).rule .nil) true
  obtain ⟨c', h3, h4⟩ := h2 [] (by simp)
  cases h3
  obtain ⟨d, h5, h6⟩ := h4 (exPlace cs%"größe.png") (exPlace_web (by decide)) (plain_clear E.bad exUmlaut_plain _) (by decide) (by decide) (by
    intro r hr ho
    rw [List.mem_singleton.1 hr] at ho
    cases ho.1)
  have hno : ¬ SomeTextRule [{ text := cs%"größe" }] [] true (exPlace cs%"größe.png") := by
    rintro ⟨r, hr, he, -⟩
    rw [List.mem_singleton.1 hr] at he
    cases he
  obtain ⟨r, hr, -, -, e1, e2, -⟩ := h6.rule (exUmlaut_rule _)
  rw [List.mem_singleton.1 hr] at e1 e2
  exact ⟨c, d, h1, h5, h6.isMatch.2 ⟨(exUmlaut_rule _), hno⟩, e1, e2 rfl⟩

/-- a program: load a list, enable a tag, ask, clear, ask again -/
example (E : Env) (hroll : ∀ url, E.fp.rolls url) :
    ∃ c, (Client.fresh E).jsCalls
      [.parse (.string cs%"größe") false, .addTag (.string cs%"süß"), .matches (.string cs%"http://a.com/größe.png") FOScript (.string cs%"b.com"),
       .clear, .matches (.string cs%"http://a.com/größe.png") FOScript (.string cs%"b.com")] =
      .ok ([none, none, some true, none, some false], c) := by
  have web : (exPlace cs%"größe.png").request.Web := exPlace_web (by decide)
  obtain ⟨as, c, h1, h2⟩ := C74_session_partial E
    [.load cs%"größe" false [{ text := cs%"größe" }], .addTag cs%"süß", .matches (exPlace cs%"größe.png"), .clear, .matches (exPlace cs%"größe.png")]
    ⟨⟨by decide, .rule ({ text := cs%"größe" } : TextRule).rule .nil, plain_sound exUmlaut_plain⟩, (by decide : '\x00' ∉ cs%"süß"),
      ⟨web, plain_clear E.bad exUmlaut_plain _, by decide, by decide, hroll _⟩, trivial, ⟨web, clear_of (by simp [book8, TextBook.after]) (by simp [TextBook.after]) (by simp [TextBook.after]) (by simp [TextBook.after]) (by simp [TextBook.after]) _, by decide, by decide, hroll _⟩, trivial⟩
  obtain ⟨a1, as1, rfl, e1, a2, as2, rfl, e2, a3, as3, rfl, ⟨x, rfl, hx⟩, a4, as4, rfl, e4, a5, as5, rfl, ⟨y, rfl, hy⟩, e⟩ := h2
  cases e
  cases e1
  cases e2
  cases e4
  have hx' : x = true := hx.2 ⟨exUmlaut_rule _, by
    rintro ⟨r, hr, he, -⟩
    cases List.mem_singleton.1 hr
    cases he⟩
  have hy' : y = false := by
    cases y with
    | false => rfl
    | true =>
      obtain ⟨⟨r, hr, -⟩, -⟩ := hy.1 rfl
      cases hr
  subst hx' hy'
  exact ⟨c, h1⟩

/-- a pattern with wildcards -/
example : TextPlaced cs%"ö*^ü" cs%"http://a.com/ö/ö?ü" :=
  .inr ⟨by decide, by decide, 13, by decide, ⟨.inl rfl, trivial⟩,
    .inr ⟨by decide, by decide, 2, by decide, ⟨.inr ⟨rfl, by decide⟩, .inl rfl, trivial⟩, trivial⟩⟩

/-- preprocessing -/
example : sanitizeABPText cs%"größe\n\n/ima3.js" = cs%"größe\n/ima3.js$explicitcancel\n||imasdk.googleapis.com/$third-party\n^ima3.js" := by
  decide

end AdBlock
