import Verif.SpecSaved
import Verif.Props.Exact
import Verif.Props.Reload
import Verif.Props.Size
/-
C66: from the text of the rules to the verdict, in sessions in which the client is saved and loaded
again.
-/
namespace AdBlock
open Spec

theorem noText_representable {f : Filter} (h1 : f.data = none) (h2 : f.domainList = none) : Representable f := by
  refine ⟨fun pat hp => ?_, fun dl h => ?_⟩
  · obtain ⟨-, ⟨r, hr⟩, -⟩ := hp
    rw [h1] at hr; cases hr
  · rw [h2] at h; cases h

theorem value_length {r : RuleText} {key v : Bytes} (h : r.value key = some v) : v.length ≤ r.line.length := by
  unfold RuleText.value at h
  have hm := List.mem_of_getLast? h
  obtain ⟨o, ho, hv⟩ := List.mem_filterMap.1 hm
  split at hv
  · cases hv
    have hu : (RuleText.unsigned o).length ≤ o.length := by
      unfold RuleText.unsigned; split <;> simp
    unfold RuleText.entries at ho
    cases hro : r.options with
    | none => rw [hro] at ho; cases ho
    | some s =>
      rw [hro] at ho
      obtain ⟨a, b, e, -⟩ := mem_splitOn_infix ho
      have := congrArg List.length e
      simp only [List.length_append] at this
      have := options_length hro
      rw [List.length_drop]
      omega
  · cases hv

theorem line_length {input l : Bytes} (h : l ∈ lines input) : l.length ≤ input.length := by
  obtain ⟨a, b, e, -⟩ := mem_splitOn_infix h
  have := congrArg List.length e
  simp only [List.length_append, List.length_map] at this
  omega

theorem lead_two {a kept : Bytes} (h : Lead a kept) : kept.length + 2 ≤ a.length ∨ kept = [] ∧ ∀ c ∈ a, c = 32 ∨ c = 9 := by
  induction h with
  | blanks hw => exact .inr ⟨rfl, hw⟩
  | ats h _ _ _ =>
    have := lead_length h
    simp only [List.length_append, List.length_cons]
    exact .inl (by omega)

/-- the regular expressions without text -/
theorem empty_regex {l a kept rest : Bytes} (e : l = a ++ ch%'/' :: rest) (hlead : Lead a kept) (hlast : l.getLast? = some ch%'/')
    (hlen : 1 < l.length) (h : (l.drop (kept.length + 1)).take (l.length - kept.length - 2) = []) :
    l ∈ [bs%"//", bs%" /", bs%"\t/"] := by
  have h' := congrArg List.length h
  rw [List.length_take, List.length_drop, List.length_nil] at h'
  have el := congrArg List.length e
  simp only [List.length_append, List.length_cons] at el
  rcases lead_two hlead with h2 | ⟨rfl, h2⟩
  · omega
  · simp only [List.length_nil] at h'
    obtain ⟨x, y, rfl⟩ : ∃ x y, l = [x, y] := by
      match l, hlen, h' with
      | [x, y], _, _ => exact ⟨x, y, rfl⟩
      | x :: y :: z :: l, _, h' => simp at h'
      | [x], hlen, _ => simp at hlen
      | [], hlen, _ => simp at hlen
    have hy : y = ch%'/' := by simpa using hlast
    subst hy
    cases a with
    | nil => cases e; simp
    | cons c a =>
      have hc := h2 c (by simp)
      obtain rfl : x = c := by simp only [List.cons_append, List.cons.injEq] at e; exact e.1
      rcases hc with rfl | rfl <;> simp

/-- the rules of such a list can be represented, or are not written -/
theorem savable_reads (bad : List Bytes) {ls : List Bytes} {rs : List RuleText} (h : ListOf ls rs) (h0 : ∀ l ∈ ls, 0 ∉ l)
    (hw : ∀ r ∈ rs, r.WellFormed) (ht : ∀ r ∈ rs, r.text ≠ [])
    (hd : ∀ r ∈ rs, ∀ dl, r.value bs%"domain=" = some dl →
      dl ≠ [] ∧ (r.value bs%"tag=" = none ∨ r.value bs%"tag=" = some [] → ¬ bs%"~#" <+: dl))
    (hx : ∀ l ∈ [bs%"//", bs%" /", bs%"\t/"], l ∉ ls) (hl : ∀ l ∈ ls, l.length < 2 ^ 31) (pr : Bool) :
    ∃ fs, Reads bad pr ls fs ∧ ∀ f ∈ fs, LeftOut true true f ∨ Representable f := by
  have one : ∀ {f : Filter} {fs : List Filter}, (LeftOut true true f ∨ Representable f) → (∀ f ∈ fs, LeftOut true true f ∨ Representable f) →
      ∀ g ∈ f :: fs, LeftOut true true g ∨ Representable g := by
    intro f fs h1 h2 g hg
    rcases List.mem_cons.1 hg with rfl | hg
    · exact h1
    · exact h2 g hg
  induction h with
  | nil => exact ⟨[], .nil, by simp⟩
  | @idle l ls rs hi _ ih =>
    obtain ⟨fs, h1, h2⟩ := ih (fun l hl => h0 l (by simp [hl])) hw ht hd (fun l hl h => hx l hl (by simp [h])) (fun l h => hl l (by simp [h]))
    rcases hi with ⟨hb, hb'⟩ | hc
    · exact ⟨_, .cons (C18_blank_line bad l 0 pr true hb hb').1 h1, one (.inr (noText_representable rfl rfl)) h2⟩
    · exact ⟨_, .cons (C18_comment_line bad l 0 pr true hc).1 h1, one (.inr (noText_representable rfl rfl)) h2⟩
  | @page l ls rs hp _ ih =>
    obtain ⟨fs, h1, h2⟩ := ih (fun l hl => h0 l (by simp [hl])) hw ht hd (fun l hl h => hx l hl (by simp [h])) (fun l h => hl l (by simp [h]))
    obtain ⟨f, e, fp, hf, ht, -⟩ := parse_page hp bad pr true
    refine ⟨_, .cons hf h1, one (.inl ?_) h2⟩
    unfold LeftOut
    rcases ht with h | h | h <;> rw [h] <;> decide
  | @regex l ls rs hp _ ih =>
    obtain ⟨fs, h1, h2⟩ := ih (fun l hl => h0 l (by simp [hl])) hw ht hd (fun l hl h => hx l hl (by simp [h])) (fun l h => hl l (by simp [h]))
    obtain ⟨f, body, hf, e1, e2, e3, e4, e5⟩ := parse_regex hp bad pr true
    have hb : 0 ∉ body := fun hb => h0 l (by simp) (by rw [e5]; simp [hb])
    refine ⟨_, .cons hf h1, one (.inr ⟨fun pat hp => ?_, fun dl h => by rw [e2] at h; cases h⟩) h2⟩
    rw [HasText.unique hp (q := body) ⟨hb, ⟨[], e3⟩, .inl e4⟩]
    refine ⟨?_, ?_⟩
    · rintro rfl
      exact hx bs%"//" (by simp) (by rw [e5]; simp)
    · have := hl l (by simp)
      rw [e5] at this
      simp at this
      omega
  | @other l ls rs hc hr _ ih =>
    obtain ⟨fs, h1, h2⟩ := ih (fun l hl => h0 l (by simp [hl])) hw ht hd (fun l hl h => hx l hl (by simp [h])) (fun l h => hl l (by simp [h]))
    cases hr with
    | remark hr =>
      obtain ⟨f, hf, -, e1, e2⟩ := parse_remark hr bad pr true
      exact ⟨_, .cons hf h1, one (.inr (noText_representable e1 e2)) h2⟩
    | regex hr =>
      obtain ⟨a, kept, rest, f, e0, hlead, hf, e1, e2, e3, e4⟩ := parse_regexLine hr bad pr true
      refine ⟨_, .cons hf h1, one (.inr ⟨fun pat hp => ?_, fun dl h => by rw [e2] at h; cases h⟩) h2⟩
      rw [HasText.unique hp (q := _) ⟨regex_text (h0 l (by simp)) _ _, ⟨[], e3⟩, .inl e4⟩]
      refine ⟨fun h => ?_, ?_⟩
      · obtain ⟨-, -, -, -, -, -, hlast, hlen⟩ := hr
        exact hx l (empty_regex e0 hlead hlast hlen h) (by simp)
      · have := hl l (by simp)
        rw [List.length_take, List.length_drop]
        omega
    | options hr =>
      obtain ⟨f, hf, e1⟩ := parse_bareOptions hr bad pr true
      exact ⟨_, .cons hf h1, one (.inl (.inr (.inr e1))) h2⟩
    | page hb hm hlen =>
      obtain ⟨f, e, hf, e1, -⟩ := parse_pageLine hc hb hm hlen bad pr true
      refine ⟨_, .cons hf h1, one (.inl ?_) h2⟩
      unfold LeftOut
      rcases e1 with h | h | h <;> rw [h] <;> decide
    | long hb hlen hne hh =>
      obtain ⟨f, fp, hf, e1, e2, -⟩ := parse_longLine hc hb hlen hne hh bad pr true
      exact ⟨_, .cons hf h1, one (.inr (noText_representable e1 e2)) h2⟩
  | @rule ls rs r _ ih =>
    obtain ⟨fs, h1, h2⟩ := ih (fun l hl => h0 l (by simp [hl])) (fun r hr => hw r (by simp [hr]))
      (fun r hr => ht r (by simp [hr])) (fun r hr => hd r (by simp [hr])) (fun l hl h => hx l hl (by simp [h])) (fun l h => hl l (by simp [h]))
    have hwf := hw r (by simp)
    obtain ⟨fp, _, hp⟩ := C22_rule_text bad hwf (t := 0) (.inl rfl) pr true
    refine ⟨_, .cons hp h1, one (.inr ⟨fun pat hp => ?_, fun dl h => ?_⟩) h2⟩
    · rw [HasText.unique hp (q := r.text) ⟨hwf.noNul, ⟨[], rfl⟩, .inl rfl⟩]
      exact ⟨ht r (by simp), Nat.lt_of_le_of_lt (text_length hwf) (hl _ (by simp))⟩
    · have e : r.opts.domainList = some dl := h
      rw [opts_domainList hwf] at e
      obtain ⟨d1, d2⟩ := hd r (by simp) dl e
      have := value_length e
      have := hl r.line (by simp)
      refine ⟨d1, by omega, fun ht => d2 ?_⟩
      have ht : r.opts.tag = [] := ht
      rw [opts_tag hwf] at ht
      cases hv : r.value bs%"tag=" with
      | none => exact .inl rfl
      | some v =>
        rw [hv] at ht
        exact .inr (congrArg some ht)

/-- what the calls of a session with saving have in common -/
def SessionCall : Call → Prop
  | .load input _ rules => 0 ∉ input ∧ ListOf (lines input) rules ∧ ∀ r ∈ rules, r.WellFormed
  | .matches q => q.Web
  | .find q => q.Web
  | _ => True

theorem Book.Allows.sessionCall {E : Env} {b : Book} {x : Call} (h : b.Allows E x) : SessionCall x := by
  cases x with
  | load input pr rules => exact ⟨h.1, h.2.1, fun r hr => h.2.2.wellFormed r (by simp [hr])⟩
  | «matches» q => exact h.1
  | find q => exact h.1
  | clear => trivial
  | addTag t => trivial
  | removeTag t => trivial
  | tagExists t => trivial
  | enableBadFingerprintDetection => trivial

theorem Book.AllowsExact.sessionCall {E : Env} {b : Book} {x : Call} (h : b.AllowsExact E x) : SessionCall x := by
  cases x with
  | load input pr rules => exact ⟨h.1, h.2.1, fun r hr => h.2.2.wellFormed r (by simp [hr])⟩
  | «matches» q => exact h.1
  | find q => exact h.1
  | clear => trivial
  | addTag t => trivial
  | removeTag t => trivial
  | tagExists t => trivial
  | enableBadFingerprintDetection => trivial

/-- a session without saving becomes one with saving -/
theorem saved_session {E : Env} (hE : FixedBlooms E) (hb : ModerateBlooms E) {calls : List SavedCall} {as : List Answer} {c : Client E}
    (h1 : run (Client.fresh E) ((calls.filterMap SavedCall.call?).map Call.op) = .ok (as, c))
    (hall : ∀ x, .call x ∈ calls → SessionCall x) (hs : ∀ x ∈ calls, SavableCall x)
    (hl : ∀ pre post, calls = pre ++ .reload :: post → loadedBytes ((pre.filterMap SavedCall.call?).map Call.op) ≤ 20000000) :
    ∃ as' d, Session (Client.fresh E) (calls.map SavedCall.op) as' d ∧ Pointwise AlikeAnswer as as' := by
  have hops : ∀ l : List SavedCall, (l.map SavedCall.op).filterMap SaveOp.op? = (l.filterMap SavedCall.call?).map Call.op := by
    intro l
    induction l with
    | nil => rfl
    | cons x l ih =>
      cases x with
      | call c => simp [SavedCall.op, SavedCall.call?, SaveOp.op?, ih]
      | reload => exact ih
  rw [← hops] at h1
  exact C62_reloading_is_invisible_partial (E := E) (calls := calls.map SavedCall.op) (fun o ho => by
      obtain ⟨x, hx, e⟩ := List.mem_map.1 ho
      cases x with
      | reload => cases e
      | call x =>
        cases e
        have hb := hall x hx
        have hsx := hs _ hx
        cases x with
        | load input pr rules =>
          obtain ⟨h0, hl, hw⟩ := hb
          refine ⟨h0, fun fs hr => ?_⟩
          obtain ⟨gs, g1, g2⟩ := savable_reads E.bad hl (fun l hl h => h0 (mem_lines hl 0 h).1) hw hsx.texts hsx.domains hsx.regex
            (fun l hl => Nat.lt_of_le_of_lt (line_length hl) hsx.size) pr
          rw [reads_unique hr g1]
          exact g2
        | «matches» q => exact (web_url hb).2.2
        | find q => exact (web_url hb).2.2
        | clear => trivial
        | addTag t => trivial
        | removeTag t => trivial
        | tagExists t => trivial
        | enableBadFingerprintDetection => trivial) h1 (fun pre post e as c hc => by
      obtain ⟨p, q, rfl, rfl, e2⟩ := List.map_eq_append_iff.1 e
      cases q with
      | nil => cases e2
      | cons x q =>
        rw [List.map_cons, List.cons.injEq] at e2
        cases x with
        | call x => cases e2.1
        | reload =>
          rw [hops] at hc
          refine C67_fits hE hb (fun input pr hp => ?_) hc (hl p q rfl)
          obtain ⟨x, hx, e⟩ := List.mem_map.1 hp
          obtain ⟨y, hy, e'⟩ := List.mem_filterMap.1 hx
          cases y with
          | reload => cases e'
          | call y =>
            cases e'
            have hb := hall x (by simp [hy])
            cases x with
            | load input' pr' rules => cases e; exact hb.1
            | «matches» q => cases e
            | find q => cases e
            | clear => cases e
            | addTag t => cases e
            | removeTag t => cases e
            | tagExists t => cases e
            | enableBadFingerprintDetection => cases e)

/-- **C66**, under the restrictions of C59 and C35: whatever sequence of calls is made, and wherever
the client is saved and the session goes on with a new client that has loaded the data, no call runs
into undefined behaviour, and every answer is the one the specification derives from the text of the
rules (a rule that is reported being, after a reload, a copy with the same contents).  The lists that
are in a client when it is saved must not exceed 20 MB. -/
theorem C66_saved_session_partial (E : Env) (hE : FixedBlooms E) (hb : ModerateBlooms E) (calls : List SavedCall)
    (h : ({} : Book).AllowsAll E (calls.filterMap SavedCall.call?)) (hs : ∀ x ∈ calls, SavableCall x)
    (hl : ∀ pre post, calls = pre ++ .reload :: post → loadedBytes ((pre.filterMap SavedCall.call?).map Call.op) ≤ 20000000) :
    ∃ as as' d, ({} : Book).ExpectsAll (calls.filterMap SavedCall.call?) as ∧
      Session (Client.fresh E) (calls.map SavedCall.op) as' d ∧ Pointwise AlikeAnswer as as' := by
  have hall : ∀ (b : Book) (calls : List SavedCall), b.AllowsAll E (calls.filterMap SavedCall.call?) →
      ∀ x, .call x ∈ calls → SessionCall x := by
    intro b calls
    induction calls generalizing b with
    | nil => intro _ x hx; cases hx
    | cons y calls ih =>
      intro h x hx
      cases y with
      | call y =>
        rcases List.mem_cons.1 hx with e | hx
        · cases e; exact Book.Allows.sessionCall h.1
        · exact ih _ h.2 x hx
      | reload =>
        rcases List.mem_cons.1 hx with e | hx
        · cases e
        · exact ih _ h x hx
  obtain ⟨as, c, h1, h2⟩ := C59_session_partial E _ h
  obtain ⟨as', d, h3, h4⟩ := saved_session hE hb h1 (hall _ _ h) hs hl
  exact ⟨as, as', d, h2, h3, h4⟩

/-- **C66**, exactly: the same for all lists that can be loaded and saved, and for all web requests that can be
compared with their rules; the answers are those of the rules that count. -/
theorem C66_saved_session_exact (E : Env) (hE : FixedBlooms E) (hb : ModerateBlooms E) (calls : List SavedCall)
    (h : ({} : Book).AllowsAllExact E (calls.filterMap SavedCall.call?)) (hs : ∀ x ∈ calls, SavableCall x)
    (hl : ∀ pre post, calls = pre ++ .reload :: post → loadedBytes ((pre.filterMap SavedCall.call?).map Call.op) ≤ 20000000) :
    ∃ as as' d, ({} : Book).ExpectsAllExact E.bad (calls.filterMap SavedCall.call?) as ∧
      Session (Client.fresh E) (calls.map SavedCall.op) as' d ∧ Pointwise AlikeAnswer as as' := by
  have hall : ∀ (b : Book) (calls : List SavedCall), b.AllowsAllExact E (calls.filterMap SavedCall.call?) →
      ∀ x, .call x ∈ calls → SessionCall x := by
    intro b calls
    induction calls generalizing b with
    | nil => intro _ x hx; cases hx
    | cons y calls ih =>
      intro h x hx
      cases y with
      | call y =>
        rcases List.mem_cons.1 hx with e | hx
        · cases e; exact Book.AllowsExact.sessionCall h.1
        · exact ih _ h.2 x hx
      | reload =>
        rcases List.mem_cons.1 hx with e | hx
        · cases e
        · exact ih _ h x hx
  obtain ⟨as, c, h1, h2⟩ := C59_session_exact E _ h
  obtain ⟨as', d, h3, h4⟩ := saved_session hE hb h1 (hall _ _ h) hs hl
  exact ⟨as, as', d, h2, h3, h4⟩

private def savedCalls : List SavedCall :=
  [.call (.addTag bs%"track"), .call (.load exText true exRules), .reload, .call (.matches exScript), .reload, .call (.find exOk)]

theorem exSavable : SavableList exText exRules where
  texts := by decide +kernel
  domains := by
    intro r hr dl hdl
    simp only [exRules, List.mem_cons, List.not_mem_nil, or_false] at hr
    rcases hr with rfl | rfl | rfl | rfl | rfl
    · exact absurd ((show _ = none by decide +kernel).symm.trans hdl) (by simp)
    · exact absurd ((show _ = none by decide +kernel).symm.trans hdl) (by simp)
    · cases (show _ = some bs%"news.com|~blog.news.com" by decide +kernel).symm.trans hdl
      exact ⟨by decide, fun _ => by decide⟩
    · exact absurd ((show _ = none by decide +kernel).symm.trans hdl) (by simp)
    · exact absurd ((show _ = none by decide +kernel).symm.trans hdl) (by simp)
  regex := by decide +kernel
  size := Nat.lt_of_le_of_lt (show exText.length ≤ 1000 by decide +kernel) (by decide)

/-- the hypotheses of **C66** are met, and what it says about one session -/
example (E : Env) (hE : FixedBlooms E) (hb : ModerateBlooms E) (hbad : E.bad = [bs%"tracke"]) (hroll : ∀ url, E.fp.rolls url) :
    ∃ f1 f2 e2 d, Session (Client.fresh E) (savedCalls.map SavedCall.op)
      [.done, .done, .verdict true (some f1) none, .verdict false (some f2) (some e2)] d := by
  have hs : SoundList E.bad exRules := exSound
  have hc : ∀ q, Clear E.bad exRules q := fun q => hbad ▸ exClear q
  have ht : (0 : Byte) ∉ exText := by decide +kernel
  obtain ⟨w1, w2⟩ := exWeb
  obtain ⟨r1, r2⟩ := exRuleFalse
  obtain ⟨x1, x2⟩ := exRuleTrue
  obtain ⟨as, as', d, h2, h3, h4⟩ := C66_saved_session_partial E hE hb savedCalls
    ⟨trivial, ⟨ht, exList, hs⟩, ⟨w1, hc _, hroll _⟩, ⟨w2, hc _⟩, trivial⟩ (fun x hx => by
      simp only [savedCalls, List.mem_cons, List.not_mem_nil, or_false] at hx
      rcases hx with rfl | rfl | rfl | rfl | rfl | rfl
      · trivial
      · exact exSavable
      all_goals trivial) (fun pre post e => by
      have bound : ∀ p : List SavedCall, p <+: savedCalls → loadedBytes ((p.filterMap SavedCall.call?).map Call.op) ≤ 20000000 := by
        intro p hp
        obtain ⟨k, rfl⟩ : ∃ k, p = savedCalls.take k := ⟨_, (List.prefix_iff_eq_take.1 hp)⟩
        rcases k with _ | _ | _ | _ | _ | _ | k
        all_goals exact Nat.le_trans (show _ ≤ 1000 by
          first | decide +kernel | (rw [List.take_of_length_le (by simp [savedCalls])]; decide +kernel)) (by decide)
      exact bound pre ⟨_, e.symm⟩)
  obtain ⟨_, _, rfl, a1, _, _, rfl, a2, a3, _, rfl, b3, a4, _, rfl, b4, rfl⟩ := h2
  cases a1; cases a2
  cases a3 with
  | done => cases b3
  | bool _ => cases b3
  | verdict x f e =>
  cases a4 with
  | done => cases b4
  | bool _ => cases b4
  | verdict x' f' e' =>
  have k3 : exBook.Verdict exScript x f e := b3
  have k4 : exBook.Verdict exOk x' f' e' := b4
  obtain ⟨f1, rfl⟩ := Option.ne_none_iff_exists'.1 (k3.matched.2 r1)
  obtain ⟨f2, rfl⟩ := Option.ne_none_iff_exists'.1 (k4.matched.2 r2)
  obtain ⟨e2, rfl⟩ := Option.ne_none_iff_exists'.1 (k4.excepted.2 ⟨r2, x2⟩)
  have z1 : e = none := Classical.byContradiction fun h => x1 (k3.excepted.1 h).2
  have z3 : x = true := k3.blocked.2 ⟨r1, x1⟩
  have z5 : x' = false := by rw [← Bool.not_eq_true]; exact fun h => (k4.blocked.1 h).2 x2
  subst z1 z3 z5
  cases h4 with
  | cons q1 h4 => cases q1; cases h4 with
  | cons q2 h4 => cases q2; cases h4 with
  | cons q3 h4 => cases h4 with
  | cons q4 h4 =>
  cases h4
  cases q3 with
  | verdict p1 p2 =>
  cases q4 with
  | verdict p3 p4 =>
  cases p1; cases p2; cases p3; cases p4
  exact ⟨_, _, _, _, h3⟩

/-- there is such an environment -/
example : ∃ E : Env, FixedBlooms E ∧ ModerateBlooms E ∧ E.bad = [bs%"tracke"] ∧ ∀ url, E.fp.rolls url :=
  ⟨{ byteEnv with bad := [bs%"tracke"] }, fun _ _ => rfl, byteEnv_moderate, rfl, fun _ => trivial⟩

private def trickyCalls : List SavedCall :=
  [.call (.load exTrickyText false exTrickyRules), .reload, .call (.matches exTricky1), .call (.find exTricky4)]

/-- the hypotheses of the exact theorem are met by rules and requests that are excluded from the other one -/
example (E : Env) (hE : FixedBlooms E) (hb : ModerateBlooms E) (hroll : ∀ url, E.fp.rolls url) :
    ∃ as as' d, ({} : Book).ExpectsAllExact E.bad (trickyCalls.filterMap SavedCall.call?) as ∧
      Session (Client.fresh E) (trickyCalls.map SavedCall.op) as' d ∧ Pointwise AlikeAnswer as as' := by
  refine C66_saved_session_exact E hE hb trickyCalls ⟨⟨by decide +kernel, exTricky_list, exTricky_sound⟩,
    ⟨exTricky_web.1, exTricky_safe _, by simp [exTricky1], hroll _⟩, ⟨exTricky_web.2.2.2, exTricky_safe _⟩, trivial⟩ ?_ ?_
  · intro x hx
    simp only [trickyCalls, List.mem_cons, List.not_mem_nil, or_false] at hx
    rcases hx with rfl | rfl | rfl | rfl
    · refine ⟨by decide +kernel, fun r hr dl hd => ?_, by decide +kernel, Nat.lt_of_le_of_lt (show exTrickyText.length ≤ 1000 by decide +kernel) (by decide)⟩
      have : ∀ r ∈ exTrickyRules, ∀ dl ∈ (r.value bs%"domain=").toList, dl ≠ [] ∧ ¬ bs%"~#" <+: dl := by decide +kernel
      obtain ⟨h1, h2⟩ := this r hr dl (by rw [hd]; simp)
      exact ⟨h1, fun _ => h2⟩
    all_goals trivial
  · intro pre post e
    have : loadedBytes (([SavedCall.call (.load exTrickyText false exTrickyRules)].filterMap SavedCall.call?).map Call.op) ≤ 20000000 :=
      Nat.le_trans (show exTrickyText.length + 1 ≤ 1000 by decide +kernel) (by decide)
    rcases pre with _ | ⟨a, _ | ⟨b, _ | ⟨c, _ | ⟨d, pre⟩⟩⟩⟩ <;> simp [trickyCalls] at e
    obtain ⟨rfl, -⟩ := e
    simpa [loadedBytes, loadedAfter, Call.op, SavedCall.call?] using this

end AdBlock
