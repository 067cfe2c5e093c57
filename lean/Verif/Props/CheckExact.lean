import Verif.SpecCheckExact
import Verif.Props.Check
import Verif.Props.NodeTextExact
/-
C72 exactly: what scripts/check.js answers for all lists that can be loaded, with the rules that count.
-/
namespace AdBlock
open Spec

theorem some_page {a : CheckArgs} {q : Request} {P : Prop} (h : ∃ page, q.domain = some page ∧ page ≠ [] ∧ a.host = some page)
    (hn : q.domain = none) : P := by
  obtain ⟨page, hd, -⟩ := h
  rw [hn] at hd
  cases hd

/-- **C72** exactly: asked about a request, the tool says that it is to be blocked exactly if a rule in the text that counts
applies to it and no exception that counts does. -/
theorem C72_verdict_exact (E : Env) (w : World) {a : CheckArgs} {src : RuleSource} (hsrc : Chooses a src) {text : Bytes} (ht : TextAt w src text)
    (h0 : 0 ∉ text) {rs : List RuleText} (hs : SoundList E.bad rs) (hl : ListOf (Spec.lines text) rs)
    {q : Request} (ha : Asks a q) (hq : q.Web) (hsafe : Spec.Comparable rs q) (hroll : E.fp.rolls q.url) :
    ∃ b st wr, check E w a = .ok (some { output := .verdict b st, written := wr }) ∧ (b = true ↔ BlockedExactly E.bad rs q) ∧
      (Absent a.output → wr = none) ∧ ∀ path, Given a.output path → ∃ data, wr = some (path, data) := by
  obtain ⟨c, h1, h2⟩ := C59_text_exact E rs hs text h0 hl a.keepRuleText
  obtain ⟨o, ho, hb⟩ := h2 [] q hq hsafe (some_page ha.host) hroll
  have hc : checkClient E w a = some (.ok (some c)) := by
    rw [C72_source E w (asks_purposeful ha) hsrc ht, h1]; rfl
  obtain ⟨gs, hg, -⟩ := C20_arrays_filled h1
  have hist : History E { c with stats := o.stats, badFps := o.badFps } ([] ++ gs) := .query (.parse .new h0 h1 hg) (b := o.block) (by
    unfold Client.matches; rw [show c.query q.url q.context q.domain = .ok o from ho]; rfl)
  obtain ⟨wr, k1, k2, k3⟩ := writes_ok hist a.output
  refine ⟨o.block, o.stats, wr, check_of_client hc ha.plain.1 (questions_one ha hq ho) k1, hb, k2, fun path hp => ?_⟩
  obtain ⟨s, -, e⟩ := k3 path hp
  exact ⟨_, e⟩

/-- **C72** exactly, for a file with addresses: the tool tells how many of them are to be blocked, and how many are not. -/
theorem C72_list_exact (E : Env) (w : World) {a : CheckArgs} {src : RuleSource} (hsrc : Chooses a src) {text : Bytes} (ht : TextAt w src text)
    (h0 : 0 ∉ text) {rs : List RuleText} (hs : SoundList E.bad rs) (hl : ListOf (Spec.lines text) rs)
    {qs : List Request} (ha : AsksAll w a qs) (hq : ∀ q ∈ qs, q.Web ∧ Spec.Comparable rs q ∧ E.fp.rolls q.url) :
    ∃ n st wr, check E w a = .ok (some { output := .counts n st, written := wr }) ∧
      n.matching = howMany (BlockedExactly E.bad rs) qs ∧ n.skipped = howMany (fun q => ¬ BlockedExactly E.bad rs q) qs ∧
      (Absent a.output → wr = none) ∧ ∀ path, Given a.output path → ∃ data, wr = some (path, data) := by
  obtain ⟨c, h1, h2⟩ := C59_text_exact E rs hs text h0 hl a.keepRuleText
  obtain ⟨file, sites, hgl, hread, hsplit⟩ := ha.list
  obtain ⟨page, hne, hh, hdom⟩ := ha.host
  have hc : checkClient E w a = some (.ok (some c)) := by
    rw [C72_source E w (.inr ⟨⟨page, hh, hne⟩, .inr ⟨_, hgl⟩⟩) hsrc ht, h1]; rfl
  generalize hm : int32Argument (checkFilterOption a.filterOption) = m
  have each : ∀ q ∈ qs, ∃ o, c.query q.url m (some page) = .ok o ∧ (o.block = true ↔ BlockedExactly E.bad rs q) := by
    intro q hmem
    obtain ⟨o, ho, hb⟩ := h2 [] q (hq q hmem).1 (hq q hmem).2.1 (by rw [hdom q hmem]; intro h; cases h) (hq q hmem).2.2
    rw [hdom q hmem, ← says_type (hq q hmem).1 (ha.type q hmem), hm] at ho
    exact ⟨o, ho, hb⟩
  obtain ⟨bs, c', h3⟩ := askAll_total (sites := qs.map Request.url) (c := c) (option := m) (page := page) fun site hsite => by
    obtain ⟨q, hmem, rfl⟩ := List.mem_map.1 hsite
    obtain ⟨o, ho, -⟩ := each q hmem
    exact ⟨_, o, ho, rfl⟩
  obtain ⟨n, h4⟩ := checkList_of_askAll h3 {}
  obtain ⟨bs', h5, h6⟩ := checkList_counts h4
  rw [h3] at h5
  cases h5
  obtain ⟨-, hj, hhist⟩ := askAll_ok h3
  obtain ⟨k1, k2⟩ := pointwise_judged hj each
  obtain ⟨gs, hg, -⟩ := C20_arrays_filled h1
  obtain ⟨wr, e1, e2, e3⟩ := writes_ok (hhist _ (.parse .new h0 h1 hg)) a.output
  have hques : c.checkQuestions w a = .ok (some (.counts n c'.stats, c')) := by
    unfold Client.checkQuestions
    rw [whenTruthy_absent.2 ha.location, ha.plain.2, hm, hgl.1]
    simp only [Option.bind_some, hread, Bool.false_eq_true, if_false, CheckArgs.page, hh, pageArgument, hsplit, h4, Res.bind_ok]
    rfl
  refine ⟨n, c'.stats, wr, check_of_client hc ha.plain.1 hques e1, ?_, ?_, e2, fun path hp => ?_⟩
  · rw [h6]; simpa using k1
  · rw [h6]; simpa using k2
  · obtain ⟨s, -, e⟩ := e3 path hp
    exact ⟨_, e⟩

/-- **C72** exactly, with the restrictions of C66 on what can be saved: the file written with `--output` serves for `--dat` in another
run, which then answers every request as the text of the rules says. -/
theorem C72_saved_exact (E : Env) (hE : FixedBlooms E) (hm : ModerateBlooms E) (w : World) {a : CheckArgs} {src : RuleSource} (hsrc : Chooses a src)
    {text : Bytes} (ht : TextAt w src text) (h0 : 0 ∉ text) {rs : List RuleText} (hs : SoundList E.bad rs) (hl : ListOf (Spec.lines text) rs)
    (hsave : SavableList text rs) (hsize : text.length < 20000000)
    {q : Request} (ha : Asks a q) (hq : q.Web) (hsafe : Spec.Comparable rs q) (hroll : E.fp.rolls q.url) {path : Bytes} (hpath : Given a.output path) :
    ∃ out data, check E w a = .ok (some { output := out, written := some (path, data) }) ∧
      ∀ (w' : World) (a' : CheckArgs), w'.readFile path = some data → Absent a'.uuid → Given a'.dat path →
        ∀ q' : Request, Asks a' q' → q'.Web → Spec.Comparable rs q' → E.fp.rolls q'.url →
          ∃ b st wr, check E w' a' = .ok (some { output := .verdict b st, written := wr }) ∧ (b = true ↔ BlockedExactly E.bad rs q') ∧
            (Absent a'.output → wr = none) ∧ ∀ path, Given a'.output path → ∃ data, wr = some (path, data) := by
  obtain ⟨c, h1, h2⟩ := C59_text_exact E rs hs text h0 hl a.keepRuleText
  obtain ⟨o, ho, hb⟩ := h2 [] q hq hsafe (some_page ha.host) hroll
  have ho : c.query q.url q.context q.domain = .ok o := ho
  have hc : checkClient E w a = some (.ok (some c)) := by
    rw [C72_source E w (asks_purposeful ha) hsrc ht, h1]; rfl
  obtain ⟨gs, hg, -⟩ := C20_arrays_filled h1
  have hist : History E { c with stats := o.stats, badFps := o.badFps } ([] ++ gs) := .query (.parse .new h0 h1 hg) (b := o.block) (by
    unfold Client.matches; rw [ho]; rfl)
  obtain ⟨wr, k1, k2, k3⟩ := writes_ok hist a.output
  obtain ⟨s, e, rfl⟩ := k3 path hpath
  refine ⟨_, s.buffer, check_of_client hc ha.plain.1 (questions_one ha hq ho) k1, fun w' a' hread hu hdat q' ha' hq' hsafe' hroll' => ?_⟩
  obtain ⟨as, as', d, g1, g2, g3⟩ := C66_saved_session_exact E hE hm [.call (.load text a.keepRuleText rs), .call (.matches q), .reload, .call (.matches q'), .reload]
    ⟨⟨h0, hl, hs⟩, ⟨hq, hsafe, some_page ha.host, hroll⟩, ⟨hq', hsafe', some_page ha'.host, hroll'⟩, trivial⟩ (fun x hx => by
      simp only [List.mem_cons, List.not_mem_nil, or_false] at hx
      rcases hx with rfl | rfl | rfl | rfl | rfl
      · exact hsave
      all_goals trivial) (fun pre post e => by
      have : pre = [.call (.load text a.keepRuleText rs), .call (.matches q)] ∨
          pre = [.call (.load text a.keepRuleText rs), .call (.matches q), .reload, .call (.matches q')] := by
        rcases pre with _ | ⟨x, _ | ⟨y, _ | ⟨z, _ | ⟨u, _ | ⟨v, pre⟩⟩⟩⟩⟩
        · cases e
        · cases e
        · cases e; exact .inl rfl
        · cases e
        · cases e; exact .inr rfl
        · simp at e
      rcases this with rfl | rfl
      all_goals
        show 0 + (text.length + 1) ≤ 20000000
        omega)
  obtain ⟨_, _, rfl, a1, _, _, rfl, a2, a3, _, rfl, b3, rfl⟩ := g1
  cases g2 with
  | op s1 g2 =>
  cases g2 with
  | op s2 g2 =>
  cases g2 with
  | reload s3 s4 g2 =>
  cases g2 with
  | op s5 g2 =>
  cases g2 with
  | reload s6 _ _ =>
  simp only [Call.op, step] at s1 s2 s5
  rw [h1] at s1
  cases s1
  rw [ho] at s2
  cases s2
  rw [e] at s3
  cases s3
  have htags : c.tags = [] := parse_tags h1
  rw [show ({ c with stats := o.stats, badFps := o.badFps } : Client E).tags = c.tags from rfl, htags] at s4
  obtain ⟨o', ho', s5⟩ := Res.map_eq_ok.1 s5
  cases s5
  cases g3 with
  | cons _ g3 =>
  cases g3 with
  | cons _ g3 =>
  cases g3 with
  | cons t3 g3 =>
  cases t3 with
  | verdict _ _ =>
  have hv : ({ rules := rs } : Book).ExactVerdict (Counted E.bad rs q') q' o'.block _ _ := b3
  obtain ⟨wr, hwr, k4, k5⟩ := writes_of_serialize s6 a'.output
  exact ⟨_, _, wr, check_of_client (client_of_data ha' hu hdat hread s4) ha'.plain.1 (questions_one ha' hq' ho') hwr, hv.blocked, k4, k5⟩

/-- **C72** exactly, with `--discover`: asked about a request, the tool shows a rule and an exception that count and apply to it, unless
it comes upon a rule that consists of a host … -/
theorem C72_discover_exact (E : Env) (w : World) {a : CheckArgs} {src : RuleSource} (hsrc : Chooses a src) {text : Bytes} (ht : TextAt w src text)
    (h0 : 0 ∉ text) {rs : List RuleText} (hs : SoundList E.bad rs) (hl : ListOf (Spec.lines text) rs)
    {q : Request} (ha : AsksWhy a q) (hq : q.Web) (hsafe : Spec.Comparable rs q) (hno : ¬ FindsHost E.bad { rules := rs } q) :
    ∃ keep d st wr, check E w a = .ok (some { output := .found d st, written := wr }) ∧
      (keep = true ↔ Absent a.dat) ∧ TellsExactly keep { rules := rs } q d ∧
      (Absent a.output → wr = none) ∧ ∀ path, Given a.output path → ∃ data, wr = some (path, data) := by
  obtain ⟨c, h1, h2⟩ := C61_text_exact E rs hs text h0 hl a.keepRuleText
  obtain ⟨page, hd, hne, hh⟩ := ha.host
  obtain ⟨d, h3, h4⟩ := (h2 [] q page hq hsafe hd).1 hno
  have h3 : c.nodeFind q.url q.context (some page) = .ok d := h3
  have hc : checkClient E w a = some (.ok (some c)) := by
    rw [C72_source E w (.inr ⟨⟨page, hh, hne⟩, .inl ⟨_, ha.location, url_ne_nil q⟩⟩) hsrc ht, h1]; rfl
  obtain ⟨gs, hg, -⟩ := C20_arrays_filled h1
  obtain ⟨wr, k1, k2, k3⟩ := writes_ok (.parse .new h0 h1 hg) a.output
  have hques : c.checkQuestions w a = .ok (some (.found d c.stats, c)) := by
    unfold Client.checkQuestions
    rw [whenTruthy_given.2 ⟨ha.location, url_ne_nil q⟩, ha.discover.2, hh, says_type hq ha.type]
    simp only [if_true, h3, Res.bind_ok]
    rfl
  refine ⟨a.keepRuleText, d, c.stats, wr, check_of_client hc ha.discover.1 hques k1, ?_, h4, k2, fun path hp => ?_⟩
  · rw [← whenTruthy_absent, CheckArgs.keepRuleText, ha.discover.2, Bool.true_and, Option.isNone_iff_eq_none]
  · obtain ⟨s, -, e⟩ := k3 path hp
    exact ⟨_, e⟩

/-- … and exactly then the tool reads memory beyond the text of this rule. -/
theorem C72_discover_host_counterexample (E : Env) (w : World) {a : CheckArgs} {src : RuleSource} (hsrc : Chooses a src) {text : Bytes} (ht : TextAt w src text)
    (h0 : 0 ∉ text) {rs : List RuleText} (hs : SoundList E.bad rs) (hl : ListOf (Spec.lines text) rs)
    {q : Request} (ha : AsksWhy a q) (hq : q.Web) (hsafe : Spec.Comparable rs q) (hhost : FindsHost E.bad { rules := rs } q) :
    check E w a = .ub .oobRead := by
  obtain ⟨c, h1, h2⟩ := C61_text_exact E rs hs text h0 hl a.keepRuleText
  obtain ⟨page, hd, hne, hh⟩ := ha.host
  have h3 : c.nodeFind q.url q.context (some page) = .ub .oobRead := (h2 [] q page hq hsafe hd).2 hhost
  have hc : checkClient E w a = some (.ok (some c)) := by
    rw [C72_source E w (.inr ⟨⟨page, hh, hne⟩, .inl ⟨_, ha.location, url_ne_nil q⟩⟩) hsrc ht, h1]; rfl
  have hques : c.checkQuestions w a = .ub .oobRead := by
    unfold Client.checkQuestions
    rw [whenTruthy_given.2 ⟨ha.location, url_ne_nil q⟩, ha.discover.2, hh, says_type hq ha.type]
    simp only [if_true, h3]
    rfl
  unfold check
  rw [hc]
  simp only [Res.bind_ok, ha.discover.1, Bool.false_eq_true, if_false, hques]
  rfl

/-! ### Examples -/

/-- `check.js --filter '||ads.com^' --host news.com --location … --discover` or without `--discover` -/
private def exHostCheck (discover : Bool) : CheckArgs :=
  { filter := some bs%"||ads.com^", host := some bs%"news.com", location := some exShown.url, filterOption := some bs%"image", discover := discover }

private def exNowhere : World := { fetch := fun _ => none, readFile := fun _ => none }

/-- The rule blocks the image; with `--discover` the tool reads beyond its text. -/
example (E : Env) (hroll : ∀ url, E.fp.rolls url) : (∃ st, check E exNowhere (exHostCheck false) = .ok (some { output := .verdict true st })) ∧
    check E exNowhere (exHostCheck true) = .ub .oobRead := by
  have hp : ∀ r ∈ [exAll], plainRule r = true := by decide +kernel
  have hl := lists_rules (E := E) (plainRules_sound hp) (by simp)
  have safe := plainRules_safe hp exShown_web
  have applies : exAll.AppliesTo [] exShown := (applies_compared (v := true) (hp _ (by simp)) exShown_web (by decide +kernel) (by decide +kernel) []).2 rfl
  have whole : HostCounted [exAll] exShown exAll := fun _ => ⟨⟨[], [], rfl, by simp⟩, .inr (by decide +kernel)⟩
  have type : SaysType (some bs%"image") exShown.type := ⟨bs%"image", FOImage, rfl, by decide +kernel, by decide +kernel⟩
  constructor
  · obtain ⟨b, st, wr, h1, h2, h3, -⟩ := C72_verdict_exact E exNowhere (a := exHostCheck false)
      (.text (.inl rfl) (.inl rfl) (.inl rfl) ⟨rfl, by decide⟩) .text hl.noNul hl.sound hl.rules (q := exShown)
      ⟨rfl, ⟨_, rfl, by decide, rfl⟩, type, rfl, rfl⟩ exShown_web safe (hroll _)
    have e1 : b = true := h2.2 ⟨⟨exAll, by simp, rfl, ⟨whole, fun dl h => (by cases h.1), fun dl h => (by cases h.1)⟩, applies⟩, by
      rintro ⟨r, hr, he, -⟩
      rw [List.mem_singleton.1 hr] at he
      cases he⟩
    have e2 : wr = none := h3 (.inl rfl)
    subst e1 e2
    exact ⟨st, h1⟩
  · exact C72_discover_host_counterexample E exNowhere (.text (.inl rfl) (.inl rfl) (.inl rfl) ⟨rfl, by decide⟩) .text hl.noNul hl.sound hl.rules
      (q := exShown) ⟨rfl, ⟨_, rfl, by decide, rfl⟩, type, rfl, rfl⟩ exShown_web safe (.inl ⟨⟨exAll, by simp, rfl, ⟨by decide +kernel, whole⟩, applies⟩, by
        rintro ⟨r, hr, -, hn, -⟩
        exact hn (by rw [List.mem_singleton.1 hr]; decide +kernel)⟩)

end AdBlock
